import Mathlib.Analysis.Real.Sqrt
import Mathlib.Data.Fin.VecNotation

/-!
# Cell geometry (src/TychoMesh.cc)

Coordinates are real numbers (the code uses doubles; rounding is not modelled). Cell points are
`Fin 4 → Fin 3 → ℝ`, face points `Fin 3 → Fin 3 → ℝ`, both indexed (point, dimension) as in the
`c[vertex][dim]` arrays.
-/
namespace Verif.Geometry

abbrev Pt := Fin 3 → ℝ

/-- `getCrossProduct` (src/TychoMesh.cc:53-58). -/
def cross (a b : Pt) : Pt :=
  ![a 1 * b 2 - a 2 * b 1, a 2 * b 0 - a 0 * b 2, a 0 * b 1 - a 1 * b 0]

/-- `c[i] - c[j]`, componentwise. -/
def sub (a b : Pt) : Pt := ![a 0 - b 0, a 1 - b 1, a 2 - b 2]

/-- The three-term products `x[0]*y[0] + x[1]*y[1] + x[2]*y[2]` of the file. -/
def dot (a b : Pt) : ℝ := a 0 * b 0 + a 1 * b 1 + a 2 * b 2

/-- `getTriangleArea` (src/TychoMesh.cc:68-86). -/
noncomputable def triangleArea (q : Fin 3 → Pt) : ℝ :=
  let a := sub (q 1) (q 0)
  let b := sub (q 2) (q 0)
  let c := cross a b
  0.5 * √(c 0 * c 0 + c 1 * c 1 + c 2 * c 2)

/-- `getTetVolume` (src/TychoMesh.cc:96-117). -/
noncomputable def tetVolume (p : Fin 4 → Pt) : ℝ :=
  let a := sub (p 1) (p 0)
  let b := sub (p 2) (p 0)
  let c := sub (p 3) (p 0)
  let x := cross a b
  1.0 / 6.0 * |x 0 * c 0 + x 1 * c 1 + x 2 * c 2|

open Classical in
/-- The search loop for the cell point that is not a face point (src/TychoMesh.cc:159-172).
`none`: the loop runs off the end (`vertIndex = 4`) and the code reads past the array. -/
noncomputable def oppositeIndex (q : Fin 3 → Pt) (p : Fin 4 → Pt) : Option (Fin 4) :=
  (List.finRange 4).find? fun i =>
    decide (¬ ∃ v, p i 0 = q v 0 ∧ p i 1 = q v 1 ∧ p i 2 = q v 2)

open Classical in
/-- `getNormal` (src/TychoMesh.cc:125-187). `none` when the code divides by a zero norm or reads
past the end of the point array. -/
noncomputable def getNormal (q : Fin 3 → Pt) (p : Fin 4 → Pt) : Option Pt :=
  let a := sub (q 1) (q 0)
  let b := sub (q 2) (q 0)
  let c := cross a b
  let norm := √(c 0 * c 0 + c 1 * c 1 + c 2 * c 2)
  if norm = 0 then none else
    let normal : Pt := ![c 0 / norm, c 1 / norm, c 2 / norm]
    match oppositeIndex q p with
    | none => none
    | some i =>
      let dotProduct := normal 0 * (p i 0 - q 0 0) + normal 1 * (p i 1 - q 0 1)
        + normal 2 * (p i 2 - q 0 2)
      if dotProduct > 0 then some ![-normal 0, -normal 1, -normal 2] else some normal

/-- One entry of `c_omegaDotN` (src/TychoMesh.cc:214-222). -/
noncomputable def omegaDotN (omega : Pt) (q : Fin 3 → Pt) (p : Fin 4 → Pt) : Option ℝ :=
  (getNormal q p).map fun n => omega 0 * n 0 + omega 1 * n 1 + omega 2 * n 2

/-- `getFaceVrtxCoords` for a face whose face-vertex table row is `f2c`
(src/TychoMesh.cc:283-295). -/
def facePoints (p : Fin 4 → Pt) (f2c : Fin 3 → Fin 4) : Fin 3 → Pt := fun v => p (f2c v)

end Verif.Geometry
