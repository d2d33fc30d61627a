import Verif.Geometry.Model
import Verif.Floating.Model

/-!
# The geometry of the mesh in rounded arithmetic (src/TychoMesh.cc)

The functions of `Verif.Geometry.Model` with a rounding after every operation. `rnd` takes an exact
result to the machine number nearby. Overflow, underflow and contraction (a product and a sum rounded
once) are not modelled. Negation, `fabs` and comparisons are exact.
-/
namespace Verif.Rounding

open Verif.Geometry

/-- A rounding function with relative error at most `u` that does not depend on the sign: for `double`
in the default rounding mode `u` is 2^-53. -/
structure Rounds (u : ℝ) (rnd : ℝ → ℝ) : Prop where
  small : 0 ≤ u ∧ u < 1
  odd : ∀ x, rnd (-x) = -rnd x
  near : ∀ x, |rnd x - x| ≤ u * |x|

variable (rnd : ℝ → ℝ)

/-- `getCrossProduct` (src/TychoMesh.cc:53-58). -/
def rcross (a b : Pt) : Pt :=
  ![rnd (rnd (a 1 * b 2) - rnd (a 2 * b 1)), rnd (rnd (a 2 * b 0) - rnd (a 0 * b 2)), rnd (rnd (a 0 * b 1) - rnd (a 1 * b 0))]

/-- `c[i] - c[j]`, componentwise. -/
def rsub (a b : Pt) : Pt := fun k => rnd (a k - b k)

/-- The three-term products `x[0]*y[0] + x[1]*y[1] + x[2]*y[2]`, added from left to right. -/
def rdot (a b : Pt) : ℝ := rnd (rnd (rnd (a 0 * b 0) + rnd (a 1 * b 1)) + rnd (a 2 * b 2))

/-- The norm of the cross product (src/TychoMesh.cc:148-150). -/
noncomputable def rnorm (c : Pt) : ℝ := rnd (√(rdot rnd c c))

/-- `getTriangleArea` (src/TychoMesh.cc:67-86). -/
noncomputable def rarea (q : Fin 3 → Pt) : ℝ :=
  rnd (0.5 * rnorm rnd (rcross rnd (rsub rnd (q 1) (q 0)) (rsub rnd (q 2) (q 0))))

/-- `getTetVolume` (src/TychoMesh.cc:95-117). -/
noncomputable def rvolume (p : Fin 4 → Pt) : ℝ :=
  rnd (rnd (1.0 / 6.0) * |rdot rnd (rcross rnd (rsub rnd (p 1) (p 0)) (rsub rnd (p 2) (p 0))) (rsub rnd (p 3) (p 0))|)

open Classical in
/-- `getNormal` (src/TychoMesh.cc:124-187). `none`: the norm is zero and the components are not numbers, or
the search runs past the end of the array. -/
noncomputable def rnormal (q : Fin 3 → Pt) (p : Fin 4 → Pt) : Option Pt :=
  let c := rcross rnd (rsub rnd (q 1) (q 0)) (rsub rnd (q 2) (q 0))
  let norm := rnorm rnd c
  if norm = 0 then none else
    let normal : Pt := fun k => rnd (c k / norm)
    match oppositeIndex q p with
    | none => none
    | some i => if rdot rnd normal (rsub rnd (p i) (q 0)) > 0 then some fun k => -normal k else some normal

/-- One entry of `c_omegaDotN` (src/TychoMesh.cc:214-222). -/
noncomputable def romega (omega : Pt) (q : Fin 3 → Pt) (p : Fin 4 → Pt) : Option ℝ :=
  (rnormal rnd q p).map fun n => rdot rnd omega n

/-- The geometry of the machine functions `K` is computed in rounded arithmetic for the directions `dirs`. -/
structure Computes {nA nG : Nat} (rnd : ℝ → ℝ) (dirs : Nat → Pt) (K : Verif.Floating.Kernel ℝ nA nG) : Prop where
  volume : K.volume = rvolume rnd
  area : K.area = rarea rnd
  omegaDotN : K.omegaDotN = fun a => romega rnd (dirs a)
  positive : ∀ x, K.positive x = true ↔ 0 < x

end Verif.Rounding
