import Verif.Rounding.Model
import Verif.Transport.Model

/-!
# The within-cell solve in rounded arithmetic (src/Transport.cc)

The functions of `Verif.Transport.Model` with a rounding after every operation. Products, quotients, sums
and differences are rounded in the order of the source text; comparisons and `fabs` are exact. Overflow,
underflow and contraction are not modelled. Of the four solvers only `GaussElim_Original` is here.
-/
namespace Verif.Rounding

open Verif.Transport

/-- `calcSource` (src/Transport.cc:58-72). -/
noncomputable def rsource (rnd : ℝ → ℝ) (volume : ℝ) (q : Vec4 ℝ) : Vec4 ℝ := fun i =>
  let v := rnd (volume / 20)
  match i with
  | 0 => rnd (v * rnd (rnd (rnd (rnd (2 * q 0) + q 1) + q 2) + q 3))
  | 1 => rnd (v * rnd (rnd (rnd (q 0 + rnd (2 * q 1)) + q 2) + q 3))
  | 2 => rnd (v * rnd (rnd (rnd (q 0 + q 1) + rnd (2 * q 2)) + q 3))
  | 3 => rnd (v * rnd (rnd (rnd (q 0 + q 1) + q 2) + rnd (2 * q 3)))

/-- The factor in front of a mass term: twice on the diagonal. -/
def twice (i j : Fin 4) : ℝ := if i = j then 2 else 1

/-- One entry after `calcVolumeIntegrals` (src/Transport.cc:79-103). -/
noncomputable def rvolumeIntegrals (rnd : ℝ → ℝ) (volume : ℝ) (area : Vec4 ℝ) (sigma : ℝ) : Mat4 ℝ := fun i j =>
  rnd (rnd (area i / 12) + rnd (rnd (rnd (twice i j * sigma) * volume) / 20))

/-- One entry after `calcOutgoingFlux` (src/Transport.cc:110-168). The code has nine additions for each
outgoing face, to the entries with both indices off the face number; they are collected here by entry, in
the order of the faces. -/
noncomputable def routgoing (rnd : ℝ → ℝ) (area : Vec4 ℝ) (M : Mat4 ℝ) : Mat4 ℝ := fun i j =>
  (List.finRange 4).foldl (fun x f =>
    if area f > 0 ∧ i ≠ f ∧ j ≠ f then rnd (x + rnd (rnd (twice i j * area f) / 12)) else x) (M i j)

/-- One entry after `calcIncomingFlux` (src/Transport.cc:175-271). The code has nine subtractions for each
incoming face, three from each entry off the face number; they are collected here by entry, in the order of
the faces and of the vertices of the face. -/
noncomputable def rincoming (rnd : ℝ → ℝ) (c2f : Fin 4 → Fin 4 → Fin 3) (lpb : Fin 3 → Fin 4 → ℝ) (area b : Vec4 ℝ) : Vec4 ℝ := fun i =>
  (List.finRange 4).foldl (fun x f =>
    if area f < 0 ∧ i ≠ f then
      (List.finRange 4).foldl (fun x v =>
        if v ≠ f then rnd (x - rnd (rnd (rnd (twice i v * area f) / 12) * lpb (c2f f v) f)) else x) x
    else x) (b i)

/-! ## `gaussElim4`, option Original (src/Transport.cc:284-334) -/

/-- src/Transport.cc:312-313 -/
noncomputable def rscaleBelow (rnd : ℝ → ℝ) (column : Fin 4) (A : Mat4 ℝ) : Mat4 ℝ :=
  (below column).foldl (fun A row => set2 A row column (rnd (A row column * A column column))) A

/-- src/Transport.cc:315-318 -/
noncomputable def rupdateNext (rnd : ℝ → ℝ) (column next : Fin 4) (A : Mat4 ℝ) : Mat4 ℝ :=
  ((List.finRange 4).filter (· ≤ column)).foldl
    (fun A column2 => (below column2).foldl
      (fun A row => set2 A row next (rnd (A row next - rnd (A row column2 * A column2 next)))) A) A

/-- src/Transport.cc:309-318 -/
noncomputable def relimCore (rnd : ℝ → ℝ) (column next : Fin 4) (A : Mat4 ℝ) : Mat4 ℝ :=
  rupdateNext rnd column next (rscaleBelow rnd column (set2 A column column (rnd (1 / A column column))))

open Classical in
/-- One pass of the loop over columns (src/Transport.cc:287-319). -/
noncomputable def relimStep (rnd : ℝ → ℝ) (column next : Fin 4) (s : Mat4 ℝ × Vec4 ℝ) : Option (Mat4 ℝ × Vec4 ℝ) :=
  let rowmax := pivotSearch s.1 column
  let s' := if rowmax ≠ column then (swapRows s.1 rowmax column, swapEntries s.2 rowmax column) else s
  if s'.1 column column = 0 then none else some (relimCore rnd column next s'.1, s'.2)

/-- Forward substitution (src/Transport.cc:324-327). -/
noncomputable def rforward (rnd : ℝ → ℝ) (A : Mat4 ℝ) (b : Vec4 ℝ) : Vec4 ℝ :=
  [0, 1, 2].foldl (fun b column => (below column).foldl
    (fun b row => set1 b row (rnd (b row - rnd (A row column * b column)))) b) b

/-- Backward substitution (src/Transport.cc:329-333). -/
noncomputable def rback (rnd : ℝ → ℝ) (A : Mat4 ℝ) (b : Vec4 ℝ) : Vec4 ℝ :=
  [3, 2, 1, 0].foldl (fun b column =>
    let b := set1 b column (rnd (b column * A column column))
    (aboveDown column).foldl (fun b row => set1 b row (rnd (b row - rnd (A row column * b column)))) b) b

open Classical in
/-- `gaussElim4` with `GaussElim_Original` (src/Transport.cc:284-334). -/
noncomputable def rgauss (rnd : ℝ → ℝ) (A : Mat4 ℝ) (b : Vec4 ℝ) : Option (Vec4 ℝ) := do
  let s ← relimStep rnd 0 1 (A, b)
  let s ← relimStep rnd 1 2 s
  let s ← relimStep rnd 2 3 s
  if s.1 3 3 = 0 then none else
    let A := set2 s.1 3 3 (rnd (1 / s.1 3 3))
    some (rback rnd A (rforward rnd A s.2))

/-- `area[face]` (src/Transport.cc:697-704). -/
noncomputable def rsigned (rnd : ℝ → ℝ) (faceArea dots : Vec4 ℝ) : Vec4 ℝ := fun f => rnd (faceArea f * dots f)

/-- One group of `Transport::solve` (src/Transport.cc:687-733), of what `SweepData::update` hands to it. -/
noncomputable def rsolve (rnd : ℝ → ℝ) (volume : ℝ) (faceArea dots : Vec4 ℝ) (sigma : ℝ) (c2f : Fin 4 → Fin 4 → Fin 3)
    (lpb : Fin 3 → Fin 4 → ℝ) (q : Vec4 ℝ) : Option (Vec4 ℝ) :=
  let area := rsigned rnd faceArea dots
  rgauss rnd (routgoing rnd area (rvolumeIntegrals rnd volume area sigma)) (rincoming rnd c2f lpb area (rsource rnd volume q))

end Verif.Rounding
