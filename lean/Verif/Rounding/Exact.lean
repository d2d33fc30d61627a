import Verif.Rounding.Solve
import Mathlib.Tactic.FinCases
import Mathlib.Tactic.Ring

/-!
# Without rounding the rounded model is the exact one

A check of `Verif.Rounding.Solve` against the transcription in `Verif.Transport.Model`.
-/
namespace Verif.Rounding

open Verif.Transport

theorem rsource_id (V : ℝ) (q : Vec4 ℝ) : rsource id V q = calcSource V q := by
  funext i
  fin_cases i <;> rfl

theorem rvolumeIntegrals_id (V : ℝ) (area : Vec4 ℝ) (σ : ℝ) : rvolumeIntegrals id V area σ = calcVolumeIntegrals V area σ := by
  funext i j
  fin_cases i <;> fin_cases j <;> simp [rvolumeIntegrals, calcVolumeIntegrals, twice]

theorem relimCore_id (c n : Fin 4) (A : Mat4 ℝ) : relimCore id c n A = elimCore c n A := rfl

theorem relimStep_id (c n : Fin 4) (s : Mat4 ℝ × Vec4 ℝ) : relimStep id c n s = elimStep c n s := by
  unfold relimStep elimStep
  simp only [relimCore_id]

theorem rgauss_id (A : Mat4 ℝ) (b : Vec4 ℝ) : rgauss id A b = solveOriginal A b := by
  unfold rgauss solveOriginal
  simp only [relimStep_id]
  rfl

set_option maxHeartbeats 2000000 in
theorem routgoing_id (area : Vec4 ℝ) (M : Mat4 ℝ) : routgoing id area M = calcOutgoingFlux area M := by
  funext i j
  have e : List.finRange 4 = [0, 1, 2, 3] := by decide
  unfold routgoing calcOutgoingFlux
  rw [e]
  simp only [List.foldl_cons, List.foldl_nil]
  by_cases h0 : area 0 > 0 <;> by_cases h1 : area 1 > 0 <;> by_cases h2 : area 2 > 0 <;> by_cases h3 : area 3 > 0 <;>
    simp only [h0, h1, h2, h3, if_true, if_false, true_and, false_and] <;>
    fin_cases i <;> fin_cases j <;> simp [outFace0, outFace1, outFace2, outFace3, addTo, set2, twice]

set_option maxHeartbeats 2000000 in
theorem rincoming_id (c2f : Fin 4 → Fin 4 → Fin 3) (lpb : Fin 3 → Fin 4 → ℝ) (area b : Vec4 ℝ) :
    rincoming id c2f lpb area b = calcIncomingFlux c2f lpb area b := by
  funext i
  have e : List.finRange 4 = [0, 1, 2, 3] := by decide
  unfold rincoming calcIncomingFlux
  rw [e]
  simp only [List.foldl_cons, List.foldl_nil]
  by_cases h0 : area 0 < 0 <;> by_cases h1 : area 1 < 0 <;> by_cases h2 : area 2 < 0 <;> by_cases h3 : area 3 < 0 <;>
    simp only [h0, h1, h2, h3, if_true, if_false, true_and, false_and] <;>
    fin_cases i <;> simp [inFace0, inFace1, inFace2, inFace3, subFrom, set1, twice]

/-- Without rounding it is the solve of `Verif.Transport.Model`. -/
theorem rsolve_id (V : ℝ) (faceArea dots : Vec4 ℝ) (σ : ℝ) (c2f : Fin 4 → Fin 4 → Fin 3) (lpb : Fin 3 → Fin 4 → ℝ) (q : Vec4 ℝ) :
    rsolve id V faceArea dots σ c2f lpb q =
      gaussElim4 .original (calcOutgoingFlux (fun f => faceArea f * dots f) (calcVolumeIntegrals V (fun f => faceArea f * dots f) σ))
        (calcIncomingFlux c2f lpb (fun f => faceArea f * dots f) (calcSource V q)) := by
  unfold rsolve
  rw [rgauss_id, routgoing_id, rincoming_id, rsource_id, rvolumeIntegrals_id]
  rfl

end Verif.Rounding
