import Verif.Rounding.Regular
import Verif.Rounding.Exact
import Verif.Rounding.Double

/-!
# Examples for C96
-/
namespace Verif.Rounding

open Verif.Transport Verif.Rounding.Spec Finset

/-- C96: `rsolve_some` and `cell_residual` apply in double precision to a cell with two faces the particles
leave through and two they enter by, whatever the source and what comes in. -/
example (c2f : Fin 4 → Fin 4 → Fin 3) (lpb : Fin 3 → Fin 4 → ℝ) (q : Vec4 ℝ) (hl : ∀ k f, |lpb k f| ≤ 5) (hq : ∀ j, |q j| ≤ 7) :
    ∃ x, rsolve binary64 4 (fun _ => 1) ![1 / 2, -1 / 2, 1 / 4, -1 / 4] 3 c2f lpb q = some x ∧
      ∀ X, (∀ j, |x j| ≤ X) → ∀ i,
        |rowDefect 4 3 (rsigned binary64 (fun _ => 1) ![1 / 2, -1 / 2, 1 / 4, -1 / 4]) (fun f v => lpb (c2f f v) f) q x i| ≤
          2 ^ (-53 : ℤ) * (2900 * X + 300) := by
  have R := binary64_rounds
  have hu : (2 : ℝ) ^ (-53 : ℤ) ≤ 1 / 1000 := by norm_num
  have n := fun f : Fin 4 => R.near ((fun _ => (1 : ℝ)) f * (![1 / 2, -1 / 2, 1 / 4, -1 / 4] : Vec4 ℝ) f)
  change ∀ f, |rsigned binary64 (fun _ => 1) ![1 / 2, -1 / 2, 1 / 4, -1 / 4] f - _| ≤ _ at n
  have n0 := n 0
  have n1 := n 1
  have n2 := n 2
  have n3 := n 3
  simp only [Matrix.cons_val, one_mul] at n0 n1 n2 n3
  set s := rsigned binary64 (fun _ => 1) ![1 / 2, -1 / 2, 1 / 4, -1 / 4] with hs
  have hsum : ∑ f, |s f| ≤ 1.5 * (1 + 2 ^ (-53 : ℤ)) := by
    rw [Fin.sum_univ_four]
    have a0 := abs_add_le (s 0 - 1 / 2) (1 / 2)
    have a1 := abs_add_le (s 1 - -1 / 2) (-1 / 2)
    have a2 := abs_add_le (s 2 - 1 / 4) (1 / 4)
    have a3 := abs_add_le (s 3 - -1 / 4) (-1 / 4)
    norm_num at a0 a1 a2 a3 n0 n1 n2 n3 ⊢
    linarith
  have hcl : |∑ f, s f| ≤ 1.5 * 2 ^ (-53 : ℤ) := by
    rw [Fin.sum_univ_four]
    rw [abs_le] at *
    norm_num at n0 n1 n2 n3 ⊢
    constructor <;> linarith
  obtain ⟨x, hx⟩ := rsolve_some R hu (V := 4) (σ := 3) (faceArea := fun _ => 1) (dots := ![1 / 2, -1 / 2, 1 / 4, -1 / 4])
    (by
      rw [← hs]
      norm_num at hsum hcl ⊢
      linarith) c2f lpb q
  refine ⟨x, hx, fun X hX i => (cell_residual R hu hx hX hl hq i).trans ?_⟩
  rw [← hs]
  refine mul_le_mul_of_nonneg_left ?_ (by positivity)
  have hX0 : 0 ≤ X := (abs_nonneg _).trans (hX 0)
  have h2 : ∑ f, |s f| ≤ 1.6 := by
    norm_num at hsum ⊢
    linarith
  have h3 := mul_le_mul_of_nonneg_right h2 hX0
  norm_num at h3 ⊢
  linarith

/-- C96: without rounding the solve is the one of `Verif.Transport.Model`. -/
example (volume : ℝ) (faceArea dots : Vec4 ℝ) (sigma : ℝ) (c2f : Fin 4 → Fin 4 → Fin 3) (lpb : Fin 3 → Fin 4 → ℝ) (q : Vec4 ℝ) :=
  rsolve_id volume faceArea dots sigma c2f lpb q

end Verif.Rounding
