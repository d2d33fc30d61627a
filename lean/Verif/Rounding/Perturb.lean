import Verif.Rounding.Regular

/-!
# The residual of a cell against the exact geometry (for C97)
-/
namespace Verif.Rounding

open Verif.Transport Verif.Transport.Spec Verif.Rounding.Spec Finset Verif.Source

variable {u : ℝ} {rnd : ℝ → ℝ}

theorem pos_near (a b : ℝ) : |(if a > 0 then a else 0) - (if b > 0 then b else 0)| ≤ |a - b| := by
  rw [abs_le]
  have h1 := le_abs_self (a - b)
  have h2 := neg_abs_le (a - b)
  split_ifs <;> constructor <;> linarith

theorem neg_near (a b : ℝ) : |(if a < 0 then a else 0) - (if b < 0 then b else 0)| ≤ |a - b| := by
  rw [abs_le]
  have h1 := le_abs_self (a - b)
  have h2 := neg_abs_le (a - b)
  split_ifs <;> constructor <;> linarith

/-- What comes in matters where it comes in. -/
theorem exactSide_congr {V : ℝ} {s q : Vec4 ℝ} {inc inc' : Fin 4 → Fin 4 → ℝ} (h : ∀ f v, v ≠ f → s f < 0 → inc f v = inc' f v) (i : Fin 4) :
    exactSide V s inc q i = exactSide V s inc' q i := by
  unfold exactSide
  congr 1
  refine Finset.sum_congr rfl fun f _ => ?_
  by_cases hc : s f < 0 ∧ i ≠ f
  · rw [if_pos hc, if_pos hc]
    refine Finset.sum_congr rfl fun v _ => ?_
    split_ifs with hv
    · rw [h f v hv hc.1]
    · rfl
  · rw [if_neg hc, if_neg hc]

theorem rowDefect_congr {V σ : ℝ} {s q psi : Vec4 ℝ} {inc inc' : Fin 4 → Fin 4 → ℝ} (h : ∀ f v, v ≠ f → s f < 0 → inc f v = inc' f v)
    (i : Fin 4) : rowDefect V σ s inc q psi i = rowDefect V σ s inc' q psi i := by
  rw [rowDefect_eq, rowDefect_eq, exactSide_congr h]

theorem twice_nonneg (i j : Fin 4) : 0 ≤ twice i j := by rw [← twice_abs]; exact abs_nonneg _

theorem twice_sum (i : Fin 4) : ∑ j, twice i j = 5 := by
  rw [Fin.sum_univ_four]
  unfold twice
  fin_cases i <;> simp <;> norm_num

theorem twice_face {i f : Fin 4} (h : i ≠ f) : ∑ v, (if v ≠ f then twice i v else 0) = 4 := by
  rw [Fin.sum_univ_four]
  unfold twice
  fin_cases i <;> fin_cases f <;> first | exact absurd rfl h | (simp; norm_num)

/-- The rows of a cell depend on its geometry continuously: no face is special. -/
theorem rowDefect_near {V V' σ : ℝ} {s s' q psi : Vec4 ℝ} {inc : Fin 4 → Fin 4 → ℝ} {X I Q : ℝ} (hX : ∀ j, |psi j| ≤ X)
    (hI : ∀ f v, |inc f v| ≤ I) (hQ : ∀ j, |q j| ≤ Q) (i : Fin 4) :
    |rowDefect V σ s inc q psi i - rowDefect V' σ s' inc q psi i| ≤
      (∑ f, |s f - s' f|) * (X + I) / 3 + |V - V'| * (|σ| * X + Q) / 4 := by
  have hX0 : 0 ≤ X := (abs_nonneg _).trans (hX 0)
  have hI0 : 0 ≤ I := (abs_nonneg _).trans (hI 0 0)
  have hQ0 : 0 ≤ Q := (abs_nonneg _).trans (hQ 0)
  -- entries
  have E : ∀ j, |exactEntry V σ s i j - exactEntry V' σ s' i j| ≤
      |s i - s' i| / 12 + twice i j * (|σ| * |V - V'| / 20) + ∑ f, (if i ≠ f ∧ j ≠ f then twice i j * (|s f - s' f| / 12) else 0) := by
    intro j
    unfold exactEntry
    have e : s i / 12 + twice i j * σ * V / 20 + ∑ f, (if s f > 0 ∧ i ≠ f ∧ j ≠ f then twice i j * s f / 12 else 0) -
        (s' i / 12 + twice i j * σ * V' / 20 + ∑ f, (if s' f > 0 ∧ i ≠ f ∧ j ≠ f then twice i j * s' f / 12 else 0)) =
        (s i - s' i) / 12 + twice i j * (σ * (V - V') / 20) +
          ∑ f, (if i ≠ f ∧ j ≠ f then twice i j * (((if s f > 0 then s f else 0) - (if s' f > 0 then s' f else 0)) / 12) else 0) := by
      have : ∀ f, (if i ≠ f ∧ j ≠ f then twice i j * (((if s f > 0 then s f else 0) - (if s' f > 0 then s' f else 0)) / 12) else 0) =
          (if s f > 0 ∧ i ≠ f ∧ j ≠ f then twice i j * s f / 12 else 0) - (if s' f > 0 ∧ i ≠ f ∧ j ≠ f then twice i j * s' f / 12 else 0) := by
        intro f
        split_ifs <;> first | ring1 | (exfalso; tauto)
      simp only [this, Finset.sum_sub_distrib]
      ring
    rw [e]
    refine (abs_add_three _ _ _).trans (add_le_add (add_le_add ?_ ?_) ?_)
    · rw [abs_div, abs_of_pos (by norm_num : (0 : ℝ) < 12)]
    · rw [abs_mul, twice_abs, abs_div, abs_mul, abs_of_pos (by norm_num : (0 : ℝ) < 20)]
    · refine (Finset.abs_sum_le_sum_abs _ _).trans (Finset.sum_le_sum fun f _ => ?_)
      by_cases hf : i ≠ f ∧ j ≠ f
      · rw [if_pos hf, if_pos hf]
        rw [abs_mul, twice_abs, abs_div, abs_of_pos (by norm_num : (0 : ℝ) < 12)]
        exact mul_le_mul_of_nonneg_left (div_le_div_of_nonneg_right (pos_near _ _) (by norm_num)) (twice_nonneg _ _)
      · rw [if_neg hf, if_neg hf, abs_zero]
  have E4 : |∑ j, (exactEntry V σ s i j - exactEntry V' σ s' i j) * psi j| ≤ ((∑ f, |s f - s' f|) / 3 + |σ| * |V - V'| / 4) * X := by
    have h1 : |∑ j, (exactEntry V σ s i j - exactEntry V' σ s' i j) * psi j| ≤
        ∑ j, (|s i - s' i| / 12 + twice i j * (|σ| * |V - V'| / 20) + ∑ f, (if i ≠ f ∧ j ≠ f then twice i j * (|s f - s' f| / 12) else 0)) * X :=
      (Finset.abs_sum_le_sum_abs _ _).trans (Finset.sum_le_sum fun j _ => abs_mul_le' (E j) (hX j))
    refine h1.trans ?_
    rw [← Finset.sum_mul]
    refine mul_le_mul_of_nonneg_right ?_ hX0
    rw [Finset.sum_add_distrib, Finset.sum_add_distrib, ← Finset.sum_mul, twice_sum, Finset.sum_comm]
    have h2 : ∀ f, ∑ j, (if i ≠ f ∧ j ≠ f then twice i j * (|s f - s' f| / 12) else 0) = if i ≠ f then |s f - s' f| / 3 else 0 := by
      intro f
      by_cases hf : i ≠ f
      · rw [if_pos hf]
        have := twice_face hf
        have e : ∀ j, (if i ≠ f ∧ j ≠ f then twice i j * (|s f - s' f| / 12) else 0) = (if j ≠ f then twice i j else 0) * (|s f - s' f| / 12) := by
          intro j
          by_cases hj : j ≠ f <;> simp [hf, hj]
        simp only [e]
        rw [← Finset.sum_mul, this]; ring
      · rw [if_neg hf]
        refine Finset.sum_eq_zero fun j _ => ?_
        rw [if_neg (fun h => hf h.1)]
    simp only [h2, Finset.sum_const, Finset.card_univ, Fintype.card_fin, nsmul_eq_mul]
    have h3 : ∑ f, (if i ≠ f then |s f - s' f| / 3 else 0) = (∑ f, |s f - s' f|) / 3 - |s i - s' i| / 3 := by
      rw [eq_sub_iff_add_eq, Finset.sum_div, ← Finset.sum_erase_add _ _ (mem_univ i), ← Finset.sum_erase_add univ (fun f => |s f - s' f| / 3) (mem_univ i)]
      congr 1
      rw [if_neg (fun h => h rfl), add_zero]
      exact Finset.sum_congr rfl fun f hf => by rw [if_pos (Finset.ne_of_mem_erase hf).symm]
    rw [h3]
    push_cast
    linarith
  -- right-hand sides
  have S : |exactSide V s inc q i - exactSide V' s' inc q i| ≤ |V - V'| * Q / 4 + (∑ f, |s f - s' f|) * I / 3 := by
    unfold exactSide
    have e : V / 20 * (∑ j, twice i j * q j) - (∑ f, if s f < 0 ∧ i ≠ f then ∑ v, (if v ≠ f then twice i v * s f / 12 * inc f v else 0) else 0) -
        (V' / 20 * (∑ j, twice i j * q j) - ∑ f, if s' f < 0 ∧ i ≠ f then ∑ v, (if v ≠ f then twice i v * s' f / 12 * inc f v else 0) else 0) =
        (V - V') / 20 * (∑ j, twice i j * q j) - ∑ f, (if i ≠ f then
          ((if s f < 0 then s f else 0) - (if s' f < 0 then s' f else 0)) / 12 * ∑ v, (if v ≠ f then twice i v * inc f v else 0) else 0) := by
      have : ∀ f, (if i ≠ f then ((if s f < 0 then s f else 0) - (if s' f < 0 then s' f else 0)) / 12 *
          ∑ v, (if v ≠ f then twice i v * inc f v else 0) else 0) =
          (if s f < 0 ∧ i ≠ f then ∑ v, (if v ≠ f then twice i v * s f / 12 * inc f v else 0) else 0) -
          (if s' f < 0 ∧ i ≠ f then ∑ v, (if v ≠ f then twice i v * s' f / 12 * inc f v else 0) else 0) := by
        intro f
        have k : ∀ x : ℝ, ∑ v, (if v ≠ f then twice i v * x / 12 * inc f v else 0) = x / 12 * ∑ v, (if v ≠ f then twice i v * inc f v else 0) := by
          intro x
          rw [Finset.mul_sum]
          refine Finset.sum_congr rfl fun v _ => ?_
          split_ifs
          · ring
          · ring
        simp only [k]
        split_ifs <;> first | ring1 | (exfalso; tauto)
      simp only [this, Finset.sum_sub_distrib]
      ring
    rw [e]
    refine (abs_sub _ _).trans (add_le_add ?_ ?_)
    · have h1 : |∑ j, twice i j * q j| ≤ 5 * Q := by
        refine (Finset.abs_sum_le_sum_abs _ _).trans ?_
        rw [← twice_sum i, Finset.sum_mul]
        exact Finset.sum_le_sum fun j _ => by
          rw [abs_mul, twice_abs]
          exact mul_le_mul_of_nonneg_left (hQ j) (twice_nonneg _ _)
      have := abs_mul_le' (le_of_eq (by rw [abs_div, abs_of_pos (by norm_num : (0 : ℝ) < 20)] : |(V - V') / 20| = |V - V'| / 20)) h1
      linarith
    · refine (Finset.abs_sum_le_sum_abs _ _).trans ?_
      rw [Finset.sum_mul, Finset.sum_div]
      refine Finset.sum_le_sum fun f _ => ?_
      by_cases hf : i ≠ f
      · rw [if_pos hf]
        have h1 : |∑ v, (if v ≠ f then twice i v * inc f v else 0)| ≤ 4 * I := by
          refine (Finset.abs_sum_le_sum_abs _ _).trans ?_
          rw [← twice_face hf, Finset.sum_mul]
          refine Finset.sum_le_sum fun v _ => ?_
          split_ifs
          · rw [abs_mul, twice_abs]
            exact mul_le_mul_of_nonneg_left (hI f v) (twice_nonneg _ _)
          · simp
        have h2 : |((if s f < 0 then s f else 0) - (if s' f < 0 then s' f else 0)) / 12| ≤ |s f - s' f| / 12 := by
          rw [abs_div, abs_of_pos (by norm_num : (0 : ℝ) < 12)]
          exact div_le_div_of_nonneg_right (neg_near _ _) (by norm_num)
        have := abs_mul_le' h2 h1
        linarith
      · rw [if_neg hf, abs_zero]; positivity
  rw [rowDefect_eq, rowDefect_eq]
  have key : exactEntry V σ s i 0 * psi 0 + exactEntry V σ s i 1 * psi 1 + exactEntry V σ s i 2 * psi 2 + exactEntry V σ s i 3 * psi 3 - exactSide V s inc q i -
      (exactEntry V' σ s' i 0 * psi 0 + exactEntry V' σ s' i 1 * psi 1 + exactEntry V' σ s' i 2 * psi 2 + exactEntry V' σ s' i 3 * psi 3 - exactSide V' s' inc q i) =
      (∑ j, (exactEntry V σ s i j - exactEntry V' σ s' i j) * psi j) - (exactSide V s inc q i - exactSide V' s' inc q i) := by
    rw [Fin.sum_univ_four]; ring
  rw [key]
  refine (abs_sub _ _).trans ((add_le_add E4 S).trans (le_of_eq ?_))
  ring

/-- The machine's geometry of a cell in a direction is near the exact one: relative to area and volume. -/
structure Near (δ V V' : ℝ) (A s s' : Vec4 ℝ) : Prop where
  volume : |V' - V| ≤ δ * V
  faces : ∀ f, |s' f - s f| ≤ δ * A f

/-- C97: the residual against the exact geometry. -/
theorem cell_machine (R : Rounds u rnd) (hu : u ≤ 1 / 1000) {V V' σ δ : ℝ} {A s faceArea dots : Vec4 ℝ} (hV : 0 ≤ V) (hσ : 0 ≤ σ)
    (hA : ∀ f, |s f| ≤ 1.01 * A f) (hδ : δ ≤ 1 / 100) (N : Near δ V V' A s (rsigned rnd faceArea dots))
    {c2f : Fin 4 → Fin 4 → Fin 3} {lpb : Fin 3 → Fin 4 → ℝ} {q x : Vec4 ℝ} (h : rsolve rnd V' faceArea dots σ c2f lpb q = some x)
    {nb : Fin 4 → Fin 4 → ℝ} {X Q : ℝ} (hX : ∀ j, |x j| ≤ X) (hI : ∀ k f, |lpb k f| ≤ X) (hnb : ∀ f v, |nb f v| ≤ X)
    (hQ : ∀ j, |q j| ≤ Q) (hin : ∀ f v, v ≠ f → rsigned rnd faceArea dots f < 0 → lpb (c2f f v) f = nb f v) (i : Fin 4) :
    |rowDefect V σ s nb q x i| ≤ (223 * u + δ) * (((∑ f, A f) + σ * V) * X + V * Q) := by
  have hu0 := R.small.1
  have hX0 : 0 ≤ X := (abs_nonneg _).trans (hX 0)
  have hQ0 : 0 ≤ Q := (abs_nonneg _).trans (hQ 0)
  have hA0 : ∀ f, 0 ≤ A f := fun f => by have := (abs_nonneg _).trans (hA f); linarith
  have hS0 : 0 ≤ ∑ f, A f := Finset.sum_nonneg fun f _ => hA0 f
  have h1 := cell_residual R hu h hX hI hQ i
  set s' := rsigned rnd faceArea dots with hs'
  rw [rowDefect_congr (inc' := nb) (by intro f v hv hneg; exact hin f v hv hneg)] at h1
  have h2 := rowDefect_near (V := V) (V' := V') (σ := σ) (s := s) (s' := s') hX hnb hQ i
  have hD : ∑ f, |s f - s' f| ≤ δ * ∑ f, A f := by
    rw [Finset.mul_sum]
    exact Finset.sum_le_sum fun f _ => by rw [abs_sub_comm]; exact N.faces f
  have hDV : |V - V'| ≤ δ * V := by rw [abs_sub_comm]; exact N.volume
  have hS : ∑ f, |s' f| ≤ 1.02 * ∑ f, A f := by
    rw [Finset.mul_sum]
    refine Finset.sum_le_sum fun f _ => ?_
    have a := abs_add_le (s' f - s f) (s f)
    rw [sub_add_cancel] at a
    have b := N.faces f
    have c := mul_le_mul_of_nonneg_right hδ (hA0 f)
    linarith [hA f]
  have hV' : |V'| ≤ 1.01 * V := by
    have a := abs_add_le (V' - V) V
    rw [sub_add_cancel, abs_of_nonneg hV] at a
    have c := mul_le_mul_of_nonneg_right hδ hV
    linarith [N.volume]
  rw [abs_of_nonneg hσ] at h1 h2
  have k0 : rowDefect V σ s nb q x i = (rowDefect V σ s nb q x i - rowDefect V' σ s' nb q x i) + rowDefect V' σ s' nb q x i := by ring
  rw [k0]
  refine (abs_add_le _ _).trans ((add_le_add h2 h1).trans ?_)
  have b1 : (∑ f, |s f - s' f|) * (X + X) / 3 ≤ δ * (∑ f, A f) * (X + X) / 3 := by gcongr
  have b2 : |V - V'| * (σ * X + Q) / 4 ≤ δ * V * (σ * X + Q) / 4 := by gcongr
  have b3 : u * (210 * ((∑ f, |s' f|) + σ * |V'|) * X + 6 * (|V'| * Q) + 8 * ((∑ f, |s' f|) * X)) ≤
      u * (210 * (1.02 * (∑ f, A f) + σ * (1.01 * V)) * X + 6 * (1.01 * V * Q) + 8 * (1.02 * (∑ f, A f) * X)) := by gcongr
  refine (add_le_add (add_le_add b1 b2) b3).trans ?_
  have hδ0 : 0 ≤ δ * V := (abs_nonneg _).trans N.volume
  have hδA : 0 ≤ δ * ∑ f, A f := (Finset.sum_nonneg fun f _ => abs_nonneg _).trans hD
  have z1 : 0 ≤ δ * (∑ f, A f) * X := mul_nonneg hδA hX0
  have z2 : 0 ≤ δ * V * Q := mul_nonneg hδ0 hQ0
  have z3 : 0 ≤ δ * V * (σ * X) := mul_nonneg hδ0 (mul_nonneg hσ hX0)
  have z4 : 0 ≤ u * ((∑ f, A f) * X) := by positivity
  have z5 : 0 ≤ u * (σ * V * X) := by positivity
  have z6 : 0 ≤ u * (V * Q) := by positivity
  linarith

end Verif.Rounding
