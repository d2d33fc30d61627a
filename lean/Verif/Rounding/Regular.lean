import Verif.Rounding.Cell
import Verif.Source.Energy
import Mathlib.Data.Fintype.Lattice

/-!
# When the solve in a cell divides by zero (C96)

`rsolve_some`: it does not where absorption is not lost in the roundings of the other coefficients.
-/
namespace Verif.Rounding

open Verif.Transport Verif.Transport.Spec Verif.Rounding.Spec Finset Verif.Source

variable {u : ℝ} {rnd : ℝ → ℝ}

/-- The column where the elimination fails. -/
theorem rgauss_none {A : Mat4 ℝ} {b : Vec4 ℝ} (h : rgauss rnd A b = none) :
    ∃ (e : Equiv.Perm (Fin 4)) (B : Mat4 ℝ), (∀ i, B i = A (e i)) ∧
      ((∀ i, B i 0 = 0) ∨ (B 0 0 ≠ 0 ∧ (∀ i, |B i 0| ≤ |B 0 0|) ∧
        ((∀ i, 1 ≤ i → relimCore rnd 0 1 B i 1 = 0) ∨
          (relimCore rnd 0 1 B 1 1 ≠ 0 ∧ (∀ i, 1 ≤ i → |relimCore rnd 0 1 B i 1| ≤ |relimCore rnd 0 1 B 1 1|) ∧
            ((∀ i, 2 ≤ i → relimCore rnd 1 2 (relimCore rnd 0 1 B) i 2 = 0) ∨
              (relimCore rnd 1 2 (relimCore rnd 0 1 B) 2 2 ≠ 0 ∧
                (∀ i, 2 ≤ i → |relimCore rnd 1 2 (relimCore rnd 0 1 B) i 2| ≤ |relimCore rnd 1 2 (relimCore rnd 0 1 B) 2 2|) ∧
                rfactors rnd B 3 3 = 0)))))) := by
  unfold rgauss at h
  rw [relimStep_eq] at h
  obtain ⟨p0, h0⟩ : ∃ p, p = pivotSearch A 0 := ⟨_, rfl⟩
  rw [← h0] at h
  have m0 := swap_largest A 0 h0
  obtain ⟨A1, hA1⟩ : ∃ A1, A1 = swapRows A p0 0 := ⟨_, rfl⟩
  rw [← hA1] at h m0
  by_cases z0 : A1 0 0 = 0
  · refine ⟨Equiv.swap p0 0, A1, fun i => by rw [hA1, swap_rows_perm], Or.inl fun i => ?_⟩
    have := m0 i (Fin.zero_le _)
    rw [z0, abs_zero] at this
    exact abs_nonpos_iff.1 this
  rw [if_neg z0] at h
  simp only [Option.bind_eq_bind, Option.bind_some] at h
  rw [relimStep_eq] at h
  obtain ⟨p1, h1⟩ : ∃ p, p = pivotSearch (relimCore rnd 0 1 A1) 1 := ⟨_, rfl⟩
  rw [← h1] at h
  have l1 := (pivot_spec (relimCore rnd 0 1 A1) 1).1
  rw [← h1] at l1
  have m1 := swap_largest _ 1 h1
  have q1 : 0 < p1 := lt_of_lt_of_le (by decide) l1
  rw [← rcore0_swap rnd A1 p1 1 q1 (by decide)] at h m1
  obtain ⟨A2, hA2⟩ : ∃ A2, A2 = swapRows A1 p1 1 := ⟨_, rfl⟩
  rw [← hA2] at h m1
  have s1 : ∀ r, r < 1 → A2 r = A1 r := by
    intro r hr
    rw [hA2, swap_rows_perm, Equiv.swap_apply_of_ne_of_ne (fun e => by rw [e] at hr; exact absurd hr (not_lt.2 l1)) (ne_of_lt hr)]
  have m0' : ∀ i, |A2 i 0| ≤ |A2 0 0| := by
    intro i
    rw [s1 0 (by decide), hA2, swap_rows_perm]
    exact m0 _ (Fin.zero_le _)
  by_cases z1 : relimCore rnd 0 1 A2 1 1 = 0
  · refine ⟨(Equiv.swap p1 1).trans (Equiv.swap p0 0), A2, fun i => ?_,
      Or.inr ⟨by rw [s1 0 (by decide)]; exact z0, m0', Or.inl fun i hi => ?_⟩⟩
    · rw [hA2, swap_rows_perm, hA1, swap_rows_perm]; rfl
    · have := m1 i hi
      rw [z1, abs_zero] at this
      exact abs_nonpos_iff.1 this
  rw [if_neg z1] at h
  simp only [Option.bind_some] at h
  rw [relimStep_eq] at h
  obtain ⟨p2, h2⟩ : ∃ p, p = pivotSearch (relimCore rnd 1 2 (relimCore rnd 0 1 A2)) 2 := ⟨_, rfl⟩
  rw [← h2] at h
  have l2 := (pivot_spec (relimCore rnd 1 2 (relimCore rnd 0 1 A2)) 2).1
  rw [← h2] at l2
  have m2 := swap_largest _ 2 h2
  have q2 : 1 < p2 := lt_of_lt_of_le (by decide) l2
  have q2' : 0 < p2 := lt_trans (by decide) q2
  rw [← rcore1_swap rnd _ p2 2 q2 (by decide), ← rcore0_swap rnd A2 p2 2 q2' (by decide)] at h m2
  obtain ⟨A3, hA3⟩ : ∃ A3, A3 = swapRows A2 p2 2 := ⟨_, rfl⟩
  rw [← hA3] at h m2
  have s2 : ∀ r, r < 2 → A3 r = A2 r := by
    intro r hr
    rw [hA3, swap_rows_perm, Equiv.swap_apply_of_ne_of_ne (fun e => by rw [e] at hr; exact absurd hr (not_lt.2 l2)) (ne_of_lt hr)]
  have e11 : relimCore rnd 0 1 A3 1 1 = relimCore rnd 0 1 A2 1 1 := by
    rw [rcore0, rcore0]
    simp only [s2 1 (by decide), s2 0 (by decide)]
  have m0'' : ∀ i, |A3 i 0| ≤ |A3 0 0| := by
    intro i
    rw [s2 0 (by decide), hA3, swap_rows_perm]
    exact m0' _
  have m1' : ∀ i, 1 ≤ i → |relimCore rnd 0 1 A3 i 1| ≤ |relimCore rnd 0 1 A3 1 1| := by
    intro i hi
    rw [e11, hA3, rcore0_swap rnd A2 p2 2 q2' (by decide), swap_rows_perm]
    refine m1 _ ?_
    rw [Equiv.swap_apply_def]
    split_ifs
    · decide
    · exact q2.le
    · exact hi
  refine ⟨(Equiv.swap p2 2).trans ((Equiv.swap p1 1).trans (Equiv.swap p0 0)), A3, fun i => ?_,
    Or.inr ⟨by rw [s2 0 (by decide), s1 0 (by decide)]; exact z0, m0'', Or.inr ⟨by rw [e11]; exact z1, m1', ?_⟩⟩⟩
  · rw [hA3, swap_rows_perm, hA2, swap_rows_perm, hA1, swap_rows_perm]; rfl
  by_cases z2 : relimCore rnd 1 2 (relimCore rnd 0 1 A3) 2 2 = 0
  · refine Or.inl fun i hi => ?_
    have := m2 i hi
    rw [z2, abs_zero] at this
    exact abs_nonpos_iff.1 this
  rw [if_neg z2] at h
  simp only [Option.bind_some] at h
  by_cases z3 : relimCore rnd 2 3 (relimCore rnd 1 2 (relimCore rnd 0 1 A3)) 3 3 = 0
  · exact Or.inr ⟨z2, m2, z3⟩
  · rw [if_neg z3] at h
    simp at h

theorem small4 {a b c d x y z w e X : ℝ} (ha : |a| ≤ e) (hb : |b| ≤ e) (hc : |c| ≤ e) (hd : |d| ≤ e) (hx : |x| ≤ X) (hy : |y| ≤ X)
    (hz : |z| ≤ X) (hw : |w| ≤ X) : |a * x + b * y + c * z + d * w| ≤ 4 * (e * X) := by
  have h1 := abs_mul_le' ha hx
  have h2 := abs_mul_le' hb hy
  have h3 := abs_mul_le' hc hz
  have h4 := abs_mul_le' hd hw
  have h5 := abs_add_le (a * x + b * y + c * z) (d * w)
  have h6 := abs_add_three (a * x) (b * y) (c * z)
  linarith

set_option maxHeartbeats 1000000 in
/-- Where the elimination fails the matrix is nearly singular. -/
theorem none_singular (R : Rounds u rnd) (hu : u ≤ 1 / 1000) {A : Mat4 ℝ} {b : Vec4 ℝ} {α : ℝ} (hA : ∀ i j, |A i j| ≤ α)
    (h : rgauss rnd A b = none) :
    ∃ (x : Vec4 ℝ) (k : Fin 4), x k ≠ 0 ∧ (∀ j, |x j| ≤ |x k|) ∧
      ∀ i, |A i 0 * x 0 + A i 1 * x 1 + A i 2 * x 2 + A i 3 * x 3| ≤ 90 * (u * (α * |x k|)) := by
  have hu0 := R.small.1
  have hα : 0 ≤ α := (abs_nonneg _).trans (hA 0 0)
  have huα : 0 ≤ u * α := mul_nonneg hu0 hα
  obtain ⟨e, B, hB, hcase⟩ := rgauss_none h
  have hB' : ∀ i j, |B i j| ≤ α := fun i j => by rw [hB]; exact hA _ _
  suffices H : ∃ x : Vec4 ℝ, x ≠ 0 ∧ ∀ X, (∀ j, |x j| ≤ X) → ∀ i,
      |B i 0 * x 0 + B i 1 * x 1 + B i 2 * x 2 + B i 3 * x 3| ≤ 4 * (22.1 * (u * α) * X) by
    obtain ⟨x, hx, hb⟩ := H
    obtain ⟨k, -, hk⟩ := Finset.exists_max_image (univ : Finset (Fin 4)) (fun j => |x j|) ⟨0, mem_univ _⟩
    refine ⟨x, k, ?_, fun j => hk j (mem_univ _), fun i => ?_⟩
    · intro h0
      refine hx (funext fun j => ?_)
      have := hk j (mem_univ _)
      rw [h0, abs_zero] at this
      exact abs_nonpos_iff.1 this
    · have := hb |x k| (fun j => hk j (mem_univ _)) (e.symm i)
      rw [hB, Equiv.apply_symm_apply] at this
      have h2 : 0 ≤ u * (α * |x k|) := by positivity
      linarith
  rcases hcase with c0 | ⟨n0, m0, hcase⟩
  · refine ⟨![1, 0, 0, 0], fun h => by simpa using congrFun h 0, fun X hX i => ?_⟩
    have hX0 : 0 ≤ X := (abs_nonneg _).trans (hX 0)
    rw [c0 i]
    simp only [Matrix.cons_val]
    rw [show (0 : ℝ) * 1 + B i 1 * 0 + B i 2 * 0 + B i 3 * 0 = 0 by ring, abs_zero]
    positivity
  obtain ⟨l, hl⟩ : ∃ l : Fin 4 → ℝ, ∀ i, l i = rnd (B i 0 * rnd (1 / B 0 0)) := ⟨_, fun _ => rfl⟩
  have L0 : ∀ i, |l i * B 0 0 - B i 0| ≤ 2.01 * (u * α) ∧ |l i| ≤ 1.01 := fun i => by
    have := step_mult R hu n0 (m0 i)
    rw [← hl] at this
    exact ⟨this.1.trans (by have := mul_le_mul_of_nonneg_left (hB' i 0) hu0; linarith), this.2⟩
  obtain ⟨z, hz⟩ : ∃ z : Fin 4 → Fin 4 → ℝ, ∀ i j, z i j = rnd (B i j - rnd (l i * B 0 j)) := ⟨_, fun _ _ => rfl⟩
  have Z : ∀ i j, |z i j - (B i j - l i * B 0 j)| ≤ 3.1 * (u * α) ∧ |z i j| ≤ 2.02 * α := fun i j => by
    have := step_elim R hu (L0 i).2 (hB' i j) (hB' 0 j)
    rw [← hz] at this
    exact this
  have c11 : ∀ i, 1 ≤ i → relimCore rnd 0 1 B i 1 = z i 1 := by
    intro i hi
    rw [rcore0, hz, hl]
    fin_cases i
    · simp at hi
    all_goals rfl
  have z0 : |(0 : ℝ)| ≤ 22.1 * (u * α) := by rw [abs_zero]; positivity
  rcases hcase with c1 | ⟨n1, m1, hcase⟩
  · refine ⟨![-B 0 1 / B 0 0, 1, 0, 0], fun h => by simpa using congrFun h 1, fun X hX i => ?_⟩
    simp only [Matrix.cons_val]
    have hX0 : 0 ≤ X := (abs_nonneg _).trans (hX 0)
    by_cases hi : i = 0
    · rw [hi, show B 0 0 * (-B 0 1 / B 0 0) + B 0 1 * 1 + B 0 2 * 0 + B 0 3 * 0 = 0 by field_simp; ring, abs_zero]
      positivity
    have hi1 : 1 ≤ i := by omega
    have hz1 : z i 1 = 0 := by rw [← c11 i hi1]; exact c1 i hi1
    have e1 := (Z i 1).1
    rw [hz1] at e1
    rw [show B i 0 * (-B 0 1 / B 0 0) + B i 1 * 1 + B i 2 * 0 + B i 3 * 0 =
      (B i 0 - l i * B 0 0) * (-B 0 1 / B 0 0) + (B i 1 - l i * B 0 1) * 1 + 0 * 0 + 0 * 0 by field_simp; ring]
    refine small4 ?_ ?_ z0 z0 (hX 0) (hX 1) (hX 2) (hX 3)
    · rw [abs_sub_comm]; linarith [(L0 i).1]
    · rw [zero_sub, abs_neg] at e1; linarith
  rw [c11 1 le_rfl] at n1
  have m1' : ∀ i, 1 ≤ i → |z i 1| ≤ |z 1 1| := fun i hi => by
    have := m1 i hi
    rwa [c11 i hi, c11 1 le_rfl] at this
  obtain ⟨k, hk⟩ : ∃ k : Fin 4 → ℝ, ∀ i, k i = rnd (z i 1 * rnd (1 / z 1 1)) := ⟨_, fun _ => rfl⟩
  have L1 : ∀ i, 1 ≤ i → |k i * z 1 1 - z i 1| ≤ 2.01 * (u * (2.02 * α)) ∧ |k i| ≤ 1.01 := fun i hi => by
    have := step_mult R hu n1 (m1' i hi)
    rw [← hk] at this
    exact ⟨this.1.trans (by have := mul_le_mul_of_nonneg_left (Z i 1).2 hu0; linarith), this.2⟩
  obtain ⟨y, hy⟩ : ∃ y : Fin 4 → Fin 4 → ℝ, ∀ i j, y i j = rnd (z i j - rnd (k i * z 1 j)) := ⟨_, fun _ _ => rfl⟩
  have Y : ∀ i j, 1 ≤ i → |y i j - (z i j - k i * z 1 j)| ≤ 3.1 * (u * (2.02 * α)) ∧ |y i j| ≤ 2.02 * (2.02 * α) := fun i j hi => by
    have := step_elim R hu (L1 i hi).2 (Z i j).2 (Z 1 j).2
    rw [← hy] at this
    exact this
  have c22 : ∀ i, 2 ≤ i → relimCore rnd 1 2 (relimCore rnd 0 1 B) i 2 = y i 2 := by
    intro i hi
    rw [rcore1, rcore0, hy, hk, hz, hz, hz, hz, hl, hl]
    fin_cases i
    · simp at hi
    · simp at hi
    all_goals rfl
  have near3 : ∀ {a b c x y : ℝ}, |a - b| ≤ x → |b - c| ≤ y → |a - c| ≤ x + y := fun h1 h2 => near2 h1 h2
  rcases hcase with c2 | ⟨n2, m2, c3⟩
  · obtain ⟨x1, hx1⟩ : ∃ x1, x1 = -z 1 2 / z 1 1 := ⟨_, rfl⟩
    obtain ⟨x0, hx0⟩ : ∃ x0, x0 = -(B 0 1 * x1 + B 0 2) / B 0 0 := ⟨_, rfl⟩
    have e1 : z 1 1 * x1 + z 1 2 = 0 := by rw [hx1]; field_simp; ring
    have e0 : B 0 0 * x0 + B 0 1 * x1 + B 0 2 = 0 := by rw [hx0]; field_simp; ring
    refine ⟨![x0, x1, 1, 0], fun h => by simpa using congrFun h 2, fun X hX i => ?_⟩
    have hX0 : 0 ≤ X := (abs_nonneg _).trans (hX 0)
    simp only [Matrix.cons_val]
    by_cases hi : i = 0
    · rw [hi, show B 0 0 * x0 + B 0 1 * x1 + B 0 2 * 1 + B 0 3 * 0 = 0 by linear_combination e0, abs_zero]
      positivity
    have hi1 : 1 ≤ i := by omega
    by_cases hi' : i = 1
    · subst hi'
      rw [show B 1 0 * x0 + B 1 1 * x1 + B 1 2 * 1 + B 1 3 * 0 =
        (B 1 0 - l 1 * B 0 0) * x0 + (B 1 1 - l 1 * B 0 1 - z 1 1) * x1 + (B 1 2 - l 1 * B 0 2 - z 1 2) * 1 + 0 * 0 by
          linear_combination l 1 * e0 + e1]
      refine small4 ?_ ?_ ?_ z0 (hX 0) (hX 1) (hX 2) (hX 3)
      · rw [abs_sub_comm]; linarith [(L0 1).1]
      · rw [abs_sub_comm]; linarith [(Z 1 1).1]
      · rw [abs_sub_comm]; linarith [(Z 1 2).1]
    have hi2 : 2 ≤ i := by omega
    have hy2 : y i 2 = 0 := by rw [← c22 i hi2]; exact c2 i hi2
    rw [show B i 0 * x0 + B i 1 * x1 + B i 2 * 1 + B i 3 * 0 =
      (B i 0 - l i * B 0 0) * x0 + (B i 1 - l i * B 0 1 - k i * z 1 1) * x1 + (B i 2 - l i * B 0 2 - k i * z 1 2 - y i 2) * 1 + 0 * 0 by
        rw [hy2]; linear_combination l i * e0 + k i * e1]
    refine small4 ?_ ?_ ?_ z0 (hX 0) (hX 1) (hX 2) (hX 3)
    · rw [abs_sub_comm]; linarith [(L0 i).1]
    · rw [abs_sub_comm]
      have := near3 (L1 i hi1).1 (Z i 1).1
      linarith
    · have h1 := (Y i 2 hi1).1
      have h2 := (Z i 2).1
      have h3 := abs_add_le (y i 2 - (z i 2 - k i * z 1 2)) (z i 2 - (B i 2 - l i * B 0 2))
      rw [show y i 2 - (z i 2 - k i * z 1 2) + (z i 2 - (B i 2 - l i * B 0 2)) = -(B i 2 - l i * B 0 2 - k i * z 1 2 - y i 2) by ring,
        abs_neg] at h3
      linarith
  have n1' : relimCore rnd 0 1 B 1 1 ≠ 0 := by rw [c11 1 le_rfl]; exact n1
  obtain ⟨N, -, -, -⟩ := factors_near R hu hB' n0 m0 n1' m1 n2 m2
  have d0 : rpivots rnd B 0 ≠ 0 := n0
  have d1 : rpivots rnd B 1 ≠ 0 := n1'
  have d2 : rpivots rnd B 2 ≠ 0 := n2
  have d3 : rpivots rnd B 3 = 0 := c3
  generalize rfactors rnd B = F at N
  generalize rpivots rnd B = d at N d0 d1 d2 d3
  obtain ⟨x2, hx2⟩ : ∃ x2, x2 = -F 2 3 / d 2 := ⟨_, rfl⟩
  obtain ⟨x1, hx1⟩ : ∃ x1, x1 = -(F 1 2 * x2 + F 1 3) / d 1 := ⟨_, rfl⟩
  obtain ⟨x0, hx0⟩ : ∃ x0, x0 = -(F 0 1 * x1 + F 0 2 * x2 + F 0 3) / d 0 := ⟨_, rfl⟩
  have e2 : d 2 * x2 + F 2 3 = 0 := by rw [hx2]; field_simp; ring
  have e1 : d 1 * x1 + F 1 2 * x2 + F 1 3 = 0 := by rw [hx1]; field_simp; ring
  have e0 : d 0 * x0 + F 0 1 * x1 + F 0 2 * x2 + F 0 3 = 0 := by rw [hx0]; field_simp; ring
  refine ⟨![x0, x1, x2, 1], fun h => by simpa using congrFun h 3, fun X hX i => ?_⟩
  simp only [Matrix.cons_val]
  have g := fun (a b c d : ℝ) (ha : |a| ≤ 22.1 * (u * α)) (hb : |b| ≤ 22.1 * (u * α)) (hc : |c| ≤ 22.1 * (u * α))
    (hd : |d| ≤ 22.1 * (u * α)) => small4 ha hb hc hd (hX 0) (hX 1) (hX 2) (hX 3)
  simp only [Matrix.cons_val] at g
  match i with
  | 0 =>
    rw [← abs_neg]
    refine le_of_eq_of_le (congrArg abs ?_) (g _ _ _ _ N.a00 N.a01 N.a02 N.a03)
    linear_combination -e0
  | 1 =>
    rw [← abs_neg]
    refine le_of_eq_of_le (congrArg abs ?_) (g _ _ _ _ N.a10 N.a11 N.a12 N.a13)
    linear_combination -(F 1 0) * e0 - e1
  | 2 =>
    rw [← abs_neg]
    refine le_of_eq_of_le (congrArg abs ?_) (g _ _ _ _ N.a20 N.a21 N.a22 N.a23)
    linear_combination -(F 2 0) * e0 - F 2 1 * e1 - e2
  | 3 =>
    rw [← abs_neg]
    refine le_of_eq_of_le (congrArg abs ?_) (g _ _ _ _ N.a30 N.a31 N.a32 N.a33)
    linear_combination -(F 3 0) * e0 - F 3 1 * e1 - F 3 2 * e2 - d3

set_option maxHeartbeats 1000000 in
/-- The energy balance of a cell with a defect, and with faces that need not close. -/
theorem defect_energy (V σ : ℝ) (area Q psi : Vec4 ℝ) (inc : Fin 4 → Fin 4 → ℝ) :
    ∑ i, psi i * rowDefect V σ area inc Q psi i =
      σ * V * cellM psi psi + ∑ f, faceTerm area psi inc f + 5 / 6 * (∑ f, area f) * cellM psi psi - V * cellM Q psi := by
  have pair : ∀ (f i j k : Fin 4), ({i, j, k} : Finset (Fin 4)) = Finset.univ.erase f → i ≠ j → i ≠ k →
      j ≠ k → ∀ g : Fin 4 → ℝ, ∑ x ∈ (Finset.univ.erase f).erase i, g x = g j + g k := by
    intro f i j k h1 hij hik hjk g
    rw [← h1, Finset.erase_insert (by simp [hij, hik]), Finset.sum_insert (by simp [hjk]),
      Finset.sum_singleton]
  simp only [rowDefect, sum_e0, sum_e1, sum_e2, sum_e3, Fin.sum_univ_four,
    pair 1 0 2 3 (by decide) (by decide) (by decide) (by decide),
    pair 2 0 1 3 (by decide) (by decide) (by decide) (by decide),
    pair 3 0 1 2 (by decide) (by decide) (by decide) (by decide),
    pair 0 1 2 3 (by decide) (by decide) (by decide) (by decide),
    pair 2 1 0 3 (by decide) (by decide) (by decide) (by decide),
    pair 3 1 0 2 (by decide) (by decide) (by decide) (by decide),
    pair 0 2 1 3 (by decide) (by decide) (by decide) (by decide),
    pair 1 2 0 3 (by decide) (by decide) (by decide) (by decide),
    pair 3 2 0 1 (by decide) (by decide) (by decide) (by decide),
    pair 0 3 1 2 (by decide) (by decide) (by decide) (by decide),
    pair 1 3 0 2 (by decide) (by decide) (by decide) (by decide),
    pair 2 3 0 1 (by decide) (by decide) (by decide) (by decide)]
  simp only [faceTerm, faceM, cellM, sum_e0, sum_e1, sum_e2, sum_e3, Fin.sum_univ_four]
  ring

theorem cellM_ge (x : Vec4 ℝ) (k : Fin 4) : x k ^ 2 / 20 ≤ cellM x x := by
  unfold cellM
  have : x k * x k ≤ ∑ i, x i * x i := Finset.single_le_sum (f := fun i => x i * x i) (fun i _ => mul_self_nonneg _) (mem_univ k)
  have := mul_self_nonneg (∑ i, x i)
  apply div_le_div_of_nonneg_right _ (by norm_num : (0 : ℝ) ≤ 20)
  nlinarith

/-- C96: the machine does not divide by zero where absorption in the cell is larger than the roundings of the
other coefficients and than what its faces miss to close. -/
theorem rsolve_some (R : Rounds u rnd) (hu : u ≤ 1 / 1000) {V σ : ℝ} {faceArea dots : Vec4 ℝ}
    (hσ : 2500 * u * ((∑ f, |rsigned rnd faceArea dots f|) + |σ| * |V|) + |∑ f, rsigned rnd faceArea dots f| < σ * V)
    (c2f : Fin 4 → Fin 4 → Fin 3) (lpb : Fin 3 → Fin 4 → ℝ) (q : Vec4 ℝ) :
    ∃ x, rsolve rnd V faceArea dots σ c2f lpb q = some x := by
  have hu0 := R.small.1
  by_contra hno
  have h : rsolve rnd V faceArea dots σ c2f lpb q = none := by
    cases hr : rsolve rnd V faceArea dots σ c2f lpb q with
    | none => rfl
    | some x => exact absurd ⟨x, hr⟩ hno
  set s := rsigned rnd faceArea dots with hs
  change 2500 * u * scale V σ s + _ < _ at hσ
  have hT : 0 ≤ scale V σ s := by unfold scale; positivity
  unfold rsolve at h
  rw [← hs] at h
  have p8 := pow8 hu0 hu
  have e1 : ∀ i j, |exactEntry V σ s i j - routgoing rnd s (rvolumeIntegrals rnd V s σ) i j| ≤ 2.03 * (u * scale V σ s) := fun i j => by
    have a := (entry_app R V σ s i j).1
    have b := boundEntry_le V σ s i j
    have c : ((1 + u) ^ 8 - 1) * boundEntry V σ s i j ≤ 8.1 * u * (scale V σ s / 4) :=
      mul_le_mul p8 b ((abs_nonneg _).trans (entry_app R V σ s i j).2) (by positivity)
    have : 0 ≤ u * scale V σ s := mul_nonneg hu0 hT
    rw [abs_sub_comm]
    linarith
  have e2 : ∀ i j, |routgoing rnd s (rvolumeIntegrals rnd V s σ) i j| ≤ 0.2521 * scale V σ s := fun i j => by
    have a := abs_sub (exactEntry V σ s i j) (exactEntry V σ s i j - routgoing rnd s (rvolumeIntegrals rnd V s σ) i j)
    rw [sub_sub_cancel] at a
    have b := (entry_app R V σ s i j).2.trans (boundEntry_le V σ s i j)
    have := mul_le_mul_of_nonneg_right hu hT
    linarith [e1 i j]
  obtain ⟨x, k, hk, hmax, hsing⟩ := none_singular R hu e2 h
  have hX : 0 < |x k| := abs_pos.2 hk
  -- the exact matrix applied to `x`
  have row : ∀ i, |rowDefect V σ s 0 0 x i| ≤ 31 * (u * (scale V σ s * |x k|)) := by
    intro i
    rw [rowDefect_eq]
    have z : exactSide V s 0 0 i = 0 := by simp [exactSide]
    rw [z, sub_zero]
    have a := small4 (e1 i 0) (e1 i 1) (e1 i 2) (e1 i 3) (hmax 0) (hmax 1) (hmax 2) (hmax 3)
    have b := abs_add_le _ _ |>.trans (add_le_add a (hsing i))
    have c : 0 ≤ u * (scale V σ s * |x k|) := by positivity
    refine (le_of_eq (congrArg abs ?_)).trans (b.trans ?_)
    · ring
    · linarith
  have en := defect_energy V σ s 0 x 0
  have face : 0 ≤ ∑ f, faceTerm s x 0 f := by
    refine Finset.sum_nonneg fun f _ => ?_
    by_cases hf : 0 < s f
    · rw [faceTerm_out hf]
      exact mul_nonneg (by linarith) (faceM_nonneg f x)
    · refine le_trans (le_of_eq ?_) (faceTerm_in (not_lt.1 hf))
      simp [faceM]
  have zero : cellM (0 : Vec4 ℝ) x = 0 := by simp [cellM]
  rw [zero, mul_zero, sub_zero] at en
  have up : ∑ i, x i * rowDefect V σ s 0 0 x i ≤ 124 * (u * (scale V σ s * |x k|)) * |x k| := by
    have : ∀ i ∈ (univ : Finset (Fin 4)), x i * rowDefect V σ s 0 0 x i ≤ |x k| * (31 * (u * (scale V σ s * |x k|))) := fun i _ =>
      (le_abs_self _).trans (abs_mul_le' (hmax i) (row i))
    have := Finset.sum_le_sum this
    simp only [Finset.sum_const, Finset.card_univ, Fintype.card_fin, nsmul_eq_mul] at this
    push_cast at this
    linarith
  have cm := cellM_ge x k
  have cm0 := cellM_nonneg x
  have hcl : -|∑ f, s f| ≤ ∑ f, s f := neg_abs_le _
  have low : (σ * V - |∑ f, s f|) * cellM x x ≤ 124 * (u * (scale V σ s * |x k|)) * |x k| := by
    have h1 := mul_le_mul_of_nonneg_right hcl cm0
    have h2 : 0 ≤ |∑ f, s f| * cellM x x := by positivity
    linarith
  have hgap : 2500 * u * scale V σ s < σ * V - |∑ f, s f| := by linarith
  have hge : 0 ≤ 2500 * u * scale V σ s := by positivity
  have h3 : 2500 * u * scale V σ s * (x k ^ 2 / 20) < (σ * V - |∑ f, s f|) * cellM x x := by
    have hp : 0 < x k ^ 2 / 20 := by positivity
    calc 2500 * u * scale V σ s * (x k ^ 2 / 20) < (σ * V - |∑ f, s f|) * (x k ^ 2 / 20) := mul_lt_mul_of_pos_right hgap hp
      _ ≤ _ := mul_le_mul_of_nonneg_left cm (by linarith)
  have h4 : 124 * (u * (scale V σ s * |x k|)) * |x k| = 124 * (u * scale V σ s) * x k ^ 2 := by
    rw [← sq_abs (x k)]; ring
  rw [h4] at low
  have h5 : 0 ≤ u * scale V σ s * x k ^ 2 := by positivity
  linarith

end Verif.Rounding
