import Verif.Quadrature.Check
import Verif.Quadrature.Trig
import Mathlib.Algebra.BigOperators.Group.List.Basic
import Mathlib.Tactic.Positivity
import Mathlib.Tactic.LinearCombination
import Mathlib.Analysis.SpecialFunctions.Trigonometric.Angle
import Mathlib.Data.Rat.Cast.CharZero
import Mathlib.Data.List.GetD

set_option linter.unusedSectionVars false

namespace Verif.Quadrature

/-! ### The loops write every entry once -/

theorem fill {α : Type} (step : List α → Nat → Option (List α)) (f : Nat → α) (z : α)
    (P : List α) (r : Nat) : ∀ m : Nat,
    (∀ k < m, ∀ A B : List α, A.length = P.length + k → step (A ++ z :: B) k = some (A ++ f k :: B)) →
    (List.range m).foldlM step (P ++ List.replicate (m + r) z)
      = some (P ++ (List.range m).map f ++ List.replicate r z) := by
  intro m
  induction m generalizing r with
  | zero => intro _; simp
  | succ m ih =>
    intro h
    have h1 := ih (r + 1) (fun k hk => h k (by omega))
    rw [List.range_succ, List.foldlM_append]
    rw [show m + 1 + r = m + (r + 1) by omega, h1]
    simp only [List.foldlM_cons, List.foldlM_nil, Option.bind_eq_bind, Option.bind_some]
    rw [List.replicate_succ, h m (by omega) _ _ (by simp)]
    simp [List.append_assoc]

theorem fill2 {α : Type} (step : Nat → List α → Nat → Option (List α)) (f : Nat → Nat → α) (z : α)
    (M : Nat) : ∀ n r : Nat,
    (∀ i < n, ∀ k < M, ∀ A B : List α, A.length = i * M + k →
      step i (A ++ z :: B) k = some (A ++ f i k :: B)) →
    (List.range n).foldlM (fun arr i => (List.range M).foldlM (step i) arr)
        (List.replicate (n * M + r) z)
      = some ((List.range n).flatMap (fun i => (List.range M).map (f i)) ++ List.replicate r z) := by
  intro n
  induction n with
  | zero => intro r _; simp
  | succ n ih =>
    intro r h
    have h1 := ih (M + r) (fun i hi => h i (by omega))
    rw [List.range_succ, List.foldlM_append]
    rw [show (n + 1) * M + r = n * M + (M + r) by ring, h1]
    simp only [List.foldlM_cons, List.foldlM_nil, Option.bind_eq_bind, Option.bind_some]
    have hlen : ((List.range n).flatMap (fun i => (List.range M).map (f i))).length = n * M := by
      simp [List.length_flatMap]
    rw [fill (step n) (f n) z _ r M (by
      intro k hk A B hA
      exact h n (by omega) k hk A B (by rw [hA, hlen]))]
    simp [List.flatMap_append]

/-- What the accepted tables look like; entries as reals. -/
structure Tab (N : Nat) (W X : Nat → ℝ) : Prop where
  two : 2 ≤ N
  even : N % 2 = 0
  wpos : ∀ i < N, 0 < W i
  xne : ∀ i < N, X i ≠ 0
  xlo : ∀ i < N, -1 < X i
  xhi : ∀ i < N, X i < 1
  wsym : ∀ i < N, W (N - 1 - i) = W i
  xsym : ∀ i < N, X (N - 1 - i) = - X i
  xmono : ∀ i, i + 1 < N → X i < X (i + 1)
  acc : ∀ j c, j + c < N →
    |∑ i ∈ Finset.range N, W i * (1 - X i ^ 2) ^ j * X i ^ (2 * c) - (exactQ j (2 * c) : ℝ)| ≤ 1 / 10 ^ 14

theorem sum_zip {β : Type} [AddCommMonoid β] (f : Int × Int → β) : ∀ (a b : List Int),
    a.length = b.length →
    ((a.zip b).map f).sum = ∑ i ∈ Finset.range a.length, f (a.getD i 0, b.getD i 0)
  | [], [], _ => by simp
  | x :: a, y :: b, h => by
    rw [List.zip_cons_cons, List.map_cons, List.sum_cons, List.length_cons, Finset.sum_range_succ',
      sum_zip f a b (by simpa using h)]
    simp [add_comm]

theorem table_term (w x : ℝ) (j c : Nat) :
    w / 10 ^ 16 * (1 - (x / 10 ^ 16) ^ 2) ^ j * (x / 10 ^ 16) ^ (2 * c)
      = w * (10 ^ 32 - x ^ 2) ^ j * (x ^ 2) ^ c / 10 ^ (16 * (1 + 2 * j + 2 * c)) := by
  have hT : (10 : ℝ) ^ 32 = (10 ^ 16) ^ 2 := by rw [← pow_mul]
  have hp : (0 : ℝ) < 10 ^ 16 := by positivity
  rw [hT, pow_mul (10 : ℝ) 16 (1 + 2 * j + 2 * c)]
  generalize (10 : ℝ) ^ 16 = T at hp
  have hT0 : T ≠ 0 := hp.ne'
  have e1 : 1 - (x / T) ^ 2 = (T ^ 2 - x ^ 2) / T ^ 2 := by field_simp
  rw [e1, div_pow, pow_mul, div_pow x T 2, div_pow, pow_add, pow_add, pow_one, pow_mul, pow_mul]
  have h1 : (T ^ 2) ^ j ≠ 0 := by positivity
  have h2 : (T ^ 2) ^ c ≠ 0 := by positivity
  generalize (T ^ 2) ^ j = A at *
  generalize (T ^ 2) ^ c = B at *
  field_simp

theorem tab_of_good {N gw gn} (h : good N gw gn = true) :
    Tab N (fun i => dec (gw.getD i 0)) (fun i => dec (gn.getD i 0)) := by
  simp only [good, Bool.and_eq_true, decide_eq_true_eq, List.all_eq_true, List.mem_range] at h
  obtain ⟨⟨⟨⟨⟨⟨⟨⟨⟨hlw, hln⟩, h2⟩, hev⟩, hwp⟩, hxb⟩, hwr⟩, hxr⟩, hmono⟩, hacc⟩ := h
  have hp : (0 : ℝ) < 10 ^ 16 := by positivity
  have memw : ∀ i < N, gw.getD i 0 ∈ gw := by
    intro i hi
    rw [List.getD_eq_getElem _ _ (by omega)]; exact List.getElem_mem _
  have memn : ∀ i < N, gn.getD i 0 ∈ gn := by
    intro i hi
    rw [List.getD_eq_getElem _ _ (by omega)]; exact List.getElem_mem _
  have hb : ∀ i < N, -10 ^ 16 < gn.getD i 0 ∧ gn.getD i 0 < 10 ^ 16 :=
    fun i hi => (hxb _ (memn i hi)).2
  refine ⟨h2, hev, ?_, ?_, ?_, ?_, ?_, ?_, ?_, ?_⟩
  · intro i hi
    have := hwp _ (memw i hi)
    exact div_pos (by exact_mod_cast this) hp
  · intro i hi
    have := (hxb _ (memn i hi)).1
    exact div_ne_zero (by exact_mod_cast this) hp.ne'
  · intro i hi
    show -1 < dec _
    unfold dec
    rw [lt_div_iff₀ hp]
    have h1 : ((-10 ^ 16 : Int) : ℝ) < ((gn.getD i 0 : Int) : ℝ) := Int.cast_lt.mpr (hb i hi).1
    push_cast at h1
    linarith
  · intro i hi
    show dec _ < 1
    unfold dec
    rw [div_lt_one hp]
    have h1 : ((gn.getD i 0 : Int) : ℝ) < ((10 ^ 16 : Int) : ℝ) := Int.cast_lt.mpr (hb i hi).2
    push_cast at h1
    linarith
  · intro i hi
    show dec _ = dec _
    have : gw.getD (N - 1 - i) 0 = gw.getD i 0 := by
      conv_rhs => rw [← hwr]
      rw [List.getD_eq_getElem _ _ (by omega), List.getD_eq_getElem _ _ (by simp; omega),
        List.getElem_reverse]
      simp [hlw]
    rw [this]
  · intro i hi
    show dec _ = - dec _
    have : gn.getD (N - 1 - i) 0 = - gn.getD i 0 := by
      have h1 : gn.reverse[i]'(by simp; omega) = (gn.map fun n => -n)[i]'(by simp; omega) := by
        simp only [hxr]
      rw [List.getElem_reverse, List.getElem_map] at h1
      rw [List.getD_eq_getElem _ _ (by omega), List.getD_eq_getElem _ _ (by omega), ← h1]
      simp [hln]
    rw [this]
    unfold dec
    push_cast
    ring
  · intro i hi
    have := hmono i (by omega)
    show dec _ < dec _
    unfold dec
    exact (div_lt_div_iff_of_pos_right hp).mpr (by exact_mod_cast this)
  · intro j c hjc
    have h1 := hacc j (by omega) c (by omega)
    simp only [accurate, decide_eq_true_eq] at h1
    set E := exactQ j (2 * c) with hE
    set S := sumN gw gn j (2 * c) with hS
    set U : Nat := 10 ^ (16 * (1 + 2 * j + 2 * c)) with hU
    have hUpos : (0 : ℝ) < (U : ℝ) := by rw [hU]; positivity
    have hden : (0 : ℝ) < (E.den : ℝ) := by exact_mod_cast E.den_pos
    have hsum : ∑ i ∈ Finset.range N, dec (gw.getD i 0) * (1 - dec (gn.getD i 0) ^ 2) ^ j *
        dec (gn.getD i 0) ^ (2 * c) = (S : ℝ) / U := by
      rw [hS, sumN, sum_zip _ _ _ (by omega), hlw]
      rw [Nat.cast_sum, Finset.sum_div]
      refine Finset.sum_congr rfl fun i hi => ?_
      rw [Finset.mem_range] at hi
      have hw0 : ((gw.getD i 0).natAbs : ℝ) = (gw.getD i 0 : ℝ) := by
        have := hwp _ (memw i hi)
        have h3 : ((gw.getD i 0).natAbs : Int) = gw.getD i 0 := by omega
        rw [← Int.cast_natCast, h3]
      have hx2 : ((gn.getD i 0).natAbs : ℝ) ^ 2 = (gn.getD i 0 : ℝ) ^ 2 := by
        rw [Nat.cast_natAbs, Int.cast_abs, sq_abs]
      have hle : (gn.getD i 0).natAbs ^ 2 ≤ 10 ^ 32 := by
        have := hb i hi
        have h3 : (gn.getD i 0).natAbs ≤ 10 ^ 16 := by omega
        calc _ ≤ (10 ^ 16) ^ 2 := Nat.pow_le_pow_left h3 2
          _ = 10 ^ 32 := by norm_num
      rw [Nat.cast_mul, Nat.cast_mul, Nat.cast_pow, Nat.cast_pow, Nat.cast_sub hle, Nat.cast_pow,
        Nat.cast_pow, Nat.cast_ofNat]
      rw [hw0, hx2, pow_mul (((gn.getD i 0).natAbs : ℝ)), hx2]
      unfold dec
      rw [hU, Nat.cast_pow, Nat.cast_ofNat]
      exact table_term _ _ _ _
    have hEq : (E : ℝ) = (E.num : ℝ) / (E.den : ℝ) := by
      exact_mod_cast (Rat.num_div_den E).symm
    rw [hsum, hEq]
    have h2 : |(S : ℝ) * E.den - U * E.num| * 10 ^ 14 ≤ U * E.den := by
      have h3 : ((((S : Int) * (E.den : Int) - (U : Int) * E.num).natAbs * 10 ^ 14 : Nat) : ℝ)
          ≤ ((((U : Int) * (E.den : Int)).natAbs : Nat) : ℝ) := by exact_mod_cast h1
      rw [Nat.cast_mul, Nat.cast_natAbs, Nat.cast_natAbs, Int.cast_abs, Int.cast_abs] at h3
      push_cast at h3
      rw [abs_of_nonneg (by positivity : (0 : ℝ) ≤ (U : ℝ) * E.den)] at h3
      linarith
    rw [div_sub_div _ _ hUpos.ne' hden.ne', abs_div, abs_of_pos (mul_pos hUpos hden),
      div_le_div_iff₀ (mul_pos hUpos hden) (by positivity)]
    linarith

theorem quadrature_eq {N gw gn} (h : tables N = some (gw, gn)) :
    quadrature N = some ((List.range N).flatMap fun i =>
      (List.range (2 * N)).map fun k => direction N (dec (gw.getD i 0)) (dec (gn.getD i 0)) k) := by
  have hg := tables_good h
  simp only [good, Bool.and_eq_true, decide_eq_true_eq, List.all_eq_true, List.mem_range] at hg
  obtain ⟨⟨⟨⟨⟨⟨⟨⟨⟨hlw, hln⟩, -⟩, -⟩, -⟩, -⟩, -⟩, -⟩, -⟩, -⟩ := hg
  have h2 := fill2 (storeDir N gw gn)
      (fun i k => direction N (dec (gw.getD i 0)) (dec (gn.getD i 0)) k) Dir.zero (2 * N) N 0 (by
    intro i hi k hk A B hA
    have hA' : A.length = i * 2 * N + k := by rw [hA]; ring
    simp only [storeDir, List.getElem?_eq_getElem (show i < gw.length by omega),
      List.getElem?_eq_getElem (show i < gn.length by omega)]
    rw [if_pos (by simp; omega), ← hA', List.set_append_right _ _ (le_refl _)]
    simp [show i < gw.length by omega, show i < gn.length by omega])
  rw [show N * (2 * N) + 0 = 2 * N * N by ring] at h2
  unfold quadrature
  simp only [h]
  rw [h2]
  simp

theorem tables_of {N Q} (h : quadrature N = some Q) : ∃ gw gn, tables N = some (gw, gn) := by
  unfold quadrature at h
  cases ht : tables N with
  | none => simp [ht] at h
  | some p => exact ⟨p.1, p.2, rfl⟩

theorem quadrature_list {N Q} (h : quadrature N = some Q) :
    ∃ W X : Nat → ℝ, Tab N W X ∧
      Q = (List.range N).flatMap fun i =>
        (List.range (2 * N)).map fun k => direction N (W i) (X i) k := by
  obtain ⟨gw, gn, ht⟩ := tables_of h
  exact ⟨_, _, tab_of_good (tables_good ht), Option.some.inj (h.symm.trans (quadrature_eq ht))⟩

theorem flat_get {α : Type} (g : Nat → Nat → α) (M : Nat) : ∀ n i k, i < n → k < M →
    ((List.range n).flatMap fun i => (List.range M).map (g i))[i * M + k]? = some (g i k) := by
  intro n
  induction n with
  | zero => intro i k hi; omega
  | succ n ih =>
    intro i k hi hk
    have hlen : ((List.range n).flatMap (fun i => (List.range M).map (g i))).length = n * M := by
      simp [List.length_flatMap]
    rw [List.range_succ, List.flatMap_append]
    rcases Nat.lt_succ_iff_lt_or_eq.mp hi with h | h
    · rw [List.getElem?_append_left]
      · exact ih i k h hk
      · rw [hlen]
        have : (i + 1) * M ≤ n * M := Nat.mul_le_mul_right _ h
        have : (i + 1) * M = i * M + M := by ring
        omega
    · subst h
      rw [List.getElem?_append_right (by omega), hlen]
      simp [hk]

theorem list_sum {β : Type} [AddCommMonoid β] (f : Nat → β) : ∀ n : Nat,
    ((List.range n).map f).sum = ∑ i ∈ Finset.range n, f i
  | 0 => by simp
  | n + 1 => by
    rw [List.range_succ, List.map_append, List.sum_append, list_sum f n, Finset.sum_range_succ]
    simp

theorem sum_flat {α : Type} (f : α → ℝ) (g : Nat → Nat → α) (M : Nat) : ∀ n : Nat,
    ((((List.range n).flatMap fun i => (List.range M).map (g i)).map f).sum)
      = ∑ i ∈ Finset.range n, ∑ k ∈ Finset.range M, f (g i k)
  | 0 => by simp
  | n + 1 => by
    rw [List.range_succ, List.flatMap_append, List.map_append, List.sum_append, sum_flat f g M n,
      Finset.sum_range_succ]
    congr 1
    simp only [List.flatMap_cons, List.flatMap_nil, List.append_nil, List.map_map]
    rw [← list_sum]
    rfl

end Verif.Quadrature
