import Verif.Rounding.Residual
import Verif.Transport.Spec
import Mathlib.Tactic.FinCases
import Mathlib.Algebra.BigOperators.Field

/-!
# The residual of the solve in one cell (C96)
-/
namespace Verif.Rounding.Spec

open Finset Verif.Transport.Spec

/-- By how much `psi` misses row `i` of the documented system. -/
noncomputable def rowDefect (V σ : ℝ) (area : Fin 4 → ℝ) (inc : Fin 4 → Fin 4 → ℝ) (Q psi : Fin 4 → ℝ) (i : Fin 4) : ℝ :=
  (∑ f ∈ univ.erase i, area f / 12 *
      (2 * upwind area psi inc f i + ∑ j ∈ (univ.erase f).erase i, upwind area psi inc f j))
    + area i / 12 * (∑ j, psi j)
    + σ * V / 20 * (2 * psi i + ∑ j ∈ univ.erase i, psi j)
  - V / 20 * (2 * Q i + ∑ j ∈ univ.erase i, Q j)

end Verif.Rounding.Spec

namespace Verif.Rounding

open Verif.Transport Verif.Transport.Spec Verif.Rounding.Spec Finset

variable {u : ℝ} {rnd : ℝ → ℝ}

/-- No defect: the documented system. -/
theorem rowDefect_zero (V σ : ℝ) (area : Fin 4 → ℝ) (inc : Fin 4 → Fin 4 → ℝ) (Q psi : Fin 4 → ℝ) (i : Fin 4) :
    rowDefect V σ area inc Q psi i = 0 ↔ DGRow V σ area inc Q psi i := sub_eq_zero

/-- The entry of the exact matrix. -/
noncomputable def exactEntry (V σ : ℝ) (s : Vec4 ℝ) (i j : Fin 4) : ℝ :=
  s i / 12 + twice i j * σ * V / 20 + ∑ f, if s f > 0 ∧ i ≠ f ∧ j ≠ f then twice i j * s f / 12 else 0

/-- The entry of the exact right-hand side. -/
noncomputable def exactSide (V : ℝ) (s : Vec4 ℝ) (inc : Fin 4 → Fin 4 → ℝ) (q : Vec4 ℝ) (i : Fin 4) : ℝ :=
  V / 20 * (∑ j, twice i j * q j) - ∑ f, if s f < 0 ∧ i ≠ f then ∑ v, (if v ≠ f then twice i v * s f / 12 * inc f v else 0) else 0

theorem face_split (s psi : Vec4 ℝ) (inc : Fin 4 → Fin 4 → ℝ) (f v : Fin 4) :
    s f * upwind s psi inc f v = (if s f > 0 then s f else 0) * psi v + (if s f < 0 then s f else 0) * inc f v := by
  unfold upwind
  rcases lt_trichotomy (s f) 0 with h | h | h
  · rw [if_neg (not_lt.2 h.le), if_neg (not_lt.2 h.le), if_pos h]; ring
  · rw [h]; simp
  · rw [if_pos h, if_pos h, if_neg (not_lt.2 h.le)]; ring

theorem rowDefect_eq (V σ : ℝ) (s : Vec4 ℝ) (inc : Fin 4 → Fin 4 → ℝ) (q psi : Vec4 ℝ) (i : Fin 4) :
    rowDefect V σ s inc q psi i = exactEntry V σ s i 0 * psi 0 + exactEntry V σ s i 1 * psi 1 + exactEntry V σ s i 2 * psi 2 +
      exactEntry V σ s i 3 * psi 3 - exactSide V s inc q i := by
  have hs := face_split s psi inc
  have c1 : ∀ (p q : Prop) [Decidable p] [Decidable q] (a b : ℝ), (if p ∧ q then a * b else 0) = (if p then b else 0) * (if q then a else 0) := by
    intro p q _ _ a b
    by_cases hp : p <;> by_cases hq : q <;> simp [hp, hq, mul_comm]
  have c2 : ∀ (p q : Prop) [Decidable p] [Decidable q] (a : ℝ), (if p ∧ q then a else 0) = (if p then (if q then a else 0) else 0) := by
    intro p q _ _ a
    by_cases hp : p <;> by_cases hq : q <;> simp [hp, hq]
  unfold rowDefect exactEntry exactSide
  have e0 : (univ.erase 0 : Finset (Fin 4)) = {1, 2, 3} := by decide
  have e1 : (univ.erase 1 : Finset (Fin 4)) = {0, 2, 3} := by decide
  have e2 : (univ.erase 2 : Finset (Fin 4)) = {0, 1, 3} := by decide
  have e3 : (univ.erase 3 : Finset (Fin 4)) = {0, 1, 2} := by decide
  have w : ∀ f v, s f / 12 * upwind s psi inc f v = ((if s f > 0 then s f else 0) * psi v + (if s f < 0 then s f else 0) * inc f v) / 12 := by
    intro f v
    rw [← hs]; ring
  have k : ∀ (f : Fin 4) (x y z : ℝ), s f / 12 * (2 * x + (y + z)) = 2 * (s f / 12 * x) + s f / 12 * y + s f / 12 * z := by
    intro f x y z; ring
  have pp : ∀ (f : Fin 4) (p : Prop) [Decidable p] (t : ℝ), (if s f > 0 ∧ p then t * s f / 12 else 0) =
      (if s f > 0 then s f else 0) * (if p then t / 12 else 0) := by
    intro f p _ t
    by_cases h1 : s f > 0 <;> by_cases h2 : p <;> simp [h1, h2]
    ring
  have pm : ∀ (f : Fin 4) (p : Prop) [Decidable p] (g : Fin 4 → ℝ), (if s f < 0 ∧ p then ∑ v, (if v ≠ f then g v * s f / 12 * inc f v else 0) else 0) =
      (if s f < 0 then s f else 0) * (if p then ∑ v, (if v ≠ f then g v / 12 * inc f v else 0) else 0) := by
    intro f p _ g
    by_cases h1 : s f < 0 <;> by_cases h2 : p <;> simp only [h1, h2, and_self, and_false, false_and, if_true, if_false, mul_zero, zero_mul]
    rw [Finset.mul_sum]
    refine Finset.sum_congr rfl fun v _ => ?_
    split_ifs
    · ring
    · ring
  simp only [pp, pm]
  generalize hP : (fun f => if s f > 0 then s f else 0) = P at *
  generalize hN : (fun f => if s f < 0 then s f else 0) = N at *
  have hP' : ∀ f, (if s f > 0 then s f else 0) = P f := fun f => congrFun hP f
  have hN' : ∀ f, (if s f < 0 then s f else 0) = N f := fun f => congrFun hN f
  simp only [hP', hN'] at *
  fin_cases i
  · have a1 : (univ.erase 1 : Finset (Fin 4)).erase 0 = {2, 3} := by decide
    have a2 : (univ.erase 2 : Finset (Fin 4)).erase 0 = {1, 3} := by decide
    have a3 : (univ.erase 3 : Finset (Fin 4)).erase 0 = {1, 2} := by decide
    simp [e0, a1, a2, a3, Fin.sum_univ_four, twice, k, w]
    ring
  · have a1 : (univ.erase 0 : Finset (Fin 4)).erase 1 = {2, 3} := by decide
    have a2 : (univ.erase 2 : Finset (Fin 4)).erase 1 = {0, 3} := by decide
    have a3 : (univ.erase 3 : Finset (Fin 4)).erase 1 = {0, 2} := by decide
    simp [e1, a1, a2, a3, Fin.sum_univ_four, twice, k, w]
    ring
  · have a1 : (univ.erase 0 : Finset (Fin 4)).erase 2 = {1, 3} := by decide
    have a2 : (univ.erase 1 : Finset (Fin 4)).erase 2 = {0, 3} := by decide
    have a3 : (univ.erase 3 : Finset (Fin 4)).erase 2 = {0, 1} := by decide
    simp [e2, a1, a2, a3, Fin.sum_univ_four, twice, k, w]
    ring
  · have a1 : (univ.erase 0 : Finset (Fin 4)).erase 3 = {1, 2} := by decide
    have a2 : (univ.erase 1 : Finset (Fin 4)).erase 3 = {0, 2} := by decide
    have a3 : (univ.erase 2 : Finset (Fin 4)).erase 3 = {0, 1} := by decide
    simp [e3, a1, a2, a3, Fin.sum_univ_four, twice, k, w]
    ring

theorem twice_abs (i j : Fin 4) : |twice i j| = twice i j := by
  unfold twice; split_ifs <;> norm_num

theorem twice_le (i j : Fin 4) : twice i j ≤ 2 := by
  unfold twice; split_ifs <;> norm_num

/-- One conditional addition. -/
theorem App.addIf (R : Rounds u rnd) {k : ℕ} {x t s y r q : ℝ} (h : App u k x t s) (c : Prop) [Decidable c] (h' : App u k y r q) :
    App u (k + 1) (if c then rnd (x + y) else x) (t + if c then r else 0) (s + if c then q else 0) := by
  split_ifs
  · exact (h.add h').round R
  · rw [add_zero, add_zero]; exact h.mono R.small.1 (by omega)

/-- One conditional subtraction. -/
theorem App.subIf (R : Rounds u rnd) {k : ℕ} {x t s y r q : ℝ} (h : App u k x t s) (c : Prop) [Decidable c] (h' : App u k y r q) :
    App u (k + 1) (if c then rnd (x - y) else x) (t - if c then r else 0) (s + if c then q else 0) := by
  split_ifs
  · exact (h.sub h').round R
  · rw [add_zero, sub_zero]; exact h.mono R.small.1 (by omega)

/-- The entry with all terms taken positive. -/
noncomputable def boundEntry (V σ : ℝ) (s : Vec4 ℝ) (i j : Fin 4) : ℝ :=
  |s i| / 12 + twice i j * |σ| * |V| / 20 + ∑ f, if s f > 0 ∧ i ≠ f ∧ j ≠ f then twice i j * |s f| / 12 else 0

theorem finRange4 : List.finRange 4 = [0, 1, 2, 3] := by decide

theorem entry_app (R : Rounds u rnd) (V σ : ℝ) (s : Vec4 ℝ) (i j : Fin 4) :
    App u 8 (routgoing rnd s (rvolumeIntegrals rnd V s σ) i j) (exactEntry V σ s i j) (boundEntry V σ s i j) := by
  have hu := R.small.1
  have h12 : (0 : ℝ) < 12 := by norm_num
  have h20 : (0 : ℝ) < 20 := by norm_num
  have base : App u 4 (rvolumeIntegrals rnd V s σ i j) (s i / 12 + twice i j * σ * V / 20) (|s i| / 12 + twice i j * |σ| * |V| / 20) := by
    have a1 := (((App.exact (u := u) (s i)).div h12).round R).mono hu (show 0 + 1 ≤ 3 by omega)
    have a2 := ((((((App.exact (u := u) (twice i j)).mul hu (App.exact (u := u) σ)).round R).mul hu (App.exact (u := u) V)).round R).div h20).round R
    rw [twice_abs] at a2
    exact (a1.add a2).round R
  have out : ∀ f k, 2 ≤ k → App u k (rnd (rnd (twice i j * s f) / 12)) (twice i j * s f / 12) (twice i j * |s f| / 12) := by
    intro f k hk
    have a := ((((App.exact (u := u) (twice i j)).mul hu (App.exact (u := u) (s f))).round R).div h12).round R
    rw [twice_abs] at a
    exact a.mono hu hk
  unfold routgoing exactEntry boundEntry
  rw [finRange4, Fin.sum_univ_four, Fin.sum_univ_four]
  simp only [List.foldl_cons, List.foldl_nil]
  have := (((base.addIf R (s 0 > 0 ∧ i ≠ 0 ∧ j ≠ 0) (out 0 4 (by omega))).addIf R (s 1 > 0 ∧ i ≠ 1 ∧ j ≠ 1) (out 1 5 (by omega))).addIf R
    (s 2 > 0 ∧ i ≠ 2 ∧ j ≠ 2) (out 2 6 (by omega))).addIf R (s 3 > 0 ∧ i ≠ 3 ∧ j ≠ 3) (out 3 7 (by omega))
  simp only [← add_assoc] at this ⊢
  exact this

/-- The right-hand side with all terms taken positive. -/
noncomputable def boundSide (V : ℝ) (s : Vec4 ℝ) (inc : Fin 4 → Fin 4 → ℝ) (q : Vec4 ℝ) (i : Fin 4) : ℝ :=
  |V| / 20 * (∑ j, twice i j * |q j|) + ∑ f, if s f < 0 ∧ i ≠ f then ∑ v, (if v ≠ f then twice i v * |s f| / 12 * |inc f v| else 0) else 0

theorem source_app (R : Rounds u rnd) (V : ℝ) (q : Vec4 ℝ) (i : Fin 4) :
    App u 6 (rsource rnd V q i) (V / 20 * ∑ j, twice i j * q j) (|V| / 20 * ∑ j, twice i j * |q j|) := by
  have hu := R.small.1
  have hV := ((App.exact (u := u) V).div (show (0 : ℝ) < 20 by norm_num)).round R
  have h1 : ∀ j k, 0 ≤ k → App u k (q j) (q j) |q j| := fun j k hk => (App.exact (u := u) (q j)).mono hu hk
  have h2 : ∀ j k, 1 ≤ k → App u k (rnd (2 * q j)) (2 * q j) (2 * |q j|) := fun j k hk => by
    have := ((App.exact (u := u) 2).mul hu (App.exact (u := u) (q j))).round R
    rw [abs_two] at this
    exact this.mono hu hk
  rw [Fin.sum_univ_four, Fin.sum_univ_four]
  match i with
  | 0 =>
    have := (hV.mul hu ((((((h2 0 1 (by omega)).add (h1 1 1 (by omega))).round R).add (h1 2 2 (by omega))).round R).add (h1 3 3 (by omega))|>.round R)).round R
    simpa [twice, rsource] using this
  | 1 =>
    have := (hV.mul hu ((((((h1 0 1 (by omega)).add (h2 1 1 (by omega))).round R).add (h1 2 2 (by omega))).round R).add (h1 3 3 (by omega))|>.round R)).round R
    simpa [twice, rsource] using this
  | 2 =>
    have := (hV.mul hu ((((((h1 0 1 (by omega)).add (h1 1 1 (by omega))).round R).add (h2 2 2 (by omega))).round R).add (h1 3 3 (by omega))|>.round R)).round R
    simpa [twice, rsource] using this
  | 3 =>
    have := (hV.mul hu ((((((h1 0 1 (by omega)).add (h1 1 1 (by omega))).round R).add (h1 2 2 (by omega))).round R).add (h2 3 3 (by omega))|>.round R)).round R
    simpa [twice, rsource] using this

theorem side_app (R : Rounds u rnd) (V : ℝ) (s : Vec4 ℝ) (c2f : Fin 4 → Fin 4 → Fin 3) (lpb : Fin 3 → Fin 4 → ℝ) (q : Vec4 ℝ) (i : Fin 4) :
    App u 22 (rincoming rnd c2f lpb s (rsource rnd V q) i) (exactSide V s (fun f v => lpb (c2f f v) f) q i)
      (boundSide V s (fun f v => lpb (c2f f v) f) q i) := by
  have hu := R.small.1
  have inn : ∀ f v k, 3 ≤ k → App u k (rnd (rnd (rnd (twice i v * s f) / 12) * lpb (c2f f v) f)) (twice i v * s f / 12 * lpb (c2f f v) f)
      (twice i v * |s f| / 12 * |lpb (c2f f v) f|) := by
    intro f v k hk
    have a := ((((((App.exact (u := u) (twice i v)).mul hu (App.exact (u := u) (s f))).round R).div (show (0 : ℝ) < 12 by norm_num)).round R).mul hu
      (App.exact (u := u) (lpb (c2f f v) f))).round R
    rw [twice_abs] at a
    exact a.mono hu hk
  have face : ∀ (f : Fin 4) (k : ℕ) (x t w : ℝ), 3 ≤ k → App u k x t w → App u (k + 4)
      (if s f < 0 ∧ i ≠ f then (List.finRange 4).foldl (fun x v =>
        if v ≠ f then rnd (x - rnd (rnd (rnd (twice i v * s f) / 12) * lpb (c2f f v) f)) else x) x else x)
      (t - if s f < 0 ∧ i ≠ f then ∑ v, (if v ≠ f then twice i v * s f / 12 * lpb (c2f f v) f else 0) else 0)
      (w + if s f < 0 ∧ i ≠ f then ∑ v, (if v ≠ f then twice i v * |s f| / 12 * |lpb (c2f f v) f| else 0) else 0) := by
    intro f k x t w hk h
    by_cases hc : s f < 0 ∧ i ≠ f
    · rw [if_pos hc, if_pos hc, if_pos hc, finRange4, Fin.sum_univ_four, Fin.sum_univ_four]
      simp only [List.foldl_cons, List.foldl_nil]
      have := (((h.subIf R (0 ≠ f) (inn f 0 k (by omega))).subIf R (1 ≠ f) (inn f 1 (k + 1) (by omega))).subIf R (2 ≠ f) (inn f 2 (k + 2) (by omega))).subIf R
        (3 ≠ f) (inn f 3 (k + 3) (by omega))
      simp only [sub_sub, ← add_assoc] at this ⊢
      exact this
    · rw [if_neg hc, if_neg hc, if_neg hc, sub_zero, add_zero]
      exact h.mono hu (by omega)
  unfold rincoming exactSide boundSide
  conv in (occs := *) (List.foldl _ (rsource rnd V q i) _) => rw [finRange4]
  rw [Fin.sum_univ_four (f := fun f => if s f < 0 ∧ i ≠ f then _ else _), Fin.sum_univ_four (f := fun f => if s f < 0 ∧ i ≠ f then _ else _)]
  have := face 3 _ _ _ _ (by omega) (face 2 _ _ _ _ (by omega) (face 1 _ _ _ _ (by omega) (face 0 _ _ _ _ (by omega) (source_app R V q i))))
  simp only [sub_sub, ← add_assoc] at this ⊢
  exact this

theorem pow_bound (hu : 0 ≤ u) (k : ℕ) (h : k * u ≤ 1) : (1 + u) ^ k ≤ 1 + k * u + (k * u) ^ 2 := by
  induction k with
  | zero => simp
  | succ k ih =>
    push_cast at h ⊢
    have hk : (k : ℝ) * u ≤ 1 := by linarith
    have h1 := mul_le_mul_of_nonneg_right (ih hk) (by linarith : 0 ≤ 1 + u)
    rw [pow_succ]
    refine h1.trans ?_
    have h2 : (k : ℝ) * u * (k * u) * u ≤ 1 * (k * u) * u :=
      mul_le_mul_of_nonneg_right (mul_le_mul_of_nonneg_right hk (by positivity)) hu
    have h3 : 0 ≤ (k : ℝ) := Nat.cast_nonneg k
    nlinarith [sq_nonneg u]

theorem pow8 (hu : 0 ≤ u) (h : u ≤ 1 / 1000) : (1 + u) ^ 8 - 1 ≤ 8.1 * u := by
  have := pow_bound hu 8 (by push_cast; linarith)
  push_cast at this
  nlinarith

theorem pow22 (hu : 0 ≤ u) (h : u ≤ 1 / 1000) : (1 + u) ^ 22 - 1 ≤ 22.5 * u := by
  have := pow_bound hu 22 (by push_cast; linarith)
  push_cast at this
  nlinarith

/-- The sizes of the coefficients of a cell. -/
noncomputable def scale (V σ : ℝ) (s : Vec4 ℝ) : ℝ := (∑ f, |s f|) + |σ| * |V|

theorem boundEntry_le (V σ : ℝ) (s : Vec4 ℝ) (i j : Fin 4) : boundEntry V σ s i j ≤ scale V σ s / 4 := by
  unfold boundEntry scale
  have h1 : |s i| ≤ ∑ f, |s f| := Finset.single_le_sum (f := fun f => |s f|) (fun _ _ => abs_nonneg _) (mem_univ i)
  have h2 : ∑ f, (if s f > 0 ∧ i ≠ f ∧ j ≠ f then twice i j * |s f| / 12 else 0) ≤ ∑ f, |s f| / 6 := by
    refine Finset.sum_le_sum fun f _ => ?_
    have := mul_le_mul_of_nonneg_right (twice_le i j) (abs_nonneg (s f))
    split_ifs
    · linarith
    · positivity
  rw [← Finset.sum_div] at h2
  have h3 : twice i j * |σ| * |V| ≤ 2 * (|σ| * |V|) := by
    rw [mul_assoc]
    exact mul_le_mul_of_nonneg_right (twice_le i j) (by positivity)
  have h4 : 0 ≤ |σ| * |V| := by positivity
  linarith

theorem boundSide_le (V : ℝ) (s : Vec4 ℝ) {inc : Fin 4 → Fin 4 → ℝ} {q : Vec4 ℝ} {Q I : ℝ} (hq : ∀ j, |q j| ≤ Q)
    (hI : ∀ f v, |inc f v| ≤ I) (i : Fin 4) : boundSide V s inc q i ≤ |V| * Q / 4 + (∑ f, |s f|) * I / 3 := by
  unfold boundSide
  have hI0 : 0 ≤ I := (abs_nonneg _).trans (hI 0 0)
  have hQ0 : 0 ≤ Q := (abs_nonneg _).trans (hq 0)
  have tw : ∑ j, twice i j = 5 := by
    rw [Fin.sum_univ_four]
    unfold twice
    fin_cases i <;> simp <;> norm_num
  have t0 : ∀ a b, 0 ≤ twice a b := fun a b => by rw [← twice_abs]; exact abs_nonneg _
  have h1 : ∑ j, twice i j * |q j| ≤ 5 * Q := by
    rw [← tw, Finset.sum_mul]
    exact Finset.sum_le_sum fun j _ => mul_le_mul_of_nonneg_left (hq j) (t0 i j)
  have h2 : ∀ f, (if s f < 0 ∧ i ≠ f then ∑ v, (if v ≠ f then twice i v * |s f| / 12 * |inc f v| else 0) else 0) ≤ |s f| * I / 3 := by
    intro f
    by_cases hc : s f < 0 ∧ i ≠ f
    · rw [if_pos hc]
      have h3 : ∀ v, (if v ≠ f then twice i v * |s f| / 12 * |inc f v| else 0) ≤ (if v ≠ f then twice i v else 0) * (|s f| / 12 * I) := by
        intro v
        split_ifs
        · have := mul_le_mul_of_nonneg_left (hI f v) (show 0 ≤ twice i v * (|s f| / 12) from mul_nonneg (t0 i v) (by positivity))
          linarith
        · simp
      refine (Finset.sum_le_sum fun v _ => h3 v).trans ?_
      rw [← Finset.sum_mul]
      have h4 : ∑ v, (if v ≠ f then twice i v else 0) = 4 := by
        rw [Fin.sum_univ_four]
        unfold twice
        have := hc.2
        fin_cases i <;> fin_cases f <;> first | exact absurd rfl this | (simp; norm_num)
      rw [h4]
      linarith
    · rw [if_neg hc]; positivity
  have h5 := Finset.sum_le_sum fun f (_ : f ∈ univ) => h2 f
  rw [← Finset.sum_div, ← Finset.sum_mul] at h5
  have h6 := mul_le_mul_of_nonneg_left h1 (show 0 ≤ |V| / 20 by positivity)
  linarith

/-- C96: what the machine computes in a cell satisfies the documented equations up to a residual of the order
of one rounding of their terms. -/
theorem cell_residual (R : Rounds u rnd) (hu : u ≤ 1 / 1000) {V σ : ℝ} {faceArea dots : Vec4 ℝ} {c2f : Fin 4 → Fin 4 → Fin 3}
    {lpb : Fin 3 → Fin 4 → ℝ} {q x : Vec4 ℝ} (h : rsolve rnd V faceArea dots σ c2f lpb q = some x) {X I Q : ℝ} (hX : ∀ j, |x j| ≤ X)
    (hI : ∀ k f, |lpb k f| ≤ I) (hQ : ∀ j, |q j| ≤ Q) (i : Fin 4) :
    |rowDefect V σ (rsigned rnd faceArea dots) (fun f v => lpb (c2f f v) f) q x i| ≤
      u * (210 * ((∑ f, |rsigned rnd faceArea dots f|) + |σ| * |V|) * X + 6 * (|V| * Q) + 8 * ((∑ f, |rsigned rnd faceArea dots f|) * I)) := by
  have hu0 := R.small.1
  set s := rsigned rnd faceArea dots with hs
  have hT : 0 ≤ scale V σ s := by unfold scale; positivity
  have hX0 : 0 ≤ X := (abs_nonneg _).trans (hX 0)
  have hI0 : 0 ≤ I := (abs_nonneg _).trans (hI 0 0)
  have hQ0 : 0 ≤ Q := (abs_nonneg _).trans (hQ 0)
  unfold rsolve at h
  rw [← hs] at h
  have p8 := pow8 hu0 hu
  have p22 := pow22 hu0 hu
  have e1 : ∀ i j, |routgoing rnd s (rvolumeIntegrals rnd V s σ) i j - exactEntry V σ s i j| ≤ 2.03 * (u * scale V σ s) := fun i j => by
    have a := (entry_app R V σ s i j).1
    have b := boundEntry_le V σ s i j
    have c : ((1 + u) ^ 8 - 1) * boundEntry V σ s i j ≤ 8.1 * u * (scale V σ s / 4) :=
      mul_le_mul p8 b ((abs_nonneg _).trans (entry_app R V σ s i j).2) (by positivity)
    have : 0 ≤ u * scale V σ s := mul_nonneg hu0 hT
    linarith
  have e2 : ∀ i j, |routgoing rnd s (rvolumeIntegrals rnd V s σ) i j| ≤ 0.2521 * scale V σ s := fun i j => by
    have a := abs_add_le (routgoing rnd s (rvolumeIntegrals rnd V s σ) i j - exactEntry V σ s i j) (exactEntry V σ s i j)
    rw [sub_add_cancel] at a
    have b := (entry_app R V σ s i j).2.trans (boundEntry_le V σ s i j)
    have := mul_le_mul_of_nonneg_right hu hT
    linarith [e1 i j]
  have e3 := rgauss_residual R hu e2 hX h i
  have e4 : |rincoming rnd c2f lpb s (rsource rnd V q) i - exactSide V s (fun f v => lpb (c2f f v) f) q i| ≤
      u * (6 * (|V| * Q) + 8 * ((∑ f, |s f|) * I)) := by
    have a := (side_app R V s c2f lpb q i).1
    have b := boundSide_le V s (inc := fun f v => lpb (c2f f v) f) hQ (fun f v => hI _ _) i
    have c := mul_le_mul p22 b ((abs_nonneg _).trans (side_app R V s c2f lpb q i).2) (by positivity)
    have d1 : 0 ≤ u * (|V| * Q) := by positivity
    have d2 : 0 ≤ u * ((∑ f, |s f|) * I) := by positivity
    linarith
  rw [rowDefect_eq]
  have f : ∀ j, |(exactEntry V σ s i j - routgoing rnd s (rvolumeIntegrals rnd V s σ) i j) * x j| ≤ 2.03 * (u * (scale V σ s * X)) := fun j => by
    have := abs_mul_le' ((abs_sub_comm _ _).trans_le (e1 i j)) (hX j)
    linarith
  have hTX : 0 ≤ u * (scale V σ s * X) := by positivity
  have g : ∀ {a b c d e w A B C D E W : ℝ}, |a| ≤ A → |b| ≤ B → |c| ≤ C → |d| ≤ D → |e| ≤ E → |w| ≤ W → |a + b + c + d + e + w| ≤ A + B + C + D + E + W := by
    intro a b c d e w A B C D E W h1 h2 h3 h4 h5 h6
    rw [abs_le] at *
    constructor <;> linarith [h1.1, h1.2, h2.1, h2.2, h3.1, h3.2, h4.1, h4.2, h5.1, h5.2, h6.1, h6.2]
  have := g (f 0) (f 1) (f 2) (f 3) e3 e4
  refine (le_of_eq (congrArg abs ?_)).trans (this.trans ?_)
  · ring
  · change _ ≤ u * (210 * scale V σ s * X + 6 * (|V| * Q) + 8 * ((∑ f, |s f|) * I))
    linarith

end Verif.Rounding
