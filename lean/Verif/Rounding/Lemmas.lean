import Verif.Rounding.Model
import Verif.Rounding.Spec
import Mathlib.Tactic.Linarith
import Mathlib.Tactic.Ring
import Mathlib.Tactic.Positivity

/-!
# Error calculus
-/
namespace Verif.Rounding

open Verif.Geometry Verif.Rounding.Spec

variable {u : ℝ} {rnd : ℝ → ℝ}

/-- `x` comes out of `k` roundings of an expression with value `t` whose terms taken positive sum up to
`s`. -/
def App (u : ℝ) (k : ℕ) (x t s : ℝ) : Prop := |x - t| ≤ ((1 + u) ^ k - 1) * s ∧ |t| ≤ s

theorem one_le_pow' (hu : 0 ≤ u) (k : ℕ) : 1 ≤ (1 + u) ^ k := one_le_pow₀ (by linarith)

theorem App.exact (x : ℝ) : App u 0 x x |x| := ⟨by simp, le_rfl⟩

theorem App.bound {k : ℕ} {x t s : ℝ} (h : App u k x t s) : |x| ≤ (1 + u) ^ k * s := by
  have := abs_add_le (x - t) t
  rw [sub_add_cancel] at this
  linarith [h.1, h.2]

theorem App.mono (hu : 0 ≤ u) {k l : ℕ} (hkl : k ≤ l) {x t s : ℝ} (h : App u k x t s) : App u l x t s := by
  refine ⟨h.1.trans (mul_le_mul_of_nonneg_right ?_ ((abs_nonneg _).trans h.2)), h.2⟩
  have := pow_le_pow_right₀ (by linarith : (1 : ℝ) ≤ 1 + u) hkl
  linarith

theorem App.round (R : Rounds u rnd) {k : ℕ} {x t s : ℝ} (h : App u k x t s) : App u (k + 1) (rnd x) t s := by
  refine ⟨?_, h.2⟩
  have h1 := R.near x
  have h2 := h.bound
  have h3 := abs_add_le (rnd x - x) (x - t)
  rw [sub_add_sub_cancel] at h3
  have h4 := mul_le_mul_of_nonneg_left h2 R.small.1
  rw [pow_succ]
  linarith [h.1]

theorem App.add {k : ℕ} {x t s y r q : ℝ} (h : App u k x t s) (h' : App u k y r q) : App u k (x + y) (t + r) (s + q) := by
  refine ⟨?_, (abs_add_le _ _).trans (add_le_add h.2 h'.2)⟩
  have := abs_add_le (x - t) (y - r)
  rw [show x + y - (t + r) = (x - t) + (y - r) by ring]
  linarith [h.1, h'.1]

theorem App.neg {k : ℕ} {x t s : ℝ} (h : App u k x t s) : App u k (-x) (-t) s := by
  refine ⟨?_, by rw [abs_neg]; exact h.2⟩
  rw [show -x - -t = -(x - t) by ring, abs_neg]
  exact h.1

theorem App.sub {k : ℕ} {x t s y r q : ℝ} (h : App u k x t s) (h' : App u k y r q) : App u k (x - y) (t - r) (s + q) := by
  rw [sub_eq_add_neg, sub_eq_add_neg]
  exact h.add h'.neg

theorem App.mul (hu : 0 ≤ u) {k l : ℕ} {x t s y r q : ℝ} (h : App u k x t s) (h' : App u l y r q) :
    App u (k + l) (x * y) (t * r) (s * q) := by
  have hs := (abs_nonneg _).trans h.2
  have hq := (abs_nonneg _).trans h'.2
  refine ⟨?_, by rw [abs_mul]; exact mul_le_mul h.2 h'.2 (abs_nonneg _) hs⟩
  have e : x * y - t * r = (x - t) * (y - r) + (x - t) * r + t * (y - r) := by ring
  have h1 := abs_add_le ((x - t) * (y - r) + (x - t) * r) (t * (y - r))
  have h2 := abs_add_le ((x - t) * (y - r)) ((x - t) * r)
  rw [abs_mul] at h1
  rw [abs_mul, abs_mul] at h2
  rw [e, pow_add]
  have p1 := one_le_pow' hu k
  have p2 := one_le_pow' hu l
  have k1 := mul_le_mul h.1 h'.1 (abs_nonneg _) (by nlinarith)
  have k2 := mul_le_mul h.1 h'.2 (abs_nonneg _) (by nlinarith)
  have k3 := mul_le_mul h.2 h'.1 (abs_nonneg _) hs
  calc _ ≤ _ := h1
    _ ≤ ((1 + u) ^ k - 1) * s * (((1 + u) ^ l - 1) * q) + ((1 + u) ^ k - 1) * s * q + s * (((1 + u) ^ l - 1) * q) := by linarith
    _ = _ := by ring

theorem App.div {k : ℕ} {x t s N : ℝ} (hN : 0 < N) (h : App u k x t s) : App u k (x / N) (t / N) (s / N) := by
  refine ⟨?_, ?_⟩
  · rw [← sub_div, abs_div, abs_of_pos hN, ← mul_div_assoc]
    exact div_le_div_of_nonneg_right h.1 hN.le
  · rw [abs_div, abs_of_pos hN]
    exact div_le_div_of_nonneg_right h.2 hN.le

theorem App.fabs {k : ℕ} {x t s : ℝ} (h : App u k x t s) : App u k |x| |t| s :=
  ⟨(abs_abs_sub_abs_le _ _).trans h.1, by rw [abs_abs]; exact h.2⟩

/-- The sign survives. -/
theorem App.sign {k : ℕ} {x t s : ℝ} (h : App u k x t s) (hc : ((1 + u) ^ k - 1) * s < |t|) : (0 < x ↔ 0 < t) ∧ (x < 0 ↔ t < 0) := by
  have h1 := h.1
  rcases lt_trichotomy t 0 with ht | ht | ht
  · rw [abs_of_neg ht] at hc
    have := (abs_le.1 h1).2
    constructor <;> constructor <;> intro h <;> linarith
  · have := (abs_nonneg _).trans h1
    rw [ht, abs_zero] at hc
    linarith
  · rw [abs_of_pos ht] at hc
    have := (abs_le.1 h1).1
    constructor <;> constructor <;> intro h <;> linarith

theorem Rounds.zero (R : Rounds u rnd) : rnd 0 = 0 := by
  have := R.near 0
  rw [abs_zero, mul_zero, sub_zero] at this
  exact abs_eq_zero.1 (le_antisymm this (abs_nonneg _))

theorem Rounds.pos (R : Rounds u rnd) {x : ℝ} (h : 0 < x) : 0 < rnd x := by
  have := (abs_le.1 (R.near x)).1
  rw [abs_of_pos h] at this
  nlinarith [R.small.2]

theorem Rounds.pos_iff (R : Rounds u rnd) {x : ℝ} : 0 < rnd x ↔ 0 < x := by
  refine ⟨fun h => ?_, R.pos⟩
  rcases lt_trichotomy x 0 with hx | hx | hx
  · have := R.pos (neg_pos.2 hx)
    rw [R.odd] at this
    linarith
  · rw [hx, R.zero] at h
    exact absurd h (lt_irrefl _)
  · exact hx

theorem Rounds.nonneg (R : Rounds u rnd) {x : ℝ} (h : 0 ≤ x) : 0 ≤ rnd x := by
  rcases h.eq_or_lt with rfl | h
  · rw [R.zero]
  · exact (R.pos h).le

theorem Rounds.eq_zero (R : Rounds u rnd) {x : ℝ} (h : rnd x = 0) : x = 0 := by
  have h1 := R.near x
  rw [h, zero_sub, abs_neg] at h1
  have h2 := R.small.2
  have h3 := abs_nonneg x
  exact abs_eq_zero.1 (by nlinarith)

/-! ### The operations of the file -/

theorem rdot_app (R : Rounds u rnd) {k l : ℕ} {x y t r s q : Pt} (h : ∀ i, App u k (x i) (t i) (s i))
    (h' : ∀ i, App u l (y i) (r i) (q i)) :
    App u (k + l + 3) (rdot rnd x y) (t 0 * r 0 + t 1 * r 1 + t 2 * r 2) (s 0 * q 0 + s 1 * q 1 + s 2 * q 2) := by
  have hu := R.small.1
  have p := fun i => ((h i).mul hu (h' i)).round R
  exact ((((p 0).add (p 1)).round R).add ((p 2).mono hu (by omega))).round R

theorem rcross_app (R : Rounds u rnd) {k l : ℕ} {x y t r s q : Pt} (h : ∀ i, App u k (x i) (t i) (s i))
    (h' : ∀ i, App u l (y i) (r i) (q i)) (i : Fin 3) :
    App u (k + l + 2) (rcross rnd x y i) (cross t r i)
      ((![s 1 * q 2 + s 2 * q 1, s 2 * q 0 + s 0 * q 2, s 0 * q 1 + s 1 * q 0] : Pt) i) := by
  have hu := R.small.1
  have p := fun i j => ((h i).mul hu (h' j)).round R
  match i with
  | 0 => exact ((p 1 2).sub (p 2 1)).round R
  | 1 => exact ((p 2 0).sub (p 0 2)).round R
  | 2 => exact ((p 0 1).sub (p 1 0)).round R

theorem rsub_app (R : Rounds u rnd) (a b : Pt) (i : Fin 3) : App u 1 (rsub rnd a b i) (vec b a i) |vec b a i| :=
  (App.exact (vec b a i)).round R

theorem rdot_neg (R : Rounds u rnd) (x y : Pt) : rdot rnd x (fun k => -y k) = -rdot rnd x y := by
  unfold rdot
  simp only [mul_neg, R.odd, ← neg_add]

theorem rnorm_nonneg (R : Rounds u rnd) (c : Pt) : 0 ≤ rnorm rnd c := R.nonneg (Real.sqrt_nonneg _)

theorem rdot_self (R : Rounds u rnd) {c : Pt} (h : rdot rnd c c ≤ 0) (i : Fin 3) : c i = 0 := by
  have q : ∀ i, 0 ≤ rnd (c i * c i) := fun i => R.nonneg (mul_self_nonneg _)
  have h1 : rnd (rnd (c 0 * c 0) + rnd (c 1 * c 1)) + rnd (c 2 * c 2) ≤ 0 := by
    by_contra hh
    push Not at hh
    have := R.pos hh
    unfold rdot at h
    linarith
  have h2 := R.nonneg (add_nonneg (q 0) (q 1))
  have h3 : rnd (c 0 * c 0) + rnd (c 1 * c 1) = 0 := R.eq_zero (by linarith [q 2])
  have key : ∀ i, rnd (c i * c i) = 0 → c i = 0 := fun i h => mul_self_eq_zero.1 (R.eq_zero h)
  match i with
  | 0 => exact key 0 (by linarith [q 0, q 1])
  | 1 => exact key 1 (by linarith [q 0, q 1])
  | 2 => exact key 2 (by linarith [q 2])

theorem rnorm_eq_zero (R : Rounds u rnd) {c : Pt} (h : rnorm rnd c = 0) (i : Fin 3) : c i = 0 := by
  have := R.eq_zero h
  exact rdot_self R (Real.sqrt_eq_zero'.1 this) i

/-- The rounded cross product of the two edges of a face. -/
def crossOf (rnd : ℝ → ℝ) (q : Fin 3 → Pt) : Pt := rcross rnd (rsub rnd (q 1) (q 0)) (rsub rnd (q 2) (q 0))

theorem crossOf_app (R : Rounds u rnd) (q : Fin 3 → Pt) (i : Fin 3) :
    App u 4 (crossOf rnd q i) (cross (vec (q 0) (q 1)) (vec (q 0) (q 2)) i)
      ((![|vec (q 0) (q 1) 1| * |vec (q 0) (q 2) 2| + |vec (q 0) (q 1) 2| * |vec (q 0) (q 2) 1|,
        |vec (q 0) (q 1) 2| * |vec (q 0) (q 2) 0| + |vec (q 0) (q 1) 0| * |vec (q 0) (q 2) 2|,
        |vec (q 0) (q 1) 0| * |vec (q 0) (q 2) 1| + |vec (q 0) (q 1) 1| * |vec (q 0) (q 2) 0|] : Pt) i) :=
  rcross_app R (rsub_app R (q 1) (q 0)) (rsub_app R (q 2) (q 0)) i

theorem det_eq (w a b : Pt) : det w a b = w 0 * cross a b 0 + w 1 * cross a b 1 + w 2 * cross a b 2 := rfl

/-- The product of a vector with the rounded normal, times the norm: eight roundings and those of the
vector. -/
theorem dot_app (R : Rounds u rnd) (q : Fin 3 → Pt) (hN : 0 < rnorm rnd (crossOf rnd q)) {k : ℕ} {x w : Pt}
    (hx : ∀ i, App u k (x i) (w i) |w i|) :
    App u (k + 8) (rdot rnd x fun i => rnd (crossOf rnd q i / rnorm rnd (crossOf rnd q)))
      (det w (vec (q 0) (q 1)) (vec (q 0) (q 2)) / rnorm rnd (crossOf rnd q))
      (perm w (vec (q 0) (q 1)) (vec (q 0) (q 2)) / rnorm rnd (crossOf rnd q)) := by
  have h := rdot_app R hx (fun i => ((crossOf_app R q i).div hN).round R)
  have e1 : det w (vec (q 0) (q 1)) (vec (q 0) (q 2)) / rnorm rnd (crossOf rnd q) =
      w 0 * (cross (vec (q 0) (q 1)) (vec (q 0) (q 2)) 0 / rnorm rnd (crossOf rnd q)) +
      w 1 * (cross (vec (q 0) (q 1)) (vec (q 0) (q 2)) 1 / rnorm rnd (crossOf rnd q)) +
      w 2 * (cross (vec (q 0) (q 1)) (vec (q 0) (q 2)) 2 / rnorm rnd (crossOf rnd q)) := by
    rw [det_eq]; ring
  rw [e1]
  convert h using 1
  unfold perm
  show _ = |w 0| * ((|vec (q 0) (q 1) 1| * |vec (q 0) (q 2) 2| + |vec (q 0) (q 1) 2| * |vec (q 0) (q 2) 1|) / _) +
    |w 1| * ((|vec (q 0) (q 1) 2| * |vec (q 0) (q 2) 0| + |vec (q 0) (q 1) 0| * |vec (q 0) (q 2) 2|) / _) +
    |w 2| * ((|vec (q 0) (q 1) 0| * |vec (q 0) (q 2) 1| + |vec (q 0) (q 1) 1| * |vec (q 0) (q 2) 0|) / _)
  ring

theorem rdot_comm (x y : Pt) : rdot rnd x y = rdot rnd y x := by
  unfold rdot
  simp only [mul_comm]

/-- A face that spans a clear volume with some vector has a normal. -/
theorem norm_pos (R : Rounds u rnd) (q : Fin 3 → Pt) {k : ℕ} (hk : 4 ≤ k) {w : Pt} (hc : Clear u k w (vec (q 0) (q 1)) (vec (q 0) (q 2))) :
    0 < rnorm rnd (crossOf rnd q) := by
  refine lt_of_le_of_ne (rnorm_nonneg R _) fun h => ?_
  have hz := rnorm_eq_zero R h.symm
  have hu := R.small.1
  have b : ∀ i, App u k 0 (cross (vec (q 0) (q 1)) (vec (q 0) (q 2)) i) _ := fun i => by
    have := (crossOf_app R q i).mono hu hk
    rw [hz i] at this
    exact this
  have m : ∀ i, App u k 0 (w i * cross (vec (q 0) (q 1)) (vec (q 0) (q 2)) i) (|w i| * _) := fun i => by
    have := (App.exact (u := u) (w i)).mul hu (b i)
    rw [mul_zero, zero_add] at this
    exact this
  have := ((m 0).add (m 1)).add (m 2)
  have h1 := this.1
  rw [add_zero, add_zero, zero_sub, abs_neg] at h1
  unfold Clear at hc
  rw [det_eq] at hc
  have : perm w (vec (q 0) (q 1)) (vec (q 0) (q 2)) = _ := rfl
  unfold perm at hc
  exact absurd h1 (not_le.2 hc)

end Verif.Rounding
