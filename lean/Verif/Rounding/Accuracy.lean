import Verif.Rounding.Props

/-!
# How accurate the rounded geometry is (C87)
-/
namespace Verif.Rounding.Spec

open Verif.Geometry

/-- The length of a vector. -/
noncomputable def size (v : Pt) : ℝ := √(v 0 ^ 2 + v 1 ^ 2 + v 2 ^ 2)

/-- The components of the cross product with all terms taken positive. -/
def rough (a b : Pt) : Pt :=
  ![|a 1| * |b 2| + |a 2| * |b 1|, |a 2| * |b 0| + |a 0| * |b 2|, |a 0| * |b 1| + |a 1| * |b 0|]

end Verif.Rounding.Spec

namespace Verif.Rounding

open Verif.Geometry Verif.Rounding.Spec

variable {u : ℝ} {rnd : ℝ → ℝ}

theorem size_nonneg (v : Pt) : 0 ≤ size v := Real.sqrt_nonneg _

theorem size_sq (v : Pt) : size v ^ 2 = v 0 ^ 2 + v 1 ^ 2 + v 2 ^ 2 := Real.sq_sqrt (by positivity)

theorem cauchy (x y : Pt) : x 0 * y 0 + x 1 * y 1 + x 2 * y 2 ≤ size x * size y := by
  refine le_of_sq_le_sq₀ ?_ (mul_nonneg (size_nonneg _) (size_nonneg _))
  rw [mul_pow, size_sq, size_sq]
  nlinarith [sq_nonneg (x 0 * y 1 - x 1 * y 0), sq_nonneg (x 0 * y 2 - x 2 * y 0), sq_nonneg (x 1 * y 2 - x 2 * y 1)]
where
  le_of_sq_le_sq₀ {a b : ℝ} (h : a ^ 2 ≤ b ^ 2) (hb : 0 ≤ b) : a ≤ b := (abs_le_of_sq_le_sq' h hb).2

theorem size_mono {x y : Pt} (h : ∀ i, |x i| ≤ y i) : size x ≤ size y := by
  refine Real.sqrt_le_sqrt ?_
  have : ∀ i, x i ^ 2 ≤ y i ^ 2 := fun i => sq_le_sq.2 ((h i).trans (le_abs_self _))
  linarith [this 0, this 1, this 2]

theorem size_add (x y : Pt) : size (fun i => x i + y i) ≤ size x + size y := by
  refine (Real.sqrt_le_left (add_nonneg (size_nonneg _) (size_nonneg _))).2 ?_
  have := cauchy x y
  nlinarith [size_sq x, size_sq y]

theorem size_sub (x y : Pt) : |size x - size y| ≤ size fun i => x i - y i := by
  have h1 := size_add (fun i => x i - y i) y
  have h2 := size_add (fun i => y i - x i) x
  have e : size (fun i => y i - x i) = size fun i => x i - y i := by
    unfold size
    congr 1
    ring
  simp only [sub_add_cancel] at h1 h2
  rw [abs_le]
  constructor <;> linarith

theorem size_smul {k : ℝ} (hk : 0 ≤ k) (s : Pt) : size (fun i => k * s i) = k * size s := by
  unfold size
  rw [show (k * s 0) ^ 2 + (k * s 1) ^ 2 + (k * s 2) ^ 2 = k ^ 2 * (s 0 ^ 2 + s 1 ^ 2 + s 2 ^ 2) by ring, Real.sqrt_mul (sq_nonneg k),
    Real.sqrt_sq hk]

/-- The length of a rounded vector. -/
theorem App.size {k : ℕ} (hu : 0 ≤ u) {x t s : Pt} (h : ∀ i, App u k (x i) (t i) (s i)) : App u k (size x) (size t) (size s) := by
  have hk : 0 ≤ (1 + u) ^ k - 1 := by linarith [one_le_pow' hu k]
  constructor
  · refine (size_sub x t).trans ?_
    rw [← size_smul hk]
    exact size_mono fun i => (h i).1
  · rw [abs_of_nonneg (size_nonneg _)]
    exact size_mono fun i => (h i).2

/-- Roundings of a positive quantity that itself is rounded. -/
theorem App.trans {k l : ℕ} (hu : 0 ≤ u) {x y t s : ℝ} (hy : 0 ≤ y) (h : App u k x y y) (h' : App u l y t s) : App u (k + l) x t s := by
  refine ⟨?_, h'.2⟩
  have h1 := h'.bound
  rw [abs_of_nonneg hy] at h1
  have h2 := abs_add_le (x - y) (y - t)
  rw [sub_add_sub_cancel] at h2
  have hk : 0 ≤ (1 + u) ^ k - 1 := by linarith [one_le_pow' hu k]
  have h3 := mul_le_mul_of_nonneg_left h1 hk
  rw [pow_add]
  have e : ((1 + u) ^ k * (1 + u) ^ l - 1) * s = ((1 + u) ^ k - 1) * ((1 + u) ^ l * s) + ((1 + u) ^ l - 1) * s := by ring
  linarith [h.1, h'.1]

theorem sqrt_app {k : ℕ} {y t : ℝ} (hk : 0 ≤ (1 + u) ^ k - 1) (ht : 0 ≤ t) (h : App u k y t t) : App u k (√y) (√t) (√t) := by
  refine ⟨?_, (abs_of_nonneg (Real.sqrt_nonneg _)).le⟩
  rcases ht.eq_or_lt with rfl | ht
  · have := h.1
    rw [mul_zero, sub_zero] at this
    rw [abs_eq_zero.1 (le_antisymm this (abs_nonneg _))]
    simp
  have hs := Real.sqrt_pos.2 ht
  by_cases hy : 0 ≤ y
  · have h1 : (√y - √t) * (√y + √t) = y - t := by
      have := Real.mul_self_sqrt hy
      have := Real.mul_self_sqrt ht.le
      ring_nf
      nlinarith
    have h2 : |√y - √t| * (√y + √t) = |y - t| := by
      rw [← h1, abs_mul, abs_of_nonneg (add_nonneg (Real.sqrt_nonneg y) hs.le)]
    have h3 : |√y - √t| * √t ≤ ((1 + u) ^ k - 1) * t := by
      have := mul_nonneg (abs_nonneg (√y - √t)) (Real.sqrt_nonneg y)
      linarith [h.1]
    have h4 : ((1 + u) ^ k - 1) * t = ((1 + u) ^ k - 1) * √t * √t := by
      rw [mul_assoc, Real.mul_self_sqrt ht.le]
    rw [h4] at h3
    exact le_of_mul_le_mul_right h3 hs
  · push Not at hy
    rw [Real.sqrt_eq_zero_of_nonpos hy.le, zero_sub, abs_neg, abs_of_pos hs]
    have h1 := (abs_le.1 h.1).1
    have : 1 ≤ (1 + u) ^ k - 1 := by nlinarith
    nlinarith

theorem rnorm_app (R : Rounds u rnd) {k : ℕ} {c t s : Pt} (h : ∀ i, App u k (c i) (t i) (s i)) :
    App u (4 + k) (rnorm rnd c) (size t) (size s) := by
  have hu := R.small.1
  refine App.trans hu (size_nonneg c) ?_ (App.size hu h)
  refine App.round R ?_
  refine sqrt_app (by linarith [one_le_pow' hu 3]) (by positivity) ?_
  have := rdot_app R (fun i => App.exact (u := u) (c i)) (fun i => App.exact (u := u) (c i))
  convert this using 1
  · ring
  · simp only [abs_mul_abs_self]; ring

/-- The rounded norm of the cross product. -/
theorem norm_app (R : Rounds u rnd) (q : Fin 3 → Pt) :
    App u 8 (rnorm rnd (crossOf rnd q)) (size (cross (vec (q 0) (q 1)) (vec (q 0) (q 2)))) (size (rough (vec (q 0) (q 1)) (vec (q 0) (q 2)))) :=
  rnorm_app R (crossOf_app R q)

/-- C87: the area the machine stores differs from the exact one by at most nine roundings of the terms of
the cross product. -/
theorem rounded_area (R : Rounds u rnd) (q : Fin 3 → Pt) :
    |rarea rnd q - size (cross (vec (q 0) (q 1)) (vec (q 0) (q 2))) / 2| ≤
      ((1 + u) ^ 9 - 1) * (size (rough (vec (q 0) (q 1)) (vec (q 0) (q 2))) / 2) := by
  have h := (((App.exact (u := u) 0.5).mul R.small.1 (norm_app R q)).round R).1
  rw [show |(0.5 : ℝ)| = 1 / 2 by norm_num [abs_of_pos]] at h
  have e : (0.5 : ℝ) = 1 / 2 := by norm_num
  unfold rarea
  rw [e] at h ⊢
  change |rnd (1 / 2 * rnorm rnd (crossOf rnd q)) - _| ≤ _
  calc _ = |rnd (1 / 2 * rnorm rnd (crossOf rnd q)) - 1 / 2 * size (cross (vec (q 0) (q 1)) (vec (q 0) (q 2)))| := by congr 1; ring
    _ ≤ _ := h
    _ = _ := by ring

theorem perm_rough (w a b : Pt) : perm w a b ≤ size w * size (rough a b) := by
  have := cauchy (fun i => |w i|) (rough a b)
  have e : size (fun i => |w i|) = size w := by unfold size; simp only [sq_abs]
  rw [e] at this
  exact this

theorem det_le (w a b : Pt) : |det w a b| ≤ size w * size (cross a b) := by
  rw [abs_le]
  have h1 := cauchy w (cross a b)
  have h2 := cauchy (fun i => -w i) (cross a b)
  have e : size (fun i => -w i) = size w := by unfold size; simp only [neg_sq]
  rw [e] at h2
  rw [det_eq]
  constructor <;> linarith

/-- The cross product of two vectors that are perpendicular to a unit vector. -/
theorem cross_along {n a b : Pt} (h1 : n 0 ^ 2 + n 1 ^ 2 + n 2 ^ 2 = 1) (ha : n 0 * a 0 + n 1 * a 1 + n 2 * a 2 = 0)
    (hb : n 0 * b 0 + n 1 * b 1 + n 2 * b 2 = 0) : ∀ i, cross a b i = det n a b * n i := by
  have e0 : cross a b 0 = a 1 * b 2 - a 2 * b 1 := rfl
  have e1 : cross a b 1 = a 2 * b 0 - a 0 * b 2 := rfl
  have e2 : cross a b 2 = a 0 * b 1 - a 1 * b 0 := rfl
  have p01 : n 0 * cross a b 1 = n 1 * cross a b 0 := by
    rw [e0, e1]; linear_combination a 2 * hb - b 2 * ha
  have p02 : n 0 * cross a b 2 = n 2 * cross a b 0 := by
    rw [e0, e2]; linear_combination b 1 * ha - a 1 * hb
  have p12 : n 1 * cross a b 2 = n 2 * cross a b 1 := by
    rw [e1, e2]; linear_combination a 0 * hb - b 0 * ha
  intro i
  rw [det_eq]
  match i with
  | 0 => linear_combination -cross a b 0 * h1 - n 1 * p01 - n 2 * p02
  | 1 => linear_combination -cross a b 1 * h1 + n 0 * p01 - n 2 * p12
  | 2 => linear_combination -cross a b 2 * h1 + n 0 * p02 + n 1 * p12

theorem size_along {n c : Pt} {l : ℝ} (h1 : n 0 ^ 2 + n 1 ^ 2 + n 2 ^ 2 = 1) (h : ∀ i, c i = l * n i) : size c = |l| := by
  unfold size
  rw [h 0, h 1, h 2, show (l * n 0) ^ 2 + (l * n 1) ^ 2 + (l * n 2) ^ 2 = l ^ 2 * (n 0 ^ 2 + n 1 ^ 2 + n 2 ^ 2) by ring, h1, mul_one,
    Real.sqrt_sq_eq_abs]

theorem quotient_near {d X N L S σ o γ κ : ℝ} (hN : 0 < N) (hL : 0 < L) (ho : 0 ≤ o) (hγ : 0 ≤ γ) (h1 : |d - X / N| ≤ γ * (S / N))
    (h2 : |N - L| ≤ γ * σ) (hσ : σ ≤ κ * L) (hS : S ≤ o * σ) (hX : |X| ≤ o * L) (hk : γ * κ < 1) :
    |d - X / L| ≤ 2 * (γ * κ) / (1 - γ * κ) * o := by
  have hσ0 : 0 ≤ γ * σ := (abs_nonneg _).trans h2
  have h3 : γ * σ ≤ γ * κ * L := by
    have := mul_le_mul_of_nonneg_left hσ hγ
    linarith
  have h4 : |X / N - X / L| ≤ o * (γ * κ * L) / N := by
    have e : X / N - X / L = X * (L - N) / (N * L) := by field_simp
    rw [e, abs_div, abs_mul, abs_of_pos (mul_pos hN hL), abs_sub_comm, div_le_div_iff₀ (mul_pos hN hL) hN]
    have h5 : |X| * |N - L| ≤ o * L * (γ * κ * L) := mul_le_mul hX (h2.trans h3) (abs_nonneg _) (mul_nonneg ho hL.le)
    have := mul_le_mul_of_nonneg_right h5 hN.le
    linarith
  have h6 : γ * (S / N) ≤ o * (γ * κ * L) / N := by
    rw [← mul_div_assoc]
    refine div_le_div_of_nonneg_right ?_ hN.le
    have h7 : γ * S ≤ γ * (o * σ) := mul_le_mul_of_nonneg_left hS hγ
    have h8 : o * (γ * σ) ≤ o * (γ * κ * L) := mul_le_mul_of_nonneg_left h3 ho
    linarith
  have h9 : |d - X / L| ≤ 2 * (o * (γ * κ * L) / N) := by
    have := abs_add_le (d - X / N) (X / N - X / L)
    rw [sub_add_sub_cancel] at this
    linarith
  have hN' : L * (1 - γ * κ) ≤ N := by
    have := (abs_le.1 h2).1
    linarith
  have hkap : 0 ≤ γ * κ := by
    by_contra hh
    push Not at hh
    nlinarith
  have h10 : o * (γ * κ * L) / N ≤ o * (γ * κ) / (1 - γ * κ) := by
    have hp : 0 < 1 - γ * κ := by linarith
    rw [div_le_div_iff₀ hN hp]
    have := mul_le_mul_of_nonneg_left hN' (mul_nonneg ho hkap)
    linarith
  calc _ ≤ _ := h9
    _ ≤ 2 * (o * (γ * κ) / (1 - γ * κ)) := by linarith
    _ = _ := by ring

/-- C87: the product of a direction with the outward unit normal that the machine stores differs from the
exact one by at most `2 γ κ / (1 - γ κ)` times the length of the direction, where `γ = (1 + u)^8 - 1` and
`κ` is the length of the cross product with all terms taken positive, relative to the length of the cross
product. -/
theorem rounded_accuracy (R : Rounds u rnd) {p : Fin 4 → Pt} {f : Fin 4} {t : Fin 3 → Fin 4} (ht : Verif.Geometry.Spec.FaceTable f t)
    (hc : Clear u 9 (vec (p (t 0)) (p f)) (vec (p (t 0)) (p (t 1))) (vec (p (t 0)) (p (t 2)))) (om : Pt) {κ : ℝ}
    (hκ : size (rough (vec (p (t 0)) (p (t 1))) (vec (p (t 0)) (p (t 2)))) ≤
      κ * size (cross (vec (p (t 0)) (p (t 1))) (vec (p (t 0)) (p (t 2)))))
    (hγ : ((1 + u) ^ 8 - 1) * κ < 1) {n : Pt} (hn : Verif.Geometry.Spec.OutwardUnitNormal p f n) :
    ∃ x, romega rnd om (facePoints p t) p = some x ∧
      |x - (om 0 * n 0 + om 1 * n 1 + om 2 * n 2)| ≤ 2 * (((1 + u) ^ 8 - 1) * κ) / (1 - ((1 + u) ^ 8 - 1) * κ) * size om := by
  obtain ⟨n1, n2, n3⟩ := hn
  obtain ⟨t1, t2⟩ := ht
  set q := facePoints p t with hq
  have hcov : ∀ i, i ≠ f → ∃ j, p i = q j := by
    intro i hi
    have : ∃ j, t j = i := by
      clear hc hκ hq n3 n2
      by_contra hh
      push Not at hh
      have hcard : Fintype.card (Fin 3) ≤ Fintype.card {k : Fin 4 // k ≠ f ∧ k ≠ i} :=
        Fintype.card_le_of_injective (fun j => (⟨t j, t2 j, hh j⟩ : {k : Fin 4 // k ≠ f ∧ k ≠ i})) fun a b h => t1 a b (Subtype.ext_iff.1 h)
      have : ∀ f i : Fin 4, i ≠ f → Fintype.card {k : Fin 4 // k ≠ f ∧ k ≠ i} = 2 := by decide
      rw [this f i hi] at hcard
      simp at hcard
    obtain ⟨j, rfl⟩ := this
    exact ⟨j, rfl⟩
  have hx := rounded_omega R (q := q) hcov hc om
  refine ⟨_, hx, ?_⟩
  have hu := R.small.1
  have hN := norm_pos R q (by omega) hc
  have ha : n 0 * vec (q 0) (q 1) 0 + n 1 * vec (q 0) (q 1) 1 + n 2 * vec (q 0) (q 1) 2 = 0 := n2 (t 1) (t 0) (t2 1) (t2 0)
  have hb : n 0 * vec (q 0) (q 2) 0 + n 1 * vec (q 0) (q 2) 1 + n 2 * vec (q 0) (q 2) 2 = 0 := n2 (t 2) (t 0) (t2 2) (t2 0)
  have hv : n 0 * vec (q 0) (p f) 0 + n 1 * vec (q 0) (p f) 1 + n 2 * vec (q 0) (p f) 2 < 0 := n3 (t 0) (t2 0)
  have hal := cross_along n1 ha hb
  set l := det n (vec (q 0) (q 1)) (vec (q 0) (q 2)) with hl
  have hsz := size_along n1 hal
  have hX : det om (vec (q 0) (q 1)) (vec (q 0) (q 2)) = l * (om 0 * n 0 + om 1 * n 1 + om 2 * n 2) := by
    rw [det_eq, hal, hal, hal]; ring
  have hV : det (vec (q 0) (p f)) (vec (q 0) (q 1)) (vec (q 0) (q 2)) =
      l * (n 0 * vec (q 0) (p f) 0 + n 1 * vec (q 0) (p f) 1 + n 2 * vec (q 0) (p f) 2) := by
    rw [det_eq, hal, hal, hal]; ring
  have hl0 : l ≠ 0 := by
    intro e
    refine clear_apart hu hc ?_
    change det (vec (q 0) (p f)) (vec (q 0) (q 1)) (vec (q 0) (q 2)) = 0
    rw [hV, e, zero_mul]
  have hL : 0 < size (cross (vec (q 0) (q 1)) (vec (q 0) (q 2))) := by rw [hsz]; exact abs_pos.2 hl0
  have hmain := quotient_near (γ := (1 + u) ^ 8 - 1) hN hL (size_nonneg om) (by linarith [one_le_pow' hu 8]) (dot_app R q hN (fun i => App.exact (u := u) (om i))).1
    (norm_app R q).1 hκ (perm_rough om _ _) (det_le om _ _) hγ
  rw [hX, hsz] at hmain
  rw [hV]
  change |rdot rnd om (rawNormal rnd q) - _| ≤ _ at hmain
  rcases lt_or_gt_of_ne hl0 with h | h
  · rw [if_pos (mul_pos_of_neg_of_neg h hv)]
    rw [abs_of_neg h] at hmain
    calc _ = |rdot rnd om (rawNormal rnd q) - l * (om 0 * n 0 + om 1 * n 1 + om 2 * n 2) / -l| := by
          rw [← abs_neg]; congr 1; field_simp; ring
      _ ≤ _ := hmain
  · rw [if_neg (not_lt.2 (mul_neg_of_pos_of_neg h hv).le)]
    rw [abs_of_pos h, mul_div_cancel_left₀ _ hl0] at hmain
    exact hmain

end Verif.Rounding
