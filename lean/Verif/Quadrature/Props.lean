import Verif.Quadrature.Lemmas
import Mathlib.Algebra.MvPolynomial.Eval
import Mathlib.Algebra.MvPolynomial.Degrees
import Mathlib.Data.Fin.VecNotation
import Mathlib.Tactic.FinCases
import Mathlib.Tactic.IntervalCases

/-
Property C39: the angular quadrature.
-/

namespace Verif.Quadrature

/-! ### Specification -/

/-- The integral over the unit sphere, in the polar angle's cosine and the azimuth. -/
noncomputable def sphere (f : ℝ → ℝ → ℝ → ℝ) : ℝ :=
  ∫ mu in (-1 : ℝ)..1, ∫ phi in (0 : ℝ)..(2 * Real.pi),
    f (Real.sqrt (1 - mu ^ 2) * Real.cos phi) (Real.sqrt (1 - mu ^ 2) * Real.sin phi) mu

/-- The quadrature sum. -/
noncomputable def qsum (Q : List Dir) (f : ℝ → ℝ → ℝ → ℝ) : ℝ :=
  (Q.map fun d => d.w * f d.xi d.eta d.mu).sum

/-! ### Accepted orders -/

theorem orders (N : Nat) : (∃ Q, quadrature N = some Q) ↔ N % 2 = 0 ∧ 2 ≤ N ∧ N ≤ 30 := by
  constructor
  · rintro ⟨Q, h⟩
    obtain ⟨gw, gn, ht⟩ := tables_of h
    unfold tables at ht
    split at ht <;> first | decide | cases ht
  · rintro ⟨h1, h2, h3⟩
    have : ∃ p, tables N = some p := by
      interval_cases N <;> first | omega | exact ⟨_, rfl⟩
    obtain ⟨⟨gw, gn⟩, hp⟩ := this
    exact ⟨_, quadrature_eq hp⟩

example : ∃ Q, quadrature 16 = some Q := (orders 16).mpr (by decide)
example : ¬ ∃ Q, quadrature 32 = some Q := fun h => absurd ((orders 32).mp h) (by decide)

/-! ### Directions -/

theorem mem_quadrature {N Q} (h : quadrature N = some Q) :
    ∃ W X : Nat → ℝ, Tab N W X ∧
      ∀ d, d ∈ Q ↔ ∃ i < N, ∃ k < 2 * N, d = direction N (W i) (X i) k := by
  obtain ⟨W, X, hT, rfl⟩ := quadrature_list h
  refine ⟨W, X, hT, fun d => ?_⟩
  simp only [List.mem_flatMap, List.mem_map, List.mem_range]
  constructor
  · rintro ⟨i, hi, k, hk, rfl⟩; exact ⟨i, hi, k, hk, rfl⟩
  · rintro ⟨i, hi, k, hk, rfl⟩; exact ⟨i, hi, k, hk, rfl⟩

theorem count {N Q} (h : quadrature N = some Q) : Q.length = 2 * N ^ 2 := by
  obtain ⟨W, X, hT, rfl⟩ := quadrature_list h
  simp [List.length_flatMap]
  ring

/-- The direction at index `i * 2N + k` is the one of polar index `i`, azimuthal index `k`. -/
theorem layout {N Q} (h : quadrature N = some Q) :
    ∃ gw gn, tables N = some (gw, gn) ∧ ∀ i < N, ∀ k < 2 * N,
      Q[i * (2 * N) + k]? = some (direction N (dec (gw.getD i 0)) (dec (gn.getD i 0)) k) := by
  obtain ⟨gw, gn, ht⟩ := tables_of h
  refine ⟨gw, gn, ht, ?_⟩
  rw [quadrature_eq ht, Option.some.injEq] at h
  subst h
  intro i hi k hk
  exact flat_get (fun i k => direction N (dec (gw.getD i 0)) (dec (gn.getD i 0)) k) (2 * N) N i k hi hk

theorem sphere_dir (n phi : ℝ) (h1 : -1 < n) (h2 : n < 1) :
    (Real.sqrt (1 - n * n) * Real.cos phi) ^ 2 + (Real.sqrt (1 - n * n) * Real.sin phi) ^ 2
      + n ^ 2 = 1 := by
  have h3 : Real.sqrt (1 - n * n) ^ 2 = 1 - n * n := Real.sq_sqrt (by nlinarith)
  have h4 := Real.sin_sq_add_cos_sq phi
  linear_combination (Real.cos phi ^ 2 + Real.sin phi ^ 2) * h3 + (1 - n * n) * h4

/-- Every direction has length one and every weight is positive. -/
theorem unit_positive {N Q} (h : quadrature N = some Q) : ∀ d ∈ Q,
    d.xi ^ 2 + d.eta ^ 2 + d.mu ^ 2 = 1 ∧ 0 < d.w := by
  obtain ⟨W, X, hT, hm⟩ := mem_quadrature h
  intro d hd
  obtain ⟨i, hi, k, hk, rfl⟩ := (hm d).mp hd
  refine ⟨sphere_dir _ _ (hT.xlo i hi) (hT.xhi i hi), ?_⟩
  have := hT.wpos i hi
  have hN : (0 : ℝ) < N := by have := hT.two; exact_mod_cast (by omega : 0 < N)
  have := Real.pi_pos
  simp only [direction]
  positivity

theorem phi_eq (N k : Nat) : (2 * Real.pi) / (2 * (N : ℝ)) * ((k : ℝ) + 1 / 2) = mid (2 * N) k := by
  unfold mid; push_cast; rfl

/-- The set of directions with their weights is closed under changing the sign of any
component. -/
theorem reflections {N Q} (h : quadrature N = some Q) : ∀ d ∈ Q,
    (⟨-d.xi, d.eta, d.mu, d.w⟩ : Dir) ∈ Q ∧ (⟨d.xi, -d.eta, d.mu, d.w⟩ : Dir) ∈ Q ∧
    (⟨d.xi, d.eta, -d.mu, d.w⟩ : Dir) ∈ Q := by
  obtain ⟨W, X, hT, hm⟩ := mem_quadrature h
  have hN0 : 0 < N := by have := hT.two; omega
  have hN : (N : ℝ) ≠ 0 := by exact_mod_cast hN0.ne'
  intro d hd
  obtain ⟨i, hi, k, hk, rfl⟩ := (hm d).mp hd
  refine ⟨?_, ?_, ?_⟩
  · rw [hm]
    -- phi -> pi - phi
    have hcs : ∀ k' : Nat, (∃ z : ℤ, mid (2 * N) k' = Real.pi - mid (2 * N) k + z * (2 * Real.pi)) →
        (⟨-(direction N (W i) (X i) k).xi, (direction N (W i) (X i) k).eta,
          (direction N (W i) (X i) k).mu, (direction N (W i) (X i) k).w⟩ : Dir)
          = direction N (W i) (X i) k' := by
      rintro k' ⟨z, hz⟩
      simp only [direction, phi_eq, hz, Real.cos_add_int_mul_two_pi, Real.sin_add_int_mul_two_pi,
        Real.cos_pi_sub, Real.sin_pi_sub, mul_neg]
    by_cases hkN : k < N
    · refine ⟨i, hi, N - 1 - k, by omega, hcs _ ⟨0, ?_⟩⟩
      have : ((N - 1 - k : Nat) : ℝ) = N - 1 - k := by
        rw [Nat.cast_sub (by omega), Nat.cast_sub (by omega)]; simp
      unfold mid
      rw [this]; push_cast; field_simp; ring
    · refine ⟨i, hi, 3 * N - 1 - k, by omega, hcs _ ⟨1, ?_⟩⟩
      have : ((3 * N - 1 - k : Nat) : ℝ) = 3 * N - 1 - k := by
        rw [Nat.cast_sub (by omega), Nat.cast_sub (by omega)]; simp
      unfold mid
      rw [this]; push_cast; field_simp; ring
  · rw [hm]
    refine ⟨i, hi, 2 * N - 1 - k, by omega, ?_⟩
    have : ((2 * N - 1 - k : Nat) : ℝ) = 2 * N - 1 - k := by
      rw [Nat.cast_sub (by omega), Nat.cast_sub (by omega)]; simp
    have hz : mid (2 * N) (2 * N - 1 - k) = 2 * Real.pi - mid (2 * N) k := by
      unfold mid
      rw [this]; push_cast; field_simp; ring
    simp only [direction, phi_eq, hz, Real.cos_two_pi_sub, Real.sin_two_pi_sub, mul_neg]
  · rw [hm]
    refine ⟨N - 1 - i, by omega, k, hk, ?_⟩
    simp only [direction, hT.wsym i hi, hT.xsym i hi, neg_mul_neg]

theorem cos_mid_ne {N k : Nat} (hN : 0 < N) (he : N % 2 = 0) : Real.cos (mid (2 * N) k) ≠ 0 := by
  have hNr : (N : ℝ) ≠ 0 := by exact_mod_cast hN.ne'
  intro h
  rw [Real.cos_eq_zero_iff] at h
  obtain ⟨z, hz⟩ := h
  unfold mid at hz
  push_cast at hz
  have hp := Real.pi_ne_zero
  have h2 : (2 * (k : ℝ) + 1) = (2 * z + 1) * N := by
    field_simp at hz
    linarith
  have h3 : (2 * (k : ℤ) + 1) = (2 * z + 1) * N := by exact_mod_cast h2
  have h4 : (2 * z + 1) * (N : ℤ) % 2 = 0 := by
    rw [Int.mul_emod, show ((N : ℤ)) % 2 = 0 by omega]; simp
  omega

theorem sin_mid_ne {N k : Nat} (hN : 0 < N) : Real.sin (mid (2 * N) k) ≠ 0 := by
  have hNr : (N : ℝ) ≠ 0 := by exact_mod_cast hN.ne'
  intro h
  rw [Real.sin_eq_zero_iff] at h
  obtain ⟨z, hz⟩ := h
  unfold mid at hz
  push_cast at hz
  have hp := Real.pi_ne_zero
  have h2 : (2 * (k : ℝ) + 1) = 2 * (z * N) := by
    field_simp at hz
    linarith
  have h3 : (2 * (k : ℤ) + 1) = 2 * (z * N) := by exact_mod_cast h2
  omega

/-- No direction lies in a coordinate plane: the sweep of an axis-aligned brick never meets a
face parallel to a direction. -/
theorem off_planes {N Q} (h : quadrature N = some Q) : ∀ d ∈ Q, d.xi ≠ 0 ∧ d.eta ≠ 0 ∧ d.mu ≠ 0 := by
  obtain ⟨W, X, hT, hm⟩ := mem_quadrature h
  have hN0 : 0 < N := by have := hT.two; omega
  intro d hd
  obtain ⟨i, hi, k, hk, rfl⟩ := (hm d).mp hd
  have hs : Real.sqrt (1 - X i * X i) ≠ 0 := by
    have := hT.xlo i hi
    have := hT.xhi i hi
    exact (Real.sqrt_pos.mpr (by nlinarith)).ne'
  simp only [direction, phi_eq]
  exact ⟨mul_ne_zero hs (cos_mid_ne hN0 hT.even), mul_ne_zero hs (sin_mid_ne hN0), hT.xne i hi⟩

theorem tab_strict {N W X} (hT : Tab N W X) : ∀ i j, i < j → j < N → X i < X j := by
  intro i j hij
  induction j with
  | zero => omega
  | succ j ih =>
    intro hj
    rcases Nat.lt_succ_iff_lt_or_eq.mp hij with h | h
    · exact (ih h (by omega)).trans (hT.xmono j hj)
    · subst h; exact hT.xmono i hj

theorem mid_inj {M k k' : Nat} (hM : 0 < M) (hk : k < M) (hk' : k' < M)
    (hc : Real.cos (mid M k) = Real.cos (mid M k')) (hs : Real.sin (mid M k) = Real.sin (mid M k')) :
    k = k' := by
  have h := Real.Angle.cos_sin_inj hc hs
  rw [Real.Angle.angle_eq_iff_two_pi_dvd_sub] at h
  obtain ⟨z, hz⟩ := h
  have hMr : (M : ℝ) ≠ 0 := by exact_mod_cast hM.ne'
  have hp := Real.pi_ne_zero
  unfold mid at hz
  have h2 : (k : ℝ) - k' = z * M := by
    field_simp at hz
    linarith
  have h3 : (k : ℤ) - k' = z * M := by exact_mod_cast h2
  have hz0 : z = 0 := by
    by_contra hne
    rcases lt_or_gt_of_ne hne with h | h
    · have : z * (M : ℤ) ≤ -1 * M := Int.mul_le_mul_of_nonneg_right (by omega) (by omega)
      omega
    · have : 1 * (M : ℤ) ≤ z * M := Int.mul_le_mul_of_nonneg_right (by omega) (by omega)
      omega
  rw [hz0] at h3
  omega

/-- The directions are pairwise different. -/
theorem directions_distinct {N Q} (h : quadrature N = some Q) :
    (Q.map fun d => (d.xi, d.eta, d.mu)).Nodup := by
  obtain ⟨W, X, hT, rfl⟩ := quadrature_list h
  have hN0 : 0 < N := by have := hT.two; omega
  rw [List.map_flatMap, List.nodup_flatMap]
  constructor
  · intro i hi
    rw [List.mem_range] at hi
    rw [List.map_map]
    refine List.Nodup.map_on ?_ List.nodup_range
    intro k hk k' hk' he
    rw [List.mem_range] at hk hk'
    simp only [Function.comp, direction, phi_eq, Prod.mk.injEq] at he
    have hs : Real.sqrt (1 - X i * X i) ≠ 0 := by
      have := hT.xlo i hi
      have := hT.xhi i hi
      exact (Real.sqrt_pos.mpr (by nlinarith)).ne'
    exact mid_inj (by omega) hk hk' (mul_left_cancel₀ hs he.1) (mul_left_cancel₀ hs he.2.1)
  · refine List.pairwise_lt_range.imp_of_mem ?_
    intro i j hi hj hij
    rw [List.mem_range] at hi hj
    simp only [Function.onFun, List.disjoint_left, List.map_map, List.mem_map]
    rintro _ ⟨k, _, rfl⟩ ⟨k', _, he⟩
    simp only [Function.comp, direction, Prod.mk.injEq] at he
    have := tab_strict hT i j hij hj
    linarith [he.2.2]

/-! ### Moments -/

theorem exactQ_eq (j c : Nat) :
    ∫ x in (-1 : ℝ)..1, (1 - x ^ 2) ^ j * x ^ (2 * c) = (exactQ j (2 * c) : ℝ) := by
  have h1 : ∀ x : ℝ, (1 - x ^ 2) ^ j * x ^ (2 * c)
      = ∑ q ∈ Finset.range (j + 1), ((-1 : ℝ) ^ q * (j.choose q : ℝ)) * x ^ (2 * q + 2 * c) := by
    intro x
    rw [show 1 - x ^ 2 = -x ^ 2 + 1 by ring, add_pow, Finset.sum_mul]
    refine Finset.sum_congr rfl fun q _ => ?_
    rw [neg_pow, ← pow_mul, one_pow, pow_add]
    ring
  simp only [h1]
  rw [intervalIntegral.integral_finsetSum (fun q _ =>
    (Continuous.intervalIntegrable (by fun_prop) _ _))]
  unfold exactQ
  rw [list_sum]
  push_cast
  refine Finset.sum_congr rfl fun q _ => ?_
  rw [intervalIntegral.integral_const_mul, integral_pow]
  congr 1
  rw [Odd.neg_one_pow ⟨q + c, by ring⟩]
  push_cast
  norm_num

/-- The part of the quadrature sum that belongs to one monomial. -/
theorem qsum_monomial {N Q W X} (hT : Tab N W X)
    (hQ : Q = (List.range N).flatMap fun i =>
        (List.range (2 * N)).map fun k => direction N (W i) (X i) k)
    {a b c : Nat} (hd : a + b + c < 2 * N) :
    qsum Q (fun x y z => x ^ a * y ^ b * z ^ c)
      = circ a b * ∑ i ∈ Finset.range N, W i * (Real.sqrt (1 - X i ^ 2) ^ (a + b) * X i ^ c) := by
  have hN0 : 0 < N := by have := hT.two; omega
  unfold qsum
  rw [hQ, sum_flat, ← circ_exact (M := 2 * N) (a := a) (b := b) (by omega), Finset.mul_sum]
  refine Finset.sum_congr rfl fun i _ => ?_
  rw [Finset.mul_sum, Finset.sum_mul]
  refine Finset.sum_congr rfl fun k _ => ?_
  simp only [direction, phi_eq]
  rw [show X i * X i = X i ^ 2 by ring]
  push_cast
  rw [mul_pow, mul_pow, pow_add]
  ring

theorem sphere_monomial (a b c : Nat) :
    sphere (fun x y z => x ^ a * y ^ b * z ^ c)
      = circ a b * ∫ x in (-1 : ℝ)..1, Real.sqrt (1 - x ^ 2) ^ (a + b) * x ^ c := by
  unfold sphere circ
  rw [← intervalIntegral.integral_const_mul]
  congr 1
  funext mu
  rw [← intervalIntegral.integral_mul_const]
  congr 1
  funext phi
  simp only
  rw [mul_pow, mul_pow, pow_add]
  ring

/-- Sum and integral agree on a monomial up to the accuracy of the tables. -/
theorem monomial_accurate {N Q} (h : quadrature N = some Q) {a b c : Nat} (hd : a + b + c < 2 * N) :
    |qsum Q (fun x y z => x ^ a * y ^ b * z ^ c) - sphere (fun x y z => x ^ a * y ^ b * z ^ c)|
      ≤ 2 * Real.pi / 10 ^ 14 := by
  obtain ⟨W, X, hT, hQ⟩ := quadrature_list h
  rw [qsum_monomial hT hQ hd, sphere_monomial, ← mul_sub, abs_mul]
  have hpi := Real.pi_pos
  by_cases hodd : (a + b) % 2 = 1
  · rw [circ_odd hodd]; simp; positivity
  · obtain ⟨j, hj⟩ : ∃ j, a + b = 2 * j := ⟨(a + b) / 2, by omega⟩
    have hsq : ∀ x : ℝ, -1 ≤ x → x ≤ 1 → Real.sqrt (1 - x ^ 2) ^ (a + b) = (1 - x ^ 2) ^ j := by
      intro x h1 h2
      rw [hj, pow_mul, Real.sq_sqrt (by nlinarith)]
    have hI : ∫ x in (-1 : ℝ)..1, Real.sqrt (1 - x ^ 2) ^ (a + b) * x ^ c
        = ∫ x in (-1 : ℝ)..1, (1 - x ^ 2) ^ j * x ^ c := by
      refine intervalIntegral.integral_congr fun x hx => ?_
      rw [Set.uIcc_of_le (by norm_num)] at hx
      show Real.sqrt (1 - x ^ 2) ^ (a + b) * x ^ c = _
      rw [hsq x hx.1 hx.2]
    have hS : ∑ i ∈ Finset.range N, W i * (Real.sqrt (1 - X i ^ 2) ^ (a + b) * X i ^ c)
        = ∑ i ∈ Finset.range N, W i * (1 - X i ^ 2) ^ j * X i ^ c := by
      refine Finset.sum_congr rfl fun i hi => ?_
      rw [Finset.mem_range] at hi
      rw [hsq _ (hT.xlo i hi).le (hT.xhi i hi).le, mul_assoc]
    rw [hI, hS]
    rcases Nat.even_or_odd' c with ⟨c', hc | hc⟩
    · subst hc
      rw [exactQ_eq]
      calc _ ≤ (2 * Real.pi) * (1 / 10 ^ 14) :=
            mul_le_mul (circ_abs a b) (hT.acc j c' (by omega)) (abs_nonneg _) (by positivity)
        _ = _ := by ring
    · have h1 : ∑ i ∈ Finset.range N, W i * (1 - X i ^ 2) ^ j * X i ^ c = 0 := by
        have h2 := Finset.sum_range_reflect (fun i => W i * (1 - X i ^ 2) ^ j * X i ^ c) N
        have h3 : ∑ i ∈ Finset.range N, W (N - 1 - i) * (1 - X (N - 1 - i) ^ 2) ^ j * X (N - 1 - i) ^ c
            = - ∑ i ∈ Finset.range N, W i * (1 - X i ^ 2) ^ j * X i ^ c := by
          rw [← Finset.sum_neg_distrib]
          refine Finset.sum_congr rfl fun i hi => ?_
          rw [Finset.mem_range] at hi
          rw [hT.wsym i hi, hT.xsym i hi, neg_sq, Odd.neg_pow ⟨c', hc⟩]
          ring
        rw [h3] at h2
        linarith
      have h2 : ∫ x in (-1 : ℝ)..1, (1 - x ^ 2) ^ j * x ^ c = 0 := by
        have h3 := intervalIntegral.integral_comp_neg (a := -1) (b := 1)
          (fun x : ℝ => (1 - x ^ 2) ^ j * x ^ c)
        rw [neg_neg] at h3
        have h4 : ∀ x : ℝ, (1 - (-x) ^ 2) ^ j * (-x) ^ c = -((1 - x ^ 2) ^ j * x ^ c) := by
          intro x
          rw [neg_sq, Odd.neg_pow ⟨c', hc⟩]; ring
        simp only [h4, intervalIntegral.integral_neg] at h3
        linarith
      rw [h1, h2]; simp; positivity

theorem sphere_const : sphere (fun _ _ _ => 1) = 4 * Real.pi := by
  unfold sphere
  simp
  ring

/-- The weights add up to the area of the sphere, to table accuracy. -/
theorem total_weight {N Q} (h : quadrature N = some Q) :
    |(Q.map fun d => d.w).sum - 4 * Real.pi| ≤ 2 * Real.pi / 10 ^ 14 := by
  have hN := ((orders N).mp ⟨Q, h⟩).2.1
  have h1 := monomial_accurate h (a := 0) (b := 0) (c := 0) (by omega)
  simp only [pow_zero, mul_one, sphere_const, qsum] at h1
  exact h1

/-- Sums of functions odd in one component vanish exactly; in particular all first moments. -/
theorem first_moments {N Q} (h : quadrature N = some Q) :
    (Q.map fun d => d.w * d.xi).sum = 0 ∧ (Q.map fun d => d.w * d.eta).sum = 0 ∧
    (Q.map fun d => d.w * d.mu).sum = 0 := by
  obtain ⟨W, X, hT, hQ⟩ := quadrature_list h
  have hN := hT.two
  have hx := qsum_monomial hT hQ (a := 1) (b := 0) (c := 0) (by omega)
  have hy := qsum_monomial hT hQ (a := 0) (b := 1) (c := 0) (by omega)
  have hz := qsum_monomial hT hQ (a := 0) (b := 0) (c := 1) (by omega)
  rw [circ_odd (by norm_num), zero_mul] at hx hy
  simp only [qsum, pow_zero, pow_one, mul_one, one_mul] at hx hy hz
  refine ⟨hx, hy, ?_⟩
  rw [hz]
  have h2 := Finset.sum_range_reflect (fun i => W i * (Real.sqrt (1 - X i ^ 2) ^ (0 + 0) * X i)) N
  have h3 : ∑ i ∈ Finset.range N, W (N - 1 - i) *
        (Real.sqrt (1 - X (N - 1 - i) ^ 2) ^ (0 + 0) * X (N - 1 - i))
      = - ∑ i ∈ Finset.range N, W i * (Real.sqrt (1 - X i ^ 2) ^ (0 + 0) * X i) := by
    rw [← Finset.sum_neg_distrib]
    refine Finset.sum_congr rfl fun i hi => ?_
    rw [Finset.mem_range] at hi
    rw [hT.wsym i hi, hT.xsym i hi]
    simp
  rw [h3] at h2
  have h4 : ∑ i ∈ Finset.range N, W i * (Real.sqrt (1 - X i ^ 2) ^ (0 + 0) * X i) = 0 := by linarith
  rw [h4, mul_zero]

/-! ### All polynomials up to degree 2N - 1 -/

theorem qsum_add (Q : List Dir) (f g : ℝ → ℝ → ℝ → ℝ) :
    qsum Q (fun x y z => f x y z + g x y z) = qsum Q f + qsum Q g := by
  unfold qsum
  induction Q with
  | nil => simp
  | cons d Q ih => simp only [List.map_cons, List.sum_cons] at ih ⊢; rw [ih]; ring

theorem qsum_smul (Q : List Dir) (r : ℝ) (f : ℝ → ℝ → ℝ → ℝ) :
    qsum Q (fun x y z => r * f x y z) = r * qsum Q f := by
  unfold qsum
  induction Q with
  | nil => simp
  | cons d Q ih => simp only [List.map_cons, List.sum_cons] at ih ⊢; rw [ih]; ring

theorem qsum_sum {ι : Type} (Q : List Dir) (s : Finset ι) (f : ι → ℝ → ℝ → ℝ → ℝ) :
    qsum Q (fun x y z => ∑ i ∈ s, f i x y z) = ∑ i ∈ s, qsum Q (f i) := by
  classical
  induction s using Finset.induction_on with
  | empty => unfold qsum; simp
  | insert i s hi ih =>
    simp only [Finset.sum_insert hi]
    rw [qsum_add, ih]

theorem sphere_sum {ι : Type} (s : Finset ι) (r : ι → ℝ) (a b c : ι → Nat) :
    sphere (fun x y z => ∑ i ∈ s, r i * (x ^ a i * y ^ b i * z ^ c i))
      = ∑ i ∈ s, r i * sphere (fun x y z => x ^ a i * y ^ b i * z ^ c i) := by
  unfold sphere
  have h1 : ∀ mu : ℝ, (∫ phi in (0 : ℝ)..(2 * Real.pi), ∑ i ∈ s, r i *
      ((Real.sqrt (1 - mu ^ 2) * Real.cos phi) ^ a i *
        (Real.sqrt (1 - mu ^ 2) * Real.sin phi) ^ b i * mu ^ c i))
      = ∑ i ∈ s, r i * (circ (a i) (b i) * (Real.sqrt (1 - mu ^ 2) ^ (a i + b i) * mu ^ c i)) := by
    intro mu
    rw [intervalIntegral.integral_finsetSum (fun i _ =>
      (Continuous.intervalIntegrable (by fun_prop) _ _))]
    refine Finset.sum_congr rfl fun i _ => ?_
    unfold circ
    rw [intervalIntegral.integral_const_mul, ← intervalIntegral.integral_mul_const]
    congr 2
    funext phi
    rw [mul_pow, mul_pow, pow_add]; ring
  simp only [h1]
  rw [intervalIntegral.integral_finsetSum (fun i _ =>
      (Continuous.intervalIntegrable (by fun_prop) _ _))]
  refine Finset.sum_congr rfl fun i _ => ?_
  have h2 := sphere_monomial (a i) (b i) (c i)
  unfold sphere at h2
  rw [h2, intervalIntegral.integral_const_mul, intervalIntegral.integral_const_mul]

/-- A polynomial in the three direction cosines, as a function. -/
noncomputable def asFun (p : MvPolynomial (Fin 3) ℝ) (x y z : ℝ) : ℝ :=
  MvPolynomial.eval ![x, y, z] p

theorem asFun_eq (p : MvPolynomial (Fin 3) ℝ) :
    asFun p = fun x y z => ∑ m ∈ p.support, p.coeff m * (x ^ m 0 * y ^ m 1 * z ^ m 2) := by
  funext x y z
  unfold asFun
  rw [MvPolynomial.eval_eq]
  refine Finset.sum_congr rfl fun m _ => ?_
  congr 1
  have h := Finset.prod_subset (s₁ := m.support) (s₂ := Finset.univ) (Finset.subset_univ _)
    (f := fun i => (![x, y, z] i) ^ m i) (by
      intro i _ hi
      rw [Finsupp.notMem_support_iff.mp hi, pow_zero])
  rw [h, Fin.prod_univ_three]
  rfl

/-- Every polynomial in the direction cosines of degree at most `2N - 1` is integrated over the
sphere with an error of at most `2 pi 10^-14` times the sum of its coefficients' sizes. -/
theorem polynomials_accurate {N Q} (h : quadrature N = some Q) (p : MvPolynomial (Fin 3) ℝ)
    (hp : p.totalDegree < 2 * N) :
    |qsum Q (asFun p) - sphere (asFun p)|
      ≤ 2 * Real.pi / 10 ^ 14 * ∑ m ∈ p.support, |p.coeff m| := by
  rw [asFun_eq, qsum_sum, sphere_sum, ← Finset.sum_sub_distrib, Finset.mul_sum]
  refine (Finset.abs_sum_le_sum_abs _ _).trans (Finset.sum_le_sum fun m hm => ?_)
  rw [qsum_smul, ← mul_sub, abs_mul, mul_comm]
  refine mul_le_mul_of_nonneg_right (monomial_accurate h ?_) (abs_nonneg _)
  have h1 := MvPolynomial.le_totalDegree hm
  have h2 : (m.sum fun _ e => e) = m 0 + m 1 + m 2 := by
    rw [Finsupp.sum_fintype _ _ (fun _ => rfl), Fin.sum_univ_three]
  omega

/-- The Legendre factor: polynomials of degree at most `2N - 1` in the polar cosine, with the
weights of the table. -/
theorem legendre_accurate {N gw gn} (h : tables N = some (gw, gn)) {c : Nat} (hc : c < 2 * N) :
    |((gw.zip gn).map fun q => dec q.1 * dec q.2 ^ c).sum - ∫ x in (-1 : ℝ)..1, x ^ c|
      ≤ 1 / 10 ^ 14 := by
  have hT := tab_of_good (tables_good h)
  have hg := tables_good h
  simp only [good, Bool.and_eq_true, decide_eq_true_eq, List.all_eq_true, List.mem_range] at hg
  obtain ⟨⟨⟨⟨⟨⟨⟨⟨⟨hlw, hln⟩, -⟩, -⟩, -⟩, -⟩, -⟩, -⟩, -⟩, -⟩ := hg
  rw [sum_zip _ _ _ (by omega), hlw]
  rcases Nat.even_or_odd' c with ⟨c', hc' | hc'⟩
  · subst hc'
    have h1 := hT.acc 0 c' (by omega)
    rw [← exactQ_eq] at h1
    simpa using h1
  · have h1 : ∑ i ∈ Finset.range N, dec (gw.getD i 0) * dec (gn.getD i 0) ^ c = 0 := by
      have h2 := Finset.sum_range_reflect (fun i => dec (gw.getD i 0) * dec (gn.getD i 0) ^ c) N
      have h3 : ∑ i ∈ Finset.range N, dec (gw.getD (N - 1 - i) 0) * dec (gn.getD (N - 1 - i) 0) ^ c
          = - ∑ i ∈ Finset.range N, dec (gw.getD i 0) * dec (gn.getD i 0) ^ c := by
        rw [← Finset.sum_neg_distrib]
        refine Finset.sum_congr rfl fun i hi => ?_
        rw [Finset.mem_range] at hi
        have e1 := hT.wsym i hi
        have e2 := hT.xsym i hi
        rw [e1, e2, Odd.neg_pow ⟨c', hc'⟩]
        ring
      rw [h3] at h2
      linarith
    simp only [h1, integral_pow]
    rw [Even.neg_one_pow ⟨c' + 1, by omega⟩]
    simp

/-- The hypotheses are met: order 4 exists, has 32 directions, and integrates a polynomial of
degree seven. -/
example : ∃ Q, quadrature 4 = some Q ∧ Q.length = 32 ∧
    |qsum Q (fun x y z => x ^ 2 * y ^ 4 * z) - sphere (fun x y z => x ^ 2 * y ^ 4 * z)|
      ≤ 2 * Real.pi / 10 ^ 14 := by
  obtain ⟨Q, h⟩ := (orders 4).mpr (by decide)
  refine ⟨Q, h, by simpa using count h, ?_⟩
  have := monomial_accurate h (a := 2) (b := 4) (c := 1) (by norm_num)
  simpa using this

end Verif.Quadrature
