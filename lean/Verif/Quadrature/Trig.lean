import Mathlib.Analysis.SpecialFunctions.Integrals.Basic
import Mathlib.Analysis.Fourier.AddCircle
import Mathlib.Tactic.Ring
import Mathlib.Tactic.Linarith
import Mathlib.Tactic.FieldSimp

/-
The midpoint rule with `M` points on the circle is exact for trigonometric polynomials of
degree below `M`.  Helper lemmas, no reference to the model.
-/

namespace Verif.Quadrature

open Complex MeasureTheory

/-- The `k`-th midpoint of `M` equal arcs. -/
noncomputable def mid (M k : Nat) : ℝ := 2 * Real.pi / M * (k + 1 / 2)

/-- The exponential of frequency `m`. -/
noncomputable def fexp (m : ℤ) (x : ℝ) : ℂ := Complex.exp ((m : ℂ) * Complex.I * (x : ℂ))

theorem fexp_cont (m : ℤ) : Continuous (fexp m) := by
  unfold fexp; fun_prop

/-- `f` is continuous and the `M`-point rule integrates it exactly. -/
def Exact (M : Nat) (f : ℝ → ℂ) : Prop :=
  Continuous f ∧
    (2 * Real.pi / M : ℂ) * ∑ k ∈ Finset.range M, f (mid M k)
      = ∫ x in (0 : ℝ)..(2 * Real.pi), f x

theorem Exact.zero (M : Nat) : Exact M 0 := by
  refine ⟨continuous_zero, ?_⟩
  simp

theorem Exact.add {M f g} (hf : Exact M f) (hg : Exact M g) : Exact M (f + g) := by
  refine ⟨hf.1.add hg.1, ?_⟩
  simp only [Pi.add_apply, Finset.sum_add_distrib, mul_add, hf.2, hg.2]
  rw [intervalIntegral.integral_add (hf.1.intervalIntegrable _ _) (hg.1.intervalIntegrable _ _)]

theorem Exact.smul {M f} (c : ℂ) (hf : Exact M f) : Exact M (c • f) := by
  refine ⟨hf.1.const_smul c, ?_⟩
  simp only [Pi.smul_apply, smul_eq_mul, intervalIntegral.integral_const_mul, ← Finset.mul_sum,
    ← hf.2]
  ring

theorem exact_fexp {M : Nat} (hM : 0 < M) {m : ℤ} (hm : |m| < M) : Exact M (fexp m) := by
  refine ⟨fexp_cont m, ?_⟩
  have hMc : (M : ℂ) ≠ 0 := by exact_mod_cast hM.ne'
  by_cases h0 : m = 0
  · subst h0
    simp [fexp]
    field_simp
  · have hm0 : (m : ℂ) ≠ 0 := by exact_mod_cast h0
    have hr : ∫ x in (0 : ℝ)..(2 * Real.pi), fexp m x = 0 := by
      unfold fexp
      rw [integral_exp_mul_complex (mul_ne_zero hm0 I_ne_zero)]
      have : Complex.exp ((m : ℂ) * Complex.I * ((2 * Real.pi : ℝ) : ℂ)) = 1 := by
        rw [Complex.exp_eq_one_iff]
        exact ⟨m, by push_cast; ring⟩
      rw [this]; simp
    rw [hr]
    set ζ := Complex.exp (2 * Real.pi * Complex.I * m / M) with hζ
    have hpow : ζ ^ M = 1 := by
      rw [hζ, ← Complex.exp_nat_mul, Complex.exp_eq_one_iff]
      exact ⟨m, by field_simp⟩
    have hne : ζ ≠ 1 := by
      intro h
      rw [hζ, Complex.exp_eq_one_iff] at h
      obtain ⟨n, hn⟩ := h
      have hpi : (2 * Real.pi * Complex.I : ℂ) ≠ 0 := Complex.two_pi_I_ne_zero
      have h2 : (m : ℂ) = n * M := by
        have : (2 * Real.pi * Complex.I : ℂ) * m = (2 * Real.pi * Complex.I) * (n * M) := by
          field_simp at hn
          rw [hn]; ring
        exact mul_left_cancel₀ hpi this
      have h3 : m = n * M := by exact_mod_cast h2
      have hn0 : n ≠ 0 := by rintro rfl; simp at h3; exact h0 h3
      rw [h3, abs_mul] at hm
      have : (1 : ℤ) ≤ |n| := Int.one_le_abs hn0
      have hM' : |(M : ℤ)| = M := abs_of_nonneg (by positivity)
      rw [hM'] at hm
      nlinarith [(Int.natCast_pos.mpr hM : (0 : ℤ) < (M : ℤ))]
    have hs : ∑ k ∈ Finset.range M, fexp m (mid M k) = 0 := by
      have : ∀ k, fexp m (mid M k) = Complex.exp (Real.pi * Complex.I * m / M) * ζ ^ k := by
        intro k
        rw [hζ, ← Complex.exp_nat_mul, ← Complex.exp_add]
        unfold fexp mid
        congr 1
        push_cast
        field_simp
        ring
      simp only [this]
      rw [← Finset.mul_sum, geom_sum_eq hne, hpow]
      simp
    rw [hs, mul_zero]

/-- Trigonometric polynomials of degree at most `d`. -/
def TrigSpan (d : Nat) : Submodule ℂ (ℝ → ℂ) :=
  Submodule.span ℂ {f | ∃ m : ℤ, |m| ≤ d ∧ f = fexp m}

theorem exact_of_trig {M d : Nat} (hd : d < M) {f} (hf : f ∈ TrigSpan d) : Exact M f := by
  unfold TrigSpan at hf
  induction hf using Submodule.span_induction with
  | mem f hf =>
    obtain ⟨m, hm, rfl⟩ := hf
    exact exact_fexp (by omega) (by omega)
  | zero => exact Exact.zero M
  | add f g _ _ hf hg => exact hf.add hg
  | smul c f _ hf => exact hf.smul c

theorem trig_mul_fexp {d : Nat} {f} (hf : f ∈ TrigSpan d) {e : ℤ} (he : |e| ≤ 1) :
    f * fexp e ∈ TrigSpan (d + 1) := by
  unfold TrigSpan at hf
  induction hf using Submodule.span_induction with
  | mem f hf =>
    obtain ⟨m, hm, rfl⟩ := hf
    apply Submodule.subset_span
    refine ⟨m + e, ?_, ?_⟩
    · have := abs_add_le m e
      push_cast; omega
    · funext x
      simp only [fexp, Pi.mul_apply, ← Complex.exp_add]
      congr 1
      push_cast; ring
  | zero => simp [TrigSpan]
  | add f g _ _ hf hg => rw [add_mul]; exact Submodule.add_mem _ hf hg
  | smul c f _ hf => rw [smul_mul_assoc]; exact Submodule.smul_mem _ _ hf

theorem cos_fexp (x : ℝ) : ((Real.cos x : ℝ) : ℂ) = (1 / 2) * fexp 1 x + (1 / 2) * fexp (-1) x := by
  rw [Complex.ofReal_cos, Complex.cos]
  simp only [fexp]
  push_cast
  have h1 : (1 : ℂ) * I * (x : ℂ) = x * I := by ring
  have h2 : (-1 : ℂ) * I * (x : ℂ) = -x * I := by ring
  rw [h1, h2]; ring

theorem sin_fexp (x : ℝ) :
    ((Real.sin x : ℝ) : ℂ) = (-I / 2) * fexp 1 x + (I / 2) * fexp (-1) x := by
  rw [Complex.ofReal_sin, Complex.sin]
  simp only [fexp]
  push_cast
  have h1 : (1 : ℂ) * I * (x : ℂ) = x * I := by ring
  have h2 : (-1 : ℂ) * I * (x : ℂ) = -x * I := by ring
  rw [h1, h2]; ring

theorem trig_mem (a b : Nat) :
    (fun x : ℝ => ((Real.cos x ^ a * Real.sin x ^ b : ℝ) : ℂ)) ∈ TrigSpan (a + b) := by
  induction b with
  | zero =>
    induction a with
    | zero =>
      apply Submodule.subset_span
      refine ⟨0, by simp, ?_⟩
      funext x; simp [fexp]
    | succ a ih =>
      have h1 := trig_mul_fexp ih (e := 1) (by simp)
      have h2 := trig_mul_fexp ih (e := -1) (by simp)
      have h3 := Submodule.add_mem _ (Submodule.smul_mem _ (1 / 2 : ℂ) h1)
        (Submodule.smul_mem _ (1 / 2 : ℂ) h2)
      refine (congrArg (· ∈ TrigSpan (a + 1 + 0)) ?_).mp h3
      funext x
      simp only [Pi.add_apply, Pi.smul_apply, Pi.mul_apply, smul_eq_mul, pow_succ]
      push_cast
      rw [← Complex.ofReal_cos, cos_fexp]; ring
  | succ b ih =>
    have h1 := trig_mul_fexp ih (e := 1) (by simp)
    have h2 := trig_mul_fexp ih (e := -1) (by simp)
    have h3 := Submodule.add_mem _ (Submodule.smul_mem _ (-I / 2 : ℂ) h1)
      (Submodule.smul_mem _ (I / 2 : ℂ) h2)
    refine (congrArg (· ∈ TrigSpan (a + (b + 1))) ?_).mp h3
    funext x
    simp only [Pi.add_apply, Pi.smul_apply, Pi.mul_apply, smul_eq_mul, pow_succ]
    push_cast
    rw [← Complex.ofReal_sin, sin_fexp]; ring

/-- The moments of the circle. -/
noncomputable def circ (a b : Nat) : ℝ :=
  ∫ x in (0 : ℝ)..(2 * Real.pi), Real.cos x ^ a * Real.sin x ^ b

theorem circ_exact {M a b : Nat} (h : a + b < M) :
    (2 * Real.pi / M) * ∑ k ∈ Finset.range M, Real.cos (mid M k) ^ a * Real.sin (mid M k) ^ b
      = circ a b := by
  have h1 := (exact_of_trig h (trig_mem a b)).2
  rw [intervalIntegral.integral_ofReal] at h1
  unfold circ
  apply Complex.ofReal_injective
  rw [← h1]
  push_cast
  rfl

theorem circ_odd {a b : Nat} (h : (a + b) % 2 = 1) : circ a b = 0 := by
  have hper : Function.Periodic (fun x : ℝ => Real.cos x ^ a * Real.sin x ^ b) (2 * Real.pi) := by
    intro x; simp
  have h1 : circ a b = ∫ x in Real.pi..(Real.pi + 2 * Real.pi), Real.cos x ^ a * Real.sin x ^ b := by
    have := hper.intervalIntegral_add_eq 0 Real.pi
    simpa [circ] using this
  have h2 : circ a b = -∫ x in Real.pi..(Real.pi + 2 * Real.pi),
      Real.cos x ^ a * Real.sin x ^ b := by
    have := intervalIntegral.integral_comp_add_right (a := 0) (b := 2 * Real.pi)
      (fun x : ℝ => Real.cos x ^ a * Real.sin x ^ b) Real.pi
    rw [zero_add, add_comm (2 * Real.pi)] at this
    rw [← this, ← intervalIntegral.integral_neg]
    unfold circ
    congr 1
    funext x
    rw [Real.cos_add_pi, Real.sin_add_pi, neg_pow, neg_pow (Real.sin x)]
    have : ((-1 : ℝ)) ^ a * (-1) ^ b = -1 := by
      rw [← pow_add]
      exact Odd.neg_one_pow (Nat.odd_iff.mpr h)
    linear_combination (Real.cos x ^ a * Real.sin x ^ b) * this
  linarith

theorem circ_abs (a b : Nat) : |circ a b| ≤ 2 * Real.pi := by
  have hp := Real.pi_pos
  have := intervalIntegral.norm_integral_le_of_norm_le_const (a := 0) (b := 2 * Real.pi) (C := 1)
    (f := fun x : ℝ => Real.cos x ^ a * Real.sin x ^ b) (by
      intro x _
      rw [Real.norm_eq_abs, abs_mul, abs_pow, abs_pow]
      have h1 := pow_le_one₀ (n := a) (abs_nonneg _) (Real.abs_cos_le_one x)
      have h2 := pow_le_one₀ (n := b) (abs_nonneg _) (Real.abs_sin_le_one x)
      have h3 : 0 ≤ |Real.sin x| ^ b := by positivity
      nlinarith [pow_nonneg (abs_nonneg (Real.cos x)) a])
  rw [Real.norm_eq_abs, one_mul, sub_zero, abs_of_pos (by positivity : 0 < 2 * Real.pi)] at this
  exact this

end Verif.Quadrature
