import Verif.Rounding.Props
import Mathlib.Data.Int.Log

/-!
# Rounding to 53 bits (C87)
-/
namespace Verif.Rounding

open Verif.Geometry Verif.Rounding.Spec

/-- The nearest integer, the even one of two. -/
noncomputable def nearestEven (y : ℝ) : ℤ :=
  if Int.fract y < 1 / 2 then ⌊y⌋ else if 1 / 2 < Int.fract y then ⌊y⌋ + 1 else if Even ⌊y⌋ then ⌊y⌋ else ⌊y⌋ + 1

theorem nearestEven_near (y : ℝ) : |(nearestEven y : ℝ) - y| ≤ 1 / 2 := by
  have h1 := Int.floor_add_fract y
  have h2 := Int.fract_nonneg y
  have h3 := Int.fract_lt_one y
  unfold nearestEven
  rw [abs_le]
  split_ifs <;> push_cast <;> constructor <;> linarith

/-- Rounding to nearest, ties to even, to a significand of 53 bits: `double` without bounds for the
exponent. -/
noncomputable def binary64 (x : ℝ) : ℝ :=
  SignType.sign x * (nearestEven (|x| / 2 ^ (Int.log 2 |x| - 52)) * 2 ^ (Int.log 2 |x| - 52))

theorem binary64_rounds : Rounds (2 ^ (-53 : ℤ)) binary64 where
  small := by norm_num
  odd x := by
    unfold binary64
    rw [Left.sign_neg, abs_neg]
    push_cast
    ring
  near x := by
    rcases eq_or_ne x 0 with rfl | hx
    · simp [binary64]
    have hp : 0 < |x| := abs_pos.2 hx
    set e := Int.log 2 |x| with he
    have h1 : (2 : ℝ) ^ e ≤ |x| := by
      have := Int.zpow_log_le_self (R := ℝ) (b := 2) (by decide) hp
      exact_mod_cast this
    have hs : (0 : ℝ) < 2 ^ (e - 52) := by positivity
    have h2 := nearestEven_near (|x| / 2 ^ (e - 52))
    have hx' : x = SignType.sign x * |x| := (sign_mul_abs x).symm
    have ha : |((SignType.sign x : SignType) : ℝ)| = 1 := by
      rcases lt_or_gt_of_ne hx with h | h
      · rw [sign_neg h]; simp
      · rw [sign_pos h]; simp
    have h3 : binary64 x - x = SignType.sign x * ((nearestEven (|x| / 2 ^ (e - 52)) - |x| / 2 ^ (e - 52)) * 2 ^ (e - 52)) := by
      unfold binary64
      rw [← he]
      rw [sub_mul, div_mul_cancel₀ _ hs.ne', mul_sub, ← hx']
    rw [h3, abs_mul, ha, one_mul, abs_mul, abs_of_pos hs]
    calc _ ≤ 1 / 2 * 2 ^ (e - 52) := mul_le_mul_of_nonneg_right h2 hs.le
      _ = 2 ^ (-53 : ℤ) * 2 ^ e := by
        rw [← zpow_add₀ (by norm_num : (2 : ℝ) ≠ 0), show (e - 52 : ℤ) = (-53 + e) + 1 by ring, zpow_add₀ (by norm_num : (2 : ℝ) ≠ 0)]
        ring
      _ ≤ _ := mul_le_mul_of_nonneg_left h1 (by positivity)

/-- The nine roundings of a double. -/
theorem nine : (1 + (2 : ℝ) ^ (-53 : ℤ)) ^ 9 - 1 ≤ 10 * 2 ^ (-53 : ℤ) := by norm_num

/-- The sum of the terms is at most six times the cube of the largest coordinate. -/
theorem perm_le {w a b : Pt} {h : ℝ} (hw : ∀ k, |w k| ≤ h) (ha : ∀ k, |a k| ≤ h) (hb : ∀ k, |b k| ≤ h) :
    perm w a b ≤ 6 * h ^ 3 := by
  have h0 : 0 ≤ h := (abs_nonneg _).trans (hw 0)
  have h2 : ∀ i j, |a i| * |b j| ≤ h * h := fun i j => mul_le_mul (ha i) (hb j) (abs_nonneg _) h0
  have h3 : ∀ k i j i' j', |w k| * (|a i| * |b j| + |a i'| * |b j'|) ≤ h * (h * h + h * h) := fun k i j i' j' =>
    mul_le_mul (hw k) (add_le_add (h2 i j) (h2 i' j')) (by positivity) h0
  unfold perm
  nlinarith [h3 0 1 2 2 1, h3 1 2 0 0 2, h3 2 0 1 1 0]

/-- C87: in double precision it is enough that the volume of every tetrahedron is more than
10·2^-53 ≈ 1.2e-15 times the cube of its largest coordinate difference. -/
theorem clear_double {w a b : Pt} {h : ℝ} (hw : ∀ k, |w k| ≤ h) (ha : ∀ k, |a k| ≤ h) (hb : ∀ k, |b k| ≤ h)
    (hv : 10 * 2 ^ (-53 : ℤ) * h ^ 3 < |det w a b| / 6) {k : ℕ} (hk : k ≤ 9) : Clear (2 ^ (-53 : ℤ)) k w a b := by
  unfold Clear
  have h0 : 0 ≤ h := (abs_nonneg _).trans (hw 0)
  have h1 := perm_le hw ha hb
  have h2 : 0 ≤ perm w a b := by unfold perm; positivity
  have h3 : (1 + (2 : ℝ) ^ (-53 : ℤ)) ^ k - 1 ≤ 10 * 2 ^ (-53 : ℤ) := by
    have := pow_le_pow_right₀ (a := 1 + (2 : ℝ) ^ (-53 : ℤ)) (by norm_num) hk
    linarith [nine]
  calc _ ≤ 10 * 2 ^ (-53 : ℤ) * perm w a b := mul_le_mul_of_nonneg_right h3 h2
    _ ≤ 10 * 2 ^ (-53 : ℤ) * (6 * h ^ 3) := mul_le_mul_of_nonneg_left h1 (by positivity)
    _ = 10 * 2 ^ (-53 : ℤ) * h ^ 3 * 6 := by ring
    _ < _ := (lt_div_iff₀ (by norm_num)).1 hv

/-! ### The condition cannot be dropped -/

theorem binary64_zero : binary64 0 = 0 := by simp [binary64]

/-- An integer below 2^53 is a double. -/
theorem binary64_nat {k : ℕ} (hk : k < 2 ^ 53) : binary64 k = k := by
  rcases Nat.eq_zero_or_pos k with rfl | hp
  · simp [binary64]
  unfold binary64
  have hp' : (0 : ℝ) < k := by exact_mod_cast hp
  rw [abs_of_pos hp', sign_pos hp']
  set e := Int.log 2 (k : ℝ) with he
  have hlog : e = (Nat.log 2 k : ℤ) := by rw [he, Int.log_natCast]
  have hlt : Nat.log 2 k < 53 := Nat.log_lt_of_lt_pow hp.ne' hk
  obtain ⟨j, hj⟩ : ∃ j : ℕ, 52 = Nat.log 2 k + j := ⟨52 - Nat.log 2 k, by omega⟩
  have e1 : e - 52 = -(j : ℤ) := by rw [hlog]; omega
  have e2 : (k : ℝ) / 2 ^ (e - 52) = ((k * 2 ^ j : ℕ) : ℤ) := by
    rw [e1, zpow_neg, div_inv_eq_mul]
    push_cast
    norm_cast
  have e3 : nearestEven ((k : ℝ) / 2 ^ (e - 52)) = ((k * 2 ^ j : ℕ) : ℤ) := by
    rw [e2]
    unfold nearestEven
    rw [Int.fract_intCast, if_pos (by norm_num), Int.floor_intCast]
  rw [e3, e1, zpow_neg]
  simp

/-- 2^54 - 1 rounds up. -/
theorem binary64_up : binary64 (2 ^ 54 - 1) = 2 ^ 54 := by
  have hp : (0 : ℝ) < 2 ^ 54 - 1 := by norm_num
  unfold binary64
  rw [abs_of_pos hp, sign_pos hp]
  have e : Int.log 2 ((2 : ℝ) ^ 54 - 1) = 53 := by
    have h1 : ((2 : ℝ) ^ 54 - 1) = ((2 ^ 54 - 1 : ℕ) : ℝ) := by norm_num
    rw [h1, Int.log_natCast]
    have : Nat.log 2 (2 ^ 54 - 1) = 53 := by
      rw [Nat.log_eq_iff (by omega)]
      norm_num
    rw [this]; rfl
  rw [e]
  have h2 : ((2 : ℝ) ^ 54 - 1) / 2 ^ ((53 : ℤ) - 52) = ((2 ^ 53 - 1 : ℤ) : ℝ) + 1 / 2 := by norm_num
  have hf : ⌊((2 ^ 53 - 1 : ℤ) : ℝ) + 1 / 2⌋ = 2 ^ 53 - 1 := by
    rw [Int.floor_intCast_add]
    norm_num
  have hr : Int.fract (((2 ^ 53 - 1 : ℤ) : ℝ) + 1 / 2) = 1 / 2 := by
    rw [Int.fract, hf]; ring
  have h3 : nearestEven (((2 : ℝ) ^ 54 - 1) / 2 ^ ((53 : ℤ) - 52)) = 2 ^ 53 := by
    rw [h2]
    unfold nearestEven
    rw [hr, hf]
    norm_num
    decide
  rw [h3]
  norm_num

/-- 2^54 is a double. -/
theorem binary64_pow : binary64 (2 ^ 54) = 2 ^ 54 := by
  have hp : (0 : ℝ) < 2 ^ 54 := by norm_num
  unfold binary64
  rw [abs_of_pos hp, sign_pos hp]
  have e : Int.log 2 ((2 : ℝ) ^ 54) = 54 := by
    have := Int.log_zpow (R := ℝ) (b := 2) (by decide) 54
    exact_mod_cast this
  rw [e]
  have h2 : ((2 : ℝ) ^ 54) / 2 ^ ((54 : ℤ) - 52) = ((2 ^ 52 : ℤ) : ℝ) := by norm_num
  rw [h2]
  unfold nearestEven
  rw [Int.fract_intCast, if_pos (by norm_num), Int.floor_intCast]
  norm_num

/-- A tetrahedron with edges of length 1e8 and a face of area 1/2. -/
def needle : Fin 4 → Pt := ![![0, 0, 0], ![2 ^ 27 + 1, 2 ^ 27, 0], ![2 ^ 27, 2 ^ 27 - 1, 0], ![0, 0, 2 ^ 27]]

theorem needle_edges : rsub binary64 (needle 1) (needle 0) = ![2 ^ 27 + 1, 2 ^ 27, 0] ∧
    rsub binary64 (needle 2) (needle 0) = ![2 ^ 27, 2 ^ 27 - 1, 0] := by
  have h1 : binary64 (2 ^ 27 + 1) = 2 ^ 27 + 1 := by
    have := binary64_nat (k := 2 ^ 27 + 1) (by norm_num)
    exact_mod_cast this
  have h2 : binary64 (2 ^ 27) = 2 ^ 27 := by
    have := binary64_nat (k := 2 ^ 27) (by norm_num)
    exact_mod_cast this
  have h3 : binary64 (2 ^ 27 - 1) = 2 ^ 27 - 1 := by
    have := binary64_nat (k := 2 ^ 27 - 1) (by norm_num)
    norm_num at this ⊢
    exact this
  constructor <;> funext k <;> match k with
  | 0 => simp [rsub, needle, h1, h2]
  | 1 => simp [rsub, needle, h2, h3]
  | 2 => simp [rsub, needle, binary64_zero]

/-- C87: without such a condition the claim is false: the needle is a proper tetrahedron, but both products
of its cross product round to 2^54, the norm is zero and the normal is not a number. -/
theorem needle_normal : det (vec (needle 0) (needle 3)) (vec (needle 0) (needle 1)) (vec (needle 0) (needle 2)) ≠ 0 ∧
    rnormal binary64 (fun j => needle j.castSucc) needle = none := by
  constructor
  · show ((0 : ℝ) - 0) * ((2 ^ 27 - 0) * (0 - 0) - (0 - 0) * (2 ^ 27 - 1 - 0)) + (0 - 0) * ((0 - 0) * (2 ^ 27 - 0) - (2 ^ 27 + 1 - 0) * (0 - 0)) +
      (2 ^ 27 - 0) * ((2 ^ 27 + 1 - 0) * (2 ^ 27 - 1 - 0) - (2 ^ 27 - 0) * (2 ^ 27 - 0)) ≠ 0
    norm_num
  · have hc : rcross binary64 ![2 ^ 27 + 1, 2 ^ 27, 0] ![2 ^ 27, 2 ^ 27 - 1, 0] = ![0, 0, 0] := by
      have e1 : ((2 : ℝ) ^ 27 + 1) * (2 ^ 27 - 1) = 2 ^ 54 - 1 := by norm_num
      have e2 : (2 : ℝ) ^ 27 * 2 ^ 27 = 2 ^ 54 := by norm_num
      unfold rcross
      funext k
      match k with
      | 0 => simp [binary64_zero]
      | 1 => simp [binary64_zero]
      | 2 =>
        show binary64 (binary64 ((2 ^ 27 + 1) * (2 ^ 27 - 1)) - binary64 (2 ^ 27 * 2 ^ 27)) = 0
        rw [e1, e2, binary64_up, binary64_pow, sub_self, binary64_zero]
    have hn : rnorm binary64 ![0, 0, 0] = 0 := by simp [rnorm, rdot, binary64_zero]
    unfold rnormal
    simp only
    rw [show needle (Fin.castSucc 1) = needle 1 from rfl, show needle (Fin.castSucc 0) = needle 0 from rfl,
      show needle (Fin.castSucc 2) = needle 2 from rfl, needle_edges.1, needle_edges.2, hc, hn, if_pos rfl]

end Verif.Rounding
