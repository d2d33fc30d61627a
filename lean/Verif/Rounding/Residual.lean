import Verif.Rounding.Gauss

/-!
# The residual of the elimination
-/
namespace Verif.Rounding

open Verif.Transport

variable {u : ℝ} {rnd : ℝ → ℝ}

theorem abs_mul_le' {a b A B : ℝ} (ha : |a| ≤ A) (hb : |b| ≤ B) : |a * b| ≤ A * B := by
  rw [abs_mul]
  exact mul_le_mul ha hb (abs_nonneg _) ((abs_nonneg _).trans ha)

/-- One step of the elimination: `a - l v` with `|l|` about one. -/
theorem step_elim (R : Rounds u rnd) (hu : u ≤ 1 / 1000) {a l v g : ℝ} (hl : |l| ≤ 1.01) (ha : |a| ≤ g) (hv : |v| ≤ g) :
    |rnd (a - rnd (l * v)) - (a - l * v)| ≤ 3.1 * (u * g) ∧ |rnd (a - rnd (l * v))| ≤ 2.02 * g := by
  have hu0 := R.small.1
  have hg := (abs_nonneg _).trans ha
  have h1 := abs_mul_le' hl hv
  have h2 := R.near (l * v)
  have h3 := R.near (a - rnd (l * v))
  have hug : u * g ≤ 1 / 1000 * g := mul_le_mul_of_nonneg_right hu hg
  have hug0 : 0 ≤ u * g := mul_nonneg hu0 hg
  have h4 : u * |l * v| ≤ 1.01 * (u * g) := by
    have := mul_le_mul_of_nonneg_left h1 hu0
    linarith
  have h5 : |rnd (l * v)| ≤ 1.012 * g := by
    have := abs_add_le (rnd (l * v) - l * v) (l * v)
    rw [sub_add_cancel] at this
    linarith
  have h6 : |a - rnd (l * v)| ≤ 2.012 * g := by
    have := abs_sub a (rnd (l * v))
    linarith
  have h7 : u * |a - rnd (l * v)| ≤ 2.012 * (u * g) := by
    have := mul_le_mul_of_nonneg_left h6 hu0
    linarith
  constructor
  · have := abs_sub (rnd (a - rnd (l * v)) - (a - rnd (l * v))) (rnd (l * v) - l * v)
    rw [show rnd (a - rnd (l * v)) - (a - rnd (l * v)) - (rnd (l * v) - l * v) = rnd (a - rnd (l * v)) - (a - l * v) by ring] at this
    linarith
  · have := abs_add_le (rnd (a - rnd (l * v)) - (a - rnd (l * v))) (a - rnd (l * v))
    rw [sub_add_cancel] at this
    linarith

/-- A multiplier of the elimination. -/
theorem step_mult (R : Rounds u rnd) (hu : u ≤ 1 / 1000) {a p : ℝ} (hp : p ≠ 0) (ha : |a| ≤ |p|) :
    |rnd (a * rnd (1 / p)) * p - a| ≤ 2.01 * (u * |a|) ∧ |rnd (a * rnd (1 / p))| ≤ 1.01 := by
  have hu0 := R.small.1
  have hp' := abs_pos.2 hp
  have h1 : |rnd (1 / p) * p - 1| ≤ u := by
    have := mul_le_mul_of_nonneg_right (R.near (1 / p)) hp'.le
    rw [← abs_mul, mul_assoc, ← abs_mul, sub_mul, one_div_mul_cancel hp, abs_one, mul_one] at this
    exact this
  have h2 : |a * rnd (1 / p) * p - a| ≤ u * |a| := by
    rw [show a * rnd (1 / p) * p - a = a * (rnd (1 / p) * p - 1) by ring, abs_mul, mul_comm]
    exact mul_le_mul_of_nonneg_right h1 (abs_nonneg _)
  have hua : u * |a| ≤ 1 / 1000 * |a| := mul_le_mul_of_nonneg_right hu (abs_nonneg a)
  have hua0 : 0 ≤ u * |a| := mul_nonneg hu0 (abs_nonneg a)
  have h3 : |a * rnd (1 / p) * p| ≤ 1.001 * |a| := by
    have := abs_add_le (a * rnd (1 / p) * p - a) a
    rw [sub_add_cancel] at this
    linarith
  have h4 : |rnd (a * rnd (1 / p)) * p - a * rnd (1 / p) * p| ≤ 1.001 * (u * |a|) := by
    have := mul_le_mul_of_nonneg_right (R.near (a * rnd (1 / p))) hp'.le
    rw [← abs_mul, mul_assoc, ← abs_mul, sub_mul] at this
    have h5 := mul_le_mul_of_nonneg_left h3 hu0
    linarith
  have h6 : |rnd (a * rnd (1 / p)) * p - a| ≤ 2.01 * (u * |a|) := by
    have := abs_add_le (rnd (a * rnd (1 / p)) * p - a * rnd (1 / p) * p) (a * rnd (1 / p) * p - a)
    rw [sub_add_sub_cancel] at this
    linarith
  refine ⟨h6, ?_⟩
  have h7 := abs_add_le (rnd (a * rnd (1 / p)) * p - a) a
  rw [sub_add_cancel, abs_mul] at h7
  refine le_of_mul_le_mul_right ?_ hp'
  linarith

/-- One step of a substitution, seen from its result. -/
theorem step_back (R : Rounds u rnd) (hu : u ≤ 1 / 1000) {a l v h m : ℝ} (hm : |l * v| ≤ m) (hz : |rnd (a - rnd (l * v))| ≤ h) :
    |rnd (a - rnd (l * v)) - (a - l * v)| ≤ 1.01 * (u * h) + u * m ∧ |a| ≤ 1.01 * h + 1.01 * m := by
  have hu0 := R.small.1
  have hh := (abs_nonneg _).trans hz
  have hm0 := (abs_nonneg _).trans hm
  have h1 := R.near (a - rnd (l * v))
  have h2 := R.near (l * v)
  have h3 : |a - rnd (l * v)| ≤ 1.01 * h := by
    have h4 := abs_sub (rnd (a - rnd (l * v))) (rnd (a - rnd (l * v)) - (a - rnd (l * v)))
    rw [sub_sub_cancel] at h4
    have h5 := mul_le_mul_of_nonneg_right hu (abs_nonneg (a - rnd (l * v)))
    linarith
  have h4 := mul_le_mul_of_nonneg_left h3 hu0
  have h5 := mul_le_mul_of_nonneg_left hm hu0
  have h6 := mul_le_mul_of_nonneg_right hu hm0
  constructor
  · have := abs_sub (rnd (a - rnd (l * v)) - (a - rnd (l * v))) (rnd (l * v) - l * v)
    rw [show rnd (a - rnd (l * v)) - (a - rnd (l * v)) - (rnd (l * v) - l * v) = rnd (a - rnd (l * v)) - (a - l * v) by ring] at this
    linarith
  · have h7 := abs_add_le (rnd (l * v) - l * v) (l * v)
    rw [sub_add_cancel] at h7
    have h8 := abs_add_le (a - rnd (l * v)) (rnd (l * v))
    rw [sub_add_cancel] at h8
    linarith

/-- The last step of the back substitution, seen from its result. -/
theorem step_pivot (R : Rounds u rnd) (hu : u ≤ 1 / 1000) {w p h : ℝ} (hp : p ≠ 0) (hz : |p * rnd (w * rnd (1 / p))| ≤ h) :
    |p * rnd (w * rnd (1 / p)) - w| ≤ 2.1 * (u * h) ∧ |w| ≤ 1.01 * h := by
  have hu0 := R.small.1
  have hp' := abs_pos.2 hp
  have h1 : |rnd (1 / p) * p - 1| ≤ u := by
    have := mul_le_mul_of_nonneg_right (R.near (1 / p)) hp'.le
    rw [← abs_mul, mul_assoc, ← abs_mul, sub_mul, one_div_mul_cancel hp, abs_one, mul_one] at this
    exact this
  have h2 : |w * rnd (1 / p) * p - w| ≤ u * |w| := by
    rw [show w * rnd (1 / p) * p - w = w * (rnd (1 / p) * p - 1) by ring, abs_mul, mul_comm]
    exact mul_le_mul_of_nonneg_right h1 (abs_nonneg _)
  have hua : u * |w| ≤ 1 / 1000 * |w| := mul_le_mul_of_nonneg_right hu (abs_nonneg w)
  have hua0 : 0 ≤ u * |w| := mul_nonneg hu0 (abs_nonneg w)
  have h3 : |w * rnd (1 / p) * p| ≤ 1.001 * |w| := by
    have := abs_add_le (w * rnd (1 / p) * p - w) w
    rw [sub_add_cancel] at this
    linarith
  have h4 : |rnd (w * rnd (1 / p)) * p - w * rnd (1 / p) * p| ≤ 1.001 * (u * |w|) := by
    have := mul_le_mul_of_nonneg_right (R.near (w * rnd (1 / p))) hp'.le
    rw [← abs_mul, mul_assoc, ← abs_mul, sub_mul] at this
    have h5 := mul_le_mul_of_nonneg_left h3 hu0
    linarith
  have h6 : |p * rnd (w * rnd (1 / p)) - w| ≤ 2.001 * (u * |w|) := by
    rw [mul_comm p]
    have := abs_add_le (rnd (w * rnd (1 / p)) * p - w * rnd (1 / p) * p) (w * rnd (1 / p) * p - w)
    rw [sub_add_sub_cancel] at this
    linarith
  have h7 : |w| ≤ 1.01 * h := by
    have h8 := abs_sub (p * rnd (w * rnd (1 / p))) (p * rnd (w * rnd (1 / p)) - w)
    rw [sub_sub_cancel] at h8
    linarith
  refine ⟨?_, h7⟩
  have := mul_le_mul_of_nonneg_left h7 hu0
  have h9 : 0 ≤ u * h := mul_nonneg hu0 ((abs_nonneg _).trans hz)
  linarith

/-! ### The factors -/

/-- `B` is the product of the factors up to `e`: multipliers `l` and upper factor `d`, `v`. -/
structure NearLU (B : Mat4 ℝ) (l v : Mat4 ℝ) (d : Vec4 ℝ) (e : ℝ) : Prop where
  a00 : |d 0 - B 0 0| ≤ e
  a01 : |v 0 1 - B 0 1| ≤ e
  a02 : |v 0 2 - B 0 2| ≤ e
  a03 : |v 0 3 - B 0 3| ≤ e
  a10 : |l 1 0 * d 0 - B 1 0| ≤ e
  a11 : |l 1 0 * v 0 1 + d 1 - B 1 1| ≤ e
  a12 : |l 1 0 * v 0 2 + v 1 2 - B 1 2| ≤ e
  a13 : |l 1 0 * v 0 3 + v 1 3 - B 1 3| ≤ e
  a20 : |l 2 0 * d 0 - B 2 0| ≤ e
  a21 : |l 2 0 * v 0 1 + l 2 1 * d 1 - B 2 1| ≤ e
  a22 : |l 2 0 * v 0 2 + l 2 1 * v 1 2 + d 2 - B 2 2| ≤ e
  a23 : |l 2 0 * v 0 3 + l 2 1 * v 1 3 + v 2 3 - B 2 3| ≤ e
  a30 : |l 3 0 * d 0 - B 3 0| ≤ e
  a31 : |l 3 0 * v 0 1 + l 3 1 * d 1 - B 3 1| ≤ e
  a32 : |l 3 0 * v 0 2 + l 3 1 * v 1 2 + l 3 2 * d 2 - B 3 2| ≤ e
  a33 : |l 3 0 * v 0 3 + l 3 1 * v 1 3 + l 3 2 * v 2 3 + d 3 - B 3 3| ≤ e

theorem near2 {a b c x y : ℝ} (h1 : |a - b| ≤ x) (h2 : |b - c| ≤ y) : |a - c| ≤ x + y := by
  have := abs_add_le (a - b) (b - c)
  rw [sub_add_sub_cancel] at this
  linarith

/-- The pivots of the elimination without exchanges. -/
noncomputable def rpivots (rnd : ℝ → ℝ) (B : Mat4 ℝ) : Vec4 ℝ := fun i =>
  match i with
  | 0 => B 0 0
  | 1 => relimCore rnd 0 1 B 1 1
  | 2 => relimCore rnd 1 2 (relimCore rnd 0 1 B) 2 2
  | 3 => rfactors rnd B 3 3

theorem factors_near (R : Rounds u rnd) (hu : u ≤ 1 / 1000) {B : Mat4 ℝ} {α : ℝ} (hB : ∀ i j, |B i j| ≤ α)
    (n0 : B 0 0 ≠ 0) (m0 : ∀ i, |B i 0| ≤ |B 0 0|)
    (n1 : relimCore rnd 0 1 B 1 1 ≠ 0) (m1 : ∀ i, 1 ≤ i → |relimCore rnd 0 1 B i 1| ≤ |relimCore rnd 0 1 B 1 1|)
    (n2 : relimCore rnd 1 2 (relimCore rnd 0 1 B) 2 2 ≠ 0)
    (m2 : ∀ i, 2 ≤ i → |relimCore rnd 1 2 (relimCore rnd 0 1 B) i 2| ≤ |relimCore rnd 1 2 (relimCore rnd 0 1 B) 2 2|) :
    NearLU B (rfactors rnd B) (rfactors rnd B) (rpivots rnd B) (22.1 * (u * α)) ∧
      (∀ i j, j < i → |rfactors rnd B i j| ≤ 1.01) ∧ (∀ i j, i < j → |rfactors rnd B i j| ≤ 8.25 * α) ∧
      ∀ i, |rpivots rnd B i| ≤ 8.25 * α := by
  have hα := (abs_nonneg _).trans (hB 0 0)
  have hu0 := R.small.1
  have huα : 0 ≤ u * α := mul_nonneg hu0 hα
  -- column 0
  obtain ⟨l, hl⟩ : ∃ l : Fin 4 → ℝ, ∀ i, l i = rnd (B i 0 * rnd (1 / B 0 0)) := ⟨_, fun _ => rfl⟩
  have L0 : ∀ i, |l i * B 0 0 - B i 0| ≤ 2.01 * (u * α) ∧ |l i| ≤ 1.01 := fun i => by
    have := step_mult R hu n0 (m0 i)
    rw [← hl] at this
    exact ⟨this.1.trans (by have := mul_le_mul_of_nonneg_left (hB i 0) hu0; linarith), this.2⟩
  -- the first update
  obtain ⟨z, hz⟩ : ∃ z : Fin 4 → Fin 4 → ℝ, ∀ i j, z i j = rnd (B i j - rnd (l i * B 0 j)) := ⟨_, fun _ _ => rfl⟩
  have Z : ∀ i j, |z i j - (B i j - l i * B 0 j)| ≤ 3.1 * (u * α) ∧ |z i j| ≤ 2.02 * α := fun i j => by
    have := step_elim R hu (L0 i).2 (hB i j) (hB 0 j)
    rw [← hz] at this
    exact this
  have c11 : ∀ i, 1 ≤ i → relimCore rnd 0 1 B i 1 = z i 1 := by
    intro i hi
    rw [rcore0, hz, hl]
    fin_cases i
    · simp at hi
    all_goals rfl
  rw [c11 1 le_rfl] at n1
  have m1' : ∀ i, 1 ≤ i → |z i 1| ≤ |z 1 1| := fun i hi => by
    have := m1 i hi
    rwa [c11 i hi, c11 1 le_rfl] at this
  -- column 1
  obtain ⟨k, hk⟩ : ∃ k : Fin 4 → ℝ, ∀ i, k i = rnd (z i 1 * rnd (1 / z 1 1)) := ⟨_, fun _ => rfl⟩
  have L1 : ∀ i, 1 ≤ i → |k i * z 1 1 - z i 1| ≤ 2.01 * (u * (2.02 * α)) ∧ |k i| ≤ 1.01 := fun i hi => by
    have := step_mult R hu n1 (m1' i hi)
    rw [← hk] at this
    exact ⟨this.1.trans (by have := mul_le_mul_of_nonneg_left (Z i 1).2 hu0; linarith), this.2⟩
  obtain ⟨y, hy⟩ : ∃ y : Fin 4 → Fin 4 → ℝ, ∀ i j, y i j = rnd (z i j - rnd (k i * z 1 j)) := ⟨_, fun _ _ => rfl⟩
  have Y : ∀ i j, 1 ≤ i → |y i j - (z i j - k i * z 1 j)| ≤ 3.1 * (u * (2.02 * α)) ∧ |y i j| ≤ 2.02 * (2.02 * α) := fun i j hi => by
    have := step_elim R hu (L1 i hi).2 (Z i j).2 (Z 1 j).2
    rw [← hy] at this
    exact this
  have c22 : ∀ i, 2 ≤ i → relimCore rnd 1 2 (relimCore rnd 0 1 B) i 2 = y i 2 := by
    intro i hi
    rw [rcore1, rcore0, hy, hk, hz, hz, hz, hz, hl, hl]
    fin_cases i
    · simp at hi
    · simp at hi
    all_goals rfl
  rw [c22 2 le_rfl] at n2
  have m2' : ∀ i, 2 ≤ i → |y i 2| ≤ |y 2 2| := fun i hi => by
    have := m2 i hi
    rwa [c22 i hi, c22 2 le_rfl] at this
  -- column 2
  obtain ⟨t, ht⟩ : ∃ t : Fin 4 → ℝ, ∀ i, t i = rnd (y i 2 * rnd (1 / y 2 2)) := ⟨_, fun _ => rfl⟩
  have L2 : ∀ i, 2 ≤ i → |t i * y 2 2 - y i 2| ≤ 2.01 * (u * (2.02 * (2.02 * α))) ∧ |t i| ≤ 1.01 := fun i hi => by
    have := step_mult R hu n2 (m2' i hi)
    rw [← ht] at this
    exact ⟨this.1.trans (by have := mul_le_mul_of_nonneg_left (Y i 2 (le_trans (by decide) hi)).2 hu0; linarith), this.2⟩
  obtain ⟨w, hw⟩ : ∃ w : Fin 4 → Fin 4 → ℝ, ∀ i j, w i j = rnd (y i j - rnd (t i * y 2 j)) := ⟨_, fun _ _ => rfl⟩
  have W : ∀ i j, 2 ≤ i → |w i j - (y i j - t i * y 2 j)| ≤ 3.1 * (u * (2.02 * (2.02 * α))) ∧ |w i j| ≤ 2.02 * (2.02 * (2.02 * α)) := fun i j hi => by
    have := step_elim R hu (L2 i hi).2 (Y i j (le_trans (by decide) hi)).2 (Y 2 j (by decide)).2
    rw [← hw] at this
    exact this
  -- the entries
  have d0 : rpivots rnd B 0 = B 0 0 := rfl
  have d1 : rpivots rnd B 1 = z 1 1 := c11 1 le_rfl
  have d2 : rpivots rnd B 2 = y 2 2 := c22 2 le_rfl
  have F : rfactors rnd B = fun i j =>
      match i, j with
      | 0, 0 => rnd (1 / B 0 0)
      | 0, _ => B 0 j
      | 1, 0 => l 1
      | 2, 0 => l 2
      | 3, 0 => l 3
      | 1, 1 => rnd (1 / z 1 1)
      | 1, _ => z 1 j
      | 2, 1 => k 2
      | 3, 1 => k 3
      | 2, 2 => rnd (1 / y 2 2)
      | 2, 3 => y 2 3
      | 3, 2 => t 3
      | 3, 3 => w 3 3 := by
    unfold rfactors
    rw [rcore2, rcore1, rcore0]
    funext i j
    fin_cases i <;> fin_cases j <;> simp only [hw, ht, hy, hk, hz, hl] <;> rfl
  have d3 : rpivots rnd B 3 = w 3 3 := by
    show rfactors rnd B 3 3 = _
    rw [F]
  have z2 := fun i => Z i 2
  have E1 : ∀ i j, |l i * B 0 j + z i j - B i j| ≤ 3.1 * (u * α) := fun i j => by
    have := (Z i j).1
    rwa [show z i j - (B i j - l i * B 0 j) = l i * B 0 j + z i j - B i j by ring] at this
  have E2 : ∀ i j, 1 ≤ i → |l i * B 0 j + k i * z 1 j + y i j - B i j| ≤ 9.4 * (u * α) := fun i j hi => by
    have h1 := (Y i j hi).1
    have h2 := abs_add_le (y i j - (z i j - k i * z 1 j)) (l i * B 0 j + z i j - B i j)
    rw [show y i j - (z i j - k i * z 1 j) + (l i * B 0 j + z i j - B i j) = l i * B 0 j + k i * z 1 j + y i j - B i j by ring] at h2
    linarith [E1 i j]
  have E3 : ∀ i j, 2 ≤ i → |l i * B 0 j + k i * z 1 j + t i * y 2 j + w i j - B i j| ≤ 22.1 * (u * α) := fun i j hi => by
    have h1 := (W i j hi).1
    have h2 := abs_add_le (w i j - (y i j - t i * y 2 j)) (l i * B 0 j + k i * z 1 j + y i j - B i j)
    rw [show w i j - (y i j - t i * y 2 j) + (l i * B 0 j + k i * z 1 j + y i j - B i j) =
      l i * B 0 j + k i * z 1 j + t i * y 2 j + w i j - B i j by ring] at h2
    linarith [E2 i j (le_trans (by decide) hi)]
  have E4 : ∀ i, 1 ≤ i → |l i * B 0 1 + k i * z 1 1 - B i 1| ≤ 22.1 * (u * α) := fun i hi => by
    have h1 := (L1 i hi).1
    have h2 := abs_add_le (k i * z 1 1 - z i 1) (l i * B 0 1 + z i 1 - B i 1)
    rw [show k i * z 1 1 - z i 1 + (l i * B 0 1 + z i 1 - B i 1) = l i * B 0 1 + k i * z 1 1 - B i 1 by ring] at h2
    linarith [E1 i 1]
  have E5 : |l 3 * B 0 2 + k 3 * z 1 2 + t 3 * y 2 2 - B 3 2| ≤ 22.1 * (u * α) := by
    have h1 := (L2 3 (by decide)).1
    have h2 := abs_add_le (t 3 * y 2 2 - y 3 2) (l 3 * B 0 2 + k 3 * z 1 2 + y 3 2 - B 3 2)
    rw [show t 3 * y 2 2 - y 3 2 + (l 3 * B 0 2 + k 3 * z 1 2 + y 3 2 - B 3 2) =
      l 3 * B 0 2 + k 3 * z 1 2 + t 3 * y 2 2 - B 3 2 by ring] at h2
    linarith [E2 3 2 (by decide)]
  refine ⟨?_, ?_, ?_, ?_⟩
  · rw [F]
    constructor
    · rw [d0, sub_self, abs_zero]; positivity
    · show |B 0 1 - B 0 1| ≤ _
      rw [sub_self, abs_zero]; positivity
    · show |B 0 2 - B 0 2| ≤ _
      rw [sub_self, abs_zero]; positivity
    · show |B 0 3 - B 0 3| ≤ _
      rw [sub_self, abs_zero]; positivity
    · exact (L0 1).1.trans (by linarith)
    · rw [d1]; exact (E1 1 1).trans (by linarith)
    · exact (E1 1 2).trans (by linarith)
    · exact (E1 1 3).trans (by linarith)
    · exact (L0 2).1.trans (by linarith)
    · rw [d1]; exact E4 2 (by decide)
    · rw [d2]; exact (E2 2 2 (by decide)).trans (by linarith)
    · exact (E2 2 3 (by decide)).trans (by linarith)
    · exact (L0 3).1.trans (by linarith)
    · rw [d1]; exact E4 3 (by decide)
    · rw [d2]; exact E5
    · rw [d3]; exact E3 3 3 (by decide)
  · intro i j hij
    rw [F]
    fin_cases i <;> fin_cases j <;> first
      | exact absurd hij (by decide)
      | exact (L0 _).2
      | exact (L1 _ (by decide)).2
      | exact (L2 _ (by decide)).2
  · intro i j hij
    rw [F]
    fin_cases i <;> fin_cases j <;> first
      | exact absurd hij (by decide)
      | exact (hB 0 _).trans (by linarith)
      | exact (Z 1 _).2.trans (by linarith)
      | exact (Y 2 _ (by decide)).2.trans (by linarith)
  · intro i
    fin_cases i
    · exact (hB 0 0).trans (by linarith)
    · show |rpivots rnd B 1| ≤ _
      rw [d1]; exact (Z 1 1).2.trans (by linarith)
    · show |rpivots rnd B 2| ≤ _
      rw [d2]; exact (Y 2 2 (by decide)).2.trans (by linarith)
    · show |rpivots rnd B 3| ≤ _
      rw [d3]; exact (W 3 3 (by decide)).2.trans (by linarith)

/-! ### The substitutions -/

theorem rforward_eq (M : Mat4 ℝ) (c : Vec4 ℝ) : ∃ y1 y2 y3 : ℝ,
    y1 = rnd (c 1 - rnd (M 1 0 * c 0)) ∧
    y2 = rnd (rnd (c 2 - rnd (M 2 0 * c 0)) - rnd (M 2 1 * y1)) ∧
    y3 = rnd (rnd (rnd (c 3 - rnd (M 3 0 * c 0)) - rnd (M 3 1 * y1)) - rnd (M 3 2 * y2)) ∧
    rforward rnd M c 0 = c 0 ∧ rforward rnd M c 1 = y1 ∧ rforward rnd M c 2 = y2 ∧ rforward rnd M c 3 = y3 := by
  refine ⟨_, _, _, rfl, rfl, rfl, ?_, ?_, ?_, ?_⟩ <;>
    simp [rforward, below0, below1, below2, set1]

theorem rback_eq (M : Mat4 ℝ) (y : Vec4 ℝ) : ∃ x0 x1 x2 x3 : ℝ,
    x3 = rnd (y 3 * M 3 3) ∧
    x2 = rnd (rnd (y 2 - rnd (M 2 3 * x3)) * M 2 2) ∧
    x1 = rnd (rnd (rnd (y 1 - rnd (M 1 3 * x3)) - rnd (M 1 2 * x2)) * M 1 1) ∧
    x0 = rnd (rnd (rnd (rnd (y 0 - rnd (M 0 3 * x3)) - rnd (M 0 2 * x2)) - rnd (M 0 1 * x1)) * M 0 0) ∧
    rback rnd M y 0 = x0 ∧ rback rnd M y 1 = x1 ∧ rback rnd M y 2 = x2 ∧ rback rnd M y 3 = x3 := by
  refine ⟨_, _, _, _, rfl, rfl, rfl, rfl, ?_, ?_, ?_, ?_⟩ <;>
    simp [rback, above0, above1, above2, above3, set1]

theorem abs3 {a b c A B C : ℝ} (ha : |a| ≤ A) (hb : |b| ≤ B) (hc : |c| ≤ C) : |a + b + c| ≤ A + B + C :=
  (abs_add_three _ _ _).trans (by linarith)

set_option maxHeartbeats 1000000 in
/-- What comes out of the elimination satisfies the system up to a residual. -/
theorem rgauss_residual (R : Rounds u rnd) (hu : u ≤ 1 / 1000) {A : Mat4 ℝ} {b x : Vec4 ℝ} {α X : ℝ} (hA : ∀ i j, |A i j| ≤ α)
    (hX : ∀ j, |x j| ≤ X) (h : rgauss rnd A b = some x) (i : Fin 4) :
    |A i 0 * x 0 + A i 1 * x 1 + A i 2 * x 2 + A i 3 * x 3 - b i| ≤ 800 * (u * (α * X)) := by
  obtain ⟨e, B, c, hB, hc, n0, m0, n1, m1, n2, m2, n3, hx⟩ := rgauss_factored h
  suffices H : ∀ i, |B i 0 * x 0 + B i 1 * x 1 + B i 2 * x 2 + B i 3 * x 3 - c i| ≤ 800 * (u * (α * X)) by
    have := H (e.symm i)
    rw [hB, hc, Equiv.apply_symm_apply] at this
    exact this
  have hB' : ∀ i j, |B i j| ≤ α := fun i j => by rw [hB]; exact hA _ _
  obtain ⟨N, lo, up, dd⟩ := factors_near R hu hB' n0 m0 n1 m1 n2 m2
  obtain ⟨M, hM⟩ : ∃ M, M = set2 (rfactors rnd B) 3 3 (rnd (1 / rfactors rnd B 3 3)) := ⟨_, rfl⟩
  rw [← hM] at hx
  have off : ∀ i j, i ≠ j → M i j = rfactors rnd B i j := by
    intro i j hij
    rw [hM]
    unfold set2
    rw [if_neg]
    rintro ⟨rfl, rfl⟩
    exact hij rfl
  have g0 : M 0 0 = rnd (1 / rpivots rnd B 0) := by
    rw [hM]; unfold rfactors set2
    rw [if_neg (by decide), rcore2, rcore1, rcore0]
    rfl
  have g1 : M 1 1 = rnd (1 / rpivots rnd B 1) := by
    rw [hM]; unfold rfactors set2
    rw [if_neg (by decide), rcore2, rcore1]
    rfl
  have g2 : M 2 2 = rnd (1 / rpivots rnd B 2) := by
    rw [hM]; unfold rfactors set2
    rw [if_neg (by decide), rcore2]
    rfl
  have g3 : M 3 3 = rnd (1 / rpivots rnd B 3) := by
    rw [hM]; unfold set2
    rw [if_pos ⟨rfl, rfl⟩]
    rfl
  have n0' : rpivots rnd B 0 ≠ 0 := n0
  have n1' : rpivots rnd B 1 ≠ 0 := n1
  have n2' : rpivots rnd B 2 ≠ 0 := n2
  have n3' : rpivots rnd B 3 ≠ 0 := n3
  obtain ⟨y1, y2, y3, e1, e2, e3, f0, f1, f2, f3⟩ := rforward_eq (rnd := rnd) M c
  obtain ⟨x0, x1, x2, x3, b3, b2, b1, b0, r0, r1, r2, r3⟩ := rback_eq (rnd := rnd) M (rforward rnd M c)
  rw [← hx] at r0 r1 r2 r3
  rw [f0, g0] at b0
  rw [f1, g1] at b1
  rw [f2, g2] at b2
  rw [f3, g3] at b3
  rw [off 1 0 (by decide)] at e1
  rw [off 2 0 (by decide), off 2 1 (by decide)] at e2
  rw [off 3 0 (by decide), off 3 1 (by decide), off 3 2 (by decide)] at e3
  rw [off 0 1 (by decide), off 0 2 (by decide), off 0 3 (by decide)] at b0
  rw [off 1 2 (by decide), off 1 3 (by decide)] at b1
  rw [off 2 3 (by decide)] at b2
  have l10 := lo 1 0 (by decide)
  have l20 := lo 2 0 (by decide)
  have l21 := lo 2 1 (by decide)
  have l30 := lo 3 0 (by decide)
  have l31 := lo 3 1 (by decide)
  have l32 := lo 3 2 (by decide)
  have v01 := up 0 1 (by decide)
  have v02 := up 0 2 (by decide)
  have v03 := up 0 3 (by decide)
  have v12 := up 1 2 (by decide)
  have v13 := up 1 3 (by decide)
  have v23 := up 2 3 (by decide)
  have p0 := dd 0
  have p1 := dd 1
  have p2 := dd 2
  have p3 := dd 3
  obtain ⟨N00, N01, N02, N03, N10, N11, N12, N13, N20, N21, N22, N23, N30, N31, N32, N33⟩ := N
  have X0 := hX 0
  have X1 := hX 1
  have X2 := hX 2
  have X3 := hX 3
  have k00 := hB' 0 0
  rw [r0] at X0
  rw [r1] at X1
  rw [r2] at X2
  rw [r3] at X3
  rw [r0, r1, r2, r3]
  clear hx off g0 g1 g2 g3 n0 m0 n1 m1 n2 m2 n3 hA hX hB hc h hB' lo up dd f0 f1 f2 f3 r0 r1 r2 r3 hM
  generalize rfactors rnd B 1 0 = L10 at *
  generalize rfactors rnd B 2 0 = L20 at *
  generalize rfactors rnd B 2 1 = L21 at *
  generalize rfactors rnd B 3 0 = L30 at *
  generalize rfactors rnd B 3 1 = L31 at *
  generalize rfactors rnd B 3 2 = L32 at *
  generalize rfactors rnd B 0 1 = V01 at *
  generalize rfactors rnd B 0 2 = V02 at *
  generalize rfactors rnd B 0 3 = V03 at *
  generalize rfactors rnd B 1 2 = V12 at *
  generalize rfactors rnd B 1 3 = V13 at *
  generalize rfactors rnd B 2 3 = V23 at *
  generalize rpivots rnd B 0 = P0 at *
  generalize rpivots rnd B 1 = P1 at *
  generalize rpivots rnd B 2 = P2 at *
  generalize rpivots rnd B 3 = P3 at *
  have hu0 := R.small.1
  have hα : 0 ≤ α := (abs_nonneg _).trans k00
  have hXX : 0 ≤ X := (abs_nonneg _).trans X0
  obtain ⟨H, hH⟩ : ∃ H, H = 8.25 * α * X := ⟨_, rfl⟩
  have hH0 : 0 ≤ H := by rw [hH]; positivity
  have huH : 0 ≤ u * H := mul_nonneg hu0 hH0
  have mm : ∀ {v t : ℝ}, |v| ≤ 8.25 * α → |t| ≤ X → |v * t| ≤ H := fun hv ht => by
    rw [hH]; exact abs_mul_le' hv ht
  -- back substitution: row 3
  have q3 := step_pivot R hu n3' (w := y3) (h := H) (by rw [← b3]; exact mm p3 X3)
  rw [← b3] at q3
  -- row 2
  have q2 := step_pivot R hu n2' (w := rnd (y2 - rnd (V23 * x3))) (h := H) (by rw [← b2]; exact mm p2 X2)
  rw [← b2] at q2
  have q23 := step_back R hu (mm v23 X3) q2.2
  -- row 1
  have q1 := step_pivot R hu n1' (w := rnd (rnd (y1 - rnd (V13 * x3)) - rnd (V12 * x2))) (h := H) (by rw [← b1]; exact mm p1 X1)
  rw [← b1] at q1
  have q12 := step_back R hu (mm v12 X2) q1.2
  have q13 := step_back R hu (mm v13 X3) q12.2
  -- row 0
  have q0 := step_pivot R hu n0' (w := rnd (rnd (rnd (c 0 - rnd (V03 * x3)) - rnd (V02 * x2)) - rnd (V01 * x1))) (h := H)
    (by rw [← b0]; exact mm p0 X0)
  rw [← b0] at q0
  have q01 := step_back R hu (mm v01 X1) q0.2
  have q02 := step_back R hu (mm v02 X2) q01.2
  have q03 := step_back R hu (mm v03 X3) q02.2
  obtain ⟨E3, hE3⟩ : ∃ E, E = P3 * x3 - y3 := ⟨_, rfl⟩
  obtain ⟨E2, hE2⟩ : ∃ E, E = P2 * x2 + V23 * x3 - y2 := ⟨_, rfl⟩
  obtain ⟨E1, hE1⟩ : ∃ E, E = P1 * x1 + V12 * x2 + V13 * x3 - y1 := ⟨_, rfl⟩
  obtain ⟨E0, hE0⟩ : ∃ E, E = P0 * x0 + V01 * x1 + V02 * x2 + V03 * x3 - c 0 := ⟨_, rfl⟩
  have B3 : |E3| ≤ 11.3 * (u * H) := by rw [hE3]; exact q3.1.trans (by linarith)
  have B2 : |E2| ≤ 11.3 * (u * H) := by
    rw [hE2]
    have := abs_add_le (P2 * x2 - rnd (y2 - rnd (V23 * x3))) (rnd (y2 - rnd (V23 * x3)) - (y2 - V23 * x3))
    rw [show P2 * x2 - rnd (y2 - rnd (V23 * x3)) + (rnd (y2 - rnd (V23 * x3)) - (y2 - V23 * x3)) = P2 * x2 + V23 * x3 - y2 by ring] at this
    linarith [q2.1, q23.1]
  have B1 : |E1| ≤ 11.3 * (u * H) := by
    rw [hE1]
    have := abs3 q1.1 q12.1 q13.1
    rw [show P1 * x1 - rnd (rnd (y1 - rnd (V13 * x3)) - rnd (V12 * x2)) +
      (rnd (rnd (y1 - rnd (V13 * x3)) - rnd (V12 * x2)) - (rnd (y1 - rnd (V13 * x3)) - V12 * x2)) +
      (rnd (y1 - rnd (V13 * x3)) - (y1 - V13 * x3)) = P1 * x1 + V12 * x2 + V13 * x3 - y1 by ring] at this
    linarith
  have B0 : |E0| ≤ 11.3 * (u * H) := by
    rw [hE0]
    have h3 := abs3 q0.1 q01.1 q02.1
    have := (abs_add_le _ _).trans (add_le_add h3 q03.1)
    rw [show P0 * x0 - rnd (rnd (rnd (c 0 - rnd (V03 * x3)) - rnd (V02 * x2)) - rnd (V01 * x1)) +
      (rnd (rnd (rnd (c 0 - rnd (V03 * x3)) - rnd (V02 * x2)) - rnd (V01 * x1)) -
        (rnd (rnd (c 0 - rnd (V03 * x3)) - rnd (V02 * x2)) - V01 * x1)) +
      (rnd (rnd (c 0 - rnd (V03 * x3)) - rnd (V02 * x2)) - (rnd (c 0 - rnd (V03 * x3)) - V02 * x2)) +
      (rnd (c 0 - rnd (V03 * x3)) - (c 0 - V03 * x3)) = P0 * x0 + V01 * x1 + V02 * x2 + V03 * x3 - c 0 by ring] at this
    linarith
  -- the size of the intermediate vector
  have s0 : |c 0| ≤ 4.11 * H := q03.2.trans (by linarith)
  have s1 : |y1| ≤ 4.11 * H := q13.2.trans (by linarith)
  have s2 : |y2| ≤ 4.11 * H := q23.2.trans (by linarith)
  have s3 : |y3| ≤ 4.11 * H := q3.2.trans (by linarith)
  obtain ⟨Y, hY⟩ : ∃ Y, Y = 4.11 * H := ⟨_, rfl⟩
  rw [← hY] at s0 s1 s2 s3
  have huY : 0 ≤ u * Y := by rw [hY]; positivity
  have nn : ∀ {l y : ℝ}, |l| ≤ 1.01 → |y| ≤ Y → |l * y| ≤ 1.01 * Y := fun hl hy => abs_mul_le' hl hy
  -- forward substitution
  have t1 := step_back R hu (nn l10 s0) (a := c 1) (h := Y) (by rw [← e1]; exact s1)
  rw [← e1] at t1
  have t21 := step_back R hu (nn l21 s1) (a := rnd (c 2 - rnd (L20 * c 0))) (h := Y) (by rw [← e2]; exact s2)
  rw [← e2] at t21
  have t20 := step_back R hu (nn l20 s0) t21.2
  have t32 := step_back R hu (nn l32 s2) (a := rnd (rnd (c 3 - rnd (L30 * c 0)) - rnd (L31 * y1))) (h := Y) (by rw [← e3]; exact s3)
  rw [← e3] at t32
  have t31 := step_back R hu (nn l31 s1) t32.2
  have t30 := step_back R hu (nn l30 s0) t31.2
  obtain ⟨D1, hD1⟩ : ∃ D, D = y1 + L10 * c 0 - c 1 := ⟨_, rfl⟩
  obtain ⟨D2, hD2⟩ : ∃ D, D = y2 + L20 * c 0 + L21 * y1 - c 2 := ⟨_, rfl⟩
  obtain ⟨D3, hD3⟩ : ∃ D, D = y3 + L30 * c 0 + L31 * y1 + L32 * y2 - c 3 := ⟨_, rfl⟩
  have C1 : |D1| ≤ 9.2 * (u * Y) := by
    rw [hD1, show y1 + L10 * c 0 - c 1 = y1 - (c 1 - L10 * c 0) by ring]
    linarith [t1.1]
  have C2 : |D2| ≤ 9.2 * (u * Y) := by
    rw [hD2]
    have := (abs_add_le _ _).trans (add_le_add t21.1 t20.1)
    rw [show y2 - (rnd (c 2 - rnd (L20 * c 0)) - L21 * y1) + (rnd (c 2 - rnd (L20 * c 0)) - (c 2 - L20 * c 0)) =
      y2 + L20 * c 0 + L21 * y1 - c 2 by ring] at this
    linarith
  have C3 : |D3| ≤ 9.2 * (u * Y) := by
    rw [hD3]
    have := abs3 t32.1 t31.1 t30.1
    rw [show y3 - (rnd (rnd (c 3 - rnd (L30 * c 0)) - rnd (L31 * y1)) - L32 * y2) +
      (rnd (rnd (c 3 - rnd (L30 * c 0)) - rnd (L31 * y1)) - (rnd (c 3 - rnd (L30 * c 0)) - L31 * y1)) +
      (rnd (c 3 - rnd (L30 * c 0)) - (c 3 - L30 * c 0)) = y3 + L30 * c 0 + L31 * y1 + L32 * y2 - c 3 by ring] at this
    linarith
  -- the rows
  have Xe : ∀ {n t : ℝ}, |n| ≤ 22.1 * (u * α) → |t| ≤ X → |n * t| ≤ 22.1 * (u * (α * X)) := fun hn ht => by
    have := abs_mul_le' hn ht
    linarith
  have le : ∀ {l E : ℝ}, |l| ≤ 1.01 → |E| ≤ 11.3 * (u * H) → |l * E| ≤ 11.5 * (u * H) := fun hl hE => by
    have := abs_mul_le' hl hE
    linarith
  have hHe : u * H = 8.25 * (u * (α * X)) := by rw [hH]; ring
  have hYe : u * Y = 4.11 * (u * H) := by rw [hY]; ring
  have fin : ∀ {a b c d n0 n1 n2 n3 D : ℝ}, |a| ≤ 11.5 * (u * H) → |b| ≤ 11.5 * (u * H) → |c| ≤ 11.5 * (u * H) → |d| ≤ 11.3 * (u * H) →
      |n0| ≤ 22.1 * (u * (α * X)) → |n1| ≤ 22.1 * (u * (α * X)) → |n2| ≤ 22.1 * (u * (α * X)) → |n3| ≤ 22.1 * (u * (α * X)) →
      |D| ≤ 9.2 * (u * Y) → |a + b + c + d + D - n0 - n1 - n2 - n3| ≤ 800 * (u * (α * X)) := by
    intro a b c d n0 n1 n2 n3 D ha hb hc hd h0 h1 h2 h3 hD
    rw [abs_le] at *
    constructor <;> linarith [ha.1, ha.2, hb.1, hb.2, hc.1, hc.2, hd.1, hd.2, h0.1, h0.2, h1.1, h1.2, h2.1, h2.2, h3.1, h3.2, hD.1, hD.2]
  have zz : |(0 : ℝ)| ≤ 11.5 * (u * H) := by rw [abs_zero]; positivity
  have zD : |(0 : ℝ)| ≤ 9.2 * (u * Y) := by rw [abs_zero]; positivity
  have r0 : |B 0 0 * x0 + B 0 1 * x1 + B 0 2 * x2 + B 0 3 * x3 - c 0| ≤ 800 * (u * (α * X)) := by
    refine le_of_eq_of_le (congrArg abs ?_) (fin zz zz zz B0 (Xe N00 X0) (Xe N01 X1) (Xe N02 X2) (Xe N03 X3) zD)
    rw [hE0]
    ring
  have r1 : |B 1 0 * x0 + B 1 1 * x1 + B 1 2 * x2 + B 1 3 * x3 - c 1| ≤ 800 * (u * (α * X)) := by
    refine le_of_eq_of_le (congrArg abs ?_) (fin (le l10 B0) zz zz B1 (Xe N10 X0) (Xe N11 X1) (Xe N12 X2) (Xe N13 X3) C1)
    rw [hE0, hE1, hD1]
    ring
  have r2 : |B 2 0 * x0 + B 2 1 * x1 + B 2 2 * x2 + B 2 3 * x3 - c 2| ≤ 800 * (u * (α * X)) := by
    refine le_of_eq_of_le (congrArg abs ?_) (fin (le l20 B0) (le l21 B1) zz B2 (Xe N20 X0) (Xe N21 X1) (Xe N22 X2) (Xe N23 X3) C2)
    rw [hE0, hE1, hE2, hD2]
    ring
  have r3 : |B 3 0 * x0 + B 3 1 * x1 + B 3 2 * x2 + B 3 3 * x3 - c 3| ≤ 800 * (u * (α * X)) := by
    refine le_of_eq_of_le (congrArg abs ?_) (fin (le l30 B0) (le l31 B1) (le l32 B2) B3 (Xe N30 X0) (Xe N31 X1) (Xe N32 X2) (Xe N33 X3) C3)
    rw [hE0, hE1, hE2, hE3, hD3]
    ring
  intro i
  match i with
  | 0 => exact r0
  | 1 => exact r1
  | 2 => exact r2
  | 3 => exact r3

end Verif.Rounding
