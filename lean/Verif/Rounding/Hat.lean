import Verif.Rounding.Iterate

/-!
# The source of the problem in rounded arithmetic (for C98)
-/
namespace Verif.Rounding

open Verif.MeshFile Verif.TychoMesh Verif.Geometry Verif.Program Verif.Program.Spec
open Verif.Rounding.Spec hiding Acyclic
open Verif.Floating (Kernel)
open Verif.Floating.Spec (CellPoints)
open Verif.Traverse (Psi)

/-! ### The code -/

/-- The assignment of `hatSource` (src/Problem.cc:61-79), for one angle, vertex and cell; `cubeSize / 2.0` is 50.
Where `c` is zero the code divides by zero. -/
noncomputable def rhat (rnd : ℝ → ℝ) (om pos : Pt) (sT sS : ℝ) : ℝ :=
  let x := rnd (pos 0 - 50)
  let y := rnd (pos 1 - 50)
  let z := rnd (pos 2 - 50)
  let c := rnd √(rnd (rnd (rnd (x * x) + rnd (y * y)) + rnd (z * z)))
  if c ≤ 30 then
    rnd (rnd (rnd (rnd (rnd (-x / rnd (30 * c)) * om 0) - rnd (rnd (y / rnd (30 * c)) * om 1)) - rnd (rnd (z / rnd (30 * c)) * om 2)) +
      rnd (rnd (sT - sS) * rnd (1 - rnd (c / 30))))
  else 0

/-! ### Relative errors -/

/-- `x'` is `x` up to a relative error of `e`. -/
def Rel (e x' x : ℝ) : Prop := |x' - x| ≤ e * |x|

variable {u e f x x' y y' : ℝ} {rnd : ℝ → ℝ}

theorem Rel.mono (h : Rel e x' x) (hf : e ≤ f) : Rel f x' x := h.trans (mul_le_mul_of_nonneg_right hf (abs_nonneg _))

theorem Rel.size (h : Rel e x' x) : |x'| ≤ (1 + e) * |x| := by
  have : |x'| ≤ |x' - x| + |x| := by have := abs_add_le (x' - x) x; rwa [sub_add_cancel] at this
  unfold Rel at h
  linarith

theorem Rel.round (R : Rounds u rnd) (h : Rel e x' x) (he : e ≤ 1 / 1000) : Rel (e + 1.001 * u) (rnd x') x := by
  have h1 := (R.near x').trans (mul_le_mul_of_nonneg_left h.size R.small.1)
  have h2 : |rnd x' - x| ≤ |rnd x' - x'| + |x' - x| := by
    have := abs_add_le (rnd x' - x') (x' - x); rwa [sub_add_sub_cancel] at this
  unfold Rel at h ⊢
  have h3 : u * ((1 + e) * |x|) ≤ u * (1.001 * |x|) :=
    mul_le_mul_of_nonneg_left (mul_le_mul_of_nonneg_right (by linarith) (abs_nonneg _)) R.small.1
  linarith

theorem Rel.mul (h : Rel e x' x) (k : Rel f y' y) (he0 : 0 ≤ e) (hf : f ≤ 1 / 1000) : Rel (1.001 * e + f) (x' * y') (x * y) := by
  have e1 : x' * y' - x * y = (x' - x) * y' + x * (y' - y) := by ring
  have k1 := k.size
  unfold Rel at *
  rw [e1, abs_mul]
  refine (abs_add_le _ _).trans ?_
  rw [abs_mul, abs_mul]
  have a1 : |x' - x| * |y'| ≤ e * |x| * (1.001 * |y|) :=
    mul_le_mul h (k1.trans (mul_le_mul_of_nonneg_right (by linarith) (abs_nonneg _))) (abs_nonneg _) (mul_nonneg he0 (abs_nonneg _))
  have a2 : |x| * |y' - y| ≤ |x| * (f * |y|) := mul_le_mul_of_nonneg_left k (abs_nonneg _)
  calc _ ≤ e * |x| * (1.001 * |y|) + |x| * (f * |y|) := add_le_add a1 a2
    _ = _ := by ring

theorem Rel.div (h : Rel e x' x) (k : Rel f y' y) (he0 : 0 ≤ e) (hf0 : 0 ≤ f) (hf : f ≤ 1 / 1000) (hy : 0 < y) :
    Rel (1.002 * (e + f)) (x' / y') (x / y) := by
  unfold Rel at *
  rw [abs_of_pos hy] at k
  have k' := abs_le.1 k
  have hy' : 0.999 * y ≤ y' := by nlinarith
  have hy0 : 0 < y' := by linarith
  have e1 : x' / y' - x / y = ((x' - x) * y - x * (y' - y)) / (y' * y) := by field_simp; ring
  rw [e1, abs_div, abs_div, abs_of_pos hy, abs_of_pos (mul_pos hy0 hy), div_le_iff₀ (mul_pos hy0 hy)]
  have a1 : |(x' - x) * y - x * (y' - y)| ≤ (e + f) * |x| * y := by
    refine (abs_sub _ _).trans ?_
    rw [abs_mul, abs_mul, abs_of_pos hy]
    have b1 := mul_le_mul_of_nonneg_right h hy.le
    have b2 := mul_le_mul_of_nonneg_left k (abs_nonneg x)
    linarith
  refine a1.trans ?_
  have e2 : 1.002 * (e + f) * (|x| / y) * (y' * y) = (e + f) * |x| * (1.002 * y') := by field_simp
  rw [e2]
  exact mul_le_mul_of_nonneg_left (by linarith) (mul_nonneg (add_nonneg he0 hf0) (abs_nonneg _))

theorem Rel.add (h : Rel e x' x) (k : Rel f y' y) (hx : 0 ≤ x) (hy : 0 ≤ y) (hef : f ≤ e) : Rel e (x' + y') (x + y) := by
  unfold Rel at *
  rw [abs_of_nonneg hx] at h
  rw [abs_of_nonneg hy] at k
  rw [abs_of_nonneg (add_nonneg hx hy)]
  have e1 : x' + y' - (x + y) = (x' - x) + (y' - y) := by ring
  rw [e1]
  refine (abs_add_le _ _).trans ?_
  have := mul_le_mul_of_nonneg_right hef hy
  linarith

theorem Rel.sqrt (h : Rel e x' x) (hx : 0 < x) (he : e ≤ 1 / 1000) : Rel e √x' √x := by
  unfold Rel at *
  rw [abs_of_pos hx] at h
  have h' := abs_le.1 h
  have hx' : 0 ≤ x' := by nlinarith
  have hs := Real.sqrt_pos.2 hx
  rw [abs_of_pos hs]
  have e1 : (√x' - √x) * (√x' + √x) = x' - x := by
    have a1 := Real.mul_self_sqrt hx'
    have a2 := Real.mul_self_sqrt hx.le
    ring_nf
    rw [sq, sq, a1, a2]
  have hs' := Real.sqrt_nonneg x'
  have hx2 : √x * √x = x := Real.mul_self_sqrt hx.le
  have h2 : |√x' - √x| * (√x' + √x) ≤ e * x := by
    rw [← abs_of_nonneg (by linarith : 0 ≤ √x' + √x), ← abs_mul, e1]
    exact h
  have h3 : |√x' - √x| * √x ≤ e * √x * √x := by
    have := mul_nonneg (abs_nonneg (√x' - √x)) hs'
    calc _ ≤ |√x' - √x| * (√x' + √x) := by rw [mul_add]; linarith
      _ ≤ e * x := h2
      _ = _ := by rw [mul_assoc, hx2]
  exact le_of_mul_le_mul_right h3 hs

theorem Rel.exact (x : ℝ) : Rel 0 x x := by unfold Rel; simp

set_option maxHeartbeats 1000000 in
/-- C98: `hatSource` in rounded arithmetic, away from the centre and from the surface of the ball. -/
theorem rhat_near (R : Rounds u rnd) (hu : u ≤ 1 / 100000) {om pos : Pt} (hom : size om ≤ 1.01) {sT sS : ℝ} (h0 : radius pos ≠ 0)
    (hball : 7 * u * radius pos < |radius pos - 30|) {s : ℝ}
    (hin : radius pos ≤ 30 → s = - ((pos 0 - 50) * om 0 + (pos 1 - 50) * om 1 + (pos 2 - 50) * om 2) / (30 * radius pos)
        + (sT - sS) * (1 - radius pos / 30)) (hout : 30 < radius pos → s = 0) :
    |rhat rnd om pos sT sS - s| ≤ 14 * u * (0.04 + |sT - sS|) ∧ |s| ≤ 0.04 + |sT - sS| := by
  have hu0 := R.small.1
  have hc0 : 0 < radius pos := lt_of_le_of_ne (Real.sqrt_nonneg _) (Ne.symm h0)
  have hsq : 0 < (pos 0 - 50) ^ 2 + (pos 1 - 50) ^ 2 + (pos 2 - 50) ^ 2 := Real.sqrt_pos.1 hc0
  unfold rhat
  dsimp only
  set X := pos 0 - 50
  set Y := pos 1 - 50
  set Z := pos 2 - 50
  have hr : ∀ t : ℝ, Rel (1.001 * u) (rnd t) t := fun t => by
    have := (Rel.exact t).round R (by norm_num)
    rwa [zero_add] at this
  have rsq : ∀ t : ℝ, Rel (3.01 * u) (rnd (rnd t * rnd t)) (t * t) := fun t => by
    have := ((hr t).mul (hr t) (by linarith) (by linarith)).round R (by linarith)
    exact this.mono (by linarith)
  have c1 : Rel (6.03 * u) (rnd √(rnd (rnd (rnd (rnd X * rnd X) + rnd (rnd Y * rnd Y)) + rnd (rnd Z * rnd Z)))) (radius pos) := by
    have a1 := ((rsq X).add (rsq Y) (mul_self_nonneg _) (mul_self_nonneg _) le_rfl).round R (by linarith)
    have a2 := (a1.add (rsq Z) (add_nonneg (mul_self_nonneg _) (mul_self_nonneg _)) (mul_self_nonneg _) (by linarith)).round R
      (by linarith)
    have e : X * X + Y * Y + Z * Z = X ^ 2 + Y ^ 2 + Z ^ 2 := by ring
    rw [e] at a2
    have a3 := (a2.sqrt hsq (by linarith)).round R (by linarith)
    exact a3.mono (by linarith)
  set c := rnd √(rnd (rnd (rnd (rnd X * rnd X) + rnd (rnd Y * rnd Y)) + rnd (rnd Z * rnd Z))) with hc
  set r := radius pos with hrd
  have c2 : |c - r| ≤ 6.03 * u * r := by have := c1; unfold Rel at this; rwa [abs_of_pos hc0] at this
  have c3 := abs_le.1 c2
  have hur : 0 ≤ u * r := mul_nonneg hu0 hc0.le
  have hbr : c ≤ 30 ↔ r ≤ 30 := by
    rcases le_or_gt r 30 with h | h
    · rw [abs_of_nonpos (by linarith)] at hball
      exact ⟨fun _ => h, fun _ => by linarith⟩
    · rw [abs_of_pos (by linarith)] at hball
      exact ⟨fun _ => by linarith, fun k => absurd h (not_lt.2 k)⟩
  have hE := abs_nonneg (sT - sS)
  rcases le_or_gt r 30 with h30 | h30
  swap
  · rw [if_neg (fun k => absurd (hbr.1 k) (not_le.2 h30)), hout h30, sub_zero, abs_zero]
    exact ⟨mul_nonneg (by linarith) (by linarith), by linarith⟩
  rw [if_pos (hbr.2 h30), hin h30]
  -- the quotients
  have d1 : Rel (7.04 * u) (rnd (30 * c)) (30 * r) := by
    have := ((Rel.exact 30).mul c1 le_rfl (by linarith)).round R (by linarith)
    exact this.mono (by linarith)
  have term : ∀ (t t' w : ℝ), Rel (1.001 * u) t' t → Rel (10.2 * u) (rnd (rnd (t' / rnd (30 * c)) * w)) (t / (30 * r) * w) := by
    intro t t' w ht
    have a1 := (ht.div d1 (by linarith) (by linarith) (by linarith) (by linarith)).round R (by linarith)
    have a2 := (a1.mul (Rel.exact w) (by linarith) (by norm_num)).round R (by linarith)
    exact a2.mono (by linarith)
  have hnegX : Rel (1.001 * u) (-rnd X) (-X) := by
    have := hr X
    unfold Rel at *
    rw [abs_neg, show -rnd X - -X = -(rnd X - X) by ring, abs_neg]
    exact this
  have t1 := term (-X) (-rnd X) (om 0) hnegX
  have t2 := term Y (rnd Y) (om 1) (hr Y)
  have t3 := term Z (rnd Z) (om 2) (hr Z)
  set a' := rnd (rnd (-rnd X / rnd (30 * c)) * om 0)
  set b' := rnd (rnd (rnd Y / rnd (30 * c)) * om 1)
  set d' := rnd (rnd (rnd Z / rnd (30 * c)) * om 2)
  set a := -X / (30 * r) * om 0 with ha
  set b := Y / (30 * r) * om 1 with hb
  set d := Z / (30 * r) * om 2 with hd
  unfold Rel at t1 t2 t3
  -- their sum
  have hT : |a| + |b| + |d| ≤ 0.04 := by
    have k := cauchy (fun i => |pos i - 50|) (fun i => |om i|)
    have s1 : size (fun i => |pos i - 50|) = r := by
      unfold size
      simp only [sq_abs]
      rfl
    have s2 : size (fun i => |om i|) = size om := by
      unfold size
      simp only [sq_abs]
    rw [s1, s2] at k
    have e : |a| + |b| + |d| = (|X| * |om 0| + |Y| * |om 1| + |Z| * |om 2|) / (30 * r) := by
      rw [ha, hb, hd]
      simp only [abs_mul, abs_div, abs_neg]
      rw [abs_of_pos hc0, abs_of_pos (by norm_num : (0 : ℝ) < 30)]
      ring
    rw [e, div_le_iff₀ (by linarith)]
    refine k.trans ?_
    have := mul_le_mul_of_nonneg_left hom hc0.le
    linarith
  have ha0 := abs_nonneg a
  have hb0 := abs_nonneg b
  have hd0 := abs_nonneg d
  -- a generic sum
  have sum : ∀ {p q p' q' A B P Q : ℝ}, |p' - p| ≤ A * u * P → |q' - q| ≤ A * u * Q → |p| ≤ P → |q| ≤ Q → 0 ≤ A → A ≤ 20 →
      B = A + 1.01 → |rnd (p' + q') - (p + q)| ≤ B * u * (P + Q) := by
    intro p q p' q' A B P Q hp hq hP hQ hA0 hA hB
    have hP0 := (abs_nonneg _).trans hP
    have hQ0 := (abs_nonneg _).trans hQ
    have k1 : |(p' + q') - (p + q)| ≤ A * u * (P + Q) := by
      rw [show (p' + q') - (p + q) = (p' - p) + (q' - q) by ring]
      exact (abs_add_le _ _).trans (by linarith)
    have k2 : |p' + q'| ≤ 1.001 * (P + Q) := by
      have : |p' + q'| ≤ |(p' + q') - (p + q)| + |p + q| := by
        have := abs_add_le ((p' + q') - (p + q)) (p + q); rwa [sub_add_cancel] at this
      have k3 := abs_add_le p q
      have k4 : A * u * (P + Q) ≤ 0.001 * (P + Q) := mul_le_mul_of_nonneg_right (by nlinarith) (by linarith)
      linarith
    have k3 := (R.near (p' + q')).trans (mul_le_mul_of_nonneg_left k2 hu0)
    rw [show rnd (p' + q') - (p + q) = (rnd (p' + q') - (p' + q')) + ((p' + q') - (p + q)) by ring, hB]
    refine (abs_add_le _ _).trans ?_
    have := mul_nonneg hu0 (add_nonneg hP0 hQ0)
    linarith
  have s1 : |rnd (a' - b') - (a - b)| ≤ 11.3 * u * (|a| + |b|) := by
    have := sum (p := a) (q := -b) (p' := a') (q' := -b') (A := 10.2) (B := 11.21) t1
      (by rw [show -b' - -b = -(b' - b) by ring, abs_neg]; exact t2) le_rfl (le_of_eq (abs_neg b)) (by norm_num) (by norm_num) (by norm_num)
    rw [← sub_eq_add_neg, ← sub_eq_add_neg] at this
    have := mul_nonneg hu0 (add_nonneg ha0 hb0)
    linarith
  have s2 : |rnd (rnd (a' - b') - d') - (a - b - d)| ≤ 12.4 * u * (|a| + |b| + |d|) := by
    have := sum (p := a - b) (q := -d) (p' := rnd (a' - b')) (q' := -d') (A := 11.3) (B := 12.31) s1
      (by
        rw [show -d' - -d = -(d' - d) by ring, abs_neg]
        have := mul_nonneg hu0 hd0
        linarith) (abs_sub _ _) (le_of_eq (abs_neg d)) (by norm_num) (by norm_num) (by norm_num)
    rw [← sub_eq_add_neg, ← sub_eq_add_neg] at this
    have := mul_nonneg hu0 (add_nonneg (add_nonneg ha0 hb0) hd0)
    linarith
  -- the other term
  have q1 : Rel (7.04 * u) (rnd (c / 30)) (r / 30) := by
    have := (c1.mul (Rel.exact (1 / 30)) (by linarith) (by norm_num)).round R (by linarith)
    rw [mul_one_div, mul_one_div] at this
    exact this.mono (by linarith)
  have q2 : |(1 - rnd (c / 30)) - (1 - r / 30)| ≤ 7.04 * u := by
    unfold Rel at q1
    rw [abs_of_pos (by linarith : 0 < r / 30)] at q1
    rw [show (1 - rnd (c / 30)) - (1 - r / 30) = -(rnd (c / 30) - r / 30) by ring, abs_neg]
    refine q1.trans ?_
    have : 7.04 * u * (r / 30) ≤ 7.04 * u * 1 := mul_le_mul_of_nonneg_left (by linarith) (by linarith)
    linarith
  have q3 : |1 - r / 30| ≤ 1 := by rw [abs_le]; constructor <;> linarith
  have q4 : |1 - rnd (c / 30)| ≤ 1.0005 := by
    have : |1 - rnd (c / 30)| ≤ |(1 - rnd (c / 30)) - (1 - r / 30)| + |1 - r / 30| := by
      have := abs_add_le ((1 - rnd (c / 30)) - (1 - r / 30)) (1 - r / 30); rwa [sub_add_cancel] at this
    linarith
  have q5 : |rnd (1 - rnd (c / 30)) - (1 - r / 30)| ≤ 8.06 * u := by
    have k := (R.near (1 - rnd (c / 30))).trans (mul_le_mul_of_nonneg_left q4 hu0)
    rw [show rnd (1 - rnd (c / 30)) - (1 - r / 30) = (rnd (1 - rnd (c / 30)) - (1 - rnd (c / 30))) + ((1 - rnd (c / 30)) - (1 - r / 30)) by ring]
    refine (abs_add_le _ _).trans ?_
    linarith
  have q6 : |rnd (1 - rnd (c / 30))| ≤ 1.001 := by
    have : |rnd (1 - rnd (c / 30))| ≤ |rnd (1 - rnd (c / 30)) - (1 - r / 30)| + |1 - r / 30| := by
      have := abs_add_le (rnd (1 - rnd (c / 30)) - (1 - r / 30)) (1 - r / 30); rwa [sub_add_cancel] at this
    linarith
  have q7 := hr (sT - sS)
  unfold Rel at q7
  set E := sT - sS
  set w' := rnd (1 - rnd (c / 30))
  set w := 1 - r / 30
  have q8 : |rnd E * w' - E * w| ≤ 9.1 * u * |E| := by
    rw [show rnd E * w' - E * w = (rnd E - E) * w' + E * (w' - w) by ring]
    refine (abs_add_le _ _).trans ?_
    rw [abs_mul, abs_mul]
    have a1 : |rnd E - E| * |w'| ≤ 1.001 * u * |E| * 1.001 :=
      mul_le_mul q7 q6 (abs_nonneg _) (mul_nonneg (by linarith) hE)
    have a2 := mul_le_mul_of_nonneg_left q5 hE
    have a3 := mul_nonneg hu0 hE
    linarith
  have q9 : |E * w| ≤ |E| := by
    rw [abs_mul]
    exact mul_le_of_le_one_right hE q3
  have q10 : |rnd E * w'| ≤ 1.001 * |E| := by
    have : |rnd E * w'| ≤ |rnd E * w' - E * w| + |E * w| := by
      have := abs_add_le (rnd E * w' - E * w) (E * w); rwa [sub_add_cancel] at this
    have k : 9.1 * u * |E| ≤ 0.001 * |E| := mul_le_mul_of_nonneg_right (by linarith) hE
    linarith
  have q11 : |rnd (rnd E * w') - E * w| ≤ 12.4 * u * |E| := by
    have k := (R.near (rnd E * w')).trans (mul_le_mul_of_nonneg_left q10 hu0)
    rw [show rnd (rnd E * w') - E * w = (rnd (rnd E * w') - rnd E * w') + (rnd E * w' - E * w) by ring]
    refine (abs_add_le _ _).trans ?_
    have a3 := mul_nonneg hu0 hE
    linarith
  have hs : -(X * om 0 + Y * om 1 + Z * om 2) / (30 * r) + E * w = (a - b - d) + E * w := by
    rw [ha, hb, hd]
    field_simp
    ring
  rw [hs]
  have habd : |a - b - d| ≤ |a| + |b| + |d| := (abs_sub _ _).trans (by linarith [abs_sub a b])
  constructor
  · have := sum (p := a - b - d) (q := E * w) (A := 12.4) (B := 13.41) s2 q11 habd q9 (by norm_num) (by norm_num) (by norm_num)
    have k : u * (|a| + |b| + |d| + |E|) ≤ u * (0.04 + |E|) := mul_le_mul_of_nonneg_left (by linarith) hu0
    have k0 : 0 ≤ u * (0.04 + |E|) := mul_nonneg hu0 (by linarith)
    linarith
  · exact (abs_add_le _ _).trans (by linarith)

variable {val : Nat → ℝ} {m : SerialMesh} {deck : Deck} {p : Problem ℝ} {sS : Nat → ℝ} {κ : ℝ}
variable {K : Kernel ℝ deck.dirs.length deck.nGroups}

/-- C98: no vertex is at the centre of the ball or so close to its surface that rounding could tell which
side it is on. -/
structure Spec.Apart (u : ℝ) (val : Nat → ℝ) (m : SerialMesh) : Prop where
  centre : ∀ c < m.numCells, ∀ v, radius (pts val m c v) ≠ 0
  ball : ∀ c < m.numCells, ∀ v, 7 * u * radius (pts val m c v) < |radius (pts val m c v) - 30|

/-- The source of the kernel is the one of the problem up to rounding. -/
theorem hat_fixed (R : Rounds u rnd) (hu : u ≤ 1 / 100000) (H : Tets m) (Ds : Describes val deck m p sS)
    (hH : K.source = fun a => rhat rnd (deckDir deck a)) (hom : ∀ a < deck.dirs.length, size (deckDir deck a) ≤ 1.01)
    (hA : Apart u val m) {M : ℝ} (hM : ∀ c < m.numCells, |p.sigmaT c - sS c| ≤ M) :
    ∀ c < m.numCells, ∀ P, CellPoints val m c P → ∀ g < deck.nGroups, ∀ v, ∀ a < deck.dirs.length,
      |K.source a (P v) (p.sigmaT c) (sS c) - p.source g v a c| ≤ 14 * u * (0.04 + M) ∧
      |K.source a (P v) (p.sigmaT c) (sS c)| ≤ 1.001 * (0.04 + M) := by
  intro c hc P hP g hg v a ha
  have hu0 := R.small.1
  obtain ⟨d, hd, hPd⟩ := hP
  have hPv : P v = pts val m c v := by rw [position_point (hPd v), pts_point hd]
  have hdir : deck.dirs[a]? = some deck.dirs[a] := List.getElem?_eq_getElem ha
  have hs := Ds.source c hc a _ hdir g hg v
  have hdd : deckDir deck a = ![deck.dirs[a].xi, deck.dirs[a].eta, deck.dirs[a].mu] := by
    unfold deckDir Deck.omega
    rw [List.getElem?_map, hdir]
    rfl
  dsimp only at hs
  rw [hH, hPv]
  obtain ⟨k1, k2⟩ := rhat_near R hu (om := deckDir deck a) (pos := pts val m c v) (hom a ha) (sT := p.sigmaT c) (sS := sS c)
    (hA.centre c hc v) (hA.ball c hc v) (s := p.source g v a c) (by rw [hdd]; exact hs.1) hs.2
  have hMc := hM c hc
  have k3 : 14 * u * (0.04 + |p.sigmaT c - sS c|) ≤ 14 * u * (0.04 + M) := mul_le_mul_of_nonneg_left (by linarith) (by linarith)
  refine ⟨k1.trans k3, ?_⟩
  have k4 : |rhat rnd (deckDir deck a) (pts val m c v) (p.sigmaT c) (sS c)| ≤
      |rhat rnd (deckDir deck a) (pts val m c v) (p.sigmaT c) (sS c) - p.source g v a c| + |p.source g v a c| := by
    have := abs_add_le (rhat rnd (deckDir deck a) (pts val m c v) (p.sigmaT c) (sS c) - p.source g v a c) (p.source g v a c)
    rwa [sub_add_cancel] at this
  have hM0 : 0 ≤ 0.04 + M := by have := (abs_nonneg _).trans hMc; linarith
  have k5 : 14 * u * (0.04 + M) ≤ 0.001 * (0.04 + M) := mul_le_mul_of_nonneg_right (by linarith) hM0
  linarith

/-- C98: the flux that the code has computed after any number of source iterations, in rounded arithmetic from
the geometry to the scattering source, on any partition and under any schedule. -/
theorem machine_program {pv : List Nat} {n : Nat} {P : ParallelMesh} {T : Nat → Mesh} {D : Nat → Verif.Floating.Tables ℝ}
    (R : Rounds u rnd) (hu : u ≤ 1 / 100000) (H : Created m pv n P) (hn : n < uintMax) (L : Loaded val P T)
    (hD : Verif.Floating.Started K val P T D) (F : Fits val m) (Ds : Describes val deck m p sS)
    (hK : Computes rnd (deckDir deck) K) (hS : Solves rnd deck K) (hA : Adds rnd deck K)
    (hH : K.source = fun a => rhat rnd (deckDir deck a)) (hw : WellShaped u val m) (S : Stout κ val m) (hap : Apart u val m)
    (hκ : 31 * u * κ ≤ 1 / 100) (hom : ∀ a < deck.dirs.length, size (deckDir deck a) ≤ 1.01)
    (hσ : ∀ c < m.numCells, 0 < p.sigmaT c)
    (ht : ∀ c < m.numCells, u * (2700 + 33 * κ) * ∑ f, p.area c f ≤ p.sigmaT c * p.volume c)
    (hγ : (1 + u) ^ (deck.dirs.length + 1) - 1 ≤ 1 / 100) {b : ℝ} (hb : p.Ratio m (scattering deck sS) b) (hb1 : b < 1)
    (hpS : ∀ c < m.numCells, 0 ≤ sS c) {M : ℝ} (hM : ∀ c < m.numCells, |p.sigmaT c - sS c| ≤ M)
    (hsize : ∀ r < n, deck.dirs.length * (T r).nCells < 2 ^ 64) {k : Nat} {psi' : Nat → Psi ℝ} (h : K.Iterated n T D (k + 1) psi')
    {psi : Psi ℝ} (hpsi : p.Scatter m (scattering deck sS) psi) :
    ∃ (before : Nat → Psi ℝ) (old new src : Psi ℝ), K.Iterated n T D k before ∧
      Verif.Floating.Spec.Holds deck.dirs.length deck.nGroups n T before old ∧
      Verif.Floating.Spec.Holds deck.dirs.length deck.nGroups n T psi' new ∧
      Verif.Floating.Spec.Holds deck.dirs.length deck.nGroups n T (fun r => K.totalSource (D r) (before r)) src ∧
      ∀ X Q Δ : ℝ,
        (∀ g < deck.nGroups, ∀ v, ∀ a < deck.dirs.length, ∀ c < m.numCells,
          |old g v a c| ≤ X ∧ |new g v a c| ≤ X ∧ |src g v a c| ≤ Q) →
        (∀ g < deck.nGroups, ∀ v, ∀ c < m.numCells,
          |∑ a ∈ Finset.range deck.dirs.length, (old g v a c - new g v a c) * (scattering deck sS).wt a| ≤ Δ) →
        ∀ g < deck.nGroups,
          (1 - b) ^ 2 * ∑ a ∈ Finset.range deck.dirs.length, (scattering deck sS).wt a * ∑ c ∈ Finset.range m.numCells,
              p.sigmaT c * p.volume c * Verif.Source.cellM (fun v => new g v a c - psi g v a c) (fun v => new g v a c - psi g v a c) ≤
            ∑ a ∈ Finset.range deck.dirs.length, (scattering deck sS).wt a * ∑ c ∈ Finset.range m.numCells,
              (2 * p.volume c * (14 * u * (0.04 + M) + u * (1.001 * (0.04 + M)) +
                  sS c / (4 * Real.pi) * ((6 * u + ((1 + u) ^ (deck.dirs.length + 1) - 1)) *
                  ((∑ a ∈ Finset.range deck.dirs.length, (scattering deck sS).wt a) * X) + Δ)) ^ 2 / p.sigmaT c +
                160 * (u * (223 + 31 * κ) * (((∑ f, p.area c f) + p.sigmaT c * p.volume c) * X + p.volume c * Q)) ^ 2 /
                  (p.sigmaT c * p.volume c)) :=
  machine_iterated R hu H hn L hD F Ds hK hS hA hw S hκ hom hσ ht hγ hb hb1 hpS hsize h
    (hat_fixed R hu H.tets Ds hH hom hap hM) hpsi

end Verif.Rounding
