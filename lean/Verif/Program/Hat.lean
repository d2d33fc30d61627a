import Verif.Program.Checks
import Verif.TychoMesh.Interp

/-!
# The hat function on a tetrahedron (for C84)

How far the flux the source is made for is from a linear function on a cell, and what this does to the discrete equations.
-/
set_option linter.unusedSectionVars false
set_option linter.unusedVariables false
namespace Verif.Program

open Verif.MeshFile Verif.TychoMesh Verif.Geometry Verif.Geometry.Spec Verif.Program.Spec

/-- Two points are at most `h` apart. -/
def Spec.Apart (h : ℝ) (x y : Pt) : Prop := 0 ≤ h ∧ (y 0 - x 0) ^ 2 + (y 1 - x 1) ^ 2 + (y 2 - x 2) ^ 2 ≤ h ^ 2

open Classical in
/-- The derivative of the hat function in direction `d`, as the source takes it. -/
noncomputable def slope (x d : Pt) : ℝ :=
  if radius x ≤ 30 then -((x 0 - 50) * d 0 + (x 1 - 50) * d 1 + (x 2 - 50) * d 2) / (30 * radius x) else 0

/-- What a linear function misses. -/
noncomputable def rem (x y : Pt) : ℝ := exact y - exact x - slope x fun k => y k - x k

theorem radius_nonneg (x : Pt) : 0 ≤ radius x := Real.sqrt_nonneg _

theorem radius_sq (x : Pt) : radius x ^ 2 = (x 0 - 50) ^ 2 + (x 1 - 50) ^ 2 + (x 2 - 50) ^ 2 :=
  Real.sq_sqrt (by positivity)

theorem exact_in {x : Pt} (h : radius x ≤ 30) : exact x = 1 - radius x / 30 := by
  unfold exact
  exact max_eq_right (by linarith)

theorem exact_out {x : Pt} (h : 30 ≤ radius x) : exact x = 0 := by
  unfold exact
  exact max_eq_left (by linarith)

theorem exact_nonneg (x : Pt) : 0 ≤ exact x := le_max_left _ _

theorem exact_le (x : Pt) : exact x ≤ 1 := max_le zero_le_one (by have := radius_nonneg x; linarith)

theorem Spec.Apart.symm {h : ℝ} {x y : Pt} (H : Apart h x y) : Apart h y x := ⟨H.1, by have := H.2; nlinarith⟩

theorem root_linear {r s t w2 h : ℝ} (hr : 0 < r) (hs : 0 ≤ s) (e1 : s ^ 2 = r ^ 2 + 2 * (r * t) + w2) (ht : t ^ 2 ≤ w2) (hw : w2 ≤ h ^ 2) :
    r + t ≤ s ∧ s ≤ r + t + h ^ 2 / (2 * r) := by
  constructor
  · exact abs_le_of_sq_le_sq' (by nlinarith) hs |>.2
  · have : 2 * r * s ≤ 2 * r ^ 2 + 2 * (r * t) + h ^ 2 := by nlinarith [sq_nonneg (r - s)]
    rw [show r + t + h ^ 2 / (2 * r) = (2 * r ^ 2 + 2 * (r * t) + h ^ 2) / (2 * r) by field_simp, le_div_iff₀ (by positivity)]
    linarith

/-- The first two terms of the distance from the centre. -/
theorem radius_linear {h : ℝ} {x y : Pt} (H : Apart h x y) (hr : 0 < radius x) :
    let t := ((x 0 - 50) * (y 0 - x 0) + (x 1 - 50) * (y 1 - x 1) + (x 2 - 50) * (y 2 - x 2)) / radius x
    |t| ≤ h ∧ radius x + t ≤ radius y ∧ radius y ≤ radius x + t + h ^ 2 / (2 * radius x) := by
  intro t
  obtain ⟨h0, hw⟩ := H
  set r := radius x with hrd
  set s := radius y with hsd
  have hs := radius_nonneg y
  have er : r ^ 2 = _ := radius_sq x
  have es : s ^ 2 = _ := radius_sq y
  have et : r * t = (x 0 - 50) * (y 0 - x 0) + (x 1 - 50) * (y 1 - x 1) + (x 2 - 50) * (y 2 - x 2) := mul_div_cancel₀ _ hr.ne'
  set w2 := (y 0 - x 0) ^ 2 + (y 1 - x 1) ^ 2 + (y 2 - x 2) ^ 2 with hw2
  have e1 : s ^ 2 = r ^ 2 + 2 * (r * t) + w2 := by rw [es, er, et, hw2]; ring
  have cs : (r * t) ^ 2 ≤ r ^ 2 * w2 := by
    rw [et, er, hw2]
    nlinarith [sq_nonneg ((x 0 - 50) * (y 1 - x 1) - (x 1 - 50) * (y 0 - x 0)), sq_nonneg ((x 0 - 50) * (y 2 - x 2) - (x 2 - 50) * (y 0 - x 0)),
      sq_nonneg ((x 1 - 50) * (y 2 - x 2) - (x 2 - 50) * (y 1 - x 1))]
  have ht : t ^ 2 ≤ w2 := by
    have : r ^ 2 * t ^ 2 ≤ r ^ 2 * w2 := by rw [← mul_pow]; exact cs
    exact le_of_mul_le_mul_left this (by positivity)
  exact ⟨abs_le_of_sq_le_sq (ht.trans hw) h0, root_linear hr hs e1 ht hw⟩

theorem radius_near {h : ℝ} {x y : Pt} (H : Apart h x y) : radius y ≤ radius x + h := by
  rcases (radius_nonneg x).lt_or_eq with hr | hr
  · obtain ⟨h1, -, -⟩ := radius_linear H hr
    have e1 := radius_sq x
    have e2 := radius_sq y
    obtain ⟨h0, hw⟩ := H
    refine abs_le_of_sq_le_sq' ?_ (by linarith) |>.2
    have et : radius x * (((x 0 - 50) * (y 0 - x 0) + (x 1 - 50) * (y 1 - x 1) + (x 2 - 50) * (y 2 - x 2)) / radius x) =
      (x 0 - 50) * (y 0 - x 0) + (x 1 - 50) * (y 1 - x 1) + (x 2 - 50) * (y 2 - x 2) := mul_div_cancel₀ _ hr.ne'
    have k := mul_le_mul_of_nonneg_left (abs_le.1 h1).2 hr.le
    rw [et] at k
    nlinarith
  · have e1 := radius_sq x
    rw [← hr] at e1
    have k0 : x 0 - 50 = 0 := by nlinarith [sq_nonneg (x 0 - 50), sq_nonneg (x 1 - 50), sq_nonneg (x 2 - 50)]
    have k1 : x 1 - 50 = 0 := by nlinarith [sq_nonneg (x 0 - 50), sq_nonneg (x 1 - 50), sq_nonneg (x 2 - 50)]
    have k2 : x 2 - 50 = 0 := by nlinarith [sq_nonneg (x 0 - 50), sq_nonneg (x 1 - 50), sq_nonneg (x 2 - 50)]
    obtain ⟨h0, hw⟩ := H
    rw [← hr, zero_add]
    refine abs_le_of_sq_le_sq' ?_ h0 |>.2
    rw [radius_sq]
    have a0 : x 0 = 50 := by linarith
    have a1 : x 1 = 50 := by linarith
    have a2 : x 2 = 50 := by linarith
    rw [a0, a1, a2] at hw
    exact hw

theorem exact_near {h : ℝ} {x y : Pt} (H : Apart h x y) : |exact y - exact x| ≤ h / 30 := by
  have h1 := radius_near H
  have h2 := radius_near H.symm
  have h0 := H.1
  rw [abs_le]
  unfold exact
  rcases max_cases 0 (1 - radius y / 30) with ⟨a, b⟩ | ⟨a, b⟩ <;> rcases max_cases 0 (1 - radius x / 30) with ⟨c, d⟩ | ⟨c, d⟩ <;>
    rw [a, c] <;> constructor <;> linarith

section
variable {h ρ : ℝ} {x y : Pt}

theorem rem_in_eq (hr : 0 < radius x) (hx : radius x ≤ 30) :
    rem x y = exact y - (1 - radius x / 30) +
      ((x 0 - 50) * (y 0 - x 0) + (x 1 - 50) * (y 1 - x 1) + (x 2 - 50) * (y 2 - x 2)) / radius x / 30 := by
  unfold rem slope
  rw [exact_in hx, if_pos hx]
  field_simp
  ring

theorem rem_smooth (H : Apart h x y) (h0 : 0 < ρ) (hρ : ρ ≤ radius x) (hx : radius x ≤ 30) (hy : radius y ≤ 30) :
    |rem x y| ≤ h ^ 2 / (60 * ρ) := by
  have hr : 0 < radius x := h0.trans_le hρ
  obtain ⟨-, h2, h3⟩ := radius_linear H hr
  rw [rem_in_eq hr hx, exact_in hy]
  have k : h ^ 2 / (2 * radius x) ≤ h ^ 2 / (2 * ρ) := by gcongr
  rw [show h ^ 2 / (60 * ρ) = h ^ 2 / (2 * ρ) / 30 by field_simp; ring]
  rw [abs_le]
  constructor <;> linarith

theorem rem_far (hx : 30 < radius x) (hy : 30 < radius y) : rem x y = 0 := by
  unfold rem slope
  rw [exact_out hx.le, exact_out hy.le, if_neg (not_le.2 hx)]
  ring

theorem rem_any (H : Apart h x y) (hr : 0 < radius x) : |rem x y| ≤ h / 15 := by
  obtain ⟨h1, h2, h3⟩ := radius_linear H hr
  have k1 := radius_near H
  have k2 := radius_near H.symm
  have h0 := H.1
  obtain ⟨t1, t2⟩ := abs_le.1 h1
  by_cases hx : radius x ≤ 30
  · rw [rem_in_eq hr hx]
    by_cases hy : radius y ≤ 30
    · rw [exact_in hy, abs_le]
      constructor <;> linarith
    · rw [exact_out (not_le.1 hy).le, abs_le]
      push Not at hy
      constructor <;> linarith
  · have := exact_near H
    unfold rem slope
    rw [if_neg hx, sub_zero]
    linarith

end

/-! ### Tetrahedra -/

theorem A_moment (q : Fin 4 → Pt) (k l : Fin 3) :
    A q 0 k * q 0 l + A q 1 k * q 1 l + A q 2 k * q 2 l + A q 3 k * q 3 l = if k = l then -D q else 0 := by
  fin_cases k <;> fin_cases l <;> simp [A, D, cross, sub, dot] <;> ring

section
variable {val : Nat → ℝ} {deck : Deck} {m : SerialMesh} {p : Problem ℝ} {sS : Nat → ℝ}

/-- Area times the product of direction and normal, by coordinates. -/
theorem flow_eq (F : Fits val m) (Ds : Describes val deck m p sS) {c : Nat} (hc : c < m.numCells) {a : Nat} {om : Pt}
    (ha : deck.omega[a]? = some om) (f : Fin 4) :
    p.area c f * p.omegaDotN a c f = ∑ k, om k * (sg (pts val m c) * A (pts val m c) f k / 2) := by
  obtain ⟨-, e1, e2⟩ := describes_values F Ds hc
  have nd := F.nondeg c hc
  obtain ⟨n, h1, h2⟩ := normal_outward (pts val m c) f _ (std_table f) nd
  have e3 := dotN_eq nd (std_table f) om
  rw [dot_eq (std_table f) nd om n h2, Option.some.injEq] at e3
  rw [e1 f, e2 a om ha f, ← e3, Fin.sum_univ_three, ← area_normal _ f _ (std_table f) nd n h1, ← area_normal _ f _ (std_table f) nd n h1,
    ← area_normal _ f _ (std_table f) nd n h1]
  ring

/-- The direction as a sum of edges. -/
theorem flow_edges (F : Fits val m) (Ds : Describes val deck m p sS) {c : Nat} (hc : c < m.numCells) {a : Nat} {om : Pt}
    (ha : deck.omega[a]? = some om) (v : Fin 4) (l : Fin 3) :
    ∑ f, p.area c f * p.omegaDotN a c f * (pts val m c f l - pts val m c v l) = -(3 * p.volume c) * om l := by
  obtain ⟨e0, -, -⟩ := describes_values F Ds hc
  have nd := F.nondeg c hc
  have hD := (nonCoplanar_iff _).1 nd
  have e4 : 3 * p.volume c = sg (pts val m c) * D (pts val m c) / 2 := by
    rw [e0, tetVolume_eq]
    have : |D (pts val m c)| = sg (pts val m c) * D (pts val m c) := by
      rw [← abs_of_pos (sg_D _ hD), abs_mul]
      unfold sg
      split <;> simp
    rw [this]
    ring
  simp only [flow_eq F Ds hc ha]
  rw [e4]
  have hm := A_moment (pts val m c)
  have hs := A_sum (pts val m c)
  simp only [Fin.sum_univ_four, Fin.sum_univ_three]
  have m0 := hm 0 l
  have m1 := hm 1 l
  have m2 := hm 2 l
  have e : om l * D (pts val m c) = om 0 * (if (0 : Fin 3) = l then D (pts val m c) else 0) +
      om 1 * (if (1 : Fin 3) = l then D (pts val m c) else 0) + om 2 * (if (2 : Fin 3) = l then D (pts val m c) else 0) := by
    fin_cases l <;> simp
  have g : ∀ k : Fin 3, (if k = l then -D (pts val m c) else 0) = -(if k = l then D (pts val m c) else 0) := by
    intro k; split <;> simp
  rw [g] at m0 m1 m2
  linear_combination sg (pts val m c) / 2 * (om 0 * m0 + om 1 * m1 + om 2 * m2 + e) -
    sg (pts val m c) / 2 * pts val m c v l * (om 0 * hs 0 + om 1 * hs 1 + om 2 * hs 2)

theorem flow_le (hs : Sensible val deck m) (F : Fits val m) (Ds : Describes val deck m p sS) {c : Nat} (hc : c < m.numCells) {a : Nat}
    (ha : a < deck.dirs.length) (f : Fin 4) : |p.area c f * p.omegaDotN a c f| ≤ p.area c f := by
  have nd := F.nondeg c hc
  obtain ⟨n, -, h2⟩ := normal_outward (pts val m c) f _ (std_table f) nd
  have hA : 0 ≤ p.area c f := by
    rw [(describes_values F Ds hc).2.1]
    exact (area_pos _ f _ (std_table f) nd).le
  rw [Ds.omega c hc f n h2 a _ (List.getElem?_eq_getElem ha), abs_mul, abs_of_nonneg hA]
  refine mul_le_of_le_one_right hA ?_
  have h1 := hs.dirs _ (List.getElem_mem ha)
  have h3 := h2.1
  rw [abs_le]
  constructor
  · nlinarith [sq_nonneg (deck.dirs[a].xi + n 0), sq_nonneg (deck.dirs[a].eta + n 1), sq_nonneg (deck.dirs[a].mu + n 2)]
  · nlinarith [sq_nonneg (deck.dirs[a].xi - n 0), sq_nonneg (deck.dirs[a].eta - n 1), sq_nonneg (deck.dirs[a].mu - n 2)]

/-- What the interpolant of the hat function leaves of the equations of a cell. -/
theorem defect_eq (H : Tets m) (hs : Sensible val deck m) (F : Fits val m) (Ds : Describes val deck m p sS) {c : Nat}
    (hc : c < m.numCells) {a : Nat} (ha : a < deck.dirs.length) {g : Nat} (hg : g < deck.nGroups) (v : Fin 4) (Y : Scattering ℝ)
    (hY : Y.sigmaS c = sS c) :
    p.defect Y (fun c v => exact (pts val m c v)) g v a c =
      (∑ f, p.area c f * p.omegaDotN a c f * rem (pts val m c v) (pts val m c f)) / (3 * p.volume c) +
      sS c * ((∑ b ∈ Finset.range p.nAngles, Y.wt b) / (4 * Y.pi) - 1) * exact (pts val m c v) := by
  have hom : deck.omega[a]? = some ![deck.dirs[a].xi, deck.dirs[a].eta, deck.dirs[a].mu] := by
    rw [omega_get, List.getElem?_eq_getElem ha]; rfl
  have hph := describes_physical H F hs Ds
  have hV := (hph.volume c hc).ne'
  have hcl := hph.closed c hc a (by rw [Ds.angles]; exact ha)
  have hE := flow_edges F Ds hc hom v
  set x := pts val m c with hx
  have hsrc : p.source g v a c = slope (x v) ![deck.dirs[a].xi, deck.dirs[a].eta, deck.dirs[a].mu] + (p.sigmaT c - sS c) * exact (x v) := by
    obtain ⟨k1, k2⟩ := Ds.source c hc a _ (List.getElem?_eq_getElem ha) g hg v
    unfold slope
    by_cases h : radius (x v) ≤ 30
    · rw [if_pos h, exact_in h, k1 h]; simp [hx]
    · rw [if_neg h, exact_out (not_le.1 h).le, k2 (not_le.1 h)]; ring
  have hsl : (∑ f, p.area c f * p.omegaDotN a c f * slope (x v) fun k => x f k - x v k) =
      -(3 * p.volume c) * slope (x v) ![deck.dirs[a].xi, deck.dirs[a].eta, deck.dirs[a].mu] := by
    unfold slope
    split
    · have e0 := hE 0
      have e1 := hE 1
      have e2 := hE 2
      simp only [Fin.sum_univ_four, Matrix.cons_val_zero, Matrix.cons_val_one, Matrix.cons_val] at e0 e1 e2 ⊢
      linear_combination (-(x v 0 - 50) * e0 - (x v 1 - 50) * e1 - (x v 2 - 50) * e2) / (30 * radius (x v))
    · simp
  have hrem : (∑ f, p.area c f * p.omegaDotN a c f * rem (x v) (x f)) =
      (∑ f, p.area c f * p.omegaDotN a c f * exact (x f)) +
      3 * p.volume c * slope (x v) ![deck.dirs[a].xi, deck.dirs[a].eta, deck.dirs[a].mu] := by
    unfold rem
    simp only [mul_sub, Finset.sum_sub_distrib]
    rw [hsl, ← Finset.sum_mul, hcl]
    ring
  unfold Problem.defect Problem.ownSource
  rw [hsrc, hrem, hY]
  field_simp
  ring

end

end Verif.Program
