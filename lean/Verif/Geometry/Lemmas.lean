import Verif.Geometry.Spec
import Mathlib.Tactic.FinCases
import Mathlib.Tactic.LinearCombination
import Mathlib.Tactic.Ring
import Mathlib.LinearAlgebra.Matrix.ToLinearEquiv
import Mathlib.LinearAlgebra.Matrix.Determinant.Basic

set_option linter.unusedSimpArgs false

namespace Verif.Geometry

open Spec

/-- Six times the signed volume. -/
def D (p : Fin 4 → Pt) : ℝ := dot (cross (sub (p 1) (p 0)) (sub (p 2) (p 0))) (sub (p 3) (p 0))

/-- Twice the outward area vector when `D > 0`. -/
def A (p : Fin 4 → Pt) (f : Fin 4) : Pt :=
  ![cross (sub (p 2) (p 1)) (sub (p 3) (p 1)),
    cross (sub (p 3) (p 0)) (sub (p 2) (p 0)),
    cross (sub (p 1) (p 0)) (sub (p 3) (p 0)),
    cross (sub (p 2) (p 0)) (sub (p 1) (p 0))] f

theorem A_sum (p : Fin 4 → Pt) (d : Fin 3) : A p 0 d + A p 1 d + A p 2 d + A p 3 d = 0 := by
  fin_cases d <;> simp [A, cross, sub] <;> ring

theorem A_opp (p : Fin 4 → Pt) (f j : Fin 4) (h : j ≠ f) :
    A p f 0 * (p f 0 - p j 0) + A p f 1 * (p f 1 - p j 1) + A p f 2 * (p f 2 - p j 2) = - D p := by
  fin_cases f <;> fin_cases j <;> first | exact absurd rfl h | (simp [A, D, dot, cross, sub]; ring)

theorem A_perp (p : Fin 4 → Pt) (f i j : Fin 4) (hi : i ≠ f) (hj : j ≠ f) :
    A p f 0 * (p i 0 - p j 0) + A p f 1 * (p i 1 - p j 1) + A p f 2 * (p i 2 - p j 2) = 0 := by
  have h1 := A_opp p f i hi
  have h2 := A_opp p f j hj
  linear_combination h2 - h1

theorem cross_face (p : Fin 4 → Pt) (f : Fin 4) (t : Fin 3 → Fin 4) (ht : FaceTable f t) :
    ∃ e : ℝ, (e = 1 ∨ e = -1) ∧ ∀ d,
      cross (sub (p (t 1)) (p (t 0))) (sub (p (t 2)) (p (t 0))) d = e * A p f d := by
  have h01 : t 0 ≠ t 1 := fun h => absurd (ht.1 _ _ h) (by decide)
  have h02 : t 0 ≠ t 2 := fun h => absurd (ht.1 _ _ h) (by decide)
  have h12 : t 1 ≠ t 2 := fun h => absurd (ht.1 _ _ h) (by decide)
  have h0 := ht.2 0
  have h1 := ht.2 1
  have h2 := ht.2 2
  generalize t 0 = i at *
  generalize t 1 = j at *
  generalize t 2 = k at *
  clear ht t
  fin_cases f <;> fin_cases i <;> first | exact absurd rfl h0 | skip
  all_goals fin_cases j <;> first | exact absurd rfl h1 | exact absurd rfl h01 | skip
  all_goals fin_cases k
  all_goals first | exact absurd rfl h2 | exact absurd rfl h02 | exact absurd rfl h12 | skip
  all_goals first
    | (refine ⟨1, Or.inl rfl, fun d => ?_⟩; fin_cases d <;> simp [A, cross, sub] <;> ring1)
    | (refine ⟨-1, Or.inr rfl, fun d => ?_⟩; fin_cases d <;> simp [A, cross, sub] <;> ring1)

/-- The square of the length of the area vector. -/
def AA (p : Fin 4 → Pt) (f : Fin 4) : ℝ := A p f 0 ^ 2 + A p f 1 ^ 2 + A p f 2 ^ 2

theorem AA_nonneg (p : Fin 4 → Pt) (f : Fin 4) : 0 ≤ AA p f := by unfold AA; positivity

theorem AA_pos (p : Fin 4 → Pt) (f : Fin 4) (h : D p ≠ 0) : 0 < AA p f := by
  rcases (AA_nonneg p f).lt_or_eq with h' | h'
  · exact h'
  · exfalso
    have hz : A p f 0 = 0 ∧ A p f 1 = 0 ∧ A p f 2 = 0 := by
      unfold AA at h'
      refine ⟨?_, ?_, ?_⟩ <;> · apply pow_eq_zero_iff (n := 2) two_ne_zero |>.1; nlinarith [sq_nonneg (A p f 0), sq_nonneg (A p f 1), sq_nonneg (A p f 2)]
    obtain ⟨j, hj⟩ : ∃ j : Fin 4, j ≠ f := by
      fin_cases f
      exacts [⟨1, by decide⟩, ⟨0, by decide⟩, ⟨0, by decide⟩, ⟨0, by decide⟩]
    have := A_opp p f j hj
    rw [hz.1, hz.2.1, hz.2.2] at this
    apply h; linarith

theorem sumsq_cross (p : Fin 4 → Pt) (f : Fin 4) (t : Fin 3 → Fin 4) (ht : FaceTable f t) :
    let c := cross (sub (p (t 1)) (p (t 0))) (sub (p (t 2)) (p (t 0)))
    c 0 * c 0 + c 1 * c 1 + c 2 * c 2 = AA p f := by
  obtain ⟨e, he, h⟩ := cross_face p f t ht
  simp only [h, AA]
  rcases he with rfl | rfl <;> ring

theorem triangleArea_eq (p : Fin 4 → Pt) (f : Fin 4) (t : Fin 3 → Fin 4) (ht : FaceTable f t) :
    triangleArea (facePoints p t) = √(AA p f) / 2 := by
  have := sumsq_cross p f t ht
  simp only [triangleArea, facePoints, this]
  norm_num; ring

theorem face_mem (f : Fin 4) (t : Fin 3 → Fin 4) (ht : FaceTable f t) (i : Fin 4) (hi : i ≠ f) :
    ∃ v, t v = i := by
  by_contra hne
  push Not at hne
  -- four different values among four: pigeonhole on `Fin 3 → {x // x ≠ f ∧ x ≠ i}`
  have : Function.Injective (fun v : Fin 3 => (t v : Fin 4)) := fun a b h => ht.1 a b h
  have hc : (Finset.univ.image t).card = 3 := by
    rw [Finset.card_image_of_injective _ this]; rfl
  have hsub : Finset.univ.image t ⊆ (Finset.univ.erase f).erase i := by
    intro x hx
    obtain ⟨v, _, rfl⟩ := Finset.mem_image.1 hx
    exact Finset.mem_erase.2 ⟨hne v, Finset.mem_erase.2 ⟨ht.2 v, Finset.mem_univ _⟩⟩
  have := Finset.card_le_card hsub
  rw [hc, Finset.card_erase_of_mem (Finset.mem_erase.2 ⟨hi, Finset.mem_univ _⟩),
    Finset.card_erase_of_mem (Finset.mem_univ _)] at this
  simp at this

theorem oppositeIndex_eq (p : Fin 4 → Pt) (f : Fin 4) (t : Fin 3 → Fin 4) (ht : FaceTable f t)
    (h : D p ≠ 0) : oppositeIndex (facePoints p t) p = some f := by
  have hin : ∀ i, i ≠ f → ∃ v, p i 0 = facePoints p t v 0 ∧ p i 1 = facePoints p t v 1
      ∧ p i 2 = facePoints p t v 2 := by
    intro i hi
    obtain ⟨v, hv⟩ := face_mem f t ht i hi
    exact ⟨v, by simp [facePoints, hv]⟩
  have hout : ¬ ∃ v, p f 0 = facePoints p t v 0 ∧ p f 1 = facePoints p t v 1
      ∧ p f 2 = facePoints p t v 2 := by
    rintro ⟨v, h0, h1, h2⟩
    have := A_opp p f (t v) (ht.2 v)
    simp only [facePoints] at h0 h1 h2
    rw [h0, h1, h2] at this
    apply h; linarith
  have hsp : ∀ i, (¬ ∃ v, p i 0 = facePoints p t v 0 ∧ p i 1 = facePoints p t v 1
      ∧ p i 2 = facePoints p t v 2) ↔ i = f := by
    intro i
    constructor
    · intro h1
      by_contra h2
      exact h1 (hin i h2)
    · rintro rfl
      exact hout
  have h4 : (List.finRange 4).find? (fun i => decide (i = f)) = some f := by
    clear hin hout hsp ht
    fin_cases f <;> rfl
  refine (congrArg (fun P => List.find? P (List.finRange 4)) (funext fun i => ?_)).trans h4
  exact decide_eq_decide.2 (hsp i)

/-- Sign of the orientation. -/
noncomputable def sg (p : Fin 4 → Pt) : ℝ := if 0 < D p then 1 else -1

theorem sg_sq (p : Fin 4 → Pt) : sg p * sg p = 1 := by unfold sg; split <;> norm_num

theorem sg_D (p : Fin 4 → Pt) (h : D p ≠ 0) : 0 < sg p * D p := by
  unfold sg; split
  · linarith
  · have : D p < 0 := lt_of_le_of_ne (by linarith) h
    linarith

/-- The normal the code computes, in closed form. -/
theorem getNormal_eq (p : Fin 4 → Pt) (f : Fin 4) (t : Fin 3 → Fin 4) (ht : FaceTable f t)
    (h : D p ≠ 0) : getNormal (facePoints p t) p = some fun d => sg p * A p f d / √(AA p f) := by
  have hs := sumsq_cross p f t ht
  obtain ⟨e, he, hc⟩ := cross_face p f t ht
  have hpos : 0 < √(AA p f) := Real.sqrt_pos.2 (AA_pos p f h)
  have hopp := oppositeIndex_eq p f t ht h
  unfold getNormal
  simp only [hopp]
  simp only [facePoints] at *
  simp only [hc] at hs
  simp only [hc, hs, if_neg hpos.ne']
  have ho := A_opp p f (t 0) (ht.2 0)
  have hdot : ![e * A p f 0 / √(AA p f), e * A p f 1 / √(AA p f), e * A p f 2 / √(AA p f)] 0
        * (p f 0 - p (t 0) 0)
      + ![e * A p f 0 / √(AA p f), e * A p f 1 / √(AA p f), e * A p f 2 / √(AA p f)] 1
        * (p f 1 - p (t 0) 1)
      + ![e * A p f 0 / √(AA p f), e * A p f 1 / √(AA p f), e * A p f 2 / √(AA p f)] 2
        * (p f 2 - p (t 0) 2) = -(e * D p) / √(AA p f) := by
    have hh : √(AA p f) ≠ 0 := hpos.ne'
    simp
    field_simp
    linear_combination e * ho
  rw [hdot]
  have hsg := sg_D p h
  have hiff : (-(e * D p) / √(AA p f) > 0) ↔ e = - sg p := by
    rw [gt_iff_lt, div_pos_iff_of_pos_right hpos]
    have hs1 : sg p = 1 ∨ sg p = -1 := by unfold sg; split <;> simp
    rcases he with rfl | rfl <;> rcases hs1 with h1 | h1 <;> rw [h1] at hsg ⊢ <;>
      constructor <;> intro hx <;> linarith
  by_cases hcase : -(e * D p) / √(AA p f) > 0
  · rw [if_pos hcase]
    have := hiff.1 hcase
    congr 1
    funext d
    fin_cases d <;> simp [this] <;> ring
  · rw [if_neg hcase]
    have he' : e = sg p := by
      have hn : e ≠ - sg p := fun hx => hcase (hiff.2 hx)
      have hs1 : sg p = 1 ∨ sg p = -1 := by unfold sg; split <;> simp
      rcases he with rfl | rfl <;> rcases hs1 with h1 | h1 <;> rw [h1] at hn ⊢ <;>
        first | rfl | (exfalso; exact hn (by norm_num))
    congr 1
    funext d
    fin_cases d <;> simp [he']

/-- The 4x4 matrix whose determinant is the signed volume. -/
def M (p : Fin 4 → Pt) : Matrix (Fin 4) (Fin 4) ℝ := Matrix.of fun i => ![1, p i 0, p i 1, p i 2]

theorem M_det (p : Fin 4 → Pt) : (M p).det = D p := by
  rw [Matrix.det_succ_row_zero]
  simp [M, Fin.sum_univ_succ, Matrix.det_fin_three, D, dot, cross, sub, Fin.succAbove]
  ring

theorem D_perm (p : Fin 4 → Pt) (σ : Equiv.Perm (Fin 4)) :
    |D (fun i => p (σ i))| = |D p| := by
  rw [← M_det, ← M_det]
  have : M (fun i => p (σ i)) = (M p).submatrix σ id := by
    ext i j; rfl
  rw [this, Matrix.det_permute]
  rcases Int.units_eq_one_or (Equiv.Perm.sign σ) with h | h <;> simp [h]

theorem nonCoplanar_iff (p : Fin 4 → Pt) : NonCoplanar p ↔ D p ≠ 0 := by
  rw [← M_det]
  constructor
  · intro h hd
    obtain ⟨v, hv, hm⟩ := Matrix.exists_mulVec_eq_zero_iff.2 hd
    have hrow : ∀ i, v 0 + (p i 0 * v 1 + (p i 1 * v 2 + p i 2 * v 3)) = 0 := by
      intro i
      have := congrFun hm i
      simpa [M, Matrix.mulVec, dotProduct, Fin.sum_univ_succ] using this
    obtain ⟨h1, h2, h3⟩ := h (v 1) (v 2) (v 3) (- v 0) (fun i => by have := hrow i; linarith)
    apply hv
    funext i
    have h0 := hrow 0
    rw [h1, h2, h3] at h0
    fin_cases i
    · simpa using h0
    · exact h1
    · exact h2
    · exact h3
  · intro hd n0 n1 n2 d hpl
    have hz : (![-d, n0, n1, n2] : Fin 4 → ℝ) = 0 := by
      by_contra hne
      apply hd
      refine Matrix.exists_mulVec_eq_zero_iff.1 ⟨_, hne, ?_⟩
      funext i
      have := hpl i
      simp [M, Matrix.mulVec, dotProduct, Fin.sum_univ_succ]
      linarith
    exact ⟨by simpa using congrFun hz 1, by simpa using congrFun hz 2, by simpa using congrFun hz 3⟩

theorem tetVolume_eq (p : Fin 4 → Pt) : tetVolume p = |D p| / 6 := by
  simp only [tetVolume, D, dot]; norm_num; ring

end Verif.Geometry
