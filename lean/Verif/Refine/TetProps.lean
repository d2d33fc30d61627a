import Verif.Refine.Tet
import Mathlib.Tactic.FinCases
import Mathlib.Tactic.Ring
import Mathlib.Tactic.Linarith
import Mathlib.Tactic.LinearCombination
import Mathlib.Tactic.FieldSimp
import Mathlib.Algebra.Order.Ring.Rat
import Mathlib.Algebra.Field.Rat
import Mathlib.Algebra.Order.BigOperators.Group.Finset

/-!
# C47: the eight children of a tetrahedron
-/
set_option linter.unusedSectionVars false
set_option linter.unusedVariables false

namespace Verif.Refine

variable {K : Type} [Field K] [LinearOrder K]

/-! ### Specification -/

/-- Six times the signed volume of a tetrahedron. -/
def vol6 (x : Tet K) : K :=
  (x 1 0 - x 0 0) * ((x 2 1 - x 0 1) * (x 3 2 - x 0 2) - (x 2 2 - x 0 2) * (x 3 1 - x 0 1))
  - (x 1 1 - x 0 1) * ((x 2 0 - x 0 0) * (x 3 2 - x 0 2) - (x 2 2 - x 0 2) * (x 3 0 - x 0 0))
  + (x 1 2 - x 0 2) * ((x 2 0 - x 0 0) * (x 3 1 - x 0 1) - (x 2 1 - x 0 1) * (x 3 0 - x 0 0))

/-- The weighted sum of the corners. -/
def comb (x : Tet K) (w : Fin 4 → K) : Pt K := fun c => w 0 * x 0 c + w 1 * x 1 c + w 2 * x 2 c + w 3 * x 3 c

/-- `p` is in the tetrahedron. -/
def InTet (x : Tet K) (p : Pt K) : Prop :=
  ∃ w : Fin 4 → K, (∀ i, 0 ≤ w i) ∧ w 0 + w 1 + w 2 + w 3 = 1 ∧ p = comb x w

/-- `p` is inside the tetrahedron, not on its surface. -/
def Inside (x : Tet K) (p : Pt K) : Prop :=
  ∃ w : Fin 4 → K, (∀ i, 0 < w i) ∧ w 0 + w 1 + w 2 + w 3 = 1 ∧ p = comb x w

/-- `p` is in the face opposite to corner `f`. -/
def OnFace (x : Tet K) (f : Fin 4) (p : Pt K) : Prop :=
  ∃ w : Fin 4 → K, (∀ i, 0 ≤ w i) ∧ w 0 + w 1 + w 2 + w 3 = 1 ∧ w f = 0 ∧ p = comb x w

/-- The corners of the face opposite to corner `f`. -/
def faceOf (x : Tet K) (f : Fin 4) : Set (Pt K) := {p | ∃ i, i ≠ f ∧ p = x i}

/-- The point half way. -/
def half (p q : Pt K) : Pt K := fun c => (p c + q c) / 2

/-- The four triangles a triangle is cut into by the mid points of its sides; a triangle is the set of
its corners. -/
def MidTri (S T : Set (Pt K)) : Prop :=
  (∃ a ∈ S, T = {p | ∃ b ∈ S, p = half a b}) ∨ T = {p | ∃ a ∈ S, ∃ b ∈ S, a ≠ b ∧ p = half a b}

/-- A triangle of the refinement lying in the face opposite to `f` of the parent. -/
def FaceTri (x : Tet K) (f : Fin 4) (T : Set (Pt K)) : Prop :=
  ∃ t g, T = faceOf (refineTet x t) g ∧ ∀ p ∈ T, OnFace x f p

/-! ### The children by names of their corners -/

/-- The corners of child `t` when diagonal `d` is used: `(i, j)` is the point half way between corners `i`
and `j` of the parent. -/
def lbl (d : Fin 3) : Fin 8 → Fin 4 → Fin 4 × Fin 4 :=
  ![![(0, 0), (0, 1), (0, 2), (0, 3)],
    ![(1, 1), (0, 1), (1, 2), (1, 3)],
    ![(2, 2), (0, 2), (1, 2), (2, 3)],
    ![(3, 3), (0, 3), (1, 3), (2, 3)],
    ![![(2, 3), (1, 3), (1, 2)] d, (0, 1), (0, 2), (0, 3)],
    ![![(2, 3), (0, 2), (0, 3)] d, (0, 1), (1, 2), (1, 3)],
    ![![(0, 1), (1, 3), (0, 3)] d, (0, 2), (1, 2), (2, 3)],
    ![![(0, 1), (0, 2), (1, 2)] d, (0, 3), (1, 3), (2, 3)]]

/-- The point with a name. -/
def pt (x : Tet K) (l : Fin 4 × Fin 4) : Pt K := half (x l.1) (x l.2)

/-- `index2To1` and `index1To2` are inverse to each other. -/
theorem index_inverse (e : Fin 6) : index2To1 (index1To2 e).1 (index1To2 e).2 = some e ∧
    ∀ i j, index2To1 i j = some e → (index1To2 e).1.val = i ∧ (index1To2 e).2.val = j := by
  constructor
  · revert e; decide
  · intro i j h
    simp only [index2To1] at h
    split_ifs at h <;> simp at h <;> subst h <;> simp [index1To2] <;> omega

theorem mid01 (x : Tet K) : mid x 0 1 = midNodes x 0 := rfl
theorem mid02 (x : Tet K) : mid x 0 2 = midNodes x 1 := rfl
theorem mid03 (x : Tet K) : mid x 0 3 = midNodes x 2 := rfl
theorem mid12 (x : Tet K) : mid x 1 2 = midNodes x 3 := rfl
theorem mid13 (x : Tet K) : mid x 1 3 = midNodes x 4 := rfl
theorem mid23 (x : Tet K) : mid x 2 3 = midNodes x 5 := rfl

variable [IsStrictOrderedRing K]

theorem midNodes_eq (x : Tet K) (e : Fin 6) : midNodes x e = pt x (index1To2 e) := by
  funext c; simp only [midNodes, pt, half]; ring

theorem pt_self (x : Tet K) (i : Fin 4) : pt x (i, i) = x i := by
  funext c; simp only [pt, half]; ring

theorem refineTet_eq (x : Tet K) (t : Fin 8) (k : Fin 4) : refineTet x t k = pt x (lbl (minIndex x) t k) := by
  have h (e : Fin 6) := midNodes_eq x e
  have h0 := h 0; have h1 := h 1; have h2 := h 2; have h3 := h 3; have h4 := h 4; have h5 := h 5
  simp only [refineTet, lbl, firstCorner, mid01, mid02, mid03, mid12, mid13, mid23]
  generalize minIndex x = d
  rw [h0, h1, h2, h3, h4, h5]
  fin_cases d <;> fin_cases t <;> fin_cases k <;> first | rfl | exact (pt_self x _).symm

/-- The diagonal used is a shortest one, the first of them. -/
theorem minIndex_shortest (x : Tet K) : (∀ i, diag x (minIndex x) ≤ diag x i) ∧
    ∀ i, i < minIndex x → diag x (minIndex x) < diag x i := by
  have hm : minIndex x = if diag x 1 < diag x 0 then (if diag x 2 < diag x 1 then 2 else 1)
      else (if diag x 2 < diag x 0 then 2 else 0) := by
    simp only [minIndex, List.foldl, minStep]
    by_cases a : diag x 1 < diag x 0
    · rw [if_pos a, if_pos a]; dsimp only; split_ifs <;> rfl
    · rw [if_neg a, if_neg a]; dsimp only; split_ifs <;> rfl
  rw [hm]
  split_ifs with a b b <;> constructor <;> intro i <;> fin_cases i <;> intros <;> simp at * <;>
    first | assumption | linarith

/-- The square of the distance of two points. -/
def sqDist (p q : Pt K) : K := (p 0 - q 0) ^ 2 + (p 1 - q 1) ^ 2 + (p 2 - q 2) ^ 2

theorem diag_eq (x : Tet K) : diag x 0 = sqDist (pt x (0, 1)) (pt x (2, 3)) ∧ diag x 1 = sqDist (pt x (0, 2)) (pt x (1, 3)) ∧
    diag x 2 = sqDist (pt x (0, 3)) (pt x (1, 2)) := by
  have h (e : Fin 6) := midNodes_eq x e
  have h0 := h 0; have h1 := h 1; have h2 := h 2; have h3 := h 3; have h4 := h 4; have h5 := h 5
  have e0 : diag x 0 = dist2 (mid x 0 1) (mid x 2 3) := rfl
  have e1 : diag x 1 = dist2 (mid x 0 2) (mid x 1 3) := rfl
  have e2 : diag x 2 = dist2 (mid x 0 3) (mid x 1 2) := rfl
  rw [e0, e1, e2, mid01, mid02, mid03, mid12, mid13, mid23, h0, h1, h2, h3, h4, h5]
  simp only [dist2, sqDist]
  refine ⟨?_, ?_, ?_⟩ <;> simp only [index1To2, Matrix.cons_val] <;> ring

/-- C47: the four children not at a corner of the parent share the segment between the mid points of two
opposite edges, and no two other opposite edges have mid points closer to each other. -/
theorem inner_diagonal (x : Tet K) : ∃ i j k l : Fin 4, i ≠ j ∧ i ≠ k ∧ i ≠ l ∧ j ≠ k ∧ j ≠ l ∧ k ≠ l ∧
    (∀ t : Fin 8, 4 ≤ t.val → (∃ c, refineTet x t c = half (x i) (x j)) ∧ ∃ c, refineTet x t c = half (x k) (x l)) ∧
    ∀ i' j' k' l' : Fin 4, i' ≠ j' → i' ≠ k' → i' ≠ l' → j' ≠ k' → j' ≠ l' → k' ≠ l' →
      sqDist (half (x i) (x j)) (half (x k) (x l)) ≤ sqDist (half (x i') (x j')) (half (x k') (x l')) := by
  have hc : ∀ a b : Fin 4, pt x (a, b) = pt x (b, a) := fun a b => by
    funext c; simp only [pt, half]; ring
  have hs : ∀ p q : Pt K, sqDist p q = sqDist q p := fun p q => by simp only [sqDist]; ring
  -- every pair of opposite edges is one of the three
  have hall : ∀ i' j' k' l' : Fin 4, i' ≠ j' → i' ≠ k' → i' ≠ l' → j' ≠ k' → j' ≠ l' → k' ≠ l' →
      ∃ d, sqDist (pt x (i', j')) (pt x (k', l')) = diag x d := by
    obtain ⟨d0, d1, d2⟩ := diag_eq x
    have key : ∀ i' j' k' l' : Fin 4, i' ≠ j' → i' ≠ k' → i' ≠ l' → j' ≠ k' → j' ≠ l' → k' ≠ l' →
        ∃ a ∈ [((0 : Fin 4), (1 : Fin 4), (2 : Fin 4), (3 : Fin 4)), (0, 2, 1, 3), (0, 3, 1, 2)],
          (((i', j') = (a.1, a.2.1) ∨ (i', j') = (a.2.1, a.1)) ∧ ((k', l') = (a.2.2.1, a.2.2.2) ∨ (k', l') = (a.2.2.2, a.2.2.1))) ∨
          (((k', l') = (a.1, a.2.1) ∨ (k', l') = (a.2.1, a.1)) ∧ ((i', j') = (a.2.2.1, a.2.2.2) ∨ (i', j') = (a.2.2.2, a.2.2.1))) := by decide
    intro i' j' k' l' h1 h2 h3 h4 h5 h6
    obtain ⟨⟨a, b, c, d⟩, ha, hk⟩ := key i' j' k' l' h1 h2 h3 h4 h5 h6
    have goal : sqDist (pt x (i', j')) (pt x (k', l')) = sqDist (pt x (a, b)) (pt x (c, d)) := by
      rcases hk with ⟨e | e, f | f⟩ | ⟨e | e, f | f⟩ <;> rw [e, f]
      · rw [hc d c]
      · rw [hc b a]
      · rw [hc b a, hc d c]
      · rw [hs]
      · rw [hs, hc d c]
      · rw [hs, hc b a]
      · rw [hs, hc b a, hc d c]
    rw [goal]
    simp only [List.mem_cons, Prod.mk.injEq, List.not_mem_nil, or_false] at ha
    rcases ha with ⟨rfl, rfl, rfl, rfl⟩ | ⟨rfl, rfl, rfl, rfl⟩ | ⟨rfl, rfl, rfl, rfl⟩
    · exact ⟨0, d0.symm⟩
    · exact ⟨1, d1.symm⟩
    · exact ⟨2, d2.symm⟩
  have hlbl : ∀ d : Fin 3, ∃ i j k l : Fin 4, i ≠ j ∧ i ≠ k ∧ i ≠ l ∧ j ≠ k ∧ j ≠ l ∧ k ≠ l ∧
      (i, j, k, l) = (![(0, 1, 2, 3), (0, 2, 1, 3), (0, 3, 1, 2)] : Fin 3 → Fin 4 × Fin 4 × Fin 4 × Fin 4) d ∧
      ∀ t : Fin 8, 4 ≤ t.val → (∃ c, lbl d t c = (i, j)) ∧ ∃ c, lbl d t c = (k, l) := by decide +kernel
  obtain ⟨i, j, k, l, n1, n2, n3, n4, n5, n6, he, hch⟩ := hlbl (minIndex x)
  have hd : sqDist (pt x (i, j)) (pt x (k, l)) = diag x (minIndex x) := by
    obtain ⟨d0, d1, d2⟩ := diag_eq x
    revert he
    generalize minIndex x = d
    fin_cases d <;> intro he <;> simp at he <;> obtain ⟨rfl, rfl, rfl, rfl⟩ := he
    · exact d0.symm
    · exact d1.symm
    · exact d2.symm
  refine ⟨i, j, k, l, n1, n2, n3, n4, n5, n6, fun t ht => ?_, fun i' j' k' l' h1 h2 h3 h4 h5 h6 => ?_⟩
  · obtain ⟨⟨c, hc1⟩, ⟨c', hc2⟩⟩ := hch t ht
    exact ⟨⟨c, by rw [refineTet_eq, hc1]; rfl⟩, ⟨c', by rw [refineTet_eq, hc2]; rfl⟩⟩
  · obtain ⟨d, hd'⟩ := hall i' j' k' l' h1 h2 h3 h4 h5 h6
    have := (minIndex_shortest x).1 d
    rw [← hd, ← hd'] at this
    exact this

/-! ### Barycentric coordinates -/

/-- Parent coordinates of the point with weights `w` in child `t`. -/
def up (d : Fin 3) (t : Fin 8) (w : Fin 4 → K) (i : Fin 4) : K :=
  (w 0 * ((if (lbl d t 0).1 = i then 1 else 0) + if (lbl d t 0).2 = i then 1 else 0)
  + w 1 * ((if (lbl d t 1).1 = i then 1 else 0) + if (lbl d t 1).2 = i then 1 else 0)
  + w 2 * ((if (lbl d t 2).1 = i then 1 else 0) + if (lbl d t 2).2 = i then 1 else 0)
  + w 3 * ((if (lbl d t 3).1 = i then 1 else 0) + if (lbl d t 3).2 = i then 1 else 0)) / 2

theorem pick (x : Tet K) (c : Fin 3) (j : Fin 4) :
    x j c = (if j = 0 then 1 else 0) * x 0 c + (if j = 1 then 1 else 0) * x 1 c
      + (if j = 2 then 1 else 0) * x 2 c + (if j = 3 then 1 else 0) * x 3 c := by
  fin_cases j <;> simp

theorem comb_up (x : Tet K) (t : Fin 8) (w : Fin 4 → K) :
    comb (refineTet x t) w = comb x (up (minIndex x) t w) := by
  funext c
  simp only [comb, refineTet_eq]
  generalize minIndex x = d
  simp only [pt, half, up]
  rw [pick x c (lbl d t 0).1, pick x c (lbl d t 0).2, pick x c (lbl d t 1).1, pick x c (lbl d t 1).2,
    pick x c (lbl d t 2).1, pick x c (lbl d t 2).2, pick x c (lbl d t 3).1, pick x c (lbl d t 3).2]
  ring

theorem one_pick (j : Fin 4) : (if j = 0 then 1 else 0 : K) + (if j = 1 then 1 else 0)
    + (if j = 2 then 1 else 0) + (if j = 3 then 1 else 0) = 1 := by
  fin_cases j <;> simp

theorem up_sum (d : Fin 3) (t : Fin 8) (w : Fin 4 → K) :
    up d t w 0 + up d t w 1 + up d t w 2 + up d t w 3 = w 0 + w 1 + w 2 + w 3 := by
  simp only [up]
  have h (k : Fin 4) := (one_pick (K := K) (lbl d t k).1)
  have h' (k : Fin 4) := (one_pick (K := K) (lbl d t k).2)
  linear_combination (w 0 / 2) * h 0 + (w 0 / 2) * h' 0 + (w 1 / 2) * h 1 + (w 1 / 2) * h' 1
    + (w 2 / 2) * h 2 + (w 2 / 2) * h' 2 + (w 3 / 2) * h 3 + (w 3 / 2) * h' 3

theorem up_nonneg (d : Fin 3) (t : Fin 8) {w : Fin 4 → K} (h : ∀ i, 0 ≤ w i) (i : Fin 4) : 0 ≤ up d t w i := by
  have p (a : Fin 4) : (0 : K) ≤ if a = i then 1 else 0 := by split_ifs <;> simp
  have q (k : Fin 4) := mul_nonneg (h k) (add_nonneg (p (lbl d t k).1) (p (lbl d t k).2))
  simp only [up]
  have := add_nonneg (add_nonneg (add_nonneg (q 0) (q 1)) (q 2)) (q 3)
  exact div_nonneg this (by norm_num)

/-- A point of a tetrahedron with a volume has one set of weights. -/
theorem comb_inj {x : Tet K} (hx : vol6 x ≠ 0) {w v : Fin 4 → K} (hs : w 0 + w 1 + w 2 + w 3 = v 0 + v 1 + v 2 + v 3)
    (h : comb x w = comb x v) : w = v := by
  have e0 := congrFun h 0
  have e1 := congrFun h 1
  have e2 := congrFun h 2
  simp only [comb] at e0 e1 e2
  -- the vectors along the edges from corner 0
  have h1 : vol6 x * (w 1 - v 1) = 0 := by
    unfold vol6
    linear_combination
      ((x 2 1 - x 0 1) * (x 3 2 - x 0 2) - (x 2 2 - x 0 2) * (x 3 1 - x 0 1)) * (e0 - x 0 0 * hs)
      - ((x 2 0 - x 0 0) * (x 3 2 - x 0 2) - (x 2 2 - x 0 2) * (x 3 0 - x 0 0)) * (e1 - x 0 1 * hs)
      + ((x 2 0 - x 0 0) * (x 3 1 - x 0 1) - (x 2 1 - x 0 1) * (x 3 0 - x 0 0)) * (e2 - x 0 2 * hs)
  have h2 : vol6 x * (w 2 - v 2) = 0 := by
    unfold vol6
    linear_combination
      -((x 1 1 - x 0 1) * (x 3 2 - x 0 2) - (x 1 2 - x 0 2) * (x 3 1 - x 0 1)) * (e0 - x 0 0 * hs)
      + ((x 1 0 - x 0 0) * (x 3 2 - x 0 2) - (x 1 2 - x 0 2) * (x 3 0 - x 0 0)) * (e1 - x 0 1 * hs)
      - ((x 1 0 - x 0 0) * (x 3 1 - x 0 1) - (x 1 1 - x 0 1) * (x 3 0 - x 0 0)) * (e2 - x 0 2 * hs)
  have h3 : vol6 x * (w 3 - v 3) = 0 := by
    unfold vol6
    linear_combination
      ((x 1 1 - x 0 1) * (x 2 2 - x 0 2) - (x 1 2 - x 0 2) * (x 2 1 - x 0 1)) * (e0 - x 0 0 * hs)
      - ((x 1 0 - x 0 0) * (x 2 2 - x 0 2) - (x 1 2 - x 0 2) * (x 2 0 - x 0 0)) * (e1 - x 0 1 * hs)
      + ((x 1 0 - x 0 0) * (x 2 1 - x 0 1) - (x 1 1 - x 0 1) * (x 2 0 - x 0 0)) * (e2 - x 0 2 * hs)
  have g1 := sub_eq_zero.1 ((mul_eq_zero.1 h1).resolve_left hx)
  have g2 := sub_eq_zero.1 ((mul_eq_zero.1 h2).resolve_left hx)
  have g3 := sub_eq_zero.1 ((mul_eq_zero.1 h3).resolve_left hx)
  funext i
  fin_cases i
  · show w 0 = v 0; linear_combination hs - g1 - g2 - g3
  · exact g1
  · exact g2
  · exact g3

/-! ### Volumes -/

/-- Twice the weight of parent corner `i` in the point with name `l`. -/
def bw (l : Fin 4 × Fin 4) (i : Fin 4) : Int := (if l.1 = i then 1 else 0) + if l.2 = i then 1 else 0

/-- A determinant of three rows. -/
def det3 {R : Type} [Mul R] [Sub R] [Add R] (a b c : Fin 4 → R) : R :=
  a 1 * (b 2 * c 3 - b 3 * c 2) - a 2 * (b 1 * c 3 - b 3 * c 1) + a 3 * (b 1 * c 2 - b 2 * c 1)

theorem det_child (d : Fin 3) (t : Fin 8) :
    det3 (fun i => bw (lbl d t 1) i - bw (lbl d t 0) i) (fun i => bw (lbl d t 2) i - bw (lbl d t 0) i)
      (fun i => bw (lbl d t 3) i - bw (lbl d t 0) i) = 1 ∨
    det3 (fun i => bw (lbl d t 1) i - bw (lbl d t 0) i) (fun i => bw (lbl d t 2) i - bw (lbl d t 0) i)
      (fun i => bw (lbl d t 3) i - bw (lbl d t 0) i) = -1 := by
  revert d t; decide

theorem vol6_linear (x y : Tet K) (a b c : Fin 4 → K)
    (h1 : ∀ j, y 1 j - y 0 j = a 1 * (x 1 j - x 0 j) + a 2 * (x 2 j - x 0 j) + a 3 * (x 3 j - x 0 j))
    (h2 : ∀ j, y 2 j - y 0 j = b 1 * (x 1 j - x 0 j) + b 2 * (x 2 j - x 0 j) + b 3 * (x 3 j - x 0 j))
    (h3 : ∀ j, y 3 j - y 0 j = c 1 * (x 1 j - x 0 j) + c 2 * (x 2 j - x 0 j) + c 3 * (x 3 j - x 0 j)) :
    vol6 y = det3 a b c * vol6 x := by
  simp only [vol6, h1, h2, h3, det3]
  generalize x 1 0 - x 0 0 = u10
  generalize x 1 1 - x 0 1 = u11
  generalize x 1 2 - x 0 2 = u12
  generalize x 2 0 - x 0 0 = u20
  generalize x 2 1 - x 0 1 = u21
  generalize x 2 2 - x 0 2 = u22
  generalize x 3 0 - x 0 0 = u30
  generalize x 3 1 - x 0 1 = u31
  generalize x 3 2 - x 0 2 = u32
  ring

theorem pt_edge (x : Tet K) (l : Fin 4 × Fin 4) (j : Fin 3) :
    pt x l j = x 0 j + (bw l 1 / 2 * (x 1 j - x 0 j) + bw l 2 / 2 * (x 2 j - x 0 j) + bw l 3 / 2 * (x 3 j - x 0 j)) := by
  have h := one_pick (K := K) l.1
  have h' := one_pick (K := K) l.2
  simp only [pt, half, bw]
  rw [pick x j l.1, pick x j l.2]
  push_cast
  linear_combination (x 0 j / 2) * h + (x 0 j / 2) * h'

/-- Each child has one eighth of the volume of the parent. -/
theorem child_volume (x : Tet K) (t : Fin 8) : |vol6 (refineTet x t)| = |vol6 x| / 8 := by
  have e (k : Fin 4) (j : Fin 3) : refineTet x t k j - refineTet x t 0 j =
      ((bw (lbl (minIndex x) t k) 1 - bw (lbl (minIndex x) t 0) 1 : Int) : K) / 2 * (x 1 j - x 0 j)
      + ((bw (lbl (minIndex x) t k) 2 - bw (lbl (minIndex x) t 0) 2 : Int) : K) / 2 * (x 2 j - x 0 j)
      + ((bw (lbl (minIndex x) t k) 3 - bw (lbl (minIndex x) t 0) 3 : Int) : K) / 2 * (x 3 j - x 0 j) := by
    rw [refineTet_eq, refineTet_eq, pt_edge, pt_edge x (lbl (minIndex x) t 0)]
    push_cast
    ring
  have hv := vol6_linear x (refineTet x t)
    (fun i => ((bw (lbl (minIndex x) t 1) i - bw (lbl (minIndex x) t 0) i : Int) : K) / 2)
    (fun i => ((bw (lbl (minIndex x) t 2) i - bw (lbl (minIndex x) t 0) i : Int) : K) / 2)
    (fun i => ((bw (lbl (minIndex x) t 3) i - bw (lbl (minIndex x) t 0) i : Int) : K) / 2) (e 1) (e 2) (e 3)
  have hd : det3 (fun i => ((bw (lbl (minIndex x) t 1) i - bw (lbl (minIndex x) t 0) i : Int) : K) / 2)
    (fun i => ((bw (lbl (minIndex x) t 2) i - bw (lbl (minIndex x) t 0) i : Int) : K) / 2)
    (fun i => ((bw (lbl (minIndex x) t 3) i - bw (lbl (minIndex x) t 0) i : Int) : K) / 2) =
    ((det3 (fun i => bw (lbl (minIndex x) t 1) i - bw (lbl (minIndex x) t 0) i)
      (fun i => bw (lbl (minIndex x) t 2) i - bw (lbl (minIndex x) t 0) i)
      (fun i => bw (lbl (minIndex x) t 3) i - bw (lbl (minIndex x) t 0) i) : Int) : K) / 8 := by
    simp only [det3]
    push_cast
    ring
  have h8 : |vol6 x / 8| = |vol6 x| / 8 := by rw [abs_div, abs_of_pos (by norm_num : (0 : K) < 8)]
  rw [hd] at hv
  rcases det_child (minIndex x) t with h | h <;> rw [h] at hv
  · rw [hv, ← h8]; congr 1; push_cast; ring
  · rw [hv, ← h8, ← abs_neg (vol6 x / 8)]; congr 1; push_cast; ring

/-- The children lie in the parent. -/
theorem child_inside (x : Tet K) (t : Fin 8) {p : Pt K} (h : InTet (refineTet x t) p) : InTet x p := by
  obtain ⟨w, h0, h1, rfl⟩ := h
  exact ⟨up (minIndex x) t w, up_nonneg _ _ h0, (up_sum _ _ _).trans h1, comb_up x t w⟩

end Verif.Refine
