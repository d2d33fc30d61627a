import Verif.Refine.Tile

/-!
# C47: the children cut a face of the parent in the same way from both sides
-/
set_option linter.unusedSectionVars false
set_option linter.unusedVariables false

namespace Verif.Refine

variable {K : Type} [Field K] [LinearOrder K] [IsStrictOrderedRing K]

/-- The name of the point half way between two corners. -/
def nm (a b : Fin 4) : Fin 4 × Fin 4 := (min a b, max a b)

theorem pt_nm (x : Tet K) (a b : Fin 4) : pt x (nm a b) = half (x a) (x b) := by
  rcases le_total a b with h | h
  · simp [nm, pt, h]
  · simp only [nm, pt, min_eq_right h, max_eq_left h]
    funext c; simp only [half]; ring

/-- The triangle `g` of child `t` has the names `P`. -/
def Names (d : Fin 3) (t : Fin 8) (g : Fin 4) (P : Fin 4 × Fin 4 → Prop) : Prop :=
  ∀ l, (∃ i, i ≠ g ∧ l = lbl d t i) ↔ P l

instance (d : Fin 3) (t : Fin 8) (g : Fin 4) (P : Fin 4 × Fin 4 → Prop) [DecidablePred P] : Decidable (Names d t g P) :=
  inferInstanceAs (Decidable (∀ l, (∃ i, i ≠ g ∧ l = lbl d t i) ↔ P l))

theorem tri_cases (d : Fin 3) (t : Fin 8) (g f : Fin 4) (h : ∀ i, i ≠ g → bw (lbl d t i) f = 0) :
    (∃ a, a ≠ f ∧ Names d t g fun l => ∃ b, b ≠ f ∧ l = nm a b) ∨
      Names d t g fun l => ∃ a b, a ≠ f ∧ b ≠ f ∧ a ≠ b ∧ l = nm a b := by
  revert d t g f; decide +kernel

theorem tri_corner (d : Fin 3) (f a : Fin 4) (h : a ≠ f) : ∃ t g, (∀ i, i ≠ g → bw (lbl d t i) f = 0) ∧
    Names d t g fun l => ∃ b, b ≠ f ∧ l = nm a b := by
  revert d f a; decide +kernel

theorem tri_middle (d : Fin 3) (f : Fin 4) : ∃ t g, (∀ i, i ≠ g → bw (lbl d t i) f = 0) ∧
    Names d t g fun l => ∃ a b, a ≠ f ∧ b ≠ f ∧ a ≠ b ∧ l = nm a b := by
  revert d f; decide +kernel

theorem Names.face {x : Tet K} {t : Fin 8} {g : Fin 4} {P : Fin 4 × Fin 4 → Prop} (h : Names (minIndex x) t g P) :
    faceOf (refineTet x t) g = {p | ∃ l, P l ∧ p = pt x l} := by
  ext p
  constructor
  · rintro ⟨i, hi, rfl⟩
    exact ⟨lbl (minIndex x) t i, (h _).1 ⟨i, hi, rfl⟩, refineTet_eq x t i⟩
  · rintro ⟨l, hl, rfl⟩
    obtain ⟨i, hi, rfl⟩ := (h l).2 hl
    exact ⟨i, hi, (refineTet_eq x t i).symm⟩

/-- The weights of the point with name `l`. -/
theorem pt_comb (x : Tet K) (l : Fin 4 × Fin 4) : pt x l = comb x fun i => (bw l i : K) / 2 := by
  funext c
  have h := pt_edge x l c
  have s : (bw l 0 : K) + bw l 1 + bw l 2 + bw l 3 = 2 := by
    have : bw l 0 + bw l 1 + bw l 2 + bw l 3 = 2 := by clear h; revert l; decide
    exact_mod_cast congrArg (fun z : Int => (z : K)) this
  simp only [comb]
  rw [h]
  linear_combination (-x 0 c / 2) * s

theorem bw_nonneg (l : Fin 4 × Fin 4) (i : Fin 4) : 0 ≤ bw l i := by revert l i; decide

theorem bw_sum (l : Fin 4 × Fin 4) : (bw l 0 : K) / 2 + bw l 1 / 2 + bw l 2 / 2 + bw l 3 / 2 = 1 := by
  have : bw l 0 + bw l 1 + bw l 2 + bw l 3 = 2 := by revert l; decide
  have := congrArg (fun z : Int => (z : K)) this
  push_cast at this
  linear_combination this / 2

/-- A named point is on a face when the name does not use the opposite corner. -/
theorem onFace_pt {x : Tet K} (hx : vol6 x ≠ 0) (f : Fin 4) (l : Fin 4 × Fin 4) : OnFace x f (pt x l) ↔ bw l f = 0 := by
  constructor
  · rintro ⟨w, w0, w1, wf, e⟩
    rw [pt_comb] at e
    have := congrFun (comb_inj hx (by rw [bw_sum, w1]) e) f
    rw [wf] at this
    have : (bw l f : K) = 0 := by linear_combination 2 * this
    exact_mod_cast this
  · intro h
    refine ⟨_, fun i => ?_, bw_sum l, ?_, pt_comb x l⟩
    · have : (0 : K) ≤ bw l i := by exact_mod_cast bw_nonneg l i
      exact div_nonneg this (by norm_num)
    · simp [h]

theorem corners_inj {x : Tet K} (hx : vol6 x ≠ 0) : Function.Injective x := by
  intro i j h
  have h' : pt x (i, i) = pt x (j, j) := by rw [pt_self, pt_self, h]
  rw [pt_comb, pt_comb] at h'
  have e := comb_inj hx (by rw [bw_sum, bw_sum]) h'
  by_contra hij
  have := congrFun e i
  simp [bw, Ne.symm hij] at this

/-- The triangles of the children in a face of the parent are the four triangles into which the mid
points of its sides cut it. -/
theorem face_cut {x : Tet K} (hx : vol6 x ≠ 0) (f : Fin 4) (T : Set (Pt K)) : FaceTri x f T ↔ MidTri (faceOf x f) T := by
  have corner (a : Fin 4) : {p | ∃ l, (∃ b, b ≠ f ∧ l = nm a b) ∧ p = pt x l} =
      {p | ∃ b ∈ faceOf x f, p = half (x a) b} := by
    ext p
    constructor
    · rintro ⟨_, ⟨b, hb, rfl⟩, rfl⟩
      exact ⟨x b, ⟨b, hb, rfl⟩, pt_nm x a b⟩
    · rintro ⟨_, ⟨b, hb, rfl⟩, rfl⟩
      exact ⟨_, ⟨b, hb, rfl⟩, (pt_nm x a b).symm⟩
  have middle : {p | ∃ l, (∃ a b, a ≠ f ∧ b ≠ f ∧ a ≠ b ∧ l = nm a b) ∧ p = pt x l} =
      {p | ∃ a ∈ faceOf x f, ∃ b ∈ faceOf x f, a ≠ b ∧ p = half a b} := by
    ext p
    constructor
    · rintro ⟨_, ⟨a, b, ha, hb, hab, rfl⟩, rfl⟩
      exact ⟨x a, ⟨a, ha, rfl⟩, x b, ⟨b, hb, rfl⟩, fun h => hab (corners_inj hx h), pt_nm x a b⟩
    · rintro ⟨_, ⟨a, ha, rfl⟩, _, ⟨b, hb, rfl⟩, hab, rfl⟩
      exact ⟨_, ⟨a, b, ha, hb, fun h => hab (by rw [h]), rfl⟩, (pt_nm x a b).symm⟩
  have on {t : Fin 8} {g : Fin 4} : (∀ p ∈ faceOf (refineTet x t) g, OnFace x f p) ↔
      ∀ i, i ≠ g → bw (lbl (minIndex x) t i) f = 0 := by
    constructor
    · intro h i hi
      have := h _ ⟨i, hi, rfl⟩
      rw [refineTet_eq] at this
      exact (onFace_pt hx f _).1 this
    · rintro h _ ⟨i, hi, rfl⟩
      rw [refineTet_eq]
      exact (onFace_pt hx f _).2 (h i hi)
  constructor
  · rintro ⟨t, g, rfl, h⟩
    rcases tri_cases (minIndex x) t g f (on.1 h) with ⟨a, ha, hn⟩ | hn
    · exact Or.inl ⟨x a, ⟨a, ha, rfl⟩, hn.face.trans (corner a)⟩
    · exact Or.inr (hn.face.trans middle)
  · rintro (⟨_, ⟨a, ha, rfl⟩, rfl⟩ | rfl)
    · obtain ⟨t, g, hb, hn⟩ := tri_corner (minIndex x) f a ha
      exact ⟨t, g, ((hn.face.trans (corner a))).symm, by rw [← hn.face.trans (corner a)]; exact on.2 hb⟩
    · obtain ⟨t, g, hb, hn⟩ := tri_middle (minIndex x) f
      exact ⟨t, g, (hn.face.trans middle).symm, by rw [← hn.face.trans middle]; exact on.2 hb⟩

/-- A face shared by two tetrahedra is cut into the same triangles from both sides, whatever diagonals
the two use. -/
theorem face_cut_agrees {x y : Tet K} (hx : vol6 x ≠ 0) (hy : vol6 y ≠ 0) {f f' : Fin 4} (h : faceOf x f = faceOf y f')
    (T : Set (Pt K)) : FaceTri x f T ↔ FaceTri y f' T := by
  rw [face_cut hx, face_cut hy, h]

/-! ### A case -/

/-- A tetrahedron whose third diagonal is the shortest. -/
def exTet : Tet ℚ := ![![0, 0, 0], ![2, 0, 0], ![0, 2, 0], ![1, 1, 2]]

/-- Its neighbour across the face of corners 0, 1 and 2. -/
def exTet' : Tet ℚ := ![![0, 0, 0], ![2, 0, 0], ![0, 0, -6], ![0, 2, 0]]

example : vol6 exTet ≠ 0 ∧ vol6 exTet' ≠ 0 ∧ minIndex exTet ≠ minIndex exTet' ∧ faceOf exTet 3 = faceOf exTet' 2 := by
  refine ⟨by decide +kernel, by decide +kernel, by decide +kernel, ?_⟩
  ext p
  simp only [faceOf, Set.mem_ofPred_eq, Fin.exists_fin_succ, exTet, exTet']
  simp

end Verif.Refine
