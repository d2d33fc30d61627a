import Verif.Moab.Spec
import Verif.MeshFile.Lemmas3
import Mathlib.Data.List.Perm.Basic
import Mathlib.Data.List.Nodup
import Mathlib.Data.Fintype.EquivFin

/-!
# Ranges and numbers
-/
set_option linter.unusedSectionVars false
set_option linter.unusedVariables false

namespace Verif.Moab

open Verif.MeshFile Verif.TychoMesh

theorem mem_range {l : List Handle} {h : Handle} : h ∈ range l ↔ h ∈ l := by
  induction l with
  | nil => simp [range]
  | cons a l ih =>
    rw [range, List.foldr_cons, mem_setInsert, List.mem_cons]
    exact or_congr Iff.rfl ih

theorem range_sorted (l : List Handle) : (range l).Pairwise (· < ·) := by
  induction l with
  | nil => exact List.Pairwise.nil
  | cons a l ih => exact sorted_setInsert ih

theorem range_nodup (l : List Handle) : (range l).Nodup := (range_sorted l).imp fun h => ne_of_lt h

theorem range_perm {l : List Handle} (h : l.Nodup) : (range l).Perm l :=
  (List.perm_ext_iff_of_nodup (range_nodup l) h).2 fun _ => mem_range

theorem range_length {l : List Handle} (h : l.Nodup) : (range l).length = l.length := (range_perm h).length_eq

theorem idxOf_sorted {r : List Handle} (hr : r.Pairwise (· < ·)) {h : Handle} (hm : h ∈ r) : r.idxOf h = rank r h := by
  induction r with
  | nil => simp at hm
  | cons a r ih =>
    obtain ⟨h1, h2⟩ := List.pairwise_cons.1 hr
    by_cases e : a = h
    · subst e
      rw [List.idxOf_cons_self, rank, List.filter_cons_of_neg (by simp)]
      symm
      rw [List.length_eq_zero_iff, List.filter_eq_nil_iff]
      intro x hx
      have := h1 x hx
      simpa using this.le
    · have hm' : h ∈ r := by simpa [Ne.symm e] using hm
      rw [List.idxOf_cons_ne _ e, ih h2 hm', rank, rank, List.filter_cons_of_pos (by simpa using h1 h hm'), List.length_cons]

theorem rank_perm {l l' : List Handle} (h : l.Perm l') (x : Handle) : rank l x = rank l' x := (h.filter _).length_eq

theorem rank_range {l : List Handle} (h : l.Nodup) (x : Handle) : rank (range l) x = rank l x := rank_perm (range_perm h) x

theorem num_eq {l : List Handle} (hl : l.Nodup) {h : Handle} (hm : h ∈ l) : num (range l) h = some (rank l h) := by
  rw [num, if_pos (mem_range.2 hm), idxOf_sorted (range_sorted l) (mem_range.2 hm), rank_range hl]

theorem nums_eq {l : List Handle} (hl : l.Nodup) {q : List Handle} (hq : ∀ h ∈ q, h ∈ l) :
    nums (range l) q = some (q.map (rank l)) := by
  rw [nums]
  induction q with
  | nil => rfl
  | cons a q ih =>
    rw [List.mapM_cons, num_eq hl (hq a (List.mem_cons_self ..)), ih fun b hb => hq b (List.mem_cons_of_mem _ hb)]
    rfl

theorem range_get {l : List Handle} (hl : l.Nodup) {h : Handle} (hm : h ∈ l) : (range l)[rank l h]? = some h := by
  rw [← rank_range hl, ← idxOf_sorted (range_sorted l) (mem_range.2 hm)]
  exact List.getElem?_idxOf (mem_range.2 hm)

theorem rank_lt {l : List Handle} (hl : l.Nodup) {h : Handle} (hm : h ∈ l) : rank l h < l.length := by
  rw [← range_length hl]
  exact (List.getElem?_eq_some_iff.1 (range_get hl hm)).1

theorem rank_inj {l : List Handle} (hl : l.Nodup) {h h' : Handle} (hm : h ∈ l) (hm' : h' ∈ l) (e : rank l h = rank l h') :
    h = h' := by
  have a := range_get hl hm
  rw [e, range_get hl hm'] at a
  exact (Option.some.inj a).symm

/-- Every number belongs to a handle. -/
theorem exists_rank {l : List Handle} (hl : l.Nodup) {i : Nat} (hi : i < l.length) : ∃ h ∈ l, rank l h = i := by
  rw [← range_length hl] at hi
  have hm : (range l)[i] ∈ l := mem_range.1 (List.getElem_mem hi)
  refine ⟨(range l)[i], hm, ?_⟩
  have := range_get hl hm
  obtain ⟨h1, h2⟩ := List.getElem?_eq_some_iff.1 this
  exact (range_nodup l).getElem_inj_iff.1 h2

/-! ### Lookup -/

theorem find_iff {α : Type} {l : List (Handle × α)} (hl : (l.map (·.1)).Nodup) {h : Handle} {x : α} :
    (l.find? fun y => y.1 = h).map (·.2) = some x ↔ (h, x) ∈ l := by
  induction l with
  | nil => simp
  | cons a l ih =>
    rw [List.map_cons, List.nodup_cons] at hl
    by_cases e : a.1 = h
    · rw [List.find?_cons_of_pos (by simpa using e), Option.map_some, Option.some.injEq, List.mem_cons]
      constructor
      · rintro rfl; left; rw [← e]
      · rintro (rfl | hm)
        · rfl
        · exact absurd (List.mem_map.2 ⟨_, hm, rfl⟩) (e ▸ hl.1)
    · rw [List.find?_cons_of_neg (by simpa using e), ih hl.2, List.mem_cons]
      constructor
      · exact Or.inr
      · rintro (rfl | hm)
        · exact absurd rfl e
        · exact hm

/-! ### Arrays of the numbers of a short list -/

section
variable {n : Nat} {q : List Handle} {ρ : Handle → Nat}

/-- Entry `k` of the list. -/
def nth (q : List Handle) (k : Fin n) : Handle := q.getD k 0

theorem get_map (hq : q.length = n) (k : Fin n) : get (q.map ρ) k = ρ (nth q k) := by
  have h : k.val < q.length := by omega
  unfold MeshFile.get nth
  rw [List.getD_eq_getElem _ _ (by simpa using h), List.getD_eq_getElem _ _ h, List.getElem_map]

theorem nth_mem (hq : q.length = n) (k : Fin n) : nth q k ∈ q := by
  have h : k.val < q.length := by omega
  rw [nth, List.getD_eq_getElem _ _ h]
  exact List.getElem_mem h

theorem nth_surj (hq : q.length = n) {h : Handle} (hm : h ∈ q) : ∃ k : Fin n, nth q k = h := by
  obtain ⟨i, hi, rfl⟩ := List.mem_iff_getElem.1 hm
  exact ⟨⟨i, by omega⟩, by rw [nth, List.getD_eq_getElem _ _ hi]⟩

theorem nth_inj (hq : q.length = n) (hd : q.Nodup) : Function.Injective (nth q : Fin n → Handle) := by
  intro k k' e
  have h : k.val < q.length := by omega
  have h' : k'.val < q.length := by omega
  rw [nth, nth, List.getD_eq_getElem _ _ h, List.getD_eq_getElem _ _ h'] at e
  exact Fin.ext (hd.getElem_inj_iff.1 e)

end

theorem range_ofFn_length {n : Nat} {t : Fin n → Handle} (h : Function.Injective t) : (range (List.ofFn t)).length = n := by
  rw [range_length (List.nodup_ofFn.2 h), List.length_ofFn]

/-! ### Triangles and tetrahedra -/

theorem within_iff {m n : Nat} {a : Fin m → Handle} {b : Fin n → Handle} : within a b = true ↔ ∀ i, ∃ j, a i = b j := by
  simp [within]

theorem side_inj {t : Fin 4 → Handle} (h : Function.Injective t) (k : Fin 4) : Function.Injective (side t k) :=
  h.comp (Fin.succAbove_right_injective)

theorem side_within (t : Fin 4 → Handle) (k : Fin 4) (j : Fin 3) : ∃ i, side t k j = t i := ⟨_, rfl⟩

theorem mem_side {t : Fin 4 → Handle} (h : Function.Injective t) {k i : Fin 4} : (∃ j, side t k j = t i) ↔ i ≠ k := by
  constructor
  · rintro ⟨j, e⟩ rfl
    exact Fin.succAbove_ne _ _ (h e)
  · intro hne
    obtain ⟨j, hj⟩ := Fin.exists_succAbove_eq hne
    exact ⟨j, by rw [side, hj]⟩

/-- Three different vertices of a tetrahedron are a side of it. -/
theorem within_side {t : Fin 4 → Handle} (ht : Function.Injective t) {v : Fin 3 → Handle} (hv : Function.Injective v)
    (h : ∀ j, ∃ i, v j = t i) : ∃ k, ∀ x, (∃ j, v j = x) ↔ ∃ j, side t k j = x := by
  choose f hf using h
  have hfi : Function.Injective f := fun a b e => hv (by rw [hf, hf, e])
  have hns : ¬ Function.Surjective f := fun hs => by
    have := Fintype.card_le_of_surjective f hs
    simp at this
  simp only [Function.Surjective, not_forall, not_exists] at hns
  obtain ⟨k, hk⟩ := hns
  have key : ∀ j, ∃ i, k.succAbove i = f j := fun j => Fin.exists_succAbove_eq (hk j)
  choose g hg using key
  have hgi : Function.Injective g := fun a b e => hfi (by rw [← hg, ← hg, e])
  have hgs : Function.Surjective g := Finite.surjective_of_injective hgi
  refine ⟨k, fun x => ⟨?_, ?_⟩⟩
  · rintro ⟨j, rfl⟩; exact ⟨g j, by rw [side, hg, hf]⟩
  · rintro ⟨j, rfl⟩
    obtain ⟨i, rfl⟩ := hgs j
    exact ⟨i, by rw [side, hg, hf]⟩

/-- Two triangles with the same vertices, one containing the other. -/
theorem same_of_within {a b : Fin 3 → Handle} (h1 : within a b = true) (h2 : within b a = true) :
    ∀ x, (∃ j, a j = x) ↔ ∃ j, b j = x := by
  rw [within_iff] at h1 h2
  intro x
  constructor
  · rintro ⟨j, rfl⟩; obtain ⟨i, hi⟩ := h1 j; exact ⟨i, hi.symm⟩
  · rintro ⟨j, rfl⟩; obtain ⟨i, hi⟩ := h2 j; exact ⟨i, hi.symm⟩

theorem within_of_same {a b : Fin 3 → Handle} (h : ∀ x, (∃ j, a j = x) ↔ ∃ j, b j = x) :
    within a b = true ∧ within b a = true := by
  rw [within_iff, within_iff]
  exact ⟨fun i => by obtain ⟨j, hj⟩ := (h (a i)).1 ⟨i, rfl⟩; exact ⟨j, hj.symm⟩,
    fun i => by obtain ⟨j, hj⟩ := (h (b i)).2 ⟨i, rfl⟩; exact ⟨j, hj.symm⟩⟩

theorem present_iff {db : Db} {v : Fin 3 → Handle} :
    present db v = true ↔ ∃ x ∈ db.tris, ∀ y, (∃ j, x.2 j = y) ↔ ∃ j, v j = y := by
  rw [present, List.any_eq_true]
  constructor
  · rintro ⟨x, hx, h⟩
    rw [Bool.and_eq_true] at h
    exact ⟨x, hx, same_of_within h.1 h.2⟩
  · rintro ⟨x, hx, h⟩
    obtain ⟨a, b⟩ := within_of_same h
    exact ⟨x, hx, by rw [a, b]; rfl⟩

/-! ### Creating the faces -/

variable {alloc : List Handle → Handle}

/-- What has been reached after creating some triangles. -/
structure Grown (db D : Db) : Prop where
  nodes : D.nodes = db.nodes
  tets : D.tets = db.tets
  tris : (D.tris.map (·.1)).Nodup
  old : ∀ x ∈ db.tris, x ∈ D.tris
  new : ∀ x ∈ D.tris, x ∈ db.tris ∨ ∃ y ∈ db.tets, ∃ k, x.2 = side y.2 k
  once : ∀ x ∈ D.tris, ∀ y ∈ D.tris, (∀ v, (∃ j, x.2 j = v) ↔ ∃ j, y.2 j = v) → x.1 = y.1

theorem Grown.refl {db : Db} (h : Proper db) : Grown db db where
  nodes := rfl
  tets := rfl
  tris := h.tris
  old _ := id
  new _ := Or.inl
  once := h.triOnce

theorem createTri_grown (ha : Fresh alloc) {db D : Db} (G : Grown db D) {y : Handle × (Fin 4 → Handle)} (hy : y ∈ db.tets)
    (k : Fin 4) : Grown db (createTri alloc D (side y.2 k)) ∧ present (createTri alloc D (side y.2 k)) (side y.2 k) = true ∧
      ∀ x ∈ D.tris, x ∈ (createTri alloc D (side y.2 k)).tris := by
  unfold createTri
  split
  · rename_i hp
    exact ⟨G, hp, fun _ => id⟩
  · rename_i hp
    have hp' : ¬ ∃ x ∈ D.tris, ∀ z, (∃ j, x.2 j = z) ↔ ∃ j, side y.2 k j = z := fun h => hp (present_iff.2 h)
    refine ⟨⟨G.nodes, G.tets, ?_, ?_, ?_, ?_⟩, ?_, ?_⟩
    · simp only [List.map_append, List.map_cons, List.map_nil]
      rw [List.nodup_append]
      refine ⟨G.tris, List.nodup_singleton _, ?_⟩
      intro a hm b hb e
      rw [List.mem_singleton] at hb
      exact ha _ (hb ▸ e ▸ hm)
    · intro x hx; exact List.mem_append_left _ (G.old x hx)
    · intro x hx
      rcases List.mem_append.1 hx with hx | hx
      · exact G.new x hx
      · rw [List.mem_singleton.1 hx]; exact Or.inr ⟨y, hy, k, rfl⟩
    · intro x hx z hz h
      rcases List.mem_append.1 hx with hx | hx <;> rcases List.mem_append.1 hz with hz | hz
      · exact G.once x hx z hz h
      · rw [List.mem_singleton.1 hz] at h
        exact absurd ⟨x, hx, h⟩ hp'
      · rw [List.mem_singleton.1 hx] at h
        exact absurd ⟨z, hz, fun v => (h v).symm⟩ hp'
      · rw [List.mem_singleton.1 hx, List.mem_singleton.1 hz]
    · exact present_iff.2 ⟨_, List.mem_append_right _ (List.mem_singleton_self _), fun _ => Iff.rfl⟩
    · intro x hx; exact List.mem_append_left _ hx

theorem present_mono {D E : Db} (h : ∀ x ∈ D.tris, x ∈ E.tris) {v : Fin 3 → Handle} (hp : present D v = true) : present E v = true := by
  obtain ⟨x, hx, hh⟩ := present_iff.1 hp
  exact present_iff.2 ⟨x, h x hx, hh⟩

theorem createSides_grown (ha : Fresh alloc) {db : Db} {y : Handle × (Fin 4 → Handle)} (hy : y ∈ db.tets) {D : Db} (G : Grown db D) :
    Grown db (createSides alloc D y.2) ∧ (∀ k, present (createSides alloc D y.2) (side y.2 k) = true) ∧
      ∀ x ∈ D.tris, x ∈ (createSides alloc D y.2).tris := by
  have key : ∀ (l : List (Fin 4)) (D : Db), Grown db D →
      Grown db (l.foldl (fun db k => createTri alloc db (side y.2 k)) D) ∧
      (∀ k ∈ l, present (l.foldl (fun db k => createTri alloc db (side y.2 k)) D) (side y.2 k) = true) ∧
      ∀ x ∈ D.tris, x ∈ (l.foldl (fun db k => createTri alloc db (side y.2 k)) D).tris := by
    intro l
    induction l with
    | nil => intro D G; exact ⟨G, by simp, fun _ => id⟩
    | cons a l ih =>
      intro D G
      obtain ⟨g1, g2, g3⟩ := createTri_grown ha G hy a
      obtain ⟨i1, i2, i3⟩ := ih _ g1
      refine ⟨i1, ?_, fun x hx => i3 x (g3 x hx)⟩
      intro k hk
      rcases List.mem_cons.1 hk with rfl | hk
      · exact present_mono i3 g2
      · exact i2 k hk
  obtain ⟨a, b, c⟩ := key (List.finRange 4) D G
  exact ⟨a, fun k => b k (List.mem_finRange k), c⟩

/-- After `moabCreateAllFaces` all sides of all tetrahedra are there. -/
theorem createAllFaces_grown (ha : Fresh alloc) {db : Db} (h : Proper db) :
    Grown db (createAllFaces alloc db) ∧
      ∀ y ∈ db.tets, ∀ k, present (createAllFaces alloc db) (side y.2 k) = true := by
  have key : ∀ (l : List (Fin 4 → Handle)), (∀ t ∈ l, ∃ y ∈ db.tets, y.2 = t) → ∀ (D : Db), Grown db D →
      Grown db (l.foldl (createSides alloc) D) ∧ (∀ t ∈ l, ∀ k, present (l.foldl (createSides alloc) D) (side t k) = true) ∧
      ∀ x ∈ D.tris, x ∈ (l.foldl (createSides alloc) D).tris := by
    intro l
    induction l with
    | nil => intro _ D G; exact ⟨G, by simp, fun _ => id⟩
    | cons a l ih =>
      intro hl D G
      obtain ⟨y, hy, e⟩ := hl a (List.mem_cons_self ..)
      subst e
      obtain ⟨g1, g2, g3⟩ := createSides_grown ha hy G
      obtain ⟨i1, i2, i3⟩ := ih (fun t ht => hl t (List.mem_cons_of_mem _ ht)) _ g1
      refine ⟨i1, ?_, fun x hx => i3 x (g3 x hx)⟩
      intro t ht k
      rcases List.mem_cons.1 ht with rfl | ht
      · exact present_mono i3 (g2 k)
      · exact i2 t ht k
  have hmem : ∀ t, t ∈ db.cellRange.filterMap db.tet ↔ ∃ y ∈ db.tets, y.2 = t := by
    intro t
    rw [List.mem_filterMap]
    constructor
    · rintro ⟨a, -, ht⟩
      exact ⟨(a, t), (find_iff h.tets).1 ht, rfl⟩
    · rintro ⟨y, hy, rfl⟩
      exact ⟨y.1, mem_range.2 (List.mem_map.2 ⟨y, hy, rfl⟩), (find_iff h.tets).2 hy⟩
  obtain ⟨a, b, c⟩ := key (db.cellRange.filterMap db.tet) (fun t ht => (hmem t).1 ht) db (Grown.refl h)
  exact ⟨a, fun y hy k => b y.2 ((hmem _).2 ⟨y, hy, rfl⟩) k⟩

end Verif.Moab
