import Verif.Moab.Lemmas
import Verif.MeshFile.Lemmas2
import Mathlib.Data.Rat.Cast.CharZero
import Mathlib.Algebra.BigOperators.Group.List.Basic

/-!
# One cell, one face
-/
set_option linter.unusedSectionVars false
set_option linter.unusedVariables false

namespace Verif.Moab

open Verif.MeshFile Verif.TychoMesh

/-- The handles of one kind. -/
abbrev Db.N (D : Db) : List Handle := D.nodes.map (·.1)
abbrev Db.F (D : Db) : List Handle := D.tris.map (·.1)
abbrev Db.C (D : Db) : List Handle := D.tets.map (·.1)

theorem tri_eq {D : Db} (P : Loaded D) {x y : Handle × (Fin 3 → Handle)} (hx : x ∈ D.tris) (hy : y ∈ D.tris) (e : x.1 = y.1) : x = y :=
  List.inj_on_of_nodup_map P.tris hx hy e

theorem tet_eq {D : Db} (P : Loaded D) {x y : Handle × (Fin 4 → Handle)} (hx : x ∈ D.tets) (hy : y ∈ D.tets) (e : x.1 = y.1) : x = y :=
  List.inj_on_of_nodup_map P.tets hx hy e

/-- All sides of all tetrahedra are there. -/
def Full (D : Db) : Prop := ∀ y ∈ D.tets, ∀ k, present D (side y.2 k) = true

/-! ### Faces of a cell -/

theorem mem_cellFaces {D : Db} {t : Fin 4 → Handle} {g : Handle} :
    g ∈ range ((D.tris.filter fun x => within x.2 t).map (·.1)) ↔ ∃ x ∈ D.tris, x.1 = g ∧ ∀ j, ∃ i, x.2 j = t i := by
  rw [mem_range, List.mem_map]
  constructor
  · rintro ⟨x, hx, rfl⟩
    rw [List.mem_filter, within_iff] at hx
    exact ⟨x, hx.1, rfl, hx.2⟩
  · rintro ⟨x, hx, rfl, h⟩
    exact ⟨x, List.mem_filter.2 ⟨hx, within_iff.2 h⟩, rfl⟩

theorem cellFaces_four {D : Db} (P : Proper D) (H : Full D) {y : Handle × (Fin 4 → Handle)} (hy : y ∈ D.tets) :
    (range ((D.tris.filter fun x => within x.2 y.2).map (·.1))).length = 4 := by
  have ht := P.tetDistinct y hy
  choose f f1 f2 using fun k => present_iff.1 (H y hy k)
  have hi : Function.Injective fun k => (f k).1 := by
    intro k l e
    have e' := tri_eq P.toLoaded (f1 k) (f1 l) e
    by_contra hne
    have h1 : ∃ j, side y.2 l j = y.2 k := (mem_side ht).2 hne
    have h2 := (f2 k (y.2 k)).1 (e' ▸ (f2 l (y.2 k)).2 h1)
    exact (mem_side ht).1 h2 rfl
  have hp : (range ((D.tris.filter fun x => within x.2 y.2).map (·.1))).Perm (List.ofFn fun k => (f k).1) := by
    refine (List.perm_ext_iff_of_nodup (range_nodup _) (List.nodup_ofFn.2 hi)).2 fun g => ?_
    rw [mem_cellFaces, List.mem_ofFn]
    constructor
    · rintro ⟨x, hx, rfl, h⟩
      obtain ⟨k, hk⟩ := within_side ht (P.triDistinct x hx) h
      exact ⟨k, P.triOnce _ (f1 k) _ hx fun v => (f2 k v).trans (hk v).symm⟩
    · rintro ⟨k, rfl⟩
      refine ⟨f k, f1 k, rfl, fun j => ?_⟩
      obtain ⟨i, hi⟩ := (f2 k _).1 ⟨j, rfl⟩
      exact ⟨_, hi.symm⟩
  rw [hp.length_eq, List.length_ofFn]

/-! ### Materials -/

section
variable {K : Type} [Field K] [LinearOrder K] {val : Nat → K} {two : Bool}

theorem mapM_coords {D : Db} (P : Loaded D) {q : List Handle} (hq : ∀ h ∈ q, h ∈ D.N) :
    q.mapM D.coords = some (q.map fun h => (D.coords h).getD fun _ => 0) := by
  induction q with
  | nil => rfl
  | cons a q ih =>
    obtain ⟨x, hx, rfl⟩ := List.mem_map.1 (hq a (List.mem_cons_self ..))
    have e : D.coords x.1 = some x.2 := (find_iff P.nodes).2 hx
    rw [List.mapM_cons, e, ih fun b hb => hq b (List.mem_cons_of_mem _ hb), List.map_cons, e]
    rfl

theorem centroid_eq {D : Db} (P : Loaded D) {t : Fin 4 → Handle} (ht : Function.Injective t) {p : Fin 4 → Fin 3 → Nat}
    (hp : ∀ k, (t k, p k) ∈ D.nodes) (i : Fin 3) :
    centroid val ((range (List.ofFn t)).map fun h => (D.coords h).getD fun _ => 0) i = (∑ k, val (p k i)) / 4 := by
  rw [centroid, List.length_map, range_ofFn_length ht, List.map_map, ← List.sum_eq_foldl,
    ((range_perm (List.nodup_ofFn.2 ht)).map _).sum_eq, List.map_ofFn, List.sum_ofFn]
  congr 1
  refine Finset.sum_congr rfl fun k _ => ?_
  have e : D.coords (t k) = some (p k) := (find_iff P.nodes).2 (hp k)
  simp [Function.comp, e]

theorem material_ok {D : Db} (P : Loaded D) {t : Fin 4 → Handle} (ht : Function.Injective t) (hN : ∀ k, t k ∈ D.N) :
    ∃ mat, material val two D (range (List.ofFn t)) = some mat ∧ (mat = 1 ∨ mat = 2) ∧
      ∀ p : Fin 4 → Fin 3 → Nat, (∀ k, (t k, p k) ∈ D.nodes) →
        (mat = 2 ↔ two = true ∧ ∀ i, 25 < (∑ k, val (p k i)) / 4 ∧ (∑ k, val (p k i)) / 4 < 75) := by
  unfold material
  by_cases h2 : two = true
  · rw [if_pos h2, mapM_coords P (by
      intro h hh
      rw [mem_range, List.mem_ofFn] at hh
      obtain ⟨k, rfl⟩ := hh
      exact hN k)]
    simp only [Option.bind_eq_bind, Option.bind_some]
    split
    · rename_i hc
      refine ⟨2, rfl, Or.inr rfl, fun p hp => ⟨fun _ => ⟨h2, fun i => ?_⟩, fun _ => rfl⟩⟩
      rw [← centroid_eq P ht hp]
      exact hc i
    · rename_i hc
      refine ⟨1, rfl, Or.inl rfl, fun p hp => ⟨fun h => by simp at h, fun h => absurd (fun i => ?_) hc⟩⟩
      rw [centroid_eq P ht hp]
      exact h.2 i
  · rw [if_neg h2]
    exact ⟨1, rfl, Or.inl rfl, fun p hp => ⟨fun h => by simp at h, fun h => absurd h.1 h2⟩⟩

/-! ### The data of a cell -/

/-- The data of the cell with the vertices `t`. -/
structure CellOf (val : Nat → K) (two : Bool) (D : Db) (t : Fin 4 → Handle) (d : SCell) : Prop where
  faces : ∃ w : Fin 4 → Handle, Function.Injective w ∧ (∀ g, (∃ k, w k = g) ↔ ∃ x ∈ D.tris, x.1 = g ∧ ∀ j, ∃ i, x.2 j = t i) ∧
    ∀ k, d.faces k = rank D.F (w k)
  nodes : ∃ u : Fin 4 → Handle, Function.Injective u ∧ (∀ v, (∃ k, u k = v) ↔ ∃ k, t k = v) ∧ ∀ k, d.nodes k = rank D.N (u k)
  mat : d.material = 1 ∨ d.material = 2
  material : ∀ p : Fin 4 → Fin 3 → Nat, (∀ k, (t k, p k) ∈ D.nodes) →
    (d.material = 2 ↔ two = true ∧ ∀ i, 25 < (∑ k, val (p k i)) / 4 ∧ (∑ k, val (p k i)) / 4 < 75)

theorem convertCell_ok {D : Db} (P : Proper D) (H : Full D) {y : Handle × (Fin 4 → Handle)} (hy : y ∈ D.tets) :
    ∃ d, convertCell val two D y.1 = some d ∧ CellOf val two D y.2 d := by
  have ht := P.tetDistinct y hy
  have e1 : D.tet y.1 = some y.2 := (find_iff P.tets).2 hy
  have l4 := cellFaces_four P H hy
  have n4 := range_ofFn_length ht
  have hN : ∀ k, y.2 k ∈ D.N := P.tetNodes y hy
  obtain ⟨mat, m1, m2, m3⟩ := material_ok (val := val) (two := two) P.toLoaded ht hN
  unfold convertCell
  rw [e1]
  simp only [Option.bind_eq_bind, Option.bind_some, cellFaces, if_pos (H y hy), if_pos l4]
  rw [show D.faceRange = range D.F from rfl, nums_eq P.tris (fun h hh => by
    obtain ⟨x, hx, rfl, -⟩ := mem_cellFaces.1 hh
    exact List.mem_map.2 ⟨x, hx, rfl⟩)]
  simp only [Option.bind_some, if_pos n4]
  rw [show D.nodeRange = range D.N from rfl, nums_eq P.nodes (fun h hh => by
    rw [mem_range, List.mem_ofFn] at hh
    obtain ⟨k, rfl⟩ := hh
    exact hN k)]
  simp only [Option.bind_some, m1]
  refine ⟨_, rfl, ⟨⟨_, nth_inj l4 (range_nodup _), fun g => ?_, fun k => get_map l4 k⟩,
    ⟨_, nth_inj n4 (range_nodup _), fun g => ?_, fun k => get_map n4 k⟩, m2, m3⟩⟩
  · rw [← mem_cellFaces]
    exact ⟨fun ⟨k, hk⟩ => hk ▸ nth_mem l4 k, nth_surj l4⟩
  · refine Iff.trans ⟨fun ⟨k, hk⟩ => hk ▸ nth_mem n4 k, nth_surj n4⟩ ?_
    rw [mem_range, List.mem_ofFn]

end

/-! ### The data of a face -/

theorem mem_faceCells {D : Db} {v : Fin 3 → Handle} {h : Handle} :
    h ∈ faceCells D v ↔ ∃ y ∈ D.tets, y.1 = h ∧ ∀ j, ∃ i, v j = y.2 i := by
  rw [faceCells, mem_range, List.mem_map]
  constructor
  · rintro ⟨x, hx, rfl⟩
    rw [List.mem_filter, within_iff] at hx
    exact ⟨x, hx.1, rfl, hx.2⟩
  · rintro ⟨x, hx, rfl, h⟩
    exact ⟨x, List.mem_filter.2 ⟨hx, within_iff.2 h⟩, rfl⟩

/-- The data of the triangle with the vertices `v`. -/
structure FaceOf (D : Db) (v : Fin 3 → Handle) (e : SFace) : Prop where
  nodes : ∃ u : Fin 3 → Handle, (∀ x, (∃ k, u k = x) ↔ ∃ k, v k = x) ∧ ∀ k, e.nodes k = rank D.N (u k)
  cells : ∀ h ∈ faceCells D v, ∃ j, e.cells j = rank D.C h
  only : ∀ j, e.cells j = invalid ∨ ∃ h ∈ faceCells D v, e.cells j = rank D.C h
  sides : e.cells 0 ≠ e.cells 1

theorem convertFace_ok {D : Db} (P : Proper D) {x : Handle × (Fin 3 → Handle)} (hx : x ∈ D.tris)
    (hl : (faceCells D x.2).length = 1 ∨ (faceCells D x.2).length = 2) :
    ∃ e, convertFace D x.1 = some e ∧ FaceOf D x.2 e := by
  have hv := P.triDistinct x hx
  have e1 : D.tri x.1 = some x.2 := (find_iff P.tris).2 hx
  have n3 := range_ofFn_length hv
  have hC : ∀ h ∈ faceCells D x.2, h ∈ D.C := fun h hh => by
    obtain ⟨y, hy, rfl, -⟩ := mem_faceCells.1 hh
    exact List.mem_map.2 ⟨y, hy, rfl⟩
  unfold convertFace
  rw [e1]
  simp only [Option.bind_eq_bind, Option.bind_some, if_pos hl]
  rw [show D.cellRange = range D.C from rfl, nums_eq P.tets hC]
  simp only [Option.bind_some, if_pos n3]
  rw [show D.nodeRange = range D.N from rfl, nums_eq P.nodes (fun h hh => by
    rw [mem_range, List.mem_ofFn] at hh
    obtain ⟨k, rfl⟩ := hh
    exact P.triNodes x hx k)]
  simp only [Option.bind_some]
  have hnd : (faceCells D x.2).Nodup := range_nodup _
  refine ⟨_, rfl, ⟨⟨_, fun g => ?_, fun k => get_map n3 k⟩, ?_, ?_, ?_⟩⟩
  · refine Iff.trans ⟨fun ⟨k, hk⟩ => hk ▸ nth_mem n3 k, nth_surj n3⟩ ?_
    rw [mem_range, List.mem_ofFn]
  all_goals
    have hlt : ∀ h ∈ faceCells D x.2, rank D.C h ≠ invalid := fun h hh => by
      have h1 : rank D.C h < D.tets.length := by simpa using rank_lt P.tets (hC h hh)
      exact ne_of_lt (lt_of_lt_of_le h1 P.fit)
    rcases hl with hl | hl
  · obtain ⟨a, ha⟩ := List.length_eq_one_iff.1 hl
    rw [ha]
    intro h hh
    exact ⟨0, by rw [List.mem_singleton.1 hh]; rfl⟩
  · obtain ⟨a, b, ha⟩ := List.length_eq_two.1 hl
    rw [ha]
    intro h hh
    rcases List.mem_cons.1 hh with rfl | hh
    · exact ⟨0, rfl⟩
    · exact ⟨1, by rw [List.mem_singleton.1 hh]; rfl⟩
  · obtain ⟨a, ha⟩ := List.length_eq_one_iff.1 hl
    rw [ha]
    intro j
    fin_cases j
    · exact Or.inr ⟨a, List.mem_singleton_self _, rfl⟩
    · exact Or.inl rfl
  · obtain ⟨a, b, ha⟩ := List.length_eq_two.1 hl
    rw [ha]
    intro j
    fin_cases j
    · exact Or.inr ⟨a, by simp, rfl⟩
    · exact Or.inr ⟨b, by simp, rfl⟩
  · obtain ⟨a, ha⟩ := List.length_eq_one_iff.1 hl
    rw [ha] at hlt ⊢
    exact hlt a (List.mem_singleton_self _)
  · obtain ⟨a, b, ha⟩ := List.length_eq_two.1 hl
    rw [ha] at hnd hC ⊢
    intro e
    have e' : rank D.C a = rank D.C b := e
    have := rank_inj P.tets (hC a (by simp)) (hC b (by simp)) e'
    simp [this] at hnd

theorem convertFace_none {D : Db} (P : Loaded D) {x : Handle × (Fin 3 → Handle)} (hx : x ∈ D.tris)
    (hl : ¬ ((faceCells D x.2).length = 1 ∨ (faceCells D x.2).length = 2)) : convertFace D x.1 = none := by
  have e1 : D.tri x.1 = some x.2 := (find_iff P.tris).2 hx
  unfold convertFace
  rw [e1]
  simp only [Option.bind_eq_bind, Option.bind_some, if_neg hl]

end Verif.Moab
