import Verif.Refine.Maps
import Mathlib.Tactic.FinCases

/-!
# What the refinement has stored after a number of tetrahedra
-/
set_option linter.unusedSectionVars false
set_option linter.unusedVariables false

namespace Verif.Refine

open Verif.MeshFile

variable {K : Type} [Field K] [LinearOrder K]

/-! ### Nodes -/

/-- The nodes are numbered in order, are some of the points `P`, and no two are the same to the
comparison. -/
structure NInv (tol : K) (P : Pt K → Prop) (s : St K) : Prop where
  map : s.nodeMap = s.nodes.zipIdx
  pts : ∀ p ∈ s.nodes, P p
  one : ∀ (i j : Nat) (p q : Pt K), s.nodes[i]? = some p → s.nodes[j]? = some q → Eqv (nodeLt tol) p q → i = j

theorem addNode_spec {tol : K} {P : Pt K → Prop} (W : WeakOn (nodeLt tol) P) {s : St K} (I : NInv tol P s) {p : Pt K}
    (hp : P p) (hl : s.nodes.length < invalid) : ∃ s' n, addNode tol s p = some (s', n) ∧ NInv tol P s' ∧
      (∃ q, s'.nodes[n]? = some q ∧ Eqv (nodeLt tol) q p) ∧ s.nodes <+: s'.nodes ∧
      s'.nodes.length ≤ s.nodes.length + 1 ∧ s'.cells = s.cells ∧ s'.faces = s.faces ∧ s'.faceMap = s.faceMap := by
  rcases mapFind_zip W I.pts hp with ⟨i, k, hi, he, hf⟩ | ⟨hn, hf⟩ <;> rw [← I.map] at hf
  · have hlt : i < s.nodes.length := (List.getElem?_eq_some_iff.1 hi).1
    refine ⟨s, i, ?_, I, ⟨k, hi, he⟩, List.prefix_refl _, by omega, rfl, rfl, rfl⟩
    have hne : i ≠ invalid := by omega
    simp [addNode, hf, hne]
  · refine ⟨{ s with nodeMap := s.nodeMap ++ [(p, s.nodes.length)], nodes := s.nodes ++ [p] }, s.nodes.length,
      by simp [addNode, hf], ⟨?_, ?_, ?_⟩, ⟨p, by simp, ?_⟩, List.prefix_append _ _, by simp,
      rfl, rfl, rfl⟩
    · simp [List.zipIdx_append, I.map]
    · intro q hq
      rcases List.mem_append.1 hq with h | h
      · exact I.pts q h
      · rw [List.mem_singleton.1 h]; exact hp
    · intro i j a b ha hb he
      simp only [List.getElem?_append, List.getElem?_singleton] at ha hb
      split_ifs at ha hb with h1 h2 h3 h4 h5 h6
      · exact I.one i j a b ha hb he
      · cases hb
        exact absurd he (hn a (List.mem_of_getElem? ha))
      · cases ha
        exact absurd he.symm (hn b (List.mem_of_getElem? hb))
      · omega
    · exact ⟨W.irrefl p hp, W.irrefl p hp⟩

theorem getElem?_prefix {α : Type} {l l' : List α} (h : l <+: l') {i : Nat} {a : α} (hi : l[i]? = some a) : l'[i]? = some a := by
  obtain ⟨t, rfl⟩ := h
  rw [List.getElem?_append_left (List.getElem?_eq_some_iff.1 hi).1, hi]

theorem addNodes_spec {tol : K} {P : Pt K → Prop} (W : WeakOn (nodeLt tol) P) {s : St K} (I : NInv tol P s) {x : Tet K}
    (hp : ∀ k, P (x k)) (hl : s.nodes.length + 4 ≤ invalid) : ∃ s' n, addNodes tol s x = some (s', n) ∧ NInv tol P s' ∧
      (∀ k, ∃ q, s'.nodes[n k]? = some q ∧ Eqv (nodeLt tol) q (x k)) ∧ s.nodes <+: s'.nodes ∧
      s'.nodes.length ≤ s.nodes.length + 4 ∧ s'.cells = s.cells ∧ s'.faces = s.faces ∧ s'.faceMap = s.faceMap := by
  obtain ⟨s0, n0, e0, I0, ⟨q0, a0, b0⟩, p0, l0, c0, f0, m0⟩ := addNode_spec W I (hp 0) (by omega)
  obtain ⟨s1, n1, e1, I1, ⟨q1, a1, b1⟩, p1, l1, c1, f1, m1⟩ := addNode_spec W I0 (hp 1) (by omega)
  obtain ⟨s2, n2, e2, I2, ⟨q2, a2, b2⟩, p2, l2, c2, f2, m2⟩ := addNode_spec W I1 (hp 2) (by omega)
  obtain ⟨s3, n3, e3, I3, ⟨q3, a3, b3⟩, p3, l3, c3, f3, m3⟩ := addNode_spec W I2 (hp 3) (by omega)
  refine ⟨s3, ![n0, n1, n2, n3], by simp [addNodes, e0, e1, e2, e3], I3, ?_, p0.trans (p1.trans (p2.trans p3)), by omega,
    by rw [c3, c2, c1, c0], by rw [f3, f2, f1, f0], by rw [m3, m2, m1, m0]⟩
  intro k
  match k with
  | 0 => exact ⟨q0, getElem?_prefix (p1.trans (p2.trans p3)) a0, b0⟩
  | 1 => exact ⟨q1, getElem?_prefix (p2.trans p3) a1, b1⟩
  | 2 => exact ⟨q2, getElem?_prefix p3 a2, b2⟩
  | 3 => exact ⟨q3, a3, b3⟩

/-! ### Faces -/

/-- The cells that asked for a face with certain nodes, in order. -/
def asked (E : List (Nat × (Fin 3 → Nat))) (f : Fin 3 → Nat) : List Nat :=
  (E.filter fun e => decide (orderFaceNodes e.2 = orderFaceNodes f)).map Prod.fst

theorem asked_append (E E' : List (Nat × (Fin 3 → Nat))) (f : Fin 3 → Nat) : asked (E ++ E') f = asked E f ++ asked E' f := by
  simp [asked]

theorem asked_congr (E : List (Nat × (Fin 3 → Nat))) {f g : Fin 3 → Nat} (h : orderFaceNodes f = orderFaceNodes g) :
    asked E f = asked E g := by
  simp only [asked, h]

/-- After the requests `E`: every face has been asked for, names the first cell and, if there are several,
the last; no two faces have the same nodes; every request has its face. -/
structure FInv (E : List (Nat × (Fin 3 → Nat))) (s : St K) : Prop where
  map : s.faceMap = (s.faces.map SFace.nodes).zipIdx
  first : ∀ (g : Nat) (e : SFace), s.faces[g]? = some e → (asked E e.nodes).head? = some (e.cells 0)
  last : ∀ (g : Nat) (e : SFace), s.faces[g]? = some e →
    e.cells 1 = if (asked E e.nodes).length = 1 then invalid else (asked E e.nodes).getLast?.getD 0
  one : ∀ (g h : Nat) (e f : SFace), s.faces[g]? = some e → s.faces[h]? = some f →
    orderFaceNodes e.nodes = orderFaceNodes f.nodes → g = h
  all : ∀ r ∈ E, ∃ e ∈ s.faces, orderFaceNodes e.nodes = orderFaceNodes r.2

theorem addFace_spec {E : List (Nat × (Fin 3 → Nat))} {s : St K} (I : FInv E s) (n : Fin 4 → Nat) (k : Fin 4)
    (hl : s.faces.length < invalid) : ∃ s' g, addFace s n k = some (s', g) ∧
      FInv (E ++ [(s.cells.length, faceNodesOf n k)]) s' ∧
      (∃ f, (s'.faces.map SFace.nodes)[g]? = some f ∧ orderFaceNodes f = orderFaceNodes (faceNodesOf n k)) ∧
      s.faces.map SFace.nodes <+: s'.faces.map SFace.nodes ∧ s'.faces.length ≤ s.faces.length + 1 ∧
      s'.cells = s.cells ∧ s'.nodes = s.nodes ∧ s'.nodeMap = s.nodeMap := by
  rcases mapFind_zip faceLt_weak (keys := s.faces.map SFace.nodes) (q := faceNodesOf n k) (fun _ _ => trivial) trivial with
    ⟨i, f, hi, he, hf⟩ | ⟨hn, hf⟩ <;> rw [← I.map] at hf
  · rw [faceLt_eqv] at he
    rw [List.getElem?_map, Option.map_eq_some_iff] at hi
    obtain ⟨e, hi, rfl⟩ := hi
    have hlt : i < s.faces.length := (List.getElem?_eq_some_iff.1 hi).1
    have hmap : (s.faces.set i ⟨![e.cells 0, s.cells.length], e.nodes⟩).map SFace.nodes = s.faces.map SFace.nodes := by
      rw [List.map_set]
      apply List.ext_getElem?
      intro j
      rw [List.getElem?_set]
      split_ifs with h1 h2
      · subst h1; simp [hi]
      · subst h1; simp at h2; omega
      · rfl
    have hne : i ≠ invalid := by omega
    refine ⟨{ s with faces := s.faces.set i ⟨![e.cells 0, s.cells.length], e.nodes⟩ }, i, by simp [addFace, hf, hne, hi], ⟨?_, ?_, ?_, ?_, ?_⟩, ⟨e.nodes, ?_, he⟩, ?_, by simp, rfl, rfl, rfl⟩
    · simp only; rw [hmap, I.map]
    · intro g e' hg
      simp only [List.getElem?_set] at hg
      split_ifs at hg with h1
      · subst h1
        cases hg
        have := I.first i e hi
        rw [asked_append]
        simp [this]
      · have := I.first g e' hg
        rw [asked_append]
        simp [this]
    · intro g e' hg
      simp only [List.getElem?_set] at hg
      split_ifs at hg with h1
      · subst h1
        cases hg
        have h0 := I.first i e hi
        have hne : asked E e.nodes ≠ [] := by intro h; rw [h] at h0; simp at h0
        have hs : asked [(s.cells.length, faceNodesOf n k)] e.nodes = [s.cells.length] := by simp [asked, he]
        have hp := List.length_pos_iff.2 hne
        rw [asked_append, hs, if_neg (by simp; omega)]
        simp
      · have hne : ¬ orderFaceNodes (faceNodesOf n k) = orderFaceNodes e'.nodes := fun h => h1 (I.one i g e e' hi hg (he.trans h))
        have hs : asked [(s.cells.length, faceNodesOf n k)] e'.nodes = [] := by simp [asked, hne]
        rw [asked_append, hs, List.append_nil]
        exact I.last g e' hg
    · intro g h a b hg hh hab
      simp only [List.getElem?_set] at hg hh
      split_ifs at hg hh with h1 h2 h3
      · omega
      · cases hg
        rw [← h1]
        exact I.one i h e b hi hh hab
      · cases hh
        rw [← h3]
        exact I.one g i a e hg hi hab
      · exact I.one g h a b hg hh hab
    · intro r hr
      have hex : ∃ e ∈ s.faces, orderFaceNodes e.nodes = orderFaceNodes r.2 := by
        rcases List.mem_append.1 hr with h | h
        · exact I.all r h
        · rw [List.mem_singleton.1 h]; exact ⟨e, List.mem_of_getElem? hi, he⟩
      obtain ⟨a, ha, hb⟩ := hex
      have : a.nodes ∈ (s.faces.set i ⟨![e.cells 0, s.cells.length], e.nodes⟩).map SFace.nodes := by
        rw [hmap]; exact List.mem_map_of_mem ha
      obtain ⟨a', ha', hb'⟩ := List.mem_map.1 this
      exact ⟨a', ha', by rw [hb', hb]⟩
    · simp only; rw [hmap]; simp [hi]
    · simp only; rw [hmap]
  · have hn' (e : SFace) (he : e ∈ s.faces) : orderFaceNodes e.nodes ≠ orderFaceNodes (faceNodesOf n k) := fun h =>
      hn e.nodes (List.mem_map_of_mem he) (faceLt_eqv.2 h)
    have hnil : asked E (faceNodesOf n k) = [] := by
      simp only [asked, List.map_eq_nil_iff, List.filter_eq_nil_iff]
      intro r hr
      simp only [decide_eq_true_eq]
      intro h
      obtain ⟨e, he, h'⟩ := I.all r hr
      exact hn' e he (h'.trans h)
    refine ⟨{ s with
        faceMap := s.faceMap ++ [(faceNodesOf n k, s.faces.length)]
        faces := s.faces ++ [⟨![s.cells.length, invalid], faceNodesOf n k⟩] }, s.faces.length, by simp [addFace, hf], ⟨?_, ?_, ?_, ?_, ?_⟩, ⟨faceNodesOf n k, by simp, rfl⟩, by simp, by simp, rfl,
      rfl, rfl⟩
    · simp [List.zipIdx_append, I.map]
    · intro g e hg
      simp only [List.getElem?_append, List.getElem?_singleton] at hg
      split_ifs at hg with h1 h2
      · rw [asked_append]; simp [I.first g e hg]
      · cases hg
        rw [asked_append, hnil]; simp [asked]
    · intro g e hg
      simp only [List.getElem?_append, List.getElem?_singleton] at hg
      split_ifs at hg with h1 h2
      · have hs : asked [(s.cells.length, faceNodesOf n k)] e.nodes = [] := by
          simp [asked, Ne.symm (hn' e (List.mem_of_getElem? hg))]
        rw [asked_append, hs, List.append_nil]
        exact I.last g e hg
      · cases hg
        rw [asked_append, hnil]; simp [asked]
    · intro g h a b hg hh hab
      simp only [List.getElem?_append, List.getElem?_singleton] at hg hh
      split_ifs at hg hh with h1 h2 h3 h4 h5 h6
      · exact I.one g h a b hg hh hab
      · cases hh
        exact absurd hab (hn' a (List.mem_of_getElem? hg))
      · cases hg
        exact absurd hab.symm (hn' b (List.mem_of_getElem? hh))
      · omega
    · intro r hr
      rcases List.mem_append.1 hr with h | h
      · obtain ⟨e, he, h'⟩ := I.all r h
        exact ⟨e, List.mem_append_left _ he, h'⟩
      · rw [List.mem_singleton.1 h]
        exact ⟨_, List.mem_append_right _ (List.mem_singleton.2 rfl), rfl⟩

/-- The requests of cell `i`. -/
def requests (i : Nat) (n : Fin 4 → Nat) : List (Nat × (Fin 3 → Nat)) :=
  [(i, faceNodesOf n 0), (i, faceNodesOf n 1), (i, faceNodesOf n 2), (i, faceNodesOf n 3)]

theorem addFaces_spec {E : List (Nat × (Fin 3 → Nat))} {s : St K} (I : FInv E s) (n : Fin 4 → Nat)
    (hl : s.faces.length + 4 ≤ invalid) : ∃ s' g, addFaces s n = some (s', g) ∧
      FInv (E ++ requests s.cells.length n) s' ∧
      (∀ k, ∃ f, (s'.faces.map SFace.nodes)[g k]? = some f ∧ orderFaceNodes f = orderFaceNodes (faceNodesOf n k)) ∧
      s.faces.map SFace.nodes <+: s'.faces.map SFace.nodes ∧ s'.faces.length ≤ s.faces.length + 4 ∧
      s'.cells = s.cells ∧ s'.nodes = s.nodes ∧ s'.nodeMap = s.nodeMap := by
  obtain ⟨s0, g0, e0, I0, ⟨q0, a0, b0⟩, p0, l0, c0, f0, m0⟩ := addFace_spec I n 0 (by omega)
  obtain ⟨s1, g1, e1, I1, ⟨q1, a1, b1⟩, p1, l1, c1, f1, m1⟩ := addFace_spec I0 n 1 (by omega)
  obtain ⟨s2, g2, e2, I2, ⟨q2, a2, b2⟩, p2, l2, c2, f2, m2⟩ := addFace_spec I1 n 2 (by omega)
  obtain ⟨s3, g3, e3, I3, ⟨q3, a3, b3⟩, p3, l3, c3, f3, m3⟩ := addFace_spec I2 n 3 (by omega)
  refine ⟨s3, ![g0, g1, g2, g3], by simp [addFaces, e0, e1, e2, e3], ?_, ?_, p0.trans (p1.trans (p2.trans p3)), by omega,
    by rw [c3, c2, c1, c0], by rw [f3, f2, f1, f0], by rw [m3, m2, m1, m0]⟩
  · rw [c2, c1, c0] at I3
    simpa [requests] using I3
  · intro k
    match k with
    | 0 => exact ⟨q0, getElem?_prefix (p1.trans (p2.trans p3)) a0, b0⟩
    | 1 => exact ⟨q1, getElem?_prefix (p2.trans p3) a1, b1⟩
    | 2 => exact ⟨q2, getElem?_prefix p3 a2, b2⟩
    | 3 => exact ⟨q3, a3, b3⟩

/-! ### Cells -/

/-- The requests of all cells. -/
def events (cells : List SCell) : List (Nat × (Fin 3 → Nat)) := cells.zipIdx.flatMap fun c => requests c.2 c.1.nodes

theorem events_append (cells : List SCell) (c : SCell) : events (cells ++ [c]) = events cells ++ requests cells.length c.nodes := by
  simp [events, List.zipIdx_append]

/-- After the tetrahedra `ts`, each with its material. -/
structure Inv (tol : K) (P : Pt K → Prop) (ts : List (Nat × Tet K)) (s : St K) : Prop where
  node : NInv tol P s
  face : FInv (events s.cells) s
  count : s.cells.length = ts.length
  nodes : s.nodes.length ≤ 4 * s.cells.length
  faces : s.faces.length ≤ 4 * s.cells.length
  cell : ∀ (i : Nat) (c : SCell) (m : Nat) (x : Tet K), s.cells[i]? = some c → ts[i]? = some (m, x) → c.material = m ∧
    (∀ k, ∃ q, s.nodes[c.nodes k]? = some q ∧ Eqv (nodeLt tol) q (x k)) ∧
    ∀ k, ∃ f, (s.faces.map SFace.nodes)[c.faces k]? = some f ∧ orderFaceNodes f = orderFaceNodes (faceNodesOf c.nodes k)

theorem inv_nil (tol : K) (P : Pt K → Prop) : Inv tol P [] {} where
  node := ⟨rfl, by simp, by simp⟩
  face := ⟨rfl, by simp, by simp, by simp, by simp [events]⟩
  count := rfl
  nodes := by simp
  faces := by simp
  cell := by simp

theorem addTet_spec {tol : K} {P : Pt K → Prop} (W : WeakOn (nodeLt tol) P) {ts : List (Nat × Tet K)} {s : St K}
    (I : Inv tol P ts s) (m : Nat) {x : Tet K} (hp : ∀ k, P (x k)) (hl : 4 * ts.length + 4 ≤ invalid) :
    ∃ s', addTet tol m s x = some s' ∧ Inv tol P (ts ++ [(m, x)]) s' := by
  have hc := I.count
  have h1 := I.nodes
  have h2 := I.faces
  obtain ⟨s1, n, e1, I1, a1, p1, l1, c1, f1, m1⟩ := addNodes_spec W I.node hp (by omega)
  have F1 : FInv (events s.cells) s1 := by
    refine ⟨?_, ?_, ?_, ?_, ?_⟩
    · rw [m1, f1]; exact I.face.map
    · rw [f1]; exact I.face.first
    · rw [f1]; exact I.face.last
    · rw [f1]; exact I.face.one
    · rw [f1]; exact I.face.all
  obtain ⟨s2, g, e2, I2, a2, p2, l2, c2, f2, m2⟩ := addFaces_spec F1 n (by rw [f1]; omega)
  refine ⟨{ s2 with cells := s2.cells ++ [⟨g, n, m⟩] }, by simp [addTet, e1, e2], ⟨?_, ?_, ?_, ?_, ?_, ?_⟩⟩
  · refine ⟨?_, ?_, ?_⟩
    · simp only; rw [m2, f2]; exact I1.map
    · simp only; rw [f2]; exact I1.pts
    · simp only; rw [f2]; exact I1.one
  · have : events (s2.cells ++ [⟨g, n, m⟩]) = events s.cells ++ requests s1.cells.length n := by
      rw [events_append, c2, c1]
    simp only
    rw [this]
    exact ⟨I2.map, I2.first, I2.last, I2.one, I2.all⟩
  · simp [c2, c1, hc]
  · simp only [f2, c2, c1, List.length_append, List.length_singleton]; omega
  · simp only [c2, c1, List.length_append, List.length_singleton]; rw [f1] at l2; omega
  · intro i c m' x' hi ht
    simp only [c2, c1, List.getElem?_append, List.getElem?_singleton] at hi
    simp only [List.getElem?_append, List.getElem?_singleton, ← hc] at ht
    split_ifs at hi ht with h3 h4
    · obtain ⟨b1, b2, b3⟩ := I.cell i c m' x' hi ht
      refine ⟨b1, fun k => ?_, fun k => ?_⟩
      · obtain ⟨q, q1, q2⟩ := b2 k
        exact ⟨q, by simp only [f2]; exact getElem?_prefix p1 q1, q2⟩
      · obtain ⟨f, q1, q2⟩ := b3 k
        rw [f1] at p2
        exact ⟨f, getElem?_prefix p2 q1, q2⟩
    · cases hi
      cases ht
      refine ⟨rfl, fun k => ?_, a2⟩
      obtain ⟨q, q1, q2⟩ := a1 k
      exact ⟨q, by simp only [f2]; exact q1, q2⟩

/-- Any number of tetrahedra. -/
theorem addTets_spec {tol : K} {P : Pt K → Prop} (W : WeakOn (nodeLt tol) P) (us : List (Nat × Tet K)) :
    ∀ {ts : List (Nat × Tet K)} {s : St K}, Inv tol P ts s → (∀ u ∈ us, ∀ k, P (u.2 k)) →
    4 * (ts.length + us.length) ≤ invalid →
    ∃ s', us.foldlM (fun s u => addTet tol u.1 s u.2) s = some s' ∧ Inv tol P (ts ++ us) s' := by
  induction us with
  | nil => intro ts s I _ _; exact ⟨s, rfl, by simpa using I⟩
  | cons u us ih =>
    intro ts s I hp hl
    simp only [List.length_cons] at hl
    obtain ⟨s1, e1, I1⟩ := addTet_spec W I u.1 (hp u (List.mem_cons_self ..)) (by omega)
    obtain ⟨s2, e2, I2⟩ := ih I1 (fun v hv => hp v (List.mem_cons_of_mem _ hv)) (by simp; omega)
    refine ⟨s2, ?_, by simpa using I2⟩
    rw [List.foldlM_cons, e1]
    exact e2

end Verif.Refine
