import Verif.Refine.Mesh

/-!
# C48, C49: the refined mesh
-/
set_option linter.unusedSectionVars false
set_option linter.unusedVariables false

namespace Verif.Refine

open Verif.MeshFile

variable {K : Type} [Field K] [LinearOrder K] [IsStrictOrderedRing K]
variable {val : Nat → K} {m : SerialMesh} {tol : K}

/-! ### Requests -/

theorem asked_requests (i : Nat) {n : Fin 4 → Nat} {f : Fin 3 → Nat} {a : Nat} (h : a ∈ asked (requests i n) f) :
    a = i ∧ ∃ k, orderFaceNodes (faceNodesOf n k) = orderFaceNodes f := by
  simp only [asked, requests, List.mem_map, List.mem_filter, decide_eq_true_eq] at h
  obtain ⟨e, ⟨he, ho⟩, rfl⟩ := h
  simp only [List.mem_cons, List.not_mem_nil, or_false] at he
  rcases he with rfl | rfl | rfl | rfl
  · exact ⟨rfl, 0, ho⟩
  · exact ⟨rfl, 1, ho⟩
  · exact ⟨rfl, 2, ho⟩
  · exact ⟨rfl, 3, ho⟩

theorem faceNodesOf_mem (n : Fin 4 → Nat) (k : Fin 4) (v : Nat) : (∃ j, faceNodesOf n k j = v) ↔ ∃ i, i ≠ k ∧ n i = v := by
  simp only [faceNodesOf, Fin.exists_fin_succ]
  fin_cases k <;> simp

theorem faceNodesOf_inj {n : Fin 4 → Nat} (hn : Function.Injective n) (k : Fin 4) : Function.Injective (faceNodesOf n k) := by
  have key : ∀ (k : Fin 4) (j j' : Fin 3), ((if j.val < k.val then j.castSucc else j.succ) =
      if j'.val < k.val then j'.castSucc else j'.succ) → j = j' := by decide
  exact fun j j' h => key k j j' (hn h)

/-- Different faces of a cell have different nodes. -/
theorem face_differ {n : Fin 4 → Nat} (hn : Function.Injective n) {k k' : Fin 4}
    (h : orderFaceNodes (faceNodesOf n k) = orderFaceNodes (faceNodesOf n k')) : k = k' := by
  by_contra hk
  have h' := (order_eq (faceNodesOf_inj hn k) (faceNodesOf_inj hn k')).1 h (n k)
  rw [faceNodesOf_mem, faceNodesOf_mem] at h'
  obtain ⟨i, hi, e⟩ := h'.2 ⟨k, hk, rfl⟩
  exact hi (hn e)

theorem asked_one (i : Nat) {n : Fin 4 → Nat} (hn : Function.Injective n) (f : Fin 3 → Nat) :
    (asked (requests i n) f).Pairwise (· < ·) := by
  have h01 : ¬ (orderFaceNodes (faceNodesOf n 0) = orderFaceNodes f ∧ orderFaceNodes (faceNodesOf n 1) = orderFaceNodes f) :=
    fun h => absurd (face_differ hn (h.1.trans h.2.symm)) (by decide)
  have h02 : ¬ (orderFaceNodes (faceNodesOf n 0) = orderFaceNodes f ∧ orderFaceNodes (faceNodesOf n 2) = orderFaceNodes f) :=
    fun h => absurd (face_differ hn (h.1.trans h.2.symm)) (by decide)
  have h03 : ¬ (orderFaceNodes (faceNodesOf n 0) = orderFaceNodes f ∧ orderFaceNodes (faceNodesOf n 3) = orderFaceNodes f) :=
    fun h => absurd (face_differ hn (h.1.trans h.2.symm)) (by decide)
  have h12 : ¬ (orderFaceNodes (faceNodesOf n 1) = orderFaceNodes f ∧ orderFaceNodes (faceNodesOf n 2) = orderFaceNodes f) :=
    fun h => absurd (face_differ hn (h.1.trans h.2.symm)) (by decide)
  have h13 : ¬ (orderFaceNodes (faceNodesOf n 1) = orderFaceNodes f ∧ orderFaceNodes (faceNodesOf n 3) = orderFaceNodes f) :=
    fun h => absurd (face_differ hn (h.1.trans h.2.symm)) (by decide)
  have h23 : ¬ (orderFaceNodes (faceNodesOf n 2) = orderFaceNodes f ∧ orderFaceNodes (faceNodesOf n 3) = orderFaceNodes f) :=
    fun h => absurd (face_differ hn (h.1.trans h.2.symm)) (by decide)
  by_cases a0 : orderFaceNodes (faceNodesOf n 0) = orderFaceNodes f <;>
  by_cases a1 : orderFaceNodes (faceNodesOf n 1) = orderFaceNodes f <;>
  by_cases a2 : orderFaceNodes (faceNodesOf n 2) = orderFaceNodes f <;>
  by_cases a3 : orderFaceNodes (faceNodesOf n 3) = orderFaceNodes f <;>
  simp_all [asked, requests]

theorem asked_flat (cells : List (SCell × Nat)) (f : Fin 3 → Nat) :
    asked (cells.flatMap fun c => requests c.2 c.1.nodes) f = cells.flatMap fun c => asked (requests c.2 c.1.nodes) f := by
  induction cells with
  | nil => rfl
  | cons c cells ih => rw [List.flatMap_cons, asked_append, ih, List.flatMap_cons]

/-- The cells asking for a face are listed in increasing order. -/
theorem asked_events {cells : List SCell} (h : ∀ c ∈ cells, Function.Injective c.nodes) (f : Fin 3 → Nat) :
    (asked (events cells) f).Pairwise (· < ·) := by
  unfold events
  rw [asked_flat, List.pairwise_flatMap]
  constructor
  · rintro ⟨c, i⟩ hc
    exact asked_one i (h c (List.mem_of_getElem? (List.mem_zipIdx_iff_getElem?.1 hc))) f
  · have : cells.zipIdx.Pairwise fun a b => a.2 < b.2 := by
      have := List.pairwise_lt_range' (s := 0) (n := cells.length)
      rw [← List.zipIdx_map_snd 0 cells, List.pairwise_map] at this
      exact this
    refine this.imp fun {a b} hab x hx y hy => ?_
    rw [(asked_requests a.2 hx).1, (asked_requests b.2 hy).1]
    exact hab

theorem mem_asked_events {cells : List SCell} {f : Fin 3 → Nat} {a : Nat} :
    a ∈ asked (events cells) f ↔ ∃ c k, cells[a]? = some c ∧ orderFaceNodes (faceNodesOf c.nodes k) = orderFaceNodes f := by
  unfold events
  rw [asked_flat, List.mem_flatMap]
  constructor
  · rintro ⟨⟨c, i⟩, hc, ha⟩
    obtain ⟨rfl, k, hk⟩ := asked_requests i ha
    exact ⟨c, k, List.mem_zipIdx_iff_getElem?.1 hc, hk⟩
  · rintro ⟨c, k, hc, hk⟩
    refine ⟨(c, a), List.mem_zipIdx_iff_getElem?.2 hc, ?_⟩
    simp only [asked, requests, List.mem_map, List.mem_filter, decide_eq_true_eq]
    refine ⟨(a, faceNodesOf c.nodes k), ⟨?_, hk⟩, rfl⟩
    match k with
    | 0 => simp
    | 1 => simp
    | 2 => simp
    | 3 => simp

/-! ### Triangles -/

/-- No three children have a triangle in common. -/
theorem three_children (C : Conforming m) {c₁ c₂ c₃ : Nat} {d₁ d₂ d₃ : SCell} (h1 : m.cells[c₁]? = some d₁)
    (h2 : m.cells[c₂]? = some d₂) (h3 : m.cells[c₃]? = some d₃) {e : SCell → Fin 3} {t₁ t₂ t₃ : Fin 8} {g₁ g₂ g₃ : Fin 4}
    (h12 : triNames d₁.nodes (e d₁) t₁ g₁ = triNames d₂.nodes (e d₂) t₂ g₂)
    (h13 : triNames d₁.nodes (e d₁) t₁ g₁ = triNames d₃.nodes (e d₃) t₃ g₃)
    (n12 : ¬ (c₁ = c₂ ∧ t₁ = t₂)) (n13 : ¬ (c₁ = c₃ ∧ t₁ = t₃)) (n23 : ¬ (c₂ = c₃ ∧ t₂ = t₃)) : False := by
  have i1 := C.distinct d₁ (List.mem_of_getElem? h1)
  have i2 := C.distinct d₂ (List.mem_of_getElem? h2)
  rcases uses_cases (e d₁) t₁ g₁ with hu | ⟨f, hf⟩
  · have e12 : c₁ = c₂ := C.noSame c₁ c₂ d₁ d₂ h1 h2 fun k => uses_node h12 (hu k)
    have e13 : c₁ = c₃ := C.noSame c₁ c₃ d₁ d₃ h1 h3 fun k => uses_node h13 (hu k)
    subst e12 e13
    rw [h1] at h2 h3
    cases h2
    cases h3
    have k12 := triNames_code i1 h12
    have k13 := triNames_code i1 h13
    obtain ⟨u, hu⟩ := partner (e d₁) t₁ g₁
    have a := hu t₂ g₂ (fun h => n12 ⟨rfl, h.symm⟩) k12
    have b := hu t₃ g₃ (fun h => n13 ⟨rfl, h.symm⟩) k13
    exact n23 ⟨rfl, a.trans b.symm⟩
  · have no : ¬ ∀ a, Uses (e d₁) t₁ g₁ a := fun h => (hf f).1 (h f) rfl
    have e12 : c₁ ≠ c₂ := by
      rintro rfl
      rw [h1] at h2
      cases h2
      exact no (two_share _ _ _ _ _ (triNames_code i1 h12) fun h => n12 ⟨rfl, h⟩)
    have e13 : c₁ ≠ c₃ := by
      rintro rfl
      rw [h1] at h3
      cases h3
      exact no (two_share _ _ _ _ _ (triNames_code i1 h13) fun h => n13 ⟨rfl, h⟩)
    have e23 : c₂ ≠ c₃ := by
      rintro rfl
      rw [h2] at h3
      cases h3
      have := two_share _ _ _ _ _ (triNames_code i2 (h12.symm.trans h13)) fun h => n23 ⟨rfl, h⟩
      exact e12 (C.noSame c₂ c₁ d₂ d₁ h2 h1 fun k => uses_node h12.symm (this k)).symm
    have hsa (j : Fin 3) : Uses (e d₁) t₁ g₁ (f.succAbove j) := (hf _).2 (Fin.succAbove_ne f j)
    rcases C.noThree c₁ c₂ c₃ d₁ d₂ d₃ h1 h2 h3 (fun j => d₁.nodes (f.succAbove j))
      (fun j j' h => Fin.succAbove_right_injective (i1 h)) (fun j => ⟨_, rfl⟩) (fun j => uses_node h12 (hsa j))
      (fun j => uses_node h13 (hsa j)) with h | h | h
    · exact e12 h
    · exact e13 h
    · exact e23 h

theorem lbl_onto (q : Fin 3) (i j : Fin 4) : ∃ t k, lbl q t k = nm i j := by
  revert q i j; decide +kernel

/-- Refining a conforming mesh whose points are apart gives the refined mesh. -/
theorem refine_correct_partial (C : Conforming m) (ht : IsTol val m tol) (A : Apart val m tol) (h1000 : 1000 ≤ m.numCells)
    (hfit : 32 * m.numCells ≤ invalid) : ∃ r, refineMesh val m = some r ∧ Refined val m r := by
  have hne : m.cells ≠ [] := by
    intro h
    have := C.count
    rw [h] at this
    simp at this
    omega
  have ht0 := isTol_nonneg ht
  have htol := (isTol_iff hne).1 ht
  have W : WeakOn (nodeLt tol) (MeshPt val m) := nodeLt_weak ht0 (by
    rintro p q r i ⟨a, b, h1, rfl⟩ ⟨a', b', h2, rfl⟩ ⟨a'', b'', h3, rfl⟩
    exact A.chain a b a' b' a'' b'' h1 h2 h3 i)
  have hlen : (flatTets val m).length = 8 * m.cells.length := flat_len (by simp) m.cells
  have hget (c : Nat) (d : SCell) (t : Fin 8) (h : m.cells[c]? = some d) :
      (flatTets val m)[8 * c + t.val]? = some (d.material, refineTet (tetOf val m d) t) := by
    unfold flatTets
    rw [flat_get (by simp) m.cells c t.val t.isLt, h]
    simp
  have hedge (c : Nat) (d : SCell) (t : Fin 8) (k : Fin 4) (h : m.cells[c]? = some d) :
      Edge m (d.nodes (lbl (minIndex (tetOf val m d)) t k).1) (d.nodes (lbl (minIndex (tetOf val m d)) t k).2) :=
    ⟨c, d, _, _, h, rfl, rfl⟩
  have hP : ∀ u ∈ flatTets val m, ∀ k, MeshPt val m (u.2 k) := by
    intro u hu k
    unfold flatTets at hu
    obtain ⟨d, hd, hu⟩ := List.mem_flatMap.1 hu
    obtain ⟨t, -, rfl⟩ := List.mem_map.1 hu
    obtain ⟨c, hc⟩ := List.mem_iff_getElem?.1 hd
    exact ⟨_, _, hedge c d t k hc, child_pt d t k⟩
  obtain ⟨s, hs, I⟩ := addTets_spec W (flatTets val m) (inv_nil tol (MeshPt val m)) hP (by
    rw [hlen, ← C.count]; simp only [List.length_nil]; omega)
  rw [List.nil_append] at I
  -- near points of the mesh are the same
  have same {p q : Pt K} (hp : MeshPt val m p) (hq : MeshPt val m q) (h : Eqv (nodeLt tol) p q) : p = q := by
    obtain ⟨a, b, h1, rfl⟩ := hp
    obtain ⟨a', b', h2, rfl⟩ := hq
    exact half_name (A.apart a b a' b' h1 h2 ((nodeLt_eqv ht0).1 h))
  have self {p : Pt K} (hp : MeshPt val m p) : Eqv (nodeLt tol) p p := ⟨W.irrefl p hp, W.irrefl p hp⟩
  have hcount : s.cells.length = 8 * m.numCells := by rw [I.count, hlen, C.count]
  -- the cells
  have cellAt (c : Nat) (d : SCell) (t : Fin 8) (h : m.cells[c]? = some d) : ∃ e, s.cells[8 * c + t.val]? = some e ∧
      e.material = d.material ∧ ∀ k, s.nodes[e.nodes k]? = some (refineTet (tetOf val m d) t k) := by
    have hlt : 8 * c + t.val < s.cells.length := by
      rw [I.count]; exact (List.getElem?_eq_some_iff.1 (hget c d t h)).1
    refine ⟨_, List.getElem?_eq_getElem hlt, ?_⟩
    obtain ⟨a, b, -⟩ := I.cell _ _ _ _ (List.getElem?_eq_getElem hlt) (hget c d t h)
    refine ⟨a, fun k => ?_⟩
    obtain ⟨q, q1, q2⟩ := b k
    rw [q1, same (I.node.pts q (List.mem_of_getElem? q1)) ⟨_, _, hedge c d t k h, child_pt d t k⟩ q2]
  have parent (i : Nat) (e : SCell) (h : s.cells[i]? = some e) : ∃ c d, ∃ t : Fin 8, i = 8 * c + t.val ∧ m.cells[c]? = some d ∧
      ∀ k, s.nodes[e.nodes k]? = some (refineTet (tetOf val m d) t k) := by
    have hi := (List.getElem?_eq_some_iff.1 h).1
    have hc : i / 8 < m.cells.length := by rw [← C.count]; omega
    have e1 : i = 8 * (i / 8) + (⟨i % 8, by omega⟩ : Fin 8).val := by simp only; omega
    obtain ⟨e', h1, -, h2⟩ := cellAt (i / 8) _ ⟨i % 8, by omega⟩ (List.getElem?_eq_getElem hc)
    rw [← e1, h] at h1
    cases h1
    exact ⟨i / 8, _, _, e1, List.getElem?_eq_getElem hc, h2⟩
  -- numbers of nodes and names
  have nodeName {i i' : Nat} {e e' : SCell} {c c' : Nat} {d d' : SCell} {t t' : Fin 8} (hd : m.cells[c]? = some d) (hd' : m.cells[c']? = some d')
      (h : ∀ k, s.nodes[e.nodes k]? = some (refineTet (tetOf val m d) t k))
      (h' : ∀ k, s.nodes[e'.nodes k]? = some (refineTet (tetOf val m d') t' k)) (k k' : Fin 4) (hk : e.nodes k = e'.nodes k') :
      name d.nodes (minIndex (tetOf val m d)) t k = name d'.nodes (minIndex (tetOf val m d')) t' k' := by
    have a := h k
    rw [hk, h' k'] at a
    have a := (Option.some.inj a).symm
    refine A.apart _ _ _ _ (hedge c d t k hd) (hedge c' d' t' k' hd') ?_
    rw [← child_pt, ← child_pt, a]
    exact (nodeLt_eqv ht0).1 (self ⟨_, _, hedge c' d' t' k' hd', child_pt d' t' k'⟩)
  have hinj (i : Nat) (e : SCell) (h : s.cells[i]? = some e) : Function.Injective e.nodes := by
    obtain ⟨c, d, t, -, hd, hn⟩ := parent i e h
    intro k k' hk
    exact name_inj (C.distinct d (List.mem_of_getElem? hd)) _ t (nodeName (i := i) (i' := i) hd hd hn hn k k' hk)
  have hinj' : ∀ e ∈ s.cells, Function.Injective e.nodes := by
    intro e he
    obtain ⟨i, hi⟩ := List.mem_iff_getElem?.1 he
    exact hinj i e hi
  -- at most two cells have a face
  have two (f : Fin 3 → Nat) : (asked (events s.cells) f).length ≤ 2 := by
    by_contra hlt
    push Not at hlt
    have hpw := asked_events hinj' f
    have hm (j : Nat) (hj : j < (asked (events s.cells) f).length) := mem_asked_events.1 (List.getElem_mem hj)
    obtain ⟨x1, k1, a1, b1⟩ := hm 0 (by omega)
    obtain ⟨x2, k2, a2, b2⟩ := hm 1 (by omega)
    obtain ⟨x3, k3, a3, b3⟩ := hm 2 (by omega)
    have l12 := List.pairwise_iff_getElem.1 hpw 0 1 (by omega) (by omega) (by omega)
    have l23 := List.pairwise_iff_getElem.1 hpw 1 2 (by omega) (by omega) (by omega)
    obtain ⟨c1, d1, t1, p1, q1, r1⟩ := parent _ _ a1
    obtain ⟨c2, d2, t2, p2, q2, r2⟩ := parent _ _ a2
    obtain ⟨c3, d3, t3, p3, q3, r3⟩ := parent _ _ a3
    have tri {x x' : SCell} {k k' : Fin 4} {c c' : Nat} {d d' : SCell} {t t' : Fin 8} (hx : x ∈ s.cells) (hx' : x' ∈ s.cells)
        (hd : m.cells[c]? = some d) (hd' : m.cells[c']? = some d')
        (h : ∀ k, s.nodes[x.nodes k]? = some (refineTet (tetOf val m d) t k))
        (h' : ∀ k, s.nodes[x'.nodes k]? = some (refineTet (tetOf val m d') t' k))
        (ho : orderFaceNodes (faceNodesOf x.nodes k) = orderFaceNodes (faceNodesOf x'.nodes k')) :
        triNames d.nodes (minIndex (tetOf val m d)) t k ⊆ triNames d'.nodes (minIndex (tetOf val m d')) t' k' := by
      rintro z ⟨l, hl, rfl⟩
      have := ((order_eq (faceNodesOf_inj (hinj' x hx) k) (faceNodesOf_inj (hinj' x' hx') k')).1 ho (x.nodes l)).1
        ((faceNodesOf_mem x.nodes k _).2 ⟨l, hl, rfl⟩)
      obtain ⟨l', hl', e⟩ := (faceNodesOf_mem x'.nodes k' _).1 this
      exact ⟨l', hl', nodeName (i := 0) (i' := 0) hd hd' h h' l l' e.symm⟩
    have m1 := List.mem_of_getElem? a1
    have m2 := List.mem_of_getElem? a2
    have m3 := List.mem_of_getElem? a3
    refine three_children C q1 q2 q3 (e := fun d => minIndex (tetOf val m d)) (t₁ := t1) (t₂ := t2) (t₃ := t3) (g₁ := k1) (g₂ := k2) (g₃ := k3)
      (Set.Subset.antisymm (tri m1 m2 q1 q2 r1 r2 (b1.trans b2.symm)) (tri m2 m1 q2 q1 r2 r1 (b2.trans b1.symm)))
      (Set.Subset.antisymm (tri m1 m3 q1 q3 r1 r3 (b1.trans b3.symm)) (tri m3 m1 q3 q1 r3 r1 (b3.trans b1.symm))) ?_ ?_ ?_
    · rintro ⟨rfl, rfl⟩; omega
    · rintro ⟨rfl, rfl⟩; omega
    · rintro ⟨rfl, rfl⟩; omega
  -- the faces of a cell
  have faceAt (i : Nat) (e : SCell) (h : s.cells[i]? = some e) (k : Fin 4) : ∃ f, s.faces[e.faces k]? = some f ∧
      orderFaceNodes f.nodes = orderFaceNodes (faceNodesOf e.nodes k) := by
    have hi := (List.getElem?_eq_some_iff.1 h).1
    rw [I.count] at hi
    obtain ⟨-, -, h3⟩ := I.cell i e _ _ h (List.getElem?_eq_getElem hi)
    obtain ⟨f, h4, h5⟩ := h3 k
    rw [List.getElem?_map, Option.map_eq_some_iff] at h4
    obtain ⟨f', h6, rfl⟩ := h4
    exact ⟨f', h6, h5⟩
  have faceMem (i : Nat) (e : SCell) (h : s.cells[i]? = some e) (k : Fin 4) (f : SFace) (hf : s.faces[e.faces k]? = some f) (n : Nat) :
      (∃ j, f.nodes j = n) ↔ ∃ i, i ≠ k ∧ e.nodes i = n := by
    obtain ⟨f', h1, h2⟩ := faceAt i e h k
    rw [hf] at h1
    cases h1
    rw [← faceNodesOf_mem, ← order_mem, h2, order_mem]
  -- the cells of a face
  have sideOf (g : Nat) (f : SFace) (hf : s.faces[g]? = some f) : f.cells 0 ∈ asked (events s.cells) f.nodes ∧
      (f.cells 1 = invalid ∧ (asked (events s.cells) f.nodes).length = 1 ∨
        f.cells 1 ∈ asked (events s.cells) f.nodes ∧ f.cells 0 < f.cells 1) ∧
      ∀ a ∈ asked (events s.cells) f.nodes, a = f.cells 0 ∨ a = f.cells 1 := by
    have h0 := I.face.first g f hf
    have h1 := I.face.last g f hf
    have h2 := two f.nodes
    have h3 := asked_events hinj' f.nodes
    generalize asked (events s.cells) f.nodes = L at h0 h1 h2 h3
    match L, h0, h1, h2, h3 with
    | [a], h0, h1, _, _ =>
      simp at h0 h1
      rw [← h0, h1]
      simp
    | [a, b], h0, h1, _, h3 =>
      simp at h0 h1 h3
      rw [← h0, h1]
      simp [h3]
    | a :: b :: c :: L, _, _, h2, _ => simp at h2
  have hback (g : Nat) (f : SFace) (hf : s.faces[g]? = some f) (a : Nat) (ha : a ∈ asked (events s.cells) f.nodes) :
      ∃ e k, s.cells[a]? = some e ∧ e.faces k = g := by
    obtain ⟨e, k, h1, h2⟩ := mem_asked_events.1 ha
    obtain ⟨f', h3, h4⟩ := faceAt a e h1 k
    exact ⟨e, k, h1, I.face.one _ _ f' f h3 hf (h4.trans h2)⟩
  have hlt (a : Nat) (f : Fin 3 → Nat) (h : a ∈ asked (events s.cells) f) : a < s.cells.length := by
    obtain ⟨e, k, h1, -⟩ := mem_asked_events.1 h
    exact (List.getElem?_eq_some_iff.1 h1).1
  have hcell : s.cells.length < invalid := by rw [hcount]; omega
  refine ⟨⟨s.cells, s.faces, s.nodes⟩, ?_, ?_⟩
  · rw [refine_flat C.count C.inRange h1000, ← htol, hs]; rfl
  refine ⟨hcount, cellAt, ?_, ?_, ?_, ?_⟩
  · -- nodes
    rw [List.nodup_iff_getElem?_ne_getElem?]
    intro i j hij hj h
    have hj : j < s.nodes.length := hj
    rw [List.getElem?_eq_getElem hj] at h
    exact absurd (I.node.one i j _ _ h (List.getElem?_eq_getElem hj) (self (I.node.pts _ (List.getElem_mem hj)))) (by omega)
  · -- used
    intro n hn
    obtain ⟨a, b, ⟨c, d, i, j, hd, rfl, rfl⟩, hp⟩ := I.node.pts _ (List.getElem_mem (show n < s.nodes.length from hn))
    obtain ⟨t, k, hlk⟩ : ∃ t k, lbl (minIndex (tetOf val m d)) t k = nm i j := by
      exact lbl_onto _ i j
    obtain ⟨e, he, -, hk⟩ := cellAt c d t hd
    refine ⟨e, List.mem_of_getElem? he, k, ?_⟩
    have hk := hk k
    rw [refineTet_eq, hlk, pt_nm] at hk
    refine I.node.one _ _ _ _ hk (List.getElem?_eq_getElem hn) ?_
    rw [hp]
    exact self ⟨_, _, ⟨c, d, i, j, hd, rfl, rfl⟩, rfl⟩
  · -- faces
    intro g h e f he hf hn
    refine I.face.one g h e f he hf ?_
    have inj (g : Nat) (e : SFace) (he : s.faces[g]? = some e) : Function.Injective e.nodes := by
      obtain ⟨x, k, h1, h2⟩ := mem_asked_events.1 (sideOf g e he).1
      have hx := faceNodesOf_inj (hinj _ x h1) k
      have hmem (n : Nat) : (∃ j, e.nodes j = n) ↔ ∃ j, faceNodesOf x.nodes k j = n := by
        rw [← order_mem, ← h2, order_mem]
      -- three nodes cannot be named by fewer than three places
      have hs : Function.Surjective fun j : Fin 3 => ((hmem (e.nodes j)).1 ⟨j, rfl⟩).choose := by
        intro l
        obtain ⟨j, hj⟩ := (hmem (faceNodesOf x.nodes k l)).2 ⟨l, rfl⟩
        refine ⟨j, hx ?_⟩
        rw [((hmem (e.nodes j)).1 ⟨j, rfl⟩).choose_spec, hj]
      have hi := Finite.injective_iff_surjective.2 hs
      intro j j' hj
      refine hi (hx ?_)
      simp only
      rw [((hmem (e.nodes j)).1 ⟨j, rfl⟩).choose_spec, ((hmem (e.nodes j')).1 ⟨j', rfl⟩).choose_spec, hj]
    exact (order_eq (inj g e he) (inj h f hf)).2 hn
  · intro bits
    refine { cells := rfl, faces := rfl, nodes := ?_, fit := hcell.le, cellFace := ?_, cellNode := ?_, faceCell := ?_, lists := ?_, faceNode := ?_,
             distinct := hinj, omits := ?_, back := ?_, sides := ?_ }
    · simp [RMesh.serial]
    · intro c d h k
      obtain ⟨f, h1, -⟩ := faceAt c d h k
      exact (List.getElem?_eq_some_iff.1 h1).1
    · intro c d h k
      obtain ⟨-, d', t, -, -, hn⟩ := parent c d h
      exact (List.getElem?_eq_some_iff.1 (hn k)).1
    · intro e he k
      obtain ⟨g, hg⟩ := List.mem_iff_getElem?.1 he
      obtain ⟨h1, h2, -⟩ := sideOf g e hg
      match k with
      | 0 => exact Or.inr (hlt _ _ h1)
      | 1 => exact h2.imp And.left fun h => hlt _ _ h.1
    · intro c d k e h he
      obtain ⟨-, -, h3⟩ := sideOf _ e he
      obtain ⟨f, h4, h5⟩ := faceAt c d h k
      have : s.faces[d.faces k]? = some e := he
      rw [this] at h4
      cases h4
      rcases h3 c (mem_asked_events.2 ⟨d, k, h, h5.symm⟩) with h | h
      · exact ⟨0, h.symm⟩
      · exact ⟨1, h.symm⟩
    · intro c d k e h he j
      obtain ⟨i, -, hi⟩ := (faceMem c d h k e he (e.nodes j)).1 ⟨j, rfl⟩
      exact ⟨i, hi.symm⟩
    · intro c d h
      refine ⟨id, fun _ _ h => h, fun k e he i => ?_⟩
      rw [faceMem c d h k e he]
      constructor
      · rintro ⟨i', h1, h2⟩
        rw [← hinj c d h h2]; exact h1
      · intro hi
        exact ⟨i, hi, rfl⟩
    · intro g e he j d hd
      have hd : s.cells[e.cells j]? = some d := hd
      obtain ⟨h1, h2, -⟩ := sideOf g e he
      have hm : e.cells j ∈ asked (events s.cells) e.nodes := by
        match j with
        | 0 => exact h1
        | 1 =>
          rcases h2 with ⟨h2, -⟩ | ⟨h2, -⟩
          · have := (List.getElem?_eq_some_iff.1 hd).1
            omega
          · exact h2
      obtain ⟨e', k, h3, h4⟩ := hback g e he _ hm
      rw [hd] at h3
      cases h3
      exact ⟨k, h4⟩
    · intro e he
      obtain ⟨g, hg⟩ := List.mem_iff_getElem?.1 he
      obtain ⟨h1, h2, -⟩ := sideOf g e hg
      have := hlt _ _ h1
      rcases h2 with ⟨h2, -⟩ | ⟨-, h2⟩
      · omega
      · omega

end Verif.Refine
