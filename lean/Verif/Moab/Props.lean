import Verif.Moab.Convert

/-!
# C67: importing a mesh
-/
set_option linter.unusedSectionVars false
set_option linter.unusedVariables false

namespace Verif.Moab

open Verif.MeshFile Verif.TychoMesh

theorem mapM_range {β : Type} {l : List Handle} (hl : l.Nodup) {f : Handle → Option β} {R : Handle → β → Prop}
    (H : ∀ h ∈ l, ∃ b, f h = some b ∧ R h b) : ∃ bs, (range l).mapM f = some bs ∧ bs.length = l.length ∧
      ∀ (i : Nat) (b : β), bs[i]? = some b → ∃ h ∈ l, rank l h = i ∧ R h b := by
  have key : ∀ q : List Handle, (∀ h ∈ q, h ∈ l) → ∃ bs, q.mapM f = some bs ∧ List.Forall₂ R q bs := by
    intro q
    induction q with
    | nil => intro _; exact ⟨[], rfl, List.Forall₂.nil⟩
    | cons a q ih =>
      intro hq
      obtain ⟨b, hb, r⟩ := H a (hq a (List.mem_cons_self ..))
      obtain ⟨bs, h1, h2⟩ := ih fun x hx => hq x (List.mem_cons_of_mem _ hx)
      exact ⟨b :: bs, by rw [List.mapM_cons, hb, h1]; rfl, List.Forall₂.cons r h2⟩
  obtain ⟨bs, h1, h2⟩ := key (range l) fun h => mem_range.1
  refine ⟨bs, h1, by rw [← h2.length_eq, range_length hl], fun i b hb => ?_⟩
  obtain ⟨hi, hb'⟩ := List.getElem?_eq_some_iff.1 hb
  obtain ⟨h, hm, e⟩ := exists_rank hl (by rw [← range_length hl, h2.length_eq]; exact hi)
  refine ⟨h, hm, e, ?_⟩
  have h3 := range_get hl hm
  rw [e] at h3
  obtain ⟨hj, h4⟩ := List.getElem?_eq_some_iff.1 h3
  have := h2.get (i := i) hj hi
  simpa [h4, hb'] using this

/-- The number of cells at a triangle. -/
def Paired (D : Db) : Prop := ∀ x ∈ D.tris, (faceCells D x.2).length = 1 ∨ (faceCells D x.2).length = 2

theorem rank_triple {D : Db} (P : Proper D) {v : Fin 3 → Handle} {n : Nat} {t : Fin n → Handle} (hv : ∀ j, v j ∈ D.N)
    (ht : ∀ k, t k ∈ D.N) {j : Fin 3} : (∃ k, rank D.N (v j) = rank D.N (t k)) ↔ ∃ k, v j = t k :=
  ⟨fun ⟨k, h⟩ => ⟨k, rank_inj P.nodes (hv j) (ht k) h⟩, fun ⟨k, h⟩ => ⟨k, by rw [h]⟩⟩

section
variable {K : Type} [Field K] [LinearOrder K] {val : Nat → K} {two : Bool}

theorem built {D : Db} (P : Proper D) (H : Full D) (hp : Paired D) :
    ∃ m, createSerialMesh val two D = some m ∧ Converted val two D m := by
  obtain ⟨cells, c1, c2, c3⟩ := mapM_range (f := convertCell val two D) P.tets
    (R := fun h d => ∃ y ∈ D.tets, y.1 = h ∧ CellOf val two D y.2 d) (by
      intro h hh
      obtain ⟨y, hy, rfl⟩ := List.mem_map.1 hh
      obtain ⟨d, d1, d2⟩ := convertCell_ok (val := val) (two := two) P H hy
      exact ⟨d, d1, y, hy, rfl, d2⟩)
  obtain ⟨faces, f1, f2, f3⟩ := mapM_range (f := convertFace D) P.tris
    (R := fun h e => ∃ x ∈ D.tris, x.1 = h ∧ FaceOf D x.2 e) (by
      intro h hh
      obtain ⟨x, hx, rfl⟩ := List.mem_map.1 hh
      obtain ⟨e, d1, d2⟩ := convertFace_ok P hx (hp x hx)
      exact ⟨e, d1, x, hx, rfl, d2⟩)
  obtain ⟨nodes, n1, n2, n3⟩ := mapM_range (f := D.coords) P.nodes
    (R := fun h e => (h, e) ∈ D.nodes) (by
      intro h hh
      obtain ⟨x, hx, rfl⟩ := List.mem_map.1 hh
      exact ⟨x.2, (find_iff P.nodes).2 hx, hx⟩)
  have lC : (range D.C).length = D.tets.length := by rw [range_length P.tets, List.length_map]
  have lF : (range D.F).length = D.tris.length := by rw [range_length P.tris, List.length_map]
  have lN : (range D.N).length = D.nodes.length := by rw [range_length P.nodes, List.length_map]
  rw [List.length_map] at c2 f2 n2
  have rC : ∀ y ∈ D.tets, rank D.C y.1 < D.tets.length := fun y hy => by
    simpa using rank_lt P.tets (List.mem_map.2 ⟨y, hy, rfl⟩)
  have rF : ∀ y ∈ D.tris, rank D.F y.1 < D.tris.length := fun y hy => by
    simpa using rank_lt P.tris (List.mem_map.2 ⟨y, hy, rfl⟩)
  have rN : ∀ h ∈ D.N, rank D.N h < D.nodes.length := fun h hh => by
    simpa using rank_lt P.nodes hh
  -- a cell and a face by number
  have cC : ∀ (c : Nat) (d : SCell), cells[c]? = some d → ∃ y ∈ D.tets, rank D.C y.1 = c ∧ CellOf val two D y.2 d := by
    intro c d h
    obtain ⟨_, -, e, y, hy, rfl, ok⟩ := c3 c d h
    exact ⟨y, hy, e, ok⟩
  have cF : ∀ (g : Nat) (e : SFace), faces[g]? = some e → ∃ x ∈ D.tris, rank D.F x.1 = g ∧ FaceOf D x.2 e := by
    intro c d h
    obtain ⟨_, -, e, y, hy, rfl, ok⟩ := f3 c d h
    exact ⟨y, hy, e, ok⟩
  have uC : ∀ {y z : Handle × (Fin 4 → Handle)}, y ∈ D.tets → z ∈ D.tets → rank D.C y.1 = rank D.C z.1 → y = z :=
    fun hy hz e => tet_eq P.toLoaded hy hz (rank_inj P.tets (List.mem_map.2 ⟨_, hy, rfl⟩) (List.mem_map.2 ⟨_, hz, rfl⟩) e)
  have uF : ∀ {y z : Handle × (Fin 3 → Handle)}, y ∈ D.tris → z ∈ D.tris → rank D.F y.1 = rank D.F z.1 → y = z :=
    fun hy hz e => tri_eq P.toLoaded hy hz (rank_inj P.tris (List.mem_map.2 ⟨_, hy, rfl⟩) (List.mem_map.2 ⟨_, hz, rfl⟩) e)
  -- the nodes of a face
  have nF : ∀ {x : Handle × (Fin 3 → Handle)} {e : SFace}, x ∈ D.tris → FaceOf D x.2 e →
      ∀ n, (∃ j, e.nodes j = n) ↔ ∃ j, rank D.N (x.2 j) = n := by
    intro x e hx ok n
    obtain ⟨u, u1, u2⟩ := ok.nodes
    constructor
    · rintro ⟨j, rfl⟩
      obtain ⟨i, hi⟩ := (u1 _).1 ⟨j, rfl⟩
      exact ⟨i, by rw [u2, hi]⟩
    · rintro ⟨j, rfl⟩
      obtain ⟨i, hi⟩ := (u1 _).2 ⟨j, rfl⟩
      exact ⟨i, by rw [u2, hi]⟩
  have nC : ∀ {y : Handle × (Fin 4 → Handle)} {d : SCell}, y ∈ D.tets → CellOf val two D y.2 d →
      ∀ n, (∃ j, d.nodes j = n) ↔ ∃ j, rank D.N (y.2 j) = n := by
    intro x e hx ok n
    obtain ⟨u, -, u1, u2⟩ := ok.nodes
    constructor
    · rintro ⟨j, rfl⟩
      obtain ⟨i, hi⟩ := (u1 _).1 ⟨j, rfl⟩
      exact ⟨i, by rw [u2, hi]⟩
    · rintro ⟨j, rfl⟩
      obtain ⟨i, hi⟩ := (u1 _).2 ⟨j, rfl⟩
      exact ⟨i, by rw [u2, hi]⟩
  -- a face of a cell, by number
  have fC : ∀ {y : Handle × (Fin 4 → Handle)} {d : SCell}, y ∈ D.tets → CellOf val two D y.2 d → ∀ {x : Handle × (Fin 3 → Handle)},
      x ∈ D.tris → ((∃ k, d.faces k = rank D.F x.1) ↔ ∀ j, ∃ i, x.2 j = y.2 i) := by
    intro y d hy ok x hx
    obtain ⟨w, w1, w2, w3⟩ := ok.faces
    constructor
    · rintro ⟨k, hk⟩
      obtain ⟨x', hx', e, h⟩ := (w2 _).1 ⟨k, rfl⟩
      rw [w3, ← e] at hk
      rw [← uF hx' hx hk]
      exact h
    · intro h
      obtain ⟨k, hk⟩ := (w2 x.1).2 ⟨x, hx, rfl, h⟩
      exact ⟨k, by rw [w3, hk]⟩
  -- a cell at a face, by number
  have cAt : ∀ {x : Handle × (Fin 3 → Handle)} {e : SFace}, x ∈ D.tris → FaceOf D x.2 e → ∀ {y : Handle × (Fin 4 → Handle)},
      y ∈ D.tets → ((∃ j, e.cells j = rank D.C y.1) ↔ ∀ j, ∃ i, x.2 j = y.2 i) := by
    intro x e hx ok y hy
    constructor
    · rintro ⟨j, hj⟩
      rcases ok.only j with h | ⟨h, hh, h2⟩
      · have := rC y hy
        have := P.fit
        omega
      · obtain ⟨z, hz, rfl, h3⟩ := mem_faceCells.1 hh
        rw [hj] at h2
        rw [uC hy hz h2]
        exact h3
    · intro h
      exact ok.cells y.1 (mem_faceCells.2 ⟨y, hy, rfl, h⟩)
  have tri4 : ∀ {x : Handle × (Fin 3 → Handle)} {e : SFace}, x ∈ D.tris → FaceOf D x.2 e → ∀ {y : Handle × (Fin 4 → Handle)},
      y ∈ D.tets → ((∀ j, ∃ k, e.nodes j = rank D.N (y.2 k)) ↔ ∀ j, ∃ i, x.2 j = y.2 i) := by
    intro x e hx ok y hy
    constructor
    · intro h j
      obtain ⟨i, hi⟩ := (nF hx ok _).2 ⟨j, rfl⟩
      obtain ⟨k, hk⟩ := h i
      exact ⟨k, rank_inj P.nodes (P.triNodes x hx j) (P.tetNodes y hy k) (by rw [← hi, hk])⟩
    · intro h j
      obtain ⟨i, hi⟩ := (nF hx ok _).1 ⟨j, rfl⟩
      obtain ⟨k, hk⟩ := h i
      exact ⟨k, by rw [← hi, hk]⟩
  refine ⟨⟨D.cellRange.length, D.faceRange.length, D.nodeRange.length, cells, faces, nodes.map SNode.mk⟩, ?_, ?_⟩
  · unfold createSerialMesh
    rw [show D.cellRange = range D.C from rfl, show D.faceRange = range D.F from rfl, show D.nodeRange = range D.N from rfl, c1, f1, n1]
    rfl
  · have getC : ∀ y ∈ D.tets, ∃ d, cells[rank D.C y.1]? = some d ∧ CellOf val two D y.2 d := by
      intro y hy
      have hlt : rank D.C y.1 < cells.length := by rw [c2]; exact rC y hy
      refine ⟨cells[rank D.C y.1], List.getElem?_eq_getElem hlt, ?_⟩
      obtain ⟨z, hz, e, ok⟩ := cC _ _ (List.getElem?_eq_getElem hlt)
      have ez := uC hz hy e
      subst ez
      exact ok
    refine ⟨?_, lN, lC, ?_, ?_, ?_, ?_, ?_, ?_⟩
    · exact
      { cells := by rw [← lC] at c2; exact c2.symm
        faces := by rw [← lF] at f2; exact f2.symm
        nodes := by rw [List.length_map, n2]; exact lN
        fit := by
          show (range D.C).length ≤ _
          rw [lC]; exact P.fit
        cellFace := by
          intro c d h k
          obtain ⟨y, hy, -, ok⟩ := cC c d h
          obtain ⟨w, w1, w2, w3⟩ := ok.faces
          obtain ⟨x, hx, e, -⟩ := (w2 _).1 ⟨k, rfl⟩
          show _ < (range D.F).length
          rw [lF, w3, ← e]
          exact rF x hx
        cellNode := by
          intro c d h k
          obtain ⟨y, hy, -, ok⟩ := cC c d h
          obtain ⟨i, hi⟩ := (nC hy ok _).1 ⟨k, rfl⟩
          show _ < (range D.N).length
          rw [lN, ← hi]
          exact rN _ (P.tetNodes y hy i)
        faceCell := by
          intro e he k
          obtain ⟨g, hg⟩ := List.mem_iff_getElem?.1 he
          obtain ⟨x, hx, -, ok⟩ := cF g e hg
          rcases ok.only k with h | ⟨h, hh, h2⟩
          · exact Or.inl h
          · obtain ⟨z, hz, rfl, -⟩ := mem_faceCells.1 hh
            right
            show _ < (range D.C).length
            rw [lC, h2]
            exact rC z hz
        lists := by
          intro c d k e h h'
          obtain ⟨y, hy, rfl, ok⟩ := cC c d h
          obtain ⟨x, hx, e', ok'⟩ := cF _ e h'
          exact (cAt hx ok' hy).2 ((fC hy ok hx).1 ⟨k, e'.symm⟩)
        faceNode := by
          intro c d k e h h' j
          obtain ⟨y, hy, rfl, ok⟩ := cC c d h
          obtain ⟨x, hx, e', ok'⟩ := cF _ e h'
          obtain ⟨i, hi⟩ := (tri4 hx ok' hy).2 ((fC hy ok hx).1 ⟨k, e'.symm⟩) j
          obtain ⟨l, hl⟩ := (nC hy ok _).2 ⟨i, rfl⟩
          exact ⟨l, by rw [hi, hl]⟩
        distinct := by
          intro c d h
          obtain ⟨y, hy, rfl, ok⟩ := cC c d h
          obtain ⟨u, u0, u1, u2⟩ := ok.nodes
          intro k l e
          rw [u2, u2] at e
          have hu : ∀ k, u k ∈ D.N := fun k => by
            obtain ⟨i, hi⟩ := (u1 _).1 ⟨k, rfl⟩
            rw [← hi]; exact P.tetNodes y hy i
          exact u0 (rank_inj P.nodes (hu k) (hu l) e)
        omits := by
          intro c d h
          obtain ⟨y, hy, rfl, ok⟩ := cC c d h
          obtain ⟨u, u0, u1, u2⟩ := ok.nodes
          obtain ⟨w, w0, w1, w2⟩ := ok.faces
          have ht := P.tetDistinct y hy
          have hu : ∀ k, u k ∈ D.N := fun k => by
            obtain ⟨i, hi⟩ := (u1 _).1 ⟨k, rfl⟩
            rw [← hi]; exact P.tetNodes y hy i
          have hw : ∀ k, ∃ s : Fin 4, ∃ x ∈ D.tris, x.1 = w k ∧ ∀ i, (∃ j, x.2 j = u i) ↔ i ≠ s := by
            intro k
            obtain ⟨x, hx, e, hh⟩ := (w1 _).1 ⟨k, rfl⟩
            obtain ⟨l, hl⟩ := within_side ht (P.triDistinct x hx) hh
            obtain ⟨s, hs⟩ := (u1 _).2 ⟨l, rfl⟩
            refine ⟨s, x, hx, e, fun i => ?_⟩
            rw [hl]
            obtain ⟨i', hi'⟩ := (u1 _).1 ⟨i, rfl⟩
            rw [← hi', mem_side ht]
            refine not_congr ⟨fun h => u0 ?_, fun h => ht ?_⟩
            · rw [← hi', h, hs]
            · rw [hi', h, hs]
          choose σ x hx hxw hσ using hw
          refine ⟨σ, ?_, ?_⟩
          · intro k l e
            apply w0
            rw [← hxw, ← hxw]
            refine P.triOnce _ (hx k) _ (hx l) fun v => ?_
            have hin : ∀ k, ∀ v, (∃ j, (x k).2 j = v) → ∃ i, u i = v := by
              intro k v ⟨j, hj⟩
              have h1 : ∃ z ∈ D.tris, z.1 = w k ∧ ∀ j, ∃ i, z.2 j = y.2 i := (w1 _).1 ⟨k, rfl⟩
              obtain ⟨z, hz, e1, h2⟩ := h1
              have := tri_eq P.toLoaded hz (hx k) (by rw [e1, hxw])
              subst this
              obtain ⟨i, hi⟩ := h2 j
              exact (u1 v).2 ⟨i, by rw [← hi, hj]⟩
            constructor
            · intro hv
              obtain ⟨i, rfl⟩ := hin k v hv
              rw [hσ, ← e, ← hσ]
              exact hv
            · intro hv
              obtain ⟨i, rfl⟩ := hin l v hv
              rw [hσ, e, ← hσ]
              exact hv
          · intro k e he i
            obtain ⟨x', hx', e', ok'⟩ := cF _ e he
            rw [w2] at e'
            have : x' = x k := uF hx' (hx k) (by rw [e', hxw])
            subst this
            rw [← hσ k i, u2, nF (hx k) ok']
            constructor
            · rintro ⟨j, hj⟩
              exact ⟨j, rank_inj P.nodes (P.triNodes _ (hx k) j) (hu i) hj⟩
            · rintro ⟨j, hj⟩
              exact ⟨j, by rw [hj]⟩
        back := by
          intro g e hg j d hd
          obtain ⟨x, hx, rfl, ok⟩ := cF g e hg
          obtain ⟨y, hy, ey, ok'⟩ := cC _ d hd
          exact (fC hy ok' hx).2 ((cAt hx ok hy).1 ⟨j, ey.symm⟩)
        sides := by
          intro e he
          obtain ⟨g, hg⟩ := List.mem_iff_getElem?.1 he
          obtain ⟨x, hx, -, ok⟩ := cF g e hg
          exact ok.sides }
    · intro x hx
      have hlt : rank D.N x.1 < nodes.length := by
        rw [n2]; exact rN _ (List.mem_map.2 ⟨x, hx, rfl⟩)
      obtain ⟨h, hh, e, hm⟩ := n3 _ _ (List.getElem?_eq_getElem hlt)
      have e1 := rank_inj P.nodes hh (List.mem_map.2 ⟨x, hx, rfl⟩) e
      have e2 := List.inj_on_of_nodup_map P.nodes hm hx e1
      show (nodes.map SNode.mk)[rank D.N x.1]? = _
      rw [List.getElem?_map, List.getElem?_eq_getElem hlt, Option.map_some]
      exact congrArg (fun z => some (SNode.mk z)) (congrArg Prod.snd e2)
    · intro y hy
      obtain ⟨d, hd, ok⟩ := getC y hy
      exact ⟨d, hd, nC hy ok⟩
    · intro y hy d hd p hp
      obtain ⟨z, hz, e, ok⟩ := cC _ d hd
      rw [uC hz hy e] at ok
      exact ⟨ok.material p hp, ok.mat⟩
    · intro e he y hy
      obtain ⟨g, hg⟩ := List.mem_iff_getElem?.1 he
      obtain ⟨x, hx, -, ok⟩ := cF g e hg
      exact (cAt hx ok hy).trans (tri4 hx ok hy).symm
    · intro e he
      obtain ⟨g, hg⟩ := List.mem_iff_getElem?.1 he
      obtain ⟨x, hx, -, ok⟩ := cF g e hg
      obtain ⟨h, hh⟩ : ∃ h, h ∈ faceCells D x.2 := by
        apply List.exists_mem_of_length_pos
        rcases hp x hx with h | h <;> omega
      obtain ⟨y, hy, rfl, h2⟩ := mem_faceCells.1 hh
      exact ⟨y, hy, (tri4 hx ok hy).2 h2⟩
    · intro g h e f he hf hn
      obtain ⟨x, hx, rfl, ok⟩ := cF g e he
      obtain ⟨z, hz, rfl, ok'⟩ := cF h f hf
      rw [P.triOnce x hx z hz fun v => ?_]
      constructor
      · rintro ⟨j, rfl⟩
        obtain ⟨i, hi⟩ := (nF hz ok' _).1 ((hn _).1 ((nF hx ok _).2 ⟨j, rfl⟩))
        exact ⟨i, rank_inj P.nodes (P.triNodes z hz i) (P.triNodes x hx j) hi⟩
      · rintro ⟨j, rfl⟩
        obtain ⟨i, hi⟩ := (nF hx ok _).1 ((hn _).2 ((nF hz ok' _).2 ⟨j, rfl⟩))
        exact ⟨i, rank_inj P.nodes (P.triNodes x hx i) (P.triNodes z hz j) hi⟩

/-! ### From the loaded file -/

theorem Grown.proper {db D : Db} (P : Proper db) (G : Grown db D) : Proper D where
  nodes := by rw [G.nodes]; exact P.nodes
  tris := G.tris
  tets := by rw [G.tets]; exact P.tets
  triNodes := by
    intro x hx j
    rw [G.nodes]
    rcases G.new x hx with h | ⟨y, hy, k, e⟩
    · exact P.triNodes x h j
    · rw [e]; exact P.tetNodes y hy _
  tetNodes := by rw [G.nodes, G.tets]; exact P.tetNodes
  fit := by rw [G.tets]; exact P.fit
  tetDistinct := by rw [G.tets]; exact P.tetDistinct
  triDistinct := by
    intro x hx
    rcases G.new x hx with h | ⟨y, hy, k, e⟩
    · exact P.triDistinct x h
    · rw [e]; exact side_inj (P.tetDistinct y hy) k
  triOnce := G.once

/-- Three members. -/
theorem three_mem {l : List Handle} (hl : l.Nodup) : 3 ≤ l.length ↔ ∃ a ∈ l, ∃ b ∈ l, ∃ c ∈ l, a ≠ b ∧ a ≠ c ∧ b ≠ c := by
  constructor
  · intro h
    match l, h with
    | a :: b :: c :: l, _ =>
      simp only [List.nodup_cons, List.mem_cons, not_or] at hl
      exact ⟨a, by simp, b, by simp, c, by simp, hl.1.1, hl.1.2.1, hl.2.1.1⟩
  · rintro ⟨a, ha, b, hb, c, hc, h1, h2, h3⟩
    have hn : [a, b, c].Nodup := by simp [h1, h2, h3]
    have hs : [a, b, c] ⊆ l := by
      intro x hx
      simp at hx
      rcases hx with rfl | rfl | rfl <;> assumption
    exact (hn.subperm hs).length_le

theorem paired_iff {db D : Db} (P : Proper db) (G : Grown db D) (H : Full D) : Paired D ↔ ¬ (Stray db ∨ Three db) := by
  have PD := G.proper P
  have nd : ∀ v, (faceCells D v).Nodup := fun v => range_nodup _
  constructor
  · rintro hp (⟨x, hx, h⟩ | ⟨x, hx, y, hy, z, hz, h1, h2, h3, v, hv, h⟩)
    · have hpos : 0 < (faceCells D x.2).length := by rcases hp x (G.old x hx) with h | h <;> omega
      obtain ⟨a, ha⟩ := List.exists_mem_of_length_pos hpos
      obtain ⟨y, hy, -, hh⟩ := mem_faceCells.1 ha
      obtain ⟨j, hj⟩ := h y (G.tets ▸ hy)
      obtain ⟨i, hi⟩ := hh j
      exact hj i hi
    · rw [← G.tets] at hx hy hz
      obtain ⟨k, hk⟩ := within_side (PD.tetDistinct x hx) hv fun j => (h j).1
      obtain ⟨t, ht, hs⟩ := present_iff.1 (H x hx k)
      have hin : ∀ w ∈ D.tets, (∀ j, ∃ k, v j = w.2 k) → w.1 ∈ faceCells D t.2 := by
        intro w hw hh
        refine mem_faceCells.2 ⟨w, hw, rfl, fun j => ?_⟩
        obtain ⟨i, hi⟩ := (hk _).2 ((hs _).1 ⟨j, rfl⟩)
        obtain ⟨l, hl⟩ := hh i
        exact ⟨l, by rw [← hi, hl]⟩
      have := (three_mem (nd t.2)).2 ⟨_, hin x hx fun j => (h j).1, _, hin y hy fun j => (h j).2.1, _, hin z hz fun j => (h j).2.2,
        h1, h2, h3⟩
      rcases hp t ht with h | h <;> omega
  · intro hn x hx
    by_contra hc
    have h03 : (faceCells D x.2).length = 0 ∨ 3 ≤ (faceCells D x.2).length := by omega
    rcases h03 with h | h
    · apply hn
      left
      rw [List.length_eq_zero_iff] at h
      rcases G.new x hx with h' | ⟨y, hy, k, e⟩
      · refine ⟨x, h', fun y hy => ?_⟩
        by_contra hcon
        push Not at hcon
        have : y.1 ∈ faceCells D x.2 := mem_faceCells.2 ⟨y, G.tets ▸ hy, rfl, hcon⟩
        rw [h] at this
        simp at this
      · have : y.1 ∈ faceCells D x.2 := mem_faceCells.2 ⟨y, G.tets ▸ hy, rfl, fun j => by rw [e]; exact ⟨_, rfl⟩⟩
        rw [h] at this
        simp at this
    · apply hn
      right
      obtain ⟨a, ha, b, hb, c, hc', h1, h2, h3⟩ := (three_mem (nd x.2)).1 h
      obtain ⟨ya, hya, rfl, ka⟩ := mem_faceCells.1 ha
      obtain ⟨yb, hyb, rfl, kb⟩ := mem_faceCells.1 hb
      obtain ⟨yc, hyc, rfl, kc⟩ := mem_faceCells.1 hc'
      rw [G.tets] at hya hyb hyc
      exact ⟨ya, hya, yb, hyb, yc, hyc, h1, h2, h3, x.2, PD.triDistinct x hx, fun j => ⟨ka j, kb j, kc j⟩⟩

variable {alloc : List Handle → Handle}

theorem grown_full (ha : Fresh alloc) {db : Db} (P : Proper db) :
    Grown db (createAllFaces alloc db) ∧ Full (createAllFaces alloc db) := by
  obtain ⟨G, H⟩ := createAllFaces_grown ha P
  exact ⟨G, fun y hy => H y (G.tets ▸ hy)⟩

/-- C67: the mesh of the database. -/
theorem import_correct (ha : Fresh alloc) {db : Db} (P : Proper db) (h1 : ¬ Stray db) (h2 : ¬ Three db) :
    ∃ m, moabToSerial val alloc two db = some m ∧ Converted val two db m := by
  obtain ⟨G, H⟩ := grown_full ha P
  obtain ⟨m, hm, c⟩ := built (val := val) (two := two) (G.proper P) H ((paired_iff P G H).2 (not_or.2 ⟨h1, h2⟩))
  refine ⟨m, hm, ?_⟩
  obtain ⟨a, b, f⟩ := db
  have e1 := G.nodes
  have e2 := G.tets
  generalize createAllFaces alloc ⟨a, b, f⟩ = D at *
  obtain ⟨a', b', f'⟩ := D
  simp only at e1 e2
  subst e1 e2
  exact ⟨c.tets, c.numNodes, c.numCells, c.coords, c.cells, c.material, c.faces, c.used, c.once⟩

/-- C67: the conversion stops exactly on a triangle that belongs to no tetrahedron or to more than two. -/
theorem import_fails_iff (ha : Fresh alloc) {db : Db} (P : Proper db) :
    moabToSerial val alloc two db = none ↔ Stray db ∨ Three db := by
  constructor
  · intro h
    by_contra hn
    rw [not_or] at hn
    obtain ⟨m, hm, -⟩ := import_correct (val := val) (two := two) ha P hn.1 hn.2
    rw [h] at hm
    simp at hm
  · intro h
    obtain ⟨G, H⟩ := grown_full ha P
    have hp : ¬ Paired (createAllFaces alloc db) := fun hp => (paired_iff P G H).1 hp h
    unfold Paired at hp
    push Not at hp
    obtain ⟨x, hx, h3, h4⟩ := hp
    have PD := G.proper P
    have hnone := convertFace_none PD.toLoaded hx (by omega)
    cases hr : moabToSerial val alloc two db with
    | none => rfl
    | some m =>
      exfalso
      unfold moabToSerial createSerialMesh at hr
      simp only [Option.bind_eq_bind, Option.bind_eq_some_iff] at hr
      obtain ⟨_, -, fs, hf, -⟩ := hr
      rw [mapM_iff] at hf
      have hmem : x.1 ∈ (createAllFaces alloc db).faceRange := mem_range.2 (List.mem_map.2 ⟨x, hx, rfl⟩)
      obtain ⟨i, hi, e⟩ := List.mem_iff_getElem.1 hmem
      have := hf.get (i := i) hi (hf.length_eq ▸ hi)
      simp only [List.get_eq_getElem, e, hnone] at this
      simp at this

end
end Verif.Moab
