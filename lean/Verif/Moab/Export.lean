import Verif.Moab.Props

/-!
# C68: exporting a mesh
-/
set_option linter.unusedSectionVars false
set_option linter.unusedVariables false

namespace Verif.Moab

open Verif.MeshFile Verif.TychoMesh

/-- New handles are larger than the old ones. -/
def Increasing (alloc : List Handle → Handle) : Prop := ∀ l, ∀ h ∈ l, h < alloc l

theorem Increasing.fresh {alloc : List Handle → Handle} (h : Increasing alloc) : Fresh alloc :=
  fun l hm => lt_irrefl _ (h l _ hm)

/-- The database made of the cells with corners `xs`. -/
structure Exported (xs : List (Fin 4 → Fin 3 → Nat)) (db : Db) : Prop where
  tris : db.tris = []
  numTets : db.tets.length = xs.length
  numNodes : db.nodes.length = 4 * xs.length
  nodeOrder : (db.nodes.map (·.1)).Pairwise (· < ·)
  tetOrder : (db.tets.map (·.1)).Pairwise (· < ·)
  /-- Tetrahedron `i` has the corners of cell `i`, at four vertices of its own. -/
  cell : ∀ (i : Nat) (x : Fin 4 → Fin 3 → Nat), xs[i]? = some x →
    ∃ h t, db.tets[i]? = some (h, t) ∧ ∀ k : Fin 4, db.nodes[4 * i + k.val]? = some (t k, x k)

variable {alloc : List Handle → Handle}

theorem snoc_sorted (ha : Increasing alloc) {α : Type} {l : List (Handle × α)} (h : (l.map (·.1)).Pairwise (· < ·)) (x : α) :
    ((l ++ [(alloc (l.map (·.1)), x)]).map (·.1)).Pairwise (· < ·) := by
  rw [List.map_append, List.pairwise_append]
  refine ⟨h, List.pairwise_singleton _ _, fun a ha' b hb => ?_⟩
  rw [List.map_cons, List.map_nil, List.mem_singleton] at hb
  rw [hb]
  exact ha _ a ha'

theorem createTet_exported (ha : Increasing alloc) {xs : List (Fin 4 → Fin 3 → Nat)} {db : Db} (E : Exported xs db)
    (x : Fin 4 → Fin 3 → Nat) : Exported (xs ++ [x]) (createTet alloc db x) where
  tris := E.tris
  numTets := by simp [createTet, createVertex, E.numTets]
  numNodes := by simp [createTet, createVertex, E.numNodes]; omega
  nodeOrder := by
    have h1 := snoc_sorted ha E.nodeOrder (x 0)
    have h2 := snoc_sorted ha h1 (x 1)
    have h3 := snoc_sorted ha h2 (x 2)
    exact snoc_sorted ha h3 (x 3)
  tetOrder := snoc_sorted ha E.tetOrder _
  cell := by
    intro i y hy
    rw [List.getElem?_append] at hy
    split at hy
    · rename_i hi
      obtain ⟨h, t, h1, h2⟩ := E.cell i y hy
      refine ⟨h, t, ?_, fun k => ?_⟩
      · simp only [createTet, createVertex]
        rw [List.getElem?_append_left (by rw [E.numTets]; exact hi)]
        exact h1
      · simp only [createTet, createVertex, List.append_assoc]
        rw [List.getElem?_append_left (by rw [E.numNodes]; have := k.isLt; omega)]
        exact h2 k
    · rename_i hi
      rw [List.getElem?_singleton] at hy
      split at hy
      · rename_i h0
        obtain rfl : i = xs.length := by omega
        obtain rfl := Option.some.inj hy
        simp only [createTet, createVertex, List.append_assoc]
        rw [List.getElem?_append_right (by rw [E.numTets]), E.numTets, Nat.sub_self]
        refine ⟨_, _, rfl, fun k => ?_⟩
        rw [List.getElem?_append_right (by rw [E.numNodes]; omega), E.numNodes, Nat.add_sub_cancel_left]
        fin_cases k <;> rfl
      · simp at hy

theorem fold_exported (ha : Increasing alloc) (ys : List (Fin 4 → Fin 3 → Nat)) : ∀ (xs : List (Fin 4 → Fin 3 → Nat)) (db : Db),
    Exported xs db → Exported (xs ++ ys) (ys.foldl (createTet alloc) db) := by
  induction ys with
  | nil => intro xs db h; simpa using h
  | cons y ys ih =>
    intro xs db h
    have := ih _ _ (createTet_exported ha h y)
    rwa [List.append_assoc, List.singleton_append] at this

theorem empty_exported : Exported [] ⟨[], [], []⟩ where
  tris := rfl
  numTets := rfl
  numNodes := rfl
  nodeOrder := List.Pairwise.nil
  tetOrder := List.Pairwise.nil
  cell := by intro i x h; simp at h

/-! ### Properties of an exported database -/

theorem sorted_rank {l : List Handle} (hs : l.Pairwise (· < ·)) {i : Nat} {h : Handle} (hi : l[i]? = some h) : rank l h = i := by
  obtain ⟨h1, rfl⟩ := List.getElem?_eq_some_iff.1 hi
  rw [← idxOf_sorted hs (List.getElem_mem h1)]
  exact List.Nodup.idxOf_getElem (hs.imp fun h => ne_of_lt h) i h1

section
variable {xs : List (Fin 4 → Fin 3 → Nat)} {db : Db} (E : Exported xs db)
include E

theorem Exported.nodup_nodes : (db.nodes.map (·.1)).Nodup := E.nodeOrder.imp fun h => ne_of_lt h
theorem Exported.nodup_tets : (db.tets.map (·.1)).Nodup := E.tetOrder.imp fun h => ne_of_lt h

/-- A tetrahedron by its position. -/
theorem Exported.tet {y : Handle × (Fin 4 → Handle)} (hy : y ∈ db.tets) : ∃ (i : Nat) (x : Fin 4 → Fin 3 → Nat), xs[i]? = some x ∧
    db.tets[i]? = some y ∧ ∀ k : Fin 4, db.nodes[4 * i + k.val]? = some (y.2 k, x k) := by
  obtain ⟨i, hi⟩ := List.mem_iff_getElem?.1 hy
  have hlt := (List.getElem?_eq_some_iff.1 hi).1
  rw [E.numTets] at hlt
  obtain ⟨h, t, h1, h2⟩ := E.cell i _ (List.getElem?_eq_getElem hlt)
  rw [hi, Option.some.injEq] at h1
  subst h1
  exact ⟨i, _, List.getElem?_eq_getElem hlt, hi, h2⟩

theorem Exported.pos_inj {a b : Nat} {h : Handle} {p q : Fin 3 → Nat} (h1 : db.nodes[a]? = some (h, p)) (h2 : db.nodes[b]? = some (h, q)) :
    a = b := by
  have e1 : (db.nodes.map (·.1))[a]? = some h := by rw [List.getElem?_map, h1]; rfl
  have e2 : (db.nodes.map (·.1))[b]? = some h := by rw [List.getElem?_map, h2]; rfl
  obtain ⟨l1, e1⟩ := List.getElem?_eq_some_iff.1 e1
  obtain ⟨l2, e2⟩ := List.getElem?_eq_some_iff.1 e2
  exact E.nodup_nodes.getElem_inj_iff.1 (e1.trans e2.symm)

/-- Different tetrahedra have no common vertex. -/
theorem Exported.disjoint {y z : Handle × (Fin 4 → Handle)} (hy : y ∈ db.tets) (hz : z ∈ db.tets) {k l : Fin 4}
    (h : y.2 k = z.2 l) : y = z ∧ k = l := by
  obtain ⟨i, x, -, a2, a3⟩ := E.tet hy
  obtain ⟨j, x', -, b2, b3⟩ := E.tet hz
  have h1 := a3 k
  rw [h] at h1
  have e := E.pos_inj h1 (b3 l)
  have hk := k.isLt
  have hl := l.isLt
  obtain rfl : i = j := by omega
  rw [a2, Option.some.injEq] at b2
  exact ⟨b2, Fin.ext (by omega)⟩

theorem Exported.proper (hf : xs.length ≤ invalid) : Proper db where
  nodes := E.nodup_nodes
  tris := by rw [E.tris]; exact List.nodup_nil
  tets := E.nodup_tets
  triNodes := by rw [E.tris]; simp
  tetNodes := by
    intro y hy k
    obtain ⟨i, x, -, -, a3⟩ := E.tet hy
    exact List.mem_map.2 ⟨_, List.mem_iff_getElem?.2 ⟨_, a3 k⟩, rfl⟩
  fit := by rw [E.numTets]; exact hf
  tetDistinct := fun y hy k l h => (E.disjoint hy hy h).2
  triDistinct := by rw [E.tris]; simp
  triOnce := by rw [E.tris]; simp

theorem Exported.notStray : ¬ Stray db := by rintro ⟨x, hx, -⟩; rw [E.tris] at hx; simp at hx

theorem Exported.notThree : ¬ Three db := by
  rintro ⟨x, hx, y, hy, z, hz, h1, -, -, v, -, h⟩
  obtain ⟨⟨k, hk⟩, ⟨l, hl⟩, -⟩ := h 0
  exact h1 (by rw [(E.disjoint hx hy (hk.symm.trans hl)).1])

end

/-! ### The mesh read back -/

section
variable {K : Type} [Field K] [LinearOrder K] {val : Nat → K} {two : Bool}

/-- The mesh read back from the database made of the cells with corners `xs`: four nodes and four
faces for every cell, no two cells connected. -/
structure Isolated (xs : List (Fin 4 → Fin 3 → Nat)) (m : SerialMesh) : Prop where
  tets : Tets m
  numCells : m.numCells = xs.length
  numNodes : m.numNodes = 4 * xs.length
  nodes : ∀ (i : Nat) (x : Fin 4 → Fin 3 → Nat), xs[i]? = some x → ∀ k : Fin 4, m.nodes[4 * i + k.val]? = some ⟨x k⟩
  cells : ∀ (i : Nat) (d : SCell), m.cells[i]? = some d → ∀ n, (∃ k, d.nodes k = n) ↔ ∃ k : Fin 4, n = 4 * i + k.val
  /-- Every face is on the boundary. -/
  boundary : ∀ e ∈ m.faces, ∃ j, e.cells j = invalid

theorem import_exported {fresh : List Handle → Handle} (hfr : Fresh fresh) {xs : List (Fin 4 → Fin 3 → Nat)} {db : Db} (E : Exported xs db)
    (hf : xs.length ≤ invalid) : ∃ m, moabToSerial val fresh two db = some m ∧ Isolated xs m := by
  obtain ⟨m, hm, c⟩ := import_correct (val := val) (two := two) hfr (E.proper hf) E.notStray E.notThree
  have nNo : ∀ (j : Nat) (h : Handle) (p : Fin 3 → Nat), db.nodes[j]? = some (h, p) → nodeNo db h = j := fun j h p hj =>
    sorted_rank E.nodeOrder (by rw [List.getElem?_map, hj]; rfl)
  have cNo : ∀ (j : Nat) (y : Handle × (Fin 4 → Handle)), db.tets[j]? = some y → cellNo db y.1 = j := fun j y hj =>
    sorted_rank E.tetOrder (by rw [List.getElem?_map, hj]; rfl)
  refine ⟨m, hm, c.tets, by rw [c.numCells, E.numTets], by rw [c.numNodes, E.numNodes], ?_, ?_, ?_⟩
  · intro i x hx k
    obtain ⟨h, t, -, h2⟩ := E.cell i x hx
    have := c.coords _ (List.mem_iff_getElem?.2 ⟨_, h2 k⟩)
    rwa [nNo _ _ _ (h2 k)] at this
  · intro i d hd n
    have hlt : i < db.tets.length := by
      rw [← c.numCells, c.tets.cells]; exact (List.getElem?_eq_some_iff.1 hd).1
    have hy := List.getElem_mem hlt
    obtain ⟨i', x, -, b2, b3⟩ := E.tet hy
    have e1 := cNo i _ (List.getElem?_eq_getElem hlt)
    have e2 := cNo i' _ b2
    obtain rfl : i = i' := by omega
    obtain ⟨d', hd', hn⟩ := c.cells _ hy
    rw [e1, hd, Option.some.injEq] at hd'
    subst hd'
    rw [hn]
    constructor
    · rintro ⟨k, rfl⟩; exact ⟨k, nNo _ _ _ (b3 k)⟩
    · rintro ⟨k, rfl⟩; exact ⟨k, nNo _ _ _ (b3 k)⟩
  · intro e he
    by_contra hcon
    push Not at hcon
    have hval : ∀ j, ∃ y ∈ db.tets, e.cells j = cellNo db y.1 := by
      intro j
      rcases c.tets.faceCell e he j with h | h
      · exact absurd h (hcon j)
      · rw [c.numCells] at h
        exact ⟨_, List.getElem_mem h, (cNo _ _ (List.getElem?_eq_getElem h)).symm⟩
    obtain ⟨y, hy, e0⟩ := hval 0
    obtain ⟨z, hz, e1⟩ := hval 1
    obtain ⟨k, hk⟩ := (c.faces e he y hy).1 ⟨0, e0⟩ 0
    obtain ⟨l, hl⟩ := (c.faces e he z hz).1 ⟨1, e1⟩ 0
    have P := E.proper hf
    have hyz := rank_inj P.nodes (P.tetNodes y hy k) (P.tetNodes z hz l) (hk.symm.trans hl)
    have := (E.disjoint hy hz hyz).1
    exact c.tets.sides e he (by rw [e0, e1, this])

theorem corners_iff {nodes : List (Fin 3 → Nat)} {ns : Fin 4 → Nat} {x : Fin 4 → Fin 3 → Nat} :
    corners nodes ns = some x ↔ ∀ k, nodes[ns k]? = some (x k) := by
  unfold corners
  simp only [Option.bind_eq_bind, Option.bind_eq_some_iff, Option.some.injEq]
  constructor
  · rintro ⟨a, ha, b, hb, c, hc, d, hd, rfl⟩ k
    fin_cases k <;> assumption
  · intro h
    refine ⟨x 0, h 0, x 1, h 1, x 2, h 2, x 3, h 3, ?_⟩
    funext k
    fin_cases k <;> rfl

/-- C68: the database has the cells of the mesh, in order, each with the places of its four nodes. -/
theorem export_cells (ha : Increasing alloc) {m : SerialMesh} (hm : Sound m) :
    ∃ db xs, serialToMoab alloc m = some db ∧ Exported xs db ∧ xs.length = m.numCells ∧
      ∀ (c : Nat) (d : SCell) (x : Fin 4 → Fin 3 → Nat), m.cells[c]? = some d → xs[c]? = some x → ∀ k, m.nodes[d.nodes k]? = some ⟨x k⟩ := by
  have hx : ∃ xs, m.cells.mapM (fun d => corners (m.nodes.map (·.coords)) d.nodes) = some xs ∧
      List.Forall₂ (fun (d : SCell) (x : Fin 4 → Fin 3 → Nat) => ∀ k, m.nodes[d.nodes k]? = some ⟨x k⟩) m.cells xs := by
    have hc : ∀ d ∈ m.cells, ∀ k, d.nodes k < m.nodes.length := fun d hd k => by
      obtain ⟨i, hi⟩ := List.mem_iff_getElem?.1 hd
      rw [← hm.nodes]
      exact hm.cellNode i d hi k
    generalize m.cells = l at hc
    induction l with
    | nil => exact ⟨[], rfl, List.Forall₂.nil⟩
    | cons a l ih =>
      obtain ⟨xs, h1, h2⟩ := ih fun d hd => hc d (List.mem_cons_of_mem _ hd)
      have ha := hc a (List.mem_cons_self ..)
      have hk : ∀ k, m.nodes[a.nodes k]? = some ⟨(m.nodes[a.nodes k]'(ha k)).coords⟩ := fun k => List.getElem?_eq_getElem (ha k)
      refine ⟨(fun k => (m.nodes[a.nodes k]'(ha k)).coords) :: xs, ?_, List.Forall₂.cons hk h2⟩
      rw [List.mapM_cons, corners_iff.2 fun k => by rw [List.getElem?_map, hk k]; rfl, h1]
      rfl
  obtain ⟨xs, h1, h2⟩ := hx
  refine ⟨xs.foldl (createTet alloc) ⟨[], [], []⟩, xs, ?_, by simpa using fold_exported ha xs [] _ empty_exported, ?_, ?_⟩
  · unfold serialToMoab
    rw [firstN, if_pos (by rw [hm.cells]), hm.cells, List.take_length]
    simp only [Option.bind_eq_bind, Option.bind_some, h1]
  · rw [hm.cells, h2.length_eq]
  · intro c d x hd hx
    obtain ⟨a1, rfl⟩ := List.getElem?_eq_some_iff.1 hd
    obtain ⟨b1, rfl⟩ := List.getElem?_eq_some_iff.1 hx
    exact h2.get a1 b1

/-- C68, as far as it holds: a mesh exported and read back has the cells of the mesh, in order, each with four nodes
of its own at the places of its nodes. Missing: the connections between the cells. -/
theorem export_roundtrip_partial (ha : Increasing alloc) {m : SerialMesh} (hm : Sound m) {fresh : List Handle → Handle}
    (hf : Fresh fresh) : ∃ db m', serialToMoab alloc m = some db ∧ moabToSerial val fresh two db = some m' ∧ Tets m' ∧
      m'.numCells = m.numCells ∧ m'.numNodes = 4 * m.numCells ∧
      ∀ (c : Nat) (d : SCell), m.cells[c]? = some d → ∃ d', m'.cells[c]? = some d' ∧
        (∀ n, (∃ k, d'.nodes k = n) ↔ ∃ k : Fin 4, n = 4 * c + k.val) ∧ ∀ k : Fin 4, m'.nodes[4 * c + k.val]? = m.nodes[d.nodes k]? := by
  obtain ⟨db, xs, h1, h2, h3, h6⟩ := export_cells ha hm
  obtain ⟨m', h4, h5⟩ := import_exported (val := val) (two := two) hf h2 (by rw [h3]; exact hm.fit)
  refine ⟨db, m', h1, h4, h5.tets, by rw [h5.numCells, h3], by rw [h5.numNodes, h3], fun c d hd => ?_⟩
  have hc : c < m.numCells := by rw [hm.cells]; exact (List.getElem?_eq_some_iff.1 hd).1
  have hlt : c < m'.cells.length := by rw [← h5.tets.cells, h5.numCells, h3]; exact hc
  refine ⟨_, List.getElem?_eq_getElem hlt, h5.cells c _ (List.getElem?_eq_getElem hlt), fun k => ?_⟩
  have hx : c < xs.length := by rw [h3]; exact hc
  rw [h5.nodes c _ (List.getElem?_eq_getElem hx) k, h6 c d _ hd (List.getElem?_eq_getElem hx) k]

/-- C68, violated: whatever the mesh was, read back it has no face between two cells. -/
theorem export_disconnects (ha : Increasing alloc) {m : SerialMesh} (hm : Sound m) {fresh : List Handle → Handle} (hf : Fresh fresh) :
    ∃ db m', serialToMoab alloc m = some db ∧ moabToSerial val fresh two db = some m' ∧ m'.numCells = m.numCells ∧
      m'.numNodes = 4 * m.numCells ∧ ∀ e ∈ m'.faces, ∃ j, e.cells j = invalid := by
  obtain ⟨db, xs, h1, h2, h3, -⟩ := export_cells ha hm
  obtain ⟨m', h4, h5⟩ := import_exported (val := val) (two := two) hf h2 (by rw [h3]; exact hm.fit)
  exact ⟨db, m', h1, h4, by rw [h5.numCells, h3], by rw [h5.numNodes, h3], h5.boundary⟩

end
end Verif.Moab
