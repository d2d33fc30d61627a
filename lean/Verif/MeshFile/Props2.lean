import Verif.MeshFile.Props

/-!
# Partition boundaries and large meshes (C13–C15)
-/
namespace Verif.MeshFile

/-- A serial mesh as the generators and converters make it. -/
structure Sound (m : SerialMesh) : Prop where
  cells : m.numCells = m.cells.length
  faces : m.numFaces = m.faces.length
  nodes : m.numNodes = m.nodes.length
  fit : m.numCells ≤ invalid
  cellFace : ∀ (c : Nat) (d : SCell), m.cells[c]? = some d → ∀ k, d.faces k < m.numFaces
  cellNode : ∀ (c : Nat) (d : SCell), m.cells[c]? = some d → ∀ k, d.nodes k < m.numNodes
  /-- The cells of a face are cells or the boundary mark. -/
  faceCell : ∀ e ∈ m.faces, ∀ k, e.cells k = invalid ∨ e.cells k < m.numCells
  /-- A face of a cell lists the cell, and its nodes are nodes of the cell. -/
  lists : ∀ (c : Nat) (d : SCell) (k : Fin 4) (e : SFace), m.cells[c]? = some d → m.faces[d.faces k]? = some e → ∃ j, e.cells j = c
  faceNode : ∀ (c : Nat) (d : SCell) (k : Fin 4) (e : SFace), m.cells[c]? = some d → m.faces[d.faces k]? = some e →
    ∀ j, ∃ i, e.nodes j = d.nodes i

theorem exMesh_sound : Sound exMesh where
  cells := rfl
  faces := rfl
  nodes := rfl
  fit := by decide
  cellFace := by
    intro c d h k
    have hc : c < 2 := (List.getElem?_eq_some_iff.1 h).1
    interval_cases c <;> (simp [exMesh] at h; subst h; revert k; decide)
  cellNode := by
    intro c d h k
    have hc : c < 2 := (List.getElem?_eq_some_iff.1 h).1
    interval_cases c <;> (simp [exMesh] at h; subst h; revert k; decide)
  faceCell := by decide
  lists := by
    intro c d k e h h'
    have hc : c < 2 := (List.getElem?_eq_some_iff.1 h).1
    interval_cases c <;> (simp [exMesh] at h; subst h; fin_cases k <;> simp [exMesh] at h' <;> subst h' <;> decide)
  faceNode := by
    intro c d k e h h'
    have hc : c < 2 := (List.getElem?_eq_some_iff.1 h).1
    interval_cases c <;> (simp [exMesh] at h; subst h; fin_cases k <;> simp [exMesh] at h' <;> subst h' <;> decide)

theorem mem_of_get {α : Type} {l : List α} {i : Nat} {a : α} (h : l[i]? = some a) : a ∈ l :=
  List.mem_of_getElem? h

theorem createSide_iff {m : SerialMesh} {pv : List Nat} {n : Nat} 
    (h1 : pv.length = m.numCells) (h3 : ∀ p ∈ pv, p < n) (h4 : n < 2 ^ 31) {p g c q : Nat} {t : Option Nat} :
    createSide pv (cellsIn (entries m pv)) p g = some (c, q, t) ↔
      (g = invalid ∧ c = invalid ∧ q = invalid ∧ t = some 0) ∨
      (g ≠ invalid ∧ g < m.numCells ∧ pv[g]? = some q ∧ find (cellsIn (entries m pv) q) g = some c ∧
        t = if q = p then none else some 1) := by
  unfold createSide
  split
  · rename_i hg
    simp only [Option.some.injEq, Prod.mk.injEq]
    constructor
    · rintro ⟨rfl, rfl, rfl⟩; exact .inl ⟨hg, rfl, rfl, rfl⟩
    · rintro (⟨_, rfl, rfl, rfl⟩ | ⟨h, _⟩)
      · exact ⟨rfl, rfl, rfl⟩
      · contradiction
  · rename_i hg
    simp only [Option.bind_eq_bind, Option.bind_eq_some_iff]
    constructor
    · rintro ⟨q', hq, h⟩
      right
      have hlt := (List.getElem?_eq_some_iff.1 hq).1
      have hv : viaInt q' = q' := viaInt_of_lt ((h3 q' (mem_of_get hq)).trans h4)
      split at h
      · rename_i hne
        simp only [Option.bind_eq_some_iff, Option.some.injEq, Prod.mk.injEq, hv] at h
        obtain ⟨c', hc', rfl, rfl, rfl⟩ := h
        exact ⟨hg, by omega, hq, hc', by rw [if_neg hne]⟩
      · rename_i hne
        simp only [ne_eq, not_not] at hne
        simp only [Option.bind_eq_some_iff, Option.some.injEq, Prod.mk.injEq] at h
        obtain ⟨c', hc', rfl, rfl, rfl⟩ := h
        subst hne
        exact ⟨hg, by omega, hq, hc', by rw [if_pos rfl]⟩
    · rintro (⟨h, _⟩ | ⟨_, _, hq, hc, ht⟩)
      · contradiction
      · refine ⟨q, hq, ?_⟩
        have hv : viaInt q = q := viaInt_of_lt ((h3 q (mem_of_get hq)).trans h4)
        by_cases e : q = p
        · subst e; simp [hc, ht]
        · rw [if_pos e, hv, hc]; simp [ht, e]

/-- C13: for meshes with at most `2^31` faces and nodes partitioning succeeds, and the faces and nodes
of a partition are exactly those of its cells. -/
theorem create_succeeds {m : SerialMesh} (S : Sound m) (hf : m.numFaces ≤ 2 ^ 31) (hn : m.numNodes ≤ 2 ^ 31)
    {pv : List Nat} {n : Nat} (hpv : pv.length = m.numCells) (hpn : ∀ p ∈ pv, p < n) (hn31 : 3 + n < 2 ^ 31) :
    ∃ P, createFromSerialMesh m pv n = some P ∧ ∀ (p : Nat) (part : Part), P.parts[p]? = some part →
      (∀ g, g ∈ part.faces.map PFace.globalID ↔ ∃ c ∈ part.cells, ∃ (d : SCell) (k : Fin 4), m.cells[c.globalID]? = some d ∧ d.faces k = g) ∧
      (∀ g, g ∈ part.nodes.map PNode.globalID ↔ ∃ c ∈ part.cells, ∃ (d : SCell) (k : Fin 4), m.cells[c.globalID]? = some d ∧ d.nodes k = g) := by
  have hcl : m.numCells ≤ m.cells.length := le_of_eq S.cells
  have fm : ∀ {p x}, x ∈ facesIn (entries m pv) p ↔
      ∃ (c : Nat) (d : SCell), m.cells[c]? = some d ∧ pv[c]? = some p ∧ ∃ k, d.faces k = x := by
    intro p x
    rw [facesIn_mem]
    constructor
    · rintro ⟨⟨⟨d, c⟩, q⟩, he, rfl, k, rfl⟩
      obtain ⟨a, b, e⟩ := entries_mem.1 he
      exact ⟨c, d, b, e, k, (viaInt_of_lt ((S.cellFace c d b k).trans_le hf)).symm⟩
    · rintro ⟨c, d, b, e, k, rfl⟩
      exact ⟨((d, c), p), entries_mem.2 ⟨by have := (List.getElem?_eq_some_iff.1 e).1; omega, b, e⟩, rfl, k,
        viaInt_of_lt ((S.cellFace c d b k).trans_le hf)⟩
  have nm : ∀ {p x}, x ∈ nodesIn (entries m pv) p ↔
      ∃ (c : Nat) (d : SCell), m.cells[c]? = some d ∧ pv[c]? = some p ∧ ∃ k, d.nodes k = x := by
    intro p x
    rw [nodesIn_mem]
    constructor
    · rintro ⟨⟨⟨d, c⟩, q⟩, he, rfl, k, rfl⟩
      obtain ⟨a, b, e⟩ := entries_mem.1 he
      exact ⟨c, d, b, e, k, (viaInt_of_lt ((S.cellNode c d b k).trans_le hn)).symm⟩
    · rintro ⟨c, d, b, e, k, rfl⟩
      exact ⟨((d, c), p), entries_mem.2 ⟨by have := (List.getElem?_eq_some_iff.1 e).1; omega, b, e⟩, rfl, k,
        viaInt_of_lt ((S.cellNode c d b k).trans_le hn)⟩
  have cm : ∀ {p c}, c ∈ cellsIn (entries m pv) p ↔ c < m.numCells ∧ pv[c]? = some p := by
    intro p c; rw [cellsIn_eq hcl]; simp
  have hparts : ∀ p ∈ List.range n, ∃ part, createPart m pv p = some part := by
    intro p _
    have a1 : ∃ cs, (cellsIn (entries m pv) p).mapM
        (createCell m (facesIn (entries m pv) p) (nodesIn (entries m pv) p)) = some cs := by
      apply mapM_exists
      intro c hc
      obtain ⟨hc, hq⟩ := cm.1 hc
      obtain ⟨d, hd⟩ : ∃ d, m.cells[c]? = some d := ⟨_, List.getElem?_eq_getElem (by omega)⟩
      choose f hf using fun k => find_of_mem (fm.2 ⟨c, d, hd, hq, k, rfl⟩)
      choose v hv using fun k => find_of_mem (nm.2 ⟨c, d, hd, hq, k, rfl⟩)
      exact ⟨⟨f, v, c, d.material⟩, createCell_iff.2 ⟨rfl, d, hd, rfl, hf, hv⟩⟩
    have a2 : ∃ cs, (facesIn (entries m pv) p).mapM
        (createFace m pv (cellsIn (entries m pv)) p (nodesIn (entries m pv) p)) = some cs := by
      apply mapM_exists
      intro g hg
      obtain ⟨c, d, hd, hq, k, rfl⟩ := fm.1 hg
      obtain ⟨e, he⟩ : ∃ e, m.faces[d.faces k]? = some e :=
        ⟨_, List.getElem?_eq_getElem (by rw [← S.faces]; exact S.cellFace c d hd k)⟩
      have hv : ∀ j, ∃ i, find (nodesIn (entries m pv) p) (e.nodes j) = some i := by
        intro j
        obtain ⟨i, hi⟩ := S.faceNode c d k e hd he j
        exact find_of_mem (nm.2 ⟨c, d, hd, hq, i, hi.symm⟩)
      choose v hv using hv
      have hs : ∀ g, g = invalid ∨ g < m.numCells → ∃ (x q : Nat) (t : Option Nat), createSide pv (cellsIn (entries m pv)) p g = some (x, q, t) := by
        intro g hg
        by_cases e : g = invalid
        · exact ⟨_, _, _, (createSide_iff hpv hpn (by omega)).2 (.inl ⟨e, rfl, rfl, rfl⟩)⟩
        · have hg := hg.resolve_left e
          have hq' : pv[g]? = some pv[g] := List.getElem?_eq_getElem (by omega)
          obtain ⟨x, hx⟩ := find_of_mem (cm.2 ⟨hg, hq'⟩)
          exact ⟨x, _, _, (createSide_iff hpv hpn (by omega)).2 (.inr ⟨e, hg, hq', hx, rfl⟩)⟩
      obtain ⟨c0, p0, t0, h0⟩ := hs _ (S.faceCell e (mem_of_get he) 0)
      obtain ⟨c1, p1, t1, h1⟩ := hs _ (S.faceCell e (mem_of_get he) 1)
      exact ⟨⟨![c0, c1], v, d.faces k, ![p0, p1], t1.getD (t0.getD 2)⟩,
        createFace_iff.2 ⟨rfl, e, t0, t1, he, h0, h1, rfl, hv⟩⟩
    have a3 : ∃ cs, (nodesIn (entries m pv) p).mapM (createNode m) = some cs := by
      apply mapM_exists
      intro g hg
      obtain ⟨c, d, hd, hq, k, rfl⟩ := nm.1 hg
      obtain ⟨e, he⟩ : ∃ e, m.nodes[d.nodes k]? = some e :=
        ⟨_, List.getElem?_eq_getElem (by rw [← S.nodes]; exact S.cellNode c d hd k)⟩
      exact ⟨⟨e.coords, d.nodes k⟩, createNode_iff.2 ⟨rfl, e, he, rfl⟩⟩
    obtain ⟨cs, h1⟩ := a1
    obtain ⟨fs, h2⟩ := a2
    obtain ⟨ns, h3⟩ := a3
    refine ⟨⟨(cellsIn (entries m pv) p).length, (facesIn (entries m pv) p).length,
      (nodesIn (entries m pv) p).length, cs, fs, ns⟩, ?_⟩
    unfold createPart
    simp [h1, h2, h3]
  obtain ⟨ps, hps⟩ := mapM_exists hparts
  have hcr : createFromSerialMesh m pv n = some ⟨n, offsetsFrom (32 * 1 + (3 + n) * 8) ps, ps⟩ := by
    unfold createFromSerialMesh
    rw [if_pos ⟨hpv, hcl, hpn, hn31⟩, hps]
    rfl
  refine ⟨_, hcr, ?_⟩
  intro p part hp
  obtain ⟨-, -, -, -, -, -, -, h8⟩ := create_parts hcr
  have M := createPart_made (h8 p part hp).2
  have hcs := ((create_cells hcr).2 p part hp).2
  have cmem : ∀ c, (∃ x ∈ part.cells, x.globalID = c) ↔ c < m.numCells ∧ pv[c]? = some p := by
    intro c
    have : c ∈ part.cells.map PCell.globalID ↔ c ∈ List.range m.numCells ∧ decide (pv[c]? = some p) = true := by rw [hcs, List.mem_filter]
    simpa using this
  constructor
  · intro g
    rw [map_of_forall₂ (g := PFace.globalID) (fun a b hab => (createFace_iff.1 hab).1) M.faces, fm]
    constructor
    · rintro ⟨c, d, hd, hq, k, rfl⟩
      obtain ⟨x, hx, rfl⟩ := (cmem c).2 ⟨by have := (List.getElem?_eq_some_iff.1 hq).1; omega, hq⟩
      exact ⟨x, hx, d, k, hd, rfl⟩
    · rintro ⟨c, hc, d, k, hd, rfl⟩
      exact ⟨c.globalID, d, hd, ((cmem _).1 ⟨c, hc, rfl⟩).2, k, rfl⟩
  · intro g
    rw [map_of_forall₂ (g := PNode.globalID) (fun a b hab => (createNode_iff.1 hab).1) M.nodes, nm]
    constructor
    · rintro ⟨c, d, hd, hq, k, rfl⟩
      obtain ⟨x, hx, rfl⟩ := (cmem c).2 ⟨by have := (List.getElem?_eq_some_iff.1 hq).1; omega, hq⟩
      exact ⟨x, hx, d, k, hd, rfl⟩
    · rintro ⟨c, hc, d, k, hd, rfl⟩
      exact ⟨c.globalID, d, hd, ((cmem _).1 ⟨c, hc, rfl⟩).2, k, rfl⟩

/-- The partition owning a cell, as recorded in a face: none for the boundary. -/
def ownerOf (pv : List Nat) (g : Nat) : Option Nat := if g = invalid then none else pv[g]?

/-- C14: owners, local numbers and the boundary type of every local face. -/
theorem create_boundary {m : SerialMesh} (S : Sound m) (hf : m.numFaces ≤ 2 ^ 31)
    {pv : List Nat} {n : Nat} {P : ParallelMesh} (h : createFromSerialMesh m pv n = some P) {p : Nat} {part : Part}
    (hp : P.parts[p]? = some part) {f : PFace} (hfm : f ∈ part.faces) :
    ∃ e, m.faces[f.globalID]? = some e ∧
      (∀ k, (e.cells k = invalid ∧ f.cells k = invalid ∧ f.partition k = invalid) ∨
        (e.cells k < m.numCells ∧ ∃ part' cell, P.parts[f.partition k]? = some part' ∧
          pv[e.cells k]? = some (f.partition k) ∧
          part'.cells[f.cells k]? = some cell ∧ cell.globalID = e.cells k)) ∧
      (∃ k, f.partition k = p) ∧
      (f.boundaryType = 0 ↔ e.cells 0 = invalid ∨ e.cells 1 = invalid) ∧
      (f.boundaryType = 1 ↔ ∃ q q', ownerOf pv (e.cells 0) = some q ∧ ownerOf pv (e.cells 1) = some q' ∧ q ≠ q') ∧
      (f.boundaryType = 2 ↔ ∃ q, ownerOf pv (e.cells 0) = some q ∧ ownerOf pv (e.cells 1) = some q) := by
  obtain ⟨h1, h2, h3, h4, h5, h6, h7, h8⟩ := create_parts h
  have M := createPart_made (h8 p part hp).2
  obtain ⟨i, hi⟩ := List.mem_iff_getElem?.1 hfm
  obtain ⟨g, hg, hgf⟩ := forall₂_get' M.faces hi
  obtain ⟨rfl, e, t0, t1, he, s0, s1, ht, hn⟩ := createFace_iff.1 hgf
  have hci := fun {p g c q t} => createSide_iff h1 h3 (show n < 2 ^ 31 by omega) (p := p) (g := g) (c := c) (q := q) (t := t)
  rw [hci] at s0 s1
  -- the face is listed by a cell of this partition
  obtain ⟨⟨⟨d, c⟩, q⟩, hent, rfl, k, hk⟩ := facesIn_mem.1 (mem_of_get hg)
  obtain ⟨a, b, hq⟩ := entries_mem.1 hent
  rw [viaInt_of_lt ((S.cellFace c d b k).trans_le hf)] at hk
  obtain ⟨j, hj⟩ := S.lists c d k e b (by rw [hk]; exact he)
  have hcinv : c ≠ invalid := by have := S.fit; omega
  have pget : ∀ {x : Nat}, x ∈ pv → ∃ part', P.parts[x]? = some part' :=
    fun hx => ⟨_, List.getElem?_eq_getElem (by rw [h6]; exact h3 _ hx)⟩
  have side : ∀ {g x q' : Nat}, pv[g]? = some q' → find (cellsIn (entries m pv) q') g = some x →
      ∃ part' cell, P.parts[q']? = some part' ∧ pv[g]? = some q' ∧ part'.cells[x]? = some cell ∧ cell.globalID = g := by
    intro g x q' hq' hx
    obtain ⟨part', hp'⟩ := pget (mem_of_get hq')
    have M' := createPart_made (h8 q' part' hp').2
    obtain ⟨cell, hcell, hcc⟩ := forall₂_get M'.cells (find_some hx)
    exact ⟨part', cell, hp', hq', hcell, (createCell_iff.1 hcc).1⟩
  refine ⟨e, he, ?_, ?_, ?_⟩
  · intro k
    fin_cases k
    · rcases s0 with ⟨a1, a2, a3, -⟩ | ⟨-, a2, a3, a4, -⟩
      · exact .inl ⟨a1, a2, a3⟩
      · exact .inr ⟨a2, side a3 a4⟩
    · rcases s1 with ⟨a1, a2, a3, -⟩ | ⟨-, a2, a3, a4, -⟩
      · exact .inl ⟨a1, a2, a3⟩
      · exact .inr ⟨a2, side a3 a4⟩
  · refine ⟨j, ?_⟩
    fin_cases j
    · rcases s0 with ⟨a1, -⟩ | ⟨-, -, a3, -⟩
      · exact absurd (hj.symm.trans a1) hcinv
      · change e.cells 0 = c at hj
        rw [hj, hq, Option.some.injEq] at a3; exact a3.symm
    · rcases s1 with ⟨a1, -⟩ | ⟨-, -, a3, -⟩
      · exact absurd (hj.symm.trans a1) hcinv
      · change e.cells 1 = c at hj
        rw [hj, hq, Option.some.injEq] at a3; exact a3.symm
  · have hj' : (e.cells 0 = c) ∨ (e.cells 1 = c) := by fin_cases j <;> [left; right] <;> exact hj
    unfold ownerOf
    rcases s0 with ⟨a1, a2, a3, rfl⟩ | ⟨a1, a2, a3, a4, rfl⟩ <;>
    rcases s1 with ⟨b1, b2, b3, rfl⟩ | ⟨b1, b2, b3, b4, rfl⟩
    · rcases hj' with hj' | hj'
      · exact absurd (hj'.symm.trans a1) hcinv
      · exact absurd (hj'.symm.trans b1) hcinv
    · have : f.partition 1 = q := by
        rcases hj' with hj' | hj'
        · exact absurd (hj'.symm.trans a1) hcinv
        · rw [hj', hq, Option.some.injEq] at b3; exact b3.symm
      rw [ht, if_pos this, if_pos a1]
      simp [a1]
    · rw [ht]
      simp [b1]
    · rw [if_neg a1, if_neg b1, a3, b3, ht]
      have hor : f.partition 0 = q ∨ f.partition 1 = q := by
        rcases hj' with hj' | hj'
        · rw [hj', hq, Option.some.injEq] at a3; exact .inl a3.symm
        · rw [hj', hq, Option.some.injEq] at b3; exact .inr b3.symm
      by_cases e0 : f.partition 0 = q <;> by_cases e1 : f.partition 1 = q
      · simp [e0, e1, a1, b1]
      · have : q ≠ f.partition 1 := fun h => e1 h.symm
        simp [e0, e1, a1, b1, this]
      · simp [e0, e1, a1, b1]
        exact fun h => e0 h.symm
      · exact absurd hor (by simp [e0, e1])

/-- C14: the two copies of a face agree: same owners, same local cell numbers (each in the numbering of
its owner), same type, same global nodes in the same order. -/
theorem create_copies {m : SerialMesh} (S : Sound m) (hf : m.numFaces ≤ 2 ^ 31)
    {pv : List Nat} {n : Nat} {P : ParallelMesh} (h : createFromSerialMesh m pv n = some P) {p p' : Nat}
    {part part' : Part} (hp : P.parts[p]? = some part) (hp' : P.parts[p']? = some part') {f f' : PFace}
    (hfm : f ∈ part.faces) (hfm' : f' ∈ part'.faces) (hg : f.globalID = f'.globalID) :
    f.partition = f'.partition ∧ f.cells = f'.cells ∧ f.boundaryType = f'.boundaryType ∧
      ∀ k, ∃ v v', part.nodes[f.nodes k]? = some v ∧ part'.nodes[f'.nodes k]? = some v' ∧
        v.globalID = v'.globalID := by
  obtain ⟨e, he, a1, -, a2, a3, a4⟩ := create_boundary S hf h hp hfm
  obtain ⟨e', he', b1, -, b2, b3, b4⟩ := create_boundary S hf h hp' hfm'
  rw [hg, he', Option.some.injEq] at he
  subst he
  have part_eq : ∀ k, f.partition k = f'.partition k := by
    intro k
    rcases a1 k with ⟨x1, x2, x3⟩ | ⟨x1, q, cell, x2, x3, x4, x5⟩ <;>
    rcases b1 k with ⟨y1, y2, y3⟩ | ⟨y1, q', cell', y2, y3, y4, y5⟩
    · rw [x3, y3]
    · have := S.fit; omega
    · have := S.fit; omega
    · rw [x3, Option.some.injEq] at y3; exact y3
  refine ⟨funext part_eq, ?_, ?_, ?_⟩
  · funext k
    rcases a1 k with ⟨x1, x2, x3⟩ | ⟨x1, q, cell, x2, x3, x4, x5⟩ <;>
    rcases b1 k with ⟨y1, y2, y3⟩ | ⟨y1, q', cell', y2, y3, y4, y5⟩
    · rw [x2, y2]
    · have := S.fit; omega
    · have := S.fit; omega
    · rw [← part_eq k, x2, Option.some.injEq] at y2
      subst y2
      have hs := (create_connectivity h x2).2.2.2.1
      have hnd : (q.cells.map PCell.globalID).Nodup := hs.imp fun hab => Nat.ne_of_lt hab
      have g1 : (q.cells.map PCell.globalID)[f.cells k]? = some (e'.cells k) := by
        rw [List.getElem?_map, x4, ← x5]; rfl
      have g2 : (q.cells.map PCell.globalID)[f'.cells k]? = some (e'.cells k) := by
        rw [List.getElem?_map, y4, ← y5]; rfl
      obtain ⟨i1, i2⟩ := List.getElem?_eq_some_iff.1 g1
      obtain ⟨j1, j2⟩ := List.getElem?_eq_some_iff.1 g2
      exact (List.Nodup.getElem_inj_iff hnd).1 (i2.trans j2.symm)
  · have t1 : f.boundaryType = 0 ↔ f'.boundaryType = 0 := by rw [a2, b2]
    have t2 : f.boundaryType = 1 ↔ f'.boundaryType = 1 := by rw [a3, b3]
    have t3 : f.boundaryType = 2 ↔ f'.boundaryType = 2 := by rw [a4, b4]
    have cover : ∀ {f : PFace}, (f.boundaryType = 0 ↔ e'.cells 0 = invalid ∨ e'.cells 1 = invalid) →
        (f.boundaryType = 1 ↔ ∃ q q', ownerOf pv (e'.cells 0) = some q ∧ ownerOf pv (e'.cells 1) = some q' ∧ q ≠ q') →
        (f.boundaryType = 2 ↔ ∃ q, ownerOf pv (e'.cells 0) = some q ∧ ownerOf pv (e'.cells 1) = some q) →
        f.boundaryType = 0 ∨ f.boundaryType = 1 ∨ f.boundaryType = 2 := by
      intro f c0 c1 c2
      by_cases z : e'.cells 0 = invalid ∨ e'.cells 1 = invalid
      · exact .inl (c0.2 z)
      · rw [not_or] at z
        obtain ⟨h1, -⟩ := create_parts h
        have g0 := (S.faceCell e' (mem_of_get he') 0).resolve_left z.1
        have g1 := (S.faceCell e' (mem_of_get he') 1).resolve_left z.2
        have o0 : ownerOf pv (e'.cells 0) = some pv[e'.cells 0] := by
          unfold ownerOf; rw [if_neg z.1]; exact List.getElem?_eq_getElem (by omega)
        have o1 : ownerOf pv (e'.cells 1) = some pv[e'.cells 1] := by
          unfold ownerOf; rw [if_neg z.2]; exact List.getElem?_eq_getElem (by omega)
        by_cases eq : pv[e'.cells 0] = pv[e'.cells 1]
        · exact .inr (.inr (c2.2 ⟨_, o0, by rw [o1, eq]⟩))
        · exact .inr (.inl (c1.2 ⟨_, _, o0, o1, eq⟩))
    have := cover a2 a3 a4
    have := cover b2 b3 b4
    omega
  · intro k
    obtain ⟨d, hd, hv⟩ := (create_connectivity h hp).2.1 f hfm
    obtain ⟨d', hd', hv'⟩ := (create_connectivity h hp').2.1 f' hfm'
    rw [hg, hd', Option.some.injEq] at hd
    subst hd
    obtain ⟨v, v1, v2⟩ := hv k
    obtain ⟨v', w1, w2⟩ := hv' k
    exact ⟨v, v', v1, w1, by rw [v2, w2]⟩

/-- The two-cell mesh in two partitions (hypotheses of C12–C14). -/
example : ∃ P, createFromSerialMesh exMesh [1, 0] 2 = some P ∧
    P.parts.map (fun p => (p.numCells, p.numFaces, p.numNodes)) = [(1, 4, 4), (1, 4, 4)] ∧
    P.parts.map (fun p => p.faces.map PFace.boundaryType) = [[1, 0, 0, 0], [1, 0, 0, 0]] := by
  decide +kernel

/-! ## C15 -/

/-- C15 violated: if some cell has a face number in `[2^31, 2^64 - 2^31)`, the set the face was meant
to be put into does not contain it, and the dereference of `find(...)` is undefined. -/
theorem create_large_fails {m : SerialMesh} {pv : List Nat} {n c : Nat} {d : SCell} {k : Fin 4}
    (hc : m.cells[c]? = some d) (hlt : c < m.numCells) (h1 : 2 ^ 31 ≤ d.faces k) (h2 : d.faces k < 2 ^ 64 - 2 ^ 31) :
    createFromSerialMesh m pv n = none := by
  cases h : createFromSerialMesh m pv n with
  | none => rfl
  | some P =>
    exfalso
    obtain ⟨l1, l2, l3, l4, l5, l6, l7, l8⟩ := create_parts h
    have hq : pv[c]? = some pv[c] := List.getElem?_eq_getElem (by omega)
    have hqn := l3 _ (mem_of_get hq)
    have hpp : P.parts[pv[c]]? = some P.parts[pv[c]] := List.getElem?_eq_getElem (by omega)
    have M := createPart_made (l8 _ _ hpp).2
    have hmem : c ∈ cellsIn (entries m pv) pv[c] := by rw [cellsIn_eq l2]; simp [hlt, hq]
    obtain ⟨i, hi⟩ := List.mem_iff_getElem?.1 hmem
    obtain ⟨x, -, hx⟩ := forall₂_get M.cells hi
    obtain ⟨-, d', hd', -, hf, -⟩ := createCell_iff.1 hx
    rw [hc, Option.some.injEq] at hd'
    subst hd'
    have := find_isSome.1 (by rw [hf k]; rfl)
    obtain ⟨e, -, -, k', hk'⟩ := facesIn_mem.1 this
    have := viaInt_range (e.1.1.faces k')
    omega

/-- `n` separate tetrahedra. -/
def apart (n : Nat) : SerialMesh where
  numCells := n
  numFaces := 4 * n
  numNodes := 4 * n
  cells := (List.range n).map fun c => ⟨fun k => 4 * c + k, fun k => 4 * c + k, 0⟩
  faces := (List.range (4 * n)).map fun f => ⟨![f / 4, invalid],
    fun k => 4 * (f / 4) + (if f % 4 ≤ (k : Nat) then (k : Nat) + 1 else k)⟩
  nodes := (List.range (4 * n)).map fun v => ⟨fun _ => v⟩

theorem apart_sound (n : Nat) (h : n ≤ 2 ^ 61) : Sound (apart n) where
  cells := by simp [apart]
  faces := by simp [apart]
  nodes := by simp [apart]
  fit := by show n ≤ 2 ^ 64 - 1; omega
  cellFace := by
    intro c d hd k
    simp only [apart, List.getElem?_map, Option.map_eq_some_iff] at hd ⊢
    obtain ⟨c', hc', rfl⟩ := hd
    obtain ⟨h1, h2⟩ := List.getElem?_eq_some_iff.1 hc'
    simp at h1 h2
    subst h2
    show 4 * c + (k : Nat) < 4 * n
    omega
  cellNode := by
    intro c d hd k
    simp only [apart, List.getElem?_map, Option.map_eq_some_iff] at hd ⊢
    obtain ⟨c', hc', rfl⟩ := hd
    obtain ⟨h1, h2⟩ := List.getElem?_eq_some_iff.1 hc'
    simp at h1 h2
    subst h2
    show 4 * c + (k : Nat) < 4 * n
    omega
  faceCell := by
    intro e he k
    simp only [apart, List.mem_map, List.mem_range] at he ⊢
    obtain ⟨f, hf, rfl⟩ := he
    fin_cases k
    · right; show f / 4 < n; omega
    · left; rfl
  lists := by
    intro c d k e hd he
    simp only [apart, List.getElem?_map, Option.map_eq_some_iff] at hd he
    obtain ⟨c', hc', rfl⟩ := hd
    obtain ⟨h1, h2⟩ := List.getElem?_eq_some_iff.1 hc'
    simp at h1 h2
    subst h2
    obtain ⟨f', hf', rfl⟩ := he
    obtain ⟨h3, h4⟩ := List.getElem?_eq_some_iff.1 hf'
    simp at h3 h4
    subst h4
    refine ⟨0, ?_⟩
    show (4 * c + (k : Nat)) / 4 = c
    omega
  faceNode := by
    intro c d k e hd he j
    simp only [apart, List.getElem?_map, Option.map_eq_some_iff] at hd he
    obtain ⟨c', hc', rfl⟩ := hd
    obtain ⟨h1, h2⟩ := List.getElem?_eq_some_iff.1 hc'
    simp at h1 h2
    subst h2
    obtain ⟨f', hf', rfl⟩ := he
    obtain ⟨h3, h4⟩ := List.getElem?_eq_some_iff.1 hf'
    simp at h3 h4
    subst h4
    have e1 : (4 * c + (k : Nat)) / 4 = c := by omega
    have e2 : (4 * c + (k : Nat)) % 4 = k := by omega
    refine ⟨⟨if (k : Nat) ≤ j then j + 1 else j, by split <;> omega⟩, ?_⟩
    show 4 * ((4 * c + (k : Nat)) / 4) + (if (4 * c + (k : Nat)) % 4 ≤ j then (j : Nat) + 1 else j) = 4 * c + (if (k : Nat) ≤ j then (j : Nat) + 1 else j)
    rw [e1, e2]

/-- C15 violated: a sound mesh with `2^31 + 4` faces and one partition. -/
theorem create_large_witness : Sound (apart (2 ^ 29 + 1)) ∧
    createFromSerialMesh (apart (2 ^ 29 + 1)) (List.replicate (2 ^ 29 + 1) 0) 1 = none := by
  refine ⟨apart_sound _ (by norm_num), ?_⟩
  refine create_large_fails (c := 2 ^ 29) (d := ⟨fun k => 4 * 2 ^ 29 + k, fun k => 4 * 2 ^ 29 + k, 0⟩) (k := 0) ?_ ?_ ?_ ?_
  · simp only [apart, List.getElem?_map]
    rw [List.getElem?_range (by norm_num)]
    rfl
  · show 2 ^ 29 < 2 ^ 29 + 1; norm_num
  · show 2 ^ 31 ≤ 4 * 2 ^ 29 + 0; norm_num
  · show 4 * 2 ^ 29 + 0 < 2 ^ 64 - 2 ^ 31; norm_num

/-- C15, the part that holds: the same mesh below the limit (`2^31` faces) is partitioned. -/
theorem create_small_partial (n : Nat) (h : n ≤ 2 ^ 29) :
    ∃ P, createFromSerialMesh (apart n) (List.replicate n 0) 1 = some P := by
  obtain ⟨P, hP, -⟩ := create_succeeds (apart_sound n (by omega)) (show 4 * n ≤ 2 ^ 31 by omega) (show 4 * n ≤ 2 ^ 31 by omega)
    (pv := List.replicate n 0) (n := 1) (by simp [apart]) (by intro p hp; have := List.eq_of_mem_replicate hp; omega) (by norm_num)
  exact ⟨P, hP⟩

end Verif.MeshFile
