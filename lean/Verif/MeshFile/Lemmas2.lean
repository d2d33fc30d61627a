import Verif.MeshFile.Lemmas
import Mathlib.Tactic.IntervalCases

/-!
# The languages of the mesh readers
-/
namespace Verif.MeshFile

open Verif.Bytes

theorem fin_get4 (a b c d : Nat) (rest : List Nat) (k : Fin 4) (f : Fin 4 → Nat)
    (h : a = f 0 ∧ b = f 1 ∧ c = f 2 ∧ d = f 3) : get (a :: b :: c :: d :: rest) k = f k := by
  obtain ⟨rfl, rfl, rfl, rfl⟩ := h
  fin_cases k <;> rfl

theorem sCell_unpack {n : Nat} {ws : List Nat} {l : List SCell} :
    (ws.length = n * 9 ∧ l = (List.range n).map (sCellAt ws)) ↔
      (l.length = n ∧ ws = l.flatMap SCell.words) := by
  apply unpack_iff (k := 9) (words := SCell.words) (unpack := sCellAt) (fun _ => rfl)
  · intro ws i x h
    ext k
    · have := h k (by omega)
      show get ws (i * 9 + k) = _
      rw [this]; fin_cases k <;> rfl
    · have := h (4 + k) (by omega)
      show get ws (i * 9 + 4 + k) = _
      rw [Nat.add_assoc, this]; fin_cases k <;> rfl
    · exact h 8 (by omega)
  · intro ws i j hj
    interval_cases j <;> rfl

theorem sFace_unpack {n : Nat} {ws : List Nat} {l : List SFace} :
    (ws.length = n * 5 ∧ l = (List.range n).map (sFaceAt ws)) ↔
      (l.length = n ∧ ws = l.flatMap SFace.words) := by
  apply unpack_iff (k := 5) (words := SFace.words) (unpack := sFaceAt) (fun _ => rfl)
  · intro ws i x h
    ext k
    · have := h k (by omega)
      show get ws (i * 5 + k) = _
      rw [this]; fin_cases k <;> rfl
    · have := h (2 + k) (by omega)
      show get ws (i * 5 + 2 + k) = _
      rw [Nat.add_assoc, this]; fin_cases k <;> rfl
  · intro ws i j hj
    interval_cases j <;> rfl

theorem sNode_unpack {n : Nat} {ws : List Nat} {l : List SNode} :
    (ws.length = n * 3 ∧ l = (List.range n).map (sNodeAt ws)) ↔
      (l.length = n ∧ ws = l.flatMap SNode.words) := by
  apply unpack_iff (k := 3) (words := SNode.words) (unpack := sNodeAt) (fun _ => rfl)
  · intro ws i x h
    ext k
    have := h k (by omega)
    show get ws (i * 3 + k) = _
    rw [this]; fin_cases k <;> rfl
  · intro ws i j hj
    interval_cases j <;> rfl

theorem pCell_unpack {n : Nat} {ws : List Nat} {l : List PCell} :
    (ws.length = n * 10 ∧ l = (List.range n).map (pCellAt ws)) ↔
      (l.length = n ∧ ws = l.flatMap PCell.words) := by
  apply unpack_iff (k := 10) (words := PCell.words) (unpack := pCellAt) (fun _ => rfl)
  · intro ws i x h
    ext k
    · have := h k (by omega)
      show get ws (i * 10 + k) = _
      rw [this]; fin_cases k <;> rfl
    · have := h (4 + k) (by omega)
      show get ws (i * 10 + 4 + k) = _
      rw [Nat.add_assoc, this]; fin_cases k <;> rfl
    · exact h 8 (by omega)
    · exact h 9 (by omega)
  · intro ws i j hj
    interval_cases j <;> rfl

theorem pFace_unpack {n : Nat} {ws : List Nat} {l : List PFace} :
    (ws.length = n * 9 ∧ l = (List.range n).map (pFaceAt ws)) ↔
      (l.length = n ∧ ws = l.flatMap PFace.words) := by
  apply unpack_iff (k := 9) (words := PFace.words) (unpack := pFaceAt) (fun _ => rfl)
  · intro ws i x h
    ext k
    · have := h k (by omega)
      show get ws (i * 9 + k) = _
      rw [this]; fin_cases k <;> rfl
    · have := h (2 + k) (by omega)
      show get ws (i * 9 + 2 + k) = _
      rw [Nat.add_assoc, this]; fin_cases k <;> rfl
    · exact h 5 (by omega)
    · have := h (6 + k) (by omega)
      show get ws (i * 9 + 6 + k) = _
      rw [Nat.add_assoc, this]; fin_cases k <;> rfl
    · exact h 8 (by omega)
  · intro ws i j hj
    interval_cases j <;> rfl

theorem pNode_unpack {n : Nat} {ws : List Nat} {l : List PNode} :
    (ws.length = n * 4 ∧ l = (List.range n).map (pNodeAt ws)) ↔
      (l.length = n ∧ ws = l.flatMap PNode.words) := by
  apply unpack_iff (k := 4) (words := PNode.words) (unpack := pNodeAt) (fun _ => rfl)
  · intro ws i x h
    ext k
    · have := h k (by omega)
      show get ws (i * 4 + k) = _
      rw [this]; fin_cases k <;> rfl
    · exact h 3 (by omega)
  · intro ws i j hj
    interval_cases j <;> rfl

/-! ### Serial meshes -/

/-- A mesh that can be held in memory: counts are the sizes of the arrays, all values have 64 bits. -/
structure SerialMesh.OK (m : SerialMesh) : Prop where
  cells : m.numCells = m.cells.length
  faces : m.numFaces = m.faces.length
  nodes : m.numNodes = m.nodes.length
  cellsFit : m.cells.length * 9 < 2 ^ 64
  facesFit : m.faces.length * 5 < 2 ^ 64
  nodesFit : m.nodes.length * 3 < 2 ^ 64
  cell : ∀ c ∈ m.cells, (∀ k, c.faces k < 2 ^ 64) ∧ (∀ k, c.nodes k < 2 ^ 64) ∧ c.material < 2 ^ 64
  face : ∀ f ∈ m.faces, (∀ k, f.cells k < 2 ^ 64) ∧ (∀ k, f.nodes k < 2 ^ 64)
  node : ∀ n ∈ m.nodes, ∀ k, n.coords k < 2 ^ 64

theorem words_sCell {l : List SCell} : Words (l.flatMap SCell.words) ↔
    ∀ c ∈ l, (∀ k, c.faces k < 2 ^ 64) ∧ (∀ k, c.nodes k < 2 ^ 64) ∧ c.material < 2 ^ 64 := by
  simp only [Words, List.mem_flatMap, forall_exists_index, and_imp, Fin.forall_fin_succ]
  constructor
  · intro h c hc
    have := fun w hw => h w c hc hw
    simpa [SCell.words, and_assoc] using this
  · intro h w c hc
    have := h c hc
    simp [SCell.words] at this ⊢
    rintro (rfl | rfl | rfl | rfl | rfl | rfl | rfl | rfl | rfl) <;> tauto

theorem words_sFace {l : List SFace} : Words (l.flatMap SFace.words) ↔
    ∀ f ∈ l, (∀ k, f.cells k < 2 ^ 64) ∧ (∀ k, f.nodes k < 2 ^ 64) := by
  simp only [Words, List.mem_flatMap, forall_exists_index, and_imp, Fin.forall_fin_succ]
  constructor
  · intro h c hc
    have := fun w hw => h w c hc hw
    simpa [SFace.words, and_assoc] using this
  · intro h w c hc
    have := h c hc
    simp [SFace.words] at this ⊢
    rintro (rfl | rfl | rfl | rfl | rfl) <;> tauto

theorem words_sNode {l : List SNode} : Words (l.flatMap SNode.words) ↔
    ∀ n ∈ l, ∀ k, n.coords k < 2 ^ 64 := by
  simp only [Words, List.mem_flatMap, forall_exists_index, and_imp, Fin.forall_fin_succ]
  constructor
  · intro h c hc
    have := fun w hw => h w c hc hw
    simpa [SNode.words, and_assoc] using this
  · intro h w c hc
    have := h c hc
    simp [SNode.words] at this ⊢
    rintro (rfl | rfl | rfl) <;> tauto

/-- The bytes of a mesh. -/
def SerialMesh.bytes (m : SerialMesh) : List UInt8 :=
  serialName ++ writeWords [version, m.numCells, m.numFaces, m.numNodes] ++
    writeWords (m.cells.flatMap SCell.words) ++ writeWords (m.faces.flatMap SFace.words) ++
    writeWords (m.nodes.flatMap SNode.words)

theorem SerialMesh.OK.write {m : SerialMesh} (h : m.OK) : m.write = some m.bytes := by
  unfold SerialMesh.write SerialMesh.bytes
  rw [h.cells, h.faces, h.nodes, firstN_length, firstN_length, firstN_length]
  simp only [Option.bind_eq_bind, Option.bind_some, writeWords_append, List.append_assoc]

/-- The files `SerialMesh::read` accepts are exactly those beginning with a written mesh, and it
returns that mesh. -/
theorem readSerialRest_iff {f rest : List UInt8} {m : SerialMesh} :
    readSerialRest f = some (m, rest) ↔ m.OK ∧ f = m.bytes ++ rest := by
  unfold readSerialRest
  simp only [Option.bind_eq_bind, Option.bind_eq_some_iff, Prod.exists]
  constructor
  · rintro ⟨b0, h0, h, b1, h1, h2⟩
    rw [readName_iff (by rfl)] at h0
    rw [readWords_iff] at h1
    obtain ⟨hl, hw, rfl⟩ := h1
    obtain ⟨v, nc, nf, nn, rfl⟩ := List.length_eq_four.1 hl
    simp only [get, List.getD_cons_zero, List.getD_cons_succ] at h2
    split at h2
    · rename_i hv
      subst hv
      simp only [Option.bind_eq_some_iff, Prod.exists, Option.some.injEq, Prod.mk.injEq] at h2
      obtain ⟨cw, b2, h2, fw, b3, h3, nw, b4, h4, rfl, rfl⟩ := h2
      rw [readArray_iff] at h2 h3 h4
      obtain ⟨c1, c2, c3, rfl⟩ := h2
      obtain ⟨f1, f2, f3, rfl⟩ := h3
      obtain ⟨n1, n2, n3, rfl⟩ := h4
      generalize hc : (List.range nc).map (sCellAt cw) = cl
      generalize hf : (List.range nf).map (sFaceAt fw) = fl
      generalize hn : (List.range nn).map (sNodeAt nw) = nl
      obtain ⟨cl1, rfl⟩ := sCell_unpack.1 ⟨c1, hc.symm⟩
      obtain ⟨fl1, rfl⟩ := sFace_unpack.1 ⟨f1, hf.symm⟩
      obtain ⟨nl1, rfl⟩ := sNode_unpack.1 ⟨n1, hn.symm⟩
      subst cl1 fl1 nl1
      exact ⟨⟨rfl, rfl, rfl, c2, f2, n2, words_sCell.1 c3, words_sFace.1 f3, words_sNode.1 n3⟩, by
        rw [h0]; simp only [SerialMesh.bytes, List.append_assoc]⟩
    · simp at h2
  · rintro ⟨hok, rfl⟩
    obtain ⟨nc, nf, nn, cl, fl, nl⟩ := m
    obtain ⟨e1, e2, e3, c2, f2, n2, c3, f3, n3⟩ := hok
    dsimp only at e1 e2 e3 c2 f2 n2 c3 f3 n3
    subst e1 e2 e3
    simp only [SerialMesh.bytes, List.append_assoc]
    refine ⟨_, (readName_iff rfl).2 rfl, [version, cl.length, fl.length, nl.length], _,
      readWords_iff.2 ⟨rfl, ?_, rfl⟩, ?_⟩
    · intro w hw
      simp at hw
      rcases hw with rfl | rfl | rfl | rfl
      · decide
      all_goals omega
    · simp only [get, List.getD_cons_zero, List.getD_cons_succ, if_true]
      obtain ⟨c1, hc⟩ := sCell_unpack.2 ⟨rfl, rfl⟩
      obtain ⟨f1, hf⟩ := sFace_unpack.2 ⟨rfl, rfl⟩
      obtain ⟨n1, hn⟩ := sNode_unpack.2 ⟨rfl, rfl⟩
      rw [readArray_iff.2 ⟨c1, c2, words_sCell.2 c3, rfl⟩]
      simp only [Option.bind_some]
      rw [readArray_iff.2 ⟨f1, f2, words_sFace.2 f3, rfl⟩]
      simp only [Option.bind_some]
      rw [readArray_iff.2 ⟨n1, n2, words_sNode.2 n3, rfl⟩]
      simp only [Option.bind_some]
      rw [← hc, ← hf, ← hn]

/-! ### Parallel meshes -/

/-- A partition that can be held in memory. -/
structure Part.OK (p : Part) : Prop where
  cells : p.numCells = p.cells.length
  faces : p.numFaces = p.faces.length
  nodes : p.numNodes = p.nodes.length
  cellsFit : p.cells.length * 10 < 2 ^ 64
  facesFit : p.faces.length * 9 < 2 ^ 64
  nodesFit : p.nodes.length * 4 < 2 ^ 64
  cell : ∀ c ∈ p.cells, (∀ k, c.faces k < 2 ^ 64) ∧ (∀ k, c.nodes k < 2 ^ 64) ∧ c.globalID < 2 ^ 64 ∧
    c.material < 2 ^ 64
  face : ∀ f ∈ p.faces, (∀ k, f.cells k < 2 ^ 64) ∧ (∀ k, f.nodes k < 2 ^ 64) ∧ f.globalID < 2 ^ 64 ∧
    (∀ k, f.partition k < 2 ^ 64) ∧ f.boundaryType < 2 ^ 64
  node : ∀ n ∈ p.nodes, (∀ k, n.coords k < 2 ^ 64) ∧ n.globalID < 2 ^ 64

theorem words_pCell {l : List PCell} : Words (l.flatMap PCell.words) ↔
    ∀ c ∈ l, (∀ k, c.faces k < 2 ^ 64) ∧ (∀ k, c.nodes k < 2 ^ 64) ∧ c.globalID < 2 ^ 64 ∧
      c.material < 2 ^ 64 := by
  simp only [Words, List.mem_flatMap, forall_exists_index, and_imp, Fin.forall_fin_succ]
  constructor
  · intro h c hc
    have := fun w hw => h w c hc hw
    simpa [PCell.words, and_assoc] using this
  · intro h w c hc
    have := h c hc
    simp [PCell.words] at this ⊢
    rintro (rfl | rfl | rfl | rfl | rfl | rfl | rfl | rfl | rfl | rfl) <;> tauto

theorem words_pFace {l : List PFace} : Words (l.flatMap PFace.words) ↔
    ∀ f ∈ l, (∀ k, f.cells k < 2 ^ 64) ∧ (∀ k, f.nodes k < 2 ^ 64) ∧ f.globalID < 2 ^ 64 ∧
      (∀ k, f.partition k < 2 ^ 64) ∧ f.boundaryType < 2 ^ 64 := by
  simp only [Words, List.mem_flatMap, forall_exists_index, and_imp, Fin.forall_fin_succ]
  constructor
  · intro h c hc
    have := fun w hw => h w c hc hw
    simpa [PFace.words, and_assoc] using this
  · intro h w c hc
    have := h c hc
    simp [PFace.words] at this ⊢
    rintro (rfl | rfl | rfl | rfl | rfl | rfl | rfl | rfl | rfl) <;> tauto

theorem words_pNode {l : List PNode} : Words (l.flatMap PNode.words) ↔
    ∀ n ∈ l, (∀ k, n.coords k < 2 ^ 64) ∧ n.globalID < 2 ^ 64 := by
  simp only [Words, List.mem_flatMap, forall_exists_index, and_imp, Fin.forall_fin_succ]
  constructor
  · intro h c hc
    have := fun w hw => h w c hc hw
    simpa [PNode.words, and_assoc] using this
  · intro h w c hc
    have := h c hc
    simp [PNode.words] at this ⊢
    rintro (rfl | rfl | rfl | rfl) <;> tauto

/-- The words of a partition. -/
def Part.ws (p : Part) : List Nat :=
  [p.numCells, p.numFaces, p.numNodes] ++ p.cells.flatMap PCell.words ++ p.faces.flatMap PFace.words ++
    p.nodes.flatMap PNode.words

theorem Part.OK.words {p : Part} (h : p.OK) : p.words = some p.ws := by
  unfold Part.words Part.ws
  rw [h.cells, h.faces, h.nodes, firstN_length, firstN_length, firstN_length]
  simp only [Option.bind_eq_bind, Option.bind_some]

theorem Part.OK.ws_length {p : Part} (h : p.OK) :
    p.ws.length = 3 + 10 * p.numCells + 9 * p.numFaces + 4 * p.numNodes := by
  unfold Part.ws
  simp only [List.length_append, flatMap_length (f := PCell.words) (k := 10) (fun _ => rfl),
    flatMap_length (f := PFace.words) (k := 9) (fun _ => rfl),
    flatMap_length (f := PNode.words) (k := 4) (fun _ => rfl), h.cells, h.faces, h.nodes,
    List.length_cons, List.length_nil]
  ring

theorem Part.OK.words_ws {p : Part} (h : p.OK) : Words p.ws := by
  unfold Part.ws
  simp only [words_append]
  refine ⟨⟨⟨?_, words_pCell.2 h.cell⟩, words_pFace.2 h.face⟩, words_pNode.2 h.node⟩
  intro w hw
  have := h.cells; have := h.faces; have := h.nodes
  have := h.cellsFit; have := h.facesFit; have := h.nodesFit
  simp at hw
  rcases hw with rfl | rfl | rfl <;> omega

theorem readPart_iff {f rest : List UInt8} {p : Part} :
    readPart f = some (p, rest) ↔ p.OK ∧ f = writeWords p.ws ++ rest := by
  unfold readPart
  simp only [Option.bind_eq_bind, Option.bind_eq_some_iff, Prod.exists]
  constructor
  · rintro ⟨h, b1, h1, h2⟩
    rw [readWords_iff] at h1
    obtain ⟨hl, hw, rfl⟩ := h1
    obtain ⟨nc, nf, nn, rfl⟩ := List.length_eq_three.1 hl
    simp only [get, List.getD_cons_zero, List.getD_cons_succ] at h2
    simp only [Option.some.injEq, Prod.mk.injEq] at h2
    obtain ⟨cw, b2, h2, fw, b3, h3, nw, b4, h4, rfl, rfl⟩ := h2
    rw [readArray_iff] at h2 h3 h4
    obtain ⟨c1, c2, c3, rfl⟩ := h2
    obtain ⟨f1, f2, f3, rfl⟩ := h3
    obtain ⟨n1, n2, n3, rfl⟩ := h4
    generalize hc : (List.range nc).map (pCellAt cw) = cl
    generalize hf : (List.range nf).map (pFaceAt fw) = fl
    generalize hn : (List.range nn).map (pNodeAt nw) = nl
    obtain ⟨cl1, rfl⟩ := pCell_unpack.1 ⟨c1, hc.symm⟩
    obtain ⟨fl1, rfl⟩ := pFace_unpack.1 ⟨f1, hf.symm⟩
    obtain ⟨nl1, rfl⟩ := pNode_unpack.1 ⟨n1, hn.symm⟩
    subst cl1 fl1 nl1
    exact ⟨⟨rfl, rfl, rfl, c2, f2, n2, words_pCell.1 c3, words_pFace.1 f3, words_pNode.1 n3⟩, by
      simp only [Part.ws, writeWords_append, List.append_assoc]⟩
  · rintro ⟨hok, rfl⟩
    have hwd := hok.words_ws
    obtain ⟨nc, nf, nn, cl, fl, nl⟩ := p
    obtain ⟨e1, e2, e3, c2, f2, n2, c3, f3, n3⟩ := hok
    dsimp only at e1 e2 e3 c2 f2 n2 c3 f3 n3
    subst e1 e2 e3
    simp only [Part.ws, words_append] at hwd
    simp only [Part.ws, writeWords_append, List.append_assoc]
    refine ⟨[cl.length, fl.length, nl.length], _, readWords_iff.2 ⟨rfl, hwd.1.1.1, rfl⟩, ?_⟩
    simp only [get, List.getD_cons_zero, List.getD_cons_succ]
    obtain ⟨c1, hc⟩ := pCell_unpack.2 ⟨rfl, rfl⟩
    obtain ⟨f1, hf⟩ := pFace_unpack.2 ⟨rfl, rfl⟩
    obtain ⟨n1, hn⟩ := pNode_unpack.2 ⟨rfl, rfl⟩
    refine ⟨_, _, readArray_iff.2 ⟨c1, c2, words_pCell.2 c3, rfl⟩, _, _,
      readArray_iff.2 ⟨f1, f2, words_pFace.2 f3, rfl⟩, _, _,
      readArray_iff.2 ⟨n1, n2, words_pNode.2 n3, rfl⟩, ?_⟩
    rw [← hc, ← hf, ← hn]

theorem readParts_iff {n : Nat} {f rest : List UInt8} {ps : List Part} :
    readParts n f = some (ps, rest) ↔
      ps.length = n ∧ (∀ p ∈ ps, p.OK) ∧ f = writeWords (ps.map Part.ws).flatten ++ rest := by
  induction n generalizing f ps rest with
  | zero =>
    simp only [readParts, Option.some.injEq, Prod.mk.injEq]
    constructor
    · rintro ⟨rfl, rfl⟩; simp
    · rintro ⟨h, -, rfl⟩; rw [List.length_eq_zero_iff.1 h]; simp
  | succ n ih =>
    simp only [readParts, Option.bind_eq_bind, Option.bind_eq_some_iff, Prod.exists, readPart_iff, ih,
      Option.some.injEq, Prod.mk.injEq]
    constructor
    · rintro ⟨p, b1, ⟨hp, rfl⟩, qs, b2, ⟨rfl, hq, rfl⟩, rfl, rfl⟩
      refine ⟨rfl, ?_, by simp⟩
      intro p' hp'
      rcases List.mem_cons.1 hp' with rfl | h
      · exact hp
      · exact hq _ h
    · rintro ⟨hl, hp, rfl⟩
      obtain ⟨p, qs, rfl⟩ := List.exists_cons_of_length_eq_add_one hl
      exact ⟨p, _, ⟨hp p (by simp), by simp⟩, qs, rest, ⟨by simpa using hl, fun p' h => hp p' (by simp [h]), rfl⟩,
        rfl, rfl⟩

/-- A parallel mesh that can be held in memory. -/
structure ParallelMesh.OK (m : ParallelMesh) : Prop where
  parts : m.numPartitions = m.parts.length
  offsets : m.bytesOffset.length = m.numPartitions + 1
  fit : m.parts.length + 1 < 2 ^ 64
  offset : ∀ o ∈ m.bytesOffset, o < 2 ^ 64
  part : ∀ p ∈ m.parts, p.OK

/-- The bytes of a parallel mesh. -/
def ParallelMesh.bytes (m : ParallelMesh) : List UInt8 :=
  parallelName ++ writeWords [version, m.numPartitions] ++ writeWords m.bytesOffset ++
    writeWords (m.parts.map Part.ws).flatten

theorem ParallelMesh.OK.write {m : ParallelMesh} (h : m.OK) : m.write = some m.bytes := by
  unfold ParallelMesh.write ParallelMesh.bytes
  have h1 : m.parts.mapM Part.words = some (m.parts.map Part.ws) := by
    have := h.part
    generalize m.parts = ps at this
    induction ps with
    | nil => rfl
    | cons p ps ih =>
      rw [List.mapM_cons, (this p (by simp)).words, ih fun q hq => this q (by simp [hq])]
      rfl
  rw [← h.offsets, firstN_length, h.parts, firstN_length]
  simp only [Option.bind_eq_bind, Option.bind_some, h1, writeWords_append, List.append_assoc]

theorem readParallelRest_iff {f rest : List UInt8} {m : ParallelMesh} :
    readParallelRest f = some (m, rest) ↔ m.OK ∧ f = m.bytes ++ rest := by
  unfold readParallelRest
  simp only [Option.bind_eq_bind, Option.bind_eq_some_iff, Prod.exists]
  constructor
  · rintro ⟨b0, h0, h, b1, h1, h2⟩
    rw [readName_iff (by rfl)] at h0
    rw [readWords_iff] at h1
    obtain ⟨hl, hw, rfl⟩ := h1
    obtain ⟨v, n, rfl⟩ := List.length_eq_two.1 hl
    simp only [get, List.getD_cons_zero, List.getD_cons_succ] at h2
    split at h2
    · rename_i hv
      subst hv
      simp only [Option.bind_eq_some_iff, Prod.exists, Option.some.injEq, Prod.mk.injEq] at h2
      obtain ⟨offs, b2, h2, ps, b3, h3, rfl, rfl⟩ := h2
      rw [readArray_iff] at h2
      rw [readParts_iff] at h3
      obtain ⟨o1, o2, o3, rfl⟩ := h2
      obtain ⟨rfl, p2, rfl⟩ := h3
      exact ⟨⟨rfl, by simpa using o1, by simpa using o2, o3, p2⟩, by
        rw [h0]; simp only [ParallelMesh.bytes, List.append_assoc]⟩
    · simp at h2
  · rintro ⟨hok, rfl⟩
    obtain ⟨n, offs, ps⟩ := m
    obtain ⟨e1, e2, e3, o3, p2⟩ := hok
    dsimp only at e1 e2 e3 o3 p2
    subst e1
    simp only [ParallelMesh.bytes, List.append_assoc]
    refine ⟨_, (readName_iff rfl).2 rfl, [version, ps.length], _,
      readWords_iff.2 ⟨rfl, ?_, rfl⟩, ?_⟩
    · intro w hw
      simp at hw
      rcases hw with rfl | rfl
      · decide
      · omega
    · simp only [get, List.getD_cons_zero, List.getD_cons_succ, if_true]
      rw [readArray_iff.2 ⟨by simpa using e2, by simpa using e3, o3, rfl⟩]
      simp only [Option.bind_some]
      rw [readParts_iff.2 ⟨rfl, p2, rfl⟩]
      simp only [Option.bind_some]

end Verif.MeshFile
