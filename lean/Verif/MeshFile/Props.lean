import Verif.MeshFile.Lemmas3

/-!
# Properties of mesh files and partitioning (C08–C15)
-/
namespace Verif.MeshFile

open Verif.Bytes

/-! ## C08, C09: serial mesh files -/

/-- C08: reading what was written gives back the mesh, whatever follows it in the file. -/
theorem serial_roundtrip {m : SerialMesh} (h : m.OK) :
    ∃ f, m.write = some f ∧ ∀ rest, readSerial (f ++ rest) = some m := by
  refine ⟨m.bytes, h.write, fun rest => ?_⟩
  unfold readSerial
  rw [readSerialRest_iff.2 ⟨h, rfl⟩]
  rfl

/-- C08, converse: whatever `read` accepts is a mesh that can be held, and the file starts with the
bytes `write` gives for it. -/
theorem serial_read_sound {f : List UInt8} {m : SerialMesh} (h : readSerial f = some m) :
    m.OK ∧ ∃ w rest, m.write = some w ∧ f = w ++ rest := by
  unfold readSerial at h
  rw [Option.map_eq_some_iff] at h
  obtain ⟨⟨m', rest⟩, h1, rfl⟩ := h
  obtain ⟨h2, h3⟩ := readSerialRest_iff.1 h1
  exact ⟨h2, _, rest, h2.write, h3⟩

/-- C09: size of the file. -/
theorem serial_size {m : SerialMesh} (h : m.OK) {f : List UInt8} (hf : m.write = some f) :
    f.length = 64 + 72 * m.numCells + 40 * m.numFaces + 24 * m.numNodes := by
  rw [h.write, Option.some.injEq] at hf
  subst hf
  unfold SerialMesh.bytes
  simp only [List.length_append, writeWords_length, flatMap_length (f := SCell.words) (k := 9) (fun _ => rfl),
    flatMap_length (f := SFace.words) (k := 5) (fun _ => rfl),
    flatMap_length (f := SNode.words) (k := 3) (fun _ => rfl), h.cells, h.faces, h.nodes]
  simp only [serialName, List.length_cons, List.length_nil]
  ring

/-- C09: a file is rejected unless it starts with the format name and the version number 2. -/
theorem serial_rejects {f : List UInt8} (h : readSerial f ≠ none) :
    f.take 32 = "Tycho 2 Serial Mesh".toUTF8.toList ++ List.replicate 13 0 ∧
      (f.drop 32).take 8 = [2, 0, 0, 0, 0, 0, 0, 0] := by
  obtain ⟨m, hm⟩ := Option.ne_none_iff_exists'.1 h
  obtain ⟨h1, w, rest, h2, rfl⟩ := serial_read_sound hm
  rw [h1.write, Option.some.injEq] at h2
  subst h2
  simp only [SerialMesh.bytes, List.append_assoc]
  have e : serialName = "Tycho 2 Serial Mesh".toUTF8.toList ++ List.replicate 13 0 := by decide +kernel
  have hl : serialName.length = 32 := rfl
  refine ⟨by rw [List.take_left' hl, e], ?_⟩
  rw [List.drop_left' hl, writeWords_cons, List.append_assoc, List.take_left' (enc_length 8 _)]
  decide +kernel

/-- C09: no proper prefix of a written file is accepted. -/
theorem serial_truncated {m : SerialMesh} (h : m.OK) {f p s : List UInt8} (hf : m.write = some f)
    (hp : f = p ++ s) (hs : s ≠ []) : readSerial p = none := by
  cases hr : readSerial p with
  | none => rfl
  | some m' =>
    obtain ⟨h1, w, rest, h2, rfl⟩ := serial_read_sound hr
    rw [h.write, Option.some.injEq] at hf
    rw [h1.write, Option.some.injEq] at h2
    subst hf h2
    have a1 := readSerialRest_iff.2 ⟨h, (List.append_nil m.bytes).symm⟩
    have a2 := readSerialRest_iff.2 ⟨h1, List.append_assoc m'.bytes rest s⟩
    rw [← hp, a1] at a2
    simp only [Option.some.injEq, Prod.mk.injEq] at a2
    exact absurd (List.append_eq_nil_iff.1 a2.2.symm).2 hs

/-- Two tetrahedra sharing face 0, with coordinates that are a NaN, an infinity and a negative zero. -/
def exMesh : SerialMesh where
  numCells := 2
  numFaces := 7
  numNodes := 5
  cells := [⟨![0, 1, 2, 3], ![0, 1, 2, 3], 5⟩, ⟨![4, 5, 0, 6], ![4, 1, 2, 3], 2 ^ 64 - 1⟩]
  faces := [⟨![0, 1], ![1, 2, 3]⟩, ⟨![0, invalid], ![0, 2, 3]⟩, ⟨![0, invalid], ![0, 1, 3]⟩,
    ⟨![0, invalid], ![0, 1, 2]⟩, ⟨![1, invalid], ![4, 1, 2]⟩, ⟨![1, invalid], ![4, 1, 3]⟩,
    ⟨![1, invalid], ![4, 2, 3]⟩]
  nodes := [⟨![0x7ff8000000000001, 0x7ff0000000000000, 0x8000000000000000]⟩, ⟨![1, 2, 3]⟩, ⟨![4, 5, 6]⟩,
    ⟨![7, 8, 9]⟩, ⟨![10, 11, 12]⟩]

theorem exMesh_ok : exMesh.OK := by
  constructor <;> decide

example : ∃ f, exMesh.write = some f ∧ f.length = 64 + 72 * 2 + 40 * 7 + 24 * 5 ∧
    readSerial f = some exMesh ∧ readSerial (f.take 300) = none := by
  obtain ⟨f, h1, h2⟩ := serial_roundtrip exMesh_ok
  have hl := serial_size exMesh_ok h1
  refine ⟨f, h1, hl, by simpa using h2 [], ?_⟩
  refine serial_truncated exMesh_ok h1 (List.take_append_drop 300 f).symm ?_
  intro h0
  have := congrArg List.length h0
  rw [List.length_drop, hl] at this
  simp [exMesh] at this

/-! ## C10: parallel mesh files -/

/-- C10: reading what was written gives back every partition. -/
theorem parallel_roundtrip {m : ParallelMesh} (h : m.OK) :
    ∃ f, m.write = some f ∧ ∀ rest, readParallel (f ++ rest) = some m := by
  refine ⟨m.bytes, h.write, fun rest => ?_⟩
  unfold readParallel
  rw [readParallelRest_iff.2 ⟨h, rfl⟩]
  rfl

theorem parallel_read_sound {f : List UInt8} {m : ParallelMesh} (h : readParallel f = some m) :
    m.OK ∧ ∃ w rest, m.write = some w ∧ f = w ++ rest := by
  unfold readParallel at h
  rw [Option.map_eq_some_iff] at h
  obtain ⟨⟨m', rest⟩, h1, rfl⟩ := h
  obtain ⟨h2, h3⟩ := readParallelRest_iff.1 h1
  exact ⟨h2, _, rest, h2.write, h3⟩

/-- C10: no proper prefix of a written file is accepted. -/
theorem parallel_truncated {m : ParallelMesh} (h : m.OK) {f p s : List UInt8} (hf : m.write = some f)
    (hp : f = p ++ s) (hs : s ≠ []) : readParallel p = none := by
  cases hr : readParallel p with
  | none => rfl
  | some m' =>
    obtain ⟨h1, w, rest, h2, rfl⟩ := parallel_read_sound hr
    rw [h.write, Option.some.injEq] at hf
    rw [h1.write, Option.some.injEq] at h2
    subst hf h2
    have a1 := readParallelRest_iff.2 ⟨h, (List.append_nil m.bytes).symm⟩
    have a2 := readParallelRest_iff.2 ⟨h1, List.append_assoc m'.bytes rest s⟩
    rw [← hp, a1] at a2
    simp only [Option.some.injEq, Prod.mk.injEq] at a2
    exact absurd (List.append_eq_nil_iff.1 a2.2.symm).2 hs

/-! ## C12–C15: partitioning -/

theorem create_parts {m : SerialMesh} {pv : List Nat} {n : Nat} {P : ParallelMesh}
    (h : createFromSerialMesh m pv n = some P) :
    pv.length = m.numCells ∧ m.numCells ≤ m.cells.length ∧ (∀ p ∈ pv, p < n) ∧ 3 + n < 2 ^ 31 ∧
      P.numPartitions = n ∧ P.parts.length = n ∧
      P.bytesOffset = offsetsFrom (32 + (3 + n) * 8) P.parts ∧
      ∀ p part, P.parts[p]? = some part → p < n ∧ createPart m pv p = some part := by
  unfold createFromSerialMesh at h
  split at h
  · rename_i hc
    obtain ⟨h1, h2, h3, h4⟩ := hc
    simp only [Option.bind_eq_bind, Option.bind_eq_some_iff, Option.some.injEq, mapM_iff] at h
    obtain ⟨parts, hp, rfl⟩ := h
    refine ⟨h1, h2, h3, h4, rfl, by simpa using hp.length_eq.symm, rfl, ?_⟩
    intro p part hpp
    obtain ⟨a, ha, hab⟩ := forall₂_get' hp hpp
    have : p < n := by
      have := (List.getElem?_eq_some_iff.1 ha).1
      simpa using this
    rw [List.getElem?_range this, Option.some.injEq] at ha
    subst ha
    exact ⟨this, hab⟩
  · simp at h

/-- Everything known about one partition. -/
structure Made (m : SerialMesh) (pv : List Nat) (p : Nat) (part : Part) : Prop where
  numCells : part.numCells = part.cells.length
  numFaces : part.numFaces = part.faces.length
  numNodes : part.numNodes = part.nodes.length
  cells : List.Forall₂ (fun g c => createCell m (facesIn (entries m pv) p) (nodesIn (entries m pv) p) g = some c)
    (cellsIn (entries m pv) p) part.cells
  faces : List.Forall₂ (fun g c => createFace m pv (cellsIn (entries m pv)) p (nodesIn (entries m pv) p) g = some c)
    (facesIn (entries m pv) p) part.faces
  nodes : List.Forall₂ (fun g c => createNode m g = some c) (nodesIn (entries m pv) p) part.nodes

theorem createPart_made {m : SerialMesh} {pv : List Nat} {p : Nat} {part : Part}
    (h : createPart m pv p = some part) : Made m pv p part := by
  unfold createPart at h
  simp only [Option.bind_eq_bind, Option.bind_eq_some_iff, Option.some.injEq, mapM_iff] at h
  obtain ⟨cs, hc, fs, hf, ns, hn, rfl⟩ := h
  exact ⟨hc.length_eq, hf.length_eq, hn.length_eq, hc, hf, hn⟩

theorem map_of_forall₂ {α : Type} {R : Nat → α → Prop} {g : α → Nat} (hg : ∀ a b, R a b → g b = a) {l : List Nat}
    {l' : List α} (h : List.Forall₂ R l l') : l'.map g = l := by
  induction h with
  | nil => rfl
  | cons hab _ ih => rw [List.map_cons, ih, hg _ _ hab]

theorem createCell_iff {m : SerialMesh} {fs ns : List Nat} {g : Nat} {c : PCell} :
    createCell m fs ns g = some c ↔ c.globalID = g ∧ ∃ d, m.cells[g]? = some d ∧ c.material = d.material ∧
      (∀ k, find fs (d.faces k) = some (c.faces k)) ∧ ∀ k, find ns (d.nodes k) = some (c.nodes k) := by
  unfold createCell
  simp only [Option.bind_eq_bind, Option.bind_eq_some_iff, Option.some.injEq, sequence_iff]
  constructor
  · rintro ⟨d, hd, f, hf, n, hn, rfl⟩; exact ⟨rfl, d, hd, rfl, hf, hn⟩
  · rintro ⟨rfl, d, hd, hm, hf, hn⟩; exact ⟨d, hd, _, hf, _, hn, by rw [← hm]⟩

theorem createNode_iff {m : SerialMesh} {g : Nat} {c : PNode} :
    createNode m g = some c ↔ c.globalID = g ∧ ∃ d, m.nodes[g]? = some d ∧ c.coords = d.coords := by
  unfold createNode
  simp only [Option.bind_eq_bind, Option.bind_eq_some_iff, Option.some.injEq]
  constructor
  · rintro ⟨d, hd, rfl⟩; exact ⟨rfl, d, hd, rfl⟩
  · rintro ⟨rfl, d, hd, hm⟩; exact ⟨d, hd, by rw [← hm]⟩

theorem createFace_iff {m : SerialMesh} {pv : List Nat} {cellsOf : Nat → List Nat} {p : Nat} {ns : List Nat} {g : Nat} {c : PFace} :
    createFace m pv cellsOf p ns g = some c ↔ c.globalID = g ∧ ∃ d t0 t1, m.faces[g]? = some d ∧
      createSide pv cellsOf p (d.cells 0) = some (c.cells 0, c.partition 0, t0) ∧
      createSide pv cellsOf p (d.cells 1) = some (c.cells 1, c.partition 1, t1) ∧
      c.boundaryType = t1.getD (t0.getD 2) ∧
      ∀ k, find ns (d.nodes k) = some (c.nodes k) := by
  unfold createFace
  simp only [Option.bind_eq_bind, Option.bind_eq_some_iff, Option.some.injEq, sequence_iff, Prod.exists]
  constructor
  · rintro ⟨d, hd, c0, p0, t0, h0, c1, p1, t1, h1, n, hn, rfl⟩; exact ⟨rfl, d, t0, t1, hd, h0, h1, rfl, hn⟩
  · rintro ⟨rfl, d, t0, t1, hd, h0, h1, ht, hn⟩
    refine ⟨d, hd, _, _, _, h0, _, _, _, h1, _, hn, ?_⟩
    rw [← ht]
    obtain ⟨cc, nn, gg, pp, bb⟩ := c
    simp only [PFace.mk.injEq, true_and, and_true]
    constructor <;> funext k <;> fin_cases k <;> rfl

/-- C12: the cells of partition `p` are exactly those the vector sends there, in increasing order of
their global numbers, each once. -/
theorem create_cells {m : SerialMesh} {pv : List Nat} {n : Nat} {P : ParallelMesh}
    (h : createFromSerialMesh m pv n = some P) :
    P.parts.length = n ∧ ∀ p part, P.parts[p]? = some part →
      part.numCells = part.cells.length ∧
      part.cells.map PCell.globalID = (List.range m.numCells).filter fun c => pv[c]? = some p := by
  obtain ⟨h1, h2, h3, h4, h5, h6, h7, h8⟩ := create_parts h
  refine ⟨h6, fun p part hp => ?_⟩
  have M := createPart_made (h8 p part hp).2
  refine ⟨M.numCells, ?_⟩
  rw [map_of_forall₂ (g := PCell.globalID) (fun a b hab => (createCell_iff.1 hab).1) M.cells, cellsIn_eq h2]

/-- C12: the partition sizes add up to the number of cells. -/
theorem create_total {m : SerialMesh} {pv : List Nat} {n : Nat} {P : ParallelMesh}
    (h : createFromSerialMesh m pv n = some P) : (P.parts.map Part.numCells).sum = m.numCells := by
  obtain ⟨h1, h2, h3, h4, h5, h6, h7, h8⟩ := create_parts h
  have hc := (create_cells h).2
  have e : P.parts.map Part.numCells =
      (List.range n).map fun p => ((List.range m.numCells).filter fun c => pv[c]? = some p).length := by
    apply List.ext_getElem?
    intro i
    rw [List.getElem?_map, List.getElem?_map]
    by_cases hi : i < n
    · rw [List.getElem?_range hi, List.getElem?_eq_getElem (by omega)]
      obtain ⟨a, b⟩ := hc i _ (List.getElem?_eq_getElem (by omega))
      simp only [Option.map_some, Option.some.injEq]
      rw [a, ← b, List.length_map]
    · rw [List.getElem?_eq_none (by omega), List.getElem?_eq_none (by simp; omega)]
      rfl
  rw [e]
  have key : ∀ (cs : List Nat), (∀ c ∈ cs, c < m.numCells) →
      ((List.range n).map fun p => (cs.filter fun c => pv[c]? = some p).length).sum = cs.length := by
    intro cs
    induction cs with
    | nil => intro _; simp
    | cons c cs ih =>
      intro hcs
      have hlt : c < pv.length := by have := hcs c (by simp); omega
      have hq : pv[c] < n := h3 _ (List.getElem_mem hlt)
      have e1 : ∀ p, ((c :: cs).filter fun c => pv[c]? = some p).length =
          (if pv[c] = p then 1 else 0) + (cs.filter fun c => pv[c]? = some p).length := by
        intro p
        rw [List.filter_cons]
        by_cases hp : pv[c] = p
        · rw [if_pos (by simp [List.getElem?_eq_getElem hlt, hp]), if_pos hp, List.length_cons]; omega
        · rw [if_neg (by simp [List.getElem?_eq_getElem hlt, hp]), if_neg hp]; omega
      simp only [e1]
      rw [List.sum_map_add, ih fun x hx => hcs x (by simp [hx])]
      have e2 : ((List.range n).map fun p => if pv[c] = p then 1 else 0).sum = 1 := by
        clear ih e1 hcs hc e h h6 h7 h8 h5 h4 h3
        induction n with
        | zero => omega
        | succ n ih =>
          rw [List.range_succ, List.map_append, List.sum_append]
          by_cases hp : pv[c] = n
          · rw [List.map_congr_left (g := fun _ => 0)]
            · simp [hp]
            · intro a ha; rw [if_neg]; have := List.mem_range.1 ha; omega
          · rw [ih (by omega)]; simp [hp]
      rw [e2, List.length_cons]; omega
  have := key (List.range m.numCells) (fun c hc => List.mem_range.1 hc)
  rwa [List.length_range] at this

/-- C13: materials, bounding faces and nodes of every local cell, nodes of every local face and the
coordinates of every local node are those of the serial mesh, read through the local tables; all
local references are in range; the tables are strictly increasing. -/
theorem create_connectivity {m : SerialMesh} {pv : List Nat} {n : Nat} {P : ParallelMesh}
    (h : createFromSerialMesh m pv n = some P) {p : Nat} {part : Part} (hp : P.parts[p]? = some part) :
    (∀ c ∈ part.cells, ∃ d, m.cells[c.globalID]? = some d ∧ c.material = d.material ∧
      (∀ k, ∃ f, part.faces[c.faces k]? = some f ∧ f.globalID = d.faces k) ∧
      ∀ k, ∃ v, part.nodes[c.nodes k]? = some v ∧ v.globalID = d.nodes k) ∧
    (∀ f ∈ part.faces, ∃ d, m.faces[f.globalID]? = some d ∧
      ∀ k, ∃ v, part.nodes[f.nodes k]? = some v ∧ v.globalID = d.nodes k) ∧
    (∀ v ∈ part.nodes, ∃ d, m.nodes[v.globalID]? = some d ∧ v.coords = d.coords) ∧
    (part.cells.map PCell.globalID).Pairwise (· < ·) ∧
    (part.faces.map PFace.globalID).Pairwise (· < ·) ∧
    (part.nodes.map PNode.globalID).Pairwise (· < ·) ∧
    part.numCells = part.cells.length ∧ part.numFaces = part.faces.length ∧
    part.numNodes = part.nodes.length := by
  obtain ⟨h1, h2, h3, h4, h5, h6, h7, h8⟩ := create_parts h
  have M := createPart_made (h8 p part hp).2
  have ff : ∀ {x i}, find (facesIn (entries m pv) p) x = some i →
      ∃ f, part.faces[i]? = some f ∧ f.globalID = x := by
    intro x i hf
    obtain ⟨b, hb, hab⟩ := forall₂_get M.faces (find_some hf)
    exact ⟨b, hb, (createFace_iff.1 hab).1⟩
  have nn : ∀ {x i}, find (nodesIn (entries m pv) p) x = some i →
      ∃ f, part.nodes[i]? = some f ∧ f.globalID = x := by
    intro x i hf
    obtain ⟨b, hb, hab⟩ := forall₂_get M.nodes (find_some hf)
    exact ⟨b, hb, (createNode_iff.1 hab).1⟩
  refine ⟨?_, ?_, ?_, ?_, ?_, ?_, M.numCells, M.numFaces, M.numNodes⟩
  · intro c hc
    obtain ⟨i, hi⟩ := List.mem_iff_getElem?.1 hc
    obtain ⟨g, hg, hgc⟩ := forall₂_get' M.cells hi
    obtain ⟨rfl, d, hd, hm, hf, hn⟩ := createCell_iff.1 hgc
    exact ⟨d, hd, hm, fun k => ff (hf k), fun k => nn (hn k)⟩
  · intro c hc
    obtain ⟨i, hi⟩ := List.mem_iff_getElem?.1 hc
    obtain ⟨g, hg, hgc⟩ := forall₂_get' M.faces hi
    obtain ⟨rfl, d, t0, t1, hd, -, -, -, hn⟩ := createFace_iff.1 hgc
    exact ⟨d, hd, fun k => nn (hn k)⟩
  · intro c hc
    obtain ⟨i, hi⟩ := List.mem_iff_getElem?.1 hc
    obtain ⟨g, hg, hgc⟩ := forall₂_get' M.nodes hi
    obtain ⟨rfl, d, hd, hn⟩ := createNode_iff.1 hgc
    exact ⟨d, hd, hn⟩
  · rw [map_of_forall₂ (g := PCell.globalID) (fun a b hab => (createCell_iff.1 hab).1) M.cells]; exact cellsIn_sorted _ _
  · rw [map_of_forall₂ (g := PFace.globalID) (fun a b hab => (createFace_iff.1 hab).1) M.faces]; exact facesIn_sorted _ _
  · rw [map_of_forall₂ (g := PNode.globalID) (fun a b hab => (createNode_iff.1 hab).1) M.nodes]; exact nodesIn_sorted _ _

end Verif.MeshFile
