import Verif.Program.Checks
import Verif.Partition.Props
import Verif.MeshFile.Props3

/-!
# From a mesh file to the output file (C75)

The two partitioners, and the start of a rank from a parallel mesh file.
-/
set_option linter.unusedSectionVars false
set_option linter.unusedVariables false
namespace Verif.Program

open Verif.MeshFile Verif.TychoMesh Verif.Geometry Verif.Program.Spec
open Verif.Traverse (Psi)
open Verif.Partition (Centroid Metis IsSort partitionMesh metisGraph)
open Verif.PsiFile (Stored Written lgOf)
open Verif.Storage (PsiData)

/-! ### Model -/

/-- `boundingNodes` of a cell, as `partitionMesh` reads them. Reads beyond the arrays do not happen in a
sound mesh and give zero here. -/
def meshNode (m : SerialMesh) (c : Nat) (v : Fin 4) : Nat := ((m.cells[c]?).map fun d => d.nodes v).getD 0

/-- A coordinate of a node of the serial mesh. -/
noncomputable def meshCoord (val : Nat → ℝ) (m : SerialMesh) (k : Fin 3) (i : Nat) : ℝ :=
  ((m.nodes[i]?).map fun d => val (d.coords k)).getD 0

/-- `main` of util/PartitionColumns.cc:214-220: read, partition into columns, create, write. -/
noncomputable def partitionColumns (val : Nat → ℝ) (sortX sortY : List (Centroid ℝ) → List (Centroid ℝ)) (nX nY : Nat)
    (file : List UInt8) : Option (List UInt8) := do
  let m ← readSerial file
  let pv ← partitionMesh sortX sortY nX nY m.numCells (meshNode m) (meshCoord val m 0) (meshCoord val m 1)
    (List.replicate m.numCells 0)
  let P ← createFromSerialMesh m pv (nX * nY)
  P.write

/-- `boundingFaces` of a cell. -/
def meshFace (m : SerialMesh) (c : Nat) (l : Fin 4) : Nat := ((m.cells[c]?).map fun d => d.faces l).getD 0

/-- A `boundingCells` entry; the maximal value marks the boundary. -/
def cellOf (c : Nat) : Option Nat := if c = invalid then none else some c

/-- The two `boundingCells` of a face. -/
def meshCells (m : SerialMesh) (f : Nat) : Option Nat × Option Nat :=
  match m.faces[f]? with
  | some e => (cellOf (e.cells 0), cellOf (e.cells 1))
  | none => (none, none)

/-- `partitionMesh` of util/PartitionMetis.cc:53-118; `metis` is the library function, given the number of
vertices, the graph and the number of parts. -/
def metisVector (metis : Nat → Metis → Nat → List Nat) (m : SerialMesh) (n : Nat) : Option (List Nat) :=
  if n = 1 then some (List.replicate m.numCells 0)
  else (metisGraph m.numCells m.numFaces (meshFace m) (meshCells m)).map fun g => metis m.numCells g n

/-- `main` of util/PartitionMetis.cc:152-157. -/
def partitionMetis (metis : Nat → Metis → Nat → List Nat) (n : Nat) (file : List UInt8) : Option (List UInt8) := do
  let m ← readSerial file
  let pv ← metisVector metis m n
  let P ← createFromSerialMesh m pv n
  P.write

/-- Start of rank `r` of `n` ranks from a parallel mesh file (src/Main.cc:255-265): read its part, build the
mesh, set up the problem. -/
noncomputable def startFrom (val : Nat → ℝ) (deck : Deck) (file : List UInt8) (n r : Nat)
    (src0 : Verif.Problem.Idx → Option ℝ) : Option (Mesh × RankData) := do
  let part ← readInParallel file n r
  let T ← load val part r
  let D ← start val deck part T src0
  some (T, D)

/-! ### Statements -/

/-- `g` is made from the serial mesh file by one of the partitioners for `n` ranks. Sorting sorts, and Metis
answers with a part for each vertex. -/
inductive Partitioned (val : Nat → ℝ) (file : List UInt8) : Nat → List UInt8 → Prop where
  | columns {sortX sortY : List (Centroid ℝ) → List (Centroid ℝ)} {nX nY : Nat} {g : List UInt8}
      (hX : IsSort (fun a b => a.x < b.x) sortX) (hY : IsSort (fun a b => a.y < b.y) sortY)
      (pX : 0 < nX) (pY : 0 < nY) (h : partitionColumns val sortX sortY nX nY file = some g) : Partitioned val file (nX * nY) g
  | metis {metis : Nat → Metis → Nat → List Nat} {n : Nat} {g : List UInt8}
      (hM : ∀ k G, (metis k G n).length = k ∧ ∀ q ∈ metis k G n, q < n)
      (pn : 0 < n) (h : partitionMetis metis n file = some g) : Partitioned val file n g

/-- All `n` ranks have started from the file `g`, with meshes `T` and data `D`. -/
def Opened (val : Nat → ℝ) (deck : Deck) (g : List UInt8) (n : Nat) (T : Nat → Mesh) (D : Nat → RankData) : Prop :=
  ∀ r < n, ∃ src0, startFrom val deck g n r src0 = some (T r, D r)

/-- The arrays of a part are read with counts of bytes that are `int`s. -/
structure Small (deck : Deck) (m : SerialMesh) : Prop where
  cells : 80 * m.numCells < 2 ^ 31
  faces : 72 * m.numFaces < 2 ^ 31
  nodes : 32 * m.numNodes < 2 ^ 31
  tasks : deck.dirs.length * m.numCells < 2 ^ 64

/-! ### Proofs -/

variable {val : Nat → ℝ} {deck : Deck} {m : SerialMesh} {M M' : Mode} {P P' : ParallelMesh} {T T' : Nat → Mesh}
  {D D' : Nat → RankData} {p : Problem ℝ} {sS : Nat → ℝ} {κ : ℝ} {file g g' : List UInt8} {n n' : Nat}

theorem mesh_metis (ht : Tets m) : Verif.Partition.MeshOK m.numCells m.numFaces (meshFace m) (meshCells m) := by
  have S := ht.toSound
  have cellAt : ∀ c < m.numCells, ∃ d, m.cells[c]? = some d := fun c hc =>
    ⟨_, List.getElem?_eq_getElem (by rw [← S.cells]; exact hc)⟩
  have faceAt : ∀ f < m.numFaces, ∃ e, m.faces[f]? = some e := fun f hf =>
    ⟨_, List.getElem?_eq_getElem (by rw [← S.faces]; exact hf)⟩
  have hface : ∀ {c d}, m.cells[c]? = some d → ∀ l, meshFace m c l = d.faces l := by
    intro c d h l
    unfold meshFace
    rw [h]; rfl
  have hcell : ∀ {f e}, m.faces[f]? = some e → meshCells m f = (cellOf (e.cells 0), cellOf (e.cells 1)) := by
    intro f e h
    unfold meshCells
    rw [h]
  have hof : ∀ {x c}, cellOf x = some c ↔ x = c ∧ x ≠ invalid := by
    intro x c
    unfold cellOf
    by_cases h : x = invalid
    · simp [h]
    · rw [if_neg h, Option.some.injEq]; tauto
  have inv : ∀ c < m.numCells, c ≠ invalid := fun c hc h => by have := S.fit; omega
  constructor
  · intro c hc l
    obtain ⟨d, hd⟩ := cellAt c hc
    rw [hface hd]
    exact S.cellFace c d hd l
  · intro c hc l l' h
    obtain ⟨d, hd⟩ := cellAt c hc
    rw [hface hd, hface hd] at h
    obtain ⟨σ, h1, h2⟩ := ht.omits c d hd
    obtain ⟨e, he⟩ := faceAt _ (S.cellFace c d hd l)
    by_contra hne
    have hσ : σ l ≠ σ l' := fun h => hne (h1 h)
    have a := (h2 l e he (σ l)).not.2 (by simp)
    have b := (h2 l' e (by rw [← h]; exact he) (σ l)).2 hσ
    exact a b
  · intro c hc l
    obtain ⟨d, hd⟩ := cellAt c hc
    obtain ⟨e, he⟩ := faceAt _ (S.cellFace c d hd l)
    rw [hface hd, hcell he]
    obtain ⟨j, hj⟩ := S.lists c d l e hd he
    have := inv c hc
    match j, hj with
    | 0, hj => left; exact hof.2 ⟨hj, by rw [hj]; exact this⟩
    | 1, hj => right; exact hof.2 ⟨hj, by rw [hj]; exact this⟩
  · intro f hf c h
    obtain ⟨e, he⟩ := faceAt f hf
    rw [hcell he] at h
    have : ∃ j, e.cells j = c ∧ e.cells j ≠ invalid := by
      rcases h with h | h
      · exact ⟨0, hof.1 h⟩
      · exact ⟨1, hof.1 h⟩
    obtain ⟨j, rfl, hj⟩ := this
    have hlt := (S.faceCell e (mem_of_get he) j).resolve_left hj
    obtain ⟨d, hd⟩ := cellAt _ hlt
    obtain ⟨k, hk⟩ := ht.back f e he j d hd
    exact ⟨hlt, k, by rw [hface hd]; exact hk⟩
  · rintro f hf c ⟨h1, h2⟩
    obtain ⟨e, he⟩ := faceAt f hf
    rw [hcell he] at h1 h2
    exact ht.sides e (mem_of_get he) ((hof.1 h1).1.trans (hof.1 h2).1.symm)

theorem part_counts (hm : m.OK) {pv : List Nat} (h : createFromSerialMesh m pv n = some P) {r : Nat} {part : Part}
    (hp : P.parts[r]? = some part) : part.numCells ≤ m.numCells ∧ part.numFaces ≤ m.numFaces ∧ part.numNodes ≤ m.numNodes := by
  obtain ⟨k1, k2, k3, k4, k5, k6, k7, k8, k9⟩ := create_connectivity h hp
  have hc := (create_cells h).2 r part hp
  refine ⟨?_, ?_, ?_⟩
  · rw [hc.1, ← List.length_map PCell.globalID, hc.2]
    exact (List.length_filter_le _ _).trans (by rw [List.length_range])
  · rw [k8, ← List.length_map PFace.globalID]
    refine sorted_length k5 fun x hx => ?_
    obtain ⟨f, hf, rfl⟩ := List.mem_map.1 hx
    obtain ⟨d, hd, -⟩ := k2 f hf
    rw [hm.faces]; exact (List.getElem?_eq_some_iff.1 hd).1
  · rw [k9, ← List.length_map PNode.globalID]
    refine sorted_length k6 fun x hx => ?_
    obtain ⟨f, hf, rfl⟩ := List.mem_map.1 hx
    obtain ⟨d, hd, -⟩ := k3 f hf
    rw [hm.nodes]; exact (List.getElem?_eq_some_iff.1 hd).1

/-- What a partitioner writes is a partition of the mesh in the input file. -/
theorem partitioned_parts (hr : readSerial file = some m) (h : Partitioned val file n g) :
    0 < n ∧ ∃ pv P, createFromSerialMesh m pv n = some P ∧ P.write = some g := by
  cases h with
  | columns hX hY pX pY h =>
    unfold partitionColumns at h
    rw [hr] at h
    simp only [Option.bind_eq_bind, Option.bind_some, Option.bind_eq_some_iff] at h
    obtain ⟨pv, -, P, h1, h2⟩ := h
    exact ⟨Nat.mul_pos pX pY, pv, P, h1, h2⟩
  | metis hM pn h =>
    unfold partitionMetis at h
    rw [hr] at h
    simp only [Option.bind_eq_bind, Option.bind_some, Option.bind_eq_some_iff] at h
    obtain ⟨pv, -, P, h1, h2⟩ := h
    exact ⟨pn, pv, P, h1, h2⟩

theorem create_write (hr : readSerial file = some m) (ht : Tets m) (hsm : Small deck m) {pv : List Nat}
    (hpv : pv.length = m.numCells) (hpn : ∀ q ∈ pv, q < n) (hn : 3 + n < 2 ^ 31) :
    ∃ P g, createFromSerialMesh m pv n = some P ∧ P.write = some g := by
  obtain ⟨hm, -⟩ := serial_read_sound hr
  obtain ⟨h1, h2, h3, -⟩ := hsm
  obtain ⟨P, H⟩ := created_of ht (by omega) (by omega) hpv hpn hn
  have ok := create_ok hm (by omega) (by omega) (by omega) H.create
  exact ⟨P, _, H.create, ok.write⟩

/-- C75: both partitioners succeed on a mesh of tetrahedra. -/
theorem partition_succeeds (hr : readSerial file = some m) (ht : Tets m) (hsm : Small deck m) :
    (∀ sortX sortY nX nY, IsSort (fun a b : Centroid ℝ => a.x < b.x) sortX → IsSort (fun a b : Centroid ℝ => a.y < b.y) sortY →
      0 < nX → 0 < nY → 3 + nX * nY < 2 ^ 31 → ∃ g, partitionColumns val sortX sortY nX nY file = some g) ∧
    ∀ (metis : Nat → Metis → Nat → List Nat) n, (∀ k G, (metis k G n).length = k ∧ ∀ q ∈ metis k G n, q < n) → 0 < n →
      3 + n < 2 ^ 31 → ∃ g, partitionMetis metis n file = some g := by
  constructor
  · intro sortX sortY nX nY hX hY pX pY hn
    obtain ⟨pv, h1, h2, h3, -⟩ := Verif.Partition.partition_columns sortX sortY hX hY nX nY m.numCells pX pY (meshNode m)
      (meshCoord val m 0) (meshCoord val m 1) (List.replicate m.numCells 0) (by simp)
    obtain ⟨P, g, k1, k2⟩ := create_write hr ht hsm h2 h3 hn
    refine ⟨g, ?_⟩
    unfold partitionColumns
    rw [hr]
    simp only [Option.bind_eq_bind, Option.bind_some]
    rw [h1]
    simp only [Option.bind_some]
    rw [k1]
    exact k2
  · intro metis n hM pn hn
    have : ∃ pv, metisVector metis m n = some pv ∧ pv.length = m.numCells ∧ ∀ q ∈ pv, q < n := by
      unfold metisVector
      by_cases h1 : n = 1
      · rw [if_pos h1]
        refine ⟨_, rfl, by simp, ?_⟩
        intro q hq
        rw [(List.mem_replicate.1 hq).2]; exact pn
      · rw [if_neg h1]
        obtain ⟨G, hG, -⟩ := Verif.Partition.metis_graph _ _ _ _ (mesh_metis ht)
        rw [hG]
        exact ⟨_, rfl, hM _ _⟩
    obtain ⟨pv, h1, h2, h3⟩ := this
    obtain ⟨P, g, k1, k2⟩ := create_write hr ht hsm h2 h3 hn
    refine ⟨g, ?_⟩
    unfold partitionMetis
    rw [hr]
    simp only [Option.bind_eq_bind, Option.bind_some]
    rw [h1]
    simp only [Option.bind_some]
    rw [k1]
    exact k2

theorem sum_bound {α : Type} {l : List α} {w : α → Nat} {b : Nat} (h : ∀ a ∈ l, w a ≤ b) : (l.map w).sum ≤ l.length * b := by
  induction l with
  | nil => simp
  | cons a l ih =>
    have h1 := h a (by simp)
    have h2 := ih fun x hx => h x (by simp [hx])
    rw [List.map_cons, List.sum_cons, List.length_cons, Nat.add_mul]
    omega

/-- The file of up to 2^30 parts has a size below 2^63. -/
theorem file_length (hr : readSerial file = some m) (hsm : Small deck m) (hn : n ≤ 2 ^ 30) {pv : List Nat}
    (hc : createFromSerialMesh m pv n = some P) (hw : P.write = some g) : g.length < 2 ^ 63 := by
  obtain ⟨hm, -⟩ := serial_read_sound hr
  obtain ⟨h1, h2, h3, -⟩ := hsm
  obtain ⟨l1, l2, l3, l4, l5, l6, l7, l8⟩ := create_parts hc
  have ok := create_ok hm (by omega) (by omega) (by omega) hc
  rw [ok.write, Option.some.injEq] at hw
  subst hw
  have hws : ∀ part ∈ P.parts, part.ws.length ≤ 2 ^ 30 - 2 ^ 20 := by
    intro part hp
    obtain ⟨r, hr⟩ := List.mem_iff_getElem?.1 hp
    obtain ⟨c1, c2, c3⟩ := part_counts hm hc hr
    have := (ok.part part hp).ws_length
    have e := ok.part part hp
    omega
  have hs := sum_bound (w := fun p : Part => p.ws.length) hws
  have hname : parallelName.length = 32 := rfl
  unfold ParallelMesh.bytes
  rw [List.length_append, List.length_append, List.length_append, writeWords_length, writeWords_length, writeWords_length,
    hname, ok.offsets, List.length_flatten, List.map_map, l5]
  have e : (List.map (List.length ∘ Part.ws) P.parts).sum = (P.parts.map fun p => p.ws.length).sum := rfl
  rw [e]
  rw [l6] at hs
  have : n * (2 ^ 30 - 2 ^ 20) ≤ 2 ^ 30 * (2 ^ 30 - 2 ^ 20) := Nat.mul_le_mul_right _ hn
  simp only [List.length_cons, List.length_nil]
  omega

/-- Each rank gets its part from the file. -/
theorem read_part (hr : readSerial file = some m) (hsm : Small deck m) {pv : List Nat}
    (hc : createFromSerialMesh m pv n = some P) (hw : P.write = some g) (hg : g.length < 2 ^ 63) {r : Nat} {part : Part}
    (hp : P.parts[r]? = some part) : readInParallel g n r = some part := by
  obtain ⟨hm, -⟩ := serial_read_sound hr
  obtain ⟨h1, h2, h3, -⟩ := hsm
  obtain ⟨c1, c2, c3⟩ := part_counts hm hc hp
  obtain ⟨l1, l2, l3, l4, l5, l6, l7, l8⟩ := create_parts hc
  have hlen : P.bytesOffset.length = n + 1 := by rw [l7, offsetsFrom_length, l6]
  have hrn := (l8 r part hp).1
  exact readInParallel_partial hm (by omega) (by omega) (by omega) hc hw hg hp
    (List.getElem?_eq_getElem (l := P.bytesOffset) (i := r) (by omega))
    (List.getElem?_eq_getElem (l := P.bytesOffset) (i := r + 1) (by omega)) (by omega) (by omega) (by omega) rfl rfl rfl

/-- All ranks start from the file of a partitioner, each with its part. -/
theorem opened_read (hr : readSerial file = some m) (ht : Tets m) (F : Fits val m) (hs : Sensible val deck m)
    (hsm : Small deck m) (hP : Partitioned val file n g) (hn : n ≤ 2 ^ 30) (hth : 0 < M.threads) :
    (∃ T D, Opened val deck g n T D) ∧
    ∃ pv P, (∀ r part, P.parts[r]? = some part → readInParallel g n r = some part) ∧
      ∀ T D, Opened val deck g n T D → Ready val deck m { M with pv := pv, n := n } P T D := by
  obtain ⟨-, pv, P, hc, hw⟩ := partitioned_parts hr hP
  have hg := file_length hr hsm hn hc hw
  obtain ⟨l1, l2, l3, l4, l5, l6, l7, l8⟩ := create_parts hc
  have H : Created m pv n P := ⟨ht, by have := hsm.faces; omega, by have := hsm.nodes; omega, hc⟩
  have hread : ∀ {r part}, P.parts[r]? = some part → readInParallel g n r = some part :=
    fun hp => read_part hr hsm hc hw hg hp
  constructor
  · obtain ⟨T, L⟩ := load_succeeds val H
    obtain ⟨D, hD⟩ := started_exists H L F hs
    refine ⟨T, D, fun r hrn => ?_⟩
    obtain ⟨part, hp⟩ := isCell_part H hrn
    obtain ⟨src0, h0⟩ := hD r part hp
    refine ⟨src0, ?_⟩
    unfold startFrom
    rw [hread hp]
    simp only [Option.bind_eq_bind, Option.bind_some]
    rw [L r part hp]
    simp only [Option.bind_some]
    rw [h0]
    rfl
  · refine ⟨pv, P, fun r part hp => hread hp, fun T D hO => ?_⟩
    have key : ∀ r part, P.parts[r]? = some part → load val part r = some (T r) ∧ ∃ src0, start val deck part (T r) src0 = some (D r) := by
      intro r part hp
      obtain ⟨src0, h0⟩ := hO r (l8 r part hp).1
      unfold startFrom at h0
      rw [hread hp] at h0
      simp only [Option.bind_eq_bind, Option.bind_some, Option.bind_eq_some_iff, Option.some.injEq, Prod.mk.injEq] at h0
      obtain ⟨T1, h1, D1, h2, rfl, rfl⟩ := h0
      exact ⟨h1, src0, h2⟩
    refine ⟨H, fun r part hp => (key r part hp).1, fun r part hp => (key r part hp).2, ?_, hth, ?_⟩
    · show n < uintMax
      unfold uintMax; omega
    · intro r hrn
      have hrn : r < n := hrn
      refine lt_of_le_of_lt (Nat.mul_le_mul_left _ ?_) hsm.tasks
      obtain ⟨part, hp⟩ := isCell_part H hrn
      obtain ⟨B, -, -, -, -, hN, -⟩ := loc_facts (x := ⟨r, 0, 0⟩) H (fun r part hp => (key r part hp).1) hp
      dsimp only at hN
      rw [hN]
      obtain ⟨hm, -⟩ := serial_read_sound hr
      have := (part_counts hm hc hp).1
      have := ((create_cells hc).2 r part hp).1
      omega

/-- C75: all ranks start from the file of a partitioner, and then the program is `Ready`, so that the
theorems on its sweeps and results apply. -/
theorem opened_ready (hr : readSerial file = some m) (ht : Tets m) (F : Fits val m) (hs : Sensible val deck m)
    (hsm : Small deck m) (hP : Partitioned val file n g) (hn : n ≤ 2 ^ 30) (hth : 0 < M.threads) :
    (∃ T D, Opened val deck g n T D) ∧
    ∃ pv P, ∀ T D, Opened val deck g n T D → Ready val deck m { M with pv := pv, n := n } P T D := by
  obtain ⟨h1, pv, P, -, h2⟩ := opened_read (M := M) hr ht F hs hsm hP hn hth
  exact ⟨h1, pv, P, h2⟩

/-- C75: from one serial mesh file, with any two partitioners and numbers of ranks, sweeps of the program
write the same output file, byte by byte. -/
theorem files_output (hr : readSerial file = some m) (ht : Tets m) (F : Fits val m) (hs : Sensible val deck m)
    (hsm : Small deck m) (hP : Partitioned val file n g) (hP' : Partitioned val file n' g')
    (h30 : n ≤ 2 ^ 30) (h30' : n' ≤ 2 ^ 30) (hth : 0 < M.threads) (hth' : 0 < M'.threads)
    (hn : M.n = n) (hn' : M'.n = n')
    (hO : Opened val deck g n T D) (hO' : Opened val deck g' n' T' D') {psi psi' : Nat → Psi ℝ}
    (hp : Swept M deck T D psi) (hp' : Swept M' deck T' D' psi')
    (hng : 0 < deck.nGroups) (hna : 0 < deck.dirs.length) (hblock : deck.dirs.length * 4 * deck.nGroups < 2 ^ 31)
    (hfile : 64 + 8 * (m.numCells * (deck.dirs.length * 4 * deck.nGroups)) ≤ 2 ^ 63) {bits : ℝ → Nat}
    {A A' : Nat → PsiData Nat} (hA : Stored bits n T deck.nGroups deck.dirs.length psi A)
    (hA' : Stored bits n' T' deck.nGroups deck.dirs.length psi' A') {f f' : Verif.PsiFile.File}
    (hw : Written n A (lgOf T) f) (hw' : Written n' A' (lgOf T') f') : f = f' := by
  obtain ⟨-, pv, P, h⟩ := opened_ready (M := M) hr ht F hs hsm hP h30 hth
  obtain ⟨-, pv', P', h'⟩ := opened_ready (M := M') hr ht F hs hsm hP' h30' hth'
  subst hn hn'
  exact program_output (h T D hO) (h' T' D' hO') F hs hp hp' (partitioned_parts hr hP).1 (partitioned_parts hr hP').1
    hng hna hblock hfile hA hA' hw hw'

/-- C75: with scattering, exactly converged results agree cell by cell. -/
theorem files_result (hr : readSerial file = some m) (ht : Tets m) (F : Fits val m) (hs : Sensible val deck m)
    (hsm : Small deck m) (hP : Partitioned val file n g) (hP' : Partitioned val file n' g')
    (h30 : n ≤ 2 ^ 30) (h30' : n' ≤ 2 ^ 30) (hth : 0 < M.threads) (hth' : 0 < M'.threads)
    (hn : M.n = n) (hn' : M'.n = n')
    (hO : Opened val deck g n T D) (hO' : Opened val deck g' n' T' D')
    (Ds : Describes val deck m p sS) (hac : p.Acyclic m) (htr : p.Transversal m)
    (hκ : Subcritical deck κ) (hκ1 : κ < 1) {k k' : Nat} (hk : m.numCells ≤ k) (hk' : m.numCells ≤ k')
    {psi psi' : Nat → Psi ℝ} (hp : Solves M deck T D k psi) (hp' : Solves M' deck T' D' k' psi')
    {r i r' i' c : Nat} (hrn : r < n) (hrn' : r' < n') (hc : (T r).getLGCell i = some c)
    (hc' : (T' r').getLGCell i' = some c) :
    ∀ gr < deck.nGroups, ∀ a < deck.dirs.length, ∀ v, psi r gr v a i = psi' r' gr v a i' := by
  obtain ⟨-, pv, P, h⟩ := opened_ready (M := M) hr ht F hs hsm hP h30 hth
  obtain ⟨-, pv', P', h'⟩ := opened_ready (M := M') hr ht F hs hsm hP' h30' hth'
  subst hn hn'
  exact program_results_agree (h T D hO) (h' T' D' hO') F hs Ds hac htr hκ hκ1 hk hk' hp hp' hrn hrn' hc hc'

/-! ### The mesh of two cells -/

theorem two_ok : twoMesh.OK := by
  refine ⟨rfl, rfl, rfl, by decide, by decide, by decide, ?_, ?_, ?_⟩
  · decide
  · decide
  · decide

theorem sort_exists {α : Type} (f : α → ℝ) : ∃ sort : List α → List α, IsSort (fun a b => f a < f b) sort := by
  classical
  refine ⟨fun l => l.mergeSort fun a b => f a ≤ f b, fun l => ⟨List.mergeSort_perm _ _, ?_⟩⟩
  have := List.pairwise_mergeSort (le := fun a b => decide (f a ≤ f b)) (by
    intro a b c h1 h2
    simp only [decide_eq_true_eq] at h1 h2 ⊢
    exact h1.trans h2) (by
    intro a b
    simp only [Bool.or_eq_true, decide_eq_true_eq]
    exact le_total _ _) l
  refine this.imp fun {a b} h => ?_
  simp only [decide_eq_true_eq] at h
  exact not_lt.2 h

/-- C75: the file of the mesh of two cells, partitioned into 1 x 2 columns and by a Metis that puts all cells
into the last of 3 parts. All ranks start from the two files and their sweeps end, so `files_output`
applies to them. -/
theorem two_files : ∃ (deck : Deck) (g g' : List UInt8) (T T' : Nat → Mesh) (D D' : Nat → RankData) (psi psi' : Nat → Psi ℝ)
    (M M' : Mode), readSerial twoMesh.bytes = some twoMesh ∧ Small deck twoMesh ∧ Sensible twoVal deck twoMesh ∧
    Partitioned twoVal twoMesh.bytes 2 g ∧ Partitioned twoVal twoMesh.bytes 3 g' ∧
    M.n = 2 ∧ M'.n = 3 ∧ 0 < M.threads ∧ 0 < M'.threads ∧
    Opened twoVal deck g 2 T D ∧ Opened twoVal deck g' 3 T' D' ∧ Swept M deck T D psi ∧ Swept M' deck T' D' psi' := by
  obtain ⟨deck, -, -, -, -, -, -, -, -, hQ, hG, hs, -⟩ := two_runs
  have hlen : deck.dirs.length = 32 := by
    have := Verif.Quadrature.count hQ
    omega
  have hr : readSerial twoMesh.bytes = some twoMesh := by
    obtain ⟨f, h1, h2⟩ := serial_roundtrip two_ok
    rw [two_ok.write, Option.some.injEq] at h1
    subst h1
    simpa using h2 []
  have hsm : Small deck twoMesh := ⟨by decide, by decide, by decide, by rw [hlen]; decide⟩
  obtain ⟨sX, hX⟩ := sort_exists (Centroid.x (K := ℝ))
  obtain ⟨sY, hY⟩ := sort_exists (Centroid.y (K := ℝ))
  obtain ⟨q1, q2⟩ := partition_succeeds (val := twoVal) hr twoMesh_tets hsm
  obtain ⟨g, hg⟩ := q1 sX sY 1 2 hX hY (by decide) (by decide) (by decide)
  have hM : ∀ (k : Nat) (G : Metis), (List.replicate k 2).length = k ∧ ∀ q ∈ List.replicate k 2, q < 3 := by
    intro k G
    refine ⟨by simp, fun q hq => ?_⟩
    rw [(List.mem_replicate.1 hq).2]; decide
  obtain ⟨g', hg'⟩ := q2 (fun k _ _ => List.replicate k 2) 3 hM (by decide) (by decide)
  have hP : Partitioned twoVal twoMesh.bytes 2 g := .columns (nX := 1) (nY := 2) hX hY (by decide) (by decide) hg
  have hP' : Partitioned twoVal twoMesh.bytes 3 g' := .metis hM (by decide) hg'
  obtain ⟨⟨T, D, hO⟩, pv, P, h⟩ := opened_ready (M := oneRank) hr twoMesh_tets two_fits hs hsm hP (by decide) (by decide)
  obtain ⟨⟨T', D', hO'⟩, pv', P', h'⟩ := opened_ready (M := twoRanks) hr twoMesh_tets two_fits hs hsm hP' (by decide) (by decide)
  obtain ⟨p, sS, Ds⟩ := describes_exists twoMesh_tets two_fits hs
  have hmu : ∀ d ∈ deck.dirs, d.mu ≠ 0 := fun d hd => (Verif.Quadrature.off_planes hQ d hd).2.2
  obtain ⟨psi, hp⟩ := program_finishes (h T D hO) two_fits hs Ds (two_acyclic Ds) (two_transversal Ds hmu) Nat.one_pos rfl
  obtain ⟨psi', hp'⟩ := program_finishes (h' T' D' hO') two_fits hs Ds (two_acyclic Ds) (two_transversal Ds hmu) (show 0 < 5 by decide) rfl
  exact ⟨deck, g, g', T, T', D, D', psi, psi', _, _, hr, hsm, hs, hP, hP', rfl, rfl, Nat.one_pos, (show 0 < 3 by decide), hO, hO', hp, hp'⟩

end Verif.Program
