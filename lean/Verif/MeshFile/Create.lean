import Verif.MeshFile.Model
import Mathlib.Data.Fin.VecNotation

/-!
# Partitioning a mesh (src/ParallelMesh.cc:397-562)

The loop over the cells that fills the sets of all partitions is written per partition. The loops
that fill the records go through a set in increasing order and write each record at the position of
its element in the same set (`gpCells[part].find(gcell)->second`), so they are maps. `none` is a
failed assertion, an access outside an array or `find(...)->second` of a missing key.
-/
namespace Verif.MeshFile

/-- `std::set::insert` on the increasing sequence of elements. -/
def setInsert (x : Nat) : List Nat → List Nat
  | [] => [x]
  | y :: l => if x < y then x :: y :: l else if x = y then y :: l else y :: setInsert x l

/-- A 64-bit value stored in an `int` and converted back to `uint64_t`
(src/ParallelMesh.cc:422-423, 428-429). -/
def viaInt (n : Nat) : Nat := if n % 2 ^ 32 < 2 ^ 31 then n % 2 ^ 32 else n % 2 ^ 32 + (2 ^ 64 - 2 ^ 32)

/-- `find(x)->second` in the map from the elements of a set to their positions
(src/ParallelMesh.cc:434-460). -/
def find (set : List Nat) (x : Nat) : Option Nat := set.idxOf? x

/-- All four (three, two) lookups succeed. -/
def sequence {n : Nat} (f : Fin n → Option Nat) : Option (Fin n → Nat) :=
  if h : ∀ k, (f k).isSome then some fun k => (f k).get (h k) else none

/-- Cells with their index and partition. -/
def entries (m : SerialMesh) (pv : List Nat) : List ((SCell × Nat) × Nat) :=
  ((m.cells.take m.numCells).zipIdx).zip pv

/-- `cellsInPartition[part]` (src/ParallelMesh.cc:411-418). -/
def cellsIn (es : List ((SCell × Nat) × Nat)) (part : Nat) : List Nat :=
  es.foldl (fun s e => if e.2 = part then setInsert e.1.2 s else s) []

/-- `facesInPartition[part]` (src/ParallelMesh.cc:420-424). -/
def facesIn (es : List ((SCell × Nat) × Nat)) (part : Nat) : List Nat :=
  es.foldl (fun s e => if e.2 = part then
    (List.finRange 4).foldl (fun s k => setInsert (viaInt (e.1.1.faces k)) s) s else s) []

/-- `nodesInPartition[part]` (src/ParallelMesh.cc:427-430). -/
def nodesIn (es : List ((SCell × Nat) × Nat)) (part : Nat) : List Nat :=
  es.foldl (fun s e => if e.2 = part then
    (List.finRange 4).foldl (fun s k => setInsert (viaInt (e.1.1.nodes k)) s) s else s) []

/-- `CellData` (src/ParallelMesh.cc:479-494). -/
def createCell (m : SerialMesh) (faces nodes : List Nat) (gcell : Nat) : Option PCell := do
  let d ← m.cells[gcell]?
  let fs ← sequence fun k => find faces (d.faces k)
  let ns ← sequence fun k => find nodes (d.nodes k)
  some ⟨fs, ns, gcell, d.material⟩

/-- `INVALID_INDEX`. -/
def invalid : Nat := 2 ^ 64 - 1

/-- One bounding cell of a face: `boundingCells[lcell]`, `partition[lcell]`, and the assignment to
`boundaryType` if there is one (src/ParallelMesh.cc:505-522). -/
def createSide (pv : List Nat) (cellsOf : Nat → List Nat) (part gcell : Nat) :
    Option (Nat × Nat × Option Nat) :=
  if gcell = invalid then some (invalid, invalid, some 0)
  else do
    let p ← pv[gcell]?
    if p ≠ part then
      let c ← find (cellsOf (viaInt p)) gcell
      some (c, viaInt p, some 1)
    else
      let c ← find (cellsOf part) gcell
      some (c, part, none)

/-- `FaceData` (src/ParallelMesh.cc:497-527). -/
def createFace (m : SerialMesh) (pv : List Nat) (cellsOf : Nat → List Nat) (part : Nat) (nodes : List Nat)
    (gface : Nat) : Option PFace := do
  let d ← m.faces[gface]?
  let (c0, p0, t0) ← createSide pv cellsOf part (d.cells 0)
  let (c1, p1, t1) ← createSide pv cellsOf part (d.cells 1)
  let ns ← sequence fun k => find nodes (d.nodes k)
  some ⟨![c0, c1], ns, gface, ![p0, p1], t1.getD (t0.getD 2)⟩

/-- `NodeData` (src/ParallelMesh.cc:530-539). -/
def createNode (m : SerialMesh) (gnode : Nat) : Option PNode := do
  let d ← m.nodes[gnode]?
  some ⟨d.coords, gnode⟩

/-- One partition (src/ParallelMesh.cc:464-540). -/
def createPart (m : SerialMesh) (pv : List Nat) (part : Nat) : Option Part := do
  let es := entries m pv
  let cs := cellsIn es part
  let fs := facesIn es part
  let ns := nodesIn es part
  let cells ← cs.mapM (createCell m fs ns)
  let faces ← fs.mapM (createFace m pv (cellsIn es) part ns)
  let nodes ← ns.mapM (createNode m)
  some ⟨cs.length, fs.length, ns.length, cells, faces, nodes⟩

/-- `sizeOfPartition` (src/ParallelMesh.cc:545-557), 64-bit. -/
def sizeOfPartition (p : Part) : Nat :=
  (3 * 8 + p.numCells * (10 * 8) + p.numFaces * (9 * 8) + p.numNodes * (3 * 8 + 1 * 8)) % 2 ^ 64

/-- `c_bytesOffset` from a given start (src/ParallelMesh.cc:543-561). -/
def offsetsFrom (start : Nat) : List Part → List Nat
  | [] => [start]
  | p :: ps => start :: offsetsFrom ((start + sizeOfPartition p) % 2 ^ 64) ps

/-- `ParallelMesh::createFromSerialMesh` (src/ParallelMesh.cc:397-562); `3 + numPartitions` is
computed in `int`. -/
def createFromSerialMesh (m : SerialMesh) (pv : List Nat) (numPartitions : Nat) : Option ParallelMesh :=
  if pv.length = m.numCells ∧ m.numCells ≤ m.cells.length ∧ (∀ p ∈ pv, p < numPartitions) ∧
      3 + numPartitions < 2 ^ 31 then do
    let parts ← (List.range numPartitions).mapM (createPart m pv)
    some ⟨numPartitions, offsetsFrom (32 * 1 + (3 + numPartitions) * 8) parts, parts⟩
  else none

end Verif.MeshFile
