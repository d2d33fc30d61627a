import Verif.Bytes.Basic
import Mathlib.Data.Fintype.Pi

/-!
# Mesh files

`SerialMesh::write`, `read` (src/SerialMesh.cc), `ParallelMesh::write`, `read`, `readInParallel`
(src/ParallelMesh.cc). A file is its bytes. `uint64_t` values are numbers below `2^64`, a `double` is
its bit pattern. `none` is a failed assertion, an access outside an array or a failed allocation.

Simplifications: opening, closing and writing always succeed; the allocations are assumed to succeed
if their size does not overflow (`resize` of `c_cellData` to a number of elements whose word count
overflows 64 bits exceeds `max_size` and throws).
-/
namespace Verif.MeshFile

open Verif.Bytes

/-! ## Words -/

/-- `fwrite` of 64-bit words. -/
def writeWords (ws : List Nat) : List UInt8 := ws.flatMap enc64

/-- The word at byte `8 * i`. -/
def wordAt (bytes : List UInt8) (i : Nat) : Nat := dec ((bytes.drop (8 * i)).take 8)

/-- `fread` of `n` words with the assertion on the number read; the words and what is left. -/
def readWords (n : Nat) (bytes : List UInt8) : Option (List Nat × List UInt8) :=
  if 8 * n ≤ bytes.length then some ((List.range n).map (wordAt bytes), bytes.drop (8 * n)) else none

/-- `fread` of `n * k` words for `n` elements of `k` words, with the 64-bit product; the later
`resize` to `n` elements throws if the product overflowed. -/
def readArray (n k : Nat) (bytes : List UInt8) : Option (List Nat × List UInt8) :=
  if n * k < 2 ^ 64 then readWords (n * k) bytes else none

/-- A loop over the first `n` entries of a vector; `none` if it is shorter. -/
def firstN {α : Type} (n : Nat) (l : List α) : Option (List α) :=
  if n ≤ l.length then some (l.take n) else none

/-- `buffer[i]`; the callers stay inside. -/
def get (buffer : List Nat) (i : Nat) : Nat := buffer.getD i 0

/-! ## Serial meshes -/

/-- `SerialMesh::CellData` (src/SerialMesh.hh:85-90). -/
@[ext] structure SCell where
  faces : Fin 4 → Nat
  nodes : Fin 4 → Nat
  material : Nat
deriving DecidableEq

/-- `SerialMesh::FaceData` (src/SerialMesh.hh:91-95). -/
@[ext] structure SFace where
  cells : Fin 2 → Nat
  nodes : Fin 3 → Nat
deriving DecidableEq

/-- `SerialMesh::NodeData` (src/SerialMesh.hh:96-99), bit patterns. -/
@[ext] structure SNode where
  coords : Fin 3 → Nat
deriving DecidableEq

/-- The data of a `SerialMesh` (src/SerialMesh.hh:103-110) other than name and version. -/
@[ext] structure SerialMesh where
  numCells : Nat
  numFaces : Nat
  numNodes : Nat
  cells : List SCell
  faces : List SFace
  nodes : List SNode
deriving DecidableEq

/-- `MESH_FORMAT_NAME` (src/SerialMesh.cc:48-50), 32 bytes. -/
def serialName : List UInt8 :=
  [84, 121, 99, 104, 111, 32, 50, 32, 83, 101, 114, 105, 97, 108, 32, 77,
   101, 115, 104, 0, 0, 0, 0, 0, 0, 0, 0, 0, 0, 0, 0, 0]

/-- `VERSION` (src/SerialMesh.hh:80, src/ParallelMesh.hh:94). -/
def version : Nat := 2

/-- Buffered cell data (src/SerialMesh.cc:154-164). -/
def SCell.words (c : SCell) : List Nat :=
  [c.faces 0, c.faces 1, c.faces 2, c.faces 3, c.nodes 0, c.nodes 1, c.nodes 2, c.nodes 3, c.material]

/-- Buffered face data (src/SerialMesh.cc:170-175). -/
def SFace.words (f : SFace) : List Nat := [f.cells 0, f.cells 1, f.nodes 0, f.nodes 1, f.nodes 2]

/-- Buffered node data (src/SerialMesh.cc:181-183). -/
def SNode.words (n : SNode) : List Nat := [n.coords 0, n.coords 1, n.coords 2]

/-- `SerialMesh::write` (src/SerialMesh.cc:120-201). -/
def SerialMesh.write (m : SerialMesh) : Option (List UInt8) := do
  let cells ← firstN m.numCells m.cells
  let faces ← firstN m.numFaces m.faces
  let nodes ← firstN m.numNodes m.nodes
  some (serialName ++ writeWords ([version, m.numCells, m.numFaces, m.numNodes] ++
    cells.flatMap SCell.words ++ faces.flatMap SFace.words) ++ writeWords (nodes.flatMap SNode.words))

/-- Unpacking cell `i` (src/SerialMesh.cc:248-258). -/
def sCellAt (b : List Nat) (i : Nat) : SCell :=
  ⟨fun k => get b (i * 9 + k), fun k => get b (i * 9 + 4 + k), get b (i * 9 + 8)⟩

/-- Unpacking face `i` (src/SerialMesh.cc:269-274). -/
def sFaceAt (b : List Nat) (i : Nat) : SFace :=
  ⟨fun k => get b (i * 5 + k), fun k => get b (i * 5 + 2 + k)⟩

/-- Unpacking node `i` (src/SerialMesh.cc:285-287). -/
def sNodeAt (b : List Nat) (i : Nat) : SNode := ⟨fun k => get b (i * 3 + k)⟩

/-- `memcmp` of the name after an `fread` of 32 characters (src/SerialMesh.cc:223-227). -/
def readName (name : List UInt8) (bytes : List UInt8) : Option (List UInt8) :=
  if 32 ≤ bytes.length ∧ bytes.take 32 = name then some (bytes.drop 32) else none

/-- `SerialMesh::read` (src/SerialMesh.cc:209-293) and what is left of the file. -/
def readSerialRest (bytes : List UInt8) : Option (SerialMesh × List UInt8) := do
  let b0 ← readName serialName bytes
  let (h, b1) ← readWords 4 b0
  if get h 0 = version then
    let nc := get h 1
    let nf := get h 2
    let nn := get h 3
    let (cw, b2) ← readArray nc 9 b1
    let (fw, b3) ← readArray nf 5 b2
    let (nw, b4) ← readArray nn 3 b3
    some (⟨nc, nf, nn, (List.range nc).map (sCellAt cw), (List.range nf).map (sFaceAt fw),
      (List.range nn).map (sNodeAt nw)⟩, b4)
  else none

/-- `SerialMesh::read` (src/SerialMesh.cc:209-293). -/
def readSerial (bytes : List UInt8) : Option SerialMesh := (readSerialRest bytes).map Prod.fst

/-! ## Parallel meshes -/

/-- `ParallelMesh::CellData` (src/ParallelMesh.hh:103-109). -/
@[ext] structure PCell where
  faces : Fin 4 → Nat
  nodes : Fin 4 → Nat
  globalID : Nat
  material : Nat
deriving DecidableEq

/-- `ParallelMesh::FaceData` (src/ParallelMesh.hh:110-117). -/
@[ext] structure PFace where
  cells : Fin 2 → Nat
  nodes : Fin 3 → Nat
  globalID : Nat
  partition : Fin 2 → Nat
  boundaryType : Nat
deriving DecidableEq

/-- `ParallelMesh::NodeData` (src/ParallelMesh.hh:118-122). -/
@[ext] structure PNode where
  coords : Fin 3 → Nat
  globalID : Nat
deriving DecidableEq

/-- `ParallelMesh::PartitionData` (src/ParallelMesh.hh:123-131). -/
@[ext] structure Part where
  numCells : Nat
  numFaces : Nat
  numNodes : Nat
  cells : List PCell
  faces : List PFace
  nodes : List PNode
deriving DecidableEq

/-- The data of a `ParallelMesh` (src/ParallelMesh.hh:135-139) other than name and version. -/
@[ext] structure ParallelMesh where
  numPartitions : Nat
  bytesOffset : List Nat
  parts : List Part
deriving DecidableEq

/-- `MESH_FORMAT_NAME` (src/ParallelMesh.cc:50-52). -/
def parallelName : List UInt8 :=
  [84, 121, 99, 104, 111, 32, 50, 32, 80, 97, 114, 97, 108, 108, 101, 108,
   32, 77, 101, 115, 104, 0, 0, 0, 0, 0, 0, 0, 0, 0, 0, 0]

/-- Buffered cell data (src/ParallelMesh.cc:205-218). -/
def PCell.words (c : PCell) : List Nat :=
  [c.faces 0, c.faces 1, c.faces 2, c.faces 3, c.nodes 0, c.nodes 1, c.nodes 2, c.nodes 3, c.globalID,
   c.material]

/-- Buffered face data (src/ParallelMesh.cc:222-236). -/
def PFace.words (f : PFace) : List Nat :=
  [f.cells 0, f.cells 1, f.nodes 0, f.nodes 1, f.nodes 2, f.globalID, f.partition 0, f.partition 1,
   f.boundaryType]

/-- Buffered node data (src/ParallelMesh.cc:240-252). -/
def PNode.words (n : PNode) : List Nat := [n.coords 0, n.coords 1, n.coords 2, n.globalID]

/-- Buffered partition data (src/ParallelMesh.cc:198-252). -/
def Part.words (p : Part) : Option (List Nat) := do
  let cells ← firstN p.numCells p.cells
  let faces ← firstN p.numFaces p.faces
  let nodes ← firstN p.numNodes p.nodes
  some ([p.numCells, p.numFaces, p.numNodes] ++ cells.flatMap PCell.words ++
    faces.flatMap PFace.words ++ nodes.flatMap PNode.words)

/-- `ParallelMesh::write` (src/ParallelMesh.cc:162-264). -/
def ParallelMesh.write (m : ParallelMesh) : Option (List UInt8) := do
  let offsets ← firstN (m.numPartitions + 1) m.bytesOffset
  let parts ← firstN m.numPartitions m.parts
  let ws ← parts.mapM Part.words
  some (parallelName ++ writeWords ([version, m.numPartitions] ++ offsets ++ ws.flatten))

/-- Unpacking cell `i` (src/ParallelMesh.cc:331-342, 633-644). -/
def pCellAt (b : List Nat) (i : Nat) : PCell :=
  ⟨fun k => get b (i * 10 + k), fun k => get b (i * 10 + 4 + k), get b (i * 10 + 8), get b (i * 10 + 9)⟩

/-- Unpacking face `i` (src/ParallelMesh.cc:354-366, 654-666). -/
def pFaceAt (b : List Nat) (i : Nat) : PFace :=
  ⟨fun k => get b (i * 9 + k), fun k => get b (i * 9 + 2 + k), get b (i * 9 + 5),
   fun k => get b (i * 9 + 6 + k), get b (i * 9 + 8)⟩

/-- Unpacking node `i` (src/ParallelMesh.cc:378-382, 677-681). -/
def pNodeAt (b : List Nat) (i : Nat) : PNode :=
  ⟨fun k => get b (i * 4 + k), get b (i * 4 + 3)⟩

/-- Reading one partition (src/ParallelMesh.cc:312-383). -/
def readPart (bytes : List UInt8) : Option (Part × List UInt8) := do
  let (h, b1) ← readWords 3 bytes
  let nc := get h 0
  let nf := get h 1
  let nn := get h 2
  let (cw, b2) ← readArray nc 10 b1
  let (fw, b3) ← readArray nf 9 b2
  let (nw, b4) ← readArray nn 4 b3
  some (⟨nc, nf, nn, (List.range nc).map (pCellAt cw), (List.range nf).map (pFaceAt fw),
    (List.range nn).map (pNodeAt nw)⟩, b4)

/-- The loop over the partitions (src/ParallelMesh.cc:310-384). -/
def readParts : Nat → List UInt8 → Option (List Part × List UInt8)
  | 0, bytes => some ([], bytes)
  | n + 1, bytes => do
    let (p, b1) ← readPart bytes
    let (ps, b2) ← readParts n b1
    some (p :: ps, b2)

/-- `ParallelMesh::read` (src/ParallelMesh.cc:272-389) and what is left of the file. The size
`c_numPartitions + 1` of the offset table must not overflow (`c_partitionData.resize` throws). -/
def readParallelRest (bytes : List UInt8) : Option (ParallelMesh × List UInt8) := do
  let b0 ← readName parallelName bytes
  let (h, b1) ← readWords 2 b0
  if get h 0 = version then
    let n := get h 1
    let (offs, b2) ← readArray (n + 1) 1 b1
    let (ps, b3) ← readParts n b2
    some (⟨n, offs, ps⟩, b3)
  else none

/-- `ParallelMesh::read` (src/ParallelMesh.cc:272-389). -/
def readParallel (bytes : List UInt8) : Option ParallelMesh := (readParallelRest bytes).map Prod.fst

/-! ## Parallel reading -/

/-- The 32-bit signed number a value is converted to when passed as `int`. -/
def toInt32 (n : Nat) : Int := if n % 2 ^ 32 < 2 ^ 31 then (n % 2 ^ 32 : Nat) else (n % 2 ^ 32 : Nat) - 2 ^ 32

/-- `vector::resize`. -/
def resize (buf : List Nat) (n : Nat) : List Nat := buf.take n ++ List.replicate (n - buf.length) 0

/-- `Comm::readUint64(file, buf, n)` at file position `pos` (src/Comm.cc:384-389): `n` is passed as
`int`, and `sizeof(uint64_t) * n` again, so the number of bytes requested is `8 n` reduced to 32
signed bits. MPI rejects a negative count (`none`). The words of `buf` beyond those read stay. The
result is also `none` if the file ends early; the code does not check this and would go on with the
old contents. -/
def mpiRead (file : List UInt8) (pos n : Nat) (buf : List Nat) : Option (List Nat × Nat) :=
  let bytes := (toInt32 (8 * n)).toNat
  if toInt32 (8 * n) < 0 ∨ file.length < pos + bytes ∨ buf.length * 8 < bytes then none
  else some ((List.range (bytes / 8)).map (fun i => wordAt (file.drop pos) i) ++ buf.drop (bytes / 8),
    pos + bytes)

/-- The header check on rank 0 (src/ParallelMesh.cc:594-609). -/
def checkHeader (file : List UInt8) (numRanks : Nat) : Option Unit := do
  let b0 ← readName parallelName file
  let (h, _) ← readWords 2 b0
  if get h 0 = version ∧ get h 1 = numRanks then some () else none

/-- `NumBoundaryTypes` (src/ParallelMesh.hh:99-102). -/
def numBoundaryTypes : Nat := 3

/-- The part of `readInParallel` every rank executes (src/ParallelMesh.cc:613-682). -/
def readMine (file : List UInt8) (rank : Nat) : Option Part := do
  let (o, _) ← mpiRead file (32 + (2 + rank) * 8) 1 [0]
  let (h, p1) ← mpiRead file (get o 0) 3 [0, 0, 0]
  let nc := get h 0
  let nf := get h 1
  let nn := get h 2
  let (cw, p2) ← mpiRead file p1 (nc * 10 % 2 ^ 64) (resize h (nc * 10 % 2 ^ 64))
  let (fw, p3) ← mpiRead file p2 (nf * 9 % 2 ^ 64) (resize cw (nf * 9 % 2 ^ 64))
  let faces := (List.range nf).map (pFaceAt fw)
  if ∀ f ∈ faces, f.boundaryType < numBoundaryTypes then
    let (nw, _) ← mpiRead file p3 (nn * 4 % 2 ^ 64) (resize fw (nn * 4 % 2 ^ 64))
    some ⟨nc, nf, nn, (List.range nc).map (pCellAt cw), faces, (List.range nn).map (pNodeAt nw)⟩
  else none

/-- `ParallelMesh::readInParallel` (src/ParallelMesh.cc:581-687) on all ranks: rank 0 checks the
header before the barrier. -/
def readInParallel (file : List UInt8) (numRanks rank : Nat) : Option Part := do
  checkHeader file numRanks
  readMine file rank

end Verif.MeshFile
