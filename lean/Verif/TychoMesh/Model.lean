import Verif.MeshFile.Create
import Mathlib.Order.Defs.LinearOrder

/-!
# Loading a mesh part (src/TychoMeshIO.cc, src/TychoMesh.cc, src/TychoMesh.hh)

`load` is `TychoMesh::readTychoMesh` after the file has been read (`Verif.MeshFile.readInParallel`) and
the part of the constructor that deals with numbering; the geometry is in `Verif.Geometry`. `none` is an
access outside an array, a failed `Insist`, or reading an entry of an array that was never written
(`Mat1`, `Mat2`, `Mat3` allocate with `new T[n]`, src/Mat.hh:119,144).

Simplifications: coordinates are elements of a linear order given by `val` on the bit patterns (no
NaN); the loops over all cells are written per cell where cells do not interact.
-/
namespace Verif.TychoMesh

open Verif.MeshFile

variable {R : Type} [LinearOrder R]

/-- `isV1LessThanV2` (src/TychoMeshIO.cc:62-72). -/
def isLess (v1 v2 : Fin 3 → R) : Bool :=
  if v1 0 < v2 0 then true else if v2 0 < v1 0 then false
  else if v1 1 < v2 1 then true else if v2 1 < v1 1 then false
  else if v1 2 < v2 2 then true else if v2 2 < v1 2 then false
  else true

/-- `order3Vertices` (src/TychoMeshIO.cc:81-120); `none` leaves the array unwritten. -/
def order3 (c0 c1 c2 : Fin 3 → R) : Option (Fin 3 → Fin 3) :=
  if isLess c0 c1 ∧ isLess c0 c2 then some (if isLess c1 c2 then ![0, 1, 2] else ![0, 2, 1])
  else if isLess c1 c0 ∧ isLess c1 c2 then some (if isLess c0 c2 then ![1, 0, 2] else ![1, 2, 0])
  else if isLess c2 c0 ∧ isLess c2 c1 then some (if isLess c0 c1 then ![2, 0, 1] else ![2, 1, 0])
  else none

/-- `getLFaceIndex` (src/TychoMeshIO.cc:129-145); `none` is `SIZE_MAX`. -/
def lfaceIndex (cn : Fin 4 → Nat) (fn : Fin 3 → Nat) : Option (Fin 4) :=
  (List.finRange 4).find? fun c => cn c ≠ fn 0 ∧ cn c ≠ fn 1 ∧ cn c ≠ fn 2

/-- A row of an array, unwritten entries `none`. -/
abbrev Row (α : Type) (n : Nat) := Fin n → Option α

/-- Assignment. -/
def setRow {α : Type} {n : Nat} (row : Row α n) (i : Fin n) (v : α) : Row α n := fun j => if j = i then some v else row j

/-- All entries have been written. -/
def complete {α : Type} {n : Nat} (row : Row α n) : Option (Fin n → α) :=
  if h : ∀ k, (row k).isSome then some fun k => (row k).get (h k) else none

/-- Entries of `cellFaceHandles`, `c_adjCell`, `c_adjFace` for one face. -/
structure Entry where
  handle : Fin 4
  adjCell : Nat
  adjFace : Nat
deriving DecidableEq

/-- `ParallelMesh::NotBoundary` (src/ParallelMesh.hh:99-102). -/
def notBoundary : Nat := 2

/-- `BOUNDARY_FACE`, `NOT_BOUNDARY_FACE`, `BAD_RANK`, `SIZE_MAX` (src/TychoMesh.hh:120-122). -/
def uintMax : Nat := 2 ^ 64 - 1

/-- One face of a cell (src/TychoMeshIO.cc:203-225). -/
def faceStep (P : Part) (cell : Nat) (d : PCell) (row : Row Entry 4) (fi : Fin 4) : Option (Row Entry 4) := do
  let f ← P.faces[d.faces fi]?
  let lface ← lfaceIndex d.nodes f.nodes
  if f.boundaryType ≠ notBoundary then some (setRow row lface ⟨fi, uintMax, uintMax⟩)
  else
    let adjCell := if f.cells 0 = cell then f.cells 1 else f.cells 0
    let a ← P.cells[adjCell]?
    some (setRow row lface ⟨fi, adjCell, ((lfaceIndex a.nodes f.nodes).map Fin.val).getD uintMax⟩)

/-- The rows of `cellFaceHandles`, `c_adjCell`, `c_adjFace` of a cell (src/TychoMeshIO.cc:202-225), all
entries of which are read later. -/
def cellRow (P : Part) (cell : Nat) (d : PCell) : Option (Fin 4 → Entry) := do
  let row ← (List.finRange 4).foldlM (faceStep P cell d) fun _ => none
  complete row

/-- `c_nSides` (src/TychoMeshIO.cc:198,213). -/
def countSides (P : Part) : Nat :=
  ((P.cells.take P.numCells).flatMap fun d => (List.finRange 4).filter fun fi =>
    match P.faces[d.faces fi]? with
    | some f => f.boundaryType ≠ notBoundary
    | none => false).length

/-- State of the loop numbering the sides: the sides so far with `c_sideCell` and `c_lGSides`, and the
row of `c_side` of the cell. -/
abbrev SideState := List (Nat × Nat) × (Fin 4 → Nat)

/-- One face in the side loop (src/TychoMeshIO.cc:233-249). -/
def sideStep (P : Part) (cell : Nat) (d : PCell) (row : Fin 4 → Entry) (s : SideState) (l : Fin 4) :
    Option SideState :=
  if (row l).adjCell = uintMax then do
    let f ← P.faces[d.faces (row l).handle]?
    some (s.1 ++ [(cell, f.globalID)], fun j => if j = l then s.1.length else s.2 j)
  else some (s.1, fun j => if j = l then uintMax else s.2 j)

/-- The side loop (src/TychoMeshIO.cc:229-249): cells `cell, cell + 1, ...`. -/
def sideLoop (P : Part) : Nat → List (PCell × (Fin 4 → Entry)) → List (Nat × Nat) →
    Option (List (Nat × Nat) × List (Fin 4 → Nat))
  | _, [], s => some (s, [])
  | cell, (d, row) :: ds, s => do
    let (s', r) ← (List.finRange 4).foldlM (sideStep P cell d row) (s, fun _ => 0)
    let (s'', rs) ← sideLoop P (cell + 1) ds s'
    some (s'', r :: rs)

/-- One entry of `c_adjProc` (src/TychoMeshIO.cc:256-266); `INVALID_INDEX` and `BAD_RANK` are both
`UINT64_MAX`. -/
def adjProc (P : Part) (rank : Nat) (d : PCell) (e : Entry) : Option Nat := do
  let f ← P.faces[d.faces e.handle]?
  if f.partition 0 = rank ∨ f.partition 1 = rank then
    some (if f.partition 0 = rank then f.partition 1 else f.partition 0)
  else none

/-- Rows of `c_faceToCellVrtx` and `c_cellToFaceVrtx` (src/TychoMeshIO.cc:273-295). -/
def faceVrtxLoop (fn : Fin 3 → Nat) (cn : Fin 4 → Nat) (order : Fin 3 → Fin 3) : Row (Fin 4) 3 × Row (Fin 3) 4 :=
  (List.finRange 3).foldl (fun s fv => (List.finRange 4).foldl (fun s cv =>
    if fn (order fv) = cn cv then (setRow s.1 (order fv) cv, setRow s.2 cv (order fv)) else s) s)
    (fun _ => none, fun _ => none)

/-- The same for a face of a cell, with the lookups. -/
def faceVrtx (val : Nat → R) (P : Part) (d : PCell) (e : Entry) : Option (Row (Fin 4) 3 × Row (Fin 3) 4) := do
  let f ← P.faces[d.faces e.handle]?
  let n0 ← P.nodes[f.nodes 0]?
  let n1 ← P.nodes[f.nodes 1]?
  let n2 ← P.nodes[f.nodes 2]?
  let order ← order3 (fun k => val (n0.coords k)) (fun k => val (n1.coords k)) fun k => val (n2.coords k)
  some (faceVrtxLoop f.nodes d.nodes order)

/-- The checks of the constructor (src/TychoMesh.cc:229-240) on one face: the table from face
vertices to cell vertices if they pass. -/
def checkVrtx (l : Fin 4) (t : Row (Fin 4) 3 × Row (Fin 3) 4) : Option (Fin 3 → Fin 4) :=
  if (∀ cv : Fin 4, cv ≠ l → ∃ fv, t.2 cv = some fv ∧ t.1 fv = some cv) ∧
      ∀ fv : Fin 3, ∃ cv, t.1 fv = some cv ∧ cv ≠ l ∧ t.2 cv = some fv then complete t.1 else none

/-- A loaded mesh part (src/TychoMesh.hh:142-162); `c_adjCellFromSide`, `c_adjFaceFromSide` are in
`exchange`. -/
structure Mesh where
  nCells : Nat
  nSides : Nat
  lGCells : List Nat
  material : List Nat
  cellNodes : List (Fin 4 → Nat)
  rows : List (Fin 4 → Entry)
  sides : List (Nat × Nat)
  sideRows : List (Fin 4 → Nat)
  adjProcs : List (Fin 4 → Nat)
  faceToCell : List (Fin 4 → Fin 3 → Fin 4)
  cellToFace : List (Fin 4 → Row (Fin 3) 4)

/-- `Fin 4 → Option` to `Option (Fin 4 → )`. -/
def allFaces {α : Type} (f : Fin 4 → Option α) : Option (Fin 4 → α) := complete f

/-- `TychoMesh::readTychoMesh` (src/TychoMeshIO.cc:153-295) and the checks of the constructor
(src/TychoMesh.cc:227-241). -/
def load (val : Nat → R) (P : Part) (rank : Nat) : Option Mesh := do
  let cells ← firstN P.numCells P.cells
  let rows ← (cells.zipIdx).mapM fun (d, cell) => cellRow P cell d
  let nSides := countSides P
  let (sides, sideRows) ← sideLoop P 0 (cells.zip rows) []
  if sides.length ≤ nSides then
    let procs ← (cells.zip rows).mapM fun (d, row) => allFaces fun l => adjProc P rank d (row l)
    let vrtx ← (cells.zip rows).mapM fun (d, row) => allFaces fun l => faceVrtx val P d (row l)
    let ftc ← vrtx.mapM fun t => allFaces fun l => checkVrtx l (t l)
    some ⟨P.numCells, nSides, cells.map PCell.globalID, cells.map PCell.material, cells.map PCell.nodes, rows,
      sides, sideRows, procs, ftc, vrtx.map fun t l => (t l).2⟩
  else none

/-! ## Queries (src/TychoMesh.hh:70-116) -/

/-- `getAdjCell`. -/
def Mesh.getAdjCell (T : Mesh) (c : Nat) (l : Fin 4) : Option Nat := T.rows[c]?.map fun r => (r l).adjCell
/-- `getAdjFace` (src/TychoMesh.hh:80-81): it reads `c_adjCell`. -/
def Mesh.getAdjFace (T : Mesh) (c : Nat) (l : Fin 4) : Option Nat := T.rows[c]?.map fun r => (r l).adjCell
/-- The array `c_adjFace`, which no query returns. -/
def Mesh.adjFace (T : Mesh) (c : Nat) (l : Fin 4) : Option Nat := T.rows[c]?.map fun r => (r l).adjFace
/-- `getCellNode`. -/
def Mesh.getCellNode (T : Mesh) (c : Nat) (v : Fin 4) : Option Nat := T.cellNodes[c]?.map fun r => r v
/-- `getSide`. -/
def Mesh.getSide (T : Mesh) (c : Nat) (l : Fin 4) : Option Nat := T.sideRows[c]?.map fun r => r l
/-- `getSideCell`. -/
def Mesh.getSideCell (T : Mesh) (s : Nat) : Option Nat := T.sides[s]?.map Prod.fst
/-- `getLGSide`. -/
def Mesh.getLGSide (T : Mesh) (s : Nat) : Option Nat := T.sides[s]?.map Prod.snd
/-- `getGLSide`; `insert` into the map does nothing when the key is present. -/
def Mesh.getGLSide (T : Mesh) (g : Nat) : Option Nat := (T.sides.map Prod.snd).idxOf? g
/-- `getLGCell`. -/
def Mesh.getLGCell (T : Mesh) (c : Nat) : Option Nat := T.lGCells[c]?
/-- `getAdjRank`. -/
def Mesh.getAdjRank (T : Mesh) (c : Nat) (l : Fin 4) : Option Nat := T.adjProcs[c]?.map fun r => r l
/-- `getFaceToCellVrtx`. -/
def Mesh.getFaceToCellVrtx (T : Mesh) (c : Nat) (l : Fin 4) (fv : Fin 3) : Option (Fin 4) := T.faceToCell[c]?.map fun r => r l fv
/-- `getCellToFaceVrtx` (reads an unwritten entry for `cv = l`, which `Assert` forbids). -/
def Mesh.getCellToFaceVrtx (T : Mesh) (c : Nat) (l : Fin 4) (cv : Fin 4) : Option (Fin 3) :=
  T.cellToFace[c]?.bind fun r => r l cv

/-- `getCellVrtx` (src/TychoMesh.cc:301-311). -/
def Mesh.getCellVrtx (T : Mesh) (c node : Nat) : Option (Fin 4) := do
  let ns ← T.cellNodes[c]?
  some (((List.finRange 4).find? fun v => ns v = node).getD 0)

/-- `getNeighborVrtx` as filled by the constructor (src/TychoMesh.cc:249-258) for faces that are not
boundary faces. -/
def Mesh.getNeighborVrtx (T : Mesh) (c : Nat) (l : Fin 4) (fv : Fin 3) : Option (Fin 4) := do
  let n ← T.getAdjCell c l
  let v ← T.getFaceToCellVrtx c l fv
  let node ← T.getCellNode c v
  T.getCellVrtx n node

/-! ## Exchange of cell and face numbers (src/TychoMeshIO.cc:298-332) -/

/-- The faces shared with rank `q` in the order of the loops. -/
def Mesh.shared (T : Mesh) (q : Nat) : List (Nat × Fin 4) :=
  (List.range T.nCells).flatMap fun c => ((List.finRange 4).filter fun l =>
    T.getAdjCell c l = some uintMax ∧ T.getAdjRank c l = some q ∧ q ≠ uintMax).map fun l => (c, l)

/-- `c_adjCellFromSide`, `c_adjFaceFromSide` of the face `(cell, face)` of rank `r`: messages of one
pair of ranks do not overtake, so the receive for the `k`-th face shared with `q` gets the `k`-th
message of `q`. `none`: not written, or the receive never completes. (The code passes the address of
a local variable to `MPI_Isend`; here the message has its contents at the time of the call, see
`exchangeLate`.) -/
def exchange (T : Nat → Mesh) (r cell : Nat) (face : Fin 4) : Option (Nat × Fin 4) := do
  let q ← (T r).getAdjRank cell face
  let k ← ((T r).shared q).idxOf? (cell, face)
  ((T q).shared r)[k]?

/-- The values the local variable `cellFace` takes (src/TychoMeshIO.cc:300-309), in order. -/
def Mesh.sends (T : Mesh) : List (Nat × Fin 4) :=
  (List.range T.nCells).flatMap fun c => ((List.finRange 4).filter fun l =>
    T.getAdjCell c l = some uintMax ∧ T.getAdjRank c l ≠ some uintMax).map fun l => (c, l)

/-- What the face `(cell, face)` of rank `r` is told if MPI reads the buffer of `MPI_Isend`
(src/TychoMeshIO.cc:307-311) only after the loop, which it may do until the `MPI_Waitall` at line 332, and
the memory of the variable still holds its last value. By then its lifetime is over, so that C++ gives no
guarantee at all; this is what an implementation that reuses one stack slot does. -/
def exchangeLate (T : Nat → Mesh) (r cell : Nat) (face : Fin 4) : Option (Nat × Fin 4) := do
  let q ← (T r).getAdjRank cell face
  (T q).sends.getLast?

end Verif.TychoMesh
