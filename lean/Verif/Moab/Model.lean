import Verif.MeshFile.Create
import Mathlib.Algebra.Field.Defs
import Mathlib.Order.Defs.LinearOrder
import Mathlib.Data.Fintype.Basic
import Mathlib.Data.Fin.SuccPred

/-!
# Conversion to and from MOAB databases

Transcription of `createSerialMesh` and `moabCreateAllFaces` (util/MoabToSerialMesh.cc:78-245) and of
`createMoabMesh` (util/SerialMeshToMoab.cc:54-79, util/ParallelMeshToMoab.cc:56-84).

MOAB is a library; of it the following is modelled.

* A database holds vertices with coordinates, triangles and tetrahedra, each with a handle. Handles of
  one kind are different numbers. Entities of other kinds are not in the database (`createSerialMesh` would
  stop on them).
* A `Range` is a set of handles in ascending order.
* `get_adjacencies` from a cell to dimension 2 gives the triangles all of whose vertices are vertices of
  the cell; with `create_if_missing` the missing ones of the four are created first. From a triangle to
  dimension 3 it gives the tetrahedra that have all its vertices. To dimension 0 it gives the vertices.
  (If a database has two triangles with the same vertices, MOAB may give one or both; the theorems
  about imported databases assume there are no such two.)
* Creating an entity gives it a handle chosen by the library (`alloc`, from the handles in use).
* The calls succeed (`assert(moabStatus == MB_SUCCESS)`) except `get_coords` of a handle that is no vertex.

`none` is a failed assertion or the use of `find(...)->second` for a handle not in the map. Coordinates are bit
patterns as in `SerialMesh`; the arithmetic on them is that of an ordered field `K`, without rounding.
-/
namespace Verif.Moab

open Verif.MeshFile

/-- `EntityHandle`. -/
abbrev Handle := Nat

/-- The database. -/
structure Db where
  nodes : List (Handle × (Fin 3 → Nat))
  tris : List (Handle × (Fin 3 → Handle))
  tets : List (Handle × (Fin 4 → Handle))

/-- A `Range` of the given handles. -/
def range (l : List Handle) : List Handle := l.foldr setInsert []

namespace Db

/-- `get_entities_by_dimension(ENTIRE_MESH, CELL_DIMENSION, ...)`. -/
def cellRange (db : Db) : List Handle := range (db.tets.map (·.1))

/-- `get_entities_by_dimension(ENTIRE_MESH, FACE_DIMENSION, ...)`. -/
def faceRange (db : Db) : List Handle := range (db.tris.map (·.1))

/-- `get_entities_by_dimension(ENTIRE_MESH, NODE_DIMENSION, ...)`. -/
def nodeRange (db : Db) : List Handle := range (db.nodes.map (·.1))

/-- `get_coords` (`getCoords`, util/MoabToSerialMesh.cc:66-72). -/
def coords (db : Db) (h : Handle) : Option (Fin 3 → Nat) := (db.nodes.find? fun x => x.1 = h).map (·.2)

/-- The vertices of a tetrahedron. -/
def tet (db : Db) (h : Handle) : Option (Fin 4 → Handle) := (db.tets.find? fun x => x.1 = h).map (·.2)

/-- The vertices of a triangle. -/
def tri (db : Db) (h : Handle) : Option (Fin 3 → Handle) := (db.tris.find? fun x => x.1 = h).map (·.2)

end Db

/-- All entries of `a` are entries of `b`. -/
def within {m n : Nat} (a : Fin m → Handle) (b : Fin n → Handle) : Bool := decide (∀ i, ∃ j, a i = b j)

/-- Side `k` of a tetrahedron: the vertices other than vertex `k`. -/
def side (t : Fin 4 → Handle) (k : Fin 4) : Fin 3 → Handle := fun j => t (k.succAbove j)

/-- The triangle is in the database. -/
def present (db : Db) (v : Fin 3 → Handle) : Bool := db.tris.any fun x => within x.2 v && within v x.2

/-- Create the triangle if it is missing. -/
def createTri (alloc : List Handle → Handle) (db : Db) (v : Fin 3 → Handle) : Db :=
  if present db v then db else { db with tris := db.tris ++ [(alloc (db.tris.map (·.1)), v)] }

/-- `get_adjacencies(&cellHandle, 1, FACE_DIMENSION, CREATE_MISSING, ...)` for its effect on the database
(util/MoabToSerialMesh.cc:241-243). -/
def createSides (alloc : List Handle → Handle) (db : Db) (t : Fin 4 → Handle) : Db :=
  (List.finRange 4).foldl (fun db k => createTri alloc db (side t k)) db

/-- `moabCreateAllFaces` (util/MoabToSerialMesh.cc:228-245). -/
def createAllFaces (alloc : List Handle → Handle) (db : Db) : Db :=
  (db.cellRange.filterMap db.tet).foldl (createSides alloc) db

/-- The triangles of a cell (util/MoabToSerialMesh.cc:126-127). If one of the four is missing the call creates it,
its handle is not in `faceMap`, and the lookup is undefined: `none`. -/
def cellFaces (db : Db) (t : Fin 4 → Handle) : Option (List Handle) :=
  if ∀ k, present db (side t k) then some (range ((db.tris.filter fun x => within x.2 t).map (·.1))) else none

/-- The tetrahedra at a triangle (util/MoabToSerialMesh.cc:181-182). -/
def faceCells (db : Db) (v : Fin 3 → Handle) : List Handle :=
  range ((db.tets.filter fun x => within v x.2).map (·.1))

/-- `map.find(h)->second` for the map of handles to positions (util/MoabToSerialMesh.cc:107-116). -/
def num (r : List Handle) (h : Handle) : Option Nat := if h ∈ r then some (r.idxOf h) else none

/-- The numbers of handles. -/
def nums (r : List Handle) (l : List Handle) : Option (List Nat) := l.mapM (num r)

section
variable {K : Type} [Field K] [LinearOrder K]

/-- The arithmetic mean of coordinate `i` (util/MoabToSerialMesh.cc:150-162). -/
def centroid (val : Nat → K) (cs : List (Fin 3 → Nat)) (i : Fin 3) : K :=
  (cs.map fun c => val (c i)).foldl (· + ·) 0 / (cs.length : K)

/-- `cellData.materialIndex` (util/MoabToSerialMesh.cc:147-170). `two`: `PROBLEM_TWO_NESTED_MATERIALS`. -/
def material (val : Nat → K) (two : Bool) (db : Db) (ns : List Handle) : Option Nat :=
  if two then do
    let cs ← ns.mapM db.coords
    if ∀ i, 25 < centroid val cs i ∧ centroid val cs i < 75 then some 2 else some 1
  else some 1

/-- The data of one cell (util/MoabToSerialMesh.cc:120-171). -/
def convertCell (val : Nat → K) (two : Bool) (db : Db) (h : Handle) : Option SCell := do
  let t ← db.tet h
  let fs ← cellFaces db t
  if fs.length = 4 then
    let fn ← nums db.faceRange fs
    let ns := range (List.ofFn t)
    if ns.length = 4 then
      let nn ← nums db.nodeRange ns
      let mat ← material val two db ns
      some ⟨fun k => get fn k, fun k => get nn k, mat⟩
    else none
  else none

/-- The data of one face (util/MoabToSerialMesh.cc:175-205). -/
def convertFace (db : Db) (h : Handle) : Option SFace := do
  let v ← db.tri h
  let cs := faceCells db v
  if cs.length = 1 ∨ cs.length = 2 then
    let cn ← nums db.cellRange cs
    let ns := range (List.ofFn v)
    if ns.length = 3 then
      let nn ← nums db.nodeRange ns
      some ⟨fun j => if cs.length = 1 ∧ j = 1 then invalid else get cn j, fun j => get nn j⟩
    else none
  else none

/-- `createSerialMesh` (util/MoabToSerialMesh.cc:78-222). -/
def createSerialMesh (val : Nat → K) (two : Bool) (db : Db) : Option SerialMesh := do
  let cells ← db.cellRange.mapM (convertCell val two db)
  let faces ← db.faceRange.mapM (convertFace db)
  let nodes ← db.nodeRange.mapM db.coords
  some ⟨db.cellRange.length, db.faceRange.length, db.nodeRange.length, cells, faces, nodes.map SNode.mk⟩

/-- The conversion in `main` (util/MoabToSerialMesh.cc:302-313) between loading and writing. -/
def moabToSerial (val : Nat → K) (alloc : List Handle → Handle) (two : Bool) (db : Db) : Option SerialMesh :=
  createSerialMesh val two (createAllFaces alloc db)

end

/-! ## The other direction -/

/-- `create_vertex`. -/
def createVertex (alloc : List Handle → Handle) (db : Db) (x : Fin 3 → Nat) : Db × Handle :=
  let h := alloc (db.nodes.map (·.1))
  ({ db with nodes := db.nodes ++ [(h, x)] }, h)

/-- One cell (util/SerialMeshToMoab.cc:62-73, util/ParallelMeshToMoab.cc:66-78): four new vertices at the given
places and a tetrahedron. -/
def createTet (alloc : List Handle → Handle) (db : Db) (x : Fin 4 → Fin 3 → Nat) : Db :=
  let (d0, h0) := createVertex alloc db (x 0)
  let (d1, h1) := createVertex alloc d0 (x 1)
  let (d2, h2) := createVertex alloc d1 (x 2)
  let (d3, h3) := createVertex alloc d2 (x 3)
  { d3 with tets := d3.tets ++ [(alloc (d3.tets.map (·.1)), ![h0, h1, h2, h3])] }

/-- The corners of a cell; `none`: a number outside the node array. -/
def corners (nodes : List (Fin 3 → Nat)) (ns : Fin 4 → Nat) : Option (Fin 4 → Fin 3 → Nat) := do
  let a ← nodes[ns 0]?
  let b ← nodes[ns 1]?
  let c ← nodes[ns 2]?
  let d ← nodes[ns 3]?
  some ![a, b, c, d]

/-- `createMoabMesh` (util/SerialMeshToMoab.cc:54-79) into an empty database. -/
def serialToMoab (alloc : List Handle → Handle) (m : SerialMesh) : Option Db := do
  let cells ← firstN m.numCells m.cells
  let xs ← cells.mapM fun d => corners (m.nodes.map (·.coords)) d.nodes
  some (xs.foldl (createTet alloc) ⟨[], [], []⟩)

/-- What `write_mesh` writes of a mesh set of tetrahedra (util/ParallelMeshToMoab.cc:161): these and their vertices. -/
def Db.subset (db : Db) (hs : List Handle) : Db :=
  ⟨db.nodes.filter fun x => db.tets.any fun y => decide (y.1 ∈ hs) && decide (∃ k, y.2 k = x.1), [],
    db.tets.filter fun y => y.1 ∈ hs⟩

/-- `createMoabMesh` for one partition (util/ParallelMeshToMoab.cc:56-84): the database, to which the cells are added,
and the set of their handles. -/
def addPart (alloc : List Handle → Handle) (db : Db) (part : Part) : Option (Db × List Handle) := do
  let cells ← firstN part.numCells part.cells
  let xs ← cells.mapM fun d => corners (part.nodes.map (·.coords)) d.nodes
  some (xs.foldl (fun s x => (createTet alloc s.1 x, s.2 ++ [alloc (s.1.tets.map (·.1))])) (db, []))

/-- The loop of `main` (util/ParallelMeshToMoab.cc:147-165): the contents of the files written, one for each
partition. The database is the same for all. The `.visit` file, which lists the names, is not modelled. -/
def parallelToMoab (alloc : List Handle → Handle) (P : ParallelMesh) : Option (List Db) := do
  let parts ← firstN P.numPartitions P.parts
  let s ← parts.foldlM (fun (s : Db × List Db) part =>
    (addPart alloc s.1 part).map fun a => (a.1, s.2 ++ [a.1.subset a.2])) (⟨[], [], []⟩, [])
  some s.2

end Verif.Moab
