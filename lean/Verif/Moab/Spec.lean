import Verif.Moab.Model
import Verif.TychoMesh.Spec
import Mathlib.Algebra.BigOperators.Fin

/-!
# What an imported mesh should be
-/
namespace Verif.Moab

open Verif.MeshFile Verif.TychoMesh

/-- The library hands out unused handles. -/
def Fresh (alloc : List Handle → Handle) : Prop := ∀ l, alloc l ∉ l

/-- What the library guarantees of a database, and that the mesh is not too large. -/
structure Loaded (db : Db) : Prop where
  nodes : (db.nodes.map (·.1)).Nodup
  tris : (db.tris.map (·.1)).Nodup
  tets : (db.tets.map (·.1)).Nodup
  triNodes : ∀ x ∈ db.tris, ∀ j, x.2 j ∈ db.nodes.map (·.1)
  tetNodes : ∀ x ∈ db.tets, ∀ k, x.2 k ∈ db.nodes.map (·.1)
  fit : db.tets.length ≤ invalid

/-- The loaded file: tetrahedra with four different vertices and possibly some triangles with three, no
triangle twice. -/
structure Proper (db : Db) : Prop extends Loaded db where
  tetDistinct : ∀ x ∈ db.tets, Function.Injective x.2
  triDistinct : ∀ x ∈ db.tris, Function.Injective x.2
  triOnce : ∀ x ∈ db.tris, ∀ y ∈ db.tris, (∀ v, (∃ j, x.2 j = v) ↔ ∃ j, y.2 j = v) → x.1 = y.1

/-- A triangle that is a side of no tetrahedron. -/
def Stray (db : Db) : Prop := ∃ x ∈ db.tris, ∀ y ∈ db.tets, ∃ j, ∀ k, x.2 j ≠ y.2 k

/-- Three tetrahedra with a common triangle. -/
def Three (db : Db) : Prop :=
  ∃ x ∈ db.tets, ∃ y ∈ db.tets, ∃ z ∈ db.tets, x.1 ≠ y.1 ∧ x.1 ≠ z.1 ∧ y.1 ≠ z.1 ∧
    ∃ v : Fin 3 → Handle, Function.Injective v ∧ ∀ j, (∃ k, v j = x.2 k) ∧ (∃ k, v j = y.2 k) ∧ ∃ k, v j = z.2 k

/-- The number of a handle: how many handles are smaller. -/
def rank (l : List Handle) (h : Handle) : Nat := (l.filter fun x => x < h).length

/-- The number of a vertex. -/
def nodeNo (db : Db) (h : Handle) : Nat := rank (db.nodes.map (·.1)) h

/-- The number of a tetrahedron. -/
def cellNo (db : Db) (h : Handle) : Nat := rank (db.tets.map (·.1)) h

/-- The serial mesh of a database. -/
structure Converted {K : Type} [Field K] [LinearOrder K] (val : Nat → K) (two : Bool) (db : Db) (m : SerialMesh) : Prop where
  /-- It is a mesh of tetrahedra: references are in range; the faces of a cell are the triples of its
  nodes; a face names exactly the cells that name it. -/
  tets : Tets m
  numNodes : m.numNodes = db.nodes.length
  numCells : m.numCells = db.tets.length
  /-- The vertices with their coordinates, in order of the handles. -/
  coords : ∀ x ∈ db.nodes, m.nodes[nodeNo db x.1]? = some ⟨x.2⟩
  /-- The tetrahedra with their vertices, in order of the handles. -/
  cells : ∀ x ∈ db.tets, ∃ d, m.cells[cellNo db x.1]? = some d ∧ ∀ n, (∃ k, d.nodes k = n) ↔ ∃ k, nodeNo db (x.2 k) = n
  /-- Material 2 inside the box if asked for, 1 elsewhere. -/
  material : ∀ x ∈ db.tets, ∀ d, m.cells[cellNo db x.1]? = some d → ∀ p : Fin 4 → Fin 3 → Nat,
    (∀ k, (x.2 k, p k) ∈ db.nodes) →
    (d.material = 2 ↔ two = true ∧ ∀ i, 25 < (∑ k, val (p k i)) / 4 ∧ (∑ k, val (p k i)) / 4 < 75) ∧
    (d.material = 1 ∨ d.material = 2)
  /-- A face names exactly the cells that contain it. -/
  faces : ∀ e ∈ m.faces, ∀ x ∈ db.tets, (∃ j, e.cells j = cellNo db x.1) ↔ ∀ j, ∃ k, e.nodes j = nodeNo db (x.2 k)
  /-- Every face belongs to a cell. -/
  used : ∀ e ∈ m.faces, ∃ x ∈ db.tets, ∀ j, ∃ k, e.nodes j = nodeNo db (x.2 k)
  /-- No face has two numbers. -/
  once : ∀ (g h : Nat) (e f : SFace), m.faces[g]? = some e → m.faces[h]? = some f →
    (∀ n, (∃ j, e.nodes j = n) ↔ ∃ j, f.nodes j = n) → g = h

end Verif.Moab
