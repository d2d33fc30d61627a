import Verif.TychoMesh.Model
import Verif.MeshFile.Props3
import Verif.Traverse.Spec

/-!
# What the loaded parts of a mesh must look like

Said in terms of the serial mesh the parts come from.
-/
namespace Verif.TychoMesh

open Verif.MeshFile

/-- A mesh of tetrahedra. -/
structure Tets (m : SerialMesh) : Prop extends Sound m where
  /-- A cell has four different nodes. -/
  distinct : ∀ (c : Nat) (d : SCell), m.cells[c]? = some d → Function.Injective d.nodes
  /-- Its four faces are the four triples of its nodes: each leaves out one node, different faces
  different nodes. -/
  omits : ∀ (c : Nat) (d : SCell), m.cells[c]? = some d → ∃ σ : Fin 4 → Fin 4, Function.Injective σ ∧
    ∀ k e, m.faces[d.faces k]? = some e → ∀ i, (∃ j, e.nodes j = d.nodes i) ↔ i ≠ σ k
  /-- A cell named by a face has the face. -/
  back : ∀ (g : Nat) (e : SFace), m.faces[g]? = some e → ∀ (j : Fin 2) (d : SCell), m.cells[e.cells j]? = some d →
    ∃ k, d.faces k = g
  /-- A face has two different sides. -/
  sides : ∀ e ∈ m.faces, e.cells 0 ≠ e.cells 1

/-- A rank, a cell of its part and a local face number: the face opposite to a vertex of the cell. -/
abbrev Loc := Verif.Traverse.Loc

/-- The location `x` of the partitioned mesh is in cell `c` of the serial mesh and its face is face
`g`. -/
def At (m : SerialMesh) (P : ParallelMesh) (x : Loc) (c g : Nat) : Prop :=
  ∃ part cell d e, P.parts[x.rank]? = some part ∧ part.cells[x.cell]? = some cell ∧ cell.globalID = c ∧
    m.cells[c]? = some d ∧ (∃ k, d.faces k = g) ∧ m.faces[g]? = some e ∧ ∀ j, e.nodes j ≠ d.nodes x.face

/-- The location exists. -/
def Exists (P : ParallelMesh) (x : Loc) : Prop :=
  ∃ part cell, P.parts[x.rank]? = some part ∧ part.cells[x.cell]? = some cell

/-- `y` is the same face seen from the other side. -/
def Mates (m : SerialMesh) (P : ParallelMesh) (x y : Loc) : Prop :=
  ∃ c c' g, At m P x c g ∧ At m P y c' g ∧ c ≠ c'

/-- The mesh parts of all ranks have been loaded. -/
def Loaded {R : Type} [LinearOrder R] (val : Nat → R) (P : ParallelMesh) (T : Nat → Mesh) : Prop :=
  ∀ (r : Nat) (part : Part), P.parts[r]? = some part → load val part r = some (T r)

/-- A mesh is created from serial mesh `m` and the counts stay below `2^31`. -/
structure Created (m : SerialMesh) (pv : List Nat) (n : Nat) (P : ParallelMesh) : Prop where
  tets : Tets m
  faces : m.numFaces ≤ 2 ^ 31
  nodes : m.numNodes ≤ 2 ^ 31
  create : createFromSerialMesh m pv n = some P

end Verif.TychoMesh
