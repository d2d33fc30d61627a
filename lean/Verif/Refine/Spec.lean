import Verif.Refine.Names
import Verif.Refine.Inv
import Verif.TychoMesh.Spec

/-!
# C48: meshes that are refined as intended
-/
set_option linter.unusedSectionVars false
set_option linter.unusedVariables false

namespace Verif.Refine

open Verif.MeshFile

variable {K : Type} [Field K] [LinearOrder K]

/-- The position of node `n`. -/
def pos (val : Nat → K) (m : SerialMesh) (n : Nat) : Pt K := fun i => ((m.nodes[n]?).map fun a => val (a.coords i)).getD 0

/-- The tetrahedron of a cell. -/
def tetOf (val : Nat → K) (m : SerialMesh) (d : SCell) : Tet K := fun k => pos val m (d.nodes k)

/-- `a` and `b` are nodes of one cell, possibly the same node. -/
def Edge (m : SerialMesh) (a b : Nat) : Prop :=
  ∃ (c : Nat) (d : SCell) (i j : Fin 4), m.cells[c]? = some d ∧ a = d.nodes i ∧ b = d.nodes j

/-- `tol` is `1e-14` times the largest difference of a coordinate between two corners of the mesh. -/
def IsTol (val : Nat → K) (m : SerialMesh) (tol : K) : Prop :=
  ∃ D, IsGreatest {z | ∃ d ∈ m.cells, ∃ d' ∈ m.cells, ∃ k k' i, z = tetOf val m d k i - tetOf val m d' k' i} D ∧
    tol = 1 / 10 ^ 14 * D

/-- Two points that are meant to be different differ by more than the tolerance in a coordinate; and
differing by at most the tolerance is transitive in each coordinate. -/
structure Apart (val : Nat → K) (m : SerialMesh) (tol : K) : Prop where
  apart : ∀ a b a' b', Edge m a b → Edge m a' b' → NearPt tol (half (pos val m a) (pos val m b)) (half (pos val m a') (pos val m b')) →
    s(a, b) = s(a', b')
  chain : ∀ a b a' b' a'' b'', Edge m a b → Edge m a' b' → Edge m a'' b'' → ∀ i,
    Near tol (half (pos val m a) (pos val m b) i) (half (pos val m a') (pos val m b') i) →
    Near tol (half (pos val m a') (pos val m b') i) (half (pos val m a'') (pos val m b'') i) →
    Near tol (half (pos val m a) (pos val m b) i) (half (pos val m a'') (pos val m b'') i)

/-- Cells meet like the tetrahedra of a mesh: a cell has four different nodes, all in range; no two cells
have the same nodes; no three cells have three nodes in common. -/
structure Conforming (m : SerialMesh) : Prop where
  count : m.numCells = m.cells.length
  inRange : ∀ d ∈ m.cells, ∀ k, d.nodes k < m.nodes.length
  distinct : ∀ d ∈ m.cells, Function.Injective d.nodes
  noSame : ∀ (c c' : Nat) (d d' : SCell), m.cells[c]? = some d → m.cells[c']? = some d' → (∀ k, ∃ k', d.nodes k = d'.nodes k') → c = c'
  noThree : ∀ (c c' c'' : Nat) (d d' d'' : SCell), m.cells[c]? = some d → m.cells[c']? = some d' → m.cells[c'']? = some d'' →
    ∀ n : Fin 3 → Nat, Function.Injective n → (∀ j, ∃ k, n j = d.nodes k) → (∀ j, ∃ k, n j = d'.nodes k) →
    (∀ j, ∃ k, n j = d''.nodes k) → c = c' ∨ c = c'' ∨ c' = c''

/-- What the refined mesh should be. -/
structure Refined (val : Nat → K) (m : SerialMesh) (r : RMesh K) : Prop where
  /-- Eight cells for one. -/
  count : r.cells.length = 8 * m.numCells
  /-- Cell `8c + t` is child `t` of cell `c`, of the same material. -/
  child : ∀ (c : Nat) (d : SCell) (t : Fin 8), m.cells[c]? = some d → ∃ e, r.cells[8 * c + t.val]? = some e ∧
    e.material = d.material ∧ ∀ k, r.nodes[e.nodes k]? = some (refineTet (tetOf val m d) t k)
  /-- No point has two numbers. -/
  nodes : r.nodes.Nodup
  /-- Every node is a corner of a cell. -/
  used : ∀ n, n < r.nodes.length → ∃ e ∈ r.cells, ∃ k, e.nodes k = n
  /-- No triangle has two numbers. -/
  faces : ∀ (g h : Nat) (e f : SFace), r.faces[g]? = some e → r.faces[h]? = some f → (∀ n, (∃ j, e.nodes j = n) ↔ ∃ j, f.nodes j = n) → g = h
  /-- It is a mesh of tetrahedra: references are in range; the faces of a cell are the triples of its
  nodes; a face names exactly the cells that name it. -/
  tets : ∀ bits : K → Nat, TychoMesh.Tets (r.serial bits)

end Verif.Refine
