import Verif.Program.Model
import Mathlib.LinearAlgebra.Matrix.Notation
import Mathlib.LinearAlgebra.Matrix.Determinant.Basic

/-!
# The transport problem of a serial mesh and an input deck

Said with the coordinates of the serial mesh only; no code is mentioned.
-/
namespace Verif.Program.Spec

open Verif.MeshFile Verif.TychoMesh Verif.Geometry Verif.Geometry.Spec

/-- The position of vertex `v` of cell `c` of the serial mesh. -/
def pts (val : Nat → ℝ) (m : SerialMesh) (c : Nat) (v : Fin 4) : Pt :=
  match (m.cells[c]?).bind fun d => m.nodes[d.nodes v]? with
  | some nd => fun k => val (nd.coords k)
  | none => 0

/-- The tetrahedra are not flat, and cells that share a face lie on different sides of it. -/
structure Fits (val : Nat → ℝ) (m : SerialMesh) : Prop where
  nondeg : ∀ c < m.numCells, NonCoplanar (pts val m c)
  sides : ∀ c f c' f', Across m c f c' f' →
    Separates (facePoints (pts val m c) f.succAbove) (pts val m c f) (pts val m c' f')

/-- The distance from the centre of the cube. -/
noncomputable def radius (x : Pt) : ℝ := √((x 0 - 50) ^ 2 + (x 1 - 50) ^ 2 + (x 2 - 50) ^ 2)

/-- Total and scattering cross section of a material. -/
def Sigma (deck : Deck) (material : Nat) (sT sS : ℝ) : Prop :=
  (material = 1 ∧ sT = deck.sigmaT1 ∧ sS = deck.sigmaS1) ∨ (material = 2 ∧ sT = deck.sigmaT2 ∧ sS = deck.sigmaS2)

/-- `p` is the transport problem of mesh `m` with the settings `deck`; `sS` are the scattering cross
sections. -/
structure Describes (val : Nat → ℝ) (deck : Deck) (m : SerialMesh) (p : Problem ℝ) (sS : Nat → ℝ) : Prop where
  angles : p.nAngles = deck.dirs.length
  groups : p.nGroups = deck.nGroups
  /-- the volume of a tetrahedron -/
  volume : ∀ c < m.numCells, p.volume c =
    |(Matrix.of fun i j : Fin 3 => pts val m c i.succ j - pts val m c 0 j).det| / 6
  /-- a third of area times height is the volume -/
  area : ∀ c < m.numCells, ∀ f n, OutwardUnitNormal (pts val m c) f n → ∀ j, j ≠ f →
    p.volume c = 1 / 3 * p.area c f * ∑ k, n k * (pts val m c j k - pts val m c f k)
  /-- the product of the direction with the outward unit normal -/
  omega : ∀ c < m.numCells, ∀ f n, OutwardUnitNormal (pts val m c) f n → ∀ a d, deck.dirs[a]? = some d →
    p.omegaDotN a c f = d.xi * n 0 + d.eta * n 1 + d.mu * n 2
  /-- the cross sections of the material of the cell -/
  sigma : ∀ (c : Nat) (d : SCell), m.cells[c]? = some d → Sigma deck d.material (p.sigmaT c) (sS c)
  /-- the source manufactured for the hat function -/
  source : ∀ c < m.numCells, ∀ a d, deck.dirs[a]? = some d → ∀ g < deck.nGroups, ∀ v,
    let x := pts val m c v
    (radius x ≤ 30 → p.source g v a c =
      - ((x 0 - 50) * d.xi + (x 1 - 50) * d.eta + (x 2 - 50) * d.mu) / (30 * radius x)
        + (p.sigmaT c - sS c) * (1 - radius x / 30)) ∧
    (30 < radius x → p.source g v a c = 0)

/-- What is required of mesh and settings: the materials are 1 and 2, no vertex is at the centre of the
cube (where the source is not defined), total cross sections are not negative, directions not zero. -/
structure Sensible (val : Nat → ℝ) (deck : Deck) (m : SerialMesh) : Prop where
  material : ∀ d ∈ m.cells, d.material = 1 ∨ d.material = 2
  centre : ∀ c < m.numCells, ∀ v, radius (pts val m c v) ≠ 0
  sigma1 : 0 ≤ deck.sigmaT1
  sigma2 : 0 ≤ deck.sigmaT2
  dirs : ∀ d ∈ deck.dirs, d.xi ^ 2 + d.eta ^ 2 + d.mu ^ 2 = 1

end Verif.Program.Spec
