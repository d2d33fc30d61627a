import Verif.TychoMesh.Link2
import Verif.Geometry.Props
import Verif.Problem.Model
import Verif.Quadrature.Model

/-!
# From a mesh part and the input settings to a sweep

The rest of the `TychoMesh` constructor (src/TychoMesh.cc:193-223), which computes the geometry of a
loaded part from its node coordinates, the cross sections and the source of the program
(src/Main.cc:244-265), and the sweep on these tables. `val` is the real number of a bit pattern; arithmetic
is that of the real numbers.
-/
namespace Verif.Program

open Verif.MeshFile Verif.TychoMesh Verif.Geometry

/-- The settings of a run that the problem depends on: the number of groups, the quadrature
(src/Main.cc:245) and the cross sections of the input file. -/
structure Deck where
  nGroups : Nat
  dirs : List Verif.Quadrature.Dir
  sigmaT1 : ℝ
  sigmaS1 : ℝ
  sigmaT2 : ℝ
  sigmaS2 : ℝ

/-- `getOmega` (src/Quadrature.cc:134-142) for all angles. -/
def Deck.omega (deck : Deck) : List Pt := deck.dirs.map fun d => ![d.xi, d.eta, d.mu]

/-- A row of `c_nodeCoords` (src/TychoMeshIO.cc:168-174); `none` is a read beyond the array. -/
def nodeCoord (val : Nat → ℝ) (part : Part) (node : Nat) : Option Pt :=
  if node < part.numNodes then part.nodes[node]?.map fun d k => val (d.coords k) else none

/-- `getCellVrtxCoords` (src/TychoMesh.cc:265-277). -/
def cellCoords (val : Nat → ℝ) (part : Part) (T : Mesh) (c : Nat) : Option (Fin 4 → Pt) :=
  complete fun v => (T.getCellNode c v).bind (nodeCoord val part)

/-- `getFaceVrtxCoords` (src/TychoMesh.cc:283-295). -/
def faceCoords (val : Nat → ℝ) (part : Part) (T : Mesh) (c : Nat) (f : Fin 4) : Option (Fin 3 → Pt) :=
  complete fun k => (T.getFaceToCellVrtx c f k).bind fun v => (T.getCellNode c v).bind (nodeCoord val part)

/-- `c_cellVolume`, `c_faceArea` and `c_omegaDotN` (by angle, then cell). -/
structure Tables where
  volume : List ℝ
  area : List (Fin 4 → ℝ)
  omegaDotN : List (List (Fin 4 → ℝ))

/-- Volumes, areas and `Ω·n` in the constructor (src/TychoMesh.cc:199-223). -/
noncomputable def constructor (val : Nat → ℝ) (omega : List Pt) (part : Part) (T : Mesh) : Option Tables := do
  let volume ← (List.range T.nCells).mapM fun c => (cellCoords val part T c).map tetVolume
  let area ← (List.range T.nCells).mapM fun c => complete fun f => (faceCoords val part T c f).map triangleArea
  let dots ← omega.mapM fun om => (List.range T.nCells).mapM fun c => complete fun f =>
    (faceCoords val part T c f).bind fun q => (cellCoords val part T c).bind fun p => omegaDotN om q p
  some ⟨volume, area, dots⟩

/-- What `Problem.cc` reads on a rank: `getCellNode`, `getNodeCoord`, the quadrature, the cross
sections. -/
noncomputable def setup (val : Nat → ℝ) (deck : Deck) (part : Part) (T : Mesh) (sT sS : List ℝ) :
    Verif.Problem.Setup where
  nCells := T.nCells
  nAngles := deck.omega.length
  nGroups := deck.nGroups
  cellNode c v := if h : v < 4 then (T.getCellNode c ⟨v, h⟩).getD 0 else 0
  coord i := (nodeCoord val part i).getD 0
  omega a := (deck.omega[a]?).getD 0
  sigmaT c := (sT[c]?).getD 0
  sigmaS c := (sS[c]?).getD 0

/-- The data a rank sweeps with. -/
structure RankData where
  tables : Tables
  sigmaT : List ℝ
  sigmaS : List ℝ
  /-- the array filled by `getSource`, `none` where it is not a number -/
  source : Verif.Problem.Idx → Option ℝ

/-- Set-up of a rank (src/Main.cc:255,264, `getSource` in `solve`, src/SweeperTraverse.cc:67): the
constructor of the mesh, `createCrossSections`, and `getSource` into an array with contents `src0`. -/
noncomputable def start (val : Nat → ℝ) (deck : Deck) (part : Part) (T : Mesh)
    (src0 : Verif.Problem.Idx → Option ℝ) : Option RankData := do
  let tables ← constructor val deck.omega part T
  let (sT, sS) ← Verif.Problem.createCrossSections deck.sigmaT1 deck.sigmaS1 deck.sigmaT2 deck.sigmaS2 T.material
  some ⟨tables, sT, sS, Verif.Problem.hatSource (setup val deck part T sT sS) src0⟩

open Verif.Traverse Verif.Transport in
/-- The sweep of the program on `n` ranks with meshes `T` and data `D`. -/
noncomputable def programRun (deck : Deck) (n : Nat) (T : Nat → Mesh) (D : Nat → RankData) (threads batch : Nat)
    (proto : Protocol) (rv : Bool) (gauss : GaussElim) (prio : Nat → Nat → Nat → Nat) (psi0 : Nat → Psi ℝ)
    (bound0 : Nat → Bound ℝ) (scratch : Fin 4 → Nat → ℝ) : SweepRun ℝ where
  nRanks := n
  nAngles := deck.omega.length
  nThreads := threads
  maxCompute := batch
  nGroups := deck.nGroups
  doComm := true
  protocol := proto
  rendezvous := rv
  gauss := gauss
  view r :=
    { adjCell := fun c f => ((T r).getAdjCell c f).bind toNone
      adjRank := fun c f => ((T r).getAdjRank c f).bind toNone
      side := fun c f => ((T r).getSide c f).getD 0
      neighborVrtx := fun c f k => ((T r).getNeighborVrtx c f k).getD 0
      cellToFaceVrtx := fun c f v => ((T r).getCellToFaceVrtx c f v).getD 0
      omegaDotN := fun a i => (((D r).tables.omegaDotN[a]?).bind fun l => l[i]?).getD 0
      cellVolume := fun i => ((D r).tables.volume[i]?).getD 0
      faceArea := fun i => ((D r).tables.area[i]?).getD 0 }
  nCells r := (T r).nCells
  lgSide r s := ((T r).getLGSide s).getD 0
  glSide r g := ((T r).getGLSide g).getD 0
  sideCell r s := ((T r).getSideCell s).getD 0
  faceToCellVrtx r c f k := ((T r).getFaceToCellVrtx c f k).getD 0
  sigmaT r i := ((D r).sigmaT[i]?).getD 0
  source r g v a i := ((D r).source (g, v.val, a, i)).getD 0
  priority := prio
  psi0 := psi0
  bound0 := bound0
  scratch := scratch

end Verif.Program
