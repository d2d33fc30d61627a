import Verif.Traverse.Spec
import Mathlib.Data.List.Sort
import Mathlib.Data.Prod.Lex

/-!
# Task priorities (src/Priorities.cc)

`calcPriorities` makes two traversals of the graph against the wind, without communication: one for
the b-levels, one for the neighbour heuristics. Both are runs of `Verif.Traverse`.

Simplifications: `rand()` is a parameter; `UINT` is a natural number below `2 ^ 64`, arithmetic is
reduced modulo `2 ^ 64` where it can leave that range.
-/
namespace Verif.Priorities
open Verif.Traverse

/-- Arithmetic on `UINT`. -/
def u64 (n : Nat) : Nat := n % 2 ^ 64

/-- A `Mat2<UINT>` indexed by (cell or side, angle). -/
abbrev Table := Nat → Nat → Nat

/-- `m(i, j) = v`. -/
def put (m : Table) (i j v : Nat) : Table := setAt m i (setAt (m i) j v)

/-- The globals and mesh parts `calcPriorities` uses, by rank. -/
structure Prio where
  nRanks : Nat
  nAngles : Nat
  nThreads : Nat
  /-- `g_maxCellsPerStep` -/
  maxCompute : Nat
  protocol : Protocol
  rendezvous : Bool
  mesh : Nat → RankMesh

/-- Members of `BLevelData` (src/Priorities.cc:161-163). -/
structure BLevels where
  cell : Table
  side : Table
  max : Nat

/-- The constructor (src/Priorities.cc:66-75). -/
def BLevels.new : BLevels := ⟨fun _ _ => 0, fun _ _ => 0, 0⟩

/-- One face of the loop in `BLevelData::update` (src/Priorities.cc:125-138). -/
def BLevels.face (cell angle : Nat) (adj : Face → Option Nat) (bdry : Face → BoundaryType)
    (d : BLevels) (face : Face) : BLevels :=
  match bdry face with
  | .outIntBdry =>
    let adjBLevel := d.side ((adj face).getD 0) angle
    { d with cell := put d.cell cell angle (Nat.max (d.cell cell angle) (u64 (adjBLevel + 1))) }
  | .outInt =>
    let adjBLevel := d.cell ((adj face).getD 0) angle
    { d with cell := put d.cell cell angle (Nat.max (d.cell cell angle) (u64 (adjBLevel + 1))) }
  | _ => d

/-- `BLevelData::update` (src/Priorities.cc:120-144). -/
def BLevels.update (cell angle : Nat) (adj : Face → Option Nat) (bdry : Face → BoundaryType)
    (d : BLevels) : BLevels :=
  let d1 := (List.finRange 4).foldl (BLevels.face cell angle adj bdry)
    { d with cell := put d.cell cell angle 0 }
  { d1 with max := Nat.max d1.max (d1.cell cell angle) }

/-- The traversal of `calcBLevels` (src/Priorities.cc:285-286) with the traverser of `calcPriorities`
(398-399). The data object is src/Priorities.cc:59-164. -/
def Prio.bcfg (R : Prio) : Cfg BLevels Nat where
  nRanks := R.nRanks
  nAngles := R.nAngles
  nThreads := R.nThreads
  maxCompute := R.maxCompute
  direction := .backward
  doComm := false
  protocol := R.protocol
  rendezvous := R.rendezvous
  mesh := R.mesh
  data _ :=
    { getData := fun c _ a d => d.cell c a
      setSideData := fun s a b d => { d with side := put d.side s a b }
      getPriority := fun _ _ _ => 1
      update := BLevels.update }
  init _ := .new

/-- `Comm::gmax` of the ranks' largest levels (src/Priorities.cc:288-290). -/
def Prio.maxBLevel (R : Prio) (d : Nat → BLevels) : Nat :=
  (List.range R.nRanks).foldl (fun m r => Nat.max m (d r).max) 0

/-- Adding the `int` `shift` to a `UINT` (src/Priorities.cc:248): -1 converts to `2 ^ 64 - 1`. -/
def addInt (n : Nat) (shift : Int) : Nat := ((n + shift) % 2 ^ 64).toNat

/-- The parameters of `NeighborPriorityData` (src/Priorities.cc:189-196). -/
structure Heuristic where
  scale : Nat
  shift : Nat
  parent : Int

/-- The value found through a face in `NeighborPriorityData::update` (src/Priorities.cc:238-249). -/
def Heuristic.face (h : Heuristic) (side : Table) (angle : Nat) (adj : Option Nat)
    (bdry : BoundaryType) (p : Table) : Nat :=
  match bdry with
  | .outIntBdry => u64 (side (adj.getD 0) angle * h.scale + h.shift)
  | .outInt => addInt (p (adj.getD 0) angle) h.parent
  | _ => 0

/-- `NeighborPriorityData::update` (src/Priorities.cc:230-253). -/
def Heuristic.update (h : Heuristic) (side : Table) (cell angle : Nat) (adj : Face → Option Nat)
    (bdry : Face → BoundaryType) (p : Table) : Table :=
  (List.finRange 4).foldl
    (fun p f => put p cell angle
      (Nat.max (p cell angle) (h.face side angle (adj f) (bdry f) p)))
    (put p cell angle 0)

/-- The traversal of `neighborPriorities` (src/Priorities.cc:326-336) with the side levels of each
rank. The data object is src/Priorities.cc:182-275; its `setSideData` asserts false and is never
called without communication: it is the identity here. -/
def Prio.ncfg (R : Prio) (h : Heuristic) (side : Nat → Table) : Cfg Table Nat where
  nRanks := R.nRanks
  nAngles := R.nAngles
  nThreads := R.nThreads
  maxCompute := R.maxCompute
  direction := .backward
  doComm := false
  protocol := R.protocol
  rendezvous := R.rendezvous
  mesh := R.mesh
  data r :=
    { getData := fun c _ a p => p c a
      setSideData := fun _ _ _ p => p
      getPriority := fun _ _ _ => 1
      update := h.update (side r) }
  init _ := fun _ _ => 0

/-- The calls of `neighborPriorities` (src/Priorities.cc:418-429). -/
def bfds : Heuristic := ⟨1, 0, 0⟩
def dfds (maxBLevel : Nat) : Heuristic := ⟨1, maxBLevel, -1⟩
def dfhds (maxBLevel : Nat) : Heuristic := ⟨maxBLevel, maxBLevel, -1⟩

/-- `highPriorities[angle]` (src/Priorities.cc:346-351). -/
def highPriority (nCells : Nat) (p : Table) (angle : Nat) : Nat :=
  (List.range nCells).foldl (fun m c => Nat.max m (p c angle)) 0

/-- `priorities(cell, angle) += x` for all cells (src/Priorities.cc:362-364, 379-382). -/
def addTo (nCells angle x : Nat) (p : Table) : Table :=
  (List.range nCells).foldl (fun p c => put p c angle (u64 (p c angle + x))) p

/-- Comparison of `pair<UINT, UINT>`, as used by `std::sort`. -/
def pairLe (x y : Nat × Nat) : Prop := x.1 < y.1 ∨ (x.1 = y.1 ∧ x.2 ≤ y.2)

instance : DecidableRel pairLe := fun x y => by unfold pairLe; infer_instance

/-- `orderedAngles` after the sort (src/Priorities.cc:368-372). -/
def orderedAngles (nAngles nCells : Nat) (p : Table) : List (Nat × Nat) :=
  ((List.range nAngles).map fun a => (highPriority nCells p a, a)).insertionSort pairLe

/-- `anglePriorities` (src/Priorities.cc:343-387) on a rank with `nCells` cells; `allCells` is the
sum over ranks. -/
def anglePriorities (nAngles nCells allCells interAngleP nlevels : Nat) (p : Table) : Table :=
  match interAngleP with
  | 1 => (List.range nAngles).foldl
      (fun p a => addTo nCells a (u64 (u64 (a * nlevels) * allCells)) p) p
  | 2 => ((orderedAngles nAngles nCells p).reverse.foldl
      (fun (x : Nat × Table) t =>
        (x.1 + 1, addTo nCells t.2 (u64 (u64 ((nAngles - (x.1 + 1)) * nlevels) * allCells)) x.2))
      (0, p)).2
  | _ => p

/-- Cells on all ranks, `Comm::gsum` (src/Priorities.cc:353-354). -/
def Prio.allCells (R : Prio) : Nat := u64 ((List.range R.nRanks).map fun r => (R.mesh r).nCells).sum

/-- `randomPriorities` and `levelPriorities` (src/Priorities.cc:298-319): the loop over angles and
cells copying `v`. -/
def copyTable (nAngles nCells : Nat) (v : Table) (p : Table) : Table :=
  (List.range nAngles).foldl (fun p a => (List.range nCells).foldl (fun p c => put p c a (v c a)) p) p

end Verif.Priorities
