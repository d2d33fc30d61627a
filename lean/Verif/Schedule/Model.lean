import Verif.Traverse.Spec
import Mathlib.Algebra.Order.Group.Defs

/-!
# The precomputed sweep schedule (src/SweepSchedule.cc)

All ranks build their schedules together, one step after the other: sort some local work, tell the
neighbours, hear from the neighbours. A rank cannot enter a step before the test `allDone`, a global
maximum, has ended the step before on every rank, so one transition of the model is one step of all
ranks.

Simplifications, recorded in DESIGN.md:
* blocking sends return (MPI buffers them); each step's count and data messages are one message;
* priorities are natural numbers, those stored in `PriorityWork` after the conversion to `double`;
* `BOUNDARY_FACE`, `BAD_RANK` are `none`.
-/
namespace Verif.Schedule
open Verif.Traverse

/-- `SweepSchedule::Work` (src/SweepSchedule.hh:52-62): a cell and a global angle index. -/
structure Work where
  cell : Nat
  angle : Nat
deriving DecidableEq

/-- What the sorting loops look at. `wait` are the faces counted by `calcNumDependents`, `free` those
followed by `partialTopoSort`; `angles` is the vector of global angle indices of the group, tables
are indexed by position in it. `maxStep` is `maxCellsPerStep` after its conversion to `unsigned`
(src/SweepSchedule.cc:193). -/
structure Graph where
  nRanks : Nat
  angles : List Nat
  maxStep : Nat
  mesh : Nat → RankMesh
  wait : Nat → Nat → Nat → Face → Bool
  free : Nat → Nat → Nat → Face → Bool

/-- The inputs of the constructor (src/SweepSchedule.cc:675-678) on every rank, and `omega · n` of
every face by global angle index. -/
structure Plan (K : Type) where
  nRanks : Nat
  angles : List Nat
  maxCellsPerStep : Nat
  mesh : Nat → RankMesh
  dot : Nat → Nat → Nat → Face → K
  tol : K

section
variable {K : Type} [LinearOrder K] [Neg K]

/-- `hasChild` (src/SweepSchedule.cc:108-118). -/
def Plan.hasChild (P : Plan K) (r angle cell : Nat) (face : Face) : Bool :=
  if P.dot r (P.angles.getD angle 0) cell face > P.tol then
    ((P.mesh r).adjRank cell face).isSome
  else false

/-- `hasParent` (src/SweepSchedule.cc:108-124); the matrix starts false (src/Mat.hh:360-370). -/
def Plan.hasParent (P : Plan K) (r angle cell : Nat) (face : Face) : Bool :=
  if P.dot r (P.angles.getD angle 0) cell face > P.tol then false
  else if P.dot r (P.angles.getD angle 0) cell face < -P.tol then
    ((P.mesh r).adjRank cell face).isSome
  else false

/-- The graph sorted by `calcOrdering` (src/SweepSchedule.cc:425-466): upwind to downwind. -/
def Plan.forward (P : Plan K) : Graph where
  nRanks := P.nRanks
  angles := P.angles
  maxStep := P.maxCellsPerStep % 2 ^ 32
  mesh := P.mesh
  wait := P.hasParent
  free := P.hasChild

/-- The graph sorted by `calcLevels` (src/SweepSchedule.cc:473-508): downwind to upwind. -/
def Plan.backward (P : Plan K) : Graph where
  nRanks := P.nRanks
  angles := P.angles
  maxStep := P.maxCellsPerStep % 2 ^ 32
  mesh := P.mesh
  wait := P.hasChild
  free := P.hasParent

end

/-- The counters `nNeeded(angle, cell)` and the queue of (angle, cell) pairs. -/
structure Todo where
  need : Nat → Nat → Nat
  queue : List (Nat × Nat)

/-- `calcNumDependents` (src/SweepSchedule.cc:132-141). -/
def Graph.numDependents (G : Graph) (r angle cell : Nat) : Nat :=
  ((List.finRange 4).filter (G.wait r angle cell)).length

/-- `initializeWorkQ` (src/SweepSchedule.cc:147-158). -/
def Graph.start (G : Graph) (r : Nat) : Todo where
  need := G.numDependents r
  queue := (List.range G.angles.length).flatMap fun a => ((List.range (G.mesh r).nCells).filter fun c =>
    G.numDependents r a c = 0).map fun c => (a, c)

/-- `--nNeeded(angle, cell)` and the push when it reaches zero (src/SweepSchedule.cc:211-215,
326-330, 408-412). -/
def Todo.credit (w : Todo) (t : Nat × Nat) : Todo where
  need := setAt w.need t.1 (setAt (w.need t.1) t.2 (dec (w.need t.1 t.2)))
  queue := if dec (w.need t.1 t.2) = 0 then w.queue ++ [t] else w.queue

/-- The children on this rank, in the order of the loop over faces (src/SweepSchedule.cc:204-210). -/
def Graph.children (G : Graph) (r : Nat) (t : Nat × Nat) : List (Nat × Nat) :=
  (List.finRange 4).filterMap fun f =>
    if G.free r t.1 t.2 f then ((G.mesh r).adjCell t.2 f).map fun n => (t.1, n) else none

/-- `partialTopoSort` (src/SweepSchedule.cc:189-219) takes the work `w` with `done` finished in this
step to `w'`, `done'`. The queue hands out any pair of highest priority. -/
inductive TopoSort (G : Graph) (r : Nat) (prio : Nat → Nat → Nat) :
    Todo → List Work → Todo → List Work → Prop
  | stop (w : Todo) (done : List Work) : w.queue = [] ∨ G.maxStep ≤ done.length →
      TopoSort G r prio w done w done
  | pop (w : Todo) (done : List Work) (l1 : List (Nat × Nat)) (t : Nat × Nat) (l2 : List (Nat × Nat))
      (w' : Todo) (done' : List Work) : w.queue = l1 ++ t :: l2 → done.length < G.maxStep →
      (∀ u ∈ w.queue, prio u.1 u.2 ≤ prio t.1 t.2) →
      TopoSort G r prio ((G.children r t).foldl Todo.credit { w with queue := l1 ++ l2 })
        (done ++ [⟨t.2, G.angles.getD t.1 0⟩]) w' done' →
      TopoSort G r prio w done w' done'

/-- `glAngle` (src/SweepSchedule.cc:226-235). -/
def Graph.glAngle (G : Graph) (angle : Nat) : Nat := G.angles.idxOf angle

/-- `neighborProcs`, in the order of `std::set` (src/SweepSchedule.cc:91-101). -/
def Graph.neighbors (G : Graph) (r : Nat) : List Nat :=
  (List.range G.nRanks).filter fun q => (List.range (G.mesh r).nCells).any fun c =>
    (List.finRange 4).any fun f => (G.mesh r).adjCell c f = none ∧ (G.mesh r).adjRank c f = some q

/-- `commSidesAngles[q]` of rank `r`: the global side and the angle of each face leading to `q`
(src/SweepSchedule.cc:351-368, and 273-292 without the level). -/
def Graph.outbox (G : Graph) (r : Nat) (workDone : List Work) (q : Nat) : List (Nat × Nat) :=
  workDone.flatMap fun w => (List.finRange 4).filterMap fun f =>
    if G.free r (G.glAngle w.angle) w.cell f ∧ (G.mesh r).adjCell w.cell f = none ∧
        (G.mesh r).adjRank w.cell f = some q then
      some ((G.mesh r).lgSide ((G.mesh r).side w.cell f), G.glAngle w.angle)
    else none

/-- The pairs credited when rank `r` receives the message `m` (src/SweepSchedule.cc:403-412). -/
def Graph.inbox (G : Graph) (r : Nat) (m : List (Nat × Nat)) : List (Nat × Nat) :=
  m.map fun p => (p.2, (G.mesh r).sideCell ((G.mesh r).glSide p.1))

/-- `recvOrders` (src/SweepSchedule.cc:387-418) when `workDone q` is the step's work of rank `q`. -/
def Graph.receive (G : Graph) (r : Nat) (workDone : Nat → List Work) (w : Todo) : Todo :=
  (G.neighbors r).foldl (fun w q => (G.inbox r (G.outbox q (workDone q) r)).foldl Todo.credit w) w

/-- The variables of `calcOrdering` on every rank, with its three outputs. -/
structure State where
  todo : Nat → Todo
  workOrders : Nat → List (List Work)
  sendProcs : Nat → List (List Nat)
  recvProcs : Nat → List (List Nat)

/-- Before the loop (src/SweepSchedule.cc:436-439). -/
def Graph.init (G : Graph) : State where
  todo := G.start
  workOrders _ := []
  sendProcs _ := []
  recvProcs _ := []

/-- `allDone` (src/SweepSchedule.cc:165-182). -/
def Graph.AllDone (G : Graph) (s : State) : Prop := ∀ r < G.nRanks, (s.todo r).queue = []

/-- The state after a step in which rank `r` did `d r` and was left with `w r`
(src/SweepSchedule.cc:370-379, 395-417, 447-450). -/
def Graph.after (G : Graph) (s : State) (w : Nat → Todo) (d : Nat → List Work) : State where
  todo r := G.receive r d (w r)
  workOrders r := s.workOrders r ++ [d r]
  sendProcs r := s.sendProcs r ++ [(G.neighbors r).filter fun q => G.outbox r (d r) q ≠ []]
  recvProcs r := s.recvProcs r ++ [(G.neighbors r).filter fun q => G.outbox q (d q) r ≠ []]

/-- One pass of the loop (src/SweepSchedule.cc:443-455) on all ranks. -/
inductive Step (G : Graph) (prio : Nat → Nat → Nat → Nat) : State → State → Prop
  | mk (s : State) (w : Nat → Todo) (d : Nat → List Work) : ¬ G.AllDone s →
      (∀ r < G.nRanks, TopoSort G r (prio r) (s.todo r) [] (w r) (d r)) →
      Step G prio s (G.after s w d)

/-- States of the loop after some steps. -/
inductive Reached (G : Graph) (prio : Nat → Nat → Nat → Nat) : State → Prop
  | init : Reached G prio G.init
  | step (s s' : State) : Reached G prio s → Step G prio s s' → Reached G prio s'

/-- `calcOrdering` returns with the tables of `s`. -/
def Ordering (G : Graph) (prio : Nat → Nat → Nat → Nat) (s : State) : Prop :=
  Reached G prio s ∧ G.AllDone s

end Verif.Schedule
