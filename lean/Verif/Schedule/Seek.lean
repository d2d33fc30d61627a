import Verif.Schedule.LevelProps
import Verif.Priorities.Model

/-!
# Priorities of the schedule (src/SweepSchedule.cc:514-735)

What the constructor does between the levels and the ordering. `neighborPriorities` works on one rank
without communication.
-/
namespace Verif.Schedule
open Verif.Traverse

/-- `boundScale`, `boundShift`, `parentShift` (src/SweepSchedule.cc:574-576). `parentShift` is an
`int` handed to a `UINT` parameter (548, 614), so `-1` is `2 ^ 64 - 1` here. -/
structure Seek where
  scale : Nat
  shift : Nat
  parent : Nat

/-- A `Mat2<UINT>` indexed by (angle, cell). -/
abbrev Table := Nat → Nat → Nat

/-- `p(angle, cell) = max(p(angle, cell), v)`. -/
def raiseTo (p : Table) (a c v : Nat) : Table := setAt p a (setAt (p a) c (max (p a c) v))

section
variable {K : Type} [LinearOrder K] [Neg K]

/-- The body of the first loop of `neighborPriorities` (src/SweepSchedule.cc:587-600) on the
priorities and the counters. -/
def Plan.seekFace (P : Plan K) (r : Nat) (side : Table) (k : Seek) (s : Table × Table)
    (e : Nat × Nat × Face) : Table × Table :=
  if P.hasChild r e.1 e.2.1 e.2.2 = true ∧ (P.mesh r).adjCell e.2.1 e.2.2 = none then
    if (P.mesh r).adjRank e.2.1 e.2.2 ≠ none then
      (raiseTo s.1 e.1 e.2.1 ((side e.1 ((P.mesh r).side e.2.1 e.2.2) * k.scale + k.shift) % 2 ^ 64),
        setAt s.2 e.1 (setAt (s.2 e.1) e.2.1 (dec (s.2 e.1 e.2.1))))
    else s
  else s

/-- The index triples of the first loop (src/SweepSchedule.cc:584-586). -/
def Plan.triples (P : Plan K) (r : Nat) : List (Nat × Nat × Face) :=
  (List.range P.angles.length).flatMap fun a => (List.range (P.mesh r).nCells).flatMap fun c =>
    (List.finRange 4).map fun f => (a, c, f)

/-- Priorities and counters after the first loop (src/SweepSchedule.cc:581-601); the priorities start
at zero (701, src/Mat.hh:227-236). -/
def Plan.seekBound (P : Plan K) (r : Nat) (side : Table) (k : Seek) : Table × Table :=
  (P.triples r).foldl (P.seekFace r side k) (fun _ _ => 0, P.backward.numDependents r)

/-- `initializeWorkQ` on these counters (src/SweepSchedule.cc:147-158, 606). -/
def Plan.seekTodo (P : Plan K) (r : Nat) (need : Table) : Todo where
  need := need
  queue := (List.range P.angles.length).flatMap fun a => ((List.range (P.mesh r).nCells).filter fun c =>
    need a c = 0).map fun c => (a, c)

/-- One face in `updatePriorities` (src/SweepSchedule.cc:552-561) for the pair `t`. -/
def Plan.passUp (P : Plan K) (r : Nat) (k : Seek) (t : Nat × Nat) (p : Table) (f : Face) : Table :=
  if P.hasParent r t.1 t.2 f = true then
    match (P.mesh r).adjCell t.2 f with
    | some n => raiseTo p t.1 n ((p t.1 t.2 + k.parent) % 2 ^ 64)
    | none => p
  else p

/-- `updatePriorities` (src/SweepSchedule.cc:543-563). -/
def Plan.updatePriorities (P : Plan K) (r : Nat) (k : Seek) (workDone : List Work) (p : Table) : Table :=
  workDone.foldl (fun p w => (List.finRange 4).foldl
    (P.passUp r k (P.backward.glAngle w.angle, w.cell)) p) p

/-- The variables of the second loop: the queue with the counters, the priorities, `nSolved`. -/
structure Seeker where
  todo : Todo
  prio : Table
  solved : Nat

/-- The test of the loop (src/SweepSchedule.cc:608): it ends. -/
def Plan.sought (P : Plan K) (r : Nat) (s : Seeker) : Prop :=
  s.solved = (P.angles.length * (P.mesh r).nCells) % 2 ^ 64

/-- The state after `i` passes of the second loop (src/SweepSchedule.cc:608-615). All its queue
priorities are zero. -/
inductive Plan.Seeking (P : Plan K) (r : Nat) (side : Table) (k : Seek) : Nat → Seeker → Prop
  | init : Plan.Seeking P r side k 0
      ⟨P.seekTodo r (P.seekBound r side k).2, (P.seekBound r side k).1, 0⟩
  | pass (i : Nat) (s : Seeker) (w : Todo) (d : List Work) : Plan.Seeking P r side k i s →
      ¬ P.sought r s → TopoSort P.backward r (fun _ _ => 0) s.todo [] w d →
      Plan.Seeking P r side k (i + 1)
        ⟨w, P.updatePriorities r k d s.prio, (s.solved + d.length) % 2 ^ 64⟩

/-- `neighborPriorities` (src/SweepSchedule.cc:570-616) ends on rank `r` with the priorities `p`. -/
def Plan.NeighborPriorities (P : Plan K) (r : Nat) (side : Table) (k : Seek) (p : Table) : Prop :=
  ∃ i s, P.Seeking r side k i s ∧ P.sought r s ∧ s.prio = p

end
end Verif.Schedule
