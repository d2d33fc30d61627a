import Verif.Schedule.Plan
import Verif.Traverse.Spec
import Mathlib.Data.List.Range

/-!
# The sweep along the precomputed schedules (src/Sweeper.cc)

All ranks together, as in `Verif.Traverse.Model`: steps of threads and ranks interleave arbitrarily.
There is one schedule and one thread per angle group. The arrays `psi` and `psiBound` are an arbitrary data
object `D` here, and `B` is what a message holds of a face; `Verif.Schedule.Sweep` has those of the solver.

Simplifications, recorded in DESIGN.md:
* one pass of the loop over `getWork(step)` is atomic. Threads work on different angles, so on
  different entries of `psi` and `psiBound` and on different send buffers;
* the three messages of one `send` (sizes, sides and angles, data) are one message, the list of its
  packets;
* the wait for `commNumber` is the condition of a step.
-/
set_option linter.unusedSectionVars false

namespace Verif.Schedule
open List
open Verif.Traverse

variable {D B : Type}

/-- The two variants of the sweep (src/Sweeper.cc:404, 442). -/
inductive Variant | tycho1 | tycho2
deriving DecidableEq

/-- What `Sweeper::sweep` uses: the mesh and the data object of all ranks, which are those of the
traversal `cfg`, `g_nAngleGroups`, and `g_sweepSchedule[group]` of all ranks. -/
structure Core (D B : Type) where
  cfg : Cfg D B
  variant : Variant
  nAngleGroups : Nat
  sched : Nat → State
  /-- `updateBoundData` (src/Sweeper.cc:233-254), by rank, cell and angle -/
  updateBoundData : Nat → Nat → Nat → D → D
  /-- `getBoundData` (src/Sweeper.cc:77-84), by side and angle -/
  getBoundData : D → Nat → Nat → B

variable (S : Core D B)

/-- `getWork(step)`, nothing from `nSteps()` on (src/Sweeper.cc:277-280; src/SweepSchedule.hh:71-74). -/
def Core.workAt (g r k : Nat) : List Work := ((S.sched g).workOrders r).getD k []
/-- `getSendProcs(step)`, nothing from `nSteps()` on (src/Sweeper.cc:118-119). -/
def Core.sendAt (g r k : Nat) : List Nat := ((S.sched g).sendProcs r).getD k []
/-- `getRecvProcs(step)`, nothing from `nSteps()` on (src/Sweeper.cc:155-156). -/
def Core.recvAt (g r k : Nat) : List Nat := ((S.sched g).recvProcs r).getD k []

/-- `maxNSteps` (src/Sweeper.cc:384-387). -/
def Core.maxSteps (r : Nat) : Nat :=
  (List.range S.nAngleGroups).foldl (fun m g => max m ((S.sched g).workOrders r).length) 0

/-- Where the loop of an angle group is within a step: the next entry of `getWork`; the next entry of
`getRecvProcs` after the sends; in `Comm::barrier`. -/
inductive At
  | compute (i : Nat)
  | comm (j : Nat)
  | barrier
deriving DecidableEq

/-- Step number and place of an angle group. -/
structure Place where
  step : Nat
  phase : At
deriving DecidableEq

/-- Variables of `Sweeper::sweep` on one rank (src/Sweeper.cc:391-393, 445). `buf group proc` is
`commSidesAngles` and `commPsi`; `entered` counts the calls of `Comm::barrier`. -/
structure Vars (S : Core D B) where
  data : D
  buf : Nat → Nat → List (Packet B)
  place : Nat → Place
  turn : Nat
  entered : Nat

/-- All ranks, with the messages from rank to rank for each group (tags keep groups apart), and the
history of computations and received sides. -/
structure SweepState (S : Core D B) where
  rank : Nat → Vars S
  chan : Nat → Nat → Nat → List (List (Packet B))
  log : List (Event B)

/-- Outgoing faces without a cell of this rank behind them (src/Sweeper.cc:239-243). -/
def Core.leaves (r angle cell : Nat) (f : Face) : Prop :=
  (S.cfg.mesh r).adjCell cell f = none ∧ (S.cfg.mesh r).outgoing angle cell f = true

instance (r angle cell : Nat) (f : Face) : Decidable (S.leaves r angle cell f) :=
  inferInstanceAs (Decidable (_ ∧ _))

/-- The solve of one work item, as `SweepData::update` does it, and `updateBoundData`
(src/Sweeper.cc:282-306). -/
def Core.compute (r : Nat) (w : Work) (d : D) : D :=
  S.updateBoundData r w.cell w.angle ((S.cfg.data r).update w.cell w.angle (adjCellsSides (S.cfg.mesh r) w.cell)
    (bdryType (S.cfg.mesh r) w.angle w.cell) d)

/-- The packets `updateComm` appends to the buffer for rank `q` (src/Sweeper.cc:200-224). -/
def Core.packets (r : Nat) (w : Work) (d : D) (q : Nat) : List (Packet B) :=
  (List.finRange 4).filterMap fun f =>
    if S.leaves r w.angle w.cell f ∧ (S.cfg.mesh r).adjRank w.cell f = some q then
      some ⟨(S.cfg.mesh r).lgSide ((S.cfg.mesh r).side w.cell f), w.angle,
        S.getBoundData d ((S.cfg.mesh r).side w.cell f) w.angle⟩
    else none

/-- The events of the receipt of a message (src/Sweeper.cc:171-187). -/
def Core.arrivals (r : Nat) (m : List (Packet B)) : List (Event B) :=
  m.map fun p => .side r ((S.cfg.mesh r).glSide p.side) p.angle p.data

/-- `setBoundData` (src/Sweeper.cc:93-105). -/
def Core.setBoundData (r : Nat) (m : List (Packet B)) (d : D) : D :=
  m.foldl (fun d p => (S.cfg.data r).setSideData ((S.cfg.mesh r).glSide p.side) p.angle p.data d) d

variable {S}

/-- Assignment to the variables of one rank. -/
def SweepState.setRank (s : SweepState S) (r : Nat) (v : Vars S) : SweepState S :=
  { s with rank := setAt s.rank r v }

/-- Assignment to the place of one group. -/
def Vars.setPlace (v : Vars S) (g : Nat) (p : Place) : Vars S := { v with place := setAt v.place g p }

/-- One work item (src/Sweeper.cc:279-308). -/
def SweepState.work (s : SweepState S) (r g k i : Nat) (w : Work) : SweepState S :=
  let v := s.rank r
  let d := S.compute r w v.data
  { s.setRank r { v.setPlace g ⟨k, .compute (i + 1)⟩ with
      data := d
      buf := setAt v.buf g fun q => v.buf g q ++ S.packets r w d q } with
    log := s.log ++ [.upd r w.cell w.angle k] }

/-- `send` (src/Sweeper.cc:114-144); `getSendProcs` comes from a set and has no duplicates. -/
def SweepState.send (s : SweepState S) (r g k : Nat) : SweepState S :=
  let v := s.rank r
  { s.setRank r { v.setPlace g ⟨k, .comm 0⟩ with
      buf := setAt v.buf g fun q => if q ∈ S.sendAt g r k then [] else v.buf g q } with
    chan := setAt s.chan r fun q => if q ∈ S.sendAt g r k then
      setAt (s.chan r q) g (s.chan r q g ++ [v.buf g q]) else s.chan r q }

/-- The receipt of the message `m` from rank `q` (src/Sweeper.cc:156-189). -/
def SweepState.recv (s : SweepState S) (r g k j q : Nat) (m : List (Packet B))
    (ms : List (List (Packet B))) : SweepState S :=
  let v := s.rank r
  { s.setRank r { v.setPlace g ⟨k, .comm (j + 1)⟩ with data := S.setBoundData r m v.data } with
    chan := setAt s.chan q (setAt (s.chan q) r (setAt (s.chan q r) g ms))
    log := s.log ++ S.arrivals r m }

/-- The end of a pass of the loop over steps of the first variant: all groups go on
(src/Sweeper.cc:407, 435). -/
def SweepState.next (s : SweepState S) (r k : Nat) : SweepState S :=
  s.setRank r { s.rank r with place := fun _ => ⟨k + 1, .compute 0⟩ }

/-- A thread calls `Comm::barrier` (src/Sweeper.cc:482). -/
def SweepState.enter (s : SweepState S) (r g k : Nat) : SweepState S :=
  s.setRank r { (s.rank r).setPlace g ⟨k, .barrier⟩ with entered := (s.rank r).entered + 1 }

/-- It leaves the barrier, and lets the next thread communicate (src/Sweeper.cc:482-487). -/
def SweepState.leave (s : SweepState S) (r g k : Nat) : SweepState S :=
  s.setRank r { (s.rank r).setPlace g ⟨k + 1, .compute 0⟩ with turn := (g + 1) % S.nAngleGroups }

/-- The group has started its sends of the step. -/
def Place.sent (p : Place) : Prop := ∀ i, p.phase ≠ .compute i

/-- All receives of the step are done. -/
def Vars.heard (v : Vars S) (r g : Nat) : Prop :=
  (v.place g).phase = .comm (S.recvAt g r (v.place g).step).length

/-- A group may communicate: in the first variant when all threads have left the parallel region and
the groups before have called `send`; in the second when it is the thread's turn
(src/Sweeper.cc:410-427, 464-475). -/
def Vars.maySend (v : Vars S) (r g : Nat) : Prop :=
  match S.variant with
  | .tycho1 => (∀ g' < S.nAngleGroups, ∀ i, (v.place g').phase = .compute i →
      (S.workAt g' r (v.place g').step).length ≤ i) ∧ ∀ g' < g, (v.place g').sent
  | .tycho2 => v.turn = g

/-- A group may receive: in the first variant when all groups have sent and the groups before have
received (src/Sweeper.cc:429-431, 476). -/
def Vars.mayRecv (v : Vars S) (r g : Nat) : Prop :=
  match S.variant with
  | .tycho1 => (∀ g' < S.nAngleGroups, (v.place g').sent) ∧ ∀ g' < g, v.heard r g'
  | .tycho2 => True

/-- `MPI_Waitall` returns (src/Sweeper.cc:433, 477-478): at once if MPI buffers, else when the messages
sent have been received. -/
def SweepState.flushed (s : SweepState S) (r g : Nat) : Prop :=
  S.cfg.rendezvous = true → ∀ q, s.chan r q g = []

/-- One step of one rank. -/
inductive Move : SweepState S → SweepState S → Prop
  | work (s : SweepState S) (r g k i : Nat) (w : Work) : r < S.cfg.nRanks → g < S.nAngleGroups →
      (s.rank r).place g = ⟨k, .compute i⟩ → (S.workAt g r k)[i]? = some w → Move s (s.work r g k i w)
  | send (s : SweepState S) (r g k i : Nat) : r < S.cfg.nRanks → g < S.nAngleGroups →
      (s.rank r).place g = ⟨k, .compute i⟩ → (S.workAt g r k).length ≤ i → k < S.maxSteps r →
      (s.rank r).maySend r g → Move s (s.send r g k)
  | recv (s : SweepState S) (r g k j q : Nat) (m : List (Packet B))
      (ms : List (List (Packet B))) : r < S.cfg.nRanks → g < S.nAngleGroups →
      (s.rank r).place g = ⟨k, .comm j⟩ → (S.recvAt g r k)[j]? = some q → (s.rank r).mayRecv r g →
      s.chan q r g = m :: ms → Move s (s.recv r g k j q m ms)
  | next (s : SweepState S) (r k : Nat) : S.variant = .tycho1 → r < S.cfg.nRanks →
      (∀ g < S.nAngleGroups, ((s.rank r).place g).step = k ∧ (s.rank r).heard r g ∧ s.flushed r g) →
      0 < S.nAngleGroups → Move s (s.next r k)
  | enter (s : SweepState S) (r g k : Nat) : S.variant = .tycho2 → r < S.cfg.nRanks →
      g < S.nAngleGroups → ((s.rank r).place g).step = k → (s.rank r).heard r g → s.flushed r g →
      Move s (s.enter r g k)
  | leave (s : SweepState S) (r g k : Nat) : S.variant = .tycho2 → r < S.cfg.nRanks →
      g < S.nAngleGroups → (s.rank r).place g = ⟨k, .barrier⟩ →
      (∀ q < S.cfg.nRanks, (s.rank r).entered ≤ (s.rank q).entered) → Move s (s.leave r g k)

variable (S) in
/-- Before the sweep (src/Sweeper.cc:391-393, 445). The boundary array is zero in the code. -/
def Core.start : SweepState S where
  rank r := { data := S.cfg.init r, buf := fun _ _ => [],
              place := fun _ => ⟨0, .compute 0⟩, turn := 0, entered := 0 }
  chan _ _ _ := []
  log := []

/-- States an execution can reach. -/
inductive Swept : SweepState S → Prop
  | start : Swept S.start
  | move (s s' : SweepState S) : Swept s → Move s s' → Swept s'

/-- The sweep has returned on all ranks: all loops over steps have ended. -/
def SweepState.Over (s : SweepState S) : Prop :=
  ∀ r < S.cfg.nRanks, ∀ g < S.nAngleGroups, (s.rank r).place g = ⟨S.maxSteps r, .compute 0⟩

end Verif.Schedule
