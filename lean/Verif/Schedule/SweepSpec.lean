import Verif.Schedule.Core
import Verif.Traverse.Lemmas10

/-!
# What a sweep along schedules relies on

`Timetable` collects what the schedules must provide, `Core.Apart` that boundary faces have sides of
their own. `SweepInv` is the invariant of the sweep.
-/
set_option linter.unusedSectionVars false
set_option linter.unusedVariables false

namespace Verif.Schedule
open Classical List
open Verif.Traverse

variable {D B : Type} {S : Core D B}

/-- `w` is listed before item `i` of step `k`. -/
def Core.Before (S : Core D B) (g r k i : Nat) (w : Work) : Prop :=
  ∃ k' i' : Nat, (S.workAt g r k')[i']? = some w ∧ (k' < k ∨ k' = k ∧ i' < i)

/-- The schedules of all groups and ranks, where `angles g` are the angles of group `g`: each task is
listed once, after the tasks upwind of it, those on other ranks in earlier steps; sends and receives
match, and are planned exactly where tasks of the step have faces leading to the other rank. -/
structure Timetable (S : Core D B) (mate : Loc → Option Loc) (angles : Nat → List Nat) : Prop where
  forward : S.cfg.direction = .forward
  groups : 0 < S.nAngleGroups
  cover : ∀ a < S.cfg.nAngles, ∃ g < S.nAngleGroups, a ∈ angles g
  below : ∀ g < S.nAngleGroups, ∀ a ∈ angles g, a < S.cfg.nAngles
  disjoint : ∀ g < S.nAngleGroups, ∀ g' < S.nAngleGroups, ∀ a ∈ angles g, a ∈ angles g' → g = g'
  valid : ∀ g < S.nAngleGroups, ∀ r < S.cfg.nRanks, ∀ (k i : Nat) (w : Work), (S.workAt g r k)[i]? = some w →
    w.cell < (S.cfg.mesh r).nCells ∧ w.angle ∈ angles g
  listed : ∀ g < S.nAngleGroups, ∀ r < S.cfg.nRanks, ∀ c < (S.cfg.mesh r).nCells, ∀ a ∈ angles g,
    ∃ k i : Nat, (S.workAt g r k)[i]? = some (⟨c, a⟩ : Work)
  unique : ∀ g < S.nAngleGroups, ∀ r < S.cfg.nRanks, ∀ (k i k' i' : Nat) (w : Work), (S.workAt g r k)[i]? = some w →
    (S.workAt g r k')[i']? = some w → k = k' ∧ i = i'
  order : ∀ g < S.nAngleGroups, ∀ r < S.cfg.nRanks, ∀ (k i : Nat) (w : Work), (S.workAt g r k)[i]? = some w →
    ∀ f y, mate ⟨r, w.cell, f⟩ = some y → ¬ (S.cfg.mesh r).outgoing w.angle w.cell f = true →
      (y.rank = r → S.Before g r k i ⟨y.cell, w.angle⟩) ∧
      (y.rank ≠ r → S.Before g y.rank k 0 ⟨y.cell, w.angle⟩)
  facing : ∀ x y a, S.cfg.In x → mate x = some y → a < S.cfg.nAngles →
    ¬ (S.cfg.mesh x.rank).outgoing a x.cell x.face = true → (S.cfg.mesh y.rank).outgoing a y.cell y.face = true
  agree : ∀ g < S.nAngleGroups, ∀ p < S.cfg.nRanks, ∀ q < S.cfg.nRanks, ∀ k,
    q ∈ S.sendAt g p k ↔ p ∈ S.recvAt g q k
  needed : ∀ g < S.nAngleGroups, ∀ p < S.cfg.nRanks, ∀ q < S.cfg.nRanks, ∀ k,
    q ∈ S.sendAt g p k ↔ ∃ w ∈ S.workAt g p k, ∃ f, S.leaves p w.angle w.cell f ∧
      (S.cfg.mesh p).adjRank w.cell f = some q
  recv_nodup : ∀ g < S.nAngleGroups, ∀ r < S.cfg.nRanks, ∀ k, (S.recvAt g r k).Nodup
  recv_lt : ∀ g < S.nAngleGroups, ∀ r < S.cfg.nRanks, ∀ k, ∀ q ∈ S.recvAt g r k, q < S.cfg.nRanks
  send_lt : ∀ g < S.nAngleGroups, ∀ r < S.cfg.nRanks, ∀ k, ∀ q ∈ S.sendAt g r k, q < S.cfg.nRanks
  steps : ∀ r < S.cfg.nRanks, ∀ q < S.cfg.nRanks, S.maxSteps r = S.maxSteps q
  send_short : ∀ g < S.nAngleGroups, ∀ r < S.cfg.nRanks, ∀ k, S.maxSteps r ≤ k → S.sendAt g r k = []

/-- Faces on the boundary of a rank's part have different sides. -/
def Core.Apart (S : Core D B) : Prop :=
  ∀ r < S.cfg.nRanks, ∀ c < (S.cfg.mesh r).nCells, ∀ c' < (S.cfg.mesh r).nCells, ∀ f f',
    (S.cfg.mesh r).adjCell c f = none → (S.cfg.mesh r).adjCell c' f' = none →
    (S.cfg.mesh r).side c f = (S.cfg.mesh r).side c' f' → c = c' ∧ f = f'

/-! ### The invariant -/

/-- Tasks before this position are computed. -/
def Place.upto (p : Place) : Nat × Nat :=
  match p.phase with
  | .compute i => (p.step, i)
  | _ => (p.step + 1, 0)

/-- Tasks whose packets are in the send buffers. -/
def Core.pending (S : Core D B) (g r : Nat) (p : Place) : List Work :=
  match p.phase with
  | .compute i => (S.workAt g r p.step).take i
  | _ => []

/-- Messages of steps below this are sent. -/
def Place.sentUpto (p : Place) : Nat :=
  match p.phase with
  | .compute _ => p.step
  | _ => p.step + 1

/-- Messages from `q` of steps below this are received. -/
def Core.recvUpto (S : Core D B) (g r : Nat) (p : Place) (q : Nat) : Nat :=
  match p.phase with
  | .compute _ => p.step
  | .comm j => if q ∈ (S.recvAt g r p.step).drop j then p.step else p.step + 1
  | .barrier => p.step + 1

/-- Faces of the tasks `l` leading from rank `p` to rank `q`. -/
def Core.cross (S : Core D B) (p q : Nat) (l : List Work) : List (Work × Face) :=
  l.flatMap fun w => (List.finRange 4).filterMap fun f =>
    if S.leaves p w.angle w.cell f ∧ (S.cfg.mesh p).adjRank w.cell f = some q then some (w, f) else none

/-- The packet carries the flux on the face, as it was after the task's computation. -/
def Core.PktOk (S : Core D B) (log : List (Event B)) (p : Nat) (e : Work × Face)
    (pkt : Packet B) : Prop :=
  pkt.side = (S.cfg.mesh p).lgSide ((S.cfg.mesh p).side e.1.cell e.2) ∧ pkt.angle = e.1.angle ∧
    SentBy S.cfg log ⟨p, e.1.cell, e.2⟩ e.1.angle pkt.data

/-- `sim` relates the data of the sweep to that of the traversal, which does not keep the outgoing values of
the faces on the boundary of a part; their values are what `getBoundData` finds there. -/
structure Core.Agrees (S : Core D B) (sim : Nat → D → D → Prop) : Prop where
  init : ∀ r < S.cfg.nRanks, sim r (S.cfg.init r) (S.cfg.init r)
  set : ∀ r < S.cfg.nRanks, ∀ side angle x d d', sim r d d' →
    sim r ((S.cfg.data r).setSideData side angle x d) ((S.cfg.data r).setSideData side angle x d')
  compute : ∀ r < S.cfg.nRanks, ∀ w : Work, w.cell < (S.cfg.mesh r).nCells → w.angle < S.cfg.nAngles →
    ∀ d d', sim r d d' →
    sim r (S.compute r w d) ((S.cfg.data r).update w.cell w.angle (adjCellsSides (S.cfg.mesh r) w.cell)
      (bdryType (S.cfg.mesh r) w.angle w.cell) d') ∧
    ∀ f, S.leaves r w.angle w.cell f →
      S.getBoundData (S.compute r w d) ((S.cfg.mesh r).side w.cell f) w.angle =
      (S.cfg.data r).getData w.cell f w.angle ((S.cfg.data r).update w.cell w.angle
        (adjCellsSides (S.cfg.mesh r) w.cell) (bdryType (S.cfg.mesh r) w.angle w.cell) d')

/-- The steps with a message from `p` to `q` that is sent but not received. -/
def Core.inFlight (S : Core D B) (s : SweepState S) (p q g : Nat) : List Nat :=
  (List.range ((s.rank p).place g).sentUpto).filter fun k =>
    S.recvUpto g q ((s.rank q).place g) p ≤ k ∧ q ∈ S.sendAt g p k

/-- The invariant. -/
structure SweepInv (S : Core D B) (sim : Nat → D → D → Prop) (mate : Loc → Option Loc) (angles : Nat → List Nat)
    (s : SweepState S) : Prop where
  ordered : Ordered S.cfg mate s.log
  data : ∀ r < S.cfg.nRanks, sim r (s.rank r).data (replay S.cfg r s.log)
  done : ∀ r < S.cfg.nRanks, ∀ g < S.nAngleGroups, ∀ c, ∀ a ∈ angles g,
    Done s.log r c a ↔ S.Before g r ((s.rank r).place g).upto.1 ((s.rank r).place g).upto.2 ⟨c, a⟩
  delivered : ∀ r < S.cfg.nRanks, ∀ g < S.nAngleGroups, ∀ n, ∀ a ∈ angles g,
    Delivered s.log r n a ↔ ∃ x y k, x.rank = r ∧ S.cfg.In x ∧ mate x = some y ∧ y.rank ≠ r ∧
      (S.cfg.mesh r).side x.cell x.face = n ∧ S.leaves y.rank a y.cell y.face ∧
      (⟨y.cell, a⟩ : Work) ∈ S.workAt g y.rank k ∧
      k < S.recvUpto g r ((s.rank r).place g) y.rank
  chan : ∀ p < S.cfg.nRanks, ∀ q < S.cfg.nRanks, ∀ g < S.nAngleGroups,
    List.Forall₂ (fun k m => List.Forall₂ (S.PktOk s.log p) (S.cross p q (S.workAt g p k)) m)
      (S.inFlight s p q g) (s.chan p q g)
  buf : ∀ p < S.cfg.nRanks, ∀ q < S.cfg.nRanks, ∀ g < S.nAngleGroups,
    List.Forall₂ (S.PktOk s.log p) (S.cross p q (S.pending g p ((s.rank p).place g)))
      ((s.rank p).buf g q)
  causal : ∀ p < S.cfg.nRanks, ∀ q < S.cfg.nRanks, ∀ g < S.nAngleGroups, ∀ k,
    k < S.recvUpto g q ((s.rank q).place g) p → q ∈ S.sendAt g p k →
    k < ((s.rank p).place g).sentUpto

end Verif.Schedule
