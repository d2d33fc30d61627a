import Verif.Schedule.Core
import Verif.Traverse.Sweep

/-!
# The sweep along schedules with the arrays of the solver (src/Sweeper.cc)
-/
set_option linter.unusedSectionVars false

namespace Verif.Schedule
open List
open Verif.Transport Verif.Traverse

variable {K : Type} [Field K] [LinearOrder K]

/-- What `Sweeper::sweep` uses: the inputs of the sweep on all ranks, `g_nAngleGroups`, and
`g_sweepSchedule[group]` of all ranks. -/
structure Sweeping (K : Type) where
  run : SweepRun K
  variant : Variant
  nAngleGroups : Nat
  sched : Nat → State

variable (S : Sweeping K)

/-- Contents of one face in a message. -/
abbrev Sweeping.Block := Fin 3 → Fin S.run.nGroups → K

/-- Outgoing faces without a cell of this rank behind them (src/Sweeper.cc:239-243). -/
def Sweeping.leaves (r angle cell : Nat) (f : Face) : Prop :=
  (S.run.view r).adjCell cell f = none ∧ (S.run.view r).isOutgoing angle cell f

instance (r angle cell : Nat) (f : Face) : Decidable (S.leaves r angle cell f) :=
  inferInstanceAs (Decidable (_ ∧ _))

/-- `updateBoundData` (src/Sweeper.cc:233-254); the groups are independent of each other. -/
def Sweeping.updateBoundData (r cell angle : Nat) (psi : Psi K) (bound : Bound K) : Bound K :=
  (List.finRange 4).foldl (fun b f =>
    if S.leaves r angle cell f then fun group fv a s =>
      if a = angle ∧ s = (S.run.view r).side cell f ∧ group < S.run.nGroups then
        psi group (S.run.faceToCellVrtx r cell f fv) angle cell
      else b group fv a s
    else b) bound

/-- `getBoundData` (src/Sweeper.cc:77-84). -/
def Sweeping.getBoundData (d : Option (Psi K × Bound K)) (side angle : Nat) : S.Block :=
  match d with
  | some (_, b) => fun fv g => b g fv angle side
  | none => fun _ _ => 0

/-- The solve of one work item and `updateBoundData` (src/Sweeper.cc:282-306). `none` after a division
by zero. -/
def Sweeping.compute (r : Nat) (w : Work) (d : Option (Psi K × Bound K)) : Option (Psi K × Bound K) :=
  (S.run.update r w.cell w.angle d).map fun p => (p.1, S.updateBoundData r w.cell w.angle p.1 p.2)

/-- The sweep with these arrays. After a division by zero they are `none`. -/
def Sweeping.core : Core (Option (Psi K × Bound K)) S.Block where
  cfg := S.run.cfg
  variant := S.variant
  nAngleGroups := S.nAngleGroups
  sched := S.sched
  updateBoundData r cell angle d := d.map fun p => (p.1, S.updateBoundData r cell angle p.1 p.2)
  getBoundData := S.getBoundData

theorem core_compute (r : Nat) (w : Work) (d : Option (Psi K × Bound K)) :
    S.core.compute r w d = S.compute r w d := rfl

theorem core_leaves (r angle cell : Nat) (f : Face) : S.core.leaves r angle cell f ↔ S.leaves r angle cell f := by
  unfold Core.leaves Sweeping.leaves
  show _ ∧ decide _ = true ↔ _
  rw [decide_eq_true_iff]
  rfl

end Verif.Schedule
