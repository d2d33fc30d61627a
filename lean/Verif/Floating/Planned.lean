import Verif.Floating.Model
import Verif.Schedule.Core
import Verif.Partition.Model

/-!
# The sweep along schedules with the arithmetic of a machine

`Sweeper::sweep` (src/Sweeper.cc), as `Verif.Schedule.Core` has it, on the flux arrays of
`Verif.Floating.Model`.
-/
namespace Verif.Floating

open Verif.MeshFile Verif.TychoMesh Verif.Traverse Verif.Schedule

variable {F : Type} {nA nG : Nat}

/-- The comparisons with `TOL` (src/SweepSchedule.cc:57, 115, 119): `> TOL` and `< -TOL`. -/
structure Tolerance (F : Type) where
  above : F → Bool
  below : F → Bool

/-- The settings of such a sweep that are free: variant, `g_nAngleGroups`, `g_maxCellsPerStep`, the
priorities of the schedules, buffering of messages, what the new `PsiBoundData` holds. -/
structure Planning (F : Type) where
  variant : Variant
  nAngleGroups : Nat
  maxCells : Nat
  priority : Nat → Nat → Nat → Nat → Nat
  rendezvous : Bool
  bound0 : Nat → Bound F

/-- `hasChild` (src/SweepSchedule.cc:108-118) of a rank; `a` is an angle of the group. -/
def Kernel.hasChild (K : Kernel F nA nG) (tol : Tolerance F) (T : Mesh) (D : Tables F) (a c : Nat) (f : Fin 4) : Bool :=
  if tol.above (K.omega D a c f) then ((T.getAdjRank c f).bind toNone).isSome else false

/-- `hasParent` (src/SweepSchedule.cc:108-124). -/
def Kernel.hasParent (K : Kernel F nA nG) (tol : Tolerance F) (T : Mesh) (D : Tables F) (a c : Nat) (f : Fin 4) : Bool :=
  if tol.above (K.omega D a c f) then false
  else if tol.below (K.omega D a c f) then ((T.getAdjRank c f).bind toNone).isSome else false

/-- The graph `calcOrdering` sorts for angle group `g` (src/SweepSchedule.cc:425-466; src/Sweeper.cc:325-349). -/
def Kernel.graph (K : Kernel F nA nG) (tol : Tolerance F) (n : Nat) (T : Nat → Mesh) (D : Nat → Tables F) (pl : Planning F) (g : Nat) :
    Graph where
  nRanks := n
  angles := Verif.Partition.groupAngles nA pl.nAngleGroups g
  maxStep := pl.maxCells % 2 ^ 32
  mesh r := K.mesh (T r) (D r)
  wait r i := K.hasParent tol (T r) (D r) ((Verif.Partition.groupAngles nA pl.nAngleGroups g).getD i 0)
  free r i := K.hasChild tol (T r) (D r) ((Verif.Partition.groupAngles nA pl.nAngleGroups g).getD i 0)

/-- `updateBoundData` (src/Sweeper.cc:233-254); the groups are independent of each other. -/
def Kernel.updateBound (K : Kernel F nA nG) (T : Mesh) (D : Tables F) (c a : Nat) (d : Psi F × Bound F) : Psi F × Bound F :=
  (d.1, (List.finRange 4).foldl (fun b f =>
    if (T.getAdjCell c f).bind toNone = none ∧ K.outgoing D a c f = true then fun g k a' s =>
      if a' = a ∧ s = (T.getSide c f).getD 0 ∧ g < nG then d.1 g ((T.getFaceToCellVrtx c f k).getD 0) a c else b g k a' s
    else b) d.2)

/-- `Sweeper::sweep` (src/Sweeper.cc:373-490) with the schedules `sched` by group. -/
def Kernel.planned (K : Kernel F nA nG) (n : Nat) (T : Nat → Mesh) (D : Nat → Tables F) (pl : Planning F) (sched : Nat → Schedule.State)
    (source psi0 : Nat → Psi F) : Core (Psi F × Bound F) (Fin 3 → Fin nG → F) where
  cfg := K.cfg n T D ⟨1, 1, .tycho, pl.rendezvous, fun _ _ _ => 0, pl.bound0⟩ source psi0
  variant := pl.variant
  nAngleGroups := pl.nAngleGroups
  sched := sched
  updateBoundData r c a := K.updateBound (T r) (D r) c a
  getBoundData d s a := fun k g => d.2 g k a s

/-- The schedules are those of `Sweeper::Sweeper` (src/Sweeper.cc:320-350). -/
def Kernel.Scheduled (K : Kernel F nA nG) (tol : Tolerance F) (n : Nat) (T : Nat → Mesh) (D : Nat → Tables F) (pl : Planning F)
    (sched : Nat → Schedule.State) : Prop :=
  ∀ g < pl.nAngleGroups, Ordering (K.graph tol n T D pl g) (pl.priority g) (sched g)

/-- A sweep along schedules from `psi` may return with `psi'`: some execution under some settings ends on
all ranks. -/
def Kernel.SweptPlan (K : Kernel F nA nG) (tol : Tolerance F) (n : Nat) (T : Nat → Mesh) (D : Nat → Tables F)
    (source psi psi' : Nat → Psi F) : Prop :=
  ∃ (pl : Planning F) (sched : Nat → Schedule.State) (s : SweepState (K.planned n T D pl sched source psi)), 0 < pl.nAngleGroups ∧
    K.Scheduled tol n T D pl sched ∧ Schedule.Swept s ∧ s.Over ∧ ∀ r < n, (s.rank r).data.1 = psi' r

/-- A sweep by the traversal or along schedules. -/
def Kernel.AnySweep (K : Kernel F nA nG) (tol : Tolerance F) (n : Nat) (T : Nat → Mesh) (D : Nat → Tables F)
    (source psi psi' : Nat → Psi F) : Prop :=
  K.Swept n T D source psi psi' ∨ K.SweptPlan tol n T D source psi psi'

/-- `fixedPoint` (src/SourceIteration.cc:127-207) from the zero flux may hold `psi` after `k` sweeps of any
kind (src/Sweeper.cc:356-364; src/SweeperTraverse.cc:65-74). -/
inductive Kernel.AnyIterated (K : Kernel F nA nG) (tol : Tolerance F) (n : Nat) (T : Nat → Mesh) (D : Nat → Tables F) :
    Nat → (Nat → Psi F) → Prop
  | zero : K.AnyIterated tol n T D 0 fun _ _ _ _ _ => K.zero
  | succ {k : Nat} {psi psi' : Nat → Psi F} : K.AnyIterated tol n T D k psi →
      K.AnySweep tol n T D (fun r => K.totalSource (D r) (psi r)) psi psi' → K.AnyIterated tol n T D (k + 1) psi'

/-- `fixedPoint` with at most `iterMax` sweeps of any kind may return with flux `psi`, having printed the
errors `l` (latest first). -/
inductive Kernel.AnyFixedPoint (K : Kernel F nA nG) (tol : Tolerance F) (test : Test F) (iterMax n : Nat) (T : Nat → Mesh)
    (D : Nat → Tables F) : (Nat → Psi F) → List F → Prop
  | zero : K.AnyFixedPoint tol test iterMax n T D (fun _ _ _ _ _ => K.zero) []
  | succ {psi psi' : Nat → Psi F} {l : List F} : K.AnyFixedPoint tol test iterMax n T D psi l → l.length < iterMax →
      test.above (l.headD test.one) = true →
      K.AnySweep tol n T D (fun r => K.totalSource (D r) (psi r)) psi psi' →
      K.AnyFixedPoint tol test iterMax n T D psi' (K.errorOf test n T psi psi' :: l)

end Verif.Floating
