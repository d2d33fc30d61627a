import Verif.Schedule.Timetable
import Verif.Schedule.SweepSolves

/-!
# The schedules of `Sweeper::Sweeper` for the arrays of the solver
-/
set_option linter.unusedSectionVars false
set_option linter.unusedVariables false

namespace Verif.Schedule
open Classical List
open Verif.Transport Verif.Traverse

variable {K : Type} [Field K] [LinearOrder K] [IsStrictOrderedRing K] {S : Sweeping K}
  {mate : Loc → Option Loc}

/-- What the constructor passes to the schedule of group `g` (src/Sweeper.cc:339-349):
`maxCellsPerStep`, and the angles of the group. `tol` is `TOL` (src/SweepSchedule.cc:57). -/
def Sweeping.plan (S : Sweeping K) (maxCells : Nat) (tol : K) (g : Nat) : Plan K where
  nRanks := S.run.nRanks
  angles := Verif.Partition.groupAngles S.run.nAngles S.nAngleGroups g
  maxCellsPerStep := maxCells
  mesh := S.run.mesh
  dot r a c f := (S.run.view r).omegaDotN a c f
  tol := tol

/-- The schedules are those built by `Sweeper::Sweeper` (src/Sweeper.cc:320-350), with some
priorities. -/
structure Sweeping.Built (S : Sweeping K) (maxCells : Nat) (tol : K) (prio : Nat → Nat → Nat → Nat → Nat) :
    Prop where
  groups : 0 < S.nAngleGroups
  sched : ∀ g < S.nAngleGroups, Ordering (S.plan maxCells tol g).forward (prio g) (S.sched g)

/-- The two sides of a face have opposite normals, and no direction is closer to parallel to a face
between two cells than the tolerance. -/
structure Sweeping.Clear (S : Sweeping K) (mate : Loc → Option Loc) (tol : K) : Prop where
  nonneg : 0 ≤ tol
  opposite : ∀ x y a, S.run.cfg.In x → mate x = some y → a < S.run.nAngles →
    (S.run.view y.rank).omegaDotN a y.cell y.face = - (S.run.view x.rank).omegaDotN a x.cell x.face
  clear : ∀ x y a, S.run.cfg.In x → mate x = some y → a < S.run.nAngles →
    tol < (S.run.view x.rank).omegaDotN a x.cell x.face ∨
    (S.run.view x.rank).omegaDotN a x.cell x.face < - tol

section
variable {maxCells : Nat} {tol : K} {prio : Nat → Nat → Nat → Nat → Nat}

theorem plan_fits (B : S.Built maxCells tol prio) (C : S.Clear mate tol) (L : Linked S.run.cfg mate)
    {g : Nat} (hg : g < S.nAngleGroups) : (S.plan maxCells tol g).Fits mate := by
  refine fits_of_linked L rfl rfl groupAngles_nodup C.nonneg ?_
  intro x y hx hm a ha
  exact C.opposite x y a hx hm ((groupAngles_iff B.groups).1 ⟨g, hg, ha⟩)

theorem Sweeping.follows (B : S.Built maxCells tol prio) (C : S.Clear mate tol) (L : Linked S.run.cfg mate) :
    S.core.Follows mate (fun g => (S.plan maxCells tol g).forward) prio := by
  have hget : ∀ g (i a : Nat), (S.plan maxCells tol g).angles[i]? = some a →
      (S.plan maxCells tol g).angles.getD i 0 = a := by
    intro g i a h
    rw [List.getD_eq_getElem?_getD, h]
    rfl
  have hlt : ∀ g < S.nAngleGroups, ∀ i a : Nat, (S.plan maxCells tol g).angles[i]? = some a → a < S.run.nAngles :=
    fun g hg i a h => (groupAngles_iff B.groups).1 ⟨g, hg, List.mem_of_getElem? h⟩
  have hout : ∀ {r a c : Nat} {f : Face}, (S.core.cfg.mesh r).outgoing a c f = true ↔
      0 < (S.run.view r).omegaDotN a c f := by
    intro r a c f
    show decide _ = true ↔ _
    rw [decide_eq_true_iff]
    rfl
  refine ⟨rfl, B.groups, B.sched, fun _ => rfl, fun _ => rfl, fun _ => rfl,
    fun g hg => joined_forward (plan_fits B C L hg), ?_, ?_⟩
  · intro g hg x y i a hx hm hi
    have hc := C.clear x y a hx hm (hlt g hg i a hi)
    have h1 := hasParent_iff (plan_fits B C L hg) (x := x) (a := i) hx
    rw [hget g i a hi, hm] at h1
    have h2 : (S.plan maxCells tol g).dot x.rank a x.cell x.face = (S.run.view x.rank).omegaDotN a x.cell x.face := rfl
    rw [h2] at h1
    rw [hout, not_lt]
    refine h1.trans ⟨fun h => le_of_lt (lt_of_lt_of_le h.2 (neg_nonpos.2 C.nonneg)), fun h => ⟨by simp, ?_⟩⟩
    rcases hc with hc | hc
    · exact absurd (lt_of_le_of_lt C.nonneg hc) (not_lt.2 h)
    · exact hc
  · intro g hg x y i a hx hm hi
    have hc := C.clear x y a hx hm (hlt g hg i a hi)
    have h1 := hasChild_iff (plan_fits B C L hg) (x := x) (a := i) hx
    rw [hget g i a hi, hm] at h1
    have h2 : (S.plan maxCells tol g).dot x.rank a x.cell x.face = (S.run.view x.rank).omegaDotN a x.cell x.face := rfl
    rw [h2] at h1
    rw [hout]
    refine h1.trans ⟨fun h => lt_of_le_of_lt C.nonneg h.2, fun h => ⟨by simp, ?_⟩⟩
    rcases hc with hc | hc
    · exact hc
    · exact absurd h (not_lt.2 (le_of_lt (lt_of_lt_of_le hc (neg_nonpos.2 C.nonneg))))

/-- The schedules of the constructor meet the needs of the sweep. -/
theorem timetable (B : S.Built maxCells tol prio) (C : S.Clear mate tol) (L : Linked S.run.cfg mate)
    (hd : S.run.doComm = true) (hac : Verif.Traverse.Acyclic S.run.cfg mate) :
    Timetable S.core mate (Verif.Partition.groupAngles S.run.nAngles S.nAngleGroups) :=
  follows_timetable (S.follows B C L) L hd hac

end

end Verif.Schedule
