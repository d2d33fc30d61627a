import Verif.Schedule.SweepPlan
import Verif.Schedule.SweepLive
import Verif.Traverse.Examples

/-!
# Sweeps along the schedules of `Sweeper::Sweeper` (C65)
-/
set_option linter.unusedSectionVars false
set_option linter.unusedVariables false

namespace Verif.Schedule
open Classical List
open Verif.Transport Verif.Traverse

section
variable {K : Type} [Field K] [LinearOrder K] [IsStrictOrderedRing K] {S : Sweeping K}
  {mate : Loc → Option Loc} {maxCells : Nat} {tol : K} {prio : Nat → Nat → Nat → Nat → Nat}
  (B : S.Built maxCells tol prio) (C : S.Clear mate tol) (L : Linked S.run.cfg mate) (A : S.Apart)
  (H : S.run.Physical) (hd : S.run.doComm = true) (hac : Verif.Traverse.Acyclic S.run.cfg mate)
include B C L A H hd hac

/-- C65: for any division into angle groups, any step size, any priorities, both variants, buffered or
unbuffered messages, and any interleaving: the sweep never deadlocks and never goes on for ever. -/
theorem scheduled_sweep_returns_partial :
    (∀ s : SweepState S.core, Swept s → ¬ s.Over → ∃ s', Move s s') ∧
    (∀ (f : Nat → SweepState S.core) (n : Nat), f 0 = S.core.start → (∀ i < n, Move (f i) (f (i + 1))) →
      n ≤ S.core.effort) ∧
    ∃ s : SweepState S.core, Swept s ∧ s.Over := by
  have T := timetable B C L hd hac
  refine ⟨fun s h hno => scheduled_progress T L (S.agrees A H) hd h hno, scheduled_bounded T, ?_⟩
  obtain ⟨s, -, h1, h2⟩ := scheduled_returns T L (S.agrees A H) hd (s := S.core.start) .start
  exact ⟨s, h1, h2⟩

/-- C65: when it has returned, the flux is the solution of the upwind discretisation of the whole mesh, and
so the same for all of these choices. -/
theorem scheduled_sweep_solves_partial {node : Nat → Nat → Fin 4 → Nat} (N : S.run.Nodes mate node)
    {s : SweepState S.core} (h : Swept s) (hov : s.Over) :
    ∃ psi : Nat → Psi K, (∀ r < S.run.nRanks, ∃ bnd, (s.rank r).data = some (psi r, bnd)) ∧
      S.run.GlobalDG mate node psi ∧
      ∀ psi' : Nat → Psi K, S.run.GlobalDG mate node psi' →
        ∀ r c a g v, r < S.run.nRanks → c < S.run.nCells r → a < S.run.nAngles → g < S.run.nGroups →
          psi r g v a c = psi' r g v a c := by
  have T := timetable B C L hd hac
  obtain ⟨psi, h1, h2⟩ := scheduled_solves T L A H hd N h hov
  exact ⟨psi, h1, h2, fun psi' h' => scheduled_unique T L A H hd N h hov h2 h'⟩

/-- C65: the sweep along the schedules and the graph traversal return the same flux. -/
theorem scheduled_sweep_eq_traversal_partial {node : Nat → Nat → Fin 4 → Nat} (N : S.run.Nodes mate node)
    {s : SweepState S.core} (h : Swept s) (hov : s.Over) {t : Verif.Traverse.State _ _}
    (ht : Reachable S.run.cfg t) (hf : ∀ r < S.run.nRanks, (t.rank r).phase = .finished) :
    ∃ psi psi' : Nat → Psi K, (∀ r < S.run.nRanks, ∃ bnd, (s.rank r).data = some (psi r, bnd)) ∧
      (∀ r < S.run.nRanks, ∃ bnd, (t.rank r).data = some (psi' r, bnd)) ∧
      ∀ r c a g v, r < S.run.nRanks → c < S.run.nCells r → a < S.run.nAngles → g < S.run.nGroups →
        psi r g v a c = psi' r g v a c :=
  scheduled_eq_traversal (timetable B C L hd hac) L A H hd N h hov ht hf

end

/-! ### Example: the two ranks of `Verif.Traverse.Examples` -/

/-- The schedules exist if the step size is positive. -/
theorem built_exists {K : Type} [Field K] [LinearOrder K] [IsStrictOrderedRing K] (R : SweepRun K)
    (variant : Variant) (nAngleGroups maxCells : Nat) (tol : K) (prio : Nat → Nat → Nat → Nat → Nat)
    {mate : Loc → Option Loc} (hG : 0 < nAngleGroups) (hm : maxCells % 2 ^ 32 ≠ 0)
    (L : Linked R.cfg mate) (ht : 0 ≤ tol)
    (ho : ∀ x y a, R.cfg.In x → mate x = some y → a < R.nAngles →
      (R.view y.rank).omegaDotN a y.cell y.face = - (R.view x.rank).omegaDotN a x.cell x.face) :
    ∃ S : Sweeping K, S.run = R ∧ S.variant = variant ∧ S.nAngleGroups = nAngleGroups ∧
      S.Built maxCells tol prio := by
  let S0 : Sweeping K := ⟨R, variant, nAngleGroups, fun _ => Graph.init (Plan.forward
    { nRanks := 0, angles := [], maxCellsPerStep := 0, mesh := R.mesh, dot := fun _ _ _ _ => 0, tol := tol })⟩
  have hex : ∀ g, ∃ s, g < nAngleGroups → Ordering (S0.plan maxCells tol g).forward (prio g) s := by
    intro g
    by_cases hg : g < nAngleGroups
    · have F : (S0.plan maxCells tol g).Fits mate := by
        refine fits_of_linked L rfl rfl groupAngles_nodup ht ?_
        intro x y hx hm a ha
        exact ho x y a hx hm ((groupAngles_iff hG).1 ⟨g, hg, ha⟩)
      obtain ⟨s, hs⟩ := (schedule_returns_iff F (prio g)).2 (Or.inl hm)
      exact ⟨s, fun _ => hs⟩
    · exact ⟨S0.sched 0, fun h => absurd h hg⟩
  choose sched hs using hex
  exact ⟨⟨R, variant, nAngleGroups, sched⟩, rfl, rfl, rfl, hG, fun g hg => hs g hg⟩

theorem ex_opposite (par : Bool) (rv : Bool) : ∀ x y a, (exRun par .tycho rv).cfg.In x → exMate x = some y →
    a < (exRun par .tycho rv).nAngles →
    ((exRun par .tycho rv).view y.rank).omegaDotN a y.cell y.face =
      - ((exRun par .tycho rv).view x.rank).omegaDotN a x.cell x.face := by
  intro x y a _ h ha
  have ha : a < 2 := ha
  rcases exMate_some h with ⟨rfl, rfl⟩ | ⟨rfl, rfl⟩ <;> interval_cases a <;> cases par <;>
    cases rv <;> decide +kernel

theorem ex_apart {S : Sweeping ℚ} {par rv : Bool} (h : S.run = exRun par .tycho rv) : S.Apart := by
  rw [Sweeping.apart_iff]
  intro r hr c hc c' hc' f f' _ _ hs
  rw [h] at hc hc' hs
  have hc : c < 1 := hc
  have hc' : c' < 1 := hc'
  have hs : (f : Nat) = (f' : Nat) := hs
  exact ⟨by omega, Fin.ext hs⟩

theorem ex_clear {S : Sweeping ℚ} {rv : Bool} (h : S.run = exRun false .tycho rv) :
    S.Clear exMate (1 / 2) := by
  refine ⟨by norm_num, ?_, ?_⟩
  · rw [h]; exact ex_opposite false rv
  · rw [h]
    intro x y a _ h ha
    have ha : a < 2 := ha
    rcases exMate_some h with ⟨rfl, rfl⟩ | ⟨rfl, rfl⟩ <;> interval_cases a <;> cases rv <;> decide +kernel

/-- C65 applies: with two angle groups, and messages that are not buffered, in both variants. -/
example (variant : Variant) : ∃ S : Sweeping ℚ, S.run = exRun false .tycho true ∧ S.variant = variant ∧
    S.nAngleGroups = 2 ∧ ∃ s : SweepState S.core, Swept s ∧ s.Over ∧
    ∃ psi : Nat → Psi ℚ, (∀ r < 2, ∃ bnd, (s.rank r).data = some (psi r, bnd)) ∧
      S.run.GlobalDG exMate exNode psi := by
  obtain ⟨S, h1, h2, h3, B⟩ := built_exists (exRun false .tycho true) variant 2 1 (1 / 2)
    (fun _ _ _ _ => 0) (mate := exMate) (by decide) (by decide) (ex_linked _ _ _) (by norm_num)
    (ex_opposite false true)
  have C := ex_clear h1
  have A := ex_apart h1
  have L : Linked S.run.cfg exMate := by rw [h1]; exact ex_linked _ _ _
  have H : S.run.Physical := by rw [h1]; exact ex_physical _ _ _
  have hd : S.run.doComm = true := by rw [h1]; rfl
  have hac : Verif.Traverse.Acyclic S.run.cfg exMate := by rw [h1]; exact ex_acyclic _ _
  have N : S.run.Nodes exMate exNode := by rw [h1]; exact ex_nodes _ _ _
  obtain ⟨s, h4, h5⟩ := (scheduled_sweep_returns_partial B C L A H hd hac).2.2
  obtain ⟨psi, h6, h7, -⟩ := scheduled_sweep_solves_partial B C L A H hd hac N h4 h5
  refine ⟨S, h1, h2, h3, s, h4, h5, psi, ?_, h7⟩
  have : S.run.nRanks = 2 := by rw [h1]; rfl
  rw [← this]
  exact h6

end Verif.Schedule
