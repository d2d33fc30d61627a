import Verif.Schedule.SeekHeur
import Verif.Schedule.Examples

/-!
# Priorities on small meshes (C66)
-/
namespace Verif.Schedule
open Verif.Traverse Verif.Priorities

/-- Breadth-first: in direction 7 cell 0 of rank 0 feeds, through cell 1, cell 0 of rank 1, which has
one cell downwind. -/
example : ∃ lev p, CalcLevels exPlan.backward lev ∧
    exPlan.NeighborPriorities 0 (lev 0).side ⟨1, 0, 0⟩ p ∧ 1 ≤ p 0 0 := by
  obtain ⟨lev, h⟩ := levels_return exPlan_fits (by decide)
  obtain ⟨p, hp⟩ := (seek_returns_iff exPlan_fits (r := 0) (by decide) (lev 0).side ⟨1, 0, 0⟩ (by decide)).2
    (.inr ⟨by decide, locally_of_acyclic exPlan_acyclic 0⟩)
  refine ⟨lev, p, h, hp, ?_⟩
  refine (bfds_priority exPlan_fits exPlan_acyclic (by decide) h (r := 0) (by decide) (by decide) hp
    (a := 0) (c := 0) (by decide) (by decide)).2 (.inr ⟨1, 2, ⟨1, 0, 2⟩, .single ?_, ⟨by decide, by decide⟩,
      by decide, .cons _ (1, 1) _ ?_ (.nil _)⟩)
  · exact ⟨⟨0, 1, 0⟩, ⟨0, 0, 0⟩, ⟨by decide, by decide⟩, by decide, by decide, rfl, rfl⟩
  · exact ⟨⟨1, 1, 3⟩, ⟨1, 0, 3⟩, ⟨by decide, by decide⟩, by decide, by decide, rfl, rfl⟩

/-- Depth-first where it works: in direction 4 every cell of rank 1 has a downwind neighbour. -/
example : ∃ lev p, CalcLevels exPlan.backward lev ∧
    exPlan.NeighborPriorities 1 (lev 1).side ⟨1, exPlan.backward.nLevels lev, 2 ^ 64 - 1⟩ p ∧
    exPlan.backward.nLevels lev ≤ p 1 1 := by
  obtain ⟨lev, h⟩ := levels_return exPlan_fits (by decide)
  obtain ⟨p, hp⟩ := (seek_returns_iff exPlan_fits (r := 1) (by decide) (lev 1).side
    ⟨1, exPlan.backward.nLevels lev, 2 ^ 64 - 1⟩ (by decide)).2
    (.inr ⟨by decide, locally_of_acyclic exPlan_acyclic 1⟩)
  refine ⟨lev, p, h, hp, ?_⟩
  have hN : exPlan.backward.nLevels lev ≤ 5 := by
    rcases (nLevels_longest exPlan_fits exPlan_acyclic (by decide) h).1 with h0 | ⟨r, a, c, hr, ha, hc, h0⟩
    · omega
    · have h1 := chain_le (exPlan_acyclic.at ha) (t := (r, c)) ⟨hr, hc⟩ h0
      have h2 : exPlan.totalCells = 5 := by decide
      omega
  have hup : exPlan.Within exMate 1 4 1 0 :=
    ⟨⟨1, 0, 3⟩, ⟨1, 1, 3⟩, ⟨by decide, by decide⟩, by decide, by decide, rfl, rfl⟩
  have key := (dfds_priority_partial exPlan_fits exPlan_acyclic (by decide) h (r := 1) (by decide) (by decide)
    (scale := 1) (by omega) hp (a := 1) (c := 1) (by decide) (by
      intro c hc
      have hc : c < 2 := hc
      interval_cases c
      · exact ⟨2, ⟨0, 1, 2⟩, by decide, by decide⟩
      · exact ⟨3, ⟨1, 0, 3⟩, by decide, by decide⟩) (by decide)).2
    ⟨0, 1, 2, ⟨0, 1, 2⟩, 1, .cons _ _ _ _ hup (.nil _), ⟨by decide, by decide⟩, by decide,
      .cons _ (0, 0) _ ⟨⟨0, 0, 0⟩, ⟨0, 1, 0⟩, ⟨by decide, by decide⟩, by decide, by decide, rfl, rfl⟩ (.nil _), rfl⟩
  omega

theorem ex_within : exPlan.Within exMate 1 7 0 1 :=
  ⟨⟨1, 1, 3⟩, ⟨1, 0, 3⟩, ⟨by decide, by decide⟩, by decide, by decide, rfl, rfl⟩

theorem ex_end (f : Face) (y : Loc) : ¬ exPlan.Down exMate 1 7 1 f y := by
  have : ∀ f, ¬ exPlan.tol < exPlan.dot 1 7 1 f := by decide
  exact fun h => this f h.2

/-- C66: in direction 7 no descendant of cell 0 of rank 1 is on another rank, yet its depth-first
priority is the largest there is, larger than that of any cell with such descendants. -/
theorem dfds_witness : ∃ lev p, CalcLevels exPlan.backward lev ∧
    exPlan.NeighborPriorities 1 (lev 1).side ⟨1, exPlan.backward.nLevels lev, 2 ^ 64 - 1⟩ p ∧
    p 0 0 = 2 ^ 64 - 1 := by
  obtain ⟨lev, h⟩ := levels_return exPlan_fits (by decide)
  obtain ⟨p, hp⟩ := (seek_returns_iff exPlan_fits (r := 1) (by decide) (lev 1).side
    ⟨1, exPlan.backward.nLevels lev, 2 ^ 64 - 1⟩ (by decide)).2
    (.inr ⟨by decide, locally_of_acyclic exPlan_acyclic 1⟩)
  exact ⟨lev, p, h, hp, dfds_wraps exPlan_fits (by decide) (by decide) hp (a := 0) (by decide)
    ex_within ex_end⟩

/-- C66: the depth-first options cannot construct the schedule of this mesh without undefined
behaviour, though it is acyclic and small. -/
theorem dfds_undefined_witness (rand : Nat → Table) : exPlan.Acyclic exMate ∧
    (¬ ∃ s, exPlan.Constructed 3 0 rand s) ∧ ¬ ∃ s, exPlan.Constructed 4 1 rand s :=
  ⟨exPlan_acyclic,
    dfds_undefined exPlan_fits exPlan_acyclic (.inl rfl) (r := 1) (by decide) (by decide) (a := 0) (by decide) (.inl rfl)
      ex_within ex_end,
    dfds_undefined exPlan_fits exPlan_acyclic (.inr rfl) (r := 1) (by decide) (by decide) (a := 0) (by decide)
      (.inr ⟨rfl, rfl⟩) ex_within ex_end⟩

/-- The other options do. -/
example (rand : Nat → Table) (h : ∀ r a c, rand r a c < 2 ^ 31) (intra inter : Nat) (hi : intra ≤ 2) :
    ∃ s, exPlan.Constructed intra inter rand s ∧
      ∀ c < 3, ∀ g ∈ [7, 4], (s.workOrders 0).flatten.count ⟨c, g⟩ = 1 := by
  obtain ⟨s, hs⟩ := constructor_returns_partial exPlan_fits (by decide) exPlan_acyclic
    (fun r hr => by
      have hr : r < 2 := hr
      interval_cases r <;> decide)
    (by decide) (intra := intra) (by omega) inter h
  exact ⟨s, hs, (constructed_topological exPlan_fits exPlan_acyclic hs (r := 0) (by decide)).1⟩

/-- C66: on the cyclic mesh the dependent-seeking options never finish their priorities, while with the
others the constructor returns an incomplete schedule (C62). -/
theorem cyclic_priorities_hang (inter : Nat) (rand : Nat → Table) :
    (¬ ∃ q, cycPlan.Prioritised 2 inter rand q) ∧ ∃ q, cycPlan.Prioritised 1 inter rand q := by
  have hs : ∀ r < cycPlan.nRanks, cycPlan.angles.length * (cycPlan.mesh r).nCells < 2 ^ 64 := by
    intro r _
    show 1 * 2 < 2 ^ 64
    decide
  constructor
  · rw [priorities_return_iff cyc_fits (by decide) hs]
    intro h
    exact h (.inl rfl) 0 (by decide) 0 (by decide) 0 (.tail (.single cyc_up1) cyc_up0)
  · rw [priorities_return_iff cyc_fits (by decide) hs]
    intro h
    omega

/-- The hypotheses of `schedule_global_angles` and `schedule_local_angles`: three levels, five cells. -/
example : exPlan.angles.length * 3 * exPlan.totalCells < 2 ^ 64 ∧ 1 < exPlan.angles.length ∧
    (∀ a c, a < exPlan.angles.length → c < (exPlan.mesh 1).nCells → (fun a c => 2 * a + c) a c < 3 * exPlan.totalCells) ∧
    ∀ d < (exPlan.mesh 1).nCells, (fun a c => 2 * a + c) 0 d < (fun a c => 2 * a + c) 1 0 := by
  have h1 : exPlan.totalCells = 5 := by decide
  have h2 : exPlan.angles.length = 2 := by decide
  have h3 : (exPlan.mesh 1).nCells = 2 := by decide
  rw [h1, h2, h3]
  refine ⟨by decide, by decide, fun a c ha hc => ?_, fun d hd => ?_⟩ <;> dsimp only <;> omega

end Verif.Schedule
