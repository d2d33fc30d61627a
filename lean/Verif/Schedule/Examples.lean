import Verif.Schedule.LevelProps
import Verif.Priorities.Examples

/-!
# Schedules of small meshes
-/
namespace Verif.Schedule
open Verif.Traverse Verif.Priorities

/-- The two-rank mesh of `Verif.Priorities.Examples` with integer values of `omega · n`. The group
has the two directions 7 and 4 (global indices), in this order. -/
def exDot (r g c : Nat) (f : Face) : Int :=
  if (exMesh r).outgoing (if g = 7 then 0 else 1) c f then 3
  else if (exMate ⟨r, c, f⟩).isSome then -3 else 0

def exPlan : Plan Int where
  nRanks := 2
  angles := [7, 4]
  maxCellsPerStep := 2
  mesh := exMesh
  dot := exDot
  tol := 1

theorem exPlan_in {x : Loc} (h : exPlan.In x) : x ∈ exLocs := ex_in h

theorem exPlan_fits : exPlan.Fits exMate := by
  refine fits_of_linked ex_linked rfl rfl (by decide) (by decide) ?_
  intro x y hx h g hg
  have : ∀ x ∈ exLocs, ∀ y ∈ exMate x, ∀ g ∈ [7, 4],
    exDot y.rank g y.cell y.face = - exDot x.rank g x.cell x.face := by decide +kernel
  exact this x (exPlan_in hx) y h g hg

theorem exPlan_acyclic : exPlan.Acyclic exMate := by
  intro g hg t h
  have key : ∀ x ∈ exLocs, ∀ y ∈ exMate x, ∀ g ∈ [7, 4], exDot x.rank g x.cell x.face < - 1 →
      exOrder (if g = 7 then 0 else 1) (y.rank, y.cell) <
        exOrder (if g = 7 then 0 else 1) (x.rank, x.cell) := by decide +kernel
  have key2 : ∀ t t', Relation.TransGen (exPlan.Upwind exMate g) t t' →
      exOrder (if g = 7 then 0 else 1) t < exOrder (if g = 7 then 0 else 1) t' := by
    intro t t' h
    induction h with
    | single h =>
      obtain ⟨x, y, hx, hm, hn, rfl, rfl⟩ := h
      exact key x (exPlan_in hx) y hm g hg hn
    | tail _ h ih =>
      obtain ⟨x, y, hx, hm, hn, rfl, rfl⟩ := h
      exact ih.trans (key x (exPlan_in hx) y hm g hg hn)
  exact absurd (key2 t t h) (lt_irrefl _)

/-- The schedule of the example exists and has the properties of C25. -/
example (prio : Nat → Nat → Nat → Nat) : ∃ s, Ordering exPlan.forward prio s ∧
    ∀ c < 3, ∀ g ∈ [7, 4], (s.workOrders 0).flatten.count ⟨c, g⟩ = 1 := by
  obtain ⟨s, hs⟩ := (schedule_returns_iff exPlan_fits prio).2 (.inl (by decide))
  exact ⟨s, hs, (schedule_topological exPlan_fits exPlan_acyclic hs (r := 0) (by decide)).1⟩

/-- Cell 1 of rank 1 is listed only after cell 0 of rank 1, which comes in a later step than cell 1 of
rank 0. -/
example (prio : Nat → Nat → Nat → Nat) (s : State) (h : Ordering exPlan.forward prio s) (i : Nat)
    (l1 : List Work) (hl : ListedAt (s.workOrders 1) i l1 ⟨0, 7⟩) :
    Listed ((s.workOrders 0).take i) ⟨1, 7⟩ :=
  ((schedule_topological exPlan_fits exPlan_acyclic h (r := 1) (by decide)).2.2.2 i l1 ⟨0, 7⟩ hl 2
    ⟨0, 1, 2⟩ (by decide) (by decide)).2 (by decide)

/-- Some data crosses from rank 0 to rank 1 when cell 1 is done (C26). -/
example : Crosses exPlan.forward 0 1 [⟨1, 7⟩] := by
  refine (outbox_iff (joined_forward exPlan_fits) (p := 0) (q := 1) (d := [⟨1, 7⟩]) ?_).1 ?_
  · decide
  · decide

/-- The levels of the example: from cell 0 of rank 0 the wind of direction 7 passes three more cells. -/
example : ∃ lev, CalcLevels exPlan.backward lev ∧ 3 ≤ (lev 0).cell 0 0 ∧
    (lev 0).side 0 6 = (lev 1).cell 0 0 := by
  obtain ⟨lev, h⟩ := levels_return exPlan_fits (by decide)
  refine ⟨lev, h, ?_, ?_⟩
  · have hg := level_longest_chain exPlan_fits exPlan_acyclic (by decide) h (r := 0) (a := 0) (c := 0)
      (by decide) (by decide) (by decide)
    refine hg.2 ?_
    refine .cons _ (0, 1) _ ⟨⟨0, 1, 0⟩, ⟨0, 0, 0⟩, ⟨by decide, by decide⟩, by decide, by decide, rfl, rfl⟩ ?_
    refine .cons _ (1, 0) _ ⟨⟨1, 0, 2⟩, ⟨0, 1, 2⟩, ⟨by decide, by decide⟩, by decide, by decide, rfl, rfl⟩ ?_
    refine .cons _ (1, 1) _ ⟨⟨1, 1, 3⟩, ⟨1, 0, 3⟩, ⟨by decide, by decide⟩, by decide, by decide, rfl, rfl⟩ ?_
    exact .nil _
  · exact side_level exPlan_fits exPlan_acyclic (by decide) h (r := 0) (a := 0) (c := 1) (f := 2)
      (y := ⟨1, 0, 2⟩) (by decide) (by decide) (by decide) (by decide) (by decide) (by decide)

/-! ### A cyclic mesh: the schedule is silently empty -/

/-- Two cells on one rank sharing faces 0 and 1; in direction 0 the wind crosses face 0 one way and
face 1 the other. (Non-planar or self-overlapping meshes do this; the constructor does not look.) -/
def cycMate (x : Loc) : Option Loc :=
  if x.rank = 0 ∧ x.cell < 2 ∧ (x.face = 0 ∨ x.face = 1) then some ⟨0, 1 - x.cell, x.face⟩ else none

def cycMesh (_ : Nat) : RankMesh where
  nCells := 2
  adjCell c f := if c < 2 ∧ (f = 0 ∨ f = 1) then some (1 - c) else none
  adjRank c f := if c < 2 ∧ (f = 0 ∨ f = 1) then some 0 else none
  outgoing _ c f := (c = 0 ∧ f = 0) ∨ (c = 1 ∧ f = 1)
  side _ _ := 0
  lgSide s := s
  glSide s := s
  sideCell _ := 0

def cycPlan : Plan Int where
  nRanks := 1
  angles := [0]
  maxCellsPerStep := 1
  mesh := cycMesh
  dot _ _ c f := if (c = 0 ∧ f = 0) ∨ (c = 1 ∧ f = 1) then 1 else
    if (c = 1 ∧ f = 0) ∨ (c = 0 ∧ f = 1) then -1 else 0
  tol := 0

def cycLocs : List Loc := (List.finRange 4).flatMap fun f => [⟨0, 0, f⟩, ⟨0, 1, f⟩]

theorem cyc_in {x : Loc} (h : cycPlan.In x) : x ∈ cycLocs := by
  obtain ⟨r, c, f⟩ := x
  have h1 : r < 1 := h.1
  have h2 : c < 2 := h.2
  simp only [cycLocs, List.mem_flatMap, List.mem_finRange, true_and]
  refine ⟨f, ?_⟩
  interval_cases r
  interval_cases c <;> simp

theorem cyc_of_mem {x : Loc} (h : x ∈ cycLocs) : cycPlan.In x := by
  have : ∀ x ∈ cycLocs, x.rank < 1 ∧ x.cell < 2 := by decide +kernel
  exact this x h

theorem cyc_rank {x y : Loc} (hx : cycPlan.In x) (h : cycMate x = some y) : y.rank = x.rank := by
  have : ∀ x ∈ cycLocs, ∀ y ∈ cycMate x, y.rank = x.rank := by decide +kernel
  exact this x (cyc_in hx) y h

theorem cyc_fits : cycPlan.Fits cycMate where
  mate_in x y hx h := by
    have : ∀ x ∈ cycLocs, ∀ y ∈ cycMate x, y ∈ cycLocs := by decide +kernel
    exact cyc_of_mem (this x (cyc_in hx) y h)
  mate_symm x y hx h := by
    have : ∀ x ∈ cycLocs, ∀ y ∈ cycMate x, cycMate y = some x := by decide +kernel
    exact this x (cyc_in hx) y h
  near x y hx h _ := by
    have : ∀ x ∈ cycLocs, ∀ y ∈ cycMate x, (cycMesh x.rank).adjCell x.cell x.face = some y.cell ∧
      (cycMesh x.rank).adjRank x.cell x.face = some x.rank := by decide +kernel
    exact this x (cyc_in hx) y h
  far x y hx h hr := absurd (cyc_rank hx h) hr
  ext x hx h := by
    have : ∀ x ∈ cycLocs, cycMate x = none → (cycMesh x.rank).adjCell x.cell x.face = none ∧
      (cycMesh x.rank).adjRank x.cell x.face = none := by decide +kernel
    exact this x (cyc_in hx) h
  side_eq x y hx h hr := absurd (cyc_rank hx h) hr
  side_cell x y hx h hr := absurd (cyc_rank hx h) hr
  side_inj x x' y y' hx hx' h h' hr := absurd (cyc_rank hx h) hr
  opposite x y hx h g hg := by
    have : ∀ x ∈ cycLocs, ∀ y ∈ cycMate x,
      cycPlan.dot y.rank 0 y.cell y.face = - cycPlan.dot x.rank 0 x.cell x.face := by decide +kernel
    exact this x (cyc_in hx) y h
  angles := by decide
  tol := by decide

theorem cyc_up0 : cycPlan.Upwind cycMate 0 (0, 1) (0, 0) :=
  ⟨⟨0, 0, 1⟩, ⟨0, 1, 1⟩, ⟨by decide, by decide⟩, by decide, by decide, rfl, rfl⟩

theorem cyc_up1 : cycPlan.Upwind cycMate 0 (0, 0) (0, 1) :=
  ⟨⟨0, 1, 0⟩, ⟨0, 0, 0⟩, ⟨by decide, by decide⟩, by decide, by decide, rfl, rfl⟩

/-- C62: the construction returns a schedule for the cyclic mesh which contains neither cell. -/
theorem cyclic_schedule_incomplete (prio : Nat → Nat → Nat → Nat) : ∃ s, Ordering cycPlan.forward prio s ∧
    (⟨0, 0⟩ : Work) ∉ (s.workOrders 0).flatten ∧ (⟨1, 0⟩ : Work) ∉ (s.workOrders 0).flatten := by
  obtain ⟨s, hs⟩ := (schedule_returns_iff cyc_fits prio).2 (.inl (by decide))
  have hcyc : ∀ t, Acc (cycPlan.Upwind cycMate 0) t → t ≠ (0, 0) ∧ t ≠ (0, 1) := by
    intro t h
    induction h with
    | intro t _ ih =>
      constructor
      · rintro rfl; exact (ih _ cyc_up0).2 rfl
      · rintro rfl; exact (ih _ cyc_up1).1 rfl
  refine ⟨s, hs, fun h => ?_, fun h => ?_⟩
  · exact (hcyc _ ((schedule_lists cyc_fits hs (r := 0) (c := 0) (g := 0) (by decide) (by decide)
      (by decide)).1 h)).1 rfl
  · exact (hcyc _ ((schedule_lists cyc_fits hs (r := 0) (c := 1) (g := 0) (by decide) (by decide)
      (by decide)).1 h)).2 rfl

/-! ### A step size that truncates to zero -/

/-- C62: with `maxCellsPerStep = 2^32` the construction never returns. -/
theorem truncated_step_never_returns (prio : Nat → Nat → Nat → Nat) :
    ¬ ∃ s, Ordering ({ exPlan with maxCellsPerStep := 2 ^ 32 } : Plan Int).forward prio s := by
  rw [schedule_returns_iff (P := { exPlan with maxCellsPerStep := 2 ^ 32 }) (mate := exMate)
    ⟨exPlan_fits.mate_in, exPlan_fits.mate_symm, exPlan_fits.near, exPlan_fits.far, exPlan_fits.ext,
      exPlan_fits.side_eq, exPlan_fits.side_cell, exPlan_fits.side_inj, exPlan_fits.opposite,
      exPlan_fits.angles, exPlan_fits.tol⟩]
  rintro (h | h)
  · exact h (by decide)
  · exact absurd (h 0 (by decide)) (by decide)

/-! ### The tolerance -/

/-- C25: a face with `0 < |omega · n| ≤ tol` orders nothing: the schedule may take the downwind cell
first. Here two cells on one rank share face 0 and the value is within the tolerance. -/
def tolPlan : Plan Int where
  nRanks := 1
  angles := [0]
  maxCellsPerStep := 2
  mesh _ := { cycMesh 0 with adjCell := fun c f => if c < 2 ∧ f = 0 then some (1 - c) else none
                             adjRank := fun c f => if c < 2 ∧ f = 0 then some 0 else none }
  dot _ _ c f := if f = 0 then (if c = 0 then 1 else -1) else 0
  tol := 1

/-- The downwind cell 1 is scheduled before the upwind cell 0. -/
theorem tolerance_breaks_order : ∃ s, Ordering tolPlan.forward (fun _ _ c => c) s ∧
    s.workOrders 0 = [[⟨1, 0⟩, ⟨0, 0⟩]] ∧ 0 < tolPlan.dot 0 0 0 0 := by
  have hq : (tolPlan.forward.start 0).queue = [(0, 0), (0, 1)] := by decide
  have hc : ∀ c, c < 2 → tolPlan.forward.children 0 (0, c) = [] := by decide
  have hT : TopoSort tolPlan.forward 0 (fun _ c => c) (tolPlan.forward.start 0) []
      { tolPlan.forward.start 0 with queue := [] } [⟨1, 0⟩, ⟨0, 0⟩] := by
    refine .pop _ _ [(0, 0)] (0, 1) [] _ _ hq (by decide) (by rw [hq]; decide) ?_
    rw [hc 1 (by decide)]
    refine .pop _ _ [] (0, 0) [] _ _ rfl (by decide) (by simp) ?_
    rw [hc 0 (by decide)]
    exact .stop _ _ (.inl rfl)
  refine ⟨_, ⟨.step _ _ .init (.mk _ (fun _ => { tolPlan.forward.start 0 with queue := [] })
    (fun _ => [⟨1, 0⟩, ⟨0, 0⟩]) ?_ ?_), ?_⟩, rfl, by decide⟩
  · intro h
    have := h 0 (by decide)
    exact absurd this (by decide)
  · intro r hr
    have hr : r < 1 := hr
    interval_cases r
    exact hT
  · intro r hr
    have hr : r < 1 := hr
    interval_cases r
    rfl

end Verif.Schedule
