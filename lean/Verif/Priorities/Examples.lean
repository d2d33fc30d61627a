import Verif.Priorities.Calc
import Mathlib.Tactic.IntervalCases
import Mathlib.Tactic.FinCases

/-!
# A mesh in two parts, and the witnesses against the documented priorities

Rank 0 has cells 0, 1, 2 and rank 1 cells 0, 1. In direction 0 the wind goes from cell 0 of rank 0 to
cells 1 and 2, from cell 1 to cell 0 of rank 1, and from there to cell 1; in direction 1 the reverse.
-/
namespace Verif.Priorities
open Verif.Traverse

def exLinks : List (Loc × Loc) :=
  [(⟨0, 0, 0⟩, ⟨0, 1, 0⟩), (⟨0, 0, 1⟩, ⟨0, 2, 1⟩), (⟨0, 1, 2⟩, ⟨1, 0, 2⟩), (⟨1, 0, 3⟩, ⟨1, 1, 3⟩)]

def exMate (x : Loc) : Option Loc :=
  match exLinks.find? (fun l => l.1 = x) with
  | some l => some l.2
  | none => (exLinks.find? fun l => l.2 = x).map Prod.fst

def exMesh (r : Nat) : RankMesh where
  nCells := if r = 0 then 3 else 2
  adjCell c f := (exMate ⟨r, c, f⟩).bind fun y => if y.rank = r then some y.cell else none
  adjRank c f := (exMate ⟨r, c, f⟩).map Loc.rank
  outgoing a c f := if a = 0 then (exLinks.find? fun l => l.1 = ⟨r, c, f⟩).isSome
    else (exLinks.find? fun l => l.2 = ⟨r, c, f⟩).isSome
  side c f := 4 * c + f
  lgSide s := s
  glSide s := if s = 6 then 2 else 6
  sideCell s := s / 4

def exPrio : Prio where
  nRanks := 2
  nAngles := 2
  nThreads := 2
  maxCompute := 1
  protocol := .tycho
  rendezvous := true
  mesh := exMesh

/-- A sweep of the same mesh (with nothing to compute). -/
def exSweep : Cfg Unit Unit where
  nRanks := 2
  nAngles := 2
  nThreads := 1
  maxCompute := 1
  direction := .forward
  doComm := true
  protocol := .tycho
  rendezvous := true
  mesh := exMesh
  data _ := ⟨fun _ _ _ _ => (), fun _ _ _ _ => (), fun _ _ _ => 0, fun _ _ _ _ _ => ()⟩
  init _ := ()

def exLocs : List Loc :=
  (List.finRange 4).flatMap fun f => [⟨0, 0, f⟩, ⟨0, 1, f⟩, ⟨0, 2, f⟩, ⟨1, 0, f⟩, ⟨1, 1, f⟩]

theorem ex_in {x : Loc} (h : exSweep.In x) : x ∈ exLocs := by
  obtain ⟨r, c, f⟩ := x
  have h1 : r < 2 := h.1
  have h2 : c < if r = 0 then 3 else 2 := h.2
  simp only [exLocs, List.mem_flatMap, List.mem_finRange, true_and]
  refine ⟨f, ?_⟩
  interval_cases r
  · simp only [if_true] at h2
    interval_cases c <;> simp
  · simp only [Nat.one_ne_zero, if_false] at h2
    interval_cases c <;> simp

theorem ex_of_mem {x : Loc} (h : x ∈ exLocs) : exSweep.In x := by
  have : ∀ x ∈ exLocs, x.rank < 2 ∧ x.cell < (exMesh x.rank).nCells := by decide +kernel
  exact this x h

theorem ex_mem_mate {x y : Loc} (hx : x ∈ exLocs) (h : exMate x = some y) : y ∈ exLocs := by
  have : ∀ x ∈ exLocs, ∀ y ∈ exMate x, y ∈ exLocs := by decide +kernel
  exact this x hx y h

set_option maxRecDepth 100000 in
theorem ex_linked : Linked exSweep exMate where
  threads := by decide
  size := by
    intro r hr
    have hr : r < 2 := hr
    interval_cases r <;> decide
  mate_in := fun x y hx h => ex_of_mem (ex_mem_mate (ex_in hx) h)
  mate_symm := by
    intro x y hx h
    have : ∀ x ∈ exLocs, ∀ y ∈ exMate x, exMate y = some x := by decide +kernel
    exact this x (ex_in hx) y h
  near := by
    intro x y hx h hr
    have : ∀ x ∈ exLocs, ∀ y ∈ exMate x, y.rank = x.rank →
      (exMesh x.rank).adjCell x.cell x.face = some y.cell ∧
      (exMesh x.rank).adjRank x.cell x.face = some x.rank := by decide +kernel
    exact this x (ex_in hx) y h hr
  far := by
    intro x y hx h hr
    have : ∀ x ∈ exLocs, ∀ y ∈ exMate x, y.rank ≠ x.rank →
      (exMesh x.rank).adjCell x.cell x.face = none ∧
      (exMesh x.rank).adjRank x.cell x.face = some y.rank := by decide +kernel
    exact this x (ex_in hx) y h hr
  ext := by
    intro x hx h
    have : ∀ x ∈ exLocs, exMate x = none → (exMesh x.rank).adjCell x.cell x.face = none ∧
      (exMesh x.rank).adjRank x.cell x.face = none := by decide +kernel
    exact this x (ex_in hx) h
  side_eq := by
    intro x y hx h hr
    have : ∀ x ∈ exLocs, ∀ y ∈ exMate x, y.rank ≠ x.rank →
      (exMesh y.rank).glSide ((exMesh x.rank).lgSide ((exMesh x.rank).side x.cell x.face)) =
        (exMesh y.rank).side y.cell y.face := by decide +kernel
    exact this x (ex_in hx) y h hr
  side_cell := by
    intro x y hx h hr
    have : ∀ x ∈ exLocs, ∀ y ∈ exMate x, y.rank ≠ x.rank →
      (exMesh x.rank).sideCell ((exMesh x.rank).side x.cell x.face) = x.cell := by decide +kernel
    exact this x (ex_in hx) y h hr
  side_inj := by
    intro x x' y y' hx hx' h h' hr hr' hrr hs
    have : ∀ x ∈ exLocs, ∀ x' ∈ exLocs, x.rank = x'.rank →
      (exMesh x.rank).side x.cell x.face = (exMesh x'.rank).side x'.cell x'.face → x = x' := by
      decide +kernel
    exact this x (ex_in hx) x' (ex_in hx') hrr hs
  orient := by
    intro x y a hx h ha
    have : ∀ x ∈ exLocs, ∀ y ∈ exMate x, ∀ a < 2, exSweep.outDir x.rank a x.cell x.face = true →
      exSweep.inDir y.rank a y.cell y.face = true := by decide +kernel
    exact this x (ex_in hx) y h a ha

/-- A topological order of the sweep. -/
def exOrder (a : Nat) (t : Nat × Nat) : Nat :=
  let k := if t.1 = 0 then (if t.2 = 0 then 0 else 1) else 2 + t.2
  if a = 0 then k else 3 - k

theorem ex_acyclic : Acyclic exSweep exMate := by
  intro a ha t h
  have ha : a < 2 := ha
  have key : ∀ x ∈ exLocs, ∀ y ∈ exMate x, ∀ a < 2, exSweep.inDir x.rank a x.cell x.face = true →
      exOrder a (y.rank, y.cell) < exOrder a (x.rank, x.cell) := by decide +kernel
  have key2 : ∀ t t', Relation.TransGen (Before exSweep exMate a) t t' → exOrder a t < exOrder a t' := by
    intro t t' h
    induction h with
    | single h =>
      obtain ⟨x, y, hx, hm, hn, rfl, rfl⟩ := h
      exact key x (ex_in hx) y hm a ha hn.1
    | tail _ h ih =>
      obtain ⟨x, y, hx, hm, hn, rfl, rfl⟩ := h
      exact ih.trans (key x (ex_in hx) y hm a ha hn.1)
  exact absurd (key2 t t h) (lt_irrefl _)

theorem ex_back : Linked exPrio.bcfg exMate :=
  linked_backward ex_linked rfl rfl rfl (by decide) (by
    intro x y a hx h ha
    have : ∀ x ∈ exLocs, ∀ y ∈ exMate x, ∀ a < 2,
      (exMesh x.rank).outgoing a x.cell x.face = true ∨ (exMesh y.rank).outgoing a y.cell y.face = true := by
      decide +kernel
    exact this x (ex_in hx) y h a ha)

theorem ex_back_acyclic : Acyclic exPrio.bcfg exMate ∧ Crossed exPrio.bcfg exMate :=
  acyclic_backward ex_linked rfl ex_acyclic rfl rfl rfl rfl

/-- C61: the computation returns, whatever the heuristics. -/
example (intra inter : Nat) : ∃ p, exPrio.Calc intra inter (fun _ _ _ => 7) (fun _ _ _ => 0) p :=
  calcPriorities_returns ex_back (by decide) ex_back_acyclic.1 ex_back_acyclic.2 _ _ _ _

/-- A finished b-level traversal. -/
theorem ex_blevels : ∃ s, Reachable exPrio.bcfg s ∧ ∀ r < 2, (s.rank r).phase = .finished := by
  obtain ⟨n, s, h, hf⟩ := traverse_finishes ex_back (by decide) (by simp [Prio.bcfg]) ex_back_acyclic.2
    ex_back_acyclic.1
  exact ⟨s, h.reachable .init, hf⟩

/-- The b-level of a cell, for the bounds below. -/
def exLevel (r a c : Nat) : Nat :=
  if r = 0 then (if a = 0 then (if c = 2 then 0 else 2 - c) else if c = 0 then 0 else 1)
  else (if a = 0 then 1 - c else 1 + c)

set_option synthInstance.maxHeartbeats 200000 in
set_option synthInstance.maxSize 1000 in
theorem ex_chain_le {r c a k : Nat} (hr : r < 2) (hc : c < (exMesh r).nCells) (ha : a < 2)
    (hk : Chain (exMesh r) a c k) : k ≤ 2 := by
  have hstep : ∀ r < 2, ∀ a < 2, ∀ c < (exMesh r).nCells, ∀ f, ∀ n ∈ (exMesh r).adjCell c f,
      (exMesh r).outgoing a c f = true →
      n < (exMesh r).nCells ∧ exLevel r a n < exLevel r a c := by decide +kernel
  have hbound : ∀ r < 2, ∀ a < 2, ∀ c < (exMesh r).nCells, exLevel r a c ≤ 2 := by decide +kernel
  have hexit : ∀ r < 2, ∀ a < 2, ∀ c < (exMesh r).nCells, ∀ f, (exMesh r).adjCell c f = none →
      (exMesh r).adjRank c f = none ∨ (exMesh r).outgoing a c f = false ∨ 1 ≤ exLevel r a c := by
    decide +kernel
  refine le_trans ?_ (hbound r hr a ha c hc)
  induction hk with
  | stop => exact Nat.zero_le _
  | leave c f q ho hn hq =>
    rcases hexit r hr a ha c hc f hn with h | h | h
    · rw [hq] at h; simp at h
    · rw [ho] at h; simp at h
    · exact h
  | step c f n k ho hn _ ih =>
    obtain ⟨h1, h2⟩ := hstep r hr a ha c hc f n hn ho
    have := ih h1
    omega

/-- C45 applies: cell 0 of rank 0 has level 2 in direction 0, although the longest chain over the whole
mesh has three steps; cell 2 has level 0. -/
example : ∃ s, Reachable exPrio.bcfg s ∧ (∀ r < 2, (s.rank r).phase = .finished) ∧
    (s.rank 0).data.cell 0 0 = 2 ∧ (s.rank 1).data.cell 0 0 = 1 ∧
    exPrio.maxBLevel (fun r => (s.rank r).data) = 2 := by
  obtain ⟨s, h, hf⟩ := ex_blevels
  have hle : ∀ r c a, r < 2 → c < (exMesh r).nCells → a < 2 → (s.rank r).data.cell c a ≤ 2 :=
    fun r c a hr hc ha => ex_chain_le hr hc ha (bLevels_longest ex_back h hf hr hc ha).1
  have h1 : 2 ≤ (s.rank 0).data.cell 0 0 :=
    (bLevels_longest ex_back h hf (r := 0) (c := 0) (a := 0) (by decide) (by decide +kernel) (by decide)).2
      (Chain.step 0 0 1 1 (by decide +kernel) (by decide +kernel)
        (.leave 1 2 1 (by decide +kernel) (by decide +kernel) (by decide +kernel)))
  have h2 := hle 0 0 0 (by decide) (by decide +kernel) (by decide)
  have h3 : 1 ≤ (s.rank 1).data.cell 0 0 :=
    (bLevels_longest ex_back h hf (r := 1) (c := 0) (a := 0) (by decide) (by decide +kernel) (by decide)).2
      (Chain.step 0 3 1 0 (by decide +kernel) (by decide +kernel) (.stop 1))
  have h4 := (bLevels_longest ex_back h hf (r := 1) (c := 0) (a := 0) (by decide) (by decide +kernel)
    (by decide)).1
  have h5 : ∀ k, Chain (exMesh 1) 0 0 k → k ≤ 1 := by
    intro k hk
    cases hk with
    | stop => omega
    | leave => omega
    | step _ f n k ho hn hk =>
      have : ∀ f, ∀ n ∈ (exMesh 1).adjCell 0 f, (exMesh 1).outgoing 0 0 f = true → n = 1 := by
        decide +kernel
      obtain rfl := this f n hn ho
      have h6 : ∀ f, (exMesh 1).outgoing 0 1 f = false := by decide +kernel
      cases hk with
      | stop => omega
      | leave _ f q ho => rw [h6 f] at ho; simp at ho
      | step _ f n k ho => rw [h6 f] at ho; simp at ho
  have h6 := h5 _ h4
  obtain ⟨hm1, hm2⟩ := maxBLevel_largest ex_back h hf
  have h7 := hm1 0 0 0 (by decide) (by decide +kernel) (by decide)
  refine ⟨s, h, hf, by omega, by omega, ?_⟩
  rcases hm2 with h8 | ⟨r, c, a, hr, hc, ha, h8⟩
  · omega
  · have := hle r c a hr hc ha
    omega

/-- A finished run of a neighbour heuristic on the example. -/
theorem ex_neighbor (h : Heuristic) :
    ∃ s, Reachable (exPrio.ncfg h fun _ _ _ => 0) s ∧ ∀ r < 2, (s.rank r).phase = .finished := by
  obtain ⟨n, s, hr, hf⟩ := traverse_finishes (linked_ncfg ex_back h fun _ _ _ => 0)
    (show 0 < 1 by decide)
    (by simp [Prio.ncfg]) ex_back_acyclic.2 ex_back_acyclic.1
  exact ⟨s, hr.reachable .init, hf⟩

/-- Nothing downwind of `c` is in another partition. -/
def NoExit (m : RankMesh) (a c : Nat) : Prop := ∀ n d, Reaches m a c n d → ¬ Exit m a n

/-- C46 (violated): in direction 1, cell 1 of rank 0 has no descendant in another partition; the
depth-first heuristic with the two levels of this mesh gives it the highest priority there is, above
cell 1 of rank 1 whose child feeds rank 0. -/
theorem dfds_violates_documentation : ∃ s, Reachable (exPrio.ncfg (dfds 2) fun _ _ _ => 0) s ∧
    (∀ r < 2, (s.rank r).phase = .finished) ∧ NoExit (exMesh 0) 1 1 ∧
    (s.rank 0).data 1 1 = 2 ^ 64 - 1 ∧ (s.rank 1).data 1 1 = 1 := by
  obtain ⟨s, h, hf⟩ := ex_neighbor (dfds 2)
  have L := linked_ncfg ex_back (dfds 2) fun _ _ _ => 0
  have h1 : ∀ f, (exMesh 0).outgoing 1 0 f = false := by decide +kernel
  have hdead : DeadEnd (exMesh 0) 1 0 := by
    refine ⟨?_, ?_⟩
    · rintro ⟨f, q, ho, -⟩; rw [h1 f] at ho; simp at ho
    · intro f n ho; rw [h1 f] at ho; simp at ho
  have hchild : ∀ f, ∀ n ∈ (exMesh 0).adjCell 1 f, (exMesh 0).outgoing 1 1 f = true → n = 0 := by
    decide +kernel
  have hex1 : ¬ Exit (exMesh 0) 1 1 := by
    rintro ⟨f, q, ho, hn, hq⟩
    have : ∀ f, (exMesh 0).outgoing 1 1 f = true → (exMesh 0).adjCell 1 f ≠ none := by decide +kernel
    exact this f ho hn
  refine ⟨s, h, hf, ?_, ?_, ?_⟩
  · intro n d hre
    cases hre with
    | refl => exact hex1
    | step _ f c' _ d ho hn hre =>
      obtain rfl := hchild f c' hn ho
      cases hre with
      | refl => exact hdead.1
      | step _ f c' _ d ho hn hre => rw [h1 f] at ho; simp at ho
  · have h2 := dfds_wraps L h hf (r := 0) (a := 1) (c := 1) (n := 0) (d := 0) (by decide) (by decide)
      (by decide +kernel) (.step 1 0 0 0 0 (by decide +kernel) (by decide +kernel) (.refl 0)) hdead
    have h3 := dfds_lt L h hf (r := 0) (a := 1) (c := 1) (by decide) (by decide) (by decide +kernel)
    omega
  · obtain ⟨s0, h0, hf0⟩ := ex_blevels
    have hno : ∀ n d, Reaches (exMesh 1) 1 1 n d → n < 2 ∧ ¬ DeadEnd (exMesh 1) 1 n := by
      have hin : ∀ c < 2, ∀ f, ∀ n ∈ (exMesh 1).adjCell c f, n < 2 := by decide +kernel
      have hlt : ∀ c n d, c < 2 → Reaches (exMesh 1) 1 c n d → n < 2 := by
        intro c n d hc hre
        induction hre with
        | refl => exact hc
        | step c f c' n d ho hn _ ih => exact ih (hin c hc f c' hn)
      intro n d hre
      have hn := hlt 1 n d (by decide) hre
      refine ⟨hn, ?_⟩
      rintro ⟨hd1, hd2⟩
      interval_cases n
      · exact hd1 ⟨2, 0, by decide +kernel, by decide +kernel, by decide +kernel⟩
      · exact hd2 3 0 (by decide +kernel) (by decide +kernel)
    obtain ⟨⟨n, d, hre, hex, hp⟩, hub⟩ := dfds_documented_partial L h hf (r := 1) (a := 1) (by decide)
      (by decide) (c := 1) (fun _ _ => rfl) (by decide) (by decide +kernel)
      (fun c k hc hk => ex_chain_le (by decide) hc (by decide) hk) (fun n d hre => (hno n d hre).2)
    have hge : 1 ≤ (s.rank 1).data 1 1 := hub ⟨0, 1, .step 1 3 0 0 0 (by decide +kernel)
      (by decide +kernel) (.refl 0), ⟨2, 0, by decide +kernel, by decide +kernel, by decide +kernel⟩, rfl⟩
    have hd0 : d ≠ 0 := by
      rintro rfl
      cases hre
      obtain ⟨f, q, ho, hn, hq⟩ := hex
      have : ∀ f, (exMesh 1).outgoing 1 1 f = true → (exMesh 1).adjCell 1 f ≠ none := by decide +kernel
      exact this f ho hn
    omega

/-- C60 (violated): in direction 0 cell 0 of rank 0 has a descendant of level 1 in the other partition;
the breadth-first heuristic gives it, as everything, priority 0. -/
theorem bfds_violates_documentation : ∃ s, Reachable (exPrio.ncfg bfds fun _ _ _ => 0) s ∧
    (∀ r < 2, (s.rank r).phase = .finished) ∧ Reaches (exMesh 0) 0 0 1 1 ∧ Exit (exMesh 0) 0 1 ∧
    Chain (exMesh 1) 0 0 1 ∧ (s.rank 0).data 0 0 = 0 := by
  obtain ⟨s, h, hf⟩ := ex_neighbor bfds
  exact ⟨s, h, hf, .step 0 0 1 1 0 (by decide +kernel) (by decide +kernel) (.refl 1),
    ⟨2, 1, by decide +kernel, by decide +kernel, by decide +kernel⟩,
    .step 0 3 1 0 (by decide +kernel) (by decide +kernel) (.stop 1),
    bfds_all_zero (fun _ _ => rfl) (linked_ncfg ex_back bfds _) h hf (by decide) (by decide +kernel)
      (by decide)⟩

/-- C59 applies: with five cells and at most two levels nothing wraps, and in the globally prioritised
order all tasks of direction 0 come after all of direction 1. -/
example : ∃ p, exPrio.Calc 1 1 (fun _ _ _ => 0) (fun _ _ _ => 0) p ∧ p 0 1 0 < p 0 0 0 ∧
    p 0 0 0 < p 0 0 1 ∧ p 1 1 0 < p 1 0 1 := by
  obtain ⟨p, hp⟩ := calcPriorities_returns ex_back (by decide) ex_back_acyclic.1 ex_back_acyclic.2 1 1
    (fun _ _ _ => 0) (fun _ _ _ => 0)
  have hfit : ∀ r c a k, r < 2 → c < (exMesh r).nCells → a < 2 → Chain (exMesh r) a c k →
      2 * k * exPrio.totalCells < 2 ^ 64 := by
    obtain ⟨s, h, hf⟩ := ex_blevels
    intro r c a k hr hc ha hk
    have h1 := ex_chain_le hr hc ha hk
    have h2 : exPrio.totalCells = 5 := by decide
    rw [h2]
    omega
  have h2 : 2 ≤ exPrio.totalCells := by decide
  have key := fun r c a (hr : r < 2) (hc : c < (exMesh r).nCells) (ha : a < 2) =>
    calcPriorities_order ex_back hp h2 (by decide) hfit (r := r) (c := c) (a := a) hr hc ha
  refine ⟨p, hp, ?_, ?_, ?_⟩
  · exact (key 0 0 0 (by decide) (by decide +kernel) (by decide)).1 0 1 (by decide +kernel) (by decide +kernel)
  · exact (key 0 0 1 (by decide) (by decide +kernel) (by decide)).2.1 rfl 0 0 (by decide +kernel) (by decide)
      ⟨0, 0, 0, 0, 1, by decide, by decide +kernel, by decide, by decide +kernel, by decide +kernel⟩
  · exact (key 1 0 1 (by decide) (by decide +kernel) (by decide)).2.1 rfl 1 0 (by decide +kernel) (by decide)
      ⟨0, 0, 0, 0, 1, by decide, by decide +kernel, by decide, by decide +kernel, by decide +kernel⟩

/-- C59 applies to locally prioritised angles: on rank 1 the longest chain of direction 1 has two steps
and that of direction 0 one. -/
example : ∃ p, exPrio.Calc 1 2 (fun _ _ _ => 0) (fun _ _ _ => 0) p ∧ p 0 1 1 < p 0 2 0 := by
  obtain ⟨p, hp⟩ := calcPriorities_returns ex_back (by decide) ex_back_acyclic.1 ex_back_acyclic.2 1 2
    (fun _ _ _ => 0) (fun _ _ _ => 0)
  obtain ⟨s, h, hf⟩ := ex_blevels
  refine ⟨p, hp, (calcPriorities_order ex_back hp (by decide) (by decide) ?_ (r := 0) (c := 2) (a := 0) (by decide)
    (by decide +kernel) (by decide)).2.2 rfl 1 1 (by decide +kernel) (by decide)
    ⟨0, 2, by decide +kernel, .step 0 0 1 1 (by decide +kernel) (by decide +kernel)
      (.leave 1 2 1 (by decide +kernel) (by decide +kernel) (by decide +kernel)), ?_⟩⟩
  · intro r c a k hr hc ha hk
    have h1 := ex_chain_le hr hc ha hk
    have h2 : exPrio.totalCells = 5 := by decide
    rw [h2]
    show 2 * k * 5 < _
    omega
  · intro c k hc hk
    have h1 : ∀ f, (exMesh 0).outgoing 1 0 f = false := by decide +kernel
    have h2 : ∀ c < 3, ∀ f, (exMesh 0).outgoing 1 c f = true → ∃ n ∈ [0], (exMesh 0).adjCell c f = some n := by
      decide +kernel
    cases hk with
    | stop => omega
    | leave => omega
    | step _ f n k ho hn hk =>
      obtain ⟨n', hn', he⟩ := h2 c hc f ho
      simp only [List.mem_singleton] at hn'
      subst hn'
      have hn := he.symm.trans hn
      injection hn with hn
      subst hn
      cases hk with
      | stop => omega
      | leave _ f q ho => exact absurd ((h1 f).symm.trans ho) (by simp)
      | step _ f n k ho => exact absurd ((h1 f).symm.trans ho) (by simp)

/-- The hypotheses of `global_angles`, `local_angles`, `angle_keeps_order` and `angles_mixed`: two angles, two levels,
five cells. -/
example : 2 * 2 * 5 < 2 ^ 64 ∧ (∀ c a, c < 3 → a < 2 → (fun c a => c + 3 * a) c a < 2 * 5) ∧
    anglePriorities 2 3 5 1 2 (fun c a => c + 3 * a) 2 0 < anglePriorities 2 3 5 1 2 (fun c a => c + 3 * a) 0 1 := by
  have hp : ∀ c a, c < 3 → a < 2 → (fun c a => c + 3 * a) c a < 2 * 5 := fun c a hc ha => by dsimp only; omega
  exact ⟨by decide, hp, global_angles (by decide) hp (by decide) (by decide) (by decide) (by decide)⟩

end Verif.Priorities
