import Verif.Traverse.Props
import Mathlib.Tactic.IntervalCases
import Mathlib.Tactic.FinCases
import Mathlib.Algebra.Order.Ring.Rat

/-!
# Concrete runs meeting the hypotheses of C20–C24, and witnesses

Two ranks with one cell each, sharing face 0 of both; direction 0 goes from rank 0 to rank 1,
direction 1 back.
-/
namespace Verif.Traverse
open Classical List
open Verif.Transport

/-- `Ω·n`: out of rank `r` through face 0 and in through face 1 if direction and rank have the same
parity, otherwise the reverse; `par` makes face 0 parallel to the directions. -/
def exDot (par : Bool) (r a : Nat) (f : Fin 4) : ℚ :=
  if f = 0 then (if par then 0 else if a = r then 1 else -1)
  else if f = 1 then (if par then 1 else if a = r then -1 else 1)
  else if f = 2 then (if par then -1 else 0)
  else 0

def exView (par : Bool) (r : Nat) : MeshView ℚ where
  adjCell _ _ := none
  adjRank _ f := if f = 0 then some (1 - r) else none
  side _ f := f
  neighborVrtx _ _ _ := 0
  cellToFaceVrtx _ _ v := if v = 1 then 0 else if v = 2 then 1 else 2
  omegaDotN a _ f := exDot par r a f
  cellVolume _ := 1
  faceArea _ _ := 1

def exRun (par : Bool) (proto : Protocol) (rv : Bool) : SweepRun ℚ where
  nRanks := 2
  nAngles := 2
  nThreads := 1
  maxCompute := 1
  nGroups := 1
  doComm := true
  protocol := proto
  rendezvous := rv
  gauss := .original
  view := exView par
  nCells _ := 1
  lgSide _ s := s
  glSide _ s := s
  sideCell _ _ := 0
  faceToCellVrtx _ _ _ v := v.succ
  sigmaT _ _ := 1
  source _ _ _ _ _ := 1
  priority _ _ _ := 0
  psi0 _ _ _ _ _ := 0
  bound0 _ _ _ _ _ := 0
  scratch _ _ := 0

def exMate (x : Loc) : Option Loc :=
  if x.face = 0 ∧ x.cell = 0 ∧ x.rank < 2 then some ⟨1 - x.rank, 0, 0⟩ else none

theorem exMate_some {x y : Loc} (h : exMate x = some y) :
    (x = ⟨0, 0, 0⟩ ∧ y = ⟨1, 0, 0⟩) ∨ (x = ⟨1, 0, 0⟩ ∧ y = ⟨0, 0, 0⟩) := by
  obtain ⟨r, c, f⟩ := x
  unfold exMate at h
  split at h
  · rename_i hh
    obtain ⟨h1, h2, h3⟩ := hh
    dsimp only at h1 h2 h3
    subst h1 h2
    interval_cases r
    · left; simpa using h.symm
    · right; simpa using h.symm
  · simp at h

theorem exMate_none {x : Loc} {par : Bool} {proto : Protocol} {rv : Bool} (hx : (exRun par proto rv).cfg.In x)
    (h : exMate x = none) : x.face ≠ 0 := by
  intro hf
  have h1 : x.rank < 2 := hx.1
  have h2 : x.cell < 1 := hx.2
  unfold exMate at h
  rw [if_pos ⟨hf, by omega, h1⟩] at h
  simp at h

theorem ex_linked (par : Bool) (proto : Protocol) (rv : Bool) :
    Linked (exRun par proto rv).cfg exMate where
  threads := by show 0 < 1; decide
  size := by intro r hr; show 2 * 1 < 2 ^ 64; decide
  mate_in := by
    intro x y _ h
    rcases exMate_some h with ⟨rfl, rfl⟩ | ⟨rfl, rfl⟩ <;> exact ⟨by show _ < 2; decide, by show 0 < 1; decide⟩
  mate_symm := by
    intro x y _ h
    rcases exMate_some h with ⟨rfl, rfl⟩ | ⟨rfl, rfl⟩ <;> rfl
  near := by
    intro x y _ h hr
    rcases exMate_some h with ⟨rfl, rfl⟩ | ⟨rfl, rfl⟩ <;> simp at hr
  far := by
    intro x y _ h _
    rcases exMate_some h with ⟨rfl, rfl⟩ | ⟨rfl, rfl⟩ <;> exact ⟨rfl, rfl⟩
  ext := by
    intro x hx h
    have := exMate_none hx h
    refine ⟨rfl, ?_⟩
    show (if x.face = 0 then some (1 - x.rank) else none) = none
    rw [if_neg this]
  side_eq := by
    intro x y _ h _
    rcases exMate_some h with ⟨rfl, rfl⟩ | ⟨rfl, rfl⟩ <;> rfl
  side_cell := by
    intro x y _ h _
    rcases exMate_some h with ⟨rfl, rfl⟩ | ⟨rfl, rfl⟩ <;> rfl
  side_inj := by
    intro x x' y y' _ _ h h' _ _ hr _
    rcases exMate_some h with ⟨rfl, rfl⟩ | ⟨rfl, rfl⟩ <;>
    rcases exMate_some h' with ⟨rfl, rfl⟩ | ⟨rfl, rfl⟩ <;> first | rfl | simp at hr
  orient := by
    intro x y a _ h ha
    have ha : a < 2 := ha
    rcases exMate_some h with ⟨rfl, rfl⟩ | ⟨rfl, rfl⟩ <;> interval_cases a <;> cases par <;>
      cases proto <;> cases rv <;> decide +kernel

theorem ex_crossed (proto : Protocol) (rv : Bool) : Crossed (exRun false proto rv).cfg exMate := by
  intro x y a _ h ha
  have ha : a < 2 := ha
  rcases exMate_some h with ⟨rfl, rfl⟩ | ⟨rfl, rfl⟩ <;> interval_cases a <;>
    cases proto <;> cases rv <;> decide +kernel

theorem ex_acyclic (proto : Protocol) (rv : Bool) : Acyclic (exRun false proto rv).cfg exMate := by
  intro a ha t h
  have ha : a < 2 := ha
  have key : ∀ t t', Before (exRun false proto rv).cfg exMate a t t' →
      (a = 0 → t.1 < t'.1) ∧ (a = 1 → t'.1 < t.1) := by
    rintro t t' ⟨x, y, _, hm, ⟨hin, _⟩, rfl, rfl⟩
    rcases exMate_some hm with ⟨rfl, rfl⟩ | ⟨rfl, rfl⟩ <;> interval_cases a
    · exact absurd hin (by cases proto <;> cases rv <;> decide +kernel)
    · simp
    · simp
    · exact absurd hin (by cases proto <;> cases rv <;> decide +kernel)
  have key2 : ∀ t t', Relation.TransGen (Before (exRun false proto rv).cfg exMate a) t t' →
      (a = 0 → t.1 < t'.1) ∧ (a = 1 → t'.1 < t.1) := by
    intro t t' h
    induction h with
    | single h => exact key _ _ h
    | tail _ h ih =>
      have := key _ _ h
      exact ⟨fun h0 => (ih.1 h0).trans (this.1 h0), fun h0 => (this.2 h0).trans (ih.2 h0)⟩
  have := key2 t t h
  interval_cases a
  · exact absurd (this.1 rfl) (lt_irrefl _)
  · exact absurd (this.2 rfl) (lt_irrefl _)

theorem ex_physical (par : Bool) (proto : Protocol) (rv : Bool) : (exRun par proto rv).Physical where
  volume := by intro r c _ _; show (0 : ℚ) < 1; decide +kernel
  area := by intro r c f _ _; show (0 : ℚ) ≤ 1; decide +kernel
  sigma := by intro r c _ _; show (0 : ℚ) ≤ 1; decide +kernel
  closed := by
    intro r c a hr _ ha
    have hr : r < 2 := hr
    have ha : a < 2 := ha
    show ∑ f, (1 : ℚ) * exDot par r a f = 0
    interval_cases r <;> interval_cases a <;> cases par <;> decide +kernel
  some_flow := by intro r c a _ _ _; left; show (0 : ℚ) < 1; decide +kernel

/-- Nodes 1, 2, 3 are shared; node 0 belongs to rank 0 and node 4 to rank 1. -/
def exNode (r _c : Nat) (v : Fin 4) : Nat := if v = 0 then 4 * r else v

theorem ex_nodes (par : Bool) (proto : Protocol) (rv : Bool) : (exRun par proto rv).Nodes exMate exNode where
  inj := by
    intro r c v w hr _ h
    have hr : r < 2 := hr
    unfold exNode at h
    interval_cases r <;> revert v w <;> decide
  near := by
    intro x y v _ h hr
    rcases exMate_some h with ⟨rfl, rfl⟩ | ⟨rfl, rfl⟩ <;> simp at hr
  far := by
    intro x y v _ h _ hv
    rcases exMate_some h with ⟨rfl, rfl⟩ | ⟨rfl, rfl⟩ <;> fin_cases v <;> first | rfl | simp at hv

/-- C21, C22, C24 apply to the example: it runs to the end, with a flux that solves the upwind system. -/
example : ∃ n s, Run (exRun false .tycho true).cfg n (initState (exRun false .tycho true).cfg) s ∧
    (∀ r < 2, (s.rank r).phase = .finished) ∧
    (∀ r c a, r < 2 → c < 1 → a < 2 → s.log.countP (fun e => e.task = some (r, c, a)) = 1) ∧
    ∃ psi, (exRun false .tycho true).GlobalDG exMate exNode psi := by
  obtain ⟨n, s, h, hf⟩ := traverse_finishes (ex_linked false .tycho true) (by decide) (fun _ => rfl)
    (ex_crossed .tycho true) (ex_acyclic .tycho true)
  have hr := h.reachable .init
  refine ⟨n, s, h, hf, ?_, ?_⟩
  · intro r c a hr' hc ha
    exact traverse_finished_once (ex_linked false .tycho true) hr hr' (hf r hr') hc ha
  · obtain ⟨psi, -, hp⟩ := sweep_solves _ (ex_physical false .tycho true) (ex_linked false .tycho true)
      (ex_nodes false .tycho true) rfl hr hf
    exact ⟨psi, hp⟩

/-- C24 applies: direction 0 leaves rank 0 through face 0, so face 0 on rank 1 waits for it. -/
example : Needs (exRun false .tycho true).cfg exMate ⟨1, 0, 0⟩ 0 ∧
    1 ∈ ((exRun false .tycho true).cfg.mesh 0).adjRanks := by
  refine ⟨⟨by decide +kernel, ⟨0, 0, 0⟩, rfl, Or.inl rfl⟩, by decide +kernel⟩

/-- C23: with face 0 parallel to the direction, the run of the same two cells never finishes. -/
theorem parallel_example {s : State _ _} (h : Reachable (exRun true .tycho false).cfg s) :
    (s.rank 0).phase ≠ .finished ∧ (s.rank 1).phase ≠ .finished := by
  have n0 : Needs (exRun true .tycho false).cfg exMate ⟨0, 0, 0⟩ 0 :=
    ⟨by decide +kernel, ⟨1, 0, 0⟩, rfl, Or.inl rfl⟩
  have n1 : Needs (exRun true .tycho false).cfg exMate ⟨1, 0, 0⟩ 0 :=
    ⟨by decide +kernel, ⟨0, 0, 0⟩, rfl, Or.inl rfl⟩
  exact ⟨(parallel_face_never_finishes (ex_linked _ _ _) (x := ⟨0, 0, 0⟩) (y := ⟨1, 0, 0⟩) (a := 0)
      ⟨by decide, by decide⟩ rfl (by decide) n0 n1 h).2,
    (parallel_face_never_finishes (ex_linked _ _ _) (x := ⟨1, 0, 0⟩) (y := ⟨0, 0, 0⟩) (a := 0)
      ⟨by decide, by decide⟩ rfl (by decide) n1 n0 h).2⟩

/-! ### The Capsaicin protocol under synchronous sends

`MPI_Isend` of the data followed by `MPI_Waitall` before any receive is posted or probed
(src/GraphTraverser.cc:184-256) needs buffering: two ranks with data for each other block for ever
if their sends complete only when received. -/

/-- Every rank waiting in `MPI_Waitall` for a message nobody takes: nothing can happen. -/
theorem capsaicin_stuck {D B : Type} {cfg : Cfg D B} (hp : cfg.protocol = .capsaicin)
    (hrv : cfg.rendezvous = true) {s : State D B}
    (h : ∀ r < cfg.nRanks, (∃ k ps got, (s.rank r).phase = .exchanging k ps got) ∧ ∃ q, s.chan r q ≠ []) :
    ¬ ∃ s', Step cfg s s' := by
  have nd : ∀ r < cfg.nRanks, ¬ sendsDone cfg s r := by
    intro r hr hd
    obtain ⟨-, q, hq⟩ := h r hr
    exact hq (hd hrv q)
  rintro ⟨s', hs⟩
  cases hs with
  | compute r g steps l1 l2 t hr hg hphase => obtain ⟨⟨k, ps, got, e⟩, -⟩ := h r hr; rw [e] at hphase; simp at hphase
  | skip r steps hr hphase => obtain ⟨⟨k, ps, got, e⟩, -⟩ := h r hr; rw [e] at hphase; simp at hphase
  | send r steps hr hphase => obtain ⟨⟨k, ps, got, e⟩, -⟩ := h r hr; rw [e] at hphase; simp at hphase
  | kill r hr hphase => obtain ⟨⟨k, ps, got, e⟩, -⟩ := h r hr; rw [e] at hphase; simp at hphase
  | recv r q kill p1 p2 got m ms hr hphase hchan hcap => exact nd r hr (hcap hp).2
  | miss r q kill ps got hr hphase hcap hsends => exact nd r hr hsends
  | unpack r got hr hphase hsends => exact nd r hr hsends
  | close r got hr hphase hsends => exact nd r hr hsends

/-- The two cells again, without data. -/
def capCfg : Cfg Unit Unit where
  nRanks := 2
  nAngles := 2
  nThreads := 1
  maxCompute := 1
  direction := .forward
  doComm := true
  protocol := .capsaicin
  rendezvous := true
  mesh r := {
    nCells := 1
    adjCell := fun _ _ => none
    adjRank := fun _ f => if f = 0 then some (1 - r) else none
    outgoing := fun a _ f => f = 0 ∧ a = r
    side := fun _ f => f
    lgSide := id
    glSide := id
    sideCell := fun _ => 0 }
  data _ := ⟨fun _ _ _ _ => (), fun _ _ _ _ => (), fun _ _ _ => 0, fun _ _ _ _ _ => ()⟩
  init _ := ()

/-- C21, the gap: a reachable state of the Capsaicin protocol from which no rank can move, with work
left on both. -/
theorem capsaicin_deadlock : ∃ s, Reachable capCfg s ∧ (∀ r < 2, (s.rank r).remaining = 1) ∧
    ¬ ∃ s', Step capCfg s s' := by
  have s1 := Reachable.step .init (Step.compute (cfg := capCfg) (initState capCfg) 0 0 (fun _ => 0) [] []
    ⟨0, 0, 0⟩ (by decide) (by decide) rfl rfl (by decide) (by decide))
  have s2 := Reachable.step s1 (Step.compute (cfg := capCfg) _ 1 0 (fun _ => 0) [] []
    ⟨0, 1, 0⟩ (by decide) (by decide) rfl rfl (by decide) (by decide))
  have s3 := Reachable.step s2 (Step.send (cfg := capCfg) _ 0 (setAt (fun _ => 0) 0 1) (by decide) rfl
    (by intro g hg; right; have : g < 1 := hg; interval_cases g; decide) rfl)
  have s4 := Reachable.step s3 (Step.send (cfg := capCfg) _ 1 (setAt (fun _ => 0) 0 1) (by decide) rfl
    (by intro g hg; right; have : g < 1 := hg; interval_cases g; decide) rfl)
  refine ⟨_, s4, ?_, capsaicin_stuck rfl rfl ?_⟩
  · intro r hr; interval_cases r <;> rfl
  · intro r hr
    have hr : r < 2 := hr
    interval_cases r
    · exact ⟨⟨_, _, _, rfl⟩, 1, by intro h; exact absurd (congrArg List.length h) (by decide +kernel)⟩
    · exact ⟨⟨_, _, _, rfl⟩, 0, by intro h; exact absurd (congrArg List.length h) (by decide +kernel)⟩

/-! ### A batch size of zero -/

/-- `maxCellsPerStep = 0` (not rejected by the input reader): no pair is ever computed, so `traverse`
never returns on a rank with cells. -/
theorem zero_batch_never_finishes {D B : Type} {cfg : Cfg D B} (h0 : cfg.maxCompute = 0)
    {s : State D B} (h : Reachable cfg s) {r : Nat} (ha : 0 < cfg.nAngles) (hc : 0 < (cfg.mesh r).nCells) :
    (s.rank r).remaining = cfg.nAngles * (cfg.mesh r).nCells ∧
      (s.rank r).phase ≠ .finished ∧ (s.rank r).phase ≠ .closing ∧
      (∀ ps got, (s.rank r).phase ≠ .exchanging true ps got) := by
  have hpos : cfg.nAngles * (cfg.mesh r).nCells > 0 := Nat.mul_pos ha hc
  have hrel : ∀ (g a c : Nat) (st : RankState D B), (release cfg r g a c st).remaining = st.remaining := by
    intro g a c st; unfold release; dsimp only; split <;> rfl
  have hun : ∀ (got : List (Packet B)) (st : RankState D B),
      (got.foldl (unpackOne cfg r) st).remaining = st.remaining := by
    intro got
    induction got with
    | nil => intro st; rfl
    | cons p ps ih => intro st; rw [List.foldl_cons, ih]; unfold unpackOne; dsimp only; rw [hrel]
  have hlt : ∀ n, n > 0 → loopTest (B := B) cfg n = .computing fun _ => 0 := by
    intro n hn; unfold loopTest; rw [if_pos hn]
  induction h with
  | init =>
    refine ⟨rfl, ?_⟩
    show (loopTest (B := B) cfg _) ≠ _ ∧ (loopTest (B := B) cfg _) ≠ _ ∧ ∀ _ _, (loopTest (B := B) cfg _) ≠ _
    rw [hlt _ hpos]; simp
  | @step s s' _ hs ih =>
    obtain ⟨i1, i2, i3, i4⟩ := ih
    cases hs with
    | compute q g steps l1 l2 t hr hg hphase hq htop hsteps => omega
    | skip q steps hr hphase hdone hcomm =>
      by_cases e : r = q
      · subst e; simp only [setAt, if_true]; rw [i1, hlt _ hpos]; simp
      · simp only [setAt, if_neg e]; exact ⟨i1, i2, i3, i4⟩
    | send q steps hr hphase hdone hcomm =>
      by_cases e : r = q
      · subst e; simp only [setAt, if_true]; rw [i1]; simp
      · simp only [setAt, if_neg e]; exact ⟨i1, i2, i3, i4⟩
    | kill q hr hphase =>
      by_cases e : r = q
      · subst e; exact absurd hphase i3
      · simp only [setAt, if_neg e]; exact ⟨i1, i2, i3, i4⟩
    | recv q q' kill p1 p2 got m ms hr hphase hchan hcap =>
      by_cases e : r = q
      · subst e
        simp only [setAt, if_true]
        refine ⟨i1, by simp, by simp, ?_⟩
        cases kill
        · simp
        · exact absurd hphase (i4 _ _)
      · simp only [setAt, if_neg e]; exact ⟨i1, i2, i3, i4⟩
    | miss q q' kill ps got hr hphase hcap hsends =>
      by_cases e : r = q
      · subst e
        simp only [setAt, if_true]
        refine ⟨i1, by simp, by simp, ?_⟩
        cases kill
        · simp
        · exact absurd hphase (i4 _ _)
      · simp only [setAt, if_neg e]; exact ⟨i1, i2, i3, i4⟩
    | unpack q got hr hphase hsends =>
      by_cases e : r = q
      · subst e
        simp only [setAt, if_true, unpackAll]
        rw [hun, i1, hlt _ hpos]; simp
      · simp only [setAt, if_neg e]; exact ⟨i1, i2, i3, i4⟩
    | close q got hr hphase hsends =>
      by_cases e : r = q
      · subst e; exact absurd hphase (i4 _ _)
      · simp only [setAt, if_neg e]; exact ⟨i1, i2, i3, i4⟩

example : (0 < capCfg.nAngles ∧ 0 < (capCfg.mesh 0).nCells) := by decide

end Verif.Traverse
