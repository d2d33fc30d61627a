import Verif.Schedule.Sweep
import Verif.Schedule.SweepLive
import Verif.Traverse.Props

/-!
# The sweep along schedules computes the same flux (C65)
-/
set_option linter.unusedSectionVars false
set_option linter.unusedVariables false

namespace Verif.Schedule
open Classical List
open Verif.Transport Verif.Traverse

variable {K : Type} [Field K] [LinearOrder K] [IsStrictOrderedRing K] {S : Sweeping K}
  {mate : Loc → Option Loc} {angles : Nat → List Nat}

/-- Faces on the boundary of a rank's part have different sides. -/
abbrev Sweeping.Apart (S : Sweeping K) : Prop := S.core.Apart

theorem Sweeping.apart_iff (S : Sweeping K) : S.Apart ↔ ∀ r < S.run.nRanks, ∀ c < S.run.nCells r, ∀ c' < S.run.nCells r,
    ∀ f f', (S.run.view r).adjCell c f = none → (S.run.view r).adjCell c' f' = none →
    (S.run.view r).side c f = (S.run.view r).side c' f' → c = c' ∧ f = f' := Iff.rfl

/-- Sides the rank writes its own results to. -/
def Sweeping.Own (S : Sweeping K) (r a s : Nat) : Prop :=
  ∃ c f, c < S.run.nCells r ∧ S.leaves r a c f ∧ (S.run.view r).side c f = s

/-- Same data up to such sides. -/
def Sweeping.Sim (S : Sweeping K) (r : Nat) (d d' : Option (Psi K × Bound K)) : Prop :=
  ∃ psi b b', d = some (psi, b) ∧ d' = some (psi, b') ∧
    ∀ g fv a s, ¬ S.Own r a s → b g fv a s = b' g fv a s

theorem updateBound_spec (r c a : Nat) (psi : Psi K) (L : List Face) (b : Bound K) (g : Nat) (fv : Fin 3)
    (a' s' : Nat) :
    let b' := L.foldl (fun b f =>
      if S.leaves r a c f then fun group fv a2 s =>
        if a2 = a ∧ s = (S.run.view r).side c f ∧ group < S.run.nGroups then
          psi group (S.run.faceToCellVrtx r c f fv) a c
        else b group fv a2 s
      else b) b
    (¬ (a' = a ∧ ∃ f ∈ L, S.leaves r a c f ∧ (S.run.view r).side c f = s') → b' g fv a' s' = b g fv a' s') ∧
    ((∀ f f', S.leaves r a c f → S.leaves r a c f' → (S.run.view r).side c f = (S.run.view r).side c f' → f = f') →
      g < S.run.nGroups → a' = a → ∀ f ∈ L, S.leaves r a c f → (S.run.view r).side c f = s' →
      b' g fv a' s' = psi g (S.run.faceToCellVrtx r c f fv) a c) := by
  induction L using List.reverseRecOn with
  | nil => simp
  | append_singleton L f ih =>
    intro b'
    obtain ⟨ih1, ih2⟩ := ih
    constructor
    · intro hn
      have h1 := ih1 (by
        rintro ⟨h, f', hf', h2⟩
        exact hn ⟨h, f', by simp [hf'], h2⟩)
      simp only [b', List.foldl_append, List.foldl_cons, List.foldl_nil]
      split
      · rename_i hl
        dsimp only
        rw [if_neg, h1]
        rintro ⟨h2, h3, -⟩
        exact hn ⟨h2, f, by simp, hl, h3.symm⟩
      · exact h1
    · intro hinj hg ha f' hf' hl' hs'
      simp only [b', List.foldl_append, List.foldl_cons, List.foldl_nil]
      by_cases hff : f' = f
      · subst hff
        rw [if_pos hl', if_pos ⟨ha, hs'.symm, hg⟩]
      · have hfL : f' ∈ L := by
          rcases List.mem_append.1 hf' with h | h
          · exact h
          · exact absurd (by simpa using h) hff
        split
        · rename_i hl
          dsimp only
          rw [if_neg]
          · exact ih2 hinj hg ha f' hfL hl' hs'
          · rintro ⟨-, h3, -⟩
            exact hff (hinj f' f hl' hl (hs'.trans h3))
        · exact ih2 hinj hg ha f' hfL hl' hs'

section
variable (A : S.Apart)
include A

theorem leaves_inj {r c a : Nat} (hr : r < S.run.nRanks) (hc : c < S.run.nCells r) (f f' : Face)
    (h : S.leaves r a c f) (h' : S.leaves r a c f')
    (hs : (S.run.view r).side c f = (S.run.view r).side c f') : f = f' :=
  (A r hr c hc c hc f f' h.1 h'.1 hs).2

/-- Incoming faces are not on sides the rank writes to. -/
theorem not_own {r c a : Nat} (hr : r < S.run.nRanks) (hc : c < S.run.nCells r) {f : Face}
    (hadj : (S.run.view r).adjCell c f = none) (hin : ¬ (S.run.view r).isOutgoing a c f) :
    ¬ S.Own r a ((S.run.view r).side c f) := by
  rintro ⟨c', f', hc', hl, hs⟩
  obtain ⟨rfl, rfl⟩ := A r hr c' hc' c hc f' f hl.1 hadj hs
  exact hin hl.2

theorem update_congr {r c a : Nat} (hr : r < S.run.nRanks) (hc : c < S.run.nCells r) {psi : Psi K}
    {b b' : Bound K} (h : ∀ g fv a s, ¬ S.Own r a s → b g fv a s = b' g fv a s) :
    Transport.update S.run.gauss S.run.nGroups (S.run.view r) (S.run.sigmaT r) (S.run.source r) b c a
      S.run.scratch psi =
    Transport.update S.run.gauss S.run.nGroups (S.run.view r) (S.run.sigmaT r) (S.run.source r) b' c a
      S.run.scratch psi := by
  have : populateLocalPsiBound (S.run.view r) a c psi b = populateLocalPsiBound (S.run.view r) a c psi b' := by
    funext fv f g
    unfold populateLocalPsiBound
    split
    · rename_i hin
      cases hadj : (S.run.view r).adjCell c f with
      | some n => rfl
      | none =>
        cases (S.run.view r).adjRank c f with
        | none => rfl
        | some q => exact h g fv a _ (not_own A hr hc hadj hin)
    · rfl
  unfold Transport.update
  rw [this]

variable (H : S.run.Physical)
include H

/-- A computation keeps the data in step with the replayed log; the results appear on the faces
leaving the rank. -/
theorem compute_sim {r : Nat} {w : Work} (hr : r < S.run.nRanks) (hc : w.cell < S.run.nCells r)
    (ha : w.angle < S.run.nAngles) {d d' : Option (Psi K × Bound K)} (h : S.Sim r d d') :
    S.Sim r (S.compute r w d) (S.run.update r w.cell w.angle d') ∧
    ∀ f, S.leaves r w.angle w.cell f →
      S.getBoundData (S.compute r w d) ((S.run.view r).side w.cell f) w.angle =
      S.run.getData r w.cell f w.angle (S.run.update r w.cell w.angle d') := by
  obtain ⟨psi, b, b', rfl, rfl, hb⟩ := h
  obtain ⟨psi', h1, h2⟩ := S.run.update_some H hr hc ha (psi, b')
  have h1' := h1
  rw [← update_congr A hr hc hb] at h1'
  have h3 : S.run.update r w.cell w.angle (some (psi, b)) = some (psi', b) := by
    simp only [SweepRun.update, Option.bind_eq_bind, Option.bind_some]
    rw [h1']
    rfl
  constructor
  · refine ⟨psi', S.updateBoundData r w.cell w.angle psi' b, b', ?_, h2, ?_⟩
    · unfold Sweeping.compute
      rw [h3]; rfl
    · intro g fv a s hno
      rw [← hb g fv a s hno]
      refine (updateBound_spec r w.cell w.angle psi' (List.finRange 4) b g fv a s).1 ?_
      rintro ⟨rfl, f, -, hl, hs⟩
      exact hno ⟨w.cell, f, hc, hl, hs⟩
  · intro f hl
    rw [h2]
    unfold Sweeping.compute
    rw [h3]
    funext fv g
    exact (updateBound_spec r w.cell w.angle psi' (List.finRange 4) b g fv w.angle _).2
      (leaves_inj A hr hc) g.2 rfl f (by simp) hl rfl

end

theorem set_sim {r : Nat} {side angle : Nat} {x : S.Block} {d d' : Option (Psi K × Bound K)}
    (h : S.Sim r d d') : S.Sim r (S.run.setSideData side angle x d) (S.run.setSideData side angle x d') := by
  obtain ⟨psi, b, b', rfl, rfl, hb⟩ := h
  refine ⟨psi, _, _, rfl, rfl, ?_⟩
  intro g fv a s hno
  dsimp only
  split
  · rfl
  · exact hb g fv a s hno

/-- The data of the sweep and that of the traversal agree up to such sides. -/
theorem Sweeping.agrees (A : S.Apart) (H : S.run.Physical) : S.core.Agrees S.Sim where
  init r _ := ⟨_, _, _, rfl, rfl, fun _ _ _ _ _ => rfl⟩
  set r _ side angle x d d' h := set_sim h
  compute r hr w hc ha d d' h := by
    obtain ⟨h1, h2⟩ := compute_sim A H hr hc ha h
    exact ⟨h1, fun f hf => h2 f ((core_leaves S _ _ _ _).1 hf)⟩

section
variable (T : Timetable S.core mate angles) (L : Linked S.run.cfg mate) (A : S.Apart) (H : S.run.Physical)
  (hd : S.run.doComm = true)
include T L A H hd

/-- C65: when the sweep along the schedules has returned on all ranks, no solve has failed and the flux
satisfies the upwind discretisation of the whole mesh. -/
theorem scheduled_solves {node : Nat → Nat → Fin 4 → Nat} (N : S.run.Nodes mate node) {s : SweepState S.core}
    (h : Swept s) (hov : s.Over) :
    ∃ psi : Nat → Psi K, (∀ r < S.run.nRanks, ∃ bnd, (s.rank r).data = some (psi r, bnd)) ∧
      S.run.GlobalDG mate node psi := by
  have I := Swept.inv T L (S.agrees A H) hd h
  have hs := (S.run.frame H).solves L I.ordered (I.complete T hov)
  have hex : ∀ r, ∃ p : Psi K × Bound K, r < S.run.nRanks → replay S.run.cfg r s.log = some p := by
    intro r
    by_cases hr : r < S.run.nRanks
    · obtain ⟨p, hp⟩ := Option.isSome_iff_exists.1 (hs.ok r hr)
      exact ⟨p, fun _ => hp⟩
    · exact ⟨(S.run.psi0 r, S.run.bound0 r), fun h => absurd h hr⟩
  choose p hp using hex
  refine ⟨fun r => (p r).1, fun r hr => ?_, ?_⟩
  · obtain ⟨psi, b, b', h1, h2, -⟩ := I.data r hr
    have h3 := Option.some.inj ((hp r hr).symm.trans h2)
    exact ⟨b, by rw [h1]; simp [h3]⟩
  · refine globalDG_of_solves S.run H L N hd (bnd := fun r => (p r).2) ⟨fun _ _ => rfl, ?_, ?_, ?_⟩
    · intro r c a hr hc ha
      have := hs.cell r c a hr hc ha
      rw [hp r hr] at this
      exact this
    · intro x y a hx hy hne ha hn
      have := hs.side x y a hx hy hne ha hn
      rw [hp _ hx.1, hp _ (L.mate_in x y hx hy).1] at this
      exact this
    · intro x y a hx hy hne ha hn
      have := hs.rest x y a hx hy hne ha hn
      rw [hp _ hx.1] at this
      exact this

/-- C65: every other solution of the upwind discretisation is that flux. -/
theorem scheduled_unique {node : Nat → Nat → Fin 4 → Nat} (N : S.run.Nodes mate node) {s : SweepState S.core}
    (h : Swept s) (hov : s.Over) {psi psi' : Nat → Psi K} (h1 : S.run.GlobalDG mate node psi)
    (h2 : S.run.GlobalDG mate node psi') :
    ∀ r c a g v, r < S.run.nRanks → c < S.run.nCells r → a < S.run.nAngles → g < S.run.nGroups →
      psi r g v a c = psi' r g v a c := by
  have I := Swept.inv T L (S.agrees A H) hd h
  intro r c a g v hr hc ha hg
  exact globalDG_unique_log S.run H L N hd I.ordered h1 h2 (I.complete T hov r c a hr hc ha) g hg v

/-- C65: the sweep along the schedules and the graph traversal return the same flux, whatever the
interleavings of both, the variant, the step size and the priorities. -/
theorem scheduled_eq_traversal {node : Nat → Nat → Fin 4 → Nat} (N : S.run.Nodes mate node)
    {s : SweepState S.core} (h : Swept s) (hov : s.Over) {t : Verif.Traverse.State _ _}
    (ht : Reachable S.run.cfg t) (hf : ∀ r < S.run.nRanks, (t.rank r).phase = .finished) :
    ∃ psi psi' : Nat → Psi K, (∀ r < S.run.nRanks, ∃ bnd, (s.rank r).data = some (psi r, bnd)) ∧
      (∀ r < S.run.nRanks, ∃ bnd, (t.rank r).data = some (psi' r, bnd)) ∧
      ∀ r c a g v, r < S.run.nRanks → c < S.run.nCells r → a < S.run.nAngles → g < S.run.nGroups →
        psi r g v a c = psi' r g v a c := by
  obtain ⟨psi, h1, h2⟩ := scheduled_solves T L A H hd N h hov
  obtain ⟨psi', h3, h4⟩ := sweep_solves S.run H L N hd ht hf
  exact ⟨psi, psi', h1, h3, scheduled_unique T L A H hd N h hov h2 h4⟩

end

end Verif.Schedule
