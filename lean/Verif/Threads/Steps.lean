import Verif.Threads.Sim

/-! # Every statement is matched by a whole pass, or by nothing -/

set_option linter.unusedSectionVars false

namespace Verif.Threads

open Verif.Traverse

variable {D B E X : Type} {cfg : Cfg D B} {S : Slices cfg E X}

/-- What a thread may still do before its next decrement of the counter. -/
def Pc.owed : Pc E X → Nat
  | .idle => 1
  | .popped .. => 0
  | .running _ ops => ops.length + 2

/-- The same for all threads. -/
def pot (cfg : Cfg D B) (pc : Nat → Nat → Pc E X) : Nat :=
  ∑ r ∈ Finset.range cfg.nRanks, ∑ g ∈ Finset.range cfg.nThreads, (pc r g).owed

theorem sum_local {n i : Nat} (hi : i < n) (f g : Nat → Nat) (h : ∀ j, j ≠ i → g j = f j) :
    (∑ j ∈ Finset.range n, g j) + f i = (∑ j ∈ Finset.range n, f j) + g i := by
  have hm : i ∈ Finset.range n := Finset.mem_range.2 hi
  rw [← Finset.add_sum_erase _ _ hm, ← Finset.add_sum_erase _ f hm]
  have : ∑ j ∈ (Finset.range n).erase i, g j = ∑ j ∈ (Finset.range n).erase i, f j :=
    Finset.sum_congr rfl fun j hj => h j (Finset.ne_of_mem_erase hj)
  rw [this]
  omega

theorem pot_set {pc : Nat → Nat → Pc E X} {r g : Nat} (hr : r < cfg.nRanks) (hg : g < cfg.nThreads) (x : Pc E X) :
    pot cfg (set2 pc r g x) + (pc r g).owed = pot cfg pc + x.owed := by
  have h1 := sum_local hr (fun i => ∑ j ∈ Finset.range cfg.nThreads, (pc i j).owed)
    (fun i => ∑ j ∈ Finset.range cfg.nThreads, (set2 pc r g x i j).owed) (by
      intro i hi
      exact Finset.sum_congr rfl fun j _ => by rw [set2_ne _ _ (fun h => hi h.1)])
  have h2 := sum_local hg (fun j => (pc r j).owed) (fun j => (set2 pc r g x r j).owed) (by
      intro j hj
      rw [set2_ne _ _ (fun h => hj h.2)])
  rw [set2_same] at h2
  unfold pot
  omega

theorem serial_step {s : Traverse.State D B} {r : Nat} (hr : r < cfg.nRanks) {st' : RankState D B}
    {chan' : Nat → Nat → List (Msg B)} {evs : List (Event B)} (h : Serial cfg r (s.rank r) s.chan st' chan' evs) :
    Traverse.Step cfg s { rank := setAt s.rank r st', chan := chan', log := s.log ++ evs } := by
  cases h with
  | skip steps hphase hdone hcomm =>
    have := Traverse.Step.skip s r steps hr hphase hdone hcomm
    rwa [← List.append_nil s.log] at this
  | send steps hphase hdone hcomm =>
    have := Traverse.Step.send s r steps hr hphase hdone hcomm
    rwa [← List.append_nil s.log] at this
  | kill hphase =>
    have := Traverse.Step.kill s r hr hphase
    rwa [← List.append_nil s.log] at this
  | recv q kill p1 p2 got m ms hphase hchan hcap =>
    have := Traverse.Step.recv s r q kill p1 p2 got m ms hr hphase hchan hcap
    rwa [← List.append_nil s.log] at this
  | miss q kill ps got hphase hcap hsends =>
    have := Traverse.Step.miss s r q kill ps got hr hphase hcap hsends
    rwa [← List.append_nil s.log] at this
  | unpack got hphase hsends => exact Traverse.Step.unpack s r got hr hphase hsends
  | close got hphase hsends =>
    have := Traverse.Step.close s r got hr hphase hsends
    rwa [← List.append_nil s.log] at this

theorem step_serial {s s' : Traverse.State D B} (h : Traverse.Step cfg s s') :
    (∃ r < cfg.nRanks, ∃ st' chan' evs, Serial cfg r (s.rank r) s.chan st' chan' evs) ∨
    ∃ r < cfg.nRanks, ∃ g < cfg.nThreads, ∃ steps l1 l2 t, (s.rank r).phase = .computing steps ∧
      (s.rank r).queue g = l1 ++ t :: l2 ∧ (∀ t' ∈ (s.rank r).queue g, t'.priority ≤ t.priority) ∧
      steps g < cfg.maxCompute := by
  cases h with
  | compute r g steps l1 l2 t hr hg hphase hq htop hsteps =>
    exact Or.inr ⟨r, hr, g, hg, steps, l1, l2, t, hphase, hq, htop, hsteps⟩
  | skip r steps hr hphase hdone hcomm => exact Or.inl ⟨r, hr, _, _, _, .skip steps hphase hdone hcomm⟩
  | send r steps hr hphase hdone hcomm => exact Or.inl ⟨r, hr, _, _, _, .send steps hphase hdone hcomm⟩
  | kill r hr hphase => exact Or.inl ⟨r, hr, _, _, _, .kill hphase⟩
  | recv r q kill p1 p2 got m ms hr hphase hchan hcap =>
    exact Or.inl ⟨r, hr, _, _, _, .recv q kill p1 p2 got m ms hphase hchan hcap⟩
  | miss r q kill ps got hr hphase hcap hsends => exact Or.inl ⟨r, hr, _, _, _, .miss q kill ps got hphase hcap hsends⟩
  | unpack r got hr hphase hsends => exact Or.inl ⟨r, hr, _, _, _, .unpack got hphase hsends⟩
  | close r got hr hphase hsends => exact Or.inl ⟨r, hr, _, _, _, .close got hphase hsends⟩

section
variable {w w' : State D B E X} {s : Traverse.State D B}

/-- A statement of thread `g` of rank `r` that whole passes do not see. -/
theorem Sim.silent (M : Sim S w s) {r g : Nat} (hr : r < cfg.nRanks) (hg : g < cfg.nThreads)
    {st' : RankState D B} {x' : X} {pc' : Pc E X}
    (hother : ∀ g' ≠ g, SamePart S g' st' (w.rank r)) (hrest : SameRest st' (w.rank r))
    (hphase : st'.phase = ahead (fun g' => (set2 w.pc r g pc' r g').early) (s.rank r).phase)
    (hpart : SamePart S g (finish S r g (w.rank r, w.scratch r g) (w.pc r g)) (finish S r g (st', x') pc'))
    (hok : pc'.Ok cfg g st')
    (hbusy : pc' ≠ .idle → ∃ steps, (s.rank r).phase = .computing steps ∧ (pc'.early = 1 → steps g < cfg.maxCompute)) :
    Sim S { w with rank := setAt w.rank r st', scratch := set2 w.scratch r g x', pc := set2 w.pc r g pc' } s := by
  refine ⟨fun r' => ?_, fun r' g' => ?_, fun r' => ?_, fun r' g' => ?_, fun r' g' ho => ?_, fun r' g' hb => ?_, M.chan, M.log⟩
  · dsimp only
    by_cases e : r' = r
    · subst e
      rw [setAt_same]
      have h1 := M.rest r'
      exact ⟨h1.1.trans hrest.1.symm, h1.2.trans hrest.2.symm, h1.3.trans hrest.3.symm, h1.4.trans hrest.4.symm,
        h1.5.trans hrest.5.symm⟩
    · rw [setAt_ne _ _ e]; exact M.rest r'
  · dsimp only
    by_cases e : r' = r
    · subst e
      rw [setAt_same]
      by_cases eg : g' = g
      · subst eg
        rw [set2_same, set2_same]
        exact (M.part r' g').trans hpart
      · rw [set2_ne _ _ (fun h => eg h.2), set2_ne _ _ (fun h => eg h.2)]
        exact (M.part r' g').trans (finish_local _ (M.ok r' g') (hother g' eg).symm)
    · rw [setAt_ne _ _ e, set2_ne _ _ (fun h => e h.1), set2_ne _ _ (fun h => e h.1)]
      exact M.part r' g'
  · dsimp only
    by_cases e : r' = r
    · subst e
      rw [setAt_same]
      exact hphase
    · rw [setAt_ne _ _ e, M.phase r']
      congr 1
      funext g'
      rw [set2_ne _ _ (fun h => e h.1)]
  · dsimp only
    by_cases e : r' = r
    · subst e
      rw [setAt_same]
      by_cases eg : g' = g
      · subst eg
        rw [set2_same]
        exact hok
      · rw [set2_ne _ _ (fun h => eg h.2)]
        exact (M.ok r' g').congr (hother g' eg).symm
    · rw [setAt_ne _ _ e, set2_ne _ _ (fun h => e h.1)]
      exact M.ok r' g'
  · dsimp only
    rw [set2_ne _ _ (fun h : r' = r ∧ g' = g => ho ⟨h.1 ▸ hr, h.2 ▸ hg⟩)]
    exact M.out r' g' ho
  · dsimp only at hb ⊢
    by_cases e : r' = r ∧ g' = g
    · obtain ⟨rfl, rfl⟩ := e
      rw [set2_same] at hb ⊢
      exact hbusy hb
    · rw [set2_ne _ _ e] at hb ⊢
      exact M.busy r' g' hb

theorem setAt_self {α : Type} (f : Nat → α) (i : Nat) : setAt f i (f i) = f := by
  funext j
  unfold setAt
  split
  · rename_i h; rw [h]
  · rfl

theorem set2_self {α : Type} (f : Nat → Nat → α) (i j : Nat) : set2 f i j (f i j) = f := by
  unfold set2
  rw [setAt_self, setAt_self]

theorem computeOne_other {r g g' : Nat} (hne : g' ≠ g) {t : Tuple} (ht : cfg.group t.angle = g) (rest : List Tuple)
    (st : RankState D B) (x : X) : SamePart S g' (computeOne cfg r g t rest st) st := by
  rw [← passOps_eq (S := S) r g t rest st x]
  refine (execs_other hne _ (fun o ho => ?_) _ _).trans ⟨fun _ _ => rfl, fun _ _ => rfl, setAt_ne _ _ hne, rfl⟩
  rw [passOps_angle r t o ho]; exact ht

theorem computeOne_rest (S : Slices cfg E X) {r g : Nat} {t : Tuple} (rest : List Tuple) (st : RankState D B) (x : X) :
    SameRest (computeOne cfg r g t rest st) { st with remaining := dec st.remaining } := by
  rw [← passOps_eq (S := S) r g t rest st x]
  exact (execs_rest _ _ _).1.trans ⟨rfl, rfl, rfl, rfl, rfl⟩

/-- A step of a thread is a whole pass or nothing. -/
theorem Sim.inner (M : Sim S w s) (hgr : ∀ r, Grouped cfg (s.rank r)) (h : Inner cfg S w w') :
    (Sim S w' s ∧ w'.chan = w.chan ∧ w'.log = w.log ∧ pot cfg w'.pc + 1 ≤ pot cfg w.pc) ∨
    ∃ r g steps l1 l2 t, r < cfg.nRanks ∧ g < cfg.nThreads ∧ (s.rank r).phase = .computing steps ∧
      (s.rank r).queue g = l1 ++ t :: l2 ∧ (∀ t' ∈ (s.rank r).queue g, t'.priority ≤ t.priority) ∧
      steps g < cfg.maxCompute ∧
      Sim S w' { s with
        rank := setAt s.rank r { computeOne cfg r g t (l1 ++ l2) (s.rank r) with
          phase := .computing (setAt steps g (steps g + 1)) }
        log := s.log ++ [.upd r t.cell t.angle ((s.rank r).round + 1)] } ∧
      ∀ K, (∀ r t, (passOps S r t).length ≤ K) → pot cfg w'.pc ≤ pot cfg w.pc + (K + 2) := by
  cases h with
  | pop r g steps l1 l2 t hr hg hpc hphase hq htop hsteps =>
    left
    have hp := M.part r g
    rw [hpc] at hp
    have hsq : (s.rank r).queue g = l1 ++ t :: l2 := hp.queue.trans hq
    have hgrp := hgr r g t (by rw [hsq]; simp)
    have hph := M.phase r
    rw [hphase] at hph
    obtain ⟨st0, hst0⟩ : ∃ st0, (s.rank r).phase = .computing st0 := by
      cases hs : (s.rank r).phase <;> rw [hs] at hph <;> simp [ahead] at hph
      exact ⟨_, rfl⟩
    rw [hst0] at hph
    simp only [ahead, Phase.computing.injEq] at hph
    have hg0 : st0 g = steps g := by rw [hph]; dsimp only; rw [hpc]; rfl
    refine ⟨?_, rfl, rfl, ?_⟩
    · have := M.silent hr hg (st' := { w.rank r with
          queue := setAt (w.rank r).queue g (l1 ++ l2), phase := .computing (setAt steps g (steps g + 1)) })
        (x' := w.scratch r g) (pc' := .popped t l1 l2)
        (fun g' hne => ⟨fun _ _ => rfl, fun _ _ => rfl, setAt_ne _ _ hne, rfl⟩) ⟨rfl, rfl, rfl, rfl, rfl⟩ ?_ ?_ ?_ ?_
      · rw [set2_self] at this; exact this
      · rw [hst0]
        simp only [ahead, Phase.computing.injEq]
        funext g'
        by_cases e : g' = g
        · subst e
          rw [setAt_same, set2_same, hg0]; rfl
        · rw [setAt_ne _ _ e, set2_ne _ _ (fun h => e h.2), hph]
      · rw [hpc]
        refine ⟨fun _ _ => rfl, fun _ _ => rfl, ?_, rfl⟩
        simp only [finish, setAt_same, hq]
      · refine ⟨hgrp, setAt_same _ _ _, ?_⟩
        rw [← hq]; exact htop
      · intro _
        exact ⟨st0, hst0, fun _ => by rw [hg0]; exact hsteps⟩
    · have := pot_set (pc := w.pc) hr hg (.popped t l1 l2)
      rw [hpc] at this
      simp only [Pc.owed] at this
      dsimp only
      omega
  | count r g t l1 l2 hr hg hpc =>
    right
    obtain ⟨hgrp, hwq, htop⟩ : Pc.Ok cfg g (w.rank r) (.popped t l1 l2 : Pc E X) := hpc ▸ M.ok r g
    obtain ⟨steps, hst, hsm⟩ := M.busy r g (by rw [hpc]; simp)
    have hsm := hsm (by rw [hpc]; rfl)
    have hp := M.part r g
    rw [hpc] at hp
    have hsq : (s.rank r).queue g = l1 ++ t :: l2 := by
      rw [hp.queue]; simp only [finish, setAt_same]
    refine ⟨r, g, steps, l1, l2, t, hr, hg, hst, hsq, by rw [hsq]; exact htop, hsm, ?_, ?_⟩
    · refine ⟨fun r' => ?_, fun r' g' => ?_, fun r' => ?_, fun r' g' => ?_, fun r' g' ho => ?_, fun r' g' hb => ?_, M.chan, ?_⟩
      · dsimp only
        by_cases e : r' = r
        · subst e
          rw [setAt_same, setAt_same]
          have h1 := computeOne_rest S (r := r') (g := g) (t := t) (l1 ++ l2) (s.rank r') (w.scratch r' g)
          have h2 := M.rest r'
          exact ⟨h1.1.trans (congrArg dec h2.1), h1.2.trans h2.2, h1.3.trans h2.3, h1.4.trans h2.4, h1.5.trans h2.5⟩
        · rw [setAt_ne _ _ e, setAt_ne _ _ e]; exact M.rest r'
      · dsimp only
        by_cases e : r' = r
        · subst e
          rw [setAt_same, setAt_same]
          by_cases eg : g' = g
          · subst eg
            rw [set2_same]
            have hloc := execs_local (S := S) (r := r') (g := g') (passOps S r' t)
              (fun o ho => by rw [passOps_angle r' t o ho]; exact hgrp)
              (st := { s.rank r' with queue := setAt (s.rank r').queue g' (l1 ++ l2), remaining := dec (s.rank r').remaining })
              (st' := { w.rank r' with remaining := dec (w.rank r').remaining }) (w.scratch r' g') (by
                refine ⟨hp.deps, hp.data, ?_, hp.buf⟩
                dsimp only
                rw [setAt_same, hwq])
            rw [passOps_eq] at hloc
            exact ⟨hloc.deps, hloc.data, hloc.queue, hloc.buf⟩
          · rw [set2_ne _ _ (fun h => eg h.2)]
            have h1 := computeOne_other (S := S) (r := r') eg hgrp (l1 ++ l2) (s.rank r') (w.scratch r' g)
            have h2 : SamePart S g' (w.rank r') { w.rank r' with remaining := dec (w.rank r').remaining } :=
              ⟨fun _ _ => rfl, fun _ _ => rfl, rfl, rfl⟩
            have h3 := (h1.trans (M.part r' g')).trans (finish_local _ (M.ok r' g') h2)
            exact ⟨h3.deps, h3.data, h3.queue, h3.buf⟩
        · rw [setAt_ne _ _ e, setAt_ne _ _ e, set2_ne _ _ (fun h => e h.1)]
          exact M.part r' g'
      · dsimp only
        by_cases e : r' = r
        · subst e
          rw [setAt_same, setAt_same]
          dsimp only
          rw [M.phase r', hst]
          simp only [ahead, Phase.computing.injEq]
          funext g'
          by_cases eg : g' = g
          · subst eg
            rw [setAt_same, set2_same, hpc]; rfl
          · rw [setAt_ne _ _ eg, set2_ne _ _ (fun h => eg h.2)]
        · rw [setAt_ne _ _ e, setAt_ne _ _ e, M.phase r']
          congr 1
          funext g'
          rw [set2_ne _ _ (fun h => e h.1)]
      · dsimp only
        by_cases e : r' = r
        · subst e
          rw [setAt_same]
          by_cases eg : g' = g
          · subst eg
            rw [set2_same]
            intro o ho
            rw [passOps_angle r' t o ho]; exact hgrp
          · rw [set2_ne _ _ (fun h => eg h.2)]
            exact (M.ok r' g').congr (S := S) ⟨fun _ _ => rfl, fun _ _ => rfl, rfl, rfl⟩
        · rw [setAt_ne _ _ e, set2_ne _ _ (fun h => e h.1)]
          exact M.ok r' g'
      · dsimp only
        rw [set2_ne _ _ (fun h : r' = r ∧ g' = g => ho ⟨h.1 ▸ hr, h.2 ▸ hg⟩)]
        exact M.out r' g' ho
      · dsimp only at hb ⊢
        by_cases e : r' = r
        · subst e
          rw [setAt_same]
          refine ⟨_, rfl, ?_⟩
          by_cases eg : g' = g
          · subst eg
            rw [set2_same]
            intro h; simp [Pc.early] at h
          · rw [set2_ne _ _ (fun h => eg h.2)] at hb ⊢
            rw [setAt_ne _ _ eg]
            obtain ⟨st2, h1, h2⟩ := M.busy r' g' hb
            rw [hst, Phase.computing.injEq] at h1
            rw [h1]; exact h2
        · rw [setAt_ne _ _ e]
          rw [set2_ne _ _ (fun h => e h.1)] at hb ⊢
          exact M.busy r' g' hb
      · dsimp only
        rw [M.log, (M.rest r).round]
    · intro K hK
      have := pot_set (pc := w.pc) hr hg (.running t (passOps S r t))
      rw [hpc] at this
      simp only [Pc.owed] at this
      have := hK r t
      dsimp only
      omega
  | op r g t o ops hr hg hpc =>
    left
    have hok : ∀ o' ∈ o :: ops, cfg.group o'.angle = g := by
      have := M.ok r g
      rw [hpc] at this
      exact this
    have hgo := hok o (by simp)
    obtain ⟨hrest, hph⟩ := exec_rest (S := S) (r := r) (g := g) (w.rank r) (w.scratch r g) o
    refine ⟨?_, rfl, rfl, ?_⟩
    · refine M.silent hr hg (fun g' hne => exec_other hne _ _ hgo) hrest ?_ ?_ ?_ ?_
      · rw [hph, M.phase r]
        congr 1
        funext g'
        by_cases e : g' = g
        · subst e; rw [set2_same, hpc]; rfl
        · rw [set2_ne _ _ (fun h => e h.2)]
      · rw [hpc]
        exact .refl _ _
      · exact fun o' ho' => hok o' (by simp [ho'])
      · intro _
        obtain ⟨steps, h1, -⟩ := M.busy r g (by rw [hpc]; simp)
        exact ⟨steps, h1, fun h => by simp [Pc.early] at h⟩
    · have := pot_set (pc := w.pc) hr hg (.running t ops)
      rw [hpc] at this
      simp only [Pc.owed, List.length_cons] at this
      dsimp only
      omega
  | done r g t hr hg hpc =>
    left
    refine ⟨?_, rfl, rfl, ?_⟩
    · have := M.silent hr hg (st' := w.rank r) (x' := w.scratch r g) (pc' := .idle) (fun g' _ => .refl _ _)
        ⟨rfl, rfl, rfl, rfl, rfl⟩ ?_ ?_ trivial (fun h => absurd rfl h)
      · rw [set2_self, setAt_self] at this; exact this
      · rw [M.phase r]
        congr 1
        funext g'
        by_cases e : g' = g
        · subst e; rw [set2_same, hpc]; rfl
        · rw [set2_ne _ _ (fun h => e h.2)]
      · rw [hpc]
        exact .refl _ _
    · have := pot_set (pc := w.pc) hr hg .idle
      rw [hpc] at this
      simp only [Pc.owed, List.length_nil] at this
      dsimp only
      omega

/-- The same change on both sides of a rank none of whose threads is in a pass. -/
theorem Sim.outside (M : Sim S w s) {r : Nat} (hidle : ∀ g < cfg.nThreads, w.pc r g = .idle) (st' : RankState D B)
    (chan' : Nat → Nat → List (Msg B)) (log' : List (Event B)) :
    Sim S { w with rank := setAt w.rank r st', chan := chan', log := log' }
      { rank := setAt s.rank r st', chan := chan', log := log' } := by
  have hall : ∀ g, w.pc r g = .idle := by
    intro g
    by_cases h : r < cfg.nRanks ∧ g < cfg.nThreads
    · exact hidle g h.2
    · exact M.out r g h
  refine ⟨fun r' => ?_, fun r' g' => ?_, fun r' => ?_, fun r' g' => ?_, M.out, fun r' g' hb => ?_, rfl, rfl⟩
  · dsimp only
    by_cases e : r' = r
    · subst e; rw [setAt_same, setAt_same]; exact ⟨rfl, rfl, rfl, rfl, rfl⟩
    · rw [setAt_ne _ _ e, setAt_ne _ _ e]; exact M.rest r'
  · dsimp only
    by_cases e : r' = r
    · subst e; rw [setAt_same, setAt_same, hall]; exact .refl _ _
    · rw [setAt_ne _ _ e, setAt_ne _ _ e]; exact M.part r' g'
  · dsimp only
    by_cases e : r' = r
    · subst e
      rw [setAt_same, setAt_same, ahead_zero]
      intro g
      rw [hall]; rfl
    · rw [setAt_ne _ _ e, setAt_ne _ _ e]; exact M.phase r'
  · dsimp only
    by_cases e : r' = r
    · subst e; rw [hall]; trivial
    · rw [setAt_ne _ _ e]; exact M.ok r' g'
  · dsimp only at hb ⊢
    by_cases e : r' = r
    · subst e; exact absurd (hall g') hb
    · rw [setAt_ne _ _ e]; exact M.busy r' g' hb

/-- Every step of the threads is a step of whole passes or none. -/
theorem Sim.step (M : Sim S w s) (hgr : ∀ r, Grouped cfg (s.rank r)) (h : Step cfg S w w') :
    (Sim S w' s ∧ pot cfg w'.pc + 1 ≤ pot cfg w.pc) ∨
    ∃ s', Traverse.Step cfg s s' ∧ Sim S w' s' ∧ ∀ K, (∀ r t, (passOps S r t).length ≤ K) →
      pot cfg w'.pc ≤ pot cfg w.pc + (K + 2) := by
  cases h with
  | inner h =>
    rcases M.inner hgr h with ⟨h1, -, -, h2⟩ | ⟨r, g, steps, l1, l2, t, hr, hg, hst, hsq, htop, hsm, h1, h2⟩
    · exact Or.inl ⟨h1, h2⟩
    · exact Or.inr ⟨_, Traverse.Step.compute s r g steps l1 l2 t hr hg hst hsq htop hsm, h1, h2⟩
  | serial r st' chan' evs hr hidle hser =>
    right
    rw [M.chan, ← M.same hidle] at hser
    refine ⟨_, serial_step hr hser, ?_, fun K _ => by dsimp only; omega⟩
    rw [M.log]
    exact M.outside hidle st' chan' _

end

end Verif.Threads
