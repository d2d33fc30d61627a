import Verif.Schedule.SweepProps

/-!
# The sweep along schedules returns: it cannot deadlock, and cannot go on for ever
-/
set_option linter.unusedSectionVars false
set_option linter.unusedVariables false

namespace Verif.Schedule
open Classical List
open Verif.Traverse

variable {D B : Type} {S : Core D B}
  {sim : Nat → D → D → Prop} {mate : Loc → Option Loc} {angles : Nat → List Nat}

/-- A place within the lists of its step. -/
def Core.Fit (S : Core D B) (g r : Nat) (p : Place) : Prop :=
  match p.phase with
  | .compute i => p.step ≤ S.maxSteps r ∧ i ≤ (S.workAt g r p.step).length
  | .comm j => p.step < S.maxSteps r ∧ j ≤ (S.recvAt g r p.step).length
  | .barrier => p.step < S.maxSteps r ∧ S.variant = .tycho2

/-- `n` times a thread of the rank has passed the barrier. -/
structure Vars.Turns (v : Vars S) (n : Nat) : Prop where
  turn : v.turn = n % S.nAngleGroups
  step : ∀ g < S.nAngleGroups, (v.place g).step =
    n / S.nAngleGroups + if g < n % S.nAngleGroups then 1 else 0
  other : ∀ g < S.nAngleGroups, g ≠ n % S.nAngleGroups → ∃ i, (v.place g).phase = .compute i
  entered : v.entered = n + if (v.place (n % S.nAngleGroups)).phase = .barrier then 1 else 0

/-- The control flow of all ranks. -/
structure Lock (S : Core D B) (s : SweepState S) : Prop where
  fit : ∀ r < S.cfg.nRanks, ∀ g < S.nAngleGroups, S.Fit g r ((s.rank r).place g)
  ext : ∀ r < S.cfg.nRanks, ∀ q, S.cfg.nRanks ≤ q → ∀ g < S.nAngleGroups, s.chan r q g = []
  level : S.variant = .tycho1 → ∀ r < S.cfg.nRanks, ∀ g < S.nAngleGroups, ∀ g' < S.nAngleGroups,
    ((s.rank r).place g).step = ((s.rank r).place g').step
  turns : S.variant = .tycho2 → ∀ r < S.cfg.nRanks, ∃ n, (s.rank r).Turns n

theorem turn_step {n G x : Nat} (hG : 0 < G) (hx : x < G) :
    (n + 1) / G + (if x < (n + 1) % G then 1 else 0) =
      n / G + (if x < n % G then 1 else 0) + if x = n % G then 1 else 0 := by
  have hm := Nat.mod_lt n hG
  have hn := Nat.div_add_mod n G
  set q := n / G
  set m := n % G
  by_cases h : m + 1 < G
  · have h1 : (n + 1) / G = q := by
      rw [← hn, Nat.add_assoc, Nat.mul_add_div hG, Nat.div_eq_of_lt h]; rfl
    have h2 : (n + 1) % G = m + 1 := by
      rw [← hn, Nat.add_assoc, Nat.mul_add_mod, Nat.mod_eq_of_lt h]
    rw [h1, h2]
    split <;> split <;> split <;> omega
  · have he : m + 1 = G := by omega
    have h1 : (n + 1) / G = q + 1 := by
      rw [← hn, Nat.add_assoc, Nat.mul_add_div hG, he, Nat.div_self hG]
    have h2 : (n + 1) % G = 0 := by
      rw [← hn, Nat.add_assoc, Nat.mul_add_mod, he, Nat.mod_self]
    rw [h1, h2]
    split <;> split <;> split <;> omega

theorem turn_mod {n G : Nat} : (n % G + 1) % G = (n + 1) % G := by
  rw [Nat.mod_add_mod]

theorem Lock.start : Lock S S.start where
  fit r _ g _ := by simp [Core.Fit, Core.start]
  ext _ _ _ _ _ _ := rfl
  level _ _ _ _ _ _ _ := rfl
  turns _ r _ := ⟨0, by simp [Core.start], by simp [Core.start],
    fun g _ _ => ⟨0, rfl⟩, by simp [Core.start]⟩

theorem place_next (s : SweepState S) (r k r' g' : Nat) :
    ((s.next r k).rank r').place g' = if r' = r then ⟨k + 1, .compute 0⟩ else (s.rank r').place g' := by
  simp only [SweepState.next, SweepState.setRank, setAt]
  split <;> rfl

theorem place_enter (s : SweepState S) (r g k r' g' : Nat) :
    ((s.enter r g k).rank r').place g' =
      if r' = r ∧ g' = g then ⟨k, .barrier⟩ else (s.rank r').place g' := by
  simp only [SweepState.enter, SweepState.setRank, Vars.setPlace, setAt]
  by_cases hr : r' = r
  · subst hr
    by_cases hg : g' = g <;> simp [setAt, hg]
  · simp [hr]

theorem place_leave (s : SweepState S) (r g k r' g' : Nat) :
    ((s.leave r g k).rank r').place g' =
      if r' = r ∧ g' = g then ⟨k + 1, .compute 0⟩ else (s.rank r').place g' := by
  simp only [SweepState.leave, SweepState.setRank, Vars.setPlace, setAt]
  by_cases hr : r' = r
  · subst hr
    by_cases hg : g' = g <;> simp [setAt, hg]
  · simp [hr]

/-- Within a step the turn stays. -/
theorem Vars.Turns.within {v v' : Vars S} {n g k : Nat} (h : v.Turns n) (hg : g < S.nAngleGroups)
    (ht : v'.turn = v.turn) (he : v'.entered = v.entered) {ph : At}
    (hk : (v.place g).step = k) (hp : ∀ g', v'.place g' = if g' = g then ⟨k, ph⟩ else v.place g')
    (hb : ph ≠ .barrier) (hb' : (v.place g).phase ≠ .barrier)
    (ho : g ≠ n % S.nAngleGroups → ∃ i, ph = .compute i) : v'.Turns n := by
  refine ⟨ht.trans h.turn, ?_, ?_, ?_⟩
  · intro g' hg'
    rw [hp, ← h.step g' hg']
    split
    · rename_i e; subst e; exact hk.symm
    · rfl
  · intro g' hg' hne
    rw [hp]
    split
    · rename_i e; subst e; exact ho hne
    · exact h.other g' hg' hne
  · rw [he, h.entered, hp]
    by_cases e : n % S.nAngleGroups = g
    · rw [if_pos e, e, if_neg hb', if_neg hb]
    · rw [if_neg e]

section
variable (T : Timetable S mate angles)
include T

theorem Lock.move {s s' : SweepState S} (h : Lock S s) (hm : Move s s') : Lock S s' := by
  cases hm with
  | work r g k i w hr hg hp hw =>
    have hf := h.fit r hr g hg
    rw [hp] at hf
    refine ⟨?_, h.ext, ?_, ?_⟩
    · intro r' hr' g' hg'
      rw [place_work]
      split
      · rename_i e
        obtain ⟨rfl, rfl⟩ := e
        exact ⟨hf.1, (List.getElem?_eq_some_iff.1 hw).1⟩
      · exact h.fit r' hr' g' hg'
    · intro hv r' hr' g1 hg1 g2 hg2
      have key : ∀ g', (((s.work r g k i w).rank r').place g').step = ((s.rank r').place g').step := by
        intro g'
        rw [place_work]
        split
        · rename_i e; obtain ⟨rfl, rfl⟩ := e; rw [hp]
        · rfl
      rw [key, key]
      exact h.level hv r' hr' g1 hg1 g2 hg2
    · intro hv r' hr'
      obtain ⟨n, hn⟩ := h.turns hv r' hr'
      refine ⟨n, ?_⟩
      by_cases e : r' = r
      · subst e
        refine hn.within (g := g) (k := k) (ph := .compute (i + 1)) hg ?_ ?_ (by rw [hp]) ?_ (by simp)
          (by rw [hp]; simp) (fun _ => ⟨_, rfl⟩)
        · simp [SweepState.work, SweepState.setRank, setAt, Vars.setPlace]
        · simp [SweepState.work, SweepState.setRank, setAt, Vars.setPlace]
        · intro g'; rw [place_work]; simp
      · simpa [SweepState.work, SweepState.setRank, setAt, e] using hn
  | send r g k i hr hg hp hi hk hmay =>
    have hf := h.fit r hr g hg
    rw [hp] at hf
    refine ⟨?_, ?_, ?_, ?_⟩
    · intro r' hr' g' hg'
      rw [place_send]
      split
      · rename_i e
        obtain ⟨rfl, rfl⟩ := e
        exact ⟨hk, Nat.zero_le _⟩
      · exact h.fit r' hr' g' hg'
    · intro p hp' q hq g' hg'
      rw [chan_send, if_neg]
      · exact h.ext p hp' q hq g' hg'
      · rintro ⟨-, -, hq'⟩
        exact absurd (T.send_lt g hg r hr k q hq') (by omega)
    · intro hv r' hr' g1 hg1 g2 hg2
      have key : ∀ g', (((s.send r g k).rank r').place g').step = ((s.rank r').place g').step := by
        intro g'
        rw [place_send]
        split
        · rename_i e; obtain ⟨rfl, rfl⟩ := e; rw [hp]
        · rfl
      rw [key, key]
      exact h.level hv r' hr' g1 hg1 g2 hg2
    · intro hv r' hr'
      obtain ⟨n, hn⟩ := h.turns hv r' hr'
      refine ⟨n, ?_⟩
      by_cases e : r' = r
      · subst e
        refine hn.within (g := g) (k := k) (ph := .comm 0) hg ?_ ?_ (by rw [hp]) ?_ (by simp)
          (by rw [hp]; simp) ?_
        · simp [SweepState.send, SweepState.setRank, setAt, Vars.setPlace]
        · simp [SweepState.send, SweepState.setRank, setAt, Vars.setPlace]
        · intro g'; rw [place_send]; simp
        · intro hne
          unfold Vars.maySend at hmay
          rw [hv] at hmay
          exact absurd (hmay.symm.trans hn.turn) hne
      · simpa [SweepState.send, SweepState.setRank, setAt, e] using hn
  | recv r g k j q m ms hr hg hp hj _ hc =>
    have hf := h.fit r hr g hg
    rw [hp] at hf
    refine ⟨?_, ?_, ?_, ?_⟩
    · intro r' hr' g' hg'
      rw [place_recv]
      split
      · rename_i e
        obtain ⟨rfl, rfl⟩ := e
        exact ⟨hf.1, (List.getElem?_eq_some_iff.1 hj).1⟩
      · exact h.fit r' hr' g' hg'
    · intro p hp' q' hq g' hg'
      rw [chan_recv, if_neg]
      · exact h.ext p hp' q' hq g' hg'
      · rintro ⟨-, rfl, -⟩; omega
    · intro hv r' hr' g1 hg1 g2 hg2
      have key : ∀ g', (((s.recv r g k j q m ms).rank r').place g').step =
          ((s.rank r').place g').step := by
        intro g'
        rw [place_recv]
        split
        · rename_i e; obtain ⟨rfl, rfl⟩ := e; rw [hp]
        · rfl
      rw [key, key]
      exact h.level hv r' hr' g1 hg1 g2 hg2
    · intro hv r' hr'
      obtain ⟨n, hn⟩ := h.turns hv r' hr'
      refine ⟨n, ?_⟩
      by_cases e : r' = r
      · subst e
        refine hn.within (g := g) (k := k) (ph := .comm (j + 1)) hg ?_ ?_ (by rw [hp]) ?_ (by simp)
          (by rw [hp]; simp) ?_
        · simp [SweepState.recv, SweepState.setRank, setAt, Vars.setPlace]
        · simp [SweepState.recv, SweepState.setRank, setAt, Vars.setPlace]
        · intro g'; rw [place_recv]; simp
        · intro hne
          obtain ⟨i, hi⟩ := hn.other g hg hne
          rw [hp] at hi
          simp at hi
      · simpa [SweepState.recv, SweepState.setRank, setAt, e] using hn
  | next r k hv hr hall hG =>
    refine ⟨?_, h.ext, ?_, ?_⟩
    · intro r' hr' g' hg'
      rw [place_next]
      split
      · rename_i e
        subst e
        obtain ⟨h1, h2, -⟩ := hall g' hg'
        have hf := h.fit r' hr' g' hg'
        unfold Vars.heard at h2
        unfold Core.Fit at hf ⊢
        rw [h2] at hf
        simp only at hf ⊢
        exact ⟨by omega, Nat.zero_le _⟩
      · exact h.fit r' hr' g' hg'
    · intro _ r' hr' g1 hg1 g2 hg2
      rw [place_next, place_next]
      split
      · rfl
      · exact h.level hv r' hr' g1 hg1 g2 hg2
    · intro hv'
      rw [hv] at hv'
      simp at hv'
  | enter r g k hv hr hg hst hh _ =>
    have hf := h.fit r hr g hg
    unfold Vars.heard at hh
    refine ⟨?_, h.ext, fun hv' => ?_, ?_⟩
    · intro r' hr' g' hg'
      rw [place_enter]
      split
      · rename_i e
        obtain ⟨rfl, rfl⟩ := e
        unfold Core.Fit at hf
        rw [hh, hst] at hf
        exact ⟨hf.1, hv⟩
      · exact h.fit r' hr' g' hg'
    · rw [hv] at hv'; simp at hv'
    · intro _ r' hr'
      obtain ⟨n, hn⟩ := h.turns hv r' hr'
      refine ⟨n, ?_⟩
      by_cases e : r' = r
      · subst e
        have hgn : g = n % S.nAngleGroups := by
          by_contra hne
          obtain ⟨i, hi⟩ := hn.other g hg hne
          rw [hh] at hi
          simp at hi
        have hent : ((s.enter r' g k).rank r').entered = (s.rank r').entered + 1 := by
          simp [SweepState.enter, SweepState.setRank, setAt]
        have htr : ((s.enter r' g k).rank r').turn = (s.rank r').turn := by
          simp [SweepState.enter, SweepState.setRank, setAt, Vars.setPlace]
        refine ⟨htr.trans hn.turn, ?_, ?_, ?_⟩
        · intro g' hg'
          rw [place_enter, ← hn.step g' hg']
          split
          · rename_i e; rw [e.2]; exact hst.symm
          · rfl
        · intro g' hg' hne
          rw [place_enter, if_neg (by rw [hgn]; simp [hne])]
          exact hn.other g' hg' hne
        · rw [hent, hn.entered, place_enter, ← hgn, hh]
          simp
      · simpa [SweepState.enter, SweepState.setRank, setAt, e] using hn
  | leave r g k hv hr hg hp _ =>
    have hf := h.fit r hr g hg
    rw [hp] at hf
    refine ⟨?_, h.ext, fun hv' => ?_, ?_⟩
    · intro r' hr' g' hg'
      rw [place_leave]
      split
      · rename_i e
        obtain ⟨rfl, rfl⟩ := e
        exact ⟨hf.1, Nat.zero_le _⟩
      · exact h.fit r' hr' g' hg'
    · rw [hv] at hv'; simp at hv'
    · intro _ r' hr'
      obtain ⟨n, hn⟩ := h.turns hv r' hr'
      by_cases e : r' = r
      · subst e
        have hgn : g = n % S.nAngleGroups := by
          by_contra hne
          obtain ⟨i, hi⟩ := hn.other g hg hne
          rw [hp] at hi
          simp at hi
        have hent : ((s.leave r' g k).rank r').entered = (s.rank r').entered := by
          simp [SweepState.leave, SweepState.setRank, setAt, Vars.setPlace]
        have htr : ((s.leave r' g k).rank r').turn = (g + 1) % S.nAngleGroups := by
          simp [SweepState.leave, SweepState.setRank, setAt]
        have hcomp : ∀ g' < S.nAngleGroups,
            ∃ i, (((s.leave r' g k).rank r').place g').phase = .compute i := by
          intro g' hg'
          rw [place_leave]
          split
          · exact ⟨0, rfl⟩
          · rename_i hne
            exact hn.other g' hg' (by rw [← hgn]; simpa using hne)
        refine ⟨n + 1, ?_, ?_, fun g' hg' _ => hcomp g' hg', ?_⟩
        · rw [htr, hgn, turn_mod]
        · intro g' hg'
          rw [turn_step T.groups hg', ← hn.step g' hg', place_leave, ← hgn]
          by_cases e : g' = g
          · subst e; rw [hp]; simp
          · simp [e]
        · obtain ⟨i, hi⟩ := hcomp ((n + 1) % S.nAngleGroups) (Nat.mod_lt _ T.groups)
          rw [hi, hent, hn.entered, ← hgn, hp]
          simp
      · refine ⟨n, ?_⟩
        simpa [SweepState.leave, SweepState.setRank, setAt, e] using hn

theorem Swept.lock {s : SweepState S} (h : Swept s) : Lock S s := by
  induction h with
  | start => exact Lock.start
  | move s s' _ hm ih => exact ih.move T hm

end

/-! ### No deadlock -/

theorem sent_of_phase {p : Place} (h : ∀ i, p.phase ≠ .compute i) : p.sentUpto = p.step + 1 := by
  obtain ⟨k, ph⟩ := p
  cases ph with
  | compute i => exact absurd rfl (h i)
  | comm j => rfl
  | barrier => rfl

theorem step_le_sent (p : Place) : p.step ≤ p.sentUpto := by
  obtain ⟨k, ph⟩ := p
  cases ph <;> simp [Place.sentUpto]

theorem step_le_recv (g r : Nat) (p : Place) (q : Nat) : p.step ≤ S.recvUpto g r p q := by
  obtain ⟨k, ph⟩ := p
  cases ph with
  | compute i => simp [Core.recvUpto]
  | comm j => simp only [Core.recvUpto]; split <;> simp
  | barrier => simp [Core.recvUpto]

section
variable (T : Timetable S mate angles)
include T

theorem SweepInv.recv_ready {s : SweepState S} (I : SweepInv S sim mate angles s) {r g k j q : Nat}
    (hr : r < S.cfg.nRanks) (hg : g < S.nAngleGroups) (hp : (s.rank r).place g = ⟨k, .comm j⟩)
    (hj : (S.recvAt g r k)[j]? = some q) (hq : k < ((s.rank q).place g).sentUpto) :
    ∃ m ms, s.chan q r g = m :: ms := by
  have hmem := List.mem_of_getElem? hj
  have hqn := T.recv_lt g hg r hr k q hmem
  have hc := (I.chan q hqn r hr g hg).length_eq
  have hin : k ∈ S.inFlight s q r g := by
    unfold Core.inFlight
    rw [List.mem_filter, List.mem_range]
    refine ⟨hq, ?_⟩
    rw [decide_eq_true_eq]
    refine ⟨?_, (T.agree g hg q hqn r hr k).2 hmem⟩
    rw [hp]
    simp only [Core.recvUpto]
    rw [if_pos]
    obtain ⟨hl, he⟩ := List.getElem?_eq_some_iff.1 hj
    rw [← he, ← List.cons_getElem_drop_succ (h := hl)]
    exact List.mem_cons_self
  have : s.chan q r g ≠ [] := by
    intro h
    rw [h] at hc
    have := List.length_pos_of_mem hin
    simp at hc
    rw [hc] at this
    simp at this
  obtain ⟨m, ms, h⟩ := List.exists_cons_of_ne_nil this
  exact ⟨m, ms, h⟩

theorem SweepInv.flush_ready {s : SweepState S} (I : SweepInv S sim mate angles s) (hl : Lock S s) {r g k : Nat}
    (hr : r < S.cfg.nRanks) (hg : g < S.nAngleGroups) (hs : ((s.rank r).place g).sentUpto = k + 1)
    (hq : ∀ q < S.cfg.nRanks, k < S.recvUpto g q ((s.rank q).place g) r) : s.flushed r g := by
  intro _ q
  rcases Nat.lt_or_ge q S.cfg.nRanks with hqn | hqn
  · have hc := (I.chan r hr q hqn g hg).length_eq
    have hnil : S.inFlight s r q g = [] := by
      unfold Core.inFlight
      rw [List.filter_eq_nil_iff]
      intro k' hk'
      rw [List.mem_range, hs] at hk'
      have := hq q hqn
      rw [decide_eq_true_eq]
      rintro ⟨h1, -⟩
      omega
    rw [hnil] at hc
    exact List.eq_nil_of_length_eq_zero hc.symm
  · exact hl.ext r hr q hqn g hg

theorem place_eq {p : Place} {k : Nat} {ph : At} (h1 : p.step = k) (h2 : p.phase = ph) : p = ⟨k, ph⟩ := by
  subst h1; subst h2; rfl

theorem progress1 {s : SweepState S} (I : SweepInv S sim mate angles s) (hl : Lock S s)
    (hv : S.variant = .tycho1) (hno : ¬ s.Over) : ∃ s', Move s s' := by
  have h0 : ∃ r, r < S.cfg.nRanks ∧ ((s.rank r).place 0).step < S.maxSteps r := by
    by_contra hcon
    push Not at hcon
    refine hno fun r hr g hg => ?_
    have h1 := hcon r hr
    rw [hl.level hv r hr 0 T.groups g hg] at h1
    have hf := hl.fit r hr g hg
    unfold Core.Fit at hf
    split at hf
    · rename_i i hi
      have hst : ((s.rank r).place g).step = S.maxSteps r := by omega
      refine place_eq T hst ?_
      rw [hi]
      have : (S.workAt g r ((s.rank r).place g).step).length = 0 := by
        rw [hst]
        unfold Core.workAt
        rw [List.getD_eq_default _ _ (le_maxSteps hg)]
        rfl
      have : i = 0 := by omega
      rw [this]
    · omega
    · omega
  -- the least step
  have hmin : ∃ k, (∃ r, r < S.cfg.nRanks ∧ ((s.rank r).place 0).step = k) ∧
      ∀ r < S.cfg.nRanks, k ≤ ((s.rank r).place 0).step := by
    have hex : ∃ k, ∃ r, r < S.cfg.nRanks ∧ ((s.rank r).place 0).step = k :=
      let ⟨r, hr, _⟩ := h0; ⟨_, r, hr, rfl⟩
    exact ⟨Nat.find hex, Nat.find_spec hex, fun r hr => Nat.find_min' hex ⟨r, hr, rfl⟩⟩
  obtain ⟨k, ⟨r0, hr0, hk0⟩, hmin⟩ := hmin
  have hM : ∀ r < S.cfg.nRanks, k < S.maxSteps r := by
    intro r hr
    obtain ⟨r1, hr1, h1⟩ := h0
    rw [T.steps r hr r1 hr1]
    exact lt_of_le_of_lt (hmin r1 hr1) h1
  have hlev : ∀ r < S.cfg.nRanks, ∀ g < S.nAngleGroups,
      ((s.rank r).place g).step = ((s.rank r).place 0).step :=
    fun r hr g hg => hl.level hv r hr g hg 0 T.groups
  -- some work left
  by_cases c1 : ∃ r g i, r < S.cfg.nRanks ∧ g < S.nAngleGroups ∧
      (s.rank r).place g = ⟨k, .compute i⟩ ∧ i < (S.workAt g r k).length
  · obtain ⟨r, g, i, hr, hg, hp, hi⟩ := c1
    exact ⟨_, Move.work s r g k i _ hr hg hp (List.getElem?_eq_getElem hi)⟩
  push Not at c1
  -- somebody has not sent
  by_cases c2 : ∃ r g, r < S.cfg.nRanks ∧ ((s.rank r).place 0).step = k ∧ g < S.nAngleGroups ∧
      ∃ i, ((s.rank r).place g).phase = .compute i
  · obtain ⟨r, g1, hr, hk, hg1, hi1⟩ := c2
    have hex : ∃ g, g < S.nAngleGroups ∧ ∃ i, ((s.rank r).place g).phase = .compute i :=
      ⟨g1, hg1, hi1⟩
    obtain ⟨hg, i, hi⟩ := Nat.find_spec hex
    have hfirst : ∀ g' < Nat.find hex, ((s.rank r).place g').sent := by
      intro g' hg' i hi
      exact Nat.find_min hex hg' ⟨lt_trans hg' hg, i, hi⟩
    have hpl : (s.rank r).place (Nat.find hex) = ⟨k, .compute i⟩ :=
      place_eq T ((hlev r hr _ hg).trans hk) hi
    refine ⟨_, Move.send s r (Nat.find hex) k i hr hg hpl (c1 r _ i hr hg hpl) (hM r hr) ?_⟩
    unfold Vars.maySend
    rw [hv]
    refine ⟨?_, hfirst⟩
    intro g' hg' i' hi'
    have hst := (hlev r hr g' hg').trans hk
    rw [hst]
    exact c1 r g' i' hr hg' (place_eq T hst hi')
  push Not at c2
  have hcomm : ∀ r < S.cfg.nRanks, ((s.rank r).place 0).step = k → ∀ g < S.nAngleGroups,
      ∃ j, (s.rank r).place g = ⟨k, .comm j⟩ ∧ j ≤ (S.recvAt g r k).length := by
    intro r hr hk g hg
    have hst := (hlev r hr g hg).trans hk
    have hf := hl.fit r hr g hg
    unfold Core.Fit at hf
    split at hf
    · rename_i i hi
      exact absurd hi (c2 r g hr hk hg i)
    · rename_i j hj
      rw [hst] at hf
      exact ⟨j, place_eq T hst hj, hf.2⟩
    · rw [hv] at hf
      simp at hf
  have hsent : ∀ q < S.cfg.nRanks, ∀ g < S.nAngleGroups, k < ((s.rank q).place g).sentUpto := by
    intro q hq g hg
    rcases Nat.lt_or_ge k ((s.rank q).place 0).step with h | h
    · exact lt_of_lt_of_le (by rw [hlev q hq g hg]; exact h) (step_le_sent _)
    · obtain ⟨j, hj, -⟩ := hcomm q hq (le_antisymm h (hmin q hq)) g hg
      rw [hj]
      simp [Place.sentUpto]
  -- somebody still receives
  by_cases c3 : ∃ r g, r < S.cfg.nRanks ∧ ((s.rank r).place 0).step = k ∧ g < S.nAngleGroups ∧
      ¬ (s.rank r).heard r g
  · obtain ⟨r, g1, hr, hk, hg1, hi1⟩ := c3
    have hex : ∃ g, g < S.nAngleGroups ∧ ¬ (s.rank r).heard r g := ⟨g1, hg1, hi1⟩
    obtain ⟨hg, hnh⟩ := Nat.find_spec hex
    set g := Nat.find hex with hgdef
    have hfirst : ∀ g' < g, (s.rank r).heard r g' := by
      intro g' hg'
      by_contra hcon
      exact Nat.find_min hex hg' ⟨lt_trans hg' hg, hcon⟩
    obtain ⟨j, hpl, hj⟩ := hcomm r hr hk g hg
    have hj' : j < (S.recvAt g r k).length := by
      refine lt_of_le_of_ne hj fun e => hnh ?_
      unfold Vars.heard
      rw [hpl, e]
    have hjq := List.getElem?_eq_getElem hj'
    have hqn := T.recv_lt g hg r hr k _ (List.getElem_mem hj')
    obtain ⟨m, ms, hc⟩ := I.recv_ready T hr hg hpl hjq (hsent _ hqn g hg)
    refine ⟨_, Move.recv s r g k j _ m ms hr hg hpl hjq ?_ hc⟩
    unfold Vars.mayRecv
    rw [hv]
    refine ⟨?_, hfirst⟩
    intro g' hg' i hi
    exact c2 r g' hr hk hg' i hi
  push Not at c3
  refine ⟨_, Move.next s r0 k hv hr0 ?_ T.groups⟩
  intro g hg
  refine ⟨(hlev r0 hr0 g hg).trans hk0, c3 r0 g hr0 hk0 hg, ?_⟩
  obtain ⟨j, hj, -⟩ := hcomm r0 hr0 hk0 g hg
  refine I.flush_ready T hl hr0 hg (k := k) (by rw [hj]; rfl) ?_
  intro q hq
  rcases Nat.lt_or_ge k ((s.rank q).place 0).step with h | h
  · exact lt_of_lt_of_le (by rw [hlev q hq g hg]; exact h) (step_le_recv _ _ _ _)
  · have hkq := le_antisymm h (hmin q hq)
    obtain ⟨j', hj', -⟩ := hcomm q hq hkq g hg
    have hh := c3 q g hq hkq hg
    unfold Vars.heard at hh
    rw [hj'] at hh ⊢
    simp only [At.comm.injEq] at hh
    subst hh
    simp [Core.recvUpto]

theorem progress2 {s : SweepState S} (I : SweepInv S sim mate angles s) (hl : Lock S s)
    (hv : S.variant = .tycho2) (hno : ¬ s.Over) : ∃ s', Move s s' := by
  have hG := T.groups
  choose! n hn using hl.turns hv
  have hstep : ∀ {m m' : Nat}, m < m' → m / S.nAngleGroups <
      m' / S.nAngleGroups + if m % S.nAngleGroups < m' % S.nAngleGroups then 1 else 0 := by
    intro m m' h
    have h1 := Nat.div_add_mod m S.nAngleGroups
    have h2 := Nat.div_add_mod m' S.nAngleGroups
    have h3 : m / S.nAngleGroups ≤ m' / S.nAngleGroups := Nat.div_le_div_right (le_of_lt h)
    rcases Nat.lt_or_ge (m / S.nAngleGroups) (m' / S.nAngleGroups) with h4 | h4
    · omega
    · have h5 : m / S.nAngleGroups = m' / S.nAngleGroups := le_antisymm h3 h4
      rw [h5] at h1
      rw [if_pos (by omega)]
      omega
  -- the least number of turns
  have h0 : ∃ r, r < S.cfg.nRanks ∧ n r / S.nAngleGroups < S.maxSteps r := by
    by_contra hcon
    push Not at hcon
    refine hno fun r hr g hg => ?_
    have h1 := hcon r hr
    have h2 := (hn r hr).step g hg
    have hf := hl.fit r hr g hg
    unfold Core.Fit at hf
    split at hf
    · rename_i i hi
      have hst : ((s.rank r).place g).step = S.maxSteps r := by omega
      refine place_eq T hst ?_
      rw [hi]
      have : (S.workAt g r ((s.rank r).place g).step).length = 0 := by
        rw [hst]
        unfold Core.workAt
        rw [List.getD_eq_default _ _ (le_maxSteps hg)]
        rfl
      have : i = 0 := by omega
      rw [this]
    · omega
    · omega
  have hmin : ∃ m, (∃ r, r < S.cfg.nRanks ∧ n r = m) ∧ ∀ r < S.cfg.nRanks, m ≤ n r := by
    have hex : ∃ k, ∃ r, r < S.cfg.nRanks ∧ n r = k := let ⟨r, hr, _⟩ := h0; ⟨_, r, hr, rfl⟩
    exact ⟨Nat.find hex, Nat.find_spec hex, fun r hr => Nat.find_min' hex ⟨r, hr, rfl⟩⟩
  obtain ⟨m, ⟨r0, hr0, hk0⟩, hmin⟩ := hmin
  set k := m / S.nAngleGroups with hkdef
  set g := m % S.nAngleGroups with hgdef
  have hg : g < S.nAngleGroups := Nat.mod_lt _ hG
  have hM : ∀ r < S.cfg.nRanks, k < S.maxSteps r := by
    intro r hr
    obtain ⟨r1, hr1, h1⟩ := h0
    rw [T.steps r hr r1 hr1]
    exact lt_of_le_of_lt (Nat.div_le_div_right (hmin r1 hr1)) h1
  have hfront : ∀ r < S.cfg.nRanks, n r = m → ((s.rank r).place g).step = k := by
    intro r hr he
    rw [(hn r hr).step g hg, he, if_neg (lt_irrefl _)]
    rfl
  have hlater : ∀ r < S.cfg.nRanks, n r ≠ m → k < ((s.rank r).place g).step := by
    intro r hr he
    rw [(hn r hr).step g hg]
    exact hstep (lt_of_le_of_ne (hmin r hr) (Ne.symm he))
  by_cases c2 : ∃ r i, r < S.cfg.nRanks ∧ n r = m ∧ ((s.rank r).place g).phase = .compute i
  · obtain ⟨r, i, hr, he, hi⟩ := c2
    have hpl := place_eq T (hfront r hr he) hi
    rcases Nat.lt_or_ge i (S.workAt g r k).length with h | h
    · exact ⟨_, Move.work s r g k i _ hr hg hpl (List.getElem?_eq_getElem h)⟩
    · refine ⟨_, Move.send s r g k i hr hg hpl h (hM r hr) ?_⟩
      unfold Vars.maySend
      rw [hv]
      show (s.rank r).turn = g
      rw [(hn r hr).turn, he]
  push Not at c2
  have hsent : ∀ q < S.cfg.nRanks, k < ((s.rank q).place g).sentUpto := by
    intro q hq
    by_cases he : n q = m
    · rw [sent_of_phase (fun i => c2 q i hq he), hfront q hq he]
      omega
    · exact lt_of_lt_of_le (hlater q hq he) (step_le_sent _)
  by_cases c3 : ∃ r j, r < S.cfg.nRanks ∧ n r = m ∧ ((s.rank r).place g).phase = .comm j ∧
      j < (S.recvAt g r k).length
  · obtain ⟨r, j, hr, he, hj, hlt⟩ := c3
    have hpl := place_eq T (hfront r hr he) hj
    have hjq := List.getElem?_eq_getElem hlt
    have hqn := T.recv_lt g hg r hr k _ (List.getElem_mem hlt)
    obtain ⟨m', ms, hc⟩ := I.recv_ready T hr hg hpl hjq (hsent _ hqn)
    refine ⟨_, Move.recv s r g k j _ m' ms hr hg hpl hjq ?_ hc⟩
    unfold Vars.mayRecv
    rw [hv]
    trivial
  push Not at c3
  have hheard : ∀ q < S.cfg.nRanks, ∀ r, k < S.recvUpto g q ((s.rank q).place g) r := by
    intro q hq r
    by_cases he : n q = m
    · have hst := hfront q hq he
      have hf := hl.fit q hq g hg
      unfold Core.Fit at hf
      split at hf
      · rename_i i hi
        exact absurd hi (c2 q i hq he)
      · rename_i j hj
        have := c3 q j hq he hj
        rw [place_eq T hst hj]
        simp only [Core.recvUpto]
        rw [List.drop_of_length_le this]
        simp
      · rename_i hb
        rw [place_eq T hst hb]
        simp [Core.recvUpto]
    · exact lt_of_lt_of_le (hlater q hq he) (step_le_recv _ _ _ _)
  by_cases c4 : ∃ r j, r < S.cfg.nRanks ∧ n r = m ∧ ((s.rank r).place g).phase = .comm j
  · obtain ⟨r, j, hr, he, hj⟩ := c4
    have hst := hfront r hr he
    refine ⟨_, Move.enter s r g k hv hr hg hst ?_ ?_⟩
    · unfold Vars.heard
      have hf := hl.fit r hr g hg
      unfold Core.Fit at hf
      rw [hj] at hf
      simp only at hf
      have := c3 r j hr he hj
      rw [hj, hst]
      rw [hst] at hf
      rw [le_antisymm hf.2 this]
    · exact I.flush_ready T hl hr hg (k := k) (by
        rw [sent_of_phase (fun i => c2 r i hr he), hst]) fun q hq => hheard q hq r
  push Not at c4
  have hbar : ∀ r < S.cfg.nRanks, n r = m → ((s.rank r).place g).phase = .barrier := by
    intro r hr he
    cases hph : ((s.rank r).place g).phase with
    | compute i => exact absurd hph (c2 r i hr he)
    | comm j => exact absurd hph (c4 r j hr he)
    | barrier => rfl
  have hent : ∀ r < S.cfg.nRanks, n r = m → (s.rank r).entered = m + 1 := by
    intro r hr he
    rw [(hn r hr).entered, he, if_pos (hbar r hr he)]
  refine ⟨_, Move.leave s r0 g k hv hr0 hg (place_eq T (hfront r0 hr0 hk0) (hbar r0 hr0 hk0)) ?_⟩
  intro q hq
  rw [hent r0 hr0 hk0]
  by_cases he : n q = m
  · rw [hent q hq he]
  · rw [(hn q hq).entered]
    have := hmin q hq
    omega

end

/-! ### No endless execution -/

/-- The number of steps of a group up to a place. -/
def Core.pos (S : Core D B) (g r : Nat) (p : Place) : Nat :=
  ((List.range p.step).map fun k => (S.workAt g r k).length + (S.recvAt g r k).length + 3).sum +
  match p.phase with
  | .compute i => i
  | .comm j => (S.workAt g r p.step).length + 1 + j
  | .barrier => (S.workAt g r p.step).length + (S.recvAt g r p.step).length + 2

/-- A bound for the number of steps of all ranks. -/
def Core.effort (S : Core D B) : Nat :=
  ∑ r ∈ Finset.range S.cfg.nRanks, ∑ g ∈ Finset.range S.nAngleGroups,
    ((List.range (S.maxSteps r)).map fun k =>
      (S.workAt g r k).length + (S.recvAt g r k).length + 3).sum

/-- Steps of all ranks so far. -/
def SweepState.spent (s : SweepState S) : Nat :=
  ∑ r ∈ Finset.range S.cfg.nRanks, ∑ g ∈ Finset.range S.nAngleGroups,
    S.pos g r ((s.rank r).place g)

theorem sum_range_mono (f : Nat → Nat) {m n : Nat} (h : m ≤ n) :
    ((List.range m).map f).sum ≤ ((List.range n).map f).sum := by
  induction h with
  | refl => exact le_refl _
  | step _ ih =>
    rw [List.range_succ, List.map_append, List.sum_append]
    exact le_trans ih (Nat.le_add_right _ _)

theorem pos_le {g r : Nat} {p : Place} (hg : g < S.nAngleGroups) (h : S.Fit g r p) :
    S.pos g r p ≤ ((List.range (S.maxSteps r)).map fun k =>
      (S.workAt g r k).length + (S.recvAt g r k).length + 3).sum := by
  obtain ⟨k, ph⟩ := p
  have hend : ∀ (f : Nat → Nat), k < S.maxSteps r →
      ((List.range k).map f).sum + f k ≤ ((List.range (S.maxSteps r)).map f).sum := by
    intro f hk
    have := sum_range_mono f (m := k + 1) hk
    rw [List.range_succ, List.map_append, List.sum_append] at this
    simpa using this
  cases ph with
  | compute i =>
    obtain ⟨h1, h2⟩ := h
    simp only at h1 h2
    simp only [Core.pos]
    rcases Nat.lt_or_ge k (S.maxSteps r) with hk | hk
    · refine le_trans ?_ (hend _ hk)
      omega
    · have hk : k = S.maxSteps r := by omega
      have h3 : (S.workAt g r k).length = 0 := by
        unfold Core.workAt
        rw [List.getD_eq_default _ _ (by rw [hk]; exact le_maxSteps hg)]
        rfl
      rw [hk] at h3 ⊢
      rw [hk] at h2
      omega
  | comm j =>
    obtain ⟨h1, h2⟩ := h
    simp only at h1 h2
    simp only [Core.pos]
    refine le_trans ?_ (hend _ h1)
    omega
  | barrier =>
    obtain ⟨h1, -⟩ := h
    simp only at h1
    simp only [Core.pos]
    refine le_trans ?_ (hend _ h1)
    omega

theorem Lock.spent_le {s : SweepState S} (h : Lock S s) : s.spent ≤ S.effort := by
  refine Finset.sum_le_sum fun r hr => Finset.sum_le_sum fun g hg => ?_
  rw [Finset.mem_range] at hr hg
  exact pos_le hg (h.fit r hr g hg)

theorem spent_lt {s s' : SweepState S} {r g : Nat} (hr : r < S.cfg.nRanks) (hg : g < S.nAngleGroups)
    (h : S.pos g r ((s.rank r).place g) < S.pos g r ((s'.rank r).place g))
    (ho : ∀ r' g', r' < S.cfg.nRanks → g' < S.nAngleGroups →
      S.pos g' r' ((s.rank r').place g') ≤ S.pos g' r' ((s'.rank r').place g')) : s.spent < s'.spent := by
  refine Finset.sum_lt_sum ?_ ⟨r, Finset.mem_range.2 hr, ?_⟩
  · intro r' hr'
    exact Finset.sum_le_sum fun g' hg' => ho r' g' (Finset.mem_range.1 hr') (Finset.mem_range.1 hg')
  · refine Finset.sum_lt_sum ?_ ⟨g, Finset.mem_range.2 hg, h⟩
    exact fun g' hg' => ho r g' hr (Finset.mem_range.1 hg')

theorem pos_succ (g r k : Nat) : S.pos g r ⟨k + 1, .compute 0⟩ =
    S.pos g r ⟨k, .compute 0⟩ + ((S.workAt g r k).length + (S.recvAt g r k).length + 3) := by
  simp only [Core.pos]
  rw [List.range_succ, List.map_append, List.sum_append]
  simp

theorem Lock.spends {s s' : SweepState S} (h : Lock S s) (hm : Move s s') : s.spent < s'.spent := by
  cases hm with
  | work r g k i w hr hg hp hw =>
    refine spent_lt hr hg ?_ ?_
    · rw [place_work, if_pos ⟨rfl, rfl⟩, hp]
      simp [Core.pos]
    · intro r' g' _ _
      rw [place_work]
      split
      · rename_i e; obtain ⟨rfl, rfl⟩ := e
        rw [hp]; simp [Core.pos]
      · exact le_refl _
  | send r g k i hr hg hp hi hk hmay =>
    have hf := h.fit r hr g hg
    rw [hp] at hf
    have hi' : i ≤ (S.workAt g r k).length := hf.2
    refine spent_lt hr hg ?_ ?_
    · rw [place_send, if_pos ⟨rfl, rfl⟩, hp]
      simp [Core.pos]; omega
    · intro r' g' _ _
      rw [place_send]
      split
      · rename_i e; obtain ⟨rfl, rfl⟩ := e
        rw [hp]; simp [Core.pos]; omega
      · exact le_refl _
  | recv r g k j q m ms hr hg hp hj _ hc =>
    refine spent_lt hr hg ?_ ?_
    · rw [place_recv, if_pos ⟨rfl, rfl⟩, hp]
      simp [Core.pos]
    · intro r' g' _ _
      rw [place_recv]
      split
      · rename_i e; obtain ⟨rfl, rfl⟩ := e
        rw [hp]; simp [Core.pos]
      · exact le_refl _
  | next r k hv hr hall hG =>
    have key : ∀ g < S.nAngleGroups, S.pos g r ((s.rank r).place g) < S.pos g r ⟨k + 1, .compute 0⟩ := by
      intro g hg
      obtain ⟨h1, h2, -⟩ := hall g hg
      unfold Vars.heard at h2
      rw [pos_succ]
      generalize (s.rank r).place g = pl at h1 h2
      obtain ⟨st, ph⟩ := pl
      simp only at h1 h2
      subst h1; subst h2
      simp [Core.pos]; omega
    refine spent_lt hr hG ?_ ?_
    · rw [place_next, if_pos rfl]
      exact key 0 hG
    · intro r' g' _ hg'
      rw [place_next]
      split
      · rename_i e; subst e
        exact le_of_lt (key g' hg')
      · exact le_refl _
  | enter r g k hv hr hg hst hh _ =>
    have key : S.pos g r ((s.rank r).place g) < S.pos g r ⟨k, .barrier⟩ := by
      unfold Vars.heard at hh
      generalize (s.rank r).place g = pl at hst hh
      obtain ⟨st, ph⟩ := pl
      simp only at hst hh
      subst hst; subst hh
      simp [Core.pos]; omega
    refine spent_lt hr hg ?_ ?_
    · rw [place_enter, if_pos ⟨rfl, rfl⟩]
      exact key
    · intro r' g' _ _
      rw [place_enter]
      split
      · rename_i e; obtain ⟨rfl, rfl⟩ := e
        exact le_of_lt key
      · exact le_refl _
  | leave r g k hv hr hg hp _ =>
    have key : S.pos g r ((s.rank r).place g) < S.pos g r ⟨k + 1, .compute 0⟩ := by
      rw [pos_succ, hp]
      simp [Core.pos]
    refine spent_lt hr hg ?_ ?_
    · rw [place_leave, if_pos ⟨rfl, rfl⟩]
      exact key
    · intro r' g' _ _
      rw [place_leave]
      split
      · rename_i e; obtain ⟨rfl, rfl⟩ := e
        exact le_of_lt key
      · exact le_refl _

section
variable (T : Timetable S mate angles) (L : Linked S.cfg mate) (A : S.Agrees sim)
  (hd : S.cfg.doComm = true)
include T

/-- No execution, of any interleaving, has more than this number of steps. -/
theorem scheduled_bounded (f : Nat → SweepState S) (n : Nat) (h0 : f 0 = S.start)
    (hm : ∀ i < n, Move (f i) (f (i + 1))) : n ≤ S.effort := by
  have key : ∀ i ≤ n, Lock S (f i) ∧ i ≤ (f i).spent := by
    intro i
    induction i with
    | zero => intro _; rw [h0]; exact ⟨Lock.start, Nat.zero_le _⟩
    | succ i ih =>
      intro hi
      obtain ⟨h1, h2⟩ := ih (by omega)
      have := hm i (by omega)
      have := h1.spends this
      exact ⟨h1.move T (hm i (by omega)), by omega⟩
  obtain ⟨h1, h2⟩ := key n (le_refl _)
  exact le_trans h2 h1.spent_le

include L A hd

/-- Until the sweep has returned on all ranks, some rank can go on: no deadlock, even if no message is
buffered. -/
theorem scheduled_progress {s : SweepState S} (h : Swept s) (hno : ¬ s.Over) : ∃ s', Move s s' := by
  have I := h.inv T L A hd
  have hl := h.lock T
  cases hv : S.variant with
  | tycho1 => exact progress1 T I hl hv hno
  | tycho2 => exact progress2 T I hl hv hno

/-- Every execution can be continued to one where the sweep has returned. -/
theorem scheduled_returns {s : SweepState S} (h : Swept s) :
    ∃ s', Relation.ReflTransGen Move s s' ∧ Swept s' ∧ s'.Over := by
  have key : ∀ n, ∀ s : SweepState S, Swept s → S.effort - s.spent ≤ n →
      ∃ s', Relation.ReflTransGen Move s s' ∧ Swept s' ∧ s'.Over := by
    intro n
    induction n with
    | zero =>
      intro s h hn
      by_cases hov : s.Over
      · exact ⟨s, .refl, h, hov⟩
      · obtain ⟨s', hm⟩ := scheduled_progress T L A hd h hov
        have h1 := (h.lock T).spends hm
        have h2 := ((h.move _ _ hm).lock T).spent_le
        omega
    | succ n ih =>
      intro s h hn
      by_cases hov : s.Over
      · exact ⟨s, .refl, h, hov⟩
      · obtain ⟨s', hm⟩ := scheduled_progress T L A hd h hov
        have h1 := (h.lock T).spends hm
        obtain ⟨s'', h3, h4, h5⟩ := ih s' (h.move _ _ hm) (by omega)
        exact ⟨s'', .head hm h3, h4, h5⟩
  exact key _ s h (le_refl _)

end

end Verif.Schedule
