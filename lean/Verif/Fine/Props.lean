import Verif.Fine.Sim3

/-!
# The sweep along schedules, statement by statement

C94: whatever the interleaving of single statements and MPI calls of all threads and ranks, the outcome is
one of whole steps; threads do not race; messages fit their buffers; there is no deadlock and no infinite
execution.
-/

set_option linter.unusedSectionVars false
set_option linter.unusedVariables false

namespace Verif.Fine
open Verif.Traverse Verif.Schedule

variable {D B E X : Type} {S : Core D B} {Z : Slices S E X} {angles : Nat → List Nat} {w w' : State D B E X} {s : SweepState S}
  {sim : Nat → D → D → Prop} {mate : Loc → Option Loc}

/-- What a thread can still do before it takes part in a whole step. -/
def Pc.weight : Pc B E X → Nat
  | .ops l => l.length + 3
  | .granted | .gotSizes _ _ => 2
  | .gotSides _ _ _ => 1

variable (S) in
/-- The statements and calls of all threads before the next whole step. -/
def State.weight (w : State D B E X) : Nat :=
  ∑ r ∈ Finset.range S.cfg.nRanks, ∑ g ∈ Finset.range S.nAngleGroups, ((w.rank r).pc g).weight

theorem weight_lt {r g : Nat} (hr : r < S.cfg.nRanks) (hg : g < S.nAngleGroups)
    (h : ((w'.rank r).pc g).weight < ((w.rank r).pc g).weight)
    (ho : ∀ r' g', ¬ (r' = r ∧ g' = g) → (w'.rank r').pc g' = (w.rank r').pc g') : w'.weight S < w.weight S := by
  have hle : ∀ r' g', ((w'.rank r').pc g').weight ≤ ((w.rank r').pc g').weight := by
    intro r' g'
    by_cases e : r' = r ∧ g' = g
    · obtain ⟨rfl, rfl⟩ := e; exact le_of_lt h
    · rw [ho r' g' e]
  refine Finset.sum_lt_sum (fun r' _ => Finset.sum_le_sum fun g' _ => hle r' g') ⟨r, Finset.mem_range.2 hr, ?_⟩
  exact Finset.sum_lt_sum (fun g' _ => hle r g') ⟨g, Finset.mem_range.2 hg, h⟩

theorem setPc_pc (w : State D B E X) (r g : Nat) (p : Pc B E X) (r' g' : Nat) :
    (setAt w.rank r ((w.rank r).setPc g p) r').pc g' = if r' = r ∧ g' = g then p else (w.rank r').pc g' := by
  by_cases h : r' = r
  · subst h
    by_cases h' : g' = g <;> simp [Rank.setPc, setAt, h']
  · simp [setAt, h]

theorem setAt_self {α : Type} (f : Nat → α) (i : Nat) : setAt f i (f i) = f := by
  funext j
  by_cases h : j = i
  · subst h; simp [setAt]
  · simp [setAt, h]

theorem forall2_right {α β : Type} {P : α → β → Prop} {l : List α} {l' : List β} (h : List.Forall₂ P l l') {b : β} (hb : b ∈ l') :
    ∃ a ∈ l, P a b := by
  induction h with
  | nil => cases hb
  | cons h1 _ ih =>
    rcases List.mem_cons.1 hb with rfl | hb
    · exact ⟨_, by simp, h1⟩
    · obtain ⟨a, ha, h⟩ := ih hb
      exact ⟨a, by simp [ha], h⟩

/-- Messages carry angles of their group. -/
theorem chan_angles (T : Timetable S mate angles) (I : SweepInv S sim mate angles s) {p q g : Nat} (hp : p < S.cfg.nRanks)
    (hq : q < S.cfg.nRanks) (hg : g < S.nAngleGroups) : ∀ m ∈ s.chan p q g, ∀ pk ∈ m, pk.angle ∈ angles g := by
  intro m hm pk hpk
  obtain ⟨k, -, hk⟩ := forall2_right (I.chan p hp q hq g hg) hm
  obtain ⟨e, he, hok⟩ := forall2_right hk hpk
  rw [hok.2.1]
  simp only [Core.cross, List.mem_flatMap, List.mem_filterMap] at he
  obtain ⟨t, ht, f, -, hf⟩ := he
  split at hf
  · obtain rfl := Option.some.inj hf
    obtain ⟨i, hi⟩ := List.getElem?_of_mem ht
    exact (T.valid g hg p hp k i t hi).2
  · cases hf

/-- A statement or call is a whole step or none. -/
theorem Rel.step (T : Timetable S mate angles) (I : SweepInv S sim mate angles s) (Lk : Lock S s)
    (hnd : ∀ g < S.nAngleGroups, ∀ r < S.cfg.nRanks, ∀ k, (S.sendAt g r k).Nodup) (R : Rel Z angles w s) (h : Step Z w w') :
    (Rel Z angles w' s ∧ w'.weight S < w.weight S) ∨ ∃ s', Move s s' ∧ Rel Z angles w' s' := by
  have hdis := T.disjoint
  cases h with
  | work r g k i t hr hg hi hp ht =>
    refine Or.inr ⟨s.work r g k i t, .work s r g k i t hr hg (by rw [← R.place]; exact hp) ht, ?_⟩
    exact R.work hdis hg hi hp (T.valid g hg r hr k i t ht).2
  | op r g o l hr hg hp =>
    refine Or.inl ⟨R.op hdis hg hp, weight_lt hr hg ?_ ?_⟩
    · rw [hp]; simp [State.exec, setAt, Pc.weight]
    · intro r' g' h
      by_cases h1 : r' = r
      · subst h1
        have h2 : g' ≠ g := fun e => h ⟨rfl, e⟩
        simp [State.exec, setAt, h2]
      · simp [State.exec, setAt, h1]
  | look r g k i hv hr hg hi hp hw hk ht =>
    have hps : (s.rank r).place g = ⟨k, .compute i⟩ := by rw [← R.place]; exact hp
    have hi' := hi
    rw [Rank.idle] at hi'
    refine Or.inl ⟨?_, weight_lt hr hg ?_ ?_⟩
    · refine R.control (s' := s) hdis (p := .granted) (pl := (w.rank r).place) (t := (w.rank r).turn)
        (e := (w.rank r).entered) hg (Pc.left_idle hi) rfl ?_ ?_ (fun _ _ => rfl) ?_ rfl rfl ?_
      · rw [hi']; exact fun _ => rfl
      · rw [hi']; exact fun _ => rfl
      · rw [R.place, R.turn, R.entered]
      · refine R.pcs_other (fun _ _ => rfl) (fun _ _ _ => rfl) (fun _ _ _ _ _ => rfl) ?_ ?_
        · intro hv'; rw [hv] at hv'; cases hv'
        · unfold PcOk; rw [setAt_same]
          exact ⟨hv, hg, by rw [← R.turn]; exact ht, k, i, hps, hw, hk⟩
    · show ((setAt w.rank r _ r).pc g).weight < _
      rw [setPc_pc, if_pos ⟨rfl, rfl⟩, hi']; simp [Pc.weight]
    · intro r' g' h
      show (setAt w.rank r _ r').pc g' = _
      rw [setPc_pc, if_neg h]
  | send r g k i hr hg hp hw hk hm =>
    refine Or.inr ⟨s.send r g k, .send s r g k i hr hg (by rw [← R.place]; exact hp) hw hk (R.maySend hg hm), ?_⟩
    exact R.send hdis hg (hnd g hg r hr k) hp hm
  | recvNone r g k j q n ns hr hg hp hj hm hc =>
    obtain ⟨ms, hms, hR⟩ := R.recvNone hdis hg hp hm hc
    exact Or.inr ⟨_, .recv s r g k j q [] ms hr hg (by rw [← R.place]; exact hp) hj (R.mayRecv hm) hms, hR⟩
  | recvSizes r g k j q n ns hr hg hp hj hm hc hn =>
    refine Or.inl ⟨R.recvSizes hdis hr hg hp hj hm hc hn, weight_lt hr hg ?_ ?_⟩
    · have hi := Rank.mayRecv.idle hg hm
      rw [Rank.idle] at hi
      show ((setAt w.rank r _ r).pc g).weight < _
      rw [setPc_pc, if_pos ⟨rfl, rfl⟩, hi]; simp [Pc.weight]
    · intro r' g' h
      show (setAt w.rank r _ r').pc g' = _
      rw [setPc_pc, if_neg h]
  | recvSides r g q n l ls hr hg hp hc hl =>
    refine Or.inl ⟨R.recvSides hdis hg hp hc, weight_lt hr hg ?_ ?_⟩
    · show ((setAt w.rank r _ r).pc g).weight < _
      rw [setPc_pc, if_pos ⟨rfl, rfl⟩, hp]; simp [Pc.weight]
    · intro r' g' h
      show (setAt w.rank r _ r').pc g' = _
      rw [setPc_pc, if_neg h]
  | recvPsi r g k j q n l b bs hr hg hp hpl hc hb =>
    have h1 := R.pcs r g hg
    unfold PcOk at h1
    rw [hp] at h1
    obtain ⟨-, -, -, ⟨k', j', hpl', hj⟩, hmr, -⟩ := h1
    have hps : (s.rank r).place g = ⟨k, .comm j⟩ := by rw [← R.place]; exact hpl
    obtain ⟨rfl, rfl⟩ : k' = k ∧ j' = j := by
      rw [hps] at hpl'; injection hpl' with e1 e2; injection e2 with e2; exact ⟨e1.symm, e2.symm⟩
    have hq := T.recv_lt g hg r hr _ q (List.mem_of_getElem? hj)
    obtain ⟨m, ms, hms, hR⟩ := R.recvPsi hdis hg hp hpl hc (chan_angles T I hq hr hg)
    exact Or.inr ⟨_, .recv s r g k' j' q m ms hr hg hps hj hmr hms, hR⟩
  | next r k hv hr hall hG =>
    refine Or.inr ⟨s.next r k, .next s r k hv hr (fun g hg => ?_) hG, ?_⟩
    · obtain ⟨h1, h2, h3⟩ := hall g hg
      rw [R.place] at h1
      refine ⟨h1, ?_, R.flushed hg h2.1 h3⟩
      have := h2.2
      rw [R.place] at this
      exact this
    · have hi0 := (hall 0 hG).2.1.1
      have hi0' := hi0
      rw [Rank.idle] at hi0'
      have hc := R.control (s' := s.next r k) hdis (r := r) (g := 0) (p := (w.rank r).pc 0) (pl := fun _ => ⟨k + 1, .compute 0⟩)
        (t := (w.rank r).turn) (e := (w.rank r).entered) hG (Pc.left_idle hi0) (Pc.left_idle hi0) (fun _ => rfl) (fun _ => rfl)
        (fun r' h => Traverse.setAt_ne _ _ h) ?_ rfl rfl ?_
      · rw [setAt_self] at hc; exact hc
      · show setAt s.rank r _ r = _
        rw [setAt_same, R.turn, R.entered]
      · rw [setAt_self]
        intro r' g' hg'
        by_cases h : r' = r
        · subst h
          rw [if_pos rfl]
          unfold PcOk
          have := (hall g' hg').2.1.1
          rw [Rank.idle] at this
          rw [this]; trivial
        · rw [if_neg h]
          have h1 := R.pcs r' g' hg'
          unfold PcOk at h1 ⊢
          rw [show (s.next r k).rank r' = s.rank r' from Traverse.setAt_ne _ _ h]
          exact h1
  | enter r g k hv hr hg hk hh hf =>
    have hi' := hh.1
    rw [Rank.idle] at hi'
    refine Or.inr ⟨s.enter r g k, .enter s r g k hv hr hg (by rw [← R.place]; exact hk) ?_ (R.flushed hg hh.1 hf), ?_⟩
    · have := hh.2
      rw [R.place] at this
      exact this
    · refine R.control (s' := s.enter r g k) hdis (r := r) (g := g) (p := .ops []) (pl := setAt (w.rank r).place g ⟨k, .barrier⟩)
        (t := (w.rank r).turn) (e := (w.rank r).entered + 1) hg (Pc.left_idle hh.1) rfl ?_ ?_
        (fun r' h => Traverse.setAt_ne _ _ h) ?_ rfl rfl ?_
      · rw [hi']; exact fun _ => rfl
      · rw [hi']; exact fun _ => rfl
      · show setAt s.rank r _ r = _
        rw [setAt_same, R.turn, R.entered, R.place]; rfl
      · refine R.pcs_other (fun r' h => Traverse.setAt_ne _ _ h) ?_ ?_ ?_ ?_
        · intro g' _ hgg; rw [place_enter, if_neg fun h => hgg h.2]
        · intro _ _ _ _ _
          show (setAt s.rank r _ r).turn = _
          rw [setAt_same]; rfl
        · intro hv'; rw [hv] at hv'; cases hv'
        · unfold PcOk; rw [setAt_same]; trivial
  | leave r g k hv hr hg hi hp hent =>
    have hi' := hi
    rw [Rank.idle] at hi'
    have hps : (s.rank r).place g = ⟨k, .barrier⟩ := by rw [← R.place]; exact hp
    refine Or.inr ⟨s.leave r g k, .leave s r g k hv hr hg hps (fun q hq => ?_), ?_⟩
    · have := hent q hq
      rwa [R.entered, R.entered] at this
    · refine R.control (s' := s.leave r g k) hdis (r := r) (g := g) (p := .ops []) (pl := setAt (w.rank r).place g ⟨k + 1, .compute 0⟩)
        (t := (g + 1) % S.nAngleGroups) (e := (w.rank r).entered) hg (Pc.left_idle hi) rfl ?_ ?_
        (fun r' h => Traverse.setAt_ne _ _ h) ?_ rfl rfl ?_
      · rw [hi']; exact fun _ => rfl
      · rw [hi']; exact fun _ => rfl
      · show setAt s.rank r _ r = _
        rw [setAt_same, R.entered, R.place]; rfl
      · refine R.pcs_other (fun r' h => Traverse.setAt_ne _ _ h) ?_ ?_ ?_ ?_
        · intro g' _ hgg; rw [place_leave, if_neg fun h => hgg h.2]
        · intro _ g' hg' hgg hgr
          exfalso
          obtain ⟨n, hn⟩ := Lk.turns hv r hr
          have h1 := R.pcs r g' hg'
          unfold PcOk at h1
          rw [hgr] at h1
          have h2 : g = n % S.nAngleGroups := by
            by_contra hne
            obtain ⟨i, hi⟩ := hn.other g hg hne
            rw [hps] at hi; cases hi
          exact hgg (h1.2.2.1.symm.trans (hn.turn.trans h2.symm))
        · intro hv'; rw [hv] at hv'; cases hv'
        · unfold PcOk; rw [setAt_same]; trivial

section
variable (T : Timetable S mate angles) (L : Linked S.cfg mate) (A : S.Agrees sim) (hd : S.cfg.doComm = true)
  (hnd : ∀ g < S.nAngleGroups, ∀ r < S.cfg.nRanks, ∀ k, (S.sendAt g r k).Nodup)
include T L A hd hnd

/-- C94: every state of single statements and calls is a state of whole steps with some statements begun. -/
theorem calls_simulate (h : Run Z w) : ∃ s : SweepState S, Swept s ∧ Rel Z angles w s := by
  induction h with
  | start => exact ⟨S.start, .start, .start angles⟩
  | step _ hs ih =>
    obtain ⟨s, hsw, R⟩ := ih
    rcases R.step T (hsw.inv T L A hd) (hsw.lock T) hnd hs with ⟨h1, -⟩ | ⟨s', hm, h1⟩
    · exact ⟨s, hsw, h1⟩
    · exact ⟨s', .move _ _ hsw hm, h1⟩

omit T L A hd hnd in
theorem Rel.data_eq (R : Rel Z angles w s) {r : Nat} (hi : ∀ g < S.nAngleGroups, (w.rank r).idle g) :
    (s.rank r).data = (w.rank r).data := by
  refine Z.ext _ _ fun a => ?_
  by_cases h : ∀ g < S.nAngleGroups, a ∉ angles g
  · exact R.rest r a h
  · push Not at h
    obtain ⟨g, hg, ha⟩ := h
    rw [R.data r g hg a ha, fin_idle (Pc.left_idle (hi g hg))]; rfl

/-- C94: when the sweep has returned, the data of each rank are those of an execution in whole steps that
has returned, and so is the history. -/
theorem calls_refine (h : Run Z w) (ho : w.Over S) : ∃ s : SweepState S, Swept s ∧ s.Over ∧ s.log = w.log ∧
    ∀ r < S.cfg.nRanks, (s.rank r).data = (w.rank r).data := by
  obtain ⟨s, hs, R⟩ := calls_simulate T L A hd hnd h
  refine ⟨s, hs, fun r hr g hg => ?_, R.log.symm, fun r hr => R.data_eq fun g hg => (ho r hr g hg).1⟩
  rw [← R.place]; exact (ho r hr g hg).2

/-- C94: a message has the length of the buffer it is received into. -/
theorem calls_match (h : Run Z w) {r g q : Nat} {n : Nat × Nat} (hg : g < S.nAngleGroups) :
    ((w.rank r).pc g = .gotSizes q n → ∀ l ls, w.c1 q g r = l :: ls → l.length = n.1) ∧
    (∀ l, (w.rank r).pc g = .gotSides q n l → l.length = n.1 ∧ ∀ b bs, w.c2 q g r = b :: bs → b.length = n.2) := by
  obtain ⟨s, hs, R⟩ := calls_simulate T L A hd hnd h
  constructor
  · intro hp l ls hc
    obtain ⟨m, ms, -, hn, -, a1, -, -⟩ := R.waiting hg (Or.inl hp)
    rw [hp, hc] at a1
    rw [(List.cons.inj a1).1, hn, keys_length]; rfl
  · intro l hp
    obtain ⟨m, ms, -, hn, -, a1, a2, -⟩ := R.waiting hg (Or.inr ⟨l, hp⟩)
    rw [hp] at a1
    simp only [Pc.held1, if_true] at a1
    refine ⟨by rw [(List.cons.inj a1).1, hn, keys_length]; rfl, fun b bs hc => ?_⟩
    rw [hc] at a2
    rw [(List.cons.inj a2).1, hn, blocks_length]; rfl

/-- C94: statements two threads of a rank are about to execute touch no common memory. -/
theorem calls_no_race (h : Run Z w) {r g g' : Nat} (hg : g < S.nAngleGroups) (hg' : g' < S.nAngleGroups) (hne : g ≠ g')
    {o o' : Op B E X} {l l' : List (Op B E X)} (hp : (w.rank r).pc g = .ops (o :: l)) (hp' : (w.rank r).pc g' = .ops (o' :: l')) :
    ∀ x ∈ touches g o, x ∉ touches g' o' := by
  obtain ⟨s, hs, R⟩ := calls_simulate T L A hd hnd h
  have h1 := R.on r g hg o (by rw [hp]; simp [Pc.left])
  have h2 := R.on r g' hg' o' (by rw [hp']; simp [Pc.left])
  intro x hx hx'
  cases o <;> cases o' <;> simp only [touches, List.mem_cons, List.not_mem_nil, or_false] at hx hx' <;>
    simp only [Op.On] at h1 h2 <;> rcases hx with rfl | rfl <;> simp_all
  all_goals exact hne (T.disjoint g hg g' hg' _ h1 h2)

/-- C94: in the second variant at most one thread of a rank is between its first send and the end of the
barrier. -/
theorem calls_serial (h : Run Z w) (hv : S.variant = .tycho2) {r g g' : Nat} (hr : r < S.cfg.nRanks) (hg : g < S.nAngleGroups)
    (hg' : g' < S.nAngleGroups) (hc : ((w.rank r).place g).sent) (hc' : ((w.rank r).place g').sent) : g = g' := by
  obtain ⟨s, hs, R⟩ := calls_simulate T L A hd hnd h
  obtain ⟨n, hn⟩ := (hs.lock T).turns hv r hr
  rw [R.place] at hc hc'
  have key : ∀ x < S.nAngleGroups, ((s.rank r).place x).sent → x = n % S.nAngleGroups := by
    intro x hx hxs
    by_contra hne
    obtain ⟨i, hi⟩ := hn.other x hx hne
    exact hxs i hi
  exact (key g hg hc).trans (key g' hg' hc').symm

/-- C94: until the sweep has returned on all ranks some thread can execute a statement or a call returns. -/
theorem calls_no_deadlock (h : Run Z w) (hno : ¬ w.Over S) : ∃ w', Step Z w w' := by
  obtain ⟨s, hs, R⟩ := calls_simulate T L A hd hnd h
  by_cases h1 : ∃ r g o l, r < S.cfg.nRanks ∧ g < S.nAngleGroups ∧ (w.rank r).pc g = .ops (o :: l)
  · obtain ⟨r, g, o, l, hr, hg, hp⟩ := h1
    exact ⟨_, .op w r g o l hr hg hp⟩
  have hleft : ∀ r < S.cfg.nRanks, ∀ g < S.nAngleGroups, ((w.rank r).pc g).left = [] := by
    intro r hr g hg
    cases hp : (w.rank r).pc g with
    | ops l =>
      cases l with
      | nil => rfl
      | cons o l => exact absurd ⟨r, g, o, l, hr, hg, hp⟩ h1
    | _ => rfl
  by_cases h2 : ∃ r g, r < S.cfg.nRanks ∧ g < S.nAngleGroups ∧ (w.rank r).pc g = .granted
  · obtain ⟨r, g, hr, hg, hp⟩ := h2
    have h := R.pcs r g hg
    unfold PcOk at h
    rw [hp] at h
    obtain ⟨hv, -, -, k, i, hpl, hw, hk⟩ := h
    refine ⟨_, .send w r g k i hr hg (by rw [R.place]; exact hpl) hw hk ?_⟩
    unfold Rank.maySend; rw [hv]; exact hp
  by_cases h3 : ∃ r g q n, r < S.cfg.nRanks ∧ g < S.nAngleGroups ∧ (w.rank r).pc g = .gotSizes q n
  · obtain ⟨r, g, q, n, hr, hg, hp⟩ := h3
    have h := R.pcs r g hg
    unfold PcOk at h
    rw [hp] at h
    obtain ⟨-, -, -, ⟨k, j, -, hj⟩, -⟩ := h
    have hq := T.recv_lt g hg r hr _ q (List.mem_of_getElem? hj)
    obtain ⟨m, ms, -, hn, -, a1, -, -⟩ := R.waiting hg (Or.inl hp)
    rw [hp, fin_idle (hleft q hq g hg)] at a1
    simp only [Pc.held1, View.bare, List.append_nil, List.nil_append] at a1
    exact ⟨_, .recvSides w r g q n (keys m) _ hr hg hp a1 (by rw [hn, keys_length]; rfl)⟩
  by_cases h4 : ∃ r g q n l, r < S.cfg.nRanks ∧ g < S.nAngleGroups ∧ (w.rank r).pc g = .gotSides q n l
  · obtain ⟨r, g, q, n, l, hr, hg, hp⟩ := h4
    have h := R.pcs r g hg
    unfold PcOk at h
    rw [hp] at h
    obtain ⟨-, -, -, ⟨k, j, hpl, hj⟩, -⟩ := h
    have hq := T.recv_lt g hg r hr _ q (List.mem_of_getElem? hj)
    obtain ⟨m, ms, -, hn, -, -, a2, -⟩ := R.waiting hg (Or.inr ⟨l, hp⟩)
    rw [fin_idle (hleft q hq g hg)] at a2
    simp only [View.bare, List.append_nil] at a2
    exact ⟨_, .recvPsi w r g k j q n l (blocks m) _ hr hg hp (by rw [R.place]; exact hpl) a2 (by rw [hn, blocks_length]; rfl)⟩
  have hidle : ∀ r < S.cfg.nRanks, ∀ g < S.nAngleGroups, (w.rank r).pc g = .ops [] := by
    intro r hr g hg
    cases hp : (w.rank r).pc g with
    | ops l =>
      have := hleft r hr g hg
      rw [hp] at this
      rw [show l = [] from this]
    | granted => exact absurd ⟨r, g, hr, hg, hp⟩ h2
    | gotSizes q n => exact absurd ⟨r, g, q, n, hr, hg, hp⟩ h3
    | gotSides q n l => exact absurd ⟨r, g, q, n, l, hr, hg, hp⟩ h4
  have hwired : ∀ p < S.cfg.nRanks, ∀ q < S.cfg.nRanks, ∀ g < S.nAngleGroups, w.c0 p g q = (s.chan p q g).map sizes ∧
      w.c1 p g q = (full (s.chan p q g)).map keys ∧ w.c2 p g q = (full (s.chan p q g)).map blocks := by
    intro p hp q hq g hg
    obtain ⟨a0, a1, a2⟩ := R.wired p q g hg
    rw [hidle q hq g hg, fin_idle (hleft p hp g hg)] at a0 a1
    rw [fin_idle (hleft p hp g hg)] at a2
    simp only [Pc.held0, Pc.held1, View.bare, List.append_nil, List.nil_append] at a0 a1 a2
    exact ⟨a0, a1, a2⟩
  have hno' : ¬ s.Over := fun ho => hno fun r hr g hg => ⟨hidle r hr g hg, by rw [R.place]; exact ho r hr g hg⟩
  have hheard : ∀ r < S.cfg.nRanks, ∀ g < S.nAngleGroups, (s.rank r).heard r g → (w.rank r).heard S r g := by
    intro r hr g hg hh
    refine ⟨hidle r hr g hg, ?_⟩
    rw [R.place]; exact hh
  have hflush : ∀ r < S.cfg.nRanks, ∀ g < S.nAngleGroups, s.flushed r g → w.flushed S r g := by
    intro r hr g hg hf hb q
    obtain ⟨a0, a1, a2⟩ := R.wired r q g hg
    rw [hf hb q] at a0 a1 a2
    have e0 : _ = [] := a0
    have e1 : _ = [] := a1
    have e2 : _ = [] := a2
    rw [List.append_eq_nil_iff, List.append_eq_nil_iff] at e0 e1
    rw [List.append_eq_nil_iff] at e2
    exact ⟨e0.2.1, e1.2.1, e2.1⟩
  obtain ⟨s', hm⟩ := scheduled_progress T L A hd hs hno'
  cases hm with
  | work r g k i t hr hg hp ht => exact ⟨_, .work w r g k i t hr hg (hidle r hr g hg) (by rw [R.place]; exact hp) ht⟩
  | send r g k i hr hg hp hw hk hms =>
    cases hv : S.variant with
    | tycho1 =>
      refine ⟨_, .send w r g k i hr hg (by rw [R.place]; exact hp) hw hk ?_⟩
      unfold Vars.maySend at hms
      unfold Rank.maySend
      rw [hv] at hms ⊢
      refine ⟨fun g' hg' => ⟨hidle r hr g' hg', fun i hi => ?_⟩, fun g' hg' => ?_⟩
      · rw [R.place] at hi ⊢; exact hms.1 g' hg' i hi
      · rw [R.place]; exact hms.2 g' hg'
    | tycho2 =>
      unfold Vars.maySend at hms
      rw [hv] at hms
      exact ⟨_, .look w r g k i hv hr hg (hidle r hr g hg) (by rw [R.place]; exact hp) hw hk (by rw [R.turn]; exact hms)⟩
  | recv r g k j q m ms hr hg hp hj hmr hms =>
    have hq := T.recv_lt g hg r hr _ q (List.mem_of_getElem? hj)
    have hc := (hwired q hq r hr g hg).1
    rw [hms, List.map_cons] at hc
    have hmr' : (w.rank r).mayRecv S r g := by
      unfold Vars.mayRecv at hmr
      unfold Rank.mayRecv
      split at hmr <;> rename_i hv <;> rw [hv]
      · refine ⟨fun g' hg' => ⟨hidle r hr g' hg', ?_⟩, fun g' hg' => hheard r hr g' (by omega) (hmr.2 g' hg')⟩
        rw [R.place]; exact hmr.1 g' hg'
      · exact hidle r hr g hg
    by_cases hm0 : m.length = 0
    · have : sizes m = (0, 0) := by simp [sizes, hm0]
      rw [this] at hc
      exact ⟨_, .recvNone w r g k j q 0 _ hr hg (by rw [R.place]; exact hp) hj hmr' hc⟩
    · exact ⟨_, .recvSizes w r g k j q _ _ hr hg (by rw [R.place]; exact hp) hj hmr' hc hm0⟩
  | next r k hv hr hall hG =>
    refine ⟨_, .next w r k hv hr (fun g hg => ?_) hG⟩
    obtain ⟨e1, e2, e3⟩ := hall g hg
    exact ⟨by rw [R.place]; exact e1, hheard r hr g hg e2, hflush r hr g hg e3⟩
  | enter r g k hv hr hg hk hh hf =>
    exact ⟨_, .enter w r g k hv hr hg (by rw [R.place]; exact hk) (hheard r hr g hg hh) (hflush r hr g hg hf)⟩
  | leave r g k hv hr hg hp hent =>
    refine ⟨_, .leave w r g k hv hr hg (hidle r hr g hg) (by rw [R.place]; exact hp) fun q hq => ?_⟩
    rw [R.entered, R.entered]; exact hent q hq

/-- The whole steps still to come, and the statements and calls before the next of them. -/
theorem calls_wf (n : Nat) : ∀ k : Nat, ∀ (w : State D B E X) (s : SweepState S), Swept s → Rel Z angles w s →
    S.effort - s.spent ≤ n → w.weight S ≤ k → Acc (fun b a => Step Z a b) w := by
  induction n with
  | zero =>
    intro k
    induction k with
    | zero =>
      intro w s hs R hn hk
      refine ⟨_, fun w' hw' => ?_⟩
      rcases R.step T (hs.inv T L A hd) (hs.lock T) hnd hw' with ⟨-, h2⟩ | ⟨s', hm, h1⟩
      · omega
      · have h1 := (hs.lock T).spends hm
        have h2 := ((hs.move _ _ hm).lock T).spent_le
        omega
    | succ k ih =>
      intro w s hs R hn hk
      refine ⟨_, fun w' hw' => ?_⟩
      rcases R.step T (hs.inv T L A hd) (hs.lock T) hnd hw' with ⟨h1, h2⟩ | ⟨s', hm, h1⟩
      · exact ih w' s hs h1 hn (by omega)
      · have h1 := (hs.lock T).spends hm
        have h2 := ((hs.move _ _ hm).lock T).spent_le
        omega
  | succ n ihn =>
    intro k
    induction k with
    | zero =>
      intro w s hs R hn hk
      refine ⟨_, fun w' hw' => ?_⟩
      rcases R.step T (hs.inv T L A hd) (hs.lock T) hnd hw' with ⟨-, h2⟩ | ⟨s', hm, h1⟩
      · omega
      · have h2 := (hs.lock T).spends hm
        exact ihn (w'.weight S) w' s' (hs.move _ _ hm) h1 (by omega) (le_refl _)
    | succ k ih =>
      intro w s hs R hn hk
      refine ⟨_, fun w' hw' => ?_⟩
      rcases R.step T (hs.inv T L A hd) (hs.lock T) hnd hw' with ⟨h1, h2⟩ | ⟨s', hm, h1⟩
      · exact ih w' s hs h1 hn (by omega)
      · have h2 := (hs.lock T).spends hm
        exact ihn (w'.weight S) w' s' (hs.move _ _ hm) h1 (by omega) (le_refl _)

/-- C94: no execution goes on for ever. -/
theorem calls_terminate (f : Nat → State D B E X) (h0 : f 0 = start Z) : ¬ ∀ i, Step Z (f i) (f (i + 1)) := by
  intro h
  have hacc := calls_wf T L A hd hnd (Z := Z) (S.effort - (S.start).spent) ((start Z).weight S) (start Z) S.start .start (.start angles)
    (le_refl _) (le_refl _)
  rw [← h0] at hacc
  have key : ∀ w, Acc (fun b a => Step Z a b) w → ∀ i, f i = w → False := by
    intro w hw
    induction hw with
    | intro w _ ih => intro i hi; exact ih (f (i + 1)) (hi ▸ h i) (i + 1) rfl
  exact key _ hacc 0 rfl

/-- C94: every execution can be continued to one where the sweep has returned on all ranks. -/
theorem calls_finish (h : Run Z w) : ∃ w', Relation.ReflTransGen (Step Z) w w' ∧ Run Z w' ∧ w'.Over S := by
  obtain ⟨s, hs, R⟩ := calls_simulate T L A hd hnd h
  have hacc := calls_wf T L A hd hnd (Z := Z) _ _ w s hs R (le_refl _) (le_refl _)
  clear hs R s
  induction hacc with
  | intro w _ ih =>
    by_cases ho : w.Over S
    · exact ⟨w, .refl, h, ho⟩
    · obtain ⟨w1, h1⟩ := calls_no_deadlock T L A hd hnd h ho
      obtain ⟨w2, h2, h3, h4⟩ := ih w1 h1 (.step h h1)
      exact ⟨w2, .head h1 h2, h3, h4⟩

end

end Verif.Fine
