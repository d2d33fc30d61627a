import Verif.Joint.Model

/-!
# C92: threads and MPI calls in single steps

Every execution is one of `Verif.Wire` with whole passes, and so one of `Verif.Traverse`.
-/

set_option linter.unusedSectionVars false

namespace Verif.Joint

open Verif.Traverse

variable {D B E X : Type} {cfg : Cfg D B} {S : Threads.Slices cfg E X} {C : Wire.Codec B}

/-- A call on rank `r` sees the variables of that rank only. -/
theorem call_frame {r : Nat} {w w' : Wire.State D B} (h : Wire.Call cfg C r w w') {f : Nat → RankState D B}
    (hf : f r = w.rank r) :
    ∃ st', w'.rank = setAt w.rank r st' ∧
      Wire.Call cfg C r { w with rank := f } { w' with rank := setAt f r st' } := by
  cases h with
  | begin steps hphase hdone =>
    rw [← hf] at hphase hdone
    have := Wire.Call.begin (C := C) (w := { w with rank := f }) steps hphase hdone
    simp only [Wire.enter, hf] at this
    exact ⟨_, rfl, this⟩
  | beginKill hphase =>
    rw [← hf] at hphase
    have := Wire.Call.beginKill (cfg := cfg) (C := C) (w := { w with rank := f }) hphase
    simp only [Wire.enter, hf] at this
    exact ⟨_, rfl, this⟩
  | isendSize q n rest hops =>
    refine ⟨w.rank r, (Threads.setAt_self _ _).symm, ?_⟩
    rw [← hf, Threads.setAt_self]
    exact .isendSize (w := { w with rank := f }) q n rest hops
  | isendData q b rest hops hlen =>
    refine ⟨w.rank r, (Threads.setAt_self _ _).symm, ?_⟩
    rw [← hf, Threads.setAt_self]
    exact .isendData (w := { w with rank := f }) q b rest hops hlen
  | waitData q n ns kill p1 p2 hphase hops hw hs hn =>
    refine ⟨w.rank r, (Threads.setAt_self _ _).symm, ?_⟩
    rw [← hf] at hphase
    rw [← hf, Threads.setAt_self]
    exact .waitData (w := { w with rank := f }) q n ns kill p1 p2 hphase hops hw hs hn
  | waitNone q n ns kill p1 p2 hphase hops hw hs hn =>
    rw [← hf] at hphase
    have := Wire.Call.waitNone (cfg := cfg) (C := C) (w := { w with rank := f }) q n ns kill p1 p2 hphase hops hw hs hn
    simp only [hf] at this
    exact ⟨_, rfl, this⟩
  | recvData q n b bs kill p1 p2 hphase hw hs hlen =>
    rw [← hf] at hphase
    have := Wire.Call.recvData (cfg := cfg) (C := C) (w := { w with rank := f }) q n b bs kill p1 p2 hphase hw hs hlen
    simp only [hf] at this
    exact ⟨_, rfl, this⟩
  | unpack hphase hops hw hsends hwhole =>
    rw [← hf] at hphase
    have := Wire.Call.unpack (C := C) (w := { w with rank := f }) hphase hops hw hsends hwhole
    simp only [hf] at this
    exact ⟨_, rfl, this⟩
  | close hphase hops hw hsends =>
    rw [← hf] at hphase
    have := Wire.Call.close (C := C) (w := { w with rank := f }) hphase hops hw hsends
    simp only [hf] at this
    exact ⟨_, rfl, this⟩

/-- A state of `Verif.Wire` without its messages. -/
def ranks (v : Wire.State D B) : Traverse.State D B := ⟨v.rank, fun _ _ => [], v.log⟩

/-- A state and a state of whole passes with the same messages and calls. -/
structure Sim (S : Threads.Slices cfg E X) (w : State D B E X) (v : Wire.State D B) : Prop where
  threads : Threads.Sim S w.view (ranks v)
  net : v = { w.net with rank := v.rank }

theorem Sim.init (cfg : Cfg D B) (S : Threads.Slices cfg E X) : Sim S (initState cfg S) (Wire.initState cfg) :=
  ⟨Threads.Sim.init cfg S, rfl⟩

theorem Sim.step {w w' : State D B E X} {v : Wire.State D B} (M : Sim S w v) (hgr : ∀ r, Threads.Grouped cfg (v.rank r))
    (h : Step cfg S C w w') :
    (Sim S w' v ∧ Threads.pot cfg w'.pc + 1 ≤ Threads.pot cfg w.pc) ∨
    ∃ v', Wire.Step cfg C v v' ∧ Sim S w' v' ∧ ∀ K, (∀ r t, (Threads.passOps S r t).length ≤ K) →
      Threads.pot cfg w'.pc ≤ Threads.pot cfg w.pc + (K + 2) := by
  cases h with
  | @inner u h =>
    have hchan : u.chan = fun _ _ => [] := by cases h <;> rfl
    have hview : (w.put u).view = u := by
      cases u
      simp only at hchan
      subst hchan
      rfl
    rcases M.threads.inner hgr h with ⟨h1, -, h3, h4⟩ | ⟨r, g, steps, l1, l2, t, hr, hg, hst, hsq, htop, hsm, h1, h2⟩
    · left
      refine ⟨⟨by rw [hview]; exact h1, ?_⟩, h4⟩
      have := M.net
      simp only [State.put]
      rw [h3]
      exact this
    · right
      refine ⟨_, Wire.Step.compute v r g steps l1 l2 t hr hg hst hsq htop hsm, ⟨by rw [hview]; exact h1, ?_⟩, h2⟩
      have hl := h1.log
      rw [M.net]
      simp only [State.put]
      rw [hl]
      have := M.net
      rw [Wire.State.mk.injEq] at this
      simp only [ranks, this.2.2.2.2.2.2]
  | call r net' hr hidle hc =>
    right
    have hsame : v.rank r = w.net.rank r := M.threads.same hidle
    obtain ⟨st', h1, h2⟩ := call_frame hc hsame
    rw [← M.net] at h2
    refine ⟨_, .call r hr h2, ⟨?_, rfl⟩, fun K _ => by dsimp only; omega⟩
    have := M.threads.outside hidle st' (fun _ _ => []) net'.log
    unfold State.view at this ⊢
    dsimp only at this ⊢
    rw [h1]
    exact this

section
variable {mate : Loc → Option Loc} (L : Linked cfg mate) (hC : C.Ok) (F : Wire.Fits cfg C) (hd : cfg.doComm = true)
  (ht : cfg.protocol = .tycho)
include L hC F hd ht

theorem Run.sim {n : Nat} {w : State D B E X} (h : Run cfg S C n w) :
    ∃ c v, Wire.Run cfg C c v ∧ Sim S w v ∧ ∀ K, (∀ r t, (Threads.passOps S r t).length ≤ K) →
      n + Threads.pot cfg w.pc ≤ c * (K + 3) + cfg.nRanks * cfg.nThreads := by
  induction h with
  | init =>
    refine ⟨0, _, .init, Sim.init cfg S, fun K _ => ?_⟩
    simp [Threads.pot, initState, Threads.Pc.owed]
  | step _ hs ih =>
    obtain ⟨c, v, hr, M, hn⟩ := ih
    have hgr : ∀ r, Threads.Grouped cfg (v.rank r) := by
      obtain ⟨_, s, hrs, Q, -⟩ := hr.sim L hC F hd ht
      intro r
      rw [Q.rank r]
      exact Threads.reachable_grouped (hrs.reachable .init) r
    rcases M.step hgr hs with ⟨M', hp⟩ | ⟨v', hst, M', hp⟩
    · exact ⟨c, v, hr, M', fun K hK => by have := hn K hK; omega⟩
    · refine ⟨c + 1, v', hr.step hst, M', fun K hK => ?_⟩
      have h1 := hn K hK
      have h2 := hp K hK
      rw [Nat.succ_mul]
      omega

/-- C92: whatever the interleaving of the statements of the threads and of the MPI calls of all ranks,
some execution with whole passes and whole messages makes the same calls into `TraverseData` in the
same order; the same ranks have returned in it, and a rank that is outside of the parallel region has
the same data. -/
theorem joint_refines {n : Nat} {w : State D B E X} (h : Run cfg S C n w) :
    ∃ s, Reachable cfg s ∧ w.net.log = s.log ∧ ∀ r,
      ((w.net.rank r).phase = .finished ↔ (s.rank r).phase = .finished) ∧
      ((∀ steps, (w.net.rank r).phase ≠ .computing steps) → (w.net.rank r).data = (s.rank r).data) := by
  obtain ⟨c, v, hr, M, -⟩ := h.sim L hC F hd ht
  obtain ⟨s, h1, h2, h3⟩ := Wire.wire_refines L hC F hd ht hr
  have hph : ∀ r, (w.net.rank r).phase = Threads.ahead (fun g => (w.pc r g).early) (v.rank r).phase := M.threads.phase
  refine ⟨s, h1, ?_, fun r => ⟨?_, fun hp => ?_⟩⟩
  · rw [← h2]; exact M.threads.log
  · rw [← (h3 r).2, hph r]
    cases (v.rank r).phase <;> simp [Threads.ahead]
  · rw [← (h3 r).1]
    have : (ranks v).rank r = w.view.rank r := by
      refine M.threads.same fun g _ => ?_
      by_contra hb
      obtain ⟨steps, h1, -⟩ := M.threads.busy r g hb
      have := M.threads.phase r
      rw [h1] at this
      exact hp _ this
    exact (congrArg RankState.data this).symm

/-- C92: every task is computed at most once and in order, and on a rank that has returned exactly
once. -/
theorem joint_once_in_order {n : Nat} {w : State D B E X} (h : Run cfg S C n w) :
    (∀ r c a, w.net.log.countP (fun e => e.task = some (r, c, a)) ≤ 1) ∧ Ordered cfg mate w.net.log ∧
    ∀ r < cfg.nRanks, (w.net.rank r).phase = .finished → ∀ c < (cfg.mesh r).nCells, ∀ a < cfg.nAngles,
      w.net.log.countP (fun e => e.task = some (r, c, a)) = 1 := by
  obtain ⟨s, hr, hl, hs⟩ := joint_refines L hC F hd ht h
  rw [hl]
  exact ⟨(traverse_once_in_order L hr).1, (traverse_once_in_order L hr).2, fun r hlt hf c hc a ha =>
    traverse_finished_once L hr hlt ((hs r).1.1 hf) hc ha⟩

/-- C92: no rank stops with an error. -/
theorem joint_no_error {n : Nat} {w : State D B E X} (h : Run cfg S C n w) : ¬ Wire.Fails cfg C w.net := by
  obtain ⟨c, v, hr, M, -⟩ := h.sim L hC F hd ht
  have hno := Wire.wire_no_error L hC F hd ht hr
  have hn := M.net
  intro hf
  refine hno ?_
  cases hf with
  | tooLong r q b rest hr hops hlen =>
    rw [hn]; exact .tooLong r q b rest hr hops hlen
  | mismatch r q n b bs hr hw hs hlen =>
    rw [hn]; exact .mismatch r q n b bs hr hw hs hlen
  | ragged r hr hphase hops hw hrag =>
    have hph : (v.rank r).phase = .exchanging false [] [] := by
      have := M.threads.phase r
      change (w.net.rank r).phase = Threads.ahead _ (v.rank r).phase at this
      rw [hphase] at this
      cases hv : (v.rank r).phase <;> rw [hv] at this <;> simp only [Threads.ahead] at this
      · cases this
      · exact this.symm
      · cases this
      · cases this
    rw [hn]; exact .ragged r hr hph hops hw hrag

/-- C92: two threads of a rank never have before them statements that touch the same location, except
the atomic decrement of the counter of tasks. -/
theorem joint_no_race {n : Nat} {w : State D B E X} (h : Run cfg S C n w) {r g g' : Nat} (hne : g ≠ g')
    {x x' : Threads.Act E X} (hx : (w.pc r g).next = some x) (hx' : (w.pc r g').next = some x') {m : Threads.Mem}
    (hm : x.touches g m) (hm' : x'.touches g' m) : m = .counter ∧ x = .count ∧ x' = .count := by
  obtain ⟨c, v, -, M, -⟩ := h.sim L hC F hd ht
  exact M.threads.no_race hne hx hx' hm hm'

/-- C92: while a rank is between the calls of an exchange, none of its threads is in a pass, so that no
call reads or writes what a thread is working on. -/
theorem joint_calls_alone {n : Nat} {w : State D B E X} (h : Run cfg S C n w) {r : Nat}
    (hb : w.net.ops r ≠ [] ∨ w.net.waiting r ≠ none ∨ ∃ k ps got, (w.net.rank r).phase = .exchanging k ps got) (g : Nat) :
    w.pc r g = .idle := by
  obtain ⟨c, v, hr, M, -⟩ := h.sim L hC F hd ht
  obtain ⟨_, s, hrs, Q, -⟩ := hr.sim L hC F hd ht
  by_contra hp
  obtain ⟨steps, h1, -⟩ := M.threads.busy r g hp
  change (v.rank r).phase = _ at h1
  have hq := h1
  rw [Q.phase, Wire.strip_computing] at hq
  have hquiet := Q.quiet (r := r) (by rw [hq]; simp)
  have hn := M.net
  rcases hb with hb | hb | ⟨k, ps, got, hb⟩
  · refine hb ?_
    rw [hn] at hquiet; exact hquiet.1
  · refine hb ?_
    rw [hn] at hquiet; exact hquiet.2
  · have := M.threads.phase r
    rw [show ((ranks v).rank r).phase = .computing steps from h1] at this
    change (w.net.rank r).phase = _ at this
    rw [hb] at this
    cases this

/-- C92: as long as a rank has not returned some thread of some rank can go on. -/
theorem joint_no_deadlock {n : Nat} {w : State D B E X} (h : Run cfg S C n w)
    (hnf : ∃ r < cfg.nRanks, (w.net.rank r).phase ≠ .finished) : ∃ w', Step cfg S C w w' := by
  obtain ⟨c, v, hrun, M, -⟩ := h.sim L hC F hd ht
  by_cases hb : ∃ r < cfg.nRanks, ∃ g < cfg.nThreads, w.pc r g ≠ .idle
  · obtain ⟨r, hr, g, hg, hpc⟩ := hb
    cases hp : w.pc r g with
    | idle => exact absurd hp hpc
    | popped t l1 l2 => exact ⟨_, .inner (.count w.view r g t l1 l2 hr hg hp)⟩
    | running t ops =>
      cases ops with
      | nil => exact ⟨_, .inner (.done w.view r g t hr hg hp)⟩
      | cons o ops => exact ⟨_, .inner (.op w.view r g t o ops hr hg hp)⟩
  · push Not at hb
    have hsame : v.rank = w.net.rank := by
      funext r
      refine M.threads.same fun g hg => ?_
      by_cases hr : r < cfg.nRanks
      · exact hb r hr g hg
      · exact M.threads.out r g fun h => hr h.1
    have hv : v = w.net := by rw [M.net, hsame]
    subst hv
    obtain ⟨v', hs⟩ := Wire.wire_no_deadlock L hC F hd ht hrun hnf
    cases hs with
    | compute r g steps l1 l2 t hr hg h1 h2 h3 h4 =>
      exact ⟨_, .inner (.pop w.view r g steps l1 l2 t hr hg (hb r hr g hg) h1 h2 h3 h4)⟩
    | call r hr hc => exact ⟨_, .call r v' hr (hb r hr) hc⟩

/-- Bound on the number of statements and calls, with at most `K` statements in a pass. -/
def jointBound (cfg : Cfg D B) (K : Nat) : Nat := Wire.callBound cfg * (K + 3) + cfg.nRanks * cfg.nThreads

/-- C92: no execution has more statements and calls than a number that depends only on the sizes of the
problem. -/
theorem joint_terminates (hbatch : 0 < cfg.maxCompute) (hx : Crossed cfg mate) (hac : Acyclic cfg mate)
    {K : Nat} (hK : ∀ r t, (Threads.passOps S r t).length ≤ K) {n : Nat} {w : State D B E X} (h : Run cfg S C n w) :
    n ≤ jointBound cfg K := by
  obtain ⟨c, v, hrun, -, hn⟩ := h.sim L hC F hd ht
  have hb := Wire.wire_terminates L hC F hd ht hbatch hx hac hrun
  have := Nat.mul_le_mul_right (K + 3) hb
  have := hn K hK
  unfold jointBound
  omega

/-- C92: every execution can be continued to one that has returned on every rank; by
`joint_no_deadlock` and `joint_terminates` every one that goes on as long as it can has. -/
theorem joint_finishes (hbatch : 0 < cfg.maxCompute) (hx : Crossed cfg mate) (hac : Acyclic cfg mate)
    {K : Nat} (hK : ∀ r t, (Threads.passOps S r t).length ≤ K) {n : Nat} {w : State D B E X} (h : Run cfg S C n w) :
    ∃ n' w', n ≤ n' ∧ Run cfg S C n' w' ∧ ∀ r < cfg.nRanks, (w'.net.rank r).phase = .finished := by
  have key : ∀ m n (w : State D B E X), Run cfg S C n w → jointBound cfg K ≤ n + m →
      ∃ n' w', n ≤ n' ∧ Run cfg S C n' w' ∧ ∀ r < cfg.nRanks, (w'.net.rank r).phase = .finished := by
    intro m
    induction m with
    | zero =>
      intro n w h hm
      refine ⟨n, w, le_rfl, h, ?_⟩
      by_contra hno
      push Not at hno
      obtain ⟨w', hs⟩ := joint_no_deadlock L hC F hd ht h hno
      have := joint_terminates L hC F hd ht hbatch hx hac hK (h.step hs)
      omega
    | succ m ih =>
      intro n w h hm
      by_cases hno : ∃ r < cfg.nRanks, (w.net.rank r).phase ≠ .finished
      · obtain ⟨w', hs⟩ := joint_no_deadlock L hC F hd ht h hno
        obtain ⟨n', w'', h1, h2, h3⟩ := ih (n + 1) w' (h.step hs) (by omega)
        exact ⟨n', w'', by omega, h2, h3⟩
      · push Not at hno
        exact ⟨n, w, le_rfl, h, hno⟩
  exact key (jointBound cfg K) n w h (by omega)

/-- C92: when all ranks have returned no size and no byte is left in a channel, no call is outstanding
and no thread is in a pass. -/
theorem joint_quiet {n : Nat} {w : State D B E X} (h : Run cfg S C n w)
    (hf : ∀ r < cfg.nRanks, (w.net.rank r).phase = .finished) :
    (∀ q r, w.net.sizes q r = [] ∧ w.net.datas q r = []) ∧
    ∀ r < cfg.nRanks, w.net.ops r = [] ∧ w.net.waiting r = none ∧ ∀ g, w.pc r g = .idle := by
  obtain ⟨c, v, hrun, M, -⟩ := h.sim L hC F hd ht
  have hph : ∀ r, (w.net.rank r).phase = Threads.ahead (fun g => (w.pc r g).early) (v.rank r).phase := M.threads.phase
  have hf' : ∀ r < cfg.nRanks, (v.rank r).phase = .finished := by
    intro r hr
    have := hph r
    rw [hf r hr] at this
    cases hv : (v.rank r).phase <;> rw [hv] at this <;> simp only [Threads.ahead] at this
    · cases this
    · cases this
    · cases this
  obtain ⟨h1, h2⟩ := Wire.wire_quiet L hC F hd ht hrun hf'
  have hn := M.net
  constructor
  · intro q r
    have := h1 q r
    rw [hn] at this; exact this
  · intro r hr
    have := h2 r hr
    rw [hn] at this
    refine ⟨this.1, this.2, fun g => ?_⟩
    by_contra hb
    obtain ⟨steps, h1, -⟩ := M.threads.busy r g hb
    change (v.rank r).phase = _ at h1
    rw [hf' r hr] at h1
    cases h1

end

end Verif.Joint
