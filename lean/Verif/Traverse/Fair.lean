import Verif.Traverse.Props

/-!
# C21: the one-sided protocol terminates when ranks and messages are not held back for ever

Under the protocol of `sendData2Sided` and `recvData2Sided` (src/GraphTraverser.cc:184-256) a rank that
has nothing to compute goes round its loop probing for messages, so there are infinite executions: those
that never run some rank, or in which `MPI_Iprobe` never sees a message that has arrived. MPI and the
scheduler exclude both.
-/
set_option linter.unusedSectionVars false

namespace Verif.Traverse
open Classical List

variable {D B : Type}

/-! ### Specification -/

/-- Rank `r` takes a step at time `n`. (Every step changes the state of the rank that takes it.) -/
def Moves (σ : Nat → State D B) (r n : Nat) : Prop := (σ (n + 1)).rank r ≠ (σ n).rank r

/-- Rank `r` looks for a message of rank `q` at time `n`. -/
def Probes (σ : Nat → State D B) (r q n : Nat) : Prop :=
  (∃ kill ps got, ((σ n).rank r).phase = .exchanging kill (q :: ps) got) ∧ Moves σ r n

/-- An execution that goes on as long as a step is possible. -/
def Maximal (cfg : Cfg D B) (σ : Nat → State D B) : Prop :=
  σ 0 = initState cfg ∧
    ∀ n, Step cfg (σ n) (σ (n + 1)) ∨ ((¬ ∃ s, Step cfg (σ n) s) ∧ σ (n + 1) = σ n)

/-- No rank that has not returned is left alone for ever, and a message that stays is seen when it is
looked for again and again. -/
structure Fair (cfg : Cfg D B) (σ : Nat → State D B) : Prop where
  rank : ∀ r < cfg.nRanks, ∀ n, ((σ n).rank r).phase ≠ .finished → ∃ n' ≥ n, Moves σ r n'
  probe : ∀ r < cfg.nRanks, ∀ q n, (∀ n' ≥ n, (σ n').chan q r ≠ []) → (∀ m, ∃ n' ≥ m, Probes σ r q n') →
    ∃ n' ≥ n, ((σ (n' + 1)).rank r).recvd q ≠ ((σ n').rank r).recvd q

/-! ### Phases of the protocol -/

/-- What a phase can be under the one-sided protocol. -/
def CapPhase (cfg : Cfg D B) (r : Nat) (st : RankState D B) : Prop :=
  match st.phase with
  | .computing _ => True
  | .exchanging kill ps _ => kill = false ∧ ps ⊆ (cfg.mesh r).adjRanks ∧ st.sendBuf = fun _ _ => []
  | .closing => False
  | .finished => st.sendBuf = fun _ _ => []

theorem capPhase_loopTest {cfg : Cfg D B} (ht : cfg.protocol = .capsaicin) {r : Nat} {st : RankState D B}
    (hs : st.sendBuf = fun _ _ => []) {n : Nat} (hp : st.phase = loopTest cfg n) : CapPhase cfg r st := by
  unfold CapPhase
  rw [hp]
  unfold loopTest
  by_cases h0 : n > 0
  · rw [if_pos h0]; trivial
  · rw [if_neg h0, if_neg (by rw [ht]; simp)]; exact hs

theorem Reachable.capPhase {cfg : Cfg D B} (ht : cfg.protocol = .capsaicin) (hd : cfg.doComm = true)
    {s : State D B} (h : Reachable cfg s) : ∀ r, CapPhase cfg r (s.rank r) := by
  induction h with
  | init => exact fun r => capPhase_loopTest ht rfl rfl
  | @step s s' _ hs ih =>
    have key : ∀ q v, CapPhase cfg q v → ∀ r, CapPhase cfg r (setAt s.rank q v r) := by
      intro q v h r
      by_cases e : r = q
      · subst e; rw [setAt_same]; exact h
      · rw [setAt_ne _ _ e]; exact ih r
    cases hs with
    | compute q g steps l1 l2 t hr hg hphase hq htop hsteps => exact key q _ trivial
    | skip q steps hr hphase hdone hcomm => rw [hd] at hcomm; simp at hcomm
    | send q steps hr hphase hdone hcomm =>
      refine key q _ ⟨rfl, ?_, rfl⟩
      unfold sources; rw [ht]; exact fun _ h => h
    | kill q hr hphase => have := ih q; unfold CapPhase at this; rw [hphase] at this; exact this.elim
    | recv q q' kill p1 p2 got m ms hr hphase hchan hcap =>
      have := ih q; unfold CapPhase at this; rw [hphase] at this
      refine key q _ ⟨this.1, fun x hx => this.2.1 ?_, this.2.2⟩
      rw [List.mem_append] at hx ⊢
      rw [List.mem_cons]
      exact hx.imp id Or.inr
    | miss q q' kill ps got hr hphase hcap hsends =>
      have := ih q; unfold CapPhase at this; rw [hphase] at this
      exact key q _ ⟨this.1, fun x hx => this.2.1 (List.mem_cons_of_mem _ hx), this.2.2⟩
    | unpack q got hr hphase hsends =>
      have := ih q; unfold CapPhase at this; rw [hphase] at this
      refine key q _ (capPhase_loopTest ht ?_ (unpackAll_phase ..))
      rw [unpackAll_sendBuf]; exact this.2.2
    | close q got hr hphase hsends =>
      have := ih q; unfold CapPhase at this; rw [hphase] at this
      simp at this

/-! ### Progress that cannot go on for ever -/

theorem sum_setAt_gt {α : Type} (f : Nat → α) (g : α → Nat) {n r : Nat} (hr : r < n) {v : α}
    (h : g v < g (f r)) : ∑ i ∈ Finset.range n, g (setAt f r v i) < ∑ i ∈ Finset.range n, g (f i) := by
  apply Finset.sum_lt_sum
  · intro i _
    by_cases hi : i = r
    · subst hi; rw [setAt_same]; exact h.le
    · rw [setAt_ne _ _ hi]
  · exact ⟨r, Finset.mem_range.2 hr, by rw [setAt_same]; exact h⟩

theorem sum_setAt_le {α : Type} (f : Nat → α) (g : α → Nat) {n r : Nat} {v : α}
    (h : g v ≤ g (f r)) : ∑ i ∈ Finset.range n, g (setAt f r v i) ≤ ∑ i ∈ Finset.range n, g (f i) := by
  apply Finset.sum_le_sum
  intro i _
  by_cases hi : i = r
  · subst hi; rw [setAt_same]; exact h
  · rw [setAt_ne _ _ hi]

/-- A sequence of numbers that does not rise settles. -/
theorem settles (f : Nat → Nat) (N : Nat) (h : ∀ n ≥ N, f (n + 1) ≤ f n) :
    ∃ M ≥ N, ∀ n ≥ M, f (n + 1) = f n := by
  generalize hk : f N = k
  induction k using Nat.strong_induction_on generalizing N with
  | _ k ih =>
    by_cases hc : ∀ n ≥ N, f (n + 1) = f n
    · exact ⟨N, le_refl _, hc⟩
    · push Not at hc
      obtain ⟨n, hn, hne⟩ := hc
      have hle : ∀ m ≥ N, f m ≤ f N := by
        intro m hm
        induction m, hm using Nat.le_induction with
        | base => exact le_refl _
        | succ m hm ih => exact (h m hm).trans ih
      have h1 := hle n hn
      have h2 := h n hn
      obtain ⟨M, hM, hc⟩ := ih (f (n + 1)) (by omega) (n + 1) (fun m hm => h m (by omega)) rfl
      exact ⟨M, by omega, hc⟩

/-- Whether packets wait to be sent. -/
noncomputable def unsent (st : RankState D B) : Nat := if st.sendBuf = (fun _ _ => []) then 0 else 1

/-- Number of ranks with packets to be sent. -/
noncomputable def unsentRanks (cfg : Cfg D B) (s : State D B) : Nat := ∑ r ∈ Finset.range cfg.nRanks, unsent (s.rank r)

/-- Number of messages sent and not received. -/
def flying (cfg : Cfg D B) (s : State D B) : Nat :=
  ∑ q ∈ Finset.range cfg.nRanks, ∑ r ∈ Finset.range cfg.nRanks, (s.chan q r).length

noncomputable def running (st : RankState D B) : Nat := if st.phase = .finished then 0 else 1

/-- Number of ranks that have not returned. -/
noncomputable def runningRanks (cfg : Cfg D B) (s : State D B) : Nat := ∑ r ∈ Finset.range cfg.nRanks, running (s.rank r)

/-- Steps that neither compute nor send nor receive. -/
inductive Quiet (cfg : Cfg D B) (r : Nat) (st : RankState D B) : RankState D B → Prop
  | send (steps : Nat → Nat) (st' : RankState D B) (hphase : st.phase = .computing steps)
      (hdone : ∀ g < cfg.nThreads, st.queue g = [] ∨ ¬ steps g < cfg.maxCompute)
      (hp : st'.phase = .exchanging false (cfg.mesh r).adjRanks []) (hb : st'.sendBuf = fun _ _ => [])
      (hq : st'.queue = st.queue) (hrem : st'.remaining = st.remaining) (hrec : st'.recvd = st.recvd) : Quiet cfg r st st'
  | miss (q : Nat) (ps : List Nat) (got : List (Nat × Packet B)) (hphase : st.phase = .exchanging false (q :: ps) got) :
      Quiet cfg r st { st with phase := .exchanging false ps got }
  | unpack (got : List (Nat × Packet B)) (hphase : st.phase = .exchanging false [] got) :
      Quiet cfg r st (unpackAll cfg r got st)

/-- A step makes progress in one of three ways or is quiet. -/
theorem step_kinds {cfg : Cfg D B} {mate : Loc → Option Loc} (L : Linked cfg mate) (ht : cfg.protocol = .capsaicin)
    (hd : cfg.doComm = true) {s s' : State D B} (h : Reachable cfg s) (hs : Step cfg s s') :
    total s.log < total s'.log ∨
    (total s'.log = total s.log ∧ unsentRanks cfg s' < unsentRanks cfg s) ∨
    (total s'.log = total s.log ∧ unsentRanks cfg s' ≤ unsentRanks cfg s ∧ flying cfg s' < flying cfg s) ∨
    (total s'.log = total s.log ∧ unsentRanks cfg s' ≤ unsentRanks cfg s ∧ s'.chan = s.chan ∧
      ∃ r < cfg.nRanks, ∃ v, s'.rank = setAt s.rank r v ∧ Quiet cfg r (s.rank r) v) := by
  have C := h.capPhase ht hd
  cases hs with
  | compute r g steps l1 l2 t hr hg hphase hq htop hsteps =>
    left
    simp [total, isTask]
  | skip r steps hr hphase hdone hcomm => rw [hd] at hcomm; simp at hcomm
  | send r steps hr hphase hdone hcomm =>
    right
    have htg : targets cfg r (s.rank r) = (cfg.mesh r).adjRanks.filter fun q => !(outbox cfg (s.rank r) q).isEmpty := by
      unfold targets; rw [ht]
    have hsc : sources cfg r (s.rank r) = (cfg.mesh r).adjRanks := by unfold sources; rw [ht]
    by_cases hb : (s.rank r).sendBuf = fun _ _ => []
    · right; right
      have hnil : targets cfg r (s.rank r) = [] := by
        rw [htg, List.filter_eq_nil_iff]
        intro q _
        simp [outbox, hb]
      refine ⟨rfl, sum_setAt_le _ unsent (by simp [unsent]), ?_, r, hr, _, rfl, ?_⟩
      · funext a b
        simp only [hnil, post, setAt, List.not_mem_nil, if_false]
        split
        · rename_i e; rw [e]
        · rfl
      · refine .send steps _ hphase hdone ?_ rfl rfl rfl rfl
        dsimp only; rw [hsc]
    · left
      exact ⟨rfl, sum_setAt_gt _ unsent hr (by simp [unsent, hb])⟩
  | kill r hr hphase => have := C r; unfold CapPhase at this; rw [hphase] at this; exact this.elim
  | recv r q kill p1 p2 got m ms hr hphase hchan hcap =>
    right; right; left
    have := C r; unfold CapPhase at this; rw [hphase] at this
    have hq : q < cfg.nRanks := (adj_lt L hr (this.2.1 (show q ∈ p1 ++ q :: p2 by simp))).1
    refine ⟨rfl, sum_setAt_le _ unsent (le_refl _), ?_⟩
    refine sum_setAt_gt s.chan (fun f => ∑ r ∈ Finset.range cfg.nRanks, (f r).length) hq ?_
    exact sum_setAt_gt (s.chan q) List.length hr (by rw [hchan]; simp)
  | miss r q kill ps got hr hphase hcap hsends =>
    right; right; right
    have := C r; unfold CapPhase at this; rw [hphase] at this
    obtain ⟨rfl, -⟩ := this
    exact ⟨rfl, sum_setAt_le _ unsent (le_refl _), rfl, r, hr, _, rfl, .miss q ps got hphase⟩
  | unpack r got hr hphase hsends =>
    right; right; right
    refine ⟨?_, sum_setAt_le _ unsent (by unfold unsent; rw [unpackAll_sendBuf]), rfl, r, hr, _, rfl, .unpack got hphase⟩
    unfold total
    rw [List.countP_append, Nat.add_eq_left, List.countP_eq_zero]
    intro e he
    obtain ⟨p, -, rfl⟩ := List.mem_map.1 he
    simp [isTask]
  | close r got hr hphase hsends =>
    have := C r; unfold CapPhase at this; rw [hphase] at this
    simp at this

/-! ### The end of an infinite execution -/

theorem Quiet.unfinished {cfg : Cfg D B} {r : Nat} {st st' : RankState D B} (h : Quiet cfg r st st') : st.phase ≠ .finished := by
  cases h with
  | send steps _ hphase => rw [hphase]; simp
  | miss q ps got hphase => rw [hphase]; simp
  | unpack got hphase => rw [hphase]; simp

/-- From some time on only quiet steps are taken and no rank returns any more. -/
structure Tail (cfg : Cfg D B) (σ : Nat → State D B) (N : Nat) : Prop where
  chan : ∀ n ≥ N, (σ n).chan = (σ N).chan
  quiet : ∀ n ≥ N, ∃ r < cfg.nRanks, ∃ v, (σ (n + 1)).rank = setAt (σ n).rank r v ∧
    Quiet cfg r ((σ n).rank r) v ∧ v.phase ≠ .finished

theorem exists_tail {cfg : Cfg D B} {mate : Loc → Option Loc} (L : Linked cfg mate) (ht : cfg.protocol = .capsaicin)
    (hd : cfg.doComm = true) {σ : Nat → State D B} (h0 : σ 0 = initState cfg) (hs : ∀ n, Step cfg (σ n) (σ (n + 1))) :
    ∃ N, Tail cfg σ N := by
  have hR : ∀ n, Reachable cfg (σ n) := by
    intro n
    induction n with
    | zero => rw [h0]; exact .init
    | succ n ih => exact ih.step (hs n)
  have hk := fun n => step_kinds L ht hd (hR n) (hs n)
  have hb := fun n => total_le L (hR n)
  obtain ⟨N1, -, h1⟩ := settles (fun n => cfg.tasks - total (σ n).log) 0 (fun n _ => by
    rcases hk n with h | h | h | h <;> omega)
  have e1 : ∀ n ≥ N1, ¬ total (σ n).log < total (σ (n + 1)).log := by
    intro n hn h
    have := h1 n hn
    have := hb n
    have := hb (n + 1)
    omega
  obtain ⟨N2, hN2, h2⟩ := settles (fun n => unsentRanks cfg (σ n)) N1 (fun n hn => by
    have := e1 n hn
    rcases hk n with h | h | h | h <;> omega)
  obtain ⟨N3, hN3, h3⟩ := settles (fun n => flying cfg (σ n)) N2 (fun n hn => by
    have := e1 n (by omega)
    have := h2 n hn
    rcases hk n with h | h | h | ⟨-, -, h, -⟩
    · omega
    · omega
    · omega
    · unfold flying; rw [h])
  have hq : ∀ n ≥ N3, (σ (n + 1)).chan = (σ n).chan ∧
      ∃ r < cfg.nRanks, ∃ v, (σ (n + 1)).rank = setAt (σ n).rank r v ∧ Quiet cfg r ((σ n).rank r) v := by
    intro n hn
    have := e1 n (by omega)
    have := h2 n (by omega)
    have := h3 n (by omega)
    rcases hk n with h | h | h | ⟨-, -, h, h'⟩
    · omega
    · omega
    · omega
    · exact ⟨h, h'⟩
  obtain ⟨N4, hN4, h4⟩ := settles (fun n => runningRanks cfg (σ n)) N3 (fun n hn => by
    obtain ⟨-, r, hr, v, he, hv⟩ := hq n hn
    unfold runningRanks
    rw [he]
    refine sum_setAt_le _ running ?_
    unfold running
    rw [if_neg hv.unfinished]
    split <;> omega)
  refine ⟨N4, ⟨?_, ?_⟩⟩
  · intro n hn
    induction n, hn using Nat.le_induction with
    | base => rfl
    | succ n hn ih => rw [(hq n (by omega)).1, ih]
  · intro n hn
    obtain ⟨-, r, hr, v, he, hv⟩ := hq n (by omega)
    refine ⟨r, hr, v, he, hv, ?_⟩
    intro hf
    have h := h4 n hn
    unfold runningRanks at h
    rw [he] at h
    refine absurd h (ne_of_lt (sum_setAt_gt _ running hr ?_))
    unfold running
    rw [if_pos hf, if_neg hv.unfinished]
    exact Nat.zero_lt_one

/-- Nothing to compute, to send or to unpack. -/
def Still (cfg : Cfg D B) (st : RankState D B) : Prop :=
  (st.sendBuf = fun _ _ => []) ∧ (∀ g < cfg.nThreads, st.queue g = []) ∧ 0 < st.remaining ∧
    ((∃ steps, st.phase = .computing steps) ∨ ∃ ps, st.phase = .exchanging false ps [])

theorem unpackAll_nil (cfg : Cfg D B) (r : Nat) (st : RankState D B) :
    unpackAll cfg r [] st = { st with phase := loopTest cfg st.remaining } := rfl

section tail
variable {cfg : Cfg D B} {σ : Nat → State D B} {N : Nat} (T : Tail cfg σ N) (F : Fair cfg σ)
include T F

/-- The step of rank `r` at `n`, if it takes one. -/
theorem Tail.at_step {n : Nat} (hn : n ≥ N) (r : Nat) : (σ (n + 1)).rank r = (σ n).rank r ∨
    (Quiet cfg r ((σ n).rank r) ((σ (n + 1)).rank r) ∧ ((σ (n + 1)).rank r).phase ≠ .finished) := by
  obtain ⟨q, -, v, he, hv, hf⟩ := T.quiet n hn
  rw [he]
  by_cases e : r = q
  · subst e; rw [setAt_same]; exact Or.inr ⟨hv, hf⟩
  · rw [setAt_ne _ _ e]; exact Or.inl rfl

theorem Tail.stays {r : Nat} (hr : ((σ N).rank r).phase ≠ .finished) : ∀ n ≥ N, ((σ n).rank r).phase ≠ .finished := by
  intro n hn
  induction n, hn using Nat.le_induction with
  | base => exact hr
  | succ n hn ih =>
    rcases T.at_step F hn r with h | h
    · rw [h]; exact ih
    · exact h.2

theorem Tail.next {r : Nat} (hrn : r < cfg.nRanks) (hr : ((σ N).rank r).phase ≠ .finished) {n : Nat} (hn : n ≥ N) :
    ∃ n' ≥ n, (σ n').rank r = (σ n).rank r ∧ Quiet cfg r ((σ n').rank r) ((σ (n' + 1)).rank r) ∧
      ((σ (n' + 1)).rank r).phase ≠ .finished := by
  have hex : ∃ k, Moves σ r (n + k) := by
    obtain ⟨n', hn', h⟩ := F.rank r hrn n (T.stays F hr n hn)
    exact ⟨n' - n, by rw [Nat.add_sub_cancel' hn']; exact h⟩
  have hmin : ∀ k ≤ Nat.find hex, (σ (n + k)).rank r = (σ n).rank r := by
    intro k
    induction k with
    | zero => intro _; rfl
    | succ k ih =>
      intro hk
      have := Nat.find_min hex (show k < Nat.find hex by omega)
      unfold Moves at this
      rw [not_not] at this
      rw [← Nat.add_assoc, this, ih (by omega)]
  have hm := Nat.find_spec hex
  refine ⟨n + Nat.find hex, by omega, hmin _ (le_refl _), ?_⟩
  rcases T.at_step F (n := n + Nat.find hex) (by omega) r with h | h
  · exact absurd h hm
  · exact h

variable {r : Nat} (hrn : r < cfg.nRanks) (hr : ((σ N).rank r).phase ≠ .finished)
include hrn hr

theorem Tail.to_idle (ps : List Nat) (got : List (Nat × Packet B)) {n : Nat} (hn : n ≥ N)
    (hp : ((σ n).rank r).phase = .exchanging false ps got) :
    ∃ n' ≥ n, (σ n').rank r = { (σ n).rank r with phase := .exchanging false [] got } := by
  induction ps generalizing n with
  | nil => exact ⟨n, le_refl _, by rw [← hp]⟩
  | cons q ps ih =>
    obtain ⟨n1, h1, e1, hq, -⟩ := T.next F hrn hr hn
    rw [e1] at hq
    generalize hst : (σ (n1 + 1)).rank r = st' at hq
    cases hq with
    | send steps _ hphase => rw [hp] at hphase; simp at hphase
    | unpack got' hphase => rw [hp] at hphase; simp at hphase
    | miss q' ps' got' hphase =>
      rw [hp] at hphase
      simp only [Phase.exchanging.injEq, List.cons.injEq, true_and] at hphase
      obtain ⟨⟨rfl, rfl⟩, rfl⟩ := hphase
      obtain ⟨n2, h2, e2⟩ := ih (n := n1 + 1) (by omega) (by rw [hst])
      exact ⟨n2, by omega, by rw [e2, hst]⟩

theorem Tail.to_probe {q : Nat} (ps : List Nat) (hq : q ∈ ps) (got : List (Nat × Packet B)) {n : Nat} (hn : n ≥ N)
    (hp : ((σ n).rank r).phase = .exchanging false ps got) : ∃ n' ≥ n, Probes σ r q n' := by
  induction ps generalizing n with
  | nil => simp at hq
  | cons q0 ps ih =>
    obtain ⟨n1, h1, e1, hqt, -⟩ := T.next F hrn hr hn
    rw [e1] at hqt
    generalize hst : (σ (n1 + 1)).rank r = st' at hqt
    cases hqt with
    | send steps _ hphase => rw [hp] at hphase; simp at hphase
    | unpack got' hphase => rw [hp] at hphase; simp at hphase
    | miss q' ps' got' hphase =>
      rw [hp] at hphase
      simp only [Phase.exchanging.injEq, List.cons.injEq, true_and] at hphase
      obtain ⟨⟨rfl, rfl⟩, rfl⟩ := hphase
      by_cases e : q = q0
      · subst e
        refine ⟨n1, h1, ⟨false, ps, got, by rw [e1, hp]⟩, ?_⟩
        unfold Moves
        rw [hst, e1]
        intro h
        have := congrArg RankState.phase h
        rw [hp] at this
        simp at this
      · obtain ⟨n2, h2, e2⟩ := ih (by simpa [e] using hq) (n := n1 + 1) (by omega) (by rw [hst])
        exact ⟨n2, by omega, e2⟩

/-- The rank comes back to the top of its loop. -/
theorem Tail.unpacked (ht : cfg.protocol = .capsaicin) (ps : List Nat) (got : List (Nat × Packet B)) {n : Nat} (hn : n ≥ N)
    (hp : ((σ n).rank r).phase = .exchanging false ps got) :
    ∃ n' ≥ n, (σ n').rank r = unpackAll cfg r got { (σ n).rank r with phase := .exchanging false [] got } ∧
      ((σ n').rank r).phase = .computing (fun _ => 0) ∧ 0 < ((σ n').rank r).remaining := by
  obtain ⟨n1, h1, e1⟩ := T.to_idle F hrn hr ps got hn hp
  obtain ⟨n2, h2, e2, hq, hf⟩ := T.next F hrn hr (n := n1) (by omega)
  rw [e2, e1] at hq
  generalize hst : (σ (n2 + 1)).rank r = st' at hq hf
  cases hq with
  | send steps _ hphase => simp at hphase
  | miss q ps got' hphase => simp at hphase
  | unpack got' hphase =>
    simp only [Phase.exchanging.injEq, true_and] at hphase
    subst hphase
    have hl := unpackAll_phase cfg r got { (σ n).rank r with phase := .exchanging false [] got }
    have hrem := unpackAll_remaining cfg r got { (σ n).rank r with phase := .exchanging false [] got }
    refine ⟨n2 + 1, by omega, hst, ?_⟩
    rw [hst]
    rw [hl] at hf ⊢
    rw [hrem]
    dsimp only at hf ⊢
    unfold loopTest at hf ⊢
    by_cases h0 : ((σ n).rank r).remaining > 0
    · rw [if_pos h0]; exact ⟨rfl, h0⟩
    · rw [if_neg h0, if_neg (by rw [ht]; simp)] at hf
      exact absurd rfl hf

/-- The rank begins an exchange. -/
theorem Tail.sent {steps : Nat → Nat} {n : Nat} (hn : n ≥ N) (hp : ((σ n).rank r).phase = .computing steps) :
    ∃ n' ≥ n, (∀ g < cfg.nThreads, ((σ n).rank r).queue g = [] ∨ ¬ steps g < cfg.maxCompute) ∧
      ((σ n').rank r).phase = .exchanging false (cfg.mesh r).adjRanks [] ∧ (((σ n').rank r).sendBuf = fun _ _ => []) ∧
      ((σ n').rank r).queue = ((σ n).rank r).queue ∧ ((σ n').rank r).remaining = ((σ n).rank r).remaining := by
  obtain ⟨n1, h1, e1, hq, -⟩ := T.next F hrn hr hn
  rw [e1] at hq
  generalize hst : (σ (n1 + 1)).rank r = st' at hq
  cases hq with
  | miss q ps got' hphase => rw [hp] at hphase; simp at hphase
  | unpack got' hphase => rw [hp] at hphase; simp at hphase
  | send steps' _ hphase hdone hp' hb hq hrem hrec =>
    rw [hp] at hphase
    simp only [Phase.computing.injEq] at hphase
    subst hphase
    exact ⟨n1 + 1, by omega, hdone, by rw [hst, hp'], by rw [hst, hb], by rw [hst, hq], by rw [hst, hrem]⟩

/-- Again and again the rank begins an exchange. -/
theorem Tail.again (ht : cfg.protocol = .capsaicin) (C : ∀ n, CapPhase cfg r ((σ n).rank r)) {n : Nat} (hn : n ≥ N) :
    ∃ n' ≥ n, ((σ n').rank r).phase = .exchanging false (cfg.mesh r).adjRanks [] ∧ (((σ n').rank r).sendBuf = fun _ _ => []) := by
  rcases hp : ((σ n).rank r).phase with steps | ⟨k, ps, got⟩ | _ | _
  · obtain ⟨n1, h1, -, h2, h3, -⟩ := T.sent F hrn hr hn hp
    exact ⟨n1, h1, h2, h3⟩
  · have := C n; unfold CapPhase at this; rw [hp] at this
    obtain ⟨rfl, -⟩ := this
    obtain ⟨n1, h1, -, e1, -⟩ := T.unpacked F hrn hr ht ps got hn hp
    obtain ⟨n2, h2, -, e2, e3, -⟩ := T.sent F hrn hr (n := n1) (by omega) e1
    exact ⟨n2, by omega, e2, e3⟩
  · have := C n; unfold CapPhase at this; rw [hp] at this
    exact this.elim
  · exact absurd hp (T.stays F hr n hn)

/-- No message waits for the rank. -/
theorem Tail.no_message (ht : cfg.protocol = .capsaicin) (C : ∀ n, CapPhase cfg r ((σ n).rank r)) {q : Nat}
    (hq : q ∈ (cfg.mesh r).adjRanks) : (σ N).chan q r = [] := by
  by_contra hne
  obtain ⟨n, hn, h⟩ := F.probe r hrn q N (fun n' hn' => by rw [T.chan n' hn']; exact hne) (fun m => by
    obtain ⟨n1, h1, e1, -⟩ := T.again F hrn hr ht C (n := max m N) (le_max_right _ _)
    obtain ⟨n2, h2, h3⟩ := T.to_probe F hrn hr _ hq [] (n := n1) (by omega) e1
    exact ⟨n2, by omega, h3⟩)
  rcases T.at_step F hn r with e | ⟨hqt, -⟩
  · rw [e] at h; exact h rfl
  · generalize (σ (n + 1)).rank r = st' at *
    cases hqt with
    | send steps _ hphase hdone hp' hb hq hrem hrec => rw [hrec] at h; exact h rfl
    | miss q ps got hphase => exact h rfl
    | unpack got hphase => rw [unpackAll_recvd] at h; exact h rfl

theorem Tail.still (ht : cfg.protocol = .capsaicin) (hb : 0 < cfg.maxCompute) (C : ∀ n, CapPhase cfg r ((σ n).rank r)) :
    ∃ M ≥ N, ∀ n ≥ M, Still cfg ((σ n).rank r) := by
  obtain ⟨n1, h1, e1, b1⟩ := T.again F hrn hr ht C (n := N) (le_refl _)
  obtain ⟨n2, h2, e2, p2, r2⟩ := T.unpacked F hrn hr ht _ _ h1 e1
  obtain ⟨n3, h3, d3, p3, b3, q3, r3⟩ := T.sent F hrn hr (n := n2) (by omega) p2
  have hq : ∀ g < cfg.nThreads, ((σ n3).rank r).queue g = [] := by
    intro g hg
    rw [q3]
    exact (d3 g hg).resolve_right (fun h => h hb)
  refine ⟨n3, by omega, ?_⟩
  intro n hn
  induction n, hn using Nat.le_induction with
  | base => exact ⟨b3, hq, by rw [r3]; exact r2, Or.inr ⟨_, p3⟩⟩
  | succ n hn ih =>
    rcases T.at_step F (n := n) (by omega) r with e | ⟨hqt, hf⟩
    · rw [e]; exact ih
    · obtain ⟨i1, i2, i3, i4⟩ := ih
      generalize (σ (n + 1)).rank r = st' at *
      cases hqt with
      | send steps _ hphase hdone hp' hb hq hrem hrec =>
        exact ⟨hb, by rw [hq]; exact i2, by rw [hrem]; exact i3, Or.inr ⟨_, hp'⟩⟩
      | miss q ps got hphase =>
        rcases i4 with ⟨steps, h⟩ | ⟨ps', h⟩ <;> rw [hphase] at h
        · simp at h
        · simp only [Phase.exchanging.injEq, true_and] at h
          rw [h.2]
          exact ⟨i1, i2, i3, Or.inr ⟨_, rfl⟩⟩
      | unpack got hphase =>
        rcases i4 with ⟨steps, h⟩ | ⟨ps', h⟩ <;> rw [hphase] at h
        · simp at h
        · simp only [Phase.exchanging.injEq, true_and] at h
          rw [h.2, unpackAll_nil]
          refine ⟨i1, i2, i3, Or.inl ⟨fun _ => 0, ?_⟩⟩
          dsimp only
          unfold loopTest
          rw [if_pos i3]

end tail

/-- C21: no infinite execution of the one-sided protocol is fair. -/
theorem capsaicin_no_fair_loop {cfg : Cfg D B} {mate : Loc → Option Loc} (L : Linked cfg mate)
    (hbatch : 0 < cfg.maxCompute) (ht : cfg.protocol = .capsaicin) (hd : cfg.doComm = true)
    (hx : Crossed cfg mate) (hac : Acyclic cfg mate) {σ : Nat → State D B} (h0 : σ 0 = initState cfg) (F : Fair cfg σ) :
    ¬ ∀ n, Step cfg (σ n) (σ (n + 1)) := by
  intro hs
  obtain ⟨N, T⟩ := exists_tail L ht hd h0 hs
  have hR : ∀ n, Reachable cfg (σ n) := by
    intro n
    induction n with
    | zero => rw [h0]; exact .init
    | succ n ih => exact ih.step (hs n)
  have C := fun n => (hR n).capPhase ht hd
  have hstill : ∀ k, ∃ M ≥ N, ∀ r < k, r < cfg.nRanks → ((σ N).rank r).phase ≠ .finished → ∀ n ≥ M, Still cfg ((σ n).rank r) := by
    intro k
    induction k with
    | zero => exact ⟨N, le_refl _, by intro r hr; omega⟩
    | succ k ih =>
      obtain ⟨M, hM, h⟩ := ih
      by_cases hk : k < cfg.nRanks ∧ ((σ N).rank k).phase ≠ .finished
      · obtain ⟨M', hM', h'⟩ := T.still F hk.1 hk.2 ht hbatch (fun n => C n k)
        refine ⟨max M M', by omega, ?_⟩
        intro r hr hrn hf n hn
        by_cases e : r = k
        · subst e; exact h' n (by omega)
        · exact h r (by omega) hrn hf n (by omega)
      · refine ⟨M, hM, ?_⟩
        intro r hr hrn hf n hn
        by_cases e : r = k
        · subst e; exact absurd ⟨hrn, hf⟩ hk
        · exact h r (by omega) hrn hf n hn
  obtain ⟨M, hM, hst⟩ := hstill cfg.nRanks
  have hst := fun r hr hf => hst r hr hr hf M (le_refl _)
  have I := (hR M).inv L
  -- finished ranks have done everything
  have hfin : ∀ r < cfg.nRanks, ((σ N).rank r).phase = .finished → ((σ M).rank r).phase = .finished := by
    intro r hr hf
    have : ∀ n ≥ N, ((σ n).rank r).phase = .finished := by
      intro n hn
      induction n, hn using Nat.le_induction with
      | base => exact hf
      | succ n hn ih =>
        rcases T.at_step F hn r with e | ⟨hqt, -⟩
        · rw [e]; exact ih
        · exact absurd ih hqt.unfinished
    exact this M hM
  -- somebody is unfinished
  obtain ⟨r0, hr0, v, -, hqt, -⟩ := T.quiet N (le_refl _)
  have hu0 := hqt.unfinished
  have hnc : ¬ Complete cfg (σ M).log := by
    intro hc
    have h1 := (hst r0 hr0 hu0).2.2.1
    have h2 := I.rem r0 hr0
    have h3 : cfg.nAngles * (cfg.mesh r0).nCells ≤ ucount (σ M).log r0 := by
      rw [← length_tasksOf]
      refine le_trans ?_ (List.toFinset_card_le _)
      rw [Nat.mul_comm, ← Finset.card_range (cfg.mesh r0).nCells, ← Finset.card_range cfg.nAngles, ← Finset.card_product]
      apply Finset.card_le_card
      rintro ⟨c, a⟩ h
      rw [Finset.mem_product, Finset.mem_range, Finset.mem_range] at h
      rw [List.mem_toFinset, mem_tasksOf]
      exact hc r0 c a hr0 h.1 (by simpa using h.2)
    omega
  obtain ⟨r, c, a, hr, hc, ha, hnd, hall⟩ := some_task_ready L hac hnc
  have hu : ((σ N).rank r).phase ≠ .finished := by
    intro hf
    exact hnd (I.done_of_rem L hr (I.over r hr (by rw [hfin r hr hf]; trivial)) hc ha)
  obtain ⟨-, hqe, -, hph⟩ := hst r hr hu
  have hopen : open_ cfg r (Arr cfg mate (σ M).log r) c a = ∅ := by
    rw [Finset.eq_empty_iff_forall_notMem]
    intro f hf
    simp only [open_, Finset.mem_filter, Finset.mem_univ, true_and] at hf
    obtain ⟨hcnt, harr⟩ := hf
    have hin : cfg.In ⟨r, c, f⟩ := ⟨hr, hc⟩
    have hn := (counts_iff L hin).1 hcnt
    obtain ⟨hi, y, hy, hcomm⟩ := hn
    have hdone := hall f y hy ⟨hi, y, hy, hcomm⟩
    have hout := hx _ y a hin hy ha hi
    have hyin := L.mate_in _ y hin hy
    have hys := L.mate_symm _ y hin hy
    apply harr
    refine ⟨y, hy, hout, ?_⟩
    by_cases e : y.rank = r
    · exact Or.inl ⟨e, by rw [← e]; exact hdone⟩
    · refine Or.inr ⟨e, ?_⟩
      have hcount := I.count y ⟨r, c, f⟩ a hyin hys (Ne.symm e) ha hd hout
      rw [if_pos hdone] at hcount
      have hbuf : ((σ M).rank y.rank).sendBuf = fun _ _ => [] := by
        by_cases hfy : ((σ N).rank y.rank).phase = .finished
        · have := C M y.rank; unfold CapPhase at this; rw [hfin _ hyin.1 hfy] at this; exact this
        · exact (hst _ hyin.1 hfy).1
      have hadj : y.rank ∈ (cfg.mesh r).adjRanks := mem_adjRanks L hin hy e
      have hch : (σ M).chan y.rank r = [] := by
        rw [T.chan M hM]
        exact T.no_message F hr hu ht (fun n => C n r) hadj
      have hgot : gotFrom ((σ M).rank r).phase y.rank = [] := by
        rcases hph with ⟨steps, h⟩ | ⟨ps, h⟩ <;> rw [h] <;> rfl
      have htr : transit cfg (σ M) y.rank r = [] := by
        unfold transit outbox
        rw [hbuf, hch, hgot]
        simp
      dsimp only at hcount
      rw [htr] at hcount
      rw [delivered_iff]
      have : pcount ([] : List (Packet B)) (cfg.gs y) a = 0 := rfl
      omega
  have hcnt := (I.ri r hr).count c hc a ha
  rw [if_pos ⟨hopen, hnd⟩, hqe _ (group_lt L.threads ha)] at hcnt
  simp [qcount] at hcnt

/-- C21: every fair execution of the one-sided protocol with buffered sends returns on all ranks. -/
theorem capsaicin_finishes {cfg : Cfg D B} {mate : Loc → Option Loc} (L : Linked cfg mate)
    (hbatch : 0 < cfg.maxCompute) (ht : cfg.protocol = .capsaicin) (hd : cfg.doComm = true) (hb : cfg.rendezvous = false)
    (hx : Crossed cfg mate) (hac : Acyclic cfg mate) {σ : Nat → State D B} (hm : Maximal cfg σ) (F : Fair cfg σ) :
    ∃ n, ∀ n' ≥ n, ∀ r < cfg.nRanks, ((σ n').rank r).phase = .finished := by
  have hn := capsaicin_no_fair_loop L hbatch ht hd hx hac hm.1 F
  rw [not_forall] at hn
  obtain ⟨n, hn⟩ := hn
  obtain ⟨hstuck, -⟩ := (hm.2 n).resolve_left hn
  have hall : ∀ r < cfg.nRanks, ((σ n).rank r).phase = .finished := by
    intro r hr
    by_contra hnf
    exact hstuck (capsaicin_no_deadlock ht hb hr hnf)
  have hconst : ∀ n' ≥ n, σ n' = σ n := by
    intro n' hn'
    induction n', hn' using Nat.le_induction with
    | base => rfl
    | succ m hm' ih =>
      rcases hm.2 m with h | ⟨-, h⟩
      · rw [ih] at h; exact absurd ⟨_, h⟩ hstuck
      · rw [h, ih]
  exact ⟨n, fun n' hn' r hr => by rw [hconst n' hn']; exact hall r hr⟩

/-- C21, both protocols together. What is missing from the full statement is the one-sided protocol with
sends that complete only when they are received, for which it is false (`capsaicin_deadlock`). -/
theorem traverse_returns_partial {cfg : Cfg D B} {mate : Loc → Option Loc} (L : Linked cfg mate)
    (hbatch : 0 < cfg.maxCompute) (hb : cfg.doComm = true → cfg.protocol = .capsaicin → cfg.rendezvous = false)
    (hx : Crossed cfg mate) (hac : Acyclic cfg mate) {σ : Nat → State D B} (hm : Maximal cfg σ) (F : Fair cfg σ) :
    ∃ n, ∀ n' ≥ n, ∀ r < cfg.nRanks, ((σ n').rank r).phase = .finished := by
  by_cases hcap : cfg.doComm = true ∧ cfg.protocol = .capsaicin
  · exact capsaicin_finishes L hbatch hcap.2 hcap.1 (hb hcap.1 hcap.2) hx hac hm F
  · have hproto : cfg.doComm = true → cfg.protocol = .tycho := by
      intro hd
      cases hp : cfg.protocol with
      | tycho => rfl
      | capsaicin => exact absurd ⟨hd, hp⟩ hcap
    -- some step is not taken
    have hex : ∃ n, ¬ Step cfg (σ n) (σ (n + 1)) := by
      by_contra hno
      push Not at hno
      have hrun : ∀ n, Run cfg n (initState cfg) (σ n) := by
        intro n
        induction n with
        | zero => rw [hm.1]; exact .nil _
        | succ n ih => exact ih.snoc (hno n)
      have := traverse_terminates L hbatch hproto hx hac (hrun (stepBound cfg cfg.allCells + 1))
      omega
    have hR : ∀ n, Reachable cfg (σ n) := by
      intro n
      induction n with
      | zero => rw [hm.1]; exact .init
      | succ n ih =>
        rcases hm.2 n with h | ⟨-, h⟩
        · exact ih.step h
        · rw [h]; exact ih
    obtain ⟨n, hn⟩ := hex
    obtain ⟨hstuck, -⟩ := (hm.2 n).resolve_left hn
    have hall : ∀ r < cfg.nRanks, ((σ n).rank r).phase = .finished := by
      by_contra hnf
      push Not at hnf
      exact hstuck (traverse_no_deadlock L hproto (hR n) hnf)
    have hconst : ∀ n' ≥ n, σ n' = σ n := by
      intro n' hn'
      induction n', hn' using Nat.le_induction with
      | base => rfl
      | succ m hm' ih =>
        rcases hm.2 m with h | ⟨-, h⟩
        · rw [ih] at h; exact absurd ⟨_, h⟩ hstuck
        · rw [h, ih]
    exact ⟨n, fun n' hn' r hr => by rw [hconst n' hn']; exact hall r hr⟩

/-- Executions that return are fair. -/
theorem fair_of_finished {cfg : Cfg D B} {σ : Nat → State D B} {n : Nat}
    (hf : ∀ n' ≥ n, σ n' = σ n) (hall : ∀ r < cfg.nRanks, ((σ n).rank r).phase = .finished) : Fair cfg σ where
  rank := by
    intro r hr m hnf
    by_contra hno
    push Not at hno
    have : ∀ k, (σ (m + k)).rank r = (σ m).rank r := by
      intro k
      induction k with
      | zero => rfl
      | succ k ih =>
        have := hno (m + k) (by omega)
        unfold Moves at this
        rw [not_not] at this
        rw [← Nat.add_assoc, this, ih]
    have h1 := this n
    rw [hf (m + n) (by omega)] at h1
    rw [← h1] at hnf
    exact hnf (hall r hr)
  probe := by
    intro r hr q m _ hp
    obtain ⟨n', hn', -, hmv⟩ := hp n
    unfold Moves at hmv
    rw [hf n' hn', hf (n' + 1) (by omega)] at hmv
    exact absurd rfl hmv

end Verif.Traverse
