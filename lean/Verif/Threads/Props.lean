import Verif.Threads.Steps
import Verif.Traverse.Props

/-!
# C91: the threads of a rank do not race, and passes may be taken as atomic

Everything proved in `Verif.Traverse` about whole passes holds for the program whose threads interleave
statement by statement.
-/

set_option linter.unusedSectionVars false

namespace Verif.Threads

open Verif.Traverse

variable {D B E X : Type} {cfg : Cfg D B} {S : Slices cfg E X}

theorem Run.sim {n : Nat} {w : State D B E X} (h : Run cfg S n w) :
    ∃ c s, Traverse.Run cfg c (Traverse.initState cfg) s ∧ Sim S w s ∧ ∀ K, (∀ r t, (passOps S r t).length ≤ K) →
      n + pot cfg w.pc ≤ c * (K + 3) + cfg.nRanks * cfg.nThreads := by
  induction h with
  | init =>
    refine ⟨0, _, .nil _, Sim.init cfg S, fun K _ => ?_⟩
    simp [pot, initState, Pc.owed]
  | step _ hs ih =>
    obtain ⟨c, s, hr, M, hn⟩ := ih
    rcases M.step (reachable_grouped (hr.reachable .init)) hs with ⟨M', hp⟩ | ⟨s', hst, M', hp⟩
    · exact ⟨c, s, hr, M', fun K hK => by have := hn K hK; omega⟩
    · refine ⟨c + 1, s', hr.snoc hst, M', fun K hK => ?_⟩
      have h1 := hn K hK
      have h2 := hp K hK
      rw [Nat.succ_mul]
      omega

/-- C91: whatever the interleaving of the statements of the threads, some execution with whole passes
makes the same calls into `TraverseData` in the same order, sends the same messages and leaves the same
variables on every rank none of whose threads is in a pass, in particular on every rank that is outside
of the parallel region or has returned. So all that holds for executions with whole passes holds for
the threads. -/
theorem threads_refine {n : Nat} {w : State D B E X} (h : Run cfg S n w) :
    ∃ s, Reachable cfg s ∧ w.log = s.log ∧ w.chan = s.chan ∧
      (∀ r, (∀ g < cfg.nThreads, w.pc r g = .idle) → w.rank r = s.rank r) ∧
      (∀ r, (∀ steps, (w.rank r).phase ≠ .computing steps) → w.rank r = s.rank r) ∧
      ∀ r, (w.rank r).phase = .finished ↔ (s.rank r).phase = .finished := by
  obtain ⟨c, s, hr, M, -⟩ := h.sim
  refine ⟨s, hr.reachable .init, M.log, M.chan, fun r hi => (M.same hi).symm, fun r hp => ?_, fun r => ?_⟩
  · refine (M.same fun g _ => ?_).symm
    by_contra hb
    obtain ⟨steps, h1, -⟩ := M.busy r g hb
    have := M.phase r
    rw [h1] at this
    exact hp _ this
  · rw [M.phase r]
    cases (s.rank r).phase <;> simp [ahead]

/-- C91: a thread in a pass has before it the values of its angle that whole passes would have given:
when it is about to execute the first statement of `update`, no statement of another pass of that
angle is outstanding. -/
theorem threads_input {n : Nat} {w : State D B E X} (h : Run cfg S n w) :
    ∃ s, Reachable cfg s ∧ w.log = s.log ∧ ∀ r g t l1 l2, w.pc r g = .popped t l1 l2 →
      ∀ a, cfg.group a = g → S.get (w.rank r).data a = S.get (s.rank r).data a ∧ (w.rank r).numDeps a = (s.rank r).numDeps a := by
  obtain ⟨c, s, hr, M, -⟩ := h.sim
  refine ⟨s, hr.reachable .init, M.log, fun r g t l1 l2 hpc a ha => ?_⟩
  have := M.part r g
  rw [hpc] at this
  exact ⟨(this.data a ha).symm, (this.deps a ha).symm⟩

/-- C91: every task is computed at most once and in order, and on a rank that has returned exactly
once. -/
theorem threads_once_in_order {mate : Loc → Option Loc} (L : Linked cfg mate) {n : Nat} {w : State D B E X}
    (h : Run cfg S n w) :
    (∀ r c a, w.log.countP (fun e => e.task = some (r, c, a)) ≤ 1) ∧ Ordered cfg mate w.log ∧
    ∀ r < cfg.nRanks, (w.rank r).phase = .finished → ∀ c < (cfg.mesh r).nCells, ∀ a < cfg.nAngles,
      w.log.countP (fun e => e.task = some (r, c, a)) = 1 := by
  obtain ⟨s, hr, hl, -, -, -, hf⟩ := threads_refine h
  rw [hl]
  exact ⟨(traverse_once_in_order L hr).1, (traverse_once_in_order L hr).2, fun r hlt hfr c hc a ha =>
    traverse_finished_once L hr hlt ((hf r).1 hfr) hc ha⟩

/-! ## No data race -/

/-- What `Op.touches` says is true: a statement changes no other location, and what it writes is
determined by those locations. -/
theorem touches_sound (r g : Nat) (o : Op E X) :
    (∀ (p : RankState D B × (Nat → X)) m, ¬ o.touches g m → m.Same S (after S r g p o) p) ∧
    ∀ p p' : RankState D B × (Nat → X), (∀ m, o.touches g m → m.Same S p p') →
      ∀ m, o.touches g m → m.Same S (after S r g p o) (after S r g p' o) := by
  cases o with
  | work a f =>
    constructor
    · intro p m hm
      simp only [Op.touches, not_or] at hm
      cases m with
      | slice a' =>
        have : a' ≠ a := fun h => hm.1 (by rw [h])
        exact S.get_set_ne _ _ _ _ this
      | scratch g' =>
        have : g' ≠ g := fun h => hm.2 (by rw [h])
        exact setAt_ne _ _ this
      | _ => rfl
    · intro p p' hs m hm
      have h1 : S.get p.1.data a = S.get p'.1.data a := hs (.slice a) (Or.inl rfl)
      have h2 : p.2 g = p'.2 g := hs (.scratch g) (Or.inr rfl)
      rcases hm with rfl | rfl
      · show S.get (S.set _ _ _) a = S.get (S.set _ _ _) a
        rw [S.get_set_same, S.get_set_same, h1, h2]
      · show setAt _ g _ g = setAt _ g _ g
        rw [setAt_same, setAt_same]
        simp only [exec, h1, h2]
  | lower a c =>
    constructor
    · intro p m hm
      simp only [Op.touches] at hm
      cases m with
      | deps a' c' =>
        simp only [Mem.Same, after, exec]
        by_cases h : a' = a
        · subst h
          have : c' ≠ c := fun h => hm (by rw [h])
          rw [setAt_same, setAt_ne _ _ this]
        · rw [setAt_ne _ _ h]
      | scratch g' =>
        show setAt p.2 g (p.2 g) g' = p.2 g'
        rw [setAt_self]
      | _ => rfl
    · intro p p' hs m hm
      simp only [Op.touches] at hm
      subst hm
      have h1 : p.1.numDeps a c = p'.1.numDeps a c := hs _ rfl
      simp only [Mem.Same, after, exec]
      rw [setAt_same, setAt_same, setAt_same, setAt_same, h1]
  | enqueue a c =>
    constructor
    · intro p m hm
      simp only [Op.touches, not_or] at hm
      by_cases h0 : p.1.numDeps a c = 0
      · have he : after S r g p (.enqueue a c) = ({ p.1 with
            queue := setAt p.1.queue g (p.1.queue g ++ [⟨c, a, (cfg.data r).getPriority c a p.1.data⟩]) }, p.2) := by
          simp only [after, exec, h0, if_true, setAt_self]
        rw [he]
        cases m with
        | queue g' =>
          have : g' ≠ g := fun h => hm.2.1 (by rw [h])
          exact setAt_ne _ _ this
        | _ => rfl
      · have he : after S r g p (.enqueue a c) = p := by
          simp only [after, exec, h0, if_false, setAt_self]
        rw [he]
        cases m <;> rfl
    · intro p p' hs m hm
      have h1 : p.1.numDeps a c = p'.1.numDeps a c := hs (.deps a c) (Or.inl rfl)
      have h2 : p.1.queue g = p'.1.queue g := hs (.queue g) (Or.inr (Or.inl rfl))
      have h3 : S.get p.1.data a = S.get p'.1.data a := hs (.slice a) (Or.inr (Or.inr rfl))
      have h4 := S.prio_eq r c a _ _ h3
      by_cases h0 : p'.1.numDeps a c = 0
      · have e1 : after S r g p (.enqueue a c) = ({ p.1 with
            queue := setAt p.1.queue g (p.1.queue g ++ [⟨c, a, (cfg.data r).getPriority c a p.1.data⟩]) }, p.2) := by
          simp only [after, exec, h1, h0, if_true, setAt_self]
        have e2 : after S r g p' (.enqueue a c) = ({ p'.1 with
            queue := setAt p'.1.queue g (p'.1.queue g ++ [⟨c, a, (cfg.data r).getPriority c a p'.1.data⟩]) }, p'.2) := by
          simp only [after, exec, h0, if_true, setAt_self]
        rw [e1, e2]
        rcases hm with rfl | rfl | rfl
        · exact h1
        · show setAt _ g _ g = setAt _ g _ g
          rw [setAt_same, setAt_same, h2, h4]
        · exact h3
      · have e1 : after S r g p (.enqueue a c) = p := by
          simp only [after, exec, h1, h0, if_false, setAt_self]
        have e2 : after S r g p' (.enqueue a c) = p' := by
          simp only [after, exec, h0, if_false, setAt_self]
        rw [e1, e2]
        exact hs m hm
  | pack q side a =>
    constructor
    · intro p m hm
      simp only [Op.touches, not_or] at hm
      cases m with
      | buffer g' q' =>
        simp only [Mem.Same, after, exec]
        by_cases h : g' = g
        · subst h
          have : q' ≠ q := fun h => hm.1 (by rw [h])
          rw [setAt_same, setAt_ne _ _ this]
        · rw [setAt_ne _ _ h]
      | scratch g' =>
        show setAt p.2 g (p.2 g) g' = p.2 g'
        rw [setAt_self]
      | _ => rfl
    · intro p p' hs m hm
      have h1 : p.1.sendBuf g q = p'.1.sendBuf g q := hs (.buffer g q) (Or.inl rfl)
      have h2 : p.2 g = p'.2 g := hs (.scratch g) (Or.inr rfl)
      rcases hm with rfl | rfl
      · simp only [Mem.Same, after, exec]
        rw [setAt_same, setAt_same, setAt_same, setAt_same, h1, h2]
      · show setAt _ g _ g = setAt _ g _ g
        rw [setAt_same, setAt_same]
        exact h2

/-- A location belongs to thread `g`. -/
def Mem.Of (cfg : Cfg D B) (g : Nat) : Mem → Prop
  | .counter => False
  | .queue g0 => g0 = g
  | .deps a _ => cfg.group a = g
  | .slice a => cfg.group a = g
  | .scratch g0 => g0 = g
  | .buffer g0 _ => g0 = g

theorem Sim.no_race {w : State D B E X} {s : Traverse.State D B} (M : Sim S w s) {r g g' : Nat} (hne : g ≠ g') {x x' : Act E X}
    (hx : (w.pc r g).next = some x) (hx' : (w.pc r g').next = some x') {m : Mem} (hm : x.touches g m)
    (hm' : x'.touches g' m) : m = .counter ∧ x = .count ∧ x' = .count := by
  have key : ∀ {g : Nat} {o : Op E X}, (w.pc r g).next = some (.op o) → cfg.group o.angle = g := by
    intro g o ho
    have hok := M.ok r g
    cases hp : w.pc r g with
    | idle => rw [hp] at ho; simp [Pc.next] at ho
    | popped t l1 l2 => rw [hp] at ho; simp [Pc.next] at ho
    | running t ops =>
      rw [hp] at ho hok
      cases ops with
      | nil => simp [Pc.next] at ho
      | cons o' ops =>
        simp only [Pc.next, Option.some.injEq, Act.op.injEq] at ho
        subst ho
        exact hok o' (by simp)
  -- the angle or thread of a location
  have own : ∀ {g : Nat} {x : Act E X}, (w.pc r g).next = some x → x.touches g m →
      (m = .counter ∧ x = .count) ∨ m.Of cfg g := by
    intro g x hx hm
    cases x with
    | pop =>
      simp only [Act.touches] at hm
      subst hm
      exact Or.inr rfl
    | count => exact Or.inl ⟨hm, rfl⟩
    | op o =>
      have ho := key hx
      right
      cases o with
      | work a f =>
        simp only [Act.touches, Op.touches] at hm
        rcases hm with rfl | rfl
        · exact ho
        · rfl
      | lower a c =>
        simp only [Act.touches, Op.touches] at hm
        subst hm; exact ho
      | enqueue a c =>
        simp only [Act.touches, Op.touches] at hm
        rcases hm with rfl | rfl | rfl
        · exact ho
        · rfl
        · exact ho
      | pack q side a =>
        simp only [Act.touches, Op.touches] at hm
        rcases hm with rfl | rfl <;> rfl
  rcases own hx hm with ⟨h1, h2⟩ | h1 <;> rcases own hx' hm' with ⟨h3, h4⟩ | h3
  · exact ⟨h1, h2, h4⟩
  · rw [h1] at h3; exact h3.elim
  · rw [h3] at h1; exact h1.elim
  · exfalso
    cases m <;> dsimp only [Mem.Of] at h1 h3
    · exact hne (h1.symm.trans h3)
    · exact hne (h1.symm.trans h3)
    · exact hne (h1.symm.trans h3)
    · exact hne (h1.symm.trans h3)
    · exact hne (h1.symm.trans h3)

/-- C91: two threads of a rank never have before them statements that touch the same location, except
the atomic decrement of the counter of tasks. -/
theorem threads_no_race {n : Nat} {w : State D B E X} (h : Run cfg S n w) {r g g' : Nat} (hne : g ≠ g') {x x' : Act E X}
    (hx : (w.pc r g).next = some x) (hx' : (w.pc r g').next = some x') {m : Mem} (hm : x.touches g m)
    (hm' : x'.touches g' m) : m = .counter ∧ x = .count ∧ x' = .count := by
  obtain ⟨c, s, -, M, -⟩ := h.sim
  exact M.no_race hne hx hx' hm hm'

/-! ## Progress and termination -/

/-- C91: as long as a rank has not returned some thread can go on. -/
theorem threads_no_deadlock {mate : Loc → Option Loc} (L : Linked cfg mate)
    (hproto : cfg.doComm = true → cfg.protocol = .tycho) {n : Nat} {w : State D B E X} (h : Run cfg S n w)
    (hnf : ∃ r < cfg.nRanks, (w.rank r).phase ≠ .finished) : ∃ w', Step cfg S w w' := by
  obtain ⟨c, s, hrun, M, -⟩ := h.sim
  by_cases hb : ∃ r < cfg.nRanks, ∃ g < cfg.nThreads, w.pc r g ≠ .idle
  · obtain ⟨r, hr, g, hg, hpc⟩ := hb
    cases hp : w.pc r g with
    | idle => exact absurd hp hpc
    | popped t l1 l2 => exact ⟨_, .inner (.count w r g t l1 l2 hr hg hp)⟩
    | running t ops =>
      cases ops with
      | nil => exact ⟨_, .inner (.done w r g t hr hg hp)⟩
      | cons o ops => exact ⟨_, .inner (.op w r g t o ops hr hg hp)⟩
  · push Not at hb
    have hsame : ∀ r < cfg.nRanks, s.rank r = w.rank r := fun r hr => M.same (hb r hr)
    have hnf' : ∃ r < cfg.nRanks, (s.rank r).phase ≠ .finished := by
      obtain ⟨r, hr, hf⟩ := hnf
      exact ⟨r, hr, by rw [hsame r hr]; exact hf⟩
    obtain ⟨s', hs⟩ := traverse_no_deadlock L hproto (hrun.reachable .init) hnf'
    rcases step_serial hs with ⟨r, hr, st', chan', evs, hser⟩ | ⟨r, hr, g, hg, steps, l1, l2, t, h1, h2, h3, h4⟩
    · rw [hsame r hr, ← M.chan] at hser
      exact ⟨_, .serial w r st' chan' evs hr (hb r hr) hser⟩
    · rw [hsame r hr] at h1 h2 h3
      exact ⟨_, .inner (.pop w r g steps l1 l2 t hr hg (hb r hr g hg) h1 h2 h3 h4)⟩

/-- Bound on the number of statements, with at most `K` in a pass. -/
def statementBound (cfg : Cfg D B) (K : Nat) : Nat :=
  stepBound cfg cfg.allCells * (K + 3) + cfg.nRanks * cfg.nThreads

/-- C91: no execution has more statements than a number that depends only on the sizes of the
problem. -/
theorem threads_terminate {mate : Loc → Option Loc} (L : Linked cfg mate) (hbatch : 0 < cfg.maxCompute)
    (hproto : cfg.doComm = true → cfg.protocol = .tycho) (hx : Crossed cfg mate) (hac : Acyclic cfg mate)
    {K : Nat} (hK : ∀ r t, (passOps S r t).length ≤ K) {n : Nat} {w : State D B E X} (h : Run cfg S n w) :
    n ≤ statementBound cfg K := by
  obtain ⟨c, s, hrun, -, hn⟩ := h.sim
  have hb := traverse_terminates L hbatch hproto hx hac hrun
  have := Nat.mul_le_mul_right (K + 3) hb
  have := hn K hK
  unfold statementBound
  omega

/-- C91: an execution that cannot go on has returned on every rank, and there is one. -/
theorem threads_finish {mate : Loc → Option Loc} (L : Linked cfg mate) (hbatch : 0 < cfg.maxCompute)
    (hproto : cfg.doComm = true → cfg.protocol = .tycho) (hx : Crossed cfg mate) (hac : Acyclic cfg mate)
    {K : Nat} (hK : ∀ r t, (passOps S r t).length ≤ K) {n : Nat} {w : State D B E X} (h : Run cfg S n w)
    (m : Nat) (hm : statementBound cfg K ≤ n + m) :
    ∃ n' w', n ≤ n' ∧ Run cfg S n' w' ∧ ∀ r < cfg.nRanks, (w'.rank r).phase = .finished := by
  induction m generalizing n w with
  | zero =>
    refine ⟨n, w, le_rfl, h, ?_⟩
    by_contra hno
    push Not at hno
    obtain ⟨w', hs⟩ := threads_no_deadlock L hproto h hno
    have := threads_terminate L hbatch hproto hx hac hK (h.step hs)
    omega
  | succ m ih =>
    by_cases hno : ∃ r < cfg.nRanks, (w.rank r).phase ≠ .finished
    · obtain ⟨w', hs⟩ := threads_no_deadlock L hproto h hno
      obtain ⟨n', w'', h1, h2, h3⟩ := ih (h.step hs) (by omega)
      exact ⟨n', w'', by omega, h2, h3⟩
    · push Not at hno
      exact ⟨n, w, le_rfl, h, hno⟩

end Verif.Threads
