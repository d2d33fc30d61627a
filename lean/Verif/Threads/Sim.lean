import Verif.Threads.Model
import Verif.Traverse.Lemmas9

/-! # Statements of different threads do not see each other; the relation to whole passes -/

set_option linter.unusedSectionVars false

namespace Verif.Threads

open Verif.Traverse

variable {D B E X : Type} {cfg : Cfg D B} {S : Slices cfg E X}

theorem set2_same {α : Type} (f : Nat → Nat → α) (i j : Nat) (v : α) : set2 f i j v i j = v := by simp [set2, setAt]

theorem set2_ne {α : Type} (f : Nat → Nat → α) {i j i' j' : Nat} (v : α) (h : ¬ (i' = i ∧ j' = j)) :
    set2 f i j v i' j' = f i' j' := by
  unfold set2 setAt
  by_cases h1 : i' = i
  · subst h1
    have h2 : j' ≠ j := fun h2 => h ⟨rfl, h2⟩
    simp [h2]
  · simp [h1]

/-- Two states of a rank agree in what belongs to thread `g`. -/
structure SamePart (S : Slices cfg E X) (g : Nat) (st st' : RankState D B) : Prop where
  deps : ∀ a, cfg.group a = g → st.numDeps a = st'.numDeps a
  data : ∀ a, cfg.group a = g → S.get st.data a = S.get st'.data a
  queue : st.queue g = st'.queue g
  buf : st.sendBuf g = st'.sendBuf g

theorem SamePart.refl (g : Nat) (st : RankState D B) : SamePart S g st st := ⟨fun _ _ => rfl, fun _ _ => rfl, rfl, rfl⟩

theorem SamePart.symm {g : Nat} {st st' : RankState D B} (h : SamePart S g st st') : SamePart S g st' st :=
  ⟨fun a ha => (h.deps a ha).symm, fun a ha => (h.data a ha).symm, h.queue.symm, h.buf.symm⟩

theorem SamePart.trans {g : Nat} {st st' st'' : RankState D B} (h : SamePart S g st st') (h' : SamePart S g st' st'') :
    SamePart S g st st'' :=
  ⟨fun a ha => (h.deps a ha).trans (h'.deps a ha), fun a ha => (h.data a ha).trans (h'.data a ha),
    h.queue.trans h'.queue, h.buf.trans h'.buf⟩

/-- They agree in what belongs to no thread. -/
structure SameRest (st st' : RankState D B) : Prop where
  remaining : st.remaining = st'.remaining
  dark : st.dark = st'.dark
  round : st.round = st'.round
  sent : st.sent = st'.sent
  recvd : st.recvd = st'.recvd

theorem same_ext {st st' : RankState D B} (h : ∀ g, SamePart S g st st') (hr : SameRest st st') (hp : st.phase = st'.phase) :
    st = st' := by
  obtain ⟨nd, q, rem, d, sb, dk, ph, ro, se, re⟩ := st
  obtain ⟨nd', q', rem', d', sb', dk', ph', ro', se', re'⟩ := st'
  obtain ⟨rfl, rfl, rfl, rfl, rfl⟩ := hr
  dsimp only at hp
  subst hp
  obtain rfl : nd = nd' := funext fun a => (h (cfg.group a)).deps a rfl
  obtain rfl : q = q' := funext fun g => (h g).queue
  obtain rfl : sb = sb' := funext fun g => (h g).buf
  obtain rfl : d = d' := S.ext _ _ fun a => (h (cfg.group a)).data a rfl
  rfl

/-- A statement sees only what belongs to its thread. -/
theorem exec_local {r g : Nat} {st st' : RankState D B} (h : SamePart S g st st') (x : X) {o : Op E X}
    (ho : cfg.group o.angle = g) :
    SamePart S g (exec S r g (st, x) o).1 (exec S r g (st', x) o).1 ∧
      (exec S r g (st, x) o).2 = (exec S r g (st', x) o).2 := by
  cases o with
  | work a f =>
    have ha := h.data a ho
    refine ⟨⟨h.deps, fun a' ha' => ?_, h.queue, h.buf⟩, ?_⟩
    · simp only [exec]
      by_cases e : a' = a
      · subst e
        rw [S.get_set_same, S.get_set_same, ha]
      · rw [S.get_set_ne _ _ _ _ e, S.get_set_ne _ _ _ _ e, h.data a' ha']
    · simp only [exec, ha]
  | lower a c =>
    refine ⟨⟨fun a' ha' => ?_, h.data, h.queue, h.buf⟩, rfl⟩
    simp only [exec, h.deps a ho]
    by_cases e : a' = a
    · subst e; rw [setAt_same, setAt_same]
    · rw [setAt_ne _ _ e, setAt_ne _ _ e, h.deps a' ha']
  | enqueue a c =>
    have hd := h.deps a ho
    have hp := S.prio_eq r c a _ _ (h.data a ho)
    simp only [exec, hd]
    split
    · refine ⟨⟨h.deps, h.data, ?_, h.buf⟩, rfl⟩
      dsimp only
      rw [setAt_same, setAt_same, h.queue, hp]
    · exact ⟨h, rfl⟩
  | pack q side a =>
    refine ⟨⟨h.deps, h.data, h.queue, ?_⟩, rfl⟩
    simp only [exec]
    rw [setAt_same, setAt_same, h.buf]

/-- A statement leaves alone what belongs to other threads. -/
theorem exec_other {r g g' : Nat} (hne : g' ≠ g) (st : RankState D B) (x : X) {o : Op E X} (ho : cfg.group o.angle = g) :
    SamePart S g' (exec S r g (st, x) o).1 st := by
  cases o with
  | work a f =>
    refine ⟨fun _ _ => rfl, fun a' ha' => ?_, rfl, rfl⟩
    simp only [exec]
    refine S.get_set_ne _ _ _ _ ?_
    rintro rfl
    exact hne (ha'.symm.trans ho)
  | lower a c =>
    refine ⟨fun a' ha' => ?_, fun _ _ => rfl, rfl, rfl⟩
    simp only [exec]
    refine setAt_ne _ _ ?_
    rintro rfl
    exact hne (ha'.symm.trans ho)
  | enqueue a c =>
    simp only [exec]
    split
    · exact ⟨fun _ _ => rfl, fun _ _ => rfl, setAt_ne _ _ hne, rfl⟩
    · exact .refl _ _
  | pack q side a => exact ⟨fun _ _ => rfl, fun _ _ => rfl, rfl, setAt_ne _ _ hne⟩

theorem exec_rest {r g : Nat} (st : RankState D B) (x : X) (o : Op E X) :
    SameRest (exec S r g (st, x) o).1 st ∧ (exec S r g (st, x) o).1.phase = st.phase := by
  cases o with
  | enqueue a c =>
    simp only [exec]
    split <;> exact ⟨⟨rfl, rfl, rfl, rfl, rfl⟩, rfl⟩
  | _ => exact ⟨⟨rfl, rfl, rfl, rfl, rfl⟩, rfl⟩

theorem SameRest.trans {st st' st'' : RankState D B} (h : SameRest st st') (h' : SameRest st' st'') : SameRest st st'' :=
  ⟨h.1.trans h'.1, h.2.trans h'.2, h.3.trans h'.3, h.4.trans h'.4, h.5.trans h'.5⟩

theorem execs_local {r g : Nat} (ops : List (Op E X)) (ho : ∀ o ∈ ops, cfg.group o.angle = g) :
    ∀ {st st' : RankState D B} (x : X), SamePart S g st st' →
      SamePart S g (ops.foldl (exec S r g) (st, x)).1 (ops.foldl (exec S r g) (st', x)).1 := by
  induction ops with
  | nil => exact fun _ h => h
  | cons o ops ih =>
    intro st st' x h
    obtain ⟨h1, h2⟩ := exec_local (r := r) h x (ho o (by simp))
    rw [List.foldl_cons, List.foldl_cons]
    have := ih (fun o' ho' => ho o' (by simp [ho'])) (exec S r g (st, x) o).2 h1
    rw [show exec S r g (st', x) o = ((exec S r g (st', x) o).1, (exec S r g (st, x) o).2) from
      Prod.ext rfl h2.symm]
    exact this

theorem execs_other {r g g' : Nat} (hne : g' ≠ g) (ops : List (Op E X)) (ho : ∀ o ∈ ops, cfg.group o.angle = g) :
    ∀ (st : RankState D B) (x : X), SamePart S g' (ops.foldl (exec S r g) (st, x)).1 st := by
  induction ops with
  | nil => exact fun _ _ => .refl _ _
  | cons o ops ih =>
    intro st x
    rw [List.foldl_cons]
    exact (ih (fun o' ho' => ho o' (by simp [ho'])) _ _).trans (exec_other hne st x (ho o (by simp)))

theorem execs_rest {r g : Nat} (ops : List (Op E X)) :
    ∀ (st : RankState D B) (x : X), SameRest (ops.foldl (exec S r g) (st, x)).1 st ∧
      (ops.foldl (exec S r g) (st, x)).1.phase = st.phase := by
  induction ops with
  | nil => exact fun _ _ => ⟨⟨rfl, rfl, rfl, rfl, rfl⟩, rfl⟩
  | cons o ops ih =>
    intro st x
    obtain ⟨h1, h2⟩ := ih (exec S r g (st, x) o).1 (exec S r g (st, x) o).2
    obtain ⟨h3, h4⟩ := exec_rest (S := S) (r := r) (g := g) st x o
    exact ⟨h1.trans h3, h2.trans h4⟩

/-! ## The statements of a pass are the pass -/

theorem set_get (d : D) (a : Nat) : S.set d a (S.get d a) = d := by
  refine S.ext _ _ fun a' => ?_
  by_cases h : a' = a
  · subst h; rw [S.get_set_same]
  · rw [S.get_set_ne _ _ _ _ h]

theorem set_set (d : D) (a : Nat) (e e' : E) : S.set (S.set d a e) a e' = S.set d a e' := by
  refine S.ext _ _ fun a' => ?_
  by_cases h : a' = a
  · subst h; rw [S.get_set_same, S.get_set_same]
  · rw [S.get_set_ne _ _ _ _ h, S.get_set_ne _ _ _ _ h, S.get_set_ne _ _ _ _ h]

theorem work_all {r g a : Nat} (l : List (E → X → E × X)) :
    ∀ (st : RankState D B) (x : X), (l.map (Op.work a)).foldl (exec S r g) (st, x) =
      ({ st with data := S.set st.data a (runAll l (S.get st.data a, x)).1 }, (runAll l (S.get st.data a, x)).2) := by
  induction l with
  | nil =>
    intro st x
    simp only [List.map_nil, List.foldl_nil, runAll, set_get]
  | cons f l ih =>
    intro st x
    rw [List.map_cons, List.foldl_cons]
    simp only [exec]
    rw [ih]
    dsimp only
    rw [S.get_set_same, set_set]
    simp only [runAll, List.foldl_cons]

theorem faceOps_eq (r g : Nat) (t : Tuple) (f : Face) (st : RankState D B) (x : X) :
    ((faceOps S r t f).foldl (exec S r g) (st, x)).1 = child cfg r g t.cell t.angle st f := by
  unfold faceOps child
  split
  · cases h1 : (cfg.mesh r).adjCell t.cell f with
    | some c =>
      dsimp only
      rw [List.foldl_cons, List.foldl_cons, List.foldl_nil]
      simp only [exec, release]
      simp only [setAt_same]
      split <;> rfl
    | none =>
      cases h2 : (cfg.mesh r).adjRank t.cell f with
      | none => rfl
      | some q =>
        dsimp only
        split
        · rw [List.foldl_append, work_all]
          obtain ⟨e1, e2⟩ := S.face_eq r t.cell f t.angle st.data x
          rw [e1, set_get]
          simp only [List.foldl_cons, List.foldl_nil, exec, e2]
        · rfl
  · rfl

theorem facesOps_eq (r g : Nat) (t : Tuple) (fs : List Face) :
    ∀ (st : RankState D B) (x : X), ((fs.flatMap (faceOps S r t)).foldl (exec S r g) (st, x)).1 =
      fs.foldl (child cfg r g t.cell t.angle) st := by
  induction fs with
  | nil => exact fun _ _ => rfl
  | cons f fs ih =>
    intro st x
    rw [List.flatMap_cons, List.foldl_append, List.foldl_cons, ← faceOps_eq (S := S) r g t f st x]
    rw [show (faceOps S r t f).foldl (exec S r g) (st, x) =
      (((faceOps S r t f).foldl (exec S r g) (st, x)).1, ((faceOps S r t f).foldl (exec S r g) (st, x)).2) from rfl]
    exact ih _ _

/-- The statements of a pass, done without interruption, are the pass. -/
theorem passOps_eq (r g : Nat) (t : Tuple) (rest : List Tuple) (st : RankState D B) (x : X) :
    ((passOps S r t).foldl (exec S r g)
      ({ st with queue := setAt st.queue g rest, remaining := dec st.remaining }, x)).1 =
      computeOne cfg r g t rest st := by
  unfold passOps computeOne
  rw [List.foldl_append, work_all, facesOps_eq]
  dsimp only
  rw [S.update_eq r t.cell t.angle st.data x]

theorem passOps_angle (r : Nat) (t : Tuple) : ∀ o ∈ passOps S r t, o.angle = t.angle := by
  intro o ho
  rcases List.mem_append.1 ho with h | h
  · obtain ⟨f, -, rfl⟩ := List.mem_map.1 h; rfl
  · obtain ⟨f, -, h⟩ := List.mem_flatMap.1 h
    unfold faceOps at h
    split at h
    · split at h
      · simp only [List.mem_cons, List.not_mem_nil, or_false] at h
        rcases h with rfl | rfl <;> rfl
      · split at h
        · split at h
          · rcases List.mem_append.1 h with h | h
            · obtain ⟨f, -, rfl⟩ := List.mem_map.1 h; rfl
            · rw [List.mem_singleton] at h; subst h; rfl
          · simp at h
        · simp at h
    · simp at h

/-! ## The relation -/

/-- The state of the rank when thread `g` has been taken to the end of its pass, or back to before it
took its tuple. -/
def finish (S : Slices cfg E X) (r g : Nat) (p : RankState D B × X) : Pc E X → RankState D B
  | .idle => p.1
  | .popped t l1 l2 => { p.1 with queue := setAt p.1.queue g (l1 ++ t :: l2) }
  | .running _ ops => (ops.foldl (exec S r g) p).1

/-- What is known of a thread in a pass. -/
def Pc.Ok (cfg : Cfg D B) (g : Nat) (st : RankState D B) : Pc E X → Prop
  | .idle => True
  | .popped t l1 l2 => cfg.group t.angle = g ∧ st.queue g = l1 ++ l2 ∧ ∀ t' ∈ l1 ++ t :: l2, t'.priority ≤ t.priority
  | .running _ ops => ∀ o ∈ ops, cfg.group o.angle = g

/-- 1 between taking a tuple and the decrement of the counter. -/
def Pc.early : Pc E X → Nat
  | .popped .. => 1
  | _ => 0

/-- `stepsTaken` with the tuples taken early. -/
def ahead (e : Nat → Nat) : Phase B → Phase B
  | .computing steps => .computing fun g => steps g + e g
  | p => p

theorem finish_local {r g : Nat} {st st' : RankState D B} (x : X) {pc : Pc E X} (ho : pc.Ok cfg g st)
    (h : SamePart S g st st') : SamePart S g (finish S r g (st, x) pc) (finish S r g (st', x) pc) := by
  cases pc with
  | idle => exact h
  | popped t l1 l2 =>
    refine ⟨h.deps, h.data, ?_, h.buf⟩
    simp only [finish, setAt_same]
  | running t ops => exact execs_local ops ho x h

theorem Pc.Ok.congr {g : Nat} {st st' : RankState D B} {pc : Pc E X} (h : pc.Ok cfg g st) (hs : SamePart S g st st') :
    pc.Ok cfg g st' := by
  cases pc with
  | idle => trivial
  | popped t l1 l2 => exact ⟨h.1, hs.queue ▸ h.2.1, h.2.2⟩
  | running t ops => exact h

/-- A state of the threads and a state of whole passes. -/
structure Sim (S : Slices cfg E X) (w : State D B E X) (s : Traverse.State D B) : Prop where
  rest : ∀ r, SameRest (s.rank r) (w.rank r)
  part : ∀ r g, SamePart S g (s.rank r) (finish S r g (w.rank r, w.scratch r g) (w.pc r g))
  phase : ∀ r, (w.rank r).phase = ahead (fun g => (w.pc r g).early) (s.rank r).phase
  ok : ∀ r g, (w.pc r g).Ok cfg g (w.rank r)
  out : ∀ r g, ¬ (r < cfg.nRanks ∧ g < cfg.nThreads) → w.pc r g = .idle
  busy : ∀ r g, w.pc r g ≠ .idle → ∃ steps, (s.rank r).phase = .computing steps ∧
    ((w.pc r g).early = 1 → steps g < cfg.maxCompute)
  chan : w.chan = s.chan
  log : w.log = s.log

theorem ahead_zero {e : Nat → Nat} (he : ∀ g, e g = 0) (p : Phase B) : ahead e p = p := by
  cases p <;> simp [ahead, he]

theorem Sim.init (cfg : Cfg D B) (S : Slices cfg E X) : Sim S (initState cfg S) (Traverse.initState cfg) := by
  refine ⟨fun r => ⟨rfl, rfl, rfl, rfl, rfl⟩, fun r g => .refl _ _, fun r => ?_, fun r g => trivial, fun _ _ _ => rfl,
    fun r g h => absurd rfl h, rfl, rfl⟩
  exact (ahead_zero (fun _ => rfl) _).symm

/-- A rank none of whose threads is in a pass is as after whole passes. -/
theorem Sim.same {w : State D B E X} {s : Traverse.State D B} (M : Sim S w s) {r : Nat}
    (hi : ∀ g < cfg.nThreads, w.pc r g = .idle) : s.rank r = w.rank r := by
  have hall : ∀ g, w.pc r g = .idle := by
    intro g
    by_cases h : r < cfg.nRanks ∧ g < cfg.nThreads
    · exact hi g h.2
    · exact M.out r g h
  refine same_ext (S := S) (fun g => ?_) (M.rest r) ?_
  · have := M.part r g
    rwa [hall g] at this
  · rw [M.phase r, ahead_zero]
    intro g
    rw [hall g]; rfl

/-! ## Queues hold tuples of their own angles -/

/-- Every queue holds tuples of angles of its thread only. -/
def Grouped (cfg : Cfg D B) (st : RankState D B) : Prop := ∀ g, ∀ t ∈ st.queue g, cfg.group t.angle = g

theorem grouped_release {r g a c : Nat} {st : RankState D B} (h : Grouped cfg st) (hg : cfg.group a = g) :
    Grouped cfg (release cfg r g a c st) := by
  unfold release
  dsimp only
  split
  · intro g' t ht
    dsimp only at ht
    by_cases e : g' = g
    · subst e
      rw [setAt_same, List.mem_append, List.mem_singleton] at ht
      rcases ht with ht | rfl
      · exact h _ t ht
      · exact hg
    · rw [setAt_ne _ _ e] at ht
      exact h _ t ht
  · exact h

theorem grouped_child {r g c a : Nat} {st : RankState D B} (h : Grouped cfg st) (hg : cfg.group a = g) (f : Face) :
    Grouped cfg (child cfg r g c a st f) := by
  unfold child
  split
  · split
    · exact grouped_release h hg
    · split
      · split
        · exact h
        · exact h
      · exact h
  · exact h

theorem grouped_foldl {α : Type} {f : RankState D B → α → RankState D B} (hf : ∀ st x, Grouped cfg st → Grouped cfg (f st x))
    (l : List α) : ∀ st, Grouped cfg st → Grouped cfg (l.foldl f st) := by
  induction l with
  | nil => exact fun _ h => h
  | cons x l ih => exact fun st h => ih _ (hf st x h)

theorem reachable_grouped {s : Traverse.State D B} (h : Reachable cfg s) : ∀ r, Grouped cfg (s.rank r) := by
  induction h with
  | init =>
    intro r g t ht
    obtain ⟨c, -, ht⟩ := List.mem_flatMap.1 ht
    obtain ⟨a, ha, rfl⟩ := List.mem_map.1 ht
    have := (List.mem_filter.1 ha).2
    simp only [decide_eq_true_eq] at this
    exact this.2
  | step hr hs ih =>
    have key : ∀ {s : Traverse.State D B} {r : Nat} {st : RankState D B}, (∀ r, Grouped cfg (s.rank r)) →
        Grouped cfg st → ∀ r', Grouped cfg (setAt s.rank r st r') := by
      intro s r st h1 h2 r'
      by_cases e : r' = r
      · subst e; rw [setAt_same]; exact h2
      · rw [setAt_ne _ _ e]; exact h1 r'
    cases hs with
    | compute r g steps l1 l2 t _ _ _ hq _ _ =>
      refine key ih ?_
      have ht := ih r g t (by rw [hq]; simp)
      refine (grouped_foldl (f := child cfg r g t.cell t.angle) (fun st f hst => grouped_child hst ht f) _ _ ?_ : Grouped cfg (computeOne cfg r g t (l1 ++ l2) _))
      intro g' t' ht'
      dsimp only at ht'
      by_cases e : g' = g
      · subst e
        rw [setAt_same] at ht'
        refine ih r _ t' ?_
        rw [hq]
        simp only [List.mem_append, List.mem_cons] at ht' ⊢
        tauto
      · rw [setAt_ne _ _ e] at ht'
        exact ih r _ t' ht'
    | unpack r got _ _ _ =>
      refine key ih ?_
      exact (grouped_foldl (f := unpackOne cfg r) (fun st p hst => grouped_release hst rfl) (got.map Prod.snd) _ (ih r))
    | skip | send | kill | recv | miss | close => exact key ih (ih _)

end Verif.Threads
