import Verif.Traverse.Sweep

/-!
# Properties of the graph traversal sweep (C20–C24)
-/
set_option linter.unusedSectionVars false

namespace Verif.Traverse
open Classical List
open Verif.Transport

variable {D B : Type}

/-! ## C20: every task exactly once, upwind first -/

theorem countP_task_le {cfg : Cfg D B} {mate : Loc → Option Loc} {log : List (Event B)}
    (h : Ordered cfg mate log) (r c a : Nat) :
    log.countP (fun e => e.task = some (r, c, a)) ≤ 1 := by
  induction log using List.reverseRecOn with
  | nil => simp
  | append_singleton log e ih =>
    have ih := ih (ordered_prefix h)
    have he := h log e [] rfl
    rw [List.countP_append]
    by_cases ht : e.task = some (r, c, a)
    · cases e with
      | side => simp [Event.task] at ht
      | upd r' c' a' k =>
        simp only [Event.task, Option.some.injEq, Prod.mk.injEq] at ht
        obtain ⟨rfl, rfl, rfl⟩ := ht
        have h0 : log.countP (fun e => e.task = some (r', c', a')) = 0 := by
          rw [List.countP_eq_zero]
          intro e he' hc
          cases e with
          | side => simp [Event.task] at hc
          | upd r2 c2 a2 k2 =>
            simp only [Event.task, Option.some.injEq, Prod.mk.injEq, decide_eq_true_eq] at hc
            obtain ⟨rfl, rfl, rfl⟩ := hc
            exact he.2.2.2.1 ⟨k2, he'⟩
        rw [h0]
        simp [Event.task]
    · have : List.countP (fun e : Event B => decide (e.task = some (r, c, a))) [e] = 0 := by
        simp [ht]
      omega

/-- C20: in any state of any execution, under either protocol and any interleaving, no task has been
computed twice; every task was computed only after all cells upwind of it, and after the data of those
on other ranks, read right after their own update, was put on its side. -/
theorem traverse_once_in_order {cfg : Cfg D B} {mate : Loc → Option Loc} (L : Linked cfg mate)
    {s : State D B} (h : Reachable cfg s) :
    (∀ r c a, s.log.countP (fun e => e.task = some (r, c, a)) ≤ 1) ∧ Ordered cfg mate s.log :=
  ⟨countP_task_le (h.inv L).ordered, (h.inv L).ordered⟩

/-- C20: when `traverse` has returned on a rank, every one of its tasks was computed exactly once. -/
theorem traverse_finished_once {cfg : Cfg D B} {mate : Loc → Option Loc} (L : Linked cfg mate)
    {s : State D B} (h : Reachable cfg s) {r : Nat} (hr : r < cfg.nRanks)
    (hf : (s.rank r).phase = .finished) {c a : Nat} (hc : c < (cfg.mesh r).nCells)
    (ha : a < cfg.nAngles) : s.log.countP (fun e => e.task = some (r, c, a)) = 1 := by
  have I := h.inv L
  obtain ⟨k, hk⟩ := I.done_of_rem L hr (I.over r hr (by rw [hf]; trivial)) hc ha
  have h1 := countP_task_le I.ordered r c a
  have h2 : 0 < s.log.countP (fun e => e.task = some (r, c, a)) :=
    List.countP_pos_iff.2 ⟨_, hk, by simp [Event.task]⟩
  omega

/-! ## C21: termination -/

/-- Faces are downwind for the cell on the other side of an upwind face: no face is parallel to a
direction. -/
def Crossed (cfg : Cfg D B) (mate : Loc → Option Loc) : Prop :=
  ∀ x y a, cfg.In x → mate x = some y → a < cfg.nAngles →
    cfg.inDir x.rank a x.cell x.face = true → cfg.outDir y.rank a y.cell y.face = true

/-- C21: with an acyclic upwind relation and a batch of at least one task, every execution of the
two-sided protocol (or without communication), fair or not, has bounded length. -/
theorem traverse_terminates {cfg : Cfg D B} {mate : Loc → Option Loc} (L : Linked cfg mate)
    (hbatch : 0 < cfg.maxCompute) (hproto : cfg.doComm = true → cfg.protocol = .tycho)
    (hx : Crossed cfg mate) (hac : Acyclic cfg mate) {n : Nat} {s : State D B}
    (h : Run cfg n (initState cfg) s) : n ≤ stepBound cfg cfg.allCells := by
  have V := live_of_acyclic L hbatch hproto hx hac
  have h1 := h.work L hproto .init
  have h2 := work_le L V (h.reachable .init)
  omega

/-- C21: as long as a rank has not returned, some rank can take a step — even if a send completes only
when it is received. -/
theorem traverse_no_deadlock {cfg : Cfg D B} {mate : Loc → Option Loc} (L : Linked cfg mate)
    (hproto : cfg.doComm = true → cfg.protocol = .tycho) {s : State D B} (h : Reachable cfg s)
    (hnf : ∃ r < cfg.nRanks, (s.rank r).phase ≠ .finished) : ∃ s', Step cfg s s' := by
  cases hd : cfg.doComm with
  | true => exact tycho_progress L (h.inv L) (h.proto L hd (hproto hd)) hd (hproto hd) hnf
  | false => exact nocomm_progress hd h hnf

/-- The one-sided protocol with buffered sends: no rank is ever stuck. -/
theorem capsaicin_no_deadlock {cfg : Cfg D B} (ht : cfg.protocol = .capsaicin)
    (hb : cfg.rendezvous = false) {s : State D B} {r : Nat} (hr : r < cfg.nRanks)
    (hnf : (s.rank r).phase ≠ .finished) : ∃ s', Step cfg s s' := by
  have hsd : sendsDone cfg s r := fun h => by rw [hb] at h; simp at h
  rcases hp : (s.rank r).phase with st | ⟨k, ps, got⟩ | _ | _
  · exact computing_step hr hp
  · cases ps with
    | cons q ps => exact ⟨_, Step.miss s r q k ps got hr hp ht hsd⟩
    | nil =>
      cases k with
      | false => exact ⟨_, Step.unpack s r got hr hp hsd⟩
      | true => exact ⟨_, Step.close s r got hr hp hsd⟩
  · exact ⟨_, Step.kill s r hr hp⟩
  · exact absurd hp hnf

theorem run_to_end {cfg : Cfg D B} {mate : Loc → Option Loc} (L : Linked cfg mate)
    (hbatch : 0 < cfg.maxCompute) (hproto : cfg.doComm = true → cfg.protocol = .tycho)
    (hx : Crossed cfg mate) (hac : Acyclic cfg mate) :
    ∀ m n (s : State D B), Run cfg n (initState cfg) s → stepBound cfg cfg.allCells ≤ n + m →
      ∃ n' s', Run cfg n' (initState cfg) s' ∧ ∀ r < cfg.nRanks, (s'.rank r).phase = .finished := by
  intro m
  induction m with
  | zero =>
    intro n s h hm
    refine ⟨n, s, h, ?_⟩
    by_contra hno
    push Not at hno
    obtain ⟨s', hs⟩ := traverse_no_deadlock L hproto (h.reachable .init) hno
    have := traverse_terminates L hbatch hproto hx hac (h.snoc hs)
    omega
  | succ m ih =>
    intro n s h hm
    by_cases hf : ∀ r < cfg.nRanks, (s.rank r).phase = .finished
    · exact ⟨n, s, h, hf⟩
    · push Not at hf
      obtain ⟨s', hs⟩ := traverse_no_deadlock L hproto (h.reachable .init) hf
      exact ih (n + 1) s' (h.snoc hs) (by omega)

/-- C21: so the traversal returns on all ranks, having computed exactly one update per task. -/
theorem traverse_finishes {cfg : Cfg D B} {mate : Loc → Option Loc} (L : Linked cfg mate)
    (hbatch : 0 < cfg.maxCompute) (hproto : cfg.doComm = true → cfg.protocol = .tycho)
    (hx : Crossed cfg mate) (hac : Acyclic cfg mate) :
    ∃ n s, Run cfg n (initState cfg) s ∧ ∀ r < cfg.nRanks, (s.rank r).phase = .finished :=
  run_to_end L hbatch hproto hx hac (stepBound cfg cfg.allCells) 0 _ (.nil _) (by omega)

/-- C21: the number of updates in a complete execution is the number of tasks. -/
theorem traverse_work {cfg : Cfg D B} {mate : Loc → Option Loc} (L : Linked cfg mate)
    {s : State D B} (h : Reachable cfg s) (hf : ∀ r < cfg.nRanks, (s.rank r).phase = .finished) :
    s.log.countP (fun e => e.task ≠ none) = ∑ r ∈ Finset.range cfg.nRanks, cfg.nAngles * (cfg.mesh r).nCells := by
  have I := h.inv L
  have h1 : s.log.countP (fun e => e.task ≠ none) = total s.log := by
    unfold total
    apply List.countP_congr
    intro e _
    cases e <;> simp [Event.task, isTask]
  rw [h1, total_eq (n := cfg.nRanks) (fun r c a k hm => (ordered_append_mem I.ordered ⟨k, hm⟩).1)]
  apply Finset.sum_congr rfl
  intro r hr
  have h2 := I.rem r (Finset.mem_range.1 hr)
  have h3 := I.over r (Finset.mem_range.1 hr) (by rw [hf r (Finset.mem_range.1 hr)]; trivial)
  omega

/-- C21: while tasks remain, one of them has everything it needs computed. -/
theorem some_task_ready {cfg : Cfg D B} {mate : Loc → Option Loc} (L : Linked cfg mate)
    (hac : Acyclic cfg mate) {log : List (Event B)} (hnc : ¬ Complete cfg log) :
    ∃ r c a, r < cfg.nRanks ∧ c < (cfg.mesh r).nCells ∧ a < cfg.nAngles ∧ ¬ Done log r c a ∧
      ∀ f y, mate ⟨r, c, f⟩ = some y → Needs cfg mate ⟨r, c, f⟩ a → Done log y.rank y.cell a := by
  unfold Complete at hnc
  push Not at hnc
  obtain ⟨r0, c0, a, hr0, hc0, ha, hd0⟩ := hnc
  obtain ⟨t, ht, hmin⟩ := Finset.exists_min_image
    (cfg.cells.filter fun t => ¬ Done log t.1 t.2 a) (fun t => levelOf cfg mate t.1 t.2 a)
    ⟨(r0, c0), by rw [Finset.mem_filter]; exact ⟨mem_cells hr0 hc0, hd0⟩⟩
  rw [Finset.mem_filter] at ht
  have hin : t.1 < cfg.nRanks ∧ t.2 < (cfg.mesh t.1).nCells := by
    have := ht.1
    simp only [Cfg.cells, Finset.mem_biUnion, Finset.mem_image, Finset.mem_range] at this
    obtain ⟨r, hr, c, hc, rfl⟩ := this
    exact ⟨hr, hc⟩
  refine ⟨t.1, t.2, a, hin.1, hin.2, ha, ht.2, ?_⟩
  intro f y hy hn
  by_contra hnd
  have hyin := L.mate_in ⟨t.1, t.2, f⟩ y hin hy
  have h1 := hmin (y.rank, y.cell) (by rw [Finset.mem_filter]; exact ⟨mem_cells hyin.1 hyin.2, hnd⟩)
  have hb : Before cfg mate a (y.rank, y.cell) t := ⟨⟨t.1, t.2, f⟩, y, hin, hy, hn, rfl, rfl⟩
  have h2 : levelOf cfg mate y.rank y.cell a < levelOf cfg mate t.1 t.2 a := by
    unfold levelOf
    apply Finset.card_lt_card
    rw [Finset.ssubset_iff_of_subset]
    · refine ⟨(y.rank, y.cell), ?_, ?_⟩
      · rw [Finset.mem_filter]; exact ⟨mem_cells hyin.1 hyin.2, .single hb⟩
      · rw [Finset.mem_filter]; exact fun h => hac a ha _ h.2
    · intro t' ht'
      rw [Finset.mem_filter] at ht' ⊢
      exact ⟨ht'.1, ht'.2.tail hb⟩
  dsimp only at h1
  omega

/-! ## C22: determinism -/

/-- C22: any two complete executions leave the same results, for any data object whose updates read
only what is upwind — whatever the interleaving, message order and tie breaking in either; and the
results are the solution of the upwind system. -/
theorem traverse_deterministic {cfg : Cfg D B} {mate : Loc → Option Loc} (L : Linked cfg mate)
    {V : Type} (F : Frame cfg V) {s s' : State D B} (h : Reachable cfg s) (h' : Reachable cfg s')
    (hf : ∀ r < cfg.nRanks, (s.rank r).phase = .finished)
    (hf' : ∀ r < cfg.nRanks, (s'.rank r).phase = .finished) :
    (∀ r c a, r < cfg.nRanks → c < (cfg.mesh r).nCells → a < cfg.nAngles →
      F.obs r (s.rank r).data c a = F.obs r (s'.rank r).data c a) ∧
    ∀ d, Solves cfg mate F d → ∀ r c a, r < cfg.nRanks → c < (cfg.mesh r).nCells → a < cfg.nAngles →
      F.obs r (s.rank r).data c a = F.obs r (d r) c a := by
  have hs := F.solves L (h.inv L).ordered (complete_of_finished L h hf)
  have hs' := F.solves L (h'.inv L).ordered (complete_of_finished L h' hf')
  have key : ∀ d, Solves cfg mate F d → ∀ r c a, r < cfg.nRanks → c < (cfg.mesh r).nCells →
      a < cfg.nAngles → F.obs r (s.rank r).data c a = F.obs r (d r) c a := by
    intro d hd r c a hr hc ha
    rw [(h.inv L).data r hr]
    exact F.unique L (h.inv L).ordered hs hd (complete_of_finished L h hf r c a hr hc ha)
  refine ⟨fun r c a hr hc ha => ?_, key⟩
  rw [key _ hs' r c a hr hc ha, (h'.inv L).data r hr]

section sweep
variable {K : Type} [Field K] [LinearOrder K] [IsStrictOrderedRing K]

theorem globalDG_of_solves (R : SweepRun K) (H : R.Physical) {mate : Loc → Option Loc}
    {node : Nat → Nat → Fin 4 → Nat} (L : Linked R.cfg mate) (N : R.Nodes mate node)
    (hd : R.doComm = true) {psi : Nat → Psi K} {bnd : Nat → Bound K}
    (hs : Solves R.cfg mate (R.frame H) (fun r => some (psi r, bnd r))) :
    R.GlobalDG mate node psi := by
  intro r c a g hr hc ha hg
  have hcell := hs.cell r c a hr hc ha
  obtain ⟨psi', h1, h⟩ := R.update_some H hr hc ha (psi r, bnd r)
  change fluxOf R.nGroups (some (psi r, bnd r)) c a =
    fluxOf R.nGroups (R.update r c a (some (psi r, bnd r))) c a at hcell
  rw [h] at hcell
  simp only [fluxOf, Option.map_some, Option.some.injEq] at hcell
  unfold Transport.update at h1
  simp only [Option.bind_eq_bind] at h1
  obtain ⟨x, hx, hpsi⟩ := Option.bind_eq_some_iff.1 h1
  have hpsi := Option.some.inj hpsi
  have hdg := solveGroup_dg R.gauss (R.view r) c a _ _ _ _
    ((solve_groupwise R.gauss R.nGroups (R.view r) c a _ _ _ _ x hx).1 g hg)
  refine ⟨fun f v => populateLocalPsiBound (R.view r) a c (psi r) (bnd r)
    ((R.view r).cellToFaceVrtx c f v) f g, ?_, ?_⟩
  rotate_left
  · have e : (fun v => psi r g v a c) = fun v => x v g := by
      funext v
      have := congrFun (congrFun hcell ⟨g, hg⟩) v
      dsimp only at this
      rw [this, ← hpsi]
      simp [hg]
    rw [e]
    exact hdg
  · intro f v hv hneg
    have hin : (R.view r).isIncoming a c f := by
      unfold MeshView.isIncoming MeshView.isOutgoing
      intro hpos
      exact absurd hneg (not_lt.2 (mul_nonneg (H.area r c f hr hc) hpos.le))
    have hin' : R.cfg.inDir r a c f = true := by
      show (!decide ((R.view r).isOutgoing a c f)) = true
      simpa [MeshView.isIncoming] using hin
    have hxin : R.cfg.In ⟨r, c, f⟩ := ⟨hr, hc⟩
    constructor
    · intro y hy
      by_cases hyr : y.rank = r
      · have hadj : (R.view r).adjCell c f = some y.cell := (L.near _ y hxin hy hyr).1
        refine ⟨_, N.near _ y v hxin hy hyr hv, ?_⟩
        simp [populateLocalPsiBound, hin, hadj, hyr]
      · have hadj : (R.view r).adjCell c f = none := (L.far _ y hxin hy hyr).1
        have hrk : (R.view r).adjRank c f = some y.rank := (L.far _ y hxin hy hyr).2
        refine ⟨_, N.far _ y v hxin hy hyr hv, ?_⟩
        have hside := hs.side ⟨r, c, f⟩ y a hxin hy hyr ha ⟨hin', y, hy, Or.inl hd⟩
        have hval := congrFun (congrFun hside ((R.view r).cellToFaceVrtx c f v)) ⟨g, hg⟩
        simp only [populateLocalPsiBound, hin, hadj, hrk, if_true]
        exact hval
    · intro hm
      have hadj : (R.view r).adjCell c f = none := (L.ext _ hxin hm).1
      have hrk : (R.view r).adjRank c f = none := (L.ext _ hxin hm).2
      simp [populateLocalPsiBound, hin, hadj, hrk]

/-- C22: when a sweep has returned on all ranks, no solve has failed and the flux satisfies the
upwind discretisation of the whole mesh. -/
theorem sweep_solves (R : SweepRun K) (H : R.Physical) {mate : Loc → Option Loc}
    {node : Nat → Nat → Fin 4 → Nat} (L : Linked R.cfg mate) (N : R.Nodes mate node)
    (hd : R.doComm = true) {s : State _ _} (h : Reachable R.cfg s)
    (hf : ∀ r < R.nRanks, (s.rank r).phase = .finished) :
    ∃ psi : Nat → Psi K, (∀ r < R.nRanks, ∃ bnd, (s.rank r).data = some (psi r, bnd)) ∧
      R.GlobalDG mate node psi := by
  have hs := (R.frame H).solves L (h.inv L).ordered (complete_of_finished L h hf)
  have hex : ∀ r, ∃ p : Psi K × Bound K, r < R.nRanks → replay R.cfg r s.log = some p := by
    intro r
    by_cases hr : r < R.nRanks
    · obtain ⟨p, hp⟩ := Option.isSome_iff_exists.1 (hs.ok r hr)
      exact ⟨p, fun _ => hp⟩
    · exact ⟨(R.psi0 r, R.bound0 r), fun h => absurd h hr⟩
  choose p hp using hex
  refine ⟨fun r => (p r).1, fun r hr => ⟨(p r).2, ?_⟩, ?_⟩
  · rw [(h.inv L).data r hr, hp r hr]
  · refine globalDG_of_solves R H L N hd (bnd := fun r => (p r).2) ⟨fun _ _ => rfl, ?_, ?_, ?_⟩
    · intro r c a hr hc ha
      have := hs.cell r c a hr hc ha
      rw [hp r hr] at this
      exact this
    · intro x y a hx hy hne ha hn
      have := hs.side x y a hx hy hne ha hn
      rw [hp _ hx.1, hp _ (L.mate_in x y hx hy).1] at this
      exact this
    · intro x y a hx hy hne ha hn
      have := hs.rest x y a hx hy hne ha hn
      rw [hp _ hx.1] at this
      exact this

/-- C22: the upwind discretisation has at most one solution on the tasks of a completed log. -/
theorem globalDG_unique_log (R : SweepRun K) (H : R.Physical) {mate : Loc → Option Loc}
    {node : Nat → Nat → Fin 4 → Nat} (L : Linked R.cfg mate) (N : R.Nodes mate node)
    (hd : R.doComm = true) {log : List (Event (Fin 3 → Fin R.nGroups → K))}
    (ho : Ordered R.cfg mate log) {psi psi' : Nat → Psi K} (h : R.GlobalDG mate node psi)
    (h' : R.GlobalDG mate node psi') {r c a : Nat} (hdn : Done log r c a) :
    ∀ g < R.nGroups, ∀ v, psi r g v a c = psi' r g v a c := by
  induction log using List.reverseRecOn generalizing r c a with
  | nil => simp [Done] at hdn
  | append_singleton log e ih =>
    have ih := @ih (ordered_prefix ho)
    rcases done_append.1 hdn with hdn | hdn
    · exact ih hdn
    · cases e with
      | side r' s a' b => exact absurd hdn done_side
      | upd r' c' a' k =>
        obtain ⟨rfl, rfl, rfl⟩ := done_single.1 hdn
        obtain ⟨hr, hc, ha, -, hup⟩ := ho log _ [] rfl
        intro g hg
        obtain ⟨inc, hinc, hdg⟩ := h r c a g hr hc ha hg
        obtain ⟨inc', hinc', hdg'⟩ := h' r c a g hr hc ha hg
        rw [dg_congr _ _ _ inc' inc _ _ (by
          intro f v hneg hv
          have hin' : R.cfg.inDir r a c f = true := by
            show (!decide ((R.view r).isOutgoing a c f)) = true
            have : ¬ (R.view r).isOutgoing a c f := by
              unfold MeshView.isOutgoing
              intro hpos
              exact absurd hneg (not_lt.2 (mul_nonneg (H.area r c f hr hc) hpos.le))
            simpa using this
          rcases hm : mate ⟨r, c, f⟩ with _ | y
          · rw [(hinc f v hv hneg).2 hm, (hinc' f v hv hneg).2 hm]
          · obtain ⟨w, hw, e1⟩ := (hinc f v hv hneg).1 y hm
            obtain ⟨w', hw', e2⟩ := (hinc' f v hv hneg).1 y hm
            have hyin := L.mate_in ⟨r, c, f⟩ y ⟨hr, hc⟩ hm
            have : w = w' := N.inj y.rank y.cell w w' hyin.1 hyin.2 (hw.trans hw'.symm)
            subst this
            rw [e1, e2]
            exact (ih (hup f y hm ⟨hin', y, hm, Or.inl hd⟩).1 g hg w).symm)] at hdg'
        have := dg_unique (H.volume r c hr hc) (H.sigma r c hr hc) (H.closed r c a hr hc ha)
          (H.some_flow r c a hr hc ha) hdg hdg'
        exact congrFun this

/-- The same problem run with other threads, batch size, protocol, send buffering, priorities, solver,
start values and scratch contents. -/
def SweepRun.other (R : SweepRun K) (threads batch : Nat) (proto : Protocol) (rv : Bool)
    (prio : Nat → Nat → Nat → Nat) (gauss : GaussElim) (psi0 : Nat → Psi K) (bound0 : Nat → Bound K)
    (scratch : Fin 4 → Nat → K) : SweepRun K :=
  { R with
    nThreads := threads
    maxCompute := batch
    protocol := proto
    rendezvous := rv
    priority := prio
    gauss := gauss
    psi0 := psi0
    bound0 := bound0
    scratch := scratch }

/-- C22: any two complete sweeps of the same problem give the same flux, which is the solution of the
upwind discretisation. The runs may divide the work differently among threads, batches, protocols
and message orders. -/
theorem sweep_deterministic (R : SweepRun K) (H : R.Physical) {mate : Loc → Option Loc}
    {node : Nat → Nat → Fin 4 → Nat} (L : Linked R.cfg mate) (N : R.Nodes mate node)
    (hd : R.doComm = true) (threads batch : Nat) (proto : Protocol) (rv : Bool)
    (prio : Nat → Nat → Nat → Nat) (gauss : GaussElim) (psi0 : Nat → Psi K) (bound0 : Nat → Bound K)
    (scratch : Fin 4 → Nat → K) (ht : 0 < threads) {s : State _ _} (h : Reachable R.cfg s)
    (hf : ∀ r < R.nRanks, (s.rank r).phase = .finished) {s' : State _ _}
    (h' : Reachable (R.other threads batch proto rv prio gauss psi0 bound0 scratch).cfg s')
    (hf' : ∀ r < R.nRanks, (s'.rank r).phase = .finished) :
    ∀ r < R.nRanks, ∃ psi bnd psi' bnd', (s.rank r).data = some (psi, bnd) ∧
      (s'.rank r).data = some (psi', bnd') ∧
      ∀ c < R.nCells r, ∀ a < R.nAngles, ∀ g < R.nGroups, ∀ v, psi g v a c = psi' g v a c := by
  have L' : Linked (R.other threads batch proto rv prio gauss psi0 bound0 scratch).cfg mate :=
    ⟨ht, L.size, L.mate_in, L.mate_symm, L.near, L.far, L.ext, L.side_eq, L.side_cell, L.side_inj,
      L.orient⟩
  obtain ⟨psi, hpsi, hdg⟩ := sweep_solves R H L N hd h hf
  obtain ⟨psi', hpsi', hdg'⟩ := sweep_solves (R.other threads batch proto rv prio gauss psi0 bound0
    scratch) ⟨H.volume, H.area, H.sigma, H.closed, H.some_flow⟩ L'
    ⟨N.inj, N.near, N.far⟩ hd h' hf'
  intro r hr
  obtain ⟨bnd, e⟩ := hpsi r hr
  obtain ⟨bnd', e'⟩ := hpsi' r hr
  refine ⟨_, bnd, _, bnd', e, e', ?_⟩
  intro c hc a ha g hg v
  exact globalDG_unique_log R H L N hd (h.inv L).ordered hdg hdg'
    (complete_of_finished L h hf r c a hr hc ha) g hg v

end sweep

/-! ## C23: a face parallel to a direction -/

/-- C23 is violated: if a face is upwind for the cells on both sides (`Ω·n = 0` counts as incoming,
src/TychoMesh.hh:109-110), neither cell is ever computed, so neither rank ever returns. -/
theorem parallel_face_never_finishes {cfg : Cfg D B} {mate : Loc → Option Loc} (L : Linked cfg mate)
    {x y : Loc} {a : Nat} (hx : cfg.In x) (hy : mate x = some y) (ha : a < cfg.nAngles)
    (hnx : Needs cfg mate x a) (hny : Needs cfg mate y a) {s : State D B} (h : Reachable cfg s) :
    ¬ Done s.log x.rank x.cell a ∧ (s.rank x.rank).phase ≠ .finished := by
  have hyx := L.mate_symm x y hx hy
  have key : ∀ log : List (Event B), Ordered cfg mate log → ¬ Done log x.rank x.cell a ∧ ¬ Done log y.rank y.cell a := by
    intro log
    induction log using List.reverseRecOn with
    | nil => intro _; simp [Done]
    | append_singleton log e ih =>
      intro ho
      obtain ⟨i1, i2⟩ := ih (ordered_prefix ho)
      have he := ho log e [] rfl
      constructor
      · intro hd
        rcases done_append.1 hd with hd | hd
        · exact i1 hd
        · cases e with
          | side r' s a' b => exact absurd hd done_side
          | upd r' c' a' k =>
            obtain ⟨rfl, rfl, rfl⟩ := done_single.1 hd
            exact i2 (he.2.2.2.2 x.face y hy hnx).1
      · intro hd
        rcases done_append.1 hd with hd | hd
        · exact i2 hd
        · cases e with
          | side r' s a' b => exact absurd hd done_side
          | upd r' c' a' k =>
            obtain ⟨rfl, rfl, rfl⟩ := done_single.1 hd
            exact i1 (he.2.2.2.2 y.face x hyx hny).1
  have I := h.inv L
  refine ⟨(key _ I.ordered).1, fun hf => (key _ I.ordered).1 ?_⟩
  exact I.done_of_rem L hx.1 (I.over _ hx.1 (by rw [hf]; trivial)) hx.2 ha

/-! ## C24: rounds of the two-sided protocol -/

/-- C24: when a rank has returned, each face of it that waits for another rank has got its data exactly
once, read off that rank's data object right after the update of the cell there. -/
theorem delivered_once {cfg : Cfg D B} {mate : Loc → Option Loc} (L : Linked cfg mate)
    {s : State D B} (h : Reachable cfg s) {x y : Loc} {a : Nat} (hx : cfg.In x)
    (hy : mate x = some y) (hne : y.rank ≠ x.rank) (ha : a < cfg.nAngles) (hn : Needs cfg mate x a)
    (hf : (s.rank x.rank).phase = .finished) :
    s.log.countP (fun e => e.slot = some (x.rank, (cfg.mesh x.rank).side x.cell x.face, a)) = 1 ∧
    ∃ b, Event.side x.rank ((cfg.mesh x.rank).side x.cell x.face) a b ∈ s.log ∧ SentBy cfg s.log y a b := by
  have I := h.inv L
  obtain ⟨k, hk⟩ := I.done_of_rem L hx.1 (I.over _ hx.1 (by rw [hf]; trivial)) hx.2 ha
  obtain ⟨l1, l2, heq⟩ := List.append_of_mem hk
  have hd1 := ((I.ordered l1 _ l2 heq).2.2.2.2 x.face y hy hn).2 hne
  have hd : Delivered s.log x.rank ((cfg.mesh x.rank).side x.cell x.face) a := by
    rw [heq]; exact delivered_append.2 (Or.inl hd1)
  obtain ⟨-, m1, b, m2, heq2, hsent⟩ := needs_of_delivered L I.ordered hx hy hne hd
  refine ⟨?_, b, by rw [heq2]; simp, by rw [heq2]; exact sentBy_append hsent⟩
  have hle : ∀ log : List (Event B), Ordered cfg mate log →
      dcount log x.rank ((cfg.mesh x.rank).side x.cell x.face) a ≤ 1 := by
    intro log
    induction log using List.reverseRecOn with
    | nil => intro _; simp [dcount]
    | append_singleton log e ih =>
      intro ho
      have ih := ih (ordered_prefix ho)
      have he := ho log e [] rfl
      unfold dcount at *
      rw [List.countP_append]
      by_cases ht : e.slot = some (x.rank, (cfg.mesh x.rank).side x.cell x.face, a)
      · cases e with
        | upd => simp [Event.slot] at ht
        | side r' s' a' b' =>
          simp only [Event.slot, Option.some.injEq, Prod.mk.injEq] at ht
          obtain ⟨rfl, rfl, rfl⟩ := ht
          obtain ⟨-, -, -, -, -, -, -, -, -, hnd, -⟩ := he
          have h0 : dcount log x.rank ((cfg.mesh x.rank).side x.cell x.face) a' = 0 := by
            by_contra h0; exact hnd (delivered_iff.2 (by omega))
          unfold dcount at h0
          rw [h0]
          simp [Event.slot]
      · have : List.countP (fun e : Event B => decide (e.slot = some (x.rank,
            (cfg.mesh x.rank).side x.cell x.face, a))) [e] = 0 := by simp [ht]
        omega
  have h1 := hle _ I.ordered
  have h2 := delivered_iff.1 hd
  unfold dcount at h1 h2
  omega

section tycho
variable {cfg : Cfg D B} {mate : Loc → Option Loc} (L : Linked cfg mate) {s : State D B}
  (hd : cfg.doComm = true) (ht : cfg.protocol = .tycho) (h : Reachable cfg s)
include L hd ht h

/-- C24: a rank returns only when everything it produced for a neighbour has arrived there: of its
messages at most one is still under way, and that one carries no packet. -/
theorem finished_sent {q r : Nat} (hq : q < cfg.nRanks) (hr : r ∈ (cfg.mesh q).adjRanks)
    (hf : (s.rank q).phase = .finished) :
    (s.chan q r = [] ∨ ∃ m, s.chan q r = [m] ∧ m.list = []) ∧ outbox cfg (s.rank q) r = [] ∧
    ∀ x y a, cfg.In x → x.rank = q → mate x = some y → y.rank = r → a < cfg.nAngles →
      cfg.outDir q a x.cell x.face = true →
      pcount (gotFrom (s.rank r).phase q) (cfg.gs x) a +
        dcount s.log r ((cfg.mesh r).side y.cell y.face) a = 1 := by
  have I := h.inv L
  have P := h.proto L hd ht
  obtain ⟨hrlt, hadj, hne⟩ := adj_lt L hq hr
  have hob : outbox cfg (s.rank q) r = [] := P.empty q hq (by rw [hf]; exact id) r
  have hch : s.chan q r = [] ∨ ∃ m, s.chan q r = [m] ∧ m.list = [] := by
    cases hdr : (s.rank r).dark q with
    | true => exact Or.inl (P.dark r q hdr).2.2.2.1
    | false =>
      have hflow := P.flow q r
      have hflow2 := P.flow r q
      have hsr := P.sent_eq r hrlt q hadj hdr
      have hrec : (s.rank r).round ≤ (s.rank r).recvd q + 1 := by
        by_cases hp : q ∈ (s.rank r).phase.pending
        · have := (P.pend r hrlt q hp).2.2; omega
        · have := P.got_all r hrlt q hadj hdr hp; omega
      cases hdq : (s.rank q).dark r with
      | true =>
        obtain ⟨-, -, h3, h4, h5⟩ := P.dark q r hdq
        rw [h4] at hflow2
        simp at hflow2
        -- one message at most
        have hlen : (s.chan q r).length ≤ 1 := by omega
        have h0 := (I.dark r q hdq).2
        rcases hc : s.chan q r with _ | ⟨m, ms⟩
        · exact Or.inl rfl
        · rw [hc] at hlen
          simp at hlen
          subst hlen
          -- the neighbour is done, so nothing is under way to it
          have hnil := I.transit_nil L (q := q) hrlt h0
          unfold transit at hnil
          rw [hc] at hnil
          simp at hnil
          exact Or.inr ⟨m, rfl, hnil.2.1⟩
      | false =>
        have hsq := P.sent_eq q hq r hr hdq
        have hgq := P.got_all q hq r hr hdq (by rw [hf]; simp [Phase.pending])
        have hlen : (s.chan q r).length ≤ 1 := by omega
        rcases P.told q hq r hr (by rw [hf]; trivial) hdq with h1 | ⟨l, h1⟩
        · rw [hdr] at h1; simp at h1
        · rw [h1] at hlen
          simp at hlen
          rw [h1, hlen]
          exact Or.inr ⟨.kill, rfl, rfl⟩
  refine ⟨hch, hob, ?_⟩
  intro x y a hx hxq hy hyr ha hout
  subst hxq hyr
  have hc := I.count x y a hx hy hne ha hd hout
  rw [if_pos (I.done_of_rem L hq (I.over _ hq (by rw [hf]; trivial)) hx.2 ha)] at hc
  have ht' : transit cfg s x.rank y.rank = gotFrom (s.rank y.rank).phase x.rank := by
    unfold transit
    rw [hob]
    rcases hch with h1 | ⟨m, h1, h2⟩ <;> rw [h1] <;> simp [*]
  rw [ht'] at hc
  exact hc

/-- C24: when all ranks have returned every message has been received: no send or receive is left. -/
theorem all_matched (hf : ∀ r < cfg.nRanks, (s.rank r).phase = .finished) (q r : Nat) :
    s.chan q r = [] ∧ (s.rank q).sent r = (s.rank r).recvd q := by
  have P := h.proto L hd ht
  have hflow := P.flow q r
  have : s.chan q r = [] := by
    by_contra hne
    obtain ⟨hq, hadj⟩ := P.chans q r hne
    obtain ⟨hrlt, hadj', -⟩ := adj_lt L hq hadj
    rcases (finished_sent L hd ht h hq hadj (hf q hq)).1 with h1 | ⟨m, h1, -⟩
    · exact hne h1
    · rw [h1] at hflow
      simp at hflow
      cases hdr : (s.rank r).dark q with
      | true => exact hne (P.dark r q hdr).2.2.2.1
      | false =>
        have hsr := P.sent_eq r hrlt q hadj' hdr
        have hgr := P.got_all r hrlt q hadj' hdr (by rw [hf r hrlt]; simp [Phase.pending])
        have hflow2 := P.flow r q
        cases hdq : (s.rank q).dark r with
        | true =>
          obtain ⟨-, -, h3, h4, h5⟩ := P.dark q r hdq
          rw [h4] at hflow2
          simp at hflow2
          omega
        | false =>
          have hsq := P.sent_eq q hq r hadj hdq
          have hgq := P.got_all q hq r hadj hdq (by rw [hf q hq]; simp [Phase.pending])
          omega
  refine ⟨this, ?_⟩
  rw [this] at hflow
  simpa using hflow

/-- C24: every exchange of a rank sends one message to and takes one message from each neighbour not
known to be done; a rank never has more than its next message outstanding. -/
theorem lockstep {q r : Nat} (hq : q < cfg.nRanks) (hr : r ∈ (cfg.mesh q).adjRanks)
    (hdk : (s.rank q).dark r = false) :
    (s.rank q).sent r = (s.rank q).round ∧
    ((s.rank q).recvd r = (s.rank q).round ∨ (s.rank q).recvd r + 1 = (s.rank q).round) := by
  have P := h.proto L hd ht
  refine ⟨P.sent_eq q hq r hr hdk, ?_⟩
  by_cases hp : r ∈ (s.rank q).phase.pending
  · exact Or.inr (P.pend q hq r hp).2.2
  · exact Or.inl (P.got_all q hq r hr hdk hp)

/-- C24: a rank that returned has told every neighbour that had not itself said it was done. -/
theorem finished_told {q r : Nat} (hq : q < cfg.nRanks) (hr : r ∈ (cfg.mesh q).adjRanks)
    (hf : (s.rank q).phase = .finished) :
    (s.rank q).dark r = true ∨ (s.rank r).dark q = true ∨ s.chan q r = [.kill] := by
  have P := h.proto L hd ht
  cases hdq : (s.rank q).dark r with
  | true => exact Or.inl rfl
  | false =>
    right
    rcases P.told q hq r hr (by rw [hf]; trivial) hdq with h1 | ⟨l, h1⟩
    · exact Or.inl h1
    · rcases (finished_sent L hd ht h hq hr hf).1 with h2 | ⟨m, h2, -⟩
      · rw [h2] at h1; simp at h1
      · right
        rw [h2] at h1
        have hl := congrArg List.length h1
        simp at hl
        subst hl
        rw [h2]
        simpa using h1

/-- C24: once told that `q` is done, a rank never again sends to or receives from it. -/
theorem dark_frozen {r q : Nat} (hdk : (s.rank r).dark q = true) {s' : State D B}
    (hs : Step cfg s s') :
    (s'.rank r).dark q = true ∧ (s'.rank r).sent q = (s.rank r).sent q ∧
      (s'.rank r).recvd q = (s.rank r).recvd q := by
  have I := h.inv L
  have P := h.proto L hd ht
  have hnt : q ∉ targets cfg r (s.rank r) := by
    rw [targets_tycho L I P hd ht, List.mem_filter]
    simp [hdk]
  cases hs with
  | compute r' g steps l1 l2 t hr hg hphase hq htop hsteps =>
    dsimp only
    by_cases hh : r = r'
    · subst hh; rw [setAt_same]; dsimp only
      rw [computeOne_dark, computeOne_sent, computeOne_recvd]; exact ⟨hdk, rfl, rfl⟩
    · rw [setAt_ne _ _ hh]; exact ⟨hdk, rfl, rfl⟩
  | skip r' steps hr hphase hdone hcomm =>
    dsimp only
    by_cases hh : r = r'
    · subst hh; rw [setAt_same]; exact ⟨hdk, rfl, rfl⟩
    · rw [setAt_ne _ _ hh]; exact ⟨hdk, rfl, rfl⟩
  | send r' steps hr hphase hdone hcomm =>
    dsimp only
    by_cases hh : r = r'
    · subst hh; rw [setAt_same]; exact ⟨hdk, by simp [hnt], rfl⟩
    · rw [setAt_ne _ _ hh]; exact ⟨hdk, rfl, rfl⟩
  | kill r' hr hphase =>
    dsimp only
    by_cases hh : r = r'
    · subst hh; rw [setAt_same]; exact ⟨hdk, by simp [hnt], rfl⟩
    · rw [setAt_ne _ _ hh]; exact ⟨hdk, rfl, rfl⟩
  | recv r' q' kill p1 p2 got m ms hr hphase hchan hcap =>
    dsimp only
    by_cases hh : r = r'
    · subst hh
      rw [setAt_same]
      have hqq : q ≠ q' := by
        rintro rfl
        have := (P.pend r hr q (by rw [hphase]; simp [Phase.pending])).2.1
        rw [hdk] at this
        simp at this
      refine ⟨?_, rfl, ?_⟩
      · cases m with
        | packets ps => exact hdk
        | kill => dsimp only [darken]; rw [setAt_ne _ _ hqq]; exact hdk
      · dsimp only; rw [setAt_ne _ _ hqq]
    · rw [setAt_ne _ _ hh]; exact ⟨hdk, rfl, rfl⟩
  | miss r' q' kill ps got hr hphase hcap hsends =>
    dsimp only
    by_cases hh : r = r'
    · subst hh; rw [setAt_same]; exact ⟨hdk, rfl, rfl⟩
    · rw [setAt_ne _ _ hh]; exact ⟨hdk, rfl, rfl⟩
  | unpack r' got hr hphase hsends =>
    dsimp only
    by_cases hh : r = r'
    · subst hh
      rw [setAt_same, unpackAll_recvd]
      have e1 : (unpackAll cfg r got (s.rank r)).dark = (s.rank r).dark :=
        foldl_unpack_inv cfg r RankState.dark (unpackOne_dark cfg r) _ _
      have e2 : (unpackAll cfg r got (s.rank r)).sent = (s.rank r).sent :=
        foldl_unpack_inv cfg r RankState.sent (unpackOne_sent cfg r) _ _
      rw [e1, e2]
      exact ⟨hdk, rfl, rfl⟩
    · rw [setAt_ne _ _ hh]; exact ⟨hdk, rfl, rfl⟩
  | close r' got hr hphase hsends =>
    dsimp only
    by_cases hh : r = r'
    · subst hh; rw [setAt_same]; exact ⟨hdk, rfl, rfl⟩
    · rw [setAt_ne _ _ hh]; exact ⟨hdk, rfl, rfl⟩

/-- C24: a rank that has sent its notice sends nothing more, so the notice goes out once. -/
theorem killed_silent {q : Nat} (hk : (s.rank q).phase.killed) {s' : State D B}
    (hs : Step cfg s s') : (s'.rank q).phase.killed ∧ (s'.rank q).sent = (s.rank q).sent := by
  cases hs with
  | compute r' g steps l1 l2 t hr hg hphase hq htop hsteps =>
    dsimp only
    by_cases hh : q = r'
    · subst hh; rw [hphase] at hk; exact hk.elim
    · rw [setAt_ne _ _ hh]; exact ⟨hk, rfl⟩
  | skip r' steps hr hphase hdone hcomm =>
    dsimp only
    by_cases hh : q = r'
    · subst hh; rw [hphase] at hk; exact hk.elim
    · rw [setAt_ne _ _ hh]; exact ⟨hk, rfl⟩
  | send r' steps hr hphase hdone hcomm =>
    dsimp only
    by_cases hh : q = r'
    · subst hh; rw [hphase] at hk; exact hk.elim
    · rw [setAt_ne _ _ hh]; exact ⟨hk, rfl⟩
  | kill r' hr hphase =>
    dsimp only
    by_cases hh : q = r'
    · subst hh; rw [hphase] at hk; exact hk.elim
    · rw [setAt_ne _ _ hh]; exact ⟨hk, rfl⟩
  | recv r' q' kill p1 p2 got m ms hr hphase hchan hcap =>
    dsimp only
    by_cases hh : q = r'
    · subst hh; rw [setAt_same]; rw [hphase] at hk; exact ⟨hk, rfl⟩
    · rw [setAt_ne _ _ hh]; exact ⟨hk, rfl⟩
  | miss r' q' kill ps got hr hphase hcap hsends =>
    dsimp only
    by_cases hh : q = r'
    · subst hh; rw [setAt_same]; rw [hphase] at hk; exact ⟨hk, rfl⟩
    · rw [setAt_ne _ _ hh]; exact ⟨hk, rfl⟩
  | unpack r' got hr hphase hsends =>
    dsimp only
    by_cases hh : q = r'
    · subst hh; rw [hphase] at hk; simp [Phase.killed] at hk
    · rw [setAt_ne _ _ hh]; exact ⟨hk, rfl⟩
  | close r' got hr hphase hsends =>
    dsimp only
    by_cases hh : q = r'
    · subst hh; rw [setAt_same]; exact ⟨trivial, rfl⟩
    · rw [setAt_ne _ _ hh]; exact ⟨hk, rfl⟩

end tycho

end Verif.Traverse
