import Verif.Floating.Planned
import Verif.Floating.Start
import Verif.Schedule.SweepMesh
import Verif.Schedule.Timetable

/-!
# Sweeps along schedules give the same bits as the traversal (C93)
-/
set_option linter.unusedSectionVars false
set_option linter.unusedVariables false
namespace Verif.Floating

open Verif.MeshFile Verif.TychoMesh Verif.Traverse Verif.Schedule Verif.Floating.Spec Verif.PsiFile Verif.Storage

variable {F : Type} {nA nG : Nat} {K : Kernel F nA nG} {coord : Nat → F} {tol : Tolerance F}
variable {S : Type} [LinearOrder S] {val : Nat → S} {m : SerialMesh} {pv : List Nat} {n : Nat} {P : ParallelMesh} {T : Nat → Mesh}
variable {D : Nat → Tables F} {source psi0 : Nat → Psi F} {pl : Planning F} {sched : Nat → Schedule.State}

/-- No direction is within the tolerance of being parallel to an interior face, in the arithmetic of the
machine: `> TOL` holds where `> 0` does, and `< -TOL` where it does not. -/
def Definite (K : Kernel F nA nG) (tol : Tolerance F) (coord : Nat → F) (m : SerialMesh) : Prop :=
  ∀ c f c' f', Across m c f c' f' → ∀ a < nA, ∀ x, Dot K coord m a c f x →
    tol.above x = K.positive x ∧ tol.below x = !K.positive x

/-! ### The boundary array -/

theorem updateBound_spec (T : Mesh) (D : Tables F) (c a : Nat) (psi : Psi F) (l : List (Fin 4)) (b : Bound F) (g : Nat) (k : Fin 3)
    (a' s' : Nat) :
    let leaves := fun f => (T.getAdjCell c f).bind toNone = none ∧ K.outgoing D a c f = true
    let b' := l.foldl (fun b f =>
      if leaves f then fun g k a' s =>
        if a' = a ∧ s = (T.getSide c f).getD 0 ∧ g < nG then psi g ((T.getFaceToCellVrtx c f k).getD 0) a c else b g k a' s
      else b) b
    (¬ (a' = a ∧ ∃ f ∈ l, leaves f ∧ (T.getSide c f).getD 0 = s') → b' g k a' s' = b g k a' s') ∧
    ((∀ f f', leaves f → leaves f' → (T.getSide c f).getD 0 = (T.getSide c f').getD 0 → f = f') →
      g < nG → a' = a → ∀ f ∈ l, leaves f → (T.getSide c f).getD 0 = s' →
      b' g k a' s' = psi g ((T.getFaceToCellVrtx c f k).getD 0) a c) := by
  intro leaves
  induction l using List.reverseRecOn with
  | nil => simp
  | append_singleton L f ih =>
    intro b'
    obtain ⟨ih1, ih2⟩ := ih
    constructor
    · intro hn
      have h1 := ih1 (by
        rintro ⟨h, f', hf', h2⟩
        exact hn ⟨h, f', by simp [hf'], h2⟩)
      simp only [b', List.foldl_append, List.foldl_cons, List.foldl_nil]
      split
      · rename_i hl
        dsimp only
        rw [if_neg, h1]
        rintro ⟨h2, h3, -⟩
        exact hn ⟨h2, f, by simp, hl, h3.symm⟩
      · exact h1
    · intro hinj hg ha f' hf' hl' hs'
      simp only [b', List.foldl_append, List.foldl_cons, List.foldl_nil]
      by_cases hff : f' = f
      · subst hff
        rw [if_pos hl', if_pos ⟨ha, hs'.symm, hg⟩]
      · have hfL : f' ∈ L := by
          rcases List.mem_append.1 hf' with h | h
          · exact h
          · exact absurd (by simpa using h) hff
        split
        · rename_i hl
          dsimp only
          rw [if_neg]
          · exact ih2 hinj hg ha f' hfL hl' hs'
          · rintro ⟨-, h3, -⟩
            exact hff (hinj f' f hl' hl (hs'.trans h3))
        · exact ih2 hinj hg ha f' hfL hl' hs'

/-- Sides the rank writes its own results to. -/
def Kernel.Own (K : Kernel F nA nG) (T : Mesh) (D : Tables F) (a s : Nat) : Prop :=
  ∃ c f, c < T.nCells ∧ ((T.getAdjCell c f).bind toNone = none ∧ K.outgoing D a c f = true) ∧ (T.getSide c f).getD 0 = s

/-- Same flux, and same boundary values but on such sides. -/
def Kernel.Sim (K : Kernel F nA nG) (T : Nat → Mesh) (D : Nat → Tables F) (r : Nat) (d d' : Psi F × Bound F) : Prop :=
  d.1 = d'.1 ∧ ∀ g k a s, ¬ K.Own (T r) (D r) a s → d.2 g k a s = d'.2 g k a s

theorem planned_agrees (A : (K.planned n T D pl sched source psi0).Apart) : (K.planned n T D pl sched source psi0).Agrees (K.Sim T D) := by
  have A : ∀ r < n, ∀ c < (T r).nCells, ∀ c' < (T r).nCells, ∀ f f', ((T r).getAdjCell c f).bind toNone = none →
      ((T r).getAdjCell c' f').bind toNone = none → ((T r).getSide c f).getD 0 = ((T r).getSide c' f').getD 0 → c = c' ∧ f = f' := A
  refine ⟨fun r _ => ⟨rfl, fun _ _ _ _ _ => rfl⟩, ?_, ?_⟩
  · rintro r _ side angle x d d' ⟨h1, h2⟩
    refine ⟨h1, fun g k a s hno => ?_⟩
    show (if h : a = angle ∧ s = side ∧ g < nG then _ else _) = if h : a = angle ∧ s = side ∧ g < nG then _ else _
    split
    · rfl
    · exact h2 g k a s hno
  · rintro r hr ⟨c, a⟩ hc ha ⟨psi, b⟩ ⟨psi', b'⟩ ⟨h1, h2⟩
    have hr : r < n := hr
    have hc : c < (T r).nCells := hc
    dsimp only at h1 h2
    subst h1
    have hloc : K.localBound (T r) (D r) a c psi b = K.localBound (T r) (D r) a c psi b' := by
      funext k f g
      unfold Kernel.localBound
      split
      · rfl
      · rename_i hout
        rcases hadj : ((T r).getAdjCell c f).bind toNone with _ | nb
        · rcases hrk : ((T r).getAdjRank c f).bind toNone with _ | q
          · rfl
          · refine h2 g k a _ ?_
            rintro ⟨c', f', hc', hl, hs⟩
            obtain ⟨rfl, rfl⟩ := A r hr c' hc' c hc f' f hl.1 hadj hs
            exact hout hl.2
        · rfl
    have hup : (K.update (T r) (D r) (source r) c a (psi, b)).1 = (K.update (T r) (D r) (source r) c a (psi, b')).1 := by
      unfold Kernel.update
      dsimp only
      rw [hloc]
    constructor
    · refine ⟨hup, fun g k a' s hno => ?_⟩
      rw [show ((K.planned n T D pl sched source psi0).cfg.data r).update c a _ _ (psi, b') =
        K.update (T r) (D r) (source r) c a (psi, b') from rfl]
      show (K.updateBound (T r) (D r) c a (K.update (T r) (D r) (source r) c a (psi, b))).2 g k a' s = b' g k a' s
      rw [← h2 g k a' s hno]
      refine (updateBound_spec (T r) (D r) c a _ (List.finRange 4) b g k a' s).1 ?_
      rintro ⟨rfl, f, -, hl, hs⟩
      exact hno ⟨c, f, hc, hl, hs⟩
    · intro f hl
      have hl : ((T r).getAdjCell c f).bind toNone = none ∧ K.outgoing (D r) a c f = true := hl
      funext k g
      show (K.updateBound (T r) (D r) c a (K.update (T r) (D r) (source r) c a (psi, b))).2 g k a (((T r).getSide c f).getD 0) =
        (K.update (T r) (D r) (source r) c a (psi, b')).1 g (((T r).getFaceToCellVrtx c f k).getD 0) a c
      rw [← hup]
      exact (updateBound_spec (T r) (D r) c a _ (List.finRange 4) b g k a _).2
        (fun f f' h h' hs => (A r hr c hc c hc f f' h.1 h'.1 hs).2) g.2 rfl f (by simp) hl rfl

/-! ### The schedules -/

theorem planned_apart (H : Created m pv n P) (hn : n < uintMax) (L : Loaded val P T) (hs : ∀ r < n, nA * (T r).nCells < 2 ^ 64) :
    (K.planned n T D pl sched source psi0).Apart :=
  (Sweeping.apart_iff _).1 (run_apart H hn L (runOn_of (p := blank nA) (threads := 1) (batch := 0) (proto := .tycho) (rv := true) (gauss := .original)
    (prio := fun _ _ _ => 0) (psi0 := fun _ _ _ _ _ => 0) (bound0 := fun _ _ _ _ _ => 0) (scratch := fun _ _ => 0) (by decide) hs)
    ⟨_, .tycho1, 0, sched⟩ rfl)

theorem planned_info (H : Created m pv n P) (L : Loaded val P T) (hD : Started K coord P T D) (hsort : Sorted K coord m)
    (hdef : Definite K tol coord m) {x y : Traverse.Loc} {a : Nat} (hy : mateOf m P x = some y) (ha : a < nA) :
    tol.above (K.omega (D x.rank) a x.cell x.face) = K.outgoing (D x.rank) a x.cell x.face ∧
    tol.below (K.omega (D x.rank) a x.cell x.face) = !K.outgoing (D x.rank) a x.cell x.face ∧
    K.outgoing (D y.rank) a y.cell y.face = !K.outgoing (D x.rank) a x.cell x.face := by
  have hm := (mateOf_iff H).1 hy
  obtain ⟨h1, h2⟩ := lt_of_exists H L (mates_exists hm).1
  obtain ⟨h3, h4⟩ := lt_of_exists H L (mates_exists hm).2
  obtain ⟨c, hc⟩ := isCell_of_lt H L h1 h2
  obtain ⟨c', hc'⟩ := isCell_of_lt H L h3 h4
  have hac := (mates_across hc hc').1 hm
  have d1 := dot_of H L hD hc ha x.face
  have d2 := dot_of H L hD hc' ha y.face
  obtain ⟨e1, e2⟩ := hdef _ _ _ _ hac a ha _ d1
  refine ⟨e1, e2, ?_⟩
  unfold Kernel.outgoing
  cases hp : K.positive (K.omega (D x.rank) a x.cell x.face)
  · rw [hsort.crossed _ _ _ _ hac a ha _ _ d1 d2 hp]; rfl
  · rw [hsort.consistent _ _ _ _ hac a ha _ _ d1 d2 hp]; rfl

theorem planned_follows (H : Created m pv n P) (hn : n < uintMax) (L : Loaded val P T) (hD : Started K coord P T D)
    (hsort : Sorted K coord m) (hdef : Definite K tol coord m) (hs : ∀ r < n, nA * (T r).nCells < 2 ^ 64) (hG : 0 < pl.nAngleGroups)
    (source psi0 : Nat → Psi F) :
    (∀ g < pl.nAngleGroups, Joined (K.graph tol n T D pl g) (mateOf m P)) ∧
    (K.Scheduled tol n T D pl sched → (K.planned n T D pl sched source psi0).Follows (mateOf m P) (K.graph tol n T D pl) pl.priority) := by
  have Q := cfg_linked (source := source) (psi0 := psi0) (sched := ⟨1, 1, .tycho, pl.rendezvous, fun _ _ _ => 0, pl.bound0⟩)
    H hn L hD hsort.consistent Nat.one_pos hs
  have hlt : ∀ g < pl.nAngleGroups, ∀ i : Nat, i < (Verif.Partition.groupAngles nA pl.nAngleGroups g).length →
      (Verif.Partition.groupAngles nA pl.nAngleGroups g).getD i 0 < nA := by
    intro g hg i hi
    refine (groupAngles_iff hG).1 ⟨g, hg, ?_⟩
    rw [List.getD_eq_getElem _ _ hi]
    exact List.getElem_mem hi
  have hsome : ∀ x y : Traverse.Loc, (x.rank < n ∧ x.cell < (T x.rank).nCells) → mateOf m P x = some y →
      (((T x.rank).getAdjRank x.cell x.face).bind toNone).isSome = true := by
    intro x y hx hy
    by_cases hr : y.rank = x.rank
    · have := (Q.near x y hx hy hr).2
      change ((T x.rank).getAdjRank x.cell x.face).bind toNone = _ at this
      rw [this]; rfl
    · have := (Q.far x y hx hy hr).2
      change ((T x.rank).getAdjRank x.cell x.face).bind toNone = _ at this
      rw [this]; rfl
  have hwait : ∀ g < pl.nAngleGroups, ∀ (x y : Traverse.Loc) (i : Nat), (x.rank < n ∧ x.cell < (T x.rank).nCells) → mateOf m P x = some y →
      i < (Verif.Partition.groupAngles nA pl.nAngleGroups g).length → (K.graph tol n T D pl g).wait x.rank i x.cell x.face =
        !K.outgoing (D x.rank) ((Verif.Partition.groupAngles nA pl.nAngleGroups g).getD i 0) x.cell x.face := by
    intro g hg x y i hx hy hi
    obtain ⟨e1, e2, -⟩ := planned_info H L hD hsort hdef hy (hlt g hg i hi)
    show K.hasParent tol _ _ _ _ _ = _
    unfold Kernel.hasParent
    rw [e1, e2, hsome x y hx hy]
    cases K.outgoing (D x.rank) ((Verif.Partition.groupAngles nA pl.nAngleGroups g).getD i 0) x.cell x.face <;> rfl
  have hfree : ∀ g < pl.nAngleGroups, ∀ (x y : Traverse.Loc) (i : Nat), (x.rank < n ∧ x.cell < (T x.rank).nCells) → mateOf m P x = some y →
      i < (Verif.Partition.groupAngles nA pl.nAngleGroups g).length → (K.graph tol n T D pl g).free x.rank i x.cell x.face =
        K.outgoing (D x.rank) ((Verif.Partition.groupAngles nA pl.nAngleGroups g).getD i 0) x.cell x.face := by
    intro g hg x y i hx hy hi
    obtain ⟨e1, -, -⟩ := planned_info H L hD hsort hdef hy (hlt g hg i hi)
    show K.hasChild tol _ _ _ _ _ = _
    unfold Kernel.hasChild
    rw [e1, hsome x y hx hy]
    cases K.outgoing (D x.rank) ((Verif.Partition.groupAngles nA pl.nAngleGroups g).getD i 0) x.cell x.face <;> rfl
  have hnone : ∀ x : Traverse.Loc, (x.rank < n ∧ x.cell < (T x.rank).nCells) → mateOf m P x = none →
      ((T x.rank).getAdjRank x.cell x.face).bind toNone = none := fun x hx hy => (Q.ext x hx hy).2
  have hJ : ∀ g < pl.nAngleGroups, Joined (K.graph tol n T D pl g) (mateOf m P) := by
    intro g hg
    refine ⟨Q.mate_in, Q.mate_symm, fun x y hx hy hr => (Q.near x y hx hy hr).1, Q.far, Q.ext, Q.side_eq, Q.side_cell, Q.side_inj, ?_, ?_, ?_,
      groupAngles_nodup⟩
    · intro x y i hx hy hi
      rw [hwait g hg x y i hx hy hi, hfree g hg y x i (Q.mate_in x y hx hy) (Q.mate_symm x y hx hy) hi,
        (planned_info H L hD hsort hdef hy (hlt g hg i hi)).2.2]
    · intro x i hx h hy
      change K.hasParent tol _ _ _ _ _ = true at h
      unfold Kernel.hasParent at h
      rw [hnone x hx hy] at h
      simp at h
    · intro x i hx h hy
      change K.hasChild tol _ _ _ _ _ = true at h
      unfold Kernel.hasChild at h
      rw [hnone x hx hy] at h
      simp at h
  refine ⟨hJ, fun hB => ⟨rfl, hG, hB, fun _ => rfl, fun _ => rfl, fun _ => rfl, hJ, ?_, ?_⟩⟩
  · intro g hg x y i a hx hy hi
    have hi : (Verif.Partition.groupAngles nA pl.nAngleGroups g)[i]? = some a := hi
    have hil := (List.getElem?_eq_some_iff.1 hi).1
    rw [hwait g hg x y i hx hy hil, List.getD_eq_getElem?_getD, hi]
    show (!K.outgoing (D x.rank) a x.cell x.face) = true ↔ ¬ K.outgoing (D x.rank) a x.cell x.face = true
    simp
  · intro g hg x y i a hx hy hi
    have hi : (Verif.Partition.groupAngles nA pl.nAngleGroups g)[i]? = some a := hi
    have hil := (List.getElem?_eq_some_iff.1 hi).1
    rw [hfree g hg x y i hx hy hil, List.getD_eq_getElem?_getD, hi]
    rfl

theorem planned_timetable (H : Created m pv n P) (hn : n < uintMax) (L : Loaded val P T) (hD : Started K coord P T D)
    (hsort : Sorted K coord m) (hdef : Definite K tol coord m) (hs : ∀ r < n, nA * (T r).nCells < 2 ^ 64) (hG : 0 < pl.nAngleGroups)
    (hB : K.Scheduled tol n T D pl sched) (source psi0 : Nat → Psi F) :
    Linked (K.planned n T D pl sched source psi0).cfg (mateOf m P) ∧
    Timetable (K.planned n T D pl sched source psi0) (mateOf m P) (Verif.Partition.groupAngles nA pl.nAngleGroups) := by
  obtain ⟨Q, -, hac⟩ := cfg_sorted H hn L hD hsort hs source psi0 ⟨1, 1, .tycho, pl.rendezvous, fun _ _ _ => 0, pl.bound0⟩ Nat.one_pos
  exact ⟨Q, follows_timetable ((planned_follows H hn L hD hsort hdef hs hG source psi0).2 hB) Q rfl hac⟩

/-! ### The flux -/

/-- What a sweep along schedules that has returned on all ranks leaves. -/
theorem planned_solution (H : Created m pv n P) (hn : n < uintMax) (L : Loaded val P T) (hD : Started K coord P T D)
    (hsort : Sorted K coord m) (hdef : Definite K tol coord m) (hs : ∀ r < n, nA * (T r).nCells < 2 ^ 64) {psi' : Nat → Psi F}
    (h : K.SweptPlan tol n T D source psi0 psi') {srcS : Psi F} (hsrc : Holds nA nG n T source srcS) :
    ∃ psiS : Psi F, Solution K coord m srcS psiS ∧ Holds nA nG n T psi' psiS ∧
      ∃ log : List (Nat × Nat), (∀ a < nA, ∀ c < m.numCells, (a, c) ∈ log) ∧
        ∀ l1 a c l2, log = l1 ++ (a, c) :: l2 → a < nA ∧ c < m.numCells ∧ ∀ f x c' f', Dot K coord m a c f x → K.positive x = false →
          Across m c f c' f' → (a, c') ∈ l1 := by
  obtain ⟨pl, sched, s, hG, hB, hsw, hov, hfin⟩ := h
  obtain ⟨Q, TT⟩ := planned_timetable H hn L hD hsort hdef hs hG hB source psi0
  have I := Schedule.Swept.inv TT Q (planned_agrees (planned_apart H hn L hs)) rfl hsw
  refine log_solution H hn L hD Q I.ordered (I.complete TT hov) (fun r hr => ?_) hsrc
  rw [← hfin r hr]
  exact (I.data r hr).1.symm

theorem any_solution (H : Created m pv n P) (hn : n < uintMax) (L : Loaded val P T) (hD : Started K coord P T D)
    (hsort : Sorted K coord m) (hdef : Definite K tol coord m) (hs : ∀ r < n, nA * (T r).nCells < 2 ^ 64) {psi' : Nat → Psi F}
    (h : K.AnySweep tol n T D source psi0 psi') {srcS : Psi F} (hsrc : Holds nA nG n T source srcS) :
    ∃ psiS : Psi F, Solution K coord m srcS psiS ∧ Holds nA nG n T psi' psiS ∧
      ∃ log : List (Nat × Nat), (∀ a < nA, ∀ c < m.numCells, (a, c) ∈ log) ∧
        ∀ l1 a c l2, log = l1 ++ (a, c) :: l2 → a < nA ∧ c < m.numCells ∧ ∀ f x c' f', Dot K coord m a c f x → K.positive x = false →
          Across m c f c' f' → (a, c') ∈ l1 := by
  rcases h with h | h
  · exact swept_solution H hn L hD hsort.consistent hs h hsrc
  · exact planned_solution H hn L hD hsort hdef hs h hsrc

/-- C93: a sweep along the schedules, in either variant, leaves to the last bit the values that the
traversal leaves, and that a sweep along schedules on any other partition leaves: whatever the numbers of
ranks and of threads, the step size, the priorities, the buffering and the order of messages. -/
theorem planned_bitwise {S' : Type} [LinearOrder S'] {val' : Nat → S'} {pv' : List Nat} {n' : Nat} {P' : ParallelMesh} {T' : Nat → Mesh}
    {D' : Nat → Tables F} {source' psi0' : Nat → Psi F} (H : Created m pv n P) (hn : n < uintMax) (L : Loaded val P T)
    (hD : Started K coord P T D) (H' : Created m pv' n' P') (hn' : n' < uintMax) (L' : Loaded val' P' T')
    (hD' : Started K coord P' T' D') (hsort : Sorted K coord m) (hdef : Definite K tol coord m) (hs : ∀ r < n, nA * (T r).nCells < 2 ^ 64)
    (hs' : ∀ r < n', nA * (T' r).nCells < 2 ^ 64) {srcS : Psi F} (hsrc : Holds nA nG n T source srcS)
    (hsrc' : Holds nA nG n' T' source' srcS) {psi psi' : Nat → Psi F} (h : K.SweptPlan tol n T D source psi0 psi)
    (h' : K.Swept n' T' D' source' psi0' psi' ∨ K.SweptPlan tol n' T' D' source' psi0' psi') :
    ∃ psiS : Psi F, Solution K coord m srcS psiS ∧ Holds nA nG n T psi psiS ∧ Holds nA nG n' T' psi' psiS := by
  obtain ⟨psiS, a1, a2, log, a3, a4⟩ := planned_solution H hn L hD hsort hdef hs h hsrc
  obtain ⟨psiS', b1, b2, -⟩ := any_solution H' hn' L' hD' hsort hdef hs' h' hsrc'
  have hsame := solution_unique H.tets a1 b1 (same_refl _) a3 a4
  exact ⟨psiS, a1, a2, holds_same H' L' b2 fun g hg v a ha c hc => (hsame g hg v a ha c hc).symm⟩

/-- C93: so it is after any number of source iterations, each sweep of whatever kind. -/
theorem any_iterated_bitwise {S' : Type} [LinearOrder S'] {val' : Nat → S'} {pv' : List Nat} {n' : Nat} {P' : ParallelMesh} {T' : Nat → Mesh}
    {D' : Nat → Tables F} (H : Created m pv n P) (hn : n < uintMax) (L : Loaded val P T) (hD : Started K coord P T D)
    (H' : Created m pv' n' P') (hn' : n' < uintMax) (L' : Loaded val' P' T') (hD' : Started K coord P' T' D')
    (hsort : Sorted K coord m) (hdef : Definite K tol coord m) (hs : ∀ r < n, nA * (T r).nCells < 2 ^ 64)
    (hs' : ∀ r < n', nA * (T' r).nCells < 2 ^ 64)
    {k : Nat} {psi psi' : Nat → Psi F} (h : K.AnyIterated tol n T D k psi) (h' : K.AnyIterated tol n' T' D' k psi') :
    ∃ psiS : Psi F, Holds nA nG n T psi psiS ∧ Holds nA nG n' T' psi' psiS := by
  induction h generalizing psi' with
  | zero =>
    cases h'
    exact ⟨fun _ _ _ _ => K.zero, fun _ _ _ _ _ _ _ _ _ _ => rfl, fun _ _ _ _ _ _ _ _ _ _ => rfl⟩
  | succ _ hsw ih =>
    cases h' with
    | succ h1' hsw' =>
      obtain ⟨psiS, a1, a2⟩ := ih h1'
      obtain ⟨src, t1, t2⟩ := total_of H L hD a1
      obtain ⟨src', t1', t2'⟩ := total_of H' L' hD' a2
      obtain ⟨psi1, b1, b2, log, b3, b4⟩ := any_solution H hn L hD hsort hdef hs hsw t2
      obtain ⟨psi2, c1, c2, -⟩ := any_solution H' hn' L' hD' hsort hdef hs' hsw' (holds_same H' L' t2' (total_unique t1' t1))
      have hsame := solution_unique H.tets b1 c1 (same_refl _) b3 b4
      exact ⟨psi1, b2, holds_same H' L' c2 fun g hg v a ha c hc => (hsame g hg v a ha c hc).symm⟩

/-- C93: the output files of two runs of source iteration that have made the same number of sweeps are
equal byte by byte, also when one sweeps along schedules and the other by the traversal. -/
theorem any_output_bitwise {S' : Type} [LinearOrder S'] {val' : Nat → S'} {pv' : List Nat} {n' : Nat} {P' : ParallelMesh} {T' : Nat → Mesh}
    {D' : Nat → Tables F} (H : Created m pv n P) (hn : n < uintMax) (h0 : 0 < n) (L : Loaded val P T) (hD : Started K coord P T D)
    (H' : Created m pv' n' P') (hn' : n' < uintMax) (h0' : 0 < n') (L' : Loaded val' P' T') (hD' : Started K coord P' T' D')
    (hsort : Sorted K coord m) (hdef : Definite K tol coord m) (hs : ∀ r < n, nA * (T r).nCells < 2 ^ 64)
    (hs' : ∀ r < n', nA * (T' r).nCells < 2 ^ 64)
    (hng : 0 < nG) (hna : 0 < nA) (hblock : nA * 4 * nG < 2 ^ 31) (hfile : 64 + 8 * (m.numCells * (nA * 4 * nG)) ≤ 2 ^ 63)
    {k : Nat} {psi psi' : Nat → Psi F} (h : K.AnyIterated tol n T D k psi) (h' : K.AnyIterated tol n' T' D' k psi') {bits : F → Nat}
    {A A' : Nat → PsiData Nat} (hA : Stored bits n T nG nA psi A) (hA' : Stored bits n' T' nG nA psi' A')
    {f f' : File} (hf : Written n A (lgOf T) f) (hf' : Written n' A' (lgOf T') f') : f = f' := by
  obtain ⟨psiS, h1, h2⟩ := any_iterated_bitwise H hn L hD H' hn' L' hD' hsort hdef hs hs' h h'
  exact file_of_cells H L h0 H' L' h0' hng hna hblock hfile hA hA' h1 h2 hf hf'

/-- C93: on one partition, two runs of the source iteration print the same errors, stop after the same
number of sweeps and return the same bits, whatever the sweep type, the threads and the timing. -/
theorem any_fixedPoint_repeats (H : Created m pv n P) (hn : n < uintMax) (L : Loaded val P T) (hD : Started K coord P T D)
    (hsort : Sorted K coord m) (hdef : Definite K tol coord m) (hs : ∀ r < n, nA * (T r).nCells < 2 ^ 64) {test : Test F} {iterMax : Nat}
    {psi psi' : Nat → Psi F} {l l' : List F} (h : K.AnyFixedPoint tol test iterMax n T D psi l) (hend : test.Ended iterMax l)
    (h' : K.AnyFixedPoint tol test iterMax n T D psi' l') (hend' : test.Ended iterMax l') :
    l = l' ∧ ∀ r < n, ∀ i < (T r).nCells, ∀ g < nG, ∀ v, ∀ a < nA, psi r g v a i = psi' r g v a i := by
  have hit : ∀ {psi l}, K.AnyFixedPoint tol test iterMax n T D psi l → K.AnyIterated tol n T D l.length psi := by
    intro psi l h
    induction h with
    | zero => exact .zero
    | succ _ _ _ hsw ih => exact .succ ih hsw
  have hval : ∀ {k} {psi psi' : Nat → Psi F}, K.AnyIterated tol n T D k psi → K.AnyIterated tol n T D k psi' →
      ∀ r < n, ∀ i < (T r).nCells, ∀ g < nG, ∀ v, ∀ a < nA, psi r g v a i = psi' r g v a i := by
    intro k psi psi' q q' r hr i hi g hg v a ha
    obtain ⟨psiS, b1, b2⟩ := any_iterated_bitwise H hn L hD H hn L hD hsort hdef hs hs q q'
    obtain ⟨c, hc⟩ := isCell_of_lt H L hr hi
    rw [b1 r hr i c (isCell_lg H L hc).1 g hg v a ha, b2 r hr i c (isCell_lg H L hc).1 g hg v a ha]
  have hlist : ∀ k, ∀ {psi psi' l l'}, K.AnyFixedPoint tol test iterMax n T D psi l → K.AnyFixedPoint tol test iterMax n T D psi' l' →
      l.length = k → l'.length = k → l = l' := by
    intro k
    induction k with
    | zero => intro _ _ l l' _ _ e e'; rw [List.length_eq_zero_iff.1 e, List.length_eq_zero_iff.1 e']
    | succ k ih =>
      intro _ _ l l' q q' e e'
      cases q with
      | zero => simp at e
      | succ q1 _ _ q4 =>
        cases q' with
        | zero => simp at e'
        | succ q1' _ _ q4' =>
          have e := Nat.succ.inj e
          have e' := Nat.succ.inj e'
          obtain rfl := ih q1 q1' e e'
          congr 1
          refine errorOf_eq (hval (hit q1) (hit q1')) (hval (.succ (hit q1) q4) (.succ (hit q1') q4'))
  have hprefix : ∀ {psi l}, K.AnyFixedPoint tol test iterMax n T D psi l → ∀ j < l.length,
      ∃ psi1 l1, K.AnyFixedPoint tol test iterMax n T D psi1 l1 ∧ l1.length = j ∧ ¬ test.Ended iterMax l1 := by
    intro psi l h
    induction h with
    | zero => simp
    | @succ psi1 psi2 l1 q1 q2 q3 q4 ih =>
      intro j hj
      rcases Nat.lt_succ_iff_lt_or_eq.1 hj with hj | rfl
      · exact ih j hj
      · exact ⟨psi1, l1, q1, rfl, by rintro (h | h); · omega
                                     · rw [q3] at h; simp at h⟩
  have hlen : l.length = l'.length := by
    rcases Nat.lt_trichotomy l.length l'.length with hlt | he | hgt
    · obtain ⟨psi1, l1, q1, q2, q3⟩ := hprefix h' _ hlt
      obtain rfl := hlist _ q1 h q2 rfl
      exact absurd hend q3
    · exact he
    · obtain ⟨psi1, l1, q1, q2, q3⟩ := hprefix h _ hgt
      obtain rfl := hlist _ q1 h' q2 rfl
      exact absurd hend' q3
  refine ⟨hlist _ h h' hlen rfl, hval (hit h) ?_⟩
  rw [hlen]
  exact hit h'

/-- C93: the schedules can be built, and along them the sweep of the machine never deadlocks and never goes
on for ever: for all settings with at least one angle group and a positive step size, on every
partition. -/
theorem planned_returns (H : Created m pv n P) (hn : n < uintMax) (L : Loaded val P T) (hD : Started K coord P T D)
    (hsort : Sorted K coord m) (hdef : Definite K tol coord m) (hs : ∀ r < n, nA * (T r).nCells < 2 ^ 64) (source psi0 : Nat → Psi F)
    (pl : Planning F) (hG : 0 < pl.nAngleGroups) (hc : pl.maxCells % 2 ^ 32 ≠ 0) :
    (∃ sched, K.Scheduled tol n T D pl sched) ∧ ∀ sched, K.Scheduled tol n T D pl sched →
      (∀ s : SweepState (K.planned n T D pl sched source psi0), Schedule.Swept s → ¬ s.Over → ∃ s', Move s s') ∧
      (∃ N, ∀ (f : Nat → SweepState (K.planned n T D pl sched source psi0)) (k : Nat), f 0 = (K.planned n T D pl sched source psi0).start →
        (∀ i < k, Move (f i) (f (i + 1))) → k ≤ N) ∧
      ∃ (s : SweepState (K.planned n T D pl sched source psi0)) (psi : Nat → Psi F), Schedule.Swept s ∧ s.Over ∧
        (∀ r < n, (s.rank r).data.1 = psi r) ∧ K.SweptPlan tol n T D source psi0 psi := by
  constructor
  · have hJ := (planned_follows (sched := fun _ => (K.graph tol n T D pl 0).init) H hn L hD hsort hdef hs hG source psi0).1
    have hex : ∀ g, ∃ s, g < pl.nAngleGroups → Ordering (K.graph tol n T D pl g) (pl.priority g) s := by
      intro g
      by_cases hg : g < pl.nAngleGroups
      · obtain ⟨s, hs⟩ := schedule_returns (hJ g hg) (Nat.pos_of_ne_zero hc) (pl.priority g)
        exact ⟨s, fun _ => hs⟩
      · exact ⟨(K.graph tol n T D pl 0).init, fun h => absurd h hg⟩
    choose sched hsched using hex
    exact ⟨sched, hsched⟩
  · intro sched hB
    obtain ⟨Q, TT⟩ := planned_timetable H hn L hD hsort hdef hs hG hB source psi0
    have A := planned_agrees (planned_apart (K := K) (D := D) (pl := pl) (sched := sched) (source := source) (psi0 := psi0) H hn L hs)
    refine ⟨fun s h hno => scheduled_progress TT Q A rfl h hno, ⟨_, scheduled_bounded TT⟩, ?_⟩
    obtain ⟨s, -, h1, h2⟩ := scheduled_returns TT Q A rfl (s := (K.planned n T D pl sched source psi0).start) .start
    exact ⟨s, fun r => (s.rank r).data.1, h1, h2, fun _ _ => rfl, pl, sched, s, hG, hB, h1, h2, fun _ _ => rfl⟩

/-- Any number of iterations can be made along schedules. -/
theorem planned_iterated_exists (H : Created m pv n P) (hn : n < uintMax) (L : Loaded val P T) (hD : Started K coord P T D)
    (hsort : Sorted K coord m) (hdef : Definite K tol coord m) (hs : ∀ r < n, nA * (T r).nCells < 2 ^ 64)
    (pl : Planning F) (hG : 0 < pl.nAngleGroups) (hc : pl.maxCells % 2 ^ 32 ≠ 0) (k : Nat) :
    ∃ psi, K.AnyIterated tol n T D k psi := by
  induction k with
  | zero => exact ⟨_, .zero⟩
  | succ k ih =>
    obtain ⟨psi, h⟩ := ih
    obtain ⟨⟨sched, hB⟩, h1⟩ := planned_returns H hn L hD hsort hdef hs (fun r => K.totalSource (D r) (psi r)) psi pl hG hc
    obtain ⟨-, -, s, psi', -, -, -, h2⟩ := h1 sched hB
    exact ⟨psi', .succ h (.inr h2)⟩

end Verif.Floating
