import Verif.Fine.Props
import Verif.Threads.Sweep
import Verif.Floating.PlannedProps

/-!
# The statements of `doComputation`, `getBoundData` and `setBoundData`

One assignment at a time, on the machine arithmetic of `Verif.Floating`. They meet the conditions of
`Slices`, so whatever the interleaving of assignments and calls a sweep along schedules leaves the same
values to the last bit.
-/
set_option linter.unusedSectionVars false

namespace Verif.Fine

open Verif.MeshFile Verif.TychoMesh Verif.Traverse Verif.Schedule Verif.Floating
open Verif.Threads (Slice Scratch Stmt sliceOf putSlice updateStmts updateStmts_eq runAll runAll_append runAll_one mem_all2 mem_all3)

variable {F : Type} {nA nG : Nat}

/-- `psiBound(group, vertex, angle, side) = localPsi(cellVrtx, group)` under its two conditions
(src/Sweeper.cc:239-251). -/
def putOutgoing (K : Kernel F nA nG) (T : Mesh) (D : Tables F) (a c : Nat) (i : Fin nG × Fin 4 × Fin 3) : Stmt F nG := fun e x =>
  if (T.getAdjCell c i.2.1).bind toNone = none ∧ K.outgoing D a c i.2.1 = true then
    ((e.1, fun g k s => if g = (i.1 : Nat) ∧ k = i.2.2 ∧ s = (T.getSide c i.2.1).getD 0 then
      x.psi ((T.getFaceToCellVrtx c i.2.1 i.2.2).getD 0) i.1 else e.2 g k s), x)
  else (e, x)

/-- The statements of `updateBoundData` (src/Sweeper.cc:237-253). -/
def boundStmts (K : Kernel F nA nG) (T : Mesh) (D : Tables F) (c a : Nat) : List (Stmt F nG) :=
  (List.finRange nG ×ˢ (List.finRange 4 ×ˢ List.finRange 3)).map (putOutgoing K T D a c)

/-- `psiSide[VG(vertex, group)] = psiBound(group, vertex, angle, side)` (src/Sweeper.cc:82). -/
def getSide (side : Nat) (i : Fin 3 × Fin nG) : Stmt F nG := fun e x =>
  (e, { x with face := fun k g => if (k, g) = i then e.2 i.2 i.1 side else x.face k g })

/-- `psiBound(group, vrtx, angle, side) = commPsi[commPsiIndex + VG(vrtx, group)]` (src/Sweeper.cc:102). -/
def setSide (side : Nat) (b : Fin 3 → Fin nG → F) (i : Fin 3 × Fin nG) : Stmt F nG := fun e x =>
  ((e.1, fun g k s => if g = (i.2 : Nat) ∧ k = i.1 ∧ s = side then b i.1 i.2 else e.2 g k s), x)

theorem foldl_one {α β : Type} [DecidableEq α] (φ : β → β) (j : α) (l : List α) (hl : l.Nodup) (b : β) :
    l.foldl (fun b i => if i = j then φ b else b) b = if j ∈ l then φ b else b := by
  induction l generalizing b with
  | nil => simp
  | cons i l ih =>
    rw [List.nodup_cons] at hl
    rw [List.foldl_cons, ih hl.2]
    by_cases h : i = j
    · subst h; simp [hl.1]
    · have h' : ¬ j = i := fun e => h e.symm
      simp [h, h']

/-- What a run of `updateBoundData` leaves in one entry: the faces in turn. -/
theorem run_putOutgoing (K : Kernel F nA nG) (T : Mesh) (D : Tables F) (a c : Nat) (l : List (Fin nG × Fin 4 × Fin 3)) (e : Slice F)
    (x : Scratch F nG) :
    runAll (l.map (putOutgoing K T D a c)) (e, x) =
      ((e.1, fun g k s => l.foldl (fun b i =>
        if g = (i.1 : Nat) ∧ k = i.2.2 ∧ s = (T.getSide c i.2.1).getD 0 ∧
          ((T.getAdjCell c i.2.1).bind toNone = none ∧ K.outgoing D a c i.2.1 = true) then
          x.psi ((T.getFaceToCellVrtx c i.2.1 i.2.2).getD 0) i.1 else b) (e.2 g k s)), x) := by
  induction l using List.reverseRecOn with
  | nil => rfl
  | append_singleton l i ih =>
    rw [List.map_append, runAll_append, ih, List.map_singleton, runAll_one]
    unfold putOutgoing
    dsimp only
    split
    · next h =>
      congr 2
      funext g k s
      rw [List.foldl_append, List.foldl_cons, List.foldl_nil]
      simp only [h, and_true]
    · next h =>
      congr 2
      funext g k s
      rw [List.foldl_append, List.foldl_cons, List.foldl_nil]
      simp only [h, and_false, if_false]

/-- The three loops, entry by entry. -/
theorem foldl_entry (P : Fin 4 → Prop) [DecidablePred P] (v : Fin 4 → Fin 3 → Fin nG → F) (g : Nat) (k : Fin 3) (b : F) :
    (List.finRange nG ×ˢ (List.finRange 4 ×ˢ List.finRange 3)).foldl
        (fun b i => if g = (i.1 : Nat) ∧ k = i.2.2 ∧ P i.2.1 then v i.2.1 i.2.2 i.1 else b) b =
      if h : g < nG then (List.finRange 4).foldl (fun b f => if P f then v f k ⟨g, h⟩ else b) b else b := by
  have hin : ∀ (g' : Fin nG) (b : F), (List.finRange 4 ×ˢ List.finRange 3).foldl
      (fun b i => if g = (g' : Nat) ∧ k = i.2 ∧ P i.1 then v i.1 i.2 g' else b) b =
      if g = (g' : Nat) then (List.finRange 4).foldl (fun b f => if P f then v f k g' else b) b else b := by
    intro g' b
    by_cases hg : g = (g' : Nat)
    · simp only [hg, true_and, if_true]
      show (List.flatMap (fun f => (List.finRange 3).map (Prod.mk f)) (List.finRange 4)).foldl _ b = _
      rw [List.foldl_flatMap]
      congr 1
      funext b f
      rw [List.foldl_map]
      have := foldl_one (fun b => if P f then v f k g' else b) k (List.finRange 3) (List.nodup_finRange 3) b
      rw [if_pos (List.mem_finRange k)] at this
      rw [← this]
      congr 1
      funext b i
      by_cases hi : i = k
      · subst hi; simp
      · have : ¬ k = i := fun e => hi e.symm
        simp [hi, this]
    · simp only [hg, false_and, if_false]
      induction (List.finRange 4 ×ˢ List.finRange 3) with
      | nil => rfl
      | cons _ _ ih => exact ih
  show (List.flatMap (fun g' => (List.finRange 4 ×ˢ List.finRange 3).map (Prod.mk g')) (List.finRange nG)).foldl _ b = _
  rw [List.foldl_flatMap]
  simp only [List.foldl_map, hin]
  by_cases h : g < nG
  · rw [dif_pos h]
    have := foldl_one (fun b => (List.finRange 4).foldl (fun b f => if P f then v f k ⟨g, h⟩ else b) b) ⟨g, h⟩ (List.finRange nG)
      (List.nodup_finRange nG) b
    rw [if_pos (List.mem_finRange _)] at this
    rw [← this]
    congr 1
    funext b i
    by_cases hi : i = ⟨g, h⟩
    · subst hi; simp
    · have : ¬ g = (i : Nat) := fun e => hi (Fin.ext e.symm)
      simp [hi, this]
  · rw [dif_neg h]
    have : ∀ i : Fin nG, ¬ g = (i : Nat) := fun i e => h (e ▸ i.2)
    simp only [this, if_false]
    induction List.finRange nG with
    | nil => rfl
    | cons _ _ ih => exact ih

/-- `localPsi` is what was stored. -/
theorem update_scratch (K : Kernel F nA nG) (T : Mesh) (D : Tables F) (source : Psi F) (c a : Nat) (d : Psi F × Bound F)
    (x : Scratch F nG) (v : Fin 4) (g : Fin nG) :
    (runAll (updateStmts K T D source c a) (sliceOf d a, x)).2.psi v g =
      (runAll (updateStmts K T D source c a) (sliceOf d a, x)).1.1 g v c := by
  unfold updateStmts
  generalize (List.finRange nG ×ˢ List.finRange 4).map (Threads.putSource source a c) ++ [Threads.clearBound K.zero] ++
    (List.finRange nG ×ˢ (List.finRange 4 ×ˢ List.finRange 3)).map (Threads.putBound K T D a c) ++ [Threads.solveStmt K T D a c] = l
  rw [runAll_append]
  obtain ⟨e, y⟩ := runAll l (sliceOf d a, x)
  rw [Threads.run_storePsi]
  simp [mem_all2]

theorem foldl_fun {α : Type} (P : α → Prop) [DecidablePred P] (Q : α → Nat → Fin 3 → Nat → Nat → Prop)
    [∀ i g k a s, Decidable (Q i g k a s)] (v : α → Nat → Fin 3 → F) (l : List α) (b : Bound F) (g : Nat) (k : Fin 3) (a s : Nat) :
    l.foldl (fun b i => if P i then fun g k a s => if Q i g k a s then v i g k else b g k a s else b) b g k a s =
      l.foldl (fun b i => if Q i g k a s ∧ P i then v i g k else b) (b g k a s) := by
  induction l generalizing b with
  | nil => rfl
  | cons i l ih =>
    rw [List.foldl_cons, List.foldl_cons, ih]
    congr 1
    by_cases hp : P i <;> simp [hp]

theorem computeStmts_eq (K : Kernel F nA nG) (T : Mesh) (D : Tables F) (source : Psi F) (c a : Nat) (d : Psi F × Bound F)
    (x : Scratch F nG) : K.updateBound T D c a (K.update T D source c a d) =
      putSlice d a (runAll (updateStmts K T D source c a ++ boundStmts K T D c a) (sliceOf d a, x)).1 := by
  have hu := updateStmts_eq K T D source c a d x
  have hx := update_scratch K T D source c a d x
  rw [runAll_append]
  generalize runAll (updateStmts K T D source c a) (sliceOf d a, x) = p at hu hx
  obtain ⟨e, y⟩ := p
  dsimp only at hu hx
  rw [hu]
  unfold boundStmts
  rw [run_putOutgoing]
  dsimp only
  unfold Kernel.updateBound putSlice
  dsimp only
  refine Prod.ext rfl ?_
  funext g k a' s
  dsimp only
  rw [foldl_fun (fun f => (T.getAdjCell c f).bind toNone = none ∧ K.outgoing D a c f = true)
    (fun f g _ a' s => a' = a ∧ s = (T.getSide c f).getD 0 ∧ g < nG) (fun f g k => if a = a then e.1 g ((T.getFaceToCellVrtx c f k).getD 0) c else _)]
  by_cases ha : a' = a
  · subst ha
    simp only [if_true, true_and]
    rw [foldl_entry (fun f => s = (T.getSide c f).getD 0 ∧ ((T.getAdjCell c f).bind toNone = none ∧ K.outgoing D a' c f = true))
      (fun f k g => y.psi ((T.getFaceToCellVrtx c f k).getD 0) g)]
    by_cases hg : g < nG
    · rw [dif_pos hg]
      congr 1
      funext b f
      simp only [hg, and_true, hx]
    · rw [dif_neg hg]
      simp only [hg, and_false, false_and, if_false]
      induction List.finRange 4 with
      | nil => rfl
      | cons _ _ ih => exact ih
  · simp only [ha, false_and, if_false]
    induction List.finRange 4 with
    | nil => rfl
    | cons _ _ ih => exact ih

theorem run_getSide (side : Nat) (l : List (Fin 3 × Fin nG)) (e : Slice F) (x : Scratch F nG) :
    runAll (l.map (getSide side)) (e, x) = (e, { x with face := fun k g => if (k, g) ∈ l then e.2 g k side else x.face k g }) := by
  induction l using List.reverseRecOn with
  | nil => simp [runAll]
  | append_singleton l i ih =>
    rw [List.map_append, runAll_append, ih, List.map_singleton, runAll_one]
    simp only [getSide, List.mem_append, List.mem_singleton]
    congr 2
    funext k g
    by_cases h : (k, g) = i
    · subst h; simp
    · simp [h]

theorem run_setSide (side : Nat) (b : Fin 3 → Fin nG → F) (l : List (Fin 3 × Fin nG)) (e : Slice F) (x : Scratch F nG) :
    runAll (l.map (setSide side b)) (e, x) =
      ((e.1, fun g k s => if h : s = side ∧ g < nG then (if (k, ⟨g, h.2⟩) ∈ l then b k ⟨g, h.2⟩ else e.2 g k s) else e.2 g k s), x) := by
  induction l using List.reverseRecOn with
  | nil => simp [runAll]
  | append_singleton l i ih =>
    rw [List.map_append, runAll_append, ih, List.map_singleton, runAll_one]
    simp only [setSide, List.mem_append, List.mem_singleton]
    congr 2
    funext g k s
    by_cases h : g = (i.2 : Nat) ∧ k = i.1 ∧ s = side
    · obtain ⟨rfl, rfl, rfl⟩ := h
      simp
    · rw [if_neg h]
      by_cases h' : s = side ∧ g < nG
      · rw [dif_pos h', dif_pos h']
        have : ¬ (k, (⟨g, h'.2⟩ : Fin nG)) = i := by
          rintro rfl
          exact h ⟨rfl, rfl, h'.1⟩
        simp [this]
      · rw [dif_neg h', dif_neg h']

/-- `psi` and `psiBound` split by angle (src/Sweeper.cc:268-309, 75-104). -/
def planSlices (K : Kernel F nA nG) (n : Nat) (T : Nat → Mesh) (D : Nat → Tables F) (pl : Planning F) (sched : Nat → Schedule.State)
    (source psi0 : Nat → Psi F) (x0 : Scratch F nG) : Slices (K.planned n T D pl sched source psi0) (Slice F) (Scratch F nG) where
  get := sliceOf
  set := putSlice
  get_set_same d a e := by simp [sliceOf, putSlice]
  get_set_ne d a e a' h := by simp [sliceOf, putSlice, h]
  ext d d' h := by
    refine Prod.ext ?_ ?_
    · funext g v a c
      exact congrFun (congrFun (congrFun (congrArg Prod.fst (h a)) g) v) c
    · funext g k a s
      exact congrFun (congrFun (congrFun (congrArg Prod.snd (h a)) g) k) s
  parts r c a := updateStmts K (T r) (D r) (source r) c a ++ boundStmts K (T r) (D r) c a
  parts_eq r c a d x := computeStmts_eq K (T r) (D r) (source r) c a d x
  face side := (List.finRange 3 ×ˢ List.finRange nG).map (getSide side)
  read x := x.face
  face_eq side a d x := by
    rw [run_getSide]
    refine ⟨rfl, ?_⟩
    simp only [mem_all2, if_true]
    rfl
  store r side b := (List.finRange 3 ×ˢ List.finRange nG).map (setSide side b)
  store_eq r side a b d x := by
    rw [run_setSide]
    simp only [mem_all2, if_true]
    unfold putSlice
    refine Prod.ext ?_ ?_
    · funext g v a' c
      dsimp only
      by_cases ha : a' = a
      · subst ha; rw [if_pos rfl]; rfl
      · rw [if_neg ha]; rfl
    · funext g k a' s
      show (if h : a' = a ∧ s = side ∧ g < nG then b k ⟨g, h.2.2⟩ else d.2 g k a' s) = _
      dsimp only
      by_cases ha : a' = a
      · subst ha
        rw [if_pos rfl]
        by_cases h : s = side ∧ g < nG
        · rw [dif_pos ⟨rfl, h⟩, dif_pos h]
        · rw [dif_neg h, dif_neg fun h' => h h'.2]; rfl
      · rw [if_neg ha, dif_neg fun h => ha h.1]
  scratch := x0

/-- A sweep along schedules whose threads and calls interleave statement by statement may return with
`psi'`. -/
def PlanRun (K : Kernel F nA nG) (tol : Tolerance F) (n : Nat) (T : Nat → Mesh) (D : Nat → Tables F)
    (source psi psi' : Nat → Psi F) : Prop :=
  ∃ (pl : Planning F) (sched : Nat → Schedule.State) (x0 : Scratch F nG)
    (w : State (Psi F × Bound F) (Fin 3 → Fin nG → F) (Slice F) (Scratch F nG)), 0 < pl.nAngleGroups ∧
    K.Scheduled tol n T D pl sched ∧ Run (planSlices K n T D pl sched source psi x0) w ∧
    w.Over (K.planned n T D pl sched source psi) ∧ ∀ r < n, (w.rank r).data.1 = psi' r

variable {K : Kernel F nA nG} {tol : Tolerance F} {coord : Nat → F} {n : Nat} {T : Nat → Mesh} {D : Nat → Tables F}
  {S : Type} [LinearOrder S] {val : Nat → S} {m : SerialMesh} {pv : List Nat} {P : ParallelMesh}
  {source psi0 : Nat → Psi F} {pl : Planning F} {sched : Nat → Schedule.State}

theorem sends_nodup (hB : K.Scheduled tol n T D pl sched) (g : Nat) (hg : g < (K.planned n T D pl sched source psi0).nAngleGroups) (r : Nat)
    (_ : r < (K.planned n T D pl sched source psi0).cfg.nRanks) (k : Nat) :
    ((K.planned n T D pl sched source psi0).sendAt g r k).Nodup := by
  show (((sched g).sendProcs r).getD k []).Nodup
  rcases Nat.lt_or_ge k ((sched g).sendProcs r).length with hk | hk
  · rw [List.getD_eq_getElem _ _ hk]
    exact ((procs_ok (hB g hg).1 r).1 _ (List.getElem_mem hk)).1
  · rw [List.getD_eq_default _ _ hk]; exact List.nodup_nil

/-- C94: what statements and calls in any order can leave, whole steps can leave. -/
theorem planRun_swept (H : Created m pv n P) (hn : n < uintMax) (L : Loaded val P T) (hD : Started K coord P T D)
    (hsort : Sorted K coord m) (hdef : Definite K tol coord m) (hs : ∀ r < n, nA * (T r).nCells < 2 ^ 64) {psi' : Nat → Psi F}
    (h : PlanRun K tol n T D source psi0 psi') : K.SweptPlan tol n T D source psi0 psi' := by
  obtain ⟨pl, sched, x0, w, hG, hB, hw, ho, hf⟩ := h
  obtain ⟨Q, TT⟩ := planned_timetable H hn L hD hsort hdef hs hG hB source psi0
  obtain ⟨s, h1, h2, -, h4⟩ := calls_refine TT Q (planned_agrees (planned_apart H hn L hs)) rfl (sends_nodup hB) hw ho
  refine ⟨pl, sched, s, hG, hB, h1, h2, fun r hr => ?_⟩
  rw [h4 r hr]
  exact hf r hr

/-- C94: a sweep along schedules leaves, to the last bit, the values given by the serial mesh, the source and
the compiled functions, and those the traversal leaves on any other partition: whatever the
interleaving of single assignments and calls of MPI, in either variant. -/
theorem planRun_bitwise {S' : Type} [LinearOrder S'] {val' : Nat → S'} {pv' : List Nat} {n' : Nat} {P' : ParallelMesh} {T' : Nat → Mesh}
    {D' : Nat → Tables F} {source' psi0' : Nat → Psi F} (H : Created m pv n P) (hn : n < uintMax) (L : Loaded val P T)
    (hD : Started K coord P T D) (H' : Created m pv' n' P') (hn' : n' < uintMax) (L' : Loaded val' P' T')
    (hD' : Started K coord P' T' D') (hsort : Sorted K coord m) (hdef : Definite K tol coord m)
    (hs : ∀ r < n, nA * (T r).nCells < 2 ^ 64)
    (hs' : ∀ r < n', nA * (T' r).nCells < 2 ^ 64) {srcS : Psi F} (hsrc : Spec.Holds nA nG n T source srcS)
    (hsrc' : Spec.Holds nA nG n' T' source' srcS) {psi psi' : Nat → Psi F} (h : PlanRun K tol n T D source psi0 psi)
    (h' : K.Swept n' T' D' source' psi0' psi' ∨ PlanRun K tol n' T' D' source' psi0' psi') :
    ∃ psiS : Psi F, Spec.Solution K coord m srcS psiS ∧ Spec.Holds nA nG n T psi psiS ∧ Spec.Holds nA nG n' T' psi' psiS :=
  planned_bitwise H hn L hD H' hn' L' hD' hsort hdef hs hs' hsrc hsrc' (planRun_swept H hn L hD hsort hdef hs h)
    (h'.imp id (planRun_swept H' hn' L' hD' hsort hdef hs'))

/-- C94: and such a sweep returns: for all settings with at least one angle group and a positive step size
the schedules can be built, and along them the statements and calls never deadlock, never go on for ever,
and do not race. -/
theorem planRun_returns (H : Created m pv n P) (hn : n < uintMax) (L : Loaded val P T) (hD : Started K coord P T D)
    (hsort : Sorted K coord m) (hdef : Definite K tol coord m) (hs : ∀ r < n, nA * (T r).nCells < 2 ^ 64)
    (source psi0 : Nat → Psi F) (pl : Planning F) (hG : 0 < pl.nAngleGroups) (hc : pl.maxCells % 2 ^ 32 ≠ 0) (x0 : Scratch F nG) :
    (∃ sched, K.Scheduled tol n T D pl sched) ∧ ∀ sched, K.Scheduled tol n T D pl sched →
      (∀ w, Run (planSlices K n T D pl sched source psi0 x0) w → ¬ w.Over (K.planned n T D pl sched source psi0) →
        ∃ w', Step (planSlices K n T D pl sched source psi0 x0) w w') ∧
      (∀ f : Nat → State (Psi F × Bound F) (Fin 3 → Fin nG → F) (Slice F) (Scratch F nG), f 0 = start (planSlices K n T D pl sched source psi0 x0) →
        ¬ ∀ i, Step (planSlices K n T D pl sched source psi0 x0) (f i) (f (i + 1))) ∧
      (∀ w, Run (planSlices K n T D pl sched source psi0 x0) w → ∀ r, ∀ g < pl.nAngleGroups, ∀ g' < pl.nAngleGroups, g ≠ g' →
        ∀ o l o' l', (w.rank r).pc g = .ops (o :: l) → (w.rank r).pc g' = .ops (o' :: l') → ∀ x ∈ touches g o, x ∉ touches g' o') ∧
      ∃ psi, PlanRun K tol n T D source psi0 psi := by
  refine ⟨(planned_returns H hn L hD hsort hdef hs source psi0 pl hG hc).1, fun sched hB => ?_⟩
  obtain ⟨Q, TT⟩ := planned_timetable H hn L hD hsort hdef hs hG hB source psi0
  have A := planned_agrees (planned_apart (K := K) (D := D) (pl := pl) (sched := sched) (source := source) (psi0 := psi0) H hn L hs)
  have hnd := sends_nodup (source := source) (psi0 := psi0) hB
  refine ⟨fun w hw ho => calls_no_deadlock TT Q A rfl hnd hw ho, fun f h0 => calls_terminate TT Q A rfl hnd f h0,
    fun w hw r g hg g' hg' hne o l o' l' hp hp' => calls_no_race TT Q A rfl hnd hw hg hg' hne hp hp', ?_⟩
  obtain ⟨w, -, hw, ho⟩ := calls_finish TT Q A rfl hnd (Z := planSlices K n T D pl sched source psi0 x0) .start
  exact ⟨fun r => (w.rank r).data.1, pl, sched, x0, w, hG, hB, hw, ho, fun _ _ => rfl⟩

end Verif.Fine
