import Verif.Threads.Props
import Verif.Floating.Props
import Mathlib.Data.List.ProdSigma

/-!
# `SweepData` under threads

The statements of `SweepData::update` and `SweepData::getData` one assignment at a time, on the machine
arithmetic of `Verif.Floating`. They meet the conditions of `Slices`, so whatever the interleaving of
the assignments a sweep leaves the same values to the last bit.
-/
set_option linter.unusedSectionVars false

namespace Verif.Threads

open Verif.MeshFile Verif.TychoMesh Verif.Traverse Verif.Floating

/-- `c_psi` and `c_psiBound` for one angle (src/SweepData.hh:176-184). -/
abbrev Slice (F : Type) := (Nat → Fin 4 → Nat → F) × (Nat → Fin 3 → Nat → F)

/-- The scratch arrays of one thread (src/SweepData.hh:181-184). -/
structure Scratch (F : Type) (nG : Nat) where
  face : Fin 3 → Fin nG → F
  source : Fin 4 → Fin nG → F
  psi : Fin 4 → Fin nG → F
  bound : Fin 3 → Fin 4 → Fin nG → F

variable {F : Type} {nA nG : Nat}

/-- A statement of `SweepData`. -/
abbrev Stmt (F : Type) (nG : Nat) := Slice F → Scratch F nG → Slice F × Scratch F nG

/-- `localFaceData(fvrtx, group) = c_psi(group, vrtx, angle, cell)` (src/SweepData.hh:100). -/
def putFace (vrtx : Fin 3 → Fin 4) (c : Nat) (i : Fin nG × Fin 3) : Stmt F nG := fun e x =>
  (e, { x with face := fun k g => if (g, k) = i then e.1 i.1 (vrtx i.2) c else x.face k g })

/-- `localSource(vrtx, group) = c_source(group, vrtx, angle, cell)` (src/SweepData.hh:156). -/
def putSource (source : Psi F) (a c : Nat) (i : Fin nG × Fin 4) : Stmt F nG := fun e x =>
  (e, { x with source := fun v g => if (g, v) = i then source i.1 i.2 a c else x.source v g })

/-- `localPsiBound[i] = 0.0` for all `i` (src/Transport.cc:746-747); each of them writes another entry,
and nothing is read in between. -/
def clearBound (zero : F) : Stmt F nG := fun e x => (e, { x with bound := fun _ _ _ => zero })

/-- What one iteration of the loops assigns to `localPsiBound(fvrtx, face, group)`, if anything
(src/Transport.cc:751-774). -/
def incomingValue (K : Kernel F nA nG) (T : Mesh) (D : Tables F) (a c : Nat) (e : Slice F) (i : Fin nG × Fin 4 × Fin 3) :
    Option F :=
  if K.outgoing D a c i.2.1 then none else
    match (T.getAdjCell c i.2.1).bind toNone with
    | some n => some (e.1 i.1 ((T.getNeighborVrtx c i.2.1 i.2.2).getD 0) n)
    | none => match (T.getAdjRank c i.2.1).bind toNone with
      | some _ => some (e.2 i.1 i.2.2 ((T.getSide c i.2.1).getD 0))
      | none => none

/-- One iteration of those loops. -/
def putBound (K : Kernel F nA nG) (T : Mesh) (D : Tables F) (a c : Nat) (i : Fin nG × Fin 4 × Fin 3) : Stmt F nG := fun e x =>
  match incomingValue K T D a c e i with
  | some v => (e, { x with bound := fun k f g => if (g, f, k) = i then v else x.bound k f g })
  | none => (e, x)

/-- `Transport::solve(cell, angle, g_sigmaT[cell], localPsiBound, localSource, localPsi)`
(src/SweepData.hh:165-166): only scratch memory and constants. -/
def solveStmt (K : Kernel F nA nG) (T : Mesh) (D : Tables F) (a c : Nat) : Stmt F nG := fun e x =>
  (e, { x with
    psi := K.solve ((D.volume[c]?).getD K.zero) ((D.area[c]?).getD fun _ => K.zero) (K.omega D a c)
      ((D.sigmaT[c]?).getD K.zero) (faceVertex T c) x.bound x.source })

/-- `c_psi(group, vrtx, angle, cell) = localPsi(vrtx, group)` (src/SweepData.hh:172). -/
def storePsi (c : Nat) (i : Fin nG × Fin 4) : Stmt F nG := fun e x =>
  ((fun g v c' => if g = (i.1 : Nat) ∧ v = i.2 ∧ c' = c then x.psi i.2 i.1 else e.1 g v c', e.2), x)

/-- The statements of `SweepData::update` (src/SweepData.hh:139-174). -/
def updateStmts (K : Kernel F nA nG) (T : Mesh) (D : Tables F) (source : Psi F) (c a : Nat) : List (Stmt F nG) :=
  (List.finRange nG ×ˢ List.finRange 4).map (putSource source a c) ++
  [clearBound K.zero] ++
  (List.finRange nG ×ˢ (List.finRange 4 ×ˢ List.finRange 3)).map (putBound K T D a c) ++
  [solveStmt K T D a c] ++
  (List.finRange nG ×ˢ List.finRange 4).map (storePsi c)

/-- The statements of `SweepData::getData` (src/SweepData.hh:92-104). -/
def getDataStmts (T : Mesh) (c : Nat) (f : Fin 4) : List (Stmt F nG) :=
  (List.finRange nG ×ˢ List.finRange 3).map (putFace (fun k => (T.getFaceToCellVrtx c f k).getD 0) c)

theorem runAll_append {E X : Type} (l l' : List (E → X → E × X)) (p : E × X) : runAll (l ++ l') p = runAll l' (runAll l p) := by
  simp [runAll, List.foldl_append]

theorem runAll_one {E X : Type} (f : E → X → E × X) (p : E × X) : runAll [f] p = f p.1 p.2 := rfl

theorem run_putFace (vrtx : Fin 3 → Fin 4) (c : Nat) (l : List (Fin nG × Fin 3)) (e : Slice F) (x : Scratch F nG) :
    runAll (l.map (putFace vrtx c)) (e, x) = (e, { x with face := fun k g => if (g, k) ∈ l then e.1 g (vrtx k) c else x.face k g }) := by
  induction l using List.reverseRecOn with
  | nil => simp [runAll]
  | append_singleton l i ih =>
    rw [List.map_append, runAll_append, ih, List.map_singleton, runAll_one]
    simp only [putFace, List.mem_append, List.mem_singleton]
    congr 2
    funext k g
    by_cases h : (g, k) = i
    · subst h; simp
    · simp [h]

theorem run_putSource (source : Psi F) (a c : Nat) (l : List (Fin nG × Fin 4)) (e : Slice F) (x : Scratch F nG) :
    runAll (l.map (putSource source a c)) (e, x) =
      (e, { x with source := fun v g => if (g, v) ∈ l then source g v a c else x.source v g }) := by
  induction l using List.reverseRecOn with
  | nil => simp [runAll]
  | append_singleton l i ih =>
    rw [List.map_append, runAll_append, ih, List.map_singleton, runAll_one]
    simp only [putSource, List.mem_append, List.mem_singleton]
    congr 2
    funext k g
    by_cases h : (g, k) = i
    · subst h; simp
    · simp [h]

theorem run_putBound (K : Kernel F nA nG) (T : Mesh) (D : Tables F) (a c : Nat) (l : List (Fin nG × Fin 4 × Fin 3)) (e : Slice F)
    (x : Scratch F nG) :
    runAll (l.map (putBound K T D a c)) (e, x) =
      (e, { x with bound := fun k f g => if (g, f, k) ∈ l then (incomingValue K T D a c e (g, f, k)).getD (x.bound k f g)
        else x.bound k f g }) := by
  induction l using List.reverseRecOn with
  | nil => simp [runAll]
  | append_singleton l i ih =>
    rw [List.map_append, runAll_append, ih, List.map_singleton, runAll_one]
    simp only [putBound, List.mem_append, List.mem_singleton]
    cases hi : incomingValue K T D a c e i with
    | some v =>
      dsimp only
      congr 2
      funext k f g
      by_cases h : (g, f, k) = i
      · subst h; simp [hi]
      · simp [h]
    | none =>
      dsimp only
      congr 2
      funext k f g
      by_cases h : (g, f, k) = i
      · subst h; simp [hi]
      · simp [h]

theorem run_storePsi (c : Nat) (l : List (Fin nG × Fin 4)) (e : Slice F) (x : Scratch F nG) :
    runAll (l.map (storePsi c)) (e, x) =
      ((fun g v c' => if h : c' = c ∧ g < nG then (if (⟨g, h.2⟩, v) ∈ l then x.psi v ⟨g, h.2⟩ else e.1 g v c') else e.1 g v c', e.2), x) := by
  induction l using List.reverseRecOn with
  | nil => simp [runAll]
  | append_singleton l i ih =>
    rw [List.map_append, runAll_append, ih, List.map_singleton, runAll_one]
    simp only [storePsi, List.mem_append, List.mem_singleton]
    congr 2
    funext g v c'
    by_cases h : g = (i.1 : Nat) ∧ v = i.2 ∧ c' = c
    · obtain ⟨rfl, rfl, rfl⟩ := h
      simp
    · rw [if_neg h]
      by_cases h' : c' = c ∧ g < nG
      · rw [dif_pos h', dif_pos h']
        have : ¬ ((⟨g, h'.2⟩ : Fin nG), v) = i := by
          rintro rfl
          exact h ⟨rfl, rfl, h'.1⟩
        simp [this]
      · rw [dif_neg h', dif_neg h']

theorem mem_all2 {n m : Nat} (i : Fin n × Fin m) : i ∈ List.finRange n ×ˢ List.finRange m :=
  List.mem_product.2 ⟨List.mem_finRange _, List.mem_finRange _⟩

theorem mem_all3 {n m k : Nat} (i : Fin n × Fin m × Fin k) :
    i ∈ List.finRange n ×ˢ (List.finRange m ×ˢ List.finRange k) :=
  List.mem_product.2 ⟨List.mem_finRange _, mem_all2 _⟩

/-- The values of an angle. -/
def sliceOf (d : Psi F × Bound F) (a : Nat) : Slice F := (fun g v c => d.1 g v a c, fun g k s => d.2 g k a s)

/-- Replace the values of an angle. -/
def putSlice (d : Psi F × Bound F) (a : Nat) (e : Slice F) : Psi F × Bound F :=
  (fun g v a' c => if a' = a then e.1 g v c else d.1 g v a' c, fun g k a' s => if a' = a then e.2 g k s else d.2 g k a' s)

theorem incomingValue_eq (K : Kernel F nA nG) (T : Mesh) (D : Tables F) (a c : Nat) (d : Psi F × Bound F) (k : Fin 3) (f : Fin 4)
    (g : Fin nG) : (incomingValue K T D a c (sliceOf d a) (g, f, k)).getD K.zero = K.localBound T D a c d.1 d.2 k f g := by
  unfold incomingValue Kernel.localBound
  dsimp only
  split
  · rfl
  · cases (T.getAdjCell c f).bind toNone with
    | some n => rfl
    | none => cases (T.getAdjRank c f).bind toNone <;> rfl

theorem updateStmts_eq (K : Kernel F nA nG) (T : Mesh) (D : Tables F) (source : Psi F) (c a : Nat) (d : Psi F × Bound F)
    (x : Scratch F nG) : K.update T D source c a d = putSlice d a (runAll (updateStmts K T D source c a) (sliceOf d a, x)).1 := by
  unfold updateStmts
  rw [runAll_append, runAll_append, runAll_append, runAll_append, run_putSource, runAll_one (clearBound _)]
  simp only [clearBound]
  rw [run_putBound, runAll_one (solveStmt _ _ _ _ _)]
  simp only [solveStmt]
  rw [run_storePsi]
  simp only [mem_all2, mem_all3, if_true]
  unfold Kernel.update putSlice
  refine Prod.ext ?_ ?_
  · funext g v a' c'
    dsimp only
    by_cases ha : a' = a
    · subst ha
      rw [if_pos rfl]
      by_cases h : c' = c ∧ g < nG
      · rw [dif_pos ⟨rfl, h⟩, dif_pos h]
        have : K.localBound T D a' c d.1 d.2 = fun k f g => (incomingValue K T D a' c (sliceOf d a') (g, f, k)).getD K.zero := by
          funext k f g
          rw [incomingValue_eq]
        rw [this]
      · rw [dif_neg h, dif_neg fun h' => h h'.2]
        rfl
    · rw [if_neg ha, dif_neg fun h => ha h.1]
  · funext g k a' s
    dsimp only
    by_cases ha : a' = a
    · subst ha; rw [if_pos rfl]; rfl
    · rw [if_neg ha]

/-- `SweepData` splits by angle. -/
def sweepSlices (K : Kernel F nA nG) (n : Nat) (T : Nat → Mesh) (D : Nat → Tables F) (sched : Schedule F) (source psi0 : Nat → Psi F)
    (x0 : Scratch F nG) : Slices (K.cfg n T D sched source psi0) (Slice F) (Scratch F nG) where
  get := sliceOf
  set := putSlice
  get_set_same d a e := by simp [sliceOf, putSlice]
  get_set_ne d a e a' h := by simp [sliceOf, putSlice, h]
  ext d d' h := by
    refine Prod.ext ?_ ?_
    · funext g v a c
      exact congrFun (congrFun (congrFun (congrArg Prod.fst (h a)) g) v) c
    · funext g k a s
      exact congrFun (congrFun (congrFun (congrArg Prod.snd (h a)) g) k) s
  parts r c a := updateStmts K (T r) (D r) (source r) c a
  update_eq r c a d x := updateStmts_eq K (T r) (D r) (source r) c a d x
  face r c f _ := getDataStmts (T r) c f
  read x := x.face
  face_eq r c f a d x := by
    unfold getDataStmts
    rw [run_putFace]
    refine ⟨rfl, ?_⟩
    simp only [mem_all2, if_true]
    rfl
  prio_eq _ _ _ _ _ _ := rfl
  scratch := x0

theorem faceOps_length {D B E X : Type} {cfg : Cfg D B} (S : Slices cfg E X) {k : Nat}
    (hf : ∀ r c f a, (S.face r c f a).length ≤ k) (r : Nat) (t : Tuple) (f : Face) : (faceOps S r t f).length ≤ k + 2 := by
  unfold faceOps
  split
  · split
    · simp
    · split
      · split
        · rw [List.length_append, List.length_map]
          have := hf r t.cell f t.angle
          simp only [List.length_cons, List.length_nil]
          omega
        · simp
      · simp
  · simp

theorem passOps_length {D B E X : Type} {cfg : Cfg D B} (S : Slices cfg E X) {k m : Nat}
    (hf : ∀ r c f a, (S.face r c f a).length ≤ k) (hp : ∀ r c a, (S.parts r c a).length ≤ m) (r : Nat) (t : Tuple) :
    (passOps S r t).length ≤ m + 4 * (k + 2) := by
  unfold passOps
  rw [List.length_append, List.length_map]
  have h1 := hp r t.cell t.angle
  have h2 : ∀ fs : List Face, (fs.flatMap (faceOps S r t)).length ≤ fs.length * (k + 2) := by
    intro fs
    induction fs with
    | nil => simp
    | cons f fs ih =>
      rw [List.flatMap_cons, List.length_append, List.length_cons, Nat.succ_mul]
      have := faceOps_length S hf r t f
      omega
  have h3 := h2 (List.finRange 4)
  rw [List.length_finRange] at h3
  omega

variable {K : Kernel F nA nG} {coord : Nat → F} {n : Nat} {T : Nat → Mesh} {D : Nat → Tables F}

/-- A sweep whose threads interleave assignment by assignment may return with `psi'`. -/
def FineSwept (K : Kernel F nA nG) (n : Nat) (T : Nat → Mesh) (D : Nat → Tables F) (source psi psi' : Nat → Psi F) : Prop :=
  ∃ (sched : Schedule F) (x0 : Scratch F nG) (k : Nat) (w : State (Psi F × Bound F) (Fin 3 → Fin nG → F) (Slice F) (Scratch F nG)),
    0 < sched.threads ∧ Run (K.cfg n T D sched source psi) (sweepSlices K n T D sched source psi x0) k w ∧
    ∀ r < n, (w.rank r).phase = .finished ∧ (w.rank r).data.1 = psi' r

/-- C91: what threads interleaving assignment by assignment can leave, whole passes can leave. -/
theorem fine_swept {source psi psi' : Nat → Psi F} (h : FineSwept K n T D source psi psi') : K.Swept n T D source psi psi' := by
  obtain ⟨sched, x0, k, w, ht, hrun, hf⟩ := h
  obtain ⟨s, hr, -, -, -, hsame, hfin⟩ := threads_refine hrun
  refine ⟨sched, s, ht, hr, fun r hlt => ⟨(hfin r).1 (hf r hlt).1, ?_⟩⟩
  rw [← hsame r (fun steps h => by rw [(hf r hlt).1] at h; cases h)]
  exact (hf r hlt).2

/-- C91: the values a sweep leaves in the flux arrays are, to the last bit, the ones given by the serial
mesh, the source and the compiled functions, whatever the interleaving of the single assignments of the
threads, the partition and the numbers of ranks and threads, and whatever the scratch arrays held. -/
theorem fine_bitwise {S S' : Type} [LinearOrder S] [LinearOrder S'] {val : Nat → S} {val' : Nat → S'} {m : SerialMesh}
    {pv pv' : List Nat} {n' : Nat} {P P' : ParallelMesh} {T' : Nat → Mesh}
    {D' : Nat → Tables F} {source source' psi0 psi0' : Nat → Psi F} (H : Created m pv n P) (hn : n < uintMax) (L : Loaded val P T)
    (hD : Started K coord P T D) (H' : Created m pv' n' P') (hn' : n' < uintMax) (L' : Loaded val' P' T')
    (hD' : Started K coord P' T' D') (hcons : Spec.Consistent K coord m) (hs : ∀ r < n, nA * (T r).nCells < 2 ^ 64)
    (hs' : ∀ r < n', nA * (T' r).nCells < 2 ^ 64) {srcS : Psi F} (hsrc : Spec.Holds nA nG n T source srcS)
    (hsrc' : Spec.Holds nA nG n' T' source' srcS) {psi psi' : Nat → Psi F} (h : FineSwept K n T D source psi0 psi)
    (h' : FineSwept K n' T' D' source' psi0' psi') :
    ∃ psiS : Psi F, Spec.Solution K coord m srcS psiS ∧ Spec.Holds nA nG n T psi psiS ∧ Spec.Holds nA nG n' T' psi' psiS :=
  sweep_bitwise H hn L hD H' hn' L' hD' hcons hs hs' hsrc hsrc' (fine_swept h) (fine_swept h')

/-- C91: at most this many assignments in a pass. -/
theorem sweep_pass_length (sched : Schedule F) (source psi0 : Nat → Psi F) (x0 : Scratch F nG) (r : Nat) (t : Tuple) :
    (passOps (sweepSlices K n T D sched source psi0 x0) r t).length ≤ 32 * nG + 10 := by
  have := passOps_length (sweepSlices K n T D sched source psi0 x0) (k := 3 * nG) (m := 20 * nG + 2) ?_ ?_ r t
  · omega
  · intro r c f a
    simp only [sweepSlices, getDataStmts, List.length_map, List.length_product, List.length_finRange]
    omega
  · intro r c a
    simp only [sweepSlices, updateStmts, List.length_map, List.length_append, List.length_product, List.length_finRange,
      List.length_cons, List.length_nil]
    omega

/-- C91: such sweeps exist: on every partition, with every number of threads and every batch size,
every interleaving that goes on as long as it can returns on all ranks. -/
theorem fine_returns {S : Type} [LinearOrder S] {val : Nat → S} {m : SerialMesh} {pv : List Nat} {P : ParallelMesh}
    (H : Created m pv n P) (hn : n < uintMax) (L : Loaded val P T) (hD : Started K coord P T D)
    (hsort : Sorted K coord m) (hs : ∀ r < n, nA * (T r).nCells < 2 ^ 64) (source psi0 : Nat → Psi F) (sched : Schedule F)
    (ht : 0 < sched.threads) (hb : 0 < sched.batch) (hproto : sched.protocol = .tycho) (x0 : Scratch F nG) {k : Nat}
    {w : State (Psi F × Bound F) (Fin 3 → Fin nG → F) (Slice F) (Scratch F nG)}
    (h : Run (K.cfg n T D sched source psi0) (sweepSlices K n T D sched source psi0 x0) k w) :
    k ≤ statementBound (K.cfg n T D sched source psi0) (32 * nG + 10) ∧
    ((∃ r < n, (w.rank r).phase ≠ .finished) → ∃ w', Step (K.cfg n T D sched source psi0) (sweepSlices K n T D sched source psi0 x0) w w') ∧
    ∃ psi, FineSwept K n T D source psi0 psi := by
  obtain ⟨Q, hcr, hac⟩ := cfg_sorted H hn L hD hsort hs source psi0 sched ht
  have hK := sweep_pass_length (K := K) (n := n) (T := T) (D := D) sched source psi0 x0
  refine ⟨threads_terminate Q hb (fun _ => hproto) hcr hac hK h, threads_no_deadlock Q (fun _ => hproto) h, ?_⟩
  obtain ⟨k', w', -, h', hf⟩ := threads_finish Q hb (fun _ => hproto) hcr hac hK h
    (statementBound (K.cfg n T D sched source psi0) (32 * nG + 10)) (by omega)
  exact ⟨fun r => (w'.rank r).data.1, sched, x0, k', w', ht, h', fun r hr => ⟨hf r hr, rfl⟩⟩

end Verif.Threads
