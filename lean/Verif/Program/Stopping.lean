import Verif.Program.Whole
import Verif.Program.Tolerance

/-!
# What a run prints and writes when its iterations stop (C80)

The whole program as in C79, for the sweep types without inner iterations, but with the stopping rules of the deck: source
iteration stops by `errMax` or `iterMax`, the Krylov solver whenever it likes and prints the norm of its residual.
-/
set_option linter.unusedSectionVars false
set_option linter.unusedVariables false
namespace Verif.Program

open Verif.MeshFile Verif.TychoMesh Verif.Geometry Verif.Program.Spec
open Verif.Traverse (Psi SweepRun)
open Verif.Input (Str Settings readInput SweepType)
open Verif.Source
open Verif.Domain (FullDG)
open Verif.Schedule (Sweeping AwayFrom Variant)
open Verif.PsiFile (Contents)

/-! ### Model -/

/-- The sweeper of a sweep type without inner iterations (src/Main.cc:268-279, src/Sweeper.cc:330-349); the other types
have none here. -/
def SweptBy (s : Settings ℝ) (M : Mode) (deck : Deck) (T : Nat → Mesh) (D : Nat → RankData) (Z : Sweeper ℝ) : Prop :=
  let along (variant : Variant) := ∃ (S : Sweeping ℝ) (prio : Nat → Nat → Nat → Nat → Nat), S.run = M.run deck T D ∧
    S.variant = variant ∧ S.nAngleGroups = M.threads ∧ S.Built s.maxCellsPerStep tolerance prio ∧ Z = scheduledSweeper S
  match s.sweepType with
  | .originalTycho1 => along .tycho1
  | .originalTycho2 => along .tycho2
  | .traverseGraph => Z = traverseSweeper (M.run deck T D)
  | _ => False

/-- What the solver prints about itself: the number of sweeps, one printed line each
(src/SourceIteration.cc:182-185), or the residual (src/SourceIteration.cc:264-268). -/
inductive Report
  | sweeps (n : Nat)
  | residual (rho : ℝ)

/-- `sweeper->solve()` (src/Sweeper.cc:356-365, src/SweeperTraverse.cc:65-74) with its printed report. Source iteration
follows `errMax` and `iterMax` of the deck; the Krylov solver may stop at any vector, and PETSc is trusted to print the
2-norm of the residual there. -/
def StopsWith (rep : Report) (s : Settings ℝ) (M : Mode) (deck : Deck) (T : Nat → Mesh) (D : Nat → RankData) (_ : Nat)
    (psi : Nat → Psi ℝ) : Prop :=
  ∃ Z, SweptBy s M deck T D Z ∧
    if s.sourceIteration then ∃ st tr st' n, rep = .sweeps n ∧ FixedPoint (M.run deck T D) (scatOf deck D) Z
      (M.run deck T D).source s.errMax s.iterMax st (fun _ _ _ _ _ => 0) tr st' psi n
    else ∃ x y rhs, LhsOp (M.run deck T D) (scatOf deck D) Z x y ∧
      KrylovRhs (M.run deck T D) (scatOf deck D) Z (M.run deck T D).source rhs ∧
      KrylovEnd (M.run deck T D) (scatOf deck D) Z (M.run deck T D).source x psi ∧
      rep = .residual (norm2 M deck T (subPhi rhs y))

/-! ### Statements -/

/-- Sum of the absolute scalar flux over vertices, cells and groups of the serial mesh. -/
noncomputable def Spec.scalarSum (deck : Deck) (m : SerialMesh) (psi : Psi ℝ) : ℝ :=
  ∑ c ∈ Finset.range m.numCells, ∑ v, ∑ g ∈ Finset.range deck.nGroups,
    |∑ a ∈ Finset.range deck.dirs.length, psi g v a c * ((deck.dirs[a]?).map fun d => d.w).getD 0|

/-- Sum of the weights of the directions. -/
noncomputable def Spec.weights (deck : Deck) : ℝ := (deck.dirs.map fun d => d.w).sum

/-- How far the values may be from the solution, by what the solver printed. -/
noncomputable def Spec.deviation (s : Settings ℝ) (deck : Deck) (m : SerialMesh) (κ b B : ℝ) (psi : Psi ℝ) : Report → ℝ
  | .sweeps _ => √(2 * B / b) * (κ * (s.errMax * scalarSum deck m psi)) / (weights deck * (1 - κ))
  | .residual rho => √(5 * B / b) * (κ * rho) / (weights deck * (1 - κ))

/-- The printed report shows that the solver did not run into its limit. -/
def Spec.Ended (s : Settings ℝ) : Report → Prop
  | .sweeps n => 0 ≤ s.errMax ∧ 0 < n ∧ n < s.iterMax
  | .residual _ => True

/-- Two fluxes differ by at most `e` at every entry. -/
def Spec.Close (deck : Deck) (m : SerialMesh) (e : ℝ) (psi psi' : Psi ℝ) : Prop :=
  ∀ c < m.numCells, ∀ a < deck.dirs.length, ∀ g < deck.nGroups, ∀ v, |psi g v a c - psi' g v a c| ≤ e

/-- Printed error and output file are those of a flux. -/
def Spec.Shows (W : World) (deck : Deck) (m : SerialMesh) (psi : Psi ℝ) (e : Option ℝ) (out : Option (Str × Verif.PsiFile.File)) :
    Prop :=
  (e = if size2 deck m psi = 0 then none else some (Real.sqrt (distance2 W.val deck m psi / size2 deck m psi))) ∧
  ∀ name f, out = some (name, f) → Contents f m.numCells deck.nGroups 4 deck.dirs.length (bitsOf W.bits psi)

/-! ### Proofs -/

variable {W : World} {C C' : Machine} {val : Nat → ℝ} {deck : Deck} {m : SerialMesh} {M M' : Mode} {P P' : ParallelMesh}
  {T T' : Nat → Mesh} {D D' : Nat → RankData} {p : Problem ℝ} {sS : Nat → ℝ} {κ b B : ℝ} {file g g' : List UInt8} {n n' k : Nat}
  {s s' : Settings ℝ} {args args' : List Str} {mesh input mesh' input' : Str} {rest rest' : List Str}

theorem fluxSum_serial (h : Ready val deck m M P T D) {psi : Nat → Psi ℝ} {psiG : Psi ℝ}
    (hp : ∀ r < M.n, ∀ i c, (T r).getLGCell i = some c → ∀ g v a, psi r g v a i = psiG g v a c) :
    fluxSum M deck T psi = scalarSum deck m psiG := by
  unfold fluxSum scalarSum
  refine sum_cells h.created h.loaded _ _ fun r i c hi => ?_
  obtain ⟨h1, h2, -, -⟩ := isCell_lg h.created h.loaded hi
  simp only [hp r h2 i c h1]

theorem within_close (h : Ready val deck m M P T D) {psi : Nat → Psi ℝ} {psiG psiS : Psi ℝ} {e : ℝ}
    (hp : ∀ r < M.n, ∀ i c, (T r).getLGCell i = some c → ∀ g v a, psi r g v a i = psiG g v a c)
    (hw : Within M deck T e psi psiS) : Close deck m e psiG psiS := by
  intro c hc a ha g hg v
  obtain ⟨r, i, hi⟩ := isCell_exists h.created hc
  obtain ⟨h1, h2, -, -⟩ := isCell_lg h.created h.loaded hi
  rw [← hp r h2 i c h1 g v a]
  exact (hw r h2 i c h1 g hg v).1 a ha

theorem sweptBy_correct (h : Ready val deck m M P T D) (F : Fits val m) (hs : Sensible val deck m)
    (Ds : Describes val deck m p sS) (hac : p.Acyclic m) (htr : p.Transversal m)
    (hw : Scheduled s.sweepType → AwayFrom p m tolerance) {Z : Sweeper ℝ} (hZ : SweptBy s M deck T D Z) :
    Correct Z (FullDG (M.run deck T D) (mateOf m P) (nodeOf m T)) (FullDG (M.run deck T D) (mateOf m P) (nodeOf m T)) := by
  have hph := describes_physical h.created.tets F hs Ds
  have hR := h.runOf F hs Ds
  have hL := run_linked h.created h.ranks h.loaded hph hR
  have hN := run_nodes h.created h.loaded hR
  have hP := run_physical h.created h.loaded hph hR
  have hA := run_acyclic h.created h.loaded hph hR hac htr
  have along : Scheduled s.sweepType → ∀ (S : Sweeping ℝ) (prio : Nat → Nat → Nat → Nat → Nat), S.run = M.run deck T D →
      S.Built s.maxCellsPerStep tolerance prio → Correct (scheduledSweeper S)
        (FullDG (M.run deck T D) (mateOf m P) (nodeOf m T)) (FullDG (M.run deck T D) (mateOf m P) (nodeOf m T)) := by
    intro ht S prio e Bu
    have hAp := Verif.Schedule.run_apart h.created h.ranks h.loaded hR S e
    have hC := Verif.Schedule.run_clear h.created h.loaded hph hR tolerance_nonneg (hw ht) S e
    rw [← e] at hL hN hP hA ⊢
    exact scheduled_correct Bu hC hL hAp hP (by rw [e]; rfl) hA hN
  unfold SweptBy at hZ
  cases e : s.sweepType <;> rw [e] at hZ along <;> dsimp only at hZ
  · obtain ⟨S, prio, e1, -, -, Bu, rfl⟩ := hZ
    exact along (.inl rfl) S prio e1 Bu
  · obtain ⟨S, prio, e1, -, -, Bu, rfl⟩ := hZ
    exact along (.inr rfl) S prio e1 Bu
  · subst hZ
    exact traverse_correct hP hL hN hR.comm

/-- C80: a run of the whole program that ended by its tolerance, or with any printed residual: error and file are those of
a flux whose values differ from the one solution of the problem by at most `deviation`. -/
theorem main_tolerance (G : Good W.val file m deck p sS κ) (hs : readInput W.stod W.texts .original input = .ok s)
    (hd : Asks s deck) (hg : W.files mesh = some g) (hP : Partitioned W.val file C.n g) (hn : C.n ≤ 2 ^ 30)
    (hth : 0 < C.threads) (hw : Scheduled s.sweepType → AwayFrom p m tolerance) (h0 : 0 < m.numCells) (Bt : Between p m b B)
    {rep : Report} {e : Option ℝ} {out : Option (Str × Verif.PsiFile.File)}
    (hr : RanWith (StopsWith rep) W C (mesh :: input :: rest) (.finished e out)) (hE : Ended s rep) :
    ∃ psi psiS : Psi ℝ, p.Scatter m (scattering deck sS) psiS ∧
      (∀ psi', p.Scatter m (scattering deck sS) psi' →
        ∀ c < m.numCells, ∀ a < p.nAngles, ∀ g < p.nGroups, ∀ v, psi' g v a c = psiS g v a c) ∧
      Shows W deck m psi e out ∧ Close deck m (deviation s deck m κ b B psi rep) psi psiS := by
  obtain ⟨pv, P, T, D, psi, h, ⟨Z, hZ, hsolve⟩, k⟩ := ran_flux G hs hd hg hP hn hth hr
  have hZC := sweptBy_correct (s := s) h G.fits G.sensible G.describes G.acyclic G.transversal hw (Z := Z) hZ
  obtain ⟨psiG, hG⟩ := serial_flux h.created h.loaded psi
  have hG' : ∀ r < C.n, ∀ i c, (T r).getLGCell i = some c → ∀ g v a, psi r g v a i = psiG g v a c :=
    fun r hr i c hc => hG r i c (lg_isCell h.created h.loaded hr hc)
  split at hsolve
  · obtain ⟨st, tr, st', n, rfl, hf⟩ := hsolve
    obtain ⟨psiS, h1, h2, h3⟩ := correct_error h G.fits G.sensible G.describes G.acyclic G.transversal G.subcritical G.below h0 Bt
      hZC hE.1 hf hE.2.1 hE.2.2
    refine ⟨psiG, psiS, h1, h2, k psiG hG', ?_⟩
    have := within_close h hG' h3
    rwa [fluxSum_serial h hG'] at this
  · obtain ⟨x, y, rhs, k1, k2, k3, rfl⟩ := hsolve
    obtain ⟨psiS, h1, h2, h3⟩ := correct_residual h G.fits G.sensible G.describes G.acyclic G.transversal G.subcritical G.below h0 Bt
      hZC k1 k2 k3
    exact ⟨psiG, psiS, h1, h2, k psiG hG', within_close h hG' h3⟩

/-- C80: two runs from decks that describe the same problem show fluxes that differ by at most the sum of their deviations. -/
theorem main_tolerance_agree (G : Good W.val file m deck p sS κ) (hs : readInput W.stod W.texts .original input = .ok s)
    (hs' : readInput W.stod W.texts .original input' = .ok s') (hd : Asks s deck) (hss : SameProblem s s')
    (hg : W.files mesh = some g) (hP : Partitioned W.val file C.n g) (hg' : W.files mesh' = some g')
    (hP' : Partitioned W.val file C'.n g') (hn : C.n ≤ 2 ^ 30) (hn' : C'.n ≤ 2 ^ 30) (hth : 0 < C.threads) (hth' : 0 < C'.threads)
    (hw : Scheduled s.sweepType ∨ Scheduled s'.sweepType → AwayFrom p m tolerance) (h0 : 0 < m.numCells) (Bt : Between p m b B)
    {rep rep' : Report} {e e' : Option ℝ} {out out' : Option (Str × Verif.PsiFile.File)}
    (hr : RanWith (StopsWith rep) W C (mesh :: input :: rest) (.finished e out)) (hE : Ended s rep)
    (hr' : RanWith (StopsWith rep') W C' (mesh' :: input' :: rest') (.finished e' out')) (hE' : Ended s' rep') :
    ∃ psi psi' : Psi ℝ, Shows W deck m psi e out ∧ Shows W deck m psi' e' out' ∧
      Close deck m (deviation s deck m κ b B psi rep + deviation s' deck m κ b B psi' rep') psi psi' := by
  obtain ⟨psi, S, d1, d2, d3, d4⟩ := main_tolerance G hs hd hg hP hn hth (fun h => hw (.inl h)) h0 Bt hr hE
  obtain ⟨psi', S', e1, e2, e3, e4⟩ := main_tolerance G hs' (hd.same hss) hg' hP' hn' hth' (fun h => hw (.inr h)) h0 Bt hr' hE'
  refine ⟨psi, psi', d3, e3, fun c hc a ha g hg v => ?_⟩
  have k1 := d4 c hc a ha g hg v
  have k2 := e4 c hc a ha g hg v
  rw [e2 S d1 c hc a (by rw [G.describes.angles]; exact ha) g (by rw [G.describes.groups]; exact hg) v |>.symm, abs_sub_comm] at k2
  exact (abs_sub_le _ (S g v a c) _).trans (add_le_add k1 k2)

theorem entries_serial (h : Ready val deck m M P T D) :
    phiSum (M.run deck T D) (fun _ _ _ _ => (1 : ℝ)) = m.numCells * 4 * deck.nGroups := by
  have := sum_cells h.created h.loaded (fun _ _ => ∑ _ : Fin 4, ∑ _ ∈ Finset.range deck.nGroups, (1 : ℝ))
    (fun _ => ∑ _ : Fin 4, ∑ _ ∈ Finset.range deck.nGroups, (1 : ℝ)) fun _ _ _ _ => rfl
  refine Eq.trans this ?_
  simp only [Finset.sum_const, Finset.card_range, Finset.card_univ, Fintype.card_fin, nsmul_eq_mul, mul_one]
  push_cast
  ring

/-- C80: the number of sweeps. With a tolerance between 0 and 1 no run makes more than `k + 2` sweeps, where
`8 B ((2 + errMax) N)² κ^(2 k) ≤ b errMax²` with the number `N` of entries of the scalar flux; with a larger `iterMax` it
ends by its tolerance. The ranks, threads, sweep type and partition do not matter. -/
theorem main_reaches (G : Good W.val file m deck p sS κ) (hs : readInput W.stod W.texts .original input = .ok s)
    (hd : Asks s deck) (hg : W.files mesh = some g) (hP : Partitioned W.val file C.n g) (hn : C.n ≤ 2 ^ 30)
    (hth : 0 < C.threads) (hw : Scheduled s.sweepType → AwayFrom p m tolerance) (h0 : 0 < m.numCells) (Bt : Between p m b B)
    (hsi : s.sourceIteration = true) (he : 0 < s.errMax) (he1 : s.errMax < 1)
    (hk : 8 * B * ((2 + s.errMax) * (m.numCells * 4 * deck.nGroups)) ^ 2 * (κ ^ 2) ^ k ≤ b * s.errMax ^ 2)
    {rep : Report} {e : Option ℝ} {out : Option (Str × Verif.PsiFile.File)}
    (hr : RanWith (StopsWith rep) W C (mesh :: input :: rest) (.finished e out)) :
    ∃ n, rep = .sweeps n ∧ n ≤ k + 2 ∧ (k + 2 < s.iterMax → Ended s rep) := by
  obtain ⟨pv, P, T, D, psi, h, ⟨Z, hZ, hsolve⟩, -⟩ := ran_flux G hs hd hg hP hn hth hr
  have hZC := sweptBy_correct (s := s) h G.fits G.sensible G.describes G.acyclic G.transversal hw (Z := Z) hZ
  rw [hsi, if_pos rfl] at hsolve
  obtain ⟨st, tr, st', n, rfl, hf⟩ := hsolve
  obtain ⟨psiS, -, -, star, h3, -, -⟩ := near_serial h G.fits G.sensible G.describes G.acyclic G.transversal G.subcritical G.below Bt
  have hph := describes_physical h.created.tets G.fits G.sensible G.describes
  have hR := h.runOf G.fits G.sensible G.describes
  have hPh := run_physical h.created h.loaded hph hR
  have hL := run_linked h.created h.ranks h.loaded hph hR
  have hN := run_nodes h.created h.loaded hR
  have hA := run_acyclic h.created h.loaded hph hR G.acyclic G.transversal
  have hMa := run_matched h.created h.loaded hph (describes_matched h.created.tets G.fits G.sensible G.describes) hR G.transversal
  have hr := run_ratio h.created h.loaded hR (h.scatOf G.fits G.sensible G.describes)
    (describes_ratio h.created.tets G.describes G.subcritical)
  have hle : n ≤ k + 2 := fixedPoint_number hPh hr G.below (full_dissipative hPh hL hN hMa) (full_affine hPh hL hN hR.comm hA)
    (between_weighted h G.fits G.sensible G.describes Bt (between_nonneg Bt h0)) Bt.pos he h3
    (fun r hr g v c hg hc => by simp [scal]) (entries_serial h) hk hZC hf
  refine ⟨n, rfl, hle, fun hlt => ⟨he.le, ?_, by omega⟩⟩
  rcases fixedPoint_tolerance hf (by omega) with ⟨-, -, h'⟩ | ⟨tr', old, e, -⟩
  · exact absurd h' (not_le.2 he1)
  · rw [(fixedPoint_count hf).1, e]; simp

/-- C80: runs with source iteration do end, those that walk the graph and those that follow schedules. -/
theorem main_stops (G : Good W.val file m deck p sS κ) (hs : readInput W.stod W.texts .original input = .ok s)
    (hd : Asks s deck) (hg : W.files mesh = some g) (hP : Partitioned W.val file C.n g) (hn : C.n ≤ 2 ^ 30)
    (hth : 0 < C.threads) (hsi : s.sourceIteration = true)
    (ht : (s.sweepType = .traverseGraph ∧ s.mpiType = .tychoTwoSided ∧ 0 < s.maxCellsPerStep) ∨
      (Scheduled s.sweepType ∧ AwayFrom p m tolerance ∧ s.maxCellsPerStep % 2 ^ 32 ≠ 0)) (rest : List Str) :
    ∃ rep e out, RanWith (StopsWith rep) W C (mesh :: input :: rest) (.finished e out) := by
  obtain ⟨pv, P, T, D, h, hend⟩ := ran_exists (C := C) G hs hd hg hP hn hth rest
  have hph := describes_physical h.created.tets G.fits G.sensible G.describes
  have hR := h.runOf G.fits G.sensible G.describes
  have hL := run_linked h.created h.ranks h.loaded hph hR
  have hN := run_nodes h.created h.loaded hR
  have hPh := run_physical h.created h.loaded hph hR
  have hX := run_crossed h.created h.loaded hph hR G.transversal
  have hA := run_acyclic h.created h.loaded hph hR G.acyclic G.transversal
  have along : ∀ variant, AwayFrom p m tolerance → s.maxCellsPerStep % 2 ^ 32 ≠ 0 → ∃ (S : Sweeping ℝ)
      (prio : Nat → Nat → Nat → Nat → Nat), S.run = (modeOf s C).run deck T D ∧ S.variant = variant ∧
      S.nAngleGroups = C.threads ∧ S.Built s.maxCellsPerStep tolerance prio ∧ ∃ tr st' psi n,
        FixedPoint ((modeOf s C).run deck T D) (scatOf deck D) (scheduledSweeper S) ((modeOf s C).run deck T D).source
          s.errMax s.iterMax () (fun _ _ _ _ _ => 0) tr st' psi n := by
    intro variant hw hmc
    obtain ⟨S, e1, e2, e3, Bu⟩ := Verif.Schedule.built_exists ((modeOf s C).run deck T D) variant C.threads s.maxCellsPerStep
      tolerance (fun _ _ _ _ => 0) hth hmc hL tolerance_nonneg
      (fun x y a _ => Verif.Schedule.run_opposite h.created h.loaded hph hR)
    have hAp := Verif.Schedule.run_apart h.created h.ranks h.loaded hR S e1
    have hC := Verif.Schedule.run_clear h.created h.loaded hph hR tolerance_nonneg hw S e1
    have e1' : S.run = Mode.run { modeOf s C with pv := pv } deck T D := e1
    rw [← e1'] at hL hN hPh hA
    have hdc : S.run.doComm = true := by rw [e1']; rfl
    exact ⟨S, _, e1, e2, e3, Bu, fixedPoint_returns (fun _ psi src => by
      obtain ⟨t, psi', q⟩ := scheduled_returns_with Bu hC hL hAp hPh hdc hA hN src psi
      exact ⟨(), psi', t, q⟩) _ _ _ _ _⟩
  have key : ∃ rep psi, StopsWith rep s (modeOf s C) deck T D m.numCells psi := by
    unfold StopsWith SweptBy
    simp only [hsi, if_true]
    rcases ht with ⟨ht, hmpi, hb⟩ | ⟨ht | ht, hw, hmc⟩
    · have hproto : ((modeOf s C).run deck T D).protocol = .tycho := by
        show protoOf s.mpiType = _
        rw [hmpi]; rfl
      obtain ⟨tr, st', psi, n, hf⟩ := fixedPoint_returns (R := (modeOf s C).run deck T D) (X := scatOf deck D)
        (S := traverseSweeper ((modeOf s C).run deck T D)) (fun _ psi src => by
          obtain ⟨psi', h'⟩ := fullSwept_exists hPh hL hX hN hR.comm hA hproto hb src psi
          exact ⟨(), psi', h'⟩) ((modeOf s C).run deck T D).source s.errMax s.iterMax () (fun _ _ _ _ _ => 0)
      exact ⟨.sweeps n, psi, _, by rw [ht], (), tr, st', n, rfl, hf⟩
    · obtain ⟨S, prio, e1, e2, e3, Bu, tr, st', psi, n, hf⟩ := along .tycho1 hw hmc
      exact ⟨.sweeps n, psi, _, by rw [ht]; exact ⟨S, prio, e1, e2, e3, Bu, rfl⟩, (), tr, st', n, rfl, hf⟩
    · obtain ⟨S, prio, e1, e2, e3, Bu, tr, st', psi, n, hf⟩ := along .tycho2 hw hmc
      exact ⟨.sweeps n, psi, _, by rw [ht]; exact ⟨S, prio, e1, e2, e3, Bu, rfl⟩, (), tr, st', n, rfl, hf⟩
  obtain ⟨rep, psi, hsol⟩ := key
  exact ⟨rep, hend _ psi hsol⟩

/-! ### Two decks for the mesh of two cells -/

/-- A deck that walks the graph with source iteration. -/
def graphStopDeck : Str :=
  ("snOrder 2\niterMax 100\nerrMax 0.5\nmaxCellsPerStep 3\nintraAngleP 3\ninterAngleP 1\n"
    ++ "nGroups 2\nsigmaT1 1.0\nsigmaS1 0.5\nsigmaT2 2.0\nsigmaS2 0.0\nOutputFile true\n"
    ++ "OutputFilename graph.psi\nSourceIteration true\nDD_IterMax 100\nDD_ErrMax 0.5\n"
    ++ "MPIType TychoTwoSided\nSweepType TraverseGraph\nGaussElim CramerGlu\n").toList

/-- A deck that follows schedules with source iteration. -/
def scheduleStopDeck : Str :=
  ("GaussElim NoPivot\nSweepType OriginalTycho2\nMPIType CapsaicinTwoSided\nsnOrder 2\niterMax 22\nerrMax 0.5\n"
    ++ "maxCellsPerStep 1\nintraAngleP 0\ninterAngleP 2\nnGroups 2\n# cross sections\nsigmaT1 1.0\nsigmaS1 0.5\nsigmaT2 2.0\n"
    ++ "sigmaS2 0.0\nOutputFile TRUE\nOutputFilename schedule.psi\nSourceIteration true\nDD_IterMax 1\nDD_ErrMax 1.0\n").toList

def graphStopSettings : Settings Str :=
  ⟨2, 100, "0.5".toList, 3, 3, 1, 2, "1.0".toList, "0.5".toList, "2.0".toList, "0.0".toList, true, "graph.psi".toList, 100,
    "0.5".toList, true, .tychoTwoSided, .traverseGraph, .cramerGlu⟩

def scheduleStopSettings : Settings Str :=
  ⟨2, 22, "0.5".toList, 1, 0, 2, 2, "1.0".toList, "0.5".toList, "2.0".toList, "0.0".toList, true, "schedule.psi".toList, 1,
    "1.0".toList, true, .capsaicinTwoSided, .originalTycho2, .noPivot⟩

/-- The deck files. -/
def stopTexts (name : Str) : Option Str :=
  if name = "graph".toList then some graphStopDeck else if name = "schedule".toList then some scheduleStopDeck else none

theorem stop_decks_read : (readInput some stopTexts .original "graph".toList).toOption = some graphStopSettings ∧
    (readInput some stopTexts .original "schedule".toList).toOption = some scheduleStopSettings := by decide +kernel

/-- Cross section times volume is the same in both cells. -/
theorem two_between (Ds : Describes twoVal deck twoMesh p sS) (h1 : deck.sigmaT1 = 1) (h2 : deck.sigmaT2 = 2) :
    Between p twoMesh (1000 / 3) (1000 / 3) := by
  have key : ∀ c < twoMesh.numCells, p.sigmaT c * p.volume c = 1000 / 3 := by
    intro c hc
    have hv := Ds.volume c hc
    have hc : c < 2 := hc
    have hs := Ds.sigma c _ (List.getElem?_eq_getElem (l := twoMesh.cells) (i := c) hc)
    interval_cases c
    · rw [two_pts0, Matrix.det_fin_three] at hv
      rcases hs with ⟨-, e, -⟩ | ⟨e, -⟩
      · rw [hv, e, h1]
        simp
        norm_num
      · simp [twoMesh] at e
    · rw [two_pts1, Matrix.det_fin_three] at hv
      rcases hs with ⟨e, -⟩ | ⟨-, e, -⟩
      · simp [twoMesh] at e
      · rw [hv, e, h2]
        simp
        norm_num
  exact ⟨by norm_num, fun c hc => (key c hc).ge, fun c hc => (key c hc).le⟩

/-- C80: two complete runs with source iteration on the mesh of two cells, a walk of the graph on two ranks and schedules
on three. Both end by their tolerance after at most 21 sweeps, so that `main_tolerance` and `main_tolerance_agree` apply. -/
theorem two_stops : ∃ (W : World) (deck : Deck) (p : Problem ℝ) (sS : Nat → ℝ) (g g' : List UInt8) (rep rep' : Report)
    (e e' : Option ℝ) (out out' : Option (Str × Verif.PsiFile.File)) (s s' : Settings ℝ),
    Good W.val twoMesh.bytes twoMesh deck p sS (3 / 4) ∧
    W.texts "graph".toList = some graphStopDeck ∧ W.texts "schedule".toList = some scheduleStopDeck ∧
    readInput W.stod W.texts .original "graph".toList = .ok s ∧ readInput W.stod W.texts .original "schedule".toList = .ok s' ∧
    Asks s deck ∧ SameProblem s s' ∧ W.files "two.pmesh".toList = some g ∧ W.files "three.pmesh".toList = some g' ∧
    Partitioned W.val twoMesh.bytes 2 g ∧ Partitioned W.val twoMesh.bytes 3 g' ∧ AwayFrom p twoMesh tolerance ∧
    Between p twoMesh (1000 / 3) (1000 / 3) ∧
    RanWith (StopsWith rep) W (machine 2 1 true) ["two.pmesh".toList, "graph".toList] (.finished e out) ∧ Ended s rep ∧
    RanWith (StopsWith rep') W (machine 3 4 false) ["three.pmesh".toList, "schedule".toList] (.finished e' out') ∧ Ended s' rep' := by
  obtain ⟨deck, p, sS, g, g', G, hQ, q1, q2, q3, q4, q5, hP, hP', hw⟩ := two_good
  let W := twoWorld stopTexts g g'
  obtain ⟨f1, f2⟩ := twoWorld_files stopTexts g g'
  obtain ⟨v1, v2, v3, v4⟩ := number_values
  have r1 : readInput W.stod W.texts .original "graph".toList = .ok (mapSettings numberOf graphStopSettings) :=
    readInput_map numberOf some stopTexts .original _ (ok_of_toOption stop_decks_read.1)
  have r2 : readInput W.stod W.texts .original "schedule".toList = .ok (mapSettings numberOf scheduleStopSettings) :=
    readInput_map numberOf some stopTexts .original _ (ok_of_toOption stop_decks_read.2)
  have hd : Asks (mapSettings numberOf graphStopSettings) deck := ⟨hQ, q1, q2.trans v1.symm, q3.trans v2.symm,
    q4.trans v3.symm, q5.trans v4.symm⟩
  have hss : SameProblem (mapSettings numberOf graphStopSettings) (mapSettings numberOf scheduleStopSettings) :=
    ⟨rfl, rfl, rfl, rfl, rfl, rfl⟩
  have Bt := two_between G.describes q2 q4
  obtain ⟨rep, e, out, h1⟩ := main_stops (W := W) (C := machine 2 1 true) G r1 hd f1 hP (by decide) (by decide) rfl
    (.inl ⟨rfl, rfl, by decide⟩) []
  obtain ⟨rep', e', out', h2⟩ := main_stops (W := W) (C := machine 3 4 false) G r2 (hd.same hss) f2 hP' (by decide) (by decide) rfl
    (.inr ⟨.inr rfl, hw, by decide⟩) []
  have he : (mapSettings numberOf graphStopSettings).errMax = 1 / 2 := v2
  have he' : (mapSettings numberOf scheduleStopSettings).errMax = 1 / 2 := v2
  have hm : (twoMesh.numCells : ℝ) = 2 := by norm_num [twoMesh]
  obtain ⟨n, -, -, k1⟩ := main_reaches (W := W) (C := machine 2 1 true) (k := 19) G r1 hd f1 hP (by decide) (by decide) (fun _ => hw) (by decide) Bt rfl
    (by rw [he]; norm_num) (by rw [he]; norm_num) (by rw [he, hm, q1]; norm_num) h1
  obtain ⟨n', -, -, k2⟩ := main_reaches (W := W) (C := machine 3 4 false) (k := 19) G r2 (hd.same hss) f2 hP' (by decide) (by decide) (fun _ => hw) (by decide) Bt rfl
    (by rw [he']; norm_num) (by rw [he']; norm_num) (by rw [he', hm, q1]; norm_num) h2
  exact ⟨W, deck, p, sS, g, g', rep, rep', e, e', out, out', _, _, G, rfl, rfl, r1, r2, hd, hss, f1, f2, hP, hP', hw, Bt, h1,
    k1 (by decide), h2, k2 (by decide)⟩

end Verif.Program
