import Verif.Program.Stopping
import Verif.Source.Decomposed
import Verif.Source.Examples

/-!
# What a run with a decomposed domain prints and writes when its iterations stop (C81)

The whole program as in C80, for the sweep types that sweep each part of the mesh on its own: PBJ, PBJOuter, PBJSI, Schur,
SchurOuter and SchurKrylov. They stop by `DD_ErrMax`, or the Krylov solver stops at any vector.
-/
set_option linter.unusedSectionVars false
set_option linter.unusedVariables false
namespace Verif.Program

open Verif.MeshFile Verif.TychoMesh Verif.Geometry Verif.Program.Spec
open Verif.Traverse (Psi SweepRun Bound)
open Verif.Input (Str Settings readInput SweepType)
open Verif.Source
open Verif.Domain (FullDG Thick psiBoundSize)

/-! ### Model -/

/-- `sweeper->solve()` for the sweep types that decompose the domain (src/Main.cc:280-321), ended by the tolerances of the
deck or, where PETSc solves, at any vector. Of the sweep types PBJ and Schur only source iteration is here. `η` bounds the
error of the boundary values of the last sweep, `δ` the change of the scalar flux in it; `Y` is for PBJ, see
`Verif.Source.lagAll`. -/
def StopsApart (Y η δ : ℝ) (s : Settings ℝ) (M : Mode) (deck : Deck) (T : Nat → Mesh) (D : Nat → RankData) (_ : Nat)
    (psi : Nat → Psi ℝ) : Prop :=
  let R := M.run deck T D
  let X := scatOf deck D
  match s.sweepType with
  | .pbj => s.sourceIteration = true ∧ ∃ tr bound log n, FixedPoint R X (pbjLogged R s.ddErrMax s.ddIterMax) R.source s.errMax
      s.iterMax (fun _ _ _ _ _ => 0, []) (fun _ _ _ _ _ => 0) tr (bound, log) psi n ∧ 0 < n ∧ n < s.iterMax ∧
      2 < s.ddIterMax ∧ (∀ sweeps, log.getLast? = some sweeps → sweeps.length + 1 < s.ddIterMax) ∧
      η = lagAll R s.ddErrMax Y log psi ∧ δ = s.errMax * fluxSum M deck T psi
  | .schur => s.sourceIteration = true ∧ ∃ st tr st' n, FixedPoint R X (schurNear R η) R.source s.errMax s.iterMax st
      (fun _ _ _ _ _ => 0) tr st' psi n ∧ 0 < n ∧ n < s.iterMax ∧ 0 ≤ η ∧ δ = s.errMax * fluxSum M deck T psi
  | .pbjOuter => OuterStops R X s.sourceIteration s.errMax s.iterMax R.source s.ddErrMax s.ddIterMax 1 (fun _ _ _ _ _ => 0)
      (fun _ _ _ _ _ => 0) (fun _ _ _ _ _ => 0) psi η δ
  | .pbjsi => SIStops R X R.source s.ddErrMax s.ddIterMax 1 (fun _ _ _ _ _ => 0) (fun _ _ _ _ => 0)
      (fun _ _ _ _ _ => 0) psi η δ
  | .schurOuter => ∃ x b rhs, SchurOuterOp R X x b ∧ SchurOuterRhs R X R.source rhs ∧
      (∀ r < M.n, ∀ i < psiBoundSize R r, |rhs r i - b r i| ≤ η) ∧ 0 ≤ η ∧ SchurOuterEnd R X R.source x psi ∧ δ = 0
  | .schurKrylov => ∃ x p b q rhs rhsPhi, SchurKrylovOp R X x p b q ∧ SchurKrylovRhs R X R.source rhs rhsPhi ∧
      (∀ r < M.n, ∀ i < psiBoundSize R r, |rhs r i - b r i| ≤ η) ∧ 0 ≤ η ∧ SchurKrylovEnd R X R.source x p psi ∧
      δ = norm1 R (subPhi rhsPhi q)
  | _ => False

/-! ### Statements -/

/-- In every direction the part of the surface of a cell where flux comes in is at most `α σt V`. -/
def Spec.Inflow (p : Problem ℝ) (m : SerialMesh) (α : ℝ) : Prop :=
  ∀ c < m.numCells, ∀ a < p.nAngles, ∑ f, max 0 (-(p.area c f * p.omegaDotN a c f)) ≤ α * (p.sigmaT c * p.volume c)

/-- The factor of the scattering. -/
noncomputable def Spec.amplify (κ b B : ℝ) : ℝ := √(2 * B / b) * (κ / (1 - κ))

/-- What wrong boundary values do to the flux without scattering. -/
noncomputable def Spec.seam (m : SerialMesh) (b B α η : ℝ) : ℝ := √(20 * (m.numCells * B) / b) * (10 * α * η)

/-- How far the values may be from the solution when the boundary values of the last sweep were off by `η` and the scalar
flux still changed by `δ`. -/
noncomputable def Spec.spread (deck : Deck) (m : SerialMesh) (κ b B α η δ : ℝ) : ℝ :=
  seam m b B α η + amplify κ b B * (δ / weights deck + seam m b B α η * (m.numCells * 4 * deck.nGroups))

/-! ### Proofs -/

variable {W : World} {C C' : Machine} {val : Nat → ℝ} {deck : Deck} {m : SerialMesh} {M M' : Mode} {P P' : ParallelMesh}
  {T T' : Nat → Mesh} {D D' : Nat → RankData} {p : Problem ℝ} {sS : Nat → ℝ} {κ b B α η δ η' δ' : ℝ} {file g g' : List UInt8}
  {n n' k : Nat} {s s' : Settings ℝ} {args args' : List Str} {mesh input mesh' input' : Str} {rest rest' : List Str}

theorem stopsApart_ended {Y : ℝ} (ht : 0 ≤ s.ddErrMax) {psi : Nat → Psi ℝ} (h : StopsApart Y η δ s M deck T D k psi) :
    Verif.Source.Ended (M.run deck T D) (scatOf deck D) Y (M.run deck T D).source psi η δ := by
  unfold StopsApart at h
  cases e : s.sweepType <;> rw [e] at h <;> dsimp only at h
  · obtain ⟨-, tr, bound, log, n, h1, h2, h3, h4, h5, rfl, rfl⟩ := h
    rw [← norm1_fluxSum deck D]
    exact .pbj h1 h2 h3 ht h4 h5
  · exact .pbjOuter h
  · obtain ⟨-, st, tr, st', n, h1, h2, h3, h4, rfl⟩ := h
    rw [← norm1_fluxSum deck D]
    exact .schur h1 h2 h3 h4
  · obtain ⟨x, b, rhs, h1, h2, h3, h4, h5, rfl⟩ := h
    exact .schurOuter h1 h2 h3 h4 h5
  · exact .pbjSI h
  · obtain ⟨x, p, b, q, rhs, rhsPhi, h1, h2, h3, h4, h5, rfl⟩ := h
    exact .schurKrylov h1 h2 h3 h4 h5

theorem inflow_thick (h : Ready val deck m M P T D) (F : Fits val m) (hs : Sensible val deck m)
    (Ds : Describes val deck m p sS) (hα : Inflow p m α) : Thick (M.run deck T D) α := by
  have hR := h.runOf F hs Ds
  intro r c a hr hc ha
  have hr' : r < M.n := by have := hR.ranks; omega
  obtain ⟨gc, hgc⟩ := isCell_of_lt h.created h.loaded hr' (by rw [← hR.cells r hr']; exact hc)
  obtain ⟨h1, -, -, h4⟩ := isCell_lg h.created h.loaded hgc
  have ha' : a < p.nAngles := by rw [← hR.angles]; exact ha
  rw [hR.sigma r hr' c gc h1, hR.volume r hr' c gc h1, hR.area r hr' c gc h1, hR.omega r hr' c gc h1 a ha']
  exact hα gc h4 a ha'

theorem cells_serial (h : Ready val deck m M P T D) : meshSum (M.run deck T D) (fun _ _ => (1 : ℝ)) = m.numCells := by
  have := sum_cells h.created h.loaded (fun _ _ => (1 : ℝ)) (fun _ => (1 : ℝ)) fun _ _ _ _ => rfl
  refine Eq.trans this ?_
  simp

theorem amplify_spec (hb : 0 < b) (hB : 0 ≤ B) (hκ0 : 0 ≤ κ) (hκ1 : κ < 1) : 0 ≤ amplify κ b B ∧
    2 * B * κ ^ 2 = b * ((1 - κ) * amplify κ b B) ^ 2 := by
  have k1 : 0 < 1 - κ := by linarith
  refine ⟨mul_nonneg (Real.sqrt_nonneg _) (div_nonneg hκ0 k1.le), ?_⟩
  unfold amplify
  rw [show (1 - κ) * (√(2 * B / b) * (κ / (1 - κ))) = √(2 * B / b) * κ by field_simp, mul_pow,
    Real.sq_sqrt (by positivity)]
  field_simp

theorem seam_spec (hb : 0 < b) (hB : 0 ≤ B) (hα : 0 ≤ α) (hη : 0 ≤ η) : 0 ≤ seam m b B α η ∧
    20 * (m.numCells * (B * (10 * α * η) ^ 2)) = b * seam m b B α η ^ 2 := by
  refine ⟨mul_nonneg (Real.sqrt_nonneg _) (by positivity), ?_⟩
  unfold seam
  rw [mul_pow (√_), Real.sq_sqrt (by positivity)]
  field_simp

/-- The fluxes that ended so, on any ranks. -/
theorem apart_close (h : Ready val deck m M P T D) (F : Fits val m) (hs : Sensible val deck m)
    (Ds : Describes val deck m p sS) (hac : p.Acyclic m) (htr : p.Transversal m) (hκ : Subcritical deck κ) (hκ1 : κ < 1)
    (h0 : 0 < m.numCells) (Bt : Between p m b B) (hα : Inflow p m α) {psi : Nat → Psi ℝ}
    (hE : Verif.Source.Ended (M.run deck T D) (scatOf deck D) (amplify κ b B) (M.run deck T D).source psi η δ) :
    ∃ psiS : Psi ℝ, p.Scatter m (scattering deck sS) psiS ∧
      (∀ psi', p.Scatter m (scattering deck sS) psi' →
        ∀ c < m.numCells, ∀ a < p.nAngles, ∀ g < p.nGroups, ∀ v, psi' g v a c = psiS g v a c) ∧
      ∀ r < M.n, ∀ i c, (T r).getLGCell i = some c → ∀ a < deck.dirs.length, ∀ g < deck.nGroups, ∀ v,
        |psi r g v a i - psiS g v a c| ≤ spread deck m κ b B α η δ := by
  obtain ⟨psiS, d1, d2, star, h3, h4, -⟩ := near_serial h F hs Ds hac htr hκ hκ1 Bt
  refine ⟨psiS, d1, d2, ?_⟩
  have hph := describes_physical h.created.tets F hs Ds
  have hR := h.runOf F hs Ds
  have hPh := run_physical h.created h.loaded hph hR
  have hL := run_linked h.created h.ranks h.loaded hph hR
  have hN := run_nodes h.created h.loaded hR
  have hX := run_crossed h.created h.loaded hph hR htr
  have hA := run_acyclic h.created h.loaded hph hR hac htr
  have hMa := run_matched h.created h.loaded hph (describes_matched h.created.tets F hs Ds) hR htr
  have hr := run_ratio h.created h.loaded hR (h.scatOf F hs Ds) (describes_ratio h.created.tets Ds hκ)
  have hB := between_nonneg Bt h0
  have hWd := between_weighted h F hs Ds Bt hB
  have hTh := inflow_thick h F hs Ds hα
  obtain ⟨a1, a2⟩ := amplify_spec Bt.pos hB hκ.nonneg hκ1
  obtain ⟨hη, old, bound, -, -, h5⟩ := ended_near hPh hL hX hN hMa hR.comm hA hr hκ1 hWd Bt.pos a1 a2.le hE
  have hδ : 0 ≤ δ := (norm1_nonneg _).trans h5
  have hα0 : 0 ≤ α := by
    have hpos := Bt.pos.trans_le (Bt.low 0 h0)
    have hang : 0 < p.nAngles := by rw [Ds.angles]; exact List.length_pos_iff.2 hκ.some
    have := hα 0 h0 0 hang
    have h5 : 0 ≤ α * (p.sigmaT 0 * p.volume 0) := (Finset.sum_nonneg fun f _ => le_max_left _ _).trans this
    exact nonneg_of_mul_nonneg_left h5 hpos
  obtain ⟨u1, u2⟩ := seam_spec (m := m) Bt.pos hB hα0 hη
  have hW : ∑ a ∈ Finset.range (M.run deck T D).nAngles, (scatOf deck D).wt a = weights deck := by
    rw [hR.angles.trans Ds.angles]; exact weight_sum deck sS
  have hWp : 0 < weights deck := by rw [← hW]; exact hr.total
  set U := seam m b B α η with hU
  set Z := amplify κ b B * (δ / weights deck + U * (m.numCells * 4 * deck.nGroups)) with hZ
  have hZ0 : 0 ≤ Z := mul_nonneg a1 (add_nonneg (div_nonneg hδ hWp.le) (mul_nonneg u1 (by positivity)))
  have key := ended_error hPh hL hX hN hMa hR.comm hA hr hκ1 hWd Bt.pos hTh a1 a2.le h3 hE u1 hZ0
    (by rw [cells_serial h]; exact u2.le)
    (by
      rw [hW, entries_serial h]
      refine le_of_eq ?_
      calc 2 * B * (κ * (δ + weights deck * U * (m.numCells * 4 * deck.nGroups))) ^ 2
          = 2 * B * κ ^ 2 * (δ + weights deck * U * (m.numCells * 4 * deck.nGroups)) ^ 2 := by ring
        _ = _ := by
          rw [a2, hZ]
          field_simp)
  intro r hr' i c hc a ha gr hgr v
  have e3 := (isCell_lg h.created h.loaded (lg_isCell h.created h.loaded hr' hc)).2.2.1
  have := key r i a gr v (by rw [hR.ranks]; exact hr') (by rw [hR.cells r hr']; exact e3)
    (by rw [hR.angles, Ds.angles]; exact ha) hgr
  rw [h4 r hr' i c hc] at this
  refine this.trans (le_of_eq ?_)
  unfold spread
  ring

/-- C81: a run of the whole program with any of the sweep types that decompose the domain. Error and file are those of a
flux whose values differ from the one solution of the problem by at most `spread`. -/
theorem main_apart (G : Good W.val file m deck p sS κ) (hs : readInput W.stod W.texts .original input = .ok s)
    (hd : Asks s deck) (hg : W.files mesh = some g) (hP : Partitioned W.val file C.n g) (hn : C.n ≤ 2 ^ 30)
    (hth : 0 < C.threads) (h0 : 0 < m.numCells) (Bt : Between p m b B) (hα : Inflow p m α) (ht : 0 ≤ s.ddErrMax)
    {e : Option ℝ} {out : Option (Str × Verif.PsiFile.File)}
    (hr : RanWith (StopsApart (amplify κ b B) η δ) W C (mesh :: input :: rest) (.finished e out)) :
    ∃ psi psiS : Psi ℝ, p.Scatter m (scattering deck sS) psiS ∧
      (∀ psi', p.Scatter m (scattering deck sS) psi' →
        ∀ c < m.numCells, ∀ a < p.nAngles, ∀ g < p.nGroups, ∀ v, psi' g v a c = psiS g v a c) ∧
      Shows W deck m psi e out ∧ Close deck m (spread deck m κ b B α η δ) psi psiS := by
  obtain ⟨pv, P, T, D, psi, h, hsolve, k⟩ := ran_flux G hs hd hg hP hn hth hr
  obtain ⟨psiG, hG⟩ := serial_flux h.created h.loaded psi
  have hG' : ∀ r < C.n, ∀ i c, (T r).getLGCell i = some c → ∀ g v a, psi r g v a i = psiG g v a c :=
    fun r hr i c hc => hG r i c (lg_isCell h.created h.loaded hr hc)
  obtain ⟨psiS, d1, d2, d3⟩ := apart_close h G.fits G.sensible G.describes G.acyclic G.transversal G.subcritical G.below h0 Bt hα
    (stopsApart_ended (k := m.numCells) (M := { modeOf s C with pv := pv }) ht hsolve)
  refine ⟨psiG, psiS, d1, d2, k psiG hG', ?_⟩
  intro c hc a ha gr hgr v
  obtain ⟨r, i, hi⟩ := isCell_exists h.created hc
  obtain ⟨e1, e2, e3, -⟩ := isCell_lg h.created h.loaded hi
  rw [← hG' r e2 i c e1 gr v a]
  exact d3 r e2 i c e1 a ha gr hgr v

/-- C81: two runs, with any of these sweep types, on any partitions. -/
theorem main_apart_agree (G : Good W.val file m deck p sS κ) (hs : readInput W.stod W.texts .original input = .ok s)
    (hs' : readInput W.stod W.texts .original input' = .ok s') (hd : Asks s deck) (hss : SameProblem s s')
    (hg : W.files mesh = some g) (hP : Partitioned W.val file C.n g) (hg' : W.files mesh' = some g')
    (hP' : Partitioned W.val file C'.n g') (hn : C.n ≤ 2 ^ 30) (hn' : C'.n ≤ 2 ^ 30) (hth : 0 < C.threads) (hth' : 0 < C'.threads)
    (h0 : 0 < m.numCells) (Bt : Between p m b B) (hα : Inflow p m α) (ht : 0 ≤ s.ddErrMax) (ht' : 0 ≤ s'.ddErrMax)
    {e e' : Option ℝ} {out out' : Option (Str × Verif.PsiFile.File)}
    (hr : RanWith (StopsApart (amplify κ b B) η δ) W C (mesh :: input :: rest) (.finished e out))
    (hr' : RanWith (StopsApart (amplify κ b B) η' δ') W C' (mesh' :: input' :: rest') (.finished e' out')) :
    ∃ psi psi' : Psi ℝ, Shows W deck m psi e out ∧ Shows W deck m psi' e' out' ∧
      Close deck m (spread deck m κ b B α η δ + spread deck m κ b B α η' δ') psi psi' := by
  obtain ⟨psi, S, d1, d2, d3, d4⟩ := main_apart G hs hd hg hP hn hth h0 Bt hα ht hr
  obtain ⟨psi', S', e1, e2, e3, e4⟩ := main_apart G hs' (hd.same hss) hg' hP' hn' hth' h0 Bt hα ht' hr'
  refine ⟨psi, psi', d3, e3, fun c hc a ha g hg v => ?_⟩
  have k1 := d4 c hc a ha g hg v
  have k2 := e4 c hc a ha g hg v
  rw [e2 S d1 c hc a (by rw [G.describes.angles]; exact ha) g (by rw [G.describes.groups]; exact hg) v |>.symm, abs_sub_comm] at k2
  exact (abs_sub_le _ (S g v a c) _).trans (add_le_add k1 k2)

/-- C81: there is such an `α`. -/
theorem inflow_exists (Bt : Between p m b B) : ∃ α, Inflow p m α := by
  set S : Nat → Nat → ℝ := fun c a => (∑ f, max 0 (-(p.area c f * p.omegaDotN a c f))) / (p.sigmaT c * p.volume c) with hS
  have hpos : ∀ c < m.numCells, 0 < p.sigmaT c * p.volume c := fun c hc => Bt.pos.trans_le (Bt.low c hc)
  refine ⟨∑ c ∈ Finset.range m.numCells, ∑ a ∈ Finset.range p.nAngles, |S c a|, fun c hc a ha => ?_⟩
  have h1 : |S c a| ≤ ∑ a ∈ Finset.range p.nAngles, |S c a| :=
    Finset.single_le_sum (f := fun a => |S c a|) (fun _ _ => abs_nonneg _) (Finset.mem_range.2 ha)
  have h2 : ∑ a ∈ Finset.range p.nAngles, |S c a| ≤ ∑ c ∈ Finset.range m.numCells, ∑ a ∈ Finset.range p.nAngles, |S c a| :=
    Finset.single_le_sum (f := fun c => ∑ a ∈ Finset.range p.nAngles, |S c a|)
      (fun _ _ => Finset.sum_nonneg fun _ _ => abs_nonneg _) (Finset.mem_range.2 hc)
  have h3 := (le_abs_self (S c a)).trans (h1.trans h2)
  rwa [hS, div_le_iff₀ (hpos c hc)] at h3

/-- Entries of finitely many vectors are bounded. -/
theorem entry_bound (n : Nat) (size : Nat → Nat) (x : Nat → Nat → ℝ) : ∃ ρ, 0 ≤ ρ ∧ ∀ r < n, ∀ i < size r, |x r i| ≤ ρ := by
  refine ⟨∑ r ∈ Finset.range n, ∑ i ∈ Finset.range (size r), |x r i|,
    Finset.sum_nonneg fun _ _ => Finset.sum_nonneg fun _ _ => abs_nonneg _, fun r hr i hi => ?_⟩
  have h1 := Finset.single_le_sum (f := fun i => |x r i|) (fun _ _ => abs_nonneg _) (Finset.mem_range.2 hi)
  have h2 := Finset.single_le_sum (f := fun r => ∑ i ∈ Finset.range (size r), |x r i|)
    (fun _ _ => Finset.sum_nonneg fun _ _ => abs_nonneg _) (Finset.mem_range.2 hr)
  exact h1.trans h2

/-- C81: the runs with SchurOuter and SchurKrylov do end, wherever PETSc stops. -/
theorem main_apart_stops (G : Good W.val file m deck p sS κ) (hs : readInput W.stod W.texts .original input = .ok s)
    (hd : Asks s deck) (hg : W.files mesh = some g) (hP : Partitioned W.val file C.n g) (hn : C.n ≤ 2 ^ 30)
    (hth : 0 < C.threads) (ht : s.sweepType = .schurOuter ∨ s.sweepType = .schurKrylov) (Y : ℝ) (rest : List Str) :
    ∃ η δ e out, RanWith (StopsApart Y η δ) W C (mesh :: input :: rest) (.finished e out) := by
  obtain ⟨pv, P, T, D, h, hend⟩ := ran_exists (C := C) G hs hd hg hP hn hth rest
  have hph := describes_physical h.created.tets G.fits G.sensible G.describes
  have hR := h.runOf G.fits G.sensible G.describes
  have hL := run_linked h.created h.ranks h.loaded hph hR
  have hN := run_nodes h.created h.loaded hR
  have hPh := run_physical h.created h.loaded hph hR
  have hX := run_crossed h.created h.loaded hph hR G.transversal
  have hA := run_acyclic h.created h.loaded hph hR G.acyclic G.transversal
  have hMa := run_matched h.created h.loaded hph (describes_matched h.created.tets G.fits G.sensible G.describes) hR G.transversal
  have hr := run_ratio h.created h.loaded hR (h.scatOf G.fits G.sensible G.describes)
    (describes_ratio h.created.tets G.describes G.subcritical)
  have key : ∃ η δ psi, StopsApart Y η δ s (modeOf s C) deck T D m.numCells psi := by
    unfold StopsApart
    rcases ht with ht | ht <;> rw [ht] <;> dsimp only
    · obtain ⟨b, rhs, psi, h1, h2, h3⟩ := schurOuter_any hPh hL hX hN hMa hR.comm hA hr G.below
        (Mode.run { modeOf s C with pv := pv } deck T D).source fun _ _ => 0
      obtain ⟨ρ, k1, k2⟩ := entry_bound C.n (psiBoundSize ((modeOf s C).run deck T D)) fun r i => rhs r i - b r i
      exact ⟨ρ, 0, psi, _, b, rhs, h1, h2, k2, k1, h3, rfl⟩
    · obtain ⟨b, q, rhs, rhsPhi, psi, h1, h2, h3⟩ := schurKrylov_any (X := scatOf deck D) hPh hL hX hR.comm hA
        (Mode.run { modeOf s C with pv := pv } deck T D).source (fun _ _ => 0) fun _ _ _ _ => 0
      obtain ⟨ρ, k1, k2⟩ := entry_bound C.n (psiBoundSize ((modeOf s C).run deck T D)) fun r i => rhs r i - b r i
      exact ⟨ρ, _, psi, _, _, b, q, rhs, rhsPhi, h1, h2, k2, k1, h3, rfl⟩
  obtain ⟨η, δ, psi, hsol⟩ := key
  exact ⟨η, δ, hend _ psi hsol⟩

/-! ### Two decks for the mesh of two cells -/

def krylovApartDeck : Str :=
  ("snOrder 2\niterMax 100\nerrMax 0.5\nmaxCellsPerStep 3\nintraAngleP 3\ninterAngleP 1\n"
    ++ "nGroups 2\nsigmaT1 1.0\nsigmaS1 0.5\nsigmaT2 2.0\nsigmaS2 0.0\nOutputFile true\n"
    ++ "OutputFilename krylov.psi\nSourceIteration true\nDD_IterMax 100\nDD_ErrMax 0.5\n"
    ++ "MPIType TychoTwoSided\nSweepType SchurKrylov\nGaussElim CramerGlu\n").toList

def outerApartDeck : Str :=
  ("GaussElim NoPivot\nSweepType SchurOuter\nMPIType CapsaicinTwoSided\nsnOrder 2\niterMax 22\nerrMax 0.5\n"
    ++ "maxCellsPerStep 1\nintraAngleP 0\ninterAngleP 2\nnGroups 2\n# cross sections\nsigmaT1 1.0\nsigmaS1 0.5\nsigmaT2 2.0\n"
    ++ "sigmaS2 0.0\nOutputFile TRUE\nOutputFilename outer.psi\nSourceIteration true\nDD_IterMax 1\nDD_ErrMax 1.0\n").toList

def krylovApartSettings : Settings Str :=
  ⟨2, 100, "0.5".toList, 3, 3, 1, 2, "1.0".toList, "0.5".toList, "2.0".toList, "0.0".toList, true, "krylov.psi".toList, 100,
    "0.5".toList, true, .tychoTwoSided, .schurKrylov, .cramerGlu⟩

def outerApartSettings : Settings Str :=
  ⟨2, 22, "0.5".toList, 1, 0, 2, 2, "1.0".toList, "0.5".toList, "2.0".toList, "0.0".toList, true, "outer.psi".toList, 1,
    "1.0".toList, true, .capsaicinTwoSided, .schurOuter, .noPivot⟩

def apartTexts (name : Str) : Option Str :=
  if name = "krylov".toList then some krylovApartDeck else if name = "outer".toList then some outerApartDeck else none

theorem apart_decks_read : (readInput some apartTexts .original "krylov".toList).toOption = some krylovApartSettings ∧
    (readInput some apartTexts .original "outer".toList).toOption = some outerApartSettings := by decide +kernel

/-- C81: two complete runs on the mesh of two cells, SchurKrylov on two ranks and SchurOuter on three, that stop before they
have converged: all conditions of `main_apart` and `main_apart_agree` hold. -/
theorem two_apart : ∃ (W : World) (deck : Deck) (p : Problem ℝ) (sS : Nat → ℝ) (g g' : List UInt8) (α η δ η' δ' : ℝ)
    (e e' : Option ℝ) (out out' : Option (Str × Verif.PsiFile.File)) (s s' : Settings ℝ),
    Good W.val twoMesh.bytes twoMesh deck p sS (3 / 4) ∧
    readInput W.stod W.texts .original "krylov".toList = .ok s ∧ readInput W.stod W.texts .original "outer".toList = .ok s' ∧
    Asks s deck ∧ SameProblem s s' ∧ 0 ≤ s.ddErrMax ∧ 0 ≤ s'.ddErrMax ∧
    W.files "two.pmesh".toList = some g ∧ W.files "three.pmesh".toList = some g' ∧
    Partitioned W.val twoMesh.bytes 2 g ∧ Partitioned W.val twoMesh.bytes 3 g' ∧
    Between p twoMesh (1000 / 3) (1000 / 3) ∧ Inflow p twoMesh α ∧
    RanWith (StopsApart (amplify (3 / 4) (1000 / 3) (1000 / 3)) η δ) W (machine 2 1 true) ["two.pmesh".toList, "krylov".toList]
      (.finished e out) ∧
    RanWith (StopsApart (amplify (3 / 4) (1000 / 3) (1000 / 3)) η' δ') W (machine 3 4 false) ["three.pmesh".toList, "outer".toList]
      (.finished e' out') := by
  obtain ⟨deck, p, sS, g, g', G, hQ, q1, q2, q3, q4, q5, hP, hP', hw⟩ := two_good
  let W := twoWorld apartTexts g g'
  obtain ⟨f1, f2⟩ := twoWorld_files apartTexts g g'
  obtain ⟨v1, v2, v3, v4⟩ := number_values
  have r1 : readInput W.stod W.texts .original "krylov".toList = .ok (mapSettings numberOf krylovApartSettings) :=
    readInput_map numberOf some apartTexts .original _ (ok_of_toOption apart_decks_read.1)
  have r2 : readInput W.stod W.texts .original "outer".toList = .ok (mapSettings numberOf outerApartSettings) :=
    readInput_map numberOf some apartTexts .original _ (ok_of_toOption apart_decks_read.2)
  have hd : Asks (mapSettings numberOf krylovApartSettings) deck := ⟨hQ, q1, q2.trans v1.symm, q3.trans v2.symm,
    q4.trans v3.symm, q5.trans v4.symm⟩
  have hss : SameProblem (mapSettings numberOf krylovApartSettings) (mapSettings numberOf outerApartSettings) :=
    ⟨rfl, rfl, rfl, rfl, rfl, rfl⟩
  have Bt := two_between G.describes q2 q4
  obtain ⟨α, hα⟩ := inflow_exists Bt
  obtain ⟨η, δ, e, out, h1⟩ := main_apart_stops (W := W) (C := machine 2 1 true) G r1 hd f1 hP (by decide) (by decide) (.inr rfl)
    (amplify (3 / 4) (1000 / 3) (1000 / 3)) []
  obtain ⟨η', δ', e', out', h2⟩ := main_apart_stops (W := W) (C := machine 3 4 false) G r2 (hd.same hss) f2 hP' (by decide)
    (by decide) (.inl rfl) (amplify (3 / 4) (1000 / 3) (1000 / 3)) []
  have he : (mapSettings numberOf krylovApartSettings).ddErrMax = 1 / 2 := v2
  have he' : (mapSettings numberOf outerApartSettings).ddErrMax = 1 := v1
  exact ⟨W, deck, p, sS, g, g', α, η, δ, η', δ', e, e', out, out', _, _, G, r1, r2, hd, hss, by rw [he]; norm_num,
    by rw [he']; norm_num, f1, f2, hP, hP', Bt, hα, h1, h2⟩

end Verif.Program
