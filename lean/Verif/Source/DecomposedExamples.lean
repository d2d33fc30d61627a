import Verif.Source.Decomposed

/-!
# Runs that end by the tolerances of the decomposing methods
-/
set_option linter.unusedSectionVars false

namespace Verif.Source
open List
open Verif.Transport Verif.Traverse Verif.Domain

section
variable {K : Type} [Field K] [LinearOrder K] [IsStrictOrderedRing K]
variable {R : SweepRun K} {X : Scat K} {mate : Loc → Option Loc} {node : Nat → Nat → Fin 4 → Nat}

/-- A sweep with a source and no boundary values has some flux. -/
theorem local_flux (H : R.Physical) (Lk : Linked R.cfg mate) {src psi : Nat → Psi K}
    (h : LocalDG R mate node src (fun _ _ _ _ _ => 0) psi)
    {r c a g : Nat} (hr : r < R.nRanks) (hc : c < R.nCells r) (ha : a < R.nAngles) (hg : g < R.nGroups)
    (hs : ∀ v, 0 < src r g v a c) : fluxNorm R psi ≠ 0 := by
  intro h0
  have hz : ∀ r c a g v, r < R.nRanks → c < R.nCells r → a < R.nAngles → g < R.nGroups → psi r g v a c = 0 := by
    intro r c a g v hr hc ha hg
    have := gsum_single (R := R) (f := fun r g v a c => |psi r g v a c|) (fun _ _ _ _ _ => abs_nonneg _) v hr hc ha hg
    rw [show gsum R (fun r g v a c => |psi r g v a c|) = 0 from h0] at this
    exact abs_eq_zero.1 (le_antisymm this (abs_nonneg _))
  obtain ⟨inc, h1, h2⟩ := h r c a g hr hc ha hg
  rw [dg_congr _ _ _ inc (fun _ _ => 0) _ _ fun f v hneg hv => ?_] at h2
  · have e : (fun v => psi r g v a c) = fun _ => 0 := funext fun v => hz r c a g v hr hc ha hg
    rw [e] at h2
    have h3 := h2 0
    simp only [Spec.DGRow, Spec.upwind, ite_self, Finset.sum_const_zero, mul_zero, add_zero] at h3
    have hV := H.volume r c hr hc
    have h4 : 0 < 2 * src r g 0 a c + ∑ j ∈ Finset.univ.erase 0, src r g j a c :=
      add_pos_of_pos_of_nonneg (by linarith [hs 0]) (Finset.sum_nonneg fun j _ => (hs j).le)
    have h5 : 0 < (R.view r).cellVolume c / 20 * (2 * src r g 0 a c + ∑ j ∈ Finset.univ.erase 0, src r g j a c) := by
      positivity
    exact absurd h3 h5.ne
  · obtain ⟨k1, k2, k3⟩ := h1 f v hv hneg
    rcases hm : mate ⟨r, c, f⟩ with _ | y
    · exact k3 hm
    · by_cases hy : y.rank = r
      · obtain ⟨w, -, e⟩ := k1 y hm hy
        rw [e]
        have hin := Lk.mate_in ⟨r, c, f⟩ y ⟨hr, hc⟩ hm
        have h6 : y.cell < R.nCells r := by have := hin.2; rw [hy] at this; exact this
        exact hz r y.cell a g w hr h6 ha hg
      · exact k2 y hm hy

/-- Source iteration with block Jacobi in a medium that does not scatter: with a tolerance above one every call makes one
local sweep. -/
theorem pbj_absorber (H : R.Physical) (Lk : Linked R.cfg mate) (Xc : Crossed R.cfg mate) (N : R.Nodes mate node)
    (hd : R.doComm = true) (Ac : Acyclic R.cfg mate) (hσ : ∀ r c, X.sigmaS r c = 0) {tol errMax : K} (ht : 1 < tol)
    (he0 : 0 ≤ errMax) (he1 : errMax < 1) {ddMax iterMax : Nat} (hm : 2 < ddMax) (hi : 2 < iterMax) {src : Nat → Psi K}
    {r c a g : Nat} (hr : r < R.nRanks) (hc : c < R.nCells r) (ha : a < R.nAngles) (hg : g < R.nGroups)
    (hs : ∀ v, 0 < src r g v a c) : ∃ tr bound log psi n, FixedPoint R X (pbjLogged R tol ddMax) src errMax iterMax
      (fun _ _ _ _ _ => 0, []) (fun _ _ _ _ _ => 0) tr (bound, log) psi n ∧ 0 < n ∧ n < iterMax ∧
      (∀ sweeps, log.getLast? = some sweeps → sweeps.length + 1 < ddMax) := by
  have tot_same : ∀ {phi tot}, IsTotal R X src phi tot → SameFlux R tot src := by
    intro phi tot h r c a g v hr hc ha hg
    rw [h.same r c a g v hr hc ha hg]
    simp [scat, hσ]
  obtain ⟨phi0, hp0⟩ := isPhi_exists (R := R) (X := X) fun _ _ _ _ _ => 0
  obtain ⟨tot1, ht1⟩ := isTotal_exists (R := R) (X := X) src phi0
  obtain ⟨psi1, hs1⟩ := local_sweep_exists H Lk hd Xc Ac tot1 (fun _ _ _ _ _ => 0) (fun _ _ _ _ _ => 0)
  have hL1 := localDG_congr (bound' := fun _ _ _ _ _ => 0) (local_sweep_solves H Lk N hs1) (tot_same ht1)
    (fun _ _ _ _ _ _ _ _ _ _ _ _ => rfl) H
  have hn1 := local_flux H Lk hL1 hr hc ha hg hs
  have hc1 : Converged R tol (fun _ _ _ _ _ => 0) psi1 := by
    refine ⟨hn1, ?_⟩
    simp only [zero_sub, abs_neg]
    exact (div_self hn1).trans_lt ht
  obtain ⟨phi1, hp1⟩ := isPhi_exists (R := R) (X := X) psi1
  have hrun1 : (pbjLogged R tol ddMax).run (fun _ _ _ _ _ => 0, []) false (fun _ _ _ _ _ => 0) tot1
      (fun _ _ _ _ _ => 0, [[psi1]]) psi1 := ⟨[psi1], .conv (by omega) hs1 hc1, rfl⟩
  have h01 : (0 : Nat) < iterMax ∧ (Err.val (1 : K)).gt errMax := ⟨by omega, he1⟩
  by_cases hgt : (relErr R phi1 phi0).gt errMax
  · obtain ⟨tot2, ht2⟩ := isTotal_exists (R := R) (X := X) src phi1
    obtain ⟨psi2, hs2⟩ := local_sweep_exists H Lk hd Xc Ac tot2 psi1 (fun _ _ _ _ _ => 0)
    have hL2 := localDG_congr (bound' := fun _ _ _ _ _ => 0) (local_sweep_solves H Lk N hs2) (tot_same ht2)
      (fun _ _ _ _ _ _ _ _ _ _ _ _ => rfl) H
    have hsame := localDG_unique H Lk N hd Ac hL1 hL2
    have hc2 : Converged R tol psi1 psi2 := by
      refine ⟨local_flux H Lk hL2 hr hc ha hg hs, ?_⟩
      have : gsum R (fun r g v a c => |psi1 r g v a c - psi2 r g v a c|) = 0 := by
        unfold gsum
        refine Finset.sum_eq_zero fun r hr => Finset.sum_eq_zero fun c hc => Finset.sum_eq_zero fun a ha =>
          Finset.sum_eq_zero fun v _ => Finset.sum_eq_zero fun g hg => ?_
        show |psi1 r g v a c - psi2 r g v a c| = 0
        rw [hsame r c a g v (Finset.mem_range.1 hr) (Finset.mem_range.1 hc) (Finset.mem_range.1 ha) (Finset.mem_range.1 hg)]
        simp
      rw [this, zero_div]
      linarith
    obtain ⟨phi2, hp2⟩ := isPhi_exists (R := R) (X := X) psi2
    have hstop : ¬ (relErr R phi2 phi1).gt errMax := by
      have e1 : SamePhi R phi1 phi2 := fun r hr g v c hg hc => by
        rw [hp1.same r hr g v c hg hc, hp2.same r hr g v c hg hc, scal_congr hsame r hr g v c hg hc]
      have e2 : phiSum R (fun r g v c => |phi2 r g v c - phi1 r g v c|) = 0 := by
        unfold phiSum
        refine Finset.sum_eq_zero fun r hr => Finset.sum_eq_zero fun c hc => Finset.sum_eq_zero fun v _ =>
          Finset.sum_eq_zero fun g hg => ?_
        show |phi2 r g v c - phi1 r g v c| = 0
        rw [e1 r (Finset.mem_range.1 hr) g v c (Finset.mem_range.1 hg) (Finset.mem_range.1 hc)]
        simp
      unfold relErr
      dsimp only
      rw [e2, zero_div]
      split
      · exact not_lt.2 he0
      · simp [Err.gt]
    have hrun2 : (pbjLogged R tol ddMax).run (fun _ _ _ _ _ => 0, [[psi1]]) false psi1 tot2
        (fun _ _ _ _ _ => 0, [[psi1], [psi2]]) psi2 := ⟨[psi2], .conv (by omega) hs2 hc2, rfl⟩
    exact ⟨_, _, _, psi2, 2, ⟨phi0, hp0, .step h01 ht1 hrun1 hp1 (.step ⟨by omega, hgt⟩ ht2 hrun2 hp2
      (.stop fun h => hstop h.2))⟩, by omega, hi, by
        intro sw h
        have : sw = [psi2] := by simpa using h.symm
        rw [this]
        exact hm⟩
  · exact ⟨_, _, _, psi1, 1, ⟨phi0, hp0, .step h01 ht1 hrun1 hp1 (.stop fun h => hgt h.2)⟩, by omega, by omega, by
      intro sw h
      have : sw = [psi1] := by simpa using h.symm
      rw [this]
      exact hm⟩

end

/-! ### The two-rank mesh -/

/-- `exScat` without scattering. -/
def exAbsorb : Scat ℚ := { exScat with sigmaS := fun _ _ => 0 }

/-- C81: source iteration with block Jacobi on the mesh with two ranks ends by its tolerances. -/
example : ∃ psi η δ, Ended (good true) exAbsorb 1 (fun _ _ _ _ _ => 1) psi η δ := by
  obtain ⟨tr, bound, log, psi, n, h1, h2, h3, h4⟩ := pbj_absorber (X := exAbsorb) (ex_physical false .tycho true)
    (ex_linked false .tycho true) (ex_crossed _ _) (ex_nodes _ _ _) rfl (ex_acyclic _ _) (fun _ _ => rfl)
    (tol := 2) (errMax := 1 / 10) (by norm_num) (by norm_num) (by norm_num) (ddMax := 100) (iterMax := 100) (by omega) (by omega)
    (src := fun _ _ _ _ _ => 1) (r := 0) (c := 0) (a := 0) (g := 0) (by decide) (by decide) (by decide) (by decide)
    (fun _ => one_pos)
  exact ⟨psi, _, _, .pbj h1 h2 h3 (by norm_num) (by omega) h4⟩

/-- C81: `SweeperSchurOuter` and `SweeperSchurKrylov` there, for any vector PETSc may return. -/
example (src : Nat → Psi ℚ) (x : Nat → Nat → ℚ) (p : Nat → Phi ℚ) : ∃ b rhs psi b' q rhs' rhsPhi psi',
    SchurOuterOp (good true) exScat x b ∧ SchurOuterRhs (good true) exScat src rhs ∧ SchurOuterEnd (good true) exScat src x psi ∧
    SchurKrylovOp (good true) exScat x p b' q ∧ SchurKrylovRhs (good true) exScat src rhs' rhsPhi ∧
    SchurKrylovEnd (good true) exScat src x p psi' := by
  obtain ⟨b, rhs, psi, h1, h2, h3⟩ := schurOuter_any (X := exScat) (ex_physical false .tycho true)
    (ex_linked false .tycho true) (ex_crossed _ _) (ex_nodes _ _ _) ex_matched rfl (ex_acyclic _ _) ex_ratio (by norm_num) src x
  obtain ⟨b', q, rhs', rhsPhi, psi', h4, h5, h6⟩ := schurKrylov_any (X := exScat) (ex_physical false .tycho true)
    (ex_linked false .tycho true) (ex_crossed _ _) rfl (ex_acyclic _ _) src x p
  exact ⟨b, rhs, psi, b', q, rhs', rhsPhi, psi', h1, h2, h3, h4, h5, h6⟩

end Verif.Source
