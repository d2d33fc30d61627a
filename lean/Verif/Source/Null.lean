import Verif.Source.Jacobi

/-!
# How large a solution is (for C82)

The energy of a solution is bounded by its source, and by the anisotropic part of the source where the scalar flux is small.
-/
set_option linter.unusedSectionVars false
set_option linter.unusedVariables false
namespace Verif.Source

open Verif.Traverse (Psi SweepRun Bound Loc Linked)
open Verif.Domain

variable {K : Type} [Field K] [LinearOrder K] [IsStrictOrderedRing K]
variable {R : SweepRun K} {X : Scat K} {mate : Loc → Option Loc} {node : Nat → Nat → Fin 4 → Nat}

theorem cellM_young {σ : K} (hσ : 0 < σ) (t p : Fin 4 → K) : 2 * cellM t p ≤ cellM t t / σ + σ * cellM p p := by
  have h := mul_nonneg hσ.le (cellM_nonneg fun i => p i + (-1 / σ) * t i)
  rw [cellM_add, cellM_comm, cellM_add, cellM_comm (K := K) t (fun i => p i + (-1 / σ) * t i), cellM_add, cellM_comm (K := K) p t] at h
  have e : σ * (cellM p p + -1 / σ * cellM t p + -1 / σ * (cellM t p + -1 / σ * cellM t t)) =
      σ * cellM p p - 2 * cellM t p + cellM t t / σ := by
    field_simp
    ring
  linarith

theorem cellM_weights (na : Nat) (w : Nat → K) (q : Fin 4 → K) (e : Nat → Fin 4 → K) :
    ∑ a ∈ Finset.range na, w a * cellM q (e a) = cellM q fun v => ∑ a ∈ Finset.range na, e a v * w a := by
  simp only [cellM, Fin.sum_univ_four, Finset.mul_sum, ← Finset.sum_add_distrib, Finset.sum_div]
  exact Finset.sum_congr rfl fun a _ => by ring

/-- The energy of a solution comes from its source; the isotropic part meets only the scalar flux. -/
theorem source_of_energy (H : R.Physical) (L : Linked R.cfg mate) (N : R.Nodes mate node) (M : Matched R mate node) {κ : K}
    (hκ : Ratio R X κ) {src star : Nat → Psi K} (hs : Scatters R X (FullDG R mate node) src star) {g : Nat} (hg : g < R.nGroups)
    (iso : Nat → Nat → Fin 4 → K) :
    ∑ a ∈ Finset.range R.nAngles, X.wt a * energyAt R a g star ≤
      (∑ a ∈ Finset.range R.nAngles, X.wt a * meshSum R fun r c => (R.view r).cellVolume c *
        cellM (fun v => src r g v a c - iso r c v) fun v => star r g v a c) +
      meshSum R fun r c => (R.view r).cellVolume c * cellM
        (fun v => iso r c v + X.sigmaS r c / (4 * X.mPi) * scal R X star r g v c) fun v => scal R X star r g v c := by
  have h1 : ∀ a < R.nAngles, energyAt R a g star ≤
      meshSum R (fun r c => (R.view r).cellVolume c * cellM (fun v => src r g v a c - iso r c v) fun v => star r g v a c) +
      meshSum R (fun r c => (R.view r).cellVolume c * cellM (fun v => iso r c v + X.sigmaS r c / (4 * X.mPi) * scal R X star r g v c)
        fun v => star r g v a c) := by
    intro a ha
    have h := lag_energy H L N M (lag_of_full hs) ha hg
    have e : meshSum R (fun r c => (R.view r).cellVolume c * cellM (fun v => scat X src (scal R X star) r g v a c)
        (fun v => star r g v a c)) =
        meshSum R (fun r c => (R.view r).cellVolume c * cellM (fun v => src r g v a c - iso r c v) fun v => star r g v a c) +
        meshSum R (fun r c => (R.view r).cellVolume c * cellM (fun v => iso r c v + X.sigmaS r c / (4 * X.mPi) * scal R X star r g v c)
          fun v => star r g v a c) := by
      rw [← meshSum_add]
      refine meshSum_congr fun r hr c hc => ?_
      have : (fun v => scat X src (scal R X star) r g v a c) = fun v => (src r g v a c - iso r c v) +
          1 * (iso r c v + X.sigmaS r c / (4 * X.mPi) * scal R X star r g v c) := by
        funext v
        simp only [scat]
        ring
      rw [this, cellM_add]
      ring
    linarith
  have h2 := Finset.sum_le_sum fun a (ha : a ∈ Finset.range R.nAngles) =>
    mul_le_mul_of_nonneg_left (h1 a (Finset.mem_range.1 ha)) (hκ.weights a (Finset.mem_range.1 ha))
  refine h2.trans (le_of_eq ?_)
  simp only [mul_add, Finset.sum_add_distrib]
  refine congrArg _ ?_
  simp only [← meshSum_mul]
  rw [← meshSum_sum]
  refine meshSum_congr fun r hr c hc => ?_
  calc ∑ a ∈ Finset.range R.nAngles, X.wt a * ((R.view r).cellVolume c *
        cellM (fun v => iso r c v + X.sigmaS r c / (4 * X.mPi) * scal R X star r g v c) fun v => star r g v a c)
      = (R.view r).cellVolume c * ∑ a ∈ Finset.range R.nAngles, X.wt a *
        cellM (fun v => iso r c v + X.sigmaS r c / (4 * X.mPi) * scal R X star r g v c) fun v => star r g v a c := by
        rw [Finset.mul_sum]; exact Finset.sum_congr rfl fun a _ => by ring
    _ = _ := by
        rw [cellM_weights R.nAngles X.wt _ fun a v => star r g v a c]
        rfl

theorem source_young (H : R.Physical) {κ : K} (hκ : Ratio R X κ) {d : Nat → Nat → Nat → Fin 4 → K} {star : Nat → Psi K} {g : Nat} {τ θ : K}
    (hθ : 0 < θ) (hσ : ∀ r < R.nRanks, ∀ c < R.nCells r, 0 < R.sigmaT r c)
    (hτ : ∀ r < R.nRanks, ∀ c < R.nCells r, ∀ a < R.nAngles, ∀ v, |d r c a v| ≤ τ) :
    2 * ∑ a ∈ Finset.range R.nAngles, X.wt a * meshSum R (fun r c => (R.view r).cellVolume c * cellM (d r c a) fun v => star r g v a c) ≤
      (∑ a ∈ Finset.range R.nAngles, X.wt a) * (meshSum R fun r c => (R.view r).cellVolume c / R.sigmaT r c * τ ^ 2) / θ +
      θ * ∑ a ∈ Finset.range R.nAngles, X.wt a * energyAt R a g star := by
  have key : ∀ a < R.nAngles, 2 * meshSum R (fun r c => (R.view r).cellVolume c * cellM (d r c a) fun v => star r g v a c) ≤
      (meshSum R fun r c => (R.view r).cellVolume c / R.sigmaT r c * τ ^ 2) / θ + θ * energyAt R a g star := by
    intro a ha
    unfold energyAt
    rw [← meshSum_mul, ← meshSum_mul, div_eq_inv_mul, ← meshSum_mul, ← meshSum_add]
    refine meshSum_le fun r hr c hc => ?_
    have hV := (H.volume r c hr hc).le
    have hs := hσ r hr c hc
    have k1 := mul_le_mul_of_nonneg_left (cellM_young (mul_pos hθ hs) (d r c a) (fun v => star r g v a c)) hV
    have k2 := mul_le_mul_of_nonneg_left (cellM_small (hτ r hr c hc a ha)) (mul_nonneg (inv_nonneg.2 hθ.le) (div_nonneg hV hs.le))
    have k3 : θ⁻¹ * ((R.view r).cellVolume c / R.sigmaT r c) * cellM (d r c a) (d r c a) =
        (R.view r).cellVolume c * (cellM (d r c a) (d r c a) / (θ * R.sigmaT r c)) := by
      field_simp
    linarith
  rw [Finset.mul_sum]
  refine (Finset.sum_le_sum fun a ha => ?_).trans (le_of_eq (?_ : ∑ a ∈ Finset.range R.nAngles, X.wt a *
    ((meshSum R fun r c => (R.view r).cellVolume c / R.sigmaT r c * τ ^ 2) / θ + θ * energyAt R a g star) = _))
  · have := mul_le_mul_of_nonneg_left (key a (Finset.mem_range.1 ha)) (hκ.weights a (Finset.mem_range.1 ha))
    linarith
  · simp only [mul_add, Finset.sum_add_distrib]
    rw [← Finset.sum_mul, mul_div_assoc, Finset.mul_sum]
    exact congrArg _ (Finset.sum_congr rfl fun a _ => by ring)

/-- A solution with little scalar flux has the energy of the anisotropic part of its source. -/
theorem phi_energy (H : R.Physical) (L : Linked R.cfg mate) (N : R.Nodes mate node) (M : Matched R mate node) {κ : K}
    (hκ : Ratio R X κ) {src star : Nat → Psi K} (hs : Scatters R X (FullDG R mate node) src star) {g : Nat} (hg : g < R.nGroups)
    (iso : Nat → Nat → Fin 4 → K) {τ : K}
    (hσ : ∀ r < R.nRanks, ∀ c < R.nCells r, 0 < R.sigmaT r c)
    (hτ : ∀ r < R.nRanks, ∀ c < R.nCells r, ∀ a < R.nAngles, ∀ v, |src r g v a c - iso r c v| ≤ τ) :
    ∑ a ∈ Finset.range R.nAngles, X.wt a * energyAt R a g star ≤
      (∑ a ∈ Finset.range R.nAngles, X.wt a) * (meshSum R fun r c => (R.view r).cellVolume c / R.sigmaT r c * τ ^ 2) +
      2 * meshSum R fun r c => (R.view r).cellVolume c * cellM
        (fun v => iso r c v + X.sigmaS r c / (4 * X.mPi) * scal R X star r g v c) fun v => scal R X star r g v c := by
  have h1 := source_of_energy H L N M hκ hs hg iso
  have h2 := source_young (star := star) (g := g) (d := fun r c a v => src r g v a c - iso r c v) H hκ one_pos hσ hτ
  rw [div_one, one_mul] at h2
  linarith

/-- A solution is not larger than its source allows. -/
theorem star_energy (H : R.Physical) (L : Linked R.cfg mate) (N : R.Nodes mate node) (M : Matched R mate node) {κ : K}
    (hκ : Ratio R X κ) (h1 : κ < 1) {src star : Nat → Psi K} (hs : Scatters R X (FullDG R mate node) src star) {g : Nat}
    (hg : g < R.nGroups) {τ : K} (hσ : ∀ r < R.nRanks, ∀ c < R.nCells r, 0 < R.sigmaT r c)
    (hτ : ∀ r < R.nRanks, ∀ c < R.nCells r, ∀ a < R.nAngles, ∀ v, |src r g v a c| ≤ τ) :
    (1 - κ) ^ 2 * ∑ a ∈ Finset.range R.nAngles, X.wt a * energyAt R a g star ≤
      (∑ a ∈ Finset.range R.nAngles, X.wt a) * meshSum R fun r c => (R.view r).cellVolume c / R.sigmaT r c * τ ^ 2 := by
  have hθ : 0 < 1 - κ := by linarith
  have k1 := source_of_energy H L N M hκ hs hg fun _ _ _ => 0
  have k2 := source_young (star := star) (g := g) (d := fun r c a v => src r g v a c - 0) H hκ hθ hσ
    (by simpa only [sub_zero] using hτ)
  have k3 := energy_angles H hκ g star
  set S := ∑ a ∈ Finset.range R.nAngles, X.wt a with hS
  have k4 : S * (meshSum R fun r c => (R.view r).cellVolume c * cellM
        (fun v => 0 + X.sigmaS r c / (4 * X.mPi) * scal R X star r g v c) fun v => scal R X star r g v c) ≤
      κ * energy R g (scal R X star) := by
    unfold energy
    rw [← meshSum_mul, ← meshSum_mul]
    refine meshSum_le fun r hr c hc => ?_
    have hV := (H.volume r c hr hc).le
    have hm := cellM_nonneg fun v => scal R X star r g v c
    have e : cellM (fun v => 0 + X.sigmaS r c / (4 * X.mPi) * scal R X star r g v c) (fun v => scal R X star r g v c) =
        X.sigmaS r c / (4 * X.mPi) * cellM (fun v => scal R X star r g v c) fun v => scal R X star r g v c := by
      rw [cellM_add (p := fun _ => 0) (q := fun v => scal R X star r g v c)]
      simp [cellM]
    rw [e]
    have := mul_le_mul_of_nonneg_right (hκ.ratio r c hr hc) (mul_nonneg hV hm)
    linarith
  have k5 : (meshSum R fun r c => (R.view r).cellVolume c * cellM
        (fun v => 0 + X.sigmaS r c / (4 * X.mPi) * scal R X star r g v c) fun v => scal R X star r g v c) ≤
      κ * ∑ a ∈ Finset.range R.nAngles, X.wt a * energyAt R a g star := by
    refine le_of_mul_le_mul_left ?_ hκ.total
    have := mul_le_mul_of_nonneg_left k3 hκ.nonneg
    unfold angleSum at this
    linarith
  have k6 := mul_le_mul_of_nonneg_left (add_le_add k1 k1) hθ.le
  have k7 := mul_le_mul_of_nonneg_left k2 hθ.le
  have e7 : (1 - κ) * (S * (meshSum R fun r c => (R.view r).cellVolume c / R.sigmaT r c * τ ^ 2) / (1 - κ)) =
      S * (meshSum R fun r c => (R.view r).cellVolume c / R.sigmaT r c * τ ^ 2) := mul_div_cancel₀ _ hθ.ne'
  rw [mul_add, e7] at k7
  have k8 := mul_le_mul_of_nonneg_left k5 hθ.le
  linarith

end Verif.Source
