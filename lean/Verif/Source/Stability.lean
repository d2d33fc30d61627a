import Verif.Source.Null

/-!
# A solution is not larger than its source (for C84)

As `star_energy`, with the sum of the squares of the source instead of its largest value.
-/
set_option linter.unusedSectionVars false
set_option linter.unusedVariables false
namespace Verif.Source

open Verif.Traverse (Psi SweepRun Bound Loc Linked)
open Verif.Domain

variable {K : Type} [Field K] [LinearOrder K] [IsStrictOrderedRing K]
variable {R : SweepRun K} {X : Scat K} {mate : Loc → Option Loc} {node : Nat → Nat → Fin 4 → Nat}

/-- The sum over cells and directions of the squared source over the cross section. -/
def load (R : SweepRun K) (X : Scat K) (src : Nat → Psi K) (g : Nat) : K :=
  ∑ a ∈ Finset.range R.nAngles, X.wt a * meshSum R fun r c => (R.view r).cellVolume c / R.sigmaT r c *
    cellM (fun v => src r g v a c) fun v => src r g v a c

theorem load_young (H : R.Physical) {κ : K} (hκ : Ratio R X κ) {src star : Nat → Psi K} {g : Nat} {θ : K}
    (hθ : 0 < θ) (hσ : ∀ r < R.nRanks, ∀ c < R.nCells r, 0 < R.sigmaT r c) :
    2 * ∑ a ∈ Finset.range R.nAngles, X.wt a * meshSum R (fun r c => (R.view r).cellVolume c *
        cellM (fun v => src r g v a c) fun v => star r g v a c) ≤
      load R X src g / θ + θ * ∑ a ∈ Finset.range R.nAngles, X.wt a * energyAt R a g star := by
  have key : ∀ a < R.nAngles, 2 * meshSum R (fun r c => (R.view r).cellVolume c * cellM (fun v => src r g v a c) fun v => star r g v a c) ≤
      (meshSum R fun r c => (R.view r).cellVolume c / R.sigmaT r c *
        cellM (fun v => src r g v a c) fun v => src r g v a c) / θ + θ * energyAt R a g star := by
    intro a ha
    unfold energyAt
    rw [← meshSum_mul, ← meshSum_mul, div_eq_inv_mul, ← meshSum_mul, ← meshSum_add]
    refine meshSum_le fun r hr c hc => ?_
    have hV := (H.volume r c hr hc).le
    have hs := hσ r hr c hc
    have k1 := mul_le_mul_of_nonneg_left (cellM_young (mul_pos hθ hs) (fun v => src r g v a c) (fun v => star r g v a c)) hV
    have k3 : θ⁻¹ * ((R.view r).cellVolume c / R.sigmaT r c * cellM (fun v => src r g v a c) fun v => src r g v a c) =
        (R.view r).cellVolume c * ((cellM (fun v => src r g v a c) fun v => src r g v a c) / (θ * R.sigmaT r c)) := by
      field_simp
    linarith
  unfold load
  rw [Finset.mul_sum]
  refine (Finset.sum_le_sum fun a ha => ?_).trans (le_of_eq (?_ : ∑ a ∈ Finset.range R.nAngles, X.wt a *
    ((meshSum R fun r c => (R.view r).cellVolume c / R.sigmaT r c *
        cellM (fun v => src r g v a c) fun v => src r g v a c) / θ + θ * energyAt R a g star) = _))
  · have := mul_le_mul_of_nonneg_left (key a (Finset.mem_range.1 ha)) (hκ.weights a (Finset.mem_range.1 ha))
    linarith
  · simp only [mul_add, Finset.sum_add_distrib]
    rw [Finset.sum_div, Finset.mul_sum]
    exact congrArg₂ _ (Finset.sum_congr rfl fun a _ => by ring) (Finset.sum_congr rfl fun a _ => by ring)

/-- The energy of a solution is bounded by the sum of the squares of its source. -/
theorem load_energy (H : R.Physical) (L : Linked R.cfg mate) (N : R.Nodes mate node) (M : Matched R mate node) {κ : K}
    (hκ : Ratio R X κ) (h1 : κ < 1) {src star : Nat → Psi K} (hs : Scatters R X (FullDG R mate node) src star) {g : Nat}
    (hg : g < R.nGroups) (hσ : ∀ r < R.nRanks, ∀ c < R.nCells r, 0 < R.sigmaT r c) :
    (1 - κ) ^ 2 * ∑ a ∈ Finset.range R.nAngles, X.wt a * energyAt R a g star ≤ load R X src g := by
  have hθ : 0 < 1 - κ := by linarith
  have k1 := source_of_energy H L N M hκ hs hg fun _ _ _ => 0
  simp only [sub_zero] at k1
  have k2 := load_young (src := src) (star := star) (g := g) H hκ hθ hσ
  have k3 := energy_angles H hκ g star
  set S := ∑ a ∈ Finset.range R.nAngles, X.wt a with hS
  have k4 : S * (meshSum R fun r c => (R.view r).cellVolume c * cellM
        (fun v => 0 + X.sigmaS r c / (4 * X.mPi) * scal R X star r g v c) fun v => scal R X star r g v c) ≤
      κ * energy R g (scal R X star) := by
    unfold energy
    rw [← meshSum_mul, ← meshSum_mul]
    refine meshSum_le fun r hr c hc => ?_
    have hV := (H.volume r c hr hc).le
    have hm := cellM_nonneg fun v => scal R X star r g v c
    have e : cellM (fun v => 0 + X.sigmaS r c / (4 * X.mPi) * scal R X star r g v c) (fun v => scal R X star r g v c) =
        X.sigmaS r c / (4 * X.mPi) * cellM (fun v => scal R X star r g v c) fun v => scal R X star r g v c := by
      rw [cellM_add (p := fun _ => 0) (q := fun v => scal R X star r g v c)]
      simp [cellM]
    rw [e]
    have := mul_le_mul_of_nonneg_right (hκ.ratio r c hr hc) (mul_nonneg hV hm)
    linarith
  have k5 : (meshSum R fun r c => (R.view r).cellVolume c * cellM
        (fun v => 0 + X.sigmaS r c / (4 * X.mPi) * scal R X star r g v c) fun v => scal R X star r g v c) ≤
      κ * ∑ a ∈ Finset.range R.nAngles, X.wt a * energyAt R a g star := by
    refine le_of_mul_le_mul_left ?_ hκ.total
    have := mul_le_mul_of_nonneg_left k3 hκ.nonneg
    unfold angleSum at this
    linarith
  have k6 := mul_le_mul_of_nonneg_left (add_le_add k1 k1) hθ.le
  have k7 := mul_le_mul_of_nonneg_left k2 hθ.le
  have e7 : (1 - κ) * (load R X src g / (1 - κ)) = load R X src g := mul_div_cancel₀ _ hθ.ne'
  rw [mul_add, e7] at k7
  have k8 := mul_le_mul_of_nonneg_left k5 hθ.le
  linarith

end Verif.Source
