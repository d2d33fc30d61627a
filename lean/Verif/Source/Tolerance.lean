import Verif.Source.Solvers
import Mathlib.Algebra.Order.Archimedean.Basic

/-!
# What the tolerance of source iteration promises (C78)

The iteration stops on the relative change of the scalar flux (src/SourceIteration.cc:144), the Krylov solver on
a residual. With a scattering ratio below one both bound the distance from the solution.
-/
set_option linter.unusedSectionVars false

namespace Verif.Source
open Classical
open Verif.Transport Verif.Traverse Verif.Domain

variable {K : Type} [Field K] [LinearOrder K]

/-! ### Statements -/

/-- Sum of the absolute values of a scalar flux, over all ranks. -/
def norm1 (R : SweepRun K) (phi : Nat → Phi K) : K := phiSum R fun r g v c => |phi r g v c|

/-- Sum of the squares of a scalar flux, over all ranks. -/
def square2 (R : SweepRun K) (phi : Nat → Phi K) : K := phiSum R fun r g v c => phi r g v c ^ 2

/-- Total cross section times volume lies between `b` and `B` in every cell. -/
structure Weighted (R : SweepRun K) (b B : K) : Prop where
  low : ∀ r c, r < R.nRanks → c < R.nCells r → b ≤ R.sigmaT r c * (R.view r).cellVolume c
  high : ∀ r c, r < R.nRanks → c < R.nCells r → R.sigmaT r c * (R.view r).cellVolume c ≤ B
  nonneg : 0 ≤ B

/-- Squared norm of an angular flux in a direction and a group. -/
def energyAt (R : SweepRun K) (a g : Nat) (psi : Nat → Psi K) : K :=
  meshSum R fun r c => R.sigmaT r c * (R.view r).cellVolume c * cellM (fun v => psi r g v a c) (fun v => psi r g v a c)

/-- The scalar fluxes of `psi` and `star`, and the fluxes in every direction, differ at every vertex by at most
`√(D / b)` divided by `1 - κ`, the latter also divided by the sum of the weights. -/
def Near (R : SweepRun K) (X : Scat K) (κ b D : K) (psi star : Nat → Psi K) : Prop :=
  ∀ r c g v, r < R.nRanks → c < R.nCells r → g < R.nGroups →
    b * ((1 - κ) * (scal R X psi r g v c - scal R X star r g v c)) ^ 2 ≤ D ∧
    ∀ a < R.nAngles, b * ((∑ a ∈ Finset.range R.nAngles, X.wt a) * (1 - κ) * (psi r g v a c - star r g v a c)) ^ 2 ≤ D

/-! ### Norms -/

variable {R : SweepRun K} {X : Scat K} {L L0 : (Nat → Psi K) → (Nat → Psi K) → Prop} [IsStrictOrderedRing K]

theorem cellM_low (p : Fin 4 → K) (v : Fin 4) : p v ^ 2 ≤ 20 * cellM p p := by
  have h : 20 * cellM p p = ∑ i, p i * p i + (∑ i, p i) * ∑ i, p i := by unfold cellM; field_simp
  rw [h, sq]
  have := Finset.single_le_sum (f := fun i => p i * p i) (fun i _ => mul_self_nonneg _) (Finset.mem_univ v)
  have h2 := mul_self_nonneg (∑ i, p i)
  linarith

theorem cellM_high1 (p : Fin 4 → K) : 10 * cellM p p ≤ (∑ i, |p i|) ^ 2 := by
  simp only [cellM, Fin.sum_univ_four]
  have a := fun i j => mul_nonneg (abs_nonneg (p i)) (abs_nonneg (p j))
  have b := fun i j => le_abs_self (p i * p j)
  simp only [abs_mul] at b
  have c := fun i => abs_mul_abs_self (p i)
  have := a 0 1; have := a 0 2; have := a 0 3; have := a 1 2; have := a 1 3; have := a 2 3
  have := b 0 1; have := b 0 2; have := b 0 3; have := b 1 2; have := b 1 3; have := b 2 3
  have := c 0; have := c 1; have := c 2; have := c 3
  have e : ∀ x : K, 10 * (x / 20) = x / 2 := fun x => by ring
  rw [e, div_le_iff₀ (by norm_num)]
  nlinarith

theorem cellM_high2 (p : Fin 4 → K) : 4 * cellM p p ≤ ∑ i, p i ^ 2 := by
  simp only [cellM, Fin.sum_univ_four]
  nlinarith [sq_nonneg (p 0 - p 1), sq_nonneg (p 0 - p 2), sq_nonneg (p 0 - p 3), sq_nonneg (p 1 - p 2),
    sq_nonneg (p 1 - p 3), sq_nonneg (p 2 - p 3)]

theorem cellM_mix (κ : K) (p q : Fin 4 → K) :
    κ * (1 - κ) * cellM (fun i => p i - q i) (fun i => p i - q i) ≤ (1 - κ) * cellM p p + κ * cellM q q := by
  have h := cellM_nonneg fun i => (1 - κ) * p i + κ * q i
  have e : cellM (fun i => (1 - κ) * p i + κ * q i) (fun i => (1 - κ) * p i + κ * q i) =
      (1 - κ) * cellM p p + κ * cellM q q - κ * (1 - κ) * cellM (fun i => p i - q i) (fun i => p i - q i) := by
    simp only [cellM, Fin.sum_univ_four]; ring
  linarith

theorem phiSum_group (f : Nat → Nat → Fin 4 → Nat → K) (hf : ∀ r g v c, 0 ≤ f r g v c) {g : Nat} (hg : g < R.nGroups) :
    meshSum R (fun r c => ∑ v, f r g v c) ≤ phiSum R f :=
  meshSum_le fun r _ c _ => Finset.sum_le_sum fun v _ =>
    Finset.single_le_sum (f := fun g => f r g v c) (fun g _ => hf r g v c) (Finset.mem_range.2 hg)

theorem meshSum_single {f : Nat → Nat → K} (hf : ∀ r < R.nRanks, ∀ c < R.nCells r, 0 ≤ f r c) {r c : Nat} (hr : r < R.nRanks)
    (hc : c < R.nCells r) : f r c ≤ meshSum R f :=
  (Finset.single_le_sum (f := fun c => f r c) (fun c hc => hf r hr c (Finset.mem_range.1 hc)) (Finset.mem_range.2 hc)).trans
    (Finset.single_le_sum (f := fun r => ∑ c ∈ Finset.range (R.nCells r), f r c)
      (fun r hr => Finset.sum_nonneg fun c hc => hf r (Finset.mem_range.1 hr) c (Finset.mem_range.1 hc)) (Finset.mem_range.2 hr))

theorem meshSum_sq {f : Nat → Nat → K} (hf : ∀ r < R.nRanks, ∀ c < R.nCells r, 0 ≤ f r c) :
    meshSum R (fun r c => f r c ^ 2) ≤ meshSum R f ^ 2 := by
  have h : meshSum R (fun r c => f r c ^ 2) ≤ meshSum R fun r c => meshSum R f * f r c := by
    refine meshSum_le fun r hr c hc => ?_
    rw [sq]
    exact mul_le_mul_of_nonneg_right (meshSum_single hf hr hc) (hf r hr c hc)
  rw [meshSum_mul] at h
  rw [sq]; exact h

section
variable {b B : K} (Wd : Weighted R b B)
include Wd

theorem energy_low (H : R.Physical) (phi : Nat → Phi K) {r c g : Nat} (hr : r < R.nRanks) (hc : c < R.nCells r) (v : Fin 4) :
    b * phi r g v c ^ 2 ≤ 20 * energy R g phi := by
  have h1 := meshSum_single (R := R) (f := fun r c => R.sigmaT r c * (R.view r).cellVolume c *
    cellM (fun v => phi r g v c) (fun v => phi r g v c)) (fun r hr c hc =>
      mul_nonneg (mul_nonneg (H.sigma r c hr hc) (H.volume r c hr hc).le) (cellM_nonneg _)) hr hc
  have h2 := cellM_low (fun v => phi r g v c) v
  have h3 := mul_nonneg (H.sigma r c hr hc) (H.volume r c hr hc).le
  have h4 := mul_le_mul_of_nonneg_right (Wd.low r c hr hc) (sq_nonneg (phi r g v c))
  have h5 := mul_le_mul_of_nonneg_left h2 h3
  have h6 : 20 * (R.sigmaT r c * (R.view r).cellVolume c * cellM (fun v => phi r g v c) (fun v => phi r g v c)) ≤
    20 * energy R g phi := mul_le_mul_of_nonneg_left h1 (by norm_num)
  linarith

theorem energyAt_low (H : R.Physical) (psi : Nat → Psi K) {r c a g : Nat} (hr : r < R.nRanks) (hc : c < R.nCells r) (v : Fin 4) :
    b * psi r g v a c ^ 2 ≤ 20 * energyAt R a g psi :=
  energy_low Wd H (fun r g v c => psi r g v a c) hr hc v

theorem energy_high1 {g : Nat} (hg : g < R.nGroups) (phi : Nat → Phi K) : 10 * energy R g phi ≤ B * norm1 R phi ^ 2 := by
  have h1 : 10 * energy R g phi ≤ meshSum R fun r c => B * (∑ v, |phi r g v c|) ^ 2 := by
    unfold energy
    rw [← meshSum_mul]
    refine meshSum_le fun r hr c hc => ?_
    have a := cellM_high1 fun v => phi r g v c
    have n0 := cellM_nonneg fun v => phi r g v c
    have a1 := mul_le_mul_of_nonneg_right (Wd.high r c hr hc) n0
    have a2 := mul_le_mul_of_nonneg_left a Wd.nonneg
    linarith
  rw [meshSum_mul] at h1
  have h2 := meshSum_sq (R := R) (f := fun r c => ∑ v, |phi r g v c|) fun r _ c _ => Finset.sum_nonneg fun v _ => abs_nonneg _
  have h3 := phiSum_group (R := R) (fun r g v c => |phi r g v c|) (fun _ _ _ _ => abs_nonneg _) hg
  have h4 : 0 ≤ meshSum R fun r c => ∑ v, |phi r g v c| :=
    meshSum_nonneg fun r _ c _ => Finset.sum_nonneg fun v _ => abs_nonneg _
  have h5 : (meshSum R fun r c => ∑ v, |phi r g v c|) ^ 2 ≤ norm1 R phi ^ 2 := pow_le_pow_left₀ h4 h3 2
  exact h1.trans (mul_le_mul_of_nonneg_left (h2.trans h5) Wd.nonneg)

theorem energy_high2 {g : Nat} (hg : g < R.nGroups) (phi : Nat → Phi K) : 4 * energy R g phi ≤ B * square2 R phi := by
  have h1 : 4 * energy R g phi ≤ meshSum R fun r c => B * ∑ v, phi r g v c ^ 2 := by
    unfold energy
    rw [← meshSum_mul]
    refine meshSum_le fun r hr c hc => ?_
    have a := cellM_high2 fun v => phi r g v c
    have n0 := cellM_nonneg fun v => phi r g v c
    have a1 := mul_le_mul_of_nonneg_right (Wd.high r c hr hc) n0
    have a2 := mul_le_mul_of_nonneg_left a Wd.nonneg
    linarith
  rw [meshSum_mul] at h1
  exact h1.trans (mul_le_mul_of_nonneg_left
    (phiSum_group (R := R) (fun r g v c => phi r g v c ^ 2) (fun _ _ _ _ => sq_nonneg _) hg) Wd.nonneg)

end

/-! ### One sweep -/

theorem energy_mix (H : R.Physical) {κ : K} {g : Nat} {e old d : Nat → Phi K} (h : ∀ r g v c, old r g v c = e r g v c - d r g v c) :
    κ * (1 - κ) * energy R g old ≤ (1 - κ) * energy R g e + κ * energy R g d := by
  unfold energy
  rw [← meshSum_mul, ← meshSum_mul, ← meshSum_mul, ← meshSum_add]
  refine meshSum_le fun r hr c hc => ?_
  have h3 := mul_nonneg (H.sigma r c hr hc) (H.volume r c hr hc).le
  have := mul_le_mul_of_nonneg_left (cellM_mix κ (fun v => e r g v c) (fun v => d r g v c)) h3
  have e1 : (fun v => old r g v c) = fun v => e r g v c - d r g v c := funext fun v => h r g v c
  rw [e1]
  linarith

/-- The angular flux that scattering of `phi` makes. -/
theorem scatter_angle (H : R.Physical) {κ : K} (hκ : Ratio R X κ) (hD : Dissipative R L0)
    {phi : Nat → Phi K} {e : Nat → Psi K} (h : L0 (scat X (fun _ _ _ _ _ => 0) phi) e) {a g : Nat}
    (ha : a < R.nAngles) (hg : g < R.nGroups) :
    (∑ a ∈ Finset.range R.nAngles, X.wt a) ^ 2 * energyAt R a g e ≤ κ ^ 2 * energy R g phi := by
  set W := ∑ a ∈ Finset.range R.nAngles, X.wt a with hW
  have h1 : energyAt R a g e ≤ _ := hD _ _ h a g ha hg
  have h2 : 2 * W ^ 2 * meshSum R (fun r c => (R.view r).cellVolume c *
      cellM (fun v => scat X (fun _ _ _ _ _ => 0) phi r g v a c) (fun v => e r g v a c)) ≤
      κ ^ 2 * energy R g phi + W ^ 2 * energyAt R a g e := by
    unfold energy energyAt
    rw [← meshSum_mul, ← meshSum_mul, ← meshSum_mul, ← meshSum_add]
    refine meshSum_le fun r hr c hc => ?_
    set p : Fin 4 → K := fun v => phi r g v c
    set q : Fin 4 → K := fun v => W * e r g v a c with hq'
    have hV := (H.volume r c hr hc).le
    have hσ := H.sigma r c hr hc
    have ht0 := mul_nonneg hκ.total.le (hκ.scatter r c hr hc)
    have ht := hκ.ratio r c hr hc
    rw [← hW] at ht0 ht
    set t := W * (X.sigmaS r c / (4 * X.mPi)) with ht'
    have hp := cellM_nonneg p
    have hq := cellM_nonneg q
    have hm : 2 * κ * cellM p q ≤ κ ^ 2 * cellM p p + cellM q q := by
      have := cellM_nonneg fun i => q i + (-κ) * p i
      rw [cellM_add, cellM_comm q, cellM_comm p, cellM_add, cellM_add] at this
      rw [cellM_comm p q]
      rw [cellM_comm p q] at this
      linarith
    have goal : 2 * t * cellM p q ≤ R.sigmaT r c * (κ ^ 2 * cellM p p + cellM q q) := by
      rcases hκ.nonneg.eq_or_lt with h0 | hpos
      · rw [← h0] at ht ⊢
        have : t = 0 := le_antisymm (by simpa using ht) ht0
        rw [this]
        have := mul_nonneg hσ hq
        simp; linarith
      · rcases le_total (cellM p q) 0 with hneg | hnn
        · have a1 := mul_nonneg ht0 (neg_nonneg.2 hneg)
          have a2 := mul_nonneg hσ (add_nonneg (mul_nonneg (sq_nonneg κ) hp) hq)
          linarith
        · have a1 := mul_le_mul_of_nonneg_right ht hnn
          have a2 := mul_le_mul_of_nonneg_left hm hσ
          linarith
    have e1 : cellM q q = W ^ 2 * cellM (fun v => e r g v a c) (fun v => e r g v a c) := by
      simp only [hq', cellM, Fin.sum_univ_four]; ring
    have e2 : t * cellM p q = W ^ 2 * cellM (fun v => scat X (fun _ _ _ _ _ => 0) phi r g v a c) (fun v => e r g v a c) := by
      simp only [hq', ht', p, cellM, scat, Fin.sum_univ_four, zero_add]; ring
    have := mul_le_mul_of_nonneg_left goal hV
    rw [mul_assoc 2 t, e2, e1] at this
    linarith
  have h3 := mul_le_mul_of_nonneg_left h1 (mul_nonneg (by norm_num : (0 : K) ≤ 2) (sq_nonneg W))
  linarith

/-- The distance from the solution after a sweep with the scattering of `old`, in terms of the change of the
scalar flux. -/
theorem sweep_energy (H : R.Physical) {κ : K} (hκ : Ratio R X κ) (h1 : κ < 1) (hD : Dissipative R L0) (A : Affine R L L0)
    {src psi star : Nat → Psi K} {old : Nat → Phi K} (h : L (scat X src old) psi) (hs : Scatters R X L src star)
    {g : Nat} (hg : g < R.nGroups) :
    (1 - κ) ^ 2 * energy R g (subPhi (scal R X psi) (scal R X star)) ≤ κ ^ 2 * energy R g (subPhi (scal R X psi) old) ∧
    ∀ a < R.nAngles, (∑ a ∈ Finset.range R.nAngles, X.wt a) ^ 2 * (1 - κ) ^ 2 * energyAt R a g (lin (-1) psi star) ≤
      κ ^ 2 * energy R g (subPhi (scal R X psi) old) := by
  have hd := scatter_diff A h hs
  have hc := scatter_contracts H hκ hD hd hg
  rw [scal_sub] at hc
  have hm := energy_mix (κ := κ) (g := g) H (e := subPhi (scal R X psi) (scal R X star)) (old := subPhi old (scal R X star))
    (d := subPhi (scal R X psi) old) fun r g v c => by simp only [subPhi]; ring
  have k0 := hκ.nonneg
  have k1 : 0 ≤ 1 - κ := by linarith
  set E := energy R g (subPhi (scal R X psi) (scal R X star))
  set E0 := energy R g (subPhi old (scal R X star))
  set Ed := energy R g (subPhi (scal R X psi) old)
  have hm' := mul_le_mul_of_nonneg_left hm k0
  have hc' := mul_le_mul_of_nonneg_left hc k1
  refine ⟨by nlinarith, fun a ha => ?_⟩
  have ha := scatter_angle H hκ hD hd ha hg
  have a1 := mul_le_mul_of_nonneg_left ha (sq_nonneg (1 - κ))
  have a2 := mul_le_mul_of_nonneg_left hc' k0
  have a3 : κ ^ 2 * (1 - κ) ^ 2 * E0 ≤ κ ^ 2 * Ed := by nlinarith
  calc _ = (1 - κ) ^ 2 * ((∑ a ∈ Finset.range R.nAngles, X.wt a) ^ 2 * energyAt R a g (lin (-1) psi star)) := by ring
    _ ≤ _ := a1
    _ = κ ^ 2 * (1 - κ) ^ 2 * E0 := by ring
    _ ≤ _ := a3

/-- C78: the flux after a sweep, at every vertex. -/
theorem sweep_error (H : R.Physical) {κ : K} (hκ : Ratio R X κ) (h1 : κ < 1) (hD : Dissipative R L0) (A : Affine R L L0)
    {b B : K} (Wd : Weighted R b B) {src psi star : Nat → Psi K} {old : Nat → Phi K} (h : L (scat X src old) psi)
    (hs : Scatters R X L src star) :
    Near R X κ b (min (2 * B * (κ * norm1 R (subPhi (scal R X psi) old)) ^ 2)
      (5 * B * (κ ^ 2 * square2 R (subPhi (scal R X psi) old)))) psi star := by
  intro r c g v hr hc hg
  obtain ⟨e1, e2⟩ := sweep_energy H hκ h1 hD A h hs hg
  have u1 := energy_high1 Wd hg (subPhi (scal R X psi) old)
  have u2 := energy_high2 Wd hg (subPhi (scal R X psi) old)
  have key : ∀ x : K, x ≤ 20 * (κ ^ 2 * energy R g (subPhi (scal R X psi) old)) →
      x ≤ min (2 * B * (κ * norm1 R (subPhi (scal R X psi) old)) ^ 2) (5 * B * (κ ^ 2 * square2 R (subPhi (scal R X psi) old))) := by
    intro x hx
    have a1 := mul_le_mul_of_nonneg_left u1 (sq_nonneg κ)
    have a2 := mul_le_mul_of_nonneg_left u2 (sq_nonneg κ)
    refine le_min ?_ ?_
    · nlinarith
    · nlinarith
  constructor
  · have l := energy_low Wd H (subPhi (scal R X psi) (scal R X star)) (g := g) hr hc v
    have := mul_le_mul_of_nonneg_left l (sq_nonneg (1 - κ))
    refine key _ ?_
    simp only [subPhi] at this e1 ⊢
    nlinarith
  · intro a ha
    have l := energyAt_low Wd H (lin (-1) psi star) (a := a) (g := g) hr hc v
    set W := ∑ a ∈ Finset.range R.nAngles, X.wt a
    have := mul_le_mul_of_nonneg_left l (mul_nonneg (sq_nonneg W) (sq_nonneg (1 - κ)))
    refine key _ ?_
    have e := e2 a ha
    have x : (lin (-1) psi star) r g v a c = psi r g v a c - star r g v a c := by simp only [lin]; ring
    rw [x] at this
    nlinarith

theorem Near.mono {κ b D D' : K} {psi star : Nat → Psi K} (h : Near R X κ b D psi star) (hD : D ≤ D') :
    Near R X κ b D' psi star := fun r c g v hr hc hg =>
  ⟨(h r c g v hr hc hg).1.trans hD, fun a ha => ((h r c g v hr hc hg).2 a ha).trans hD⟩

omit [IsStrictOrderedRing K] in
theorem norm1_congr {p q : Nat → Phi K} (h : SamePhi R p q) : norm1 R p = norm1 R q :=
  phiSum_congr fun r hr g v c hg hc => by rw [h r hr g v c hg hc]

omit [IsStrictOrderedRing K] in
theorem square2_congr {p q : Nat → Phi K} (h : SamePhi R p q) : square2 R p = square2 R q :=
  phiSum_congr fun r hr g v c hg hc => by rw [h r hr g v c hg hc]

theorem norm1_nonneg (p : Nat → Phi K) : 0 ≤ norm1 R p := phiSum_nonneg fun _ _ _ _ => abs_nonneg _

/-- What passing the test of the loop means for the change, whether or not the norm is zero. -/
theorem relErr_le {new old : Nat → Phi K} {t : K} (h : ¬ (relErr R new old).gt t) :
    norm1 R (subPhi new old) ≤ t * norm1 R new := by
  unfold relErr at h
  by_cases hn : phiSum R (fun r g v c => |new r g v c|) = 0
  · by_cases he : phiSum R (fun r g v c => |new r g v c - old r g v c|) = 0
    · have e1 : norm1 R (subPhi new old) = 0 := he
      have e2 : norm1 R new = 0 := hn
      rw [e1, e2, mul_zero]
    · simp [hn, he, Err.gt] at h
  · have hpos : 0 < phiSum R fun r g v c => |new r g v c| :=
      lt_of_le_of_ne (phiSum_nonneg fun _ _ _ _ => abs_nonneg _) (Ne.symm hn)
    simp only [ne_eq, hn, not_false_eq_true, if_true, Err.gt, not_lt] at h
    rwa [div_le_iff₀ hpos] at h

/-- And conversely: a nonzero new scalar flux with a small change passes. -/
theorem not_gt_of_le {new old : Nat → Phi K} {t : K} (hn : 0 < norm1 R new)
    (h : norm1 R (subPhi new old) ≤ t * norm1 R new) : ¬ (relErr R new old).gt t := by
  have hz : phiSum R (fun r g v c => |new r g v c|) ≠ 0 := ne_of_gt hn
  unfold relErr
  simp only [ne_eq, hz, not_false_eq_true, if_true, Err.gt, not_lt]
  exact (div_le_iff₀ hn).2 h

section
variable {S : Sweeper K} {src : Nat → Psi K} {errMax : K} {iterMax : Nat}

/-- C78: what `errMax` promises. A run of source iteration that stopped before the limit left a flux whose
distance from the solution is bounded by `errMax` times the sum of the scalar flux. -/
theorem fixedPoint_error (H : R.Physical) {κ : K} (hκ : Ratio R X κ) (h1 : κ < 1) (hD : Dissipative R L0)
    (C : Correct S L L0) (A : Affine R L L0) {b B : K} (Wd : Weighted R b B) {st : S.State} {psi star : Nat → Psi K}
    (hs : Scatters R X L src star) {tr : List ((Nat → Phi K) × (Nat → Psi K))} {st' : S.State} {psi' : Nat → Psi K}
    {n : Nat} (h : FixedPoint R X S src errMax iterMax st psi tr st' psi' n) (hn : 0 < n) (hlt : n < iterMax) :
    Near R X κ b (2 * B * (κ * (errMax * norm1 R (scal R X psi'))) ^ 2) psi' star := by
  obtain ⟨tr1, old1, e, hL⟩ := fixedPoint_solves C A h hn
  rcases fixedPoint_tolerance h hlt with ⟨h0, -⟩ | ⟨tr', old, he, ht⟩
  · omega
  · rw [he] at e
    have e1 : old = old1 := by simpa using (List.append_inj' e rfl).2
    subst e1
    refine (sweep_error H hκ h1 hD A Wd hL hs).mono ((min_le_left _ _).trans ?_)
    have := relErr_le ht
    refine mul_le_mul_of_nonneg_left (pow_le_pow_left₀ (mul_nonneg hκ.nonneg (norm1_nonneg _))
      (mul_le_mul_of_nonneg_left this hκ.nonneg) 2) (mul_nonneg (by norm_num) Wd.nonneg)

omit [IsStrictOrderedRing K] in
/-- The residual of the Krylov system at `x` is the change of the scalar flux in the last sweep. -/
theorem krylov_residual (C : Correct S L L0) (A : Affine R L L0) {x y rhs : Nat → Phi K} {psi : Nat → Psi K}
    (hop : LhsOp R X S x y) (hrhs : KrylovRhs R X S src rhs) (hend : KrylovEnd R X S src x psi) :
    SamePhi R (subPhi (scal R X psi) x) (subPhi rhs y) := by
  obtain ⟨st, psi0, s, st', psi2, phi2, h1, h2, h3, h4⟩ := hop
  obtain ⟨st1, psi01, st1', psi1, h1', h2'⟩ := hrhs
  obtain ⟨tot, stE, psiE, stE', hE1, hE2⟩ := hend
  have hsum := A.lin 1 _ _ _ _ (C.plain _ _ _ _ _ h1') (C.zero _ _ _ _ _ h2)
  have hsrc : SameFlux R (lin 1 src s) tot := by
    refine sameFlux_trans ?_ (sameFlux_symm hE1.same)
    intro r c a g v hr hc ha hg
    simp only [lin, h1.same r c a g v hr hc ha hg, scat]; ring
  have hsame := A.unique _ _ _ (C.plain _ _ _ _ _ hE2) (A.congr _ _ _ _ hsum hsrc (sameFlux_refl _))
  intro r hr g v c hg hc
  simp only [subPhi]
  rw [scal_congr hsame r hr g v c hg hc, scal_lin, h4 r hr g v c hg hc]
  simp only [h2'.same r hr g v c hg hc, h3.same r hr g v c hg hc, one_mul]
  ring

/-- C78: what the residual of the Krylov solver promises. Whatever vector the solver returns, the flux recovered
from it is as close to the solution as the residual of the vector is small. -/
theorem krylov_error (H : R.Physical) {κ : K} (hκ : Ratio R X κ) (h1 : κ < 1) (hD : Dissipative R L0)
    (C : Correct S L L0) (A : Affine R L L0) {b B : K} (Wd : Weighted R b B) {x y rhs : Nat → Phi K}
    {psi star : Nat → Psi K} (hs : Scatters R X L src star) (hop : LhsOp R X S x y) (hrhs : KrylovRhs R X S src rhs)
    (hend : KrylovEnd R X S src x psi) :
    Near R X κ b (5 * B * (κ ^ 2 * square2 R (subPhi rhs y))) psi star := by
  have hr := krylov_residual C A hop hrhs hend
  obtain ⟨tot, stE, psiE, stE', hE1, hE2⟩ := hend
  have hL : L (scat X src x) psi := A.congr _ _ _ _ (C.plain _ _ _ _ _ hE2) hE1.same (sameFlux_refl _)
  rw [← square2_congr hr]
  exact (sweep_error H hκ h1 hD A Wd hL hs).mono (min_le_right _ _)

omit [IsStrictOrderedRing K] in
theorem SILoop.continued {iter : Nat} {err : Err K} {st : S.State} {psi : Nat → Psi K} {phi : Nat → Phi K}
    {tr : List ((Nat → Phi K) × (Nat → Psi K))} {st' : S.State} {psi' : Nat → Psi K} {n : Nat}
    (h : SILoop R X S src errMax iterMax iter err st psi phi tr st' psi' n) (i : Nat) (hi : i + 1 < tr.length) :
    (relErr R (scal R X tr[i].2) tr[i].1).gt errMax ∧ SamePhi R tr[i + 1].1 (scal R X tr[i].2) := by
  induction h generalizing i with
  | stop => simp at hi
  | @step iter err st psi phi tot st1 psi1 phi1 tr st' psi' n h ht hs hp hr ih =>
    cases i with
    | succ i => exact ih i (by simpa using hi)
    | zero =>
      cases hr with
      | stop => simp at hi
      | step h2 _ _ _ _ =>
        refine ⟨?_, hp.same⟩
        have := h2.2
        rwa [relErr_congr hp.same fun _ _ _ _ _ _ _ => rfl] at this

theorem norm1_le {p : Nat → Phi K} {ε : K} (h : ∀ r < R.nRanks, ∀ g v c, g < R.nGroups → c < R.nCells r → |p r g v c| ≤ ε) :
    norm1 R p ≤ ε * phiSum R fun _ _ _ _ => 1 := by
  unfold norm1 phiSum
  simp only [Finset.mul_sum, mul_one]
  exact Finset.sum_le_sum fun r hr => Finset.sum_le_sum fun c hc => Finset.sum_le_sum fun v _ =>
    Finset.sum_le_sum fun g hg => h r (Finset.mem_range.1 hr) g v c (Finset.mem_range.1 hg) (Finset.mem_range.1 hc)

theorem norm1_tri (p q : Nat → Phi K) : norm1 R p ≤ norm1 R (subPhi p q) + norm1 R q := by
  unfold norm1 phiSum subPhi
  simp only [← Finset.sum_add_distrib]
  exact Finset.sum_le_sum fun r _ => Finset.sum_le_sum fun c _ => Finset.sum_le_sum fun v _ =>
    Finset.sum_le_sum fun g _ => by
      have := abs_add_le (p r g v c - q r g v c) (q r g v c)
      simpa using this

theorem norm1_symm (p q : Nat → Phi K) : norm1 R (subPhi p q) = norm1 R (subPhi q p) := by
  unfold norm1 phiSum subPhi
  simp only [abs_sub_comm]

theorem norm1_sub (p q s : Nat → Phi K) : norm1 R (subPhi p q) ≤ norm1 R (subPhi p s) + norm1 R (subPhi q s) := by
  have := norm1_tri (R := R) (subPhi p q) (subPhi s q)
  have e : subPhi (subPhi p q) (subPhi s q) = subPhi p s := by funext r g v c; simp [subPhi]
  rw [e, norm1_symm s q] at this
  exact this

theorem norm1_zero {p : Nat → Phi K} (h : norm1 R p = 0) : SamePhi R p fun _ _ _ _ => 0 := by
  intro r hr g v c hg hc
  have h1 : ∀ r ∈ Finset.range R.nRanks, ∀ c ∈ Finset.range (R.nCells r), ∀ v ∈ Finset.univ, ∀ g ∈ Finset.range R.nGroups,
      |p r g v c| = 0 := by
    unfold norm1 phiSum at h
    intro r hr c hc v hv g hg
    rw [Finset.sum_eq_zero_iff_of_nonneg fun _ _ => Finset.sum_nonneg fun _ _ => Finset.sum_nonneg fun _ _ =>
      Finset.sum_nonneg fun _ _ => abs_nonneg _] at h
    have h2 := h r hr
    rw [Finset.sum_eq_zero_iff_of_nonneg fun _ _ => Finset.sum_nonneg fun _ _ =>
      Finset.sum_nonneg fun _ _ => abs_nonneg _] at h2
    have h3 := h2 c hc
    rw [Finset.sum_eq_zero_iff_of_nonneg fun _ _ => Finset.sum_nonneg fun _ _ => abs_nonneg _] at h3
    have h4 := h3 v hv
    rw [Finset.sum_eq_zero_iff_of_nonneg fun _ _ => abs_nonneg _] at h4
    exact h4 g hg
  exact abs_eq_zero.1 (h1 r (Finset.mem_range.2 hr) c (Finset.mem_range.2 hc) v (Finset.mem_univ v) g (Finset.mem_range.2 hg))

theorem entries_pos {p : Nat → Phi K} (hp : 0 < norm1 R p) : 0 < phiSum R fun _ _ _ _ => (1 : K) := by
    rcases (phiSum_nonneg (R := R) (f := fun _ _ _ _ => (1 : K)) fun _ _ _ _ => zero_le_one).eq_or_lt with h0 | h0
    · exfalso
      have : ∀ r < R.nRanks, ∀ g, ∀ _ : Fin 4, ∀ c, g < R.nGroups → c < R.nCells r → False := by
        intro r hr g v c hg hc
        have : (1 : K) ≤ phiSum R fun _ _ _ _ => (1 : K) := by
          have a1 := Finset.single_le_sum (f := fun g => (1 : K)) (fun _ _ => zero_le_one) (Finset.mem_range.2 hg)
          have a2 := Finset.single_le_sum (f := fun _ : Fin 4 => ∑ g ∈ Finset.range R.nGroups, (1 : K))
            (fun _ _ => Finset.sum_nonneg fun _ _ => zero_le_one) (Finset.mem_univ v)
          have a3 := Finset.single_le_sum (f := fun _ => ∑ _ : Fin 4, ∑ g ∈ Finset.range R.nGroups, (1 : K))
            (fun _ _ => Finset.sum_nonneg fun _ _ => Finset.sum_nonneg fun _ _ => zero_le_one) (Finset.mem_range.2 hc)
          have a4 := Finset.single_le_sum (f := fun r => ∑ _ ∈ Finset.range (R.nCells r), ∑ _ : Fin 4,
            ∑ g ∈ Finset.range R.nGroups, (1 : K)) (fun _ _ => Finset.sum_nonneg fun _ _ => Finset.sum_nonneg fun _ _ =>
              Finset.sum_nonneg fun _ _ => zero_le_one) (Finset.mem_range.2 hr)
          exact ((a1.trans a2).trans a3).trans a4
        rw [← h0] at this
        exact absurd this (not_le.2 zero_lt_one)
      refine hp.ne' ?_
      rw [norm1_congr (q := fun _ _ _ _ => 0) fun r hr g v c hg hc => (this r hr g v c hg hc).elim]
      simp [norm1, phiSum]
    · exact h0

/-- A run from near the solution, in numbers: `N` entries of the scalar flux, `T` the norm of the solution, `E` a
bound on the energy of the initial error. -/
theorem fixedPoint_small (H : R.Physical) {κ : K} (hκ : Ratio R X κ) (h1 : κ < 1) (hD : Dissipative R L0)
    (A : Affine R L L0) {b B : K} (Wd : Weighted R b B) (hb : 0 < b) (he : 0 < errMax) {psi star : Nat → Psi K}
    (hs : Scatters R X L src star) {N T E : K} (hN : phiSum R (fun _ _ _ _ => (1 : K)) = N)
    (hT : norm1 R (scal R X star) = T) (hTp : 0 < T)
    (hE : ∀ g < R.nGroups, energy R g (subPhi (scal R X psi) (scal R X star)) ≤ E) {m : Nat}
    (hm : (κ ^ 2) ^ m * (20 * E) ≤ b * (errMax * T / ((2 + errMax) * N) / 2) ^ 2)
    (C : Correct S L L0) {st : S.State} {tr : List ((Nat → Phi K) × (Nat → Psi K))} {st' : S.State} {psi' : Nat → Psi K}
    {n : Nat} (h : FixedPoint R X S src errMax iterMax st psi tr st' psi' n) : n ≤ m + 2 := by
  have hN0 : 0 ≤ N := hN ▸ phiSum_nonneg fun _ _ _ _ => zero_le_one
  have hNp : 0 < N := hN ▸ entries_pos (hT ▸ hTp)
  -- how close is close enough
  set ε : K := errMax * T / ((2 + errMax) * N) / 2 with hε
  have hden : 0 < (2 + errMax) * N := mul_pos (by linarith) hNp
  have hεp : 0 < ε := div_pos (div_pos (mul_pos he hTp) hden) two_pos
  have hε2 : 2 * (ε * N) * (2 + errMax) = errMax * T := by
    rw [hε]; field_simp
  have hk : κ ^ 2 < 1 := by
    have := hκ.nonneg
    nlinarith
  by_contra hlt
  push Not at hlt
  have hlen := (fixedPoint_count h).1
  have close : ∀ i (hi : i < tr.length), m ≤ i → ∀ r < R.nRanks, ∀ g v c, g < R.nGroups → c < R.nCells r →
      |subPhi (scal R X tr[i].2) (scal R X star) r g v c| ≤ ε := by
    intro i hi hmi r hr g v c hg hc
    have a1 := fixedPoint_converges H hκ hD C A hs h hg i hi
    have a2 := energy_low Wd H (subPhi (scal R X tr[i].2) (scal R X star)) (g := g) hr hc v
    have a3 : (κ ^ 2) ^ (i + 1) ≤ (κ ^ 2) ^ m := pow_le_pow_of_le_one (sq_nonneg _) hk.le (by omega)
    have a4 := hE g hg
    have a5 := mul_le_mul a3 a4 (energy_nonneg H g _) (pow_nonneg (sq_nonneg κ) m)
    have a6 : b * subPhi (scal R X tr[i].2) (scal R X star) r g v c ^ 2 ≤ b * ε ^ 2 := by
      have := pow_nonneg (sq_nonneg κ) m
      nlinarith
    exact abs_le_of_sq_le_sq (le_of_mul_le_mul_left a6 hb) hεp.le
  obtain ⟨phi, hphi, hl⟩ := h
  have hi0 : m < tr.length := by omega
  have hi1 : m + 1 < tr.length := by omega
  have g1 := (hl.continued m hi1).2
  have g2 := (hl.continued (m + 1) (by omega)).1
  have n1 := norm1_le (R := R) (close m hi0 le_rfl)
  have n2 := norm1_le (R := R) (close (m + 1) hi1 (by omega))
  rw [hN] at n1 n2
  have t1 := norm1_tri (R := R) (scal R X star) (scal R X tr[m + 1].2)
  rw [norm1_symm, hT] at t1
  have t2 := norm1_sub (R := R) (scal R X tr[m + 1].2) tr[m + 1].1 (scal R X star)
  have t3 : norm1 R (subPhi tr[m + 1].1 (scal R X star)) = norm1 R (subPhi (scal R X tr[m].2) (scal R X star)) :=
    norm1_congr fun r hr g v c hg hc => by simp only [subPhi, g1 r hr g v c hg hc]
  have hεN : 0 < ε * N := mul_pos hεp hNp
  refine not_gt_of_le ?_ ?_ g2
  · have : ε * N < T := by nlinarith
    linarith
  · have a1 : errMax * (T - ε * N) ≤ errMax * norm1 R (scal R X tr[m + 1].2) :=
      mul_le_mul_of_nonneg_left (by linarith) he.le
    nlinarith

/-- A run that starts from the scalar flux of the solution makes one sweep at most. -/
theorem fixedPoint_settled (A : Affine R L L0) (he : 0 < errMax) {psi star : Nat → Psi K} (hs : Scatters R X L src star)
    (hz : SamePhi R (scal R X psi) (scal R X star)) (C : Correct S L L0) {st : S.State}
    {tr : List ((Nat → Phi K) × (Nat → Psi K))} {st' : S.State} {psi' : Nat → Psi K} {n : Nat}
    (h : FixedPoint R X S src errMax iterMax st psi tr st' psi' n) : n ≤ 1 := by
  by_contra hlt
  push Not at hlt
  have hlen := (fixedPoint_count h).1
  have hi1 : 0 + 1 < tr.length := by omega
  have hi0 : 0 < tr.length := by omega
  obtain ⟨phi, hphi, hl⟩ := h
  have g := (hl.continued 0 hi1).1
  have same : SamePhi R (scal R X tr[0].2) tr[0].1 := by
    cases hl with
    | stop => simp at hi0
    | @step _ _ _ _ _ tot st1 psi1 phi1 tr _ _ _ h ht hsw hp hr =>
      have hL := A.congr _ _ _ _ (C.plain _ _ _ _ _ hsw)
        (sameFlux_trans ht.same (scat_congr (sameFlux_refl _) (hphi.same.trans hz))) (sameFlux_refl _)
      exact (scal_congr (A.unique _ _ _ hL hs)).trans (hphi.same.trans hz).symm
  have e0 : norm1 R (subPhi (scal R X tr[0].2) tr[0].1) = 0 := by
    rw [norm1_congr (q := fun _ _ _ _ => 0) fun r hr g v c hg hc => by simp only [subPhi, same r hr g v c hg hc, sub_self]]
    simp [norm1, phiSum]
  rcases (norm1_nonneg (R := R) (scal R X tr[0].2)).eq_or_lt with h0 | h0
  · have h0' : phiSum R (fun r g v c => |scal R X tr[0].2 r g v c|) = 0 := h0.symm
    have e0' : phiSum R (fun r g v c => |scal R X tr[0].2 r g v c - tr[0].1 r g v c|) = 0 := e0
    simp [relErr, h0', e0', Err.gt] at g
  · exact not_gt_of_le h0 (by rw [e0]; exact mul_nonneg he.le h0.le) g

/-- C78: source iteration reaches its tolerance. With a scattering ratio below one there is a number of sweeps which
no run exceeds, whatever the limit, the sweeper that solves the problem and its internal state — unless the
solution has zero scalar flux and the run starts from another one. -/
theorem fixedPoint_reaches [Archimedean K] (H : R.Physical) {κ : K} (hκ : Ratio R X κ) (h1 : κ < 1) (hD : Dissipative R L0)
    (A : Affine R L L0) {b B : K} (Wd : Weighted R b B) (hb : 0 < b) (he : 0 < errMax) {psi star : Nat → Psi K}
    (hs : Scatters R X L src star) (hz : norm1 R (scal R X star) ≠ 0 ∨ SamePhi R (scal R X psi) (scal R X star)) :
    ∃ n0, ∀ (S : Sweeper K), Correct S L L0 → ∀ iterMax st tr st' psi' n,
      FixedPoint R X S src errMax iterMax st psi tr st' psi' n → n ≤ n0 := by
  rcases hz with hz | hz
  · have hTp : 0 < norm1 R (scal R X star) := lt_of_le_of_ne (norm1_nonneg _) (Ne.symm hz)
    have hEn : ∀ g, 0 ≤ energy R g (subPhi (scal R X psi) (scal R X star)) := fun g => energy_nonneg H g _
    -- the largest initial energy of a group
    set E : K := ∑ g ∈ Finset.range R.nGroups, energy R g (subPhi (scal R X psi) (scal R X star)) with hE
    have hE0 : 0 ≤ E := Finset.sum_nonneg fun g _ => hEn g
    have hNp := entries_pos hTp
    have hk : κ ^ 2 < 1 := by
      have := hκ.nonneg
      nlinarith
    obtain ⟨m, hm⟩ := exists_pow_lt_of_lt_one (K := K) (x := b * (errMax * norm1 R (scal R X star) /
        ((2 + errMax) * phiSum R fun _ _ _ _ => (1 : K)) / 2) ^ 2 / (20 * E + 1))
      (div_pos (mul_pos hb (pow_pos (div_pos (div_pos (mul_pos he hTp) (mul_pos (by linarith) hNp)) two_pos) 2)) (by linarith)) hk
    rw [lt_div_iff₀ (by linarith)] at hm
    have hm : (κ ^ 2) ^ m * (20 * E) ≤ _ := le_trans (by nlinarith [pow_nonneg (sq_nonneg κ) m]) hm.le
    exact ⟨m + 2, fun S C iterMax st tr st' psi' n h => fixedPoint_small H hκ h1 hD A Wd hb he hs rfl rfl hTp
      (fun g hg => Finset.single_le_sum (f := fun g => energy R g (subPhi (scal R X psi) (scal R X star)))
          (fun g _ => hEn g) (Finset.mem_range.2 hg)) hm C h⟩
  · exact ⟨1, fun S C iterMax st tr st' psi' n h => fixedPoint_settled A he hs hz C h⟩

/-- The number of sweeps of a run from zero, in numbers: with `N` entries of the scalar flux it is at most `m + 2` as soon
as `8 B ((2 + errMax) N)² κ^(2 m) ≤ b errMax²`, whatever the ranks, the sweeper and the solution. -/
theorem fixedPoint_number (H : R.Physical) {κ : K} (hκ : Ratio R X κ) (h1 : κ < 1) (hD : Dissipative R L0)
    (A : Affine R L L0) {b B : K} (Wd : Weighted R b B) (hb : 0 < b) (he : 0 < errMax) {psi star : Nat → Psi K}
    (hs : Scatters R X L src star) (h0 : SamePhi R (scal R X psi) fun _ _ _ _ => 0) {N : K}
    (hN : phiSum R (fun _ _ _ _ => (1 : K)) = N) {m : Nat}
    (hm : 8 * B * ((2 + errMax) * N) ^ 2 * (κ ^ 2) ^ m ≤ b * errMax ^ 2)
    (C : Correct S L L0) {st : S.State} {tr : List ((Nat → Phi K) × (Nat → Psi K))} {st' : S.State} {psi' : Nat → Psi K}
    {n : Nat} (h : FixedPoint R X S src errMax iterMax st psi tr st' psi' n) : n ≤ m + 2 := by
  rcases (norm1_nonneg (R := R) (scal R X star)).eq_or_lt with hT | hT
  · have := fixedPoint_settled A he hs (h0.trans (norm1_zero hT.symm).symm) C h
    omega
  · have hNp : 0 < N := hN ▸ entries_pos hT
    have hden : 0 < (2 + errMax) * N := mul_pos (by linarith) hNp
    set T := norm1 R (scal R X star) with eT
    refine fixedPoint_small H hκ h1 hD A Wd hb he hs hN rfl hT (E := B * T ^ 2 / 10) (fun g hg => ?_) ?_ C h
    · have a1 := energy_high1 Wd hg (subPhi (scal R X psi) (scal R X star))
      have a2 : norm1 R (subPhi (scal R X psi) (scal R X star)) = T := by
        rw [norm1_symm, eT]
        exact norm1_congr fun r hr g v c hg hc => by simp only [subPhi, h0 r hr g v c hg hc, sub_zero]
      rw [a2] at a1
      rw [le_div_iff₀ (by norm_num)]
      linarith
    · have e1 : b * (errMax * T / ((2 + errMax) * N) / 2) ^ 2 = b * errMax ^ 2 * T ^ 2 / (4 * ((2 + errMax) * N) ^ 2) := by
        field_simp
        ring
      rw [e1, le_div_iff₀ (by positivity)]
      have := mul_le_mul_of_nonneg_right hm (sq_nonneg T)
      nlinarith

/-- C78: hence with a limit above that number every run ends by the tolerance and is near the solution. -/
theorem fixedPoint_done [Archimedean K] (H : R.Physical) {κ : K} (hκ : Ratio R X κ) (h1 : κ < 1) (hD : Dissipative R L0)
    (A : Affine R L L0) {b B : K} (Wd : Weighted R b B) (hb : 0 < b) (he : 0 < errMax) (he1 : errMax < 1)
    {psi star : Nat → Psi K} (hs : Scatters R X L src star)
    (hz : norm1 R (scal R X star) ≠ 0 ∨ SamePhi R (scal R X psi) (scal R X star)) :
    ∃ n0, ∀ (S : Sweeper K), Correct S L L0 → ∀ iterMax, n0 < iterMax → ∀ st tr st' psi' n,
      FixedPoint R X S src errMax iterMax st psi tr st' psi' n →
        0 < n ∧ n ≤ n0 ∧ Near R X κ b (2 * B * (κ * (errMax * norm1 R (scal R X psi'))) ^ 2) psi' star := by
  obtain ⟨n0, h0⟩ := fixedPoint_reaches H hκ h1 hD A Wd hb he hs hz
  refine ⟨n0, fun S C iterMax hm st tr st' psi' n h => ?_⟩
  have hn := h0 S C iterMax st tr st' psi' n h
  have hpos : 0 < n := by
    rcases fixedPoint_tolerance h (by omega) with ⟨-, -, h'⟩ | ⟨tr', old, e, -⟩
    · exact absurd h' (not_le.2 he1)
    · rw [(fixedPoint_count h).1, e]; simp
  exact ⟨hpos, hn, fixedPoint_error H hκ h1 hD C A Wd hs h hpos (by omega)⟩

end

end Verif.Source
