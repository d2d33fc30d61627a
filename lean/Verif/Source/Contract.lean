import Verif.Source.Energy
import Mathlib.Algebra.Order.BigOperators.Ring.Finset
import Mathlib.Algebra.BigOperators.Field
import Mathlib.LinearAlgebra.FiniteDimensional.Lemmas

/-!
# Convergence of source iteration for scattering ratios below one (C58)
-/
set_option linter.unusedSectionVars false

namespace Verif.Source
open Classical
open Verif.Transport Verif.Traverse Verif.Domain

variable {K : Type} [Field K] [LinearOrder K]

/-! ### Statements -/

/-- The faces of neighbouring cells match: opposite `area Ω·n`, and the vertices of the face are the same
nodes. On meshes this is `tet_areas_opposite` (C33). -/
structure Matched (R : SweepRun K) (mate : Loc → Option Loc) (node : Nat → Nat → Fin 4 → Nat) : Prop where
  area : ∀ x y a, R.cfg.In x → mate x = some y → a < R.nAngles →
    (R.view y.rank).faceArea y.cell y.face * (R.view y.rank).omegaDotN a y.cell y.face =
      -((R.view x.rank).faceArea x.cell x.face * (R.view x.rank).omegaDotN a x.cell x.face)
  face : ∀ x y v, R.cfg.In x → mate x = some y → v ≠ x.face →
    ∃ w, w ≠ y.face ∧ node y.rank y.cell w = node x.rank x.cell v

/-- Sum over the cells of all ranks. -/
def meshSum (R : SweepRun K) (f : Nat → Nat → K) : K :=
  ∑ r ∈ Finset.range R.nRanks, ∑ c ∈ Finset.range (R.nCells r), f r c

/-- Squared norm of a scalar flux in a group: the integral of `σt φ²`. -/
def energy (R : SweepRun K) (g : Nat) (phi : Nat → Phi K) : K :=
  meshSum R fun r c => R.sigmaT r c * (R.view r).cellVolume c *
    cellM (fun v => phi r g v c) (fun v => phi r g v c)

/-- Solutions absorb at most what the source gives, weighted by the flux. -/
def Dissipative (R : SweepRun K) (L0 : (Nat → Psi K) → (Nat → Psi K) → Prop) : Prop :=
  ∀ src psi, L0 src psi → ∀ a g, a < R.nAngles → g < R.nGroups →
    meshSum R (fun r c => R.sigmaT r c * (R.view r).cellVolume c *
      cellM (fun v => psi r g v a c) (fun v => psi r g v a c)) ≤
    meshSum R (fun r c => (R.view r).cellVolume c *
      cellM (fun v => src r g v a c) (fun v => psi r g v a c))

/-- The scattering ratio is at most `κ` in every cell: `σs (∑ w)/(4π) ≤ κ σt`. -/
structure Ratio (R : SweepRun K) (X : Scat K) (κ : K) : Prop where
  nonneg : 0 ≤ κ
  weights : ∀ a < R.nAngles, 0 ≤ X.wt a
  total : 0 < ∑ a ∈ Finset.range R.nAngles, X.wt a
  scatter : ∀ r c, r < R.nRanks → c < R.nCells r → 0 ≤ X.sigmaS r c / (4 * X.mPi)
  ratio : ∀ r c, r < R.nRanks → c < R.nCells r →
    (∑ a ∈ Finset.range R.nAngles, X.wt a) * (X.sigmaS r c / (4 * X.mPi)) ≤ κ * R.sigmaT r c

/-- Difference of scalar fluxes. -/
def subPhi (p q : Nat → Phi K) : Nat → Phi K := fun r g v c => p r g v c - q r g v c

/-! ### Proofs -/

variable {R : SweepRun K}

theorem meshSum_congr {f f' : Nat → Nat → K}
    (h : ∀ r < R.nRanks, ∀ c < R.nCells r, f r c = f' r c) : meshSum R f = meshSum R f' :=
  Finset.sum_congr rfl fun r hr => Finset.sum_congr rfl fun c hc =>
    h r (Finset.mem_range.1 hr) c (Finset.mem_range.1 hc)

theorem meshSum_add (f f' : Nat → Nat → K) :
    meshSum R (fun r c => f r c + f' r c) = meshSum R f + meshSum R f' := by
  simp only [meshSum, Finset.sum_add_distrib]

theorem meshSum_mul (k : K) (f : Nat → Nat → K) : meshSum R (fun r c => k * f r c) = k * meshSum R f := by
  simp only [meshSum, Finset.mul_sum]

theorem meshSum_sum {ι : Type} (s : Finset ι) (f : ι → Nat → Nat → K) :
    meshSum R (fun r c => ∑ a ∈ s, f a r c) = ∑ a ∈ s, meshSum R (f a) := by
  simp only [meshSum]
  rw [Finset.sum_comm]
  exact Finset.sum_congr rfl fun r _ => Finset.sum_comm

variable [IsStrictOrderedRing K]

theorem meshSum_le {f f' : Nat → Nat → K}
    (h : ∀ r < R.nRanks, ∀ c < R.nCells r, f r c ≤ f' r c) : meshSum R f ≤ meshSum R f' :=
  Finset.sum_le_sum fun r hr => Finset.sum_le_sum fun c hc =>
    h r (Finset.mem_range.1 hr) c (Finset.mem_range.1 hc)

theorem meshSum_nonneg {f : Nat → Nat → K}
    (h : ∀ r < R.nRanks, ∀ c < R.nCells r, 0 ≤ f r c) : 0 ≤ meshSum R f :=
  Finset.sum_nonneg fun r hr => Finset.sum_nonneg fun c hc =>
    h r (Finset.mem_range.1 hr) c (Finset.mem_range.1 hc)

theorem meshSum_zero {f : Nat → Nat → K}
    (h : ∀ r < R.nRanks, ∀ c < R.nCells r, 0 ≤ f r c) (h0 : meshSum R f ≤ 0) :
    ∀ r < R.nRanks, ∀ c < R.nCells r, f r c = 0 := by
  have e : meshSum R f = 0 := le_antisymm h0 (meshSum_nonneg h)
  intro r hr c hc
  have h1 := (Finset.sum_eq_zero_iff_of_nonneg (fun r hr => Finset.sum_nonneg fun c hc =>
    h r (Finset.mem_range.1 hr) c (Finset.mem_range.1 hc))).1 e r (Finset.mem_range.2 hr)
  exact (Finset.sum_eq_zero_iff_of_nonneg (fun c hc => h r hr c (Finset.mem_range.1 hc))).1 h1 c
    (Finset.mem_range.2 hc)

section
variable {mate : Loc → Option Loc} {node : Nat → Nat → Fin 4 → Nat}

/-- Both systems are dissipative; `keep` tells which faces pass flux. -/
theorem energy_of (H : R.Physical) (L : Linked R.cfg mate) (N : R.Nodes mate node)
    (M : Matched R mate node) {src psi : Nat → Psi K} {a g : Nat} (ha : a < R.nAngles)
    (keep : Loc → Loc → Prop) (hkeep : ∀ x y, keep x y → keep y x)
    (h : ∀ r c, r < R.nRanks → c < R.nCells r → ∃ inc : Fin 4 → Fin 4 → K,
      (∀ f v, v ≠ f → (R.view r).faceArea c f * (R.view r).omegaDotN a c f < 0 →
        (∀ y, mate ⟨r, c, f⟩ = some y → keep ⟨r, c, f⟩ y →
          ∃ w, node y.rank y.cell w = node r c v ∧ inc f v = psi y.rank g w a y.cell) ∧
        ((∀ y, mate ⟨r, c, f⟩ = some y → ¬ keep ⟨r, c, f⟩ y) → inc f v = 0)) ∧
      Spec.DG ((R.view r).cellVolume c) (R.sigmaT r c)
        (fun f => (R.view r).faceArea c f * (R.view r).omegaDotN a c f) inc
        (fun v => src r g v a c) (fun v => psi r g v a c)) :
    meshSum R (fun r c => R.sigmaT r c * (R.view r).cellVolume c *
      cellM (fun v => psi r g v a c) (fun v => psi r g v a c)) ≤
    meshSum R (fun r c => (R.view r).cellVolume c *
      cellM (fun v => src r g v a c) (fun v => psi r g v a c)) := by
  let cells : Finset (Σ _ : Nat, Nat) := (Finset.range R.nRanks).sigma fun r => Finset.range (R.nCells r)
  have hmem : ∀ p : (Σ _ : Nat, Nat), p ∈ cells ↔ p.1 < R.nRanks ∧ p.2 < R.nCells p.1 := by
    intro p; simp [cells]
  have hch : ∀ p : (Σ _ : Nat, Nat), ∃ inc : Fin 4 → Fin 4 → K, p ∈ cells →
      (∀ f v, v ≠ f → (R.view p.1).faceArea p.2 f * (R.view p.1).omegaDotN a p.2 f < 0 →
        (∀ y, mate ⟨p.1, p.2, f⟩ = some y → keep ⟨p.1, p.2, f⟩ y →
          ∃ w, node y.rank y.cell w = node p.1 p.2 v ∧ inc f v = psi y.rank g w a y.cell) ∧
        ((∀ y, mate ⟨p.1, p.2, f⟩ = some y → ¬ keep ⟨p.1, p.2, f⟩ y) → inc f v = 0)) ∧
      Spec.DG ((R.view p.1).cellVolume p.2) (R.sigmaT p.1 p.2)
        (fun f => (R.view p.1).faceArea p.2 f * (R.view p.1).omegaDotN a p.2 f) inc
        (fun v => src p.1 g v a p.2) (fun v => psi p.1 g v a p.2) := by
    intro p
    by_cases hp : p ∈ cells
    · have := (hmem p).1 hp
      obtain ⟨inc, h1⟩ := h p.1 p.2 this.1 this.2
      exact ⟨inc, fun _ => h1⟩
    · exact ⟨fun _ _ => 0, fun hp' => absurd hp' hp⟩
  choose inc hinc using hch
  let partner : (Σ _ : Nat, Nat) → Fin 4 → Option ((Σ _ : Nat, Nat) × Fin 4) := fun p f =>
    match mate ⟨p.1, p.2, f⟩ with
    | none => none
    | some y => if keep ⟨p.1, p.2, f⟩ y then some (⟨y.rank, y.cell⟩, y.face) else none
  have hps : ∀ p f q f', partner p f = some (q, f') →
      mate ⟨p.1, p.2, f⟩ = some ⟨q.1, q.2, f'⟩ ∧ keep ⟨p.1, p.2, f⟩ ⟨q.1, q.2, f'⟩ := by
    intro p f q f' hq
    simp only [partner] at hq
    rcases hm : mate ⟨p.1, p.2, f⟩ with _ | y
    · rw [hm] at hq; simp at hq
    · rw [hm] at hq
      simp only at hq
      split at hq
      · rename_i hk
        simp only [Option.some.injEq, Prod.mk.injEq] at hq
        obtain ⟨rfl, rfl⟩ := hq
        exact ⟨rfl, hk⟩
      · simp at hq
  have hpn : ∀ p f, partner p f = none → ∀ y, mate ⟨p.1, p.2, f⟩ = some y → ¬ keep ⟨p.1, p.2, f⟩ y := by
    intro p f hq y hm hk
    simp only [partner, hm, if_pos hk] at hq
    simp at hq
  have key := mesh_energy cells (fun p => (R.view p.1).cellVolume p.2) (fun p => R.sigmaT p.1 p.2)
    (fun p f => (R.view p.1).faceArea p.2 f * (R.view p.1).omegaDotN a p.2 f)
    (fun p v => src p.1 g v a p.2) (fun p v => psi p.1 g v a p.2) inc (fun p => node p.1 p.2) partner
    (fun p hp => H.closed p.1 p.2 a ((hmem p).1 hp).1 ((hmem p).1 hp).2 ha)
    (fun p hp => (hinc p hp).2)
    (fun p hp v w e => N.inj p.1 p.2 v w ((hmem p).1 hp).1 ((hmem p).1 hp).2 e)
    (by
      intro p hp f q f' hq
      obtain ⟨hm, hk⟩ := hps p f q f' hq
      have hin : R.cfg.In ⟨p.1, p.2, f⟩ := (hmem p).1 hp
      have hqin := L.mate_in _ _ hin hm
      refine ⟨(hmem q).2 hqin, ?_, M.area _ _ a hin hm ha, fun v hv => M.face _ _ v hin hm hv⟩
      have hs := L.mate_symm _ _ hin hm
      simp only [partner, hs, if_pos (hkeep _ _ hk)])
    (by
      intro p hp f q f' hq hneg v w hv e
      obtain ⟨hm, hk⟩ := hps p f q f' hq
      have hin : R.cfg.In ⟨p.1, p.2, f⟩ := (hmem p).1 hp
      have hqin := L.mate_in _ _ hin hm
      obtain ⟨w', hw', e'⟩ := ((hinc p hp).1 f v hv hneg).1 _ hm hk
      have : w' = w := N.inj q.1 q.2 w' w hqin.1 hqin.2 (hw'.trans e.symm)
      subst this
      exact e')
    (by
      intro p hp f hq hneg v hv
      exact ((hinc p hp).1 f v hv hneg).2 (hpn p f hq))
  simpa only [meshSum, cells, Finset.sum_sigma] using key

theorem full_dissipative (H : R.Physical) (L : Linked R.cfg mate) (N : R.Nodes mate node)
    (M : Matched R mate node) : Dissipative R (FullDG R mate node) := by
  intro src psi h a g ha hg
  refine energy_of H L N M ha (fun _ _ => True) (fun _ _ h => h) ?_
  intro r c hr hc
  obtain ⟨inc, h1, h2⟩ := h r c a g hr hc ha hg
  refine ⟨inc, fun f v hv hneg => ?_, h2⟩
  obtain ⟨h3, h4⟩ := h1 f v hv hneg
  refine ⟨fun y hy _ => h3 y hy, fun hn => h4 ?_⟩
  rcases hm : mate ⟨r, c, f⟩ with _ | y
  · rfl
  · exact absurd trivial (hn y hm)

theorem local_dissipative (H : R.Physical) (L : Linked R.cfg mate) (N : R.Nodes mate node)
    (M : Matched R mate node) :
    Dissipative R (fun src psi => LocalDG R mate node src (fun _ _ _ _ _ => 0) psi) := by
  intro src psi h a g ha hg
  refine energy_of H L N M ha (fun x y => y.rank = x.rank) (fun _ _ h => h.symm) ?_
  intro r c hr hc
  obtain ⟨inc, h1, h2⟩ := h r c a g hr hc ha hg
  refine ⟨inc, fun f v hv hneg => ?_, h2⟩
  obtain ⟨h3, h4, h5⟩ := h1 f v hv hneg
  refine ⟨?_, fun hn => ?_⟩
  · intro y hy hyr
    obtain ⟨w, hw, e⟩ := h3 y hy hyr
    have hyr' : y.rank = r := hyr
    exact ⟨w, by rw [hyr']; exact hw, by rw [hyr']; exact e⟩
  · rcases hm : mate ⟨r, c, f⟩ with _ | y
    · exact h5 hm
    · exact h4 y hm (hn y hm)

end

variable {X : Scat K} {L L0 : (Nat → Psi K) → (Nat → Psi K) → Prop}

/-- Cauchy–Schwarz over the angles. -/
theorem cellM_angles (na : Nat) (w : Nat → K) (hw : ∀ a < na, 0 ≤ w a) (e : Nat → Fin 4 → K) :
    cellM (fun v => ∑ a ∈ Finset.range na, e a v * w a) (fun v => ∑ a ∈ Finset.range na, e a v * w a) ≤
      (∑ a ∈ Finset.range na, w a) * ∑ a ∈ Finset.range na, w a * cellM (e a) (e a) := by
  have cs : ∀ x : Nat → K, (∑ a ∈ Finset.range na, x a * w a) * (∑ a ∈ Finset.range na, x a * w a) ≤
      (∑ a ∈ Finset.range na, w a) * ∑ a ∈ Finset.range na, w a * (x a * x a) := by
    intro x
    rw [← sq]
    refine Finset.sum_sq_le_sum_mul_sum_of_sq_le_mul _ (fun a ha => hw a (Finset.mem_range.1 ha))
      (fun a ha => mul_nonneg (hw a (Finset.mem_range.1 ha)) (mul_self_nonneg _)) fun a _ => le_of_eq (by ring)
  have h0 := cs fun a => e a 0
  have h1 := cs fun a => e a 1
  have h2 := cs fun a => e a 2
  have h3 := cs fun a => e a 3
  have hs := cs fun a => e a 0 + e a 1 + e a 2 + e a 3
  have es : ∑ a ∈ Finset.range na, (e a 0 + e a 1 + e a 2 + e a 3) * w a =
      ∑ a ∈ Finset.range na, e a 0 * w a + ∑ a ∈ Finset.range na, e a 1 * w a +
      ∑ a ∈ Finset.range na, e a 2 * w a + ∑ a ∈ Finset.range na, e a 3 * w a := by
    simp only [← Finset.sum_add_distrib]
    exact Finset.sum_congr rfl fun _ _ => by ring
  rw [es] at hs
  have er : ∑ a ∈ Finset.range na, w a * cellM (e a) (e a) =
      (∑ a ∈ Finset.range na, w a * (e a 0 * e a 0) + ∑ a ∈ Finset.range na, w a * (e a 1 * e a 1) +
      ∑ a ∈ Finset.range na, w a * (e a 2 * e a 2) + ∑ a ∈ Finset.range na, w a * (e a 3 * e a 3) +
      ∑ a ∈ Finset.range na, w a * ((e a 0 + e a 1 + e a 2 + e a 3) * (e a 0 + e a 1 + e a 2 + e a 3))) / 20 := by
    simp only [← Finset.sum_add_distrib, Finset.sum_div]
    exact Finset.sum_congr rfl fun a _ => by simp only [cellM, Fin.sum_univ_four]; ring
  rw [er]
  simp only [cellM, Fin.sum_univ_four]
  rw [← mul_div_assoc]
  refine div_le_div_of_nonneg_right ?_ (by norm_num)
  simp only [mul_add]
  simp only [mul_add] at hs
  linarith

/-- One sweep with the scattering of `phi` as only source gives a scalar flux smaller by the square of
the scattering ratio. -/
theorem scatter_contracts (H : R.Physical) {κ : K} (hκ : Ratio R X κ) (hD : Dissipative R L0)
    {phi : Nat → Phi K} {e : Nat → Psi K} (h : L0 (scat X (fun _ _ _ _ _ => 0) phi) e) {g : Nat}
    (hg : g < R.nGroups) : energy R g (scal R X e) ≤ κ ^ 2 * energy R g phi := by
  set W := ∑ a ∈ Finset.range R.nAngles, X.wt a with hW
  -- sum of the energy inequalities
  have h1 : ∑ a ∈ Finset.range R.nAngles, X.wt a *
      meshSum R (fun r c => R.sigmaT r c * (R.view r).cellVolume c *
        cellM (fun v => e r g v a c) (fun v => e r g v a c)) ≤
      meshSum R (fun r c => (R.view r).cellVolume c * (X.sigmaS r c / (4 * X.mPi)) *
        cellM (fun v => phi r g v c) (fun v => scal R X e r g v c)) := by
    have h2 : ∀ a ∈ Finset.range R.nAngles, X.wt a *
        meshSum R (fun r c => R.sigmaT r c * (R.view r).cellVolume c *
          cellM (fun v => e r g v a c) (fun v => e r g v a c)) ≤
        X.wt a * meshSum R (fun r c => (R.view r).cellVolume c *
          cellM (fun v => scat X (fun _ _ _ _ _ => 0) phi r g v a c) (fun v => e r g v a c)) := by
      intro a ha
      exact mul_le_mul_of_nonneg_left (hD _ _ h a g (Finset.mem_range.1 ha) hg)
        (hκ.weights a (Finset.mem_range.1 ha))
    refine (Finset.sum_le_sum h2).trans (le_of_eq ?_)
    simp only [← meshSum_mul]
    rw [← meshSum_sum]
    refine meshSum_congr fun r _ c _ => ?_
    simp only [cellM, scat, scal, Fin.sum_univ_four, zero_add]
    simp only [Finset.mul_sum, Finset.sum_div, ← Finset.sum_add_distrib]
    exact Finset.sum_congr rfl fun _ _ => by ring
  -- Cauchy–Schwarz
  have h3 : energy R g (scal R X e) ≤ W * ∑ a ∈ Finset.range R.nAngles, X.wt a *
      meshSum R (fun r c => R.sigmaT r c * (R.view r).cellVolume c *
        cellM (fun v => e r g v a c) (fun v => e r g v a c)) := by
    simp only [← meshSum_mul]
    rw [← meshSum_sum, ← meshSum_mul]
    refine meshSum_le fun r hr c hc => ?_
    have := cellM_angles R.nAngles X.wt hκ.weights fun a v => e r g v a c
    refine (mul_le_mul_of_nonneg_left this (mul_nonneg (H.sigma r c hr hc) (H.volume r c hr hc).le)).trans
      (le_of_eq ?_)
    rw [← hW]
    simp only [Finset.mul_sum]
    exact Finset.sum_congr rfl fun _ _ => by ring
  have h4 := h3.trans (mul_le_mul_of_nonneg_left h1 hκ.total.le)
  rw [← meshSum_mul] at h4
  -- the mixed term
  have h5 : 2 * meshSum R (fun r c => W * ((R.view r).cellVolume c * (X.sigmaS r c / (4 * X.mPi)) *
      cellM (fun v => phi r g v c) (fun v => scal R X e r g v c))) ≤
      κ ^ 2 * energy R g phi + energy R g (scal R X e) := by
    unfold energy
    rw [← meshSum_mul, ← meshSum_mul, ← meshSum_add]
    refine meshSum_le fun r hr c hc => ?_
    set p : Fin 4 → K := fun v => phi r g v c
    set q : Fin 4 → K := fun v => scal R X e r g v c
    have hV := (H.volume r c hr hc).le
    have hσ := H.sigma r c hr hc
    have ht0 := mul_nonneg hκ.total.le (hκ.scatter r c hr hc)
    have ht := hκ.ratio r c hr hc
    rw [← hW] at ht0 ht
    set t := W * (X.sigmaS r c / (4 * X.mPi))
    have hp := cellM_nonneg p
    have hq := cellM_nonneg q
    have hm : 2 * κ * cellM p q ≤ κ ^ 2 * cellM p p + cellM q q := by
      have := cellM_nonneg fun i => q i + (-κ) * p i
      rw [cellM_add, cellM_comm q, cellM_comm p, cellM_add, cellM_add] at this
      rw [cellM_comm p q]
      rw [cellM_comm p q] at this
      linarith
    have goal : 2 * t * cellM p q ≤ R.sigmaT r c * (κ ^ 2 * cellM p p + cellM q q) := by
      rcases hκ.nonneg.eq_or_lt with h0 | hpos
      · rw [← h0] at ht ⊢
        have : t = 0 := le_antisymm (by simpa using ht) ht0
        rw [this]
        have := mul_nonneg hσ hq
        simp; linarith
      · rcases le_total (cellM p q) 0 with hneg | hnn
        · have a1 := mul_nonneg ht0 (neg_nonneg.2 hneg)
          have a2 := mul_nonneg hσ (add_nonneg (mul_nonneg (sq_nonneg κ) hp) hq)
          linarith
        · have a1 := mul_le_mul_of_nonneg_right ht hnn
          have a2 := mul_le_mul_of_nonneg_left hm hσ
          linarith
    have := mul_le_mul_of_nonneg_left goal hV
    refine le_trans (le_of_eq ?_) (this.trans (le_of_eq ?_))
    · simp only [t]; ring
    · ring
  linarith

/-- Difference of solutions. -/
theorem scatter_diff (A : Affine R L L0) {src psi star : Nat → Psi K} {old : Nat → Phi K}
    (h : L (scat X src old) psi) (h' : Scatters R X L src star) :
    L0 (scat X (fun _ _ _ _ _ => 0) (subPhi old (scal R X star))) (lin (-1) psi star) := by
  have := A.sub _ _ _ _ h h'
  have e : lin (-1) (scat X src old) (scat X src (scal R X star)) =
      scat X (fun _ _ _ _ _ => 0) (subPhi old (scal R X star)) := by
    funext r g v a c
    simp only [lin, scat, subPhi]; ring
  rwa [e] at this

theorem scal_sub (p q : Nat → Psi K) : scal R X (lin (-1) p q) = subPhi (scal R X p) (scal R X q) := by
  rw [scal_lin]
  funext r g v c
  simp only [subPhi]; ring

theorem energy_nonneg (H : R.Physical) (g : Nat) (phi : Nat → Phi K) : 0 ≤ energy R g phi :=
  meshSum_nonneg fun r hr c hc =>
    mul_nonneg (mul_nonneg (H.sigma r c hr hc) (H.volume r c hr hc).le) (cellM_nonneg _)

theorem energy_congr {g : Nat} (hg : g < R.nGroups) {p q : Nat → Phi K} (h : SamePhi R p q) :
    energy R g p = energy R g q := by
  refine meshSum_congr fun r hr c hc => ?_
  have : (fun v => p r g v c) = fun v => q r g v c := funext fun v => h r hr g v c hg hc
  rw [this]

/-- A scalar flux of zero norm scatters nothing. -/
theorem energy_zero (H : R.Physical) {κ : K} (hκ : Ratio R X κ) {phi : Nat → Phi K}
    (h : ∀ g < R.nGroups, energy R g phi ≤ 0) :
    SameFlux R (scat X (fun _ _ _ _ _ => 0) phi) fun _ _ _ _ _ => 0 := by
  intro r c a g v hr hc ha hg
  have h1 := meshSum_zero (fun r hr c hc =>
    mul_nonneg (mul_nonneg (H.sigma r c hr hc) (H.volume r c hr hc).le) (cellM_nonneg _)) (h g hg) r hr c hc
  simp only [scat, zero_add]
  rcases mul_eq_zero.1 h1 with h2 | h2
  · have hσ : R.sigmaT r c = 0 := (mul_eq_zero.1 h2).resolve_right (H.volume r c hr hc).ne'
    have hr2 := hκ.ratio r c hr hc
    rw [hσ, mul_zero] at hr2
    have h3 := mul_nonneg hκ.total.le (hκ.scatter r c hr hc)
    have h4 := (mul_eq_zero.1 (le_antisymm hr2 h3)).resolve_left hκ.total.ne'
    rw [h4, zero_mul]
  · have := congrFun (cellM_zero h2.le) v
    simp only [Pi.zero_apply] at this
    rw [this, mul_zero]

theorem zero_solves (A : Affine R L0 L0) {s p : Nat → Psi K} (h : L0 s p) :
    L0 (fun _ _ _ _ _ => 0) fun _ _ _ _ _ => 0 :=
  A.congr _ _ _ _ (A.sub _ _ _ _ h h) (fun r c a g v _ _ _ _ => by simp [lin])
    (fun r c a g v _ _ _ _ => by simp [lin])

/-- C58: with a scattering ratio below one the problem with scattering has at most one solution. -/
theorem scatter_unique (H : R.Physical) {κ : K} (hκ : Ratio R X κ) (h1 : κ < 1)
    (hD : Dissipative R L0) (A : Affine R L L0) (A0 : Affine R L0 L0) {src psi star : Nat → Psi K}
    (h : Scatters R X L src psi) (h' : Scatters R X L src star) : SameFlux R psi star := by
  have hd := scatter_diff A h h'
  have hE : ∀ g < R.nGroups, energy R g (subPhi (scal R X psi) (scal R X star)) ≤ 0 := by
    intro g hg
    have hc := scatter_contracts H hκ hD hd hg
    rw [scal_sub] at hc
    have hn := energy_nonneg H g (subPhi (scal R X psi) (scal R X star))
    have hk : κ ^ 2 < 1 := by nlinarith [hκ.nonneg]
    nlinarith
  have hz := A0.congr _ _ _ _ hd (energy_zero H hκ hE) (sameFlux_refl _)
  have hs := A0.unique _ _ _ hz (zero_solves A0 hd)
  intro r c a g v hr hc ha hg
  have := hs r c a g v hr hc ha hg
  simp only [lin] at this
  linear_combination this

/-- C58: source iteration converges. With scattering ratio `κ` the error of the scalar flux after sweep
number `i + 1` is, in every group, at most `κ^(2(i+1))` times the initial one in the square of the norm. -/
theorem SILoop.converges {S : Sweeper K} {src : Nat → Psi K} {errMax : K} {iterMax : Nat} (H : R.Physical)
    {κ : K} (hκ : Ratio R X κ) (hD : Dissipative R L0) (C : Correct S L L0) (A : Affine R L L0)
    {star : Nat → Psi K} (hstar : Scatters R X L src star) {iter : Nat} {err : Err K} {st : S.State}
    {psi : Nat → Psi K} {phi : Nat → Phi K} {tr : List ((Nat → Phi K) × (Nat → Psi K))} {st' : S.State}
    {psi' : Nat → Psi K} {n : Nat}
    (h : SILoop R X S src errMax iterMax iter err st psi phi tr st' psi' n) {g : Nat}
    (hg : g < R.nGroups) : ∀ i (hi : i < tr.length),
      energy R g (subPhi (scal R X tr[i].2) (scal R X star)) ≤
        (κ ^ 2) ^ (i + 1) * energy R g (subPhi phi (scal R X star)) := by
  induction h with
  | stop => intro i hi; simp at hi
  | @step iter err st psi phi tot st1 psi1 phi1 tr st' psi' n h ht hs hp hr ih =>
    have hL := A.congr _ _ _ _ (C.plain _ _ _ _ _ hs) ht.same (sameFlux_refl _)
    have h1 := scatter_contracts H hκ hD (scatter_diff A hL hstar) hg
    rw [scal_sub] at h1
    intro i hi
    cases i with
    | zero => simpa using h1
    | succ i =>
      have h2 := ih i (by simpa using hi)
      have e : energy R g (subPhi phi1 (scal R X star)) =
          energy R g (subPhi (scal R X psi1) (scal R X star)) := by
        refine energy_congr hg fun r hr g v c hg hc => ?_
        simp only [subPhi, hp.same r hr g v c hg hc]
      rw [e] at h2
      refine h2.trans ?_
      rw [pow_succ (κ ^ 2) (i + 1), mul_assoc]
      exact mul_le_mul_of_nonneg_left h1 (pow_nonneg (sq_nonneg _) _)

theorem fixedPoint_converges {S : Sweeper K} {src : Nat → Psi K} {errMax : K} {iterMax : Nat}
    (H : R.Physical) {κ : K} (hκ : Ratio R X κ) (hD : Dissipative R L0) (C : Correct S L L0)
    (A : Affine R L L0) {star : Nat → Psi K} (hstar : Scatters R X L src star) {st : S.State}
    {psi : Nat → Psi K} {tr : List ((Nat → Phi K) × (Nat → Psi K))} {st' : S.State}
    {psi' : Nat → Psi K} {n : Nat} (h : FixedPoint R X S src errMax iterMax st psi tr st' psi' n) {g : Nat}
    (hg : g < R.nGroups) : ∀ i (hi : i < tr.length),
      energy R g (subPhi (scal R X tr[i].2) (scal R X star)) ≤
        (κ ^ 2) ^ (i + 1) * energy R g (subPhi (scal R X psi) (scal R X star)) := by
  obtain ⟨phi, hphi, hl⟩ := h
  intro i hi
  have := hl.converges H hκ hD C A hstar hg i hi
  have e : energy R g (subPhi phi (scal R X star)) =
      energy R g (subPhi (scal R X psi) (scal R X star)) := by
    refine energy_congr hg fun r hr g v c hg hc => ?_
    simp only [subPhi, hphi.same r hr g v c hg hc]
  rwa [e] at this

/-! ### Existence -/

/-- Positions of the entries of a scalar flux array. -/
abbrev PhiIdx (R : SweepRun K) : Type := Σ r : Fin R.nRanks, Fin R.nGroups × Fin 4 × Fin (R.nCells r)

def ofPhi (p : Nat → Phi K) : PhiIdx R → K := fun i => p i.1 i.2.1 i.2.2.1 i.2.2.2

def toPhi (x : PhiIdx R → K) : Nat → Phi K := fun r g v c =>
  if h : r < R.nRanks then
    if h2 : g < R.nGroups ∧ c < R.nCells r then x ⟨⟨r, h⟩, ⟨g, h2.1⟩, v, ⟨c, h2.2⟩⟩ else 0
  else 0

theorem toPhi_ofPhi (p : Nat → Phi K) : SamePhi R (toPhi (ofPhi (R := R) p)) p := by
  intro r hr g v c hg hc
  simp [toPhi, ofPhi, hr, hg, hc]

theorem ofPhi_toPhi (x : PhiIdx R → K) : ofPhi (toPhi x) = x := by
  funext ⟨r, g, v, c⟩
  simp [toPhi, ofPhi]

theorem ofPhi_congr {p q : Nat → Phi K} (h : SamePhi R p q) : ofPhi (R := R) p = ofPhi q := by
  funext ⟨r, g, v, c⟩
  exact h r r.2 g v c g.2 c.2

/-- C58: with a scattering ratio below one the problem with scattering has a solution. -/
theorem scatter_exists (H : R.Physical) {κ : K} (hκ : Ratio R X κ) (h1 : κ < 1)
    (hD : Dissipative R L0) (A : Affine R L L0) (A0 : Affine R L0 L0)
    (hex : ∀ src, ∃ psi, L src psi) (hex0 : ∀ src, ∃ psi, L0 src psi) (src : Nat → Psi K) :
    ∃ psi, Scatters R X L src psi := by
  choose sol hsol using hex0
  let e : (PhiIdx R → K) → Nat → Psi K := fun x => sol (scat X (fun _ _ _ _ _ => 0) (toPhi x))
  have he : ∀ x, L0 (scat X (fun _ _ _ _ _ => 0) (toPhi x)) (e x) := fun x => hsol _
  have hadd : ∀ (k : K) x y, SameFlux R (e (x + k • y)) (lin k (e x) (e y)) := by
    intro k x y
    refine A0.unique _ _ _ (he _) (A0.congr _ _ _ _ (A0.lin k _ _ _ _ (he x) (he y)) ?_ (sameFlux_refl _))
    intro r c a g v hr hc ha hg
    simp [lin, scat, toPhi, hr, hg, hc]; ring
  let T : (PhiIdx R → K) → PhiIdx R → K := fun x => ofPhi (scal R X (e x))
  have hT : ∀ (k : K) x y, T (x + k • y) = T x + k • T y := by
    intro k x y
    simp only [T]
    rw [ofPhi_congr (scal_congr (hadd k x y)), scal_lin]
    rfl
  have hT0 : T 0 = 0 := by
    have := hT (-1) 0 0
    simpa using this
  let F : (PhiIdx R → K) →ₗ[K] (PhiIdx R → K) :=
    { toFun := fun x => x - T x
      map_add' := by
        intro x y
        have := hT 1 x y
        simp only [one_smul] at this
        rw [this]; abel
      map_smul' := by
        intro k x
        have := hT k 0 x
        simp only [zero_add, hT0] at this
        simp only [RingHom.id_apply]
        rw [this, smul_sub] }
  have hinj : Function.Injective F := by
    rw [← LinearMap.ker_eq_bot, LinearMap.ker_eq_bot']
    intro x hx
    have hx' : T x = x := (sub_eq_zero.1 hx).symm
    have hs : SamePhi R (scal R X (e x)) (toPhi x) := by
      have h2 := (toPhi_ofPhi (R := R) (scal R X (e x))).symm
      have h3 : ofPhi (R := R) (scal R X (e x)) = x := hx'
      rwa [h3] at h2
    have hE : ∀ g < R.nGroups, energy R g (toPhi x) ≤ 0 := by
      intro g hg
      have hc := scatter_contracts H hκ hD (he x) hg
      rw [energy_congr hg hs] at hc
      have hn := energy_nonneg H g (toPhi x)
      have hk : κ ^ 2 < 1 := by nlinarith [hκ.nonneg]
      nlinarith
    have hz := A0.congr _ _ _ _ (he x) (energy_zero H hκ hE) (sameFlux_refl _)
    have h0 := A0.unique _ _ _ hz (zero_solves A0 (he x))
    rw [← hx']
    simp only [T]
    rw [ofPhi_congr (scal_congr h0)]
    funext i
    simp [ofPhi, scal]
  obtain ⟨psiQ, hQ⟩ := hex src
  obtain ⟨x, hx⟩ := LinearMap.injective_iff_surjective.1 hinj (ofPhi (scal R X psiQ))
  have hx' : x = ofPhi (scal R X psiQ) + T x := by
    have : x - T x = ofPhi (scal R X psiQ) := hx
    rw [← this]; abel
  refine ⟨lin 1 psiQ (e x), A.congr _ _ _ _ (A.lin 1 _ _ _ _ hQ (he x)) ?_ (sameFlux_refl _)⟩
  intro r c a g v hr hc ha hg
  have hv : toPhi x r g v c = scal R X (lin 1 psiQ (e x)) r g v c := by
    have h2 : toPhi x r g v c = x ⟨⟨r, hr⟩, ⟨g, hg⟩, v, ⟨c, hc⟩⟩ := by simp [toPhi, hr, hg, hc]
    rw [h2, congrFun hx' _, scal_lin]
    simp [ofPhi, T]
  simp only [lin, scat]
  rw [← hv]; ring

end Verif.Source
