import Verif.Source.Decomposed
import Mathlib.Algebra.QuadraticDiscriminant

/-!
# Block Jacobi converges (C82)

`SweeperPBJSI` updates scattering and boundary values together, `SweeperPBJOuter` solves each part with scattering before
it exchanges. Both shrink one quantity: what the error carries over the partition faces plus the energy of its scalar flux.
Every failed test takes a fixed amount from it, so the number of iterations is bounded, and the bound depends on mesh,
cross sections, quadrature and tolerance but not on the partition.
-/
set_option linter.unusedSectionVars false

namespace Verif.Source
open Classical List
open Verif.Transport Verif.Traverse Verif.Domain

variable {K : Type} [Field K] [LinearOrder K]

/-! ### Statements -/

/-- The product of area and `Ω·n`. -/
def flow (R : SweepRun K) (a r c : Nat) (f : Fin 4) : K := (R.view r).faceArea c f * (R.view r).omegaDotN a c f

/-- Twice the energy that flows out through the partition faces. -/
noncomputable def seamE (R : SweepRun K) (mate : Loc → Option Loc) (a g : Nat) (psi : Nat → Psi K) : K :=
  meshSum R fun r c => ∑ f, if 0 < flow R a r c f ∧ ∃ y, mate ⟨r, c, f⟩ = some y ∧ y.rank ≠ r then
    flow R a r c f * faceM f (fun v => psi r g v a c) (fun v => psi r g v a c) else 0

/-- `psi` solves the upwind systems when partition faces pass the flux `chi` instead of `psi`. -/
def LagDG (R : SweepRun K) (mate : Loc → Option Loc) (node : Nat → Nat → Fin 4 → Nat) (src chi psi : Nat → Psi K) : Prop :=
  ∀ r c a g, r < R.nRanks → c < R.nCells r → a < R.nAngles → g < R.nGroups →
    ∃ inc : Fin 4 → Fin 4 → K,
      (∀ f v, v ≠ f → flow R a r c f < 0 →
        (∀ y, mate ⟨r, c, f⟩ = some y → ∃ w, node y.rank y.cell w = node r c v ∧
          inc f v = if y.rank = r then psi y.rank g w a y.cell else chi y.rank g w a y.cell) ∧
        (mate ⟨r, c, f⟩ = none → inc f v = 0)) ∧
      Spec.DG ((R.view r).cellVolume c) (R.sigmaT r c) (flow R a r c) inc
        (fun v => src r g v a c) (fun v => psi r g v a c)

/-! ### The energy inequality with partition faces -/

variable [IsStrictOrderedRing K]

/-- `mesh_energy` when some faces pass the flux `chi`. -/
theorem mesh_lag {ι N : Type} (cells : Finset ι) (V σ : ι → K)
    (area Q psi chi : ι → Fin 4 → K) (inc : ι → Fin 4 → Fin 4 → K) (node : ι → Fin 4 → N)
    (partner : ι → Fin 4 → Option (ι × Fin 4)) (cross : ι → Fin 4 → Prop)
    (hclosed : ∀ c ∈ cells, ∑ f, area c f = 0)
    (hdg : ∀ c ∈ cells, Spec.DG (V c) (σ c) (area c) (inc c) (Q c) (psi c))
    (hinj : ∀ c ∈ cells, ∀ v w, node c v = node c w → v = w)
    (hpart : ∀ c ∈ cells, ∀ f c' f', partner c f = some (c', f') →
      c' ∈ cells ∧ partner c' f' = some (c, f) ∧ area c' f' = - area c f ∧ (cross c' f' ↔ cross c f) ∧
      ∀ v, v ≠ f → ∃ w, w ≠ f' ∧ node c' w = node c v)
    (hinc : ∀ c ∈ cells, ∀ f c' f', partner c f = some (c', f') → area c f < 0 →
      ∀ v w, v ≠ f → node c' w = node c v → inc c f v = if cross c f then chi c' w else psi c' w)
    (hbd : ∀ c ∈ cells, ∀ f, partner c f = none → (¬ cross c f) ∧ (area c f < 0 → ∀ v, v ≠ f → inc c f v = 0)) :
    2 * ∑ c ∈ cells, σ c * V c * cellM (psi c) (psi c) +
      ∑ c ∈ cells, ∑ f, (if 0 < area c f ∧ cross c f then area c f * faceM f (psi c) (psi c) else 0) ≤
    2 * ∑ c ∈ cells, V c * cellM (Q c) (psi c) +
      ∑ c ∈ cells, ∑ f, (if 0 < area c f ∧ cross c f then area c f * faceM f (chi c) (chi c) else 0) := by
  have hE : ∑ c ∈ cells, V c * cellM (Q c) (psi c) =
      ∑ c ∈ cells, σ c * V c * cellM (psi c) (psi c) +
        ∑ c ∈ cells, ∑ f, faceTerm (area c) (psi c) (inc c) f := by
    rw [← Finset.sum_add_distrib]
    exact Finset.sum_congr rfl fun c hc => (cell_energy (hclosed c hc) (hdg c hc)).symm
  rw [hE]
  let t : (ι → Fin 4 → K) → ι × Fin 4 → K := fun u p =>
    if 0 < area p.1 p.2 ∧ cross p.1 p.2 then area p.1 p.2 * faceM p.2 (u p.1) (u p.1) else 0
  let h : ι × Fin 4 → K := fun p =>
    match partner p.1 p.2 with
    | none => 0
    | some (c', f') =>
      if 0 < area p.1 p.2 then area p.1 p.2 / 2 * faceM p.2 (psi p.1) (psi p.1)
      else area p.1 p.2 / 2 * faceM f' (if cross p.1 p.2 then chi c' else psi c') (if cross p.1 p.2 then chi c' else psi c')
  let k : ι × Fin 4 → K := fun p => 2 * h p - (t psi p - t chi p)
  have hle : ∀ p ∈ cells ×ˢ (Finset.univ : Finset (Fin 4)),
      h p ≤ faceTerm (area p.1) (psi p.1) (inc p.1) p.2 := by
    rintro ⟨c, f⟩ hp
    have hc := (Finset.mem_product.1 hp).1
    simp only [h]
    rcases hq : partner c f with _ | ⟨c', f'⟩
    · rcases lt_trichotomy (area c f) 0 with hneg | h0 | hpos
      · have h1 := faceTerm_in (psi := psi c) (inc := inc c) hneg.le
        have h2 : faceM f (inc c f) (inc c f) = 0 := by
          have : ∀ i ∈ Finset.univ.erase f, inc c f i = 0 :=
            fun i hi => (hbd c hc f hq).2 hneg i (Finset.mem_erase.1 hi).1
          unfold faceM
          rw [Finset.sum_eq_zero fun i hi => by rw [this i hi, mul_zero], Finset.sum_eq_zero this]
          simp
        rw [h2, mul_zero] at h1
        exact h1
      · simp [faceTerm, h0]
      · show 0 ≤ faceTerm (area c) (psi c) (inc c) f
        rw [faceTerm_out hpos]
        exact mul_nonneg (by linarith) (faceM_nonneg _ _)
    · obtain ⟨h1, h2, h3, -, h4⟩ := hpart c hc f c' f' hq
      obtain ⟨-, -, -, -, h4'⟩ := hpart c' h1 f' c f h2
      show (if 0 < area c f then area c f / 2 * faceM f (psi c) (psi c)
        else area c f / 2 * faceM f' (if cross c f then chi c' else psi c') (if cross c f then chi c' else psi c')) ≤ _
      rcases lt_trichotomy (area c f) 0 with hneg | h0 | hpos
      · rw [if_neg (not_lt.2 hneg.le)]
        have := faceTerm_in (psi := psi c) (inc := inc c) hneg.le
        rwa [faceM_match (q := if cross c f then chi c' else psi c') (hinj c hc) (hinj c' h1) h4 h4' fun v w hv e => by
          rw [hinc c hc f c' f' hq hneg v w hv e]; split <;> rfl] at this
      · simp [faceTerm, h0]
      · rw [if_pos hpos, faceTerm_out hpos]
  have hsum : ∑ p ∈ cells ×ˢ (Finset.univ : Finset (Fin 4)), k p = 0 := by
    have hnone : ∀ c ∈ cells, ∀ f, partner c f = none → k (c, f) = 0 := by
      intro c hc f hq
      have := (hbd c hc f hq).1
      simp [k, h, t, hq, this]
    have hanti : ∀ c ∈ cells, ∀ f c' f', partner c f = some (c', f') → k (c, f) + k (c', f') = 0 := by
      intro c hc f c' f' hq
      obtain ⟨h1, h2, h3, h5, h4⟩ := hpart c hc f c' f' hq
      simp only [k, h, t]
      rw [hq, h2]
      show 2 * (if 0 < area c f then area c f / 2 * faceM f (psi c) (psi c)
        else area c f / 2 * faceM f' (if cross c f then chi c' else psi c') (if cross c f then chi c' else psi c')) -
        ((if 0 < area c f ∧ cross c f then area c f * faceM f (psi c) (psi c) else 0) -
          (if 0 < area c f ∧ cross c f then area c f * faceM f (chi c) (chi c) else 0)) +
        (2 * (if 0 < area c' f' then area c' f' / 2 * faceM f' (psi c') (psi c')
        else area c' f' / 2 * faceM f (if cross c' f' then chi c else psi c) (if cross c' f' then chi c else psi c)) -
        ((if 0 < area c' f' ∧ cross c' f' then area c' f' * faceM f' (psi c') (psi c') else 0) -
          (if 0 < area c' f' ∧ cross c' f' then area c' f' * faceM f' (chi c') (chi c') else 0))) = 0
      rw [h3, h5]
      rcases lt_trichotomy (area c f) 0 with hneg | h0 | hpos
      · have a1 : ¬ 0 < area c f := not_lt.2 hneg.le
        have a2 : 0 < -area c f := by linarith
        by_cases hx : cross c f <;> simp only [a1, a2, hx, false_and, true_and, if_false, if_true] <;> ring
      · simp [h0]
      · have a1 : ¬ 0 < -area c f := by linarith
        by_cases hx : cross c f <;> simp only [a1, hpos, hx, false_and, true_and, if_false, if_true] <;> ring
    refine Finset.sum_involution (fun p _ => match partner p.1 p.2 with
      | none => p
      | some q => q) ?_ ?_ ?_ ?_
    · rintro ⟨c, f⟩ hp
      have hc := (Finset.mem_product.1 hp).1
      rcases hq : partner c f with _ | ⟨c', f'⟩
      · simp [hnone c hc f hq]
      · simp only; exact hanti c hc f c' f' hq
    · rintro ⟨c, f⟩ hp hne he
      have hc := (Finset.mem_product.1 hp).1
      rcases hq : partner c f with _ | ⟨c', f'⟩
      · exact hne (hnone c hc f hq)
      · simp only [hq] at he
        have := hanti c hc f c' f' hq
        rw [he] at this
        apply hne
        linarith
    · rintro ⟨c, f⟩ hp
      have hc := (Finset.mem_product.1 hp).1
      rcases hq : partner c f with _ | ⟨c', f'⟩
      · simpa [hq] using hc
      · simpa [hq] using (hpart c hc f c' f' hq).1
    · rintro ⟨c, f⟩ hp
      have hc := (Finset.mem_product.1 hp).1
      rcases hq : partner c f with _ | ⟨c', f'⟩
      · simp [hq]
      · simp [(hpart c hc f c' f' hq).2.1]
  have e1 := Finset.sum_product' cells Finset.univ fun c f => faceTerm (area c) (psi c) (inc c) f
  have e2 := Finset.sum_product' cells Finset.univ fun c f => t psi (c, f)
  have e3 := Finset.sum_product' cells Finset.univ fun c f => t chi (c, f)
  have e4 := Finset.sum_le_sum hle
  simp only [k, Finset.sum_sub_distrib, ← Finset.mul_sum] at hsum
  rw [e1] at e4
  have e2' : ∑ p ∈ cells ×ˢ (Finset.univ : Finset (Fin 4)), t psi p = _ := e2
  have e3' : ∑ p ∈ cells ×ˢ (Finset.univ : Finset (Fin 4)), t chi p = _ := e3
  rw [e2', e3'] at hsum
  simp only [t] at hsum
  linarith

variable {R : SweepRun K} {X : Scat K} {mate : Loc → Option Loc} {node : Nat → Nat → Fin 4 → Nat}

/-- The energy inequality of a sweep with boundary values from the flux `chi`. -/
theorem lag_energy (H : R.Physical) (L : Linked R.cfg mate) (N : R.Nodes mate node)
    (M : Matched R mate node) {src chi psi : Nat → Psi K} (h : LagDG R mate node src chi psi) {a g : Nat}
    (ha : a < R.nAngles) (hg : g < R.nGroups) :
    2 * energyAt R a g psi + seamE R mate a g psi ≤
      2 * meshSum R (fun r c => (R.view r).cellVolume c * cellM (fun v => src r g v a c) (fun v => psi r g v a c)) +
      seamE R mate a g chi := by
  let cells : Finset (Σ _ : Nat, Nat) := (Finset.range R.nRanks).sigma fun r => Finset.range (R.nCells r)
  have hmem : ∀ p : (Σ _ : Nat, Nat), p ∈ cells ↔ p.1 < R.nRanks ∧ p.2 < R.nCells p.1 := by
    intro p; simp [cells]
  have hch : ∀ p : (Σ _ : Nat, Nat), ∃ inc : Fin 4 → Fin 4 → K, p ∈ cells →
      (∀ f v, v ≠ f → flow R a p.1 p.2 f < 0 →
        (∀ y, mate ⟨p.1, p.2, f⟩ = some y → ∃ w, node y.rank y.cell w = node p.1 p.2 v ∧
          inc f v = if y.rank = p.1 then psi y.rank g w a y.cell else chi y.rank g w a y.cell) ∧
        (mate ⟨p.1, p.2, f⟩ = none → inc f v = 0)) ∧
      Spec.DG ((R.view p.1).cellVolume p.2) (R.sigmaT p.1 p.2) (flow R a p.1 p.2) inc
        (fun v => src p.1 g v a p.2) (fun v => psi p.1 g v a p.2) := by
    intro p
    by_cases hp : p ∈ cells
    · have := (hmem p).1 hp
      obtain ⟨inc, h1⟩ := h p.1 p.2 a g this.1 this.2 ha hg
      exact ⟨inc, fun _ => h1⟩
    · exact ⟨fun _ _ => 0, fun hp' => absurd hp' hp⟩
  choose inc hinc using hch
  let partner : (Σ _ : Nat, Nat) → Fin 4 → Option ((Σ _ : Nat, Nat) × Fin 4) := fun p f =>
    (mate ⟨p.1, p.2, f⟩).map fun y => (⟨y.rank, y.cell⟩, y.face)
  have hps : ∀ p f q f', partner p f = some (q, f') → mate ⟨p.1, p.2, f⟩ = some ⟨q.1, q.2, f'⟩ := by
    intro p f q f' hq
    simp only [partner, Option.map_eq_some_iff] at hq
    obtain ⟨y, hy, e⟩ := hq
    simp only [Prod.mk.injEq] at e
    obtain ⟨rfl, rfl⟩ := e
    exact hy
  have key := mesh_lag cells (fun p => (R.view p.1).cellVolume p.2) (fun p => R.sigmaT p.1 p.2)
    (fun p f => flow R a p.1 p.2 f)
    (fun p v => src p.1 g v a p.2) (fun p v => psi p.1 g v a p.2) (fun p v => chi p.1 g v a p.2) inc
    (fun p => node p.1 p.2) partner (fun p f => ∃ y, mate ⟨p.1, p.2, f⟩ = some y ∧ y.rank ≠ p.1)
    (fun p hp => H.closed p.1 p.2 a ((hmem p).1 hp).1 ((hmem p).1 hp).2 ha)
    (fun p hp => (hinc p hp).2)
    (fun p hp v w e => N.inj p.1 p.2 v w ((hmem p).1 hp).1 ((hmem p).1 hp).2 e)
    (by
      intro p hp f q f' hq
      have hm := hps p f q f' hq
      have hin : R.cfg.In ⟨p.1, p.2, f⟩ := (hmem p).1 hp
      have hqin := L.mate_in _ _ hin hm
      have hs := L.mate_symm _ _ hin hm
      refine ⟨(hmem q).2 hqin, ?_, M.area _ _ a hin hm ha, ?_, fun v hv => M.face _ _ v hin hm hv⟩
      · simp only [partner, hs, Option.map_some]
      · rw [hm, hs]
        simp only [Option.some.injEq, exists_eq_left']
        exact ne_comm)
    (by
      intro p hp f q f' hq hneg v w hv e
      have hm := hps p f q f' hq
      have hin : R.cfg.In ⟨p.1, p.2, f⟩ := (hmem p).1 hp
      have hqin := L.mate_in _ _ hin hm
      obtain ⟨w', hw', e'⟩ := ((hinc p hp).1 f v hv hneg).1 _ hm
      have : w' = w := N.inj q.1 q.2 w' w hqin.1 hqin.2 (hw'.trans e.symm)
      subst this
      rw [e', hm]
      simp only [Option.some.injEq, exists_eq_left']
      by_cases hk : q.1 = p.1 <;> simp [hk])
    (by
      intro p hp f hq
      have hn : mate ⟨p.1, p.2, f⟩ = none := by simpa [partner] using hq
      refine ⟨?_, fun hneg v hv => ((hinc p hp).1 f v hv hneg).2 hn⟩
      rw [hn]
      simp)
  simpa only [energyAt, seamE, meshSum, cells, Finset.sum_sigma] using key

/-- A local sweep with boundary values taken from `chi`. -/
theorem lag_of_local (H : R.Physical) {src chi psi : Nat → Psi K} {bound : Nat → Bound K}
    (h : LocalDG R mate node src bound psi) (hc : Consistent R mate node chi bound) : LagDG R mate node src chi psi := by
  intro r c a g hr hcc ha hg
  obtain ⟨inc, h1, h2⟩ := h r c a g hr hcc ha hg
  refine ⟨inc, fun f v hv hneg => ?_, h2⟩
  obtain ⟨k1, k2, k3⟩ := h1 f v hv hneg
  refine ⟨fun y hy => ?_, k3⟩
  by_cases hyr : y.rank = r
  · obtain ⟨w, hw, e⟩ := k1 y hy hyr
    exact ⟨w, by rw [hyr]; exact hw, by rw [if_pos hyr, hyr]; exact e⟩
  · obtain ⟨w, hw, e⟩ := hc ⟨r, c, f⟩ y a g v ⟨hr, hcc⟩ hy hyr ha (incoming_of_neg H hr hcc hneg) hg hv
    exact ⟨w, hw, by rw [if_neg hyr, k2 y hy hyr, e]⟩

theorem lag_of_full {src psi : Nat → Psi K} (h : FullDG R mate node src psi) : LagDG R mate node src psi psi := by
  intro r c a g hr hcc ha hg
  obtain ⟨inc, h1, h2⟩ := h r c a g hr hcc ha hg
  refine ⟨inc, fun f v hv hneg => ⟨fun y hy => ?_, (h1 f v hv hneg).2⟩, h2⟩
  obtain ⟨w, hw, e⟩ := (h1 f v hv hneg).1 y hy
  exact ⟨w, hw, by rw [ite_self]; exact e⟩

theorem lag_sub (L : Linked R.cfg mate) (N : R.Nodes mate node) {s s' x x' p p' : Nat → Psi K}
    (h : LagDG R mate node s x p) (h' : LagDG R mate node s' x' p') :
    LagDG R mate node (lin (-1) s s') (lin (-1) x x') (lin (-1) p p') := by
  intro r c a g hr hcc ha hg
  obtain ⟨inc, h1, h2⟩ := h r c a g hr hcc ha hg
  obtain ⟨inc', h1', h2'⟩ := h' r c a g hr hcc ha hg
  refine ⟨_, fun f v hv hneg => ⟨fun y hy => ?_, fun hn => ?_⟩, dg_lin (-1) h2 h2'⟩
  · obtain ⟨w, hw, e⟩ := (h1 f v hv hneg).1 y hy
    obtain ⟨w', hw', e'⟩ := (h1' f v hv hneg).1 y hy
    have hyin := L.mate_in ⟨r, c, f⟩ y ⟨hr, hcc⟩ hy
    have : w' = w := N.inj y.rank y.cell w' w hyin.1 hyin.2 (hw'.trans hw.symm)
    subst this
    refine ⟨w', hw, ?_⟩
    show inc f v + -1 * inc' f v = _
    rw [e, e']
    split <;> rfl
  · show inc f v + -1 * inc' f v = 0
    rw [(h1 f v hv hneg).2 hn, (h1' f v hv hneg).2 hn]; ring

/-- The difference of a lagged sweep with old scattering and the solution. -/
theorem lag_diff (L : Linked R.cfg mate) (N : R.Nodes mate node) {src chi psi star : Nat → Psi K} {phi : Nat → Phi K}
    (h : LagDG R mate node (scat X src phi) chi psi) (hs : Scatters R X (FullDG R mate node) src star) :
    LagDG R mate node (scat X (fun _ _ _ _ _ => 0) (subPhi phi (scal R X star))) (lin (-1) chi star) (lin (-1) psi star) := by
  have := lag_sub L N h (lag_of_full hs)
  have e : lin (-1) (scat X src phi) (scat X src (scal R X star)) =
      scat X (fun _ _ _ _ _ => 0) (subPhi phi (scal R X star)) := by
    funext r g v a c
    simp only [lin, scat, subPhi]; ring
  rwa [e] at this

theorem seamE_nonneg (a g : Nat) (psi : Nat → Psi K) : 0 ≤ seamE R mate a g psi := by
  refine meshSum_nonneg fun r _ c _ => Finset.sum_nonneg fun f _ => ?_
  split
  · rename_i h
    exact mul_nonneg h.1.le (faceM_nonneg _ _)
  · exact le_rfl

theorem faceM_le (f : Fin 4) (p : Fin 4 → K) : 3 * faceM f p p ≤ 20 * cellM p p := by
  have h := mul_self_nonneg (∑ i, p i)
  have q := fun i => mul_self_nonneg (p i)
  have d := fun i j => mul_self_nonneg (p i - p j)
  simp only [Fin.sum_univ_four] at h
  have := q 0; have := q 1; have := q 2; have := q 3
  have := d 0 1; have := d 0 2; have := d 0 3; have := d 1 2; have := d 1 3; have := d 2 3
  fin_cases f <;> simp only [faceM, cellM, Fin.zero_eta, Fin.mk_one, Fin.reduceFinMk, sum_e0, sum_e1, sum_e2, sum_e3,
    Fin.sum_univ_four] <;> linarith

/-- What flows over the partition faces is bounded by the energy in the cells, on any partition. -/
theorem seamE_le (H : R.Physical) {α : K} (T : Thick R α) {a : Nat} (ha : a < R.nAngles) (g : Nat) (psi : Nat → Psi K) :
    3 * seamE R mate a g psi ≤ 20 * α * energyAt R a g psi := by
  unfold seamE energyAt
  rw [← meshSum_mul, ← meshSum_mul]
  refine meshSum_le fun r hr c hc => ?_
  set p : Fin 4 → K := fun v => psi r g v a c
  have h0 := cellM_nonneg p
  have hT := T r c a hr hc ha
  have hcl : ∑ f, flow R a r c f = 0 := H.closed r c a hr hc ha
  have hT' : ∑ f, max 0 (flow R a r c f) ≤ α * (R.sigmaT r c * (R.view r).cellVolume c) := by
    have e : ∑ f, max 0 (flow R a r c f) = ∑ f, max 0 (-flow R a r c f) := by
      have : ∑ f, (max 0 (flow R a r c f) - max 0 (-flow R a r c f)) = ∑ f, flow R a r c f :=
        Finset.sum_congr rfl fun f _ => by
          rcases le_total 0 (flow R a r c f) with h | h
          · rw [max_eq_right h, max_eq_left (by linarith)]; ring
          · rw [max_eq_left h, max_eq_right (by linarith)]; ring
      rw [hcl, Finset.sum_sub_distrib] at this
      linarith
    rw [e]
    exact hT
  have h1 : 3 * ∑ f, (if 0 < flow R a r c f ∧ ∃ y, mate ⟨r, c, f⟩ = some y ∧ y.rank ≠ r then
      flow R a r c f * faceM f p p else 0) ≤ ∑ f, max 0 (flow R a r c f) * (20 * cellM p p) := by
    rw [Finset.mul_sum]
    refine Finset.sum_le_sum fun f _ => ?_
    have h2 := faceM_le f p
    split
    · rename_i h
      rw [max_eq_right h.1.le]
      have := mul_le_mul_of_nonneg_left h2 h.1.le
      linarith
    · rw [mul_zero]
      exact mul_nonneg (le_max_left _ _) (by linarith)
  rw [← Finset.sum_mul] at h1
  have h3 := mul_le_mul_of_nonneg_right hT' (by linarith : 0 ≤ 20 * cellM p p)
  linarith

/-! ### One step -/

/-- Sum over the directions, by weight. -/
def angleSum (R : SweepRun K) (X : Scat K) (f : Nat → K) : K := ∑ a ∈ Finset.range R.nAngles, X.wt a * f a

theorem angleSum_nonneg {κ : K} (hκ : Ratio R X κ) {f : Nat → K} (hf : ∀ a < R.nAngles, 0 ≤ f a) : 0 ≤ angleSum R X f :=
  Finset.sum_nonneg fun a ha => mul_nonneg (hκ.weights a (Finset.mem_range.1 ha)) (hf a (Finset.mem_range.1 ha))

theorem energyAt_nonneg (H : R.Physical) (a g : Nat) (psi : Nat → Psi K) : 0 ≤ energyAt R a g psi :=
  meshSum_nonneg fun r hr c hc =>
    mul_nonneg (mul_nonneg (H.sigma r c hr hc) (H.volume r c hr hc).le) (cellM_nonneg _)

/-- Cauchy–Schwarz over the directions. -/
theorem energy_angles (H : R.Physical) {κ : K} (hκ : Ratio R X κ) (g : Nat) (e : Nat → Psi K) :
    energy R g (scal R X e) ≤ (∑ a ∈ Finset.range R.nAngles, X.wt a) * angleSum R X fun a => energyAt R a g e := by
  unfold angleSum energyAt
  simp only [← meshSum_mul]
  rw [← meshSum_sum, ← meshSum_mul]
  refine meshSum_le fun r hr c hc => ?_
  have := cellM_angles R.nAngles X.wt hκ.weights fun a v => e r g v a c
  refine (mul_le_mul_of_nonneg_left this (mul_nonneg (H.sigma r c hr hc) (H.volume r c hr hc).le)).trans (le_of_eq ?_)
  simp only [Finset.mul_sum]
  exact Finset.sum_congr rfl fun _ _ => by ring

/-- The energy inequality summed over the directions, with the scattering of `phi` as only source. -/
theorem lag_step (H : R.Physical) (L : Linked R.cfg mate) (N : R.Nodes mate node) (M : Matched R mate node) {κ : K}
    (hκ : Ratio R X κ) {phi : Nat → Phi K} {chi e : Nat → Psi K}
    (h : LagDG R mate node (scat X (fun _ _ _ _ _ => 0) phi) chi e) {g : Nat} (hg : g < R.nGroups) :
    2 * ((∑ a ∈ Finset.range R.nAngles, X.wt a) * angleSum R X fun a => energyAt R a g e) +
      (∑ a ∈ Finset.range R.nAngles, X.wt a) * angleSum R X (fun a => seamE R mate a g e) ≤
    κ * (energy R g phi + energy R g (scal R X e)) +
      (∑ a ∈ Finset.range R.nAngles, X.wt a) * angleSum R X (fun a => seamE R mate a g chi) := by
  set W := ∑ a ∈ Finset.range R.nAngles, X.wt a with hW
  have h1 : angleSum R X (fun a => 2 * energyAt R a g e + seamE R mate a g e) ≤ angleSum R X fun a =>
      2 * meshSum R (fun r c => (R.view r).cellVolume c * cellM (fun v => scat X (fun _ _ _ _ _ => 0) phi r g v a c)
        (fun v => e r g v a c)) + seamE R mate a g chi :=
    Finset.sum_le_sum fun a ha => mul_le_mul_of_nonneg_left (lag_energy H L N M h (Finset.mem_range.1 ha) hg)
      (hκ.weights a (Finset.mem_range.1 ha))
  have h2 : angleSum R X (fun a => meshSum R (fun r c => (R.view r).cellVolume c *
      cellM (fun v => scat X (fun _ _ _ _ _ => 0) phi r g v a c) (fun v => e r g v a c))) =
      meshSum R (fun r c => (R.view r).cellVolume c * (X.sigmaS r c / (4 * X.mPi)) *
        cellM (fun v => phi r g v c) (fun v => scal R X e r g v c)) := by
    unfold angleSum
    simp only [← meshSum_mul]
    rw [← meshSum_sum]
    refine meshSum_congr fun r _ c _ => ?_
    simp only [cellM, scat, scal, Fin.sum_univ_four, zero_add]
    simp only [Finset.mul_sum, Finset.sum_div, ← Finset.sum_add_distrib]
    exact Finset.sum_congr rfl fun _ _ => by ring
  have h5 : 2 * meshSum R (fun r c => W * ((R.view r).cellVolume c * (X.sigmaS r c / (4 * X.mPi)) *
      cellM (fun v => phi r g v c) (fun v => scal R X e r g v c))) ≤
      κ * (energy R g phi + energy R g (scal R X e)) := by
    unfold energy
    rw [← meshSum_mul, ← meshSum_add, ← meshSum_mul]
    refine meshSum_le fun r hr c hc => ?_
    set p : Fin 4 → K := fun v => phi r g v c
    set q : Fin 4 → K := fun v => scal R X e r g v c
    have hV := (H.volume r c hr hc).le
    have hσ := H.sigma r c hr hc
    have ht0 := mul_nonneg hκ.total.le (hκ.scatter r c hr hc)
    have ht := hκ.ratio r c hr hc
    rw [← hW] at ht0 ht
    set t := W * (X.sigmaS r c / (4 * X.mPi))
    have hp := cellM_nonneg p
    have hq := cellM_nonneg q
    have hm : 2 * cellM p q ≤ cellM p p + cellM q q := by
      have := cellM_nonneg fun i => q i + (-1) * p i
      rw [cellM_add, cellM_comm q, cellM_comm p, cellM_add, cellM_add] at this
      rw [cellM_comm p q]
      rw [cellM_comm p q] at this
      linarith
    have goal : 2 * t * cellM p q ≤ κ * R.sigmaT r c * (cellM p p + cellM q q) := by
      have a1 := mul_le_mul_of_nonneg_left hm ht0
      have a2 := mul_le_mul_of_nonneg_right ht (add_nonneg hp hq)
      linarith
    have := mul_le_mul_of_nonneg_left goal hV
    refine le_trans (le_of_eq ?_) (this.trans (le_of_eq ?_))
    · simp only [t]; ring
    · ring
  rw [meshSum_mul, ← h2] at h5
  have e1 : ∀ f f' : Nat → K, angleSum R X (fun a => 2 * f a + f' a) = 2 * angleSum R X f + angleSum R X f' := by
    intro f f'
    simp only [angleSum, mul_add, Finset.sum_add_distrib, Finset.mul_sum]
    congr 1
    exact Finset.sum_congr rfl fun _ _ => by ring
  rw [e1, e1] at h1
  have h6 := mul_le_mul_of_nonneg_left h1 hκ.total.le
  rw [← hW] at h6
  linarith

/-! ### What the iterations shrink -/

/-- For `SweeperPBJSI`, from the error of the scalar flux and of the flux the boundary values come from. -/
noncomputable def jacobiE (R : SweepRun K) (X : Scat K) (mate : Loc → Option Loc) (phi : Nat → Phi K) (chi : Nat → Psi K) : K :=
  ∑ g ∈ Finset.range R.nGroups, ((∑ a ∈ Finset.range R.nAngles, X.wt a) * angleSum R X (fun a => seamE R mate a g chi) +
    energy R g phi)

/-- Sum of the energies of all groups. -/
def energySum (R : SweepRun K) (phi : Nat → Phi K) : K := ∑ g ∈ Finset.range R.nGroups, energy R g phi

/-- Sum of the energies of all groups and directions. -/
def fluxE (R : SweepRun K) (X : Scat K) (psi : Nat → Psi K) : K :=
  ∑ g ∈ Finset.range R.nGroups, angleSum R X fun a => energyAt R a g psi

/-- For `SweeperPBJOuter`. -/
noncomputable def outerE (R : SweepRun K) (X : Scat K) (mate : Loc → Option Loc) (κ : K) (chi : Nat → Psi K) : K :=
  ∑ g ∈ Finset.range R.nGroups, (angleSum R X (fun a => seamE R mate a g chi) +
    (1 - κ) * angleSum R X (fun a => energyAt R a g chi))

theorem energySum_nonneg (H : R.Physical) (phi : Nat → Phi K) : 0 ≤ energySum R phi :=
  Finset.sum_nonneg fun g _ => energy_nonneg H g phi

theorem fluxE_nonneg (H : R.Physical) {κ : K} (hκ : Ratio R X κ) (psi : Nat → Psi K) : 0 ≤ fluxE R X psi :=
  Finset.sum_nonneg fun g _ => angleSum_nonneg hκ fun a _ => energyAt_nonneg H a g psi

theorem jacobiE_nonneg (H : R.Physical) {κ : K} (hκ : Ratio R X κ) (phi : Nat → Phi K) (chi : Nat → Psi K) :
    0 ≤ jacobiE R X mate phi chi :=
  Finset.sum_nonneg fun g _ => add_nonneg (mul_nonneg hκ.total.le (angleSum_nonneg hκ fun a _ => seamE_nonneg a g chi))
    (energy_nonneg H g phi)

theorem outerE_nonneg (H : R.Physical) {κ : K} (hκ : Ratio R X κ) (h1 : κ < 1) (chi : Nat → Psi K) :
    0 ≤ outerE R X mate κ chi :=
  Finset.sum_nonneg fun g _ => add_nonneg (angleSum_nonneg hκ fun a _ => seamE_nonneg a g chi)
    (mul_nonneg (by linarith) (angleSum_nonneg hκ fun a _ => energyAt_nonneg H a g chi))

/-- C82: an iteration of `SweeperPBJSI`. -/
theorem jacobi_step (H : R.Physical) (L : Linked R.cfg mate) (N : R.Nodes mate node) (M : Matched R mate node) {κ : K}
    (hκ : Ratio R X κ) {phi : Nat → Phi K} {chi e : Nat → Psi K}
    (h : LagDG R mate node (scat X (fun _ _ _ _ _ => 0) phi) chi e) :
    jacobiE R X mate (scal R X e) e + (1 - κ) * (energySum R phi + energySum R (scal R X e)) ≤ jacobiE R X mate phi chi := by
  unfold jacobiE energySum
  rw [← Finset.sum_add_distrib, Finset.mul_sum, ← Finset.sum_add_distrib]
  refine Finset.sum_le_sum fun g hg => ?_
  have h1 := lag_step H L N M hκ h (Finset.mem_range.1 hg)
  have h2 := energy_angles H hκ g e
  linarith

/-- C82: an iteration of `SweeperPBJOuter`. -/
theorem outer_step (H : R.Physical) (L : Linked R.cfg mate) (N : R.Nodes mate node) (M : Matched R mate node) {κ : K}
    (hκ : Ratio R X κ) {chi e : Nat → Psi K}
    (h : LagDG R mate node (scat X (fun _ _ _ _ _ => 0) (scal R X e)) chi e) :
    outerE R X mate κ e + (1 - κ) * (fluxE R X chi + fluxE R X e) ≤ outerE R X mate κ chi := by
  unfold outerE fluxE
  rw [← Finset.sum_add_distrib, Finset.mul_sum, ← Finset.sum_add_distrib]
  refine Finset.sum_le_sum fun g hg => ?_
  have h1 := lag_step H L N M hκ h (Finset.mem_range.1 hg)
  have h2 := mul_le_mul_of_nonneg_left (energy_angles H hκ g e) hκ.nonneg
  have h3 : (∑ a ∈ Finset.range R.nAngles, X.wt a) * (2 * angleSum R X (fun a => energyAt R a g e) +
      angleSum R X fun a => seamE R mate a g e) ≤ (∑ a ∈ Finset.range R.nAngles, X.wt a) *
      (2 * κ * angleSum R X (fun a => energyAt R a g e) + angleSum R X fun a => seamE R mate a g chi) := by
    linarith
  have h4 := le_of_mul_le_mul_left h3 hκ.total
  linarith

/-! ### Failed tests -/

/-- Cauchy–Schwarz for a sum. -/
theorem cauchy_of {ι : Type} (Φ : (ι → K) → K) (hadd : ∀ f f', Φ (fun i => f i + f' i) = Φ f + Φ f')
    (hmul : ∀ k f, Φ (fun i => k * f i) = k * Φ f) (hnn : ∀ f, (∀ i, 0 ≤ f i) → 0 ≤ Φ f) (f : ι → K) :
    Φ (fun i => |f i|) ^ 2 ≤ Φ (fun _ => 1) * Φ fun i => f i ^ 2 := by
  have h : ∀ x : K, 0 ≤ Φ (fun _ => 1) * (x * x) + (-2 * Φ fun i => |f i|) * x + Φ fun i => f i ^ 2 := by
    intro x
    have h1 := hnn (fun i => (x - |f i|) ^ 2) fun i => sq_nonneg _
    have e : (fun i => (x - |f i|) ^ 2) = fun i => x * x * 1 + (-2 * x * |f i| + f i ^ 2) := by
      funext i
      have := abs_mul_abs_self (f i)
      linear_combination this
    rw [e, hadd, hadd, hmul, hmul] at h1
    linarith
  have := discrim_le_zero h
  unfold discrim at this
  linarith

theorem phiSum_add (f f' : Nat → Nat → Fin 4 → Nat → K) :
    phiSum R (fun r g v c => f r g v c + f' r g v c) = phiSum R f + phiSum R f' := by
  simp only [phiSum, Finset.sum_add_distrib]

theorem phiSum_mul (k : K) (f : Nat → Nat → Fin 4 → Nat → K) :
    phiSum R (fun r g v c => k * f r g v c) = k * phiSum R f := by
  simp only [phiSum, Finset.mul_sum]

theorem gsum_mul (k : K) (f : Nat → Nat → Fin 4 → Nat → Nat → K) :
    gsum R (fun r g v a c => k * f r g v a c) = k * gsum R f := by
  simp only [gsum, Finset.mul_sum]

theorem norm1_square (p : Nat → Phi K) : norm1 R p ^ 2 ≤ (phiSum R fun _ _ _ _ => 1) * square2 R p :=
  cauchy_of (ι := Nat × Nat × Fin 4 × Nat) (fun f => phiSum R fun r g v c => f (r, g, v, c))
    (fun _ _ => phiSum_add _ _) (fun _ _ => phiSum_mul _ _) (fun _ hf => phiSum_nonneg fun _ _ _ _ => hf _)
    fun i => p i.1 i.2.1 i.2.2.1 i.2.2.2

theorem fluxNorm_square (p : Nat → Psi K) : fluxNorm R p ^ 2 ≤ (gsum R fun _ _ _ _ _ => 1) * gsum R fun r g v a c => p r g v a c ^ 2 :=
  cauchy_of (ι := Nat × Nat × Fin 4 × Nat × Nat) (fun f => gsum R fun r g v a c => f (r, g, v, a, c))
    (fun _ _ => gsum_add _ _) (fun _ _ => gsum_mul _ _) (fun _ hf => gsum_nonneg fun _ _ _ _ _ => hf _)
    fun i => p i.1 i.2.1 i.2.2.1 i.2.2.2.1 i.2.2.2.2

theorem cellM_squares (p : Fin 4 → K) : ∑ v, p v ^ 2 ≤ 20 * cellM p p := by
  have h : 20 * cellM p p = ∑ i, p i * p i + (∑ i, p i) * ∑ i, p i := by unfold cellM; field_simp
  rw [h]
  have := mul_self_nonneg (∑ i, p i)
  have e : ∑ v, p v ^ 2 = ∑ i, p i * p i := Finset.sum_congr rfl fun _ _ => sq _
  linarith

theorem square2_low {b B : K} (H : R.Physical) (Wd : Weighted R b B) (p : Nat → Phi K) :
    b * square2 R p ≤ 20 * energySum R p := by
  have e : square2 R p = ∑ g ∈ Finset.range R.nGroups, meshSum R fun r c => ∑ v, p r g v c ^ 2 := by
    unfold square2 phiSum
    rw [← meshSum_sum]
    exact meshSum_congr fun r _ c _ => Finset.sum_comm
  rw [e, energySum, Finset.mul_sum, Finset.mul_sum]
  refine Finset.sum_le_sum fun g _ => ?_
  rw [← meshSum_mul, energy, ← meshSum_mul]
  refine meshSum_le fun r hr c hc => ?_
  have h1 := cellM_squares fun v => p r g v c
  have h2 := mul_le_mul_of_nonneg_right (Wd.low r c hr hc) (Finset.sum_nonneg fun v (_ : v ∈ Finset.univ) => sq_nonneg (p r g v c))
  have h3 := mul_le_mul_of_nonneg_left h1 (mul_nonneg (H.sigma r c hr hc) (H.volume r c hr hc).le)
  linarith

theorem flux2_low {b B w : K} (H : R.Physical) (Wd : Weighted R b B) (hw0 : 0 ≤ w) (hw : ∀ a < R.nAngles, w ≤ X.wt a)
    (p : Nat → Psi K) : b * w * gsum R (fun r g v a c => p r g v a c ^ 2) ≤ 20 * fluxE R X p := by
  have e : gsum R (fun r g v a c => p r g v a c ^ 2) = ∑ g ∈ Finset.range R.nGroups, ∑ a ∈ Finset.range R.nAngles,
      meshSum R fun r c => ∑ v, p r g v a c ^ 2 := by
    simp only [← meshSum_sum]
    unfold gsum
    refine meshSum_congr fun r _ c _ => ?_
    rw [Finset.sum_comm' (s := Finset.range R.nGroups) (t' := Finset.range R.nAngles) (s' := fun _ => Finset.range R.nGroups)
      (t := fun _ => Finset.range R.nAngles) fun x y => Iff.rfl]
    exact Finset.sum_congr rfl fun a _ => Finset.sum_comm
  rw [e, fluxE, Finset.mul_sum, Finset.mul_sum]
  refine Finset.sum_le_sum fun g _ => ?_
  rw [angleSum, Finset.mul_sum, Finset.mul_sum]
  refine Finset.sum_le_sum fun a ha => ?_
  have h0 : 0 ≤ meshSum R fun r c => ∑ v, p r g v a c ^ 2 :=
    meshSum_nonneg fun r _ c _ => Finset.sum_nonneg fun v _ => sq_nonneg _
  have h1 : b * meshSum R (fun r c => ∑ v, p r g v a c ^ 2) ≤ 20 * energyAt R a g p := by
    rw [← meshSum_mul, energyAt, ← meshSum_mul]
    refine meshSum_le fun r hr c hc => ?_
    have h1 := cellM_squares fun v => p r g v a c
    have h2 := mul_le_mul_of_nonneg_right (Wd.low r c hr hc)
      (Finset.sum_nonneg fun v (_ : v ∈ Finset.univ) => sq_nonneg (p r g v a c))
    have h3 := mul_le_mul_of_nonneg_left h1 (mul_nonneg (H.sigma r c hr hc) (H.volume r c hr hc).le)
    linarith
  have h2 := mul_le_mul_of_nonneg_left h1 hw0
  have h3 := mul_le_mul_of_nonneg_right (hw a (Finset.mem_range.1 ha)) (mul_nonneg (by norm_num : (0 : K) ≤ 20) (energyAt_nonneg H a g p))
  linarith

theorem two_squares {x y u v n : K} (h1 : x ^ 2 ≤ n * u) (h2 : y ^ 2 ≤ n * v) : (x + y) ^ 2 ≤ 2 * n * (u + v) := by
  nlinarith [sq_nonneg (x - y)]

/-- A failed test of `SweeperPBJSI` says that one of the two scalar fluxes is away from the solution. -/
theorem failed_phi {b B : K} (H : R.Physical) (Wd : Weighted R b B) (hb : 0 < b) {tol : K} (ht : 0 < tol) {new old star : Nat → Phi K}
    (h : ¬ ConvergedPhi R tol new old) :
    b * (tol * norm1 R star) ^ 2 ≤ 40 * (phiSum R fun _ _ _ _ => 1) * (1 + tol) ^ 2 *
      (energySum R (subPhi old star) + energySum R (subPhi new star)) := by
  set N := phiSum R fun _ _ _ _ => (1 : K)
  have hN : 0 ≤ N := phiSum_nonneg fun _ _ _ _ => zero_le_one
  have h1 : tol * norm1 R new ≤ norm1 R (subPhi new old) := by
    by_contra hlt
    push Not at hlt
    have hn : 0 < norm1 R new := by
      rcases (norm1_nonneg new).eq_or_lt with e | hp
      · rw [← e, mul_zero] at hlt
        exact absurd (norm1_nonneg (subPhi new old)) (not_le.2 hlt)
      · exact hp
    refine h ⟨norm1 R (subPhi new old) / norm1 R new, ?_, by rwa [div_lt_iff₀ hn]⟩
    unfold relErr
    exact if_pos hn.ne'
  have h2 := norm1_sub (R := R) new old star
  have h3 := norm1_tri (R := R) star new
  rw [norm1_symm] at h3
  set d := norm1 R (subPhi old star)
  set d' := norm1 R (subPhi new star)
  have hd : 0 ≤ d := norm1_nonneg _
  have hd' : 0 ≤ d' := norm1_nonneg _
  have hs : 0 ≤ norm1 R star := norm1_nonneg _
  have h4 : tol * norm1 R star ≤ (1 + tol) * (d + d') := by
    have := mul_le_mul_of_nonneg_left h3 ht.le
    nlinarith [mul_nonneg ht.le hd]
  have h5 : (tol * norm1 R star) ^ 2 ≤ ((1 + tol) * (d + d')) ^ 2 := pow_le_pow_left₀ (mul_nonneg ht.le hs) h4 2
  have h6 := two_squares (norm1_square (R := R) (subPhi old star)) (norm1_square (R := R) (subPhi new star))
  have h7 := square2_low H Wd (subPhi old star)
  have h8 := square2_low H Wd (subPhi new star)
  calc b * (tol * norm1 R star) ^ 2 ≤ b * ((1 + tol) ^ 2 * (2 * N * (square2 R (subPhi old star) + square2 R (subPhi new star)))) := by
        refine mul_le_mul_of_nonneg_left (h5.trans ?_) hb.le
        rw [mul_pow]
        exact mul_le_mul_of_nonneg_left h6 (sq_nonneg _)
    _ = 2 * N * (1 + tol) ^ 2 * (b * square2 R (subPhi old star) + b * square2 R (subPhi new star)) := by ring
    _ ≤ 2 * N * (1 + tol) ^ 2 * (20 * energySum R (subPhi old star) + 20 * energySum R (subPhi new star)) :=
        mul_le_mul_of_nonneg_left (add_le_add h7 h8) (by positivity)
    _ = _ := by ring

/-- The same for the test of `SweeperPBJOuter`, on the flux. -/
theorem failed_flux {b B w : K} (H : R.Physical) (Wd : Weighted R b B) (hb : 0 < b) (hw0 : 0 < w)
    (hw : ∀ a < R.nAngles, w ≤ X.wt a) {tol : K} (ht : 0 < tol) {new old star : Nat → Psi K} (h : ¬ Converged R tol old new) :
    b * w * (tol * fluxNorm R star) ^ 2 ≤ 40 * (gsum R fun _ _ _ _ _ => 1) * (1 + tol) ^ 2 *
      (fluxE R X (lin (-1) old star) + fluxE R X (lin (-1) new star)) := by
  set N := gsum R fun _ _ _ _ _ => (1 : K)
  have hN : 0 ≤ N := gsum_nonneg fun _ _ _ _ _ => zero_le_one
  have h1 : tol * fluxNorm R new ≤ fluxDist R old new := by
    by_contra hlt
    push Not at hlt
    have hn : 0 < fluxNorm R new := by
      rcases (fluxNorm_nonneg (R := R) new).eq_or_lt with e | hp
      · rw [← e, mul_zero] at hlt
        exact absurd (fluxDist_nonneg (R := R) old new) (not_le.2 hlt)
      · exact hp
    exact h ⟨hn.ne', (div_lt_iff₀ hn).2 hlt⟩
  set d := fluxNorm R (lin (-1) old star) with hd0
  set d' := fluxNorm R (lin (-1) new star) with hd0'
  have hd : 0 ≤ d := fluxNorm_nonneg _
  have hd' : 0 ≤ d' := fluxNorm_nonneg _
  have hs : 0 ≤ fluxNorm R star := fluxNorm_nonneg _
  have h2 : fluxDist R old new ≤ d + d' := by
    rw [hd0, hd0', fluxNorm, fluxNorm, ← gsum_add]
    refine gsum_le fun r g v a c => ?_
    have : old r g v a c - new r g v a c = lin (-1) old star r g v a c - lin (-1) new star r g v a c := by
      simp only [lin]; ring
    rw [this]
    exact abs_sub _ _
  have h3 : fluxNorm R star ≤ fluxNorm R new + d' := by
    rw [hd0', fluxNorm, fluxNorm, fluxNorm, ← gsum_add]
    refine gsum_le fun r g v a c => ?_
    have : star r g v a c = new r g v a c - lin (-1) new star r g v a c := by
      simp only [lin]; ring
    rw [this]
    exact abs_sub _ _
  have h4 : tol * fluxNorm R star ≤ (1 + tol) * (d + d') := by
    have := mul_le_mul_of_nonneg_left h3 ht.le
    nlinarith [mul_nonneg ht.le hd]
  have h5 : (tol * fluxNorm R star) ^ 2 ≤ ((1 + tol) * (d + d')) ^ 2 := pow_le_pow_left₀ (mul_nonneg ht.le hs) h4 2
  have h6 := two_squares (fluxNorm_square (R := R) (lin (-1) old star)) (fluxNorm_square (R := R) (lin (-1) new star))
  have h7 := flux2_low (X := X) H Wd hw0.le hw (lin (-1) old star)
  have h8 := flux2_low (X := X) H Wd hw0.le hw (lin (-1) new star)
  set u := gsum R fun r g v a c => lin (-1) old star r g v a c ^ 2
  set u' := gsum R fun r g v a c => lin (-1) new star r g v a c ^ 2
  calc b * w * (tol * fluxNorm R star) ^ 2 ≤ b * w * ((1 + tol) ^ 2 * (2 * N * (u + u'))) := by
        refine mul_le_mul_of_nonneg_left (h5.trans ?_) (mul_nonneg hb.le hw0.le)
        rw [mul_pow]
        exact mul_le_mul_of_nonneg_left h6 (sq_nonneg _)
    _ = 2 * N * (1 + tol) ^ 2 * (b * w * u + b * w * u') := by ring
    _ ≤ 2 * N * (1 + tol) ^ 2 * (20 * fluxE R X (lin (-1) old star) + 20 * fluxE R X (lin (-1) new star)) :=
        mul_le_mul_of_nonneg_left (add_le_add h7 h8) (by positivity)
    _ = _ := by ring

/-! ### The loops -/

theorem energySum_congr {p q : Nat → Phi K} (h : SamePhi R p q) : energySum R p = energySum R q :=
  Finset.sum_congr rfl fun _ hg => energy_congr (Finset.mem_range.1 hg) h

theorem jacobiE_congr {p q : Nat → Phi K} (h : SamePhi R p q) (chi : Nat → Psi K) :
    jacobiE R X mate p chi = jacobiE R X mate q chi :=
  Finset.sum_congr rfl fun _ hg => by rw [energy_congr (Finset.mem_range.1 hg) h]

/-- An iteration of `SweeperPBJSI` in terms of the model. -/
theorem si_step (H : R.Physical) (Lk : Linked R.cfg mate) (N : R.Nodes mate node) (Mt : Matched R mate node) {κ : K}
    (hκ : Ratio R X κ) {src star tot psi psi' : Nat → Psi K} {phi phi' : Nat → Phi K} {bound : Nat → Bound K}
    (hs : Scatters R X (FullDG R mate node) src star) (hc : Consistent R mate node psi bound)
    (ht : IsTotal R X src phi tot) (hl : LocalSwept R tot psi bound psi') (hp : IsPhi R X psi' phi') :
    jacobiE R X mate (subPhi phi' (scal R X star)) (lin (-1) psi' star) + (1 - κ) * (energySum R (subPhi phi (scal R X star)) +
      energySum R (subPhi phi' (scal R X star))) ≤ jacobiE R X mate (subPhi phi (scal R X star)) (lin (-1) psi star) := by
  have h1 := localDG_congr (bound' := bound) (local_sweep_solves H Lk N hl) ht.same (fun _ _ _ _ _ _ _ _ _ _ _ _ => rfl) H
  have h2 := jacobi_step H Lk N Mt hκ (lag_diff Lk N (lag_of_local H h1 hc) hs)
  have h3 : SamePhi R (subPhi phi' (scal R X star)) (scal R X (lin (-1) psi' star)) := by
    intro r hr g v c hg hcc
    rw [scal_sub]
    simp only [subPhi, hp.same r hr g v c hg hcc]
  rw [jacobiE_congr h3, energySum_congr h3]
  exact h2

/-- C82: the iterates of `SweeperPBJSI` approach the solution: the energies of all their errors have a bounded sum. -/
theorem SIPBJLoop.approach (H : R.Physical) (Lk : Linked R.cfg mate) (Xc : Crossed R.cfg mate) (N : R.Nodes mate node)
    (Mt : Matched R mate node) {κ : K} (hκ : Ratio R X κ) (hκ1 : κ < 1) {src star : Nat → Psi K}
    (hs : Scatters R X (FullDG R mate node) src star) {tol : K} {M iter : Nat} {psi psiEnd : Nat → Psi K} {phi : Nat → Phi K}
    {bound : Nat → Bound K} {its : List (Nat → Psi K)} (h : SIPBJLoop R X src tol M iter psi phi bound its psiEnd)
    (hc : Consistent R mate node psi bound) :
    (1 - κ) * (its.map fun p => energySum R (subPhi (scal R X p) (scal R X star))).sum ≤
      jacobiE R X mate (subPhi phi (scal R X star)) (lin (-1) psi star) := by
  have key : ∀ {phi' : Nat → Phi K} {psi' : Nat → Psi K}, IsPhi R X psi' phi' →
      energySum R (subPhi (scal R X psi') (scal R X star)) = energySum R (subPhi phi' (scal R X star)) := by
    intro phi' psi' hp
    refine energySum_congr fun r hr g v c hg hcc => ?_
    simp only [subPhi, hp.same r hr g v c hg hcc]
  induction h with
  | limit => simpa using jacobiE_nonneg H hκ _ _
  | @conv iter psi phi bound tot psi' phi' bound' h ht hl hp hx hcv =>
    have h1 := si_step H Lk N Mt hκ hs hc ht hl hp
    have h2 := jacobiE_nonneg (mate := mate) H hκ (subPhi phi' (scal R X star)) (lin (-1) psi' star)
    have h3 := energySum_nonneg H (subPhi phi (scal R X star))
    rw [map_cons, map_nil, sum_cons, sum_nil, add_zero, key hp]
    nlinarith
  | @next iter psi phi bound tot psi' phi' bound' rest psiEnd h ht hl hp hx hn hr ih =>
    have h1 := si_step H Lk N Mt hκ hs hc ht hl hp
    have h2 := ih (hx.exchanged Lk Xc N).consistent
    have h3 := energySum_nonneg H (subPhi phi (scal R X star))
    rw [map_cons, sum_cons, key hp]
    nlinarith

/-- C82: the loop of `SweeperPBJSI` ends by its tolerance. The number of iterations is at most one more than the first
`m` with the inequality; `F` is the norm of the solution. -/
theorem SIPBJLoop.stops (H : R.Physical) (Lk : Linked R.cfg mate) (Xc : Crossed R.cfg mate) (N : R.Nodes mate node)
    (Mt : Matched R mate node) {κ : K} (hκ : Ratio R X κ) (hκ1 : κ < 1) {b B : K} (Wd : Weighted R b B) (hb : 0 < b)
    {src star : Nat → Psi K} (hs : Scatters R X (FullDG R mate node) src star) {F : K} (hF : 0 < F)
    (hFs : F ≤ norm1 R (scal R X star)) {tol : K} (htol : 0 < tol)
    {M iter : Nat} {psi psiEnd : Nat → Psi K} {phi : Nat → Phi K}
    {bound : Nat → Bound K} {its : List (Nat → Psi K)} (h : SIPBJLoop R X src tol M iter psi phi bound its psiEnd)
    (hc : Consistent R mate node psi bound) (m : Nat) (hm : iter + m < M)
    (hJ : 40 * (phiSum R fun _ _ _ _ => 1) * (1 + tol) ^ 2 * jacobiE R X mate (subPhi phi (scal R X star)) (lin (-1) psi star) <
      (m + 1) * ((1 - κ) * (b * (tol * F) ^ 2))) :
    (∃ η δ, SIStops R X src tol M iter psi phi bound psiEnd η δ) ∧ its.length ≤ m + 1 := by
  induction h generalizing m with
  | limit h => omega
  | @conv iter psi phi bound tot psi' phi' bound' h ht hl hp hx hcv =>
    exact ⟨⟨_, _, .conv h ht hl hp hx hcv⟩, by simp⟩
  | @next iter psi phi bound tot psi' phi' bound' rest psiEnd h ht hl hp hx hn hr ih =>
    have h1 := si_step H Lk N Mt hκ hs hc ht hl hp
    have h2 := failed_phi H Wd hb htol (star := scal R X star) hn
    have hNn : (0 : K) ≤ phiSum R fun _ _ _ _ => 1 := phiSum_nonneg fun _ _ _ _ => zero_le_one
    have hJ' := jacobiE_nonneg (mate := mate) H hκ (subPhi phi' (scal R X star)) (lin (-1) psi' star)
    set A := 40 * (phiSum R fun _ _ _ _ => (1 : K)) * (1 + tol) ^ 2
    have hA : 0 ≤ A := by positivity
    set J := jacobiE R X mate (subPhi phi (scal R X star)) (lin (-1) psi star)
    set J' := jacobiE R X mate (subPhi phi' (scal R X star)) (lin (-1) psi' star)
    set E := energySum R (subPhi phi (scal R X star)) + energySum R (subPhi phi' (scal R X star))
    have h0 : b * (tol * F) ^ 2 ≤ A * E := by
      refine le_trans (mul_le_mul_of_nonneg_left ?_ hb.le) h2
      exact pow_le_pow_left₀ (mul_nonneg htol.le hF.le) (mul_le_mul_of_nonneg_left hFs htol.le) 2
    have hk : 0 ≤ 1 - κ := by linarith
    have h3 : (1 - κ) * (b * (tol * F) ^ 2) ≤ A * J - A * J' := by
      have a1 := mul_le_mul_of_nonneg_left h0 hk
      have a2 := mul_le_mul_of_nonneg_left h1 hA
      linarith
    cases m with
    | zero =>
      have := mul_nonneg hA hJ'
      rw [Nat.cast_zero, zero_add, one_mul] at hJ
      linarith
    | succ m =>
      obtain ⟨⟨η, δ, g1⟩, g2⟩ := ih (hx.exchanged Lk Xc N).consistent m (by omega) (by
        rw [Nat.cast_succ] at hJ
        linarith)
      exact ⟨⟨η, δ, .next h ht hl hp hx hn g1⟩, by simp only [length_cons]; omega⟩

/-- C82: the loop of `SweeperPBJSI` returns. -/
theorem sipbj_returns (H : R.Physical) (Lk : Linked R.cfg mate) (Xc : Crossed R.cfg mate) (hd : R.doComm = true)
    (Ac : Acyclic R.cfg mate) (src : Nat → Psi K) (tol : K) (M iter : Nat) (psi : Nat → Psi K) (phi : Nat → Phi K)
    (bound : Nat → Bound K) : ∃ its psiEnd, SIPBJLoop R X src tol M iter psi phi bound its psiEnd := by
  have key : ∀ m iter psi phi bound, M ≤ iter + m →
      ∃ its psiEnd, SIPBJLoop R X src tol M iter psi phi bound its psiEnd := by
    intro m
    induction m with
    | zero => intro iter psi phi bound h; exact ⟨_, _, .limit (by omega)⟩
    | succ m ih =>
      intro iter psi phi bound h
      by_cases hlt : iter < M
      · obtain ⟨tot, ht⟩ := isTotal_exists (R := R) (X := X) src phi
        obtain ⟨psi', hl⟩ := local_sweep_exists H Lk hd Xc Ac tot psi bound
        obtain ⟨phi', hp⟩ := isPhi_exists (R := R) (X := X) psi'
        obtain ⟨bound', hx⟩ := exchange_run_exists Lk Xc psi' bound
        by_cases hc : ConvergedPhi R tol phi' phi
        · exact ⟨_, _, .conv hlt ht hl hp hx hc⟩
        · obtain ⟨its, p, hr⟩ := ih (iter + 1) psi' phi' bound' (by omega)
          exact ⟨_, _, .next hlt ht hl hp hx hc hr⟩
      · exact ⟨_, _, .limit hlt⟩
  exact key M iter psi phi bound (by omega)

/-- An iteration of `SweeperPBJOuter` in terms of the model. -/
theorem outer_model_step (H : R.Physical) (Lk : Linked R.cfg mate) (N : R.Nodes mate node) (Mt : Matched R mate node) {κ : K}
    (hκ : Ratio R X κ) {src star prev psi' : Nat → Psi K} {bound : Nat → Bound K}
    (hs : Scatters R X (FullDG R mate node) src star) (hc : Consistent R mate node prev bound)
    (hl : LocalDG R mate node (scat X src (scal R X psi')) bound psi') :
    outerE R X mate κ (lin (-1) psi' star) + (1 - κ) * (fluxE R X (lin (-1) prev star) + fluxE R X (lin (-1) psi' star)) ≤
      outerE R X mate κ (lin (-1) prev star) := by
  have := lag_diff Lk N (lag_of_local H hl hc) hs
  rw [← scal_sub] at this
  exact outer_step H Lk N Mt hκ this

/-- The cost of a failed test. -/
theorem outer_failed {b B w κ : K} (H : R.Physical) (Wd : Weighted R b B) (hb : 0 < b) (hw0 : 0 < w) (hκ1 : κ < 1)
    (hw : ∀ a < R.nAngles, w ≤ X.wt a) {tol : K} (ht : 0 < tol) {F : K} (hF : 0 < F) {new old star : Nat → Psi K}
    (hFs : F ≤ fluxNorm R star)
    (h1 : outerE R X mate κ (lin (-1) new star) + (1 - κ) * (fluxE R X (lin (-1) old star) + fluxE R X (lin (-1) new star)) ≤
      outerE R X mate κ (lin (-1) old star)) (h : ¬ Converged R tol old new) :
    40 * (gsum R fun _ _ _ _ _ => 1) * (1 + tol) ^ 2 * outerE R X mate κ (lin (-1) new star) +
      (1 - κ) * (b * w * (tol * F) ^ 2) ≤
    40 * (gsum R fun _ _ _ _ _ => 1) * (1 + tol) ^ 2 * outerE R X mate κ (lin (-1) old star) := by
  have h2 := failed_flux (X := X) H Wd hb hw0 hw ht (star := star) h
  have hNn : (0 : K) ≤ gsum R fun _ _ _ _ _ => 1 := gsum_nonneg fun _ _ _ _ _ => zero_le_one
  set A := 40 * (gsum R fun _ _ _ _ _ => (1 : K)) * (1 + tol) ^ 2
  have hA : 0 ≤ A := by positivity
  set E := fluxE R X (lin (-1) old star) + fluxE R X (lin (-1) new star)
  have h0 : b * w * (tol * F) ^ 2 ≤ A * E := by
    refine le_trans (mul_le_mul_of_nonneg_left ?_ (mul_nonneg hb.le hw0.le)) h2
    exact pow_le_pow_left₀ (mul_nonneg ht.le hF.le) (mul_le_mul_of_nonneg_left hFs ht.le) 2
  have hk : 0 ≤ 1 - κ := by linarith
  have a1 := mul_le_mul_of_nonneg_left h0 hk
  have a2 := mul_le_mul_of_nonneg_left h1 hA
  linarith

/-- C82: the loop of `SweeperPBJOuter` ends by its tolerance when the inner solves are exact. -/
theorem OuterLoop.stops (H : R.Physical) (Lk : Linked R.cfg mate) (Xc : Crossed R.cfg mate) (N : R.Nodes mate node)
    (Mt : Matched R mate node) (hd : R.doComm = true) (Ac : Acyclic R.cfg mate) {κ : K} (hκ : Ratio R X κ) (hκ1 : κ < 1)
    {b B w : K} (Wd : Weighted R b B) (hb : 0 < b) (hw0 : 0 < w) (hw : ∀ a < R.nAngles, w ≤ X.wt a)
    {src star : Nat → Psi K} (hs : Scatters R X (FullDG R mate node) src star) {F : K} (hF : 0 < F)
    (hFs : F ≤ fluxNorm R star) {tol : K} (htol : 0 < tol)
    {M iter : Nat} {psi prev psiEnd : Nat → Psi K} {bound : Nat → Bound K} {its : List (Nat → Psi K)}
    (h : OuterLoop R X src tol M iter psi prev bound its psiEnd)
    (hc : Consistent R mate node prev bound) (m : Nat) (hm : iter + m < M)
    (hJ : 40 * (gsum R fun _ _ _ _ _ => 1) * (1 + tol) ^ 2 * outerE R X mate κ (lin (-1) prev star) <
      (m + 1) * ((1 - κ) * (b * w * (tol * F) ^ 2))) :
    its.length ≤ m + 1 ∧ its.getLast? = some psiEnd ∧ Converged R tol (its.dropLast.getLastD prev) psiEnd := by
  induction h generalizing m with
  | limit h => omega
  | conv h hs' hcv => exact ⟨by simp, by simp, by simpa using hcv⟩
  | @next iter psi prev bound psi' bound' rest psiEnd h hs' hn hx hr ih =>
    have h1 := outer_model_step H Lk N Mt hκ hs hc
      (solved_scatters (local_correct H Lk N _) (local_affine H Lk N hd Ac _) hs')
    have h3 := outer_failed H Wd hb hw0 hκ1 hw htol hF hFs h1 hn
    have hJ' := outerE_nonneg (mate := mate) H hκ hκ1 (lin (-1) psi' star)
    have hNn : (0 : K) ≤ gsum R fun _ _ _ _ _ => 1 := gsum_nonneg fun _ _ _ _ _ => zero_le_one
    have hA : (0 : K) ≤ 40 * (gsum R fun _ _ _ _ _ => (1 : K)) * (1 + tol) ^ 2 := by positivity
    cases m with
    | zero =>
      have := mul_nonneg hA hJ'
      rw [Nat.cast_zero, zero_add, one_mul] at hJ
      linarith
    | succ m =>
      obtain ⟨g1, g2, g3⟩ := ih (hx.exchanged Lk Xc N).consistent m (by omega) (by
        rw [Nat.cast_succ] at hJ
        linarith)
      have hne : rest ≠ [] := by rintro rfl; simp at g2
      refine ⟨by simp only [length_cons]; omega, by rw [getLast?_cons_of_ne_nil hne]; exact g2, ?_⟩
      rw [dropLast_cons_of_ne_nil hne, getLastD_cons]
      exact g3

/-- C82: with PETSc solving exactly inside, `SweeperPBJOuter` has such a run. -/
theorem outer_stops_exists (H : R.Physical) (Lk : Linked R.cfg mate) (Xc : Crossed R.cfg mate) (N : R.Nodes mate node)
    (Mt : Matched R mate node) (hd : R.doComm = true) (Ac : Acyclic R.cfg mate) {κ : K} (hκ : Ratio R X κ) (hκ1 : κ < 1)
    {b B w : K} (Wd : Weighted R b B) (hb : 0 < b) (hw0 : 0 < w) (hw : ∀ a < R.nAngles, w ≤ X.wt a)
    {src star : Nat → Psi K} (hs : Scatters R X (FullDG R mate node) src star) {F : K} (hF : 0 < F)
    (hFs : F ≤ fluxNorm R star) {tol : K} (htol : 0 < tol) (errMax : K) (srcMax : Nat) {M : Nat} (m : Nat) :
    ∀ {iter : Nat} {psi prev : Nat → Psi K} {bound : Nat → Bound K}, Consistent R mate node prev bound → iter + m < M →
    40 * (gsum R fun _ _ _ _ _ => 1) * (1 + tol) ^ 2 * outerE R X mate κ (lin (-1) prev star) <
      (m + 1) * ((1 - κ) * (b * w * (tol * F) ^ 2)) →
    ∃ psiEnd η, OuterStops R X false errMax srcMax src tol M iter psi prev bound psiEnd η 0 := by
  have hNn : (0 : K) ≤ gsum R fun _ _ _ _ _ => 1 := gsum_nonneg fun _ _ _ _ _ => zero_le_one
  have hA : (0 : K) ≤ 40 * (gsum R fun _ _ _ _ _ => (1 : K)) * (1 + tol) ^ 2 := by positivity
  induction m with
  | zero =>
    intro iter psi prev bound hc hm hJ
    obtain ⟨lstar, hl, -⟩ := local_scatter_exists_unique (X := X) H Lk Xc N Mt hd Ac hκ hκ1 bound src
    obtain ⟨x, y, rhs, psi', k1, k2, k3, k4⟩ := krylov_exists (local_correct H Lk N bound) (local_affine H Lk N hd Ac bound) ()
      (fun _ z psi src => by
        obtain ⟨p, hp⟩ := local_sweep_exists H Lk hd Xc Ac src psi (if z then fun _ _ _ _ _ => 0 else bound)
        exact ⟨(), p, hp⟩) hl psi
    have e0 : norm1 R (subPhi rhs y) = 0 := by
      rw [norm1_congr (q := fun _ _ _ _ => 0) fun r hr g v c hg hcc => by simp [subPhi, k3 r hr g v c hg hcc]]
      simp [norm1, phiSum]
    have hset := Settled.krylov (errMax := errMax) (srcMax := srcMax) (psi := psi) k1 k2 k4
    rw [e0] at hset
    have h1 := outer_model_step H Lk N Mt hκ hs hc
      (solved_scatters (local_correct H Lk N _) (local_affine H Lk N hd Ac _) (.krylov (psi := psi) k1 k2 k3 k4))
    by_cases hcv : Converged R tol prev psi'
    · exact ⟨_, _, .conv (by omega) hset hcv⟩
    · exfalso
      have h3 := outer_failed H Wd hb hw0 hκ1 hw htol hF hFs h1 hcv
      have := mul_nonneg hA (outerE_nonneg (mate := mate) H hκ hκ1 (lin (-1) psi' star))
      rw [Nat.cast_zero, zero_add, one_mul] at hJ
      linarith
  | succ m ih =>
    intro iter psi prev bound hc hm hJ
    obtain ⟨lstar, hl, -⟩ := local_scatter_exists_unique (X := X) H Lk Xc N Mt hd Ac hκ hκ1 bound src
    obtain ⟨x, y, rhs, psi', k1, k2, k3, k4⟩ := krylov_exists (local_correct H Lk N bound) (local_affine H Lk N hd Ac bound) ()
      (fun _ z psi src => by
        obtain ⟨p, hp⟩ := local_sweep_exists H Lk hd Xc Ac src psi (if z then fun _ _ _ _ _ => 0 else bound)
        exact ⟨(), p, hp⟩) hl psi
    have e0 : norm1 R (subPhi rhs y) = 0 := by
      rw [norm1_congr (q := fun _ _ _ _ => 0) fun r hr g v c hg hcc => by simp [subPhi, k3 r hr g v c hg hcc]]
      simp [norm1, phiSum]
    have hset := Settled.krylov (errMax := errMax) (srcMax := srcMax) (psi := psi) k1 k2 k4
    rw [e0] at hset
    have h1 := outer_model_step H Lk N Mt hκ hs hc
      (solved_scatters (local_correct H Lk N _) (local_affine H Lk N hd Ac _) (.krylov (psi := psi) k1 k2 k3 k4))
    by_cases hcv : Converged R tol prev psi'
    · exact ⟨_, _, .conv (by omega) hset hcv⟩
    · have h3 := outer_failed H Wd hb hw0 hκ1 hw htol hF hFs h1 hcv
      obtain ⟨bound', hx⟩ := exchange_run_exists Lk Xc psi' bound
      obtain ⟨pe, η, hr⟩ := ih (iter := iter + 1) (psi := psi') (hx.exchanged Lk Xc N).consistent (by omega) (by
        rw [Nat.cast_succ] at hJ
        linarith)
      exact ⟨pe, η, .next (by omega) hset hcv hx hr⟩

/-! ### From a zero flux -/

theorem flux_high {b B : K} (H : R.Physical) {κ : K} (hκ : Ratio R X κ) (Wd : Weighted R b B) (hB : 0 ≤ B) (p : Nat → Psi K) :
    4 * fluxE R X p ≤ B * (∑ a ∈ Finset.range R.nAngles, X.wt a) * fluxNorm R p ^ 2 := by
  set W := ∑ a ∈ Finset.range R.nAngles, X.wt a with hW
  set F := fluxNorm R p with hF
  have hF0 : 0 ≤ F := fluxNorm_nonneg _
  have hwt : ∀ a < R.nAngles, X.wt a ≤ W := fun a ha =>
    Finset.single_le_sum (f := X.wt) (fun i hi => hκ.weights i (Finset.mem_range.1 hi)) (Finset.mem_range.2 ha)
  have hcell : ∀ q : Fin 4 → K, 4 * cellM q q ≤ ∑ v, q v ^ 2 := by
    intro q
    have h : 20 * cellM q q = ∑ i, q i * q i + (∑ i, q i) * ∑ i, q i := by unfold cellM; field_simp
    simp only [Fin.sum_univ_four] at h ⊢
    nlinarith [sq_nonneg (q 0 - q 1), sq_nonneg (q 0 - q 2), sq_nonneg (q 0 - q 3), sq_nonneg (q 1 - q 2), sq_nonneg (q 1 - q 3),
      sq_nonneg (q 2 - q 3)]
  have e : F = ∑ g ∈ Finset.range R.nGroups, ∑ a ∈ Finset.range R.nAngles, meshSum R fun r c => ∑ v, |p r g v a c| := by
    simp only [← meshSum_sum]
    rw [hF, fluxNorm]
    unfold gsum
    refine meshSum_congr fun r _ c _ => ?_
    rw [Finset.sum_comm' (s := Finset.range R.nGroups) (t' := Finset.range R.nAngles) (s' := fun _ => Finset.range R.nGroups)
      (t := fun _ => Finset.range R.nAngles) fun x y => Iff.rfl]
    exact Finset.sum_congr rfl fun a _ => Finset.sum_comm
  calc 4 * fluxE R X p ≤ ∑ g ∈ Finset.range R.nGroups, ∑ a ∈ Finset.range R.nAngles, W * (B * (F * meshSum R fun r c => ∑ v, |p r g v a c|)) := by
        rw [fluxE, Finset.mul_sum]
        refine Finset.sum_le_sum fun g hg => ?_
        rw [angleSum, Finset.mul_sum]
        refine Finset.sum_le_sum fun a ha => ?_
        have h1 : 4 * energyAt R a g p ≤ B * (F * meshSum R fun r c => ∑ v, |p r g v a c|) := by
          rw [← meshSum_mul, ← meshSum_mul, energyAt, ← meshSum_mul]
          refine meshSum_le fun r hr c hc => ?_
          have h2 : ∑ v, p r g v a c ^ 2 ≤ F * ∑ v, |p r g v a c| := by
            rw [Finset.mul_sum]
            refine Finset.sum_le_sum fun v _ => ?_
            have h3 : |p r g v a c| ≤ F := gsum_single (f := fun r g v a c => |p r g v a c|) (fun _ _ _ _ _ => abs_nonneg _) v hr hc
              (Finset.mem_range.1 ha) (Finset.mem_range.1 hg)
            rw [← sq_abs, sq]
            exact mul_le_mul_of_nonneg_right h3 (abs_nonneg _)
          have h4 := (hcell fun v => p r g v a c).trans h2
          have h5 := Wd.high r c hr hc
          have h6 : 0 ≤ R.sigmaT r c * (R.view r).cellVolume c := mul_nonneg (H.sigma r c hr hc) (H.volume r c hr hc).le
          have h7 : 0 ≤ F * ∑ v, |p r g v a c| := mul_nonneg hF0 (Finset.sum_nonneg fun _ _ => abs_nonneg _)
          have h8 := mul_le_mul_of_nonneg_left h4 h6
          have h9 := mul_le_mul_of_nonneg_right h5 h7
          linarith
        have h3 := mul_le_mul_of_nonneg_left h1 (hκ.weights a (Finset.mem_range.1 ha))
        have h4 : 0 ≤ B * (F * meshSum R fun r c => ∑ v, |p r g v a c|) :=
          mul_nonneg hB (mul_nonneg hF0 (meshSum_nonneg fun _ _ _ _ => Finset.sum_nonneg fun _ _ => abs_nonneg _))
        have h5 := mul_le_mul_of_nonneg_right (hwt a (Finset.mem_range.1 ha)) h4
        linarith
    _ = B * W * (F * F) := by
        nth_rw 2 [e]
        simp only [Finset.sum_mul, Finset.mul_sum]
        exact Finset.sum_congr rfl fun _ _ => Finset.sum_congr rfl fun _ _ => by ring
    _ = _ := by ring

theorem seams_le (H : R.Physical) {κ α : K} (hκ : Ratio R X κ) (T : Thick R α) (p : Nat → Psi K) :
    3 * ∑ g ∈ Finset.range R.nGroups, angleSum R X (fun a => seamE R mate a g p) ≤ 20 * α * fluxE R X p := by
  rw [fluxE, Finset.mul_sum, Finset.mul_sum]
  refine Finset.sum_le_sum fun g _ => ?_
  rw [angleSum, angleSum, Finset.mul_sum, Finset.mul_sum]
  refine Finset.sum_le_sum fun a ha => ?_
  have := mul_le_mul_of_nonneg_left (seamE_le (mate := mate) H T (Finset.mem_range.1 ha) g p) (hκ.weights a (Finset.mem_range.1 ha))
  linarith

theorem fluxNorm_neg (p : Nat → Psi K) : fluxNorm R (lin (-1) (fun _ _ _ _ _ => 0) p) = fluxNorm R p := by
  unfold fluxNorm
  congr 1
  funext r g v a c
  simp [lin]

/-- What `SweeperPBJSI` starts with, in terms of the sum of the solution. The partition does not appear. -/
theorem jacobiE_start {b B κ α : K} (H : R.Physical) (hκ : Ratio R X κ) (Wd : Weighted R b B) (hB : 0 ≤ B) (hα : 0 ≤ α)
    (T : Thick R α) (star : Nat → Psi K) :
    4 * jacobiE R X mate (subPhi (fun _ _ _ _ => 0) (scal R X star)) (lin (-1) (fun _ _ _ _ _ => 0) star) ≤
      (7 * α + 1) * B * ((∑ a ∈ Finset.range R.nAngles, X.wt a) * fluxNorm R star) ^ 2 := by
  have hW := hκ.total.le
  set W := ∑ a ∈ Finset.range R.nAngles, X.wt a with hWd
  set e := lin (-1) (fun _ _ _ _ _ => 0) star with he
  have e1 : subPhi (fun _ _ _ _ => 0) (scal R X star) = scal R X e := by
    rw [he, scal_sub]
    congr 1
    funext r g v c
    simp [scal]
  rw [e1]
  have h1 := flux_high H hκ Wd hB e
  have h2 := seams_le (mate := mate) H hκ T e
  have h3 : jacobiE R X mate (scal R X e) e ≤ W * ∑ g ∈ Finset.range R.nGroups, angleSum R X (fun a => seamE R mate a g e) +
      W * fluxE R X e := by
    unfold jacobiE fluxE
    rw [Finset.mul_sum, Finset.mul_sum, ← Finset.sum_add_distrib]
    exact Finset.sum_le_sum fun g _ => by
      have := energy_angles H hκ g e
      linarith
  rw [he, fluxNorm_neg, ← he, ← hWd] at h1
  have h4 := fluxE_nonneg H hκ e
  set Z := ∑ g ∈ Finset.range R.nGroups, angleSum R X (fun a => seamE R mate a g e)
  have h5 : Z ≤ 7 * α * fluxE R X e := by
    have := mul_nonneg hα h4
    linarith
  have h6 := mul_le_mul_of_nonneg_left h5 hW
  have h7 := mul_le_mul_of_nonneg_left h1 (mul_nonneg hW (by linarith : 0 ≤ 7 * α + 1))
  nlinarith

/-- What `SweeperPBJOuter` starts with. -/
theorem outerE_start {b B κ α : K} (H : R.Physical) (hκ : Ratio R X κ) (Wd : Weighted R b B) (hB : 0 ≤ B) (hα : 0 ≤ α)
    (T : Thick R α) (star : Nat → Psi K) :
    4 * outerE R X mate κ (lin (-1) (fun _ _ _ _ _ => 0) star) ≤
      (7 * α + 1) * B * (∑ a ∈ Finset.range R.nAngles, X.wt a) * fluxNorm R star ^ 2 := by
  set W := ∑ a ∈ Finset.range R.nAngles, X.wt a with hWd
  set e := lin (-1) (fun _ _ _ _ _ => 0) star with he
  have h1 := flux_high H hκ Wd hB e
  have h2 := seams_le (mate := mate) H hκ T e
  have h4 := fluxE_nonneg H hκ e
  have h3 : outerE R X mate κ e = ∑ g ∈ Finset.range R.nGroups, angleSum R X (fun a => seamE R mate a g e) +
      (1 - κ) * fluxE R X e := by
    unfold outerE fluxE
    rw [Finset.mul_sum, ← Finset.sum_add_distrib]
  rw [he, fluxNorm_neg, ← he, ← hWd] at h1
  set Z := ∑ g ∈ Finset.range R.nGroups, angleSum R X (fun a => seamE R mate a g e)
  have h5 : Z ≤ 7 * α * fluxE R X e := by
    have := mul_nonneg hα h4
    linarith
  have h6 := mul_nonneg hκ.nonneg h4
  have h7 := mul_le_mul_of_nonneg_left h1 (by linarith : 0 ≤ 7 * α + 1)
  rw [h3]
  linarith

/-- C82: `SweeperPBJSI::solve` (src/SweeperPBJ.cc:229-280) ends by its tolerance within `k + 1` iterations. With `N` entries
of the scalar flux, sum of weights `W` and the solution `star` the number depends on, but not on the partition. -/
theorem sipbj_stops (H : R.Physical) (Lk : Linked R.cfg mate) (Xc : Crossed R.cfg mate) (N : R.Nodes mate node)
    (Mt : Matched R mate node) {κ : K} (hκ : Ratio R X κ) (hκ1 : κ < 1) {b B α : K} (Wd : Weighted R b B) (hb : 0 < b)
    (hB : 0 ≤ B) (hα : 0 ≤ α) (T : Thick R α) {src star : Nat → Psi K} (hs : Scatters R X (FullDG R mate node) src star)
    (hF : 0 < norm1 R (scal R X star)) {tol : K} (htol : 0 < tol) {M k : Nat} (hk : k + 1 < M)
    (hJ : 10 * (phiSum R fun _ _ _ _ => 1) * (1 + tol) ^ 2 * ((7 * α + 1) * B) *
      ((∑ a ∈ Finset.range R.nAngles, X.wt a) * fluxNorm R star) ^ 2 < (k + 1) * ((1 - κ) * (b * (tol * norm1 R (scal R X star)) ^ 2)))
    {its : List (Nat → Psi K)} {psi : Nat → Psi K}
    (h : SIPBJLoop R X src tol M 1 (fun _ _ _ _ _ => 0) (fun _ _ _ _ => 0) (fun _ _ _ _ _ => 0) its psi) :
    (∃ η δ, SIStops R X src tol M 1 (fun _ _ _ _ _ => 0) (fun _ _ _ _ => 0) (fun _ _ _ _ _ => 0) psi η δ) ∧
      its.length ≤ k + 1 := by
  refine h.stops H Lk Xc N Mt hκ hκ1 Wd hb hs hF le_rfl htol (consistent_zero N) k (by omega) (lt_of_le_of_lt ?_ hJ)
  have h1 := jacobiE_start (mate := mate) H hκ Wd hB hα T star
  have hNn : (0 : K) ≤ phiSum R fun _ _ _ _ => 1 := phiSum_nonneg fun _ _ _ _ => zero_le_one
  have h2 := mul_le_mul_of_nonneg_left h1 (by positivity : (0 : K) ≤ 10 * (phiSum R fun _ _ _ _ => 1) * (1 + tol) ^ 2)
  linarith

/-- C82: `SweeperPBJOuter::solve` with exact inner solves. The bound does not depend on the solution either. -/
theorem outer_stops (H : R.Physical) (Lk : Linked R.cfg mate) (Xc : Crossed R.cfg mate) (N : R.Nodes mate node)
    (Mt : Matched R mate node) (hd : R.doComm = true) (Ac : Acyclic R.cfg mate) {κ : K} (hκ : Ratio R X κ) (hκ1 : κ < 1)
    {b B α w : K} (Wd : Weighted R b B) (hb : 0 < b) (hB : 0 ≤ B) (hα : 0 ≤ α) (T : Thick R α)
    (hw0 : 0 < w) (hw : ∀ a < R.nAngles, w ≤ X.wt a) {src star : Nat → Psi K}
    (hs : Scatters R X (FullDG R mate node) src star) (hF : 0 < fluxNorm R star) {tol : K} (htol : 0 < tol) {M k : Nat} (hk : k + 1 < M)
    (hJ : 10 * (gsum R fun _ _ _ _ _ => 1) * (1 + tol) ^ 2 * ((7 * α + 1) * B * ∑ a ∈ Finset.range R.nAngles, X.wt a) <
      (k + 1) * ((1 - κ) * (b * w * tol ^ 2))) :
    (∀ its psi, OuterLoop R X src tol M 1 (fun _ _ _ _ _ => 0) (fun _ _ _ _ _ => 0) (fun _ _ _ _ _ => 0) its psi →
      its.length ≤ k + 1 ∧ its.getLast? = some psi ∧ Converged R tol (its.dropLast.getLastD fun _ _ _ _ _ => 0) psi) ∧
    ∀ errMax srcMax, ∃ psi η, OuterStops R X false errMax srcMax src tol M 1 (fun _ _ _ _ _ => 0) (fun _ _ _ _ _ => 0)
      (fun _ _ _ _ _ => 0) psi η 0 := by
  have hJ' : 40 * (gsum R fun _ _ _ _ _ => 1) * (1 + tol) ^ 2 * outerE R X mate κ (lin (-1) (fun _ _ _ _ _ => 0) star) <
      (k + 1) * ((1 - κ) * (b * w * (tol * fluxNorm R star) ^ 2)) := by
    have h1 := outerE_start (mate := mate) H hκ Wd hB hα T star
    have hNn : (0 : K) ≤ gsum R fun _ _ _ _ _ => 1 := gsum_nonneg fun _ _ _ _ _ => zero_le_one
    have h2 := mul_le_mul_of_nonneg_left h1 (by positivity : (0 : K) ≤ 10 * (gsum R fun _ _ _ _ _ => 1) * (1 + tol) ^ 2)
    have h3 := mul_lt_mul_of_pos_right hJ (pow_pos hF 2)
    linarith
  exact ⟨fun its psi h => h.stops H Lk Xc N Mt hd Ac hκ hκ1 Wd hb hw0 hw hs hF le_rfl htol (consistent_zero N) k (by omega) hJ',
    fun errMax srcMax => outer_stops_exists H Lk Xc N Mt hd Ac hκ hκ1 Wd hb hw0 hw hs hF le_rfl htol errMax srcMax k
      (consistent_zero N) (by omega) hJ'⟩

end Verif.Source
