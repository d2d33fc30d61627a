import Verif.Transport.Lemmas3
import Verif.Transport.Spec

/-!
# Properties of the within-cell solve: C27, C28, C29, C30, C31, C53
-/
set_option linter.unusedSectionVars false

namespace Verif.Transport

variable {K : Type*} [Field K] [LinearOrder K] [IsStrictOrderedRing K]

open Matrix

/-! ## C27 -/

/-- C27: whatever option is chosen, a returned vector solves the system. -/
theorem gaussElim4_sound (g : GaussElim) (A : Mat4 K) (b x : Vec4 K)
    (h : gaussElim4 g A b = some x) : (Matrix.of A).mulVec x = b ∧ (Matrix.of A).det ≠ 0 := by
  cases g with
  | original =>
    rcases original_cases A b with ⟨h', _⟩ | ⟨y, h', hs, hd⟩
    · simp [gaussElim4, h'] at h
    · simp only [gaussElim4, h', Option.some.injEq] at h; exact h ▸ ⟨hs, hd⟩
  | noPivot =>
    rcases noPivot_cases A b with ⟨h', _⟩ | ⟨y, h', hs, hd⟩
    · simp [gaussElim4, h'] at h
    · simp only [gaussElim4, h', Option.some.injEq] at h
      refine h ▸ ⟨hs, ?_⟩
      rw [← lead4 A (le_refl 4)]
      exact (pivots_iff A).1 hd 4 (le_refl 4)
  | cramerGlu =>
    rcases glu_cases A b with ⟨h', _⟩ | ⟨y, h', hs, hd⟩
    · simp [gaussElim4, h'] at h
    · simp only [gaussElim4, h', Option.some.injEq] at h; exact h ▸ ⟨hs, hd⟩
  | cramerIntel =>
    rcases intel_cases A b with ⟨h', _⟩ | ⟨y, h', hs, hd⟩
    · simp [gaussElim4, h'] at h
    · simp only [gaussElim4, h', Option.some.injEq] at h; exact h ▸ ⟨hs, hd⟩

/-- C27: partial pivoting and both Cramer variants are defined exactly for the nonsingular
matrices. -/
theorem gaussElim4_defined_iff (g : GaussElim) (hg : g ≠ .noPivot) (A : Mat4 K) (b : Vec4 K) :
    (∃ x, gaussElim4 g A b = some x) ↔ (Matrix.of A).det ≠ 0 := by
  constructor
  · rintro ⟨x, hx⟩; exact (gaussElim4_sound g A b x hx).2
  · intro hd
    cases g with
    | original =>
      rcases original_cases A b with ⟨_, h'⟩ | ⟨y, h', _, _⟩
      · exact absurd h' hd
      · exact ⟨y, h'⟩
    | noPivot => exact absurd rfl hg
    | cramerGlu =>
      rcases glu_cases A b with ⟨_, h'⟩ | ⟨y, h', _, _⟩
      · exact absurd h' hd
      · exact ⟨y, h'⟩
    | cramerIntel =>
      rcases intel_cases A b with ⟨_, h'⟩ | ⟨y, h', _, _⟩
      · exact absurd h' hd
      · exact ⟨y, h'⟩

/-- C27: elimination without pivoting is defined exactly if no leading principal minor vanishes. -/
theorem noPivot_defined_iff (A : Mat4 K) (b : Vec4 K) :
    (∃ x, gaussElim4 .noPivot A b = some x) ↔
      ∀ k (h : k ≤ 4), ((Matrix.of A).submatrix (Fin.castLE h) (Fin.castLE h)).det ≠ 0 := by
  have e := pivots_iff A
  unfold leadingMinor at e
  rw [← e]
  constructor
  · rintro ⟨x, hx⟩
    rcases noPivot_cases A b with ⟨h', _⟩ | ⟨y, h', hs, hd⟩
    · simp [gaussElim4, h'] at hx
    · exact hd
  · intro hp
    rcases noPivot_cases A b with ⟨_, i, hi, _⟩ | ⟨y, h', hs, hd⟩
    · exact absurd hi (hp i)
    · exact ⟨y, h'⟩

/-- C27: options that are both defined agree. -/
theorem gaussElim4_agree (g g' : GaussElim) (A : Mat4 K) (b x x' : Vec4 K)
    (h : gaussElim4 g A b = some x) (h' : gaussElim4 g' A b = some x') : x = x' := by
  obtain ⟨hx, hd⟩ := gaussElim4_sound g A b x h
  obtain ⟨hx', _⟩ := gaussElim4_sound g' A b x' h'
  have hu : IsUnit (Matrix.of A).det := isUnit_iff_ne_zero.2 hd
  have := congrArg ((Matrix.of A)⁻¹).mulVec (hx.trans hx'.symm)
  simpa [Matrix.mulVec_mulVec, Matrix.nonsing_inv_mul _ hu] using this

/-- A matrix with zero upper-left entry: pivoting and Cramer succeed, elimination without
pivoting does not. -/
def exMat : Mat4 ℚ := ![![0, 1, 0, 0], ![2, 0, 0, 1], ![0, 0, 3, 0], ![0, 0, 1, 1]]

example : gaussElim4 .original exMat ![1, 2, 3, 4] = some ![-(1/2), 1, 1, 3] ∧
    gaussElim4 .cramerGlu exMat ![1, 2, 3, 4] = some ![-(1/2), 1, 1, 3] ∧
    gaussElim4 .cramerIntel exMat ![1, 2, 3, 4] = some ![-(1/2), 1, 1, 3] ∧
    gaussElim4 .noPivot exMat ![1, 2, 3, 4] = none := by
  refine ⟨?_, ?_, ?_, ?_⟩ <;> decide +kernel

/-! ## C28 -/

/-- C28: for a cell of positive volume whose signed face areas add up to zero (closed surface) and
a non-negative cross-section - positive, or with some face not parallel to the direction - every
solver option succeeds; in particular elimination without pivoting meets no zero pivot. -/
theorem transport_solvable (g : GaussElim) (V σ : K) (area b : Vec4 K) (hV : 0 < V) (hσ : 0 ≤ σ)
    (hclosed : ∑ f, area f = 0) (hne : 0 < σ ∨ ∃ f, area f ≠ 0) :
    ∃ x, gaussElim4 g (calcOutgoingFlux area (calcVolumeIntegrals V area σ)) b = some x := by
  have hc : area 0 + area 1 + area 2 + area 3 = 0 := by
    rw [← hclosed]; simp [Fin.sum_univ_succ]; ring
  have hne' : 0 < σ ∨ area ≠ 0 := hne.imp_right fun ⟨f, hf⟩ h0 => hf (congrFun h0 f)
  have hm := fun k hk => minors_of_quad (asm V σ area)
    (fun x hx => quad_pos V σ area x hV hσ hc hne' hx) k hk
  by_cases hg : g = .noPivot
  · subst hg
    exact (noPivot_defined_iff _ b).2 hm
  · refine (gaussElim4_defined_iff g hg _ b).2 ?_
    have := hm 4 (le_refl 4)
    rwa [lead4] at this

/-- C28 for `Transport::solve`: no division by zero in any group. -/
theorem solveGroup_defined (g : GaussElim) (m : MeshView K) (cell angle : Nat) (σ : K)
    (lpb : Fin 3 → Fin 4 → K) (q : Vec4 K) (hV : 0 < m.cellVolume cell) (hσ : 0 ≤ σ)
    (hclosed : ∑ f, m.faceArea cell f * m.omegaDotN angle cell f = 0)
    (hne : 0 < σ ∨ ∃ f, m.faceArea cell f * m.omegaDotN angle cell f ≠ 0) :
    ∃ x, solveGroup g m cell angle σ lpb q = some x :=
  transport_solvable g _ σ (signedArea m angle cell) _ hV hσ hclosed hne

/-- The hypotheses of C28 on a concrete cell: areas 1, 1, -2, 0 and an absorber. -/
example : (∑ f, (![1, 1, -2, 0] : Vec4 ℚ) f = 0) ∧ (0 : ℚ) < 3 := by
  constructor
  · decide +kernel
  · norm_num

/-- The closedness hypothesis is needed: with areas that do not add to zero the system can be
singular. -/
theorem transport_open_singular : ∃ (V σ : ℚ) (area : Vec4 ℚ), 0 < V ∧ 0 < σ ∧
    ∀ b, gaussElim4 .cramerGlu (calcOutgoingFlux area (calcVolumeIntegrals V area σ)) b = none := by
  refine ⟨1, 1, ![-3/4, -3/4, -3/4, -3/4], by norm_num, by norm_num, ?_⟩
  intro b
  rcases h : gaussElim4 .cramerGlu (calcOutgoingFlux (![-3/4, -3/4, -3/4, -3/4] : Vec4 ℚ)
    (calcVolumeIntegrals 1 ![-3/4, -3/4, -3/4, -3/4] 1)) b with _ | x
  · rfl
  · exfalso
    have := (gaussElim4_sound _ _ _ _ h).2
    apply this
    rw [det4]
    decide +kernel

/-! ## C29 -/

/-- The assembled system is the documented one: a vector solves it iff it satisfies the four
equations of the user guide with `inc f v` read from `localPsiBound`. -/
theorem assembled_is_dg (V σ : K) (area q x : Vec4 K) (c2f : Fin 4 → Fin 4 → Fin 3)
    (lpb : Fin 3 → Fin 4 → K) :
    (Matrix.of (calcOutgoingFlux area (calcVolumeIntegrals V area σ))).mulVec x
        = calcIncomingFlux c2f lpb area (calcSource V q) ↔
      Spec.DG V σ area (fun f v => lpb (c2f f v) f) q x := by
  rw [funext_iff]
  have key : ∀ i, (Matrix.of (asm V σ area)).mulVec x i
        = calcIncomingFlux c2f lpb area (calcSource V q) i ↔
      Spec.DGRow V σ area (fun f v => lpb (c2f f v) f) q x i := by
    intro i
    rw [mulVec4, inFlux_entry]
    have hu : ∀ f v, area f / 12 * Spec.upwind area x (fun f v => lpb (c2f f v) f) f v =
        oc area f * x v + nc area f * lpb (c2f f v) f := by
      intro f v
      unfold Spec.upwind oc nc
      rcases lt_trichotomy (area f) 0 with h | h | h
      · simp [h, h.not_gt]
      · simp [h]
      · simp [h, h.not_gt]
    have hu2 : ∀ f v, area f / 12 * (2 * Spec.upwind area x (fun f v => lpb (c2f f v) f) f v) =
        2 * (oc area f * x v + nc area f * lpb (c2f f v) f) := by
      intro f v; rw [← hu]; ring
    simp only [asm_entry, Spec.DGRow, mul_add (_ / 12 : K), Finset.mul_sum _ _ (_ / 12 : K), hu, hu2,
      outTerm_oc, inTerm_nc]
    fin_cases i
    · simp [er0, er1, er2, er3, calcSource, cf, Fin.sum_univ_succ]
      constructor <;> intro h <;> linear_combination h
    · simp [er0, er1, er2, er3, calcSource, cf, Fin.sum_univ_succ]
      constructor <;> intro h <;> linear_combination h
    · simp [er0, er1, er2, er3, calcSource, cf, Fin.sum_univ_succ]
      constructor <;> intro h <;> linear_combination h
    · simp [er0, er1, er2, er3, calcSource, cf, Fin.sum_univ_succ]
      constructor <;> intro h <;> linear_combination h
  exact forall_congr' key

/-- C29: what the solve returns for one group satisfies the documented system. -/
theorem solveGroup_dg (g : GaussElim) (m : MeshView K) (cell angle : Nat) (σ : K)
    (lpb : Fin 3 → Fin 4 → K) (q x : Vec4 K)
    (h : solveGroup g m cell angle σ lpb q = some x) :
    Spec.DG (m.cellVolume cell) σ (fun f => m.faceArea cell f * m.omegaDotN angle cell f)
      (fun f v => lpb (m.cellToFaceVrtx cell f v) f) q x :=
  (assembled_is_dg _ _ _ _ _ _ _).1 (gaussElim4_sound g _ _ x h).1

/-- The documented system only looks at incoming values on faces with `area f < 0` and at vertices
of the face. -/
theorem dg_congr (V σ : K) (area : Vec4 K) (inc inc' : Fin 4 → Fin 4 → K) (Q psi : Vec4 K)
    (h : ∀ f v, area f < 0 → v ≠ f → inc f v = inc' f v) :
    Spec.DG V σ area inc Q psi ↔ Spec.DG V σ area inc' Q psi := by
  unfold Spec.DG Spec.DGRow
  have hu : ∀ f v, v ≠ f → area f * Spec.upwind area psi inc f v
      = area f * Spec.upwind area psi inc' f v := by
    intro f v hv
    unfold Spec.upwind
    rcases lt_trichotomy (area f) 0 with hf | hf | hf
    · rw [if_neg hf.not_gt, if_neg hf.not_gt, h f v hf hv]
    · simp [hf]
    · simp [hf]
  refine forall_congr' fun i => ?_
  have : (∑ f ∈ Finset.univ.erase i, area f / 12 * (2 * Spec.upwind area psi inc f i
        + ∑ j ∈ (Finset.univ.erase f).erase i, Spec.upwind area psi inc f j))
      = ∑ f ∈ Finset.univ.erase i, area f / 12 * (2 * Spec.upwind area psi inc' f i
        + ∑ j ∈ (Finset.univ.erase f).erase i, Spec.upwind area psi inc' f j) := by
    refine Finset.sum_congr rfl fun f hf => ?_
    have hif : i ≠ f := fun e => (Finset.mem_erase.1 hf).1 e.symm
    have e : ∀ w : Fin 4 → K, area f / 12 * (2 * w i + ∑ j ∈ (Finset.univ.erase f).erase i, w j)
        = (2 * (area f * w i) + ∑ j ∈ (Finset.univ.erase f).erase i, area f * w j) / 12 := by
      intro w; rw [← Finset.mul_sum]; ring
    rw [e, e, hu f i hif]
    congr 2
    refine Finset.sum_congr rfl fun j hj => hu f j ?_
    exact (Finset.mem_erase.1 (Finset.mem_erase.1 hj).2).1
  rw [this]

/-! ## C53 (used by C29 below) -/

theorem solve_fold (g : GaussElim) (m : MeshView K) (cell angle : Nat) (σ : K)
    (lpb : Fin 3 → Fin 4 → Nat → K) (q : Fin 4 → Nat → K) :
    ∀ (l : List Nat) (psi r : Fin 4 → Nat → K), l.Nodup →
      l.foldlM (fun psi group => do
        let x ← solveGroup g m cell angle σ (fun v f => lpb v f group) (fun v => q v group)
        some (fun v h => if h = group then x v else psi v h)) psi = some r →
      (∀ grp ∈ l, solveGroup g m cell angle σ (fun v f => lpb v f grp) (fun v => q v grp)
        = some (fun v => r v grp)) ∧ ∀ grp ∉ l, ∀ v, r v grp = psi v grp := by
  intro l
  induction l with
  | nil => intro psi r _ h; simp at h; subst h; simp
  | cons a l ih =>
    intro psi r hnd h
    rw [List.foldlM_cons] at h
    obtain ⟨ha, hnd⟩ := List.nodup_cons.1 hnd
    cases hx : solveGroup g m cell angle σ (fun v f => lpb v f a) (fun v => q v a) with
    | none => simp [hx] at h
    | some x =>
      simp only [hx, Option.bind_eq_bind, Option.bind_some] at h
      obtain ⟨h1, h2⟩ := ih _ r hnd h
      constructor
      · intro grp hgrp
        rcases List.mem_cons.1 hgrp with rfl | hgrp
        · rw [hx]
          congr 1
          funext v
          rw [h2 grp ha v]; simp
        · exact h1 grp hgrp
      · intro grp hgrp v
        simp only [List.mem_cons, not_or] at hgrp
        rw [h2 grp hgrp.2 v]; simp [hgrp.1]

/-- C53: the solution of each group is the solution of the one-group problem with that group's
data; entries outside the groups are not touched. -/
theorem solve_groupwise (g : GaussElim) (nGroups : Nat) (m : MeshView K) (cell angle : Nat) (σ : K)
    (lpb : Fin 3 → Fin 4 → Nat → K) (q psi0 r : Fin 4 → Nat → K)
    (h : solve g nGroups m cell angle σ lpb q psi0 = some r) :
    (∀ grp < nGroups, solveGroup g m cell angle σ (fun v f => lpb v f grp) (fun v => q v grp)
        = some (fun v => r v grp)) ∧ ∀ grp, nGroups ≤ grp → ∀ v, r v grp = psi0 v grp := by
  obtain ⟨h1, h2⟩ := solve_fold g m cell angle σ lpb q _ psi0 r List.nodup_range h
  exact ⟨fun grp hg => h1 grp (List.mem_range.2 hg),
    fun grp hg v => h2 grp (by simpa using hg) v⟩

/-- C53, non-interference: two solves whose data agree in group `k` (of the first) and group `k'`
(of the second) give the same flux there, whatever the other groups contain, whatever the scratch
array contained and however many groups there are. -/
theorem solve_noninterference (g : GaussElim) (n n' : Nat) (m : MeshView K) (cell angle : Nat)
    (σ : K) (lpb lpb' : Fin 3 → Fin 4 → Nat → K) (q q' psi0 psi0' r r' : Fin 4 → Nat → K)
    (k k' : Nat) (hk : k < n) (hk' : k' < n') (hl : ∀ v f, lpb v f k = lpb' v f k')
    (hq : ∀ v, q v k = q' v k')
    (h : solve g n m cell angle σ lpb q psi0 = some r)
    (h' : solve g n' m cell angle σ lpb' q' psi0' = some r') : ∀ v, r v k = r' v k' := by
  have e := (solve_groupwise g n m cell angle σ lpb q psi0 r h).1 k hk
  have e' := (solve_groupwise g n' m cell angle σ lpb' q' psi0' r' h').1 k' hk'
  have hl' : (fun v f => lpb v f k) = fun v f => lpb' v f k' := by funext v f; exact hl v f
  have hq' : (fun v => q v k) = fun v => q' v k' := funext hq
  rw [hl', hq', e'] at e
  intro v
  have := Option.some.inj e
  exact (congrFun this v).symm

/-- C53/C28: a multi-group solve never fails on a closed cell of positive volume. -/
theorem solve_defined (g : GaussElim) (nGroups : Nat) (m : MeshView K) (cell angle : Nat) (σ : K)
    (lpb : Fin 3 → Fin 4 → Nat → K) (q psi0 : Fin 4 → Nat → K)
    (hV : 0 < m.cellVolume cell) (hσ : 0 ≤ σ)
    (hclosed : ∑ f, m.faceArea cell f * m.omegaDotN angle cell f = 0)
    (hne : 0 < σ ∨ ∃ f, m.faceArea cell f * m.omegaDotN angle cell f ≠ 0) :
    ∃ r, solve g nGroups m cell angle σ lpb q psi0 = some r := by
  unfold solve
  generalize List.range nGroups = l
  induction l generalizing psi0 with
  | nil => exact ⟨psi0, rfl⟩
  | cons a l ih =>
    obtain ⟨x, hx⟩ := solveGroup_defined g m cell angle σ (fun v f => lpb v f a) (fun v => q v a)
      hV hσ hclosed hne
    rw [List.foldlM_cons]
    simp only [hx, Option.bind_eq_bind, Option.bind_some]
    exact ih _

/-! ## C29: where the incoming values come from -/

/-- The vertex tables of a mesh, described through the mesh nodes: `node c v` is the node of vertex
`v` of cell `c`. -/
structure VertexTables (m : MeshView K) (node : Nat → Fin 4 → Nat) : Prop where
  /-- the four nodes of a cell are different -/
  inj : ∀ c v w, node c v = node c w → v = w
  /-- `neighborVrtx` after `cellToFaceVrtx` finds the same node in the neighbour -/
  nbr : ∀ c f n v, m.adjCell c f = some n → v ≠ f →
    node n (m.neighborVrtx c f (m.cellToFaceVrtx c f v)) = node c v

/-- Specification of the incoming value at vertex `v` of face `f`: `w` is the value at the same
mesh node in the neighbouring cell; the boundary array on a partition boundary; zero on a vacuum
boundary. -/
def Inflow (m : MeshView K) (node : Nat → Fin 4 → Nat) (psi : Nat → Fin 4 → Nat → Nat → K)
    (psiBound : Nat → Fin 3 → Nat → Nat → K) (cell angle grp : Nat) (f v : Fin 4) (w : K) : Prop :=
  (∀ n, m.adjCell cell f = some n → ∃ v', node n v' = node cell v ∧ w = psi grp v' angle n) ∧
  (m.adjCell cell f = none → m.adjRank cell f ≠ none →
    w = psiBound grp (m.cellToFaceVrtx cell f v) angle (m.side cell f)) ∧
  (m.adjCell cell f = none → m.adjRank cell f = none → w = 0)

/-- C29: one cell update makes the flux of the cell in every group satisfy the documented system,
with incoming values the neighbours' values at the same node, the boundary array on partition
boundaries, and zero on vacuum boundaries; and it changes nothing else. -/
theorem update_dg (g : GaussElim) (nGroups : Nat) (m : MeshView K) (node : Nat → Fin 4 → Nat)
    (ht : VertexTables m node) (sigmaT : Nat → K) (source psi psi' : Nat → Fin 4 → Nat → Nat → K)
    (psiBound : Nat → Fin 3 → Nat → Nat → K) (cell angle : Nat) (scratch : Fin 4 → Nat → K)
    (harea : ∀ f, 0 ≤ m.faceArea cell f)
    (h : update g nGroups m sigmaT source psiBound cell angle scratch psi = some psi') :
    (∀ grp < nGroups, ∃ inc : Fin 4 → Fin 4 → K,
      (∀ f v, v ≠ f → m.faceArea cell f * m.omegaDotN angle cell f < 0 →
        Inflow m node psi psiBound cell angle grp f v (inc f v)) ∧
      Spec.DG (m.cellVolume cell) (sigmaT cell)
        (fun f => m.faceArea cell f * m.omegaDotN angle cell f) inc
        (fun v => source grp v angle cell) (fun v => psi' grp v angle cell)) ∧
    (∀ grp v a c, (c ≠ cell ∨ a ≠ angle ∨ nGroups ≤ grp) → psi' grp v a c = psi grp v a c) := by
  unfold update at h
  simp only [Option.bind_eq_bind] at h
  obtain ⟨r, hr, hpsi⟩ := Option.bind_eq_some_iff.1 h
  have hpsi := Option.some.inj hpsi
  constructor
  · intro grp hg
    have hs := (solve_groupwise g nGroups m cell angle _ _ _ _ r hr).1 grp hg
    have hdg := solveGroup_dg g m cell angle _ _ _ _ hs
    refine ⟨fun f v => populateLocalPsiBound m angle cell psi psiBound
      (m.cellToFaceVrtx cell f v) f grp, ?_, ?_⟩
    rotate_left
    · have e : (fun v => psi' grp v angle cell) = fun v => r v grp := by
        funext v; rw [← hpsi]; simp [hg]
      rw [e]
      exact hdg
    · intro f v hv hneg
      have hin : m.isIncoming angle cell f := by
        unfold MeshView.isIncoming MeshView.isOutgoing
        intro hpos
        exact absurd hneg (not_lt.2 (mul_nonneg (harea f) hpos.le))
      refine ⟨?_, ?_, ?_⟩
      · intro n hn
        refine ⟨_, ht.nbr cell f n v hn hv, ?_⟩
        simp [populateLocalPsiBound, hin, hn]
      · intro hn hrk
        obtain ⟨rk, hrk'⟩ := Option.ne_none_iff_exists'.1 hrk
        simp [populateLocalPsiBound, hin, hn, hrk']
      · intro hn hrk
        simp [populateLocalPsiBound, hin, hn, hrk]
  · intro grp v a c hne
    rw [← hpsi]
    have : ¬ (c = cell ∧ a = angle ∧ grp < nGroups) := by
      rintro ⟨h1, h2, h3⟩
      rcases hne with h | h | h
      · exact h h1
      · exact h h2
      · omega
    simp [this]

/-! ## C30 -/

/-- C30 in one cell: net flow through the faces plus absorption equals the source. -/
theorem balance_cell (V σ : K) (area Q psi : Vec4 K) (inc : Fin 4 → Fin 4 → K)
    (hclosed : ∑ f, area f = 0) (h : Spec.DG V σ area inc Q psi) :
    (∑ f, Spec.faceFlow area psi inc f) + σ * Spec.cellIntegral V psi
      = Spec.cellIntegral V Q := by
  have h0 := h 0
  have h1 := h 1
  have h2 := h 2
  have h3 := h 3
  have hc : area 0 + area 1 + area 2 + area 3 = 0 := by
    rw [← hclosed]; simp [Fin.sum_univ_succ]; ring
  unfold Spec.DGRow at h0 h1 h2 h3
  unfold Spec.faceFlow Spec.cellIntegral
  generalize Spec.upwind area psi inc = u at *
  simp [er0, er1, er2, er3, Fin.sum_univ_succ] at h0 h1 h2 h3 ⊢
  linear_combination h0 + h1 + h2 + h3 - (psi 0 + psi 1 + psi 2 + psi 3) / 12 * hc

/-- Two cells that share a face exchange exactly opposite flows. -/
theorem flow_opposite {N : Type*} (area area' psi psi' : Vec4 K) (inc inc' : Fin 4 → Fin 4 → K)
    (node node' : Fin 4 → N) (f f' : Fin 4)
    (hinj : ∀ v w, node v = node w → v = w) (hinj' : ∀ v w, node' v = node' w → v = w)
    (hmatch : ∀ v, v ≠ f → ∃ w, w ≠ f' ∧ node' w = node v)
    (hmatch' : ∀ w, w ≠ f' → ∃ v, v ≠ f ∧ node v = node' w)
    (harea : area' f' = - area f) (hpos : 0 < area f)
    (hinc : ∀ w v, w ≠ f' → node v = node' w → inc' f' w = psi v) :
    Spec.faceFlow area psi inc f + Spec.faceFlow area' psi' inc' f' = 0 := by
  have hs : (∑ w ∈ Finset.univ.erase f', Spec.upwind area' psi' inc' f' w)
      = ∑ v ∈ Finset.univ.erase f, Spec.upwind area psi inc f v := by
    refine Finset.sum_bij (fun w hw => (hmatch' w (Finset.mem_erase.1 hw).1).choose) ?_ ?_ ?_ ?_
    · intro w hw
      have := (hmatch' w (Finset.mem_erase.1 hw).1).choose_spec
      exact Finset.mem_erase.2 ⟨this.1, Finset.mem_univ _⟩
    · intro w hw w2 hw2 e
      have h1 := (hmatch' w (Finset.mem_erase.1 hw).1).choose_spec
      have h2 := (hmatch' w2 (Finset.mem_erase.1 hw2).1).choose_spec
      apply hinj'
      rw [← h1.2, ← h2.2, e]
    · intro v hv
      obtain ⟨w, hw, e⟩ := hmatch v (Finset.mem_erase.1 hv).1
      refine ⟨w, Finset.mem_erase.2 ⟨hw, Finset.mem_univ _⟩, ?_⟩
      have h1 := (hmatch' w hw).choose_spec
      apply hinj
      rw [h1.2, e]
    · intro w hw
      have h1 := (hmatch' w (Finset.mem_erase.1 hw).1).choose_spec
      have hneg : ¬ 0 < area' f' := by rw [harea]; simp [hpos.le]
      unfold Spec.upwind
      rw [if_neg hneg, if_pos hpos]
      exact hinc w _ (Finset.mem_erase.1 hw).1 h1.2
  unfold Spec.faceFlow
  rw [hs, harea]
  ring

/-- C30 on a mesh: if every cell satisfies its system with incoming values taken from the
neighbours, flows through interior faces cancel and leakage plus absorption equals the source.
`partner c f` is the cell and face on the other side (`none` on the boundary). -/
theorem balance_mesh {ι N : Type*} [DecidableEq ι] (cells : Finset ι) (V σ : ι → K)
    (area Q psi : ι → Vec4 K) (inc : ι → Fin 4 → Fin 4 → K) (node : ι → Fin 4 → N)
    (partner : ι → Fin 4 → Option (ι × Fin 4))
    (hclosed : ∀ c ∈ cells, ∑ f, area c f = 0)
    (hdg : ∀ c ∈ cells, Spec.DG (V c) (σ c) (area c) (inc c) (Q c) (psi c))
    (hinj : ∀ c ∈ cells, ∀ v w, node c v = node c w → v = w)
    (hpart : ∀ c ∈ cells, ∀ f c' f', partner c f = some (c', f') →
      c' ∈ cells ∧ partner c' f' = some (c, f) ∧ area c' f' = - area c f ∧
      ∀ v, v ≠ f → ∃ w, w ≠ f' ∧ node c' w = node c v)
    (hinc : ∀ c ∈ cells, ∀ f c' f', partner c f = some (c', f') → area c f < 0 →
      ∀ v w, v ≠ f → node c' w = node c v → inc c f v = psi c' w) :
    (∑ p ∈ (cells ×ˢ Finset.univ).filter (fun p => partner p.1 p.2 = none),
        Spec.faceFlow (area p.1) (psi p.1) (inc p.1) p.2)
      + ∑ c ∈ cells, σ c * Spec.cellIntegral (V c) (psi c)
      = ∑ c ∈ cells, Spec.cellIntegral (V c) (Q c) := by
  have hcells : (∑ c ∈ cells, ∑ f, Spec.faceFlow (area c) (psi c) (inc c) f)
      + ∑ c ∈ cells, σ c * Spec.cellIntegral (V c) (psi c)
      = ∑ c ∈ cells, Spec.cellIntegral (V c) (Q c) := by
    rw [← Finset.sum_add_distrib]
    exact Finset.sum_congr rfl fun c hc =>
      balance_cell (V c) (σ c) (area c) (Q c) (psi c) (inc c) (hclosed c hc) (hdg c hc)
  rw [← hcells]
  congr 1
  have hsum : ∑ c ∈ cells, ∑ f, Spec.faceFlow (area c) (psi c) (inc c) f
      = ∑ p ∈ cells ×ˢ Finset.univ, Spec.faceFlow (area p.1) (psi p.1) (inc p.1) p.2 := by
    rw [Finset.sum_product]
  rw [hsum, ← Finset.sum_filter_add_sum_filter_not (cells ×ˢ Finset.univ)
    (fun p => partner p.1 p.2 = none)]
  have hint : ∑ p ∈ (cells ×ˢ Finset.univ).filter (fun p => ¬ partner p.1 p.2 = none),
      Spec.faceFlow (area p.1) (psi p.1) (inc p.1) p.2 = 0 := by
    have pair : ∀ c ∈ cells, ∀ f c' f', partner c f = some (c', f') →
        Spec.faceFlow (area c) (psi c) (inc c) f
          + Spec.faceFlow (area c') (psi c') (inc c') f' = 0 := by
      intro c hc f c' f' hp
      obtain ⟨hc', hp', ha, hm⟩ := hpart c hc f c' f' hp
      obtain ⟨_, _, ha', hm'⟩ := hpart c' hc' f' c f hp'
      rcases lt_trichotomy (area c f) 0 with h | h | h
      · rw [add_comm]
        have hpos : 0 < area c' f' := by rw [ha]; linarith
        refine flow_opposite _ _ _ _ _ _ (node c') (node c) f' f (hinj c' hc') (hinj c hc) hm' hm
          ha' hpos ?_
        intro w v hw e
        exact hinc c hc f c' f' hp h w v hw e
      · unfold Spec.faceFlow; rw [ha, h]; ring
      · refine flow_opposite _ _ _ _ _ _ (node c) (node c') f f' (hinj c hc) (hinj c' hc') hm hm'
          ha h ?_
        intro w v hw e
        exact hinc c' hc' f' c f hp' (by rw [ha]; linarith) w v hw e
    refine Finset.sum_involution
      (fun p hp => (partner p.1 p.2).get (Option.ne_none_iff_isSome.1 (Finset.mem_filter.1 hp).2))
      ?_ ?_ ?_ ?_
    · intro p hp
      have hc := (Finset.mem_product.1 (Finset.mem_filter.1 hp).1).1
      exact pair p.1 hc p.2 _ _ (by simp)
    · intro p hp hne he
      have hc := (Finset.mem_product.1 (Finset.mem_filter.1 hp).1).1
      have := pair p.1 hc p.2 p.1 p.2 (by
        rw [← Option.some_get (Option.ne_none_iff_isSome.1 (Finset.mem_filter.1 hp).2), he])
      apply hne
      linarith
    · intro p hp
      have hc := (Finset.mem_product.1 (Finset.mem_filter.1 hp).1).1
      obtain ⟨hc', hp', _, _⟩ := hpart p.1 hc p.2
        ((partner p.1 p.2).get (Option.ne_none_iff_isSome.1 (Finset.mem_filter.1 hp).2)).1
        ((partner p.1 p.2).get (Option.ne_none_iff_isSome.1 (Finset.mem_filter.1 hp).2)).2 (by simp)
      refine Finset.mem_filter.2 ⟨Finset.mem_product.2 ⟨hc', Finset.mem_univ _⟩, ?_⟩
      rw [hp']; simp
    · intro p hp
      have hc := (Finset.mem_product.1 (Finset.mem_filter.1 hp).1).1
      obtain ⟨hc', hp', _, _⟩ := hpart p.1 hc p.2
        ((partner p.1 p.2).get (Option.ne_none_iff_isSome.1 (Finset.mem_filter.1 hp).2)).1
        ((partner p.1 p.2).get (Option.ne_none_iff_isSome.1 (Finset.mem_filter.1 hp).2)).2 (by simp)
      simp [hp']
  rw [hint, add_zero]

/-! ## C31 -/

/-- C31: if the source is `σ` times a constant `k` and every incoming value is `k`, the computed
flux is `k` at all four vertices, with any solver option. -/
theorem constant_flux (g : GaussElim) (m : MeshView K) (cell angle : Nat) (σ k : K)
    (lpb : Fin 3 → Fin 4 → K) (q x : Vec4 K)
    (hclosed : ∑ f, m.faceArea cell f * m.omegaDotN angle cell f = 0)
    (hq : ∀ v, q v = σ * k)
    (hin : ∀ f v, m.faceArea cell f * m.omegaDotN angle cell f < 0 → v ≠ f →
      lpb (m.cellToFaceVrtx cell f v) f = k)
    (h : solveGroup g m cell angle σ lpb q = some x) : ∀ v, x v = k := by
  obtain ⟨hx, hd⟩ := gaussElim4_sound g _ _ x h
  have hk : (Matrix.of (calcOutgoingFlux (signedArea m angle cell)
      (calcVolumeIntegrals (m.cellVolume cell) (signedArea m angle cell) σ))).mulVec
      (fun _ => k) = calcIncomingFlux (m.cellToFaceVrtx cell) lpb (signedArea m angle cell)
        (calcSource (m.cellVolume cell) q) := by
    rw [assembled_is_dg]
    rw [dg_congr _ _ _ _ (fun _ _ => k) _ _ (by
      intro f v hf hv; exact hin f v hf hv)]
    have hc : signedArea m angle cell 0 + signedArea m angle cell 1 + signedArea m angle cell 2
        + signedArea m angle cell 3 = 0 := by
      rw [← hclosed]; simp [Fin.sum_univ_succ, signedArea]; ring
    have hu : Spec.upwind (signedArea m angle cell) (fun _ => k) (fun _ _ => k) = fun _ _ => k := by
      funext f v; simp [Spec.upwind]
    intro i
    unfold Spec.DGRow
    rw [hu]
    generalize signedArea m angle cell = a at hc
    fin_cases i <;> simp [er0, er1, er2, er3, hq] <;> linear_combination (4 * k / 12) * hc
  have hu : IsUnit (Matrix.of (calcOutgoingFlux (signedArea m angle cell)
      (calcVolumeIntegrals (m.cellVolume cell) (signedArea m angle cell) σ))).det :=
    isUnit_iff_ne_zero.2 hd
  have e := congrArg ((Matrix.of (calcOutgoingFlux (signedArea m angle cell)
      (calcVolumeIntegrals (m.cellVolume cell) (signedArea m angle cell) σ)))⁻¹).mulVec
      (hx.trans hk.symm)
  simp only [Matrix.mulVec_mulVec, Matrix.nonsing_inv_mul _ hu, Matrix.one_mulVec] at e
  exact fun v => congrFun e v

/-! ### Concrete cases -/

/-- A one-cell mesh with faces of area 1 and `Ω·n` = 1, 1, -1, -1. -/
def exMesh : MeshView ℚ where
  adjCell := fun _ _ => none
  adjRank := fun _ f => if f = 2 then some 1 else none
  side := fun _ f => f.val
  neighborVrtx := fun _ _ fv => fv.castSucc
  cellToFaceVrtx := fun _ f v => if v < f then Fin.ofNat 3 v.val else Fin.ofNat 3 (v.val - 1)
  omegaDotN := fun _ _ f => if f < 2 then 1 else -1
  cellVolume := fun _ => 1
  faceArea := fun _ _ => 1

example : (∑ f, exMesh.faceArea 0 f * exMesh.omegaDotN 0 0 f = 0) ∧
    solveGroup .noPivot exMesh 0 0 2 (fun _ _ => 3) (fun _ => 6) = some (fun _ => 3) ∧
    solveGroup .original exMesh 0 0 2 (fun _ _ => 3) (fun _ => 6) = some (fun _ => 3) := by
  refine ⟨?_, ?_, ?_⟩ <;> decide +kernel

/-- `update` with a partition-boundary inflow of 5 on face 2 and vacuum on face 3. -/
example : (update .cramerIntel 1 exMesh (fun _ => 1) (fun _ _ _ _ => 0) (fun _ _ _ _ => 5) 0 0
    (fun _ _ => 0) (fun _ _ _ _ => 0)).isSome = true := by decide +kernel

example : VertexTables exMesh (fun _ v => v.val) where
  inj := by intro c v w h; exact Fin.ext h
  nbr := by intro c f n v h; simp [exMesh] at h

/-- Two cells sharing face 0 (cell 0's face 0 is outgoing, cell 1's incoming) with constant flux 1
satisfy every hypothesis of `balance_mesh`, and the conclusion reads `4 · 1/4 · … = …` with nonzero
absorption. -/
def exArea (c : Fin 2) (f : Fin 4) : ℚ := (if c = 0 then 1 else -1) * (if f < 2 then 1 else -1)

example :
    (∑ p ∈ ((Finset.univ : Finset (Fin 2)) ×ˢ Finset.univ).filter
        (fun p => (if p.2 = 0 then some ((1 - p.1 : Fin 2), (0 : Fin 4)) else none) = none),
        Spec.faceFlow (exArea p.1) (fun _ => 1) (fun _ _ => 1) p.2)
      + ∑ _c : Fin 2, 2 * Spec.cellIntegral (1 : ℚ) (fun _ => 1)
      = ∑ _c : Fin 2, Spec.cellIntegral (1 : ℚ) (fun _ => 2) := by
  refine balance_mesh Finset.univ (fun _ => 1) (fun _ => 2) exArea (fun _ _ => 2)
    (fun _ _ => 1) (fun _ _ _ => 1)
    (fun c v => if v = 0 then 10 + c.val else v.val)
    (fun c f => if f = 0 then some (1 - c, 0) else none) ?_ ?_ ?_ ?_ ?_
  · decide +kernel
  · intro c _ i
    unfold Spec.DGRow
    revert c i
    decide +kernel
  · decide +kernel
  · decide +kernel
  · intros; rfl

end Verif.Transport
