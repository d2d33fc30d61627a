import Verif.Program.Jacobi
import Verif.Source.Null
import Verif.TychoMesh.Balance

/-!
# The mesh of two cells with PBJSI and PBJOuter (C82)

That the scalar flux of the solution does not vanish there is not assumed but shown: without scalar flux the energy of the
flux would be too small to carry the source out of the mesh.
-/
set_option linter.unusedSectionVars false
set_option linter.unusedVariables false
namespace Verif.Program

open Verif.MeshFile Verif.TychoMesh Verif.Geometry Verif.Geometry.Spec Verif.Program.Spec
open Verif.Traverse (Psi SweepRun Bound)
open Verif.Input (Str Settings readInput SweepType)
open Verif.Source
open Verif.Domain (FullDG Thick psiBoundSize Converged gsum)

variable {W : World} {C : Machine} {deck : Deck} {M : Mode} {P : ParallelMesh} {T : Nat → Mesh} {D : Nat → RankData}
  {p : Problem ℝ} {sS : Nat → ℝ}

theorem unit_dot {d : Verif.Quadrature.Dir} {n : Pt} (h1 : d.xi ^ 2 + d.eta ^ 2 + d.mu ^ 2 = 1)
    (h2 : n 0 ^ 2 + n 1 ^ 2 + n 2 ^ 2 = 1) : |d.xi * n 0 + d.eta * n 1 + d.mu * n 2| ≤ 1 := by
  rw [abs_le]
  constructor
  · nlinarith [sq_nonneg (d.xi + n 0), sq_nonneg (d.eta + n 1), sq_nonneg (d.mu + n 2)]
  · nlinarith [sq_nonneg (d.xi - n 0), sq_nonneg (d.eta - n 1), sq_nonneg (d.mu - n 2)]

theorem two_volumes (Ds : Describes twoVal deck twoMesh p sS) : p.volume 0 = 1000 / 3 ∧ p.volume 1 = 500 / 3 := by
  have h0 := Ds.volume 0 (by decide)
  have h1 := Ds.volume 1 (by decide)
  rw [two_pts0, Matrix.det_fin_three] at h0
  rw [two_pts1, Matrix.det_fin_three] at h1
  simp at h0 h1
  rw [h0, h1]
  norm_num

theorem face_le (Ds : Describes twoVal deck twoMesh p sS) {c : Nat} (hc : c < 2) (f j : Fin 4) (hj : j ≠ f) (n : Pt)
    (hn : OutwardUnitNormal (pts twoVal twoMesh c) f n) (hh : 3 * p.volume c ≤
      150 * (n 0 * (pts twoVal twoMesh c j 0 - pts twoVal twoMesh c f 0) + n 1 * (pts twoVal twoMesh c j 1 - pts twoVal twoMesh c f 1)
        + n 2 * (pts twoVal twoMesh c j 2 - pts twoVal twoMesh c f 2)))
    {a : Nat} {d : Verif.Quadrature.Dir} (hd : deck.dirs[a]? = some d) (hu : d.xi ^ 2 + d.eta ^ 2 + d.mu ^ 2 = 1)
    (hA : 0 ≤ p.area c f) (hV : 0 < p.volume c) : |p.area c f * p.omegaDotN a c f| ≤ 150 := by
  have e1 := Ds.area c hc f n hn j hj
  rw [Fin.sum_univ_three] at e1
  set h := n 0 * (pts twoVal twoMesh c j 0 - pts twoVal twoMesh c f 0) + n 1 * (pts twoVal twoMesh c j 1 - pts twoVal twoMesh c f 1)
    + n 2 * (pts twoVal twoMesh c j 2 - pts twoVal twoMesh c f 2)
  have hpos : 0 < h := by linarith
  have hle : p.area c f ≤ 150 := by
    have : p.area c f * h ≤ 150 * h := by linarith
    exact le_of_mul_le_mul_right this hpos
  rw [Ds.omega c hc f n hn a d hd, abs_mul, abs_of_nonneg hA]
  have := unit_dot hu hn.1
  nlinarith [abs_nonneg (d.xi * n 0 + d.eta * n 1 + d.mu * n 2)]

theorem two_faces (Ds : Describes twoVal deck twoMesh p sS) (hph : p.Physical twoMesh) {a : Nat} {d : Verif.Quadrature.Dir}
    (hd : deck.dirs[a]? = some d) (hu : d.xi ^ 2 + d.eta ^ 2 + d.mu ^ 2 = 1) {c : Nat} (hc : c < 2) (f : Fin 4) :
    |p.area c f * p.omegaDotN a c f| ≤ 150 := by
  have hA := hph.area c hc f
  have hV := hph.volume c hc
  obtain ⟨v0, v1⟩ := two_volumes Ds
  have hs3 : √(3 : ℝ) ^ 2 = 3 := Real.sq_sqrt (by norm_num)
  have hs0 : 0 < √(3 : ℝ) := Real.sqrt_pos.2 (by norm_num)
  interval_cases c
  · match f, hA with
    | 0, hA =>
      refine face_le Ds hc 0 1 (by decide) _ two_normal0 ?_ hd hu hA hV
      rw [v0, two_pts0]; simp; norm_num
    | 1, hA =>
      refine face_le Ds hc 1 0 (by decide) ![2 / 3, 2 / 3, 1 / 3] ⟨by simp; norm_num, ?_, ?_⟩ ?_ hd hu hA hV
      · intro i j hi hj; rw [two_pts0]; fin_cases i <;> fin_cases j <;> simp at hi hj ⊢ <;> norm_num
      · intro j hj; rw [two_pts0]; fin_cases j <;> simp at hj ⊢ <;> norm_num
      · rw [v0, two_pts0]; simp; norm_num
    | 2, hA =>
      refine face_le Ds hc 2 0 (by decide) ![-1, 0, 0] ⟨by simp, ?_, ?_⟩ ?_ hd hu hA hV
      · intro i j hi hj; rw [two_pts0]; fin_cases i <;> fin_cases j <;> simp at hi hj ⊢
      · intro j hj; rw [two_pts0]; fin_cases j <;> simp at hj ⊢ <;> norm_num
      · rw [v0, two_pts0]; simp; norm_num
    | 3, hA =>
      refine face_le Ds hc 3 0 (by decide) ![0, -1, 0] ⟨by simp, ?_, ?_⟩ ?_ hd hu hA hV
      · intro i j hi hj; rw [two_pts0]; fin_cases i <;> fin_cases j <;> simp at hi hj ⊢
      · intro j hj; rw [two_pts0]; fin_cases j <;> simp at hj ⊢ <;> norm_num
      · rw [v0, two_pts0]; simp; norm_num
  · match f, hA with
    | 0, hA =>
      refine face_le Ds hc 0 1 (by decide) _ two_normal1 ?_ hd hu hA hV
      rw [v1, two_pts1]; simp; norm_num
    | 1, hA =>
      have hi3 : (√(3 : ℝ))⁻¹ * √3 = 1 := inv_mul_cancel₀ hs0.ne'
      have hi0 : 0 < (√(3 : ℝ))⁻¹ := inv_pos.2 hs0
      have hi2 : 3 * (√(3 : ℝ))⁻¹ ^ 2 = 1 := by rw [inv_pow, hs3]; norm_num
      refine face_le Ds hc 1 0 (by decide) ![(√3)⁻¹, (√3)⁻¹, -(√3)⁻¹] ⟨?_, ?_, ?_⟩ ?_ hd hu hA hV
      · simp only [Matrix.cons_val_zero, Matrix.cons_val_one, Matrix.cons_val]; nlinarith
      · intro i j hi hj; rw [two_pts1]; fin_cases i <;> fin_cases j <;> simp at hi hj ⊢ <;> ring
      · intro j hj; rw [two_pts1]; fin_cases j <;> simp at hj ⊢ <;> nlinarith
      · rw [v1, two_pts1]; simp; nlinarith
    | 2, hA =>
      refine face_le Ds hc 2 0 (by decide) ![-1, 0, 0] ⟨by simp, ?_, ?_⟩ ?_ hd hu hA hV
      · intro i j hi hj; rw [two_pts1]; fin_cases i <;> fin_cases j <;> simp at hi hj ⊢
      · intro j hj; rw [two_pts1]; fin_cases j <;> simp at hj ⊢ <;> norm_num
      · rw [v1, two_pts1]; simp; norm_num
    | 3, hA =>
      refine face_le Ds hc 3 0 (by decide) ![0, -1, 0] ⟨by simp, ?_, ?_⟩ ?_ hd hu hA hV
      · intro i j hi hj; rw [two_pts1]; fin_cases i <;> fin_cases j <;> simp at hi hj ⊢
      · intro j hj; rw [two_pts1]; fin_cases j <;> simp at hj ⊢ <;> norm_num
      · rw [v1, two_pts1]; simp; norm_num

theorem two_radius {c : Nat} (hc : c < 2) (v : Fin 4) : 0 < radius (pts twoVal twoMesh c v) ∧ radius (pts twoVal twoMesh c v) ≤ 20 := by
  unfold radius
  constructor
  · refine Real.sqrt_pos.2 ?_
    interval_cases c
    · rw [two_pts0]; fin_cases v <;> simp <;> norm_num
    · rw [two_pts1]; fin_cases v <;> simp <;> norm_num
  · rw [Real.sqrt_le_left (by norm_num)]
    interval_cases c
    · rw [two_pts0]; fin_cases v <;> simp <;> norm_num
    · rw [two_pts1]; fin_cases v <;> simp <;> norm_num

/-- The isotropic part of the source. -/
noncomputable def twoIso (p : Problem ℝ) (sS : Nat → ℝ) (c : Nat) (v : Fin 4) : ℝ :=
  (p.sigmaT c - sS c) * (1 - radius (pts twoVal twoMesh c v) / 30)

theorem two_source (Ds : Describes twoVal deck twoMesh p sS) {a : Nat} {d : Verif.Quadrature.Dir}
    (hd : deck.dirs[a]? = some d) (hu : d.xi ^ 2 + d.eta ^ 2 + d.mu ^ 2 = 1) {g : Nat} (hg : g < deck.nGroups) {c : Nat} (hc : c < 2)
    (v : Fin 4) : |p.source g v a c - twoIso p sS c v| ≤ 1 / 30 := by
  obtain ⟨r0, r1⟩ := two_radius hc v
  have e := (Ds.source c hc a d hd g hg v).1 (by linarith)
  rw [e]
  set x := pts twoVal twoMesh c v
  have hr2 : radius x ^ 2 = (x 0 - 50) ^ 2 + (x 1 - 50) ^ 2 + (x 2 - 50) ^ 2 := Real.sq_sqrt (by positivity)
  have h1 : |(x 0 - 50) * d.xi + (x 1 - 50) * d.eta + (x 2 - 50) * d.mu| ≤ radius x := by
    rw [abs_le]
    have cs : ((x 0 - 50) * d.xi + (x 1 - 50) * d.eta + (x 2 - 50) * d.mu) ^ 2 ≤ radius x ^ 2 := by
      rw [hr2]
      nlinarith [sq_nonneg ((x 0 - 50) * d.eta - (x 1 - 50) * d.xi), sq_nonneg ((x 0 - 50) * d.mu - (x 2 - 50) * d.xi),
        sq_nonneg ((x 1 - 50) * d.mu - (x 2 - 50) * d.eta)]
    exact abs_le.1 (abs_le_of_sq_le_sq cs r0.le)
  have e2 : -((x 0 - 50) * d.xi + (x 1 - 50) * d.eta + (x 2 - 50) * d.mu) / (30 * radius x) + (p.sigmaT c - sS c) * (1 - radius x / 30)
      - twoIso p sS c v = -((x 0 - 50) * d.xi + (x 1 - 50) * d.eta + (x 2 - 50) * d.mu) / (30 * radius x) := by
    unfold twoIso
    ring
  rw [e2, abs_div, abs_neg, abs_of_pos (by linarith : 0 < 30 * radius x), div_le_iff₀ (by linarith)]
  linarith

/-! ### The energy of the solution on the serial mesh -/

section
variable {val : Nat → ℝ} {m : SerialMesh} {κ : ℝ} (h : Ready val deck m M P T D) (F : Fits val m) (hs : Sensible val deck m)
  (Ds : Describes val deck m p sS) (htr : p.Transversal m) (hκ : Subcritical deck κ)
  {psiS : Psi ℝ} (hS : p.Scatter m (scattering deck sS) psiS) {g : Nat} (hg : g < deck.nGroups) {τ : ℝ}
  (hσ : ∀ c < m.numCells, 0 < p.sigmaT c)

/-- Scalar flux on the serial mesh. -/
noncomputable def serialPhi (deck : Deck) (psi : Psi ℝ) (g : Nat) (v : Fin 4) (c : Nat) : ℝ :=
  ∑ a ∈ Finset.range deck.dirs.length, psi g v a c * ((deck.dirs[a]?).map fun d => d.w).getD 0

/-- Energy of a flux in a group on the serial mesh. -/
noncomputable def serialEnergy (deck : Deck) (p : Problem ℝ) (m : SerialMesh) (psi : Psi ℝ) (g : Nat) : ℝ :=
  ∑ a ∈ Finset.range deck.dirs.length, ((deck.dirs[a]?).map fun d => d.w).getD 0 *
    ∑ c ∈ Finset.range m.numCells, p.sigmaT c * p.volume c * cellM (fun v => psi g v a c) fun v => psi g v a c

include h F hs Ds htr hκ hS hg hσ

theorem serial_phi_energy (iso : Nat → Fin 4 → ℝ)
    (hτ : ∀ c < m.numCells, ∀ a < deck.dirs.length, ∀ v, |p.source g v a c - iso c v| ≤ τ) :
    serialEnergy deck p m psiS g ≤ weights deck * (∑ c ∈ Finset.range m.numCells, p.volume c / p.sigmaT c * τ ^ 2) +
      2 * ∑ c ∈ Finset.range m.numCells, p.volume c * cellM (fun v => iso c v + sS c / (4 * Real.pi) * serialPhi deck psiS g v c)
        fun v => serialPhi deck psiS g v c := by
  have hph := describes_physical h.created.tets F hs Ds
  have hR := h.runOf F hs Ds
  have hX := h.scatOf F hs Ds
  have hPh := run_physical h.created h.loaded hph hR
  have hL := run_linked h.created h.ranks h.loaded hph hR
  have hN := run_nodes h.created h.loaded hR
  have hMa := run_matched h.created h.loaded hph (describes_matched h.created.tets F hs Ds) hR htr
  have hr := run_ratio h.created h.loaded hR hX (describes_ratio h.created.tets Ds hκ)
  have hang : (M.run deck T D).nAngles = deck.dirs.length := hR.angles.trans Ds.angles
  have hW : ∑ a ∈ Finset.range (M.run deck T D).nAngles, (scatOf deck D).wt a = weights deck := by
    rw [hang]; exact weight_sum deck sS
  let star : Nat → Psi ℝ := fun r g v a i => psiS g v a (((T r).getLGCell i).getD 0)
  have hst : ∀ r i c, IsCell P r i c → ∀ g v a, star r g v a i = psiS g v a c := by
    intro r i c hi g v a
    show psiS g v a (((T r).getLGCell i).getD 0) = _
    rw [(isCell_lg h.created h.loaded hi).1]; rfl
  have hsc := (scatters_iff (psi := star) h.created h.loaded hR hX hst).2 hS
  have hcell : ∀ r < M.n, ∀ i < (T r).nCells, ∃ c, IsCell P r i c ∧ (T r).getLGCell i = some c ∧ c < m.numCells := by
    intro r hr i hi
    obtain ⟨c, hc⟩ := isCell_of_lt h.created h.loaded hr hi
    obtain ⟨k1, -, -, k4⟩ := isCell_lg h.created h.loaded hc
    exact ⟨c, hc, k1, k4⟩
  have key := phi_energy (g := g) hPh hL hN hMa hr hsc hg (fun r i => iso (((T r).getLGCell i).getD 0)) (τ := τ) ?_ ?_
  · rw [hW, hang] at key
    have e1 : ∀ a, energyAt (M.run deck T D) a g star =
        ∑ c ∈ Finset.range m.numCells, p.sigmaT c * p.volume c * cellM (fun v => psiS g v a c) fun v => psiS g v a c := by
      intro a
      refine sum_cells h.created h.loaded _ _ fun r i c hi => ?_
      obtain ⟨k1, k2, -, -⟩ := isCell_lg h.created h.loaded hi
      rw [hR.sigma r k2 i c k1, hR.volume r k2 i c k1]
      simp only [hst r i c hi]
    have e2 : (meshSum (M.run deck T D) fun r c => ((M.run deck T D).view r).cellVolume c / (M.run deck T D).sigmaT r c * τ ^ 2) =
        ∑ c ∈ Finset.range m.numCells, p.volume c / p.sigmaT c * τ ^ 2 := by
      refine sum_cells h.created h.loaded _ _ fun r i c hi => ?_
      obtain ⟨k1, k2, -, -⟩ := isCell_lg h.created h.loaded hi
      rw [hR.sigma r k2 i c k1, hR.volume r k2 i c k1]
    have e3 : (meshSum (M.run deck T D) fun r c => ((M.run deck T D).view r).cellVolume c * cellM
        (fun v => iso (((T r).getLGCell c).getD 0) v + (scatOf deck D).sigmaS r c / (4 * (scatOf deck D).mPi) *
          scal (M.run deck T D) (scatOf deck D) star r g v c) fun v => scal (M.run deck T D) (scatOf deck D) star r g v c) =
        ∑ c ∈ Finset.range m.numCells, p.volume c * cellM (fun v => iso c v + sS c / (4 * Real.pi) * serialPhi deck psiS g v c)
          fun v => serialPhi deck psiS g v c := by
      refine sum_cells h.created h.loaded _ _ fun r i c hi => ?_
      obtain ⟨k1, k2, -, -⟩ := isCell_lg h.created h.loaded hi
      have k3 : ∀ v, scal (M.run deck T D) (scatOf deck D) star r g v i = serialPhi deck psiS g v c := by
        intro v
        rw [scal_serial h.created h.loaded hR hX hst hi, Ds.angles]
        rfl
      rw [hR.volume r k2 i c k1, hX.sigma r k2 i c k1, hX.pi, k1]
      simp only [k3]
      rfl
    rw [e2, e3] at key
    simp only [e1] at key
    exact key
  · intro r hr i hi
    rw [hR.ranks] at hr
    rw [hR.cells r hr] at hi
    obtain ⟨c, -, k1, k2⟩ := hcell r hr i hi
    rw [hR.sigma r hr i c k1]
    exact hσ c k2
  · intro r hr i hi a ha v
    rw [hR.ranks] at hr
    rw [hR.cells r hr] at hi
    obtain ⟨c, -, k1, k2⟩ := hcell r hr i hi
    rw [hR.source r hr i c k1 g (by rw [Ds.groups]; exact hg) v a (by rw [← hR.angles]; exact ha), k1]
    exact hτ c k2 a (by rw [← hang]; exact ha) v

theorem serial_star_energy (hκ1 : κ < 1)
    (hτ : ∀ c < m.numCells, ∀ a < deck.dirs.length, ∀ v, |p.source g v a c| ≤ τ) :
    (1 - κ) ^ 2 * serialEnergy deck p m psiS g ≤ weights deck * ∑ c ∈ Finset.range m.numCells, p.volume c / p.sigmaT c * τ ^ 2 := by
  have hph := describes_physical h.created.tets F hs Ds
  have hR := h.runOf F hs Ds
  have hX := h.scatOf F hs Ds
  have hPh := run_physical h.created h.loaded hph hR
  have hL := run_linked h.created h.ranks h.loaded hph hR
  have hN := run_nodes h.created h.loaded hR
  have hMa := run_matched h.created h.loaded hph (describes_matched h.created.tets F hs Ds) hR htr
  have hr := run_ratio h.created h.loaded hR hX (describes_ratio h.created.tets Ds hκ)
  have hang : (M.run deck T D).nAngles = deck.dirs.length := hR.angles.trans Ds.angles
  have hW : ∑ a ∈ Finset.range (M.run deck T D).nAngles, (scatOf deck D).wt a = weights deck := by
    rw [hang]; exact weight_sum deck sS
  let star : Nat → Psi ℝ := fun r g v a i => psiS g v a (((T r).getLGCell i).getD 0)
  have hst : ∀ r i c, IsCell P r i c → ∀ g v a, star r g v a i = psiS g v a c := by
    intro r i c hi g v a
    show psiS g v a (((T r).getLGCell i).getD 0) = _
    rw [(isCell_lg h.created h.loaded hi).1]; rfl
  have hsc := (scatters_iff (psi := star) h.created h.loaded hR hX hst).2 hS
  have hcell : ∀ r < M.n, ∀ i < (T r).nCells, ∃ c, IsCell P r i c ∧ (T r).getLGCell i = some c ∧ c < m.numCells := by
    intro r hr i hi
    obtain ⟨c, hc⟩ := isCell_of_lt h.created h.loaded hr hi
    obtain ⟨k1, -, -, k4⟩ := isCell_lg h.created h.loaded hc
    exact ⟨c, hc, k1, k4⟩
  have key := star_energy (g := g) hPh hL hN hMa hr hκ1 hsc hg (τ := τ) ?_ ?_
  · rw [hW, hang] at key
    have e1 : ∀ a, energyAt (M.run deck T D) a g star =
        ∑ c ∈ Finset.range m.numCells, p.sigmaT c * p.volume c * cellM (fun v => psiS g v a c) fun v => psiS g v a c := by
      intro a
      refine sum_cells h.created h.loaded _ _ fun r i c hi => ?_
      obtain ⟨k1, k2, -, -⟩ := isCell_lg h.created h.loaded hi
      rw [hR.sigma r k2 i c k1, hR.volume r k2 i c k1]
      simp only [hst r i c hi]
    have e2 : (meshSum (M.run deck T D) fun r c => ((M.run deck T D).view r).cellVolume c / (M.run deck T D).sigmaT r c * τ ^ 2) =
        ∑ c ∈ Finset.range m.numCells, p.volume c / p.sigmaT c * τ ^ 2 := by
      refine sum_cells h.created h.loaded _ _ fun r i c hi => ?_
      obtain ⟨k1, k2, -, -⟩ := isCell_lg h.created h.loaded hi
      rw [hR.sigma r k2 i c k1, hR.volume r k2 i c k1]
    rw [e2] at key
    simp only [e1] at key
    exact key
  · intro r hr i hi
    rw [hR.ranks] at hr
    rw [hR.cells r hr] at hi
    obtain ⟨c, -, k1, k2⟩ := hcell r hr i hi
    rw [hR.sigma r hr i c k1]
    exact hσ c k2
  · intro r hr i hi a ha v
    rw [hR.ranks] at hr
    rw [hR.cells r hr] at hi
    obtain ⟨c, -, k1, k2⟩ := hcell r hr i hi
    rw [hR.source r hr i c k1 g (by rw [Ds.groups]; exact hg) v a (by rw [← hR.angles]; exact ha)]
    exact hτ c k2 a (by rw [← hang]; exact ha) v

end

/-! ### The size of the solution on the mesh of two cells -/

theorem order_two_weights {Q : List Verif.Quadrature.Dir} (hq : Verif.Quadrature.quadrature 2 = some Q) :
    ∀ d ∈ Q, d.w = Real.pi / 2 := by
  intro d hd
  rw [Verif.Quadrature.quadrature_eq (N := 2) rfl, Option.some.injEq] at hq
  subst hq
  simp only [List.mem_flatMap, List.mem_map, List.mem_range] at hd
  obtain ⟨i, hi, k, hk, rfl⟩ := hd
  show Verif.Quadrature.dec (Verif.Quadrature.s_w2.getD i 0) * (2 * Real.pi) / (2 * ((2 : Nat) : ℝ)) = _
  interval_cases i <;> norm_num [Verif.Quadrature.dec, Verif.Quadrature.s_w2] <;> ring

theorem two_weights (hQ : Verif.Quadrature.quadrature 2 = some deck.dirs) : deck.dirs.length = 8 ∧ weights deck = 4 * Real.pi := by
  have hlen : deck.dirs.length = 8 := by
    have := Verif.Quadrature.count hQ
    omega
  refine ⟨hlen, ?_⟩
  unfold weights
  have : deck.dirs.map (fun d => d.w) = List.replicate 8 (Real.pi / 2) := by
    rw [List.eq_replicate_iff]
    refine ⟨by rw [List.length_map, hlen], fun x hx => ?_⟩
    obtain ⟨d, hd, rfl⟩ := List.mem_map.1 hx
    exact order_two_weights hQ d hd
  rw [this, List.sum_replicate]
  simp
  ring

theorem two_sigma (Ds : Describes twoVal deck twoMesh p sS) (h1 : deck.sigmaT1 = 1) (h2 : deck.sigmaS1 = 1 / 2)
    (h3 : deck.sigmaT2 = 2) (h4 : deck.sigmaS2 = 0) :
    p.sigmaT 0 = 1 ∧ sS 0 = 1 / 2 ∧ p.sigmaT 1 = 2 ∧ sS 1 = 0 := by
  have s0 := Ds.sigma 0 _ (List.getElem?_eq_getElem (l := twoMesh.cells) (i := 0) (by decide))
  have s1 := Ds.sigma 1 _ (List.getElem?_eq_getElem (l := twoMesh.cells) (i := 1) (by decide))
  rcases s0 with ⟨-, e, e'⟩ | ⟨e, -⟩
  · rcases s1 with ⟨e1, -⟩ | ⟨-, e1, e1'⟩
    · simp [twoMesh] at e1
    · exact ⟨e.trans h1, e'.trans h2, e1.trans h3, e1'.trans h4⟩
  · simp [twoMesh] at e

theorem cellM_le {u q : Fin 4 → ℝ} {t : ℝ} (h : ∀ i, |u i| ≤ t) : cellM u q ≤ t / 4 * ∑ v, |q v| := by
  have ht := (abs_nonneg _).trans (h 0)
  have h1 : ∑ i, u i * q i ≤ t * ∑ v, |q v| := by
    rw [Finset.mul_sum]
    refine Finset.sum_le_sum fun i _ => (le_abs_self _).trans ?_
    rw [abs_mul]
    exact mul_le_mul_of_nonneg_right (h i) (abs_nonneg _)
  have h2 : (∑ i, u i) * ∑ i, q i ≤ 4 * t * ∑ v, |q v| := by
    refine (le_abs_self _).trans ?_
    rw [abs_mul]
    refine mul_le_mul ?_ (Finset.abs_sum_le_sum_abs _ _) (abs_nonneg _) (by linarith)
    refine (Finset.abs_sum_le_sum_abs _ _).trans ((Finset.sum_le_sum fun i _ => h i).trans (le_of_eq ?_))
    simp
  unfold cellM
  linarith

theorem abs_le_square (x : ℝ) {t : ℝ} (ht : 0 < t) : |x| ≤ 1 / (4 * t) + t * x ^ 2 := by
  have h1 : 0 ≤ t * (|x| - 1 / (2 * t)) ^ 2 := mul_nonneg ht.le (sq_nonneg _)
  have h2 : t * (|x| - 1 / (2 * t)) ^ 2 = t * x ^ 2 - |x| + 1 / (4 * t) := by
    rw [sub_sq, sq_abs]
    field_simp
    ring
  linarith

theorem cell_abs (q : Fin 4 → ℝ) {t : ℝ} (ht : 0 < t) : ∑ v, |q v| ≤ 1 / t + 20 * t * cellM q q := by
  have h1 := mul_le_mul_of_nonneg_left (cellM_squares q) ht.le
  have h2 : ∑ v, |q v| ≤ ∑ v, (1 / (4 * t) + t * q v ^ 2) := Finset.sum_le_sum fun v _ => abs_le_square _ ht
  rw [Finset.sum_add_distrib, ← Finset.mul_sum] at h2
  have e : ∑ _ : Fin 4, 1 / (4 * t) = 1 / t := by
    rw [Finset.sum_const, Finset.card_univ, Fintype.card_fin, nsmul_eq_mul]
    push_cast
    field_simp
  linarith

section
variable (h : Ready twoVal deck twoMesh M P T D) (hs : Sensible twoVal deck twoMesh) (Ds : Describes twoVal deck twoMesh p sS)
  (htr : p.Transversal twoMesh) (hκ : Subcritical deck (3 / 4)) {psiS : Psi ℝ} (hS : p.Scatter twoMesh (scattering deck sS) psiS)
  (hQ : Verif.Quadrature.quadrature 2 = some deck.dirs) (hG : deck.nGroups = 2)
  (q1 : deck.sigmaT1 = 1) (q2 : deck.sigmaS1 = 1 / 2) (q3 : deck.sigmaT2 = 2) (q4 : deck.sigmaS2 = 0)
include h hs Ds hS

open Classical in
theorem two_leak {a : Nat} (ha : a < deck.dirs.length) (g : Nat) :
    p.leak twoMesh psiS a g ≤ 150 * ∑ c ∈ Finset.range 2, ∑ v, |psiS g v a c| := by
  have hph := describes_physical h.created.tets two_fits hs Ds
  unfold Problem.leak
  rw [Finset.mul_sum]
  refine Finset.sum_le_sum fun c hc => ?_
  have hc : c < 2 := Finset.mem_range.1 hc
  have hd : deck.dirs[a]? = some deck.dirs[a] := List.getElem?_eq_getElem ha
  have hu := hs.dirs _ (List.getElem_mem ha)
  have h1 : ∀ f : Fin 4, (if ∃ c' f', Across twoMesh c f c' f' then 0
      else max 0 (p.area c f * p.omegaDotN a c f) * ((∑ v ∈ Finset.univ.erase f, psiS g v a c) / 3)) ≤
      50 * (∑ v, |psiS g v a c| - |psiS g f a c|) := by
    intro f
    have e : ∑ v ∈ Finset.univ.erase f, |psiS g v a c| = ∑ v, |psiS g v a c| - |psiS g f a c| :=
      Finset.sum_erase_eq_sub (Finset.mem_univ f)
    have hn : 0 ≤ ∑ v ∈ Finset.univ.erase f, |psiS g v a c| := Finset.sum_nonneg fun _ _ => abs_nonneg _
    rw [← e]
    split
    · linarith
    · have k1 : max 0 (p.area c f * p.omegaDotN a c f) ≤ 150 :=
        max_le (by norm_num) ((le_abs_self _).trans (two_faces Ds hph hd hu hc f))
      have k2 : (∑ v ∈ Finset.univ.erase f, psiS g v a c) / 3 ≤ (∑ v ∈ Finset.univ.erase f, |psiS g v a c|) / 3 :=
        div_le_div_of_nonneg_right (Finset.sum_le_sum fun _ _ => le_abs_self _) (by norm_num)
      calc _ ≤ max 0 (p.area c f * p.omegaDotN a c f) * ((∑ v ∈ Finset.univ.erase f, |psiS g v a c|) / 3) :=
            mul_le_mul_of_nonneg_left k2 (le_max_left _ _)
        _ ≤ 150 * ((∑ v ∈ Finset.univ.erase f, |psiS g v a c|) / 3) :=
            mul_le_mul_of_nonneg_right k1 (div_nonneg hn (by norm_num))
        _ = _ := by ring
  refine (Finset.sum_le_sum fun f _ => h1 f).trans (le_of_eq ?_)
  rw [← Finset.mul_sum, Finset.sum_sub_distrib, Finset.sum_const, Finset.card_univ, Fintype.card_fin]
  simp only [nsmul_eq_mul]
  push_cast
  ring

include htr hκ hQ hG q1 q2 q3 q4

/-- The scalar flux of the solution is not too small. -/
theorem two_scalar_low : weights deck ≤ 1000 * scalarSum deck twoMesh psiS := by
  obtain ⟨hlen, hW⟩ := two_weights hQ
  obtain ⟨s0, t0, s1, t1⟩ := two_sigma Ds q1 q2 q3 q4
  obtain ⟨v0, v1⟩ := two_volumes Ds
  have hpi := Real.pi_pos
  have hWpos : 0 < weights deck := by rw [hW]; linarith
  have hph := describes_physical h.created.tets two_fits hs Ds
  have hnum : twoMesh.numCells = 2 := rfl
  set φ : Fin 4 → Nat → ℝ := fun v c => serialPhi deck psiS 0 v c with hφ
  have hS0 : ∑ c ∈ Finset.range 2, ∑ v, |φ v c| ≤ scalarSum deck twoMesh psiS := by
    unfold scalarSum
    refine Finset.sum_le_sum fun c _ => Finset.sum_le_sum fun v _ => ?_
    rw [hG]
    exact Finset.single_le_sum (f := fun g => |∑ a ∈ Finset.range deck.dirs.length, psiS g v a c *
      ((deck.dirs[a]?).map fun d => d.w).getD 0|) (fun _ _ => abs_nonneg _) (Finset.mem_range.2 (by norm_num : 0 < 2))
  set S0 := ∑ c ∈ Finset.range 2, ∑ v, |φ v c| with hS0'
  suffices hmain : weights deck ≤ 1000 * S0 by linarith
  by_contra hcon
  rw [not_le] at hcon
  have hone : ∀ c < 2, ∀ v, |φ v c| ≤ S0 := by
    intro c hc v
    refine (Finset.single_le_sum (f := fun v => |φ v c|) (fun _ _ => abs_nonneg _) (Finset.mem_univ v)).trans ?_
    exact Finset.single_le_sum (f := fun c => ∑ v, |φ v c|) (fun _ _ => Finset.sum_nonneg fun _ _ => abs_nonneg _)
      (Finset.mem_range.2 hc)
  have hpos : ∀ c < twoMesh.numCells, 0 < p.sigmaT c := by
    intro c hc
    have hc : c < 2 := hc
    interval_cases c
    · rw [s0]; norm_num
    · rw [s1]; norm_num
  have hsrc : ∀ c < twoMesh.numCells, ∀ a < deck.dirs.length, ∀ v, |p.source 0 v a c - twoIso p sS c v| ≤ 1 / 30 :=
    fun c hc a ha v => two_source Ds (List.getElem?_eq_getElem ha) (hs.dirs _ (List.getElem_mem ha)) (by omega) hc v
  have hN := serial_phi_energy (g := 0) h two_fits hs Ds htr hκ hS (by omega) hpos (twoIso p sS) hsrc
  have hiso : ∀ c < 2, ∀ v, |twoIso p sS c v| ≤ 2 := by
    intro c hc v
    obtain ⟨r0, r1⟩ := two_radius hc v
    unfold twoIso
    rw [abs_le]
    interval_cases c
    · rw [s0, t0]; constructor <;> linarith
    · rw [s1, t1]; constructor <;> linarith
  have hu : ∀ c < 2, ∀ v, |twoIso p sS c v + sS c / (4 * Real.pi) * φ v c| ≤ 3 := by
    intro c hc v
    have k1 : |sS c / (4 * Real.pi) * φ v c| ≤ 1 := by
      have k2 : 0 ≤ sS c / (4 * Real.pi) ∧ sS c / (4 * Real.pi) * (4 * Real.pi) ≤ 1 := by
        rw [div_mul_cancel₀ _ (by positivity)]
        interval_cases c
        · rw [t0]; exact ⟨by positivity, by norm_num⟩
        · rw [t1]; exact ⟨by positivity, by norm_num⟩
      rw [abs_mul, abs_of_nonneg k2.1]
      have k3 : |φ v c| ≤ 4 * Real.pi := by
        have := hone c hc v
        rw [hW] at hcon
        linarith
      exact (mul_le_mul_of_nonneg_left k3 k2.1).trans k2.2
    have := abs_add_le (twoIso p sS c v) (sS c / (4 * Real.pi) * φ v c)
    have := hiso c hc v
    linarith
  have hV : ∀ c < 2, 0 ≤ p.volume c ∧ p.volume c ≤ 1000 / 3 := by
    intro c hc
    interval_cases c
    · rw [v0]; norm_num
    · rw [v1]; norm_num
  have hsc : ∑ c ∈ Finset.range twoMesh.numCells, p.volume c * cellM (fun v => twoIso p sS c v + sS c / (4 * Real.pi) *
      serialPhi deck psiS 0 v c) (fun v => serialPhi deck psiS 0 v c) ≤ 250 * S0 := by
    rw [hS0', Finset.mul_sum]
    refine Finset.sum_le_sum fun c hc => ?_
    have hc : c < 2 := Finset.mem_range.1 hc
    have k1 := cellM_le (q := fun v => φ v c) (hu c hc)
    have k2 : 0 ≤ ∑ v, |φ v c| := Finset.sum_nonneg fun _ _ => abs_nonneg _
    obtain ⟨k3, k4⟩ := hV c hc
    calc _ ≤ p.volume c * (3 / 4 * ∑ v, |φ v c|) := mul_le_mul_of_nonneg_left k1 k3
      _ ≤ 1000 / 3 * (3 / 4 * ∑ v, |φ v c|) := mul_le_mul_of_nonneg_right k4 (by linarith)
      _ = _ := by ring
  have hvs : ∑ c ∈ Finset.range twoMesh.numCells, p.volume c / p.sigmaT c * (1 / 30 : ℝ) ^ 2 = 1250 / 2700 := by
    rw [hnum, Finset.sum_range_succ, Finset.sum_range_one, v0, v1, s0, s1]
    norm_num
  rw [hvs] at hN
  have hsv : ∀ c < 2, p.sigmaT c * p.volume c = 1000 / 3 := by
    intro c hc
    interval_cases c
    · rw [s0, v0]; norm_num
    · rw [s1, v1]; norm_num
  have hbal := scatter_balance h.created.tets hph (describes_matched h.created.tets two_fits hs Ds) hS (g := 0)
    (by rw [Ds.groups]; omega)
  rw [Ds.angles] at hbal
  have hwt : ∀ a < deck.dirs.length, 0 ≤ (scattering deck sS).wt a := by
    intro a ha
    show 0 ≤ ((deck.dirs[a]?).map fun d => d.w).getD 0
    rw [List.getElem?_eq_getElem ha]
    exact (hκ.weights _ (List.getElem_mem ha)).le
  have hwsum : ∑ a ∈ Finset.range deck.dirs.length, (scattering deck sS).wt a = weights deck := weight_sum deck sS
  -- leakage
  have hleak : ∑ a ∈ Finset.range deck.dirs.length, (scattering deck sS).wt a * p.leak twoMesh psiS a 0 ≤
      50 * weights deck + 54 * serialEnergy deck p twoMesh psiS 0 := by
    rw [← hwsum]
    unfold serialEnergy
    rw [Finset.mul_sum, Finset.mul_sum, ← Finset.sum_add_distrib]
    refine Finset.sum_le_sum fun a ha => ?_
    have ha : a < deck.dirs.length := Finset.mem_range.1 ha
    have k1 := two_leak h hs Ds hS ha 0
    have k2 : ∑ c ∈ Finset.range 2, ∑ v, |psiS 0 v a c| ≤ 1 / 3 + 9 / 25 *
        ∑ c ∈ Finset.range twoMesh.numCells, p.sigmaT c * p.volume c * cellM (fun v => psiS 0 v a c) fun v => psiS 0 v a c := by
      have k3 : ∀ c ∈ Finset.range 2, ∑ v, |psiS 0 v a c| ≤ 1 / 6 + 9 / 25 *
          (p.sigmaT c * p.volume c * cellM (fun v => psiS 0 v a c) fun v => psiS 0 v a c) := by
        intro c hc
        rw [hsv c (Finset.mem_range.1 hc)]
        have := cell_abs (fun v => psiS 0 v a c) (t := 6) (by norm_num)
        linarith
      refine (Finset.sum_le_sum k3).trans (le_of_eq ?_)
      rw [Finset.sum_add_distrib, ← Finset.mul_sum]
      norm_num [hnum]
    have := mul_le_mul_of_nonneg_left (show p.leak twoMesh psiS a 0 ≤ 50 + 54 *
      ∑ c ∈ Finset.range twoMesh.numCells, p.sigmaT c * p.volume c * cellM (fun v => psiS 0 v a c) fun v => psiS 0 v a c by linarith)
      (hwt a ha)
    refine this.trans (le_of_eq ?_)
    show _ = 50 * (scattering deck sS).wt a + 54 * ((scattering deck sS).wt a * _)
    ring
  -- absorption
  have habs : p.integral twoMesh (fun c v => (p.sigmaT c - (∑ a ∈ Finset.range deck.dirs.length, (scattering deck sS).wt a) *
      ((scattering deck sS).sigmaS c / (4 * (scattering deck sS).pi))) *
        ∑ a ∈ Finset.range deck.dirs.length, psiS 0 v a c * (scattering deck sS).wt a) ≤ 84 * S0 := by
    rw [hwsum, hS0', Finset.mul_sum]
    refine Finset.sum_le_sum fun c hc => ?_
    have hc : c < 2 := Finset.mem_range.1 hc
    have k1 : |p.sigmaT c - weights deck * (sS c / (4 * Real.pi))| ≤ p.sigmaT c := by
      rw [hW, mul_div_cancel₀ _ (by positivity : (4 * Real.pi) ≠ 0)]
      interval_cases c
      · rw [s0, t0]; norm_num
      · rw [s1, t1]; norm_num
    have k2 : ∑ v, (p.sigmaT c - weights deck * (sS c / (4 * Real.pi))) * φ v c ≤ p.sigmaT c * ∑ v, |φ v c| := by
      rw [Finset.mul_sum]
      refine Finset.sum_le_sum fun v _ => (le_abs_self _).trans ?_
      rw [abs_mul]
      exact mul_le_mul_of_nonneg_right k1 (abs_nonneg _)
    have k3 : 0 ≤ ∑ v, |φ v c| := Finset.sum_nonneg fun _ _ => abs_nonneg _
    have k4 := mul_le_mul_of_nonneg_left (div_le_div_of_nonneg_right k2 (by norm_num : (0 : ℝ) ≤ 4)) (hV c hc).1
    have k5 : p.volume c * (p.sigmaT c * ∑ v, |φ v c|) = 1000 / 3 * ∑ v, |φ v c| := by
      rw [← hsv c hc]; ring
    refine k4.trans ?_
    linarith
  -- source
  have hint : 150 * weights deck ≤ ∑ a ∈ Finset.range deck.dirs.length, (scattering deck sS).wt a *
      p.integral twoMesh fun c v => p.source 0 v a c := by
    rw [← hwsum, Finset.mul_sum]
    refine Finset.sum_le_sum fun a ha => ?_
    have ha : a < deck.dirs.length := Finset.mem_range.1 ha
    rw [mul_comm]
    refine mul_le_mul_of_nonneg_left ?_ (hwt a ha)
    have k0 : ∀ v, 4 / 30 ≤ p.source 0 v a 0 := by
      intro v
      have := (abs_le.1 (hsrc 0 (by decide) a ha v)).1
      obtain ⟨r0, r1⟩ := two_radius (c := 0) (by norm_num) v
      unfold twoIso at this
      rw [s0, t0] at this
      linarith
    have k1 : ∀ v, 19 / 30 ≤ p.source 0 v a 1 := by
      intro v
      have := (abs_le.1 (hsrc 1 (by decide) a ha v)).1
      obtain ⟨r0, r1⟩ := two_radius (c := 1) (by norm_num) v
      unfold twoIso at this
      rw [s1, t1] at this
      linarith
    unfold Problem.integral
    rw [hnum, Finset.sum_range_succ, Finset.sum_range_one, v0, v1, Fin.sum_univ_four, Fin.sum_univ_four]
    have := k0 0; have := k0 1; have := k0 2; have := k0 3
    have := k1 0; have := k1 1; have := k1 2; have := k1 3
    linarith
  have : 50 * weights deck + 54 * (weights deck * (1250 / 2700) + 2 * (250 * S0)) + 84 * S0 < 150 * weights deck := by linarith
  linarith

/-- The solution is not too large. -/
theorem two_entry_high : entrySum deck twoMesh psiS ≤ 3400 := by
  obtain ⟨hlen, hW⟩ := two_weights hQ
  obtain ⟨s0, t0, s1, t1⟩ := two_sigma Ds q1 q2 q3 q4
  obtain ⟨v0, v1⟩ := two_volumes Ds
  have hpi := Real.pi_pos
  have hnum : twoMesh.numCells = 2 := rfl
  have hpos : ∀ c < twoMesh.numCells, 0 < p.sigmaT c := by
    intro c hc
    have hc : c < 2 := hc
    interval_cases c
    · rw [s0]; norm_num
    · rw [s1]; norm_num
  have hsv : ∀ c < 2, p.sigmaT c * p.volume c = 1000 / 3 := by
    intro c hc
    interval_cases c
    · rw [s0, v0]; norm_num
    · rw [s1, v1]; norm_num
  have hone : ∀ g < 2, ∑ c ∈ Finset.range 2, ∑ a ∈ Finset.range deck.dirs.length, ∑ v, |psiS g v a c| ≤ 1700 := by
    intro g hg
    have hsrc : ∀ c < twoMesh.numCells, ∀ a < deck.dirs.length, ∀ v, |p.source g v a c| ≤ 3 := by
      intro c hc a ha v
      have hc : c < 2 := hc
      have k1 := two_source Ds (List.getElem?_eq_getElem ha) (hs.dirs _ (List.getElem_mem ha)) (g := g) (by omega) hc v
      have k2 : |twoIso p sS c v| ≤ 2 := by
        obtain ⟨r0, r1⟩ := two_radius hc v
        unfold twoIso
        rw [abs_le]
        interval_cases c
        · rw [s0, t0]; constructor <;> linarith
        · rw [s1, t1]; constructor <;> linarith
      have k3 := abs_add_le (p.source g v a c - twoIso p sS c v) (twoIso p sS c v)
      rw [sub_add_cancel] at k3
      linarith
    have hN := serial_star_energy (g := g) h two_fits hs Ds htr hκ hS (by omega) hpos (by norm_num) hsrc
    have hvs : ∑ c ∈ Finset.range twoMesh.numCells, p.volume c / p.sigmaT c * (3 : ℝ) ^ 2 = 3750 := by
      rw [hnum, Finset.sum_range_succ, Finset.sum_range_one, v0, v1, s0, s1]
      norm_num
    rw [hvs] at hN
    have hwt : ∀ a < deck.dirs.length, ((deck.dirs[a]?).map fun d => d.w).getD 0 = Real.pi / 2 := by
      intro a ha
      rw [List.getElem?_eq_getElem ha]
      exact order_two_weights hQ _ (List.getElem_mem ha)
    have hen : serialEnergy deck p twoMesh psiS g = Real.pi / 2 * ∑ a ∈ Finset.range deck.dirs.length,
        ∑ c ∈ Finset.range 2, 1000 / 3 * cellM (fun v => psiS g v a c) fun v => psiS g v a c := by
      unfold serialEnergy
      rw [Finset.mul_sum]
      refine Finset.sum_congr rfl fun a ha => ?_
      rw [hwt a (Finset.mem_range.1 ha)]
      refine congrArg _ (Finset.sum_congr rfl fun c hc => ?_)
      rw [hsv c (Finset.mem_range.1 hc)]
    have k1 : ∑ c ∈ Finset.range 2, ∑ a ∈ Finset.range deck.dirs.length, ∑ v, |psiS g v a c| ≤
        ∑ a ∈ Finset.range deck.dirs.length, ∑ c ∈ Finset.range 2, (40 + 3 / 2000 *
          (1000 / 3 * cellM (fun v => psiS g v a c) fun v => psiS g v a c)) := by
      rw [Finset.sum_comm]
      refine Finset.sum_le_sum fun a _ => Finset.sum_le_sum fun c _ => ?_
      have := cell_abs (fun v => psiS g v a c) (t := 1 / 40) (by norm_num)
      linarith
    simp only [Finset.sum_add_distrib, ← Finset.mul_sum] at k1
    simp only [Finset.sum_const, Finset.card_range, nsmul_eq_mul, hlen] at k1
    rw [hen, hW] at hN
    simp only [← Finset.mul_sum, hlen] at hN
    set Z := ∑ a ∈ Finset.range 8, ∑ c ∈ Finset.range 2, cellM (fun v => psiS g v a c) fun v => psiS g v a c
    have hZ : 1000 / 3 * Z ≤ 480000 := by
      have : Real.pi * (1000 / 3 * Z) ≤ Real.pi * 480000 := by linarith
      exact le_of_mul_le_mul_left this (by linarith)
    rw [hlen]
    push_cast at k1
    linarith
  unfold entrySum
  rw [hnum, hG]
  have e : ∑ c ∈ Finset.range 2, ∑ a ∈ Finset.range deck.dirs.length, ∑ v, ∑ g ∈ Finset.range 2, |psiS g v a c| =
      (∑ c ∈ Finset.range 2, ∑ a ∈ Finset.range deck.dirs.length, ∑ v, |psiS 0 v a c|) +
      ∑ c ∈ Finset.range 2, ∑ a ∈ Finset.range deck.dirs.length, ∑ v, |psiS 1 v a c| := by
    rw [← Finset.sum_add_distrib]
    refine Finset.sum_congr rfl fun c _ => ?_
    rw [← Finset.sum_add_distrib]
    refine Finset.sum_congr rfl fun a _ => ?_
    rw [← Finset.sum_add_distrib]
    refine Finset.sum_congr rfl fun v _ => ?_
    rw [Finset.sum_range_succ, Finset.sum_range_one]
  rw [e]
  have := hone 0 (by norm_num)
  have := hone 1 (by norm_num)
  linarith

end

theorem two_inflow (Ds : Describes twoVal deck twoMesh p sS) (hs : Sensible twoVal deck twoMesh) (hph : p.Physical twoMesh)
    (q1 : deck.sigmaT1 = 1) (q3 : deck.sigmaT2 = 2) : Inflow p twoMesh (9 / 5) := by
  intro c hc a ha
  have hc2 : c < 2 := hc
  rw [Ds.angles] at ha
  have Bt := two_between Ds q1 q3
  have h1 : ∀ f : Fin 4, max 0 (-(p.area c f * p.omegaDotN a c f)) ≤ 150 := fun f =>
    max_le (by norm_num) ((neg_le_abs _).trans
      (two_faces Ds hph (List.getElem?_eq_getElem ha) (hs.dirs _ (List.getElem_mem ha)) hc2 f))
  have h2 : ∑ f, max 0 (-(p.area c f * p.omegaDotN a c f)) ≤ ∑ _ : Fin 4, (150 : ℝ) := Finset.sum_le_sum fun f _ => h1 f
  rw [Finset.sum_const, Finset.card_univ, Fintype.card_fin, nsmul_eq_mul] at h2
  have := Bt.low c hc
  push_cast at h2
  linarith

/-! ### Two decks -/

def jacobiSIDeck : Str :=
  ("snOrder 2\niterMax 100\nerrMax 0.5\nmaxCellsPerStep 3\nintraAngleP 3\ninterAngleP 1\n"
    ++ "nGroups 2\nsigmaT1 1.0\nsigmaS1 0.5\nsigmaT2 2.0\nsigmaS2 0.0\nOutputFile true\n"
    ++ "OutputFilename si.psi\nSourceIteration true\nDD_IterMax -1 # no limit\nDD_ErrMax 1.0\n"
    ++ "MPIType TychoTwoSided\nSweepType PBJSI\nGaussElim CramerGlu\n").toList

def jacobiOuterDeck : Str :=
  ("GaussElim NoPivot\nSweepType PBJOuter\nMPIType CapsaicinTwoSided\nsnOrder 2\niterMax 22\nerrMax 0.5\n"
    ++ "maxCellsPerStep 1\nintraAngleP 0\ninterAngleP 2\nnGroups 2\n# cross sections\nsigmaT1 1.0\nsigmaS1 0.5\nsigmaT2 2.0\n"
    ++ "sigmaS2 0.0\nOutputFile TRUE\nOutputFilename outer.psi\nSourceIteration false\nDD_IterMax 10000000\nDD_ErrMax 1.0\n").toList

def jacobiSISettings : Settings Str :=
  ⟨2, 100, "0.5".toList, 3, 3, 1, 2, "1.0".toList, "0.5".toList, "2.0".toList, "0.0".toList, true, "si.psi".toList,
    18446744073709551615, "1.0".toList, true, .tychoTwoSided, .pbjsi, .cramerGlu⟩

def jacobiOuterSettings : Settings Str :=
  ⟨2, 22, "0.5".toList, 1, 0, 2, 2, "1.0".toList, "0.5".toList, "2.0".toList, "0.0".toList, true, "outer.psi".toList, 10000000,
    "1.0".toList, false, .capsaicinTwoSided, .pbjOuter, .noPivot⟩

def jacobiTexts (name : Str) : Option Str :=
  if name = "si".toList then some jacobiSIDeck else if name = "outer".toList then some jacobiOuterDeck else none

theorem jacobi_decks_read : (readInput some jacobiTexts .original "si".toList).toOption = some jacobiSISettings ∧
    (readInput some jacobiTexts .original "outer".toList).toOption = some jacobiOuterSettings := by decide +kernel

/-- C82: two complete runs on the mesh of two cells, PBJSI on two ranks without limit and PBJOuter on three ranks with ten
million iterations. All conditions of `main_si_reaches`, `main_outer_reaches` and `main_outer_ends` hold with explicit
numbers, so that both end by their tolerance. -/
theorem two_jacobi : ∃ (W : World) (deck : Deck) (p : Problem ℝ) (sS : Nat → ℝ) (g g' : List UInt8) (psiS : Psi ℝ) (n : Nat)
    (e e' : Option ℝ) (out out' : Option (Str × Verif.PsiFile.File)) (s s' : Settings ℝ) (η : ℝ),
    Good W.val twoMesh.bytes twoMesh deck p sS (3 / 4) ∧
    readInput W.stod W.texts .original "si".toList = .ok s ∧ readInput W.stod W.texts .original "outer".toList = .ok s' ∧
    Asks s deck ∧ Asks s' deck ∧ W.files "two.pmesh".toList = some g ∧ W.files "three.pmesh".toList = some g' ∧
    Partitioned W.val twoMesh.bytes 2 g ∧ Partitioned W.val twoMesh.bytes 3 g' ∧
    Between p twoMesh (1000 / 3) (1000 / 3) ∧ Inflow p twoMesh (9 / 5) ∧ p.Scatter twoMesh (scattering deck sS) psiS ∧
    0 < scalarSum deck twoMesh psiS ∧ 0 < entrySum deck twoMesh psiS ∧ (∀ d ∈ deck.dirs, Real.pi / 2 ≤ d.w) ∧
    EnoughSI deck twoMesh (3 / 4) (1000 / 3) (1000 / 3) (9 / 5) s.ddErrMax psiS (10 ^ 18) ∧ 10 ^ 18 + 1 < s.ddIterMax ∧
    EnoughOuter deck twoMesh (3 / 4) (1000 / 3) (1000 / 3) (9 / 5) (Real.pi / 2) s'.ddErrMax 3000000 ∧ 3000000 + 1 < s'.ddIterMax ∧
    RanWith (RunsSI n) W (machine 2 1 true) ["two.pmesh".toList, "si".toList] (.finished e out) ∧
    (∀ Y, ∃ η δ, RanWith (StopsApart Y η δ) W (machine 2 1 true) ["two.pmesh".toList, "si".toList] (.finished e out)) ∧
    ∀ Y, RanWith (StopsApart Y η 0) W (machine 3 4 false) ["three.pmesh".toList, "outer".toList] (.finished e' out') := by
  obtain ⟨deck, p, sS, g, g', G, hQ, q1, q2, q3, q4, q5, hP, hP', hw⟩ := two_good
  let W := twoWorld jacobiTexts g g'
  obtain ⟨f1, f2⟩ := twoWorld_files jacobiTexts g g'
  obtain ⟨v1, v2, v3, v4⟩ := number_values
  have r1 : readInput W.stod W.texts .original "si".toList = .ok (mapSettings numberOf jacobiSISettings) :=
    readInput_map numberOf some jacobiTexts .original _ (ok_of_toOption jacobi_decks_read.1)
  have r2 : readInput W.stod W.texts .original "outer".toList = .ok (mapSettings numberOf jacobiOuterSettings) :=
    readInput_map numberOf some jacobiTexts .original _ (ok_of_toOption jacobi_decks_read.2)
  have hd : Asks (mapSettings numberOf jacobiSISettings) deck := ⟨hQ, q1, q2.trans v1.symm, q3.trans v2.symm,
    q4.trans v3.symm, q5.trans v4.symm⟩
  have hd' : Asks (mapSettings numberOf jacobiOuterSettings) deck := ⟨hQ, q1, q2.trans v1.symm, q3.trans v2.symm,
    q4.trans v3.symm, q5.trans v4.symm⟩
  have he : (mapSettings numberOf jacobiSISettings).ddErrMax = 1 := v1
  have he' : (mapSettings numberOf jacobiOuterSettings).ddErrMax = 1 := v1
  have Bt := two_between G.describes q2 q4
  obtain ⟨pv, P, T, D, h, -⟩ := ran_exists (W := W) (C := machine 2 1 true) G r1 hd f1 hP (by decide) (by decide) []
  have hph := describes_physical h.created.tets G.fits G.sensible G.describes
  have hα := two_inflow G.describes G.sensible hph q2 q4
  obtain ⟨psiS, hS, -⟩ := near_serial h G.fits G.sensible G.describes G.acyclic G.transversal G.subcritical G.below Bt
  obtain ⟨hlen, hW⟩ := two_weights hQ
  have hpi := Real.pi_pos
  have hlow := two_scalar_low h G.sensible G.describes G.transversal G.subcritical hS hQ q1 q2 q3 q4 q5
  have hhigh := two_entry_high h G.sensible G.describes G.transversal G.subcritical hS hQ q1 q2 q3 q4 q5
  have hpos : 0 < scalarSum deck twoMesh psiS := by rw [hW] at hlow; linarith
  have hE0 : 0 ≤ entrySum deck twoMesh psiS := Finset.sum_nonneg fun _ _ => Finset.sum_nonneg fun _ _ =>
    Finset.sum_nonneg fun _ _ => Finset.sum_nonneg fun _ _ => abs_nonneg _
  have hpos' : 0 < entrySum deck twoMesh psiS := by
    refine lt_of_le_of_ne hE0 fun h0 => hpos.ne' ?_
    have hz : ∀ c ∈ Finset.range twoMesh.numCells, ∀ a ∈ Finset.range deck.dirs.length, ∀ v,
        ∀ g ∈ Finset.range deck.nGroups, psiS g v a c = 0 := by
      intro c hc a ha v g hg
      have k1 := (Finset.sum_eq_zero_iff_of_nonneg fun _ _ => Finset.sum_nonneg fun _ _ => Finset.sum_nonneg fun _ _ =>
        Finset.sum_nonneg fun _ _ => abs_nonneg _).1 h0.symm c hc
      have k2 := (Finset.sum_eq_zero_iff_of_nonneg fun _ _ => Finset.sum_nonneg fun _ _ =>
        Finset.sum_nonneg fun _ _ => abs_nonneg _).1 k1 a ha
      have k3 := (Finset.sum_eq_zero_iff_of_nonneg fun _ _ => Finset.sum_nonneg fun _ _ => abs_nonneg _).1 k2 v (Finset.mem_univ v)
      exact abs_eq_zero.1 ((Finset.sum_eq_zero_iff_of_nonneg fun _ _ => abs_nonneg _).1 k3 g hg)
    unfold scalarSum
    refine Finset.sum_eq_zero fun c hc => Finset.sum_eq_zero fun v _ => Finset.sum_eq_zero fun g hg => ?_
    rw [Finset.sum_eq_zero fun a ha => by rw [hz c hc a ha v g hg, zero_mul], abs_zero]
  have hk : EnoughSI deck twoMesh (3 / 4) (1000 / 3) (1000 / 3) (9 / 5) (mapSettings numberOf jacobiSISettings).ddErrMax psiS
      (10 ^ 18) := by
    unfold EnoughSI
    rw [he, q1]
    have hX : (weights deck * entrySum deck twoMesh psiS) ^ 2 ≤ (3400000 * scalarSum deck twoMesh psiS) ^ 2 := by
      refine pow_le_pow_left₀ (mul_nonneg (by rw [hW]; positivity) hE0) ?_ 2
      calc weights deck * entrySum deck twoMesh psiS ≤ 1000 * scalarSum deck twoMesh psiS * 3400 :=
            mul_le_mul hlow hhigh hE0 (by linarith)
        _ = _ := by ring
    have hs2 := pow_pos hpos 2
    have hnum : twoMesh.numCells = 2 := rfl
    rw [hnum]
    have e1 : (3400000 * scalarSum deck twoMesh psiS) ^ 2 = 11560000000000 * scalarSum deck twoMesh psiS ^ 2 := by ring
    rw [e1] at hX
    norm_num
    linarith
  have hk' : EnoughOuter deck twoMesh (3 / 4) (1000 / 3) (1000 / 3) (9 / 5) (Real.pi / 2)
      (mapSettings numberOf jacobiOuterSettings).ddErrMax 3000000 := by
    unfold EnoughOuter
    have hnum : twoMesh.numCells = 2 := rfl
    rw [he', q1, hlen, hW, hnum]
    norm_num
    linarith
  have hwd : ∀ d ∈ deck.dirs, Real.pi / 2 ≤ d.w := fun d hd => (order_two_weights hQ d hd).ge
  have hM : 10 ^ 18 + 1 < (mapSettings numberOf jacobiSISettings).ddIterMax := by
    show 10 ^ 18 + 1 < 18446744073709551615
    norm_num
  have hM' : 3000000 + 1 < (mapSettings numberOf jacobiOuterSettings).ddIterMax := by
    show 3000000 + 1 < 10000000
    norm_num
  obtain ⟨n, e, out, h1⟩ := main_si_ends (W := W) (C := machine 2 1 true) G r1 hd f1 hP (by decide) (by decide) rfl []
  obtain ⟨-, h2⟩ := main_si_reaches (W := W) (C := machine 2 1 true) G r1 hd f1 hP (by decide) (by decide) (by decide) Bt hα
    (by rw [he]; norm_num) hS hpos hk hM h1
  obtain ⟨η, e', out', h3⟩ := main_outer_ends (W := W) (C := machine 3 4 false) G r2 hd' f2 hP' (by decide) (by decide) (by decide)
    Bt hα (by rw [he']; norm_num) hS hpos' (by linarith) hwd hk' hM' rfl rfl []
  exact ⟨W, deck, p, sS, g, g', psiS, n, e, e', out, out', _, _, η, G, r1, r2, hd, hd', f1, f2, hP, hP', Bt, hα, hS, hpos, hpos',
    hwd, hk, hM, hk', hM', h1, h2, h3⟩

end Verif.Program
