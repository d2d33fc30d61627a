import Verif.Domain.Linear
import Mathlib.Tactic.LinearCombination
import Mathlib.Tactic.Linarith
import Mathlib.Tactic.Positivity

/-!
# Inexact boundary values as a source

The methods that decompose the domain stop with boundary arrays that are not quite the neighbours' flux. The flux
they leave solves the system of the whole mesh with a source that is off by as little.
-/
set_option linter.unusedSectionVars false

namespace Verif.Domain
open Classical
open Verif.Transport Verif.Traverse

variable {K : Type} [Field K] [LinearOrder K]

/-! ### Statements -/

/-- The boundary arrays hold the neighbours' flux on every incoming partition face up to `η`. -/
def Traced (R : SweepRun K) (mate : Loc → Option Loc) (node : Nat → Nat → Fin 4 → Nat) (psi : Nat → Psi K)
    (bound : Nat → Bound K) (η : K) : Prop :=
  ∀ x y a g v, R.cfg.In x → mate x = some y → y.rank ≠ x.rank → a < R.nAngles →
    ¬ (R.view x.rank).isOutgoing a x.cell x.face → g < R.nGroups → v ≠ x.face →
    ∃ w, node y.rank y.cell w = node x.rank x.cell v ∧
      |bound x.rank g ((R.view x.rank).cellToFaceVrtx x.cell x.face v) a ((R.view x.rank).side x.cell x.face) -
        psi y.rank g w a y.cell| ≤ η

/-- In every direction the part of the surface of a cell where flux comes in is at most `α σt V`. -/
def Thick (R : SweepRun K) (α : K) : Prop :=
  ∀ r c a, r < R.nRanks → c < R.nCells r → a < R.nAngles →
    ∑ f, max 0 (-((R.view r).faceArea c f * (R.view r).omegaDotN a c f)) ≤
      α * (R.sigmaT r c * (R.view r).cellVolume c)

/-! ### Proofs -/

variable [IsStrictOrderedRing K]

theorem pair_sum (f i j k : Fin 4) (h1 : ({i, j, k} : Finset (Fin 4)) = Finset.univ.erase f) (hij : i ≠ j) (hik : i ≠ k)
    (hjk : j ≠ k) (g : Fin 4 → K) : ∑ x ∈ (Finset.univ.erase f).erase i, g x = g j + g k := by
  rw [← h1, Finset.erase_insert (by simp [hij, hik]), Finset.sum_insert (by simp [hjk]), Finset.sum_singleton]

theorem triple_sum (f i j k : Fin 4) (h1 : ({i, j, k} : Finset (Fin 4)) = Finset.univ.erase f) (hij : i ≠ j) (hik : i ≠ k)
    (hjk : j ≠ k) (g : Fin 4 → K) : ∑ x ∈ Finset.univ.erase f, g x = g i + g j + g k := by
  rw [← h1, Finset.sum_insert (by simp [hij, hik]), Finset.sum_insert (by simp [hjk]), Finset.sum_singleton, add_assoc]

/-- One cell: other incoming values are another source. -/
theorem cell_defect {V σ η : K} {area Q psi : Fin 4 → K} {inc inc' : Fin 4 → Fin 4 → K} (hV : 0 < V)
    (hd : ∀ f v, v ≠ f → area f < 0 → |inc' f v - inc f v| ≤ η) (h : Spec.DG V σ area inc Q psi) :
    ∃ q : Fin 4 → K, Spec.DG V σ area inc' (fun i => Q i + q i) psi ∧
      ∀ i, V * |q i| ≤ 10 * ((∑ f, max 0 (-area f)) * η) := by
  obtain ⟨δ, hδ, hb⟩ : ∃ δ : Fin 4 → Fin 4 → K,
      (∀ f v, area f * Spec.upwind area psi inc' f v = area f * Spec.upwind area psi inc f v + δ f v) ∧
      ∀ f v, v ≠ f → |δ f v| ≤ max 0 (-area f) * η := by
    refine ⟨fun f v => area f * Spec.upwind area psi inc' f v - area f * Spec.upwind area psi inc f v,
      fun f v => by ring, fun f v hv => ?_⟩
    rcases lt_trichotomy (area f) 0 with hneg | h0 | hpos
    · have := hd f v hv hneg
      simp only [Spec.upwind, if_neg (not_lt.2 hneg.le)]
      rw [← mul_sub, abs_mul, abs_of_neg hneg, max_eq_right (by linarith)]
      exact mul_le_mul_of_nonneg_left this (by linarith)
    · simp [h0]
    · simp only [Spec.upwind, if_pos hpos, sub_self, abs_zero]
      rw [max_eq_left (by linarith), zero_mul]
  let r : Fin 4 → K := ![
    (2 * δ 1 0 + δ 1 2 + δ 1 3 + (2 * δ 2 0 + δ 2 1 + δ 2 3) + (2 * δ 3 0 + δ 3 1 + δ 3 2)) / 12,
    (2 * δ 0 1 + δ 0 2 + δ 0 3 + (2 * δ 2 1 + δ 2 0 + δ 2 3) + (2 * δ 3 1 + δ 3 0 + δ 3 2)) / 12,
    (2 * δ 0 2 + δ 0 1 + δ 0 3 + (2 * δ 1 2 + δ 1 0 + δ 1 3) + (2 * δ 3 2 + δ 3 0 + δ 3 1)) / 12,
    (2 * δ 0 3 + δ 0 1 + δ 0 2 + (2 * δ 1 3 + δ 1 0 + δ 1 2) + (2 * δ 2 3 + δ 2 0 + δ 2 1)) / 12]
  let q : Fin 4 → K := fun i => 20 / V * (r i - (r 0 + r 1 + r 2 + r 3) / 5)
  have hV' : V ≠ 0 := ne_of_gt hV
  have hq : ∀ i, V * q i = 20 * (r i - (r 0 + r 1 + r 2 + r 3) / 5) := fun i => by
    simp only [q]; field_simp
  have e0 := triple_sum (K := K) 0 1 2 3 (by decide) (by decide) (by decide) (by decide)
  have e1 := triple_sum (K := K) 1 0 2 3 (by decide) (by decide) (by decide) (by decide)
  have e2 := triple_sum (K := K) 2 0 1 3 (by decide) (by decide) (by decide) (by decide)
  have e3 := triple_sum (K := K) 3 0 1 2 (by decide) (by decide) (by decide) (by decide)
  refine ⟨q, fun i => ?_, fun i => ?_⟩
  · have ri := h i
    have q0 := hq 0; have q1 := hq 1; have q2 := hq 2; have q3 := hq 3
    match i with
    | 0 =>
      simp only [Spec.DGRow, e0,
        pair_sum 1 0 2 3 (by decide) (by decide) (by decide) (by decide),
        pair_sum 2 0 1 3 (by decide) (by decide) (by decide) (by decide),
        pair_sum 3 0 1 2 (by decide) (by decide) (by decide) (by decide)] at ri ⊢
      simp only [r, Matrix.cons_val_zero, Matrix.cons_val_one, Matrix.cons_val] at q0 q1 q2 q3
      linear_combination ri + (2 * hδ 1 0 + hδ 1 2 + hδ 1 3 + 2 * hδ 2 0 + hδ 2 1 + hδ 2 3 +
        2 * hδ 3 0 + hδ 3 1 + hδ 3 2) / 12 - (2 * q0 + q1 + q2 + q3) / 20
    | 1 =>
      simp only [Spec.DGRow, e1,
        pair_sum 0 1 2 3 (by decide) (by decide) (by decide) (by decide),
        pair_sum 2 1 0 3 (by decide) (by decide) (by decide) (by decide),
        pair_sum 3 1 0 2 (by decide) (by decide) (by decide) (by decide)] at ri ⊢
      simp only [r, Matrix.cons_val_zero, Matrix.cons_val_one, Matrix.cons_val] at q0 q1 q2 q3
      linear_combination ri + (2 * hδ 0 1 + hδ 0 2 + hδ 0 3 + 2 * hδ 2 1 + hδ 2 0 + hδ 2 3 +
        2 * hδ 3 1 + hδ 3 0 + hδ 3 2) / 12 - (2 * q1 + q0 + q2 + q3) / 20
    | 2 =>
      simp only [Spec.DGRow, e2,
        pair_sum 0 2 1 3 (by decide) (by decide) (by decide) (by decide),
        pair_sum 1 2 0 3 (by decide) (by decide) (by decide) (by decide),
        pair_sum 3 2 0 1 (by decide) (by decide) (by decide) (by decide)] at ri ⊢
      simp only [r, Matrix.cons_val_zero, Matrix.cons_val_one, Matrix.cons_val] at q0 q1 q2 q3
      linear_combination ri + (2 * hδ 0 2 + hδ 0 1 + hδ 0 3 + 2 * hδ 1 2 + hδ 1 0 + hδ 1 3 +
        2 * hδ 3 2 + hδ 3 0 + hδ 3 1) / 12 - (2 * q2 + q0 + q1 + q3) / 20
    | 3 =>
      simp only [Spec.DGRow, e3,
        pair_sum 0 3 1 2 (by decide) (by decide) (by decide) (by decide),
        pair_sum 1 3 0 2 (by decide) (by decide) (by decide) (by decide),
        pair_sum 2 3 0 1 (by decide) (by decide) (by decide) (by decide)] at ri ⊢
      simp only [r, Matrix.cons_val_zero, Matrix.cons_val_one, Matrix.cons_val] at q0 q1 q2 q3
      linear_combination ri + (2 * hδ 0 3 + hδ 0 1 + hδ 0 2 + 2 * hδ 1 3 + hδ 1 0 + hδ 1 2 +
        2 * hδ 2 3 + hδ 2 0 + hδ 2 1) / 12 - (2 * q3 + q0 + q1 + q2) / 20
  · have hi := hq i
    rw [← abs_of_pos hV, ← abs_mul, hi, Finset.sum_mul, Fin.sum_univ_four]
    have b := fun f v hv => abs_le.1 (hb f v hv)
    have b01 := b 0 1 (by decide); have b02 := b 0 2 (by decide); have b03 := b 0 3 (by decide)
    have b10 := b 1 0 (by decide); have b12 := b 1 2 (by decide); have b13 := b 1 3 (by decide)
    have b20 := b 2 0 (by decide); have b21 := b 2 1 (by decide); have b23 := b 2 3 (by decide)
    have b30 := b 3 0 (by decide); have b31 := b 3 1 (by decide); have b32 := b 3 2 (by decide)
    rw [abs_le]
    match i with
    | 0 =>
      simp only [r, Matrix.cons_val_zero, Matrix.cons_val_one, Matrix.cons_val]
      constructor <;> linarith
    | 1 =>
      simp only [r, Matrix.cons_val_zero, Matrix.cons_val_one, Matrix.cons_val]
      constructor <;> linarith
    | 2 =>
      simp only [r, Matrix.cons_val_zero, Matrix.cons_val_one, Matrix.cons_val]
      constructor <;> linarith
    | 3 =>
      simp only [r, Matrix.cons_val_zero, Matrix.cons_val_one, Matrix.cons_val]
      constructor <;> linarith

section
variable {R : SweepRun K} {mate : Loc → Option Loc} {node : Nat → Nat → Fin 4 → Nat}

/-- C81: a local solution whose boundary data are the neighbours' flux up to `η` solves the system of the whole mesh
with a source off by at most `10 α σt η`. -/
theorem traced_full (H : R.Physical) {α η : K} (T : Thick R α) (hη : 0 ≤ η) {src psi : Nat → Psi K}
    {bound : Nat → Bound K} (h : LocalDG R mate node src bound psi) (ht : Traced R mate node psi bound η) :
    ∃ q : Nat → Psi K, FullDG R mate node (lin 1 src q) psi ∧
      ∀ r c a g v, r < R.nRanks → c < R.nCells r → a < R.nAngles → g < R.nGroups →
        |q r g v a c| ≤ R.sigmaT r c * (10 * α * η) := by
  have key : ∀ r c a g, ∃ q : Fin 4 → K, r < R.nRanks → c < R.nCells r → a < R.nAngles → g < R.nGroups →
      (∃ inc : Fin 4 → Fin 4 → K,
        (∀ f v, v ≠ f → (R.view r).faceArea c f * (R.view r).omegaDotN a c f < 0 →
          (∀ y, mate ⟨r, c, f⟩ = some y →
            ∃ w, node y.rank y.cell w = node r c v ∧ inc f v = psi y.rank g w a y.cell) ∧
          (mate ⟨r, c, f⟩ = none → inc f v = 0)) ∧
        Spec.DG ((R.view r).cellVolume c) (R.sigmaT r c)
          (fun f => (R.view r).faceArea c f * (R.view r).omegaDotN a c f) inc
          (fun v => src r g v a c + q v) (fun v => psi r g v a c)) ∧
      ∀ v, |q v| ≤ R.sigmaT r c * (10 * α * η) := by
    intro r c a g
    by_cases hin : r < R.nRanks ∧ c < R.nCells r ∧ a < R.nAngles ∧ g < R.nGroups
    swap
    · exact ⟨0, fun h1 h2 h3 h4 => absurd ⟨h1, h2, h3, h4⟩ hin⟩
    obtain ⟨hr, hc, ha, hg⟩ := hin
    obtain ⟨inc, hinc, hdg⟩ := h r c a g hr hc ha hg
    have hV := H.volume r c hr hc
    have hex : ∀ f v, ∃ z : K, v ≠ f → (R.view r).faceArea c f * (R.view r).omegaDotN a c f < 0 →
        ((∀ y, mate ⟨r, c, f⟩ = some y →
            ∃ w, node y.rank y.cell w = node r c v ∧ z = psi y.rank g w a y.cell) ∧
          (mate ⟨r, c, f⟩ = none → z = 0)) ∧ |z - inc f v| ≤ η := by
      intro f v
      by_cases hh : v ≠ f ∧ (R.view r).faceArea c f * (R.view r).omegaDotN a c f < 0
      swap
      · exact ⟨0, fun h1 h2 => absurd ⟨h1, h2⟩ hh⟩
      obtain ⟨hv, hneg⟩ := hh
      obtain ⟨h1, h2, h3⟩ := hinc f v hv hneg
      rcases hm : mate ⟨r, c, f⟩ with _ | y
      · exact ⟨0, fun _ _ => ⟨⟨by simp, fun _ => rfl⟩, by rw [h3 hm]; simpa using hη⟩⟩
      · by_cases hyr : y.rank = r
        · obtain ⟨w, hw, e⟩ := h1 y hm hyr
          refine ⟨inc f v, fun _ _ => ⟨⟨fun y' hy' => ?_, by simp⟩, by simpa using hη⟩⟩
          obtain rfl : y = y' := by simpa using hy'
          exact ⟨w, by rw [hyr]; exact hw, by rw [hyr]; exact e⟩
        · obtain ⟨w, hw, e⟩ := ht ⟨r, c, f⟩ y a g v ⟨hr, hc⟩ hm hyr ha (incoming_of_neg H hr hc hneg) hg hv
          refine ⟨psi y.rank g w a y.cell, fun _ _ => ⟨⟨fun y' hy' => ?_, by simp⟩, ?_⟩⟩
          · obtain rfl : y = y' := by simpa using hy'
            exact ⟨w, hw, rfl⟩
          · rw [h2 y hm hyr, abs_sub_comm]; exact e
    choose inc' hinc' using hex
    obtain ⟨q, hq1, hq2⟩ := cell_defect hV (inc' := inc') (fun f v hv hneg => (hinc' f v hv hneg).2) hdg
    refine ⟨q, fun _ _ _ _ => ⟨⟨inc', fun f v hv hneg => (hinc' f v hv hneg).1, hq1⟩, fun v => ?_⟩⟩
    have h1 := hq2 v
    have h2 := mul_le_mul_of_nonneg_right (T r c a hr hc ha) hη
    have h3 : (R.view r).cellVolume c * |q v| ≤ (R.view r).cellVolume c * (R.sigmaT r c * (10 * α * η)) := by
      linarith
    exact le_of_mul_le_mul_left h3 hV
  choose q hq using key
  refine ⟨fun r g v a c => q r c a g v, ?_, fun r c a g v hr hc ha hg => (hq r c a g hr hc ha hg).2 v⟩
  intro r c a g hr hc ha hg
  obtain ⟨inc, h1, h2⟩ := (hq r c a g hr hc ha hg).1
  refine ⟨inc, h1, ?_⟩
  have e : (fun v => lin 1 src (fun r g v a c => q r c a g v) r g v a c) = fun v => src r g v a c + q r c a g v := by
    funext v; simp [lin]
  show Spec.DG _ _ _ inc (fun v => lin 1 src (fun r g v a c => q r c a g v) r g v a c) _
  rw [e]; exact h2

theorem Consistent.traced (L : Linked R.cfg mate) {psi chi : Nat → Psi K} {bound : Nat → Bound K} {η : K}
    (h : Consistent R mate node chi bound)
    (hd : ∀ r c a g v, r < R.nRanks → c < R.nCells r → a < R.nAngles → g < R.nGroups →
      |chi r g v a c - psi r g v a c| ≤ η) : Traced R mate node psi bound η := by
  intro x y a g v h1 h2 h3 h4 h5 h6 h7
  obtain ⟨w, hw, e⟩ := h x y a g v h1 h2 h3 h4 h5 h6 h7
  have hyin := L.mate_in x y h1 h2
  exact ⟨w, hw, by rw [e]; exact hd _ _ _ _ _ hyin.1 hyin.2 h4 h6⟩

end

end Verif.Domain
