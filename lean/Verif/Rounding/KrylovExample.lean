import Verif.Rounding.Krylov
import Verif.Rounding.MachineExample
import Mathlib.Analysis.Real.Pi.Bounds

/-!
# Example for C100: two tetrahedra in double precision
-/
set_option linter.unusedSectionVars false

namespace Verif.Rounding

open Verif.MeshFile Verif.TychoMesh Verif.Geometry Verif.Traverse Verif.Program Verif.Program.Spec
open Verif.Rounding.Spec hiding Acyclic
open Verif.Floating (Kernel)
open Verif.Floating.Spec (Holds)

/-- There is an `η` as `machine_krylov` asks. -/
theorem eta_exists (nC : Nat) (S : ℝ) (w : Nat → ℝ) (hS : 0 ≤ S) (hw : ∀ c < nC, 0 < w c) :
    ∃ η : ℝ, 0 ≤ η ∧ ∀ c < nC, S ≤ w c * η ^ 2 := by
  have hpos : ∀ c ∈ Finset.range nC, 0 ≤ S / w c := fun c hc => div_nonneg hS (hw c (Finset.mem_range.1 hc)).le
  have h0 := Finset.sum_nonneg hpos
  refine ⟨1 + ∑ c ∈ Finset.range nC, S / w c, by linarith, fun c hc => ?_⟩
  have h1 := Finset.single_le_sum hpos (Finset.mem_range.2 hc)
  set η := 1 + ∑ c ∈ Finset.range nC, S / w c with hη
  have h2 : S / w c ≤ η ^ 2 := by nlinarith
  have h3 := mul_le_mul_of_nonneg_left h2 (hw c hc).le
  rwa [mul_div_cancel₀ _ (hw c hc).ne'] at h3

/-- C100: all conditions of `machine_krylov` hold in double precision for two tetrahedra on two ranks, with the vector
of ones as what PETSc returns: the sweeps return, the exact solution exists, and the bound holds. -/
example : ∃ (deck : Deck) (p : Problem ℝ) (sS : Nat → ℝ) (T : Nat → Mesh) (D : Nat → Verif.Floating.Tables ℝ)
    (psiB psiA psi' : Nat → Psi ℝ) (rhs y : Nat → Flux) (new psi : Psi ℝ) (X Ξ Q W γ η Res : ℝ), deck.dirs.length = 8 ∧
    KrylovRun binary64 (machine64 deck) 2 T D psiB psiA rhs (fun _ _ _ _ => 1) y psi' ∧
    (∀ r < 2, ∀ i < (T r).nCells, ∀ g < deck.nGroups, ∀ v, |rhs r g v i - y r g v i| ≤ Res) ∧
    Holds deck.dirs.length deck.nGroups 2 T psi' new ∧ p.Scatter twoMesh (scattering deck sS) psi ∧ (∃ c < 2, sS c ≠ 0) ∧
    ∀ g < deck.nGroups,
      (1 - 3 / 4) ^ 2 * ∑ a ∈ Finset.range deck.dirs.length, (scattering deck sS).wt a * ∑ c ∈ Finset.range 2,
          p.sigmaT c * p.volume c * Verif.Source.cellM (fun v => new g v a c - psi g v a c) (fun v => new g v a c - psi g v a c) ≤
        ∑ a ∈ Finset.range deck.dirs.length, (scattering deck sS).wt a * ∑ c ∈ Finset.range 2,
          (2 * p.volume c * (14 * 2 ^ (-53 : ℤ) * (0.04 + 2) + 2 ^ (-53 : ℤ) * (1.001 * (0.04 + 2)) +
              sS c / (4 * Real.pi) * (6 * 2 ^ (-53 : ℤ) * Ξ +
                (Res + W * η + 2 * γ * (W * X) + 2 ^ (-53 : ℤ) * (Ξ + 1.01 * (W * X))))) ^ 2 / p.sigmaT c +
            160 * (2 ^ (-53 : ℤ) * (223 + 31 * 2) * (((∑ f, p.area c f) + p.sigmaT c * p.volume c) * X + p.volume c * Q)) ^ 2 /
              (p.sigmaT c * p.volume c)) := by
  obtain ⟨deck, p, sS, P, T, D, G, hlen, hG, t1, t2, t3, t4, H, L, hD, hsort, hom, hsize⟩ := two_machine
  have hpi := Real.pi_gt_three
  have hcell : ∀ c < twoMesh.numCells, 0 < p.sigmaT c ∧ 0 ≤ sS c ∧ |p.sigmaT c - sS c| ≤ 2 ∧ sS c / (4 * Real.pi) ≤ 1 := by
    intro c hc
    have hc : c < 2 := hc
    interval_cases c
    · rw [t1, t2]
      refine ⟨by norm_num, by norm_num, by norm_num, ?_⟩
      rw [div_le_one (by linarith)]
      linarith
    · rw [t3, t4]; norm_num
  have hswept : ∀ source : Nat → Psi ℝ, ∃ psi', (machine64 deck).Swept 2 T D source (fun _ _ _ _ _ => 0) psi' := by
    intro source
    obtain ⟨psi', h, -⟩ := Verif.Floating.sweep_returns H (by decide) L hD hsort hsize source (fun _ _ _ _ _ => 0)
      ⟨3, 5, .tycho, false, fun _ c _ => c, fun _ _ _ _ _ => 3⟩ (by decide) (by decide) rfl
    exact ⟨psi', h⟩
  obtain ⟨psiB, hB⟩ := hswept fun r => fixedSource (D r)
  obtain ⟨psiA, hA⟩ := hswept fun r => scatterSource binary64 (D r) fun _ _ _ => 1
  obtain ⟨psi', hN⟩ := hswept fun r => krylovSource (machine64 deck) (D r) fun _ _ _ => 1
  have hrun : KrylovRun binary64 (machine64 deck) 2 T D psiB psiA (fun r => (machine64 deck).phi (psiB r)) (fun _ _ _ _ => 1)
      (fun r g v i => binary64 (1 - (machine64 deck).phi (psiA r) g v i)) psi' :=
    ⟨⟨_, hB⟩, fun _ _ _ _ => rfl, ⟨_, hA⟩, fun _ _ _ _ => rfl, ⟨_, hN⟩⟩
  obtain ⟨Res, hRes⟩ := bounded (fun g v r i => (machine64 deck).phi (psiB r) g v i - binary64 (1 - (machine64 deck).phi (psiA r) g v i))
    deck.nGroups 2 ((T 0).nCells + (T 1).nCells)
  have hres : ∀ r < 2, ∀ i < (T r).nCells, ∀ g < deck.nGroups, ∀ v,
      |(machine64 deck).phi (psiB r) g v i - binary64 (1 - (machine64 deck).phi (psiA r) g v i)| ≤ Res := by
    intro r hr i hi g hg v
    refine hRes g hg v r hr i ?_
    interval_cases r <;> omega
  have hph := geometry_physical twoMesh_tets two_fits G.describes fun c hc => (hcell c hc).1
  have hrat := describes_ratio twoMesh_tets G.describes G.subcritical
  obtain ⟨psi, hpsi⟩ := scatter_solution H (by decide) L hph (geometry_matched twoMesh_tets two_fits G.describes) G.acyclic G.transversal
    (by rw [G.describes.angles]; exact hsize) hrat G.below
  obtain ⟨fluxB, fluxA, new, xS, hfB, hfA, hnew, hx, hbound⟩ := machine_krylov binary64_rounds (by norm_num) H (by decide) L hD two_fits
    G.describes machine64_computes machine64_solves machine64_adds rfl two_shaped two_stout two_apart (by norm_num) hom
    (fun c hc => (hcell c hc).1) (fun c hc => two_thick G.describes t1 t3 hc) (by rw [hlen]; norm_num) hrat G.below
    (fun c hc => (hcell c hc).2.1) (fun c hc => (hcell c hc).2.2.1) (fun c hc => (hcell c hc).2.2.2) hsize hrun hres hpsi
  obtain ⟨X1, hX1⟩ := bounded fluxB deck.nGroups deck.dirs.length twoMesh.numCells
  obtain ⟨X2, hX2⟩ := bounded fluxA deck.nGroups deck.dirs.length twoMesh.numCells
  obtain ⟨X3, hX3⟩ := bounded new deck.nGroups deck.dirs.length twoMesh.numCells
  obtain ⟨Ξ, hΞ⟩ := bounded (fun g v _ c => xS g v c) deck.nGroups 1 twoMesh.numCells
  have hpos : ∀ c < twoMesh.numCells, 0 < p.sigmaT c * p.volume c := fun c hc => mul_pos (hcell c hc).1 (hph.volume c hc)
  have hfin := fun η => hbound (max X1 (max X2 X3)) Ξ (1.01 * (1.001 * (0.04 + 2) + 1.01 * (1 * Ξ))) _ _ η
    (fun g hg v a ha c hc => ⟨(hX1 g hg v a ha c hc).trans (le_max_left _ _),
      (hX2 g hg v a ha c hc).trans ((le_max_left _ _).trans (le_max_right _ _)),
      (hX3 g hg v a ha c hc).trans ((le_max_right _ _).trans (le_max_right _ _))⟩)
    (fun g hg v c hc => hΞ g hg v 0 (by norm_num) c hc) rfl rfl rfl
  obtain ⟨η, h0, hη⟩ := eta_exists twoMesh.numCells (20 * ∑ c ∈ Finset.range twoMesh.numCells,
    (4 * p.volume c * (2 ^ (-53 : ℤ) * (1.01 * (1.001 * (0.04 + 2) + 1.01 * (1 * Ξ)))) ^ 2 / p.sigmaT c +
      960 * (2 ^ (-53 : ℤ) * (223 + 31 * 2) * (((∑ f, p.area c f) + p.sigmaT c * p.volume c) * max X1 (max X2 X3) +
        p.volume c * (1.01 * (1.001 * (0.04 + 2) + 1.01 * (1 * Ξ))))) ^ 2 / (p.sigmaT c * p.volume c)))
    (fun c => p.sigmaT c * p.volume c)
    (mul_nonneg (by norm_num) (Finset.sum_nonneg fun c hc => by
      have hc := Finset.mem_range.1 hc
      have k1 := hph.volume c hc
      have k2 := (hcell c hc).1
      positivity)) hpos
  exact ⟨deck, p, sS, T, D, psiB, psiA, psi', _, _, new, psi, max X1 (max X2 X3), Ξ, _, _, _, η, Res, hlen, hrun, hres, hnew, hpsi,
    ⟨0, by norm_num, by rw [t2]; norm_num⟩, hfin η h0 hη⟩

end Verif.Rounding
