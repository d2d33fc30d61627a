import Verif.TychoMesh.Interp
import Verif.Source.Null

/-!
# The energy of a solution on the serial mesh (for C97)
-/
set_option linter.unusedSectionVars false
set_option linter.unusedVariables false
namespace Verif.TychoMesh

open Verif.MeshFile Verif.Transport Verif.Source
open Verif.Traverse (Psi)

variable {K : Type} [Field K] [LinearOrder K] [IsStrictOrderedRing K] {m : SerialMesh} {p : Problem K}

open Classical in
/-- Absorption weighted by the flux is at most the source weighted by the flux. -/
theorem dg_energy (H : Tets m) (hp : p.Physical m) (hM : p.Matched m) {psi : Psi K} (h : p.DG m psi) {a g : Nat}
    (ha : a < p.nAngles) (hg : g < p.nGroups) :
    ∑ c ∈ Finset.range m.numCells, p.sigmaT c * p.volume c * cellM (fun v => psi g v a c) (fun v => psi g v a c) ≤
      ∑ c ∈ Finset.range m.numCells, p.volume c * cellM (fun v => p.source g v a c) fun v => psi g v a c := by
  have hcell : ∀ c < m.numCells, ∃ d, m.cells[c]? = some d := fun c hc => by
    rw [H.toSound.cells] at hc
    exact ⟨_, List.getElem?_eq_getElem hc⟩
  have hch : ∀ c, ∃ inc : Fin 4 → Fin 4 → K, c < m.numCells → ∀ d, m.cells[c]? = some d →
      (∀ f v, v ≠ f → p.area c f * p.omegaDotN a c f < 0 →
        (∀ (c' : Nat) (f' : Fin 4), Across m c f c' f' → ∃ (d' : SCell) (w : Fin 4), m.cells[c']? = some d' ∧
          d'.nodes w = d.nodes v ∧ inc f v = psi g w a c') ∧
        ((∀ c' f', ¬ Across m c f c' f') → inc f v = 0)) ∧
      Spec.DG (p.volume c) (p.sigmaT c) (fun f => p.area c f * p.omegaDotN a c f) inc
        (fun v => p.source g v a c) (fun v => psi g v a c) := by
    intro c
    by_cases hc : c < m.numCells
    · obtain ⟨d, hd⟩ := hcell c hc
      obtain ⟨inc, k⟩ := h c d hd a ha g hg
      refine ⟨inc, fun _ d' hd' => ?_⟩
      rw [hd, Option.some.injEq] at hd'
      subst hd'
      exact k
    · exact ⟨fun _ _ => 0, fun h => absurd h hc⟩
  choose inc hinc using hch
  let partner : Nat → Fin 4 → Option (Nat × Fin 4) := fun c f =>
    if k : ∃ x : Nat × Fin 4, Across m c f x.1 x.2 then some k.choose else none
  have hsome : ∀ c f c' f', partner c f = some (c', f') ↔ Across m c f c' f' := by
    intro c f c' f'
    by_cases k : ∃ x : Nat × Fin 4, Across m c f x.1 x.2
    · simp only [partner, dif_pos k, Option.some.injEq]
      have hk := k.choose_spec
      constructor
      · intro e
        rw [e] at hk
        exact hk
      · intro e
        obtain ⟨e1, e2⟩ := across_unique H e hk
        exact Prod.ext e1 e2
    · simp only [partner, dif_neg k]
      constructor
      · intro e; cases e
      · intro e; exact absurd ⟨(c', f'), e⟩ k
  let node : Nat → Fin 4 → Nat := fun c v => ((m.cells[c]?).map fun d => d.nodes v).getD 0
  have hnode : ∀ {c d}, m.cells[c]? = some d → node c = d.nodes := by
    intro c d hd; funext v; simp [node, hd]
  refine mesh_energy (Finset.range m.numCells) p.volume p.sigmaT (fun c f => p.area c f * p.omegaDotN a c f)
    (fun c v => p.source g v a c) (fun c v => psi g v a c) inc node partner
    (fun c hc => hp.closed c (Finset.mem_range.1 hc) a ha)
    (fun c hc => by
      obtain ⟨d, hd⟩ := hcell c (Finset.mem_range.1 hc)
      exact (hinc c (Finset.mem_range.1 hc) d hd).2)
    (fun c hc v w e => by
      obtain ⟨d, hd⟩ := hcell c (Finset.mem_range.1 hc)
      rw [hnode hd] at e
      exact H.distinct c d hd e)
    (fun c hc f c' f' e => by
      have k := (hsome c f c' f').1 e
      have hc' := k.cell H
      obtain ⟨d, hd⟩ := hcell c (Finset.mem_range.1 hc)
      obtain ⟨d', hd'⟩ := hcell c' hc'
      refine ⟨Finset.mem_range.2 hc', (hsome c' f' c f).2 k.symm, ?_, fun v hv => ?_⟩
      · show p.area c' f' * p.omegaDotN a c' f' = - (p.area c f * p.omegaDotN a c f)
        rw [hM c f c' f' k, hp.opposite c f c' f' k a ha]
        ring
      · rw [hnode hd, hnode hd']
        exact k.nodes H hd hd' hv)
    (fun c hc f c' f' e hneg v w hv ew => by
      have k := (hsome c f c' f').1 e
      obtain ⟨d, hd⟩ := hcell c (Finset.mem_range.1 hc)
      obtain ⟨d', w', hd', e1, e2⟩ := (((hinc c (Finset.mem_range.1 hc) d hd).1 f v hv hneg).1 c' f' k)
      rw [hnode hd, hnode hd'] at ew
      rw [e2, H.distinct c' d' hd' (e1.trans ew.symm)])
    (fun c hc f e hneg v hv => by
      obtain ⟨d, hd⟩ := hcell c (Finset.mem_range.1 hc)
      refine ((hinc c (Finset.mem_range.1 hc) d hd).1 f v hv hneg).2 fun c' f' k => ?_
      rw [(hsome c f c' f').2 k] at e
      cases e)

/-- So a solution is not larger than its source. -/
theorem dg_bound (H : Tets m) (hp : p.Physical m) (hM : p.Matched m) (hσ : ∀ c < m.numCells, 0 < p.sigmaT c) {psi : Psi K} (h : p.DG m psi)
    {a g : Nat} (ha : a < p.nAngles) (hg : g < p.nGroups) :
    ∑ c ∈ Finset.range m.numCells, p.sigmaT c * p.volume c * cellM (fun v => psi g v a c) (fun v => psi g v a c) ≤
      ∑ c ∈ Finset.range m.numCells, p.volume c / p.sigmaT c * cellM (fun v => p.source g v a c) fun v => p.source g v a c := by
  have k1 := dg_energy H hp hM h ha hg
  have k2 : 2 * ∑ c ∈ Finset.range m.numCells, p.volume c * cellM (fun v => p.source g v a c) (fun v => psi g v a c) ≤
      ∑ c ∈ Finset.range m.numCells, p.volume c / p.sigmaT c * cellM (fun v => p.source g v a c) (fun v => p.source g v a c) +
      ∑ c ∈ Finset.range m.numCells, p.sigmaT c * p.volume c * cellM (fun v => psi g v a c) (fun v => psi g v a c) := by
    rw [Finset.mul_sum, ← Finset.sum_add_distrib]
    refine Finset.sum_le_sum fun c hc => ?_
    have hc := Finset.mem_range.1 hc
    have hs := hσ c hc
    have := mul_le_mul_of_nonneg_left (cellM_young hs (fun v => p.source g v a c) fun v => psi g v a c) (hp.volume c hc).le
    have e : p.volume c / p.sigmaT c * cellM (fun v => p.source g v a c) (fun v => p.source g v a c) =
        p.volume c * (cellM (fun v => p.source g v a c) (fun v => p.source g v a c) / p.sigmaT c) := by ring
    linarith
  linarith

/-- With scattering: a solution is not larger than its source, up to the particles that are not scattered. -/
theorem scatter_bound (H : Tets m) (hp : p.Physical m) (hM : p.Matched m) (hσ : ∀ c < m.numCells, 0 < p.sigmaT c) {Y : Scattering K}
    {κ : K} (hκ : p.Ratio m Y κ) (hκ1 : κ < 1) {psi : Psi K} (h : p.Scatter m Y psi) {g : Nat} (hg : g < p.nGroups) :
    (1 - κ) ^ 2 * ∑ a ∈ Finset.range p.nAngles, Y.wt a * ∑ c ∈ Finset.range m.numCells,
        p.sigmaT c * p.volume c * cellM (fun v => psi g v a c) (fun v => psi g v a c) ≤
      ∑ a ∈ Finset.range p.nAngles, Y.wt a * ∑ c ∈ Finset.range m.numCells,
        p.volume c / p.sigmaT c * cellM (fun v => p.source g v a c) (fun v => p.source g v a c) := by
  have hp' : Problem.Physical { p with source := p.total Y psi } m := ⟨hp.volume, hp.area, hp.sigma, hp.closed, hp.flow, hp.opposite⟩
  have hM' : Problem.Matched { p with source := p.total Y psi } m := hM
  set W := ∑ a ∈ Finset.range p.nAngles, Y.wt a with hW
  set φ : Nat → Fin 4 → K := fun c v => ∑ b ∈ Finset.range p.nAngles, psi g v b c * Y.wt b with hφ
  set G : Nat → K := fun c => Y.sigmaS c / (4 * Y.pi) with hG
  set E := ∑ a ∈ Finset.range p.nAngles, Y.wt a * ∑ c ∈ Finset.range m.numCells,
        p.sigmaT c * p.volume c * cellM (fun v => psi g v a c) (fun v => psi g v a c) with hE
  set B := ∑ a ∈ Finset.range p.nAngles, Y.wt a * ∑ c ∈ Finset.range m.numCells,
        p.volume c * cellM (fun v => p.source g v a c) (fun v => psi g v a c) with hB
  have h1 : E ≤ B + ∑ c ∈ Finset.range m.numCells, p.volume c * (G c * cellM (φ c) (φ c)) := by
    have e : ∑ a ∈ Finset.range p.nAngles, Y.wt a * ∑ c ∈ Finset.range m.numCells, p.volume c * (G c * cellM (φ c) fun v => psi g v a c) =
        ∑ c ∈ Finset.range m.numCells, p.volume c * (G c * cellM (φ c) (φ c)) := by
      simp only [Finset.mul_sum]
      rw [Finset.sum_comm]
      refine Finset.sum_congr rfl fun c _ => ?_
      rw [← cellM_weights p.nAngles Y.wt (φ c) fun a v => psi g v a c]
      simp only [Finset.mul_sum]
      exact Finset.sum_congr rfl fun a _ => by ring
    rw [← e, hB, ← Finset.sum_add_distrib]
    refine Finset.sum_le_sum fun a ha => ?_
    have ha := Finset.mem_range.1 ha
    rw [← mul_add, ← Finset.sum_add_distrib]
    refine mul_le_mul_of_nonneg_left ((dg_energy H hp' hM' h ha hg).trans (le_of_eq ?_)) (hκ.weights a ha)
    refine Finset.sum_congr rfl fun c _ => ?_
    show p.volume c * cellM (fun v => p.source g v a c + G c * φ c v) (fun v => psi g v a c) = _
    rw [cellM_add]
    ring
  have h2 : ∑ c ∈ Finset.range m.numCells, p.volume c * (G c * cellM (φ c) (φ c)) ≤ κ * E := by
    have e : E = ∑ c ∈ Finset.range m.numCells, p.sigmaT c * p.volume c *
        ∑ a ∈ Finset.range p.nAngles, Y.wt a * cellM (fun v => psi g v a c) (fun v => psi g v a c) := by
      rw [hE]
      simp only [Finset.mul_sum]
      rw [Finset.sum_comm]
      exact Finset.sum_congr rfl fun c _ => Finset.sum_congr rfl fun a _ => by ring
    rw [e, Finset.mul_sum]
    refine Finset.sum_le_sum fun c hc => ?_
    have hc := Finset.mem_range.1 hc
    have hV := (hp.volume c hc).le
    have k1 := cellM_angles p.nAngles Y.wt hκ.weights fun a v => psi g v a c
    have k2 : 0 ≤ ∑ a ∈ Finset.range p.nAngles, Y.wt a * cellM (fun v => psi g v a c) (fun v => psi g v a c) :=
      Finset.sum_nonneg fun a ha => mul_nonneg (hκ.weights a (Finset.mem_range.1 ha)) (cellM_nonneg _)
    set Z := ∑ a ∈ Finset.range p.nAngles, Y.wt a * cellM (fun v => psi g v a c) (fun v => psi g v a c)
    have k3 : G c * cellM (φ c) (φ c) ≤ κ * p.sigmaT c * Z := by
      calc _ ≤ G c * (W * Z) := mul_le_mul_of_nonneg_left k1 (hκ.scatter c hc)
        _ = (W * G c) * Z := by ring
        _ ≤ _ := mul_le_mul_of_nonneg_right (hκ.ratio c hc) k2
    calc _ ≤ p.volume c * (κ * p.sigmaT c * Z) := mul_le_mul_of_nonneg_left k3 hV
      _ = _ := by ring
  have hκ' : 0 < 1 - κ := by linarith
  have h3 : 2 * (1 - κ) * B ≤ (∑ a ∈ Finset.range p.nAngles, Y.wt a * ∑ c ∈ Finset.range m.numCells,
        p.volume c / p.sigmaT c * cellM (fun v => p.source g v a c) (fun v => p.source g v a c)) + (1 - κ) ^ 2 * E := by
    rw [hB, hE, Finset.mul_sum, Finset.mul_sum, ← Finset.sum_add_distrib]
    refine Finset.sum_le_sum fun a ha => ?_
    have ha := Finset.mem_range.1 ha
    have key : 2 * (1 - κ) * ∑ c ∈ Finset.range m.numCells, p.volume c * cellM (fun v => p.source g v a c) (fun v => psi g v a c) ≤
        ∑ c ∈ Finset.range m.numCells, p.volume c / p.sigmaT c * cellM (fun v => p.source g v a c) (fun v => p.source g v a c) +
        (1 - κ) ^ 2 * ∑ c ∈ Finset.range m.numCells, p.sigmaT c * p.volume c * cellM (fun v => psi g v a c) (fun v => psi g v a c) := by
      rw [Finset.mul_sum, Finset.mul_sum, ← Finset.sum_add_distrib]
      refine Finset.sum_le_sum fun c hc => ?_
      have hc := Finset.mem_range.1 hc
      have hs := hσ c hc
      have k := mul_le_mul_of_nonneg_left (cellM_young (mul_pos hκ' hs) (fun v => p.source g v a c) fun v => psi g v a c)
        (mul_nonneg hκ'.le (hp.volume c hc).le)
      refine le_trans (le_of_eq ?_) (k.trans (le_of_eq ?_))
      · ring
      · have := hκ'.ne'
        have := hs.ne'
        field_simp
    have := mul_le_mul_of_nonneg_left key (hκ.weights a ha)
    linarith
  nlinarith

end Verif.TychoMesh
