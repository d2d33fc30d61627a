import Verif.TychoMesh.Balance

/-!
# Interpolants and differences of solutions on the serial mesh (for C84)

The interpolant of a continuous function that vanishes on the surface of the mesh solves the discretisation with a source of
its own; the difference of two solutions solves it with the difference of the sources.
-/
set_option linter.unusedSectionVars false
set_option linter.unusedVariables false
namespace Verif.TychoMesh

open Verif.MeshFile Verif.Transport
open Verif.Traverse (Psi)

variable {K : Type} [Field K] [LinearOrder K] [IsStrictOrderedRing K]

theorem cell_interp {V σ : K} (hV : V ≠ 0) {area u : Fin 4 → K} {inc : Fin 4 → Fin 4 → K} (h0 : ∑ f, area f = 0)
    (hinc : ∀ f v, v ≠ f → area f < 0 → inc f v = u v) :
    Spec.DG V σ area inc (fun v => -(∑ f, area f * u f) / (3 * V) + σ * u v) u := by
  have hup : ∀ f v, v ≠ f → area f * Spec.upwind area u inc f v = area f * u v := by
    intro f v hv
    unfold Spec.upwind
    split
    · rfl
    · rename_i h
      rcases (not_lt.1 h).lt_or_eq with h | h
      · rw [hinc f v hv h]
      · rw [h, zero_mul, zero_mul]
  have h0' : area 0 + area 1 + area 2 + area 3 = 0 := by rw [← h0, Fin.sum_univ_four]
  have a3 : area 3 = -(area 0 + area 1 + area 2) := by linear_combination h0'
  intro i
  unfold Spec.DGRow
  have e : ∑ f ∈ Finset.univ.erase i, area f / 12 *
      (2 * Spec.upwind area u inc f i + ∑ j ∈ (Finset.univ.erase f).erase i, Spec.upwind area u inc f j) =
      ∑ f ∈ Finset.univ.erase i, area f / 12 * (2 * u i + ∑ j ∈ (Finset.univ.erase f).erase i, u j) := by
    refine Finset.sum_congr rfl fun f hf => ?_
    have hf : i ≠ f := (Finset.ne_of_mem_erase hf).symm
    have h1 := hup f i hf
    have h2 : area f * ∑ j ∈ (Finset.univ.erase f).erase i, Spec.upwind area u inc f j =
        area f * ∑ j ∈ (Finset.univ.erase f).erase i, u j := by
      rw [Finset.mul_sum, Finset.mul_sum]
      exact Finset.sum_congr rfl fun j hj => hup f j (Finset.ne_of_mem_erase (Finset.mem_of_mem_erase hj))
    linear_combination 1 / 6 * h1 + 1 / 12 * h2
  rw [e]
  clear e
  have hs : ∀ (i : Fin 4) (F : Fin 4 → K), ∑ j ∈ Finset.univ.erase i, F j = (∑ j, F j) - F i := by
    intro i F
    rw [← Finset.add_sum_erase Finset.univ F (Finset.mem_univ i)]
    ring
  have hs2 : ∀ (f : Fin 4) (F : Fin 4 → K), f ≠ i → ∑ j ∈ (Finset.univ.erase f).erase i, F j = (∑ j, F j) - F f - F i := by
    intro f F hf
    have := Finset.add_sum_erase (Finset.univ.erase f) F (Finset.mem_erase.2 ⟨hf.symm, Finset.mem_univ i⟩)
    rw [hs] at this
    linear_combination this
  have e2 : ∑ f ∈ Finset.univ.erase i, area f / 12 * (2 * u i + ∑ j ∈ (Finset.univ.erase f).erase i, u j) =
      ∑ f ∈ Finset.univ.erase i, area f / 12 * (u i + (∑ j, u j) - u f) := by
    refine Finset.sum_congr rfl fun f hf => ?_
    rw [hs2 f u (Finset.ne_of_mem_erase hf)]
    ring
  rw [e2, hs i, hs i, hs i]
  simp only [Fin.sum_univ_four, a3]
  field_simp
  ring

theorem cell_sub {V σ : K} {area Q Q' u u' : Fin 4 → K} {inc inc' : Fin 4 → Fin 4 → K}
    (h : Spec.DG V σ area inc Q u) (h' : Spec.DG V σ area inc' Q' u') :
    Spec.DG V σ area (fun f v => inc f v - inc' f v) (fun v => Q v - Q' v) fun v => u v - u' v := by
  have hup : ∀ f v, Spec.upwind area (fun v => u v - u' v) (fun f v => inc f v - inc' f v) f v =
      Spec.upwind area u inc f v - Spec.upwind area u' inc' f v := by
    intro f v
    unfold Spec.upwind
    split <;> rfl
  intro i
  have h1 := h i
  have h2 := h' i
  unfold Spec.DGRow at h1 h2 ⊢
  simp only [hup, Finset.sum_sub_distrib, mul_sub, mul_add, Finset.sum_add_distrib] at h1 h2 ⊢
  linear_combination h1 - h2

variable {m : SerialMesh} {p : Problem K}

/-- The source with which vertex values `u` solve the discretisation. -/
def Problem.ownSource (p : Problem K) (u : Nat → Fin 4 → K) : Psi K := fun g v a c =>
  -(∑ f, p.area c f * p.omegaDotN a c f * u c f) / (3 * p.volume c) + p.sigmaT c * u c v

/-- What the source of the problem and the scattering of `u` have more than the source of `u`. -/
def Problem.defect (p : Problem K) (Y : Scattering K) (u : Nat → Fin 4 → K) : Psi K := fun g v a c =>
  p.source g v a c - p.ownSource u g v a c + Y.sigmaS c / (4 * Y.pi) * (∑ b ∈ Finset.range p.nAngles, Y.wt b) * u c v

/-- Vertex values that belong to the nodes, zero on the faces without neighbor, solve the discretisation. -/
theorem interp_dg (H : Tets m) (hp : p.Physical m) {u : Nat → Fin 4 → K}
    (hu : ∀ c c' d d' v w, m.cells[c]? = some d → m.cells[c']? = some d' → d.nodes v = d'.nodes w → u c v = u c' w)
    (h0 : ∀ c < m.numCells, ∀ f, (∀ c' f', ¬ Across m c f c' f') → ∀ v, v ≠ f → u c v = 0) :
    Problem.DG { p with source := p.ownSource u } m fun g v a c => u c v := by
  intro c d hd a ha g hg
  have hc : c < m.numCells := by rw [H.toSound.cells]; exact (List.getElem?_eq_some_iff.1 hd).1
  refine ⟨fun f v => u c v, fun f v hv hin => ⟨fun c' f' hac => ?_, fun hno => h0 c hc f hno v hv⟩,
    cell_interp (hp.volume c hc).ne' (hp.closed c hc a ha) fun _ _ _ _ => rfl⟩
  have hc' := hac.cell H
  rw [H.toSound.cells] at hc'
  obtain ⟨w, -, hw⟩ := hac.nodes H hd (List.getElem?_eq_getElem hc') hv
  exact ⟨_, w, List.getElem?_eq_getElem hc', hw, hu _ _ _ _ _ _ hd (List.getElem?_eq_getElem hc') hw.symm⟩

open Classical in
/-- The difference of two solutions. -/
theorem dg_sub (H : Tets m) {q q' psi psi' : Psi K} (h : Problem.DG { p with source := q } m psi)
    (h' : Problem.DG { p with source := q' } m psi') :
    Problem.DG { p with source := fun g v a c => q g v a c - q' g v a c } m fun g v a c => psi g v a c - psi' g v a c := by
  intro c d hd a ha g hg
  obtain ⟨inc, h1, h2⟩ := h c d hd a ha g hg
  obtain ⟨inc', h1', h2'⟩ := h' c d hd a ha g hg
  refine ⟨fun f v => inc f v - inc' f v, fun f v hv hin => ⟨fun c' f' hac => ?_, fun hno => ?_⟩, cell_sub h2 h2'⟩
  · obtain ⟨d1, w, k1, k2, k3⟩ := (h1 f v hv hin).1 c' f' hac
    obtain ⟨d2, w', k1', k2', k3'⟩ := (h1' f v hv hin).1 c' f' hac
    rw [k1, Option.some.injEq] at k1'
    subst k1'
    obtain rfl := H.distinct c' d1 k1 (k2.trans k2'.symm)
    exact ⟨d1, w, k1, k2, by show inc f v - inc' f v = _; rw [k3, k3']⟩
  · show inc f v - inc' f v = 0
    rw [(h1 f v hv hin).2 hno, (h1' f v hv hin).2 hno, sub_zero]

/-- C84: the difference between a solution with scattering and an interpolant solves the problem with scattering, with the
amount by which the interpolant fails as its source. -/
theorem scatter_interp (H : Tets m) (hp : p.Physical m) {Y : Scattering K} {psi : Psi K} (h : p.Scatter m Y psi) {u : Nat → Fin 4 → K}
    (hu : ∀ c c' d d' v w, m.cells[c]? = some d → m.cells[c']? = some d' → d.nodes v = d'.nodes w → u c v = u c' w)
    (h0 : ∀ c < m.numCells, ∀ f, (∀ c' f', ¬ Across m c f c' f') → ∀ v, v ≠ f → u c v = 0) :
    Problem.Scatter { p with source := p.defect Y u } m Y fun g v a c => psi g v a c - u c v := by
  have := dg_sub H h (interp_dg (p := p) H hp hu h0)
  unfold Problem.Scatter
  refine (congrArg (fun q => Problem.DG { p with source := q } m fun g v a c => psi g v a c - u c v) ?_).mp this
  funext g v a c
  simp only [Problem.total, Problem.defect, sub_mul, Finset.sum_sub_distrib]
  rw [← Finset.mul_sum]
  ring

end Verif.TychoMesh
