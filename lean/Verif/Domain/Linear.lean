import Verif.Domain.PBJ

/-!
# The upwind systems are linear, and the full system has a solution
-/
set_option linter.unusedSectionVars false

namespace Verif.Domain
open Classical List
open Verif.Transport Verif.Traverse

variable {K : Type} [Field K] [LinearOrder K] [IsStrictOrderedRing K]

theorem dg_lin {V σ : K} {area : Fin 4 → K} {inc inc' : Fin 4 → Fin 4 → K} {Q Q' psi psi' : Fin 4 → K}
    (k : K) (h : Spec.DG V σ area inc Q psi) (h' : Spec.DG V σ area inc' Q' psi') :
    Spec.DG V σ area (fun f v => inc f v + k * inc' f v) (fun v => Q v + k * Q' v)
      (fun v => psi v + k * psi' v) := by
  have hu : ∀ f v, Spec.upwind area (fun v => psi v + k * psi' v) (fun f v => inc f v + k * inc' f v) f v
      = Spec.upwind area psi inc f v + k * Spec.upwind area psi' inc' f v := by
    intro f v
    unfold Spec.upwind
    split <;> rfl
  intro i
  have h1 := h i
  have h2 := h' i
  unfold Spec.DGRow at h1 h2 ⊢
  simp only [hu, Finset.sum_add_distrib, ← Finset.mul_sum]
  have e : ∑ f ∈ Finset.univ.erase i, area f / 12 *
      (2 * (Spec.upwind area psi inc f i + k * Spec.upwind area psi' inc' f i) +
        (∑ j ∈ (Finset.univ.erase f).erase i, Spec.upwind area psi inc f j +
          k * ∑ j ∈ (Finset.univ.erase f).erase i, Spec.upwind area psi' inc' f j)) =
      (∑ f ∈ Finset.univ.erase i, area f / 12 * (2 * Spec.upwind area psi inc f i +
        ∑ j ∈ (Finset.univ.erase f).erase i, Spec.upwind area psi inc f j)) +
      k * ∑ f ∈ Finset.univ.erase i, area f / 12 * (2 * Spec.upwind area psi' inc' f i +
        ∑ j ∈ (Finset.univ.erase f).erase i, Spec.upwind area psi' inc' f j) := by
    rw [Finset.mul_sum, ← Finset.sum_add_distrib]
    refine Finset.sum_congr rfl fun f _ => ?_
    ring
  rw [e]
  linear_combination h1 + k * h2

/-- `p + k q`. -/
def lin (k : K) (p q : Nat → Psi K) : Nat → Psi K := fun r g v a c => p r g v a c + k * q r g v a c

/-- `p + k q` for boundary arrays. -/
def linB (k : K) (p q : Nat → Bound K) : Nat → Bound K := fun r g v a s => p r g v a s + k * q r g v a s

section
variable {R : SweepRun K} {mate : Loc → Option Loc} {node : Nat → Nat → Fin 4 → Nat}

theorem localDG_lin (L : Linked R.cfg mate) (N : R.Nodes mate node) (k : K) {src src' : Nat → Psi K}
    {bound bound' : Nat → Bound K} {psi psi' : Nat → Psi K} (h : LocalDG R mate node src bound psi)
    (h' : LocalDG R mate node src' bound' psi') :
    LocalDG R mate node (lin k src src') (linB k bound bound') (lin k psi psi') := by
  intro r c a g hr hc ha hg
  obtain ⟨inc, hinc, hdg⟩ := h r c a g hr hc ha hg
  obtain ⟨inc', hinc', hdg'⟩ := h' r c a g hr hc ha hg
  refine ⟨_, ?_, dg_lin k hdg hdg'⟩
  intro f v hv hneg
  obtain ⟨h1, h2, h3⟩ := hinc f v hv hneg
  obtain ⟨h1', h2', h3'⟩ := hinc' f v hv hneg
  refine ⟨?_, ?_, ?_⟩
  · intro y hy hyr
    have hyin := L.mate_in ⟨r, c, f⟩ y ⟨hr, hc⟩ hy
    obtain ⟨w, hw, e⟩ := h1 y hy hyr
    obtain ⟨w', hw', e'⟩ := h1' y hy hyr
    have : w = w' := N.inj r y.cell w w' hr (by have := hyin.2; rw [hyr] at this; exact this)
      (hw.trans hw'.symm)
    subst this
    exact ⟨w, hw, by rw [e, e']; rfl⟩
  · intro y hy hyr
    rw [h2 y hy hyr, h2' y hy hyr]; rfl
  · intro hm
    rw [h3 hm, h3' hm]; ring

theorem fullDG_lin (L : Linked R.cfg mate) (N : R.Nodes mate node) (k : K) {src src' : Nat → Psi K}
    {psi psi' : Nat → Psi K} (h : FullDG R mate node src psi)
    (h' : FullDG R mate node src' psi') :
    FullDG R mate node (lin k src src') (lin k psi psi') := by
  intro r c a g hr hc ha hg
  obtain ⟨inc, hinc, hdg⟩ := h r c a g hr hc ha hg
  obtain ⟨inc', hinc', hdg'⟩ := h' r c a g hr hc ha hg
  refine ⟨_, ?_, dg_lin k hdg hdg'⟩
  intro f v hv hneg
  obtain ⟨h1, h3⟩ := hinc f v hv hneg
  obtain ⟨h1', h3'⟩ := hinc' f v hv hneg
  refine ⟨?_, ?_⟩
  · intro y hy
    have hyin := L.mate_in ⟨r, c, f⟩ y ⟨hr, hc⟩ hy
    obtain ⟨w, hw, e⟩ := h1 y hy
    obtain ⟨w', hw', e'⟩ := h1' y hy
    have : w = w' := N.inj y.rank y.cell w w' hyin.1 hyin.2 (hw.trans hw'.symm)
    subst this
    exact ⟨w, hw, by rw [e, e']; rfl⟩
  · intro hm
    rw [h3 hm, h3' hm]; ring

theorem localDG_congr {src src' : Nat → Psi K} {bound bound' : Nat → Bound K} {psi : Nat → Psi K}
    (h : LocalDG R mate node src bound psi) (hs : SameFlux R src src')
    (hb : ∀ x y a g v, R.cfg.In x → mate x = some y → y.rank ≠ x.rank → a < R.nAngles →
      ¬ (R.view x.rank).isOutgoing a x.cell x.face → g < R.nGroups → v ≠ x.face →
      bound x.rank g ((R.view x.rank).cellToFaceVrtx x.cell x.face v) a
        ((R.view x.rank).side x.cell x.face) =
      bound' x.rank g ((R.view x.rank).cellToFaceVrtx x.cell x.face v) a
        ((R.view x.rank).side x.cell x.face)) (H : R.Physical) :
    LocalDG R mate node src' bound' psi := by
  intro r c a g hr hc ha hg
  obtain ⟨inc, hinc, hdg⟩ := h r c a g hr hc ha hg
  refine ⟨inc, ?_, ?_⟩
  · intro f v hv hneg
    obtain ⟨h1, h2, h3⟩ := hinc f v hv hneg
    refine ⟨h1, fun y hy hyr => ?_, h3⟩
    rw [h2 y hy hyr]
    exact hb ⟨r, c, f⟩ y a g v ⟨hr, hc⟩ hy hyr ha (incoming_of_neg H hr hc hneg) hg hv
  · have : (fun v => src' r g v a c) = fun v => src r g v a c :=
      funext fun v => (hs r c a g v hr hc ha hg).symm
    rw [this]; exact hdg

theorem fullDG_congr {src src' : Nat → Psi K} {psi : Nat → Psi K}
    (h : FullDG R mate node src psi) (hs : SameFlux R src src') : FullDG R mate node src' psi := by
  intro r c a g hr hc ha hg
  obtain ⟨inc, hinc, hdg⟩ := h r c a g hr hc ha hg
  refine ⟨inc, hinc, ?_⟩
  have : (fun v => src' r g v a c) = fun v => src r g v a c :=
    funext fun v => (hs r c a g v hr hc ha hg).symm
  change Spec.DG _ _ _ inc (fun v => src' r g v a c) _
  rw [this]; exact hdg

theorem fullDG_flux_congr (L : Linked R.cfg mate) {src psi psi' : Nat → Psi K}
    (h : FullDG R mate node src psi) (hs : SameFlux R psi psi') : FullDG R mate node src psi' := by
  intro r c a g hr hc ha hg
  obtain ⟨inc, hinc, hdg⟩ := h r c a g hr hc ha hg
  refine ⟨inc, ?_, ?_⟩
  · intro f v hv hneg
    obtain ⟨h1, h3⟩ := hinc f v hv hneg
    refine ⟨fun y hy => ?_, h3⟩
    have hyin := L.mate_in ⟨r, c, f⟩ y ⟨hr, hc⟩ hy
    obtain ⟨w, hw, e⟩ := h1 y hy
    exact ⟨w, hw, e.trans (hs _ _ _ _ _ hyin.1 hyin.2 ha hg)⟩
  · have : (fun v => psi' r g v a c) = fun v => psi r g v a c :=
      funext fun v => (hs r c a g v hr hc ha hg).symm
    rw [this]; exact hdg

theorem localDG_flux_congr (L : Linked R.cfg mate) {src psi psi' : Nat → Psi K} {bound : Nat → Bound K}
    (h : LocalDG R mate node src bound psi) (hs : SameFlux R psi psi') :
    LocalDG R mate node src bound psi' := by
  intro r c a g hr hc ha hg
  obtain ⟨inc, hinc, hdg⟩ := h r c a g hr hc ha hg
  refine ⟨inc, ?_, ?_⟩
  · intro f v hv hneg
    obtain ⟨h1, h2, h3⟩ := hinc f v hv hneg
    refine ⟨fun y hy hyr => ?_, h2, h3⟩
    have hyin := L.mate_in ⟨r, c, f⟩ y ⟨hr, hc⟩ hy
    obtain ⟨w, hw, e⟩ := h1 y hy hyr
    exact ⟨w, hw, e.trans (hs _ _ _ _ _ hr (hyr ▸ hyin.2) ha hg)⟩
  · have : (fun v => psi' r g v a c) = fun v => psi r g v a c :=
      funext fun v => (hs r c a g v hr hc ha hg).symm
    rw [this]; exact hdg

/-- The full system has a solution: the one a full sweep computes. -/
theorem fullDG_exists (H : R.Physical) (L : Linked R.cfg mate) (X : Crossed R.cfg mate)
    (N : R.Nodes mate node) (hd : R.doComm = true) (A : Acyclic R.cfg mate) (src : Nat → Psi K) :
    ∃ psi, FullDG R mate node src psi := by
  let R' : SweepRun K := { R with source := src, protocol := .tycho, maxCompute := 1 }
  have L' : Linked R'.cfg mate := ⟨L.threads, L.size, L.mate_in, L.mate_symm, L.near, L.far, L.ext,
    L.side_eq, L.side_cell, L.side_inj, L.orient⟩
  have H' : R'.Physical := ⟨H.volume, H.area, H.sigma, H.closed, H.some_flow⟩
  have N' : R'.Nodes mate node := ⟨N.inj, N.near, N.far⟩
  obtain ⟨n, s, hs, hf⟩ := traverse_finishes L' (by show 0 < 1; decide) (fun _ => rfl) X A
  obtain ⟨psi, -, hpsi⟩ := sweep_solves R' H' L' N' hd (hs.reachable .init) hf
  exact ⟨psi, hpsi⟩

end

end Verif.Domain
