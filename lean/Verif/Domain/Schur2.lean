import Verif.Domain.Schur
import Mathlib.Data.Fintype.EquivFin

/-!
# What the Schur system solves (C44)
-/
set_option linter.unusedSectionVars false

namespace Verif.Domain
open Classical List
open Verif.Transport Verif.Traverse

variable {K : Type} [Field K] [LinearOrder K]

section
variable {R : SweepRun K} {mate : Loc → Option Loc} {node : Nat → Nat → Fin 4 → Nat}

/-- Every face vertex is that of a cell vertex. -/
theorem faceVrtx_surj (N : R.Nodes mate node) {x y : Loc} (hx : R.cfg.In x) (hm : mate x = some y)
    (hne : y.rank ≠ x.rank) (fv : Fin 3) :
    ∃ v, v ≠ x.face ∧ (R.view x.rank).cellToFaceVrtx x.cell x.face v = fv := by
  let f : {v : Fin 4 // v ≠ x.face} → Fin 3 := fun v => (R.view x.rank).cellToFaceVrtx x.cell x.face v
  have hinj : Function.Injective f := by
    rintro ⟨v, hv⟩ ⟨w, hw⟩ h
    have h1 := N.far x y v hx hm hne hv
    have h2 := N.far x y w hx hm hne hw
    simp only [f] at h
    rw [h, h2] at h1
    exact Subtype.ext (N.inj x.rank x.cell v w hx.1 hx.2 h1.symm)
  have hcard : Fintype.card {v : Fin 4 // v ≠ x.face} = Fintype.card (Fin 3) := by
    simp
  have hsurj := ((Fintype.bijective_iff_injective_and_card f).2 ⟨hinj, hcard⟩).2
  obtain ⟨⟨v, hv⟩, h⟩ := hsurj fv
  exact ⟨v, hv, h⟩

/-- What a consistent boundary array holds at a slot. -/
theorem slot_value (L : Linked R.cfg mate) (N : R.Nodes mate node) {r : Nat} (hr : r < R.nRanks)
    {s : Slot} (hs : s ∈ slots R r) :
    ∃ (y : Loc) (w : Fin 4), y.rank < R.nRanks ∧ y.cell < R.nCells y.rank ∧ s.2.2.1 < R.nAngles ∧ s.1 < R.nGroups ∧
      ∀ (psi : Nat → Psi K) (bound : Nat → Bound K), Consistent R mate node psi bound →
        s.get (bound r) = psi y.rank s.1 w s.2.2.1 y.cell := by
  obtain ⟨g, fv, a, d⟩ := s
  obtain ⟨x, y, hx, hxr, hm, hyr, ha, hin, hg, rfl⟩ := face_of_slot L hr hs
  subst hxr
  obtain ⟨v, hv, rfl⟩ := faceVrtx_surj N hx hm hyr fv
  have hyin := L.mate_in x y hx hm
  refine ⟨y, R.faceToCellVrtx y.rank y.cell y.face ((R.view x.rank).cellToFaceVrtx x.cell x.face v),
    hyin.1, hyin.2, ha, hg, ?_⟩
  intro psi bound hc
  obtain ⟨w, hw, e⟩ := hc x y a g v hx hm hyr ha hin hg hv
  have := N.inj y.rank y.cell _ w hyin.1 hyin.2 ((N.far x y v hx hm hyr hv).trans hw.symm)
  rw [this]
  exact e

/-- Consistency is a matter of the slots. -/
theorem consistent_of_slots (L : Linked R.cfg mate) {psi : Nat → Psi K} {bound bound' : Nat → Bound K}
    (h : Consistent R mate node psi bound)
    (he : ∀ r < R.nRanks, ∀ s ∈ slots R r, s.get (bound' r) = s.get (bound r)) :
    Consistent R mate node psi bound' := by
  intro x y a g v h1 h2 h3 h4 h5 h6 h7
  obtain ⟨w, hw, e⟩ := h x y a g v h1 h2 h3 h4 h5 h6 h7
  exact ⟨w, hw, (he x.rank h1.1 _ (slot_of_face L _ h1 h2 h3 h4 h5 h6)).trans e⟩

variable [IsStrictOrderedRing K]

theorem localDG_slots (L : Linked R.cfg mate) (H : R.Physical) {src src' psi : Nat → Psi K}
    {bound bound' : Nat → Bound K} (h : LocalDG R mate node src bound psi) (hs : SameFlux R src src')
    (he : ∀ r < R.nRanks, ∀ s ∈ slots R r, s.get (bound r) = s.get (bound' r)) :
    LocalDG R mate node src' bound' psi :=
  localDG_congr h hs (fun x _ _ _ _ h1 h2 h3 h4 h5 h6 _ =>
    he x.rank h1.1 _ (slot_of_face L _ h1 h2 h3 h4 h5 h6)) H

theorem unpack_slot (L : Linked R.cfg mate) {r : Nat} (hr : r < R.nRanks) (x : Nat → K) (b : Bound K)
    {s : Slot} (hs : s ∈ slots R r) :
    ∃ i, i < psiBoundSize R r ∧ s.get (vecToPsiBound R r x b) = x i ∧
      ∀ (b' : Bound K) (y : Nat → K), psiBoundToVec R r b' y i = s.get b' := by
  obtain ⟨i, hi, rfl⟩ := List.mem_iff_getElem.1 hs
  have hi' : i < psiBoundSize R r := by rw [psiBoundSize_eq]; exact hi
  refine ⟨i, hi', (unpack_get L hr x b).1 i hi', fun b' y => ?_⟩
  rw [pack_get, dif_pos hi']

theorem slot_index {r i : Nat} (hi : i < psiBoundSize R r) :
    ∃ s ∈ slots R r, ∀ (b' : Bound K) (y : Nat → K), psiBoundToVec R r b' y i = s.get b' := by
  have hi' : i < (slots R r).length := by rw [← psiBoundSize_eq]; exact hi
  refine ⟨_, List.getElem_mem hi', fun b' y => ?_⟩
  rw [pack_get, dif_pos hi]

/-- C44: a vector solves the Schur system exactly when its entries are the flux, recovered from it, of
the cells across the partition faces. -/
theorem schur_iff_consistent (H : R.Physical) (L : Linked R.cfg mate) (X : Crossed R.cfg mate)
    (N : R.Nodes mate node) (hd : R.doComm = true) (A : Acyclic R.cfg mate) {src : Nat → Psi K}
    {x b rhs : Nat → Nat → K} {psi : Nat → Psi K} (hop : SchurOp R x b) (hrhs : SchurRhs R src rhs)
    (hend : SchurEnd R src x psi) (any : Nat → Bound K) :
    SameVec R b rhs ↔ Consistent R mate node psi fun r => vecToPsiBound R r (x r) (any r) := by
  obtain ⟨bnd, psi0, psi2, bnd2, y2, h1, h2, h3⟩ := hop
  obtain ⟨psi0', psi1, bnd1, y1, h1', h2', h3'⟩ := hrhs
  obtain ⟨bndE, psi0E, hE⟩ := hend
  have hx : ∀ r < R.nRanks, ∀ b b' : Bound K, ∀ s ∈ slots R r,
      s.get (vecToPsiBound R r (x r) b) = s.get (vecToPsiBound R r (x r) b') := by
    intro r hr b b' s hs
    obtain ⟨i, hi, rfl⟩ := List.mem_iff_getElem.1 hs
    have hi' : i < psiBoundSize R r := by rw [psiBoundSize_eq]; exact hi
    rw [(unpack_get L hr _ b).1 i hi', (unpack_get L hr _ b').1 i hi']
  have hsum : LocalDG R mate node src (fun r => vecToPsiBound R r (x r) (bndE r)) (lin 1 psi1 psi2) := by
    refine localDG_slots L H (localDG_lin L N 1 (local_sweep_solves H L N h1')
      (local_sweep_solves H L N h1)) ?_ ?_
    · intro r c a g v _ _ _ _; simp [lin]
    · intro r hr s hs
      have := hx r hr (bnd r) (bndE r) s hs
      rw [← this]
      simp [Slot.get, linB]
  have hsame := localDG_unique H L N hd A (local_sweep_solves H L N hE) hsum
  have c1 := (h2'.exchanged L X N).consistent
  have c2 := (h2.exchanged L X N).consistent
  constructor
  · intro he xx y a g v hxin hm hne ha hin hg hv
    have hs := slot_of_face (g := g) L ((R.view xx.rank).cellToFaceVrtx xx.cell xx.face v) hxin hm hne
      ha hin hg
    obtain ⟨i, hi, e1, e2⟩ := unpack_slot L hxin.1 (x xx.rank) (any xx.rank) hs
    obtain ⟨w, hw, e3⟩ := c1 xx y a g v hxin hm hne ha hin hg hv
    obtain ⟨w', hw', e4⟩ := c2 xx y a g v hxin hm hne ha hin hg hv
    have hyin := L.mate_in xx y hxin hm
    have := N.inj y.rank y.cell w w' hyin.1 hyin.2 (hw.trans hw'.symm)
    subst this
    refine ⟨w, hw, ?_⟩
    have e5 := he xx.rank hxin.1 i hi
    rw [h3 _ hxin.1 i hi, h3' _ hxin.1 i hi, e2, e2] at e5
    have e6 := hsame y.rank y.cell a g w hyin.1 hyin.2 ha hg
    refine e1.trans ?_
    rw [e6]
    simp only [lin, ← e3, ← e4]
    simp only [Slot.get] at e5
    linear_combination e5
  · intro hc r hr i hi
    obtain ⟨s, hs, hp⟩ := slot_index (R := R) hi
    obtain ⟨y, w, hy1, hy2, ha, hg, hval⟩ := slot_value L N hr hs
    have e1 := hval psi1 bnd1 c1
    have e2 := hval psi2 bnd2 c2
    have e3 := hval psi _ hc
    have e4 := hsame y.rank y.cell s.2.2.1 s.1 w hy1 hy2 ha hg
    have e5 := pack_unpack L hr (x r) (any r) (y2 r) i hi
    rw [hp, e3, e4] at e5
    rw [h3 r hr i hi, h3' r hr i hi, hp, hp, e1, e2, ← e5]
    simp only [lin]; ring

/-- C44: the flux recovered from a solution of the Schur system is the full-sweep solution. -/
theorem schur_gives_full (H : R.Physical) (L : Linked R.cfg mate) (X : Crossed R.cfg mate)
    (N : R.Nodes mate node) (hd : R.doComm = true) (A : Acyclic R.cfg mate) {src : Nat → Psi K}
    {x b rhs : Nat → Nat → K} {psi : Nat → Psi K} (hop : SchurOp R x b) (hrhs : SchurRhs R src rhs)
    (hend : SchurEnd R src x psi) (hsol : SameVec R b rhs) : FullDG R mate node src psi := by
  obtain ⟨bnd, psi0, hE⟩ := id hend
  exact consistent_is_full H (local_sweep_solves H L N hE)
    ((schur_iff_consistent H L X N hd A hop hrhs hend bnd).1 hsol)

/-- C44: a vector solves the Schur system exactly when it is the packed boundary flux of the full-sweep
solution. So the system has one solution. -/
theorem schur_iff_packed (H : R.Physical) (L : Linked R.cfg mate) (X : Crossed R.cfg mate)
    (N : R.Nodes mate node) (hd : R.doComm = true) (A : Acyclic R.cfg mate) {src star : Nat → Psi K}
    (hstar : FullDG R mate node src star) {bound : Nat → Bound K}
    (hcons : Consistent R mate node star bound) {x b rhs : Nat → Nat → K} (hop : SchurOp R x b)
    (hrhs : SchurRhs R src rhs) (y : Nat → Nat → K) :
    SameVec R b rhs ↔ SameVec R x fun r => psiBoundToVec R r (bound r) (y r) := by
  obtain ⟨psi, hpsi⟩ := local_sweep_exists H L hd X A src (fun _ _ _ _ _ => 0)
    (fun r => vecToPsiBound R r (x r) (bound r))
  have hend : SchurEnd R src x psi := ⟨bound, _, hpsi⟩
  rw [schur_iff_consistent H L X N hd A hop hrhs hend bound]
  constructor
  · intro hc r hr i hi
    have hfull := consistent_is_full H (local_sweep_solves H L N hpsi) hc
    have hc' := hc.congr L (fullDG_unique H L N hd A hfull hstar)
    obtain ⟨s, hs, hp⟩ := slot_index (R := R) hi
    obtain ⟨_, _, _, _, _, _, hval⟩ := slot_value L N hr hs
    have e := pack_unpack L hr (x r) (bound r) (y r) i hi
    rw [hp, hval _ _ hc', ← hval _ _ hcons] at e
    exact e.symm.trans (hp _ _).symm
  · intro he
    have hslots : ∀ r < R.nRanks, ∀ s ∈ slots R r,
        s.get (vecToPsiBound R r (x r) (bound r)) = s.get (bound r) := by
      intro r hr s hs
      obtain ⟨i, hi, e1, e2⟩ := unpack_slot L hr (x r) (bound r) hs
      exact (e1.trans (he r hr i hi)).trans (e2 _ _)
    have hc' := consistent_of_slots L hcons hslots
    have := full_is_local L N H hstar hc'
    exact hc'.congr L (localDG_unique H L N hd A this (local_sweep_solves H L N hpsi))

/-- C44: the operator is linear. -/
theorem schur_linear (H : R.Physical) (L : Linked R.cfg mate) (X : Crossed R.cfg mate)
    (N : R.Nodes mate node) (hd : R.doComm = true) (A : Acyclic R.cfg mate) (k : K)
    {x x' b b' bs : Nat → Nat → K} (h : SchurOp R x b) (h' : SchurOp R x' b')
    (hs : SchurOp R (fun r i => x r i + k * x' r i) bs) :
    SameVec R bs fun r i => b r i + k * b' r i := by
  obtain ⟨bnd, psi0, psi, bnd2, y, h1, h2, h3⟩ := h
  obtain ⟨bnd', psi0', psi', bnd2', y', h1', h2', h3'⟩ := h'
  obtain ⟨bnds, psi0s, psis, bnd2s, ys, h1s, h2s, h3s⟩ := hs
  have hsum : LocalDG R mate node (fun _ _ _ _ _ => 0)
      (fun r => vecToPsiBound R r (fun i => x r i + k * x' r i) (bnds r)) (lin k psi psi') := by
    refine localDG_slots L H (localDG_lin L N k (local_sweep_solves H L N h1)
      (local_sweep_solves H L N h1')) ?_ ?_
    · intro r c a g v _ _ _ _; simp [lin]
    · intro r hr s hs
      obtain ⟨i, hi, rfl⟩ := List.mem_iff_getElem.1 hs
      have hi' : i < psiBoundSize R r := by rw [psiBoundSize_eq]; exact hi
      have e1 := (unpack_get L hr (x r) (bnd r)).1 i hi'
      have e2 := (unpack_get L hr (x' r) (bnd' r)).1 i hi'
      rw [(unpack_get L hr _ (bnds r)).1 i hi', ← e1, ← e2]
      rfl
  have hsame := localDG_unique H L N hd A (local_sweep_solves H L N h1s) hsum
  intro r hr i hi
  obtain ⟨s, hs, hp⟩ := slot_index (R := R) hi
  obtain ⟨y, w, hy1, hy2, ha, hg, hval⟩ := slot_value L N hr hs
  have e := hsame y.rank y.cell s.2.2.1 s.1 w hy1 hy2 ha hg
  rw [h3s r hr i hi]
  simp only
  rw [h3 r hr i hi, h3' r hr i hi, hp, hp, hp,
    hval _ _ (h2s.exchanged L X N).consistent, hval _ _ (h2.exchanged L X N).consistent,
    hval _ _ (h2'.exchanged L X N).consistent, e]
  simp only [lin]; ring

/-- The operator, the right-hand side and the recovery always return. -/
theorem schur_returns (H : R.Physical) (L : Linked R.cfg mate) (X : Crossed R.cfg mate)
    (hd : R.doComm = true) (A : Acyclic R.cfg mate) (src : Nat → Psi K) (x : Nat → Nat → K) :
    (∃ b, SchurOp R x b) ∧ (∃ rhs, SchurRhs R src rhs) ∧ ∃ psi, SchurEnd R src x psi := by
  refine ⟨?_, ?_, ?_⟩
  · obtain ⟨psi, h1⟩ := local_sweep_exists H L hd X A (fun _ _ _ _ _ => 0) (fun _ _ _ _ _ => 0)
      (fun r => vecToPsiBound R r (x r) (fun _ _ _ _ => 0))
    obtain ⟨b', h2⟩ := exchange_run_exists L X psi
      (fun r => vecToPsiBound R r (x r) (fun _ _ _ _ => 0))
    exact ⟨fun r i => x r i - psiBoundToVec R r (b' r) (x r) i, _, _, psi, b', x, h1, h2,
      fun _ _ _ _ => rfl⟩
  · obtain ⟨psi, h1⟩ := local_sweep_exists H L hd X A src (fun _ _ _ _ _ => 0) (fun _ _ _ _ _ => 0)
    obtain ⟨b', h2⟩ := exchange_run_exists L X psi (fun _ _ _ _ _ => 0)
    exact ⟨fun r i => psiBoundToVec R r (b' r) (x r) i, _, psi, b', x, h1, h2, fun _ _ _ _ => rfl⟩
  · obtain ⟨psi, h1⟩ := local_sweep_exists H L hd X A src (fun _ _ _ _ _ => 0)
      (fun r => vecToPsiBound R r (x r) (fun _ _ _ _ => 0))
    exact ⟨psi, _, _, h1⟩

end

end Verif.Domain
