import Verif.Domain.Exchange2

/-!
# Local sweeps (src/Util.cc:138-145)

A local sweep is a traversal without communication: each rank sweeps its own cells, with the boundary
array as incoming flux on partition faces.
-/
set_option linter.unusedSectionVars false

namespace Verif.Domain
open Classical List
open Verif.Transport Verif.Traverse

variable {K : Type} [Field K] [LinearOrder K]

/-! ### Model -/

/-- The traversal of `Util::sweepLocal` (src/Util.cc:138-145) on all ranks: no communication
(`g_graphTraverserForward`, src/Main.cc:282-317), priorities zero, no batch limit. -/
def localRun (R : SweepRun K) (src psi0 : Nat → Psi K) (bound : Nat → Bound K) : SweepRun K :=
  { R with
    doComm := false
    source := src
    psi0 := psi0
    bound0 := bound
    priority := fun _ _ _ => 0
    maxCompute := 2 ^ 64 - 1 }

/-- `sweepLocal(psi, src, bound)` starting with flux `psi0` may return with flux `psi`. -/
def LocalSwept (R : SweepRun K) (src psi0 : Nat → Psi K) (bound : Nat → Bound K) (psi : Nat → Psi K) :
    Prop :=
  ∃ s, Reachable (localRun R src psi0 bound).cfg s ∧
    (∀ r < R.nRanks, (s.rank r).phase = .finished) ∧
    ∀ r < R.nRanks, ∃ b, (s.rank r).data = some (psi r, b)

/-! ### What a local sweep must do -/

/-- The upwind system of every cell, with incoming values on partition faces from the boundary array. -/
def LocalDG (R : SweepRun K) (mate : Loc → Option Loc) (node : Nat → Nat → Fin 4 → Nat)
    (src : Nat → Psi K) (bound : Nat → Bound K) (psi : Nat → Psi K) : Prop :=
  ∀ r c a g, r < R.nRanks → c < R.nCells r → a < R.nAngles → g < R.nGroups →
    ∃ inc : Fin 4 → Fin 4 → K,
      (∀ f v, v ≠ f → (R.view r).faceArea c f * (R.view r).omegaDotN a c f < 0 →
        (∀ y, mate ⟨r, c, f⟩ = some y → y.rank = r →
          ∃ w, node r y.cell w = node r c v ∧ inc f v = psi r g w a y.cell) ∧
        (∀ y, mate ⟨r, c, f⟩ = some y → y.rank ≠ r →
          inc f v = bound r g ((R.view r).cellToFaceVrtx c f v) a ((R.view r).side c f)) ∧
        (mate ⟨r, c, f⟩ = none → inc f v = 0)) ∧
      Spec.DG ((R.view r).cellVolume c) (R.sigmaT r c)
        (fun f => (R.view r).faceArea c f * (R.view r).omegaDotN a c f) inc
        (fun v => src r g v a c) (fun v => psi r g v a c)

/-- Same flux in every cell, angle, group and vertex. -/
def SameFlux (R : SweepRun K) (psi psi' : Nat → Psi K) : Prop :=
  ∀ r c a g v, r < R.nRanks → c < R.nCells r → a < R.nAngles → g < R.nGroups →
    psi r g v a c = psi' r g v a c

/-- The full upwind system with another source. -/
def FullDG (R : SweepRun K) (mate : Loc → Option Loc) (node : Nat → Nat → Fin 4 → Nat)
    (src : Nat → Psi K) (psi : Nat → Psi K) : Prop :=
  SweepRun.GlobalDG { R with source := src } mate node psi

/-! ### Proofs -/

variable [IsStrictOrderedRing K]

section
variable {R : SweepRun K} {mate : Loc → Option Loc} {node : Nat → Nat → Fin 4 → Nat}

theorem local_linked (L : Linked R.cfg mate) (src psi0 : Nat → Psi K) (bound : Nat → Bound K) :
    Linked (localRun R src psi0 bound).cfg mate :=
  ⟨L.threads, L.size, L.mate_in, L.mate_symm, L.near, L.far, L.ext, L.side_eq, L.side_cell, L.side_inj,
    L.orient⟩

theorem local_physical (H : R.Physical) (src psi0 : Nat → Psi K) (bound : Nat → Bound K) :
    (localRun R src psi0 bound).Physical := ⟨H.volume, H.area, H.sigma, H.closed, H.some_flow⟩

theorem incoming_of_neg (H : R.Physical) {r c a : Nat} {f : Fin 4} (hr : r < R.nRanks)
    (hc : c < R.nCells r) (h : (R.view r).faceArea c f * (R.view r).omegaDotN a c f < 0) :
    ¬ (R.view r).isOutgoing a c f := by
  unfold MeshView.isOutgoing
  intro hpos
  exact absurd h (not_lt.2 (mul_nonneg (H.area r c f hr hc) hpos.le))

/-- Without communication the boundary array keeps its contents. -/
theorem local_bound (H : R.Physical) {src psi0 : Nat → Psi K} {bound : Nat → Bound K}
    {log : List (Event (Fin 3 → Fin (localRun R src psi0 bound).nGroups → K))}
    (ho : Ordered (localRun R src psi0 bound).cfg mate log) {r : Nat} (hr : r < R.nRanks) :
    ∃ psi, replay (localRun R src psi0 bound).cfg r log = some (psi, bound r) := by
  induction log using List.reverseRecOn with
  | nil => exact ⟨psi0 r, rfl⟩
  | append_singleton log e ih =>
    obtain ⟨psi, ih⟩ := ih (ordered_prefix ho)
    have he := ho log e [] rfl
    rw [replay_snoc, ih]
    cases e with
    | upd r' c a k =>
      simp only [applyEvent]
      split
      · rename_i hh; subst hh
        obtain ⟨psi', -, h⟩ := (localRun R src psi0 bound).update_some
          (local_physical H src psi0 bound) he.1 he.2.1 he.2.2.1 (psi, bound r')
        exact ⟨psi', h⟩
      · exact ⟨psi, rfl⟩
    | side r' s a b =>
      exfalso
      obtain ⟨x, y, h1, h2, h3, h4, h5, h6, ⟨-, y', h7, h8⟩, -⟩ := he
      rw [h3] at h7
      simp only [Option.some.injEq] at h7
      subst h7
      rcases h8 with h8 | h8
      · exact absurd h8 (by simp [localRun, SweepRun.cfg])
      · exact h4 (h8.trans h1)

/-- C42: a local sweep solves the local upwind system, and never fails. -/
theorem local_sweep_solves (H : R.Physical) (L : Linked R.cfg mate) (N : R.Nodes mate node)
    {src psi0 : Nat → Psi K} {bound : Nat → Bound K} {psi : Nat → Psi K}
    (h : LocalSwept R src psi0 bound psi) : LocalDG R mate node src bound psi := by
  obtain ⟨s, hs, hf, hpsi⟩ := h
  have L' := local_linked L src psi0 bound
  have H' := local_physical H src psi0 bound
  have hsol := ((localRun R src psi0 bound).frame H').solves L' (hs.inv L').ordered
    (complete_of_finished L' hs hf)
  have hdata : ∀ r < R.nRanks, replay (localRun R src psi0 bound).cfg r s.log = some (psi r, bound r) := by
    intro r hr
    obtain ⟨b, hb⟩ := hpsi r hr
    obtain ⟨p, hp⟩ := local_bound H (hs.inv L').ordered hr
    have := (hs.inv L').data r hr
    rw [hp, hb] at this
    simp only [Option.some.injEq, Prod.mk.injEq] at this
    rw [hp, this.1]
  intro r c a g hr hc ha hg
  have hcell := hsol.cell r c a hr hc ha
  rw [hdata r hr] at hcell
  obtain ⟨psi', h1, h⟩ := (localRun R src psi0 bound).update_some H' hr hc ha (psi r, bound r)
  change fluxOf R.nGroups (some (psi r, bound r)) c a =
    fluxOf R.nGroups ((localRun R src psi0 bound).update r c a (some (psi r, bound r))) c a at hcell
  rw [h] at hcell
  simp only [fluxOf, Option.map_some, Option.some.injEq] at hcell
  unfold Transport.update at h1
  simp only [Option.bind_eq_bind] at h1
  obtain ⟨x, hx, hpsi⟩ := Option.bind_eq_some_iff.1 h1
  have hpsi := Option.some.inj hpsi
  have hdg := solveGroup_dg R.gauss (R.view r) c a _ _ _ _
    ((solve_groupwise R.gauss R.nGroups (R.view r) c a _ _ _ _ x hx).1 g hg)
  refine ⟨fun f v => populateLocalPsiBound (R.view r) a c (psi r) (bound r)
    ((R.view r).cellToFaceVrtx c f v) f g, ?_, ?_⟩
  rotate_left
  · have e : (fun v => psi r g v a c) = fun v => x v g := by
      funext v
      have := congrFun (congrFun hcell ⟨g, hg⟩) v
      dsimp only at this
      rw [this, ← hpsi]
      have hg' : g < (localRun R src psi0 bound).nGroups := hg
      simp [hg']
    rw [e]
    exact hdg
  · intro f v hv hneg
    have hin : (R.view r).isIncoming a c f := incoming_of_neg H hr hc hneg
    have hxin : R.cfg.In ⟨r, c, f⟩ := ⟨hr, hc⟩
    refine ⟨?_, ?_, ?_⟩
    · intro y hy hyr
      have hadj : (R.view r).adjCell c f = some y.cell := (L.near _ y hxin hy hyr).1
      have hn := N.near _ y v hxin hy hyr hv
      rw [hyr] at hn
      refine ⟨_, hn, ?_⟩
      simp [populateLocalPsiBound, hin, hadj]
    · intro y hy hyr
      have hadj : (R.view r).adjCell c f = none := (L.far _ y hxin hy hyr).1
      have hrk : (R.view r).adjRank c f = some y.rank := (L.far _ y hxin hy hyr).2
      simp [populateLocalPsiBound, hin, hadj, hrk]
    · intro hm
      have hadj : (R.view r).adjCell c f = none := (L.ext _ hxin hm).1
      have hrk : (R.view r).adjRank c f = none := (L.ext _ hxin hm).2
      simp [populateLocalPsiBound, hin, hadj, hrk]

theorem before_mono {src psi0 : Nat → Psi K} {bound : Nat → Bound K} {a : Nat} {t t' : Nat × Nat}
    (hd : R.doComm = true) (h : Before (localRun R src psi0 bound).cfg mate a t t') :
    Before R.cfg mate a t t' := by
  obtain ⟨x, y, h1, h2, ⟨h3, y', h4, -⟩, h5, h6⟩ := h
  exact ⟨x, y, h1, h2, ⟨h3, y', h4, Or.inl hd⟩, h5, h6⟩

theorem local_acyclic (hd : R.doComm = true) (A : Acyclic R.cfg mate) (src psi0 : Nat → Psi K)
    (bound : Nat → Bound K) : Acyclic (localRun R src psi0 bound).cfg mate := by
  intro a ha t h
  exact A a ha t (Relation.TransGen.mono (fun _ _ => before_mono hd) _ _ h)

/-- C42: a local sweep returns on every rank. -/
theorem local_sweep_exists (H : R.Physical) (L : Linked R.cfg mate) (hd : R.doComm = true)
    (X : Crossed R.cfg mate) (A : Acyclic R.cfg mate) (src psi0 : Nat → Psi K)
    (bound : Nat → Bound K) : ∃ psi, LocalSwept R src psi0 bound psi := by
  have L' := local_linked L src psi0 bound
  obtain ⟨n, s, hs, hf⟩ := traverse_finishes L' (by show 0 < 2 ^ 64 - 1; decide)
    (fun h => absurd h (by simp [localRun, SweepRun.cfg])) X (local_acyclic hd A src psi0 bound)
  have hr := hs.reachable .init
  have hex : ∀ r, ∃ p, r < R.nRanks → (s.rank r).data = some (p, bound r) := by
    intro r
    by_cases h : r < R.nRanks
    · obtain ⟨p, hp⟩ := local_bound H (hr.inv L').ordered h
      exact ⟨p, fun _ => by rw [(hr.inv L').data r h, hp]⟩
    · exact ⟨psi0 r, fun h' => absurd h' h⟩
  choose p hp using hex
  exact ⟨p, s, hr, hf, fun r hr' => ⟨_, hp r hr'⟩⟩

theorem before_level (L : Linked R.cfg mate) (A : Acyclic R.cfg mate) {a : Nat} (ha : a < R.nAngles)
    {t t' : Nat × Nat} (h : Before R.cfg mate a t t') :
    levelOf R.cfg mate t.1 t.2 a < levelOf R.cfg mate t'.1 t'.2 a := by
  have hb := h
  obtain ⟨x, y, h1, h2, -, rfl, rfl⟩ := h
  have hyin := L.mate_in x y h1 h2
  unfold levelOf
  apply Finset.card_lt_card
  rw [Finset.ssubset_iff_of_subset]
  · refine ⟨(y.rank, y.cell), ?_, ?_⟩
    · rw [Finset.mem_filter]; exact ⟨mem_cells hyin.1 hyin.2, .single hb⟩
    · rw [Finset.mem_filter]; exact fun h => A a ha _ h.2
  · intro t' ht'
    rw [Finset.mem_filter] at ht' ⊢
    exact ⟨ht'.1, ht'.2.tail hb⟩

/-- Induction over the cells of an acyclic mesh, upwind first, for one angle. -/
theorem upwind_induction (L : Linked R.cfg mate) (A : Acyclic R.cfg mate) (hd : R.doComm = true)
    {a : Nat} (ha : a < R.nAngles) {P : Nat → Nat → Prop}
    (h : ∀ r c, r < R.nRanks → c < R.nCells r →
      (∀ f y, mate ⟨r, c, f⟩ = some y → ¬ (R.view r).isOutgoing a c f → P y.rank y.cell) → P r c) :
    ∀ r c, r < R.nRanks → c < R.nCells r → P r c := by
  have key : ∀ n r c, r < R.nRanks → c < R.nCells r → levelOf R.cfg mate r c a < n → P r c := by
    intro n
    induction n with
    | zero => intro r c _ _ h; omega
    | succ n ih =>
      intro r c hr hc hn
      refine h r c hr hc fun f y hy hin => ?_
      have hyin := L.mate_in ⟨r, c, f⟩ y ⟨hr, hc⟩ hy
      have hin' : R.cfg.inDir r a c f = true := by
        show (!decide ((R.view r).isOutgoing a c f)) = true
        simpa using hin
      have hb : Before R.cfg mate a (y.rank, y.cell) (r, c) :=
        ⟨⟨r, c, f⟩, y, ⟨hr, hc⟩, hy, ⟨hin', y, hy, Or.inl hd⟩, rfl, rfl⟩
      have := before_level L A ha hb
      exact ih y.rank y.cell hyin.1 hyin.2 (by dsimp only at this; omega)
  intro r c hr hc
  exact key _ r c hr hc (Nat.lt_succ_self _)

/-- Two solutions of the cell systems agree in a cell if their incoming values do. -/
theorem cell_agree (H : R.Physical) {r c a : Nat} (hr : r < R.nRanks) (hc : c < R.nCells r)
    (ha : a < R.nAngles) {inc inc' : Fin 4 → Fin 4 → K} {Q psi psi' : Fin 4 → K}
    (h : Spec.DG ((R.view r).cellVolume c) (R.sigmaT r c)
        (fun f => (R.view r).faceArea c f * (R.view r).omegaDotN a c f) inc Q psi)
    (h' : Spec.DG ((R.view r).cellVolume c) (R.sigmaT r c)
        (fun f => (R.view r).faceArea c f * (R.view r).omegaDotN a c f) inc' Q psi')
    (he : ∀ f v, v ≠ f → (R.view r).faceArea c f * (R.view r).omegaDotN a c f < 0 →
      inc f v = inc' f v) : psi = psi' := by
  rw [dg_congr _ _ _ inc inc' _ _ fun f v hneg hv => he f v hv hneg] at h
  exact dg_unique (H.volume r c hr hc) (H.sigma r c hr hc) (H.closed r c a hr hc ha)
    (H.some_flow r c a hr hc ha) h h'

/-- C42: the local upwind system has one solution. -/
theorem localDG_unique (H : R.Physical) (L : Linked R.cfg mate) (N : R.Nodes mate node)
    (hd : R.doComm = true) (A : Acyclic R.cfg mate) {src : Nat → Psi K} {bound : Nat → Bound K}
    {psi psi' : Nat → Psi K} (h : LocalDG R mate node src bound psi)
    (h' : LocalDG R mate node src bound psi') : SameFlux R psi psi' := by
  intro r c a g v hr hc ha hg
  refine upwind_induction L A hd ha (P := fun r c => ∀ v, psi r g v a c = psi' r g v a c) ?_ r c hr hc v
  intro r c hr hc ih
  obtain ⟨inc, hinc, hdg⟩ := h r c a g hr hc ha hg
  obtain ⟨inc', hinc', hdg'⟩ := h' r c a g hr hc ha hg
  refine congrFun (cell_agree H hr hc ha hdg hdg' ?_)
  intro f v hv hneg
  obtain ⟨h1, h2, h3⟩ := hinc f v hv hneg
  obtain ⟨h1', h2', h3'⟩ := hinc' f v hv hneg
  rcases hm : mate ⟨r, c, f⟩ with _ | y
  · rw [h3 hm, h3' hm]
  · have hyin := L.mate_in ⟨r, c, f⟩ y ⟨hr, hc⟩ hm
    by_cases hyr : y.rank = r
    · obtain ⟨w, hw, e⟩ := h1 y hm hyr
      obtain ⟨w', hw', e'⟩ := h1' y hm hyr
      have : w = w' := N.inj r y.cell w w' hr (by have := hyin.2; rw [hyr] at this; exact this)
        (hw.trans hw'.symm)
      subst this
      rw [e, e']
      have := ih f y hm (incoming_of_neg H hr hc hneg) w
      rw [hyr] at this
      exact this
    · rw [h2 y hm hyr, h2' y hm hyr]

/-- C42: a local sweep's result does not depend on the flux it starts from. -/
theorem local_sweep_deterministic (H : R.Physical) (L : Linked R.cfg mate) (N : R.Nodes mate node)
    (hd : R.doComm = true) (A : Acyclic R.cfg mate) {src psi0 psi0' : Nat → Psi K}
    {bound : Nat → Bound K} {psi psi' : Nat → Psi K} (h : LocalSwept R src psi0 bound psi)
    (h' : LocalSwept R src psi0' bound psi') : SameFlux R psi psi' :=
  localDG_unique H L N hd A (local_sweep_solves H L N h) (local_sweep_solves H L N h')

/-- The full upwind system has one solution. -/
theorem fullDG_unique (H : R.Physical) (L : Linked R.cfg mate) (N : R.Nodes mate node)
    (hd : R.doComm = true) (A : Acyclic R.cfg mate) {src psi psi' : Nat → Psi K}
    (h : FullDG R mate node src psi) (h' : FullDG R mate node src psi') : SameFlux R psi psi' := by
  intro r c a g v hr hc ha hg
  refine upwind_induction L A hd ha (P := fun r c => ∀ v, psi r g v a c = psi' r g v a c) ?_ r c hr hc v
  intro r c hr hc ih
  obtain ⟨inc, hinc, hdg⟩ := h r c a g hr hc ha hg
  obtain ⟨inc', hinc', hdg'⟩ := h' r c a g hr hc ha hg
  refine congrFun (cell_agree H hr hc ha hdg hdg' ?_)
  intro f v hv hneg
  obtain ⟨h1, h3⟩ := hinc f v hv hneg
  obtain ⟨h1', h3'⟩ := hinc' f v hv hneg
  rcases hm : mate ⟨r, c, f⟩ with _ | y
  · rw [h3 hm, h3' hm]
  · have hyin := L.mate_in ⟨r, c, f⟩ y ⟨hr, hc⟩ hm
    obtain ⟨w, hw, e⟩ := h1 y hm
    obtain ⟨w', hw', e'⟩ := h1' y hm
    have : w = w' := N.inj y.rank y.cell w w' hyin.1 hyin.2 (hw.trans hw'.symm)
    subst this
    rw [e, e']
    exact ih f y hm (incoming_of_neg H hr hc hneg) w

end

end Verif.Domain
