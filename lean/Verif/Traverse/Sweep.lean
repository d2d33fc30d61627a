import Verif.Traverse.Lemmas10
import Verif.Transport.Props

/-!
# The transport sweep as a traversal (src/SweepData.hh, src/SweeperTraverse.cc)

`SweepRun` holds everything a sweep over all ranks depends on; `SweepRun.cfg` is the traversal with
`SweepData` as its data object.
-/
set_option linter.unusedSectionVars false

namespace Verif.Traverse
open Classical List
open Verif.Transport

variable {K : Type} [Field K] [LinearOrder K]

/-- `PsiData` as a function of group, vertex, angle, cell. -/
abbrev Psi (K : Type) := Nat → Fin 4 → Nat → Nat → K
/-- `PsiBoundData` as a function of group, face vertex, angle, side. -/
abbrev Bound (K : Type) := Nat → Fin 3 → Nat → Nat → K

/-- The inputs of a sweep, by rank. -/
structure SweepRun (K : Type) where
  nRanks : Nat
  nAngles : Nat
  nThreads : Nat
  maxCompute : Nat
  nGroups : Nat
  doComm : Bool
  protocol : Protocol
  rendezvous : Bool
  gauss : GaussElim
  view : Nat → MeshView K
  nCells : Nat → Nat
  lgSide : Nat → Nat → Nat
  glSide : Nat → Nat → Nat
  sideCell : Nat → Nat → Nat
  faceToCellVrtx : Nat → Nat → Fin 4 → Fin 3 → Fin 4
  sigmaT : Nat → Nat → K
  source : Nat → Psi K
  priority : Nat → Nat → Nat → Nat
  psi0 : Nat → Psi K
  bound0 : Nat → Bound K
  scratch : Fin 4 → Nat → K

/-- The mesh queries of a rank (src/TychoMesh.hh:70-116). -/
def SweepRun.mesh (R : SweepRun K) (r : Nat) : RankMesh where
  nCells := R.nCells r
  adjCell := (R.view r).adjCell
  adjRank := (R.view r).adjRank
  outgoing a c f := decide ((R.view r).isOutgoing a c f)
  side := (R.view r).side
  lgSide := R.lgSide r
  glSide := R.glSide r
  sideCell := R.sideCell r

/-- `SweepData::getData` (src/SweepData.hh:92-103). After a failed solve (`none`) the value is
arbitrary. -/
def SweepRun.getData (R : SweepRun K) (r cell : Nat) (face : Face) (angle : Nat)
    (d : Option (Psi K × Bound K)) : Fin 3 → Fin R.nGroups → K :=
  match d with
  | some (psi, _) => fun fvrtx group => psi group (R.faceToCellVrtx r cell face fvrtx) angle cell
  | none => fun _ _ => 0

/-- `SweepData::setSideData` (src/SweepData.hh:111-120). -/
def SweepRun.setSideData (R : SweepRun K) (side angle : Nat) (data : Fin 3 → Fin R.nGroups → K)
    (d : Option (Psi K × Bound K)) : Option (Psi K × Bound K) :=
  d.map fun p => (p.1, fun group fvrtx a s =>
    if h : a = angle ∧ s = side ∧ group < R.nGroups then data fvrtx ⟨group, h.2.2⟩
    else p.2 group fvrtx a s)

/-- `SweepData::update` (src/SweepData.hh:139-174); `none` once a solve has divided by zero. -/
def SweepRun.update (R : SweepRun K) (r cell angle : Nat) (d : Option (Psi K × Bound K)) :
    Option (Psi K × Bound K) := do
  let p ← d
  let psi ← Transport.update R.gauss R.nGroups (R.view r) (R.sigmaT r) (R.source r) p.2 cell angle
    R.scratch p.1
  some (psi, p.2)

/-- The traversal of `SweeperTraverse::sweep` (src/SweeperTraverse.cc:82-89) and, with `doComm` off,
of the local sweeps (src/Util.cc:138-145). -/
def SweepRun.cfg (R : SweepRun K) : Cfg (Option (Psi K × Bound K)) (Fin 3 → Fin R.nGroups → K) where
  nRanks := R.nRanks
  nAngles := R.nAngles
  nThreads := R.nThreads
  maxCompute := R.maxCompute
  direction := .forward
  doComm := R.doComm
  protocol := R.protocol
  rendezvous := R.rendezvous
  mesh := R.mesh
  data r :=
    { getData := R.getData r
      setSideData := R.setSideData
      getPriority := fun c a _ => R.priority r c a
      update := fun c a _ _ => R.update r c a }
  init r := some (R.psi0 r, R.bound0 r)

/-- The physical cells of a run: positive volume, closed surface, no negative cross section, and not
both void and edge-on (established for built meshes in `Verif.Geometry`). -/
structure SweepRun.Physical (R : SweepRun K) : Prop where
  volume : ∀ r c, r < R.nRanks → c < R.nCells r → 0 < (R.view r).cellVolume c
  area : ∀ r c f, r < R.nRanks → c < R.nCells r → 0 ≤ (R.view r).faceArea c f
  sigma : ∀ r c, r < R.nRanks → c < R.nCells r → 0 ≤ R.sigmaT r c
  closed : ∀ r c a, r < R.nRanks → c < R.nCells r → a < R.nAngles →
    ∑ f, (R.view r).faceArea c f * (R.view r).omegaDotN a c f = 0
  some_flow : ∀ r c a, r < R.nRanks → c < R.nCells r → a < R.nAngles →
    0 < R.sigmaT r c ∨ ∃ f, (R.view r).faceArea c f * (R.view r).omegaDotN a c f ≠ 0

variable [IsStrictOrderedRing K]

section
variable (R : SweepRun K) (H : R.Physical)
include H

theorem SweepRun.update_some {r c a : Nat} (hr : r < R.nRanks) (hc : c < R.nCells r)
    (ha : a < R.nAngles) (p : Psi K × Bound K) :
    ∃ psi, Transport.update R.gauss R.nGroups (R.view r) (R.sigmaT r) (R.source r) p.2 c a
      R.scratch p.1 = some psi ∧ R.update r c a (some p) = some (psi, p.2) := by
  obtain ⟨x, hx⟩ := solve_defined R.gauss R.nGroups (R.view r) c a (R.sigmaT r c)
    (populateLocalPsiBound (R.view r) a c p.1 p.2) (fun v grp => R.source r grp v a c) R.scratch
    (H.volume r c hr hc) (H.sigma r c hr hc) (H.closed r c a hr hc ha) (H.some_flow r c a hr hc ha)
  have : ∃ psi, Transport.update R.gauss R.nGroups (R.view r) (R.sigmaT r) (R.source r) p.2 c a
      R.scratch p.1 = some psi := by
    unfold Transport.update
    simp only [Option.bind_eq_bind, hx, Option.bind_some]
    exact ⟨_, rfl⟩
  obtain ⟨psi, hpsi⟩ := this
  exact ⟨psi, hpsi, by simp [SweepRun.update, hpsi]⟩

end

/-- The angular flux of a cell and angle. -/
def fluxOf (n : Nat) (d : Option (Psi K × Bound K)) (c a : Nat) : Option (Fin n → Fin 4 → K) :=
  d.map fun p g v => p.1 g v a c

/-- The frame of a sweep. -/
def SweepRun.frame (R : SweepRun K) (H : R.Physical) :
    Frame R.cfg (Option (Fin R.nGroups → Fin 4 → K)) where
  ok d := d.isSome = true
  obs _ d c a := fluxOf R.nGroups d c a
  bnd _ d s a := fun fv g => match d with
    | some p => p.2 g fv a s
    | none => 0
  init_ok _ _ := rfl
  upd_ok r c a d hr hc ha hok := by
    obtain ⟨p, rfl⟩ := Option.isSome_iff_exists.1 hok
    obtain ⟨psi, -, h⟩ := R.update_some H hr hc ha p
    show (R.update r c a (some p)).isSome = true
    rw [h]; rfl
  set_ok r s a b d hr hok := by
    obtain ⟨p, rfl⟩ := Option.isSome_iff_exists.1 hok
    rfl
  upd_self r c a d d' hr hc ha hok hok' hup := by
    obtain ⟨p, rfl⟩ := Option.isSome_iff_exists.1 hok
    obtain ⟨p', rfl⟩ := Option.isSome_iff_exists.1 hok'
    obtain ⟨psi, h1, h⟩ := R.update_some H hr hc ha p
    obtain ⟨psi', h1', h'⟩ := R.update_some H hr hc ha p'
    show fluxOf R.nGroups (R.update r c a (some p)) c a = fluxOf R.nGroups (R.update r c a (some p')) c a
    rw [h, h']
    simp only [fluxOf, Option.map_some, Option.some.injEq]
    funext g v
    unfold Transport.update at h1 h1'
    simp only [Option.bind_eq_bind] at h1 h1'
    obtain ⟨x, hx, hpsi⟩ := Option.bind_eq_some_iff.1 h1
    obtain ⟨x', hx', hpsi'⟩ := Option.bind_eq_some_iff.1 h1'
    have hpsi := Option.some.inj hpsi
    have hpsi' := Option.some.inj hpsi'
    have key := solve_noninterference R.gauss R.nGroups R.nGroups (R.view r) c a (R.sigmaT r c) _ _ _ _ _ _
      x x' g g g.2 g.2 (by
        intro fv f
        unfold populateLocalPsiBound
        by_cases hin : (R.view r).isIncoming a c f
        · rw [if_pos hin, if_pos hin]
          have hin' : R.cfg.inDir r a c f = true := by
            show (!decide ((R.view r).isOutgoing a c f)) = true
            simpa [MeshView.isIncoming] using hin
          obtain ⟨hn, hb⟩ := hup f hin'
          rcases hadj : (R.view r).adjCell c f with _ | n
          · rcases hrk : (R.view r).adjRank c f with _ | q
            · rfl
            · dsimp only
              exact congrFun (congrFun (hb q hadj hrk) fv) g
          · dsimp only
            have := hn n hadj
            simp only [fluxOf, Option.map_some, Option.some.injEq] at this
            exact congrFun (congrFun this g) _
        · rw [if_neg hin, if_neg hin]) (fun _ => rfl) hx hx' v
    rw [← hpsi, ← hpsi']
    simp [g.2, key]
  upd_obs r c a d c' a' hr hc ha hok hne := by
    obtain ⟨p, rfl⟩ := Option.isSome_iff_exists.1 hok
    obtain ⟨psi, h1, h⟩ := R.update_some H hr hc ha p
    show fluxOf R.nGroups (R.update r c a (some p)) c' a' = fluxOf R.nGroups (some p) c' a'
    rw [h]
    unfold Transport.update at h1
    simp only [Option.bind_eq_bind] at h1
    obtain ⟨x, hx, hpsi⟩ := Option.bind_eq_some_iff.1 h1
    have hpsi := Option.some.inj hpsi
    simp only [fluxOf, Option.map_some, Option.some.injEq]
    funext g v
    rw [← hpsi]
    dsimp only
    rw [if_neg]
    rintro ⟨rfl, rfl, -⟩
    simp at hne
  upd_bnd r c a d s a' hr hc ha hok := by
    obtain ⟨p, rfl⟩ := Option.isSome_iff_exists.1 hok
    obtain ⟨psi, h1, h⟩ := R.update_some H hr hc ha p
    show (fun fv (g : Fin R.nGroups) => match R.update r c a (some p) with
      | some p => p.2 g fv a' s
      | none => 0) = _
    rw [h]
  set_self r s a b d hr hok := by
    obtain ⟨p, rfl⟩ := Option.isSome_iff_exists.1 hok
    funext fv g
    simp [SweepRun.cfg, SweepRun.setSideData]
  set_bnd r s a b d s' a' hr hok hne := by
    obtain ⟨p, rfl⟩ := Option.isSome_iff_exists.1 hok
    funext fv g
    simp only [SweepRun.cfg, SweepRun.setSideData, Option.map_some]
    rw [dif_neg]
    rintro ⟨rfl, rfl, -⟩
    simp at hne
  set_obs r s a b d c a' hr hok := by
    obtain ⟨p, rfl⟩ := Option.isSome_iff_exists.1 hok
    rfl
  get r c f a d d' hr hok hok' h := by
    obtain ⟨p, rfl⟩ := Option.isSome_iff_exists.1 hok
    obtain ⟨p', rfl⟩ := Option.isSome_iff_exists.1 hok'
    simp only [fluxOf, Option.map_some, Option.some.injEq] at h
    funext fv g
    exact congrFun (congrFun h g) _

/-! ### The global upwind system -/

/-- Vertices of mesh parts and how faces match: `node` numbers the mesh nodes globally. -/
structure SweepRun.Nodes (R : SweepRun K) (mate : Loc → Option Loc) (node : Nat → Nat → Fin 4 → Nat) :
    Prop where
  inj : ∀ r c v w, r < R.nRanks → c < R.nCells r → node r c v = node r c w → v = w
  near : ∀ x y v, R.cfg.In x → mate x = some y → y.rank = x.rank → v ≠ x.face →
    node y.rank y.cell ((R.view x.rank).neighborVrtx x.cell x.face
      ((R.view x.rank).cellToFaceVrtx x.cell x.face v)) = node x.rank x.cell v
  far : ∀ x y v, R.cfg.In x → mate x = some y → y.rank ≠ x.rank → v ≠ x.face →
    node y.rank y.cell (R.faceToCellVrtx y.rank y.cell y.face
      ((R.view x.rank).cellToFaceVrtx x.cell x.face v)) = node x.rank x.cell v

/-- The upwind discretisation on the whole mesh, whatever its division among ranks: the flux in each
cell solves the documented system of the cell, with incoming values those of the cell across the
face at the same node, or zero at the boundary. -/
def SweepRun.GlobalDG (R : SweepRun K) (mate : Loc → Option Loc) (node : Nat → Nat → Fin 4 → Nat)
    (psi : Nat → Psi K) : Prop :=
  ∀ r c a g, r < R.nRanks → c < R.nCells r → a < R.nAngles → g < R.nGroups →
    ∃ inc : Fin 4 → Fin 4 → K,
      (∀ f v, v ≠ f → (R.view r).faceArea c f * (R.view r).omegaDotN a c f < 0 →
        (∀ y, mate ⟨r, c, f⟩ = some y →
          ∃ w, node y.rank y.cell w = node r c v ∧ inc f v = psi y.rank g w a y.cell) ∧
        (mate ⟨r, c, f⟩ = none → inc f v = 0)) ∧
      Spec.DG ((R.view r).cellVolume c) (R.sigmaT r c)
        (fun f => (R.view r).faceArea c f * (R.view r).omegaDotN a c f) inc
        (fun v => R.source r g v a c) (fun v => psi r g v a c)

/-- The system of a cell has one solution. -/
theorem dg_unique {V σ : K} {area Q psi psi' : Vec4 K} {inc : Fin 4 → Fin 4 → K} (hV : 0 < V)
    (hσ : 0 ≤ σ) (hclosed : ∑ f, area f = 0) (hne : 0 < σ ∨ ∃ f, area f ≠ 0)
    (h : Spec.DG V σ area inc Q psi) (h' : Spec.DG V σ area inc Q psi') : psi = psi' := by
  -- encode the incoming values by face vertex
  let c2f : Fin 4 → Fin 4 → Fin 3 := fun f v => if h : v.1 < f.1 then ⟨v.1, by omega⟩ else
    if h2 : f.1 < v.1 then ⟨v.1 - 1, by omega⟩ else 0
  let lpb : Fin 3 → Fin 4 → K := fun k f => inc f (f.succAbove k)
  have hl : ∀ f v, area f < 0 → v ≠ f → inc f v = lpb (c2f f v) f := by
    intro f v _ hv
    have : f.succAbove (c2f f v) = v := by
      revert hv; fin_cases f <;> fin_cases v <;> simp [c2f] <;> rfl
    show inc f v = inc f (f.succAbove (c2f f v))
    rw [this]
  rw [dg_congr V σ area inc (fun f v => lpb (c2f f v) f) Q _ hl, ← assembled_is_dg] at h h'
  obtain ⟨x, hx⟩ := transport_solvable .original V σ area (calcIncomingFlux c2f lpb area (calcSource V Q))
    hV hσ hclosed hne
  have hdet := (gaussElim4_sound _ _ _ _ hx).2
  have hu : IsUnit (Matrix.of (calcOutgoingFlux area (calcVolumeIntegrals V area σ))).det :=
    isUnit_iff_ne_zero.2 hdet
  have := congrArg ((Matrix.of (calcOutgoingFlux area (calcVolumeIntegrals V area σ)))⁻¹).mulVec
    (h.trans h'.symm)
  simpa [Matrix.mulVec_mulVec, Matrix.nonsing_inv_mul _ hu] using this

end Verif.Traverse
