import Verif.TychoMesh.Witness
import Verif.Traverse.Props

/-!
# Sweeps on loaded meshes (C55)

The parts of one serial mesh, loaded by their ranks, fit together as the traversal theorems require;
and the flux a sweep computes depends on the serial mesh only, not on the partition.
-/
set_option linter.unusedSectionVars false
namespace Verif.TychoMesh

open Verif.MeshFile Verif.Traverse Verif.Transport

/-! ## Specification on the serial mesh -/

/-- `g` is the face of cell `c` opposite to its vertex `f`. -/
def FaceOf (m : SerialMesh) (c : Nat) (f : Fin 4) (g : Nat) : Prop :=
  ∃ d e k, m.cells[c]? = some d ∧ d.faces k = g ∧ m.faces[g]? = some e ∧ ∀ j, e.nodes j ≠ d.nodes f

/-- Cells `c` and `c'` touch along their faces opposite to vertices `f`, `f'`. -/
def Across (m : SerialMesh) (c : Nat) (f : Fin 4) (c' : Nat) (f' : Fin 4) : Prop :=
  c ≠ c' ∧ ∃ g, FaceOf m c f g ∧ FaceOf m c' f' g

/-- A transport problem on the serial mesh: geometry and data by cell number. -/
structure Problem (K : Type) where
  nAngles : Nat
  nGroups : Nat
  volume : Nat → K
  area : Nat → Fin 4 → K
  /-- `Ω·n`: angle, cell, face -/
  omegaDotN : Nat → Nat → Fin 4 → K
  sigmaT : Nat → K
  /-- group, vertex, angle, cell -/
  source : Nat → Fin 4 → Nat → Nat → K

section
variable {K : Type} [Field K] [LinearOrder K]

/-- The geometry is that of tetrahedra that fill space, with no negative cross section, and not both
void and edge-on. -/
structure Problem.Physical (p : Problem K) (m : SerialMesh) : Prop where
  volume : ∀ c < m.numCells, 0 < p.volume c
  area : ∀ c < m.numCells, ∀ f, 0 ≤ p.area c f
  sigma : ∀ c < m.numCells, 0 ≤ p.sigmaT c
  closed : ∀ c < m.numCells, ∀ a < p.nAngles, ∑ f, p.area c f * p.omegaDotN a c f = 0
  flow : ∀ c < m.numCells, ∀ a < p.nAngles, 0 < p.sigmaT c ∨ ∃ f, p.area c f * p.omegaDotN a c f ≠ 0
  opposite : ∀ c f c' f', Across m c f c' f' → ∀ a < p.nAngles, p.omegaDotN a c' f' = - p.omegaDotN a c f

/-- The upwind discretisation on the serial mesh: in each cell the documented system, with incoming
values those of the cell across the face at the same node, or zero at the boundary. -/
def Problem.DG (p : Problem K) (m : SerialMesh) (psi : Nat → Fin 4 → Nat → Nat → K) : Prop :=
  ∀ (c : Nat) (d : SCell), m.cells[c]? = some d → ∀ a < p.nAngles, ∀ g < p.nGroups, ∃ inc : Fin 4 → Fin 4 → K,
    (∀ f v, v ≠ f → p.area c f * p.omegaDotN a c f < 0 →
      (∀ (c' : Nat) (f' : Fin 4), Across m c f c' f' → ∃ (d' : SCell) (w : Fin 4), m.cells[c']? = some d' ∧
        d'.nodes w = d.nodes v ∧ inc f v = psi g w a c') ∧
      ((∀ c' f', ¬ Across m c f c' f') → inc f v = 0)) ∧
    Spec.DG (p.volume c) (p.sigmaT c) (fun f => p.area c f * p.omegaDotN a c f) inc
      (fun v => p.source g v a c) (fun v => psi g v a c)

/-- `UINT64_MAX` as an absent neighbour. -/
def toNone (a : Nat) : Option Nat := if a = uintMax then none else some a

/-- `R` is a sweep of problem `p` on the loaded parts `T`: its tables are those of the loaded meshes
and its data those of the cells with the same global number. -/
structure RunOf (p : Problem K) (n : Nat) (T : Nat → Mesh) (R : SweepRun K) : Prop where
  ranks : R.nRanks = n
  angles : R.nAngles = p.nAngles
  groups : R.nGroups = p.nGroups
  comm : R.doComm = true
  threads : 0 < R.nThreads
  size : ∀ r < n, R.nAngles * (T r).nCells < 2 ^ 64
  cells : ∀ r < n, R.nCells r = (T r).nCells
  adjCell : ∀ r < n, ∀ c < (T r).nCells, ∀ f a, (T r).getAdjCell c f = some a → (R.view r).adjCell c f = toNone a
  adjRank : ∀ r < n, ∀ c < (T r).nCells, ∀ f a, (T r).getAdjRank c f = some a → (R.view r).adjRank c f = toNone a
  side : ∀ r < n, ∀ c < (T r).nCells, ∀ f s, (T r).getSide c f = some s → (R.view r).side c f = s
  lgSide : ∀ r < n, ∀ s g, (T r).getLGSide s = some g → R.lgSide r s = g
  glSide : ∀ r < n, ∀ s g, (T r).getGLSide g = some s → R.glSide r g = s
  sideCell : ∀ r < n, ∀ s c, (T r).getSideCell s = some c → R.sideCell r s = c
  faceToCell : ∀ r < n, ∀ c < (T r).nCells, ∀ f k v, (T r).getFaceToCellVrtx c f k = some v → R.faceToCellVrtx r c f k = v
  cellToFace : ∀ r < n, ∀ c < (T r).nCells, ∀ f v k, (T r).getCellToFaceVrtx c f v = some k → (R.view r).cellToFaceVrtx c f v = k
  neighbor : ∀ r < n, ∀ c < (T r).nCells, ∀ f k v, (T r).getNeighborVrtx c f k = some v → (R.view r).neighborVrtx c f k = v
  volume : ∀ r < n, ∀ i c, (T r).getLGCell i = some c → (R.view r).cellVolume i = p.volume c
  area : ∀ r < n, ∀ i c, (T r).getLGCell i = some c → (R.view r).faceArea i = p.area c
  omega : ∀ r < n, ∀ i c, (T r).getLGCell i = some c → ∀ a < p.nAngles, (R.view r).omegaDotN a i = p.omegaDotN a c
  sigma : ∀ r < n, ∀ i c, (T r).getLGCell i = some c → R.sigmaT r i = p.sigmaT c
  source : ∀ r < n, ∀ i c, (T r).getLGCell i = some c → ∀ g < p.nGroups, ∀ v, ∀ a < p.nAngles,
    R.source r g v a i = p.source g v a c

end

/-! ## Mates -/

variable {S : Type} [LinearOrder S] {val : Nat → S} {m : SerialMesh} {pv : List Nat} {n : Nat} {P : ParallelMesh} {T : Nat → Mesh}

open Classical in
/-- The other side of a face as a function. -/
noncomputable def mateOf (m : SerialMesh) (P : ParallelMesh) (x : Loc) : Option Loc :=
  if h : ∃ y, Mates m P x y then some h.choose else none

theorem mateOf_iff (H : Created m pv n P) {x y : Loc} : mateOf m P x = some y ↔ Mates m P x y := by
  unfold mateOf
  constructor
  · intro h
    split at h
    · rename_i hex
      rw [Option.some.injEq] at h
      rw [← h]
      exact hex.choose_spec
    · simp at h
  · intro h
    have hex : ∃ y, Mates m P x y := ⟨y, h⟩
    rw [dif_pos hex, Option.some.injEq]
    exact mates_unique H hex.choose_spec h

theorem mateOf_none {x : Loc} : mateOf m P x = none ↔ ∀ y, ¬ Mates m P x y := by
  unfold mateOf
  split
  · rename_i h
    simp only [reduceCtorEq, false_iff, not_forall, not_not]
    exact h
  · rename_i h
    simp only [true_iff]
    exact fun y hy => h ⟨y, hy⟩

/-- Cell `i` of rank `r` is cell `c` of the mesh. -/
def IsCell (P : ParallelMesh) (r i c : Nat) : Prop :=
  ∃ part cell, P.parts[r]? = some part ∧ part.cells[i]? = some cell ∧ cell.globalID = c

theorem at_isCell {x : Loc} {c g : Nat} (h : At m P x c g) : IsCell P x.rank x.cell c := by
  obtain ⟨part, cell, _, _, h1, h2, h3, _⟩ := h
  exact ⟨part, cell, h1, h2, h3⟩

theorem at_split {r i : Nat} {f : Fin 4} {c g : Nat} :
    At m P ⟨r, i, f⟩ c g ↔ IsCell P r i c ∧ FaceOf m c f g := by
  constructor
  · rintro ⟨part, cell, d, e, h1, h2, h3, h4, ⟨k, hk⟩, h6, h7⟩
    exact ⟨⟨part, cell, h1, h2, h3⟩, d, e, k, h4, hk, h6, h7⟩
  · rintro ⟨⟨part, cell, h1, h2, h3⟩, d, e, k, h4, hk, h6, h7⟩
    exact ⟨part, cell, d, e, h1, h2, h3, h4, ⟨k, hk⟩, h6, h7⟩

theorem isCell_lg (H : Created m pv n P) (L : Loaded val P T) {r i c : Nat} (h : IsCell P r i c) :
    (T r).getLGCell i = some c ∧ r < n ∧ i < (T r).nCells ∧ c < m.numCells := by
  obtain ⟨part, cell, hp, hc, rfl⟩ := h
  obtain ⟨B, -, -, -, -, hN, hG, -⟩ := loc_facts (x := ⟨r, 0, 0⟩) H L hp
  dsimp only at hN hG
  have h1 := (List.getElem?_eq_some_iff.1 hc).1
  have h2 := (List.getElem?_eq_some_iff.1 hp).1
  have hl := (create_cells H.create).1
  refine ⟨?_, by omega, by omega, (cell_rank H hp hc).1⟩
  unfold Mesh.getLGCell
  rw [hG, List.getElem?_map, hc]; rfl

theorem lg_isCell (H : Created m pv n P) (L : Loaded val P T) {r i c : Nat} (hr : r < n) (h : (T r).getLGCell i = some c) :
    IsCell P r i c := by
  have hl := (create_cells H.create).1
  have hp : P.parts[r]? = some P.parts[r] := List.getElem?_eq_getElem (by omega)
  obtain ⟨B, -, -, -, -, hN, hG, -⟩ := loc_facts (x := ⟨r, 0, 0⟩) H L hp
  dsimp only at hN hG
  unfold Mesh.getLGCell at h
  rw [hG, List.getElem?_map, Option.map_eq_some_iff] at h
  obtain ⟨cell, h1, h2⟩ := h
  exact ⟨_, cell, hp, h1, h2⟩

theorem isCell_unique (H : Created m pv n P) {r i r' i' c : Nat} (h : IsCell P r i c) (h' : IsCell P r' i' c) : r = r' ∧ i = i' := by
  obtain ⟨part, cell, hp, hc, e⟩ := h
  obtain ⟨part', cell', hp', hc', e'⟩ := h'
  exact cell_inj H hp hc hp' hc' (e.trans e'.symm)

theorem isCell_fun {r i c c' : Nat} (h : IsCell P r i c) (h' : IsCell P r i c') : c = c' := by
  obtain ⟨part, cell, hp, hc, e⟩ := h
  obtain ⟨part', cell', hp', hc', e'⟩ := h'
  rw [hp, Option.some.injEq] at hp'
  subst hp'
  rw [hc, Option.some.injEq] at hc'
  subst hc'
  exact e.symm.trans e'

theorem isCell_exists (H : Created m pv n P) {c : Nat} (hc : c < m.numCells) : ∃ r i, IsCell P r i c := by
  obtain ⟨h1, h2, h3, -⟩ := create_parts H.create
  have hq : pv[c]? = some pv[c] := List.getElem?_eq_getElem (by omega)
  have hqn := h3 _ (mem_of_get hq)
  have hl := (create_cells H.create).1
  have hp : P.parts[pv[c]]? = some P.parts[pv[c]] := List.getElem?_eq_getElem (by omega)
  have hm : c ∈ P.parts[pv[c]].cells.map PCell.globalID := by
    rw [((create_cells H.create).2 _ _ hp).2]
    simp [hc, hq]
  obtain ⟨cell, hcm, hcg⟩ := List.mem_map.1 hm
  obtain ⟨i, hi⟩ := List.mem_iff_getElem?.1 hcm
  exact ⟨_, i, _, cell, hp, hi, hcg⟩

theorem isCell_of_lt (H : Created m pv n P) (L : Loaded val P T) {r i : Nat} (hr : r < n) (hi : i < (T r).nCells) : ∃ c, IsCell P r i c := by
  obtain ⟨part, cell, hp, hc⟩ := exists_of_lt H L (x := ⟨r, i, 0⟩) hr hi
  exact ⟨_, part, cell, hp, hc, rfl⟩

theorem mates_across {x y : Loc} {c c' : Nat} (hx : IsCell P x.rank x.cell c) (hy : IsCell P y.rank y.cell c') :
    Mates m P x y ↔ Across m c x.face c' y.face := by
  obtain ⟨xr, xc, xf⟩ := x
  obtain ⟨yr, yc, yf⟩ := y
  constructor
  · rintro ⟨c1, c2, g, h1, h2, h3⟩
    rw [at_split] at h1 h2
    obtain rfl := isCell_fun hx h1.1
    obtain rfl := isCell_fun hy h2.1
    exact ⟨h3, g, h1.2, h2.2⟩
  · rintro ⟨h, g, h1, h2⟩
    exact ⟨c, c', g, at_split.2 ⟨hx, h1⟩, at_split.2 ⟨hy, h2⟩, h⟩

/-- The serial node number of a vertex of a cell of a part. -/
noncomputable def nodeOf (m : SerialMesh) (T : Nat → Mesh) (r i : Nat) (v : Fin 4) : Nat :=
  match ((T r).getLGCell i).bind fun c => m.cells[c]? with
  | some d => d.nodes v
  | none => 0

theorem nodeOf_eq (H : Created m pv n P) (L : Loaded val P T) {r i c : Nat} (h : IsCell P r i c) {d : SCell} (hd : m.cells[c]? = some d)
    (v : Fin 4) : nodeOf m T r i v = d.nodes v := by
  unfold nodeOf
  rw [(isCell_lg H L h).1, Option.bind_some, hd]

section
variable {K : Type} [Field K] [LinearOrder K] {p : Problem K} {R : SweepRun K}

theorem toNone_lt {a : Nat} (h : a < uintMax) : toNone a = some a := if_neg (Nat.ne_of_lt h)

theorem cell_get (H : Created m pv n P) {c : Nat} (hc : c < m.numCells) : ∃ d, m.cells[c]? = some d :=
  ⟨_, List.getElem?_eq_getElem (by rw [← H.tets.toSound.cells]; exact hc)⟩

/-- The parts loaded from one mesh fit together as the traversal needs. -/
theorem run_linked [IsStrictOrderedRing K] (H : Created m pv n P) (hn : n < uintMax) (L : Loaded val P T) (hph : p.Physical m) (hR : RunOf p n T R) :
    Linked R.cfg (mateOf m P) := by
  have hin : ∀ {x : Loc}, R.cfg.In x → Exists P x := by
    rintro x ⟨h1, h2⟩
    have h1 : x.rank < n := by have := hR.ranks; change x.rank < R.nRanks at h1; omega
    exact exists_of_lt H L h1 (by rw [← hR.cells _ h1]; exact h2)
  have hex : ∀ {x : Loc}, Exists P x → R.cfg.In x := by
    intro x h
    obtain ⟨h1, h2⟩ := lt_of_exists H L h
    exact ⟨by show x.rank < R.nRanks; rw [hR.ranks]; exact h1, by show x.cell < R.nCells x.rank; rw [hR.cells _ h1]; exact h2⟩
  have hbx : ∀ {x y : Loc}, Mates m P x y → y.rank ≠ x.rank → Bdry m P x := by
    intro x y hm hr z hz
    rw [← mates_unique H hm hz]; exact hr
  have hbig : ∀ {x : Loc}, Exists P x → x.cell < uintMax := by
    rintro x ⟨part, cell, hp, hc⟩
    have h1 := (List.getElem?_eq_some_iff.1 hc).1
    have h2 := ((create_cells H.create).2 _ _ hp).1
    have h3 := part_le H hp
    have h4 := H.tets.fit
    have : invalid = uintMax := rfl
    omega
  refine ⟨hR.threads, ?_, ?_, ?_, ?_, ?_, ?_, ?_, ?_, ?_, ?_⟩
  · intro r hr
    have hr' : r < n := by have := hR.ranks; change r < R.nRanks at hr; omega
    have := hR.size r hr'
    rw [← hR.cells r hr'] at this
    exact this
  · intro x y hx hy
    exact hex (mates_exists ((mateOf_iff H).1 hy)).2
  · intro x y hx hy
    exact (mateOf_iff H).2 (mates_symm ((mateOf_iff H).1 hy))
  · intro x y hx hy hr
    have hm := (mateOf_iff H).1 hy
    have hE := hin hx
    obtain ⟨h1, h2⟩ := lt_of_exists H L hE
    obtain ⟨a1, a2, a3, a4⟩ := (adjacency H L hE).1 y hm hr
    constructor
    · have := hR.adjCell _ h1 _ h2 _ _ a1
      rw [toNone_lt (hbig (mates_exists hm).2)] at this
      exact this
    · have := hR.adjRank _ h1 _ h2 _ _ a4
      rw [toNone_lt (by omega)] at this
      exact this
  · intro x y hx hy hr
    have hm := (mateOf_iff H).1 hy
    have hE := hin hx
    obtain ⟨h1, h2⟩ := lt_of_exists H L hE
    obtain ⟨a1, a2⟩ := (adjacency H L hE).2.1 y hm hr
    constructor
    · exact hR.adjCell _ h1 _ h2 _ _ a1
    · have := hR.adjRank _ h1 _ h2 _ _ a2
      rw [toNone_lt (by have := (lt_of_exists H L (mates_exists hm).2).1; omega)] at this
      exact this
  · intro x hx hy
    have hE := hin hx
    obtain ⟨h1, h2⟩ := lt_of_exists H L hE
    obtain ⟨a1, a2⟩ := (adjacency H L hE).2.2 (mateOf_none.1 hy)
    exact ⟨hR.adjCell _ h1 _ h2 _ _ a1, hR.adjRank _ h1 _ h2 _ _ a2⟩
  · intro x y hx hy hr
    have hm := (mateOf_iff H).1 hy
    obtain ⟨s, g, s', b1, b2, b3, b4⟩ := sides_shared H L hm hr
    obtain ⟨h1, h2⟩ := lt_of_exists H L (mates_exists hm).1
    obtain ⟨h3, h4⟩ := lt_of_exists H L (mates_exists hm).2
    show R.glSide y.rank (R.lgSide x.rank ((R.view x.rank).side x.cell x.face)) = (R.view y.rank).side y.cell y.face
    rw [hR.side _ h1 _ h2 _ _ b1, hR.lgSide _ h1 _ _ b2, hR.glSide _ h3 _ _ b3, hR.side _ h3 _ h4 _ _ b4]
  · intro x y hx hy hr
    have hm := (mateOf_iff H).1 hy
    obtain ⟨c, c', g, k1, k2, k3⟩ := id hm
    obtain ⟨s, b1, -, b3, -⟩ := (sides H L k1).1 (hbx hm hr)
    obtain ⟨h1, h2⟩ := lt_of_exists H L (mates_exists hm).1
    show R.sideCell x.rank ((R.view x.rank).side x.cell x.face) = x.cell
    rw [hR.side _ h1 _ h2 _ _ b1, hR.sideCell _ h1 _ _ b3]
  · intro x x' y y' hx hx' hy hy' hr hr' hrr hside
    have hm := (mateOf_iff H).1 hy
    have hm' := (mateOf_iff H).1 hy'
    obtain ⟨c, c', g, k1, k2, k3⟩ := id hm
    obtain ⟨d, d', g', j1, j2, j3⟩ := id hm'
    obtain ⟨s, b1, b2, -⟩ := (sides H L k1).1 (hbx hm hr)
    obtain ⟨s', b1', b2', -⟩ := (sides H L j1).1 (hbx hm' hr')
    obtain ⟨h1, h2⟩ := lt_of_exists H L (mates_exists hm).1
    obtain ⟨h1', h2'⟩ := lt_of_exists H L (mates_exists hm').1
    change (R.view x.rank).side x.cell x.face = (R.view x'.rank).side x'.cell x'.face at hside
    rw [hR.side _ h1 _ h2 _ _ b1, hR.side _ h1' _ h2' _ _ b1'] at hside
    subst hside
    have hl := (create_cells H.create).1
    obtain ⟨z, -, hz⟩ := sides_onto H L (r := x.rank) (by omega) b2
    rw [hz x rfl (mates_exists hm).1 (hbx hm hr) b1, hz x' hrr.symm (mates_exists hm').1 (hbx hm' hr') (by rw [hrr]; exact b1')]
  · intro x y a hx hy ha hout
    have hm := (mateOf_iff H).1 hy
    obtain ⟨h1, h2⟩ := lt_of_exists H L (mates_exists hm).1
    obtain ⟨h3, h4⟩ := lt_of_exists H L (mates_exists hm).2
    obtain ⟨c, hc⟩ := isCell_of_lt H L h1 h2
    obtain ⟨c', hc'⟩ := isCell_of_lt H L h3 h4
    have hopp := hph.opposite _ _ _ _ ((mates_across hc hc').1 hm) a (by rw [← hR.angles]; exact ha)
    have e1 : (R.view x.rank).omegaDotN a x.cell x.face = p.omegaDotN a c x.face := by
      rw [hR.omega _ h1 _ _ (isCell_lg H L hc).1 a (by rw [← hR.angles]; exact ha)]
    have e2 : (R.view y.rank).omegaDotN a y.cell y.face = p.omegaDotN a c' y.face := by
      rw [hR.omega _ h3 _ _ (isCell_lg H L hc').1 a (by rw [← hR.angles]; exact ha)]
    have ho : (R.view x.rank).isOutgoing a x.cell x.face := by
      unfold Cfg.outDir SweepRun.cfg SweepRun.mesh at hout
      by_contra hno
      simp [hno] at hout
    show (!decide ((R.view y.rank).isOutgoing a y.cell y.face)) = true
    have : ¬ (R.view y.rank).isOutgoing a y.cell y.face := by
      unfold MeshView.isOutgoing at ho ⊢
      rw [e2, hopp, ← e1]
      have : (0 : K) ≤ (R.view x.rank).omegaDotN a x.cell x.face := le_of_lt ho
      linarith
    simpa using this

/-- Their vertices correspond as the sweep needs. -/
theorem run_nodes [IsStrictOrderedRing K] (H : Created m pv n P) (L : Loaded val P T) (hR : RunOf p n T R) :
    R.Nodes (mateOf m P) (nodeOf m T) := by
  refine ⟨?_, ?_, ?_⟩
  · intro r c v w hr hc h
    have hr' : r < n := by have := hR.ranks; omega
    obtain ⟨gc, hgc⟩ := isCell_of_lt H L hr' (by rw [← hR.cells r hr']; exact hc)
    obtain ⟨d, hd⟩ := cell_get H (isCell_lg H L hgc).2.2.2
    rw [nodeOf_eq H L hgc hd, nodeOf_eq H L hgc hd] at h
    exact H.tets.distinct _ d hd h
  · intro x y v hx hy hr hv
    have hm := (mateOf_iff H).1 hy
    obtain ⟨c, c', g, k1, k2, k3⟩ := id hm
    obtain ⟨h1, h2⟩ := lt_of_exists H L (mates_exists hm).1
    obtain ⟨d, hd⟩ := cell_get H (isCell_lg H L (at_isCell k1)).2.2.2
    obtain ⟨d', hd'⟩ := cell_get H (isCell_lg H L (at_isCell k2)).2.2.2
    obtain ⟨_, _, _, e, _, _, _, _, _, he, _⟩ := id k1
    obtain ⟨k, q1, q2⟩ := (face_vertices H L k1 hd he).2 v hv
    rw [hR.cellToFace _ h1 _ h2 _ _ _ q1]
    obtain ⟨w, n1, n2⟩ := neighbor_vertices H L k1 k2 k3 hr k
    rw [hR.neighbor _ h1 _ h2 _ _ _ n1, nodeOf_eq H L (at_isCell k1) hd, nodeOf_eq H L (at_isCell k2) hd']
    obtain ⟨v1, b1, -, b3, -⟩ := (face_vertices H L k1 hd he).1 k
    obtain ⟨w1, c1, -, c3, -⟩ := (face_vertices H L k2 hd' he).1 k
    rw [q2, Option.some.injEq] at b1
    rw [n2, Option.some.injEq] at c1
    subst b1 c1
    rw [b3, c3]
  · intro x y v hx hy hr hv
    have hm := (mateOf_iff H).1 hy
    obtain ⟨c, c', g, k1, k2, k3⟩ := id hm
    obtain ⟨h1, h2⟩ := lt_of_exists H L (mates_exists hm).1
    obtain ⟨h3, h4⟩ := lt_of_exists H L (mates_exists hm).2
    obtain ⟨d, hd⟩ := cell_get H (isCell_lg H L (at_isCell k1)).2.2.2
    obtain ⟨d', hd'⟩ := cell_get H (isCell_lg H L (at_isCell k2)).2.2.2
    obtain ⟨_, _, _, e, _, _, _, _, _, he, _⟩ := id k1
    obtain ⟨k, q1, q2⟩ := (face_vertices H L k1 hd he).2 v hv
    rw [hR.cellToFace _ h1 _ h2 _ _ _ q1]
    obtain ⟨v1, b1, -, b3, -⟩ := (face_vertices H L k1 hd he).1 k
    obtain ⟨w1, c1, -, c3, -⟩ := (face_vertices H L k2 hd' he).1 k
    rw [hR.faceToCell _ h3 _ h4 _ _ _ c1, nodeOf_eq H L (at_isCell k1) hd, nodeOf_eq H L (at_isCell k2) hd']
    rw [q2, Option.some.injEq] at b1
    subst b1
    rw [b3, c3]

theorem run_physical (H : Created m pv n P) (L : Loaded val P T) (hph : p.Physical m) (hR : RunOf p n T R) : R.Physical := by
  have key : ∀ {r c}, r < R.nRanks → c < R.nCells r → ∃ gc, r < n ∧ (T r).getLGCell c = some gc ∧ gc < m.numCells := by
    intro r c hr hc
    have hr' : r < n := by have := hR.ranks; omega
    obtain ⟨gc, hgc⟩ := isCell_of_lt H L hr' (by rw [← hR.cells r hr']; exact hc)
    obtain ⟨h1, -, -, h4⟩ := isCell_lg H L hgc
    exact ⟨gc, hr', h1, h4⟩
  refine ⟨?_, ?_, ?_, ?_, ?_⟩
  · intro r c hr hc
    obtain ⟨gc, h1, h2, h3⟩ := key hr hc
    rw [hR.volume r h1 c gc h2]; exact hph.volume gc h3
  · intro r c f hr hc
    obtain ⟨gc, h1, h2, h3⟩ := key hr hc
    rw [hR.area r h1 c gc h2]; exact hph.area gc h3 f
  · intro r c hr hc
    obtain ⟨gc, h1, h2, h3⟩ := key hr hc
    rw [hR.sigma r h1 c gc h2]; exact hph.sigma gc h3
  · intro r c a hr hc ha
    obtain ⟨gc, h1, h2, h3⟩ := key hr hc
    rw [hR.area r h1 c gc h2, hR.omega r h1 c gc h2 a (by rw [← hR.angles]; exact ha)]
    exact hph.closed gc h3 a (by rw [← hR.angles]; exact ha)
  · intro r c a hr hc ha
    obtain ⟨gc, h1, h2, h3⟩ := key hr hc
    rw [hR.area r h1 c gc h2, hR.omega r h1 c gc h2 a (by rw [← hR.angles]; exact ha), hR.sigma r h1 c gc h2]
    exact hph.flow gc h3 a (by rw [← hR.angles]; exact ha)

/-- The system on the parts and the system on the serial mesh are the same. -/
theorem globalDG_iff [IsStrictOrderedRing K] (H : Created m pv n P) (L : Loaded val P T) (hR : RunOf p n T R) {psi : Nat → Psi K} {psiS : Psi K}
    (hpsi : ∀ r i c, IsCell P r i c → ∀ g v a, psi r g v a i = psiS g v a c) :
    R.GlobalDG (mateOf m P) (nodeOf m T) psi ↔ p.DG m psiS := by
  constructor
  · intro h c d hd a ha g hg
    have hc : c < m.numCells := by rw [H.tets.toSound.cells]; exact (List.getElem?_eq_some_iff.1 hd).1
    obtain ⟨r, i, hi⟩ := isCell_exists H hc
    obtain ⟨h1, h2, h3, -⟩ := isCell_lg H L hi
    obtain ⟨inc, k1, k2⟩ := h r i a g (by rw [hR.ranks]; exact h2) (by rw [hR.cells r h2]; exact h3) (by rw [hR.angles]; exact ha)
      (by rw [hR.groups]; exact hg)
    rw [hR.area r h2 i c h1, hR.omega r h2 i c h1 a ha, hR.volume r h2 i c h1, hR.sigma r h2 i c h1] at k2
    simp only [fun v => hR.source r h2 i c h1 g hg v a ha, hpsi r i c hi] at k2
    refine ⟨inc, fun f v hv hneg => ?_, k2⟩
    obtain ⟨b1, b2⟩ := k1 f v hv (by rw [hR.area r h2 i c h1, hR.omega r h2 i c h1 a ha]; exact hneg)
    constructor
    · intro c' f' hac
      have hc' : c' < m.numCells := by
        obtain ⟨-, g', -, d', _, _, hd', -⟩ := hac
        rw [H.tets.toSound.cells]; exact (List.getElem?_eq_some_iff.1 hd').1
      obtain ⟨r', i', hi'⟩ := isCell_exists H hc'
      have hm : Mates m P ⟨r, i, f⟩ ⟨r', i', f'⟩ := (mates_across hi hi').2 hac
      obtain ⟨w, hw, hinc⟩ := b1 _ ((mateOf_iff H).2 hm)
      obtain ⟨d', hd'⟩ := cell_get H hc'
      refine ⟨d', w, hd', ?_, ?_⟩
      · rw [nodeOf_eq H L hi' hd', nodeOf_eq H L hi hd] at hw
        exact hw
      · rw [hinc]; exact hpsi r' i' c' hi' g w a
    · intro hno
      refine b2 (mateOf_none.2 fun y hy => ?_)
      have hye := (mates_exists hy).2
      obtain ⟨e1, e2⟩ := lt_of_exists H L hye
      obtain ⟨c', hc'⟩ := isCell_of_lt H L e1 e2
      exact hno c' y.face ((mates_across hi hc').1 hy)
  · intro h r i a g hr hc ha hg
    have hr' : r < n := by have := hR.ranks; omega
    rw [hR.angles] at ha
    rw [hR.groups] at hg
    obtain ⟨c, hi⟩ := isCell_of_lt H L hr' (by rw [← hR.cells r hr']; exact hc)
    obtain ⟨h1, h2, h3, h4⟩ := isCell_lg H L hi
    obtain ⟨d, hd⟩ := cell_get H h4
    obtain ⟨inc, k1, k2⟩ := h c d hd a ha g hg
    refine ⟨inc, fun f v hv hneg => ?_, ?_⟩
    · rw [hR.area r h2 i c h1, hR.omega r h2 i c h1 a ha] at hneg
      obtain ⟨b1, b2⟩ := k1 f v hv hneg
      constructor
      · intro y hy
        have hm := (mateOf_iff H).1 hy
        obtain ⟨e1, e2⟩ := lt_of_exists H L (mates_exists hm).2
        obtain ⟨c', hc'⟩ := isCell_of_lt H L e1 e2
        obtain ⟨d', w, q1, q2, q3⟩ := b1 c' y.face ((mates_across hi hc').1 hm)
        refine ⟨w, ?_, ?_⟩
        · rw [nodeOf_eq H L hc' q1, nodeOf_eq H L hi hd]; exact q2
        · rw [q3]; exact (hpsi _ _ c' hc' g w a).symm
      · intro hy
        refine b2 fun c' f' hac => ?_
        have hc' : c' < m.numCells := by
          obtain ⟨-, g', -, d', _, _, hd', -⟩ := hac
          rw [H.tets.toSound.cells]; exact (List.getElem?_eq_some_iff.1 hd').1
        obtain ⟨r', i', hi'⟩ := isCell_exists H hc'
        exact mateOf_none.1 hy ⟨r', i', f'⟩ ((mates_across (x := ⟨r, i, f⟩) hi hi').2 hac)
    · rw [hR.area r h2 i c h1, hR.omega r h2 i c h1 a ha, hR.volume r h2 i c h1, hR.sigma r h2 i c h1]
      simp only [fun v => hR.source r h2 i c h1 g hg v a ha, hpsi r i c hi]
      exact k2

end

section
variable {K : Type} [Field K] [LinearOrder K] [IsStrictOrderedRing K] {p : Problem K} {R : SweepRun K}

/-- C55: a sweep that has returned on all ranks leaves in the flux arrays the only solution of the
upwind discretisation on the serial mesh, each cell on its rank under its local number. -/
theorem sweep_serial (H : Created m pv n P) (hn : n < uintMax) (L : Loaded val P T) (hph : p.Physical m) (hR : RunOf p n T R)
    {s : State _ _} (h : Reachable R.cfg s) (hf : ∀ r < n, (s.rank r).phase = .finished) :
    ∃ psiS : Psi K, p.DG m psiS ∧
      (∀ r < n, ∃ psi bnd, (s.rank r).data = some (psi, bnd) ∧
        ∀ i c, (T r).getLGCell i = some c → ∀ g v a, psi g v a i = psiS g v a c) ∧
      ∀ psi', p.DG m psi' → ∀ c < m.numCells, ∀ a < p.nAngles, ∀ g < p.nGroups, ∀ v, psi' g v a c = psiS g v a c := by
  have hL := run_linked H hn L hph hR
  have hN := run_nodes H L hR
  have hP := run_physical H L hph hR
  have hf' : ∀ r < R.nRanks, (s.rank r).phase = .finished := by rw [hR.ranks]; exact hf
  obtain ⟨psi, hpsi, hdg⟩ := sweep_solves R hP hL hN hR.comm h hf'
  -- the location of a cell
  have hloc : ∀ c, ∃ x : Nat × Nat, c < m.numCells → IsCell P x.1 x.2 c := by
    intro c
    by_cases hc : c < m.numCells
    · obtain ⟨r, i, hi⟩ := isCell_exists H hc
      exact ⟨(r, i), fun _ => hi⟩
    · exact ⟨(0, 0), fun h => absurd h hc⟩
  choose loc hloc using hloc
  let psiS : Psi K := fun g v a c => psi (loc c).1 g v a (loc c).2
  have hS : ∀ r i c, IsCell P r i c → ∀ g v a, psi r g v a i = psiS g v a c := by
    intro r i c hi g v a
    obtain ⟨e1, e2⟩ := isCell_unique H hi (hloc c (isCell_lg H L hi).2.2.2)
    show _ = psi (loc c).1 g v a (loc c).2
    rw [← e1, ← e2]
  refine ⟨psiS, (globalDG_iff H L hR hS).1 hdg, fun r hr => ?_, ?_⟩
  · obtain ⟨bnd, hb⟩ := hpsi r (by rw [hR.ranks]; exact hr)
    exact ⟨psi r, bnd, hb, fun i c hic g v a => hS r i c (lg_isCell H L hr hic) g v a⟩
  · intro psi' hdg' c hc a ha g hg v
    have hi := hloc c hc
    obtain ⟨-, h2, h3, -⟩ := isCell_lg H L hi
    let psiP : Nat → Psi K := fun r g v a i => psi' g v a (((T r).getLGCell i).getD 0)
    have hP' : ∀ r i c, IsCell P r i c → ∀ g v a, psiP r g v a i = psi' g v a c := by
      intro r i c hi g v a
      show psi' g v a (((T r).getLGCell i).getD 0) = _
      rw [(isCell_lg H L hi).1]; rfl
    have hG := (globalDG_iff H L hR hP').2 hdg'
    have := globalDG_unique_log R hP hL hN hR.comm (h.inv hL).ordered hdg hG
      (complete_of_finished hL h hf' (loc c).1 (loc c).2 a (by show _ < R.nRanks; rw [hR.ranks]; exact h2) (by show _ < R.nCells _; rw [hR.cells _ h2]; exact h3)
        (by show a < R.nAngles; rw [hR.angles]; exact ha)) g (by rw [hR.groups]; exact hg) v
    rw [← hS _ _ _ hi, this, hP' _ _ _ hi]

/-- C55: partitioning the mesh differently — other rank counts, other assignments of cells to ranks,
and other threads, batches, protocols, orders of coordinates — changes nothing in the flux of any
cell, direction, group and vertex. -/
theorem partition_independent {S' : Type} [LinearOrder S'] {val' : Nat → S'} {pv' : List Nat} {n' : Nat} {P' : ParallelMesh}
    {T' : Nat → Mesh} {R' : SweepRun K} (H : Created m pv n P) (hn : n < uintMax) (L : Loaded val P T) (hph : p.Physical m)
    (hR : RunOf p n T R) (H' : Created m pv' n' P') (hn' : n' < uintMax) (L' : Loaded val' P' T') (hR' : RunOf p n' T' R')
    {s : State _ _} (h : Reachable R.cfg s) (hf : ∀ r < n, (s.rank r).phase = .finished)
    {s' : State _ _} (h' : Reachable R'.cfg s') (hf' : ∀ r < n', (s'.rank r).phase = .finished)
    {r i r' i' c : Nat} (hr : r < n) (hr' : r' < n') (hc : (T r).getLGCell i = some c) (hc' : (T' r').getLGCell i' = some c) :
    ∃ psi bnd psi' bnd', (s.rank r).data = some (psi, bnd) ∧ (s'.rank r').data = some (psi', bnd') ∧
      ∀ g < p.nGroups, ∀ a < p.nAngles, ∀ v, psi g v a i = psi' g v a i' := by
  obtain ⟨psiS, d1, d2, -⟩ := sweep_serial H hn L hph hR h hf
  obtain ⟨psiS', e1, e2, e3⟩ := sweep_serial H' hn' L' hph hR' h' hf'
  obtain ⟨psi, bnd, a1, a2⟩ := d2 r hr
  obtain ⟨psi', bnd', b1, b2⟩ := e2 r' hr'
  refine ⟨psi, bnd, psi', bnd', a1, b1, fun g hg a ha v => ?_⟩
  rw [a2 i c hc, b2 i' c hc']
  exact e3 psiS d1 c (isCell_lg H L (lg_isCell H L hr hc)).2.2.2 a ha g hg v

end
end Verif.TychoMesh
