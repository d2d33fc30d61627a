import Verif.TychoMesh.Link2
import Verif.Source.Solvers

/-!
# All solvers on any partition of a mesh (C71)

The problem with scattering is stated on the serial mesh. The exactly converged results of all sweep types
on a partitioned mesh are its one solution.
-/
set_option linter.unusedSectionVars false
set_option linter.unusedVariables false
namespace Verif.TychoMesh

open Verif.MeshFile Verif.Traverse Verif.Source Verif.Domain
open Verif.Transport hiding exMesh

variable {S : Type} [LinearOrder S] {val : Nat → S} {m : SerialMesh} {pv : List Nat} {n : Nat} {P : ParallelMesh} {T : Nat → Mesh}
variable {K : Type} [Field K] [LinearOrder K] [IsStrictOrderedRing K] {p : Problem K} {R : SweepRun K}

/-! ### Statements on the serial mesh -/

/-- Isotropic scattering: weights of the directions, scattering cross section by cell, and π. -/
structure Scattering (K : Type) where
  wt : Nat → K
  sigmaS : Nat → K
  pi : K

/-- The source with the scattering of `psi`: `p.source + σs/(4π) ∑ w ψ`. -/
def Problem.total (p : Problem K) (Y : Scattering K) (psi : Psi K) : Psi K := fun g v a c =>
  p.source g v a c + Y.sigmaS c / (4 * Y.pi) * ∑ b ∈ Finset.range p.nAngles, psi g v b c * Y.wt b

/-- `psi` solves the upwind discretisation with its own scattering. -/
def Problem.Scatter (p : Problem K) (m : SerialMesh) (Y : Scattering K) (psi : Psi K) : Prop :=
  Problem.DG { p with source := p.total Y psi } m psi

/-- Cells that touch agree on the area of their face. -/
def Problem.Matched (p : Problem K) (m : SerialMesh) : Prop :=
  ∀ c f c' f', Across m c f c' f' → p.area c' f' = p.area c f

/-- The scattering ratio is at most `κ` in every cell. -/
structure Problem.Ratio (p : Problem K) (m : SerialMesh) (Y : Scattering K) (κ : K) : Prop where
  nonneg : 0 ≤ κ
  weights : ∀ a < p.nAngles, 0 ≤ Y.wt a
  total : 0 < ∑ a ∈ Finset.range p.nAngles, Y.wt a
  scatter : ∀ c < m.numCells, 0 ≤ Y.sigmaS c / (4 * Y.pi)
  ratio : ∀ c < m.numCells, (∑ a ∈ Finset.range p.nAngles, Y.wt a) * (Y.sigmaS c / (4 * Y.pi)) ≤ κ * p.sigmaT c

/-- The scattering data of the ranks are those of the cells with the same global number. -/
structure ScatOf (p : Problem K) (Y : Scattering K) (n : Nat) (T : Nat → Mesh) (X : Scat K) : Prop where
  wt : ∀ a < p.nAngles, X.wt a = Y.wt a
  pi : X.mPi = Y.pi
  sigma : ∀ r < n, ∀ i c, (T r).getLGCell i = some c → X.sigmaS r i = Y.sigmaS c

/-! ### Proofs -/

variable {X : Scat K} {Y : Scattering K}

theorem scal_serial (H : Created m pv n P) (L : Loaded val P T) (hR : RunOf p n T R) (hX : ScatOf p Y n T X)
    {psi : Nat → Psi K} {psiS : Psi K} (hpsi : ∀ r i c, IsCell P r i c → ∀ g v a, psi r g v a i = psiS g v a c)
    {r i c : Nat} (hi : IsCell P r i c) (g : Nat) (v : Fin 4) :
    scal R X psi r g v i = ∑ b ∈ Finset.range p.nAngles, psiS g v b c * Y.wt b := by
  unfold scal
  rw [hR.angles]
  refine Finset.sum_congr rfl fun b hb => ?_
  rw [hpsi r i c hi, hX.wt b (Finset.mem_range.1 hb)]

/-- The problem with scattering on a partitioned mesh is the one on the serial mesh. -/
theorem scatters_iff (H : Created m pv n P) (L : Loaded val P T) (hR : RunOf p n T R) (hX : ScatOf p Y n T X)
    {psi : Nat → Psi K} {psiS : Psi K} (hpsi : ∀ r i c, IsCell P r i c → ∀ g v a, psi r g v a i = psiS g v a c) :
    Scatters R X (FullDG R (mateOf m P) (nodeOf m T)) R.source psi ↔ p.Scatter m Y psiS := by
  refine globalDG_iff (R := { R with source := scat X R.source (scal R X psi) })
    (p := { p with source := p.total Y psiS }) H L ?_ hpsi
  obtain ⟨h1, h2, h3, h4, h5, h6, h7, h8, h9, h10, h11, h12, h13, h14, h15, h16, h17, h18, h19, h20, h21⟩ := hR
  have hR : RunOf p n T R := by constructor <;> assumption
  constructor <;> first | assumption | skip
  case source =>
    intro r hr i c hc g hg v a ha
    show R.source r g v a i + X.sigmaS r i / (4 * X.mPi) * scal R X psi r g v i = _
    rw [scal_serial H L hR hX hpsi (lg_isCell H L hr hc), hX.sigma r hr i c hc, hX.pi, hR.source r hr i c hc g hg v a ha]
    rfl

theorem run_matched (H : Created m pv n P) (L : Loaded val P T) (hph : p.Physical m) (hM : p.Matched m) (hR : RunOf p n T R)
    (htr : p.Transversal m) : Matched R (mateOf m P) (nodeOf m T) := by
  have hrk : ∀ {x y : Loc}, mateOf m P x = some y → x.rank < n ∧ y.rank < n := by
    intro x y hy
    have hm := (mateOf_iff H).1 hy
    exact ⟨(lt_of_exists H L (mates_exists hm).1).1, (lt_of_exists H L (mates_exists hm).2).1⟩
  constructor
  · intro x y a hx hy ha
    obtain ⟨c, c', hac, hc, hc', e1, e2, e3, -⟩ := run_info H L hph hR htr hy ha
    obtain ⟨k1, k2⟩ := hrk hy
    rw [e1, e2, e3, hR.area _ k1 _ _ (isCell_lg H L hc).1, hR.area _ k2 _ _ (isCell_lg H L hc').1, hM _ _ _ _ hac]
    ring
  · intro x y v hx hy hv
    have hm := (mateOf_iff H).1 hy
    obtain ⟨c, c', g, k1, k2, k3⟩ := id hm
    obtain ⟨d, hd⟩ := cell_get H (isCell_lg H L (at_isCell k1)).2.2.2
    obtain ⟨d', hd'⟩ := cell_get H (isCell_lg H L (at_isCell k2)).2.2.2
    obtain ⟨_, _, _, e, _, _, _, _, _, he, _⟩ := id k1
    obtain ⟨k, q1, q2⟩ := (face_vertices H L k1 hd he).2 v hv
    obtain ⟨v1, b1, -, b3, -⟩ := (face_vertices H L k1 hd he).1 k
    obtain ⟨w1, c1, c2, c3, -⟩ := (face_vertices H L k2 hd' he).1 k
    rw [q2, Option.some.injEq] at b1
    subst b1
    refine ⟨w1, c2, ?_⟩
    rw [nodeOf_eq H L (at_isCell k1) hd, nodeOf_eq H L (at_isCell k2) hd', b3, c3]

open Classical in
/-- An upwind chain crosses fewer partition faces than the mesh has cells. -/
theorem run_crossings (H : Created m pv n P) (L : Loaded val P T) (hph : p.Physical m) (hR : RunOf p n T R)
    (hac : p.Acyclic m) (htr : p.Transversal m) {a : Nat} (ha : a < R.nAngles) :
    ∀ r i k, Crossings R (mateOf m P) a r i k → k ≤ m.numCells := by
  let up : Nat → Nat → Prop := fun c c' => ∃ f f', Across m c f c' f' ∧ 0 < p.omegaDotN a c f
  let gl : Nat → Nat → Nat := fun r i => ((T r).getLGCell i).getD 0
  have upCell : ∀ {c c'}, up c c' → c < m.numCells := by
    rintro c c' ⟨f, f', ⟨-, g, ⟨d, e, k, h1, -⟩, -⟩, -⟩
    rw [H.tets.toSound.cells]
    exact (List.getElem?_eq_some_iff.1 h1).1
  let anc : Nat → Finset Nat := fun c => (Finset.range m.numCells).filter fun c' => Relation.TransGen up c' c
  have key : ∀ r i k, Crossings R (mateOf m P) a r i k → k ≤ (anc (gl r i)).card := by
    intro r i k h
    induction h with
    | nil r c => exact Nat.zero_le _
    | @near r i f y k hm hin hr h ih =>
      have st : up (gl y.rank y.cell) (gl r i) := run_step H L hph hR htr hm ha hin
      refine ih.trans (Finset.card_le_card fun c hc => ?_)
      rw [Finset.mem_filter] at hc ⊢
      exact ⟨hc.1, hc.2.tail st⟩
    | @far r i f y k hm hin hr h ih =>
      have st : up (gl y.rank y.cell) (gl r i) := run_step H L hph hR htr hm ha hin
      refine Nat.succ_le_of_lt (lt_of_le_of_lt ih (Finset.card_lt_card ?_))
      refine (Finset.ssubset_iff_of_subset fun c hc => ?_).2 ⟨gl y.rank y.cell, ?_, ?_⟩
      · rw [Finset.mem_filter] at hc ⊢
        exact ⟨hc.1, hc.2.tail st⟩
      · rw [Finset.mem_filter]
        exact ⟨Finset.mem_range.2 (upCell st), .single st⟩
      · rw [Finset.mem_filter]
        exact fun hc => hac a (by rw [← hR.angles]; exact ha) _ hc.2
  intro r i k h
  refine (key r i k h).trans ((Finset.card_filter_le _ _).trans ?_)
  rw [Finset.card_range]

theorem run_ratio (H : Created m pv n P) (L : Loaded val P T) (hR : RunOf p n T R) (hX : ScatOf p Y n T X) {κ : K}
    (hκ : p.Ratio m Y κ) : Source.Ratio R X κ := by
  have hsum : ∑ a ∈ Finset.range R.nAngles, X.wt a = ∑ a ∈ Finset.range p.nAngles, Y.wt a := by
    rw [hR.angles]
    exact Finset.sum_congr rfl fun b hb => hX.wt b (Finset.mem_range.1 hb)
  have key : ∀ {r c}, r < R.nRanks → c < R.nCells r → ∃ gc, r < n ∧ (T r).getLGCell c = some gc ∧ gc < m.numCells := by
    intro r c hr hc
    have hr' : r < n := by have := hR.ranks; omega
    obtain ⟨gc, hgc⟩ := isCell_of_lt H L hr' (by rw [← hR.cells r hr']; exact hc)
    obtain ⟨h1, -, -, h4⟩ := isCell_lg H L hgc
    exact ⟨gc, hr', h1, h4⟩
  refine ⟨hκ.nonneg, ?_, by rw [hsum]; exact hκ.total, ?_, ?_⟩
  · intro a ha
    rw [hR.angles] at ha
    rw [hX.wt a ha]; exact hκ.weights a ha
  · intro r c hr hc
    obtain ⟨gc, h1, h2, h3⟩ := key hr hc
    rw [hX.sigma r h1 c gc h2, hX.pi]; exact hκ.scatter gc h3
  · intro r c hr hc
    obtain ⟨gc, h1, h2, h3⟩ := key hr hc
    rw [hX.sigma r h1 c gc h2, hX.pi, hsum, hR.sigma r h1 c gc h2]; exact hκ.ratio gc h3

/-- Values by rank and local cell from values by cell, and back. -/
theorem serial_flux (H : Created m pv n P) (L : Loaded val P T) (psi : Nat → Psi K) :
    ∃ psiS : Psi K, ∀ r i c, IsCell P r i c → ∀ g v a, psi r g v a i = psiS g v a c := by
  have hloc : ∀ c, ∃ x : Nat × Nat, c < m.numCells → IsCell P x.1 x.2 c := by
    intro c
    by_cases hc : c < m.numCells
    · obtain ⟨r, i, hi⟩ := isCell_exists H hc
      exact ⟨(r, i), fun _ => hi⟩
    · exact ⟨(0, 0), fun h => absurd h hc⟩
  choose loc hloc using hloc
  refine ⟨fun g v a c => psi (loc c).1 g v a (loc c).2, ?_⟩
  intro r i c hi g v a
  obtain ⟨e1, e2⟩ := isCell_unique H hi (hloc c (isCell_lg H L hi).2.2.2)
  show _ = psi (loc c).1 g v a (loc c).2
  rw [← e1, ← e2]

/-- C71: on any partition, an exactly converged result of any sweep type holds in each cell the one
solution of the problem with scattering on the serial mesh. `k` is the number of inner iterations after
which a PBJ sweep counts as converged. -/
theorem result_serial (H : Created m pv n P) (hn : n < uintMax) (L : Loaded val P T) (hph : p.Physical m) (hM : p.Matched m)
    (hR : RunOf p n T R) (hX : ScatOf p Y n T X) (hac : p.Acyclic m) (htr : p.Transversal m) {κ : K} (hκ : p.Ratio m Y κ)
    (hκ1 : κ < 1) {k : Nat} (hk : m.numCells ≤ k) {psi : Nat → Psi K} (h : Result R X k R.source psi) :
    ∃ psiS : Psi K, p.Scatter m Y psiS ∧
      (∀ psi', p.Scatter m Y psi' → ∀ c < m.numCells, ∀ a < p.nAngles, ∀ g < p.nGroups, ∀ v, psi' g v a c = psiS g v a c) ∧
      ∀ r < n, ∀ i c, (T r).getLGCell i = some c → ∀ g v a, psi r g v a i = psiS g v a c := by
  have hL := run_linked H hn L hph hR
  have hN := run_nodes H L hR
  have hP := run_physical H L hph hR
  have hXc := run_crossed H L hph hR htr
  have hA := run_acyclic H L hph hR hac htr
  have hMa := run_matched H L hph hM hR htr
  have hr := run_ratio H L hR hX hκ
  have hs := result_scatters hP hL hXc hN hMa hR.comm hA
    (fun r c a k' _ _ ha hc => (run_crossings H L hph hR hac htr ha r c k' hc).trans hk) hr hκ1 h
  obtain ⟨psiS, hS⟩ := serial_flux H L psi
  refine ⟨psiS, (scatters_iff H L hR hX hS).1 hs, ?_, fun r hr i c hc => hS r i c (lg_isCell H L hr hc)⟩
  intro psi' h' c hc a ha g hg v
  have hP' : ∀ r i c, IsCell P r i c → ∀ g v a, psi' g v a (((T r).getLGCell i).getD 0) = psi' g v a c := by
    intro r i c hi g v a
    rw [(isCell_lg H L hi).1]; rfl
  have hs' := (scatters_iff (psi := fun r g v a i => psi' g v a (((T r).getLGCell i).getD 0)) H L hR hX hP').2 h'
  obtain ⟨r, i, hi⟩ := isCell_exists H hc
  obtain ⟨-, k2, k3, -⟩ := isCell_lg H L hi
  have hAf := full_affine hP hL hN hR.comm hA
  have := scatter_unique hP hr hκ1 (full_dissipative hP hL hN hMa) hAf hAf hs' hs r i a g v (by rw [hR.ranks]; exact k2)
    (by rw [hR.cells r k2]; exact k3) (by rw [hR.angles]; exact ha) (by rw [hR.groups]; exact hg)
  rw [← hS r i c hi, ← this]
  exact (hP' r i c hi g v a).symm

/-- C71: the problem with scattering on the serial mesh has a solution. -/
theorem scatter_serial_exists (H : Created m pv n P) (hn : n < uintMax) (L : Loaded val P T) (hph : p.Physical m)
    (hM : p.Matched m) (hR : RunOf p n T R) (hX : ScatOf p Y n T X) (hac : p.Acyclic m) (htr : p.Transversal m) {κ : K}
    (hκ : p.Ratio m Y κ) (hκ1 : κ < 1) : ∃ psiS, p.Scatter m Y psiS := by
  obtain ⟨star, h, -⟩ := full_scatter_exists_unique (run_physical H L hph hR) (run_linked H hn L hph hR)
    (run_crossed H L hph hR htr) (run_nodes H L hR) (run_matched H L hph hM hR htr) hR.comm (run_acyclic H L hph hR hac htr)
    (run_ratio H L hR hX hκ) hκ1 R.source
  obtain ⟨psiS, hS⟩ := serial_flux H L star
  exact ⟨psiS, (scatters_iff H L hR hX hS).1 h⟩

/-- C71: exactly converged results of any two sweep types on any two partitions agree in each cell. -/
theorem results_independent {S' : Type} [LinearOrder S'] {val' : Nat → S'} {pv' : List Nat} {n' : Nat} {P' : ParallelMesh}
    {T' : Nat → Mesh} {R' : SweepRun K} {X' : Scat K} (H : Created m pv n P) (hn : n < uintMax) (L : Loaded val P T)
    (hph : p.Physical m) (hM : p.Matched m) (hR : RunOf p n T R) (hX : ScatOf p Y n T X) (H' : Created m pv' n' P')
    (hn' : n' < uintMax) (L' : Loaded val' P' T') (hR' : RunOf p n' T' R') (hX' : ScatOf p Y n' T' X') (hac : p.Acyclic m)
    (htr : p.Transversal m) {κ : K} (hκ : p.Ratio m Y κ) (hκ1 : κ < 1) {k k' : Nat} (hk : m.numCells ≤ k)
    (hk' : m.numCells ≤ k') {psi psi' : Nat → Psi K} (h : Result R X k R.source psi) (h' : Result R' X' k' R'.source psi')
    {r i r' i' c : Nat} (hr : r < n) (hr' : r' < n') (hc : (T r).getLGCell i = some c) (hc' : (T' r').getLGCell i' = some c) :
    ∀ g < p.nGroups, ∀ a < p.nAngles, ∀ v, psi r g v a i = psi' r' g v a i' := by
  obtain ⟨S, d1, d2, d3⟩ := result_serial H hn L hph hM hR hX hac htr hκ hκ1 hk h
  obtain ⟨S', e1, e2, e3⟩ := result_serial H' hn' L' hph hM hR' hX' hac htr hκ hκ1 hk' h'
  intro g hg a ha v
  rw [d3 r hr i c hc, e3 r' hr' i' c hc']
  exact e2 S d1 c (isCell_lg H L (lg_isCell H L hr hc)).2.2.2 a ha g hg v

end Verif.TychoMesh
