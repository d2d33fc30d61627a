import Verif.Program.Main
import Verif.PsiFile.Mesh
import Verif.Quadrature.Props

/-!
# The flux a run of the program computes (C70)
-/
set_option linter.unusedSectionVars false
set_option linter.unusedVariables false
namespace Verif.Program

open Verif.MeshFile Verif.TychoMesh Verif.Geometry Verif.Program.Spec
open Verif.Traverse (Protocol Reachable State SweepRun Psi Bound)
open Verif.Transport (GaussElim)

/-- How a run is carried out: partition, ranks, threads, batch size, protocol, solver of the 4x4 systems,
priorities, and the contents of arrays before the sweep. -/
structure Mode where
  pv : List Nat
  n : Nat
  threads : Nat
  batch : Nat
  proto : Protocol
  rendezvous : Bool
  gauss : GaussElim
  prio : Nat → Nat → Nat → Nat
  psi0 : Nat → Psi ℝ
  bound0 : Nat → Bound ℝ
  scratch : Fin 4 → Nat → ℝ

/-- The program has been started: the mesh is partitioned (util/PartitionColumns.cc or
util/PartitionMetis.cc), loaded by all ranks and the ranks are set up. Counts stay below the limits of
the integer types. -/
structure Ready (val : Nat → ℝ) (deck : Deck) (m : SerialMesh) (M : Mode) (P : ParallelMesh) (T : Nat → Mesh)
    (D : Nat → RankData) : Prop where
  created : Created m M.pv M.n P
  loaded : Loaded val P T
  started : Started val deck P T D
  ranks : M.n < uintMax
  threads : 0 < M.threads
  size : ∀ r < M.n, deck.dirs.length * (T r).nCells < 2 ^ 64

/-- The sweep of a run. -/
noncomputable def Mode.run (M : Mode) (deck : Deck) (T : Nat → Mesh) (D : Nat → RankData) : SweepRun ℝ :=
  programRun deck M.n T D M.threads M.batch M.proto M.rendezvous M.gauss M.prio M.psi0 M.bound0 M.scratch

/-- After a sweep of the program all ranks have returned and `psi` is their flux. -/
def Swept (M : Mode) (deck : Deck) (T : Nat → Mesh) (D : Nat → RankData) (psi : Nat → Psi ℝ) : Prop :=
  ∃ s, Reachable (M.run deck T D).cfg s ∧ (∀ r < M.n, (s.rank r).phase = .finished) ∧
    ∀ r < M.n, ∃ bnd, (s.rank r).data = some (psi r, bnd)

variable {val : Nat → ℝ} {deck : Deck} {m : SerialMesh} {M M' : Mode} {P P' : ParallelMesh} {T T' : Nat → Mesh}
  {D D' : Nat → RankData} {p : Problem ℝ} {sS : Nat → ℝ}

theorem Ready.runOf (h : Ready val deck m M P T D) (F : Fits val m) (hs : Sensible val deck m)
    (Ds : Describes val deck m p sS) : RunOf p M.n T (M.run deck T D) :=
  program_runOf h.created h.loaded F hs Ds h.started h.threads h.size

/-- C70: there is exactly one solution of the described upwind discretisation on the serial mesh, and any
sweep of the program leaves its values in the cells. -/
theorem program_sweep (h : Ready val deck m M P T D) (F : Fits val m) (hs : Sensible val deck m)
    (Ds : Describes val deck m p sS) {psi : Nat → Psi ℝ} (hp : Swept M deck T D psi) :
    ∃ psiS : Psi ℝ, p.DG m psiS ∧
      (∀ psi', p.DG m psi' → ∀ c < m.numCells, ∀ a < p.nAngles, ∀ g < p.nGroups, ∀ v, psi' g v a c = psiS g v a c) ∧
      ∀ r < M.n, ∀ i c, (T r).getLGCell i = some c → ∀ g < p.nGroups, ∀ v, ∀ a < p.nAngles,
        psi r g v a i = psiS g v a c := by
  obtain ⟨s, h1, h2, h3⟩ := hp
  obtain ⟨psiS, d1, d2, d3⟩ := sweep_serial h.created h.ranks h.loaded (describes_physical h.created.tets F hs Ds)
    (h.runOf F hs Ds) h1 h2
  refine ⟨psiS, d1, d3, fun r hr i c hc g hg v a ha => ?_⟩
  obtain ⟨psi1, b1, k1, k2⟩ := d2 r hr
  obtain ⟨b, k⟩ := h3 r hr
  rw [k1, Option.some.injEq, Prod.mk.injEq] at k
  rw [← k.1, k2 i c hc]

/-- C70: two runs on different partitions, ranks, threads, batches, protocols leave the same flux in each
cell of the serial mesh. -/
theorem program_independent (h : Ready val deck m M P T D) (h' : Ready val deck m M' P' T' D') (F : Fits val m)
    (hs : Sensible val deck m) {psi psi' : Nat → Psi ℝ} (hp : Swept M deck T D psi) (hp' : Swept M' deck T' D' psi')
    {r i r' i' c : Nat} (hr : r < M.n) (hr' : r' < M'.n) (hc : (T r).getLGCell i = some c)
    (hc' : (T' r').getLGCell i' = some c) :
    ∀ g < deck.nGroups, ∀ v, ∀ a < deck.dirs.length, psi r g v a i = psi' r' g v a i' := by
  obtain ⟨p, sS, Ds⟩ := describes_exists h.created.tets F hs
  obtain ⟨S, d1, d2, d3⟩ := program_sweep h F hs Ds hp
  obtain ⟨S', e1, e2, e3⟩ := program_sweep h' F hs Ds hp'
  rw [← Ds.groups, ← Ds.angles]
  intro g hg v a ha
  rw [d3 r hr i c hc g hg v a ha, e3 r' hr' i' c hc' g hg v a ha]
  exact e2 S d1 c (isCell_lg h.created h.loaded (lg_isCell h.created h.loaded hr hc)).2.2.2 a ha g hg v

/-- C70: if the directions have no cycles and no parallel faces, the sweep of the program (two-sided
protocol) does run to the end. -/
theorem program_finishes (h : Ready val deck m M P T D) (F : Fits val m) (hs : Sensible val deck m)
    (Ds : Describes val deck m p sS) (hac : p.Acyclic m) (htr : p.Transversal m) (hb : 0 < M.batch)
    (hproto : M.proto = .tycho) : ∃ psi, Swept M deck T D psi := by
  have hph := describes_physical h.created.tets F hs Ds
  obtain ⟨s, h1, h2⟩ := partitioned_sweep_finishes h.created h.ranks h.loaded hph (h.runOf F hs Ds) hac htr hb hproto
  obtain ⟨psiS, -, d2, -⟩ := sweep_serial h.created h.ranks h.loaded hph (h.runOf F hs Ds) h1 h2
  have : ∀ r, ∃ psi : Psi ℝ, r < M.n → ∃ bnd, (s.rank r).data = some (psi, bnd) := by
    intro r
    by_cases hr : r < M.n
    · obtain ⟨psi, b, k, -⟩ := d2 r hr
      exact ⟨psi, fun _ => ⟨b, k⟩⟩
    · exact ⟨fun _ _ _ _ => 0, fun h => absurd h hr⟩
  choose psi hpsi using this
  exact ⟨psi, s, h1, h2, hpsi⟩

/-- C70: any partition vector of a mesh of tetrahedra gives a program that starts. -/
theorem program_starts (ht : Tets m) (hf : m.numFaces ≤ 2 ^ 31) (hn : m.numNodes ≤ 2 ^ 31) (F : Fits val m)
    (hs : Sensible val deck m) (hpv : M.pv.length = m.numCells) (hpn : ∀ q ∈ M.pv, q < M.n) (hn31 : 3 + M.n < 2 ^ 31)
    (hth : 0 < M.threads) (hsz : deck.dirs.length * m.numCells < 2 ^ 64) :
    ∃ P T D, Ready val deck m M P T D := by
  obtain ⟨P, H⟩ := created_of ht hf hn hpv hpn hn31
  obtain ⟨T, L⟩ := load_succeeds val H
  obtain ⟨D, hD⟩ := started_exists H L F hs
  refine ⟨P, T, D, H, L, hD, by unfold uintMax; omega, hth, fun r hr => lt_of_le_of_lt ?_ hsz⟩
  refine Nat.mul_le_mul_left _ ?_
  have hl := (create_cells H.create).1
  have hp : P.parts[r]? = some P.parts[r] := List.getElem?_eq_getElem (by omega)
  obtain ⟨B, -, -, -, -, hN, -⟩ := loc_facts (x := ⟨r, 0, 0⟩) H L hp
  dsimp only at hN
  have h2 := ((create_cells H.create).2 _ _ hp).2
  have h3 := congrArg List.length h2
  rw [List.length_map] at h3
  rw [hN, h3]
  exact (List.length_filter_le _ _).trans (by simp)

/-- C70: with the quadrature of the program the directions are unit vectors, so `Sensible` asks nothing of
them. -/
theorem quadrature_sensible {N : Nat} (hq : Verif.Quadrature.quadrature N = some deck.dirs)
    (h1 : ∀ d ∈ m.cells, d.material = 1 ∨ d.material = 2) (h2 : ∀ c < m.numCells, ∀ v, radius (pts val m c v) ≠ 0)
    (h3 : 0 ≤ deck.sigmaT1) (h4 : 0 ≤ deck.sigmaT2) : Sensible val deck m :=
  ⟨h1, h2, h3, h4, fun d hd => (Verif.Quadrature.unit_positive hq d hd).1⟩

open Verif.PsiFile Verif.Storage in
/-- C70: the output files of the two runs are equal byte by byte. -/
theorem program_output (h : Ready val deck m M P T D) (h' : Ready val deck m M' P' T' D') (F : Fits val m)
    (hs : Sensible val deck m) {psi psi' : Nat → Psi ℝ} (hp : Swept M deck T D psi) (hp' : Swept M' deck T' D' psi')
    (h0 : 0 < M.n) (h0' : 0 < M'.n) (hng : 0 < deck.nGroups) (hna : 0 < deck.dirs.length)
    (hblock : deck.dirs.length * 4 * deck.nGroups < 2 ^ 31)
    (hfile : 64 + 8 * (m.numCells * (deck.dirs.length * 4 * deck.nGroups)) ≤ 2 ^ 63) {bits : ℝ → Nat}
    {A A' : Nat → PsiData Nat} (hA : Stored bits M.n T deck.nGroups deck.dirs.length psi A)
    (hA' : Stored bits M'.n T' deck.nGroups deck.dirs.length psi' A') {f f' : Verif.PsiFile.File}
    (hw : Written M.n A (lgOf T) f) (hw' : Written M'.n A' (lgOf T') f') : f = f' := by
  obtain ⟨p, sS, Ds⟩ := describes_exists h.created.tets F hs
  obtain ⟨S, d1, d2, d3⟩ := program_sweep h F hs Ds hp
  obtain ⟨S', e1, e2, e3⟩ := program_sweep h' F hs Ds hp'
  rw [Ds.groups, Ds.angles] at d3 e3 e2
  refine file_of_cells h.created h.loaded h0 h'.created h'.loaded h0' hng hna hblock hfile hA hA' (psiS := S') ?_ ?_ hw hw'
  · intro r hr i c hc g hg v a ha
    rw [d3 r hr i c hc g hg v a ha]
    exact e2 S d1 c (isCell_lg h.created h.loaded (lg_isCell h.created h.loaded hr hc)).2.2.2 a ha g hg v
  · intro r hr i c hc g hg v a ha
    exact e3 r hr i c hc g hg v a ha

end Verif.Program
