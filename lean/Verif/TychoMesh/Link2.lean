import Verif.TychoMesh.Link

/-!
# Runs exist and finish (C55)
-/
set_option linter.unusedSectionVars false
namespace Verif.TychoMesh

open Verif.MeshFile Verif.Traverse
open Verif.Transport hiding exMesh

variable {S : Type} [LinearOrder S] {val : Nat → S} {m : SerialMesh} {pv : List Nat} {n : Nat} {P : ParallelMesh} {T : Nat → Mesh}
variable {K : Type} [Field K] [LinearOrder K] [IsStrictOrderedRing K] {p : Problem K} {R : SweepRun K}

/-- The sweep of a problem on loaded parts. -/
def runOn (p : Problem K) (n : Nat) (T : Nat → Mesh) (threads batch : Nat) (proto : Protocol) (rv : Bool) (gauss : GaussElim)
    (prio : Nat → Nat → Nat → Nat) (psi0 : Nat → Psi K) (bound0 : Nat → Bound K) (scratch : Fin 4 → Nat → K) : SweepRun K where
  nRanks := n
  nAngles := p.nAngles
  nThreads := threads
  maxCompute := batch
  nGroups := p.nGroups
  doComm := true
  protocol := proto
  rendezvous := rv
  gauss := gauss
  view r :=
    { adjCell := fun c f => ((T r).getAdjCell c f).bind toNone
      adjRank := fun c f => ((T r).getAdjRank c f).bind toNone
      side := fun c f => ((T r).getSide c f).getD 0
      neighborVrtx := fun c f k => ((T r).getNeighborVrtx c f k).getD 0
      cellToFaceVrtx := fun c f v => ((T r).getCellToFaceVrtx c f v).getD 0
      omegaDotN := fun a i => p.omegaDotN a (((T r).getLGCell i).getD 0)
      cellVolume := fun i => p.volume (((T r).getLGCell i).getD 0)
      faceArea := fun i => p.area (((T r).getLGCell i).getD 0) }
  nCells r := (T r).nCells
  lgSide r s := ((T r).getLGSide s).getD 0
  glSide r g := ((T r).getGLSide g).getD 0
  sideCell r s := ((T r).getSideCell s).getD 0
  faceToCellVrtx r c f k := ((T r).getFaceToCellVrtx c f k).getD 0
  sigmaT r i := p.sigmaT (((T r).getLGCell i).getD 0)
  source r g v a i := p.source g v a (((T r).getLGCell i).getD 0)
  priority := prio
  psi0 := psi0
  bound0 := bound0
  scratch := scratch

theorem runOn_of {threads batch : Nat} {proto : Protocol} {rv : Bool} {gauss : GaussElim} {prio : Nat → Nat → Nat → Nat}
    {psi0 : Nat → Psi K} {bound0 : Nat → Bound K} {scratch : Fin 4 → Nat → K} (ht : 0 < threads)
    (hs : ∀ r < n, p.nAngles * (T r).nCells < 2 ^ 64) :
    RunOf p n T (runOn p n T threads batch proto rv gauss prio psi0 bound0 scratch) := by
  constructor
  case ranks => rfl
  case angles => rfl
  case groups => rfl
  case comm => rfl
  case threads => exact ht
  case size => exact hs
  case cells => intro r _; rfl
  all_goals
    intros
    simp_all [runOn]

/-- The upwind relation between the cells of the serial mesh has no cycle. -/
def Problem.Acyclic (p : Problem K) (m : SerialMesh) : Prop :=
  ∀ a < p.nAngles, ∀ c, ¬ Relation.TransGen (fun c c' => ∃ f f', Across m c f c' f' ∧ 0 < p.omegaDotN a c f) c c

/-- No interior face is parallel to a direction. -/
def Problem.Transversal (p : Problem K) (m : SerialMesh) : Prop :=
  ∀ c f c' f', Across m c f c' f' → ∀ a < p.nAngles, p.omegaDotN a c f ≠ 0

theorem run_info (H : Created m pv n P) (L : Loaded val P T) (hph : p.Physical m) (hR : RunOf p n T R) (htr : p.Transversal m)
    {x y : Loc} {a : Nat} (hy : mateOf m P x = some y) (ha : a < R.nAngles) :
    ∃ c c', Across m c x.face c' y.face ∧ IsCell P x.rank x.cell c ∧ IsCell P y.rank y.cell c' ∧
      (R.view x.rank).omegaDotN a x.cell x.face = p.omegaDotN a c x.face ∧
      (R.view y.rank).omegaDotN a y.cell y.face = p.omegaDotN a c' y.face ∧
      p.omegaDotN a c' y.face = - p.omegaDotN a c x.face ∧ p.omegaDotN a c x.face ≠ 0 := by
  have hm := (mateOf_iff H).1 hy
  obtain ⟨h1, h2⟩ := lt_of_exists H L (mates_exists hm).1
  obtain ⟨h3, h4⟩ := lt_of_exists H L (mates_exists hm).2
  obtain ⟨c, hc⟩ := isCell_of_lt H L h1 h2
  obtain ⟨c', hc'⟩ := isCell_of_lt H L h3 h4
  have hx := (mates_across hc hc').1 hm
  refine ⟨c, c', hx, hc, hc', ?_, ?_, hph.opposite _ _ _ _ hx a (by rw [← hR.angles]; exact ha), htr _ _ _ _ hx a (by rw [← hR.angles]; exact ha)⟩
  · rw [hR.omega _ h1 _ _ (isCell_lg H L hc).1 a (by rw [← hR.angles]; exact ha)]
  · rw [hR.omega _ h3 _ _ (isCell_lg H L hc').1 a (by rw [← hR.angles]; exact ha)]

theorem run_up (H : Created m pv n P) (L : Loaded val P T) (hph : p.Physical m) (hR : RunOf p n T R) (htr : p.Transversal m)
    {x y : Loc} {a : Nat} (hy : mateOf m P x = some y) (ha : a < R.nAngles)
    (hin : ¬ (R.view x.rank).isOutgoing a x.cell x.face) : 0 < (R.view y.rank).omegaDotN a y.cell y.face := by
  obtain ⟨c, c', -, -, -, e1, e2, e3, e4⟩ := run_info H L hph hR htr hy ha
  rw [e2, e3]
  unfold MeshView.isOutgoing at hin
  rw [e1] at hin
  have : p.omegaDotN a c x.face < 0 := lt_of_le_of_ne (not_lt.1 hin) e4
  linarith

theorem not_out {x : Loc} {a : Nat} (hin : R.cfg.inDir x.rank a x.cell x.face = true) :
    ¬ (R.view x.rank).isOutgoing a x.cell x.face := by
  change (!decide ((R.view x.rank).isOutgoing a x.cell x.face)) = true at hin
  simpa using hin

/-- The faces of the loaded parts are crossed by every direction. -/
theorem run_crossed (H : Created m pv n P) (L : Loaded val P T) (hph : p.Physical m) (hR : RunOf p n T R)
    (htr : p.Transversal m) : Crossed R.cfg (mateOf m P) := by
  intro x y a hx hy ha hin
  have hpos := run_up H L hph hR htr hy ha (not_out hin)
  have : (R.view y.rank).isOutgoing a y.cell y.face := hpos
  show (if decide ((R.view y.rank).isOutgoing a y.cell y.face) = true then _ else _) = true
  simp [this, SweepRun.cfg]

/-- An upwind step on the loaded parts is one on the serial mesh. -/
theorem run_step (H : Created m pv n P) (L : Loaded val P T) (hph : p.Physical m) (hR : RunOf p n T R) (htr : p.Transversal m)
    {x y : Loc} {a : Nat} (hy : mateOf m P x = some y) (ha : a < R.nAngles)
    (hin : ¬ (R.view x.rank).isOutgoing a x.cell x.face) :
    ∃ f f', Across m (((T y.rank).getLGCell y.cell).getD 0) f (((T x.rank).getLGCell x.cell).getD 0) f' ∧
      0 < p.omegaDotN a (((T y.rank).getLGCell y.cell).getD 0) f := by
  obtain ⟨c, c', hac, hc, hc', e1, e2, e3, e4⟩ := run_info H L hph hR htr hy ha
  rw [(isCell_lg H L hc).1, (isCell_lg H L hc').1]
  refine ⟨y.face, x.face, ⟨hac.1.symm, hac.2.imp fun g h => ⟨h.2, h.1⟩⟩, ?_⟩
  show 0 < p.omegaDotN a c' y.face
  rw [← e2]
  exact run_up H L hph hR htr hy ha hin

/-- No cell of the loaded parts waits for itself. -/
theorem run_acyclic (H : Created m pv n P) (L : Loaded val P T) (hph : p.Physical m) (hR : RunOf p n T R)
    (hac : p.Acyclic m) (htr : p.Transversal m) : Verif.Traverse.Acyclic R.cfg (mateOf m P) := by
  intro a ha t ht
  refine hac a (by rw [← hR.angles]; exact ha) (((T t.1).getLGCell t.2).getD 0) ?_
  refine ht.lift (fun t : Nat × Nat => ((T t.1).getLGCell t.2).getD 0) ?_
  rintro _ _ ⟨x, y, hx, hy, hneed, rfl, rfl⟩
  exact run_step H L hph hR htr hy ha (not_out hneed.1)

/-- C55: if moreover the directions have no cycles and no parallel faces on the serial mesh, then on
any partition, with any number of threads and batch size, the sweep (two-sided protocol) runs to the
end on all ranks. -/
theorem partitioned_sweep_finishes (H : Created m pv n P) (hn : n < uintMax) (L : Loaded val P T) (hph : p.Physical m)
    (hR : RunOf p n T R) (hac : p.Acyclic m) (htr : p.Transversal m) (hbatch : 0 < R.maxCompute) (hproto : R.protocol = .tycho) :
    ∃ s, Reachable R.cfg s ∧ ∀ r < n, (s.rank r).phase = .finished := by
  have hL := run_linked H hn L hph hR
  obtain ⟨k, s, h, hf⟩ := traverse_finishes hL hbatch (fun _ => hproto) (run_crossed H L hph hR htr)
    (run_acyclic H L hph hR hac htr)
  exact ⟨s, h.reachable .init, by intro r hr; exact hf r (by show r < R.nRanks; rw [hR.ranks]; exact hr)⟩

/-! ### Example: `exMesh` on one rank and on two -/

/-- One direction crossing from cell 0 to cell 1, areas and volumes 1, two groups. -/
def exProblem : Problem ℚ where
  nAngles := 1
  nGroups := 2
  volume _ := 1
  area _ _ := 1
  omegaDotN _ c f := if c = 0 then (if f = 0 then 1 else if f = 1 then -1 else 0) else (if f = 0 then -1 else if f = 1 then 1 else 0)
  sigmaT c := c
  source g v _ c := g + v + c

theorem exMesh_across {c c' : Nat} {f f' : Fin 4} (h : Across exMesh c f c' f') : f = 0 ∧ f' = 0 ∧ c < 2 ∧ c' < 2 := by
  obtain ⟨hne, g, ⟨d, e, k, h1, h2, h3, h4⟩, ⟨d', e', k', h1', h2', h3', h4'⟩⟩ := h
  rw [h3, Option.some.injEq] at h3'
  subst h3'
  have hc : c < 2 := (List.getElem?_eq_some_iff.1 h1).1
  have hc' : c' < 2 := (List.getElem?_eq_some_iff.1 h1').1
  obtain ⟨j, hj⟩ := exMesh_sound.lists c d k e h1 (by rw [h2]; exact h3)
  obtain ⟨j', hj'⟩ := exMesh_sound.lists c' d' k' e h1' (by rw [h2']; exact h3)
  have hg : g < 7 := (List.getElem?_eq_some_iff.1 h3).1
  have hg0 : g = 0 := by
    interval_cases g <;> simp [exMesh] at h3 <;> subst h3 <;>
      (revert hj hj'; interval_cases c <;> interval_cases c' <;> (try exact absurd rfl hne) <;> revert j j' <;> decide)
  subst hg0
  simp [exMesh] at h3
  subst h3
  refine ⟨?_, ?_, hc, hc'⟩
  · interval_cases c <;> simp [exMesh] at h1 <;> subst h1 <;> (revert h4; clear * -; revert f; decide)
  · interval_cases c' <;> simp [exMesh] at h1' <;> subst h1' <;> (revert h4'; clear * -; revert f'; decide)

theorem exProblem_physical : exProblem.Physical exMesh where
  volume _ _ := by show (0 : ℚ) < 1; norm_num
  area _ _ _ := by show (0 : ℚ) ≤ 1; norm_num
  sigma c _ := by show (0 : ℚ) ≤ c; exact Nat.cast_nonneg c
  closed c _ a _ := by
    rw [Fin.sum_univ_four]
    by_cases hc : c = 0 <;> simp [exProblem, hc]
  flow c _ a _ := by
    right
    refine ⟨0, ?_⟩
    by_cases hc : c = 0 <;> simp [exProblem, hc]
  opposite c f c' f' h a _ := by
    obtain ⟨rfl, rfl, h1, h2⟩ := exMesh_across h
    have hne := h.1
    interval_cases c <;> interval_cases c' <;> first | exact absurd rfl hne | simp [exProblem]

theorem exProblem_flow {c c' a : Nat} (h : ∃ f f', Across exMesh c f c' f' ∧ 0 < exProblem.omegaDotN a c f) : c < c' := by
  obtain ⟨f, f', h, hpos⟩ := h
  obtain ⟨rfl, rfl, h1, h2⟩ := exMesh_across h
  have hne := h.1
  by_cases hc : c = 0
  · omega
  · simp [exProblem, hc] at hpos
    linarith

theorem exProblem_acyclic : exProblem.Acyclic exMesh := by
  intro a _ c h
  have : ∀ {c c'}, Relation.TransGen (fun c c' => ∃ f f', Across exMesh c f c' f' ∧ 0 < exProblem.omegaDotN a c f) c c' → c < c' := by
    intro c c' h
    induction h with
    | single h => exact exProblem_flow h
    | tail _ h ih => exact lt_trans ih (exProblem_flow h)
  exact absurd (this h) (lt_irrefl _)

theorem exProblem_transversal : exProblem.Transversal exMesh := by
  intro c f c' f' h a _
  obtain ⟨rfl, -, -, -⟩ := exMesh_across h
  by_cases hc : c = 0 <;> simp [exProblem, hc]

/-- C55: the hypotheses of `partition_independent` hold for `exMesh` on one rank (with one thread) and
on two ranks (with three threads), and both sweeps finish. -/
theorem exMesh_runs : ∃ (P P' : ParallelMesh) (T T' : Nat → Mesh) (R R' : SweepRun ℚ) (s s' : State _ _),
    Created exMesh [0, 0] 1 P ∧ Created exMesh [1, 0] 2 P' ∧ Loaded (id : Nat → Nat) P T ∧ Loaded (id : Nat → Nat) P' T' ∧
    RunOf exProblem 1 T R ∧ RunOf exProblem 2 T' R' ∧ Reachable R.cfg s ∧ Reachable R'.cfg s' ∧
    (∀ r < 1, (s.rank r).phase = .finished) ∧ (∀ r < 2, (s'.rank r).phase = .finished) ∧
    (T 0).getLGCell 0 = some 0 ∧ (T' 1).getLGCell 0 = some 0 := by
  obtain ⟨P, H⟩ := created_of exMesh_tets (by decide) (by decide) (pv := [0, 0]) (n := 1) rfl (by decide) (by decide)
  obtain ⟨P', H'⟩ := created_of exMesh_tets (by decide) (by decide) (pv := [1, 0]) (n := 2) rfl (by decide) (by decide)
  obtain ⟨T, L⟩ := load_succeeds (id : Nat → Nat) H
  obtain ⟨T', L'⟩ := load_succeeds (id : Nat → Nat) H'
  have small : ∀ {pv : List Nat} {n : Nat} {P : ParallelMesh} {T : Nat → Mesh}, Created exMesh pv n P → Loaded (id : Nat → Nat) P T →
      ∀ r < n, exProblem.nAngles * (T r).nCells < 2 ^ 64 := by
    intro pv n P T H L r hr
    have hl := (create_cells H.create).1
    have hp : P.parts[r]? = some P.parts[r] := List.getElem?_eq_getElem (by omega)
    have h1 := (loaded_cells H L hp).1
    have h2 := part_le H hp
    have h3 := ((create_cells H.create).2 r _ hp).1
    have : exMesh.numCells = 2 := rfl
    have : exProblem.nAngles = 1 := rfl
    rw [this]
    omega
  have hR := runOn_of (p := exProblem) (T := T) (threads := 1) (batch := 1) (proto := .tycho) (rv := true) (gauss := .original)
    (prio := fun _ _ _ => 0) (psi0 := fun _ _ _ _ _ => 7) (bound0 := fun _ _ _ _ _ => 3) (scratch := fun _ _ => 0) (by decide) (small H L)
  have hR' := runOn_of (p := exProblem) (T := T') (threads := 3) (batch := 5) (proto := .tycho) (rv := false) (gauss := .original)
    (prio := fun _ _ _ => 0) (psi0 := fun _ _ _ _ _ => 7) (bound0 := fun _ _ _ _ _ => 3) (scratch := fun _ _ => 0) (by decide) (small H' L')
  obtain ⟨s, h1, h2⟩ := partitioned_sweep_finishes H (by decide) L exProblem_physical hR exProblem_acyclic exProblem_transversal
    (by show 0 < 1; decide) rfl
  obtain ⟨s', h1', h2'⟩ := partitioned_sweep_finishes H' (by decide) L' exProblem_physical hR' exProblem_acyclic exProblem_transversal
    (by show 0 < 5; decide) rfl
  refine ⟨P, P', T, T', _, _, s, s', H, H', L, L', hR, hR', h1, h1', h2, h2', ?_, ?_⟩
  · exact (isCell_lg H L (at_isCell (at_intro H (l := 0) (c := 0) (g := 0) (i := 0) (by decide) (by decide) rfl 0 rfl rfl (by decide)))).1
  · exact (isCell_lg H' L' (at_isCell (at_intro H' (r := 1) (i := 0) (l := 0) (c := 0) (g := 0) (by decide) (by decide) rfl 0 rfl rfl (by decide)))).1

end Verif.TychoMesh
