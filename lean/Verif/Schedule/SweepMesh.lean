import Verif.Schedule.SweepMain
import Verif.TychoMesh.Link2

/-!
# Scheduled sweeps on loaded meshes (C65)

The conditions of the theorems on scheduled sweeps, from the serial mesh.
-/
set_option linter.unusedSectionVars false
set_option linter.unusedVariables false

namespace Verif.Schedule
open Verif.MeshFile Verif.Traverse Verif.Transport Verif.TychoMesh

variable {V : Type} [LinearOrder V] {val : Nat → V} {m : SerialMesh} {pv : List Nat} {n : Nat}
  {P : ParallelMesh} {T : Nat → Mesh}
variable {K : Type} [Field K] [LinearOrder K] [IsStrictOrderedRing K] {p : Problem K} {R : SweepRun K}

/-- No direction is within the tolerance of being parallel to an interior face of the serial mesh. -/
def AwayFrom (p : Problem K) (m : SerialMesh) (tol : K) : Prop :=
  ∀ c f c' f', Across m c f c' f' → ∀ a < p.nAngles, tol < |p.omegaDotN a c f|

theorem run_apart (H : Created m pv n P) (hn : n < uintMax) (L : Loaded val P T) (hR : RunOf p n T R)
    (S : Sweeping K) (hS : S.run = R) : S.Apart := by
  subst hS
  rw [Sweeping.apart_iff]
  intro r hr c hc c' hc' f f' h1 h2 hs
  have hr' : r < n := by rw [← hR.ranks]; exact hr
  have ex : ∀ c < S.run.nCells r, ∀ f, (S.run.view r).adjCell c f = none →
      ∃ s, Exists P ⟨r, c, f⟩ ∧ Bdry m P ⟨r, c, f⟩ ∧ (T r).getSide c f = some s ∧ s < (T r).nSides := by
    intro c hc f h
    have hc : c < (T r).nCells := by rw [← hR.cells r hr']; exact hc
    have hE : Exists P ⟨r, c, f⟩ := exists_of_lt H L hr' hc
    obtain ⟨c0, g, hat⟩ := exists_at H hE
    have hB : Bdry m P ⟨r, c, f⟩ := by
      rw [bdry_iff H L hE]
      have hadj := adjacency H L hE
      by_contra hno
      have : ∃ y, Mates m P ⟨r, c, f⟩ y ∧ y.rank = r := by
        by_contra hno'
        push Not at hno'
        exact hno ((bdry_iff H L hE).1 fun y hy => hno' y hy)
      obtain ⟨y, hy, hyr⟩ := this
      obtain ⟨a1, -⟩ := hadj.1 y hy hyr
      have e := hR.adjCell r hr' c hc f _ a1
      rw [h] at e
      have hy2 := (lt_of_exists H L (mates_exists hy).2).2
      have : y.cell ≠ uintMax := by
        intro e'
        obtain ⟨part, cell, hp, hcc⟩ := (mates_exists hy).2
        have q1 := (List.getElem?_eq_some_iff.1 hcc).1
        have q2 := ((create_cells H.create).2 _ _ hp).1
        have q3 := part_le H hp
        have q4 := H.tets.fit
        have : invalid = uintMax := rfl
        omega
      simp [toNone, this] at e
    obtain ⟨s, k1, k2, -⟩ := (sides H L hat).1 hB
    exact ⟨s, hE, hB, k1, k2⟩
  obtain ⟨s, e1, e2, e3, e4⟩ := ex c hc f h1
  obtain ⟨s', e1', e2', e3', e4'⟩ := ex c' hc' f' h2
  have hcT : c < (T r).nCells := by rw [← hR.cells r hr']; exact hc
  have hcT' : c' < (T r).nCells := by rw [← hR.cells r hr']; exact hc'
  rw [hR.side r hr' c hcT f _ e3, hR.side r hr' c' hcT' f' _ e3'] at hs
  subst hs
  have hl := (create_cells H.create).1
  obtain ⟨z, -, hz⟩ := sides_onto H L (r := r) (by omega) e4
  have := (hz ⟨r, c, f⟩ rfl e1 e2 e3).trans (hz ⟨r, c', f'⟩ rfl e1' e2' e3').symm
  simp only [Loc.mk.injEq, true_and] at this
  exact this

theorem run_across (H : Created m pv n P) (L : Loaded val P T) (hR : RunOf p n T R)
    {x y : Verif.Traverse.Loc} {a : Nat} (hy : mateOf m P x = some y) (ha : a < R.nAngles) :
    ∃ c c', Across m c x.face c' y.face ∧
      (R.view x.rank).omegaDotN a x.cell x.face = p.omegaDotN a c x.face ∧
      (R.view y.rank).omegaDotN a y.cell y.face = p.omegaDotN a c' y.face := by
  have hm := (mateOf_iff H).1 hy
  obtain ⟨h1, h2⟩ := lt_of_exists H L (mates_exists hm).1
  obtain ⟨h3, h4⟩ := lt_of_exists H L (mates_exists hm).2
  obtain ⟨c, hc⟩ := isCell_of_lt H L h1 h2
  obtain ⟨c', hc'⟩ := isCell_of_lt H L h3 h4
  refine ⟨c, c', (mates_across hc hc').1 hm, ?_, ?_⟩
  · rw [hR.omega _ h1 _ _ (isCell_lg H L hc).1 a (by rw [← hR.angles]; exact ha)]
  · rw [hR.omega _ h3 _ _ (isCell_lg H L hc').1 a (by rw [← hR.angles]; exact ha)]

theorem run_opposite (H : Created m pv n P) (L : Loaded val P T) (hph : p.Physical m) (hR : RunOf p n T R)
    {x y : Verif.Traverse.Loc} {a : Nat} (hy : mateOf m P x = some y) (ha : a < R.nAngles) :
    (R.view y.rank).omegaDotN a y.cell y.face = - (R.view x.rank).omegaDotN a x.cell x.face := by
  obtain ⟨c, c', h1, h2, h3⟩ := run_across H L hR hy ha
  rw [h2, h3]
  exact hph.opposite _ _ _ _ h1 a (by rw [← hR.angles]; exact ha)

theorem run_clear (H : Created m pv n P) (L : Loaded val P T) (hph : p.Physical m) (hR : RunOf p n T R)
    {tol : K} (h0 : 0 ≤ tol) (hw : AwayFrom p m tol) (S : Sweeping K) (hS : S.run = R) :
    S.Clear (mateOf m P) tol := by
  subst hS
  refine ⟨h0, fun x y a _ hy ha => run_opposite H L hph hR hy ha, ?_⟩
  intro x y a _ hy ha
  obtain ⟨c, c', h1, h2, h3⟩ := run_across H L hR hy ha
  have := hw _ _ _ _ h1 a (by rw [← hR.angles]; exact ha)
  rw [h2]
  rcases lt_abs.1 this with h | h
  · exact .inl h
  · exact .inr (by linarith)

theorem run_acyclic (H : Created m pv n P) (L : Loaded val P T) (hph : p.Physical m) (hR : RunOf p n T R)
    (hac : p.Acyclic m) (htr : p.Transversal m) : Verif.Traverse.Acyclic R.cfg (mateOf m P) := by
  intro a ha t ht
  refine hac a (by rw [← hR.angles]; exact ha) (((T t.1).getLGCell t.2).getD 0) ?_
  refine ht.lift (fun t : Nat × Nat => ((T t.1).getLGCell t.2).getD 0) ?_
  rintro _ _ ⟨x, y, hx, hy, hneed, rfl, rfl⟩
  have hm := (mateOf_iff H).1 hy
  obtain ⟨h1, h2⟩ := lt_of_exists H L (mates_exists hm).1
  obtain ⟨h3, h4⟩ := lt_of_exists H L (mates_exists hm).2
  obtain ⟨c, hc⟩ := isCell_of_lt H L h1 h2
  obtain ⟨c', hc'⟩ := isCell_of_lt H L h3 h4
  have hx := (mates_across hc hc').1 hm
  have ha' : a < p.nAngles := by rw [← hR.angles]; exact ha
  have hopp := hph.opposite _ _ _ _ hx a ha'
  have hne := htr _ _ _ _ hx a ha'
  have e1 : (R.view x.rank).omegaDotN a x.cell x.face = p.omegaDotN a c x.face := by
    rw [hR.omega _ h1 _ _ (isCell_lg H L hc).1 a (by rw [← hR.angles]; exact ha)]
  show ∃ f f', Across m (((T y.rank).getLGCell y.cell).getD 0) f (((T x.rank).getLGCell x.cell).getD 0) f' ∧
    0 < p.omegaDotN a (((T y.rank).getLGCell y.cell).getD 0) f
  rw [(isCell_lg H L hc).1, (isCell_lg H L hc').1]
  refine ⟨y.face, x.face, ⟨hx.1.symm, hx.2.imp fun g h => ⟨h.2, h.1⟩⟩, ?_⟩
  show 0 < p.omegaDotN a c' y.face
  have hin := hneed.1
  have : ¬ (R.view x.rank).isOutgoing a x.cell x.face := by
    change (!decide ((R.view x.rank).isOutgoing a x.cell x.face)) = true at hin
    simpa using hin
  unfold MeshView.isOutgoing at this
  rw [e1] at this
  have : p.omegaDotN a c x.face < 0 := lt_of_le_of_ne (not_lt.1 this) hne
  rw [hopp]
  linarith

/-- C65: on any partition of any serial mesh, whatever the angle groups, the step size, the priorities,
the variant and the interleaving, a sweep along the schedules returns, and leaves in the flux arrays the
only solution of the upwind discretisation on the serial mesh; and so does every other return. -/
theorem scheduled_serial_partial (H : Created m pv n P) (hn : n < uintMax) (L : Loaded val P T)
    (hph : p.Physical m) (hR : RunOf p n T R) (hac : p.Acyclic m) {tol : K} (h0 : 0 ≤ tol)
    (hw : AwayFrom p m tol) {S : Sweeping K} (hS : S.run = R) {maxCells : Nat}
    {prio : Nat → Nat → Nat → Nat → Nat} (B : S.Built maxCells tol prio) :
    ∃ psiS : Psi K, p.DG m psiS ∧
      (∀ psi', p.DG m psi' → ∀ c < m.numCells, ∀ a < p.nAngles, ∀ g < p.nGroups, ∀ v,
        psi' g v a c = psiS g v a c) ∧
      (∃ s : SweepState S.core, Swept s ∧ s.Over) ∧
      ∀ s : SweepState S.core, Swept s → s.Over → ∀ r < n, ∃ psi bnd, (s.rank r).data = some (psi, bnd) ∧
        ∀ i c, (T r).getLGCell i = some c → ∀ g < p.nGroups, ∀ v, ∀ a < p.nAngles,
          psi g v a i = psiS g v a c := by
  subst hS
  have hL := run_linked H hn L hph hR
  have hN := run_nodes H L hR
  have hP := run_physical H L hph hR
  have hA := run_apart H hn L hR S rfl
  have hC := run_clear H L hph hR h0 hw S rfl
  have htr : p.Transversal m := by
    intro c f c' f' h a ha e
    have := hw c f c' f' h a ha
    rw [e, abs_zero] at this
    exact absurd this (not_lt.2 h0)
  have hAc := run_acyclic H L hph hR hac htr
  obtain ⟨-, -, s0, hs0, ho0⟩ := scheduled_sweep_returns_partial B hC hL hA hP hR.comm hAc
  obtain ⟨psi, -, hdg, hun⟩ := scheduled_sweep_solves_partial B hC hL hA hP hR.comm hAc hN hs0 ho0
  have hloc : ∀ c, ∃ x : Nat × Nat, c < m.numCells → IsCell P x.1 x.2 c := by
    intro c
    by_cases hc : c < m.numCells
    · obtain ⟨r, i, hi⟩ := isCell_exists H hc
      exact ⟨(r, i), fun _ => hi⟩
    · exact ⟨(0, 0), fun h => absurd h hc⟩
  choose loc hloc using hloc
  let psiS : Psi K := fun g v a c => psi (loc c).1 g v a (loc c).2
  have hS : ∀ r i c, IsCell P r i c → ∀ g v a, psi r g v a i = psiS g v a c := by
    intro r i c hi g v a
    obtain ⟨e1, e2⟩ := isCell_unique H hi (hloc c (isCell_lg H L hi).2.2.2)
    show _ = psi (loc c).1 g v a (loc c).2
    rw [← e1, ← e2]
  refine ⟨psiS, (globalDG_iff H L hR hS).1 hdg, ?_, ⟨s0, hs0, ho0⟩, ?_⟩
  · intro psi' hdg' c hc a ha g hg v
    have hi := hloc c hc
    obtain ⟨-, h2, h3, -⟩ := isCell_lg H L hi
    let psiP : Nat → Psi K := fun r g v a i => psi' g v a (((T r).getLGCell i).getD 0)
    have hP' : ∀ r i c, IsCell P r i c → ∀ g v a, psiP r g v a i = psi' g v a c := by
      intro r i c hi g v a
      show psi' g v a (((T r).getLGCell i).getD 0) = _
      rw [(isCell_lg H L hi).1]; rfl
    have hG := (globalDG_iff H L hR hP').2 hdg'
    have := hun psiP hG (loc c).1 (loc c).2 a g v (by rw [hR.ranks]; exact h2)
      (by rw [hR.cells _ h2]; exact h3) (by rw [hR.angles]; exact ha) (by rw [hR.groups]; exact hg)
    rw [← hS _ _ _ hi, this, hP' _ _ _ hi]
  · intro s hs ho r hr
    obtain ⟨psi2, hd2, hdg2, -⟩ := scheduled_sweep_solves_partial B hC hL hA hP hR.comm hAc hN hs ho
    obtain ⟨b, hb⟩ := hd2 r (by rw [hR.ranks]; exact hr)
    refine ⟨psi2 r, b, hb, fun i c hic g hg v a ha => ?_⟩
    have hi := lg_isCell H L hr hic
    have h3 := (isCell_lg H L hi).2.2.1
    rw [← hS _ _ _ hi]
    exact (hun psi2 hdg2 r i a g v (by rw [hR.ranks]; exact hr) (by rw [hR.cells _ hr]; exact h3)
      (by rw [hR.angles]; exact ha) (by rw [hR.groups]; exact hg)).symm

/-- C65: two scheduled sweeps on different partitions of one serial mesh, with different angle groups,
step sizes, priorities, tolerances and variants, leave the same flux in every cell. -/
theorem scheduled_partition_independent_partial {V' : Type} [LinearOrder V'] {val' : Nat → V'} {pv' : List Nat}
    {n' : Nat} {P' : ParallelMesh} {T' : Nat → Mesh}
    (hph : p.Physical m) (hac : p.Acyclic m) {S S' : Sweeping K}
    (H : Created m pv n P) (hn : n < uintMax) (L : Loaded val P T) (hR : RunOf p n T S.run)
    (H' : Created m pv' n' P') (hn' : n' < uintMax) (L' : Loaded val' P' T') (hR' : RunOf p n' T' S'.run)
    {tol tol' : K} (h0 : 0 ≤ tol) (hw : AwayFrom p m tol) (h0' : 0 ≤ tol') (hw' : AwayFrom p m tol')
    {maxCells maxCells' : Nat} {prio prio' : Nat → Nat → Nat → Nat → Nat}
    (B : S.Built maxCells tol prio) (B' : S'.Built maxCells' tol' prio')
    {s : SweepState S.core} (hs : Swept s) (ho : s.Over) {s' : SweepState S'.core} (hs' : Swept s') (ho' : s'.Over)
    {r i r' i' c : Nat} (hr : r < n) (hr' : r' < n') (hc : (T r).getLGCell i = some c)
    (hc' : (T' r').getLGCell i' = some c) :
    ∃ psi bnd psi' bnd', (s.rank r).data = some (psi, bnd) ∧ (s'.rank r').data = some (psi', bnd') ∧
      ∀ g < p.nGroups, ∀ a < p.nAngles, ∀ v, psi g v a i = psi' g v a i' := by
  obtain ⟨psiS, d1, d2, -, d3⟩ := scheduled_serial_partial H hn L hph hR hac h0 hw rfl B
  obtain ⟨psiS', e1, e2, -, e3⟩ := scheduled_serial_partial H' hn' L' hph hR' hac h0' hw' rfl B'
  obtain ⟨psi, bnd, a1, a2⟩ := d3 s hs ho r hr
  obtain ⟨psi', bnd', b1, b2⟩ := e3 s' hs' ho' r' hr'
  refine ⟨psi, bnd, psi', bnd', a1, b1, fun g hg a ha v => ?_⟩
  rw [a2 i c hc g hg v a ha, b2 i' c hc' g hg v a ha]
  exact e2 psiS d1 c (isCell_lg H L (lg_isCell H L hr hc)).2.2.2 a ha g hg v

/-- C65: the conditions hold for `exMesh` on two ranks, with the tolerance of the code. -/
theorem exProblem_away : AwayFrom exProblem exMesh (1 / 10 ^ 10) := by
  intro c f c' f' h a _
  obtain ⟨rfl, -, -, -⟩ := exMesh_across h
  by_cases hc : c = 0 <;> simp [exProblem, hc] <;> norm_num

example : ∃ (P : ParallelMesh) (T : Nat → Mesh) (S : Sweeping ℚ) (s : SweepState S.core),
    Created exMesh [1, 0] 2 P ∧ Loaded (id : Nat → Nat) P T ∧ RunOf exProblem 2 T S.run ∧
    S.Built 3 (1 / 10 ^ 10) (fun _ _ _ _ => 0) ∧ Swept s ∧ s.Over := by
  obtain ⟨P, H⟩ := created_of exMesh_tets (by decide) (by decide) (pv := [1, 0]) (n := 2) rfl (by decide) (by decide)
  obtain ⟨T, L⟩ := load_succeeds (id : Nat → Nat) H
  have small : ∀ r < 2, exProblem.nAngles * (T r).nCells < 2 ^ 64 := by
    intro r hr
    have hl := (create_cells H.create).1
    have hp : P.parts[r]? = some P.parts[r] := List.getElem?_eq_getElem (by omega)
    have h1 := (loaded_cells H L hp).1
    have h2 := part_le H hp
    have h3 := ((create_cells H.create).2 r _ hp).1
    have : exMesh.numCells = 2 := rfl
    have : exProblem.nAngles = 1 := rfl
    rw [this]
    omega
  have hR := runOn_of (p := exProblem) (T := T) (threads := 1) (batch := 1) (proto := .tycho) (rv := true) (gauss := .original)
    (prio := fun _ _ _ => 0) (psi0 := fun _ _ _ _ _ => 7) (bound0 := fun _ _ _ _ _ => 3) (scratch := fun _ _ => 0) (by decide) small
  have h0 : (0 : ℚ) ≤ 1 / 10 ^ 10 := by norm_num
  have hL := run_linked H (by decide) L exProblem_physical hR
  obtain ⟨S, e1, e2, e3, B⟩ := built_exists _ .tycho2 1 3 (1 / 10 ^ 10) (fun _ _ _ _ => 0) (by decide) (by decide) hL h0
    (fun x y a _ => run_opposite H L exProblem_physical hR)
  rw [← e1] at hR
  obtain ⟨psiS, -, -, ⟨s, h1, h2⟩, -⟩ := scheduled_serial_partial H (by decide) L exProblem_physical hR
    exProblem_acyclic h0 exProblem_away rfl B
  exact ⟨P, T, S, s, H, L, hR, B, h1, h2⟩

end Verif.Schedule
