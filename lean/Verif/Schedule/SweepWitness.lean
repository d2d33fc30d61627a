import Verif.Schedule.SweepMain
import Mathlib.Tactic.Linarith

/-!
# Within the tolerance the sweep along schedules is wrong (C65)
-/
set_option linter.unusedSectionVars false
set_option linter.unusedVariables false

namespace Verif.Schedule
open List
open Verif.Transport Verif.Traverse

theorem compute_local {K : Type} [Field K] [LinearOrder K] [IsStrictOrderedRing K] {S : Sweeping K}
    (H : S.run.Physical) {r : Nat} {w : Work} (hr : r < S.run.nRanks) (hc : w.cell < S.run.nCells r)
    (ha : w.angle < S.run.nAngles) (psi : Psi K) (b : Bound K) :
    ∃ psi' b', S.compute r w (some (psi, b)) = some (psi', b') ∧
      (∀ g < S.run.nGroups, Spec.DG ((S.run.view r).cellVolume w.cell) (S.run.sigmaT r w.cell)
        (fun f => (S.run.view r).faceArea w.cell f * (S.run.view r).omegaDotN w.angle w.cell f)
        (fun f v => populateLocalPsiBound (S.run.view r) w.angle w.cell psi b
          ((S.run.view r).cellToFaceVrtx w.cell f v) f g)
        (fun v => S.run.source r g v w.angle w.cell) (fun v => psi' g v w.angle w.cell)) ∧
      ∀ g v a c, a ≠ w.angle → psi' g v a c = psi g v a c := by
  obtain ⟨psi', h1, h2⟩ := S.run.update_some H hr hc ha (psi, b)
  refine ⟨psi', S.updateBoundData r w.cell w.angle psi' b, ?_, ?_, ?_⟩
  · unfold Sweeping.compute
    rw [h2]; rfl
  · intro g hg
    unfold Transport.update at h1
    simp only [Option.bind_eq_bind] at h1
    obtain ⟨x, hx, hpsi⟩ := Option.bind_eq_some_iff.1 h1
    have hpsi := Option.some.inj hpsi
    have hdg := solveGroup_dg S.run.gauss (S.run.view r) w.cell w.angle _ _ _ _
      ((solve_groupwise S.run.gauss S.run.nGroups (S.run.view r) w.cell w.angle _ _ _ _ x hx).1 g hg)
    have e : (fun v => psi' g v w.angle w.cell) = fun v => x v g := by
      funext v
      rw [← hpsi]
      simp [hg]
    rw [e]
    exact hdg
  · intro g v a c hne
    unfold Transport.update at h1
    simp only [Option.bind_eq_bind] at h1
    obtain ⟨x, hx, hpsi⟩ := Option.bind_eq_some_iff.1 h1
    have hpsi := Option.some.inj hpsi
    rw [← hpsi]
    simp [hne]

/-- The plan for the two ranks of `exRun` with tolerance 1: all values `|Ω·n|` are at most 1, so no
dependency is seen. -/
def farPlan : Plan ℚ where
  nRanks := 2
  angles := Verif.Partition.groupAngles 2 1 0
  maxCellsPerStep := 2
  mesh := (exRun false .tycho false).mesh
  dot r a c f := ((exRun false .tycho false).view r).omegaDotN a c f
  tol := 1

theorem farPlan_schedule : ∃ s, Ordering farPlan.forward (fun _ _ _ => 0) s ∧ ∀ r < 2,
    s.workOrders r = [[⟨0, 0⟩, ⟨0, 1⟩]] ∧ s.sendProcs r = [[]] ∧ s.recvProcs r = [[]] := by
  have hq : ∀ r, r < 2 → (farPlan.forward.start r).queue = [(0, 0), (1, 0)] := by decide +kernel
  have hc : ∀ r, r < 2 → ∀ a, a < 2 → farPlan.forward.children r (a, 0) = [] := by decide +kernel
  have hT : ∀ r, r < 2 → TopoSort farPlan.forward r (fun _ _ => 0) (farPlan.forward.start r) []
      { farPlan.forward.start r with queue := [] } [⟨0, 0⟩, ⟨0, 1⟩] := by
    intro r hr
    refine .pop _ _ [] (0, 0) [(1, 0)] _ _ (hq r hr) (by decide) (fun _ _ => le_refl _) ?_
    rw [hc r hr 0 (by decide)]
    refine .pop _ _ [] (1, 0) [] _ _ rfl (by decide) (fun _ _ => le_refl _) ?_
    rw [hc r hr 1 (by decide)]
    exact .stop _ _ (.inl rfl)
  have hbox : ∀ r, r < 2 → ∀ q, farPlan.forward.outbox r [⟨0, 0⟩, ⟨0, 1⟩] q = [] := by
    intro r hr q
    have hch : ∀ w ∈ ([⟨0, 0⟩, ⟨0, 1⟩] : List Work), ∀ f : Face,
        farPlan.forward.free r (farPlan.forward.glAngle w.angle) w.cell f = false := by
      revert r; decide +kernel
    unfold Graph.outbox
    rw [List.flatMap_eq_nil_iff]
    intro w hw
    rw [List.filterMap_eq_nil_iff]
    intro f _
    rw [if_neg]
    rintro ⟨h, -⟩
    rw [hch w hw f] at h
    simp at h
  refine ⟨_, ⟨.step _ _ .init (.mk _ (fun r => { farPlan.forward.start r with queue := [] })
    (fun _ => [⟨0, 0⟩, ⟨0, 1⟩]) ?_ ?_), ?_⟩, ?_⟩
  · intro h
    have := h 0 (by decide)
    exact absurd this (by decide +kernel)
  · intro r hr
    exact hT r hr
  · intro r hr
    have hr : r < 2 := hr
    interval_cases r <;> decide +kernel
  · intro r hr
    refine ⟨rfl, ?_, ?_⟩
    · show [] ++ [_] = [[]]
      rw [List.nil_append, List.filter_eq_nil_iff.2]
      intro q _
      rw [hbox r hr q]
      simp
    · show [] ++ [_] = [[]]
      rw [List.nil_append, List.filter_eq_nil_iff.2]
      intro q hq
      have : q < 2 := (mem_neighbors.1 hq).1
      rw [hbox q this r]
      simp

/-- The rows of the system of one cell of `exRun` for vertices 1, 2 and 3. -/
theorem ex_rows {d0 d1 : ℚ} {area : Fin 4 → ℚ} {inc : Fin 4 → Fin 4 → ℚ} {x : Fin 4 → ℚ}
    (ha : area = fun f => if f = 0 then d0 else if f = 1 then d1 else 0)
    (h : Spec.DG 1 1 area inc (fun _ => 1) x) :
    let u := Spec.upwind area x inc
    (d1 / 12 * (2 * u 1 0 + u 1 2 + u 1 3) + d0 / 12 * (x 0 + x 1 + x 2 + x 3) +
      1 / 20 * (2 * x 0 + x 1 + x 2 + x 3) = 1 / 4) ∧
    (d0 / 12 * (2 * u 0 1 + u 0 2 + u 0 3) + d1 / 12 * (x 0 + x 1 + x 2 + x 3) +
      1 / 20 * (2 * x 1 + x 0 + x 2 + x 3) = 1 / 4) ∧
    (d0 / 12 * (2 * u 0 2 + u 0 1 + u 0 3) + d1 / 12 * (2 * u 1 2 + u 1 0 + u 1 3) +
      1 / 20 * (2 * x 2 + x 0 + x 1 + x 3) = 1 / 4) ∧
    (d0 / 12 * (2 * u 0 3 + u 0 1 + u 0 2) + d1 / 12 * (2 * u 1 3 + u 1 0 + u 1 2) +
      1 / 20 * (2 * x 3 + x 0 + x 1 + x 2) = 1 / 4) := by
  have e0 : Finset.univ.erase (0 : Fin 4) = {1, 2, 3} := by decide
  have e1 : Finset.univ.erase (1 : Fin 4) = {0, 2, 3} := by decide
  have e2 : Finset.univ.erase (2 : Fin 4) = {0, 1, 3} := by decide
  have e3 : Finset.univ.erase (3 : Fin 4) = {0, 1, 2} := by decide
  have e01 : (Finset.univ.erase (0 : Fin 4)).erase 1 = {2, 3} := by decide
  have e02 : (Finset.univ.erase (0 : Fin 4)).erase 2 = {1, 3} := by decide
  have e03 : (Finset.univ.erase (0 : Fin 4)).erase 3 = {1, 2} := by decide
  have e10 : (Finset.univ.erase (1 : Fin 4)).erase 0 = {2, 3} := by decide
  have e12 : (Finset.univ.erase (1 : Fin 4)).erase 2 = {0, 3} := by decide
  have e13 : (Finset.univ.erase (1 : Fin 4)).erase 3 = {0, 2} := by decide
  have h0 := h 0
  have h1 := h 1
  have h2 := h 2
  have h3 := h 3
  unfold Spec.DGRow at h0 h1 h2 h3
  intro u
  have a0 : area 0 = d0 := by rw [ha]; rfl
  have a1 : area 1 = d1 := by rw [ha]; rfl
  have a2 : area 2 = 0 := by rw [ha]; rfl
  have a3 : area 3 = 0 := by rw [ha]; rfl
  rw [e0] at h0
  rw [e1] at h1
  rw [e2] at h2
  rw [e3] at h3
  simp [a0, a1, a2, a3, e10, Fin.sum_univ_four] at h0
  simp [a0, a1, a2, a3, e01, Fin.sum_univ_four] at h1
  simp [a0, a1, a2, a3, e02, e12, Fin.sum_univ_four] at h2
  simp [a0, a1, a2, a3, e03, e13, Fin.sum_univ_four] at h3
  simp only [u]
  refine ⟨?_, ?_, ?_, ?_⟩ <;> linarith

/-- C65: without the condition on the tolerance the claim fails. The mesh of two cells on two ranks meets
all other conditions, but the values `|Ω·n| = 1` do not exceed the tolerance 1: the sweep returns with a
flux that does not solve the system, since no message is planned between the ranks. -/
theorem tolerance_breaks_sweep : ∃ (S : Sweeping ℚ) (s : SweepState S.core) (psi : Nat → Psi ℚ),
    S.run = exRun false .tycho false ∧ S.Built 2 1 (fun _ _ _ _ => 0) ∧ Swept s ∧ s.Over ∧
    (∀ r < 2, ∃ b, (s.rank r).data = some (psi r, b)) ∧ ¬ S.run.GlobalDG exMate exNode psi := by
  obtain ⟨sc, hsc, hl⟩ := farPlan_schedule
  let S : Sweeping ℚ := ⟨exRun false .tycho false, .tycho1, 1, fun _ => sc⟩
  have hw : ∀ r < 2, S.core.workAt 0 r 0 = [⟨0, 0⟩, ⟨0, 1⟩] := by
    intro r hr
    show (sc.workOrders r).getD 0 [] = _
    rw [(hl r hr).1]; rfl
  have hs : ∀ r < 2, S.core.sendAt 0 r 0 = [] := by
    intro r hr
    show (sc.sendProcs r).getD 0 [] = _
    rw [(hl r hr).2.1]; rfl
  have hr : ∀ r < 2, S.core.recvAt 0 r 0 = [] := by
    intro r hr
    show (sc.recvProcs r).getD 0 [] = _
    rw [(hl r hr).2.2]; rfl
  have hM : ∀ r < 2, S.core.maxSteps r = 1 := by
    intro r hr
    show max 0 (sc.workOrders r).length = 1
    rw [(hl r hr).1]; rfl
  have H : S.run.Physical := ex_physical _ _ _
  have hD : ∀ r, r < 2 → ∃ (psi1 : Psi ℚ) (b1 : Bound ℚ) (psi2 : Psi ℚ) (b2 : Bound ℚ),
      S.compute r ⟨0, 0⟩ (some (S.run.psi0 r, S.run.bound0 r)) = some (psi1, b1) ∧
      S.compute r ⟨0, 1⟩ (some (psi1, b1)) = some (psi2, b2) ∧
      Spec.DG 1 1 (fun f => 1 * exDot false r 0 f) (fun _ _ => 0) (fun _ => 1) (fun v => psi2 0 v 0 0) := by
    intro r hr
    obtain ⟨psi1, b1, h1, h2, -⟩ := compute_local (S := S) H (r := r) (w := ⟨0, 0⟩) hr (by show 0 < 1; decide)
      (by show 0 < 2; decide) (S.run.psi0 r) (S.run.bound0 r)
    obtain ⟨psi2, b2, h3, -, h4⟩ := compute_local (S := S) H (r := r) (w := ⟨0, 1⟩) hr (by show 0 < 1; decide)
      (by show 1 < 2; decide) psi1 b1
    refine ⟨psi1, b1, psi2, b2, h1, h3, ?_⟩
    have h5 := h2 0 (by show 0 < 1; decide)
    have e1 : (fun v => psi2 0 v 0 0) = fun v => psi1 0 v 0 0 := by
      funext v; exact h4 0 v 0 0 (by decide)
    rw [e1]
    refine (dg_congr _ _ _ _ _ _ _ ?_).1 h5
    intro f v _ _
    show populateLocalPsiBound (exView false r) 0 0 (fun _ _ _ _ => 0) (fun _ _ _ _ => 0) _ f 0 = 0
    simp only [populateLocalPsiBound]
    split
    · cases (exView false r).adjCell 0 f <;> cases (exView false r).adjRank 0 f <;> rfl
    · rfl
  choose! psi1 b1 psi2 b2 hD1 hD2 hD3 using hD
  -- the run
  let s0 : SweepState S.core := S.core.start
  let s1 := s0.work 0 0 0 0 ⟨0, 0⟩
  let s2 := s1.work 0 0 0 1 ⟨0, 1⟩
  let s3 := s2.work 1 0 0 0 ⟨0, 0⟩
  let s4 := s3.work 1 0 0 1 ⟨0, 1⟩
  let s5 := s4.send 0 0 0
  let s6 := s5.send 1 0 0
  let s7 := s6.next 0 0
  let s8 := s7.next 1 0
  have m1 : Swept s1 := .move _ _ .start (.work _ 0 0 0 0 _ (by show 0 < 2; decide) (by show 0 < 1; decide) rfl
    (by rw [hw 0 (by decide)]; rfl))
  have m2 : Swept s2 := .move _ _ m1 (.work _ 0 0 0 1 _ (by show 0 < 2; decide) (by show 0 < 1; decide)
    (by simp only [s1]; rw [place_work]; simp) (by rw [hw 0 (by decide)]; rfl))
  have m3 : Swept s3 := .move _ _ m2 (.work _ 1 0 0 0 _ (by show 1 < 2; decide) (by show 0 < 1; decide)
    (by simp only [s2, s1]; rw [place_work, place_work]; simp; rfl) (by rw [hw 1 (by decide)]; rfl))
  have m4 : Swept s4 := .move _ _ m3 (.work _ 1 0 0 1 _ (by show 1 < 2; decide) (by show 0 < 1; decide)
    (by simp only [s3]; rw [place_work]; simp) (by rw [hw 1 (by decide)]; rfl))
  have p40 : (s4.rank 0).place 0 = ⟨0, .compute 2⟩ := by
    simp only [s4, s3, s2]; rw [place_work, place_work, place_work]; simp
  have p41 : (s4.rank 1).place 0 = ⟨0, .compute 2⟩ := by
    simp only [s4]; rw [place_work]; simp
  have m5 : Swept s5 := .move _ _ m4 (.send _ 0 0 0 2 (by show 0 < 2; decide) (by show 0 < 1; decide) p40
    (by rw [hw 0 (by decide)]; decide) (by rw [hM 0 (by decide)]; decide) (by
      show (∀ g' < 1, _) ∧ _
      refine ⟨fun g' hg' i hi => ?_, fun g' hg' => absurd hg' (by omega)⟩
      interval_cases g'
      rw [p40] at hi ⊢
      cases hi
      rw [hw 0 (by decide)]; decide))
  have p50 : (s5.rank 0).place 0 = ⟨0, .comm 0⟩ := by
    simp only [s5]; rw [place_send]; simp
  have p51 : (s5.rank 1).place 0 = ⟨0, .compute 2⟩ := by
    simp only [s5]; rw [place_send]; simp [p41]
  have m6 : Swept s6 := .move _ _ m5 (.send _ 1 0 0 2 (by show 1 < 2; decide) (by show 0 < 1; decide) p51
    (by rw [hw 1 (by decide)]; decide) (by rw [hM 1 (by decide)]; decide) (by
      show (∀ g' < 1, _) ∧ _
      refine ⟨fun g' hg' i hi => ?_, fun g' hg' => absurd hg' (by omega)⟩
      interval_cases g'
      rw [p51] at hi ⊢
      cases hi
      rw [hw 1 (by decide)]; decide))
  have p60 : (s6.rank 0).place 0 = ⟨0, .comm 0⟩ := by
    simp only [s6]; rw [place_send]; simp [p50]
  have p61 : (s6.rank 1).place 0 = ⟨0, .comm 0⟩ := by
    simp only [s6]; rw [place_send]; simp
  have m7 : Swept s7 := .move _ _ m6 (.next _ 0 0 rfl (by show 0 < 2; decide) (by
      show ∀ g < 1, _
      intro g hg
      interval_cases g
      refine ⟨by rw [p60], ?_, fun h => absurd h (by show false ≠ true; decide)⟩
      show _ = At.comm _
      rw [p60, hr 0 (by decide)]; rfl) (by show 0 < 1; decide))
  have p71 : (s7.rank 1).place 0 = ⟨0, .comm 0⟩ := by
    simp only [s7]; rw [place_next]; simp [p61]
  have m8 : Swept s8 := .move _ _ m7 (.next _ 1 0 rfl (by show 1 < 2; decide) (by
      show ∀ g < 1, _
      intro g hg
      interval_cases g
      refine ⟨by rw [p71], ?_, fun h => absurd h (by show false ≠ true; decide)⟩
      show _ = At.comm _
      rw [p71, hr 1 (by decide)]; rfl) (by show 0 < 1; decide))
  have hdata : ∀ r < 2, (s8.rank r).data = some (psi2 r, b2 r) := by
    intro r hr
    have e : (s8.rank r).data = (s4.rank r).data := by
      have : ∀ (t : SweepState S.core) (r' : Nat), ((t.next r' 0).rank r).data = (t.rank r).data := by
        intro t r'
        simp only [SweepState.next, SweepState.setRank, setAt]
        split
        · rename_i h; rw [h]
        · rfl
      simp only [s8, s7]
      rw [this, this]
      simp only [s6, s5]
      rw [data_send, data_send]
    rw [e]
    simp only [s4, s3, s2, s1]
    have hd0 : ∀ r, (s0.rank r).data = some (S.run.psi0 r, S.run.bound0 r) := fun _ => rfl
    interval_cases r
    · simp only [data_work, if_pos, hd0, core_compute]
      simp [hD1 0, hD2 0]
    · simp only [data_work, if_pos, hd0, core_compute]
      simp [hD1 1, hD2 1]
  refine ⟨S, s8, psi2, rfl, ⟨by show 0 < 1; decide, ?_⟩, m8, ?_, fun r hr => ⟨_, hdata r hr⟩, ?_⟩
  · show ∀ g < 1, _
    intro g hg
    interval_cases g
    exact hsc
  · show ∀ r < 2, ∀ g < 1, _
    intro r hr g hg
    interval_cases g
    simp only [s8, s7]
    rw [place_next, place_next, hM r hr]
    interval_cases r <;> simp
  · intro hG
    obtain ⟨inc, hinc, hdg⟩ := hG 1 0 0 0 (by show 1 < 2; decide) (by show 0 < 1; decide)
      (by show 0 < 2; decide) (by show 0 < 1; decide)
    have hface : ∀ v : Fin 4, v ≠ 0 → inc 0 v = psi2 0 0 v 0 0 := by
      intro v hv
      obtain ⟨w, hw1, hw2⟩ := (hinc 0 v hv (by show (1 : ℚ) * exDot false 1 0 0 < 0; decide +kernel)).1
        ⟨0, 0, 0⟩ rfl
      have : w = v := by
        clear hw2
        revert hw1 hv
        show v ≠ 0 → exNode 0 0 w = exNode 1 0 v → w = v
        revert v w
        decide
      rw [hw2, this]
    have h0 := ex_rows (d0 := 1) (d1 := -1) (by funext f; fin_cases f <;> decide +kernel) (hD3 0 (by decide))
    have h1 := ex_rows (d0 := -1) (d1 := 1) (by funext f; fin_cases f <;> decide +kernel) (hD3 1 (by decide))
    have h2 := ex_rows (d0 := -1) (d1 := 1) (area := fun f => 1 * exDot false 1 0 f)
      (by funext f; fin_cases f <;> decide +kernel) hdg
    have q0 : ¬ (0 : ℚ) < 1 * exDot false 0 0 1 := by decide +kernel
    have q1 : (0 : ℚ) < 1 * exDot false 0 0 0 := by decide +kernel
    have q2 : ¬ (0 : ℚ) < 1 * exDot false 1 0 0 := by decide +kernel
    have q3 : (0 : ℚ) < 1 * exDot false 1 0 1 := by decide +kernel
    simp only [Spec.upwind, if_neg q0, if_pos q1] at h0
    simp only [Spec.upwind, if_neg q2, if_pos q3] at h1 h2
    rw [hface 1 (by decide), hface 2 (by decide), hface 3 (by decide)] at h2
    obtain ⟨a0, a1, a2, a3⟩ := h0
    obtain ⟨-, b1, b2, b3⟩ := h1
    obtain ⟨-, c1, c2, c3⟩ := h2
    linarith

end Verif.Schedule
