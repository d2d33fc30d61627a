import Verif.Domain.Schur2
import Verif.Traverse.Examples

/-!
# Concrete cases meeting the hypotheses of C37 and C42–C44, and witnesses

The two cells of `Verif.Traverse.Examples`, one on each of two ranks.
-/
namespace Verif.Domain
open Classical List
open Verif.Transport Verif.Traverse

/-- A run without face parallel to a direction. -/
abbrev good (rv : Bool) : SweepRun ℚ := exRun false .tycho rv

/-- C37: an exchange between the two ranks finishes, and what each then holds is the flux of the
other's cell. -/
example (psi : Nat → Psi ℚ) (bound : Nat → Bound ℚ) :
    ∃ bound', ExchangeRun (good true) psi bound bound' ∧
      bound' 1 0 0 0 0 = psi 0 0 1 0 0 ∧ bound' 0 0 2 1 0 = psi 1 0 3 1 0 ∧
      bound' 0 0 2 0 0 = bound 0 0 2 0 0 := by
  obtain ⟨bound', h⟩ := exchange_run_exists (R := good true) (ex_linked _ _ _) (ex_crossed _ _) psi bound
  have hx := h.exchanged (ex_linked _ _ _) (ex_crossed _ _) (ex_nodes _ _ _)
  refine ⟨bound', h, ?_, ?_, ?_⟩
  · obtain ⟨w, hw, e⟩ := hx.value ⟨1, 0, 0⟩ ⟨0, 0, 0⟩ 0 0 1 ⟨by decide, by decide⟩ rfl (by decide)
      (by decide) (by decide +kernel) (by decide) (by decide)
    have : w = 1 := by clear e; revert w; decide
    subst this
    exact e
  · obtain ⟨w, hw, e⟩ := hx.value ⟨0, 0, 0⟩ ⟨1, 0, 0⟩ 1 0 3 ⟨by decide, by decide⟩ rfl (by decide)
      (by decide) (by decide +kernel) (by decide) (by decide)
    have : w = 3 := by clear e; revert w; decide
    subst this
    exact e
  · refine hx.frame 0 0 2 0 0 (by decide) ?_
    intro _ x y hin hr hm _ _ hout
    rcases exMate_some hm with ⟨rfl, rfl⟩ | ⟨rfl, rfl⟩
    · exact absurd (by decide +kernel) hout
    · simp at hr

/-- Upwind chains cross the one partition face at most once. -/
theorem ex_crossings : ∀ r c a n, r < (good true).nRanks → c < (good true).nCells r →
    a < (good true).nAngles → Crossings (good true) exMate a r c n → n ≤ 1 := by
  intro r c a n hr hc ha h
  have key : ∀ r c n, Crossings (good true) exMate a r c n → (a = r → n = 0) ∧ n ≤ 1 := by
    intro r c n h
    induction h with
    | nil => simp
    | @near r c f y k hm hin hyr h ih =>
      rcases exMate_some hm with ⟨e, rfl⟩ | ⟨e, rfl⟩ <;> cases e <;> simp at hyr
    | @far r c f y k hm hin hyr h ih =>
      have ha' : a < 2 := ha
      rcases exMate_some hm with ⟨e, rfl⟩ | ⟨e, rfl⟩ <;> cases e <;> interval_cases a
      · exact absurd (by decide +kernel) hin
      · have := ih.1 rfl; subst this; simp
      · have := ih.1 rfl; subst this; simp
      · exact absurd (by decide +kernel) hin
  exact (key r c n h).2

/-- C42: on the two ranks, a run of at least two sweeps returns the full solution, from any initial data. -/
example (src psi : Nat → Psi ℚ) (bound : Nat → Bound ℚ) (tol : ℚ) (M : Nat) :
    ∃ star sweeps psiEnd boundEnd, FullDG (good true) exMate exNode src star ∧
      PBJSweep (good true) src tol M psi bound sweeps psiEnd boundEnd ∧
      (2 ≤ sweeps.length → SameFlux (good true) psiEnd star) := by
  obtain ⟨sweeps, psiEnd, boundEnd, h⟩ := pbj_returns (R := good true) (ex_physical _ _ _) (ex_linked _ _ _)
    (ex_crossed _ _) rfl (ex_acyclic _ _) src tol M psi bound
  obtain ⟨star, hs⟩ := fullDG_exists (R := good true) (ex_physical _ _ _) (ex_linked _ _ _)
    (ex_crossed _ _) (ex_nodes _ _ _) rfl (ex_acyclic _ _) src
  exact ⟨star, sweeps, psiEnd, boundEnd, hs, h, (pbj_finite (ex_physical _ _ _) (ex_linked _ _ _)
    (ex_crossed _ _) (ex_nodes _ _ _) rfl (ex_acyclic _ _) hs h (ex_crossings)).1⟩

/-- With tolerance zero and a limit of 3 there are two sweeps, so the case above is not vacuous. -/
example (src psi : Nat → Psi ℚ) (bound : Nat → Bound ℚ) :
    ∃ sweeps psiEnd boundEnd, PBJSweep (good true) src 0 3 psi bound sweeps psiEnd boundEnd ∧
      sweeps.length = 2 := by
  obtain ⟨sweeps, psiEnd, boundEnd, h⟩ := pbj_returns (R := good true) (ex_physical _ _ _) (ex_linked _ _ _)
    (ex_crossed _ _) rfl (ex_acyclic _ _) src 0 3 psi bound
  exact ⟨_, _, _, h, pbj_limit_exact le_rfl h⟩

/-- C43, the witness: a run with a limit of one returns without a sweep, leaving a flux that does not
solve the problem. -/
theorem pbj_limit_violated : ∃ (R : SweepRun ℚ) (mate : Loc → Option Loc) (node : Nat → Nat → Fin 4 → Nat)
    (psi : Nat → Psi ℚ) (bound : Nat → Bound ℚ) (sweeps : List (Nat → Psi ℚ)) (psiEnd : Nat → Psi ℚ)
    (boundEnd : Nat → Bound ℚ), PBJSweep R R.source 0 1 psi bound sweeps psiEnd boundEnd ∧
      sweeps = [] ∧ ¬ FullDG R mate node R.source psiEnd := by
  refine ⟨good false, exMate, exNode, fun _ _ _ _ _ => 0, fun _ _ _ _ _ => 0, [], _, _,
    .limit (by decide), rfl, ?_⟩
  intro h
  obtain ⟨inc, hinc, hdg⟩ := h 0 0 0 0 (by decide) (by decide) (by decide) (by decide)
  have h2 := hdg 0
  have e1 : (Finset.univ : Finset (Fin 4)).erase 0 = {1, 2, 3} := by decide
  have e2 : ((Finset.univ : Finset (Fin 4)).erase 1).erase 0 = {2, 3} := by decide
  have hinc0 : ∀ v, v ≠ 1 → inc 1 v = 0 := fun v hv => (hinc 1 v hv (by decide +kernel)).2 rfl
  simp [Spec.DGRow, Spec.upwind, e1, e2, exRun, exView, exDot, hinc0] at h2
  norm_num at h2

/-- C44: for the two ranks, the vector packed from the boundary flux of the full solution solves the
system; it has three entries on each rank. -/
example (src : Nat → Psi ℚ) : psiBoundSize (good true) 0 = 3 ∧
    ∃ star bound x b rhs, FullDG (good true) exMate exNode src star ∧
      Consistent (good true) exMate exNode star bound ∧ SchurOp (good true) x b ∧
      SchurRhs (good true) src rhs ∧ SameVec (good true) b rhs := by
  refine ⟨by decide +kernel, ?_⟩
  obtain ⟨star, hs⟩ := fullDG_exists (R := good true) (ex_physical _ _ _) (ex_linked _ _ _)
    (ex_crossed _ _) (ex_nodes _ _ _) rfl (ex_acyclic _ _) src
  obtain ⟨bound, hb⟩ := exchange_run_exists (R := good true) (ex_linked _ _ _) (ex_crossed _ _) star
    fun _ _ _ _ _ => 0
  have hc := (hb.exchanged (ex_linked _ _ _) (ex_crossed _ _) (ex_nodes _ _ _)).consistent
  obtain ⟨⟨b, h1⟩, ⟨rhs, h2⟩, -⟩ := schur_returns (R := good true) (ex_physical _ _ _) (ex_linked _ _ _)
    (ex_crossed _ _) rfl (ex_acyclic _ _) src
    fun r => psiBoundToVec (good true) r (bound r) fun _ => 0
  exact ⟨star, bound, _, b, rhs, hs, hc, h1, h2, (schur_iff_packed (ex_physical _ _ _) (ex_linked _ _ _)
    (ex_crossed _ _) (ex_nodes _ _ _) rfl (ex_acyclic _ _) hs hc h1 h2 _).2 fun _ _ _ _ => rfl⟩

/-! ### A partition face parallel to a direction

Both ranks take it for incoming and expect a packet; neither sends one. -/

/-- A rank that expects packets from a neighbour which has none for it never returns. -/
theorem exchange_stuck {K : Type} [Field K] [LinearOrder K] {R : SweepRun K} {psi : Nat → Psi K}
    {bound : Nat → Bound K} {r q : Nat} (hr : q ∈ recvRanks R r) (hs : r ∉ sendRanks R q) {n : Nat}
    {s : XState K R.nGroups} (h : XRun R psi bound n s) :
    s.phase r ≠ .finished ∧ s.chan q r = [] ∧ ∀ ps, s.phase r = .waiting ps → q ∈ ps := by
  induction h with
  | nil => exact ⟨by simp [xInit], rfl, by simp [xInit]⟩
  | @snoc n s s' _ hstep ih =>
    obtain ⟨i1, i2, i3⟩ := ih
    cases hstep with
    | post p hp hph =>
      refine ⟨?_, ?_, ?_⟩
      · by_cases e : r = p <;> simp [setAt, e]
        exact i1
      · by_cases e : q = p
        · subst e; simp [setAt, hs, i2]
        · simp [setAt, e, i2]
      · by_cases e : r = p
        · subst e; simp only [setAt, if_true]; rintro ps ⟨⟩; exact hr
        · simp only [setAt, if_neg e]; exact i3
    | recv p p' ps m ms hp hph hq hm hl =>
      have hne : ¬ (p' = q ∧ p = r) := by rintro ⟨rfl, rfl⟩; rw [i2] at hm; simp at hm
      refine ⟨?_, ?_, ?_⟩
      · by_cases e : r = p <;> simp [setAt, e]
        exact i1
      · by_cases e : q = p'
        · by_cases e' : r = p
          · exact absurd ⟨e.symm, e'.symm⟩ hne
          · subst e; simp [setAt, e', i2]
        · simp [setAt, e, i2]
      · by_cases e : r = p
        · subst e
          simp only [setAt, if_true]
          rintro ps' ⟨⟩
          refine (List.mem_erase_of_ne ?_).2 (i3 _ hph)
          rintro rfl; exact hne ⟨rfl, rfl⟩
        · simp only [setAt, if_neg e]; exact i3
    | trunc p p' ps m ms hp hph hq hm hl =>
      refine ⟨?_, i2, ?_⟩
      · by_cases e : r = p <;> simp [setAt, e]
        exact i1
      · by_cases e : r = p
        · subst e; simp [setAt]
        · simp only [setAt, if_neg e]; exact i3
    | done p hp hph hsd =>
      have e : r ≠ p := by rintro rfl; have := i3 _ hph; simp at this
      refine ⟨?_, i2, ?_⟩
      · simp only [setAt, if_neg e]; exact i1
      · simp only [setAt, if_neg e]; exact i3

/-- The hypothesis `Crossed` of C37 is needed: with the shared face parallel to the directions no
exchange of the two ranks returns. -/
theorem exchange_parallel_never_finishes {psi : Nat → Psi ℚ} {bound : Nat → Bound ℚ} {n : Nat}
    {s : XState ℚ (exRun true .tycho false).nGroups} (h : XRun (exRun true .tycho false) psi bound n s) :
    s.phase 0 ≠ .finished ∧ s.phase 1 ≠ .finished :=
  ⟨(exchange_stuck (q := 1) (by decide +kernel) (by decide +kernel) h).1,
    (exchange_stuck (q := 0) (by decide +kernel) (by decide +kernel) h).1⟩

end Verif.Domain
