import Verif.Source.Examples
import Verif.Schedule.SweepMain

/-!
# Sweep types `OriginalTycho1` and `OriginalTycho2` with scattering (C65)

`Sweeper::solve` (src/Sweeper.cc:356-365) hands `Sweeper::sweep` to the source iteration; the schedules
are those of the constructor in every sweep.
-/
set_option linter.unusedSectionVars false
set_option linter.unusedVariables false

namespace Verif.Source
open Classical List
open Verif.Transport Verif.Traverse Verif.Domain Verif.Schedule

variable {K : Type} [Field K] [LinearOrder K] [IsStrictOrderedRing K]

/-- `Sweeper::sweep(psi, source)`: the schedules kept, a fresh zeroed boundary array
(src/Sweeper.cc:373-393). -/
def sweepOf (S : Sweeping K) (src psi0 : Nat → Psi K) : Sweeping K :=
  { S with run := fullRun S.run src psi0 }

/-- `Sweeper` (src/Sweeper.cc:320-515). The flag is ignored. -/
def scheduledSweeper (S : Sweeping K) : Sweeper K where
  State := Unit
  run _ _ psi src _ psi' := ∃ s : SweepState (sweepOf S src psi).core, Swept s ∧ s.Over ∧
    ∀ r < S.run.nRanks, ∃ b, (s.rank r).data = some (psi' r, b)

theorem sweepOf_plan (S : Sweeping K) (src psi0 : Nat → Psi K) (maxCells : Nat) (tol : K) (g : Nat) :
    (sweepOf S src psi0).plan maxCells tol g = S.plan maxCells tol g := rfl

theorem sweepOf_built {S : Sweeping K} {maxCells : Nat} {tol : K} {prio : Nat → Nat → Nat → Nat → Nat}
    (B : S.Built maxCells tol prio) (src psi0 : Nat → Psi K) : (sweepOf S src psi0).Built maxCells tol prio := by
  refine ⟨B.groups, fun g hg => ?_⟩
  have h := B.sched g hg
  rw [← sweepOf_plan S src psi0] at h
  exact h

theorem sweepOf_clear {S : Sweeping K} {mate : Loc → Option Loc} {tol : K} (C : S.Clear mate tol)
    (src psi0 : Nat → Psi K) : (sweepOf S src psi0).Clear mate tol :=
  ⟨C.nonneg, fun x y a hx => C.opposite x y a ⟨hx.1, hx.2⟩, fun x y a hx => C.clear x y a ⟨hx.1, hx.2⟩⟩

section
variable {S : Sweeping K} {X : Scat K} {mate : Loc → Option Loc} {node : Nat → Nat → Fin 4 → Nat}
  {maxCells : Nat} {tol : K} {prio : Nat → Nat → Nat → Nat → Nat}
  (B : S.Built maxCells tol prio) (C : S.Clear mate tol) (L : Linked S.run.cfg mate) (Ap : S.Apart)
  (H : S.run.Physical) (hd : S.run.doComm = true) (A : Acyclic S.run.cfg mate)
  (N : S.run.Nodes mate node)
include B C L Ap H hd A N

theorem scheduled_returns_with (src psi0 : Nat → Psi K) : ∃ (s : SweepState (sweepOf S src psi0).core) (psi : Nat → Psi K),
    Swept s ∧ s.Over ∧ (∀ r < S.run.nRanks, ∃ b, (s.rank r).data = some (psi r, b)) := by
  have B' : (sweepOf S src psi0).Built maxCells tol prio := sweepOf_built B _ _
  have C' : (sweepOf S src psi0).Clear mate tol := sweepOf_clear C _ _
  have Ap' : (sweepOf S src psi0).Apart := (Sweeping.apart_iff _).2 ((Sweeping.apart_iff S).1 Ap)
  obtain ⟨-, -, s, h1, h2⟩ := scheduled_sweep_returns_partial B' C' (full_linked L src psi0) Ap'
    (full_physical H src psi0) hd (full_acyclic_of A src psi0 _ S.run.maxCompute)
  obtain ⟨psi, h3, -⟩ := scheduled_sweep_solves_partial B' C' (full_linked L src psi0) Ap'
    (full_physical H src psi0) hd (full_acyclic_of A src psi0 _ S.run.maxCompute)
    (full_nodes N src psi0) h1 h2
  exact ⟨s, psi, h1, h2, h3⟩

/-- Each sweep solves the system of the whole mesh. -/
theorem scheduled_correct : Correct (scheduledSweeper S) (FullDG S.run mate node) (FullDG S.run mate node) := by
  have key : ∀ src psi psi', (∃ s : SweepState (sweepOf S src psi).core, Swept s ∧ s.Over ∧
      ∀ r < S.run.nRanks, ∃ b, (s.rank r).data = some (psi' r, b)) → FullDG S.run mate node src psi' := by
    rintro src psi psi' ⟨s, h1, h2, h3⟩
    have B' : (sweepOf S src psi).Built maxCells tol prio := sweepOf_built B _ _
    have C' : (sweepOf S src psi).Clear mate tol := sweepOf_clear C _ _
    have Ap' : (sweepOf S src psi).Apart := (Sweeping.apart_iff _).2 ((Sweeping.apart_iff S).1 Ap)
    obtain ⟨psi1, h4, h5, -⟩ := scheduled_sweep_solves_partial B' C' (full_linked L src psi) Ap'
      (full_physical H src psi) hd (full_acyclic_of A src psi _ S.run.maxCompute)
      (full_nodes N src psi) h1 h2
    refine fullDG_flux_congr L (psi := psi1) h5 ?_
    intro r c a g v hr _ _ _
    obtain ⟨b, hb⟩ := h3 r hr
    obtain ⟨b', hb'⟩ := h4 r hr
    rw [hb] at hb'
    simp only [Option.some.injEq, Prod.mk.injEq] at hb'
    rw [hb'.1]
  exact ⟨fun _ _ _ _ _ h => key _ _ _ h, fun _ _ _ _ _ h => key _ _ _ h⟩

/-- C65: with scattering, the exactly converged results of the sweep types that use precomputed
schedules exist, and they are the results of all other sweep types. -/
theorem scheduled_types_agree_partial (Xc : Crossed S.run.cfg mate) (M : Matched S.run mate node)
    {κ : K} (hκ : Ratio S.run X κ) (hκ1 : κ < 1) (src : Nat → Psi K) :
    (∃ psi, Solved S.run X (scheduledSweeper S) src (fun _ _ _ _ _ => 0) psi) ∧
    ∀ psi, Solved S.run X (scheduledSweeper S) src (fun _ _ _ _ _ => 0) psi →
      Scatters S.run X (FullDG S.run mate node) src psi ∧
      (∀ psi', Solved S.run X (scheduledSweeper S) src (fun _ _ _ _ _ => 0) psi' →
        SameFlux S.run psi psi') ∧
      ∀ k, (∀ r c a n, r < S.run.nRanks → c < S.run.nCells r → a < S.run.nAngles →
          Crossings S.run mate a r c n → n ≤ k) →
        ∀ psi', Result S.run X k src psi' → SameFlux S.run psi psi' := by
  have hcor := scheduled_correct B C L Ap H hd A N
  have haff := full_affine H L N hd A
  have hdis := full_dissipative H L N M
  refine ⟨?_, fun psi h => ?_⟩
  · obtain ⟨star, hs, -⟩ := full_scatter_exists_unique (X := X) H L Xc N M hd A hκ hκ1 src
    refine solved_exists hcor haff () (fun _ _ psi src => ?_) hs _
    obtain ⟨s, psi', h⟩ := scheduled_returns_with B C L Ap H hd A N src psi
    exact ⟨(), psi', s, h⟩
  · have h1 := solved_scatters hcor haff h
    refine ⟨h1, fun psi' h' => ?_, fun k hk psi' h' => ?_⟩
    · exact scatter_unique H hκ hκ1 hdis haff haff h1 (solved_scatters hcor haff h')
    · exact scatter_unique H hκ hκ1 hdis haff haff h1
        (result_scatters H L Xc N M hd A hk hκ hκ1 h')

end

/-- C65: the conditions hold on the two ranks of `Verif.Traverse.Examples`, with scattering. -/
example (variant : Variant) (src : Nat → Psi ℚ) : ∃ S : Sweeping ℚ, S.run = good true ∧ S.variant = variant ∧
    ∃ psi, Solved S.run exScat (scheduledSweeper S) src (fun _ _ _ _ _ => 0) psi ∧
      ∀ psi', Result S.run exScat 1 src psi' → SameFlux S.run psi psi' := by
  obtain ⟨S, h1, h2, h3, B⟩ := built_exists (exRun false .tycho true) variant 2 1 (1 / 2)
    (fun _ _ _ _ => 0) (mate := exMate) (by decide) (by decide) (ex_linked _ _ _) (by norm_num)
    (ex_opposite false true)
  have C := ex_clear h1
  have Ap := ex_apart h1
  have h1' : S.run = good true := h1
  obtain ⟨⟨psi, hp⟩, hk⟩ := scheduled_types_agree_partial (X := exScat) (node := exNode) B C
    (by rw [h1]; exact ex_linked _ _ _) Ap (by rw [h1]; exact ex_physical _ _ _) (by rw [h1]; rfl)
    (by rw [h1]; exact ex_acyclic _ _) (by rw [h1]; exact ex_nodes _ _ _) (by rw [h1]; exact ex_crossed _ _)
    (by rw [h1']; exact ex_matched) (by rw [h1']; exact ex_ratio) (by norm_num) src
  refine ⟨S, h1', h2, psi, hp, fun psi' h' => (hk psi hp).2.2 1 ?_ psi' h'⟩
  rw [h1']
  exact ex_crossings

end Verif.Source
