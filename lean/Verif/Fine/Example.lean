import Verif.Fine.Sweep
import Verif.Floating.PlannedExample

/-!
# The hypotheses of C94 hold
-/
namespace Verif.Fine
open Verif.MeshFile Verif.TychoMesh Verif.Traverse Verif.Schedule Verif.Floating Verif.PsiFile Verif.Storage Verif.Program
open Verif.Threads (Scratch)

/-- Two tetrahedra in the crude arithmetic, on two ranks with two threads each along schedules, in either
variant, and on one rank by the traversal: the hypotheses of `planRun_bitwise` and `planRun_returns`
(so those of `calls_refine` and the other theorems) hold. -/
example (variant : Variant) (x0 : Scratch Int 2) : ∃ (P P' : ParallelMesh) (T T' : Nat → Mesh) (D D' : Nat → Tables Int)
    (psi psi' : Nat → Psi Int) (psiS : Psi Int), Created twoMesh [0, 0] 1 P ∧ Created twoMesh [1, 0] 2 P' ∧
    PlanRun crude crudeTol 2 T' D' (fun _ _ _ _ _ => 5) (fun _ _ _ _ _ => 0) psi' ∧
    crude.Swept 1 T D (fun _ _ _ _ _ => 5) (fun _ _ _ _ _ => 0) psi ∧
    Spec.Solution crude crudeCoord twoMesh (fun _ _ _ _ => 5) psiS ∧ Spec.Holds 2 2 2 T' psi' psiS ∧ Spec.Holds 2 2 1 T psi psiS := by
  obtain ⟨P, H⟩ := created_of twoMesh_tets (by decide) (by decide) (pv := [0, 0]) (n := 1) rfl (by decide) (by decide)
  obtain ⟨P', H'⟩ := created_of twoMesh_tets (by decide) (by decide) (pv := [1, 0]) (n := 2) rfl (by decide) (by decide)
  obtain ⟨T, L⟩ := load_succeeds (id : Nat → Nat) H
  obtain ⟨T', L'⟩ := load_succeeds (id : Nat → Nat) H'
  obtain ⟨D, hD⟩ := Floating.started_exists (K := crude) (coord := crudeCoord) H L crude_material crude_dots
  obtain ⟨D', hD'⟩ := Floating.started_exists (K := crude) (coord := crudeCoord) H' L' crude_material crude_dots
  have small : ∀ {pv : List Nat} {n : Nat} {P : ParallelMesh} {T : Nat → Mesh}, Created twoMesh pv n P → Loaded (id : Nat → Nat) P T →
      ∀ r < n, 2 * (T r).nCells < 2 ^ 64 := by
    intro pv n P T H L r hr
    have hl := (create_cells H.create).1
    have hp : P.parts[r]? = some P.parts[r] := List.getElem?_eq_getElem (by omega)
    have h1 := (loaded_cells H L hp).1
    have h2 := part_le H hp
    have h3 := ((create_cells H.create).2 r _ hp).1
    have : twoMesh.numCells = 2 := rfl
    omega
  obtain ⟨⟨sched, hB⟩, hrest⟩ := planRun_returns H' (by decide) L' hD' crude_sorted crude_definite (small H' L') (fun _ _ _ _ _ => 5)
    (fun _ _ _ _ _ => 0) ⟨variant, 2, 1, fun _ _ c _ => c, true, fun _ _ _ _ _ => 3⟩ Nat.two_pos (show 1 % 2 ^ 32 ≠ 0 by decide) x0
  obtain ⟨-, -, -, psi', h'⟩ := hrest sched hB
  obtain ⟨psi, h, -⟩ := sweep_returns H (by decide) L hD crude_sorted (small H L) (fun _ _ _ _ _ => 5) (fun _ _ _ _ _ => 0)
    ⟨1, 1, .tycho, true, fun _ _ _ => 0, fun _ _ _ _ _ => 7⟩ (by decide) (by decide) rfl
  obtain ⟨psiS, a1, a2, a3⟩ := planRun_bitwise H' (by decide) L' hD' H (by decide) L hD crude_sorted crude_definite (small H' L')
    (small H L) (srcS := fun _ _ _ _ => 5) (fun _ _ _ _ _ _ _ _ _ _ => rfl) (fun _ _ _ _ _ _ _ _ _ _ => rfl) h' (.inl h)
  exact ⟨P, P', T, T', D, D', psi, psi', psiS, H, H', h', h, a1, a2, a3⟩

end Verif.Fine
