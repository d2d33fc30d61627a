import Verif.Floating.PlannedProps
import Verif.Floating.Example

/-!
# An example for C93
-/
namespace Verif.Floating

open Verif.MeshFile Verif.TychoMesh Verif.Traverse Verif.Schedule Verif.Floating.Spec Verif.PsiFile Verif.Storage Verif.Program

/-- Comparisons with a tolerance of 100. -/
def crudeTol : Tolerance Int where
  above x := decide (100 < x)
  below x := decide (x < -100)

theorem crude_definite : Definite crude crudeTol crudeCoord twoMesh := by
  intro c f c' f' h a ha x hx
  obtain ⟨rfl, rfl, -, -⟩ := twoMesh_across h
  obtain ⟨q, p, h1, h2, h3⟩ := hx
  obtain ⟨hc, rfl⟩ := crude_cell h2
  obtain rfl := crude_face hc h1
  have key : ∀ c < 2, ∀ a < 2, ∀ x ∈ crude.omegaDotN a (crudePoints c 0) (crudeCell c),
      crudeTol.above x = crude.positive x ∧ crudeTol.below x = !crude.positive x := by
    decide +kernel
  exact key c hc a ha x h3

/-- The tolerance matters elsewhere: a value between is not outgoing for the schedule, but for the sweep. -/
example : crudeTol.above 50 = false ∧ crude.positive 50 = true := by decide

/-- C93: the hypotheses of `planned_bitwise`, `any_iterated_bitwise` and `any_output_bitwise` hold for two
tetrahedra in the crude arithmetic: along schedules on two ranks with two threads, and by the traversal
on one rank, the files after four sweeps are equal. -/
example (variant : Variant) : ∃ (P P' : ParallelMesh) (T T' : Nat → Mesh) (D D' : Nat → Tables Int) (psi psi' : Nat → Psi Int)
    (A A' : Nat → PsiData Nat) (f : File), Created twoMesh [0, 0] 1 P ∧ Created twoMesh [1, 0] 2 P' ∧ Loaded (id : Nat → Nat) P T ∧
    Loaded (id : Nat → Nat) P' T' ∧ Started crude crudeCoord P T D ∧ Started crude crudeCoord P' T' D' ∧ Sorted crude crudeCoord twoMesh ∧
    crude.Iterated 1 T D 4 psi ∧ crude.AnyIterated crudeTol 2 T' D' 4 psi' ∧ Stored (fun x => x.toNat % 2 ^ 64) 1 T 2 2 psi A ∧
    Stored (fun x => x.toNat % 2 ^ 64) 2 T' 2 2 psi' A' ∧ Written 1 A (lgOf T) f ∧ Written 2 A' (lgOf T') f := by
  obtain ⟨P, H⟩ := created_of twoMesh_tets (by decide) (by decide) (pv := [0, 0]) (n := 1) rfl (by decide) (by decide)
  obtain ⟨P', H'⟩ := created_of twoMesh_tets (by decide) (by decide) (pv := [1, 0]) (n := 2) rfl (by decide) (by decide)
  obtain ⟨T, L⟩ := load_succeeds (id : Nat → Nat) H
  obtain ⟨T', L'⟩ := load_succeeds (id : Nat → Nat) H'
  obtain ⟨D, hD⟩ := started_exists (K := crude) (coord := crudeCoord) H L crude_material crude_dots
  obtain ⟨D', hD'⟩ := started_exists (K := crude) (coord := crudeCoord) H' L' crude_material crude_dots
  have small : ∀ {pv : List Nat} {n : Nat} {P : ParallelMesh} {T : Nat → Mesh}, Created twoMesh pv n P → Loaded (id : Nat → Nat) P T →
      ∀ r < n, (T r).nCells ≤ 2 := by
    intro pv n P T H L r hr
    have hl := (create_cells H.create).1
    have hp : P.parts[r]? = some P.parts[r] := List.getElem?_eq_getElem (by omega)
    have h1 := (loaded_cells H L hp).1
    have h2 := part_le H hp
    have h3 := ((create_cells H.create).2 r _ hp).1
    have : twoMesh.numCells = 2 := rfl
    omega
  have s1 : ∀ r < 1, 2 * (T r).nCells < 2 ^ 64 := fun r hr => by have := small H L r hr; omega
  have s2 : ∀ r < 2, 2 * (T' r).nCells < 2 ^ 64 := fun r hr => by have := small H' L' r hr; omega
  obtain ⟨psi, h⟩ := iterated_exists H (by decide) L hD crude_sorted s1 ⟨1, 1, .tycho, true, fun _ _ _ => 0, fun _ _ _ _ _ => 7⟩
    (by decide) (by decide) rfl 4
  obtain ⟨psi', h'⟩ := planned_iterated_exists H' (by decide) L' hD' crude_sorted crude_definite s2
    ⟨variant, 2, 1, fun _ _ c _ => c, true, fun _ _ _ _ _ => 3⟩ Nat.two_pos (show 1 % 2 ^ 32 ≠ 0 by decide) 4
  have hany : ∀ {k psi}, crude.Iterated 1 T D k psi → crude.AnyIterated crudeTol 1 T D k psi := by
    intro k psi h
    induction h with
    | zero => exact .zero
    | succ _ hsw ih => exact .succ ih (.inl hsw)
  obtain ⟨A, hA⟩ := stored_exists (fun x : Int => x.toNat % 2 ^ 64) 1 T 2 2 psi
    (fun r hr => by have := small H L r hr; unfold W; omega)
  obtain ⟨A', hA'⟩ := stored_exists (fun x : Int => x.toNat % 2 ^ 64) 2 T' 2 2 psi'
    (fun r hr => by have := small H' L' r hr; unfold W; omega)
  obtain ⟨f, w⟩ := psiFile_returns (loaded_spread H L (by decide) hA (by decide) (by decide) (by decide) (by decide))
  obtain ⟨f', w'⟩ := psiFile_returns (loaded_spread H' L' (by decide) hA' (by decide) (by decide) (by decide) (by decide))
  have e : f = f' := any_output_bitwise H (by decide) (by decide) L hD H' (by decide) (by decide) L' hD' crude_sorted crude_definite s1 s2
    (by decide) (by decide) (by decide) (by decide) (hany h) h' hA hA' w w'
  subst e
  exact ⟨P, P', T, T', D, D', psi, psi', A, A', f, H, H', L, L', hD, hD', crude_sorted, h, h', hA, hA', w, w'⟩

end Verif.Floating
