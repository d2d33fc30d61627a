import Verif.Floating.JacobiProps
import Verif.Floating.Example

/-!
# An example for C102: block Jacobi in arithmetic that is not associative
-/
namespace Verif.Floating

open Verif.MeshFile Verif.TychoMesh Verif.Traverse Verif.Floating.Spec Verif.PsiFile Verif.Storage Verif.Program

/-- A test that is never met, as with a tolerance of zero. -/
def crudeStop : Stop Int where
  error l := l.foldl (fun s x => crudeAdd s |x.1 - x.2|) 0
  norm l := l.foldl (fun s x => crudeAdd s |x.2|) 0
  gsum l := l.foldl crudeAdd 0
  below _ _ := false

theorem crude_small {pv : List Nat} {n : Nat} {P : ParallelMesh} {T : Nat → Mesh} (H : Created twoMesh pv n P)
    (L : Loaded (id : Nat → Nat) P T) : ∀ r < n, (T r).nCells ≤ 2 := by
  intro r hr
  have hl := (create_cells H.create).1
  have hp : P.parts[r]? = some P.parts[r] := List.getElem?_eq_getElem (by omega)
  have h1 := (loaded_cells H L hp).1
  have h2 := part_le H hp
  have h3 := ((create_cells H.create).2 r _ hp).1
  have : twoMesh.numCells = 2 := rfl
  omega

theorem crude_across {c f c' f' : _} (h : Across twoMesh c f c' f') {a : Nat} (ha : a < 2) : ∃ x, Dot crude crudeCoord twoMesh a c' f' x := by
  obtain ⟨P, H⟩ := created_of twoMesh_tets (by decide) (by decide) (pv := [1, 0]) (n := 2) rfl (by decide) (by decide)
  obtain ⟨T, L⟩ := load_succeeds (id : Nat → Nat) H
  obtain ⟨D, hD⟩ := started_exists (K := crude) (coord := crudeCoord) H L crude_material crude_dots
  obtain ⟨r, i, hi⟩ := isCell_exists H (across_lt H.tets h).2
  exact ⟨_, dot_of H L hD hi ha f'⟩

/-- No chain crosses two faces between parts. -/
theorem crude_crossings {a c k : Nat} {pv : List Nat} (ha : a < 2) (h : Crossings crude crudeCoord twoMesh pv a c k) : k < 2 := by
  by_cases hc : c < twoMesh.numCells
  · exact crossings_lt twoMesh_tets (fun _ _ _ _ h a ha => crude_across h ha) crude_sorted ha hc h
  · cases h with
    | nil => decide
    | within _ _ hac => exact absurd (across_lt twoMesh_tets hac).1 hc
    | between _ _ hac => exact absurd (across_lt twoMesh_tets hac).1 hc

/-- C102: and there is one that crosses one, so that one local sweep need not be enough. -/
example : Crossings crude crudeCoord twoMesh [1, 0] 0 0 1 := by
  have hac : Across twoMesh 0 0 1 0 := ⟨by decide, 0, crude_faceOf (by decide) 0, crude_faceOf (by decide) 0⟩
  obtain ⟨x, hx⟩ := crude_across (f := 0) (f' := 0) ⟨hac.1.symm, hac.2.imp fun g h => ⟨h.2, h.1⟩⟩ (a := 0) (by decide)
  have hp : crude.positive x = false := by
    cases h : crude.positive x
    · rfl
    · exact absurd rfl ((crude_dot (by decide) hx).2.1 h)
  exact .between hx hp hac (by decide) (.nil 1)

/-- C102: the hypotheses of `jacobi_iterated` and `jacobi_output` hold for two tetrahedra on two ranks with two local sweeps
a call: four source iterations give the file of the traversal on one rank. -/
example : ∃ (P P' : ParallelMesh) (T T' : Nat → Mesh) (D D' : Nat → Tables Int) (psi psi' : Nat → Psi Int) (bound : Nat → Bound Int)
    (A A' : Nat → PsiData Nat) (f : File), Created twoMesh [1, 0] 2 P ∧ Created twoMesh [0, 0] 1 P' ∧ Loaded (id : Nat → Nat) P T ∧
    Loaded (id : Nat → Nat) P' T' ∧ Started crude crudeCoord P T D ∧ Started crude crudeCoord P' T' D' ∧
    crude.JacobiIterated crudeStop 3 2 T D [2, 2, 2, 2] psi bound ∧ crude.Iterated 1 T' D' 4 psi' ∧
    (∀ a < 2, ∀ c k, Crossings crude crudeCoord twoMesh [1, 0] a c k → ∀ s ∈ [2, 2, 2, 2], k < s) ∧
    Stored (fun x => x.toNat % 2 ^ 64) 2 T 2 2 psi A ∧
    Stored (fun x => x.toNat % 2 ^ 64) 1 T' 2 2 psi' A' ∧ Written 2 A (lgOf T) f ∧ Written 1 A' (lgOf T') f := by
  obtain ⟨P, H⟩ := created_of twoMesh_tets (by decide) (by decide) (pv := [1, 0]) (n := 2) rfl (by decide) (by decide)
  obtain ⟨P', H'⟩ := created_of twoMesh_tets (by decide) (by decide) (pv := [0, 0]) (n := 1) rfl (by decide) (by decide)
  obtain ⟨T, L⟩ := load_succeeds (id : Nat → Nat) H
  obtain ⟨T', L'⟩ := load_succeeds (id : Nat → Nat) H'
  obtain ⟨D, hD⟩ := started_exists (K := crude) (coord := crudeCoord) H L crude_material crude_dots
  obtain ⟨D', hD'⟩ := started_exists (K := crude) (coord := crudeCoord) H' L' crude_material crude_dots
  have s1 : ∀ r < 2, 2 * (T r).nCells < 2 ^ 64 := fun r hr => by have := crude_small H L r hr; omega
  have s2 : ∀ r < 1, 2 * (T' r).nCells < 2 ^ 64 := fun r hr => by have := crude_small H' L' r hr; omega
  obtain ⟨psi, bound, h⟩ := jacobi_iterated_exists H (by decide) L hD crude_sorted s1 crudeStop 3 4 (fun _ _ => rfl)
  obtain ⟨psi', h'⟩ := iterated_exists H' (by decide) L' hD' crude_sorted s2 ⟨3, 5, .tycho, false, fun _ c _ => c, fun _ _ _ _ _ => 3⟩
    (by decide) (by decide) rfl 4
  have hk : ∀ a < 2, ∀ c k, Crossings crude crudeCoord twoMesh [1, 0] a c k → ∀ s ∈ [2, 2, 2, 2], k < s := by
    intro a ha c k hc s hs
    have := crude_crossings ha hc
    simp only [List.mem_cons, List.not_mem_nil, or_false, or_self] at hs
    omega
  obtain ⟨A, hA⟩ := stored_exists (fun x : Int => x.toNat % 2 ^ 64) 2 T 2 2 psi
    (fun r hr => by have := crude_small H L r hr; unfold W; omega)
  obtain ⟨A', hA'⟩ := stored_exists (fun x : Int => x.toNat % 2 ^ 64) 1 T' 2 2 psi'
    (fun r hr => by have := crude_small H' L' r hr; unfold W; omega)
  obtain ⟨f, w⟩ := psiFile_returns (loaded_spread H L (by decide) hA (by decide) (by decide) (by decide) (by decide))
  obtain ⟨f', w'⟩ := psiFile_returns (loaded_spread H' L' (by decide) hA' (by decide) (by decide) (by decide) (by decide))
  have e : f = f' := jacobi_output H (by decide) (by decide) L hD H' (by decide) (by decide) L' hD' crude_sorted s1 s2
    (by decide) (by decide) (by decide) (by decide) h h' hk (by simp) hA hA' w w'
  subst e
  exact ⟨P, P', T, T', D, D', psi, psi', bound, A, A', f, H, H', L, L', hD, hD', h, h', hk, hA, hA', w, w'⟩

/-- C102: the hypotheses of `jacobi_cells`, `jacobi_bitwise`, `jacobi_enough` and `jacobi_stationary` hold: three local
sweeps from a flux of nines with boundary arrays of sevens, the last two of them the same. -/
example : ∃ (P : ParallelMesh) (T : Nat → Mesh) (D : Nat → Tables Int) (sweeps : List (Nat → Psi Int)) (psiEnd psi' : Nat → Psi Int)
    (boundEnd : Nat → Bound Int), Created twoMesh [1, 0] 2 P ∧ Loaded (id : Nat → Nat) P T ∧ Started crude crudeCoord P T D ∧
    Holds 2 2 2 T (fun _ _ _ _ _ => (5 : Int)) (fun _ _ _ _ => 5) ∧
    crude.Jacobi crudeStop 4 2 T D (fun _ _ _ _ _ => 5) (fun _ _ _ _ _ => 9) (fun _ _ _ _ _ => 7) sweeps psiEnd boundEnd ∧
    crude.Swept 2 T D (fun _ _ _ _ _ => 5) (fun _ _ _ _ _ => 0) psi' ∧ ∃ h : 2 < sweeps.length, SameOn 2 2 2 T sweeps[1] sweeps[2] := by
  obtain ⟨P, H⟩ := created_of twoMesh_tets (by decide) (by decide) (pv := [1, 0]) (n := 2) rfl (by decide) (by decide)
  obtain ⟨T, L⟩ := load_succeeds (id : Nat → Nat) H
  obtain ⟨D, hD⟩ := started_exists (K := crude) (coord := crudeCoord) H L crude_material crude_dots
  have s1 : ∀ r < 2, 2 * (T r).nCells < 2 ^ 64 := fun r hr => by have := crude_small H L r hr; omega
  obtain ⟨sweeps, psiEnd, boundEnd, h⟩ := jacobi_returns H (by decide) L hD crude_sorted s1 (fun _ _ _ _ _ => 5) (fun _ _ _ _ _ => 9)
    (fun _ _ _ _ _ => 7) crudeStop 4
  obtain ⟨psi', h', -⟩ := sweep_returns H (by decide) L hD crude_sorted s1 (fun _ _ _ _ _ => 5) (fun _ _ _ _ _ => 0)
    ⟨3, 5, .tycho, false, fun _ c _ => c, fun _ _ _ _ _ => 3⟩ (by decide) (by decide) rfl
  have hl : sweeps.length = 3 := jacobi_length (fun _ _ => rfl) h
  have hsrc : Holds 2 2 2 T (fun _ _ _ _ _ => (5 : Int)) (fun _ _ _ _ => 5) := fun _ _ _ _ _ _ _ _ _ _ => rfl
  refine ⟨P, T, D, sweeps, psiEnd, psi', boundEnd, H, L, hD, hsrc, h, h', by omega, ?_⟩
  intro r hr i hi a ha v g hg
  obtain ⟨c, hc⟩ := isCell_of_lt H L hr hi
  obtain ⟨e, -⟩ := isCell_lg H L hc
  rw [jacobi_cells H (by decide) L hD H (by decide) L hD crude_sorted s1 s1 hsrc hsrc h h' (i := 1) (by omega) ha
      (fun k hk => by have := crude_crossings ha hk; omega) hr e hr e g hg v,
    jacobi_cells H (by decide) L hD H (by decide) L hD crude_sorted s1 s1 hsrc hsrc h h' (i := 2) (by omega) ha
      (fun k hk => by have := crude_crossings ha hk; omega) hr e hr e g hg v]

/-- A test that counts the entries changed. -/
def countStop : Stop Int where
  error l := ((l.filter fun x => x.1 ≠ x.2).length : Int)
  norm _ := 1
  gsum l := l.sum
  below x _ := decide (x ≤ 0)

theorem count_sum (parts : List (List (Int × Int))) : 0 ≤ (parts.map countStop.error).sum ∧
    ((parts.map countStop.error).sum ≤ 0 ↔ ∀ p ∈ parts, ∀ q ∈ p, q.1 = q.2) := by
  induction parts with
  | nil => simp
  | cons p ps ih =>
    have e : countStop.error p = ((p.filter fun x => x.1 ≠ x.2).length : Int) := rfl
    have h0 : countStop.error p ≤ 0 ↔ ∀ q ∈ p, q.1 = q.2 := by
      have hf : (p.filter fun x => x.1 ≠ x.2) = [] ↔ ∀ q ∈ p, q.1 = q.2 := by
        rw [List.filter_eq_nil_iff]; simp
      rw [e, ← hf, ← List.length_eq_zero_iff]
      omega
    have h1 : 0 ≤ countStop.error p := by rw [e]; exact Int.natCast_nonneg _
    simp only [List.map_cons, List.sum_cons, List.forall_mem_cons]
    rw [← h0, ← ih.2]
    omega

theorem count_strict : Strict countStop := by
  intro parts h
  exact (count_sum parts).2.1 (by simpa [countStop] using h)

theorem count_lenient : Lenient countStop := by
  intro parts h
  have := (count_sum parts).2.2 h
  simpa [countStop] using this

/-- C102: the hypotheses of `jacobi_strict` and `jacobi_ends` hold: with a limit of ten the loop ends by its test, after two or
three local sweeps. -/
example : ∃ (P : ParallelMesh) (T : Nat → Mesh) (D : Nat → Tables Int) (sweeps : List (Nat → Psi Int)) (psiEnd psi' : Nat → Psi Int)
    (boundEnd : Nat → Bound Int) (psiS : Psi Int), Created twoMesh [1, 0] 2 P ∧ Loaded (id : Nat → Nat) P T ∧
    Started crude crudeCoord P T D ∧
    crude.Jacobi countStop 10 2 T D (fun _ _ _ _ _ => 5) (fun _ _ _ _ _ => 9) (fun _ _ _ _ _ => 7) sweeps psiEnd boundEnd ∧
    crude.Swept 2 T D (fun _ _ _ _ _ => 5) (fun _ _ _ _ _ => 0) psi' ∧ 2 ≤ sweeps.length ∧ sweeps.length ≤ 3 ∧
    Holds 2 2 2 T psiEnd psiS ∧ Holds 2 2 2 T psi' psiS := by
  obtain ⟨P, H⟩ := created_of twoMesh_tets (by decide) (by decide) (pv := [1, 0]) (n := 2) rfl (by decide) (by decide)
  obtain ⟨T, L⟩ := load_succeeds (id : Nat → Nat) H
  obtain ⟨D, hD⟩ := started_exists (K := crude) (coord := crudeCoord) H L crude_material crude_dots
  have s1 : ∀ r < 2, 2 * (T r).nCells < 2 ^ 64 := fun r hr => by have := crude_small H L r hr; omega
  obtain ⟨sweeps, psiEnd, boundEnd, h⟩ := jacobi_returns H (by decide) L hD crude_sorted s1 (fun _ _ _ _ _ => 5) (fun _ _ _ _ _ => 9)
    (fun _ _ _ _ _ => 7) countStop 10
  obtain ⟨psi', h', -⟩ := sweep_returns H (by decide) L hD crude_sorted s1 (fun _ _ _ _ _ => 5) (fun _ _ _ _ _ => 0)
    ⟨3, 5, .tycho, false, fun _ c _ => c, fun _ _ _ _ _ => 3⟩ (by decide) (by decide) rfl
  have hsrc : Holds 2 2 2 T (fun _ _ _ _ _ => (5 : Int)) (fun _ _ _ _ => 5) := fun _ _ _ _ _ _ _ _ _ _ => rfl
  have h3 : sweeps.length ≤ 3 := jacobi_ends H (by decide) L hD crude_sorted s1 hsrc count_lenient h (B := 1)
    (fun a ha c k hk => by have := crude_crossings ha hk; omega)
  have h2 : 2 ≤ sweeps.length := by
    obtain ⟨r, i, hc⟩ := isCell_exists H (c := 0) (by decide)
    obtain ⟨e, hr, hi, -⟩ := isCell_lg H L hc
    cases h with
    | limit h => exact absurd h (by decide)
    | conv _ hsw hm =>
      exfalso
      have hl := local_eq (m := twoMesh) (P := P) (fun sched ht => cfg_linked H (by decide) L hD crude_sorted.consistent ht s1) hsw
        r hr i hi 0 (by decide) 0 0
      have hq := count_strict ((List.range 2).map fun r => fluxPairs 2 2 (T r).nCells (fun _ _ _ _ => 9) (psiEnd r))
        (by simpa only [Stop.met, List.map_map, Function.comp_def] using hm) _ (List.mem_map.2 ⟨r, List.mem_range.2 hr, rfl⟩)
        (9, psiEnd r 0 0 0 i) (by
          simp only [fluxPairs, List.mem_flatMap, List.mem_map, List.mem_range, List.mem_finRange, true_and]
          exact ⟨i, hi, 0, by decide, 0, 0, by decide, rfl⟩)
      have h10 : ∀ x y, crudeAdd x y ≠ 9 := by intro x y; unfold crudeAdd; omega
      exact h10 _ _ (hl.symm.trans hq.symm)
    | @next _ _ _ _ _ _ rest _ _ _ _ _ _ hr =>
      cases hr with
      | limit h => exact absurd h (by decide)
      | conv => simp
      | next => simp
  obtain ⟨psiS, e1, e2⟩ := jacobi_strict H (by decide) L hD H (by decide) L hD crude_sorted s1 s1 hsrc hsrc count_strict h h' h2 (by omega)
  exact ⟨P, T, D, sweeps, psiEnd, psi', boundEnd, psiS, H, L, hD, h, h', h2, h3, e1, e2⟩

end Verif.Floating
