import Verif.Floating.BlocksProps
import Verif.Floating.JacobiExample

/-!
# An example for C104: block Jacobi with source iteration in arithmetic that is not associative
-/
namespace Verif.Floating

open Verif.MeshFile Verif.TychoMesh Verif.Traverse Verif.Floating.Spec Verif.PsiFile Verif.Storage Verif.Program

/-- C104: the hypotheses of `blocks_iterates`, `blocks_repeat` and `blocks_deterministic` hold: five iterations for two
tetrahedra, each on a rank of its own, with scattering. -/
example : ∃ (P : ParallelMesh) (T : Nat → Mesh) (D : Nat → Tables Int) (fluxes : List (Nat → Psi Int)) (psiEnd : Nat → Psi Int)
    (phiS : Nat → Fin 4 → Nat → Int) (psiS : Psi Int), Created twoMesh [1, 0] 2 P ∧ Loaded (id : Nat → Nat) P T ∧
    Started crude crudeCoord P T D ∧ crude.Blocks crudeStop 6 2 T D fluxes psiEnd ∧ fluxes.length = 5 ∧
    BlockIterates crude crudeCoord twoMesh [1, 0] 5 phiS psiS ∧ Holds 2 2 2 T psiEnd psiS := by
  obtain ⟨P, H⟩ := created_of twoMesh_tets (by decide) (by decide) (pv := [1, 0]) (n := 2) rfl (by decide) (by decide)
  obtain ⟨T, L⟩ := load_succeeds (id : Nat → Nat) H
  obtain ⟨D, hD⟩ := started_exists (K := crude) (coord := crudeCoord) H L crude_material crude_dots
  have s1 : ∀ r < 2, 2 * (T r).nCells < 2 ^ 64 := fun r hr => by have := crude_small H L r hr; omega
  obtain ⟨fluxes, psiEnd, h⟩ := blocks_returns H (by decide) L hD crude_sorted s1 crudeStop 6
  have hl : fluxes.length = 5 := by
    by_contra hne
    have h1 := blocks_length h
    by_cases h0 : fluxes.length = 0
    · rw [List.length_eq_zero_iff.1 h0] at h
      cases h with
      | limit h => exact h (by decide)
    · have := (blocks_tested h (fluxes.length - 1) (by omega)).2 (by omega) (by omega)
      simp [Stop.metPhi, crudeStop] at this
  obtain ⟨phiS, psiS, e1, e2⟩ := blocks_iterates H (by decide) L hD crude_sorted s1 h 4 (by omega)
  refine ⟨P, T, D, fluxes, psiEnd, phiS, psiS, H, L, hD, h, hl, e1, ?_⟩
  have := blocks_last h (by omega)
  simp only [hl] at this
  rw [this]
  exact e2

/-- A pure absorber; no flux is zero. -/
def absorber : Kernel Int 2 2 :=
  { crude with
    sigmaS1 := 0
    sigmaS2 := 0
    solve := fun vol area dots sT c2f inc src v g => crude.solve vol area dots sT c2f inc src v g + 1
    total := fun s _ _ => s
    toPhi := fun psi => crudeAdd (psi 0) (psi 1) + psi 0 }

theorem absorber_sorted : Sorted absorber crudeCoord twoMesh := ⟨crude_sorted.1, crude_sorted.2, crude_sorted.3⟩

theorem absorber_crossings {a c k : Nat} {pv : List Nat} (ha : a < 2) (h : Crossings absorber crudeCoord twoMesh pv a c k) : k < 2 := by
  by_cases hc : c < twoMesh.numCells
  · exact crossings_lt (K := absorber) twoMesh_tets (fun _ _ _ _ h a ha => crude_across h ha) absorber_sorted ha hc h
  · cases h with
    | nil => decide
    | within _ _ hac => exact absurd (across_lt twoMesh_tets hac).1 hc
    | between _ _ hac => exact absurd (across_lt twoMesh_tets hac).1 hc

/-- A local sweep leaves fluxes that end in one. -/
theorem absorber_odd {n : Nat} {pv : List Nat} {P : ParallelMesh} {T : Nat → Mesh} {D : Nat → Tables Int} {source psi psi' : Nat → Psi Int}
    {bound : Nat → Bound Int} (H : Created twoMesh pv n P) (hn : n < uintMax) (L : Loaded (id : Nat → Nat) P T)
    (hD : Started absorber crudeCoord P T D) (h : absorber.LocalSwept n T D source psi bound psi') {r i a g : Nat} {v : Fin 4} (hr : r < n)
    (hi : i < (T r).nCells) (ha : a < 2) (hg : g < 2) : psi' r g v a i % 10 = 1 ∧ absorber.phi (psi' r) g v i ≠ 0 := by
  have s1 : ∀ r < n, 2 * (T r).nCells < 2 ^ 64 := fun r hr => by have := crude_small H L r hr; omega
  have hl := local_eq (m := twoMesh) (P := P) (fun sched ht => cfg_linked H hn L hD absorber_sorted.consistent ht s1) h
  have key : ∀ a < 2, psi' r g v a i % 10 = 1 := by
    intro a ha
    rw [hl r hr i hi a ha v ⟨g, hg⟩]
    show (crudeAdd _ _ + 1) % 10 = 1
    unfold crudeAdd
    omega
  refine ⟨key a ha, ?_⟩
  have h0 := key 0 (by decide)
  show crudeAdd (psi' r g v 0 i) (psi' r g v 1 i) + psi' r g v 0 i ≠ 0
  unfold crudeAdd
  omega

/-- Without scattering the loop is that of block Jacobi with as many local sweeps. -/
theorem absorber_jacobi {stop : Stop Int} {n N : Nat} {T : Nat → Mesh} {D : Nat → Tables Int} {iter : Nat}
    {phi : Nat → Nat → Fin 4 → Nat → Int} {psi : Nat → Psi Int} {bound : Nat → Bound Int} {fl : List (Nat → Psi Int)} {e : Nat → Psi Int}
    (h : absorber.BlockLoop stop N n T D iter phi psi bound fl e) (prev : Nat → Psi Int) :
    ∃ b, absorber.JacobiLoop crudeStop (iter + fl.length) n T D (fun r => absorber.sourceOf (D r) fun _ _ _ => 0) iter psi prev bound fl e b := by
  induction h generalizing prev with
  | limit h => exact ⟨_, .limit (by simp)⟩
  | conv _ hs hx _ => exact ⟨_, .next (by simp) hs (by simp [Stop.met, crudeStop]) hx (.limit (by simp))⟩
  | @next iter _ _ _ psi' _ rest _ h hs hx _ _ ih =>
    obtain ⟨b, hb⟩ := ih psi'
    refine ⟨b, .next (by simp) hs (by simp [Stop.met, crudeStop]) hx ?_⟩
    rw [List.length_cons, show iter + (rest.length + 1) = iter + 1 + rest.length from by omega]
    exact hb

/-- From the second iteration on nothing changes. -/
theorem absorber_same {stop : Stop Int} {N : Nat} {P : ParallelMesh} {T : Nat → Mesh} {D : Nat → Tables Int}
    (H : Created twoMesh [1, 0] 2 P) (L : Loaded (id : Nat → Nat) P T) (hD : Started absorber crudeCoord P T D)
    {fluxes : List (Nat → Psi Int)} {psiEnd : Nat → Psi Int} (h : absorber.Blocks stop N 2 T D fluxes psiEnd) (hl : 2 < fluxes.length) :
    SameOn 2 2 2 T fluxes[1] fluxes[2] := by
  have s1 : ∀ r < 2, 2 * (T r).nCells < 2 ^ 64 := fun r hr => by have := crude_small H L r hr; omega
  obtain ⟨b, hb⟩ := absorber_jacobi h (fun _ _ _ _ _ => 0)
  obtain ⟨psi', h', -⟩ := sweep_returns H (by decide) L hD absorber_sorted s1 (fun r => absorber.sourceOf (D r) fun _ _ _ => 0)
    (fun _ _ _ _ _ => 0) ⟨3, 5, .tycho, false, fun _ c _ => c, fun _ _ _ _ _ => 3⟩ (by decide) (by decide) rfl
  obtain ⟨srcS, -, hsrc⟩ := sourceOf_total H L hD (phi := fun _ _ _ _ => 0) (phiS := fun _ _ _ => 0)
    (fun _ _ _ _ _ _ _ _ => rfl)
  intro r hr i hi a ha v g hg
  obtain ⟨c, hc⟩ := isCell_of_lt H L hr hi
  obtain ⟨e, -⟩ := isCell_lg H L hc
  rw [jacobi_cells H (by decide) L hD H (by decide) L hD absorber_sorted s1 s1 hsrc hsrc hb h' (i := 1) (by omega) ha
      (fun k hk => by have := absorber_crossings ha hk; omega) hr e hr e g hg v,
    jacobi_cells H (by decide) L hD H (by decide) L hD absorber_sorted s1 s1 hsrc hsrc hb h' (i := 2) (by omega) ha
      (fun k hk => by have := absorber_crossings ha hk; omega) hr e hr e g hg v]

/-- C104: the hypotheses of `blocks_fixed` and `blocks_stay` hold. -/
example : ∃ (P P' : ParallelMesh) (T T' : Nat → Mesh) (D D' : Nat → Tables Int) (fluxes : List (Nat → Psi Int))
    (psiEnd q q' : Nat → Psi Int) (psiS : Psi Int), Created twoMesh [1, 0] 2 P ∧ Created twoMesh [0, 0] 1 P' ∧
    Loaded (id : Nat → Nat) P T ∧ Loaded (id : Nat → Nat) P' T' ∧ Started absorber crudeCoord P T D ∧
    Started absorber crudeCoord P' T' D' ∧ absorber.Blocks crudeStop 4 2 T D fluxes psiEnd ∧ Holds 2 2 1 T' q psiS ∧
    absorber.Swept 1 T' D' (fun r => absorber.totalSource (D' r) (q r)) (fun _ _ _ _ _ => 9) q' ∧ Holds 2 2 1 T' q' psiS ∧
    ∃ h : 2 < fluxes.length, SameOn 2 2 2 T fluxes[1] fluxes[2] ∧ Holds 2 2 2 T fluxes[1] psiS := by
  obtain ⟨P, H⟩ := created_of twoMesh_tets (by decide) (by decide) (pv := [1, 0]) (n := 2) rfl (by decide) (by decide)
  obtain ⟨P', H'⟩ := created_of twoMesh_tets (by decide) (by decide) (pv := [0, 0]) (n := 1) rfl (by decide) (by decide)
  obtain ⟨T, L⟩ := load_succeeds (id : Nat → Nat) H
  obtain ⟨T', L'⟩ := load_succeeds (id : Nat → Nat) H'
  obtain ⟨D, hD⟩ := started_exists (K := absorber) (coord := crudeCoord) H L crude_material crude_dots
  obtain ⟨D', hD'⟩ := started_exists (K := absorber) (coord := crudeCoord) H' L' crude_material crude_dots
  have s1 : ∀ r < 2, 2 * (T r).nCells < 2 ^ 64 := fun r hr => by have := crude_small H L r hr; omega
  have s2 : ∀ r < 1, 2 * (T' r).nCells < 2 ^ 64 := fun r hr => by have := crude_small H' L' r hr; omega
  obtain ⟨fluxes, psiEnd, h⟩ := blocks_returns H (by decide) L hD absorber_sorted s1 crudeStop 4
  have hl : fluxes.length = 3 := by
    by_contra hne
    have h1 := blocks_length h
    by_cases h0 : fluxes.length = 0
    · rw [List.length_eq_zero_iff.1 h0] at h
      cases h with
      | limit h => exact h (by decide)
    · have := (blocks_tested h (fluxes.length - 1) (by omega)).2 (by omega) (by omega)
      simp [Stop.metPhi, crudeStop] at this
  have hsame := absorber_same H L hD h (by omega)
  obtain ⟨phiS, psiS, -, hS⟩ := blocks_iterates H (by decide) L hD absorber_sorted s1 h 1 (by omega)
  let q : Nat → Psi Int := fun r g v a i => psiS g v a (((T' r).getLGCell i).getD 0)
  have hq : Holds 2 2 1 T' q psiS := by
    intro r hr i c hc g hg v a ha
    show psiS g v a _ = _
    rw [hc]
    rfl
  obtain ⟨q', hsw, -⟩ := sweep_returns H' (by decide) L' hD' absorber_sorted s2 (fun r => absorber.totalSource (D' r) (q r))
    (fun _ _ _ _ _ => 9) ⟨2, 1, .tycho, true, fun _ c _ => c, fun _ _ _ _ _ => 3⟩ (by decide) (by decide) rfl
  exact ⟨P, P', T, T', D, D', fluxes, psiEnd, q, q', psiS, H, H', L, L', hD, hD', h, hq, hsw,
    blocks_fixed H (by decide) L hD H' (by decide) L' hD' absorber_sorted s1 s2 h (j := 1) (by omega) hsame hS hq hsw,
    by omega, hsame, hS⟩

/-- C104: the hypotheses of `blocks_strict` and `blocks_ends` hold: with a limit of ten the loop ends by its test. -/
example : ∃ (P : ParallelMesh) (T : Nat → Mesh) (D : Nat → Tables Int) (fluxes : List (Nat → Psi Int)) (psiEnd : Nat → Psi Int),
    Created twoMesh [1, 0] 2 P ∧ Loaded (id : Nat → Nat) P T ∧ Started absorber crudeCoord P T D ∧
    absorber.Blocks countStop 10 2 T D fluxes psiEnd ∧ 2 ≤ fluxes.length ∧ fluxes.length ≤ 3 := by
  obtain ⟨P, H⟩ := created_of twoMesh_tets (by decide) (by decide) (pv := [1, 0]) (n := 2) rfl (by decide) (by decide)
  obtain ⟨T, L⟩ := load_succeeds (id : Nat → Nat) H
  obtain ⟨D, hD⟩ := started_exists (K := absorber) (coord := crudeCoord) H L crude_material crude_dots
  have s1 : ∀ r < 2, 2 * (T r).nCells < 2 ^ 64 := fun r hr => by have := crude_small H L r hr; omega
  obtain ⟨fluxes, psiEnd, h⟩ := blocks_returns H (by decide) L hD absorber_sorted s1 countStop 10
  refine ⟨P, T, D, fluxes, psiEnd, H, L, hD, h, ?_, ?_⟩
  · obtain ⟨r, i, hc⟩ := isCell_exists H (c := 0) (by decide)
    obtain ⟨e, hr, hi, -⟩ := isCell_lg H L hc
    cases h with
    | limit h => exact absurd h (by decide)
    | conv _ hsw _ hm =>
      exfalso
      rw [metPhi_pairs] at hm
      have hq : absorber.phi (psiEnd r) 0 0 i = 0 := count_strict _ hm _ (List.mem_map.2 ⟨r, List.mem_range.2 hr, rfl⟩)
        (absorber.phi (psiEnd r) 0 0 i, 0) (by
          simp only [pairs, List.mem_flatMap, List.mem_map, List.mem_range, List.mem_finRange, true_and]
          exact ⟨i, hi, 0, 0, by decide, rfl⟩)
      exact (absorber_odd H (by decide) L hD hsw hr hi (a := 0) (by decide) (by decide)).2 hq
    | @next _ _ _ _ _ _ rest _ _ _ _ _ hr =>
      cases hr with
      | limit h => exact absurd h (by decide)
      | conv => simp
      | next => simp
  · by_contra hlt
    have := blocks_ends count_lenient h (j := 1) (by omega) (by
      intro r hr i hi g hg v
      congr 1
      funext a
      exact (absorber_same H L hD h (by omega) r hr i hi a a.2 v g hg).symm)
    omega

end Verif.Floating
