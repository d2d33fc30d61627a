import Verif.Rounding.Blocks
import Verif.Rounding.StopExample
import Verif.Floating.Settle

/-!
# Examples for C106: block Jacobi for two tetrahedra on two ranks in double precision
-/
set_option linter.unusedSectionVars false

namespace Verif.Rounding

open Verif.MeshFile Verif.TychoMesh Verif.Geometry Verif.Traverse Verif.Program Verif.Program.Spec
open Verif.Rounding.Spec hiding Acyclic
open Verif.Floating (Kernel Test Stop Tables SameOn)
open Verif.Floating.Spec (Holds Crossings)

/-- With a tolerance of zero the test is never met. -/
noncomputable def neverStop : Stop ℝ where
  error l := l.foldl (fun s q => binary64 (s + |binary64 (q.1 - q.2)|)) 0
  norm l := l.foldl (fun s q => binary64 (s + |q.2|)) 0
  gsum l := l.foldl (fun s y => binary64 (s + y)) 0
  below _ _ := false

/-- The same for the source iterations. -/
noncomputable def neverTest : Test ℝ := { test64 0 with above := fun _ => true }

theorem never_blocks {nA nG : Nat} {K : Kernel ℝ nA nG} {N n : Nat} {T : Nat → Mesh} {D : Nat → Tables ℝ} {iter : Nat}
    {phi : Nat → Nat → Fin 4 → Nat → ℝ} {psi e : Nat → Psi ℝ} {bound : Nat → Bound ℝ} {fl : List (Nat → Psi ℝ)}
    (h : K.BlockLoop neverStop N n T D iter phi psi bound fl e) : fl.length = N - iter := by
  induction h with
  | limit => simp; omega
  | conv _ _ _ hc => simp [Stop.metPhi, neverStop] at hc
  | next _ _ _ _ _ ih => simp only [List.length_cons]; omega

theorem never_inner {nA nG : Nat} {K : Kernel ℝ nA nG} {N n : Nat} {T : Nat → Mesh} {D : Nat → Tables ℝ} {bound : Nat → Bound ℝ} {iter : Nat}
    {error : ℝ} {psi e : Nat → Psi ℝ} {fl : List (Nat → Psi ℝ)} (h : K.InnerLoop neverTest N n T D bound iter error psi fl e) :
    fl.length = N - iter := by
  induction h with
  | stop h => rcases h with h | h
              · simp; omega
              · simp [neverTest] at h
  | step _ _ _ _ ih => simp only [List.length_cons]; omega

theorem never_outer {nA nG : Nat} {K : Kernel ℝ nA nG} {N ddMax n : Nat} {T : Nat → Mesh} {D : Nat → Tables ℝ} {bound : Nat → Bound ℝ}
    {iter : Nat} {psi prev e : Nat → Psi ℝ} {runs : List (List (Nat → Psi ℝ))}
    (h : K.OuterLoop neverTest N neverStop ddMax n T D iter psi prev bound runs e) :
    runs.map List.length = List.replicate (ddMax - iter) N := by
  induction h with
  | @limit iter _ _ _ h => rw [show ddMax - iter = 0 from by omega]; rfl
  | conv _ _ hc => simp [Stop.met, neverStop] at hc
  | @next iter _ _ _ _ _ _ _ _ h hi _ _ _ ih =>
    rw [List.map_cons, ih, never_inner hi, show ddMax - iter = ddMax - (iter + 1) + 1 from by omega]
    rfl

/-- C106: all conditions of `machine_blocks` hold in double precision, with scattering: ten iterations. -/
example : ∃ (deck : Deck) (p : Problem ℝ) (sS : Nat → ℝ) (T : Nat → Mesh) (D : Nat → Tables ℝ) (fluxes : List (Nat → Psi ℝ))
    (psiEnd : Nat → Psi ℝ) (new psi : Psi ℝ) (X Q Δ Λ : ℝ), deck.dirs.length = 8 ∧ (machine64 deck).Blocks neverStop 11 2 T D fluxes psiEnd ∧
    fluxes.length = 10 ∧ Holds deck.dirs.length deck.nGroups 2 T psiEnd new ∧ p.Scatter twoMesh (scattering deck sS) psi ∧
    (∃ c < 2, sS c ≠ 0) ∧
    ∀ g < deck.nGroups,
      (1 - 3 / 4) ^ 2 * ∑ a ∈ Finset.range deck.dirs.length, (scattering deck sS).wt a * ∑ c ∈ Finset.range 2,
          p.sigmaT c * p.volume c * Verif.Source.cellM (fun v => new g v a c - psi g v a c) (fun v => new g v a c - psi g v a c) ≤
        ∑ a ∈ Finset.range deck.dirs.length, (scattering deck sS).wt a * ∑ c ∈ Finset.range 2,
          (2 * p.volume c * (14 * 2 ^ (-53 : ℤ) * (0.04 + 2) + 2 ^ (-53 : ℤ) * (1.001 * (0.04 + 2)) +
              sS c / (4 * Real.pi) * ((6 * 2 ^ (-53 : ℤ) + ((1 + 2 ^ (-53 : ℤ)) ^ (deck.dirs.length + 1) - 1)) *
              ((∑ a ∈ Finset.range deck.dirs.length, (scattering deck sS).wt a) * X) + Δ)) ^ 2 / p.sigmaT c +
            160 * (2 ^ (-53 : ℤ) * (223 + 31 * 2) * (((∑ f, p.area c f) + p.sigmaT c * p.volume c) * X + p.volume c * Q) +
              0.34 * (∑ f, p.area c f) * Λ) ^ 2 / (p.sigmaT c * p.volume c)) := by
  obtain ⟨deck, p, sS, P, T, D, G, hlen, hG, t1, t2, t3, t4, H, L, hD, hsort, hom, hsize⟩ := two_machine
  have hcell : ∀ c < twoMesh.numCells, 0 < p.sigmaT c ∧ 0 ≤ sS c ∧ |p.sigmaT c - sS c| ≤ 2 := by
    intro c hc
    have hc : c < 2 := hc
    interval_cases c
    · rw [t1, t2]; norm_num
    · rw [t3, t4]; norm_num
  have hph := geometry_physical twoMesh_tets two_fits G.describes fun c hc => (hcell c hc).1
  have hrat := describes_ratio twoMesh_tets G.describes G.subcritical
  obtain ⟨psi, hpsi⟩ := scatter_solution H (by decide) L hph (geometry_matched twoMesh_tets two_fits G.describes) G.acyclic G.transversal
    (by rw [G.describes.angles]; exact hsize) hrat G.below
  obtain ⟨fluxes, psiEnd, h⟩ := Verif.Floating.blocks_returns H (by decide) L hD hsort hsize neverStop 11
  have hl : fluxes.length = 10 := never_blocks h
  obtain ⟨old, new, src, -, hnew, -, hbound⟩ := machine_blocks binary64_rounds (by norm_num) H (by decide) L hD hsort two_fits
    G.describes machine64_computes machine64_solves machine64_adds rfl two_shaped two_stout two_apart (by norm_num) hom
    (fun c hc => (hcell c hc).1) (fun c hc => two_thick G.describes t1 t3 hc) (by rw [hlen]; norm_num) hrat G.below
    (fun c hc => (hcell c hc).2.1) (fun c hc => (hcell c hc).2.2) hsize h (j := 8) (by omega) hpsi
  have hlast := Verif.Floating.blocks_last h (by omega)
  simp only [hl] at hlast
  rw [← hlast] at hnew
  obtain ⟨X1, hX1⟩ := bounded old deck.nGroups deck.dirs.length twoMesh.numCells
  obtain ⟨X2, hX2⟩ := bounded new deck.nGroups deck.dirs.length twoMesh.numCells
  obtain ⟨Q, hQ⟩ := bounded src deck.nGroups deck.dirs.length twoMesh.numCells
  obtain ⟨Δ, hΔ⟩ := bounded (fun g v _ c => ∑ a ∈ Finset.range deck.dirs.length, (old g v a c - new g v a c) * (scattering deck sS).wt a)
    deck.nGroups 1 twoMesh.numCells
  obtain ⟨Λ, hΛ⟩ := bounded (fun g v a c => old g v a c - new g v a c) deck.nGroups deck.dirs.length twoMesh.numCells
  have hΛ0 : 0 ≤ Λ := (abs_nonneg _).trans (hΛ 0 (by omega) 0 0 (by omega) 0 (by decide))
  exact ⟨deck, p, sS, T, D, fluxes, psiEnd, new, psi, max X1 X2, Q, Δ, Λ, hlen, h, hl, hnew, hpsi, ⟨0, by norm_num, by rw [t2]; norm_num⟩,
    hbound (max X1 X2) Q Δ (fun _ => Λ) (fun g hg v a ha c hc => ⟨(hX1 g hg v a ha c hc).trans (le_max_left _ _),
      (hX2 g hg v a ha c hc).trans (le_max_right _ _), hQ g hg v a ha c hc⟩) (fun g hg v c hc => hΔ g hg v 0 (by norm_num) c hc)
      (fun _ _ => hΛ0) (fun c f c' f' hac _ g hg v a ha => hΛ g hg v a ha c' (across_cells twoMesh_tets hac).2)⟩

/-- C106: all conditions of `machine_outer` hold in double precision, with scattering: four outer iterations of three source iterations. -/
example : ∃ (deck : Deck) (p : Problem ℝ) (sS : Nat → ℝ) (T : Nat → Mesh) (D : Nat → Tables ℝ) (runs : List (List (Nat → Psi ℝ)))
    (psiEnd y : Nat → Psi ℝ) (new psi : Psi ℝ) (X Q Δ Λ : ℝ), deck.dirs.length = 8 ∧
    (machine64 deck).Outer neverTest 3 neverStop 5 2 T D runs psiEnd ∧ runs.map List.length = [3, 3, 3, 3] ∧ (runs[3]?.bind fun l => l[2]?) = some y ∧
    Holds deck.dirs.length deck.nGroups 2 T y new ∧ p.Scatter twoMesh (scattering deck sS) psi ∧ (∃ c < 2, sS c ≠ 0) ∧
    ∀ g < deck.nGroups,
      (1 - 3 / 4) ^ 2 * ∑ a ∈ Finset.range deck.dirs.length, (scattering deck sS).wt a * ∑ c ∈ Finset.range 2,
          p.sigmaT c * p.volume c * Verif.Source.cellM (fun v => new g v a c - psi g v a c) (fun v => new g v a c - psi g v a c) ≤
        ∑ a ∈ Finset.range deck.dirs.length, (scattering deck sS).wt a * ∑ c ∈ Finset.range 2,
          (2 * p.volume c * (14 * 2 ^ (-53 : ℤ) * (0.04 + 2) + 2 ^ (-53 : ℤ) * (1.001 * (0.04 + 2)) +
              sS c / (4 * Real.pi) * ((6 * 2 ^ (-53 : ℤ) + ((1 + 2 ^ (-53 : ℤ)) ^ (deck.dirs.length + 1) - 1)) *
              ((∑ a ∈ Finset.range deck.dirs.length, (scattering deck sS).wt a) * X) + Δ)) ^ 2 / p.sigmaT c +
            160 * (2 ^ (-53 : ℤ) * (223 + 31 * 2) * (((∑ f, p.area c f) + p.sigmaT c * p.volume c) * X + p.volume c * Q) +
              0.34 * (∑ f, p.area c f) * Λ) ^ 2 / (p.sigmaT c * p.volume c)) := by
  obtain ⟨deck, p, sS, P, T, D, G, hlen, hG, t1, t2, t3, t4, H, L, hD, hsort, hom, hsize⟩ := two_machine
  have hcell : ∀ c < twoMesh.numCells, 0 < p.sigmaT c ∧ 0 ≤ sS c ∧ |p.sigmaT c - sS c| ≤ 2 := by
    intro c hc
    have hc : c < 2 := hc
    interval_cases c
    · rw [t1, t2]; norm_num
    · rw [t3, t4]; norm_num
  have hph := geometry_physical twoMesh_tets two_fits G.describes fun c hc => (hcell c hc).1
  have hrat := describes_ratio twoMesh_tets G.describes G.subcritical
  obtain ⟨psi, hpsi⟩ := scatter_solution H (by decide) L hph (geometry_matched twoMesh_tets two_fits G.describes) G.acyclic G.transversal
    (by rw [G.describes.angles]; exact hsize) hrat G.below
  obtain ⟨runs, psiEnd, h⟩ := Verif.Floating.outer_returns H (by decide) L hD hsort hsize neverTest 3 neverStop 5
  have hl : runs.map List.length = [3, 3, 3, 3] := never_outer h
  obtain ⟨r0, r1, r2, r3, rfl⟩ : ∃ r0 r1 r2 r3, runs = [r0, r1, r2, r3] := by
    have := congrArg List.length hl
    simp only [List.length_map, List.length_cons, List.length_nil] at this
    match runs, this with
    | [r0, r1, r2, r3], _ => exact ⟨r0, r1, r2, r3, rfl⟩
  simp only [List.map_cons, List.map_nil, List.cons.injEq] at hl
  obtain ⟨l0, l1, l2, l3, -⟩ := hl
  obtain ⟨a0, a1, o, rfl⟩ : ∃ x y z, r2 = [x, y, z] := List.length_eq_three.1 l2
  obtain ⟨b0, x, y, rfl⟩ : ∃ x y z, r3 = [x, y, z] := List.length_eq_three.1 l3
  obtain ⟨old, mid, new, src, -, -, hnew, -, hbound⟩ := machine_outer binary64_rounds (by norm_num) H (by decide) L hD hsort two_fits
    G.describes machine64_computes machine64_solves machine64_adds rfl two_shaped two_stout two_apart (by norm_num) hom
    (fun c hc => (hcell c hc).1) (fun c hc => two_thick G.describes t1 t3 hc) (by rw [hlen]; norm_num) hrat G.below
    (fun c hc => (hcell c hc).2.1) (fun c hc => (hcell c hc).2.2) hsize h (j := 2) (by simp) (fl := [a0, a1]) (o := o) rfl
    (pre := [o, b0]) (post := []) (x := x) (y := y) rfl hpsi
  obtain ⟨X1, hX1⟩ := bounded old deck.nGroups deck.dirs.length twoMesh.numCells
  obtain ⟨X2, hX2⟩ := bounded new deck.nGroups deck.dirs.length twoMesh.numCells
  obtain ⟨X3, hX3⟩ := bounded mid deck.nGroups deck.dirs.length twoMesh.numCells
  obtain ⟨Q, hQ⟩ := bounded src deck.nGroups deck.dirs.length twoMesh.numCells
  obtain ⟨Δ, hΔ⟩ := bounded (fun g v _ c => ∑ a ∈ Finset.range deck.dirs.length, (mid g v a c - new g v a c) * (scattering deck sS).wt a)
    deck.nGroups 1 twoMesh.numCells
  obtain ⟨Λ, hΛ⟩ := bounded (fun g v a c => old g v a c - new g v a c) deck.nGroups deck.dirs.length twoMesh.numCells
  have hΛ0 : 0 ≤ Λ := (abs_nonneg _).trans (hΛ 0 (by omega) 0 0 (by omega) 0 (by decide))
  exact ⟨deck, p, sS, T, D, _, psiEnd, y, new, psi, max X1 (max X2 X3), Q, Δ, Λ, hlen, h, by simp [l0, l1], rfl, hnew, hpsi, ⟨0, by norm_num, by rw [t2]; norm_num⟩,
    hbound (max X1 (max X2 X3)) Q Δ (fun _ => Λ) (fun g hg v a ha c hc => ⟨(hX1 g hg v a ha c hc).trans (le_max_left _ _),
      (hX3 g hg v a ha c hc).trans ((le_max_right _ _).trans (le_max_right _ _)), (hX2 g hg v a ha c hc).trans ((le_max_left _ _).trans (le_max_right _ _)),
      hQ g hg v a ha c hc⟩) (fun g hg v c hc => hΔ g hg v 0 (by norm_num) c hc)
      (fun _ _ => hΛ0) (fun c f c' f' hac _ g hg v a ha => hΛ g hg v a ha c' (across_cells twoMesh_tets hac).2)⟩

theorem one_absorbs : Verif.Floating.Spec.Absorbs (machine64 oneDeck) := by
  have key : ∀ s x : ℝ, rtotal binary64 s 0 x = binary64 s := by
    intro s x
    show binary64 (s + binary64 (binary64 (0 / _) * x)) = _
    rw [zero_div, rnd_zero binary64_rounds, zero_mul, rnd_zero binary64_rounds, add_zero]
  intro s x y
  exact ⟨(key s x).trans (key s y).symm, (key s x).trans (key s y).symm⟩

theorem one_crossings {P : ParallelMesh} {T : Nat → Mesh} {D : Nat → Tables ℝ} (H : Created twoMesh [1, 0] 2 P) (L : Loaded twoVal P T)
    (hD : Verif.Floating.Started (machine64 oneDeck) twoVal P T D) (hsort : Verif.Floating.Sorted (machine64 oneDeck) twoVal twoMesh) :
    ∀ a < oneDeck.dirs.length, ∀ c < twoMesh.numCells, ∀ k, Crossings (machine64 oneDeck) twoVal twoMesh [1, 0] a c k → k ≤ 1 := by
  intro a ha c hc k hk
  refine Nat.le_of_lt_succ (Verif.Floating.crossings_lt twoMesh_tets (fun c f c' f' hac a ha => ?_) hsort ha hc hk)
  obtain ⟨r, i, hi⟩ := isCell_exists H (across_cells twoMesh_tets hac).2
  obtain ⟨p, q, sT, sS, R⟩ := Verif.Floating.row_of H L hD hi
  exact ⟨_, q f', p, R.faces f', R.points, R.omega a ha f'⟩

theorem one_exact {p : Problem ℝ} {sS : Nat → ℝ} {P : ParallelMesh} {T : Nat → Mesh} (Ds : Describes twoVal oneDeck twoMesh p sS)
    (hac : p.Acyclic twoMesh) (htr : p.Transversal twoMesh) (t1 : p.sigmaT 0 = 1) (t2 : sS 0 = 0) (t3 : p.sigmaT 1 = 2) (t4 : sS 1 = 0)
    (H : Created twoMesh [1, 0] 2 P) (L : Loaded twoVal P T) (hsize : ∀ r < 2, oneDeck.dirs.length * (T r).nCells < 2 ^ 64) :
    (∀ c < twoMesh.numCells, 0 < p.sigmaT c ∧ 0 ≤ sS c ∧ |p.sigmaT c - sS c| ≤ 2) ∧ p.Ratio twoMesh (scattering oneDeck sS) 0 ∧
      ∃ psi, p.Scatter twoMesh (scattering oneDeck sS) psi := by
  have hcell : ∀ c < twoMesh.numCells, 0 < p.sigmaT c ∧ 0 ≤ sS c ∧ |p.sigmaT c - sS c| ≤ 2 ∧ sS c = 0 := by
    intro c hc
    have hc : c < 2 := hc
    interval_cases c
    · rw [t1, t2]; norm_num
    · rw [t3, t4]; norm_num
  have hph := geometry_physical twoMesh_tets two_fits Ds fun c hc => (hcell c hc).1
  have hrat : p.Ratio twoMesh (scattering oneDeck sS) 0 := by
    refine ⟨le_rfl, ?_, ?_, fun c hc => ?_, fun c hc => ?_⟩
    · intro a ha
      rw [Ds.angles] at ha
      have ha1 : a < 1 := ha
      obtain rfl : a = 0 := by omega
      show (0 : ℝ) ≤ 1
      norm_num
    · rw [Ds.angles, show oneDeck.dirs.length = 1 from rfl, Finset.sum_range_one]
      show (0 : ℝ) < 1
      norm_num
    · show 0 ≤ sS c / _
      rw [(hcell c hc).2.2.2, zero_div]
    · show _ * (sS c / _) ≤ _
      rw [(hcell c hc).2.2.2, zero_div, mul_zero, zero_mul]
  exact ⟨fun c hc => ⟨(hcell c hc).1, (hcell c hc).2.1, (hcell c hc).2.2.1⟩, hrat,
    scatter_solution H (by decide) L hph (geometry_matched twoMesh_tets two_fits Ds) hac htr (by rw [Ds.angles]; exact hsize) hrat (by norm_num)⟩

/-- C106: all conditions of `machine_settled`, and of `blocks_settle` for C104, hold in double precision: the third iteration leaves the
bits of the second. -/
example : ∃ (p : Problem ℝ) (sS : Nat → ℝ) (T : Nat → Mesh) (D : Nat → Tables ℝ) (fluxes : List (Nat → Psi ℝ)) (psiEnd : Nat → Psi ℝ)
    (new psi : Psi ℝ) (X Q : ℝ), (machine64 oneDeck).Blocks neverStop 4 2 T D fluxes psiEnd ∧ fluxes.length = 3 ∧
    Holds oneDeck.dirs.length oneDeck.nGroups 2 T psiEnd new ∧ p.Scatter twoMesh (scattering oneDeck sS) psi ∧
    ∀ g < oneDeck.nGroups,
      (1 - 0) ^ 2 * ∑ a ∈ Finset.range oneDeck.dirs.length, (scattering oneDeck sS).wt a * ∑ c ∈ Finset.range 2,
          p.sigmaT c * p.volume c * Verif.Source.cellM (fun v => new g v a c - psi g v a c) (fun v => new g v a c - psi g v a c) ≤
        (2 ^ (-53 : ℤ)) ^ 2 * ∑ a ∈ Finset.range oneDeck.dirs.length, (scattering oneDeck sS).wt a * ∑ c ∈ Finset.range 2,
          (2 * p.volume c * (15.001 * (0.04 + 2) + sS c / (4 * Real.pi) * ((6 + 1.02 * (oneDeck.dirs.length + 1)) *
              ((∑ a ∈ Finset.range oneDeck.dirs.length, (scattering oneDeck sS).wt a) * X))) ^ 2 / p.sigmaT c +
            160 * ((223 + 31 * 2) * (((∑ f, p.area c f) + p.sigmaT c * p.volume c) * X + p.volume c * Q)) ^ 2 / (p.sigmaT c * p.volume c)) := by
  obtain ⟨p, sS, P, T, D, hs, Ds, hac, htr, t1, t2, t3, t4, H, L, hD, hsort, hom, hcells⟩ := one_machine
  have hsize : ∀ r < 2, oneDeck.dirs.length * (T r).nCells < 2 ^ 64 := by
    intro r hr
    have := hcells r hr
    show 1 * (T r).nCells < _
    omega
  obtain ⟨hcell, hrat, psi, hpsi⟩ := one_exact Ds hac htr t1 t2 t3 t4 H L hsize
  obtain ⟨fluxes, psiEnd, h⟩ := Verif.Floating.blocks_returns H (by decide) L hD hsort hsize neverStop 4
  have hl : fluxes.length = 3 := never_blocks h
  have hsame := Verif.Floating.blocks_settle H (by decide) L hD hsort hsize one_absorbs h (one_crossings H L hD hsort) (j := 1) (j' := 2)
    (by omega) (by omega) (by omega) (by omega)
  obtain ⟨new, src, hnew, -, hbound⟩ := machine_settled binary64_rounds (by norm_num) H (by decide) L hD hsort two_fits
    Ds machine64_computes machine64_solves machine64_adds rfl two_shaped two_stout two_apart (by norm_num) hom
    (fun c hc => (hcell c hc).1) (fun c hc => two_thick Ds t1 t3 hc) (by rw [show oneDeck.dirs.length = 1 from rfl]; norm_num) hrat
    (by norm_num) (fun c hc => (hcell c hc).2.1) (fun c hc => (hcell c hc).2.2) hsize h (j := 1) (by omega) hsame hpsi
  have hlast := Verif.Floating.blocks_last h (by omega)
  simp only [hl] at hlast
  rw [← hlast] at hnew
  obtain ⟨X, hX⟩ := bounded new oneDeck.nGroups oneDeck.dirs.length twoMesh.numCells
  obtain ⟨Q, hQ⟩ := bounded src oneDeck.nGroups oneDeck.dirs.length twoMesh.numCells
  exact ⟨p, sS, T, D, fluxes, psiEnd, new, psi, X, Q, h, hl, hnew, hpsi,
    hbound X Q fun g hg v a ha c hc => ⟨hX g hg v a ha c hc, hQ g hg v a ha c hc⟩⟩

/-- C106: the same for `machine_settled_outer`, and `outer_settle` for C105: one source iteration in each outer iteration. -/
example : ∃ (p : Problem ℝ) (sS : Nat → ℝ) (T : Nat → Mesh) (D : Nat → Tables ℝ) (x y z psiEnd : Nat → Psi ℝ)
    (new psi : Psi ℝ) (X Q : ℝ), (machine64 oneDeck).Outer neverTest 1 neverStop 4 2 T D [[x], [y], [z]] psiEnd ∧
    Holds oneDeck.dirs.length oneDeck.nGroups 2 T z new ∧ p.Scatter twoMesh (scattering oneDeck sS) psi ∧
    ∀ g < oneDeck.nGroups,
      (1 - 0) ^ 2 * ∑ a ∈ Finset.range oneDeck.dirs.length, (scattering oneDeck sS).wt a * ∑ c ∈ Finset.range 2,
          p.sigmaT c * p.volume c * Verif.Source.cellM (fun v => new g v a c - psi g v a c) (fun v => new g v a c - psi g v a c) ≤
        (2 ^ (-53 : ℤ)) ^ 2 * ∑ a ∈ Finset.range oneDeck.dirs.length, (scattering oneDeck sS).wt a * ∑ c ∈ Finset.range 2,
          (2 * p.volume c * (15.001 * (0.04 + 2) + sS c / (4 * Real.pi) * ((6 + 1.02 * (oneDeck.dirs.length + 1)) *
              ((∑ a ∈ Finset.range oneDeck.dirs.length, (scattering oneDeck sS).wt a) * X))) ^ 2 / p.sigmaT c +
            160 * ((223 + 31 * 2) * (((∑ f, p.area c f) + p.sigmaT c * p.volume c) * X + p.volume c * Q)) ^ 2 / (p.sigmaT c * p.volume c)) := by
  obtain ⟨p, sS, P, T, D, hs, Ds, hac, htr, t1, t2, t3, t4, H, L, hD, hsort, hom, hcells⟩ := one_machine
  have hsize : ∀ r < 2, oneDeck.dirs.length * (T r).nCells < 2 ^ 64 := by
    intro r hr
    have := hcells r hr
    show 1 * (T r).nCells < _
    omega
  obtain ⟨hcell, hrat, psi, hpsi⟩ := one_exact Ds hac htr t1 t2 t3 t4 H L hsize
  obtain ⟨runs, psiEnd, h⟩ := Verif.Floating.outer_returns H (by decide) L hD hsort hsize neverTest 1 neverStop 4
  have hl : runs.map List.length = [1, 1, 1] := never_outer h
  obtain ⟨r0, r1, r2, rfl⟩ : ∃ r0 r1 r2, runs = [r0, r1, r2] := List.length_eq_three.1 (by have := congrArg List.length hl; simpa using this)
  simp only [List.map_cons, List.map_nil, List.cons.injEq] at hl
  obtain ⟨l0, l1, l2, -⟩ := hl
  obtain ⟨x, rfl⟩ := List.length_eq_one_iff.1 l0
  obtain ⟨y, rfl⟩ := List.length_eq_one_iff.1 l1
  obtain ⟨z, rfl⟩ := List.length_eq_one_iff.1 l2
  have hsame := Verif.Floating.outer_settle H (by decide) L hD hsort hsize one_absorbs h (by simp) (one_crossings H L hD hsort) (j := 1) (j' := 2)
    (by simp) (by simp) (by omega) (by omega) (fl := []) (fl' := []) (x := y) (x' := z) rfl rfl
  obtain ⟨new, src, hnew, -, hbound⟩ := machine_settled_outer binary64_rounds (by norm_num) H (by decide) L hD hsort two_fits
    Ds machine64_computes machine64_solves machine64_adds rfl two_shaped two_stout two_apart (by norm_num) hom
    (fun c hc => (hcell c hc).1) (fun c hc => two_thick Ds t1 t3 hc) (by rw [show oneDeck.dirs.length = 1 from rfl]; norm_num) hrat
    (by norm_num) (fun c hc => (hcell c hc).2.1) (fun c hc => (hcell c hc).2.2) hsize h (j := 1) (by simp) (fl := []) (post := []) (x := y) (y := z) rfl rfl
    hsame hpsi
  obtain ⟨X, hX⟩ := bounded new oneDeck.nGroups oneDeck.dirs.length twoMesh.numCells
  obtain ⟨Q, hQ⟩ := bounded src oneDeck.nGroups oneDeck.dirs.length twoMesh.numCells
  exact ⟨p, sS, T, D, x, y, z, psiEnd, new, psi, X, Q, h, hnew, hpsi,
    hbound X Q fun g hg v a ha c hc => ⟨hX g hg v a ha c hc, hQ g hg v a ha c hc⟩⟩

end Verif.Rounding
