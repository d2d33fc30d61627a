import Verif.Problem.Model
import Mathlib.Analysis.Calculus.Deriv.Inv
import Mathlib.Analysis.Calculus.Deriv.Add
import Mathlib.Analysis.Calculus.Deriv.Mul
import Mathlib.Analysis.Calculus.Deriv.Pow
import Mathlib.Tactic.Linarith
import Mathlib.Tactic.LinearCombination
import Mathlib.Tactic.Positivity
import Mathlib.Tactic.FieldSimp
import Mathlib.Data.Fin.VecNotation

/-
Properties C50 (the source is defined), C51 (cross sections) and C56 (the source is the one
manufactured from the hat function; the error measure).
-/

set_option linter.unusedVariables false

namespace Verif.Problem

/-! ### The loops -/

theorem fold_update {α β : Type} [DecidableEq α] (f : α → β) : ∀ (l : List α) (g : α → β) (i : α),
    (l.foldl (fun src j => Function.update src j (f j)) g) i = if i ∈ l then f i else g i
  | [], g, i => by simp
  | a :: l, g, i => by
    rw [List.foldl_cons, fold_update f l]
    by_cases h1 : i ∈ l
    · simp [h1]
    · by_cases h2 : i = a
      · subst h2; simp [h1]
      · simp [h1, h2, Function.update_of_ne]

theorem mem_loopIdx (s : Setup) (g v a c : Nat) :
    (g, v, a, c) ∈ loopIdx s ↔ g < s.nGroups ∧ v < 4 ∧ a < s.nAngles ∧ c < s.nCells := by
  simp only [loopIdx, List.mem_flatMap, List.mem_range, List.mem_map, Prod.mk.injEq]
  constructor
  · rintro ⟨c', hc, a', ha, v', hv, g', hg, rfl, rfl, rfl, rfl⟩
    exact ⟨hg, hv, ha, hc⟩
  · rintro ⟨hg, hv, ha, hc⟩
    exact ⟨c, hc, a, ha, v, hv, g, hg, rfl, rfl, rfl, rfl⟩

theorem hatSource_entry (s : Setup) (src : Idx → Option ℝ) {g v a c : Nat}
    (hg : g < s.nGroups) (hv : v < 4) (ha : a < s.nAngles) (hc : c < s.nCells) :
    hatSource s src (g, v, a, c) = hatValue (rel s c v) (s.omega a) (s.sigmaT c) (s.sigmaS c) := by
  unfold hatSource
  rw [fold_update (fun i : Idx => hatValue (rel s i.2.2.2 i.2.1) (s.omega i.2.2.1)
    (s.sigmaT i.2.2.2) (s.sigmaS i.2.2.2)), if_pos ((mem_loopIdx s g v a c).mpr ⟨hg, hv, ha, hc⟩)]

theorem dist_zero (p : Fin 3 → ℝ) : dist p = 0 ↔ p 0 = 0 ∧ p 1 = 0 ∧ p 2 = 0 := by
  unfold dist
  rw [Real.sqrt_eq_zero (by nlinarith [mul_self_nonneg (p 0), mul_self_nonneg (p 1), mul_self_nonneg (p 2)])]
  constructor
  · intro h
    have h0 := mul_self_nonneg (p 0)
    have h1 := mul_self_nonneg (p 1)
    have h2 := mul_self_nonneg (p 2)
    exact ⟨mul_self_eq_zero.mp (by linarith), mul_self_eq_zero.mp (by linarith),
      mul_self_eq_zero.mp (by linarith)⟩
  · rintro ⟨h0, h1, h2⟩; rw [h0, h1, h2]; ring

/-- The centre of the cube. -/
def Centre (q : Fin 3 → ℝ) : Prop := q 0 = 50 ∧ q 1 = 50 ∧ q 2 = 50

theorem rel_centre (s : Setup) (c v : Nat) : dist (rel s c v) = 0 ↔ Centre (s.coord (s.cellNode c v)) := by
  rw [dist_zero]
  unfold rel cubeSize Centre
  constructor <;> rintro ⟨h0, h1, h2⟩ <;> exact ⟨by linarith, by linarith, by linarith⟩

theorem hatValue_isSome (p om : Fin 3 → ℝ) (sT sS : ℝ) :
    (hatValue p om sT sS).isSome ↔ dist p ≠ 0 := by
  unfold hatValue fdiv
  by_cases h : dist p = 0
  · simp [h]
  · have h30 : (30 : ℝ) * dist p ≠ 0 := mul_ne_zero (by norm_num) h
    by_cases h2 : dist p ≤ 30 <;> simp [h, h2]

/-- The source is a number at every vertex except the centre of the cube, where it is not. -/
theorem source_defined_partial (s : Setup) (src : Idx → Option ℝ) {g v a c : Nat}
    (hg : g < s.nGroups) (hv : v < 4) (ha : a < s.nAngles) (hc : c < s.nCells) :
    (hatSource s src (g, v, a, c)).isSome ↔ ¬ Centre (s.coord (s.cellNode c v)) := by
  rw [hatSource_entry s src hg hv ha hc, hatValue_isSome, Ne, rel_centre]

/-- A mesh of one cell with a vertex at the centre of the cube. -/
noncomputable def centreSetup : Setup where
  nCells := 1
  nAngles := 1
  nGroups := 1
  cellNode := fun _ v => v
  coord := fun n => if n = 0 then ![50, 50, 50] else if n = 1 then ![60, 50, 50]
    else if n = 2 then ![50, 60, 50] else ![50, 50, 60]
  omega := fun _ => ![1, 0, 0]
  sigmaT := fun _ => 1
  sigmaS := fun _ => 1 / 2

/-- The source is not defined everywhere. -/
theorem source_undefined : ¬ ∀ (s : Setup) (src : Idx → Option ℝ) (g v a c : Nat),
    g < s.nGroups → v < 4 → a < s.nAngles → c < s.nCells →
    (hatSource s src (g, v, a, c)).isSome := by
  intro h
  have h1 := h centreSetup (fun _ => none) 0 0 0 0 (by simp [centreSetup]) (by norm_num)
    (by simp [centreSetup]) (by simp [centreSetup])
  rw [source_defined_partial _ _ (by simp [centreSetup]) (by norm_num)
    (by simp [centreSetup]) (by simp [centreSetup])] at h1
  exact h1 (by simp [Centre, centreSetup])

/-- The other three vertices of that cell are fine. -/
example : (hatSource centreSetup (fun _ => none) (0, 1, 0, 0)).isSome := by
  rw [source_defined_partial _ _ (by simp [centreSetup]) (by norm_num)
    (by simp [centreSetup]) (by simp [centreSetup])]
  simp [Centre, centreSetup]

/-! ### The source is manufactured from the hat function -/

/-- The hat function of the problem: one at the centre, falling linearly to zero at distance
30, zero beyond. -/
noncomputable def hat (p : Fin 3 → ℝ) : ℝ := max 0 (1 - Real.sqrt (p 0 ^ 2 + p 1 ^ 2 + p 2 ^ 2) / 30)

theorem dist_eq (p : Fin 3 → ℝ) : dist p = Real.sqrt (p 0 ^ 2 + p 1 ^ 2 + p 2 ^ 2) := by
  unfold dist; congr 1; ring

theorem hatExact_hat (p : Fin 3 → ℝ) : hatExact p = hat p := by
  unfold hatExact hat
  rw [← dist_eq]
  by_cases h : dist p ≤ 30
  · simp only [h, if_true]
    rw [max_eq_right]
    rw [sub_nonneg, div_le_one (by norm_num)]; exact h
  · simp only [h, if_false]
    rw [max_eq_left]
    rw [sub_nonpos, one_le_div (by norm_num)]; linarith

theorem dist_deriv (p om : Fin 3 → ℝ) (h : dist p ≠ 0) :
    HasDerivAt (fun t : ℝ => dist fun i => p i + t * om i)
      ((p 0 * om 0 + p 1 * om 1 + p 2 * om 2) / dist p) 0 := by
  have hq : ∀ i, HasDerivAt (fun t : ℝ => p i + t * om i) (om i) 0 := by
    intro i
    simpa using ((hasDerivAt_id (0 : ℝ)).mul_const (om i)).const_add (p i)
  have h2 : ∀ i, HasDerivAt (fun t : ℝ => (p i + t * om i) * (p i + t * om i)) (2 * p i * om i) 0 := by
    intro i
    have := (hq i).mul (hq i)
    refine this.congr_deriv ?_
    ring
  have h3 := ((h2 0).add (h2 1)).add (h2 2)
  have hpos : p 0 * p 0 + p 1 * p 1 + p 2 * p 2 ≠ 0 := by
    intro h0
    apply h
    unfold dist
    rw [h0, Real.sqrt_zero]
  have h4 := h3.sqrt (by simpa using hpos)
  refine h4.congr_deriv ?_
  unfold dist
  simp only [Pi.add_apply, zero_mul, add_zero]
  have hs : Real.sqrt (p 0 * p 0 + p 1 * p 1 + p 2 * p 2) ≠ 0 := by
    unfold dist at h; exact h
  field_simp

/-- Inside and outside the hat (not on its edge, not at the centre) the source equals
streaming plus removal of the hat function: the hat solves the transport equation with
isotropic scattering, `Ω·∇ψ + σ_t ψ = σ_s ψ + q`. -/
theorem manufactured (p om : Fin 3 → ℝ) (sT sS : ℝ) (h0 : dist p ≠ 0) (h30 : dist p ≠ 30) :
    ∃ q d : ℝ, hatValue p om sT sS = some q ∧
      HasDerivAt (fun t : ℝ => hat fun i => p i + t * om i) d 0 ∧
      d + sT * hat p = sS * hat p + q := by
  have hc := dist_deriv p om h0
  have hp0 : dist (fun i => p i + 0 * om i) = dist p := by simp
  simp only [← hatExact_hat]
  by_cases h : dist p ≤ 30
  · have hlt : dist p < 30 := lt_of_le_of_ne h h30
    refine ⟨- (p 0 / (30 * dist p)) * om 0 - (p 1 / (30 * dist p)) * om 1
        - (p 2 / (30 * dist p)) * om 2 + (sT - sS) * (1 - dist p / 30),
      -((p 0 * om 0 + p 1 * om 1 + p 2 * om 2) / dist p) / 30, ?_, ?_, ?_⟩
    · unfold hatValue fdiv
      have h30 : (30 : ℝ) * dist p ≠ 0 := mul_ne_zero (by norm_num) h0
      simp [h, h0]
    · have hev : (fun t : ℝ => hatExact fun i => p i + t * om i)
          =ᶠ[nhds 0] fun t => 1 - (dist fun i => p i + t * om i) / 30 := by
        have hopen : ∀ᶠ t in nhds (0 : ℝ), dist (fun i => p i + t * om i) < 30 := by
          have hcont := hc.continuousAt
          unfold ContinuousAt at hcont
          simp only [hp0] at hcont
          exact hcont.eventually (gt_mem_nhds hlt)
        filter_upwards [hopen] with t ht
        unfold hatExact
        simp [ht.le]
      refine HasDerivAt.congr_of_eventuallyEq ?_ hev
      refine ((hc.div_const 30).const_sub 1).congr_deriv ?_
      ring
    · unfold hatExact
      simp only [h, if_true]
      field_simp
      ring
  · refine ⟨0, 0, by unfold hatValue; simp [h], ?_, ?_⟩
    · have hev : (fun t : ℝ => hatExact fun i => p i + t * om i) =ᶠ[nhds 0] fun _ => (0 : ℝ) := by
        have hopen : ∀ᶠ t in nhds (0 : ℝ), 30 < dist (fun i => p i + t * om i) := by
          have hcont := hc.continuousAt
          unfold ContinuousAt at hcont
          simp only [hp0] at hcont
          exact hcont.eventually (lt_mem_nhds (by linarith))
        filter_upwards [hopen] with t ht
        unfold hatExact
        simp [ht]
      exact (hasDerivAt_const (0 : ℝ) (0 : ℝ)).congr_of_eventuallyEq hev
    · unfold hatExact
      simp [h]

example : ∃ q d : ℝ, hatValue ![10, 0, 0] ![1, 0, 0] 1 (1 / 2) = some q ∧
    HasDerivAt (fun t : ℝ => hat fun i => (![10, 0, 0] : Fin 3 → ℝ) i + t * (![1, 0, 0] : Fin 3 → ℝ) i) d 0 ∧
    d + 1 * hat ![10, 0, 0] = 1 / 2 * hat ![10, 0, 0] + q := by
  have : dist ![10, 0, 0] = 10 := by
    unfold dist
    simp
  exact manufactured _ _ _ _ (by rw [this]; norm_num) (by rw [this]; norm_num)

/-! ### Cross sections -/

/-- Success exactly for materials 1 and 2, and then every cell has the pair of its material. -/
theorem cross_sections {α : Type} (sT1 sS1 sT2 sS2 : α) (mats : List Nat) :
    ((∃ T S, createCrossSections sT1 sS1 sT2 sS2 mats = some (T, S)) ↔ ∀ m ∈ mats, m = 1 ∨ m = 2) ∧
    ∀ T S, createCrossSections sT1 sS1 sT2 sS2 mats = some (T, S) →
      T.length = mats.length ∧ S.length = mats.length ∧
      ∀ c : Nat, (mats[c]? = some 1 → T[c]? = some sT1 ∧ S[c]? = some sS1) ∧
        (mats[c]? = some 2 → T[c]? = some sT2 ∧ S[c]? = some sS2) := by
  induction mats with
  | nil => simp [createCrossSections]
  | cons m ms ih =>
    have hc : createCrossSections sT1 sS1 sT2 sS2 (m :: ms)
        = (crossSection sT1 sS1 sT2 sS2 m).bind fun p =>
            (createCrossSections sT1 sS1 sT2 sS2 ms).map fun q => (p.1 :: q.1, p.2 :: q.2) := by
      unfold createCrossSections
      rw [List.mapM_cons]
      cases crossSection sT1 sS1 sT2 sS2 m with
      | none => rfl
      | some p => cases ms.mapM (crossSection sT1 sS1 sT2 sS2) <;> rfl
    have hm : crossSection sT1 sS1 sT2 sS2 m =
        if m = 1 then some (sT1, sS1) else if m = 2 then some (sT2, sS2) else none := rfl
    obtain ⟨ih1, ih2⟩ := ih
    rw [hc, hm]
    by_cases h1 : m = 1
    · subst h1
      constructor
      · rw [List.forall_mem_cons, ← ih1]
        simp
      · intro T S h
        simp only [if_true, Option.bind_some, Option.map_eq_some_iff, Prod.mk.injEq] at h
        obtain ⟨⟨T', S'⟩, h', rfl, rfl⟩ := h
        obtain ⟨l1, l2, l3⟩ := ih2 T' S' h'
        refine ⟨by simp [l1], by simp [l2], fun c => ?_⟩
        cases c with
        | zero => simp
        | succ c => simpa using l3 c
    · by_cases h2 : m = 2
      · subst h2
        constructor
        · rw [List.forall_mem_cons, ← ih1]
          simp
        · intro T S h
          simp only [h1, if_false, if_true, Option.bind_some, Option.map_eq_some_iff, Prod.mk.injEq] at h
          obtain ⟨⟨T', S'⟩, h', rfl, rfl⟩ := h
          obtain ⟨l1, l2, l3⟩ := ih2 T' S' h'
          refine ⟨by simp [l1], by simp [l2], fun c => ?_⟩
          cases c with
          | zero => simp
          | succ c => simpa using l3 c
      · simp [h1, h2]

example : createCrossSections 1 2 3 4 [2, 1, 1] = some ([3, 1, 1], [4, 2, 2]) := rfl
example : createCrossSections 1 2 3 4 [2, 3, 1] = none := rfl

/-! ### The error measure -/

/-- The global indices of the sums of `hatL2Error`. -/
def l2Idx (s : Setup) : List (Nat × Nat × Nat) :=
  (List.range s.nCells).flatMap fun cell =>
   (List.range s.nAngles).flatMap fun angle =>
   (List.range s.nGroups).map fun group => (cell, angle, group)

/-- Cell average. -/
noncomputable def mean (f : Nat → ℝ) : ℝ := (f 0 + f 1 + f 2 + f 3) / 4

/-- The squared distance of the cell averages from the hat, and the squared size of the cell
averages, over all ranks. -/
noncomputable def l2Diff (ranks : List (Setup × (Idx → ℝ))) : ℝ :=
  (ranks.map fun r => ((l2Idx r.1).map fun i =>
    (mean (fun v => r.2 (i.2.2, v, i.2.1, i.1)) - hat (fun k => mean fun v => rel r.1 i.1 v k)) ^ 2).sum).sum
noncomputable def l2Norm (ranks : List (Setup × (Idx → ℝ))) : ℝ :=
  (ranks.map fun r => ((l2Idx r.1).map fun i => mean (fun v => r.2 (i.2.2, v, i.2.1, i.1)) ^ 2).sum).sum

theorem foldl_pair {α : Type} (f g : α → ℝ) : ∀ (l : List α) (a b : ℝ),
    l.foldl (fun acc i => (acc.1 + f i, acc.2 + g i)) (a, b)
      = (a + (l.map f).sum, b + (l.map g).sum)
  | [], a, b => by simp
  | x :: l, a, b => by
    rw [List.foldl_cons, foldl_pair f g l]
    simp [add_assoc]

/-- The error measure is the relative discrete L2 distance from the hat, relative to the
computed flux; it is not a number exactly if all computed cell averages are zero. -/
theorem l2_error (ranks : List (Setup × (Idx → ℝ))) :
    hatL2Error ranks =
      if l2Norm ranks = 0 then none else some (Real.sqrt (l2Diff ranks / l2Norm ranks)) := by
  have hl : ∀ (s : Setup) (psi : Idx → ℝ), l2Local s psi =
      (((l2Idx s).map fun i => (mean (fun v => psi (i.2.2, v, i.2.1, i.1)) -
          hat (fun k => mean fun v => rel s i.1 v k)) ^ 2).sum,
        ((l2Idx s).map fun i => mean (fun v => psi (i.2.2, v, i.2.1, i.1)) ^ 2).sum) := by
    intro s psi
    unfold l2Local
    have h1 := foldl_pair (fun i : Nat × Nat × Nat => (l2Term s psi i.1 i.2.1 i.2.2).1)
      (fun i => (l2Term s psi i.1 i.2.1 i.2.2).2) (l2Idx s) 0 0
    unfold l2Idx at h1 ⊢
    rw [h1, zero_add, zero_add]
    have h2 : ∀ i : Nat × Nat × Nat, l2Term s psi i.1 i.2.1 i.2.2
        = ((mean (fun v => psi (i.2.2, v, i.2.1, i.1)) - hat (fun k => mean fun v => rel s i.1 v k)) ^ 2,
          mean (fun v => psi (i.2.2, v, i.2.1, i.1)) ^ 2) := by
      intro i
      have hr : List.range 4 = [0, 1, 2, 3] := rfl
      simp only [l2Term, hr, List.foldl_cons, List.foldl_nil, zero_add, hatExact_hat, mean]
      rw [pow_two, pow_two]
    simp only [h2]
  unfold hatL2Error
  have h3 := foldl_pair (fun r : Setup × (Idx → ℝ) => (l2Local r.1 r.2).1)
      (fun r => (l2Local r.1 r.2).2) ranks 0 0
  simp only [hl] at h3 ⊢
  simp only [h3, zero_add, fdiv]
  show (if l2Norm ranks = 0 then none else some (l2Diff ranks / l2Norm ranks)).map Real.sqrt = _
  split <;> rfl

theorem sum_sq_zero {α : Type} (f : α → ℝ) : ∀ l : List α,
    (l.map fun i => f i ^ 2).sum = 0 ↔ ∀ i ∈ l, f i = 0 := by
  intro l
  have nn : ∀ l : List α, 0 ≤ (l.map fun i => f i ^ 2).sum := by
    intro l
    exact List.sum_nonneg (by intro x hx; obtain ⟨i, _, rfl⟩ := List.mem_map.mp hx; positivity)
  induction l with
  | nil => simp
  | cons a l ih =>
    rw [List.map_cons, List.sum_cons, List.forall_mem_cons]
    have h1 := nn l
    rw [← show _ ↔ _ from ih]
    have h2 : 0 ≤ f a ^ 2 := by positivity
    constructor
    · intro h
      exact ⟨by have : f a ^ 2 = 0 := by linarith
                exact pow_eq_zero_iff (by norm_num) |>.mp this, by linarith⟩
    · rintro ⟨h3, h4⟩; rw [h3, h4]; ring

/-- A reported error of zero means that every cell average equals the hat at the cell centre. -/
theorem l2_zero (ranks : List (Setup × (Idx → ℝ))) (h : hatL2Error ranks = some 0) :
    ∀ r ∈ ranks, ∀ i ∈ l2Idx r.1, mean (fun v => r.2 (i.2.2, v, i.2.1, i.1))
      = hat (fun k => mean fun v => rel r.1 i.1 v k) := by
  rw [l2_error] at h
  split at h
  · simp at h
  · rename_i hn
    have nn : ∀ r : Setup × (Idx → ℝ), ∀ f : Nat × Nat × Nat → ℝ,
        0 ≤ ((l2Idx r.1).map fun i => f i ^ 2).sum := by
      intro r f
      exact List.sum_nonneg (by intro x hx; obtain ⟨i, _, rfl⟩ := List.mem_map.mp hx; positivity)
    have nD : 0 ≤ l2Diff ranks := List.sum_nonneg (by
      intro x hx; obtain ⟨r, _, rfl⟩ := List.mem_map.mp hx; exact nn r _)
    have nN : 0 ≤ l2Norm ranks := List.sum_nonneg (by
      intro x hx; obtain ⟨r, _, rfl⟩ := List.mem_map.mp hx; exact nn r _)
    rw [Option.some.injEq, Real.sqrt_eq_zero (by positivity), div_eq_zero_iff] at h
    have h0 : l2Diff ranks = 0 := h.resolve_right hn
    intro r hr i hi
    unfold l2Diff at h0
    have h1 : ∀ x ∈ (ranks.map fun r => ((l2Idx r.1).map fun i =>
      (mean (fun v => r.2 (i.2.2, v, i.2.1, i.1)) - hat (fun k => mean fun v => rel r.1 i.1 v k)) ^ 2).sum),
        x = 0 := by
      apply List.all_zero_of_le_zero_le_of_sum_eq_zero
      · intro x hx; obtain ⟨r, _, rfl⟩ := List.mem_map.mp hx; exact nn r _
      · exact h0
    have h2 := h1 _ (List.mem_map.mpr ⟨r, hr, rfl⟩)
    have h3 := (sum_sq_zero _ _).mp h2 i hi
    linarith

/-- The reported error is not a number exactly when every computed cell average is zero. -/
theorem l2_undefined (ranks : List (Setup × (Idx → ℝ))) : hatL2Error ranks = none ↔
    ∀ r ∈ ranks, ∀ c < r.1.nCells, ∀ a < r.1.nAngles, ∀ g < r.1.nGroups,
      (r.2 (g, 0, a, c) + r.2 (g, 1, a, c) + r.2 (g, 2, a, c) + r.2 (g, 3, a, c)) / 4 = 0 := by
  have hm : ∀ (r : Setup × (Idx → ℝ)), (∀ i ∈ l2Idx r.1, mean (fun v => r.2 (i.2.2, v, i.2.1, i.1)) = 0) ↔
      ∀ c < r.1.nCells, ∀ a < r.1.nAngles, ∀ g < r.1.nGroups,
        (r.2 (g, 0, a, c) + r.2 (g, 1, a, c) + r.2 (g, 2, a, c) + r.2 (g, 3, a, c)) / 4 = 0 := by
    intro r
    constructor
    · intro h c hc a ha g hg
      refine h (c, a, g) ?_
      simp only [l2Idx, List.mem_flatMap, List.mem_map, List.mem_range]
      exact ⟨c, hc, a, ha, g, hg, rfl⟩
    · intro h i hi
      simp only [l2Idx, List.mem_flatMap, List.mem_map, List.mem_range] at hi
      obtain ⟨c, hc, a, ha, g, hg, rfl⟩ := hi
      exact h c hc a ha g hg
  have nn : ∀ x ∈ (ranks.map fun r => ((l2Idx r.1).map fun i =>
      mean (fun v => r.2 (i.2.2, v, i.2.1, i.1)) ^ 2).sum), 0 ≤ x := by
    intro x hx
    obtain ⟨r, _, rfl⟩ := List.mem_map.mp hx
    exact List.sum_nonneg (by intro y hy; obtain ⟨i, _, rfl⟩ := List.mem_map.mp hy; positivity)
  have hz : l2Norm ranks = 0 ↔ ∀ r ∈ ranks, ∀ i ∈ l2Idx r.1, mean (fun v => r.2 (i.2.2, v, i.2.1, i.1)) = 0 := by
    constructor
    · intro h r hr
      exact (sum_sq_zero _ _).mp
        (List.all_zero_of_le_zero_le_of_sum_eq_zero nn h (List.mem_map.mpr ⟨r, hr, rfl⟩))
    · intro h
      unfold l2Norm
      refine List.sum_eq_zero fun x hx => ?_
      obtain ⟨r, hr, rfl⟩ := List.mem_map.mp hx
      exact (sum_sq_zero _ _).mpr (h r hr)
  rw [l2_error]
  constructor
  · intro h r hr
    split at h
    · exact (hm r).mp (hz.mp ‹_› r hr)
    · simp at h
  · intro h
    rw [if_pos (hz.mpr fun r hr => (hm r).mpr (h r hr))]

/-- One cell, one angle, one group, flux `-1, 1, 0, 0` at the corners: the error is `0/0`; with a
constant flux of one it is a number. -/
example (s : Setup) (h1 : s.nCells = 1) (h2 : s.nAngles = 1) (h3 : s.nGroups = 1) :
    hatL2Error [(s, fun i => if i.2.1 = 0 then -1 else if i.2.1 = 1 then 1 else 0)] = none ∧
    hatL2Error [(s, fun _ => 1)] ≠ none := by
  constructor
  · rw [l2_undefined]
    intro r hr c _ a _ g _
    simp only [List.mem_singleton] at hr
    subst hr
    norm_num
  · rw [Ne, l2_undefined]
    intro h
    have := h _ (List.mem_singleton.mpr rfl) 0 (by simp [h1]) 0 (by simp [h2]) 0 (by simp [h3])
    norm_num at this

end Verif.Problem
