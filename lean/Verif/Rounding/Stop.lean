import Verif.Rounding.Hat
import Verif.Program.Checks

/-!
# The test that stops source iteration, in rounded arithmetic (C99)
-/
set_option linter.unusedSectionVars false
namespace Verif.Rounding

open Verif.MeshFile Verif.TychoMesh Verif.Geometry Verif.Program Verif.Program.Spec
open Verif.Rounding.Spec hiding Acyclic
open Verif.Floating (Kernel Test pairs)
open Verif.Floating.Spec (Holds)
open Verif.Traverse (Psi)

/-! ### The code -/

/-- `MPI_Allreduce` with `MPI_SUM` (src/Comm.cc:100-108) may give `x` for the values `l` of the ranks: the
library adds two parts at a time, in any order and with any brackets, and rounds each sum. -/
inductive Sums (rnd : ℝ → ℝ) : List ℝ → ℝ → Prop
  | one (x : ℝ) : Sums rnd [x] x
  | add {l l' : List ℝ} {x y : ℝ} : Sums rnd l x → Sums rnd l' y → Sums rnd (l ++ l') (rnd (x + y))
  | perm {l l' : List ℝ} {x : ℝ} : Sums rnd l x → l.Perm l' → Sums rnd l' x

/-- The stopping test of `fixedPoint` (src/SourceIteration.cc:144, 166-175) in rounded arithmetic with
`g_errMax = tol`. Of a quotient by zero nothing is said: the code then has a NaN or an infinity. -/
structure Tests (rnd : ℝ → ℝ) (tol : ℝ) (test : Test ℝ) : Prop where
  error : ∀ l, test.error l = l.foldl (fun s q => rnd (s + |rnd (q.1 - q.2)|)) 0
  norm : ∀ l, test.norm l = l.foldl (fun s q => rnd (s + |q.1|)) 0
  gsum : ∀ l, l ≠ [] → Sums rnd l (test.gsum l)
  quotient : ∀ x y, y ≠ 0 → test.quotient x y = rnd (x / y)
  above : ∀ x, test.above x = true ↔ tol < x
  one : test.one = 1

/-! ### Rounded sums -/

variable {u tol : ℝ} {rnd : ℝ → ℝ}

theorem gamma_nonneg (R : Rounds u rnd) (k : ℕ) : 0 ≤ (1 + u) ^ k - 1 := by
  have := one_le_pow₀ (n := k) (show 1 ≤ 1 + u by linarith [R.small.1]); linarith

theorem gamma_mono (R : Rounds u rnd) {j k : ℕ} (h : j ≤ k) : (1 + u) ^ j - 1 ≤ (1 + u) ^ k - 1 := by
  have := pow_le_pow_right₀ (show 1 ≤ 1 + u by linarith [R.small.1]) h; linarith

/-- A rounded sum of two sums that are each off by a relative error. -/
theorem add_near (R : Rounds u rnd) {j k : ℕ} {x X y Y : ℝ} (hX : 0 ≤ X) (hY : 0 ≤ Y) (hx : |x - X| ≤ ((1 + u) ^ j - 1) * X)
    (hy : |y - Y| ≤ ((1 + u) ^ k - 1) * Y) {n : ℕ} (hj : j ≤ n) (hk : k ≤ n) :
    |rnd (x + y) - (X + Y)| ≤ ((1 + u) ^ (n + 1) - 1) * (X + Y) := by
  have hu0 := R.small.1
  have h1 : |x - X| ≤ ((1 + u) ^ n - 1) * X := hx.trans (mul_le_mul_of_nonneg_right (gamma_mono R hj) hX)
  have h2 : |y - Y| ≤ ((1 + u) ^ n - 1) * Y := hy.trans (mul_le_mul_of_nonneg_right (gamma_mono R hk) hY)
  have h3 : |x + y - (X + Y)| ≤ ((1 + u) ^ n - 1) * (X + Y) := by
    have : x + y - (X + Y) = (x - X) + (y - Y) := by ring
    rw [this]
    refine (abs_add_le _ _).trans ?_
    linarith
  have h4 : |x + y| ≤ (1 + u) ^ n * (X + Y) := by
    have : x + y = (x + y - (X + Y)) + (X + Y) := by ring
    rw [this]
    refine (abs_add_le _ _).trans ?_
    rw [abs_of_nonneg (add_nonneg hX hY)]
    linarith
  have h5 := R.near (x + y)
  have h6 : rnd (x + y) - (X + Y) = (rnd (x + y) - (x + y)) + (x + y - (X + Y)) := by ring
  rw [h6]
  refine (abs_add_le _ _).trans ?_
  have h7 := mul_le_mul_of_nonneg_left h4 hu0
  rw [pow_succ]
  linarith

theorem list_sum_nonneg : ∀ {l : List ℝ}, (∀ x ∈ l, 0 ≤ x) → 0 ≤ l.sum
  | [], _ => by simp
  | x :: l, h => by
    rw [List.sum_cons]
    exact add_nonneg (h x (by simp)) (list_sum_nonneg fun y hy => h y (by simp [hy]))

theorem Sums.length {l : List ℝ} {x : ℝ} (h : Sums rnd l x) : 1 ≤ l.length := by
  induction h with
  | one => simp
  | add _ _ i1 i2 => rw [List.length_append]; omega
  | perm _ hp i => rw [← hp.length_eq]; exact i

/-- C99: a sum over ranks, in whatever order, is off by a relative error. -/
theorem Sums.near (R : Rounds u rnd) {l : List ℝ} {x : ℝ} (h : Sums rnd l x) (h0 : ∀ y ∈ l, 0 ≤ y) :
    |x - l.sum| ≤ ((1 + u) ^ l.length - 1) * l.sum := by
  induction h with
  | one x =>
    have := mul_nonneg (gamma_nonneg R 1) (h0 x (by simp))
    simpa using this
  | @add l l' x y h1 h2 i1 i2 =>
    have hl : ∀ z ∈ l, 0 ≤ z := fun z hz => h0 z (by simp [hz])
    have hl' : ∀ z ∈ l', 0 ≤ z := fun z hz => h0 z (by simp [hz])
    have q1 := h1.length
    have q2 := h2.length
    have := add_near R (list_sum_nonneg hl) (list_sum_nonneg hl') (i1 hl) (i2 hl') (n := l.length + l'.length - 1) (by omega) (by omega)
    rw [Nat.sub_add_cancel (by omega)] at this
    rw [List.sum_append, List.length_append]
    exact this
  | perm _ hp i =>
    rw [← hp.sum_eq, ← hp.length_eq]
    exact i fun y hy => h0 y (hp.subset hy)

/-- C99: a sum of nonnegative terms in the order of an array is off by a relative error. -/
theorem fold_near (R : Rounds u rnd) {α : Type} (f f' : α → ℝ) (hf : ∀ a, 0 ≤ f a) (hff : ∀ a, |f' a - f a| ≤ u * f a) (l : List α) :
    ∀ {k : ℕ} {s S : ℝ}, 0 ≤ S → |s - S| ≤ ((1 + u) ^ (k + 1) - 1) * S →
      |l.foldl (fun s a => rnd (s + f' a)) s - (S + (l.map f).sum)| ≤ ((1 + u) ^ (k + 1 + l.length) - 1) * (S + (l.map f).sum) := by
  induction l with
  | nil => intro k s S _ h; simpa using h
  | cons a l ih =>
    intro k s S hS h
    have h1 := add_near R hS (hf a) h (k := 1) (y := f' a) (by rw [pow_one]; linarith [hff a]) (n := k + 1) le_rfl (by omega)
    have h2 := ih (add_nonneg hS (hf a)) h1
    rw [List.foldl_cons, List.map_cons, List.sum_cons, List.length_cons, ← add_assoc,
      show k + 1 + (l.length + 1) = k + 1 + 1 + l.length by omega]
    exact h2

theorem fold_zero_near (R : Rounds u rnd) {α : Type} (f f' : α → ℝ) (hf : ∀ a, 0 ≤ f a) (hff : ∀ a, |f' a - f a| ≤ u * f a) (l : List α) :
    |l.foldl (fun s a => rnd (s + f' a)) 0 - (l.map f).sum| ≤ ((1 + u) ^ (1 + l.length) - 1) * (l.map f).sum := by
  have := fold_near R f f' hf hff l (k := 0) (s := 0) (S := 0) le_rfl (by simp)
  simpa using this

theorem abs_list_sum_sub {α : Type} (e E : α → ℝ) {γ : ℝ} : ∀ (l : List α), (∀ a ∈ l, |e a - E a| ≤ γ * E a) →
    |(l.map e).sum - (l.map E).sum| ≤ γ * (l.map E).sum
  | [], _ => by simp
  | a :: l, h => by
    have h1 := abs_list_sum_sub e E l fun b hb => h b (by simp [hb])
    have h2 := h a (by simp)
    simp only [List.map_cons, List.sum_cons]
    have : e a + (l.map e).sum - (E a + (l.map E).sum) = (e a - E a) + ((l.map e).sum - (l.map E).sum) := by ring
    rw [this]
    refine (abs_add_le _ _).trans ?_
    linarith

/-- C99: each rank adds its part in the order of its array and the parts are added in any order. -/
theorem total_near (R : Rounds u rnd) {α : Type} (f f' : α → ℝ) (hf : ∀ a, 0 ≤ f a) (hff : ∀ a, |f' a - f a| ≤ u * f a) {n N : ℕ}
    (part : ℕ → List α) (hN : ∀ r < n, (part r).length ≤ N) {x : ℝ}
    (h : Sums rnd ((List.range n).map fun r => (part r).foldl (fun s a => rnd (s + f' a)) 0) x) {δ : ℝ} (hδ1 : δ ≤ 1)
    (hδ : (1 + u) ^ (n + N + 1) - 1 ≤ δ) :
    |x - ((List.range n).map fun r => ((part r).map f).sum).sum| ≤ δ * ((List.range n).map fun r => ((part r).map f).sum).sum := by
  set e := fun r => (part r).foldl (fun s a => rnd (s + f' a)) 0 with he
  set E := fun r => ((part r).map f).sum with hE
  have hE0 : ∀ r, 0 ≤ E r := fun r => list_sum_nonneg fun y hy => by
    obtain ⟨a, -, rfl⟩ := List.mem_map.1 hy
    exact hf a
  have hγ1 : (1 + u) ^ (N + 1) - 1 ≤ 1 := (gamma_mono R (by omega)).trans (hδ.trans hδ1)
  have h1 : ∀ r ∈ List.range n, |e r - E r| ≤ ((1 + u) ^ (N + 1) - 1) * E r := fun r hr => by
    refine (fold_zero_near R f f' hf hff (part r)).trans (mul_le_mul_of_nonneg_right (gamma_mono R ?_) (hE0 r))
    have := hN r (List.mem_range.1 hr)
    omega
  have h2 := abs_list_sum_sub e E _ h1
  have h0 : ∀ y ∈ (List.range n).map e, 0 ≤ y := by
    intro y hy
    obtain ⟨r, hr, rfl⟩ := List.mem_map.1 hy
    have q := (abs_le.1 (h1 r hr)).1
    have := mul_le_mul_of_nonneg_right hγ1 (hE0 r)
    linarith
  have h3 := h.near R h0
  rw [List.length_map, List.length_range] at h3
  set A := ((List.range n).map e).sum
  set B := ((List.range n).map E).sum with hB
  have hB0 : 0 ≤ B := list_sum_nonneg fun y hy => by
    obtain ⟨r, -, rfl⟩ := List.mem_map.1 hy
    exact hE0 r
  have hA : A ≤ (1 + u) ^ (N + 1) * B := by
    have := (abs_le.1 h2).2
    linarith
  have h4 : x - B = (x - A) + (A - B) := by ring
  rw [h4]
  refine (abs_add_le _ _).trans ?_
  have h5 := mul_le_mul_of_nonneg_left hA (gamma_nonneg R n)
  have h6 : ((1 + u) ^ n - 1) * ((1 + u) ^ (N + 1) * B) + ((1 + u) ^ (N + 1) - 1) * B = ((1 + u) ^ (n + N + 1) - 1) * B := by
    rw [add_assoc, pow_add]; ring
  have h7 := mul_le_mul_of_nonneg_right hδ hB0
  linarith

/-! ### The test -/

theorem pairs_length (nG nC : ℕ) (new old : Nat → Fin 4 → Nat → ℝ) : (pairs nG nC new old).length = nC * (4 * nG) := by
  unfold pairs
  simp only [List.length_flatMap, List.length_map, List.length_range, List.map_const', List.sum_replicate, List.length_finRange, smul_eq_mul]

theorem pairs_sum (nG nC : ℕ) (new old : Nat → Fin 4 → Nat → ℝ) (f : ℝ × ℝ → ℝ) :
    ((pairs nG nC new old).map f).sum = ∑ c ∈ Finset.range nC, ∑ v, ∑ g ∈ Finset.range nG, f (new g v c, old g v c) := by
  unfold pairs
  rw [flat_sum, list_sum_range]
  refine Finset.sum_congr rfl fun c _ => ?_
  rw [flat_sum, ← List.ofFn_eq_map, List.sum_ofFn]
  refine Finset.sum_congr rfl fun v _ => ?_
  rw [List.map_map, ← list_sum_range]
  rfl

/-- C99: what it means that the test ends the iteration. -/
theorem test_ends (R : Rounds u rnd) (hu : u ≤ 1 / 100000) {test : Test ℝ} (Te : Tests rnd tol test) {nA nG : ℕ} {K : Kernel ℝ nA nG}
    {n N : ℕ} {T : Nat → Mesh} {psi psi' : Nat → Psi ℝ} (hN : ∀ r < n, (T r).nCells * (4 * nG) ≤ N)
    (hδ : (1 + u) ^ (n + N + 1) - 1 ≤ 1 / 100)
    (hne : ∃ r < n, ∃ i < (T r).nCells, ∃ g < nG, ∃ v, K.phi (psi' r) g v i ≠ 0)
    (hend : test.above (K.errorOf test n T psi psi') = false) :
    0 ≤ tol ∧ ∑ r ∈ Finset.range n, ∑ i ∈ Finset.range (T r).nCells, ∑ v, ∑ g ∈ Finset.range nG,
        |K.phi (psi' r) g v i - K.phi (psi r) g v i| ≤
      1.03 * tol * ∑ r ∈ Finset.range n, ∑ i ∈ Finset.range (T r).nCells, ∑ v, ∑ g ∈ Finset.range nG, |K.phi (psi' r) g v i| := by
  have hu0 := R.small.1
  obtain ⟨r0, hr0, i0, hi0, g0, hg0, v0, hv0⟩ := hne
  set part := fun r => pairs nG (T r).nCells (K.phi (psi' r)) (K.phi (psi r)) with hpart
  have hlen : ∀ r < n, (part r).length ≤ N := fun r hr => by rw [hpart, pairs_length]; exact hN r hr
  have hnil : ∀ f : ℕ → ℝ, (List.range n).map f ≠ [] := fun f h => by
    have := congrArg List.length h
    simp at this
    omega
  have he := Te.gsum _ (hnil fun r => test.error (part r))
  have hm := Te.gsum _ (hnil fun r => test.norm (part r))
  set x := test.gsum ((List.range n).map fun r => test.error (part r)) with hx
  set y := test.gsum ((List.range n).map fun r => test.norm (part r)) with hy
  simp only [Te.error] at he
  simp only [Te.norm] at hm
  have h1 := total_near R (fun q : ℝ × ℝ => |q.1 - q.2|) (fun q => |rnd (q.1 - q.2)|) (fun _ => abs_nonneg _)
    (fun q => (abs_abs_sub_abs_le _ _).trans (R.near _)) part hlen he (by norm_num) hδ
  have h2 := total_near R (fun q : ℝ × ℝ => |q.1|) (fun q => |q.1|) (fun _ => abs_nonneg _)
    (fun q => by rw [sub_self, abs_zero]; exact mul_nonneg hu0 (abs_nonneg _)) part hlen hm (by norm_num) hδ
  rw [list_sum_range] at h1 h2
  simp only [hpart, pairs_sum] at h1 h2
  set E := ∑ r ∈ Finset.range n, ∑ i ∈ Finset.range (T r).nCells, ∑ v, ∑ g ∈ Finset.range nG,
        |K.phi (psi' r) g v i - K.phi (psi r) g v i| with hE
  set B := ∑ r ∈ Finset.range n, ∑ i ∈ Finset.range (T r).nCells, ∑ v, ∑ g ∈ Finset.range nG, |K.phi (psi' r) g v i| with hB
  have hE0 : 0 ≤ E := Finset.sum_nonneg fun _ _ => Finset.sum_nonneg fun _ _ => Finset.sum_nonneg fun _ _ =>
    Finset.sum_nonneg fun _ _ => abs_nonneg _
  have hB0 : 0 < B := by
    refine Finset.sum_pos' (fun _ _ => Finset.sum_nonneg fun _ _ => Finset.sum_nonneg fun _ _ =>
      Finset.sum_nonneg fun _ _ => abs_nonneg _) ⟨r0, Finset.mem_range.2 hr0, ?_⟩
    refine Finset.sum_pos' (fun _ _ => Finset.sum_nonneg fun _ _ =>
      Finset.sum_nonneg fun _ _ => abs_nonneg _) ⟨i0, Finset.mem_range.2 hi0, ?_⟩
    refine Finset.sum_pos' (fun _ _ => Finset.sum_nonneg fun _ _ => abs_nonneg _) ⟨v0, Finset.mem_univ _, ?_⟩
    exact Finset.sum_pos' (fun _ _ => abs_nonneg _) ⟨g0, Finset.mem_range.2 hg0, abs_pos.2 hv0⟩
  have hxE := (abs_le.1 h1).1
  have hyB := abs_le.1 h2
  have hy0 : 0 < y := by linarith
  have hx0 : 0 ≤ x := by linarith
  have hq : K.errorOf test n T psi psi' = rnd (x / y) := by rw [← Te.quotient x y hy0.ne']; rfl
  have hle : rnd (x / y) ≤ tol := by
    rw [← hq]
    by_contra hc
    rw [(Te.above _).2 (not_le.1 hc)] at hend
    exact absurd hend (by decide)
  have hn := (abs_le.1 (R.near (x / y))).1
  rw [abs_of_nonneg (div_nonneg hx0 hy0.le)] at hn
  have hz : (1 - u) * (x / y) ≤ tol := by linarith
  have ht0 : 0 ≤ tol := (mul_nonneg (by linarith) (div_nonneg hx0 hy0.le)).trans hz
  refine ⟨ht0, ?_⟩
  have hz2 : (1 - u) * x ≤ tol * y := by
    have := mul_le_mul_of_nonneg_right hz hy0.le
    rwa [mul_assoc, div_mul_cancel₀ _ hy0.ne'] at this
  have hz3 : tol * y ≤ tol * (1.01 * B) := mul_le_mul_of_nonneg_left (by linarith) ht0
  have hz4 : (1 - u) * (0.99 * E) ≤ (1 - u) * x := mul_le_mul_of_nonneg_left (by linarith) (by linarith)
  have hz5 : (1 - 1 / 100000) * (0.99 * E) ≤ (1 - u) * (0.99 * E) := mul_le_mul_of_nonneg_right (by linarith) (by linarith)
  have hz6 : 0 ≤ tol * B := mul_nonneg ht0 hB0.le
  nlinarith

/-! ### The iteration -/

variable {val : Nat → ℝ} {m : SerialMesh} {deck : Deck} {p : Problem ℝ} {sS : Nat → ℝ} {κ : ℝ}
  {K : Kernel ℝ deck.dirs.length deck.nGroups}

/-- `fixedPoint` does what the iteration without the test does. -/
theorem fixedPoint_iterated {nA nG : ℕ} {K : Kernel ℝ nA nG} {test : Test ℝ} {iterMax n : Nat} {T : Nat → Mesh} {D : Nat → Verif.Floating.Tables ℝ}
    {psi : Nat → Psi ℝ} {l : List ℝ} (h : K.FixedPoint test iterMax n T D psi l) : K.Iterated n T D l.length psi := by
  induction h with
  | zero => exact .zero
  | succ _ _ _ hsw ih => exact .succ ih hsw

/-- C99: when source iteration in rounded arithmetic has ended by its tolerance, the flux is near the exact
solution: the tolerance bounds the part of the error which is not rounding. -/
theorem machine_stops {pv : List Nat} {n : Nat} {P : ParallelMesh} {T : Nat → Mesh} {D : Nat → Verif.Floating.Tables ℝ}
    (R : Rounds u rnd) (hu : u ≤ 1 / 100000) (H : Created m pv n P) (hn : n < uintMax) (L : Loaded val P T)
    (hD : Verif.Floating.Started K val P T D) (F : Fits val m) (Ds : Describes val deck m p sS)
    (hK : Computes rnd (deckDir deck) K) (hS : Solves rnd deck K) (hA : Adds rnd deck K)
    (hH : K.source = fun a => rhat rnd (deckDir deck a)) (hw : WellShaped u val m) (S : Stout κ val m) (hap : Apart u val m)
    (hκ : 31 * u * κ ≤ 1 / 100) (hom : ∀ a < deck.dirs.length, size (deckDir deck a) ≤ 1.01)
    (hσ : ∀ c < m.numCells, 0 < p.sigmaT c)
    (ht : ∀ c < m.numCells, u * (2700 + 33 * κ) * ∑ f, p.area c f ≤ p.sigmaT c * p.volume c)
    (hγ : (1 + u) ^ (deck.dirs.length + 1) - 1 ≤ 1 / 100) {b : ℝ} (hb : p.Ratio m (scattering deck sS) b) (hb1 : b < 1)
    (hpS : ∀ c < m.numCells, 0 ≤ sS c) {M : ℝ} (hM : ∀ c < m.numCells, |p.sigmaT c - sS c| ≤ M)
    (hsize : ∀ r < n, deck.dirs.length * (T r).nCells < 2 ^ 64)
    {test : Test ℝ} (Te : Tests rnd tol test) {N : ℕ} (hN : ∀ r < n, (T r).nCells * (4 * deck.nGroups) ≤ N)
    (hδ : (1 + u) ^ (n + N + 1) - 1 ≤ 1 / 100) {iterMax : ℕ} {psi' : Nat → Psi ℝ} {e : ℝ} {l : List ℝ}
    (h : K.FixedPoint test iterMax n T D psi' (e :: l)) (hend : test.above e = false)
    (hne : ∃ r < n, ∃ i < (T r).nCells, ∃ g < deck.nGroups, ∃ v, K.phi (psi' r) g v i ≠ 0)
    {psi : Psi ℝ} (hpsi : p.Scatter m (scattering deck sS) psi) :
    ∃ (before : Nat → Psi ℝ) (old new src : Psi ℝ), K.FixedPoint test iterMax n T D before l ∧
      Holds deck.dirs.length deck.nGroups n T before old ∧
      Holds deck.dirs.length deck.nGroups n T psi' new ∧
      Holds deck.dirs.length deck.nGroups n T (fun r => K.totalSource (D r) (before r)) src ∧
      ∀ X Q W Φ : ℝ,
        (∀ g < deck.nGroups, ∀ v, ∀ a < deck.dirs.length, ∀ c < m.numCells,
          |old g v a c| ≤ X ∧ |new g v a c| ≤ X ∧ |src g v a c| ≤ Q) →
        W = ∑ a ∈ Finset.range deck.dirs.length, (scattering deck sS).wt a →
        Φ = ∑ c ∈ Finset.range m.numCells, ∑ v, ∑ g ∈ Finset.range deck.nGroups,
          |rphi rnd (deckWt deck) fun a => new g v a c| →
        ∀ g < deck.nGroups,
          (1 - b) ^ 2 * ∑ a ∈ Finset.range deck.dirs.length, (scattering deck sS).wt a * ∑ c ∈ Finset.range m.numCells,
              p.sigmaT c * p.volume c * Verif.Source.cellM (fun v => new g v a c - psi g v a c) (fun v => new g v a c - psi g v a c) ≤
            ∑ a ∈ Finset.range deck.dirs.length, (scattering deck sS).wt a * ∑ c ∈ Finset.range m.numCells,
              (2 * p.volume c * (14 * u * (0.04 + M) + u * (1.001 * (0.04 + M)) +
                  sS c / (4 * Real.pi) * ((6 * u + 3 * ((1 + u) ^ (deck.dirs.length + 1) - 1)) * (W * X) + 1.03 * tol * Φ)) ^ 2 / p.sigmaT c +
                160 * (u * (223 + 31 * κ) * (((∑ f, p.area c f) + p.sigmaT c * p.volume c) * X + p.volume c * Q)) ^ 2 /
                  (p.sigmaT c * p.volume c)) := by
  cases h with
  | @succ given _ _ h1 h2 h3 h4 =>
  have hcons := rounded_consistent R H.tets hK hw (opposed_of_fits R.small.1 H.tets F hw)
  obtain ⟨before, old, new, src, k1, k2, k3, k4, k5⟩ := machine_program R hu H hn L hD F Ds hK hS hA hH hw S hap hκ hom hσ ht hγ hb hb1
    hpS hM hsize (.succ (fixedPoint_iterated h1) h4) hpsi
  -- both fluxes before the last sweep hold the same
  have hold : Holds deck.dirs.length deck.nGroups n T given old := by
    obtain ⟨psiS, b1, b2⟩ := Verif.Floating.iterated_bitwise H hn L hD H hn L hD hcons hsize hsize (fixedPoint_iterated h1) k1
    intro r hr i c hc g hg v a ha
    rw [b1 r hr i c hc g hg v a ha, ← b2 r hr i c hc g hg v a ha, k2 r hr i c hc g hg v a ha]
  have hgsrc : Holds deck.dirs.length deck.nGroups n T (fun r => K.totalSource (D r) (given r)) src := by
    intro r hr i c hc g hg v a ha
    rw [← k4 r hr i c hc g hg v a ha]
    show K.total _ _ (K.toPhi fun a => given r g v a i) = K.total _ _ (K.toPhi fun a => before r g v a i)
    congr 2
    funext a
    rw [hold r hr i c hc g hg v a a.2, k2 r hr i c hc g hg v a a.2]
  refine ⟨given, old, new, src, h1, hold, k3, hgsrc, ?_⟩
  rintro X Q W Φ hXQ hW hΦ g hg
  obtain ⟨htol, hstop⟩ := test_ends R hu Te hN hδ hne hend
  -- from the ranks to the mesh
  have hphi : ∀ {flux : Nat → Psi ℝ} {fluxS : Psi ℝ}, Holds deck.dirs.length deck.nGroups n T flux fluxS →
      ∀ r i c, IsCell P r i c → ∀ g < deck.nGroups, ∀ v, K.phi (flux r) g v i = rphi rnd (deckWt deck) fun a => fluxS g v a c := by
    intro flux fluxS hf r i c hi g hg v
    obtain ⟨q1, q2, -⟩ := isCell_lg H L hi
    unfold Kernel.phi
    rw [hA.toPhi]
    congr 1
    funext a
    exact hf r q2 i c q1 g hg v a a.2
  rw [sum_cells H L _ (fun c => ∑ v, ∑ g ∈ Finset.range deck.nGroups, |(rphi rnd (deckWt deck) fun a => new g v a c) - rphi rnd (deckWt deck) fun a => old g v a c|)
      (fun r i c hi => Finset.sum_congr rfl fun v _ => Finset.sum_congr rfl fun g hg => by
        rw [hphi k3 r i c hi g (Finset.mem_range.1 hg) v, hphi hold r i c hi g (Finset.mem_range.1 hg) v]),
    sum_cells H L _ (fun c => ∑ v, ∑ g ∈ Finset.range deck.nGroups, |rphi rnd (deckWt deck) fun a => new g v a c|)
      (fun r i c hi => Finset.sum_congr rfl fun v _ => Finset.sum_congr rfl fun g hg => by
        rw [hphi k3 r i c hi g (Finset.mem_range.1 hg) v]), ← hΦ] at hstop
  have hww : ∀ b : Fin deck.dirs.length, 0 ≤ deckWt deck b := fun b => by
    rw [← deckWt_scattering (sS := sS)]
    exact hb.weights b (by rw [Ds.angles]; exact b.2)
  have hnear : ∀ flux : Psi ℝ, (∀ g < deck.nGroups, ∀ v, ∀ a < deck.dirs.length, ∀ c < m.numCells, |flux g v a c| ≤ X) →
      ∀ g < deck.nGroups, ∀ v, ∀ c < m.numCells,
        |(rphi rnd (deckWt deck) fun a => flux g v a c) - ∑ a ∈ Finset.range deck.dirs.length, flux g v a c * (scattering deck sS).wt a| ≤
          ((1 + u) ^ (deck.dirs.length + 1) - 1) * (W * X) := by
    intro flux hf g hg v c hc
    rw [Finset.sum_range, Finset.sum_congr rfl fun b _ => by rw [deckWt_scattering]]
    refine (rphi_near R _ _).trans (mul_le_mul_of_nonneg_left ?_ (gamma_nonneg R _))
    rw [hW, Finset.sum_range, Finset.sum_mul]
    refine Finset.sum_le_sum fun b _ => ?_
    rw [abs_mul, abs_of_nonneg (hww b), deckWt_scattering, mul_comm]
    exact mul_le_mul_of_nonneg_left (hf g hg v b b.2 c hc) (hww b)
  have := k5 X Q (2 * ((1 + u) ^ (deck.dirs.length + 1) - 1) * (W * X) + 1.03 * tol * Φ) hXQ (by
    intro g hg v c hc
    have e1 := hnear old (fun g hg v a ha c hc => (hXQ g hg v a ha c hc).1) g hg v c hc
    have e2 := hnear new (fun g hg v a ha c hc => (hXQ g hg v a ha c hc).2.1) g hg v c hc
    have e3 : |(rphi rnd (deckWt deck) fun a => new g v a c) - rphi rnd (deckWt deck) fun a => old g v a c| ≤ 1.03 * tol * Φ := by
      refine le_trans ?_ hstop
      refine le_trans ?_ (Finset.single_le_sum (f := fun c => ∑ v, ∑ g ∈ Finset.range deck.nGroups,
        |(rphi rnd (deckWt deck) fun a => new g v a c) - rphi rnd (deckWt deck) fun a => old g v a c|)
        (fun _ _ => Finset.sum_nonneg fun _ _ => Finset.sum_nonneg fun _ _ => abs_nonneg _) (Finset.mem_range.2 hc))
      refine le_trans ?_ (Finset.single_le_sum (f := fun v => ∑ g ∈ Finset.range deck.nGroups,
        |(rphi rnd (deckWt deck) fun a => new g v a c) - rphi rnd (deckWt deck) fun a => old g v a c|)
        (fun _ _ => Finset.sum_nonneg fun _ _ => abs_nonneg _) (Finset.mem_univ v))
      exact Finset.single_le_sum (f := fun g =>
        |(rphi rnd (deckWt deck) fun a => new g v a c) - rphi rnd (deckWt deck) fun a => old g v a c|)
        (fun _ _ => abs_nonneg _) (Finset.mem_range.2 hg)
    simp only [sub_mul, Finset.sum_sub_distrib]
    rw [abs_le] at e1 e2 e3 ⊢
    constructor <;> linarith) g hg
  rw [← hW] at this
  refine this.trans (le_of_eq ?_)
  refine Finset.sum_congr rfl fun a _ => ?_
  congr 1
  refine Finset.sum_congr rfl fun c _ => ?_
  congr 5
  ring

end Verif.Rounding
