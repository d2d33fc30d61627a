import Verif.Domain.Examples

/-!
# The index of the Schur packing (C108)

`psiBoundToVec` and `vecToPsiBound` (src/SweeperSchur.cc:78-134) count the entries in an `int`, which has
32 bits; `getPsiBoundSize` (140-168) counts the same entries in a `UINT`. The functions here are those
of `Verif.Domain.Schur` with the increment of the `int` undefined once its result is not representable.
-/
set_option linter.unusedSectionVars false
namespace Verif.Domain
open Classical List
open Verif.Transport Verif.Traverse

variable {K : Type} [Field K] [LinearOrder K]

/-- `xArrayIndex++` for an `int` of 32 bits (src/SweeperSchur.cc:99, 130); `none` is undefined
behaviour. The index is never negative. -/
def incInt (i : Nat) : Option Nat := if i + 1 < 2 ^ 31 then some (i + 1) else none

/-- The loops of `psiBoundToVec` from an index on (src/SweeperSchur.cc:83-103). -/
def packFrom (b : Bound K) : List Slot → Nat → (Nat → K) → Option (Nat → K)
  | [], _, x => some x
  | s :: l, i, x => (incInt i).bind fun j => packFrom b l j (Function.update x i (s.get b))

/-- The loops of `vecToPsiBound` from an index on (src/SweeperSchur.cc:114-133). -/
def unpackFrom (x : Nat → K) : List Slot → Nat → Bound K → Option (Bound K)
  | [], _, b => some b
  | s :: l, i, b => (incInt i).bind fun j => unpackFrom x l j (s.set b (x i))

/-- `psiBoundToVec` with its `int` (src/SweeperSchur.cc:78-104); `none` is undefined behaviour. -/
def packInt (R : SweepRun K) (r : Nat) (b : Bound K) (x : Nat → K) : Option (Nat → K) :=
  packFrom b (slots R r) 0 x

/-- `vecToPsiBound` with its `int` (src/SweeperSchur.cc:109-134); `none` is undefined behaviour. -/
def unpackInt (R : SweepRun K) (r : Nat) (x : Nat → K) (b : Bound K) : Option (Bound K) :=
  unpackFrom x (slots R r) 0 b

/-! ### Specification -/

/-- The faces through which flux enters rank `r` from another rank, with the angles. -/
def entering (R : SweepRun K) (r : Nat) : Finset (Nat × Nat × Fin 4) :=
  (Finset.range R.nAngles ×ˢ Finset.range (R.nCells r) ×ˢ Finset.univ).filter fun p =>
    ¬ (R.view r).isOutgoing p.1 p.2.1 p.2.2 ∧ (R.view r).adjCell p.2.1 p.2.2 = none ∧
      (R.view r).adjRank p.2.1 p.2.2 ≠ none

/-- The packing, entry by entry: the `i`-th entry is the value at the `i`-th place of `slots`, the rest stays. -/
def Packed (R : SweepRun K) (r : Nat) (b : Bound K) (x y : Nat → K) : Prop :=
  ∀ i, (∀ h : i < (slots R r).length, y i = (slots R r)[i].get b) ∧ ((slots R r).length ≤ i → y i = x i)

/-! ### When the packing is defined -/

theorem packFrom_eq (b : Bound K) (l : List Slot) (i : Nat) (x : Nat → K) (hi : i < 2 ^ 31) :
    packFrom b l i x = if i + l.length < 2 ^ 31 then
      some (l.foldl (fun p s => (Function.update p.1 p.2 (Slot.get s b), p.2 + 1)) (x, i)).1 else none := by
  induction l generalizing i x with
  | nil => rw [packFrom, List.length_nil, Nat.add_zero, if_pos hi, List.foldl_nil]
  | cons s l ih =>
    rw [packFrom, incInt]
    by_cases h : i + 1 < 2 ^ 31
    · rw [if_pos h, Option.bind_some, ih _ _ h, List.length_cons, List.foldl_cons,
        show i + (l.length + 1) = i + 1 + l.length from by omega]
    · rw [if_neg h, Option.bind_none, if_neg (by rw [List.length_cons]; omega)]

theorem unpackFrom_eq (x : Nat → K) (l : List Slot) (i : Nat) (b : Bound K) (hi : i < 2 ^ 31) :
    unpackFrom x l i b = if i + l.length < 2 ^ 31 then
      some (l.foldl (fun p s => (Slot.set s p.1 (x p.2), p.2 + 1)) (b, i)).1 else none := by
  induction l generalizing i b with
  | nil => rw [unpackFrom, List.length_nil, Nat.add_zero, if_pos hi, List.foldl_nil]
  | cons s l ih =>
    rw [unpackFrom, incInt]
    by_cases h : i + 1 < 2 ^ 31
    · rw [if_pos h, Option.bind_some, ih _ _ h, List.length_cons, List.foldl_cons,
        show i + (l.length + 1) = i + 1 + l.length from by omega]
    · rw [if_neg h, Option.bind_none, if_neg (by rw [List.length_cons]; omega)]

theorem packInt_eq (R : SweepRun K) (r : Nat) (b : Bound K) (x : Nat → K) :
    packInt R r b x = if psiBoundSize R r < 2 ^ 31 then some (psiBoundToVec R r b x) else none := by
  unfold packInt psiBoundToVec
  rw [packFrom_eq b _ 0 x (by norm_num), psiBoundSize_eq, Nat.zero_add]

theorem unpackInt_eq (R : SweepRun K) (r : Nat) (x : Nat → K) (b : Bound K) :
    unpackInt R r x b = if psiBoundSize R r < 2 ^ 31 then some (vecToPsiBound R r x b) else none := by
  unfold unpackInt vecToPsiBound
  rw [unpackFrom_eq x _ 0 b (by norm_num), psiBoundSize_eq, Nat.zero_add]

/-! ### How many entries there are -/

theorem sum_range_list (n : Nat) (f : Nat → Nat) : ((List.range n).map f).sum = ∑ i ∈ Finset.range n, f i := rfl

/-- C108: three entries for each group and each entering face and angle. -/
theorem size_entering (R : SweepRun K) (r : Nat) :
    psiBoundSize R r = 3 * R.nGroups * (entering R r).card := by
  rw [psiBoundSize_eq, slots]
  have inner : ∀ a c g, ((List.finRange 4).flatMap fun face =>
      if (R.mesh r).outgoing a c face = false ∧ (R.mesh r).adjCell c face = none ∧
          (R.mesh r).adjRank c face ≠ none then
        (List.finRange 3).map fun fvrtx => ((g, fvrtx, a, (R.mesh r).side c face) : Slot)
      else []).length = ∑ f : Fin 4, if ¬ (R.view r).isOutgoing a c f ∧ (R.view r).adjCell c f = none ∧
        (R.view r).adjRank c f ≠ none then 3 else 0 := by
    intro a c g
    rw [List.length_flatMap, Fin.sum_univ_def]
    refine congrArg List.sum (List.map_congr_left fun f _ => ?_)
    by_cases h : ¬ (R.view r).isOutgoing a c f ∧ (R.view r).adjCell c f = none ∧
        (R.view r).adjRank c f ≠ none
    · rw [if_pos h, if_pos (by simpa [SweepRun.mesh] using h)]; simp
    · rw [if_neg h, if_neg (by simpa [SweepRun.mesh] using h)]; rfl
  simp only [List.length_flatMap (l := List.range _), sum_range_list, inner]
  rw [entering, Finset.card_filter, Finset.sum_product, Finset.mul_sum]
  refine Finset.sum_congr rfl fun a _ => ?_
  rw [Finset.sum_product, Finset.mul_sum]
  refine Finset.sum_congr rfl fun c _ => ?_
  rw [Finset.sum_const, Finset.card_range, smul_eq_mul, Finset.mul_sum, Finset.mul_sum]
  refine Finset.sum_congr rfl fun f _ => ?_
  by_cases h : ¬ (R.view r).isOutgoing a c f ∧ (R.view r).adjCell c f = none ∧
      (R.view r).adjRank c f ≠ none
  · rw [if_pos h, if_pos h]; ring
  · rw [if_neg h, if_neg h]; ring

/-- C108, what holds: with fewer than 2^31 entries packing and unpacking are defined, fill exactly the
entries that `getPsiBoundSize` counts, and are inverse to each other. -/
theorem pack_defined_partial {R : SweepRun K} {mate : Loc → Option Loc} (L : Linked R.cfg mate)
    {r : Nat} (hr : r < R.nRanks) (hn : 3 * R.nGroups * (entering R r).card < 2 ^ 31)
    (b b' : Bound K) (x : Nat → K) :
    ∃ y b'', packInt R r b x = some y ∧ Packed R r b x y ∧ unpackInt R r y b' = some b'' ∧
      (∀ s ∈ slots R r, s.get b'' = s.get b) ∧ ∀ s : Slot, s ∉ slots R r → s.get b'' = s.get b' := by
  rw [← size_entering] at hn
  refine ⟨_, _, by rw [packInt_eq, if_pos hn], fun i => ⟨fun h => ?_, fun h => ?_⟩,
    by rw [unpackInt_eq, if_pos hn], unpack_pack L hr b b' x, (unpack_get L hr _ b').2⟩
  · rw [pack_get, dif_pos (by rw [psiBoundSize_eq]; exact h)]
  · rw [pack_get, dif_neg (by rw [psiBoundSize_eq]; omega)]

/-- C108, what fails: with 2^31 entries or more both are undefined. -/
theorem pack_overflow (R : SweepRun K) (r : Nat) (hn : 2 ^ 31 ≤ 3 * R.nGroups * (entering R r).card)
    (b : Bound K) (x : Nat → K) : packInt R r b x = none ∧ unpackInt R r x b = none := by
  rw [← size_entering] at hn
  rw [packInt_eq, unpackInt_eq, if_neg (by omega), if_neg (by omega)]
  exact ⟨rfl, rfl⟩

/-! ### Witnesses -/

/-- The two ranks of `Verif.Domain.Examples` with any number of groups. -/
def wide (n : Nat) : SweepRun ℚ := { good true with nGroups := n }

theorem wide_linked (n : Nat) : Linked (wide n).cfg exMate :=
  have E := ex_linked false .tycho true
  ⟨E.threads, E.size, E.mate_in, E.mate_symm, E.near, E.far, E.ext, E.side_eq, E.side_cell, E.side_inj, E.orient⟩

theorem wide_entering (n : Nat) : (entering (wide n) 0).card = 1 := by
  have h1 := size_entering (good true) 0
  have h2 : psiBoundSize (good true) 0 = 3 := by decide +kernel
  have h3 : entering (wide n) 0 = entering (good true) 0 := rfl
  have h4 : (good true).nGroups = 1 := rfl
  rw [h3]; rw [h2, h4] at h1; omega

/-- C108, the witness: two tetrahedra on two ranks, 2^30 groups. -/
theorem pack_violated : ∃ (R : SweepRun ℚ) (mate : Loc → Option Loc), Linked R.cfg mate ∧ 0 < R.nRanks ∧
    ∀ b x, packInt R 0 b x = none ∧ unpackInt R 0 x b = none :=
  ⟨wide (2 ^ 30), exMate, wide_linked _, by decide, fun b x => pack_overflow _ _
    (by rw [wide_entering]; norm_num [wide]) b x⟩

/-- C108: the same two ranks with up to 2^29 groups meet the hypotheses of `pack_defined_partial`. -/
example (n : Nat) (hn : n ≤ 2 ^ 29) (b : Bound ℚ) (x : Nat → ℚ) :
    ∃ y, packInt (wide n) 0 b x = some y ∧ Packed (wide n) 0 b x y ∧ psiBoundSize (wide n) 0 = 3 * n := by
  obtain ⟨y, _, h, h', -⟩ := pack_defined_partial (R := wide n) (wide_linked n)
    (r := 0) (show 0 < 2 by decide) (by rw [wide_entering]; simp only [wide]; omega) b b x
  exact ⟨y, h, h', by rw [size_entering, wide_entering]; simp [wide]⟩

end Verif.Domain
