import Verif.Schedule.Examples
import Verif.Schedule.SweepPlan

/-!
# The read of `cellLevels[0]` in `calcLevels` (C101)

`calcLevels` starts its maximum with the first entry of the table (src/SweepSchedule.cc:501). `Graph.nLevels` of
`Verif.Schedule.Levels` is the maximum of all tables; here the reads are modelled one by one.
-/
set_option linter.unusedSectionVars false

namespace Verif.Schedule
open List Verif.Traverse
open Verif.Priorities (exMesh exMate)

/-! ### Model -/

/-- The entries of `cellLevels` in the order of memory: `cellLevels[i]` with `i = cell * numAngles + angle`
(src/Mat.hh:167-173). -/
def Graph.table (G : Graph) (r : Nat) (l : Levels) : List Nat :=
  (List.range (G.angles.length * (G.mesh r).nCells)).map fun i => l.cell (i % G.angles.length) (i / G.angles.length)

/-- The maximum of a table (src/SweepSchedule.cc:501-504). The read of the first entry of an empty table (`none`) ends
the program by its `Assert` (src/Mat.hh:202), and is undefined with assertions off. -/
def maxOfTable (t : List Nat) : Option Nat :=
  match t[0]? with
  | none => none
  | some x => some ((t.drop 1).foldl max x)

/-- What `calcLevels` returns on each rank (src/SweepSchedule.cc:501-507), when the tables are `lev`. -/
def Graph.returned (G : Graph) (lev : Nat → Levels) : Option Nat :=
  ((List.range G.nRanks).mapM fun r => maxOfTable (G.table r (lev r))).map fun l => l.foldl max 0

/-! ### Properties -/

theorem maxOfTable_nil : maxOfTable [] = none := rfl

theorem maxOfTable_ne {t : List Nat} (h : t ≠ []) : maxOfTable t = some (t.foldl max 0) := by
  cases t with
  | nil => exact absurd rfl h
  | cons x t => simp [maxOfTable]

theorem table_eq_nil {G : Graph} {r : Nat} {l : Levels} :
    G.table r l = [] ↔ G.angles.length = 0 ∨ (G.mesh r).nCells = 0 := by
  unfold Graph.table
  rw [List.map_eq_nil_iff, List.range_eq_nil, Nat.mul_eq_zero]

theorem mem_table {G : Graph} {r : Nat} {l : Levels} {x : Nat} :
    x ∈ G.table r l ↔ ∃ a c, a < G.angles.length ∧ c < (G.mesh r).nCells ∧ x = l.cell a c := by
  unfold Graph.table
  simp only [List.mem_map, List.mem_range]
  constructor
  · rintro ⟨i, hi, rfl⟩
    have hpos : 0 < G.angles.length := Nat.pos_of_ne_zero fun h => by rw [h, Nat.zero_mul] at hi; exact Nat.not_lt_zero _ hi
    exact ⟨_, _, Nat.mod_lt _ hpos, Nat.div_lt_of_lt_mul hi, rfl⟩
  · rintro ⟨a, c, ha, hc, rfl⟩
    refine ⟨G.angles.length * c + a, ?_, ?_⟩
    · calc G.angles.length * c + a < G.angles.length * c + G.angles.length := by omega
        _ = G.angles.length * (c + 1) := by ring
        _ ≤ _ := Nat.mul_le_mul_left _ hc
    · rw [Nat.mul_add_mod, Nat.mod_eq_of_lt ha, Nat.mul_add_div (by omega), Nat.div_eq_of_lt ha, Nat.add_zero]

theorem foldl_max_le (t : List Nat) (m k : Nat) : t.foldl max m ≤ k ↔ m ≤ k ∧ ∀ x ∈ t, x ≤ k := by
  induction t generalizing m with
  | nil => simp
  | cons x t ih =>
    rw [List.foldl_cons, ih, max_le_iff]
    simp only [List.mem_cons, forall_eq_or_imp, and_assoc]

theorem mapM_some {α β : Type} (f : α → Option β) (g : α → β) : ∀ l : List α, (∀ x ∈ l, f x = some (g x)) →
    l.mapM f = some (l.map g)
  | [], _ => rfl
  | x :: l, h => by
    rw [List.mapM_cons, h x (by simp), mapM_some f g l fun y hy => h y (by simp [hy])]
    rfl

theorem mapM_none {α β : Type} (f : α → Option β) : ∀ (l : List α) (x : α), x ∈ l → f x = none → l.mapM f = none
  | y :: l, x, h, hx => by
    rw [List.mapM_cons]
    rcases List.mem_cons.1 h with rfl | h
    · rw [hx]; rfl
    · cases f y with
      | none => rfl
      | some z => rw [mapM_none f l x h hx]; rfl

/-- When the group has an angle and every rank a cell, `calcLevels` returns the maximum of all levels. -/
theorem levels_read_partial {G : Graph} (lev : Nat → Levels) (ha : 0 < G.angles.length)
    (hc : ∀ r < G.nRanks, 0 < (G.mesh r).nCells) : G.returned lev = some (G.nLevels lev) := by
  unfold Graph.returned
  rw [mapM_some _ (fun r => (G.table r (lev r)).foldl max 0) _ fun r hr => maxOfTable_ne fun h => by
    have := hc r (List.mem_range.1 hr)
    rcases table_eq_nil.1 h with h | h <;> omega]
  rw [Option.map_some, Option.some_inj, nLevels_eq]
  have key : ∀ k, ((List.range G.nRanks).map fun r => (G.table r (lev r)).foldl max 0).foldl max 0 ≤ k ↔
      (G.entries.map fun e => (lev e.1).cell e.2.1 e.2.2).foldl max 0 ≤ k := by
    intro k
    rw [foldl_max_le, foldl_max_le]
    simp only [Nat.zero_le, true_and, List.mem_map, List.mem_range, forall_exists_index, and_imp, forall_apply_eq_imp_iff₂]
    constructor
    · intro h e he
      obtain ⟨h1, h2, h3⟩ := mem_entries.1 he
      exact ((foldl_max_le _ _ _).1 (h e.1 h1)).2 _ (mem_table.2 ⟨_, _, h2, h3, rfl⟩)
    · intro h r hr
      refine (foldl_max_le _ _ _).2 ⟨Nat.zero_le _, fun x hx => ?_⟩
      obtain ⟨a, c, h2, h3, rfl⟩ := mem_table.1 hx
      exact h (r, a, c) (mem_entries.2 ⟨hr, h2, h3⟩)
  have h := le_antisymm ((key _).2 le_rfl) ((key _).1 le_rfl)
  rw [h, List.foldl_map]

/-- On a group without angles, or with a rank without cells, `calcLevels` does not return. -/
theorem returned_none {G : Graph} (lev : Nat → Levels)
    (h : ∃ r < G.nRanks, G.angles.length = 0 ∨ (G.mesh r).nCells = 0) : G.returned lev = none := by
  obtain ⟨r, hr, h⟩ := h
  unfold Graph.returned
  rw [mapM_none _ _ r (List.mem_range.2 hr) (by rw [table_eq_nil.2 h]; rfl)]
  rfl

/-- C101: `calcLevels` reads only entries of its table exactly if the group has an angle and every rank a cell. -/
theorem levels_read_iff {G : Graph} (hn : 0 < G.nRanks) (lev : Nat → Levels) :
    (∃ k, G.returned lev = some k) ↔ 0 < G.angles.length ∧ ∀ r < G.nRanks, 0 < (G.mesh r).nCells := by
  constructor
  · rintro ⟨k, hk⟩
    refine ⟨Nat.pos_of_ne_zero fun h => ?_, fun r hr => Nat.pos_of_ne_zero fun h => ?_⟩
    · rw [returned_none lev ⟨0, hn, .inl h⟩] at hk; cases hk
    · rw [returned_none lev ⟨r, hr, .inr h⟩] at hk; cases hk
  · rintro ⟨ha, hc⟩
    exact ⟨_, levels_read_partial lev ha hc⟩

theorem groupAngles_length {N k g : Nat} (hg : g < k) :
    (Verif.Partition.groupAngles N k g).length = N / k + if g < N % k then 1 else 0 := by
  unfold Verif.Partition.groupAngles
  dsimp only
  rw [Verif.Partition.bdry_get N k g hg.le, Verif.Partition.bdry_get N k (g + 1) hg, Verif.Partition.bnd_succ, List.length_map,
    List.length_range, Nat.add_sub_cancel_left]
  unfold Verif.Partition.chunk
  split <;> rfl

/-- Every angle group has an angle exactly if there are not more groups than angles. -/
theorem groups_have_angles {N k : Nat} (hk : 0 < k) :
    (∀ g < k, 0 < (Verif.Partition.groupAngles N k g).length) ↔ k ≤ N := by
  constructor
  · intro h
    by_contra hN
    have := h (k - 1) (by omega)
    rw [groupAngles_length (by omega), Nat.div_eq_of_lt (by omega), Nat.mod_eq_of_lt (by omega), if_neg (by omega)] at this
    omega
  · intro h g hg
    rw [groupAngles_length hg]
    have := Nat.div_pos h hk
    omega

section
variable {K : Type} [Field K] [LinearOrder K] [IsStrictOrderedRing K]

/-- C101: the constructor of `Sweeper`, which builds a schedule for each angle group (src/Sweeper.cc:320-350), reads in
`calcLevels` only entries of the tables exactly if there are at most as many angle groups (that is, OpenMP threads) as
angles and every rank has a cell. -/
theorem sweeper_levels_iff (S : Sweeping K) (maxCells : Nat) (tol : K) (hg : 0 < S.nAngleGroups) (hn : 0 < S.run.nRanks)
    (lev : Nat → Nat → Levels) :
    (∀ g < S.nAngleGroups, ∃ k, (S.plan maxCells tol g).backward.returned (lev g) = some k) ↔
      S.nAngleGroups ≤ S.run.nAngles ∧ ∀ r < S.run.nRanks, 0 < (S.run.mesh r).nCells := by
  rw [← groups_have_angles hg]
  constructor
  · intro h
    have h' := fun g (hlt : g < S.nAngleGroups) => (levels_read_iff (G := (S.plan maxCells tol g).backward) hn (lev g)).1 (h g hlt)
    exact ⟨fun g hlt => (h' g hlt).1, (h' 0 hg).2⟩
  · rintro ⟨h1, h2⟩ g hlt
    exact (levels_read_iff (G := (S.plan maxCells tol g).backward) hn (lev g)).2 ⟨h1 g hlt, h2⟩

end

section
variable {K : Type} [AddCommGroup K] [LinearOrder K] [IsOrderedAddMonoid K] {P : Plan K} {mate : Loc → Option Loc}

/-- C63: when the group has an angle and every rank a cell, the number that `calcLevels` returns is the length of the
longest chain of the mesh. -/
theorem returned_longest (F : P.Fits mate) (hac : P.Acyclic mate) (hs : P.totalCells < 2 ^ 64) (ha : 0 < P.angles.length)
    (hc : ∀ r < P.nRanks, 0 < (P.mesh r).nCells) {lev : Nat → Levels} (h : CalcLevels P.backward lev) :
    ∃ N, P.backward.returned lev = some N ∧
      IsGreatest {k | k = 0 ∨ ∃ r a c, r < P.nRanks ∧ a < P.angles.length ∧ c < (P.mesh r).nCells ∧
        P.Chain mate (P.angles.getD a 0) (r, c) k} N :=
  ⟨_, levels_read_partial lev ha hc, nLevels_longest F hac hs h⟩

end

/-! ### Examples and witnesses -/

/-- C63, C101: on the example `calcLevels` returns. -/
example : ∃ lev N, CalcLevels exPlan.backward lev ∧ exPlan.backward.returned lev = some N := by
  obtain ⟨lev, h⟩ := levels_return exPlan_fits (by decide)
  obtain ⟨N, hN, -⟩ := returned_longest exPlan_fits exPlan_acyclic (by decide) (by decide) (by decide) h
  exact ⟨lev, N, h, hN⟩

/-- The same mesh for a group without angles. -/
def exIdle : Plan Int := { exPlan with angles := [] }

theorem exIdle_fits : exIdle.Fits exMate :=
  ⟨exPlan_fits.mate_in, exPlan_fits.mate_symm, exPlan_fits.near, exPlan_fits.far, exPlan_fits.ext,
    exPlan_fits.side_eq, exPlan_fits.side_cell, exPlan_fits.side_inj, fun _ _ _ _ g hg => absurd hg (by simp [exIdle]),
    by decide, exPlan_fits.tol⟩

/-- C101, negation: with more threads than angles (here three and two) a group has no angle. The loop of `calcLevels`
ends for that group, and then the program reads the first entry of an empty table on every rank. -/
theorem idle_group_witness : Verif.Partition.groupAngles 2 3 2 = exIdle.angles ∧
    (∃ lev, CalcLevels exIdle.backward lev) ∧ ∀ lev, exIdle.backward.returned lev = none :=
  ⟨by decide, levels_return exIdle_fits (by decide), fun lev => returned_none lev ⟨0, by decide, .inl rfl⟩⟩

/-- The example with a third rank that has no cells. -/
def exEmpty : Plan Int :=
  { exPlan with nRanks := 3, mesh := fun r => if r < 2 then exMesh r else { exMesh r with nCells := 0 } }

theorem exEmpty_in {x : Loc} (h : exEmpty.In x) : exPlan.In x ∧ exEmpty.mesh x.rank = exPlan.mesh x.rank := by
  obtain ⟨h1, h2⟩ := h
  have h2 : x.cell < (if x.rank < 2 then exMesh x.rank else { exMesh x.rank with nCells := 0 }).nCells := h2
  by_cases hr : x.rank < 2
  · rw [if_pos hr] at h2
    exact ⟨⟨hr, h2⟩, if_pos hr⟩
  · rw [if_neg hr] at h2
    exact absurd h2 (Nat.not_lt_zero _)

theorem exEmpty_of {x : Loc} (h : exPlan.In x) : exEmpty.In x := by
  have hr : x.rank < 2 := h.1
  refine ⟨hr.trans (by decide), ?_⟩
  show x.cell < (if x.rank < 2 then exMesh x.rank else { exMesh x.rank with nCells := 0 }).nCells
  rw [if_pos hr]
  exact h.2

theorem exEmpty_fits : exEmpty.Fits exMate where
  mate_in x y hx h := exEmpty_of (exPlan_fits.mate_in x y (exEmpty_in hx).1 h)
  mate_symm x y hx h := exPlan_fits.mate_symm x y (exEmpty_in hx).1 h
  near x y hx h hr := by rw [(exEmpty_in hx).2]; exact exPlan_fits.near x y (exEmpty_in hx).1 h hr
  far x y hx h hr := by rw [(exEmpty_in hx).2]; exact exPlan_fits.far x y (exEmpty_in hx).1 h hr
  ext x hx h := by rw [(exEmpty_in hx).2]; exact exPlan_fits.ext x (exEmpty_in hx).1 h
  side_eq x y hx h hr := by
    have hy := exEmpty_in (exEmpty_of (exPlan_fits.mate_in x y (exEmpty_in hx).1 h))
    rw [(exEmpty_in hx).2, hy.2]; exact exPlan_fits.side_eq x y (exEmpty_in hx).1 h hr
  side_cell x y hx h hr := by rw [(exEmpty_in hx).2]; exact exPlan_fits.side_cell x y (exEmpty_in hx).1 h hr
  side_inj x x' y y' hx hx' h h' hr hr' he hs := by
    rw [(exEmpty_in hx).2, (exEmpty_in hx').2] at hs
    exact exPlan_fits.side_inj x x' y y' (exEmpty_in hx).1 (exEmpty_in hx').1 h h' hr hr' he hs
  opposite x y hx h := exPlan_fits.opposite x y (exEmpty_in hx).1 h
  angles := exPlan_fits.angles
  tol := exPlan_fits.tol

/-- C101, negation: with a rank without cells. -/
theorem empty_rank_witness : (∃ lev, CalcLevels exEmpty.backward lev) ∧ ∀ lev, exEmpty.backward.returned lev = none :=
  ⟨levels_return exEmpty_fits (by decide), fun lev => returned_none lev ⟨2, by decide, .inr rfl⟩⟩

end Verif.Schedule
