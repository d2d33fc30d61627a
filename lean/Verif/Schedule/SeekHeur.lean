import Verif.Schedule.SeekProps
import Verif.Priorities.Angles
import Mathlib.Data.Nat.ModEq

/-!
# The heuristics of the schedule and its constructor (C66)
-/
set_option linter.unusedSectionVars false
set_option linter.unusedVariables false

namespace Verif.Schedule
open Classical List Verif.Traverse

/-! ### Model of the rest of the constructor -/

/-- `Comm::gsum(ncells)` (src/SweepSchedule.cc:633-634). -/
def Plan.allCells {K : Type} (P : Plan K) : Nat :=
  ((List.range P.nRanks).map fun r => (P.mesh r).nCells).sum % 2 ^ 64

/-- Conversion of a `UINT` to `double`: the nearest multiple of a power of two with 53 binary digits,
ties to even. -/
def toDouble (v : Nat) : Nat :=
  if v < 2 ^ 53 then v else
    let e := v.log2 - 52
    if v % 2 ^ e > 2 ^ (e - 1) ∨ (v % 2 ^ e = 2 ^ (e - 1) ∧ v / 2 ^ e % 2 = 1) then (v / 2 ^ e + 1) * 2 ^ e
    else v / 2 ^ e * 2 ^ e

/-- `orderedAngles` after the sort (src/SweepSchedule.cc:648-652); `q` is indexed by cell, angle. -/
def orderedAngles (n nc : Nat) (q : Priorities.Table) : List (Nat × Nat) :=
  ((List.range n).map fun a => (toDouble (Priorities.highPriority nc q a), a)).insertionSort Priorities.pairLe

/-- `anglePriorities` (src/SweepSchedule.cc:623-668) on rank `r`. The loops over cells are those of
`Verif.Priorities` with the two indices exchanged. -/
def Plan.anglePriorities {K : Type} (P : Plan K) (r inter nlevels : Nat) (p : Table) : Table :=
  let q : Priorities.Table := fun c a => p a c
  let n := P.angles.length
  let nc := (P.mesh r).nCells
  let q' := match inter with
    | 1 => (List.range n).foldl (fun q a =>
        Priorities.addTo nc a (Priorities.u64 (Priorities.u64 (a * nlevels) * P.allCells)) q) q
    | 2 => ((orderedAngles n nc q).reverse.foldl (fun (x : Nat × Priorities.Table) (t : Nat × Nat) => (x.1 + 1,
        Priorities.addTo nc t.2
          (Priorities.u64 (Priorities.u64 ((n - (x.1 + 1)) * nlevels) * P.allCells)) x.2)) (0, q)).2
    | _ => q
  fun a c => q' c a

variable {K : Type} [AddCommGroup K] [LinearOrder K] [IsOrderedAddMonoid K]
  {P : Plan K} {mate : Loc → Option Loc}

/-- The parameters chosen for an option (src/SweepSchedule.cc:710-724). -/
def seekOf (nlevels : Nat) : Nat → Option Seek
  | 2 => some ⟨1, 0, 0⟩
  | 3 => some ⟨1, nlevels, 2 ^ 64 - 1⟩
  | 4 => some ⟨nlevels, nlevels, 2 ^ 64 - 1⟩
  | _ => none

/-- The intra-angle priorities of rank `r` (src/SweepSchedule.cc:701-725); `rand` are the values of
`rand()` (514-523). -/
def Plan.IntraAngle (P : Plan K) (r intra : Nat) (rand : Table) (lev : Nat → Levels) (p : Table) : Prop :=
  match seekOf (P.backward.nLevels lev) intra with
  | some k => P.NeighborPriorities r (lev r).side k p
  | none => p = if intra = 0 then rand else if intra = 1 then (lev r).cell else fun _ _ => 0

/-- The priorities with which the constructor calls `calcOrdering` (src/SweepSchedule.cc:675-729). -/
def Plan.Prioritised (P : Plan K) (intra inter : Nat) (rand : Nat → Table) (q : Nat → Table) : Prop :=
  ∃ (lev : Nat → Levels) (p : Nat → Table), CalcLevels P.backward lev ∧
    (∀ r < P.nRanks, P.IntraAngle r intra (rand r) lev (p r)) ∧
    q = fun r => P.anglePriorities r inter (P.backward.nLevels lev) (p r)

/-- The constructor of `PriorityWork` takes a `double` and stores it in a `UINT`
(src/SweepSchedule.cc:69, 74-75): undefined behaviour when it is too large. -/
def storePriority (v : Nat) : Option Nat := if toDouble v < 2 ^ 64 then some (toDouble v) else none

/-- Every pair that was pushed had a priority that can be stored (src/SweepSchedule.cc:155, 212-213,
410-411). When `calcOrdering` returns the queues are empty, so those are the pairs listed in the schedule. -/
def Plan.Storable (P : Plan K) (q : Nat → Table) (s : State) : Prop :=
  ∀ r < P.nRanks, ∀ a < P.angles.length, ∀ c < (P.mesh r).nCells,
    (⟨c, P.angles.getD a 0⟩ : Work) ∈ (s.workOrders r).flatten → (storePriority (q r a c)).isSome = true

/-- The constructor (src/SweepSchedule.cc:675-735) returns with the tables of `s` on every rank, without
undefined behaviour. -/
def Plan.Constructed (P : Plan K) (intra inter : Nat) (rand : Nat → Table) (s : State) : Prop :=
  ∃ q, P.Prioritised intra inter rand q ∧ P.Storable q s ∧
    Ordering P.forward (fun r a c => (storePriority (q r a c)).getD 0) s

/-! ### Chains -/

section
variable (F : P.Fits mate)
include F

theorem down_upwind {r a c : Nat} {f : Face} {y : Loc} (hr : r < P.nRanks) (ha : a < P.angles.length)
    (hc : c < (P.mesh r).nCells) (h : P.Down mate r (P.angles.getD a 0) c f y) :
    P.Upwind mate (P.angles.getD a 0) (r, c) (y.rank, y.cell) := by
  have hin : P.In ⟨r, c, f⟩ := ⟨hr, hc⟩
  refine ⟨y, ⟨r, c, f⟩, F.mate_in _ _ hin h.1, F.mate_symm _ _ hin h.1, ?_, rfl, rfl⟩
  rw [F.opposite _ _ hin h.1 (P.angles.getD a 0)
    (by rw [List.getD_eq_getElem _ _ ha]; exact List.getElem_mem ha)]
  exact neg_lt_neg h.2

/-- The level a rank knows of a neighbour on another rank. -/
theorem side_chain (hac : P.Acyclic mate) (hs : P.totalCells < 2 ^ 64) {lev : Nat → Levels}
    (h : CalcLevels P.backward lev) {r a c : Nat} {f : Face} {y : Loc} (hr : r < P.nRanks)
    (ha : a < P.angles.length) (hc : c < (P.mesh r).nCells)
    (hd : P.Down mate r (P.angles.getD a 0) c f y) (hy : y.rank ≠ r) :
    IsGreatest {k | P.Chain mate (P.angles.getD a 0) (y.rank, y.cell) k}
      ((lev r).side a ((P.mesh r).side c f)) := by
  rw [side_level F hac hs h hr ha hc hd.1 hy hd.2]
  have hyin := F.mate_in ⟨r, c, f⟩ y ⟨hr, hc⟩ hd.1
  exact level_longest_chain F hac hs h hyin.1 ha hyin.2

theorem seek_lt {r : Nat} (hr : r < P.nRanks) {side : Table} {k : Seek} {p : Table}
    (hs : P.angles.length * (P.mesh r).nCells < 2 ^ 64) (h : P.NeighborPriorities r side k p)
    {a c : Nat} (ha : a < P.angles.length) (hc : c < (P.mesh r).nCells) : p a c < 2 ^ 64 := by
  rcases (seek_greatest F hr hs h ha hc).1 with h1 | ⟨f, y, -, h1⟩
  · rw [h1]; exact Nat.two_pow_pos 64
  · rw [h1]; split <;> exact Nat.mod_lt _ (Nat.two_pow_pos 64)

/-- C66: breadth-first dependent seeking. The priority of a task is the largest level of a cell on
another rank that its descendants on this rank feed, zero if they feed none. -/
theorem bfds_priority (hac : P.Acyclic mate) (hs : P.totalCells < 2 ^ 64) {lev : Nat → Levels}
    (hlev : CalcLevels P.backward lev) {r : Nat} (hr : r < P.nRanks)
    (hs' : P.angles.length * (P.mesh r).nCells < 2 ^ 64) {p : Table}
    (h : P.NeighborPriorities r (lev r).side ⟨1, 0, 0⟩ p) {a c : Nat} (ha : a < P.angles.length)
    (hc : c < (P.mesh r).nCells) :
    IsGreatest {v | v = 0 ∨ ∃ c' f y, Relation.ReflTransGen (P.Within mate r (P.angles.getD a 0)) c c' ∧
      P.Down mate r (P.angles.getD a 0) c' f y ∧ y.rank ≠ r ∧
      P.Chain mate (P.angles.getD a 0) (y.rank, y.cell) v} (p a c) := by
  have key := within_acc F hr ha (locally_of_acyclic hac r) c
  induction key with
  | intro c _ ih =>
    have hg := seek_greatest F hr hs' h ha hc
    have hside : ∀ f y, P.Down mate r (P.angles.getD a 0) c f y → y.rank ≠ r →
        IsGreatest {k | P.Chain mate (P.angles.getD a 0) (y.rank, y.cell) k}
          (((lev r).side a ((P.mesh r).side c f) * 1 + 0) % 2 ^ 64) := by
      intro f y hd hy
      have h1 := side_chain F hac hs hlev hr ha hc hd hy
      have h2 := chain_le (hac.at ha) (t := (y.rank, y.cell)) (F.mate_in ⟨r, c, f⟩ y ⟨hr, hc⟩ hd.1) h1.1
      rw [Nat.mul_one, Nat.add_zero, Nat.mod_eq_of_lt (by omega)]
      exact h1
    have hnear : ∀ n, n < (P.mesh r).nCells → (p a n + 0) % 2 ^ 64 = p a n := fun n hn => by
      rw [Nat.add_zero, Nat.mod_eq_of_lt (seek_lt F hr hs' h ha hn)]
    constructor
    · rcases hg.1 with h0 | ⟨f, y, hd, hv⟩
      · exact .inl h0
      · by_cases hy : y.rank = r
        · rw [if_pos hy] at hv
          have hw : P.Within mate r (P.angles.getD a 0) c y.cell :=
            (within_iff F hr ha).2 ⟨hc, f, y, hd, hy, rfl⟩
          have hn := (within_lt F hr ha hw).2
          dsimp only at hv
          rw [hnear _ hn] at hv
          rw [hv]
          rcases (ih y.cell hw hn).1 with h1 | ⟨c', f', y', h1, h2⟩
          · exact .inl h1
          · exact .inr ⟨c', f', y', .head hw h1, h2⟩
        · rw [if_neg hy] at hv
          rw [hv]
          exact .inr ⟨c, f, y, .refl, hd, hy, (hside f y hd hy).1⟩
    · rintro v (rfl | ⟨c', f, y, hw, hd, hy, hv⟩)
      · exact Nat.zero_le _
      · rcases Relation.ReflTransGen.cases_head hw with rfl | ⟨n, h1, h2⟩
        · refine ((hside f y hd hy).2 hv).trans (hg.2 (.inr ⟨f, y, hd, ?_⟩))
          rw [if_neg hy]
        · have hn := (within_lt F hr ha h1).2
          refine ((ih n h1 hn).2 (.inr ⟨c', f, y, h2, hd, hy, hv⟩)).trans ?_
          obtain ⟨-, f', y', hd', hy', rfl⟩ := (within_iff F hr ha).1 h1
          refine hg.2 (.inr ⟨f', y', hd', ?_⟩)
          rw [if_pos hy']
          exact (hnear _ hn).symm

end

/-- From cell `c` to `c'` along the wind in `d` steps, on rank `r`. -/
inductive Plan.Way (P : Plan K) (mate : Loc → Option Loc) (r g : Nat) : Nat → Nat → Nat → Prop
  | nil (c : Nat) : Plan.Way P mate r g c c 0
  | cons (c n c' d : Nat) : P.Within mate r g c n → Plan.Way P mate r g n c' d →
      Plan.Way P mate r g c c' (d + 1)

section
variable (F : P.Fits mate)
include F

theorem way_lt {r a c c' d : Nat} (hr : r < P.nRanks) (ha : a < P.angles.length)
    (hc : c < (P.mesh r).nCells) (h : P.Way mate r (P.angles.getD a 0) c c' d) :
    c' < (P.mesh r).nCells := by
  induction h with
  | nil c => exact hc
  | cons c n c' d hw _ ih => exact ih (within_lt F hr ha hw).2

/-- A way to an exit and a chain behind it make a chain. -/
theorem way_chain {r a c c' d l : Nat} {f : Face} {y : Loc} (hr : r < P.nRanks) (ha : a < P.angles.length)
    (hc : c < (P.mesh r).nCells) (h : P.Way mate r (P.angles.getD a 0) c c' d)
    (hd : P.Down mate r (P.angles.getD a 0) c' f y)
    (hl : P.Chain mate (P.angles.getD a 0) (y.rank, y.cell) l) :
    P.Chain mate (P.angles.getD a 0) (r, c) (l + 1 + d) := by
  induction h with
  | nil c => exact .cons _ _ _ (down_upwind F hr ha hc hd) hl
  | cons c n c' d hw _ ih => exact .cons _ _ _ hw (ih (within_lt F hr ha hw).2 hd)

/-- C66: depth-first dependent seeking (`scale` 1, or the number of levels for the strict form), on a
rank where every cell has a downwind neighbour. The priority of a task is the largest of
`level * scale + nlevels - distance` over the cells on other ranks its descendants feed. Partial: it
fails next to the outflow boundary of the domain, see `dfds_wraps`. -/
theorem dfds_priority_partial (hac : P.Acyclic mate) (hs : P.totalCells < 2 ^ 64) {lev : Nat → Levels}
    (hlev : CalcLevels P.backward lev) {r : Nat} (hr : r < P.nRanks)
    (hs' : P.angles.length * (P.mesh r).nCells < 2 ^ 64) {p : Table} {scale : Nat}
    (hfit : P.backward.nLevels lev * scale + P.backward.nLevels lev < 2 ^ 64)
    (h : P.NeighborPriorities r (lev r).side ⟨scale, P.backward.nLevels lev, 2 ^ 64 - 1⟩ p)
    {a c : Nat} (ha : a < P.angles.length)
    (hfull : ∀ c < (P.mesh r).nCells, ∃ f y, P.Down mate r (P.angles.getD a 0) c f y)
    (hc : c < (P.mesh r).nCells) :
    IsGreatest {v | ∃ c' d f y l, P.Way mate r (P.angles.getD a 0) c c' d ∧
      P.Down mate r (P.angles.getD a 0) c' f y ∧ y.rank ≠ r ∧
      P.Chain mate (P.angles.getD a 0) (y.rank, y.cell) l ∧
      v = l * scale + P.backward.nLevels lev - d} (p a c) := by
  set N := P.backward.nLevels lev with hN
  have hmax := nLevels_longest F hac hs hlev
  rw [← hN] at hmax
  -- ways are shorter than the number of levels
  have hway : ∀ {c c' d l f y}, c < (P.mesh r).nCells → P.Way mate r (P.angles.getD a 0) c c' d →
      P.Down mate r (P.angles.getD a 0) c' f y →
      P.Chain mate (P.angles.getD a 0) (y.rank, y.cell) l → l + 1 + d ≤ N := by
    intro c c' d l f y hc hw hd hl
    exact hmax.2 (.inr ⟨r, a, c, hr, ha, hc, way_chain F hr ha hc hw hd hl⟩)
  have key := within_acc F hr ha (locally_of_acyclic hac r) c
  induction key with
  | intro c _ ih =>
    have hg := seek_greatest F hr hs' h ha hc
    dsimp only at hg
    have hside : ∀ f y, P.Down mate r (P.angles.getD a 0) c f y → y.rank ≠ r →
        ((lev r).side a ((P.mesh r).side c f) * scale + N) % 2 ^ 64 =
          (lev r).side a ((P.mesh r).side c f) * scale + N := by
      intro f y hd hy
      have h1 := side_chain F hac hs hlev hr ha hc hd hy
      have h2 := hway hc (.nil c) hd h1.1
      have h3 : (lev r).side a ((P.mesh r).side c f) * scale ≤ N * scale :=
        Nat.mul_le_mul_right _ (by omega)
      exact Nat.mod_eq_of_lt (by omega)
    -- on-rank neighbours: at least 2, so nothing wraps
    have hnear : ∀ n, P.Within mate r (P.angles.getD a 0) c n →
        2 ≤ p a n ∧ (p a n + (2 ^ 64 - 1)) % 2 ^ 64 = p a n - 1 := by
      intro n hw
      have hn := (within_lt F hr ha hw).2
      obtain ⟨c', d, f, y, l, h1, h2, h3, h4, h5⟩ := (ih n hw hn).1
      have h6 := hway hc (.cons _ _ _ _ hw h1) h2 h4
      have h7 := seek_lt F hr hs' h ha hn
      have h8 : 2 ≤ p a n := by
        rw [h5]
        have := Nat.zero_le (l * scale)
        omega
      exact ⟨h8, by omega⟩
    have hpos : p a c ≠ 0 := by
      intro h0
      obtain ⟨f, y, hd⟩ := hfull c hc
      have h1 := hg.2 (.inr ⟨f, y, hd, rfl⟩)
      rw [h0] at h1
      by_cases hy : y.rank = r
      · rw [if_pos hy] at h1
        have hw : P.Within mate r (P.angles.getD a 0) c y.cell :=
          (within_iff F hr ha).2 ⟨hc, f, y, hd, hy, rfl⟩
        obtain ⟨h2, h3⟩ := hnear _ hw
        rw [h3] at h1
        omega
      · rw [if_neg hy, hside f y hd hy] at h1
        have h2 := hway hc (.nil c) hd (side_chain F hac hs hlev hr ha hc hd hy).1
        omega
    constructor
    · rcases hg.1 with h0 | ⟨f, y, hd, hv⟩
      · exact absurd h0 hpos
      · by_cases hy : y.rank = r
        · rw [if_pos hy] at hv
          have hw : P.Within mate r (P.angles.getD a 0) c y.cell :=
            (within_iff F hr ha).2 ⟨hc, f, y, hd, hy, rfl⟩
          have hn := (within_lt F hr ha hw).2
          rw [(hnear _ hw).2] at hv
          obtain ⟨c', d, f', y', l, h1, h2, h3, h4, h5⟩ := (ih y.cell hw hn).1
          exact ⟨c', d + 1, f', y', l, .cons _ _ _ _ hw h1, h2, h3, h4, by omega⟩
        · rw [if_neg hy, hside f y hd hy] at hv
          exact ⟨c, 0, f, y, _, .nil c, hd, hy, (side_chain F hac hs hlev hr ha hc hd hy).1, by omega⟩
    · rintro v ⟨c', d, f, y, l, hw, hd, hy, hl, rfl⟩
      cases hw with
      | nil =>
        refine le_trans ?_ (hg.2 (.inr ⟨f, y, hd, rfl⟩))
        rw [if_neg hy, hside f y hd hy]
        have := (side_chain F hac hs hlev hr ha hc hd hy).2 hl
        have h3 : l * scale ≤ (lev r).side a ((P.mesh r).side c f) * scale := Nat.mul_le_mul_right _ this
        omega
      | cons _ n _ d hw h1 =>
        have hn := (within_lt F hr ha hw).2
        have h2 := (ih n hw hn).2 ⟨c', d, f, y, l, h1, hd, hy, hl, rfl⟩
        obtain ⟨-, f', y', hd', hy', rfl⟩ := (within_iff F hr ha).1 hw
        have h3 := hg.2 (.inr ⟨f', y', hd', rfl⟩)
        rw [if_pos hy', (hnear _ hw).2] at h3
        omega

/-- C66, violated: with `parentShift` -1 a cell just upwind of a cell without downwind neighbours has
the largest priority there is, whatever else happens. -/
theorem dfds_wraps {r : Nat} (hr : r < P.nRanks) {side : Table} {scale shift : Nat} {p : Table}
    (hs : P.angles.length * (P.mesh r).nCells < 2 ^ 64)
    (h : P.NeighborPriorities r side ⟨scale, shift, 2 ^ 64 - 1⟩ p) {a c n : Nat} (ha : a < P.angles.length)
    (hw : P.Within mate r (P.angles.getD a 0) c n)
    (hend : ∀ f y, ¬ P.Down mate r (P.angles.getD a 0) n f y) : p a c = 2 ^ 64 - 1 := by
  obtain ⟨hc, hn⟩ := within_lt F hr ha hw
  have h0 : p a n = 0 := by
    rcases (seek_greatest F hr hs h ha hn).1 with h1 | ⟨f, y, hd, -⟩
    · exact h1
    · exact absurd hd (hend f y)
  obtain ⟨-, f, y, hd, hy, rfl⟩ := (within_iff F hr ha).1 hw
  have h1 := (seek_greatest F hr hs h ha hc).2 (.inr ⟨f, y, hd, rfl⟩)
  rw [if_pos hy, h0] at h1
  have h2 := seek_lt F hr hs h ha hc
  dsimp only at h1
  omega

end

/-! ### Angles -/

theorem toDouble_small {v : Nat} (h : v < 2 ^ 53) : toDouble v = v := if_pos h

theorem storePriority_small {v : Nat} (h : v < 2 ^ 53) : storePriority v = some v := by
  unfold storePriority
  rw [toDouble_small h, if_pos (h.trans (by decide))]

/-- The largest priorities cannot be stored. -/
theorem storePriority_large : storePriority (2 ^ 64 - 1) = none := by decide +kernel

theorem anglePriorities_le {r inter nlevels : Nat} {p : Table} {a c : Nat} (ha : a < P.angles.length)
    (hc : c < (P.mesh r).nCells) :
    P.anglePriorities r inter nlevels p a c ≤ p a c + P.angles.length * nlevels * P.allCells := by
  have hoff : ∀ i, i ≤ P.angles.length → Priorities.u64 (Priorities.u64 (i * nlevels) * P.allCells) ≤
      P.angles.length * nlevels * P.allCells := by
    intro i hi
    refine (Nat.mod_le _ _).trans (Nat.mul_le_mul_right _ ((Nat.mod_le _ _).trans (Nat.mul_le_mul_right _ hi)))
  unfold Plan.anglePriorities
  split
  · rw [Priorities.addTo_fold _ (fun a => Priorities.u64 (Priorities.u64 (a * nlevels) * P.allCells)) _
      List.nodup_range _ hc (List.mem_range.2 ha)]
    exact (Nat.mod_le _ _).trans (Nat.add_le_add_left (hoff a ha.le) _)
  · have hperm : (orderedAngles P.angles.length (P.mesh r).nCells (fun c a => p a c)).Perm
        ((List.range P.angles.length).map fun a =>
          (toDouble (Priorities.highPriority (P.mesh r).nCells (fun c a => p a c) a), a)) :=
      List.perm_insertionSort _ _
    set l := (orderedAngles P.angles.length (P.mesh r).nCells (fun c a => p a c)).reverse with hl
    have hnd : (l.map Prod.snd).Nodup := by
      rw [hl, List.map_reverse, List.nodup_reverse, (hperm.map Prod.snd).nodup_iff, List.map_map]
      have : (Prod.snd ∘ fun a => (toDouble (Priorities.highPriority (P.mesh r).nCells
        (fun c a => p a c) a), a)) = (id : Nat → Nat) := rfl
      rw [this, List.map_id]
      exact List.nodup_range
    have hmem : (toDouble (Priorities.highPriority (P.mesh r).nCells (fun c a => p a c) a), a) ∈ l := by
      rw [hl, List.mem_reverse, hperm.mem_iff]
      exact List.mem_map.2 ⟨a, List.mem_range.2 ha, rfl⟩
    obtain ⟨i, hi, he⟩ := List.getElem_of_mem hmem
    have := Priorities.local_fold (P.mesh r).nCells
      (fun k => Priorities.u64 (Priorities.u64 ((P.angles.length - (k + 1)) * nlevels) * P.allCells)) l hnd 0
      (fun c a => p a c) hc hi
    rw [he] at this
    rw [this]
    exact (Nat.mod_le _ _).trans (Nat.add_le_add_left (hoff _ (Nat.sub_le _ _)) _)
  · exact Nat.le_add_right _ _

theorem allCells_eq (h : P.totalCells < 2 ^ 64) : P.allCells = P.totalCells := by
  have : ((List.range P.nRanks).map fun r => (P.mesh r).nCells).sum = P.totalCells := by
    unfold Plan.totalCells
    rw [Finset.sum_range, ← List.sum_ofFn, List.ofFn_eq_map]
    rw [← List.map_coe_finRange_eq_range, List.map_map]
    rfl
  unfold Plan.allCells
  rw [this]
  exact Nat.mod_eq_of_lt h

/-- The number of cells fits, when the priorities do. -/
theorem allCells_of_fit {nlevels x : Nat} (ha : 0 < P.angles.length) (hx : x < nlevels * P.totalCells)
    (hfit : P.angles.length * nlevels * P.totalCells < 2 ^ 64) : P.allCells = P.totalCells := by
  apply allCells_eq
  have hl : 0 < nlevels := Nat.pos_of_ne_zero fun h => by rw [h] at hx; omega
  exact lt_of_le_of_lt (Nat.le_mul_of_pos_left _ (Nat.mul_pos ha hl)) hfit

/-- C66: with globally prioritised angles a task of a later angle of the group goes before every task
of an earlier one, when the intra-angle priorities are less than levels times cells. -/
theorem schedule_global_angles {r nlevels : Nat} {p : Table} (hfit : P.angles.length * nlevels * P.totalCells < 2 ^ 64)
    (hp : ∀ a c, a < P.angles.length → c < (P.mesh r).nCells → p a c < nlevels * P.totalCells) {c c' a a' : Nat}
    (hc : c < (P.mesh r).nCells) (hc' : c' < (P.mesh r).nCells) (ha : a < a') (ha' : a' < P.angles.length) :
    P.anglePriorities r 1 nlevels p a c < P.anglePriorities r 1 nlevels p a' c' := by
  have e := allCells_of_fit (by omega) (hp a' c' ha' hc') hfit
  rw [← e] at hfit hp
  exact Priorities.global_angles (p := fun c a => p a c) hfit (fun c a hc ha => hp a c ha hc) hc hc' ha ha'

/-- C66: with locally prioritised angles the tasks of an angle whose largest priority is greater go
first. -/
theorem schedule_local_angles {r nlevels : Nat} {p : Table} (hfit : P.angles.length * nlevels * P.totalCells < 2 ^ 64)
    (hp : ∀ a c, a < P.angles.length → c < (P.mesh r).nCells → p a c < nlevels * P.totalCells)
    (hn : ∀ a c, a < P.angles.length → c < (P.mesh r).nCells → p a c < 2 ^ 53) {c c' a a' b : Nat}
    (hc : c < (P.mesh r).nCells) (hc' : c' < (P.mesh r).nCells) (ha : a < P.angles.length)
    (ha' : a' < P.angles.length) (hb : b < (P.mesh r).nCells) (hlt : ∀ d < (P.mesh r).nCells, p a d < p a' b) :
    P.anglePriorities r 2 nlevels p a c < P.anglePriorities r 2 nlevels p a' c' := by
  have e := allCells_of_fit (by omega) (hp a' c' ha' hc') hfit
  rw [← e] at hfit hp
  have hhigh := fun a => Priorities.highPriority_spec (P.mesh r).nCells (fun c a => p a c) a
  have he : orderedAngles P.angles.length (P.mesh r).nCells (fun c a => p a c) =
      Priorities.orderedAngles P.angles.length (P.mesh r).nCells (fun c a => p a c) := by
    unfold orderedAngles Priorities.orderedAngles
    congr 1
    refine List.map_congr_left fun a ha => ?_
    rw [toDouble_small]
    rcases (hhigh a).2 with h | ⟨c, hc, h⟩
    · rw [h]; exact Nat.two_pow_pos _
    · rw [h]; exact hn a c (List.mem_range.1 ha) hc
  have := Priorities.local_angles (p := fun c a => p a c) hfit (fun c a hc ha => hp a c ha hc) hc hc' ha ha'
    (.inl (by
      refine lt_of_lt_of_le ?_ ((hhigh a').1 b hb)
      rcases (hhigh a).2 with h | ⟨d, hd, h⟩
      · rw [h]; exact (Nat.zero_le _).trans_lt (hlt b hb)
      · rw [h]; exact hlt d hd))
  unfold Plan.anglePriorities
  rw [he]
  exact this

/-! ### The constructor -/

section
variable (F : P.Fits mate)
include F

/-- C66: whatever the options, the schedule of an acyclic mesh is complete and in order. -/
theorem constructed_topological (hac : P.Acyclic mate) {intra inter : Nat}
    {rand : Nat → Table} {s : State} (h : P.Constructed intra inter rand s) {r : Nat} (hr : r < P.nRanks) :
    (∀ c < (P.mesh r).nCells, ∀ g ∈ P.angles, (s.workOrders r).flatten.count ⟨c, g⟩ = 1) ∧
    (∀ w ∈ (s.workOrders r).flatten, w.cell < (P.mesh r).nCells ∧ w.angle ∈ P.angles) ∧
    (∀ l ∈ s.workOrders r, l.length ≤ P.maxCellsPerStep) ∧
    (∀ i l1 w, ListedAt (s.workOrders r) i l1 w → ∀ f y, mate ⟨r, w.cell, f⟩ = some y →
      P.dot r w.angle w.cell f < - P.tol →
      (y.rank = r → (⟨y.cell, w.angle⟩ : Work) ∈ ((s.workOrders r).take i).flatten ++ l1) ∧
      (y.rank ≠ r → Listed ((s.workOrders y.rank).take i) ⟨y.cell, w.angle⟩)) := by
  obtain ⟨q, -, -, ho⟩ := h
  exact schedule_topological F hac ho hr

/-- C66: with a step size that does not truncate to zero the computation of the priorities ends,
except with the options that use `neighborPriorities` on a mesh with a cycle inside a rank: then it
never does. -/
theorem priorities_return_iff (hz : P.maxCellsPerStep % 2 ^ 32 ≠ 0)
    (hs : ∀ r < P.nRanks, P.angles.length * (P.mesh r).nCells < 2 ^ 64)
    (intra inter : Nat) (rand : Nat → Table) :
    (∃ q, P.Prioritised intra inter rand q) ↔
      (intra = 2 ∨ intra = 3 ∨ intra = 4 → ∀ r < P.nRanks, P.LocallyAcyclic mate r) := by
  have hsome : ∀ N, intra = 2 ∨ intra = 3 ∨ intra = 4 → ∃ k, seekOf N intra = some k := by
    rintro N (rfl | rfl | rfl) <;> exact ⟨_, rfl⟩
  have hnone : ∀ N, ¬ (intra = 2 ∨ intra = 3 ∨ intra = 4) → seekOf N intra = none := by
    intro N h
    unfold seekOf
    split <;> simp_all
  constructor
  · rintro ⟨q, lev, p, -, hp, -⟩ hi r hr
    obtain ⟨k, hk⟩ := hsome (P.backward.nLevels lev) hi
    have h1 := hp r hr
    unfold Plan.IntraAngle at h1
    rw [hk] at h1
    rcases (seek_returns_iff F hr _ k (hs r hr)).1 ⟨_, h1⟩ with h2 | h2
    · intro g hg c hc
      obtain ⟨a, ha, rfl⟩ := List.getElem_of_mem hg
      rw [← List.getD_eq_getElem _ 0 ha] at hc
      rcases Nat.mul_eq_zero.1 h2 with h3 | h3
      · omega
      · have : ∃ n, P.Within mate r (P.angles.getD a 0) n c := by
          cases hc with
          | single h => exact ⟨_, h⟩
          | tail _ h => exact ⟨_, h⟩
        obtain ⟨n, hn⟩ := this
        have := (within_lt F hr ha hn).1
        omega
    · exact h2.2
  · intro hac
    obtain ⟨lev, hlev⟩ := levels_return F hz
    have : ∀ r, ∃ p, r < P.nRanks → P.IntraAngle r intra (rand r) lev p := by
      intro r
      by_cases hr : r < P.nRanks
      · unfold Plan.IntraAngle
        by_cases hi : intra = 2 ∨ intra = 3 ∨ intra = 4
        · obtain ⟨k, hk⟩ := hsome (P.backward.nLevels lev) hi
          rw [hk]
          obtain ⟨p, hp⟩ := (seek_returns_iff F hr (lev r).side k (hs r hr)).2 (.inr ⟨hz, hac hi r hr⟩)
          exact ⟨p, fun _ => hp⟩
        · rw [hnone _ hi]
          exact ⟨_, fun _ => rfl⟩
      · exact ⟨fun _ _ => 0, fun h => absurd h hr⟩
    obtain ⟨p, hp⟩ := Classical.axiomOfChoice this
    exact ⟨_, lev, p, hlev, hp, rfl⟩

/-- C66: on an acyclic mesh the constructor returns with random, level and breadth-first priorities,
for numbers of levels, cells and angles within reason. -/
theorem constructor_returns_partial (hz : P.maxCellsPerStep % 2 ^ 32 ≠ 0) (hac : P.Acyclic mate)
    (hs : ∀ r < P.nRanks, P.angles.length * (P.mesh r).nCells < 2 ^ 64)
    (hfit : P.angles.length * P.totalCells * P.totalCells + P.totalCells + 2 ^ 31 < 2 ^ 53)
    {intra : Nat} (hi : intra ≠ 3 ∧ intra ≠ 4) (inter : Nat) {rand : Nat → Table}
    (hrand : ∀ r a c, rand r a c < 2 ^ 31) :
    ∃ s, P.Constructed intra inter rand s := by
  obtain ⟨q, hq⟩ := (priorities_return_iff F hz hs intra inter rand).2
    (fun _ r _ => locally_of_acyclic hac r)
  obtain ⟨lev, p, hlev, hp, rfl⟩ := id hq
  have eall : P.allCells = P.totalCells := allCells_eq (by omega)
  have hst : P.totalCells < 2 ^ 64 := by
    have : (2 : Nat) ^ 53 < 2 ^ 64 := by decide
    omega
  have hmax := nLevels_longest F hac hst hlev
  have hN : P.backward.nLevels lev ≤ P.totalCells := by
    rcases hmax.1 with h | ⟨r, a, c, hr, ha, hc, h⟩
    · omega
    · have := chain_le (hac.at ha) (t := (r, c)) ⟨hr, hc⟩ h
      omega
  have hpb : ∀ r < P.nRanks, ∀ a < P.angles.length, ∀ c < (P.mesh r).nCells,
      p r a c ≤ P.totalCells + 2 ^ 31 := by
    intro r hr a ha c hc
    have h1 := hp r hr
    unfold Plan.IntraAngle at h1
    match intra, hi with
    | 0, _ =>
      have h1 : p r = rand r := h1
      rw [h1]; have := hrand r a c; omega
    | 1, _ =>
      have h1 : p r = (lev r).cell := h1
      rw [h1]
      have := hmax.2 (.inr ⟨r, a, c, hr, ha, hc, (level_longest_chain F hac hst hlev hr ha hc).1⟩)
      omega
    | 2, _ =>
      have h1 : P.NeighborPriorities r (lev r).side ⟨1, 0, 0⟩ (p r) := h1
      rcases (bfds_priority F hac hst hlev hr (hs r hr) h1 ha hc).1 with h2 | ⟨c', f, y, hw, hd, hy, h2⟩
      · omega
      · have hc' : c' < (P.mesh r).nCells := by
          rcases Relation.ReflTransGen.cases_tail hw with rfl | ⟨b, -, hb⟩
          · exact hc
          · exact (within_lt F hr ha hb).2
        have hyin := F.mate_in ⟨r, c', f⟩ y ⟨hr, hc'⟩ hd.1
        have := hmax.2 (.inr ⟨y.rank, a, y.cell, hyin.1, ha, hyin.2, h2⟩)
        omega
    | 3, hi => exact absurd rfl hi.1
    | 4, hi => exact absurd rfl hi.2
    | n + 5, _ =>
      have h1 : p r = fun _ _ => 0 := by
        have h1 : p r = if n + 5 = 0 then rand r else if n + 5 = 1 then (lev r).cell else fun _ _ => 0 := h1
        rw [h1, if_neg (by omega), if_neg (by omega)]
      rw [h1]; exact Nat.zero_le _
  have hstore : ∀ s, P.Storable (fun r => P.anglePriorities r inter (P.backward.nLevels lev) (p r)) s := by
    intro s r hr a ha c hc _
    have h1 := anglePriorities_le (P := P) (r := r) (inter := inter) (nlevels := P.backward.nLevels lev)
      (p := p r) ha hc
    rw [eall] at h1
    have h2 : P.angles.length * P.backward.nLevels lev * P.totalCells ≤
        P.angles.length * P.totalCells * P.totalCells :=
      Nat.mul_le_mul_right _ (Nat.mul_le_mul_left _ hN)
    have h3 := hpb r hr a ha c hc
    dsimp only
    rw [storePriority_small (by omega)]
    rfl
  obtain ⟨s, ho⟩ := (schedule_returns_iff F (fun r a c => (storePriority
    (P.anglePriorities r inter (P.backward.nLevels lev) (p r) a c)).getD 0)).2 (.inl hz)
  exact ⟨s, _, hq, hstore s, ho⟩

/-- C66, violated: on an acyclic mesh, where every pair is pushed (`constructed_topological`), the
depth-first options always run into undefined behaviour on a rank with a cell
just upwind of a cell without downwind neighbours, in the first angle of the group unless the angles
are prioritised locally, and in any angle when they are interleaved. -/
theorem dfds_undefined (hac : P.Acyclic mate) {intra inter : Nat} (hi : intra = 3 ∨ intra = 4)
    {rand : Nat → Table} {r : Nat}
    (hr : r < P.nRanks) (hs : P.angles.length * (P.mesh r).nCells < 2 ^ 64) {a c n : Nat}
    (ha : a < P.angles.length) (hint : inter = 0 ∨ (inter = 1 ∧ a = 0))
    (hw : P.Within mate r (P.angles.getD a 0) c n)
    (hend : ∀ f y, ¬ P.Down mate r (P.angles.getD a 0) n f y) :
    ¬ ∃ s, P.Constructed intra inter rand s := by
  rintro ⟨s, q, ⟨lev, p, hlev, hp, rfl⟩, hst, ho⟩
  have hc := (within_lt F hr ha hw).1
  have h1 : p r a c = 2 ^ 64 - 1 := by
    have h2 := hp r hr
    rcases hi with rfl | rfl
    · exact dfds_wraps F hr hs (scale := 1) (shift := P.backward.nLevels lev) h2 ha hw hend
    · exact dfds_wraps F hr hs (scale := P.backward.nLevels lev) (shift := P.backward.nLevels lev) h2 ha hw hend
  have h3 : P.anglePriorities r inter (P.backward.nLevels lev) (p r) a c = 2 ^ 64 - 1 := by
    rcases hint with rfl | ⟨rfl, rfl⟩
    · exact h1
    · have := Priorities.addTo_fold (P.mesh r).nCells
        (fun a => Priorities.u64 (Priorities.u64 (a * P.backward.nLevels lev) * P.allCells))
        (List.range P.angles.length) List.nodup_range (fun c a => p r a c) hc (List.mem_range.2 ha)
      rw [h1, Nat.zero_mul] at this
      have h5 : Priorities.u64 (2 ^ 64 - 1 + Priorities.u64 (Priorities.u64 0 * P.allCells)) = 2 ^ 64 - 1 := by
        have : Priorities.u64 0 = 0 := rfl
        rw [this, Nat.zero_mul, this]
        rfl
      rw [h5] at this
      exact this
  have hg : P.angles.getD a 0 ∈ P.angles := by
    rw [List.getD_eq_getElem _ _ ha]; exact List.getElem_mem ha
  have h4 := hst r hr a ha c hc (List.count_pos_iff.1
    (by rw [(schedule_topological F hac ho hr).1 c hc _ hg]; exact Nat.one_pos))
  dsimp only at h4
  rw [h3, storePriority_large] at h4
  simp at h4

end

end Verif.Schedule
