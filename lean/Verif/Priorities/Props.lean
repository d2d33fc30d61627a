import Verif.Priorities.Rules

/-!
# What the priorities are
-/
set_option linter.unusedSectionVars false

namespace Verif.Priorities
open Classical List Verif.Traverse

/-! ### Specification -/

/-- A downwind chain of `k` steps from cell `c` inside the partition; the last step may leave it. -/
inductive Chain (m : RankMesh) (a : Nat) : Nat → Nat → Prop
  | stop (c : Nat) : Chain m a c 0
  | leave (c : Nat) (f : Face) (q : Nat) : m.outgoing a c f = true → m.adjCell c f = none →
      m.adjRank c f = some q → Chain m a c 1
  | step (c : Nat) (f : Face) (n k : Nat) : m.outgoing a c f = true → m.adjCell c f = some n →
      Chain m a n k → Chain m a c (k + 1)

/-- `n` is `d` steps downwind of `c` inside the partition. -/
inductive Reaches (m : RankMesh) (a : Nat) : Nat → Nat → Nat → Prop
  | refl (c : Nat) : Reaches m a c c 0
  | step (c : Nat) (f : Face) (c' n d : Nat) : m.outgoing a c f = true → m.adjCell c f = some c' →
      Reaches m a c' n d → Reaches m a c n (d + 1)

/-- A face through which the wind leaves the partition into another one. -/
def Exit (m : RankMesh) (a c : Nat) : Prop :=
  ∃ f q, m.outgoing a c f = true ∧ m.adjCell c f = none ∧ m.adjRank c f = some q

/-- No cell downwind, here or in another partition. -/
def DeadEnd (m : RankMesh) (a c : Nat) : Prop :=
  ¬ Exit m a c ∧ ∀ f n, m.outgoing a c f = true → m.adjCell c f ≠ some n

section
variable {R : Prio} {mate : Loc → Option Loc}

/-! ### B-levels -/

theorem bLevel_rule (L : Linked R.bcfg mate) {s : State BLevels Nat} (h : Reachable R.bcfg s)
    (hf : ∀ r < R.nRanks, (s.rank r).phase = .finished) {r c a : Nat} (hr : r < R.nRanks)
    (hc : c < (R.mesh r).nCells) (ha : a < R.nAngles) :
    (s.rank r).data.cell c a = best fun f =>
      bVal (fun _ => 0) ((s.rank r).data.cell · a) (adjCellsSides (R.mesh r) c f)
        (bdryType (R.mesh r) a c f) := by
  rw [(h.inv L).data r hr]
  exact R.bRule.solves L rfl (h.inv L).ordered (complete_of_finished L h hf r c a hr hc ha)

/-- A rank of the cells of one angle, with the bounds it puts on levels. -/
theorem bLevel_rank (L : Linked R.bcfg mate) {s : State BLevels Nat} (h : Reachable R.bcfg s)
    (hf : ∀ r < R.nRanks, (s.rank r).phase = .finished) {r a : Nat} (hr : r < R.nRanks)
    (ha : a < R.nAngles) :
    (R.mesh r).nCells < 2 ^ 64 ∧
    ∃ rk : Nat → Nat, ∀ c < (R.mesh r).nCells, rk c < (R.mesh r).nCells ∧
      (s.rank r).data.cell c a ≤ rk c + 1 ∧
      ∀ f n, (R.mesh r).outgoing a c f = true → (R.mesh r).adjCell c f = some n →
        n < (R.mesh r).nCells ∧ rk n < rk c := by
  have hsize : (R.mesh r).nCells < 2 ^ 64 := by
    have h1 := L.size r hr
    have h2 : (R.mesh r).nCells ≤ R.nAngles * (R.mesh r).nCells := Nat.le_mul_of_pos_left _ (by omega)
    exact lt_of_le_of_lt h2 h1
  refine ⟨hsize, ?_⟩
  obtain ⟨rk, hrk⟩ := exists_rank L rfl (h.inv L).ordered (complete_of_finished L h hf) hr ha
  refine ⟨rk, fun c hc => ⟨(hrk c hc).1, ?_, (hrk c hc).2⟩⟩
  induction hn : rk c using Nat.strong_induction_on generalizing c with
  | _ n ih =>
    subst hn
    rw [bLevel_rule L h hf hr hc ha]
    apply best_le
    intro f
    cases hb : bdryType (R.mesh r) a c f <;> simp only [bVal, u64]
    · have : (0 + 1) % 2 ^ 64 = 1 := by norm_num
      omega
    · omega
    · obtain ⟨ho, n, hn, hn'⟩ := bdry_outInt hb
      rw [hn']
      simp only [Option.getD_some]
      obtain ⟨h1, h2⟩ := (hrk c hc).2 f n ho hn
      have := ih (rk n) h2 n h1 rfl
      have := Nat.mod_le ((s.rank r).data.cell n a + 1) (2 ^ 64)
      omega
    · omega
    · omega
    · omega

/-- C45: the level of a cell is the length of the longest downwind chain inside the partition, a step
out of the partition counting as one; whatever the threads, batch size and order of computation. -/
theorem bLevels_longest (L : Linked R.bcfg mate) {s : State BLevels Nat} (h : Reachable R.bcfg s)
    (hf : ∀ r < R.nRanks, (s.rank r).phase = .finished) {r c a : Nat} (hr : r < R.nRanks)
    (hc : c < (R.mesh r).nCells) (ha : a < R.nAngles) :
    IsGreatest {k | Chain (R.mesh r) a c k} ((s.rank r).data.cell c a) := by
  obtain ⟨hsize, rk, hrk⟩ := bLevel_rank L h hf hr ha
  have hnw : ∀ c < (R.mesh r).nCells, ∀ f n, (R.mesh r).outgoing a c f = true →
      (R.mesh r).adjCell c f = some n → n < (R.mesh r).nCells ∧ rk n < rk c ∧
      u64 ((s.rank r).data.cell n a + 1) = (s.rank r).data.cell n a + 1 := by
    intro c hc f n ho hn
    obtain ⟨h1, -, h3⟩ := hrk c hc
    obtain ⟨h4, h5⟩ := h3 f n ho hn
    have := (hrk n h4).2.1
    refine ⟨h4, h5, Nat.mod_eq_of_lt ?_⟩
    omega
  constructor
  · show Chain (R.mesh r) a c _
    induction hn : rk c using Nat.strong_induction_on generalizing c with
    | _ n ih =>
      subst hn
      rw [bLevel_rule L h hf hr hc ha]
      rcases best_mem fun f => bVal (fun _ => 0) ((s.rank r).data.cell · a)
        (adjCellsSides (R.mesh r) c f) (bdryType (R.mesh r) a c f) with h0 | ⟨f, hx⟩
      · rw [h0]; exact .stop c
      · rw [hx]
        cases hb : bdryType (R.mesh r) a c f <;> simp only [bVal]
        · obtain ⟨ho, hn, q, hq⟩ := bdry_outIntBdry hb
          exact .leave c f q ho hn hq
        · exact .stop c
        · obtain ⟨ho, n, hn, hn'⟩ := bdry_outInt hb
          rw [hn']
          simp only [Option.getD_some]
          obtain ⟨h1, h2, h3⟩ := hnw c hc f n ho hn
          rw [h3]
          exact .step c f n _ ho hn (ih (rk n) h2 h1 rfl)
        · exact .stop c
        · exact .stop c
        · exact .stop c
  · rintro k (hk : Chain (R.mesh r) a c k)
    induction hk with
    | stop c => exact Nat.zero_le _
    | leave c f q ho hn hq =>
      rw [bLevel_rule L h hf hr hc ha]
      refine le_trans (le_of_eq ?_) (le_best _ f)
      rw [bdry_of_far ho hn hq]
      rfl
    | step c f n k ho hn _ ih =>
      obtain ⟨h1, h2, h3⟩ := hnw c hc f n ho hn
      have := ih h1
      rw [bLevel_rule L h hf hr hc ha]
      refine le_trans ?_ (le_best _ f)
      rw [(bdry_of_near ho hn).1, (bdry_of_near ho hn).2]
      simp only [bVal, Option.getD_some]
      rw [h3]
      omega

/-- C45: a level exceeds those of the local cells downwind, and the number of cells bounds it. -/
theorem bLevels_decrease (L : Linked R.bcfg mate) {s : State BLevels Nat} (h : Reachable R.bcfg s)
    (hf : ∀ r < R.nRanks, (s.rank r).phase = .finished) {r c a : Nat} (hr : r < R.nRanks)
    (hc : c < (R.mesh r).nCells) (ha : a < R.nAngles) :
    (s.rank r).data.cell c a ≤ (R.mesh r).nCells ∧
    ∀ f n, (R.mesh r).outgoing a c f = true → (R.mesh r).adjCell c f = some n →
      (s.rank r).data.cell n a < (s.rank r).data.cell c a := by
  obtain ⟨-, rk, hrk⟩ := bLevel_rank L h hf hr ha
  obtain ⟨h1, h2, h3⟩ := hrk c hc
  refine ⟨by omega, fun f n ho hn => ?_⟩
  have hn' := (h3 f n ho hn).1
  exact (bLevels_longest L h hf hr hc ha).2
    (Chain.step c f n _ ho hn (bLevels_longest L h hf hr hn' ha).1)

theorem update_max (cell angle : Nat) (adj : Face → Option Nat) (bdry : Face → BoundaryType)
    (d : BLevels) : (d.update cell angle adj bdry).max =
      Nat.max d.max ((d.update cell angle adj bdry).cell cell angle) := by
  unfold BLevels.update
  dsimp only
  congr 1
  generalize List.finRange 4 = l
  have key : ∀ (l : List Face) (e : BLevels),
      (l.foldl (BLevels.face cell angle adj bdry) e).max = e.max := by
    intro l
    induction l with
    | nil => intro e; rfl
    | cons x l ih =>
      intro e
      rw [List.foldl_cons, ih]
      unfold BLevels.face
      cases bdry x <;> rfl
  rw [key]

theorem replay_max (L : Linked R.bcfg mate) {log : List (Event Nat)} (h : Ordered R.bcfg mate log)
    (r : Nat) :
    (∀ c a, Done log r c a → (replay R.bcfg r log).cell c a ≤ (replay R.bcfg r log).max) ∧
    ((replay R.bcfg r log).max = 0 ∨
      ∃ c a, Done log r c a ∧ (replay R.bcfg r log).cell c a = (replay R.bcfg r log).max) := by
  induction log using List.reverseRecOn with
  | nil => exact ⟨fun c a hd => by simp [Done] at hd, Or.inl rfl⟩
  | append_singleton log e ih =>
    obtain ⟨ih1, ih2⟩ := ih (ordered_prefix h)
    have hstay : ∀ c a, Done log r c a →
        (replay R.bcfg r (log ++ [e])).cell c a = (replay R.bcfg r log).cell c a :=
      fun c a hd => R.bRule.obs_stays L rfl h hd
    obtain ⟨r', c', a', k, rfl⟩ := nocomm_events L rfl h (e := e) (by simp)
    by_cases hr : r' = r
    · subst hr
      have hm : (replay R.bcfg r' (log ++ [Event.upd r' c' a' k])).max =
          Nat.max (replay R.bcfg r' log).max
            ((replay R.bcfg r' (log ++ [Event.upd r' c' a' k])).cell c' a') := by
        rw [replay_snoc]
        simp only [applyEvent, if_true]
        exact update_max _ _ _ _ _
      constructor
      · intro c a hd
        rw [hm]
        rcases done_append.1 hd with hd | hd
        · rw [hstay c a hd]
          exact le_trans (ih1 c a hd) (Nat.le_max_left _ _)
        · obtain ⟨-, rfl, rfl⟩ := done_single.1 hd
          exact Nat.le_max_right _ _
      · rw [hm]
        rcases le_total ((replay R.bcfg r' (log ++ [Event.upd r' c' a' k])).cell c' a')
          (replay R.bcfg r' log).max with hle | hle
        · rw [show Nat.max (replay R.bcfg r' log).max _ = _ from Nat.max_eq_left hle]
          rcases ih2 with h0 | ⟨c, a, hd, he⟩
          · exact Or.inl h0
          · exact Or.inr ⟨c, a, done_append.2 (Or.inl hd), by rw [hstay c a hd, he]⟩
        · rw [show Nat.max (replay R.bcfg r' log).max _ = _ from Nat.max_eq_right hle]
          exact Or.inr ⟨c', a', ⟨k, by simp⟩, rfl⟩
    · have heq : replay R.bcfg r (log ++ [Event.upd r' c' a' k]) = replay R.bcfg r log := by
        rw [replay_snoc]
        simp [applyEvent, hr]
      have hdn : ∀ c a, Done (log ++ [Event.upd r' c' a' k]) r c a ↔ Done log r c a := by
        intro c a
        rw [done_append, done_single]
        constructor
        · rintro (hd | ⟨rfl, -⟩)
          · exact hd
          · exact absurd rfl hr
        · exact Or.inl
      rw [heq]
      simp only [hdn]
      exact ⟨ih1, ih2⟩

theorem foldl_natMax (l : List Nat) (f : Nat → Nat) (m : Nat) :
    (∀ x ∈ l, f x ≤ l.foldl (fun m r => Nat.max m (f r)) m) ∧
    m ≤ l.foldl (fun m r => Nat.max m (f r)) m ∧
    (l.foldl (fun m r => Nat.max m (f r)) m = m ∨
      ∃ x ∈ l, l.foldl (fun m r => Nat.max m (f r)) m = f x) := by
  induction l generalizing m with
  | nil => simp
  | cons x l ih =>
    obtain ⟨h1, h2, h3⟩ := ih (Nat.max m (f x))
    rw [List.foldl_cons]
    refine ⟨?_, le_trans (Nat.le_max_left _ _) h2, ?_⟩
    · intro y hy
      rcases List.mem_cons.1 hy with rfl | hy
      · exact le_trans (Nat.le_max_right _ _) h2
      · exact h1 y hy
    · rcases h3 with h3 | ⟨y, hy, h3⟩
      · rw [h3]
        rcases le_total (f x) m with hle | hle
        · exact Or.inl (Nat.max_eq_left hle)
        · exact Or.inr ⟨x, by simp, Nat.max_eq_right hle⟩
      · exact Or.inr ⟨y, by simp [hy], h3⟩

/-- C45: the number of levels is the largest level of any task on any rank. -/
theorem maxBLevel_largest (L : Linked R.bcfg mate) {s : State BLevels Nat} (h : Reachable R.bcfg s)
    (hf : ∀ r < R.nRanks, (s.rank r).phase = .finished) :
    (∀ r c a, r < R.nRanks → c < (R.mesh r).nCells → a < R.nAngles →
      (s.rank r).data.cell c a ≤ R.maxBLevel fun r => (s.rank r).data) ∧
    (R.maxBLevel (fun r => (s.rank r).data) = 0 ∨
      ∃ r c a, r < R.nRanks ∧ c < (R.mesh r).nCells ∧ a < R.nAngles ∧
        (s.rank r).data.cell c a = R.maxBLevel fun r => (s.rank r).data) := by
  obtain ⟨h1, -, h3⟩ := foldl_natMax (List.range R.nRanks) (fun r => (s.rank r).data.max) 0
  constructor
  · intro r c a hr hc ha
    refine le_trans ?_ (h1 r (List.mem_range.2 hr))
    rw [(h.inv L).data r hr]
    exact (replay_max L (h.inv L).ordered r).1 c a (complete_of_finished L h hf r c a hr hc ha)
  · rcases h3 with h3 | ⟨r, hr, h3⟩
    · exact Or.inl h3
    · have hr := List.mem_range.1 hr
      rcases (replay_max L (h.inv L).ordered r).2 with h0 | ⟨c, a, hd, he⟩
      · left
        rw [show R.maxBLevel (fun r => (s.rank r).data) = (s.rank r).data.max from h3,
          (h.inv L).data r hr, h0]
      · right
        have hin := ordered_append_mem (h.inv L).ordered hd
        refine ⟨r, c, a, hr, hin.2.1, hin.2.2, ?_⟩
        rw [show R.maxBLevel (fun r => (s.rank r).data) = (s.rank r).data.max from h3,
          (h.inv L).data r hr, he]

/-! ### Neighbour heuristics -/

theorem neighbor_rule {h : Heuristic} {side : Nat → Table} (L : Linked (R.ncfg h side) mate)
    {s : State Table Nat} (hs : Reachable (R.ncfg h side) s)
    (hf : ∀ r < R.nRanks, (s.rank r).phase = .finished) {r c a : Nat} (hr : r < R.nRanks)
    (hc : c < (R.mesh r).nCells) (ha : a < R.nAngles) :
    (s.rank r).data c a = best fun f =>
      h.face (side r) a (adjCellsSides (R.mesh r) c f) (bdryType (R.mesh r) a c f)
        (fun n _ => (s.rank r).data n a) := by
  rw [(hs.inv L).data r hr]
  exact (R.nRule h side).solves L rfl (hs.inv L).ordered (complete_of_finished L hs hf r c a hr hc ha)

/-- The value depends only on the values found through faces leaving the partition. -/
theorem neighbor_congr {h h' : Heuristic} {side side' : Nat → Table}
    (L : Linked (R.ncfg h side) mate) {s : State Table Nat} (hs : Reachable (R.ncfg h side) s)
    (hf : ∀ r < R.nRanks, (s.rank r).phase = .finished)
    (L' : Linked (R.ncfg h' side') mate) {s' : State Table Nat} (hs' : Reachable (R.ncfg h' side') s')
    (hf' : ∀ r < R.nRanks, (s'.rank r).phase = .finished) (hp : h.parent = h'.parent)
    {r c a : Nat}
    (hside : ∀ j a, u64 (side r j a * h.scale + h.shift) = u64 (side' r j a * h'.scale + h'.shift))
    (hr : r < R.nRanks) (hc : c < (R.mesh r).nCells) (ha : a < R.nAngles) :
    (s.rank r).data c a = (s'.rank r).data c a := by
  obtain ⟨rk, hrk⟩ := exists_rank L rfl (hs.inv L).ordered (complete_of_finished L hs hf) hr ha
  induction hn : rk c using Nat.strong_induction_on generalizing c with
  | _ n ih =>
    subst hn
    rw [neighbor_rule L hs hf hr hc ha, neighbor_rule L' hs' hf' hr hc ha]
    apply best_congr
    intro f
    cases hb : bdryType (R.mesh r) a c f <;> simp only [Heuristic.face]
    · exact hside _ _
    · obtain ⟨ho, n, hn, hn'⟩ := bdry_outInt hb
      rw [hn', hp]
      simp only [Option.getD_some]
      obtain ⟨h1, h2⟩ := (hrk c hc).2 f n ho hn
      rw [ih (rk n) h2 h1 rfl]

/-- C60 (violated): the breadth-first heuristic gives every task priority zero: the side levels it
reads are never set. -/
theorem bfds_all_zero {side : Nat → Table} (hz : ∀ r < R.nRanks, side r = fun _ _ => 0)
    (L : Linked (R.ncfg bfds side) mate) {s : State Table Nat} (hs : Reachable (R.ncfg bfds side) s)
    (hf : ∀ r < R.nRanks, (s.rank r).phase = .finished) {r c a : Nat} (hr : r < R.nRanks)
    (hc : c < (R.mesh r).nCells) (ha : a < R.nAngles) : (s.rank r).data c a = 0 := by
  obtain ⟨rk, hrk⟩ := exists_rank L rfl (hs.inv L).ordered (complete_of_finished L hs hf) hr ha
  induction hn : rk c using Nat.strong_induction_on generalizing c with
  | _ n ih =>
    subst hn
    rw [neighbor_rule L hs hf hr hc ha]
    apply Nat.eq_zero_of_le_zero
    apply best_le
    intro f
    cases hb : bdryType (R.mesh r) a c f <;> simp only [Heuristic.face, bfds, u64, le_refl]
    · simp [hz r hr]
    · obtain ⟨ho, n, hn, hn'⟩ := bdry_outInt hb
      rw [hn']
      simp only [Option.getD_some]
      obtain ⟨h1, h2⟩ := (hrk c hc).2 f n ho hn
      rw [ih (rk n) h2 h1 rfl]
      simp [addInt]

/-- C60: the two depth-first heuristics are the same function. -/
theorem dfhds_eq_dfds {M : Nat} {side side' : Nat → Table} (hz : ∀ r < R.nRanks, side r = fun _ _ => 0)
    (hz' : ∀ r < R.nRanks, side' r = fun _ _ => 0)
    (L : Linked (R.ncfg (dfds M) side) mate) {s : State Table Nat}
    (hs : Reachable (R.ncfg (dfds M) side) s)
    (hf : ∀ r < R.nRanks, (s.rank r).phase = .finished)
    (L' : Linked (R.ncfg (dfhds M) side') mate) {s' : State Table Nat}
    (hs' : Reachable (R.ncfg (dfhds M) side') s')
    (hf' : ∀ r < R.nRanks, (s'.rank r).phase = .finished) {r c a : Nat} (hr : r < R.nRanks)
    (hc : c < (R.mesh r).nCells) (ha : a < R.nAngles) :
    (s.rank r).data c a = (s'.rank r).data c a :=
  neighbor_congr L hs hf L' hs' hf' rfl (fun _ _ => by simp [dfds, dfhds, hz r hr, hz' r hr]) hr hc ha

theorem addInt_zero : addInt 0 (-1) = 2 ^ 64 - 1 := by decide

theorem addInt_pos {n : Nat} (h : 0 < n) (hn : n < 2 ^ 64) : addInt n (-1) = n - 1 := by
  unfold addInt
  have : ((n : Int) + -1) % 2 ^ 64 = (n - 1 : Nat) := by
    rw [Int.emod_eq_of_lt (by omega) (by omega)]
    omega
  rw [this]
  rfl

theorem addInt_lt (n : Nat) (i : Int) : addInt n i < 2 ^ 64 := by
  unfold addInt
  have h1 := Int.emod_nonneg (n + i) (show (2 ^ 64 : Int) ≠ 0 by norm_num)
  have h2 := Int.emod_lt_of_pos (n + i) (show (0 : Int) < 2 ^ 64 by norm_num)
  omega

theorem best_lt {f : Face → Nat} {n : Nat} (h0 : 0 < n) (h : ∀ x, f x < n) : best f < n := by
  have : best f ≤ n - 1 := best_le fun x => by have := h x; omega
  omega

section depth
variable {M : Nat} {side : Nat → Table} (L : Linked (R.ncfg (dfds M) side) mate) {s : State Table Nat}
  (hs : Reachable (R.ncfg (dfds M) side) s)
  (hf : ∀ r < R.nRanks, (s.rank r).phase = .finished) {r a : Nat} (hr : r < R.nRanks)
  (ha : a < R.nAngles)
include L hs hf hr ha

theorem dfds_lt {c : Nat} (hc : c < (R.mesh r).nCells) : (s.rank r).data c a < 2 ^ 64 := by
  rw [neighbor_rule L hs hf hr hc ha]
  apply best_lt (by norm_num)
  intro f
  cases hb : bdryType (R.mesh r) a c f <;> simp only [Heuristic.face]
  · exact Nat.mod_lt _ (by norm_num)
  · norm_num
  · exact addInt_lt _ _
  · norm_num
  · norm_num
  · norm_num

/-- A task with nothing downwind has priority zero. -/
theorem dfds_deadEnd {c : Nat} (hc : c < (R.mesh r).nCells) (hd : DeadEnd (R.mesh r) a c) :
    (s.rank r).data c a = 0 := by
  rw [neighbor_rule L hs hf hr hc ha]
  apply Nat.eq_zero_of_le_zero
  apply best_le
  intro f
  cases hb : bdryType (R.mesh r) a c f <;> simp only [Heuristic.face, le_refl]
  · obtain ⟨ho, hn, q, hq⟩ := bdry_outIntBdry hb
    exact absurd ⟨f, q, ho, hn, hq⟩ hd.1
  · obtain ⟨ho, n, hn, -⟩ := bdry_outInt hb
    exact absurd hn (hd.2 f n ho)

theorem dfds_child {c n : Nat} {f : Face} (hc : c < (R.mesh r).nCells)
    (ho : (R.mesh r).outgoing a c f = true) (hn : (R.mesh r).adjCell c f = some n) :
    addInt ((s.rank r).data n a) (-1) ≤ (s.rank r).data c a := by
  rw [neighbor_rule L hs hf hr hc ha]
  refine le_trans (le_of_eq ?_) (le_best _ f)
  rw [(bdry_of_near ho hn).1, (bdry_of_near ho hn).2]
  rfl

/-- C46 (violated): a task from which `d` steps inside the partition lead to a dead end has priority at
least `2 ^ 64 - d`, whether or not anything downwind of it is in another partition. -/
theorem dfds_wraps {c n d : Nat} (hc : c < (R.mesh r).nCells) (hd : Reaches (R.mesh r) a c n (d + 1))
    (he : DeadEnd (R.mesh r) a n) : 2 ^ 64 - (d + 1) ≤ (s.rank r).data c a := by
  have hin : ∀ c < (R.mesh r).nCells, ∀ f c', (R.mesh r).outgoing a c f = true →
      (R.mesh r).adjCell c f = some c' → c' < (R.mesh r).nCells := by
    intro c hc f c' ho hn
    obtain ⟨rk, hrk⟩ := exists_rank L rfl (hs.inv L).ordered (complete_of_finished L hs hf) hr ha
    exact ((hrk c hc).2 f c' ho hn).1
  induction d generalizing c with
  | zero =>
    cases hd with
    | step _ f c' _ _ ho hn hrest =>
      cases hrest
      have h1 := dfds_child L hs hf hr ha hc ho hn
      rw [dfds_deadEnd L hs hf hr ha (hin c hc f n ho hn) he, addInt_zero] at h1
      exact h1
  | succ d ih =>
    cases hd with
    | step _ f c' _ _ ho hn hrest =>
      have hc' := hin c hc f c' ho hn
      have h1 := dfds_child L hs hf hr ha hc ho hn
      have h2 := ih hc' hrest
      by_cases h0 : (s.rank r).data c' a = 0
      · omega
      · rw [addInt_pos (by omega) (dfds_lt L hs hf hr ha hc')] at h1
        omega

/-- C46: where no dead end is downwind, the priority is the documented one: the number of levels, less
the distance to the nearest cell with a child in another partition. -/
theorem dfds_documented_partial (hz : ∀ r < R.nRanks, side r = fun _ _ => 0) (hM : M < 2 ^ 64) {c : Nat} (hc : c < (R.mesh r).nCells)
    (hlev : ∀ c k, c < (R.mesh r).nCells → Chain (R.mesh r) a c k → k ≤ M)
    (hno : ∀ n d, Reaches (R.mesh r) a c n d → ¬ DeadEnd (R.mesh r) a n) :
    IsGreatest {p | ∃ n d, Reaches (R.mesh r) a c n d ∧ Exit (R.mesh r) a n ∧ p + d = M}
      ((s.rank r).data c a) := by
  obtain ⟨rk, hrk⟩ := exists_rank L rfl (hs.inv L).ordered (complete_of_finished L hs hf) hr ha
  have hchain : ∀ c n d, Reaches (R.mesh r) a c n d → Exit (R.mesh r) a n →
      Chain (R.mesh r) a c (d + 1) := by
    intro c n d hre hex
    induction hre with
    | refl c =>
      obtain ⟨f, q, h1, h2, h3⟩ := hex
      exact .leave c f q h1 h2 h3
    | step c f c' n d ho hn _ ih => exact .step c f c' _ ho hn (ih hex)
  induction hn : rk c using Nat.strong_induction_on generalizing c with
  | _ n ih =>
    subst hn
    have hch : ∀ f n, (R.mesh r).outgoing a c f = true → (R.mesh r).adjCell c f = some n →
        n < (R.mesh r).nCells ∧
        IsGreatest {p | ∃ n' d, Reaches (R.mesh r) a n n' d ∧ Exit (R.mesh r) a n' ∧ p + d = M}
          ((s.rank r).data n a) ∧ addInt ((s.rank r).data n a) (-1) + 1 = (s.rank r).data n a := by
      intro f n ho hn
      obtain ⟨h1, h2⟩ := (hrk c hc).2 f n ho hn
      have h3 := ih (rk n) h2 h1 (fun n' d hre => hno n' (d + 1) (.step c f n n' d ho hn hre)) rfl
      refine ⟨h1, h3, ?_⟩
      obtain ⟨n', d, hre, hex, hp⟩ := h3.1
      have := hlev n (d + 1) h1 (hchain n n' d hre hex)
      rw [addInt_pos (by omega) (by omega)]
      omega
    have hu : u64 M = M := Nat.mod_eq_of_lt hM
    have hrule := neighbor_rule L hs hf hr hc ha
    rw [hz r hr] at hrule
    have hpos : (s.rank r).data c a ≠ 0 := by
      intro h0
      rw [hrule] at h0
      apply hno c 0 (.refl c)
      refine ⟨?_, ?_⟩
      · rintro ⟨f, q, ho, hn, hq⟩
        have := le_best (fun f => (dfds M).face (fun _ _ => 0) a (adjCellsSides (R.mesh r) c f)
          (bdryType (R.mesh r) a c f) (fun n _ => (s.rank r).data n a)) f
        rw [h0] at this
        simp only [bdry_of_far ho hn hq, Heuristic.face, dfds, Nat.zero_mul, Nat.zero_add, hu] at this
        have := hlev c 1 hc (.leave c f q ho hn hq)
        omega
      · intro f n ho hn
        have := le_best (fun f => (dfds M).face (fun _ _ => 0) a (adjCellsSides (R.mesh r) c f)
          (bdryType (R.mesh r) a c f) (fun n _ => (s.rank r).data n a)) f
        rw [h0] at this
        simp only [(bdry_of_near ho hn).1, (bdry_of_near ho hn).2, Heuristic.face, dfds,
          Option.getD_some] at this
        obtain ⟨h1, h3, h4⟩ := hch f n ho hn
        obtain ⟨n', d, hre, hex, hp⟩ := h3.1
        have := hlev c (d + 2) hc (.step c f n _ ho hn (hchain n n' d hre hex))
        omega
    constructor
    · rcases best_mem fun f => (dfds M).face (fun _ _ => 0) a (adjCellsSides (R.mesh r) c f)
        (bdryType (R.mesh r) a c f) (fun n _ => (s.rank r).data n a) with h0 | ⟨f, hx⟩
      · exact absurd (hrule.trans h0) hpos
      · have hx := hrule.trans hx
        cases hb : bdryType (R.mesh r) a c f
        case outIntBdry =>
          simp only [hb, Heuristic.face, dfds, Nat.zero_mul, Nat.zero_add, hu] at hx
          obtain ⟨ho, hn, q, hq⟩ := bdry_outIntBdry hb
          exact ⟨c, 0, .refl c, ⟨f, q, ho, hn, hq⟩, by omega⟩
        case outInt =>
          obtain ⟨ho, n, hn, hn'⟩ := bdry_outInt hb
          simp only [hb, hn', Heuristic.face, dfds, Option.getD_some] at hx
          obtain ⟨h1, h3, h4⟩ := hch f n ho hn
          obtain ⟨n', d, hre, hex, hp⟩ := h3.1
          exact ⟨n', d + 1, .step c f n n' d ho hn hre, hex, by omega⟩
        all_goals
          rw [hb] at hx
          exact absurd hx hpos
    · rintro p ⟨n, d, hre, hex, hp⟩
      cases hre with
      | refl =>
        obtain ⟨f, q, ho, hn, hq⟩ := hex
        rw [hrule]
        refine le_trans (le_of_eq ?_) (le_best _ f)
        rw [bdry_of_far ho hn hq]
        simp only [Heuristic.face, dfds, Nat.zero_mul, Nat.zero_add, hu]
        omega
      | step _ f c' _ d ho hn hre =>
        obtain ⟨h1, h3, h4⟩ := hch f c' ho hn
        have h5 : p + 1 ≤ (s.rank r).data c' a := h3.2 ⟨n, d, hre, hex, by omega⟩
        have := dfds_child L hs hf hr ha hc ho hn
        omega

end depth

end

end Verif.Priorities
