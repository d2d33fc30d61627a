import Verif.Schedule.Levels
import Mathlib.Algebra.BigOperators.Group.Finset.Sigma
import Mathlib.Data.Finset.Sigma
import Mathlib.Order.ConditionallyCompleteLattice.Basic
import Mathlib.Order.Nat
import Mathlib.Order.Lattice.Nat

/-!
# The levels are longest chains through the whole mesh (C63)
-/
set_option linter.unusedSectionVars false
set_option linter.unusedVariables false

namespace Verif.Schedule
open Classical List Verif.Traverse

variable {K : Type} [AddCommGroup K] [LinearOrder K] [IsOrderedAddMonoid K]
  {P : Plan K} {mate : Loc → Option Loc}

/-- Following the wind `k` times from cell `t.2` of rank `t.1`, across all ranks. -/
inductive Plan.Chain (P : Plan K) (mate : Loc → Option Loc) (g : Nat) : Nat × Nat → Nat → Prop
  | nil (t : Nat × Nat) : Plan.Chain P mate g t 0
  | cons (t t' : Nat × Nat) (k : Nat) : P.Upwind mate g t t' → Plan.Chain P mate g t' k →
      Plan.Chain P mate g t (k + 1)

/-- The number of cells of the mesh. -/
def Plan.totalCells (P : Plan K) : Nat := ∑ r ∈ Finset.range P.nRanks, (P.mesh r).nCells

theorem chain_list {g : Nat} (hac : ∀ t, ¬ Relation.TransGen (P.Upwind mate g) t t) {t : Nat × Nat} {k : Nat}
    (h : P.Chain mate g t k) : ∃ l : List (Nat × Nat), l.length = k ∧ l.Nodup ∧
      ∀ u ∈ l, u.1 < P.nRanks ∧ u.2 < (P.mesh u.1).nCells ∧ Relation.TransGen (P.Upwind mate g) t u := by
  induction h with
  | nil t => exact ⟨[], rfl, List.nodup_nil, by simp⟩
  | cons t t' k hu _ ih =>
    obtain ⟨l, hl, hnd, hm⟩ := ih
    refine ⟨t' :: l, by simp [hl], List.nodup_cons.2 ⟨fun hin => hac t' (hm t' hin).2.2, hnd⟩, ?_⟩
    intro u hu'
    rcases List.mem_cons.1 hu' with rfl | hu'
    · obtain ⟨x, y, hx, hmx, hd, rfl, rfl⟩ := id hu
      exact ⟨hx.1, hx.2, .single hu⟩
    · obtain ⟨h1, h2, h3⟩ := hm u hu'
      exact ⟨h1, h2, .head hu h3⟩

/-- A chain has no more links than there are other cells. -/
theorem chain_le {g : Nat} (hac : ∀ t, ¬ Relation.TransGen (P.Upwind mate g) t t) {t : Nat × Nat} {k : Nat}
    (ht : t.1 < P.nRanks ∧ t.2 < (P.mesh t.1).nCells) (h : P.Chain mate g t k) : k + 1 ≤ P.totalCells := by
  obtain ⟨l, hl, hnd, hm⟩ := chain_list hac h
  have hnd' : (t :: l).Nodup := List.nodup_cons.2 ⟨fun hin => hac t (hm t hin).2.2, hnd⟩
  let S : Finset (Σ _ : Nat, Nat) := (Finset.range P.nRanks).sigma fun r => Finset.range (P.mesh r).nCells
  have hS : S.card = P.totalCells := by
    simp [S, Finset.card_sigma, Plan.totalCells]
  have hmap : ((t :: l).map fun u : Nat × Nat => (⟨u.1, u.2⟩ : Σ _ : Nat, Nat)).Nodup :=
    hnd'.map (by
      rintro ⟨a, b⟩ ⟨c, d⟩ he
      simpa using he)
  have hsub : ((t :: l).map fun u : Nat × Nat => (⟨u.1, u.2⟩ : Σ _ : Nat, Nat)).toFinset ⊆ S := by
    intro v hv
    rw [List.mem_toFinset, List.mem_map] at hv
    obtain ⟨u, hu, rfl⟩ := hv
    rw [Finset.mem_sigma, Finset.mem_range, Finset.mem_range]
    rcases List.mem_cons.1 hu with rfl | hu
    · exact ht
    · exact ⟨(hm u hu).1, (hm u hu).2.1⟩
  have := Finset.card_le_card hsub
  rw [List.toFinset_card_of_nodup hmap, hS, List.length_map, List.length_cons, hl] at this
  exact this

/-- The longest chain. -/
noncomputable def Plan.longest (P : Plan K) (mate : Loc → Option Loc) (a : Nat) (t : Nat × Nat) : Nat :=
  sSup {k | P.Chain mate (P.angles.getD a 0) t k}

theorem longest_greatest {a : Nat}
    (hac : ∀ t, ¬ Relation.TransGen (P.Upwind mate (P.angles.getD a 0)) t t) {t : Nat × Nat}
    (ht : t.1 < P.nRanks ∧ t.2 < (P.mesh t.1).nCells) :
    IsGreatest {k | P.Chain mate (P.angles.getD a 0) t k} (P.longest mate a t) := by
  have hb : BddAbove {k | P.Chain mate (P.angles.getD a 0) t k} :=
    ⟨P.totalCells, fun k hk => by have := chain_le hac ht hk; omega⟩
  exact ⟨Nat.sSup_mem ⟨0, .nil t⟩ hb, fun k hk => le_csSup hb hk⟩

/-- No cell is upwind of itself in a direction of the group. -/
def Plan.Acyclic (P : Plan K) (mate : Loc → Option Loc) : Prop :=
  ∀ g ∈ P.angles, ∀ t, ¬ Relation.TransGen (P.Upwind mate g) t t

theorem Plan.Acyclic.at {P : Plan K} {mate : Loc → Option Loc} (h : P.Acyclic mate) {a : Nat}
    (ha : a < P.angles.length) : ∀ t, ¬ Relation.TransGen (P.Upwind mate (P.angles.getD a 0)) t t :=
  h _ (by rw [List.getD_eq_getElem _ _ ha]; exact List.getElem_mem ha)

theorem isLevel_longest (F : P.Fits mate) (hac : P.Acyclic mate) (hs : P.totalCells < 2 ^ 64) :
    IsLevel P.backward mate (P.longest mate) where
  above := by
    intro a ha x y hx hm hw
    have ha : a < P.angles.length := ha
    have hyin := F.mate_in x y hx hm
    -- `x` is upwind of `y`
    have hp : P.hasParent y.rank a y.cell y.face = true := by
      rw [hasParent_sync F hyin (F.mate_symm x y hx hm) ha]; exact hw
    have hup : P.Upwind mate (P.angles.getD a 0) (x.rank, x.cell) (y.rank, y.cell) :=
      ⟨y, x, hyin, F.mate_symm x y hx hm, ((hasParent_iff F hyin).1 hp).2, rfl, rfl⟩
    refine (longest_greatest (hac.at ha) (t := (x.rank, x.cell)) hx).2 ?_
    exact .cons _ _ _ hup (longest_greatest (hac.at ha) (t := (y.rank, y.cell)) hyin).1
  tight := by
    intro a ha r c hr hc
    have ha : a < P.angles.length := ha
    have hg := longest_greatest (hac.at ha) (t := (r, c)) ⟨hr, hc⟩
    have h1 := hg.1
    generalize hk : P.longest mate a (r, c) = k at h1
    rcases h1 with _ | ⟨_, t', k, hu, hc'⟩
    · exact .inl rfl
    · refine .inr ?_
      obtain ⟨x, y, hx, hm, hd, he, rfl⟩ := id hu
      obtain ⟨yr, yc, yf⟩ := y
      injection he with h1 h2
      subst h1; subst h2
      have hb := F.mate_symm x _ hx hm
      have hp : P.hasParent x.rank a x.cell x.face = true :=
        (hasParent_iff F hx).2 ⟨by rw [hm]; simp, hd⟩
      refine ⟨yf, x, hb, ?_, ?_⟩
      · rw [hasParent_sync F hx hm ha] at hp; exact hp
      · have hgx := longest_greatest (hac.at ha) (t := (x.rank, x.cell)) hx
        have h3 := hg.2 (Plan.Chain.cons _ _ _ hu hgx.1)
        have h4 := hgx.2 hc'
        rw [hk] at h3
        omega
  small := by
    intro a ha r c hr hc
    have ha : a < P.angles.length := ha
    have := chain_le (hac.at ha) (t := (r, c)) ⟨hr, hc⟩
      (longest_greatest (hac.at ha) (t := (r, c)) ⟨hr, hc⟩).1
    omega

/-- The relation of the graph sorted by `calcLevels` is the reverse of that of the sweep. -/
theorem up_backward (F : P.Fits mate) {a : Nat} (ha : a < P.angles.length) {t t' : Nat × Nat} :
    Up P.backward mate a t t' ↔ P.Upwind mate (P.angles.getD a 0) t' t := by
  constructor
  · rintro ⟨x, y, hx, hm, hw, h1, h2⟩
    have hx : P.In x := hx
    have hb := F.mate_symm x y hx hm
    have hyin := F.mate_in x y hx hm
    refine ⟨y, x, hyin, hb, ?_, h2, h1⟩
    refine ((hasParent_iff F hyin).1 ?_).2
    rw [hasParent_sync F hyin hb ha]; exact hw
  · rintro ⟨x, y, hx, hm, hd, h1, h2⟩
    have hb := F.mate_symm x y hx hm
    have hyin := F.mate_in x y hx hm
    refine ⟨y, x, hyin, hb, ?_, h2, h1⟩
    show P.hasChild y.rank a y.cell y.face = true
    rw [← hasParent_sync F hx hm ha]
    exact (hasParent_iff F hx).2 ⟨by rw [hm]; simp, hd⟩

theorem acyclic_backward (F : P.Fits mate) (hac : P.Acyclic mate) : Acyclic P.backward mate := by
  intro a ha t ht
  have ha : a < P.angles.length := ha
  have key : ∀ t t', Relation.TransGen (Up P.backward mate a) t t' →
      Relation.TransGen (P.Upwind mate (P.angles.getD a 0)) t' t := by
    intro t t' h
    induction h with
    | single h => exact .single ((up_backward F ha).1 h)
    | tail _ h ih => exact .head ((up_backward F ha).1 h) ih
  exact hac.at ha t (key t t ht)

/-- When `calcLevels` ends on an acyclic mesh every pair has been sorted. -/
theorem all_sorted (F : P.Fits mate) (hac : P.Acyclic mate) {s : State}
    (h : Ordering P.backward (fun _ _ _ => 0) s) {E : Nat → List (List (Nat × Nat))}
    (hE : Inv P.backward mate s E) {r a c : Nat} (hr : r < P.nRanks) (ha : a < P.angles.length)
    (hc : c < (P.mesh r).nCells) : (a, c) ∈ (E r).flatten := by
  have J := joined_backward F
  refine (listed_iff J hE hr ha).1 ?_
  have := schedule_complete J (acyclic_backward F hac) h (r := r) (a := a) (c := c) hr ha hc
  obtain ⟨l, hl, hw⟩ := List.mem_flatten.1 (List.count_pos_iff.1 (this ▸ Nat.one_pos))
  exact ⟨l, hl, hw⟩

/-- C63: on an acyclic mesh the level of a cell is the length of the longest chain of cells
downwind of it through all ranks. -/
theorem level_longest_chain (F : P.Fits mate) (hac : P.Acyclic mate) (hs : P.totalCells < 2 ^ 64)
    {lev : Nat → Levels} (h : CalcLevels P.backward lev) {r a c : Nat} (hr : r < P.nRanks)
    (ha : a < P.angles.length) (hc : c < (P.mesh r).nCells) :
    IsGreatest {k | P.Chain mate (P.angles.getD a 0) (r, c) k} ((lev r).cell a c) := by
  obtain ⟨s, hr', hd⟩ := h
  have J := joined_backward F
  have H := isLevel_longest F hac hs
  obtain ⟨E, hE⟩ := hr'.inv J H
  have hall := fun {r a c} => all_sorted F hac ⟨hr'.reached, hd⟩ hE.inv (r := r) (a := a) (c := c)
  have : (lev r).cell a c = P.longest mate a (r, c) := by
    refine level_eq J H hr (hE.low r hr) ha hc ?_
    intro f y hm hw
    have hyin := F.mate_in ⟨r, c, f⟩ y ⟨hr, hc⟩ hm
    refine hE.told r hr a c f y ha hc hm hw ⟨y, hm, ?_⟩
    by_cases hyr : y.rank = r
    · rw [if_pos hyr]
      rw [← hyr]
      exact hall hyin.1 ha hyin.2
    · rw [if_neg hyr]
      exact hall hyin.1 ha hyin.2
  rw [this]
  exact longest_greatest (hac.at ha) (t := (r, c)) ⟨hr, hc⟩

/-- C63: the level stored for a partition face is that of the cell behind it. -/
theorem side_level (F : P.Fits mate) (hac : P.Acyclic mate) (hs : P.totalCells < 2 ^ 64)
    {lev : Nat → Levels} (h : CalcLevels P.backward lev) {r a c : Nat} {f : Face} {y : Loc} (hr : r < P.nRanks)
    (ha : a < P.angles.length) (hc : c < (P.mesh r).nCells) (hm : mate ⟨r, c, f⟩ = some y)
    (hy : y.rank ≠ r) (hd : P.tol < P.dot r (P.angles.getD a 0) c f) :
    (lev r).side a ((P.mesh r).side c f) = (lev y.rank).cell a y.cell := by
  obtain ⟨s, hr', hd'⟩ := id h
  have J := joined_backward F
  have H := isLevel_longest F hac hs
  obtain ⟨E, hE⟩ := hr'.inv J H
  have hyin := F.mate_in ⟨r, c, f⟩ y ⟨hr, hc⟩ hm
  have hw : P.hasChild r a c f = true :=
    (hasChild_iff F (x := ⟨r, c, f⟩) ⟨hr, hc⟩).2 ⟨by rw [hm]; simp, hd⟩
  have h1 := hE.side r hr a c f y ha hc hm hy hw
    (all_sorted F hac ⟨hr'.reached, hd'⟩ hE.inv hyin.1 ha hyin.2)
  have h2 := level_longest_chain F hac hs h hyin.1 ha hyin.2
  have h3 := longest_greatest (hac.at ha) (t := (y.rank, y.cell)) hyin
  exact h1.trans (h3.unique h2)

theorem foldl_max_spec {α : Type} (v : α → Nat) : ∀ (l : List α) (m : Nat),
    m ≤ l.foldl (fun m x => max m (v x)) m ∧ (∀ x ∈ l, v x ≤ l.foldl (fun m x => max m (v x)) m) ∧
    (l.foldl (fun m x => max m (v x)) m = m ∨ ∃ x ∈ l, l.foldl (fun m x => max m (v x)) m = v x) := by
  intro l
  induction l with
  | nil => intro m; simp
  | cons x l ih =>
    intro m
    obtain ⟨h1, h2, h3⟩ := ih (max m (v x))
    simp only [List.foldl_cons]
    refine ⟨(le_max_left _ _).trans h1, ?_, ?_⟩
    · intro y hy
      rcases List.mem_cons.1 hy with rfl | hy
      · exact (le_max_right _ _).trans h1
      · exact h2 y hy
    · rcases h3 with h3 | ⟨y, hy, h3⟩
      · rcases le_total m (v x) with h | h
        · exact .inr ⟨x, by simp, by rw [h3, max_eq_right h]⟩
        · exact .inl (by rw [h3, max_eq_left h])
      · exact .inr ⟨y, by simp [hy], h3⟩

/-- The triples over which `nLevels` takes the maximum. -/
def Graph.entries (G : Graph) : List (Nat × Nat × Nat) :=
  (List.range G.nRanks).flatMap fun r => (List.range G.angles.length).flatMap fun a =>
    (List.range (G.mesh r).nCells).map fun c => (r, a, c)

theorem mem_entries {G : Graph} {e : Nat × Nat × Nat} : e ∈ G.entries ↔
    e.1 < G.nRanks ∧ e.2.1 < G.angles.length ∧ e.2.2 < (G.mesh e.1).nCells := by
  obtain ⟨r, a, c⟩ := e
  simp only [Graph.entries, List.mem_flatMap, List.mem_range, List.mem_map, Prod.mk.injEq]
  constructor
  · rintro ⟨r', hr, a', ha, c', hc, rfl, rfl, rfl⟩; exact ⟨hr, ha, hc⟩
  · rintro ⟨hr, ha, hc⟩; exact ⟨r, hr, a, ha, c, hc, rfl, rfl, rfl⟩

theorem nLevels_eq (G : Graph) (lev : Nat → Levels) :
    G.nLevels lev = G.entries.foldl (fun m e => max m ((lev e.1).cell e.2.1 e.2.2)) 0 := by
  simp only [Graph.nLevels, Graph.entries, List.foldl_flatMap, List.foldl_map]

/-- C63: the number of levels is the length of the longest chain of the mesh. -/
theorem nLevels_longest (F : P.Fits mate) (hac : P.Acyclic mate) (hs : P.totalCells < 2 ^ 64)
    {lev : Nat → Levels} (h : CalcLevels P.backward lev) :
    IsGreatest {k | k = 0 ∨ ∃ r a c, r < P.nRanks ∧ a < P.angles.length ∧ c < (P.mesh r).nCells ∧
      P.Chain mate (P.angles.getD a 0) (r, c) k} (P.backward.nLevels lev) := by
  obtain ⟨-, h2, h3⟩ := foldl_max_spec (fun e : Nat × Nat × Nat => (lev e.1).cell e.2.1 e.2.2)
    P.backward.entries 0
  rw [nLevels_eq]
  constructor
  · rcases h3 with h3 | ⟨⟨r, a, c⟩, he, h3⟩
    · exact .inl h3
    · obtain ⟨hr, ha, hc⟩ := mem_entries.1 he
      rw [h3]
      exact .inr ⟨r, a, c, hr, ha, hc, (level_longest_chain F hac hs h hr ha hc).1⟩
  · rintro k (rfl | ⟨r, a, c, hr, ha, hc, hk⟩)
    · exact Nat.zero_le _
    · exact ((level_longest_chain F hac hs h hr ha hc).2 hk).trans (h2 (r, a, c) (mem_entries.2 ⟨hr, ha, hc⟩))

/-- `calcLevels` returns on every mesh when the step size does not truncate to zero. -/
theorem levels_return (F : P.Fits mate) (hpos : P.maxCellsPerStep % 2 ^ 32 ≠ 0) :
    ∃ lev, CalcLevels P.backward lev := by
  obtain ⟨s, hs, hd⟩ := schedule_returns (joined_backward F) (Nat.pos_of_ne_zero hpos) (fun _ _ _ => 0)
  have : ∃ lev, LevelsReached P.backward s lev := by
    clear hd
    induction hs with
    | init => exact ⟨_, .init⟩
    | step s s' _ hst ih =>
      obtain ⟨lev, hl⟩ := ih
      cases hst with
      | mk w d hnd ht => exact ⟨_, .step s lev w d hl hnd ht⟩
  obtain ⟨lev, hl⟩ := this
  exact ⟨lev, s, hl, hd⟩

end Verif.Schedule
