import Verif.Schedule.Props
import Mathlib.Algebra.Order.Group.Defs
import Mathlib.Algebra.Order.Group.Basic

/-!
# The schedule of a mesh (C25)

The same in terms of the mesh: `omega · n` of the faces and the tolerance.
-/
set_option linter.unusedSectionVars false
set_option linter.unusedVariables false

namespace Verif.Schedule
open Classical List Verif.Traverse

variable {K : Type} [AddCommGroup K] [LinearOrder K] [IsOrderedAddMonoid K]
  {P : Plan K} {mate : Loc → Option Loc} {prio : Nat → Nat → Nat → Nat} {s : State}

/-- The location exists. -/
def Plan.In (P : Plan K) (x : Loc) : Prop := x.rank < P.nRanks ∧ x.cell < (P.mesh x.rank).nCells

/-- The mesh parts fit together, and the two normals of a face are opposite. -/
structure Plan.Fits (P : Plan K) (mate : Loc → Option Loc) : Prop where
  mate_in : ∀ x y, P.In x → mate x = some y → P.In y
  mate_symm : ∀ x y, P.In x → mate x = some y → mate y = some x
  near : ∀ x y, P.In x → mate x = some y → y.rank = x.rank →
    (P.mesh x.rank).adjCell x.cell x.face = some y.cell ∧
    (P.mesh x.rank).adjRank x.cell x.face = some x.rank
  far : ∀ x y, P.In x → mate x = some y → y.rank ≠ x.rank →
    (P.mesh x.rank).adjCell x.cell x.face = none ∧
    (P.mesh x.rank).adjRank x.cell x.face = some y.rank
  ext : ∀ x, P.In x → mate x = none →
    (P.mesh x.rank).adjCell x.cell x.face = none ∧
    (P.mesh x.rank).adjRank x.cell x.face = none
  side_eq : ∀ x y, P.In x → mate x = some y → y.rank ≠ x.rank →
    (P.mesh y.rank).glSide ((P.mesh x.rank).lgSide ((P.mesh x.rank).side x.cell x.face)) =
      (P.mesh y.rank).side y.cell y.face
  side_cell : ∀ x y, P.In x → mate x = some y → y.rank ≠ x.rank →
    (P.mesh x.rank).sideCell ((P.mesh x.rank).side x.cell x.face) = x.cell
  side_inj : ∀ x x' y y', P.In x → P.In x' → mate x = some y → mate x' = some y' →
    y.rank ≠ x.rank → y'.rank ≠ x'.rank → x.rank = x'.rank →
    (P.mesh x.rank).side x.cell x.face = (P.mesh x'.rank).side x'.cell x'.face → x = x'
  opposite : ∀ x y, P.In x → mate x = some y → ∀ g ∈ P.angles,
    P.dot y.rank g y.cell y.face = - P.dot x.rank g x.cell x.face
  angles : P.angles.Nodup
  tol : 0 ≤ P.tol

/-- A mesh the traversal can run on is one the schedule can be built for. -/
theorem fits_of_linked {D B : Type} {cfg : Cfg D B} (L : Linked cfg mate) (hn : P.nRanks = cfg.nRanks)
    (hm : P.mesh = cfg.mesh) (ha : P.angles.Nodup) (ht : 0 ≤ P.tol)
    (ho : ∀ x y, P.In x → mate x = some y → ∀ g ∈ P.angles,
      P.dot y.rank g y.cell y.face = - P.dot x.rank g x.cell x.face) : P.Fits mate := by
  have hin : ∀ x, P.In x ↔ cfg.In x := fun x => by unfold Plan.In Cfg.In; rw [hn, hm]
  refine ⟨fun x y hx h => (hin y).2 (L.mate_in x y ((hin x).1 hx) h),
    fun x y hx h => L.mate_symm x y ((hin x).1 hx) h, ?_, ?_, ?_, ?_, ?_, ?_, ho, ha, ht⟩
  · rw [hm]; exact fun x y hx h => L.near x y ((hin x).1 hx) h
  · rw [hm]; exact fun x y hx h => L.far x y ((hin x).1 hx) h
  · rw [hm]; exact fun x hx h => L.ext x ((hin x).1 hx) h
  · rw [hm]; exact fun x y hx h => L.side_eq x y ((hin x).1 hx) h
  · rw [hm]; exact fun x y hx h => L.side_cell x y ((hin x).1 hx) h
  · rw [hm]; exact fun x x' y y' hx hx' => L.side_inj x x' y y' ((hin x).1 hx) ((hin x').1 hx')

section
variable (F : P.Fits mate)
include F

theorem adjRank_isSome {x y : Loc} (hx : P.In x) (h : mate x = some y) :
    ((P.mesh x.rank).adjRank x.cell x.face).isSome = true := by
  by_cases hr : y.rank = x.rank
  · rw [(F.near x y hx h hr).2]; rfl
  · rw [(F.far x y hx h hr).2]; rfl

theorem hasChild_iff {x : Loc} {a : Nat} (hx : P.In x) :
    P.hasChild x.rank a x.cell x.face = true ↔
      mate x ≠ none ∧ P.tol < P.dot x.rank (P.angles.getD a 0) x.cell x.face := by
  unfold Plan.hasChild
  cases hm : mate x with
  | none => rw [(F.ext x hx hm).2]; simp
  | some y =>
    rw [adjRank_isSome F hx hm]
    split <;> simp_all

theorem hasParent_iff {x : Loc} {a : Nat} (hx : P.In x) :
    P.hasParent x.rank a x.cell x.face = true ↔
      mate x ≠ none ∧ P.dot x.rank (P.angles.getD a 0) x.cell x.face < - P.tol := by
  unfold Plan.hasParent
  cases hm : mate x with
  | none => rw [(F.ext x hx hm).2]; simp
  | some y =>
    rw [adjRank_isSome F hx hm]
    have : ¬ (P.dot x.rank (P.angles.getD a 0) x.cell x.face > P.tol ∧
        P.dot x.rank (P.angles.getD a 0) x.cell x.face < - P.tol) := by
      rintro ⟨h1, h2⟩
      have h3 := h1.trans h2
      have h4 : - P.tol ≤ P.tol := (neg_nonpos.2 F.tol).trans F.tol
      exact absurd h3 (not_lt.2 h4)
    split
    · rename_i h1
      simp only [Bool.false_eq_true, ne_eq, reduceCtorEq, not_false_eq_true, true_and, false_iff]
      exact fun h2 => this ⟨h1, h2⟩
    · split <;> simp_all

theorem hasParent_sync {x y : Loc} {a : Nat} (hx : P.In x) (h : mate x = some y)
    (ha : a < P.angles.length) :
    P.hasParent x.rank a x.cell x.face = P.hasChild y.rank a y.cell y.face := by
  rw [Bool.eq_iff_iff, hasParent_iff F hx, hasChild_iff F (F.mate_in x y hx h),
    F.mate_symm x y hx h, h, F.opposite x y hx h _ (by
      rw [List.getD_eq_getElem _ _ ha]; exact List.getElem_mem ha)]
  simp only [ne_eq, reduceCtorEq, not_false_eq_true, true_and]
  constructor
  · intro h1; exact lt_neg_of_lt_neg h1
  · intro h1; exact lt_neg_of_lt_neg h1

theorem joined_forward : Joined P.forward mate where
  mate_in := F.mate_in
  mate_symm := F.mate_symm
  near x y hx h hr := (F.near x y hx h hr).1
  far := F.far
  ext := F.ext
  side_eq := F.side_eq
  side_cell := F.side_cell
  side_inj := F.side_inj
  sync x y a hx h ha := hasParent_sync F hx h ha
  wait_mate x a hx h := ((hasParent_iff F hx).1 h).1
  free_mate x a hx h := ((hasChild_iff F hx).1 h).1
  angles := F.angles

theorem joined_backward : Joined P.backward mate where
  mate_in := F.mate_in
  mate_symm := F.mate_symm
  near x y hx h hr := (F.near x y hx h hr).1
  far := F.far
  ext := F.ext
  side_eq := F.side_eq
  side_cell := F.side_cell
  side_inj := F.side_inj
  sync x y a hx h ha := (hasParent_sync F (F.mate_in x y hx h) (F.mate_symm x y hx h) ha).symm
  wait_mate x a hx h := ((hasChild_iff F hx).1 h).1
  free_mate x a hx h := ((hasParent_iff F hx).1 h).1
  angles := F.angles

end

/-- Cell `t.2` of rank `t.1` is upwind of `t'` in the global direction `g`, by more than the
tolerance. -/
def Plan.Upwind (P : Plan K) (mate : Loc → Option Loc) (g : Nat) (t t' : Nat × Nat) : Prop :=
  ∃ x y, P.In x ∧ mate x = some y ∧ P.dot x.rank g x.cell x.face < - P.tol ∧
    t = (y.rank, y.cell) ∧ t' = (x.rank, x.cell)

theorem up_iff (F : P.Fits mate) {a : Nat} {t t' : Nat × Nat} :
    Up P.forward mate a t t' ↔ P.Upwind mate (P.angles.getD a 0) t t' := by
  constructor
  · rintro ⟨x, y, hx, hm, hw, h1, h2⟩
    exact ⟨x, y, hx, hm, ((hasParent_iff F hx).1 hw).2, h1, h2⟩
  · rintro ⟨x, y, hx, hm, hw, h1, h2⟩
    exact ⟨x, y, hx, hm, (hasParent_iff F hx).2 ⟨by rw [hm]; simp, hw⟩, h1, h2⟩

/-- C25: the schedule of an acyclic mesh lists each pair of a cell and an angle of the group exactly
once and nothing else, in steps of bounded size, every pair after its upwind neighbours. -/
theorem schedule_topological (F : P.Fits mate)
    (hac : ∀ g ∈ P.angles, ∀ t, ¬ Relation.TransGen (P.Upwind mate g) t t)
    (h : Ordering P.forward prio s) {r : Nat} (hr : r < P.nRanks) :
    (∀ c < (P.mesh r).nCells, ∀ g ∈ P.angles, (s.workOrders r).flatten.count ⟨c, g⟩ = 1) ∧
    (∀ w ∈ (s.workOrders r).flatten, w.cell < (P.mesh r).nCells ∧ w.angle ∈ P.angles) ∧
    (∀ l ∈ s.workOrders r, l.length ≤ P.maxCellsPerStep) ∧
    (∀ i l1 w, ListedAt (s.workOrders r) i l1 w → ∀ f y, mate ⟨r, w.cell, f⟩ = some y →
      P.dot r w.angle w.cell f < - P.tol →
      (y.rank = r → (⟨y.cell, w.angle⟩ : Work) ∈ ((s.workOrders r).take i).flatten ++ l1) ∧
      (y.rank ≠ r → Listed ((s.workOrders y.rank).take i) ⟨y.cell, w.angle⟩)) := by
  have J := joined_forward F
  have hidx : ∀ g ∈ P.angles, ∃ a < P.angles.length, g = P.angles.getD a 0 := by
    intro g hg
    obtain ⟨a, ha, rfl⟩ := List.getElem_of_mem hg
    exact ⟨a, ha, by rw [List.getD_eq_getElem _ _ ha]⟩
  refine ⟨?_, (schedule_once J h.1 hr).2, ?_, ?_⟩
  · intro c hc g hg
    obtain ⟨a, ha, rfl⟩ := hidx g hg
    refine schedule_complete J ?_ h hr ha hc
    intro a' ha' t ht
    have ha' : a' < P.angles.length := ha'
    refine hac (P.angles.getD a' 0) ?_ t
      (Relation.TransGen.mono (fun _ _ hu => (up_iff F).1 hu) _ _ ht)
    rw [List.getD_eq_getElem _ _ ha']
    exact List.getElem_mem ha'
  · intro l hl
    exact ((schedule_size J h.1).1 r hr l hl).trans (Nat.mod_le _ _)
  · rintro i l1 ⟨c, g⟩ hl f y hm hd
    have hmem : (⟨c, g⟩ : Work) ∈ (s.workOrders r).flatten := by
      obtain ⟨l2, h2⟩ := hl
      exact List.mem_flatten.2 ⟨_, List.mem_of_getElem? h2, by simp⟩
    obtain ⟨hc, hg⟩ := (schedule_once J h.1 hr).2 _ hmem
    obtain ⟨a, ha, rfl⟩ := hidx g hg
    exact schedule_order J h.1 hr ha hl hm
      ((hasParent_iff F (x := ⟨r, c, f⟩) ⟨hr, hc⟩).2 ⟨by rw [hm]; simp, hd⟩)

/-- C62: on any mesh, cyclic or not, the construction returns; it lists exactly the pairs with no
cycle upwind of them, so on a cyclic mesh pairs are silently missing. -/
theorem schedule_lists (F : P.Fits mate) (h : Ordering P.forward prio s) {r c g : Nat} (hr : r < P.nRanks)
    (hc : c < (P.mesh r).nCells) (hg : g ∈ P.angles) :
    (⟨c, g⟩ : Work) ∈ (s.workOrders r).flatten ↔ Acc (P.Upwind mate g) (r, c) := by
  obtain ⟨a, ha, rfl⟩ := List.getElem_of_mem hg
  have := schedule_lists_iff (joined_forward F) h hr ha hc
  have he : Up P.forward mate a = P.Upwind mate (P.angles.getD a 0) := by
    funext t t'; exact propext (up_iff F)
  rw [he] at this
  rw [← List.getD_eq_getElem _ 0 ha, ← this]
  unfold Listed
  rw [List.mem_flatten]
  rfl

theorem schedule_returns_iff (F : P.Fits mate) (prio : Nat → Nat → Nat → Nat) :
    (∃ s, Ordering P.forward prio s) ↔
      (P.maxCellsPerStep % 2 ^ 32 ≠ 0 ∨ ∀ r < P.nRanks, (P.forward.start r).queue = []) := by
  constructor
  · rintro ⟨s, hs, hd⟩
    by_contra hno
    push Not at hno
    obtain ⟨h0, r, hr, hq⟩ := hno
    exact zero_step_never_returns (G := P.forward) h0 hr hq hs hd
  · rintro (h | h)
    · exact schedule_returns (joined_forward F) (Nat.pos_of_ne_zero h) prio
    · exact ⟨_, .init, h⟩

end Verif.Schedule
