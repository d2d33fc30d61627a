import Verif.Schedule.Model

/-!
# What a schedule must be
-/
namespace Verif.Schedule
open Verif.Traverse

/-- The location exists. -/
def Graph.In (G : Graph) (x : Loc) : Prop := x.rank < G.nRanks ∧ x.cell < (G.mesh x.rank).nCells

/-- The mesh parts fit together (`mate x` is the same face seen from the other side), and both sides
of a face agree on who waits for whom. -/
structure Joined (G : Graph) (mate : Loc → Option Loc) : Prop where
  mate_in : ∀ x y, G.In x → mate x = some y → G.In y
  mate_symm : ∀ x y, G.In x → mate x = some y → mate y = some x
  near : ∀ x y, G.In x → mate x = some y → y.rank = x.rank →
    (G.mesh x.rank).adjCell x.cell x.face = some y.cell
  far : ∀ x y, G.In x → mate x = some y → y.rank ≠ x.rank →
    (G.mesh x.rank).adjCell x.cell x.face = none ∧
    (G.mesh x.rank).adjRank x.cell x.face = some y.rank
  ext : ∀ x, G.In x → mate x = none →
    (G.mesh x.rank).adjCell x.cell x.face = none ∧
    (G.mesh x.rank).adjRank x.cell x.face = none
  side_eq : ∀ x y, G.In x → mate x = some y → y.rank ≠ x.rank →
    (G.mesh y.rank).glSide ((G.mesh x.rank).lgSide ((G.mesh x.rank).side x.cell x.face)) =
      (G.mesh y.rank).side y.cell y.face
  side_cell : ∀ x y, G.In x → mate x = some y → y.rank ≠ x.rank →
    (G.mesh x.rank).sideCell ((G.mesh x.rank).side x.cell x.face) = x.cell
  side_inj : ∀ x x' y y', G.In x → G.In x' → mate x = some y → mate x' = some y' →
    y.rank ≠ x.rank → y'.rank ≠ x'.rank → x.rank = x'.rank →
    (G.mesh x.rank).side x.cell x.face = (G.mesh x'.rank).side x'.cell x'.face → x = x'
  sync : ∀ x y a, G.In x → mate x = some y → a < G.angles.length →
    G.wait x.rank a x.cell x.face = G.free y.rank a y.cell y.face
  wait_mate : ∀ x a, G.In x → G.wait x.rank a x.cell x.face = true → mate x ≠ none
  free_mate : ∀ x a, G.In x → G.free x.rank a x.cell x.face = true → mate x ≠ none
  angles : G.angles.Nodup

/-- `(rank, cell)` pairs: `t` must come before `t'` in angle number `a`. -/
def Up (G : Graph) (mate : Loc → Option Loc) (a : Nat) (t t' : Nat × Nat) : Prop :=
  ∃ x y, G.In x ∧ mate x = some y ∧ G.wait x.rank a x.cell x.face = true ∧
    t = (y.rank, y.cell) ∧ t' = (x.rank, x.cell)

/-- No cell is upwind of itself. -/
def Acyclic (G : Graph) (mate : Loc → Option Loc) : Prop :=
  ∀ a < G.angles.length, ∀ t, ¬ Relation.TransGen (Up G mate a) t t

/-- The schedule of a rank lists a work item in step `i` right after the items `l1` of that step. -/
def ListedAt (orders : List (List Work)) (i : Nat) (l1 : List Work) (w : Work) : Prop :=
  ∃ l2, orders[i]? = some (l1 ++ w :: l2)

/-- Somewhere in the schedule. -/
def Listed (orders : List (List Work)) (w : Work) : Prop := ∃ l ∈ orders, w ∈ l

end Verif.Schedule
