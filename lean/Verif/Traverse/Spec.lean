import Verif.Traverse.Model

/-!
# What a traversal must do

`Linked` says how the mesh parts of the ranks fit together (established for meshes built by the code
in other modules); the rest speaks only about the log of calls into `TraverseData`.
-/
namespace Verif.Traverse

variable {D B : Type}

/-- A face of a cell of a rank. -/
structure Loc where
  rank : Nat
  cell : Nat
  face : Face
deriving DecidableEq

/-- The location exists. -/
def Cfg.In (cfg : Cfg D B) (x : Loc) : Prop := x.rank < cfg.nRanks ∧ x.cell < (cfg.mesh x.rank).nCells

/-- The mesh parts fit together: `mate x` is the same face seen from the cell on its other side, if
there is one. -/
structure Linked (cfg : Cfg D B) (mate : Loc → Option Loc) : Prop where
  threads : 0 < cfg.nThreads
  size : ∀ r < cfg.nRanks, cfg.nAngles * (cfg.mesh r).nCells < 2 ^ 64
  mate_in : ∀ x y, cfg.In x → mate x = some y → cfg.In y
  mate_symm : ∀ x y, cfg.In x → mate x = some y → mate y = some x
  near : ∀ x y, cfg.In x → mate x = some y → y.rank = x.rank →
    (cfg.mesh x.rank).adjCell x.cell x.face = some y.cell ∧
    (cfg.mesh x.rank).adjRank x.cell x.face = some x.rank
  far : ∀ x y, cfg.In x → mate x = some y → y.rank ≠ x.rank →
    (cfg.mesh x.rank).adjCell x.cell x.face = none ∧
    (cfg.mesh x.rank).adjRank x.cell x.face = some y.rank
  ext : ∀ x, cfg.In x → mate x = none →
    (cfg.mesh x.rank).adjCell x.cell x.face = none ∧
    (cfg.mesh x.rank).adjRank x.cell x.face = none
  side_eq : ∀ x y, cfg.In x → mate x = some y → y.rank ≠ x.rank →
    (cfg.mesh y.rank).glSide ((cfg.mesh x.rank).lgSide ((cfg.mesh x.rank).side x.cell x.face)) =
      (cfg.mesh y.rank).side y.cell y.face
  side_cell : ∀ x y, cfg.In x → mate x = some y → y.rank ≠ x.rank →
    (cfg.mesh x.rank).sideCell ((cfg.mesh x.rank).side x.cell x.face) = x.cell
  side_inj : ∀ x x' y y', cfg.In x → cfg.In x' → mate x = some y → mate x' = some y' →
    y.rank ≠ x.rank → y'.rank ≠ x'.rank → x.rank = x'.rank →
    (cfg.mesh x.rank).side x.cell x.face = (cfg.mesh x'.rank).side x'.cell x'.face → x = x'
  /-- A face is not downwind for both of its cells. Forward this always holds, since the normals are
  opposite; backward it excludes faces parallel to the direction. -/
  orient : ∀ x y a, cfg.In x → mate x = some y → a < cfg.nAngles →
    cfg.outDir x.rank a x.cell x.face = true → cfg.inDir y.rank a y.cell y.face = true

/-- The task `(rank, cell, angle)` has been computed. -/
def Done (log : List (Event B)) (r c a : Nat) : Prop := ∃ k, Event.upd r c a k ∈ log

/-- Side data has been set. -/
def Delivered (log : List (Event B)) (r s a : Nat) : Prop := ∃ b, Event.side r s a b ∈ log

/-- Effect of one event on the data object of a rank. -/
def applyEvent (cfg : Cfg D B) (r : Nat) (d : D) : Event B → D
  | .upd r' c a _ => if r' = r then
      (cfg.data r).update c a (adjCellsSides (cfg.mesh r) c) (bdryType (cfg.mesh r) a c) d else d
  | .side r' s a b => if r' = r then (cfg.data r).setSideData s a b d else d

/-- The data object of a rank after the calls in the log. -/
def replay (cfg : Cfg D B) (r : Nat) (log : List (Event B)) : D :=
  log.foldl (applyEvent cfg r) (cfg.init r)

/-- The task a log entry computes. -/
def Event.task : Event B → Option (Nat × Nat × Nat)
  | .upd r c a _ => some (r, c, a)
  | .side .. => none

/-- The side a log entry sets. -/
def Event.slot : Event B → Option (Nat × Nat × Nat)
  | .upd .. => none
  | .side r s a _ => some (r, s, a)

/-- The face `x` is upwind for its cell and has a neighbour this traversal waits for. -/
def Needs (cfg : Cfg D B) (mate : Loc → Option Loc) (x : Loc) (a : Nat) : Prop :=
  cfg.inDir x.rank a x.cell x.face = true ∧
  ∃ y, mate x = some y ∧ (cfg.doComm = true ∨ y.rank = x.rank)

/-- What `b`, data for side of `x` from its mate `y`, must be: read off the data object of `y`'s rank
right after the update of `y`'s cell. -/
def SentBy (cfg : Cfg D B) (log : List (Event B)) (y : Loc) (a : Nat) (b : B) : Prop :=
  ∃ l1 k l2, log = l1 ++ Event.upd y.rank y.cell a k :: l2 ∧
    b = (cfg.data y.rank).getData y.cell y.face a
      (replay cfg y.rank (l1 ++ [Event.upd y.rank y.cell a k]))

/-- An event is in order after the calls `log`. -/
def InOrder (cfg : Cfg D B) (mate : Loc → Option Loc) (log : List (Event B)) : Event B → Prop
  | .upd r c a _ => r < cfg.nRanks ∧ c < (cfg.mesh r).nCells ∧ a < cfg.nAngles ∧ ¬ Done log r c a ∧
      ∀ f y, mate ⟨r, c, f⟩ = some y → Needs cfg mate ⟨r, c, f⟩ a →
        Done log y.rank y.cell a ∧
        (y.rank ≠ r → Delivered log r ((cfg.mesh r).side c f) a)
  | .side r s a b => ∃ x y, x.rank = r ∧ cfg.In x ∧ mate x = some y ∧ y.rank ≠ r ∧ a < cfg.nAngles ∧
      (cfg.mesh r).side x.cell x.face = s ∧ Needs cfg mate x a ∧
      ¬ Delivered log r s a ∧ ¬ Done log r x.cell a ∧ SentBy cfg log y a b

/-- Every event of the log is in order after those before it. -/
def Ordered (cfg : Cfg D B) (mate : Loc → Option Loc) (log : List (Event B)) : Prop :=
  ∀ l1 e l2, log = l1 ++ e :: l2 → InOrder cfg mate l1 e

end Verif.Traverse
