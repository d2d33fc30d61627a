import Verif.Moab.Parts
import Verif.TychoMesh.Exchange
import Mathlib.Data.Rat.Defs
import Mathlib.Algebra.Order.Ring.Rat
import Mathlib.Algebra.Field.Rat

/-!
# Databases that meet the hypotheses
-/
namespace Verif.Moab

open Verif.MeshFile Verif.TychoMesh

/-- Handles are handed out in increasing order. -/
def next (l : List Handle) : Handle := l.foldr max 0 + 1

theorem le_next (l : List Handle) : ∀ h ∈ l, h < next l := by
  induction l with
  | nil => simp
  | cons a l ih =>
    intro h hh
    have : next (a :: l) = max a (l.foldr max 0) + 1 := rfl
    rcases List.mem_cons.1 hh with rfl | hh
    · rw [this]; exact Nat.lt_succ_of_le (le_max_left _ _)
    · have h2 : h < l.foldr max 0 + 1 := ih h hh
      rw [this]
      exact lt_of_lt_of_le h2 (Nat.succ_le_succ (le_max_right _ _))

theorem next_increasing : Increasing next := le_next

theorem next_fresh : Fresh next := fun l h => lt_irrefl _ (le_next l _ h)

/-- Two tetrahedra with a common side, which is already there as a triangle. The handles are out of order. -/
def exDb : Db where
  nodes := [(9, ![0, 0, 0]), (3, ![1, 0, 0]), (5, ![0, 1, 0]), (7, ![0, 0, 1]), (4, ![1, 1, 9])]
  tris := [(1, ![3, 5, 9])]
  tets := [(8, ![9, 3, 5, 7]), (2, ![5, 9, 4, 3])]

theorem exDb_proper : Proper exDb where
  nodes := by decide
  tris := by decide
  tets := by decide
  triNodes := by decide
  tetNodes := by decide
  fit := by decide
  tetDistinct := by decide
  triDistinct := by decide
  triOnce := by
    intro x hx y hy _
    rw [List.mem_singleton.1 hx, List.mem_singleton.1 hy]

theorem exDb_notStray : ¬ Stray exDb := by
  rintro ⟨x, hx, h⟩
  revert h
  rw [List.mem_singleton.1 hx]
  decide

theorem not_three_of_two {db : Db} (h : db.tets.length ≤ 2) : ¬ Three db := by
  rintro ⟨x, hx, y, hy, z, hz, h1, h2, h3, -⟩
  have hs : [x.1, y.1, z.1].length ≤ (db.tets.map (·.1)).length := by
    apply List.Subperm.length_le
    apply List.Nodup.subperm
    · simp only [List.nodup_cons, List.mem_cons, List.not_mem_nil, or_false, not_or, not_false_iff, List.nodup_nil, and_true]
      exact ⟨⟨h1, h2⟩, h3⟩
    · intro a ha
      simp only [List.mem_cons, List.not_mem_nil, or_false] at ha
      rcases ha with rfl | rfl | rfl
      · exact List.mem_map.2 ⟨x, hx, rfl⟩
      · exact List.mem_map.2 ⟨y, hy, rfl⟩
      · exact List.mem_map.2 ⟨z, hz, rfl⟩
  rw [List.length_map] at hs
  simp only [List.length_cons, List.length_nil] at hs
  omega

/-- The hypotheses of `import_correct` and of `import_fails_iff`. -/
example : Fresh next ∧ Proper exDb ∧ ¬ Stray exDb ∧ ¬ Three exDb :=
  ⟨next_fresh, exDb_proper, exDb_notStray, not_three_of_two (by decide)⟩

/-- A mesh is made of it, and the common side is a face between the two cells. -/
example : ∃ m, moabToSerial (fun n => (n : ℚ)) next false exDb = some m ∧ m.numFaces = 7 ∧ m.numCells = 2 ∧
    ∃ e ∈ m.faces, e.cells = ![0, 1] ∨ e.cells = ![1, 0] := by
  refine ⟨_, rfl, ?_⟩
  decide +kernel

/-- A triangle that belongs to no tetrahedron. -/
def strayDb : Db := { exDb with tris := [(1, ![3, 5, 9]), (6, ![7, 4, 3])] }

example : Proper strayDb ∧ Stray strayDb ∧ moabToSerial (fun n => (n : ℚ)) next false strayDb = none := by
  have hp : Proper strayDb :=
  { nodes := by decide
    tris := by decide
    tets := by decide
    triNodes := by decide
    tetNodes := by decide
    fit := by decide
    tetDistinct := by decide
    triDistinct := by decide
    triOnce := by
      intro x hx y hy h
      have hx' : x = (1, ![3, 5, 9]) ∨ x = (6, ![7, 4, 3]) := by simpa [strayDb] using hx
      have hy' : y = (1, ![3, 5, 9]) ∨ y = (6, ![7, 4, 3]) := by simpa [strayDb] using hy
      rcases hx' with rfl | rfl <;> rcases hy' with rfl | rfl
      · rfl
      · exact absurd ((h 5).1 ⟨1, rfl⟩) (by decide)
      · exact absurd ((h 7).1 ⟨0, rfl⟩) (by decide)
      · rfl }
  have hs : Stray strayDb := ⟨(6, ![7, 4, 3]), by simp [strayDb], by decide⟩
  exact ⟨hp, hs, (import_fails_iff next_fresh hp).2 (Or.inl hs)⟩

/-- Three tetrahedra with a common side. -/
def threeDb : Db where
  nodes := [(9, ![0, 0, 0]), (3, ![1, 0, 0]), (5, ![0, 1, 0]), (7, ![0, 0, 1]), (4, ![1, 1, 9]), (6, ![2, 1, 9])]
  tris := []
  tets := [(8, ![9, 3, 5, 7]), (2, ![5, 9, 4, 3]), (11, ![5, 6, 9, 3])]

example : Proper threeDb ∧ Three threeDb ∧ moabToSerial (fun n => (n : ℚ)) next false threeDb = none := by
  have hp : Proper threeDb :=
  { nodes := by decide
    tris := by decide
    tets := by decide
    triNodes := by decide
    tetNodes := by decide
    fit := by decide
    tetDistinct := by decide
    triDistinct := by decide
    triOnce := by intro x hx; simp [threeDb] at hx }
  have hs : Three threeDb := ⟨(8, ![9, 3, 5, 7]), by simp [threeDb], (2, ![5, 9, 4, 3]), by simp [threeDb],
    (11, ![5, 6, 9, 3]), by simp [threeDb], by decide, by decide, by decide, ![3, 5, 9], by decide, by decide⟩
  exact ⟨hp, hs, (import_fails_iff next_fresh hp).2 (Or.inr hs)⟩

/-- C68, violated: the two tetrahedra of `exMesh` have a common face, but after the export and the import no
face has two cells. -/
theorem export_disconnects_witness : Tets exMesh ∧ (∃ e ∈ exMesh.faces, ∀ j, e.cells j ≠ invalid) ∧
    ∃ db m', serialToMoab next exMesh = some db ∧ moabToSerial (fun n => (n : ℚ)) next false db = some m' ∧
      ∀ e ∈ m'.faces, ¬ ∀ j, e.cells j ≠ invalid := by
  refine ⟨exMesh_tets, by decide, ?_⟩
  obtain ⟨db, m', h1, h2, -, -, h3⟩ := export_disconnects (val := fun n => (n : ℚ)) (two := false) next_increasing exMesh_tets.toSound next_fresh
  exact ⟨db, m', h1, h2, fun e he h => (h3 e he).elim fun j hj => h j hj⟩

/-- The hypotheses of the theorems on the export. -/
example : Increasing next ∧ Fresh next ∧ Sound exMesh := ⟨next_increasing, next_fresh, exMesh_tets.toSound⟩

/-- The hypotheses of `export_parts`: the two tetrahedra on two partitions. -/
example : Increasing next ∧ ∃ P, createFromSerialMesh exMesh [1, 0] 2 = some P := by
  obtain ⟨P, h⟩ := created_of exMesh_tets (by decide) (by decide) (pv := [1, 0]) (n := 2) rfl (by decide) (by decide)
  exact ⟨next_increasing, P, h.create⟩

end Verif.Moab
