import Verif.TychoMesh.Witness

/-!
# The requests of the exchange of cell numbers (C109)

`readTychoMesh` keeps the requests of its sends in a vector and passes `&mpiRequests[0]` to `MPI_Waitall`
(src/TychoMeshIO.cc:332). Without sends the vector is empty, and C++ leaves `mpiRequests[0]` undefined (the
standard library ends the program there when its assertions are on).
-/
namespace Verif.TychoMesh

open Verif.MeshFile

variable {R : Type} [LinearOrder R] {val : Nat → R} {m : SerialMesh} {pv : List Nat} {n : Nat} {P : ParallelMesh} {T : Nat → Mesh}

/-- `v[0]` of a `std::vector`, `none` being undefined behaviour. -/
def vecFront {α : Type} (v : List α) : Option α := v[0]?

/-- `MPI_Waitall(mpiRequests.size(), &mpiRequests[0], MPI_STATUSES_IGNORE)` at the end of `readTychoMesh`
(src/TychoMeshIO.cc:300-313, 332): the sends waited for, `none` being undefined behaviour. -/
def Mesh.waitSends (M : Mesh) : Option (List (Nat × Fin 4)) := (vecFront M.sends).map fun _ => M.sends

theorem near_lt (H : Created m pv n P) {x : Loc} (h : Exists P x) : x.cell < uintMax := by
  obtain ⟨part, cell, hp, hc⟩ := h
  have h1 := ((create_cells H.create).2 _ _ hp).2
  have h2 := (List.getElem?_eq_some_iff.1 hc).1
  have h3 := congrArg List.length h1
  rw [List.length_map] at h3
  have h4 := List.length_filter_le (fun c => decide (pv[c]? = some x.rank)) (List.range m.numCells)
  rw [List.length_range] at h4
  have h5 : m.numCells ≤ 2 ^ 64 - 1 := H.tets.toSound.fit
  unfold uintMax
  omega

/-- The sends are for the faces shared with other ranks. -/
theorem mem_sends (H : Created m pv n P) (hn : n < uintMax) (L : Loaded val P T) {r : Nat} (hr : r < n) {a : Nat × Fin 4} :
    a ∈ (T r).sends ↔ ∃ y : Loc, y.rank ≠ r ∧ Mates m P ⟨r, a.1, a.2⟩ y := by
  unfold Mesh.sends
  simp only [List.mem_flatMap, List.mem_range, List.mem_map, List.mem_filter, List.mem_finRange, true_and, decide_eq_true_eq]
  constructor
  · rintro ⟨c, hc, l, ⟨h1, h2⟩, rfl⟩
    have hE := exists_of_lt H L (x := ⟨r, c, l⟩) hr hc
    obtain ⟨a1, a2, a3⟩ := adjacency H L hE
    by_cases h : ∃ y, Mates m P ⟨r, c, l⟩ y
    · obtain ⟨y, hy⟩ := h
      refine ⟨y, fun hyr => ?_, hy⟩
      have h3 := (a1 y hy hyr).1
      dsimp only at h3
      rw [h1, Option.some.injEq] at h3
      have := near_lt H (mates_exists hy).2
      omega
    · exact absurd (a3 fun y hy => h ⟨y, hy⟩).2 h2
  · rintro ⟨y, hyr, hy⟩
    have hE := (mates_exists hy).1
    have h1 := (adjacency H L hE).2.1 y hy hyr
    have h2 := (lt_of_exists H L (mates_exists hy).2).1
    refine ⟨a.1, (lt_of_exists H L hE).2, a.2, ⟨h1.1, ?_⟩, rfl⟩
    intro h3
    have h4 := h1.2
    dsimp only at h4
    rw [h3, Option.some.injEq] at h4
    omega

theorem sends_sorted (M : Mesh) : M.sends.Pairwise locLt := by
  unfold Mesh.sends
  rw [List.pairwise_flatMap]
  refine ⟨fun c _ => ?_, ?_⟩
  · rw [List.pairwise_map]
    exact ((List.pairwise_lt_finRange 4).filter _).imp fun h => .inr ⟨rfl, h⟩
  · refine List.pairwise_lt_range.imp ?_
    intro a b h x hx y hy
    obtain ⟨l, -, rfl⟩ := List.mem_map.1 hx
    obtain ⟨l', -, rfl⟩ := List.mem_map.1 hy
    exact .inl h

/-- C109: the call at the end of loading is defined exactly on ranks with a neighbour. -/
theorem wait_iff (H : Created m pv n P) (hn : n < uintMax) (L : Loaded val P T) {r : Nat} (hr : r < n) :
    (T r).waitSends.isSome ↔ ∃ x y : Loc, x.rank = r ∧ y.rank ≠ r ∧ Mates m P x y := by
  have key : (T r).waitSends.isSome ↔ ∃ a, a ∈ (T r).sends := by
    unfold Mesh.waitSends vecFront
    cases (T r).sends with
    | nil => simp
    | cons a l => simp only [List.getElem?_cons_zero, Option.map_some, Option.isSome_some, true_iff]; exact ⟨a, by simp⟩
  rw [key]
  constructor
  · rintro ⟨a, ha⟩
    obtain ⟨y, h1, h2⟩ := (mem_sends H hn L hr).1 ha
    exact ⟨_, y, rfl, h1, h2⟩
  · rintro ⟨⟨_, c, l⟩, y, rfl, h1, h2⟩
    exact ⟨(c, l), (mem_sends H hn L hr).2 ⟨y, h1, h2⟩⟩

/-- C109, what holds: on a rank with a neighbour the call waits for one send for each face shared with
another rank. Missing: ranks without neighbour (`wait_serial`, `wait_violated`). -/
theorem wait_partial (H : Created m pv n P) (hn : n < uintMax) (L : Loaded val P T) {r : Nat} (hr : r < n)
    (h : ∃ x y : Loc, x.rank = r ∧ y.rank ≠ r ∧ Mates m P x y) :
    ∃ l, (T r).waitSends = some l ∧ l.Nodup ∧
      ∀ a, a ∈ l ↔ ∃ y : Loc, y.rank ≠ r ∧ Mates m P ⟨r, a.1, a.2⟩ y := by
  obtain ⟨l, hl⟩ := Option.isSome_iff_exists.1 ((wait_iff H hn L hr).2 h)
  have e : l = (T r).sends := by
    unfold Mesh.waitSends at hl
    obtain ⟨_, -, e⟩ := Option.map_eq_some_iff.1 hl
    exact e.symm
  subst e
  exact ⟨_, hl, (sends_sorted _).imp fun {a b} h hab => by subst hab; exact locLt_irrefl _ h, fun a => mem_sends H hn L hr⟩

/-- C109, what fails: loading any mesh on one rank is undefined. -/
theorem wait_serial (H : Created m pv 1 P) (L : Loaded val P T) : (T 0).waitSends = none := by
  rw [← Option.not_isSome_iff_eq_none, wait_iff H (by decide) L (by decide)]
  rintro ⟨x, y, -, h, hm⟩
  have := (lt_of_exists H L (mates_exists hm).2).1
  omega

/-- C109, the witness: two tetrahedra that share a face, on one rank. -/
theorem wait_violated : ∃ (m : SerialMesh) (pv : List Nat) (n : Nat) (P : ParallelMesh) (T : Nat → Mesh),
    Created m pv n P ∧ Loaded (id : Nat → Nat) P T ∧ 0 < n ∧ (T 0).waitSends = none := by
  obtain ⟨P, H⟩ := created_of exMesh_tets (by decide) (by decide) (pv := [0, 0]) (n := 1) rfl (by decide) (by decide)
  obtain ⟨T, L⟩ := load_succeeds (id : Nat → Nat) H
  exact ⟨_, _, _, P, T, H, L, by decide, wait_serial H L⟩

/-- C109: `crossMesh` on two ranks meets the hypotheses of `wait_partial`. -/
example : ∃ (P : ParallelMesh) (T : Nat → Mesh) (l : List (Nat × Fin 4)), Created crossMesh [0, 0, 1, 1] 2 P ∧
    Loaded (id : Nat → Nat) P T ∧ (T 0).waitSends = some l ∧ (0, 3) ∈ l ∧ (1, 3) ∈ l := by
  obtain ⟨P, H⟩ := created_of crossMesh_tets (by decide) (by decide) (pv := [0, 0, 1, 1]) (n := 2) rfl (by decide) (by decide)
  obtain ⟨T, L⟩ := load_succeeds (id : Nat → Nat) H
  have m₁ : Mates crossMesh P ⟨0, 0, 3⟩ ⟨1, 1, 3⟩ :=
    ⟨0, 3, 3, at_intro H (by decide) (by decide) rfl 3 rfl rfl (by decide), at_intro H (by decide) (by decide) rfl 3 rfl rfl (by decide), by decide⟩
  have m₂ : Mates crossMesh P ⟨0, 1, 3⟩ ⟨1, 0, 3⟩ :=
    ⟨1, 2, 7, at_intro H (by decide) (by decide) rfl 3 rfl rfl (by decide), at_intro H (by decide) (by decide) rfl 3 rfl rfl (by decide), by decide⟩
  obtain ⟨l, h1, -, h2⟩ := wait_partial H (by decide) L (r := 0) (by decide) ⟨_, _, rfl, by decide, m₁⟩
  exact ⟨P, T, l, H, L, h1, (h2 _).2 ⟨_, by decide, m₁⟩, (h2 _).2 ⟨_, by decide, m₂⟩⟩

end Verif.TychoMesh
