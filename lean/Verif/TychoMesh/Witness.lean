import Verif.TychoMesh.Exchange

/-!
# Where the code is wrong (C35, C52)
-/
namespace Verif.TychoMesh

open Verif.MeshFile

variable {m : SerialMesh} {pv : List Nat} {n : Nat} {P : ParallelMesh}

/-- Find the location of a face. -/
theorem at_intro (H : Created m pv n P) {r i : Nat} {l : Fin 4} {c g : Nat} (hr : r < n)
    (hi : ((List.range m.numCells).filter fun c => pv[c]? = some r)[i]? = some c) {d : SCell} (hd : m.cells[c]? = some d)
    (k : Fin 4) (hg : d.faces k = g) {e : SFace} (he : m.faces[g]? = some e) (hl : ∀ j, e.nodes j ≠ d.nodes l) :
    At m P ⟨r, i, l⟩ c g := by
  obtain ⟨h1, h2⟩ := create_cells H.create
  have hp : P.parts[r]? = some P.parts[r] := List.getElem?_eq_getElem (by omega)
  rw [← (h2 r _ hp).2, List.getElem?_map, Option.map_eq_some_iff] at hi
  obtain ⟨cell, hc, rfl⟩ := hi
  exact ⟨_, cell, d, e, hp, hc, rfl, hd, ⟨k, hg⟩, he, hl⟩

/-- What is computed from a loaded part of a given mesh. -/
def compute {α : Type} (m : SerialMesh) (pv : List Nat) (n r : Nat) (f : Mesh → α) : Option α := do
  let P ← createFromSerialMesh m pv n
  let part ← P.parts[r]?
  let T ← load (id : Nat → Nat) part r
  some (f T)

theorem compute_eq {α : Type} {T : Nat → Mesh} (H : Created m pv n P) (L : Loaded (id : Nat → Nat) P T) {r : Nat} (hr : r < n)
    (f : Mesh → α) : compute m pv n r f = some (f (T r)) := by
  obtain ⟨h1, h2⟩ := create_cells H.create
  have hp : P.parts[r]? = some P.parts[r] := List.getElem?_eq_getElem (by omega)
  unfold compute
  simp only [H.create, hp, L r _ hp, Option.bind_eq_bind, Option.bind_some]

/-- C35 is violated: on the two tetrahedra of `exMesh` the face of cell 0 opposite vertex 0 is face 0
of cell 1; `getAdjFace` says 1. -/
theorem getAdjFace_wrong : ∃ (m : SerialMesh) (pv : List Nat) (n : Nat) (P : ParallelMesh) (T : Nat → Mesh) (x y : Loc),
    Created m pv n P ∧ Loaded (id : Nat → Nat) P T ∧ Mates m P x y ∧ y.rank = x.rank ∧
    (T x.rank).getAdjFace x.cell x.face ≠ some y.face.val := by
  obtain ⟨P, H⟩ := created_of exMesh_tets (by decide) (by decide) (pv := [0, 0]) (n := 1) rfl (by decide) (by decide)
  obtain ⟨T, L⟩ := load_succeeds (id : Nat → Nat) H
  have hx : At exMesh P ⟨0, 0, 0⟩ 0 0 := at_intro H (by decide) (by decide) rfl 0 rfl rfl (by decide)
  have hy : At exMesh P ⟨0, 1, 0⟩ 1 0 := at_intro H (by decide) (by decide) rfl 2 rfl rfl (by decide)
  have hm : Mates exMesh P ⟨0, 0, 0⟩ ⟨0, 1, 0⟩ := ⟨0, 1, 0, hx, hy, by decide⟩
  refine ⟨_, _, _, P, T, ⟨0, 0, 0⟩, ⟨0, 1, 0⟩, H, L, hm, rfl, ?_⟩
  rw [getAdjFace_is_cell H L hm rfl]
  decide

/-- C52 is violated: `crossMesh` on two ranks with cells 0, 1 and 2, 3. Cell 0 of rank 0 touches cell
1 of rank 1 (cells 0 and 3 of the mesh), but is told it touches cell 0. -/
theorem exchange_wrong : ∃ (m : SerialMesh) (pv : List Nat) (n : Nat) (P : ParallelMesh) (T : Nat → Mesh) (x y : Loc),
    Created m pv n P ∧ Loaded (id : Nat → Nat) P T ∧ Mates m P x y ∧ y.rank ≠ x.rank ∧
    ∃ b, exchange T x.rank x.cell x.face = some b ∧ b ≠ (y.cell, y.face) := by
  obtain ⟨P, H⟩ := created_of crossMesh_tets (by decide) (by decide) (pv := [0, 0, 1, 1]) (n := 2) rfl (by decide) (by decide)
  obtain ⟨T, L⟩ := load_succeeds (id : Nat → Nat) H
  have hx : At crossMesh P ⟨0, 0, 3⟩ 0 3 := at_intro H (by decide) (by decide) rfl 3 rfl rfl (by decide)
  have hy : At crossMesh P ⟨1, 1, 3⟩ 3 3 := at_intro H (by decide) (by decide) rfl 3 rfl rfl (by decide)
  have hm : Mates crossMesh P ⟨0, 0, 3⟩ ⟨1, 1, 3⟩ := ⟨0, 3, 3, hx, hy, by decide⟩
  refine ⟨_, _, _, P, T, ⟨0, 0, 3⟩, ⟨1, 1, 3⟩, H, L, hm, by decide, (0, 3), ?_, by decide⟩
  have h0 : (T 0).shared 1 = [(0, 3), (1, 3)] := by
    have h1 := compute_eq H L (r := 0) (by decide) (fun M => M.shared 1)
    have h2 : compute crossMesh [0, 0, 1, 1] 2 0 (fun M => M.shared 1) = some [(0, 3), (1, 3)] := by decide +kernel
    rw [h1, Option.some.injEq] at h2
    exact h2
  have h1 : (T 1).shared 0 = [(0, 3), (1, 3)] := by
    have h1 := compute_eq H L (r := 1) (by decide) (fun M => M.shared 0)
    have h2 : compute crossMesh [0, 0, 1, 1] 2 1 (fun M => M.shared 0) = some [(0, 3), (1, 3)] := by decide +kernel
    rw [h1, Option.some.injEq] at h2
    exact h2
  have hrk := ((adjacency H L (at_exists hx)).2.1 _ hm (by decide)).2
  dsimp only at hrk
  unfold exchange
  simp only [hrk, h0, h1, Option.bind_eq_bind, Option.bind_some]
  decide

/-- `exchange_late_wrong` on `crossMesh` as above: cells 0 and 1 of rank 0 touch cells 1 and 0 of rank 1. -/
example : ∃ (P : ParallelMesh) (T : Nat → Mesh), Created crossMesh [0, 0, 1, 1] 2 P ∧ Loaded (id : Nat → Nat) P T ∧
    Mates crossMesh P ⟨0, 0, 3⟩ ⟨1, 1, 3⟩ ∧ Mates crossMesh P ⟨0, 1, 3⟩ ⟨1, 0, 3⟩ ∧
    (exchangeLate T 0 0 3 ≠ some (1, 3) ∨ exchangeLate T 0 1 3 ≠ some (0, 3)) := by
  obtain ⟨P, H⟩ := created_of crossMesh_tets (by decide) (by decide) (pv := [0, 0, 1, 1]) (n := 2) rfl (by decide) (by decide)
  obtain ⟨T, L⟩ := load_succeeds (id : Nat → Nat) H
  have m₁ : Mates crossMesh P ⟨0, 0, 3⟩ ⟨1, 1, 3⟩ :=
    ⟨0, 3, 3, at_intro H (by decide) (by decide) rfl 3 rfl rfl (by decide), at_intro H (by decide) (by decide) rfl 3 rfl rfl (by decide), by decide⟩
  have m₂ : Mates crossMesh P ⟨0, 1, 3⟩ ⟨1, 0, 3⟩ :=
    ⟨1, 2, 7, at_intro H (by decide) (by decide) rfl 3 rfl rfl (by decide), at_intro H (by decide) (by decide) rfl 3 rfl rfl (by decide), by decide⟩
  exact ⟨P, T, H, L, m₁, m₂, exchange_late_wrong H L m₁ m₂ rfl rfl (by decide) (by decide)⟩

/-- C52: with one shared face the exchange is right: `exMesh` on two ranks. -/
example : ∃ (P : ParallelMesh) (T : Nat → Mesh), Created exMesh [0, 1] 2 P ∧ Loaded (id : Nat → Nat) P T ∧
    exchange T 0 0 0 = some (0, 0) ∧ (T 0).getSide 0 0 = some 0 ∧ (T 0).nSides = 4 ∧ (T 0).getLGSide 0 = some 0 := by
  obtain ⟨P, H⟩ := created_of exMesh_tets (by decide) (by decide) (pv := [0, 1]) (n := 2) rfl (by decide) (by decide)
  obtain ⟨T, L⟩ := load_succeeds (id : Nat → Nat) H
  have hx : At exMesh P ⟨0, 0, 0⟩ 0 0 := at_intro H (by decide) (by decide) rfl 0 rfl rfl (by decide)
  have hy : At exMesh P ⟨1, 0, 0⟩ 1 0 := at_intro H (by decide) (by decide) rfl 2 rfl rfl (by decide)
  have hm : Mates exMesh P ⟨0, 0, 0⟩ ⟨1, 0, 0⟩ := ⟨0, 1, 0, hx, hy, by decide⟩
  have get : ∀ {α : Type} (f : Mesh → α) {v : α}, compute exMesh [0, 1] 2 0 f = some v → f (T 0) = v := by
    intro α f v h
    rw [compute_eq H L (by decide) f, Option.some.injEq] at h
    exact h
  refine ⟨P, T, H, L, ?_, get (fun M => M.getSide 0 0) (by decide +kernel), get (fun M => M.nSides) (by decide +kernel),
    get (fun M => M.getLGSide 0) (by decide +kernel)⟩
  refine exchange_single H (by decide) L hm (by decide) ?_
  rintro ⟨xr, xc, xf⟩ ⟨yr, yc, yf⟩ hm' hxr hyr
  dsimp only at hxr hyr
  subst hxr hyr
  -- rank 0 has only cell 0, rank 1 only cell 1
  obtain ⟨c, c', g, h1, h2, -⟩ := hm'
  have hc : ∀ {z : Loc} {c g : Nat}, At exMesh P z c g → c < 2 ∧ [0, 1][c]? = some z.rank := fun h => (at_rank H h).2
  have e1 := hc h1
  have e2 := hc h2
  dsimp only at e1 e2
  have c0 : c = 0 := by
    obtain ⟨h, h'⟩ := e1
    interval_cases c
    · rfl
    · simp at h'
  have c1 : c' = 1 := by
    obtain ⟨h, h'⟩ := e2
    interval_cases c'
    · simp at h'
    · rfl
  subst c0 c1
  have hg : g = 0 := by
    obtain ⟨e, he, j, hj⟩ := at_lists H h2
    obtain ⟨e', he', j', hj'⟩ := at_lists H h1
    have hlt : g < 7 := (List.getElem?_eq_some_iff.1 he).1
    rw [he, Option.some.injEq] at he'
    subst he'
    interval_cases g <;> simp [exMesh] at he <;> subst he <;> revert hj hj' <;> revert j j' <;> decide
  subst hg
  exact at_inj H h1 hx

end Verif.TychoMesh
