import Verif.TychoMesh.Props

/-!
# The exchange of neighbour cell numbers (C52), and concrete meshes
-/
namespace Verif.TychoMesh

open Verif.MeshFile

variable {R : Type} [LinearOrder R] {val : Nat → R} {m : SerialMesh} {pv : List Nat} {n : Nat} {P : ParallelMesh} {T : Nat → Mesh}

/-- Order in which the loops visit the faces of a part. -/
def locLt (a b : Nat × Fin 4) : Prop := a.1 < b.1 ∨ (a.1 = b.1 ∧ a.2 < b.2)

theorem locLt_irrefl (a : Nat × Fin 4) : ¬ locLt a a := by unfold locLt; simp

theorem locLt_asymm {a b : Nat × Fin 4} (h : locLt a b) (h' : locLt b a) : False := by
  unfold locLt at *
  rcases h with h | ⟨h1, h2⟩ <;> rcases h' with h' | ⟨h3, h4⟩
  · omega
  · omega
  · omega
  · omega

theorem shared_sorted (M : Mesh) (q : Nat) : (M.shared q).Pairwise locLt := by
  unfold Mesh.shared
  rw [List.pairwise_flatMap]
  refine ⟨fun c _ => ?_, ?_⟩
  · rw [List.pairwise_map]
    refine List.Pairwise.imp ?_ ((List.pairwise_lt_finRange 4).filter _)
    intro a b h
    exact .inr ⟨rfl, h⟩
  · refine List.Pairwise.imp ?_ List.pairwise_lt_range
    intro a b h x hx y hy
    obtain ⟨l, -, rfl⟩ := List.mem_map.1 hx
    obtain ⟨l', -, rfl⟩ := List.mem_map.1 hy
    exact .inl h

theorem exists_of_lt (H : Created m pv n P) (L : Loaded val P T) {x : Loc} (hr : x.rank < n) (hc : x.cell < (T x.rank).nCells) : Exists P x := by
  have hl := (create_cells H.create).1
  have hp : P.parts[x.rank]? = some P.parts[x.rank] := List.getElem?_eq_getElem (by omega)
  obtain ⟨B, -, -, -, -, hN, -⟩ := loc_facts H L hp
  exact ⟨_, P.parts[x.rank].cells[x.cell]'(by omega), hp, List.getElem?_eq_getElem (by omega)⟩

theorem lt_of_exists (H : Created m pv n P) (L : Loaded val P T) {x : Loc} (h : Exists P x) :
    x.rank < n ∧ x.cell < (T x.rank).nCells := by
  obtain ⟨part, cell, hp, hc⟩ := h
  have hl := (create_cells H.create).1
  obtain ⟨B, -, -, -, -, hN, -⟩ := loc_facts H L hp
  have h1 := (List.getElem?_eq_some_iff.1 hp).1
  have h2 := (List.getElem?_eq_some_iff.1 hc).1
  exact ⟨by omega, by omega⟩

theorem mates_exists {x y : Loc} (h : Mates m P x y) : Exists P x ∧ Exists P y := by
  obtain ⟨_, _, _, h1, h2, _⟩ := h
  exact ⟨at_exists h1, at_exists h2⟩

/-- The faces shared with another rank. -/
theorem mem_shared (H : Created m pv n P) (L : Loaded val P T) {r q : Nat} (hr : r < n) (hq : q < n) (hn : n < uintMax) (hrq : q ≠ r) {a : Nat × Fin 4} :
    a ∈ (T r).shared q ↔ ∃ y : Loc, y.rank = q ∧ Mates m P ⟨r, a.1, a.2⟩ y := by
  unfold Mesh.shared
  simp only [List.mem_flatMap, List.mem_range, List.mem_map, List.mem_filter, List.mem_finRange, true_and, decide_eq_true_eq]
  constructor
  · rintro ⟨c, hc, l, ⟨h1, h2, h3⟩, rfl⟩
    have hE := exists_of_lt H L (x := ⟨r, c, l⟩) hr hc
    obtain ⟨a1, a2, a3⟩ := adjacency H L hE
    by_cases h : ∃ y, Mates m P ⟨r, c, l⟩ y
    · obtain ⟨y, hy⟩ := h
      refine ⟨y, ?_, hy⟩
      by_cases hyr : y.rank = r
      · have := (a1 y hy hyr).2.2.2
        dsimp only at this
        rw [h2, Option.some.injEq] at this
        exact absurd this hrq
      · have := (a2 y hy hyr).2
        dsimp only at this
        rw [h2, Option.some.injEq] at this
        exact this.symm
    · have := (a3 fun y hy => h ⟨y, hy⟩).2
      dsimp only at this
      rw [h2, Option.some.injEq] at this
      exact absurd this h3
  · rintro ⟨y, rfl, hy⟩
    have hE := (mates_exists hy).1
    have := (adjacency H L hE).2.1 y hy hrq
    exact ⟨a.1, (lt_of_exists H L hE).2, a.2, ⟨this.1, this.2, by omega⟩, rfl⟩

/-- The faces shared by two ranks correspond. -/
theorem shared_mates (H : Created m pv n P) (L : Loaded val P T) {r q : Nat} (hr : r < n) (hq : q < n) (hn : n < uintMax) (hrq : q ≠ r) :
    ∃ μ : Nat × Fin 4 → Nat × Fin 4, (∀ a ∈ (T r).shared q, Mates m P ⟨r, a.1, a.2⟩ ⟨q, (μ a).1, (μ a).2⟩) ∧
      List.Perm (((T r).shared q).map μ) ((T q).shared r) := by
  have : ∀ a : Nat × Fin 4, ∃ b : Nat × Fin 4, a ∈ (T r).shared q → Mates m P ⟨r, a.1, a.2⟩ ⟨q, b.1, b.2⟩ := by
    intro a
    by_cases ha : a ∈ (T r).shared q
    · obtain ⟨y, hy, hm⟩ := (mem_shared H L hr hq hn hrq).1 ha
      obtain ⟨yr, yc, yf⟩ := y
      dsimp only at hy
      subst hy
      exact ⟨(yc, yf), fun _ => hm⟩
    · exact ⟨a, fun h => absurd h ha⟩
  choose μ hμ using this
  have nd : ∀ r q, ((T r).shared q).Nodup := fun r q =>
    (shared_sorted (T r) q).imp fun {a b} h hab => by subst hab; exact locLt_irrefl _ h
  refine ⟨μ, hμ, ?_⟩
  rw [List.perm_ext_iff_of_nodup ?_ (nd q r)]
  · intro b
    rw [mem_shared H L hq hr hn hrq.symm, List.mem_map]
    constructor
    · rintro ⟨a, ha, rfl⟩
      exact ⟨_, rfl, mates_symm (hμ a ha)⟩
    · rintro ⟨⟨yr, yc, yf⟩, hyr, hm⟩
      dsimp only at hyr
      subst hyr
      have ha : (yc, yf) ∈ (T yr).shared q := (mem_shared H L hr hq hn hrq).2 ⟨_, rfl, mates_symm hm⟩
      refine ⟨_, ha, ?_⟩
      have := mates_unique H (hμ _ ha) (mates_symm hm)
      injection this with h1 h2 h3
      exact Prod.ext h2 h3
  · refine List.Nodup.map_on ?_ (nd r q)
    intro a ha b hb hab
    have h1 := mates_symm (hμ a ha)
    have h2 := mates_symm (hμ b hb)
    rw [← hab] at h2
    have := mates_unique H h1 h2
    injection this with h1 h2 h3
    exact Prod.ext h2 h3

/-- C52, what always holds: the exchange completes, and gives a face the other rank shares with this
one. -/
theorem exchange_total (H : Created m pv n P) (hn : n < uintMax) (L : Loaded val P T) {x y : Loc} (h : Mates m P x y) (hr : y.rank ≠ x.rank) :
    ∃ b : Nat × Fin 4, exchange T x.rank x.cell x.face = some b ∧ ∃ z : Loc, z.rank = x.rank ∧ Mates m P ⟨y.rank, b.1, b.2⟩ z := by
  obtain ⟨hxe, hye⟩ := mates_exists h
  have hx := (lt_of_exists H L hxe).1
  have hy := (lt_of_exists H L hye).1
  obtain ⟨μ, h1, h2⟩ := shared_mates H L hx hy hn hr
  have hmem : (x.cell, x.face) ∈ (T x.rank).shared y.rank := (mem_shared H L hx hy hn hr).2 ⟨y, rfl, h⟩
  have hk := List.idxOf_lt_length_of_mem hmem
  have hlen : ((T x.rank).shared y.rank).length = ((T y.rank).shared x.rank).length := by
    rw [← h2.length_eq, List.length_map]
  have hk' : List.idxOf (x.cell, x.face) ((T x.rank).shared y.rank) < ((T y.rank).shared x.rank).length := by omega
  refine ⟨((T y.rank).shared x.rank)[List.idxOf (x.cell, x.face) ((T x.rank).shared y.rank)], ?_, ?_⟩
  · unfold exchange
    have hrk := ((adjacency H L hxe).2.1 y h hr).2
    have hidx : ((T x.rank).shared y.rank).idxOf? (x.cell, x.face) = some (List.idxOf (x.cell, x.face) ((T x.rank).shared y.rank)) := by
      rw [List.idxOf?, List.findIdx?_eq_some_iff_getElem]
      refine ⟨hk, by simp, ?_⟩
      intro j hj
      simp only [beq_iff_eq]
      exact fun hc => by
        have := List.not_of_lt_findIdx (p := (· == (x.cell, x.face))) (xs := (T x.rank).shared y.rank) (i := j) (by simpa [List.idxOf] using hj)
        simp [hc] at this
    simp only [hrk, hidx, Option.bind_eq_bind, Option.bind_some]
    exact List.getElem?_eq_getElem hk'
  · exact (mem_shared H L hy hx hn hr.symm).1 (List.getElem_mem hk')

/-- C52, what remains true: if the two ranks visit their shared faces in the same order, each is told
the cell and face on the other side. Missing: the partitioner does not ensure this
(`exchange_wrong`). -/
theorem exchange_partial (H : Created m pv n P) (hn : n < uintMax) (L : Loaded val P T) {x y : Loc} (h : Mates m P x y) (hr : y.rank ≠ x.rank)
    (hord : ∀ x₁ y₁ x₂ y₂ : Loc, Mates m P x₁ y₁ → Mates m P x₂ y₂ → x₁.rank = x.rank → x₂.rank = x.rank → y₁.rank = y.rank →
      y₂.rank = y.rank → locLt (x₁.cell, x₁.face) (x₂.cell, x₂.face) → locLt (y₁.cell, y₁.face) (y₂.cell, y₂.face)) :
    exchange T x.rank x.cell x.face = some (y.cell, y.face) := by
  obtain ⟨hxe, hye⟩ := mates_exists h
  have hx := (lt_of_exists H L hxe).1
  have hy := (lt_of_exists H L hye).1
  obtain ⟨μ, h1, h2⟩ := shared_mates H L hx hy hn hr
  have hmem : (x.cell, x.face) ∈ (T x.rank).shared y.rank := (mem_shared H L hx hy hn hr).2 ⟨y, rfl, h⟩
  have heq : ((T x.rank).shared y.rank).map μ = (T y.rank).shared x.rank := by
    refine h2.eq_of_pairwise (le := locLt) ?_ ?_ (shared_sorted _ _)
    · intro a b _ _ hab hba
      exact absurd hba fun h => locLt_asymm hab h
    · rw [List.pairwise_map]
      refine List.Pairwise.imp_of_mem ?_ (shared_sorted (T x.rank) y.rank)
      intro a b ha hb hab
      exact hord _ _ _ _ (h1 a ha) (h1 b hb) rfl rfl rfl rfl hab
  have hk := List.idxOf_lt_length_of_mem hmem
  have hμ : μ (x.cell, x.face) = (y.cell, y.face) := by
    have := mates_unique H (h1 _ hmem) h
    rw [← this]
  unfold exchange
  have hrk := ((adjacency H L hxe).2.1 y h hr).2
  have hidx : ((T x.rank).shared y.rank).idxOf? (x.cell, x.face) = some (List.idxOf (x.cell, x.face) ((T x.rank).shared y.rank)) := by
    rw [List.idxOf?, List.findIdx?_eq_some_iff_getElem]
    refine ⟨hk, by simp, ?_⟩
    intro j hj
    simp only [beq_iff_eq]
    exact fun hc => by
      have := List.not_of_lt_findIdx (p := (· == (x.cell, x.face))) (xs := (T x.rank).shared y.rank) (i := j) (by simpa [List.idxOf] using hj)
      simp [hc] at this
  simp only [hrk, hidx, Option.bind_eq_bind, Option.bind_some]
  rw [← heq, List.getElem?_map, List.getElem?_eq_getElem hk, List.getElem_idxOf hk, Option.map_some, hμ]

/-- C52 for two ranks that share one face only. -/
theorem exchange_single (H : Created m pv n P) (hn : n < uintMax) (L : Loaded val P T) {x y : Loc} (h : Mates m P x y) (hr : y.rank ≠ x.rank)
    (hone : ∀ x' y' : Loc, Mates m P x' y' → x'.rank = x.rank → y'.rank = y.rank → x' = x) :
    exchange T x.rank x.cell x.face = some (y.cell, y.face) := by
  refine exchange_partial H hn L h hr fun x₁ y₁ x₂ y₂ m1 m2 r1 r2 q1 q2 hlt => ?_
  rw [hone x₁ y₁ m1 r1 q1, hone x₂ y₂ m2 r2 q2] at hlt
  exact absurd hlt (locLt_irrefl _)

/-- C52, second fault: if the buffers are read after the loop, then of any two faces a rank shares with
another, one is told a wrong cell and face. -/
theorem exchange_late_wrong (H : Created m pv n P) (L : Loaded val P T) {x₁ y₁ x₂ y₂ : Loc} (h₁ : Mates m P x₁ y₁) (h₂ : Mates m P x₂ y₂)
    (hx : x₁.rank = x₂.rank) (hy : y₁.rank = y₂.rank) (hr : y₁.rank ≠ x₁.rank) (hne : x₁ ≠ x₂) :
    exchangeLate T x₁.rank x₁.cell x₁.face ≠ some (y₁.cell, y₁.face) ∨
      exchangeLate T x₂.rank x₂.cell x₂.face ≠ some (y₂.cell, y₂.face) := by
  by_contra hcon
  push Not at hcon
  obtain ⟨e1, e2⟩ := hcon
  have r1 := ((adjacency H L (mates_exists h₁).1).2.1 y₁ h₁ hr).2
  have r2 := ((adjacency H L (mates_exists h₂).1).2.1 y₂ h₂ (by rw [← hx, ← hy]; exact hr)).2
  unfold exchangeLate at e1 e2
  simp only [r1, r2, Option.bind_eq_bind, Option.bind_some] at e1 e2
  rw [hy, e2, Option.some.injEq, Prod.mk.injEq] at e1
  have hyy : y₁ = y₂ := by
    obtain ⟨a, b, c⟩ := y₁
    obtain ⟨a', b', c'⟩ := y₂
    simp only at hy e1
    obtain ⟨rfl, rfl⟩ := e1
    subst hy
    rfl
  rw [hyy] at h₁
  exact hne (mates_unique H (mates_symm h₁) (mates_symm h₂))

/-! ### Concrete meshes -/

/-- Conditions of `Tets` on a given mesh, to be computed; `sig c k` is the vertex of cell `c` left out
by its face `k`. -/
structure Check (m : SerialMesh) (sig : Nat → Fin 4 → Fin 4) : Prop where
  cells : m.numCells = m.cells.length
  faces : m.numFaces = m.faces.length
  nodes : m.numNodes = m.nodes.length
  fit : m.numCells ≤ invalid
  cell : ∀ p ∈ m.cells.zipIdx, (∀ k, p.1.faces k < m.numFaces) ∧ (∀ k, p.1.nodes k < m.numNodes) ∧
    (∀ i j, p.1.nodes i = p.1.nodes j → i = j) ∧ (∀ i j, sig p.2 i = sig p.2 j → i = j) ∧
    ∀ k, ∀ e ∈ m.faces[p.1.faces k]?, (∃ j, e.cells j = p.2) ∧ (∀ j, ∃ i, e.nodes j = p.1.nodes i) ∧
      ∀ i, (∃ j, e.nodes j = p.1.nodes i) ↔ i ≠ sig p.2 k
  face : ∀ p ∈ m.faces.zipIdx, (∀ k, p.1.cells k = invalid ∨ p.1.cells k < m.numCells) ∧ p.1.cells 0 ≠ p.1.cells 1 ∧
    ∀ j, ∀ d ∈ m.cells[p.1.cells j]?, ∃ k, d.faces k = p.2

theorem Check.tets {sig : Nat → Fin 4 → Fin 4} (C : Check m sig) : Tets m where
  cells := C.cells
  faces := C.faces
  nodes := C.nodes
  fit := C.fit
  cellFace c d h k := (C.cell (d, c) (List.mem_zipIdx_iff_getElem?.2 h)).1 k
  cellNode c d h k := (C.cell (d, c) (List.mem_zipIdx_iff_getElem?.2 h)).2.1 k
  faceCell e he k := by
    obtain ⟨g, hg⟩ := List.mem_iff_getElem?.1 he
    exact (C.face (e, g) (List.mem_zipIdx_iff_getElem?.2 hg)).1 k
  lists c d k e h h' := ((C.cell (d, c) (List.mem_zipIdx_iff_getElem?.2 h)).2.2.2.2 k e h').1
  faceNode c d k e h h' := ((C.cell (d, c) (List.mem_zipIdx_iff_getElem?.2 h)).2.2.2.2 k e h').2.1
  distinct c d h := fun i j => (C.cell (d, c) (List.mem_zipIdx_iff_getElem?.2 h)).2.2.1 i j
  omits c d h := ⟨sig c, fun i j => (C.cell (d, c) (List.mem_zipIdx_iff_getElem?.2 h)).2.2.2.1 i j, fun k e h' =>
    ((C.cell (d, c) (List.mem_zipIdx_iff_getElem?.2 h)).2.2.2.2 k e h').2.2⟩
  back g e h j d h' := (C.face (e, g) (List.mem_zipIdx_iff_getElem?.2 h)).2.2 j d h'
  sides e he := by
    obtain ⟨g, hg⟩ := List.mem_iff_getElem?.1 he
    exact (C.face (e, g) (List.mem_zipIdx_iff_getElem?.2 hg)).2.1

set_option synthInstance.maxHeartbeats 200000 in
set_option synthInstance.maxSize 1000 in
/-- The two tetrahedra of `exMesh`. -/
theorem exMesh_tets : Tets exMesh :=
  Check.tets (sig := fun c => if c = 0 then ![0, 1, 2, 3] else ![3, 2, 0, 1]) ⟨rfl, rfl, rfl, by decide, by decide +kernel, by decide +kernel⟩

/-- Two pairs of tetrahedra, each pair sharing a face: 0 with 3 and 1 with 2. -/
def crossMesh : SerialMesh where
  numCells := 4
  numFaces := 14
  numNodes := 10
  cells := [⟨![0, 1, 2, 3], ![0, 1, 2, 3], 0⟩, ⟨![4, 5, 6, 7], ![5, 6, 7, 8], 0⟩,
    ⟨![8, 9, 10, 7], ![5, 6, 7, 9], 0⟩, ⟨![11, 12, 13, 3], ![0, 1, 2, 4], 0⟩]
  faces := [⟨![0, invalid], ![1, 2, 3]⟩, ⟨![0, invalid], ![0, 2, 3]⟩, ⟨![0, invalid], ![0, 1, 3]⟩, ⟨![0, 3], ![0, 1, 2]⟩,
    ⟨![1, invalid], ![6, 7, 8]⟩, ⟨![1, invalid], ![5, 7, 8]⟩, ⟨![1, invalid], ![5, 6, 8]⟩, ⟨![1, 2], ![5, 6, 7]⟩,
    ⟨![2, invalid], ![6, 7, 9]⟩, ⟨![2, invalid], ![5, 7, 9]⟩, ⟨![2, invalid], ![5, 6, 9]⟩,
    ⟨![3, invalid], ![1, 2, 4]⟩, ⟨![3, invalid], ![0, 2, 4]⟩, ⟨![3, invalid], ![0, 1, 4]⟩]
  nodes := [⟨![0, 0, 0]⟩, ⟨![1, 0, 0]⟩, ⟨![0, 1, 0]⟩, ⟨![0, 0, 1]⟩, ⟨![1, 1, 9]⟩,
    ⟨![5, 5, 5]⟩, ⟨![6, 5, 5]⟩, ⟨![5, 6, 5]⟩, ⟨![5, 5, 6]⟩, ⟨![6, 6, 9]⟩]

set_option synthInstance.maxHeartbeats 200000 in
set_option synthInstance.maxSize 1000 in
theorem crossMesh_tets : Tets crossMesh :=
  Check.tets (sig := fun _ => id) ⟨rfl, rfl, rfl, by decide, by decide +kernel, by decide +kernel⟩

/-- `createFromSerialMesh` on a given mesh. -/
theorem created_of {m : SerialMesh} (ht : Tets m) (hf : m.numFaces ≤ 2 ^ 31) (hn : m.numNodes ≤ 2 ^ 31) {pv : List Nat} {n : Nat}
    (hpv : pv.length = m.numCells) (hpn : ∀ p ∈ pv, p < n) (hn31 : 3 + n < 2 ^ 31) : ∃ P, Created m pv n P := by
  obtain ⟨P, hP, -⟩ := create_succeeds ht.toSound hf hn hpv hpn hn31
  exact ⟨P, ht, hf, hn, hP⟩

/-- All theorems of this directory apply to `exMesh` on one rank and on two, and to `crossMesh`. -/
example : (∃ P T, Created exMesh [0, 0] 1 P ∧ Loaded (val := (id : Nat → Nat)) P T) ∧
    (∃ P T, Created exMesh [0, 1] 2 P ∧ Loaded (val := (id : Nat → Nat)) P T) ∧
    ∃ P T, Created crossMesh [0, 0, 1, 1] 2 P ∧ Loaded (val := (id : Nat → Nat)) P T := by
  refine ⟨?_, ?_, ?_⟩
  · obtain ⟨P, h⟩ := created_of exMesh_tets (by decide) (by decide) (pv := [0, 0]) (n := 1) rfl (by decide) (by decide)
    exact ⟨P, (load_succeeds id h).choose, h, (load_succeeds id h).choose_spec⟩
  · obtain ⟨P, h⟩ := created_of exMesh_tets (by decide) (by decide) (pv := [0, 1]) (n := 2) rfl (by decide) (by decide)
    exact ⟨P, (load_succeeds id h).choose, h, (load_succeeds id h).choose_spec⟩
  · obtain ⟨P, h⟩ := created_of crossMesh_tets (by decide) (by decide) (pv := [0, 0, 1, 1]) (n := 2) rfl (by decide) (by decide)
    exact ⟨P, (load_succeeds id h).choose, h, (load_succeeds id h).choose_spec⟩

end Verif.TychoMesh
