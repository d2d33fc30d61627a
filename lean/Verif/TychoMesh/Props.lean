import Verif.TychoMesh.Lemmas3

/-!
# Properties of loaded meshes (C34–C36)
-/
namespace Verif.TychoMesh

open Verif.MeshFile

variable {R : Type} [LinearOrder R] {val : Nat → R} {m : SerialMesh} {pv : List Nat} {n : Nat} {P : ParallelMesh} {T : Nat → Mesh}

/-- Every part of a mesh made by the partitioner loads: no assertion fails, no entry is left
unwritten. -/
theorem load_succeeds (val : Nat → R) (H : Created m pv n P) : ∃ T, Loaded val P T := by
  have : ∀ r, ∃ T, ∀ part, P.parts[r]? = some part → load val part r = some T := by
    intro r
    cases hp : P.parts[r]? with
    | none => exact ⟨⟨0, 0, [], [], [], [], [], [], [], [], []⟩, by simp⟩
    | some part =>
      obtain ⟨T, B, h, -⟩ := load_facts val H hp
      exact ⟨T, fun part' h' => by rw [Option.some.injEq] at h'; rw [← h']; exact h⟩
  choose T hT using this
  exact ⟨T, fun r part hp => hT r part hp⟩

/-! ### The other side of a face -/

theorem mates_symm {x y : Loc} (h : Mates m P x y) : Mates m P y x := by
  obtain ⟨c, c', g, h1, h2, h3⟩ := h
  exact ⟨c', c, g, h2, h1, h3.symm⟩

theorem at_third (H : Created m pv n P) {x y z : Loc} {c c' c'' g : Nat} (hx : At m P x c g) (hy : At m P y c' g)
    (hz : At m P z c'' g) (h1 : c ≠ c') (h2 : c ≠ c'') : c' = c'' := by
  obtain ⟨e1, f1, j1, k1⟩ := at_lists H hx
  obtain ⟨e2, f2, j2, k2⟩ := at_lists H hy
  obtain ⟨e3, f3, j3, k3⟩ := at_lists H hz
  rw [f1, Option.some.injEq] at f2 f3
  subst f2 f3
  have : ∀ a b c : Fin 2, a ≠ b → a ≠ c → b = c := by decide
  have hj : j2 = j3 := this j1 j2 j3 (fun h => h1 (by rw [← k1, h, k2])) (fun h => h2 (by rw [← k1, h, k3]))
  rw [← k2, hj, k3]

/-- A face has at most one other side. -/
theorem mates_unique (H : Created m pv n P) {x y z : Loc} (hy : Mates m P x y) (hz : Mates m P x z) : y = z := by
  obtain ⟨c, c', g, h1, h2, h3⟩ := hy
  obtain ⟨d, d', g', k1, k2, k3⟩ := hz
  obtain ⟨rfl, rfl⟩ := at_unique H h1 k1
  have := at_third H h1 h2 k2 h3 k3
  subst this
  exact at_inj H h2 k2

/-- Everything about one loaded location. -/
theorem loc_facts (H : Created m pv n P) (L : Loaded val P T) {x : Loc} {part : Part} (hp : P.parts[x.rank]? = some part) :
    ∃ B : List (Nat × Fin 4), B.Nodup ∧ (T x.rank).sides.length = B.length ∧ (T x.rank).nSides = B.length ∧
      (∀ i l, (i, l) ∈ B → i < part.cells.length) ∧ (T x.rank).nCells = part.cells.length ∧
      (T x.rank).lGCells = part.cells.map PCell.globalID ∧ (T x.rank).material = part.cells.map PCell.material ∧
      (T x.rank).cellNodes = part.cells.map PCell.nodes ∧
      ∀ i cell, part.cells[i]? = some cell → ∃ d, m.cells[cell.globalID]? = some d ∧
        ∀ l, ∃ en f e g φ, FaceFact m pv P x.rank part (T x.rank) B i l cell d en f e g φ := by
  obtain ⟨T', B, h1, h2, h3, h4, h5, h6, h7, h8, h9, h10⟩ := load_facts val H hp
  have := (L _ _ hp).symm.trans h1
  rw [Option.some.injEq] at this
  subst this
  exact ⟨B, h7, h8, h3.trans h8, h9, h2, h4, h5, h6, h10⟩

/-- C34: what the adjacency tables say. Inside a part the neighbour and its face number are reported
(and so back again, `Mates` being symmetric); a face on the boundary with another part has no
neighbouring cell but the rank of the other part; a face of the mesh boundary has neither. -/
theorem adjacency (H : Created m pv n P) (L : Loaded val P T) {x : Loc} (hx : Exists P x) :
    (∀ y, Mates m P x y → y.rank = x.rank →
      (T x.rank).getAdjCell x.cell x.face = some y.cell ∧ y.cell < (T x.rank).nCells ∧
      (T x.rank).adjFace x.cell x.face = some y.face.val ∧
      (T x.rank).getAdjRank x.cell x.face = some x.rank) ∧
    (∀ y, Mates m P x y → y.rank ≠ x.rank →
      (T x.rank).getAdjCell x.cell x.face = some uintMax ∧ (T x.rank).getAdjRank x.cell x.face = some y.rank) ∧
    ((∀ y, ¬ Mates m P x y) →
      (T x.rank).getAdjCell x.cell x.face = some uintMax ∧ (T x.rank).getAdjRank x.cell x.face = some uintMax) := by
  obtain ⟨part, cell, hp, hc⟩ := hx
  obtain ⟨B, -, -, -, -, hN, -, -, -, h⟩ := loc_facts H L hp
  obtain ⟨d, hd, h⟩ := h _ _ hc
  obtain ⟨en, f, e, g, φ, F⟩ := h x.face
  have hat : At m P x cell.globalID g := F.row.at_
  rcases proc_facts H hp F.row with ⟨y, c', hy, hne, hq, ht⟩ | ⟨hall, hq, ht⟩
  · have hm : Mates m P x y := ⟨_, _, _, hat, hy, hne.symm⟩
    refine ⟨fun z hz hr => ?_, fun z hz hr => ?_, fun hno => absurd hm (hno y)⟩
    · obtain rfl := mates_unique H hm hz
      obtain ⟨i', l', c'', e1, e2, e3, e4, e5⟩ := F.row.inner (ht.2 hr)
      have : (⟨x.rank, i', l'⟩ : Loc) = y := mates_unique H ⟨_, _, _, hat, e3, e4.symm⟩ hm
      subst this
      refine ⟨by rw [F.adjCell, e1], ?_, by rw [F.adjFace, e2], by rw [F.adjRank, hq]⟩
      rw [hN, ← ((create_cells H.create).2 _ _ hp).1]
      exact e5
    · obtain rfl := mates_unique H hm hz
      have hb := F.row.bdry (fun h2 => hr (ht.1 h2))
      exact ⟨by rw [F.adjCell, hb.1], by rw [F.adjRank, hq]⟩
  · refine ⟨fun z hz _ => ?_, fun z hz _ => ?_, fun _ => ⟨by rw [F.adjCell, (F.row.bdry ht).1], by rw [F.adjRank, hq]⟩⟩
    all_goals
      obtain ⟨c1, c2, g', h1, h2, h3⟩ := hz
      obtain ⟨rfl, rfl⟩ := at_unique H hat h1
      exact absurd (hall _ _ h2).symm h3

/-- The location is on the boundary of its part. -/
def Bdry (m : SerialMesh) (P : ParallelMesh) (x : Loc) : Prop := ∀ y, Mates m P x y → y.rank ≠ x.rank

theorem bdry_iff (H : Created m pv n P) (L : Loaded val P T) {x : Loc} (hx : Exists P x) :
    Bdry m P x ↔ (T x.rank).getAdjCell x.cell x.face = some uintMax := by
  obtain ⟨a1, a2, a3⟩ := adjacency H L hx
  constructor
  · intro hb
    by_cases h : ∃ y, Mates m P x y
    · obtain ⟨y, hy⟩ := h
      exact (a2 y hy (hb y hy)).1
    · exact (a3 fun y hy => h ⟨y, hy⟩).1
  · intro h y hy hr
    obtain ⟨b1, b2, -⟩ := a1 y hy hr
    rw [h, Option.some.injEq] at b1
    obtain ⟨part, cell, hp, hc⟩ := hx
    obtain ⟨B, -, -, -, -, hN, -⟩ := loc_facts H L hp
    have := ((create_cells H.create).2 _ _ hp).1
    have := part_le H hp
    have := H.tets.fit
    have : invalid = uintMax := rfl
    omega

/-- C34: each face at the boundary of a part has a side number below `nSides`; the side's cell is its
cell, the side's global number is the number of the face in the serial mesh, and looking this up gives
back the side. Other faces have none. -/
theorem sides (H : Created m pv n P) (L : Loaded val P T) {x : Loc} {c g : Nat} (hx : At m P x c g) :
    (Bdry m P x → ∃ s, (T x.rank).getSide x.cell x.face = some s ∧ s < (T x.rank).nSides ∧
      (T x.rank).getSideCell s = some x.cell ∧ (T x.rank).getLGSide s = some g ∧
      (T x.rank).getGLSide g = some s) ∧
    (¬ Bdry m P x → (T x.rank).getSide x.cell x.face = some uintMax) := by
  have hE := at_exists hx
  obtain ⟨part, cell, hp, hc⟩ := at_exists hx
  obtain ⟨B, hBnd, hBl, hBn, hBc, hN, -, -, -, hF⟩ := loc_facts H L hp
  obtain ⟨d, hd, h⟩ := hF _ _ hc
  obtain ⟨en, f, e, g', φ, F⟩ := h x.face
  obtain ⟨rfl, rfl⟩ := at_unique H hx F.row.at_
  have hadj : Bdry m P x ↔ en.adjCell = uintMax := by rw [bdry_iff H L hE, F.adjCell, Option.some.injEq]
  refine ⟨fun hb => ?_, fun hb => F.sideN fun h => hb (hadj.2 h)⟩
  obtain ⟨k, h1, h2, h3⟩ := F.sideB (hadj.1 hb)
  have hk := (List.getElem?_eq_some_iff.1 h3).1
  refine ⟨k, h1, by omega, by simp [Mesh.getSideCell, h3], by simp [Mesh.getLGSide, h3], ?_⟩
  -- lookup by global number
  unfold Mesh.getGLSide
  rw [List.idxOf?, List.findIdx?_eq_some_iff_getElem]
  obtain ⟨k1, k2⟩ := List.getElem?_eq_some_iff.1 h3
  refine ⟨by rw [List.length_map]; exact hk, by rw [List.getElem_map, k2]; simp, ?_⟩
  intro j hj
  rw [List.getElem_map]
  simp only [beq_iff_eq]
  intro hjg
  -- entry j
  have hjB : j < B.length := by omega
  have hjm : B[j] ∈ B := List.getElem_mem hjB
  have hlt := hBc B[j].1 B[j].2 hjm
  obtain ⟨d', hd', h'⟩ := hF B[j].1 part.cells[B[j].1] (List.getElem?_eq_getElem hlt)
  obtain ⟨en', f', e', g'', φ', F'⟩ := h' B[j].2
  obtain ⟨k', h1', h2', h3'⟩ := F'.sideB (F'.mem.1 hjm)
  have hkj : k' = j := by
    obtain ⟨a, b⟩ := List.getElem?_eq_some_iff.1 h2'
    exact (List.Nodup.getElem_inj_iff hBnd).1 b
  subst hkj
  have hg : g'' = g := by
    obtain ⟨a, b⟩ := List.getElem?_eq_some_iff.1 h3'
    rw [b] at hjg
    exact hjg
  subst hg
  have hbt := (bd_iff H hp F.row).1 (hadj.1 hb)
  obtain ⟨e1, e2⟩ := bdry_inj H hp F.row F'.row hbt
  have : B[k]? = B[k']? := by rw [h2, h2', ← e1, ← e2]
  have hkB := (List.getElem?_eq_some_iff.1 h2).1
  rw [List.getElem?_eq_getElem hjB, List.getElem?_eq_getElem hkB, Option.some.injEq] at this
  have := (List.Nodup.getElem_inj_iff hBnd).1 this
  omega

/-- C34: every number below `nSides` is the side of exactly one face at the boundary of the part. -/
theorem sides_onto (H : Created m pv n P) (L : Loaded val P T) {r : Nat} (hr : r < P.parts.length) {s : Nat}
    (hs : s < (T r).nSides) :
    ∃ x : Loc, (x.rank = r ∧ Exists P x ∧ Bdry m P x ∧ (T r).getSide x.cell x.face = some s) ∧
      ∀ y : Loc, y.rank = r → Exists P y → Bdry m P y → (T r).getSide y.cell y.face = some s → y = x := by
  have hp : P.parts[r]? = some P.parts[r] := List.getElem?_eq_getElem hr
  obtain ⟨B, hBnd, hBl, hBn, hBc, hN, -, -, -, hF⟩ := loc_facts (x := ⟨r, 0, 0⟩) H L hp
  have hsB : s < B.length := by rw [← hBn]; exact hs
  have key : ∀ y : Loc, y.rank = r → Exists P y → Bdry m P y → (T r).getSide y.cell y.face = some s → B[s]? = some (y.cell, y.face) := by
    rintro ⟨yr, yc, yf⟩ rfl hE hb hside
    obtain ⟨part, cell, hp', hc⟩ := hE
    have : part = P.parts[yr] := by rw [hp, Option.some.injEq] at hp'; exact hp'.symm
    subst this
    obtain ⟨d, hd, h⟩ := hF _ _ hc
    obtain ⟨en, f, e, g, φ, F⟩ := h yf
    have hadj := (bdry_iff H L ⟨_, cell, hp', hc⟩).1 hb
    rw [F.adjCell, Option.some.injEq] at hadj
    obtain ⟨k, h1, h2, -⟩ := F.sideB hadj
    rw [h1, Option.some.injEq] at hside
    rw [← hside]
    exact h2
  have hm : B[s] ∈ B := List.getElem_mem hsB
  have hlt := hBc B[s].1 B[s].2 hm
  have hc := List.getElem?_eq_getElem hlt
  obtain ⟨d, hd, h⟩ := hF _ _ hc
  obtain ⟨en, f, e, g, φ, F⟩ := h B[s].2
  have hadj := F.mem.1 hm
  obtain ⟨k, h1, h2, -⟩ := F.sideB hadj
  have hks : k = s := by
    obtain ⟨a, b⟩ := List.getElem?_eq_some_iff.1 h2
    exact (List.Nodup.getElem_inj_iff hBnd).1 b
  subst hks
  have hE : Exists P ⟨r, B[k].1, B[k].2⟩ := ⟨_, _, hp, hc⟩
  refine ⟨⟨r, B[k].1, B[k].2⟩, ⟨rfl, hE, (bdry_iff H L hE).2 (by rw [F.adjCell, hadj]), h1⟩, ?_⟩
  rintro ⟨yr, yc, yf⟩ hyr h1 h2 h3
  have := key _ hyr h1 h2 h3
  dsimp only at hyr
  rw [List.getElem?_eq_getElem hsB, Option.some.injEq] at this
  rw [this, hyr]

/-- C34: the two ranks at a partition boundary find each other's side through the global number. -/
theorem sides_shared (H : Created m pv n P) (L : Loaded val P T) {x y : Loc} (h : Mates m P x y) (hr : y.rank ≠ x.rank) :
    ∃ s g s', (T x.rank).getSide x.cell x.face = some s ∧ (T x.rank).getLGSide s = some g ∧
      (T y.rank).getGLSide g = some s' ∧ (T y.rank).getSide y.cell y.face = some s' := by
  obtain ⟨c, c', g, h1, h2, h3⟩ := h
  have hm : Mates m P x y := ⟨c, c', g, h1, h2, h3⟩
  have hbx : Bdry m P x := fun z hz => by rw [← mates_unique H hm hz]; exact hr
  have hby : Bdry m P y := fun z hz => by rw [← mates_unique H (mates_symm hm) hz]; exact fun h => hr h.symm
  obtain ⟨s, a1, -, -, a4, -⟩ := (sides H L h1).1 hbx
  obtain ⟨s', b1, -, -, -, b5⟩ := (sides H L h2).1 hby
  exact ⟨s, g, s', a1, a4, b5, b1⟩

/-- C34: cells keep their global number and material. -/
theorem loaded_cells (H : Created m pv n P) (L : Loaded val P T) {r : Nat} {part : Part} (hp : P.parts[r]? = some part) :
    (T r).nCells = part.cells.length ∧
    ∀ i < (T r).nCells, ∃ c d, m.cells[c]? = some d ∧ pv[c]? = some r ∧ (T r).getLGCell i = some c ∧
      (T r).material[i]? = some d.material := by
  obtain ⟨B, -, -, -, -, hN, hG, hM, -, hF⟩ := loc_facts (x := ⟨r, 0, 0⟩) H L hp
  refine ⟨hN, fun i hi => ?_⟩
  have hc : part.cells[i]? = some part.cells[i] := List.getElem?_eq_getElem (by dsimp only at hN; omega)
  obtain ⟨d, hd, hm, -⟩ := (create_connectivity H.create hp).1 _ (mem_of_get hc)
  refine ⟨_, d, hd, (cell_rank H hp hc).2, ?_, ?_⟩
  · unfold Mesh.getLGCell
    dsimp only at hG
    rw [hG, List.getElem?_map, hc]; rfl
  · dsimp only at hM
    rw [hM, List.getElem?_map, hc, Option.map_some, hm]

/-! ### C36: face and vertex numbers -/

/-- C36: face vertex `k` of a face, from whichever cell and rank, is cell vertex `v` with the node the
serial mesh lists at position `k` of the face; it is not the vertex opposite to the face; and the
conversions between face and cell vertices are inverse. -/
theorem face_vertices (H : Created m pv n P) (L : Loaded val P T) {x : Loc} {c g : Nat} (hx : At m P x c g)
    {d : SCell} {e : SFace} (hd : m.cells[c]? = some d) (he : m.faces[g]? = some e) :
    (∀ k, ∃ v, (T x.rank).getFaceToCellVrtx x.cell x.face k = some v ∧ v ≠ x.face ∧ d.nodes v = e.nodes k ∧
      (T x.rank).getCellToFaceVrtx x.cell x.face v = some k) ∧
    ∀ v, v ≠ x.face → ∃ k, (T x.rank).getCellToFaceVrtx x.cell x.face v = some k ∧
      (T x.rank).getFaceToCellVrtx x.cell x.face k = some v := by
  obtain ⟨part, cell, hp, hc⟩ := at_exists hx
  obtain ⟨B, -, -, -, -, hN, -, -, -, h⟩ := loc_facts H L hp
  obtain ⟨d', hd', h⟩ := h _ _ hc
  obtain ⟨en, f, e', g', φ, F⟩ := h x.face
  obtain ⟨rfl, rfl⟩ := at_unique H hx F.row.at_
  rw [hd, Option.some.injEq] at hd'
  subst hd'
  rw [F.row.sface, Option.some.injEq] at he
  subst he
  refine ⟨fun k => ⟨φ k, F.face k, (F.omits _).1 ⟨k, rfl⟩, ((F.row.node _ _).1 (F.nodes k)).symm, (F.cellV _ _).2 rfl⟩, fun v hv => ?_⟩
  obtain ⟨j, rfl⟩ := (F.omits v).2 hv
  exact ⟨j, (F.cellV _ _).2 rfl, F.face j⟩

/-- C36: from the two sides of a face, on one rank or two, the `k`-th face vertex is the same node of
the mesh. -/
theorem face_vertices_match (H : Created m pv n P) (L : Loaded val P T) {x y : Loc} {c c' g : Nat}
    (hx : At m P x c g) (hy : At m P y c' g) (k : Fin 3) :
    ∃ v w d d', (T x.rank).getFaceToCellVrtx x.cell x.face k = some v ∧
      (T y.rank).getFaceToCellVrtx y.cell y.face k = some w ∧ m.cells[c]? = some d ∧ m.cells[c']? = some d' ∧
      d.nodes v = d'.nodes w := by
  obtain ⟨-, -, d, e, -, -, -, hd, -, he, -⟩ := id hx
  obtain ⟨-, -, d', e', -, -, -, hd', -, he', -⟩ := id hy
  rw [he, Option.some.injEq] at he'
  subst he'
  obtain ⟨v, a1, -, a3, -⟩ := (face_vertices H L hx hd he).1 k
  obtain ⟨w, b1, -, b3, -⟩ := (face_vertices H L hy hd' he).1 k
  exact ⟨v, w, d, d', a1, b1, hd, hd', a3.trans b3.symm⟩

/-- The node numbers of a rank are a renumbering of the serial ones. -/
theorem cell_nodes (H : Created m pv n P) (_L : Loaded val P T) {r : Nat} {part : Part} (hp : P.parts[r]? = some part)
    {i i' : Nat} {cell cell' : PCell} (hc : part.cells[i]? = some cell) (hc' : part.cells[i']? = some cell')
    {d d' : SCell} (hd : m.cells[cell.globalID]? = some d) (hd' : m.cells[cell'.globalID]? = some d') (v w : Fin 4) :
    cell.nodes v = cell'.nodes w ↔ d.nodes v = d'.nodes w := by
  obtain ⟨k1, -, -, -, -, k6, -⟩ := create_connectivity H.create hp
  obtain ⟨d1, e1, -, -, n1⟩ := k1 _ (mem_of_get hc)
  obtain ⟨d2, e2, -, -, n2⟩ := k1 _ (mem_of_get hc')
  rw [hd, Option.some.injEq] at e1
  rw [hd', Option.some.injEq] at e2
  subst e1 e2
  obtain ⟨v1, a1, a2⟩ := n1 v
  obtain ⟨v2, b1, b2⟩ := n2 w
  constructor
  · intro h
    rw [h, b1, Option.some.injEq] at a1
    rw [← a2, ← b2, a1]
  · intro h
    exact nodup_get k6 (map_get a1) (by rw [a2, h, ← b2]; exact map_get b1)

/-- C36: inside a part, `getNeighborVrtx` is the vertex of the neighbour that is the same node. -/
theorem neighbor_vertices (H : Created m pv n P) (L : Loaded val P T) {x y : Loc} {c c' g : Nat} (hx : At m P x c g)
    (hy : At m P y c' g) (hne : c ≠ c') (hr : y.rank = x.rank) (k : Fin 3) :
    ∃ w, (T x.rank).getNeighborVrtx x.cell x.face k = some w ∧ (T y.rank).getFaceToCellVrtx y.cell y.face k = some w := by
  obtain ⟨v, w, d, d', a1, a2, a3, a4, a5⟩ := face_vertices_match H L hx hy k
  refine ⟨w, ?_, a2⟩
  obtain ⟨part, cell, hp, hc⟩ := at_exists hx
  obtain ⟨part', cell', hp', hc'⟩ := at_exists hy
  rw [hr, hp, Option.some.injEq] at hp'
  subst hp'
  obtain ⟨part1, cell1, _, _, q1, q2, q3, _⟩ := id hx
  rw [hp, Option.some.injEq] at q1
  subst q1
  rw [hc, Option.some.injEq] at q2
  subst q2
  obtain ⟨part1, cell1, _, _, q1, q2, q4, _⟩ := id hy
  rw [hr, hp, Option.some.injEq] at q1
  subst q1
  rw [hc', Option.some.injEq] at q2
  subst q2
  subst q3 q4
  obtain ⟨B, -, -, -, -, hN, -, -, hCN, -⟩ := loc_facts H L hp
  have hadj := ((adjacency H L (at_exists hx)).1 y ⟨_, _, _, hx, hy, hne⟩ hr).1
  have hnode : cell.nodes v = cell'.nodes w := (cell_nodes H L hp hc hc' a3 a4 v w).2 a5
  unfold Mesh.getNeighborVrtx Mesh.getCellNode Mesh.getCellVrtx
  simp only [hadj, a1, hCN, List.getElem?_map, hc, hc', Option.map_some, Option.bind_eq_bind, Option.bind_some]
  congr 1
  have hinj : Function.Injective cell'.nodes := by
    obtain ⟨_, _, _, _, LC⟩ := local_cell H hp hc'
    exact LC.nodesInj
  have : (List.finRange 4).find? (fun v_1 => decide (cell'.nodes v_1 = cell.nodes v)) = some w := by
    have : (fun v_1 => decide (cell'.nodes v_1 = cell.nodes v)) = fun u => decide (u = w) := by
      funext u
      rw [decide_eq_decide, hnode]
      exact hinj.eq_iff
    rw [this]
    clear * -
    revert w
    decide
  rw [this]
  rfl

/-! ### C35 -/

/-- C35 (violated): `getAdjFace` returns the number of the neighbouring cell, whatever the mesh. -/
theorem getAdjFace_is_cell (H : Created m pv n P) (L : Loaded val P T) {x y : Loc} (h : Mates m P x y) (hr : y.rank = x.rank) :
    (T x.rank).getAdjFace x.cell x.face = some y.cell := by
  obtain ⟨_, _, _, hx, _⟩ := id h
  exact ((adjacency H L (at_exists hx)).1 y h hr).1

/-- C35, what remains true: the array `c_adjFace` holds the face number of the neighbour, between 0
and 3. Missing: the query does not return it. -/
theorem adjFace_partial (H : Created m pv n P) (L : Loaded val P T) {x y : Loc} (h : Mates m P x y) (hr : y.rank = x.rank) :
    (T x.rank).adjFace x.cell x.face = some y.face.val ∧ y.face.val < 4 := by
  obtain ⟨_, _, _, hx, _⟩ := id h
  exact ⟨((adjacency H L (at_exists hx)).1 y h hr).2.2.1, y.face.isLt⟩

end Verif.TychoMesh
