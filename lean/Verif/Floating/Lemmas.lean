import Verif.Floating.Spec

/-!
# Machine sweeps on loaded parts: what the tables hold
-/
set_option linter.unusedSectionVars false
namespace Verif.Floating

open Verif.MeshFile Verif.TychoMesh Verif.Traverse Verif.Floating.Spec

variable {F : Type} {nA nG : Nat} {K : Kernel F nA nG} {coord : Nat → F}
variable {S : Type} [LinearOrder S] {val : Nat → S} {m : SerialMesh} {pv : List Nat} {n : Nat} {P : ParallelMesh} {T : Nat → Mesh}
variable {D : Nat → Tables F}

/-- The set-up of every rank has succeeded. -/
def Started (K : Kernel F nA nG) (coord : Nat → F) (P : ParallelMesh) (T : Nat → Mesh) (D : Nat → Tables F) : Prop :=
  ∀ (r : Nat) (part : Part), P.parts[r]? = some part → K.start coord part (T r) = some (D r)

theorem node_eq (H : Created m pv n P) {r : Nat} {part : Part} (hp : P.parts[r]? = some part) {i : Nat} {cell : PCell}
    (hc : part.cells[i]? = some cell) (v : Fin 4) {d : SCell} (hd : m.cells[cell.globalID]? = some d) {x : Fin 3 → F}
    (hx : nodeCoord coord part (cell.nodes v) = some x) : Position coord m (d.nodes v) x := by
  obtain ⟨k1, -, k3, -⟩ := create_connectivity H.create hp
  obtain ⟨d', hd', -, -, hn⟩ := k1 _ (mem_of_get hc)
  rw [hd, Option.some.injEq] at hd'
  subst hd'
  obtain ⟨w, hw, hg⟩ := hn v
  obtain ⟨nd, h1, h2⟩ := k3 _ (mem_of_get hw)
  unfold nodeCoord at hx
  split at hx
  · rw [hw, Option.map_some, Option.some.injEq] at hx
    exact ⟨nd, by rw [← hg]; exact h1, by rw [← hx, h2]⟩
  · simp at hx

theorem cellNode_eq (H : Created m pv n P) (L : Loaded val P T) {r : Nat} {part : Part} (hp : P.parts[r]? = some part)
    {i : Nat} {cell : PCell} (hc : part.cells[i]? = some cell) (v : Fin 4) :
    (T r).getCellNode i v = some (cell.nodes v) := by
  obtain ⟨B, -, -, -, -, -, -, -, hCN, -⟩ := loc_facts (x := ⟨r, 0, 0⟩) H L hp
  dsimp only at hCN
  unfold Mesh.getCellNode
  rw [hCN, List.getElem?_map, hc]; rfl

theorem cell_at {r i c : Nat} (h : IsCell P r i c) {part : Part} (hp : P.parts[r]? = some part) :
    ∃ cell, part.cells[i]? = some cell ∧ cell.globalID = c := by
  obtain ⟨part', cell, h1, h2, h3⟩ := h
  rw [hp, Option.some.injEq] at h1
  subst h1
  exact ⟨cell, h2, h3⟩

theorem cellCoords_points (H : Created m pv n P) (L : Loaded val P T) {r i c : Nat} (h : IsCell P r i c) {part : Part}
    (hp : P.parts[r]? = some part) {p : Fin 4 → Fin 3 → F} (he : cellCoords coord part (T r) i = some p) :
    CellPoints coord m c p := by
  obtain ⟨cell, hc, rfl⟩ := cell_at h hp
  obtain ⟨d, hd⟩ := cell_get H (isCell_lg H L h).2.2.2
  refine ⟨d, hd, fun v => ?_⟩
  have := complete_iff.1 he v
  rw [cellNode_eq H L hp hc, Option.bind_some] at this
  exact node_eq H hp hc v hd this

theorem faceCoords_points (H : Created m pv n P) (L : Loaded val P T) {r i c : Nat} (h : IsCell P r i c) {part : Part}
    (hp : P.parts[r]? = some part) {f : Fin 4} {q : Fin 3 → Fin 3 → F} (he : faceCoords coord part (T r) i f = some q) :
    FacePoints coord m c f q := by
  obtain ⟨cell, hc, rfl⟩ := cell_at h hp
  obtain ⟨c', g, hat⟩ := exists_at H (x := ⟨r, i, f⟩) ⟨part, cell, hp, hc⟩
  obtain ⟨h1, h2⟩ := at_split.1 hat
  obtain rfl := isCell_fun h h1
  obtain ⟨_, _, d, e, _, _, _, hd, -, hf, -⟩ := id hat
  refine ⟨g, e, h2, hf, fun k => ?_⟩
  obtain ⟨v, a1, -, a3, -⟩ := (face_vertices H L hat hd hf).1 k
  have := complete_iff.1 he k
  dsimp only at a1
  rw [a1, Option.bind_some, cellNode_eq H L hp hc, Option.bind_some] at this
  rw [← a3]
  exact node_eq H hp hc v hd this

theorem position_unique {i : Nat} {x y : Fin 3 → F} (h : Position coord m i x) (h' : Position coord m i y) : x = y := by
  obtain ⟨nd, h1, rfl⟩ := h
  obtain ⟨nd', h1', rfl⟩ := h'
  rw [h1, Option.some.injEq] at h1'
  rw [h1']

theorem cellPoints_unique {c : Nat} {p p' : Fin 4 → Fin 3 → F} (h : CellPoints coord m c p) (h' : CellPoints coord m c p') : p = p' := by
  obtain ⟨d, h1, h2⟩ := h
  obtain ⟨d', h1', h2'⟩ := h'
  rw [h1, Option.some.injEq] at h1'
  subst h1'
  funext v
  exact position_unique (h2 v) (h2' v)

theorem faceOf_unique (H : Tets m) {c : Nat} {f : Fin 4} {g g' : Nat} (h : FaceOf m c f g) (h' : FaceOf m c f g') : g = g' := by
  obtain ⟨d, e, k, h1, h2, h3, h4⟩ := h
  obtain ⟨d', e', k', h1', h2', h3', h4'⟩ := h'
  rw [h1, Option.some.injEq] at h1'
  subst h1'
  obtain ⟨σ, hσ, hs⟩ := H.omits c d h1
  have key : ∀ k e, m.faces[d.faces k]? = some e → (∀ j, e.nodes j ≠ d.nodes f) → f = σ k := by
    intro k e he hn
    by_contra hne
    obtain ⟨j, hj⟩ := (hs k e he f).2 hne
    exact hn j hj
  have := hσ ((key k e (by rw [h2]; exact h3) h4).symm.trans (key k' e' (by rw [h2']; exact h3') h4'))
  rw [← h2, ← h2', this]

theorem facePoints_unique (H : Tets m) {c : Nat} {f : Fin 4} {q q' : Fin 3 → Fin 3 → F} (h : FacePoints coord m c f q)
    (h' : FacePoints coord m c f q') : q = q' := by
  obtain ⟨g, e, h1, h2, h3⟩ := h
  obtain ⟨g', e', h1', h2', h3'⟩ := h'
  obtain rfl := faceOf_unique H h1 h1'
  rw [h2, Option.some.injEq] at h2'
  subst h2'
  funext k
  exact position_unique (h3 k) (h3' k)

theorem dot_unique (H : Tets m) {a c : Nat} {f : Fin 4} {x y : F} (h : Dot K coord m a c f x) (h' : Dot K coord m a c f y) : x = y := by
  obtain ⟨q, p, h1, h2, h3⟩ := h
  obtain ⟨q', p', h1', h2', h3'⟩ := h'
  rw [← facePoints_unique H h1 h1', ← cellPoints_unique h2 h2', h3, Option.some.injEq] at h3'
  exact h3'

theorem sigma_unique {c : Nat} {a b a' b' : F} (h : Sigma K m c a b) (h' : Sigma K m c a' b') : a = a' ∧ b = b' := by
  obtain ⟨d, h1, h2⟩ := h
  obtain ⟨d', h1', h2'⟩ := h'
  rw [h1, Option.some.injEq] at h1'
  subst h1'
  rcases h2 with ⟨e, rfl, rfl⟩ | ⟨e, rfl, rfl⟩ <;> rcases h2' with ⟨e', rfl, rfl⟩ | ⟨e', rfl, rfl⟩ <;>
    first | exact ⟨rfl, rfl⟩ | omega

theorem onFace_unique (H : Tets m) {c : Nat} {f : Fin 4} {k : Fin 3} {v w : Fin 4} (h : OnFace m c f k v) (h' : OnFace m c f k w) :
    v = w := by
  obtain ⟨g, e, d, h1, h2, h3, h4⟩ := h
  obtain ⟨g', e', d', h1', h2', h3', h4'⟩ := h'
  obtain rfl := faceOf_unique H h1 h1'
  rw [h2, Option.some.injEq] at h2'
  rw [h3, Option.some.injEq] at h3'
  subst h2' h3'
  exact H.distinct c d h3 (h4.trans h4'.symm)

/-- The arrays of a rank hold, for a cell, what belongs to the cell of the serial mesh. -/
structure Row (K : Kernel F nA nG) (coord : Nat → F) (m : SerialMesh) (D : Tables F) (i c : Nat) (p : Fin 4 → Fin 3 → F)
    (q : Fin 4 → Fin 3 → Fin 3 → F) (sT sS : F) : Prop where
  points : CellPoints coord m c p
  faces : ∀ f, FacePoints coord m c f (q f)
  volume : D.volume[i]? = some (K.volume p)
  area : D.area[i]? = some fun f => K.area (q f)
  omega : ∀ a < nA, ∀ f, K.omegaDotN a (q f) p = some (K.omega D a i f)
  sigma : Sigma K m c sT sS
  sigmaT : D.sigmaT[i]? = some sT
  sigmaS : D.sigmaS[i]? = some sS
  source : D.source[i]? = some fun v a => K.source a (p v) sT sS

theorem row_of (H : Created m pv n P) (L : Loaded val P T) (hD : Started K coord P T D) {r i c : Nat} (h : IsCell P r i c) :
    ∃ p q sT sS, Row K coord m (D r) i c p q sT sS := by
  obtain ⟨part, cell, hp, hc, rfl⟩ := id h
  have hs := hD r part hp
  obtain ⟨B, -, -, -, -, hN, -, hM, -⟩ := loc_facts (x := ⟨r, 0, 0⟩) H L hp
  dsimp only at hM hN
  have hi : i < (T r).nCells := (isCell_lg H L h).2.2.1
  have hr : (List.range (T r).nCells)[i]? = some i := by simp [hi]
  unfold Kernel.start at hs
  simp only [Option.bind_eq_bind, Option.bind_eq_some_iff] at hs
  obtain ⟨lv, h1, la, h2, ld, h3, ⟨sT, sS⟩, h4, ls, h5, h6⟩ := hs
  rw [Option.some.injEq] at h6
  obtain ⟨x1, y1, z1⟩ := mapM_get h1 hr
  obtain ⟨x2, y2, z2⟩ := mapM_get h2 hr
  obtain ⟨x5, y5, z5⟩ := mapM_get h5 hr
  obtain ⟨p, hp1, rfl⟩ := Option.map_eq_some_iff.1 z1
  rw [hp1, Option.map_some, Option.some.injEq] at z5
  subst z5
  have hq : ∀ f, ∃ q, faceCoords coord part (T r) i f = some q ∧ K.area q = x2 f := by
    intro f
    have := complete_iff.1 z2 f
    obtain ⟨q, a, b⟩ := Option.map_eq_some_iff.1 this
    exact ⟨q, a, b⟩
  choose q hq1 hq2 using hq
  unfold Verif.Problem.createCrossSections at h4
  split at h4
  · simp at h4
  rename_i l hl
  rw [Option.some.injEq, Prod.mk.injEq] at h4
  have hmat : (T r).material[i]? = some cell.material := by rw [hM, List.getElem?_map, hc]; rfl
  obtain ⟨⟨u, w⟩, y6, z6⟩ := mapM_get hl hmat
  have e1 : sT[i]? = some u := by rw [← h4.1, List.getElem?_map, y6]; rfl
  have e2 : sS[i]? = some w := by rw [← h4.2, List.getElem?_map, y6]; rfl
  refine ⟨p, q, u, w, ?_⟩
  rw [← h6]
  refine ⟨cellCoords_points H L h hp hp1, fun f => faceCoords_points H L h hp (hq1 f), y1, ?_, ?_, ?_, e1, e2, ?_⟩
  · dsimp only
    rw [y2, Option.some.injEq]
    funext f
    exact (hq2 f).symm
  · intro a ha f
    have hra : (List.range nA)[a]? = some a := by simp [ha]
    obtain ⟨x3, y3, z3⟩ := mapM_get h3 hra
    obtain ⟨x7, y7, z7⟩ := mapM_get z3 hr
    have := complete_iff.1 z7 f
    rw [hq1, Option.bind_some, hp1, Option.bind_some] at this
    rw [this]
    unfold Kernel.omega
    dsimp only
    rw [y3, Option.bind_some, y7, Option.getD_some]
  · obtain ⟨k1, -⟩ := create_connectivity H.create hp
    obtain ⟨d, hd, hm, -⟩ := k1 _ (mem_of_get hc)
    refine ⟨d, hd, ?_⟩
    rw [← hm]
    unfold Verif.Problem.crossSection at z6
    split at z6
    · rw [Option.some.injEq, Prod.mk.injEq] at z6
      exact Or.inl ⟨by assumption, z6.1.symm, z6.2.symm⟩
    · split at z6
      · rw [Option.some.injEq, Prod.mk.injEq] at z6
        exact Or.inr ⟨by assumption, z6.1.symm, z6.2.symm⟩
      · simp at z6
  · dsimp only
    rw [y5, e1, e2, Option.getD_some, Option.getD_some]

end Verif.Floating
