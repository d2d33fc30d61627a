import Verif.TychoMesh.Lemmas2

/-!
# Loading succeeds, and what is in the tables
-/
namespace Verif.TychoMesh

open Verif.MeshFile

theorem mapM_get {α β : Type} {f : α → Option β} {l : List α} {l' : List β} (h : l.mapM f = some l') {i : Nat} {a : α}
    (ha : l[i]? = some a) : ∃ b, l'[i]? = some b ∧ f a = some b := forall₂_get (mapM_iff.1 h) ha

theorem mapM_length {α β : Type} {f : α → Option β} {l : List α} {l' : List β} (h : l.mapM f = some l') :
    l'.length = l.length := (mapM_iff.1 h).length_eq.symm

theorem bndOf_length (F : PCell → List (Fin 4)) (ds : List (PCell × (Fin 4 → Entry))) (c : Nat)
    (h : ∀ p ∈ ds, (F p.1).length = ((List.finRange 4).filter (bd p.2)).length) :
    ((ds.map Prod.fst).flatMap F).length = (bndOf c ds).length := by
  induction ds generalizing c with
  | nil => rfl
  | cons p ds ih =>
    obtain ⟨d, row⟩ := p
    rw [bndOf, List.map_cons, List.flatMap_cons, List.length_append, List.length_append, List.length_map,
      ih (c + 1) fun p hp => h p (by simp [hp]), h (d, row) (by simp)]

theorem filter_perm {σ : Fin 4 → Fin 4} (hσ : Function.Injective σ) {p q : Fin 4 → Bool} (h : ∀ k, p k = q (σ k)) :
    ((List.finRange 4).filter p).length = ((List.finRange 4).filter q).length := by
  have hs := Finite.surjective_of_injective hσ
  have e : (List.finRange 4).filter q = (List.finRange 4).filter q := rfl
  have perm : List.Perm (((List.finRange 4).filter p).map σ) ((List.finRange 4).filter q) := by
    rw [List.perm_ext_iff_of_nodup (List.Nodup.map hσ ((List.nodup_finRange 4).filter _)) ((List.nodup_finRange 4).filter _)]
    intro a
    simp only [List.mem_map, List.mem_filter, List.mem_finRange, true_and]
    constructor
    · rintro ⟨k, hk, rfl⟩; rw [← h]; exact hk
    · intro ha
      obtain ⟨k, rfl⟩ := hs a
      exact ⟨k, by rw [h]; exact ha, rfl⟩
  rw [← perm.length_eq, List.length_map]

section
variable {m : SerialMesh} {pv : List Nat} {n : Nat} {P : ParallelMesh}

theorem part_le (H : Created m pv n P) {r : Nat} {part : Part} (hp : P.parts[r]? = some part) : part.numCells ≤ m.numCells := by
  obtain ⟨h1, h2⟩ := (create_cells H.create).2 r part hp
  rw [h1, ← List.length_map (f := PCell.globalID), h2]
  exact (List.length_filter_le _ _).trans (by simp)

theorem bd_iff (H : Created m pv n P) {r : Nat} {part : Part} (hp : P.parts[r]? = some part) {i : Nat} {cell : PCell}
    {d : SCell} {l : Fin 4} {en : Entry} {f : PFace} {e : SFace} {g : Nat} (F : RowFact m pv P r i part cell d l en f e g) :
    en.adjCell = uintMax ↔ f.boundaryType ≠ 2 := by
  constructor
  · intro h h2
    obtain ⟨i', l', c', e1, -, -, -, e2⟩ := F.inner h2
    have := part_le H hp
    have := H.tets.fit
    rw [e1] at h
    have : invalid = uintMax := rfl
    omega
  · intro h; exact (F.bdry h).1

/-- What the tables of a loaded part say about face `l` of cell `i`. -/
structure FaceFact (m : SerialMesh) (pv : List Nat) (P : ParallelMesh) (r : Nat) (part : Part) (T : Mesh) (B : List (Nat × Fin 4))
    (i : Nat) (l : Fin 4) (cell : PCell) (d : SCell) (en : Entry) (f : PFace) (e : SFace) (g : Nat) (φ : Fin 3 → Fin 4) : Prop where
  row : RowFact m pv P r i part cell d l en f e g
  adjCell : T.getAdjCell i l = some en.adjCell
  adjFace : T.adjFace i l = some en.adjFace
  adjRank : T.getAdjRank i l = adjProc part r cell en
  face : ∀ fv, T.getFaceToCellVrtx i l fv = some (φ fv)
  cellV : ∀ v j, T.getCellToFaceVrtx i l v = some j ↔ φ j = v
  nodes : ∀ j, f.nodes j = cell.nodes (φ j)
  inj : Function.Injective φ
  omits : ∀ v, (∃ j, φ j = v) ↔ v ≠ l
  sideB : en.adjCell = uintMax → ∃ k, T.getSide i l = some k ∧ B[k]? = some (i, l) ∧ T.sides[k]? = some (i, g)
  sideN : en.adjCell ≠ uintMax → T.getSide i l = some uintMax
  mem : (i, l) ∈ B ↔ en.adjCell = uintMax

theorem load_facts {R : Type} [LinearOrder R] (val : Nat → R) (H : Created m pv n P) {r : Nat} {part : Part}
    (hp : P.parts[r]? = some part) :
    ∃ T B, load val part r = some T ∧ T.nCells = part.cells.length ∧ T.nSides = T.sides.length ∧ T.lGCells = part.cells.map PCell.globalID ∧
      T.material = part.cells.map PCell.material ∧ T.cellNodes = part.cells.map PCell.nodes ∧
      B.Nodup ∧ T.sides.length = B.length ∧ (∀ i l, (i, l) ∈ B → i < part.cells.length) ∧
      ∀ i cell, part.cells[i]? = some cell → ∃ d, m.cells[cell.globalID]? = some d ∧
        ∀ l, ∃ en f e g φ, FaceFact m pv P r part T B i l cell d en f e g φ := by
  obtain ⟨k1, k2, k3, k4, k5, k6, kc, -, -⟩ := create_connectivity H.create hp
  have hcells : firstN part.numCells part.cells = some part.cells := by rw [kc, firstN_length]
  -- rows
  obtain ⟨rows, hrows⟩ : ∃ rows, (part.cells.zipIdx).mapM (fun (d, cell) => cellRow part cell d) = some rows := by
    apply mapM_exists
    rintro ⟨cell, i⟩ hm
    obtain ⟨row, d, σ, f, e, L, h1, -⟩ := row_facts H hp (List.mem_zipIdx_iff_getElem?.1 hm)
    exact ⟨row, h1⟩
  have hrlen : rows.length = part.cells.length := by rw [mapM_length hrows, List.length_zipIdx]
  have hrow : ∀ (i : Nat) (cell : PCell), part.cells[i]? = some cell → ∃ row d σ f e, rows[i]? = some row ∧ LocalCell m part cell d σ f e ∧
      (∀ fi, (row (σ fi)).handle = fi) ∧
      ∀ fi, RowFact m pv P r i part cell d (σ fi) (row (σ fi)) (f fi) (e fi) (d.faces fi) := by
    intro i cell hc
    obtain ⟨row, d, σ, f, e, L, h1, h2, h3⟩ := row_facts H hp hc
    have hz : part.cells.zipIdx[i]? = some (cell, i) := by rw [List.getElem?_zipIdx, hc]; simp
    obtain ⟨row', h4, h5⟩ := mapM_get hrows hz
    dsimp only at h5
    rw [h1, Option.some.injEq] at h5
    subst h5
    exact ⟨row, d, σ, f, e, h4, L, h2, h3⟩
  have hzip : ∀ (i : Nat) (p : PCell × (Fin 4 → Entry)), (part.cells.zip rows)[i]? = some p → part.cells[i]? = some p.1 ∧ rows[i]? = some p.2 := by
    intro i p h
    exact List.getElem?_zip_eq_some.1 h
  have hzip' : ∀ (i : Nat) (cell : PCell) (row : Fin 4 → Entry), part.cells[i]? = some cell → rows[i]? = some row → (part.cells.zip rows)[i]? = some (cell, row) := by
    intro i cell row h1 h2
    exact List.getElem?_zip_eq_some.2 ⟨h1, h2⟩
  -- global numbers of faces
  have hG : ∃ G : Nat → Fin 4 → Nat, ∀ (i : Nat) (p : PCell × (Fin 4 → Entry)), (part.cells.zip rows)[i]? = some p → ∀ l,
      ∃ f, part.faces[p.1.faces (p.2 l).handle]? = some f ∧ f.globalID = G i l := by
    have : ∀ (i : Nat) (l : Fin 4), ∃ g : Nat, ∀ (p : PCell × (Fin 4 → Entry)), (part.cells.zip rows)[i]? = some p →
        ∃ f, part.faces[p.1.faces (p.2 l).handle]? = some f ∧ f.globalID = g := by
      intro i l
      cases hz : (part.cells.zip rows)[i]? with
      | none => exact ⟨0, by simp⟩
      | some p =>
        obtain ⟨h1, h2⟩ := hzip i p hz
        obtain ⟨row, d, σ, f, e, h3, L, h4, h5⟩ := hrow i p.1 h1
        rw [h2, Option.some.injEq] at h3
        obtain ⟨fi, rfl⟩ := L.surj l
        refine ⟨d.faces fi, fun p' hp' => ?_⟩
        rw [Option.some.injEq] at hp'
        subst hp'
        exact ⟨f fi, by rw [h3]; exact (h5 fi).face, (h5 fi).gid⟩
    choose G hG using this
    exact ⟨G, fun i p hz l => hG i l p hz⟩
  obtain ⟨G, hG⟩ := hG
  obtain ⟨sideRows, hs1, hs2, hs3⟩ := sideLoop_spec part G 0 (part.cells.zip rows) (by simpa using hG) []
  set B := bndOf 0 (part.cells.zip rows) with hB
  rw [List.nil_append] at hs1
  have hcount : countSides part = B.length := by
    unfold countSides
    rw [kc, List.take_length]
    have := bndOf_length (fun d => (List.finRange 4).filter fun fi =>
      match part.faces[d.faces fi]? with
      | some f => f.boundaryType ≠ notBoundary
      | none => false) (part.cells.zip rows) 0 (by
        intro p hpm
        obtain ⟨i, hi⟩ := List.mem_iff_getElem?.1 hpm
        obtain ⟨h1, h2⟩ := hzip i p hi
        obtain ⟨row, d, σ, f, e, h3, L, h4, h5⟩ := hrow i p.1 h1
        rw [h2, Option.some.injEq] at h3
        refine filter_perm L.inj fun k => ?_
        rw [L.face k]
        have := bd_iff H hp (h5 k)
        rw [h3]
        simp only [bd]
        rw [decide_eq_decide, this]
        exact Iff.rfl)
    rw [List.map_fst_zip (by omega)] at this
    exact this
  -- ranks
  obtain ⟨procs, hprocs⟩ : ∃ procs, (part.cells.zip rows).mapM (fun (d, row) => allFaces fun l => adjProc part r d (row l)) = some procs := by
    apply mapM_exists
    rintro ⟨cell, row⟩ hm
    obtain ⟨i, hi⟩ := List.mem_iff_getElem?.1 hm
    obtain ⟨h1, h2⟩ := hzip i _ hi
    obtain ⟨row', d, σ, f, e, h3, L, h4, h5⟩ := hrow i _ h1
    rw [h2, Option.some.injEq] at h3
    dsimp only at h3
    subst h3
    have : ∀ l, ∃ q, adjProc part r cell (row l) = some q := by
      intro l
      obtain ⟨fi, rfl⟩ := L.surj l
      rcases proc_facts H hp (h5 fi) with ⟨y, c', -, -, h, -⟩ | ⟨-, h, -⟩ <;> exact ⟨_, h⟩
    choose q hq using this
    exact ⟨q, complete_iff.2 hq⟩
  -- vertices
  have hv : ∀ (i : Nat) (cell : PCell) (row : Fin 4 → Entry), part.cells[i]? = some cell → rows[i]? = some row → ∃ (t : Fin 4 → Row (Fin 4) 3 × Row (Fin 3) 4) (φ : Fin 4 → Fin 3 → Fin 4),
      (∀ l, faceVrtx val part cell (row l) = some (t l)) ∧ (∀ l, checkVrtx l (t l) = some (φ l)) ∧
      (∀ l v j, (t l).2 v = some j ↔ φ l j = v) ∧ (∀ l, Function.Injective (φ l)) ∧ (∀ l v, (∃ j, φ l j = v) ↔ v ≠ l) ∧
      ∀ l f, part.faces[cell.faces (row l).handle]? = some f → ∀ j, f.nodes j = cell.nodes (φ l j) := by
    intro i cell row h1 h2
    obtain ⟨row', d, σ, f, e, h3, L, h4, h5⟩ := hrow i _ h1
    rw [h2, Option.some.injEq] at h3
    subst h3
    have : ∀ l, ∃ (t : Row (Fin 4) 3 × Row (Fin 3) 4) (φ : Fin 3 → Fin 4), faceVrtx val part cell (row l) = some t ∧
        checkVrtx l t = some φ ∧ (∀ v j, t.2 v = some j ↔ φ j = v) ∧ Function.Injective φ ∧ (∀ v, (∃ j, φ j = v) ↔ v ≠ l) ∧
        ∀ f, part.faces[cell.faces (row l).handle]? = some f → ∀ j, f.nodes j = cell.nodes (φ j) := by
      intro l
      obtain ⟨fi, rfl⟩ := L.surj l
      have F := h5 fi
      obtain ⟨df, -, hn⟩ := k2 _ (mem_of_get F.face)
      obtain ⟨n0, hn0, -⟩ := hn 0
      obtain ⟨n1, hn1, -⟩ := hn 1
      obtain ⟨n2, hn2, -⟩ := hn 2
      obtain ⟨o, ho, hos⟩ := order3_some (fun k => val (n0.coords k)) (fun k => val (n1.coords k)) fun k => val (n2.coords k)
      obtain ⟨φ, a1, a2, a3, a4, a5⟩ := faceVrtxLoop_spec L.nodesInj F.left F.cover hos
      refine ⟨faceVrtxLoop (f fi).nodes cell.nodes o, φ, ?_, checkVrtx_spec a3 a4 a5, a5, a2, a3, ?_⟩
      · unfold faceVrtx
        simp only [F.face, hn0, hn1, hn2, ho, Option.bind_eq_bind, Option.bind_some]
      · intro f' hf'
        rw [F.face, Option.some.injEq] at hf'
        subst hf'
        exact a1
    choose t φ b1 b2 b3 b4 b5 b6 using this
    exact ⟨t, φ, b1, b2, b3, b4, b5, b6⟩
  obtain ⟨vrtx, hvrtx⟩ : ∃ vrtx, (part.cells.zip rows).mapM (fun (d, row) => allFaces fun l => faceVrtx val part d (row l)) = some vrtx := by
    apply mapM_exists
    rintro ⟨cell, row⟩ hm
    obtain ⟨i, hi⟩ := List.mem_iff_getElem?.1 hm
    obtain ⟨h1, h2⟩ := hzip i _ hi
    obtain ⟨t, φ, h3, -⟩ := hv i cell row h1 h2
    exact ⟨t, complete_iff.2 h3⟩
  have hvlen : vrtx.length = part.cells.length := by rw [mapM_length hvrtx, List.length_zip]; omega
  obtain ⟨ftc, hftc⟩ : ∃ ftc, vrtx.mapM (fun t => allFaces fun l => checkVrtx l (t l)) = some ftc := by
    apply mapM_exists
    intro t hm
    obtain ⟨i, hi⟩ := List.mem_iff_getElem?.1 hm
    have hilt : i < part.cells.length := by rw [← hvlen]; exact (List.getElem?_eq_some_iff.1 hi).1
    have h1 : part.cells[i]? = some part.cells[i] := List.getElem?_eq_getElem hilt
    have h2 : rows[i]? = some rows[i] := List.getElem?_eq_getElem (by omega)
    obtain ⟨t', φ, h3, h4, -⟩ := hv i _ _ h1 h2
    obtain ⟨t'', h5, h6⟩ := mapM_get hvrtx (hzip' i _ _ h1 h2)
    rw [hi, Option.some.injEq] at h5
    subst h5
    have : t = t' := by
      have h7 := complete_iff.1 h6
      funext l
      have := (h7 l).symm.trans (h3 l)
      rwa [Option.some.injEq] at this
    subst this
    exact ⟨φ, complete_iff.2 h4⟩
  set S := B.map (fun x => (x.1, G x.1 x.2)) with hS
  have hSlen : S.length = B.length := by rw [hS, List.length_map]
  refine ⟨⟨part.numCells, countSides part, part.cells.map PCell.globalID, part.cells.map PCell.material, part.cells.map PCell.nodes, rows,
      S, sideRows, procs, ftc, vrtx.map fun t l => (t l).2⟩, B, ?_, kc, ?_, rfl, rfl, rfl, nodup_bndOf _ _, hSlen, ?_, ?_⟩
  · unfold load
    simp only [Option.bind_eq_bind, hcells, Option.bind_some, hrows, hs1, hprocs, hvrtx, hftc]
    rw [if_pos (by rw [hcount, hSlen])]
  · exact hcount.trans hSlen.symm
  · intro i l hm
    obtain ⟨k, p, h1, h2, -⟩ := mem_bndOf.1 hm
    have := (List.getElem?_eq_some_iff.1 (hzip k p h1).1).1
    dsimp only at h2
    omega
  · intro i cell hc
    obtain ⟨row, d, σ, f, e, h1, L, h2, h3⟩ := hrow i cell hc
    refine ⟨d, L.serial, fun l => ?_⟩
    obtain ⟨fi, rfl⟩ := L.surj l
    have F := h3 fi
    obtain ⟨t, φ, b1, b2, b3, b4, b5, b6⟩ := hv i cell row hc h1
    have hz := hzip' i _ _ hc h1
    obtain ⟨q, c1, c2⟩ := mapM_get hprocs hz
    obtain ⟨t', c3, c4⟩ := mapM_get hvrtx hz
    have ht : t' = t := by
      have h7 := complete_iff.1 c4
      funext l
      have := (h7 l).symm.trans (b1 l)
      rwa [Option.some.injEq] at this
    subst ht
    obtain ⟨φ', c5, c6⟩ := mapM_get hftc c3
    have hφ : φ' = φ := by
      have h7 := complete_iff.1 c6
      funext l
      have := (h7 l).symm.trans (b2 l)
      rwa [Option.some.injEq] at this
    subst hφ
    have hs := hs3 i (cell, row) hz
    have hmem : (i, σ fi) ∈ B ↔ (row (σ fi)).adjCell = uintMax := by
      rw [mem_bndOf]
      constructor
      · rintro ⟨k, p, e1, e2, e3⟩
        simp only [Nat.zero_add] at e2
        subst e2
        rw [hz, Option.some.injEq] at e1
        subst e1
        simpa [bd] using e3
      · intro h
        exact ⟨i, _, hz, by simp, by simpa [bd] using h⟩
    refine ⟨row (σ fi), f fi, e fi, d.faces fi, φ' (σ fi), F, ?_, ?_, ?_, ?_, ?_, ?_, b4 _, b5 _, ?_, ?_, hmem⟩
    · simp [Mesh.getAdjCell, h1]
    · simp [Mesh.adjFace, h1]
    · have := complete_iff.1 c2 (σ fi)
      simp [Mesh.getAdjRank, c1, this]
    · intro fv
      simp [Mesh.getFaceToCellVrtx, c5]
    · intro v j
      simp only [Mesh.getCellToFaceVrtx, List.getElem?_map, c3, Option.map_some, Option.bind_some]
      exact b3 _ _ _
    · exact b6 _ _ F.face
    · intro h
      have hm := hmem.2 h
      have hb : bd row (σ fi) = true := by simpa [bd] using h
      have hlt := List.idxOf_lt_length_of_mem hm
      have hget : B[B.idxOf (i, σ fi)]? = some (i, σ fi) := by
        rw [List.getElem?_eq_getElem hlt, List.getElem_idxOf hlt]
      refine ⟨B.idxOf (i, σ fi), ?_, hget, ?_⟩
      · simp [Mesh.getSide, hs, hb]
      · simp only [hS, List.getElem?_map, hget, Option.map_some, Option.some.injEq, Prod.mk.injEq, true_and]
        obtain ⟨f', e1, e2⟩ := hG i _ hz (σ fi)
        dsimp only at e1
        rw [F.face, Option.some.injEq] at e1
        subst e1
        rw [← e2, F.gid]
    · intro h
      have hb : ¬ bd row (σ fi) = true := by simpa [bd] using h
      simp [Mesh.getSide, hs, hb]

end
end Verif.TychoMesh
