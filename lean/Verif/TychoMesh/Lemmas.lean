import Verif.TychoMesh.Spec
import Mathlib.Data.Fintype.EquivFin

/-!
# Locations and rows
-/
namespace Verif.TychoMesh

open Verif.MeshFile

theorem lfaceIndex_eq {cn : Fin 4 → Nat} {fn : Fin 3 → Nat} {v : Fin 4} (h : ∀ k, (∃ j, fn j = cn k) ↔ k ≠ v) :
    lfaceIndex cn fn = some v := by
  unfold lfaceIndex
  have : (fun c : Fin 4 => decide (cn c ≠ fn 0 ∧ cn c ≠ fn 1 ∧ cn c ≠ fn 2)) = fun c => decide (c = v) := by
    funext c
    apply decide_eq_decide.2
    have hc := h c
    rw [Fin.exists_fin_succ, Fin.exists_fin_succ, Fin.exists_fin_succ] at hc
    simp only [IsEmpty.exists_iff, or_false] at hc
    constructor
    · rintro ⟨a, b, d⟩
      by_contra hv
      rcases hc.2 hv with e | e | e
      · exact a e.symm
      · exact b e.symm
      · exact d e.symm
    · rintro rfl
      have := mt hc.1 (by simp)
      push Not at this
      exact ⟨fun e => this.1 e.symm, fun e => this.2.1 e.symm, fun e => this.2.2 e.symm⟩
  rw [this]
  clear this h
  revert v
  decide

theorem complete_iff {α : Type} {n : Nat} {row : Row α n} {r : Fin n → α} :
    complete row = some r ↔ ∀ k, row k = some (r k) := by
  unfold complete
  constructor
  · intro h
    split at h
    · simp only [Option.some.injEq] at h
      subst h
      intro k; simp
    · simp at h
  · intro h
    rw [dif_pos fun k => by rw [h k]; rfl]
    congr 1
    funext k
    simp [h k]

section
variable {m : SerialMesh} {pv : List Nat} {n : Nat} {P : ParallelMesh}

theorem nodup_get {l : List Nat} (h : l.Pairwise (· < ·)) {i j x : Nat} (hi : l[i]? = some x) (hj : l[j]? = some x) :
    i = j := by
  have hnd : l.Nodup := h.imp fun hab => Nat.ne_of_lt hab
  obtain ⟨i1, i2⟩ := List.getElem?_eq_some_iff.1 hi
  obtain ⟨j1, j2⟩ := List.getElem?_eq_some_iff.1 hj
  exact (List.Nodup.getElem_inj_iff hnd).1 (i2.trans j2.symm)

theorem map_get {α : Type} {l : List α} {f : α → Nat} {i : Nat} {a : α} (h : l[i]? = some a) :
    (l.map f)[i]? = some (f a) := by rw [List.getElem?_map, h]; rfl

/-- A cell of a part with its serial cell `d`, the vertices `σ` left out by its faces, and its faces. -/
structure LocalCell (m : SerialMesh) (part : Part) (cell : PCell) (d : SCell) (σ : Fin 4 → Fin 4)
    (f : Fin 4 → PFace) (e : Fin 4 → SFace) : Prop where
  serial : m.cells[cell.globalID]? = some d
  inj : Function.Injective σ
  nodesInj : Function.Injective cell.nodes
  face : ∀ fi, part.faces[cell.faces fi]? = some (f fi)
  gid : ∀ fi, (f fi).globalID = d.faces fi
  sface : ∀ fi, m.faces[d.faces fi]? = some (e fi)
  node : ∀ fi j k, (f fi).nodes j = cell.nodes k ↔ (e fi).nodes j = d.nodes k
  left : ∀ fi k, (∃ j, (f fi).nodes j = cell.nodes k) ↔ k ≠ σ fi
  cover : ∀ fi j, ∃ k, (f fi).nodes j = cell.nodes k
  somit : ∀ fi k, (∃ j, (e fi).nodes j = d.nodes k) ↔ k ≠ σ fi
  lists : ∀ fi, ∃ j, (e fi).cells j = cell.globalID

theorem local_cell (H : Created m pv n P) {r : Nat} {part : Part} (hp : P.parts[r]? = some part) {i : Nat} {cell : PCell}
    (hc : part.cells[i]? = some cell) : ∃ d σ f e, LocalCell m part cell d σ f e := by
  obtain ⟨k1, k2, k3, k4, k5, k6, -, -, -⟩ := create_connectivity H.create hp
  obtain ⟨d, hd, -, hf, hn⟩ := k1 cell (mem_of_get hc)
  obtain ⟨σ, σi, hσ⟩ := H.tets.omits _ d hd
  choose f hf hfg using hf
  have hse : ∀ fi, ∃ e, m.faces[d.faces fi]? = some e := fun fi =>
    ⟨_, List.getElem?_eq_getElem (by rw [← H.tets.faces]; exact H.tets.cellFace _ d hd fi)⟩
  choose e he using hse
  have hnode : ∀ fi j k, (f fi).nodes j = cell.nodes k ↔ (e fi).nodes j = d.nodes k := by
    intro fi j k
    obtain ⟨e', he', hv⟩ := k2 (f fi) (mem_of_get (hf fi))
    rw [hfg, he fi, Option.some.injEq] at he'
    subst he'
    obtain ⟨v, hv1, hv2⟩ := hv j
    obtain ⟨w, hw1, hw2⟩ := hn k
    constructor
    · intro h
      rw [h, hw1, Option.some.injEq] at hv1
      subst hv1
      rw [← hv2, hw2]
    · intro h
      rw [h, ← hw2] at hv2
      exact nodup_get k6 (map_get hv1) (by rw [hv2]; exact map_get hw1)
  refine ⟨d, σ, f, e, hd, σi, ?_, hf, hfg, he, hnode, ?_, ?_, fun fi => hσ fi (e fi) (he fi), ?_⟩
  · intro a b hab
    obtain ⟨v, hv1, hv2⟩ := hn a
    obtain ⟨w, hw1, hw2⟩ := hn b
    rw [hab, hw1, Option.some.injEq] at hv1
    subst hv1
    exact H.tets.distinct _ d hd (hv2.symm.trans hw2)
  · intro fi k
    rw [← hσ fi (e fi) (he fi)]
    simp only [hnode]
  · intro fi j
    obtain ⟨k, hk⟩ := H.tets.faceNode _ d fi (e fi) hd (he fi) j
    exact ⟨k, (hnode fi j k).2 hk⟩
  · intro fi
    exact H.tets.lists _ d fi (e fi) hd (he fi)

theorem LocalCell.surj {part : Part} {cell : PCell} {d : SCell} {σ : Fin 4 → Fin 4} {f : Fin 4 → PFace} {e : Fin 4 → SFace}
    (L : LocalCell m part cell d σ f e) : Function.Surjective σ := Finite.surjective_of_injective L.inj

theorem LocalCell.at_iff {part : Part} {cell : PCell} {d : SCell} {σ : Fin 4 → Fin 4} {f : Fin 4 → PFace} {e : Fin 4 → SFace}
    (L : LocalCell m part cell d σ f e) {r i : Nat} (hp : P.parts[r]? = some part) (hc : part.cells[i]? = some cell) {l : Fin 4} {c g : Nat} :
    At m P ⟨r, i, l⟩ c g ↔ c = cell.globalID ∧ ∃ fi, d.faces fi = g ∧ σ fi = l := by
  constructor
  · rintro ⟨part', cell', d', e', h1, h2, rfl, h4, ⟨k, rfl⟩, h6, h7⟩
    rw [hp, Option.some.injEq] at h1
    subst h1
    rw [hc, Option.some.injEq] at h2
    subst h2
    rw [L.serial, Option.some.injEq] at h4
    subst h4
    rw [L.sface, Option.some.injEq] at h6
    subst h6
    refine ⟨rfl, k, rfl, ?_⟩
    by_contra hne
    obtain ⟨j, hj⟩ := (L.somit k l).2 fun h => hne h.symm
    exact h7 j hj
  · rintro ⟨rfl, fi, rfl, rfl⟩
    refine ⟨part, cell, d, e fi, hp, hc, rfl, L.serial, ⟨fi, rfl⟩, L.sface fi, fun j hj => ?_⟩
    exact (L.somit fi (σ fi)).1 ⟨j, hj⟩ rfl

theorem at_exists {x : Loc} {c g : Nat} (h : At m P x c g) : Exists P x := by
  obtain ⟨part, cell, d, e, h1, h2, -⟩ := h
  exact ⟨part, cell, h1, h2⟩

theorem exists_at (H : Created m pv n P) {x : Loc} (h : Exists P x) : ∃ c g, At m P x c g := by
  obtain ⟨part, cell, hp, hc⟩ := h
  obtain ⟨d, σ, f, e, L⟩ := local_cell H hp hc
  obtain ⟨fi, hfi⟩ := L.surj x.face
  exact ⟨_, _, (L.at_iff hp hc).2 ⟨rfl, fi, rfl, hfi⟩⟩

theorem at_unique (H : Created m pv n P) {x : Loc} {c g c' g' : Nat} (h : At m P x c g) (h' : At m P x c' g') :
    c = c' ∧ g = g' := by
  obtain ⟨part, cell, hp, hc⟩ := at_exists h
  obtain ⟨d, σ, f, e, L⟩ := local_cell H hp hc
  obtain ⟨rfl, fi, rfl, e1⟩ := (L.at_iff hp hc).1 h
  obtain ⟨rfl, fi', rfl, e2⟩ := (L.at_iff hp hc).1 h'
  rw [L.inj (e1.trans e2.symm)]
  exact ⟨rfl, rfl⟩

theorem cell_rank (H : Created m pv n P) {r i : Nat} {part : Part} {cell : PCell} (hp : P.parts[r]? = some part)
    (hc : part.cells[i]? = some cell) : cell.globalID < m.numCells ∧ pv[cell.globalID]? = some r := by
  have := ((create_cells H.create).2 r part hp).2
  have hm : cell.globalID ∈ part.cells.map PCell.globalID := List.mem_map.2 ⟨cell, mem_of_get hc, rfl⟩
  rw [this] at hm
  simpa using hm

theorem cell_inj (H : Created m pv n P) {r r' i i' : Nat} {part part' : Part} {cell cell' : PCell} (hp : P.parts[r]? = some part)
    (hc : part.cells[i]? = some cell) (hp' : P.parts[r']? = some part') (hc' : part'.cells[i']? = some cell')
    (hg : cell.globalID = cell'.globalID) : r = r' ∧ i = i' := by
  have h1 := (cell_rank H hp hc).2
  have h2 := (cell_rank H hp' hc').2
  rw [hg, h2, Option.some.injEq] at h1
  subst h1
  rw [hp', Option.some.injEq] at hp
  subst hp
  exact ⟨rfl, nodup_get (create_connectivity H.create hp').2.2.2.1 (map_get hc) (by rw [hg]; exact map_get hc')⟩

theorem at_inj (H : Created m pv n P) {x y : Loc} {c g : Nat} (h : At m P x c g) (h' : At m P y c g) : x = y := by
  obtain ⟨part, cell, hp, hc⟩ := at_exists h
  obtain ⟨part', cell', hp', hc'⟩ := at_exists h'
  obtain ⟨d, σ, f, e, L⟩ := local_cell H hp hc
  obtain ⟨d', σ', f', e', L'⟩ := local_cell H hp' hc'
  obtain ⟨g1, fi, e1, e2⟩ := (L.at_iff hp hc).1 h
  obtain ⟨g2, fi', e3, e4⟩ := (L'.at_iff hp' hc').1 h'
  obtain ⟨hr, hi⟩ := cell_inj H hp hc hp' hc' (g1.symm.trans g2)
  obtain ⟨xr, xc, xf⟩ := x
  obtain ⟨yr, yc, yf⟩ := y
  dsimp only at hr hi
  subst hr hi
  have : At m P ⟨xr, xc, yf⟩ cell.globalID g := by rw [← g1]; exact h'
  obtain ⟨-, fi2, e5, e6⟩ := (L.at_iff hp hc).1 this
  have he : e fi = e fi2 := by
    have a := L.sface fi
    have b := L.sface fi2
    rw [e1] at a
    rw [e5, a, Option.some.injEq] at b
    exact b
  by_cases hff : fi = fi2
  · subst hff
    have : xf = yf := e2.symm.trans e6
    rw [this]
  · exfalso
    have hne : σ fi ≠ σ fi2 := fun h => hff (L.inj h)
    obtain ⟨j, hj⟩ := (L.somit fi2 (σ fi)).2 hne
    exact (L.somit fi (σ fi)).1 ⟨j, by rw [he]; exact hj⟩ rfl

theorem at_lists (H : Created m pv n P) {x : Loc} {c g : Nat} (h : At m P x c g) :
    ∃ e, m.faces[g]? = some e ∧ ∃ j, e.cells j = c := by
  obtain ⟨part, cell, hp, hc⟩ := at_exists h
  obtain ⟨d, σ, f, e, L⟩ := local_cell H hp hc
  obtain ⟨rfl, fi, rfl, e2⟩ := (L.at_iff hp hc).1 h
  exact ⟨e fi, L.sface fi, L.lists fi⟩

theorem at_rank (H : Created m pv n P) {x : Loc} {c g : Nat} (h : At m P x c g) :
    x.rank < n ∧ c < m.numCells ∧ pv[c]? = some x.rank := by
  obtain ⟨part, cell, hp, hc⟩ := at_exists h
  obtain ⟨d, σ, f, e, L⟩ := local_cell H hp hc
  obtain ⟨rfl, fi, rfl, e2⟩ := (L.at_iff hp hc).1 h
  obtain ⟨-, -, -, -, -, -, -, h8⟩ := create_parts H.create
  exact ⟨(h8 _ _ hp).1, cell_rank H hp hc⟩

/-- Every cell named by a face has a location on it. -/
theorem at_of_cell (H : Created m pv n P) {g : Nat} {e : SFace} (he : m.faces[g]? = some e) {j : Fin 2}
    (hj : e.cells j ≠ invalid) : ∃ y, At m P y (e.cells j) g := by
  have hlt := (H.tets.faceCell e (mem_of_get he) j).resolve_left hj
  obtain ⟨h1, h2, h3, h4, h5, h6, h7, h8⟩ := create_parts H.create
  have hq : pv[e.cells j]? = some pv[e.cells j] := List.getElem?_eq_getElem (by omega)
  have hqn := h3 _ (mem_of_get hq)
  have hp : P.parts[pv[e.cells j]]? = some P.parts[pv[e.cells j]] := List.getElem?_eq_getElem (by omega)
  have hm : e.cells j ∈ P.parts[pv[e.cells j]].cells.map PCell.globalID := by
    rw [((create_cells H.create).2 _ _ hp).2]
    simp [hlt, hq]
  obtain ⟨cell, hcm, hcg⟩ := List.mem_map.1 hm
  obtain ⟨i, hi⟩ := List.mem_iff_getElem?.1 hcm
  obtain ⟨d, σ, f, e', L⟩ := local_cell H hp hi
  obtain ⟨k, hk⟩ := H.tets.back g e he j d (by rw [← hcg]; exact L.serial)
  exact ⟨⟨_, i, σ k⟩, (L.at_iff hp hi).2 ⟨hcg.symm, k, hk, rfl⟩⟩

/-! ### Rows -/

theorem setRow_fold {α : Type} (σ : Fin 4 → Fin 4) (hσ : Function.Injective σ) (E : Fin 4 → α) :
    ∃ row, complete (setRow (setRow (setRow (setRow (fun _ => none) (σ 0) (E 0)) (σ 1) (E 1)) (σ 2) (E 2)) (σ 3) (E 3)) = some row ∧
      ∀ k, row (σ k) = E k := by
  have hs := Finite.surjective_of_injective hσ
  have key : ∀ k, setRow (setRow (setRow (setRow (fun _ => none) (σ 0) (E 0)) (σ 1) (E 1)) (σ 2) (E 2)) (σ 3) (E 3) (σ k) = some (E k) := by
    intro k
    unfold setRow
    simp only [hσ.eq_iff]
    fin_cases k <;> rfl
  refine ⟨fun l => E (Classical.choose (hs l)), complete_iff.2 fun l => ?_, fun k => ?_⟩
  · obtain hk := Classical.choose_spec (hs l)
    conv_lhs => rw [← hk]
    exact key _
  · show E (Classical.choose (hs (σ k))) = E k
    rw [hσ (Classical.choose_spec (hs (σ k)))]

/-- What the row of a cell says about a face. -/
structure RowFact (m : SerialMesh) (pv : List Nat) (P : ParallelMesh) (r i : Nat) (part : Part) (cell : PCell) (d : SCell) (l : Fin 4) (en : Entry)
    (f : PFace) (e : SFace) (g : Nat) : Prop where
  at_ : At m P ⟨r, i, l⟩ cell.globalID g
  face : part.faces[cell.faces en.handle]? = some f
  gid : f.globalID = g
  sface : m.faces[g]? = some e
  node : ∀ j k, f.nodes j = cell.nodes k ↔ e.nodes j = d.nodes k
  left : ∀ k, (∃ j, f.nodes j = cell.nodes k) ↔ k ≠ l
  cover : ∀ j, ∃ k, f.nodes j = cell.nodes k
  bdry : f.boundaryType ≠ 2 → en.adjCell = uintMax ∧ en.adjFace = uintMax
  inner : f.boundaryType = 2 → ∃ (i' : Nat) (l' : Fin 4) (c' : Nat), en.adjCell = i' ∧ en.adjFace = l' ∧ At m P ⟨r, i', l'⟩ c' g ∧
    c' ≠ cell.globalID ∧ i' < part.numCells

theorem part_faces_inj (H : Created m pv n P) {r : Nat} {part : Part} (hp : P.parts[r]? = some part) {f f' : PFace}
    (h : f ∈ part.faces) (h' : f' ∈ part.faces) (hg : f.globalID = f'.globalID) : f = f' := by
  obtain ⟨i, hi⟩ := List.mem_iff_getElem?.1 h
  obtain ⟨j, hj⟩ := List.mem_iff_getElem?.1 h'
  have := nodup_get (create_connectivity H.create hp).2.2.2.2.1 (map_get hi) (by rw [hg]; exact map_get hj)
  subst this
  rw [hi, Option.some.injEq] at hj
  exact hj

/-- A face inside a part: the other cell. -/
theorem inner_face (H : Created m pv n P) {r : Nat} {part : Part} (hp : P.parts[r]? = some part) {i : Nat} {cell : PCell}
    (hc : part.cells[i]? = some cell) {d : SCell} {σ : Fin 4 → Fin 4} {f : Fin 4 → PFace} {e : Fin 4 → SFace}
    (L : LocalCell m part cell d σ f e) (fi : Fin 4) (ht : (f fi).boundaryType = 2) :
    ∃ (i' : Nat) (l' : Fin 4) (c' : Nat) (cell' : PCell), (if (f fi).cells 0 = i then (f fi).cells 1 else (f fi).cells 0) = i' ∧
      part.cells[i']? = some cell' ∧ lfaceIndex cell'.nodes (f fi).nodes = some l' ∧
      At m P ⟨r, i', l'⟩ c' (d.faces fi) ∧ c' ≠ cell.globalID ∧ i' < part.numCells := by
  have hfm := mem_of_get (L.face fi)
  obtain ⟨e', he', hk, hr, -, -, ht2⟩ := create_boundary H.tets.toSound H.faces H.create hp hfm
  rw [L.gid, L.sface fi, Option.some.injEq] at he'
  subst he'
  obtain ⟨q, q0, q1⟩ := ht2.1 ht
  have inv0 : (e fi).cells 0 ≠ invalid := by intro h; simp [ownerOf, h] at q0
  have inv1 : (e fi).cells 1 ≠ invalid := by intro h; simp [ownerOf, h] at q1
  unfold ownerOf at q0 q1
  rw [if_neg inv0] at q0
  rw [if_neg inv1] at q1
  -- both partitions are `r`
  have par : ∀ k, (f fi).partition k = r ∧ ∃ cell', part.cells[(f fi).cells k]? = some cell' ∧ cell'.globalID = (e fi).cells k := by
    have pq : ∀ k, (f fi).partition k = q := by
      intro k
      rcases hk k with ⟨a, -⟩ | ⟨-, p', c', a1, a2, -⟩
      · fin_cases k
        · exact absurd a inv0
        · exact absurd a inv1
      · fin_cases k
        · change pv[(e fi).cells 0]? = some ((f fi).partition 0) at a2
          rw [q0, Option.some.injEq] at a2; exact a2.symm
        · change pv[(e fi).cells 1]? = some ((f fi).partition 1) at a2
          rw [q1, Option.some.injEq] at a2; exact a2.symm
    obtain ⟨k0, hk0⟩ := hr
    have hqr : q = r := by rw [← pq k0, hk0]
    intro k
    refine ⟨by rw [pq k, hqr], ?_⟩
    rcases hk k with ⟨a, -⟩ | ⟨-, p', c', a1, a2, a3, a4⟩
    · fin_cases k
      · exact absurd a inv0
      · exact absurd a inv1
    · rw [pq k, hqr, hp, Option.some.injEq] at a1
      subst a1
      exact ⟨c', a3, a4⟩
  have hne := H.tets.sides (e fi) (mem_of_get (L.sface fi))
  -- the index of this cell
  have hidx : ∀ k, (f fi).cells k = i ↔ (e fi).cells k = cell.globalID := by
    intro k
    obtain ⟨-, c', a1, a2⟩ := par k
    constructor
    · intro h
      rw [h, hc, Option.some.injEq] at a1
      rw [← a2, a1]
    · intro h
      exact (cell_inj H hp a1 hp hc (a2.trans h)).2
  obtain ⟨j, hj⟩ := L.lists fi
  -- the other index
  have other : ∃ k, (if (f fi).cells 0 = i then (f fi).cells 1 else (f fi).cells 0) = (f fi).cells k ∧
      (e fi).cells k ≠ cell.globalID := by
    by_cases h0 : (f fi).cells 0 = i
    · rw [if_pos h0]
      exact ⟨1, rfl, fun h => hne (((hidx 0).1 h0).trans h.symm)⟩
    · rw [if_neg h0]
      exact ⟨0, rfl, fun h => h0 ((hidx 0).2 h)⟩
  obtain ⟨k, hk1, hk2⟩ := other
  obtain ⟨-, cell', a1, a2⟩ := par k
  obtain ⟨d', σ', f', e', L'⟩ := local_cell H hp a1
  obtain ⟨fi', hfi'⟩ := H.tets.back _ _ (L.sface fi) k d' (by rw [← a2]; exact L'.serial)
  have hff : f' fi' = f fi := part_faces_inj H hp (mem_of_get (L'.face fi')) hfm (by rw [L'.gid, L.gid, hfi'])
  refine ⟨(f fi).cells k, σ' fi', (e fi).cells k, cell', hk1, a1, ?_, ?_, hk2, ?_⟩
  · apply lfaceIndex_eq
    intro v
    rw [← hff]
    exact L'.left fi' v
  · exact (L'.at_iff hp a1).2 ⟨a2.symm, fi', hfi', rfl⟩
  · rw [(create_connectivity H.create hp).2.2.2.2.2.2.1]
    exact (List.getElem?_eq_some_iff.1 a1).1

theorem row_facts (H : Created m pv n P) {r : Nat} {part : Part} (hp : P.parts[r]? = some part) {i : Nat} {cell : PCell}
    (hc : part.cells[i]? = some cell) : ∃ row d σ f e, LocalCell m part cell d σ f e ∧ cellRow part i cell = some row ∧
      (∀ fi, (row (σ fi)).handle = fi) ∧
      ∀ fi, RowFact m pv P r i part cell d (σ fi) (row (σ fi)) (f fi) (e fi) (d.faces fi) := by
  obtain ⟨d, σ, f, e, L⟩ := local_cell H hp hc
  have hstep : ∀ fi, ∃ en : Entry, (∀ row, faceStep part i cell row fi = some (setRow row (σ fi) en)) ∧ en.handle = fi ∧
      ((f fi).boundaryType ≠ 2 → en.adjCell = uintMax ∧ en.adjFace = uintMax) ∧
      ((f fi).boundaryType = 2 → ∃ (i' : Nat) (l' : Fin 4) (c' : Nat), en.adjCell = i' ∧ en.adjFace = l' ∧
        At m P ⟨r, i', l'⟩ c' (d.faces fi) ∧ c' ≠ cell.globalID ∧ i' < part.numCells) := by
    intro fi
    have hl : lfaceIndex cell.nodes (f fi).nodes = some (σ fi) := lfaceIndex_eq (L.left fi)
    by_cases ht : (f fi).boundaryType = 2
    · obtain ⟨i', l', c', cell', h1, h2, h3, h4, h5, h6⟩ := inner_face H hp hc L fi ht
      refine ⟨⟨fi, i', l'⟩, fun row => ?_, rfl, fun h => absurd ht h, fun _ => ⟨i', l', c', rfl, rfl, h4, h5, h6⟩⟩
      unfold faceStep
      simp only [L.face fi, Option.bind_eq_bind, Option.bind_some, hl]
      rw [if_neg (by rw [ht]; simp [notBoundary]), h1, h2]
      simp [h3]
    · refine ⟨⟨fi, uintMax, uintMax⟩, fun row => ?_, rfl, fun _ => ⟨rfl, rfl⟩, fun h => absurd h ht⟩
      unfold faceStep
      simp only [L.face fi, Option.bind_eq_bind, Option.bind_some, hl]
      rw [if_pos (show (f fi).boundaryType ≠ notBoundary from ht)]
  choose E hE hH hB hI using hstep
  obtain ⟨row, hr1, hr2⟩ := setRow_fold σ L.inj E
  refine ⟨row, d, σ, f, e, L, ?_, fun fi => by rw [hr2, hH], fun fi => ?_⟩
  · unfold cellRow
    have : List.finRange 4 = [0, 1, 2, 3] := rfl
    rw [this]
    simp only [List.foldlM_cons, List.foldlM_nil, hE, Option.bind_eq_bind, Option.bind_some, Option.pure_def]
    exact hr1
  · rw [hr2]
    exact ⟨(L.at_iff hp hc).2 ⟨rfl, fi, rfl, rfl⟩, by rw [hH]; exact L.face fi, L.gid fi, L.sface fi, L.node fi, L.left fi, L.cover fi, hB fi, hI fi⟩

end
end Verif.TychoMesh
