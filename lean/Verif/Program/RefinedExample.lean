import Verif.Program.Refined
import Mathlib.Data.Fintype.Card
import Mathlib.Algebra.Order.Floor.Semiring

/-!
# A mesh of 1000 cells that is refined and run (C89)
-/
set_option linter.unusedVariables false
set_option linter.unusedSectionVars false
namespace Verif.Program

open Verif.MeshFile Verif.TychoMesh Verif.Geometry Verif.Geometry.Spec Verif.Program.Spec
open Verif.Refine (Refined Conforming Apart IsTol lbl half refineTet minIndex tetOf pos Edge Uses triNames name code RMesh pairMesh pairOff
  cellFaceOff faceNodeOff pair_nodes pair_cell pair_conforming pair_pos pair_half pair_apart)

/-- Coordinates are whole numbers. -/
def pairVal (n : Nat) : ℝ := n

theorem pair_faces {c : Nat} {d : SCell} (h : pairMesh.cells[c]? = some d) (k : Fin 4) :
    d.faces k = 7 * (c / 2) + cellFaceOff (c % 2) k := by
  have hl := (List.getElem?_eq_some_iff.1 h).1
  simp only [pairMesh, List.length_map, List.length_range] at hl
  simp only [pairMesh, List.getElem?_map, List.getElem?_range hl, Option.map_some, Option.some.injEq] at h
  rw [← h]

theorem pair_material {c : Nat} {d : SCell} (h : pairMesh.cells[c]? = some d) : d.material = 1 + c % 2 := by
  have hl := (List.getElem?_eq_some_iff.1 h).1
  simp only [pairMesh, List.length_map, List.length_range] at hl
  simp only [pairMesh, List.getElem?_map, List.getElem?_range hl, Option.map_some, Option.some.injEq] at h
  rw [← h]

theorem pair_face {g : Nat} {e : SFace} (h : pairMesh.faces[g]? = some e) : g < 3500 ∧
    e.cells 0 = 2 * (g / 7) + (if g % 7 < 4 then 0 else 1) ∧ e.cells 1 = (if g % 7 = 0 then 2 * (g / 7) + 1 else invalid) ∧
    ∀ j, e.nodes j = 5 * (g / 7) + faceNodeOff (g % 7) j := by
  have hl := (List.getElem?_eq_some_iff.1 h).1
  simp only [pairMesh, List.length_map, List.length_range] at hl
  simp only [pairMesh, List.getElem?_map, List.getElem?_range hl, Option.map_some, Option.some.injEq] at h
  rw [← h]
  exact ⟨hl, rfl, rfl, fun j => rfl⟩

theorem cellFaceOff_lt : ∀ s < 2, ∀ k, cellFaceOff s k < 7 := by decide
theorem faceNodeOff_lt : ∀ o < 7, ∀ j, faceNodeOff o j < 5 := by decide

/-- The nodes of a pair used by a face of a cell. -/
theorem pair_omits : ∀ s < 2, ∀ k i : Fin 4, (∃ j, faceNodeOff (cellFaceOff s k) j = if i.val < 3 then i.val else 3 + s) ↔ i ≠ k := by decide

theorem pair_facenode : ∀ s < 2, ∀ k, ∀ j, ∃ i : Fin 4, faceNodeOff (cellFaceOff s k) j = if i.val < 3 then i.val else 3 + s := by decide

theorem pair_at {c g : Nat} {d : SCell} {k : Fin 4} (h : pairMesh.cells[c]? = some d) (hk : d.faces k = g) :
    g / 7 = c / 2 ∧ g % 7 = cellFaceOff (c % 2) k := by
  rw [pair_faces h] at hk
  have := cellFaceOff_lt (c % 2) (Nat.mod_lt _ (by decide)) k
  omega

theorem pair_tets : Tets pairMesh where
  cells := by simp [pairMesh]
  faces := by simp [pairMesh]
  nodes := by simp [pairMesh]
  fit := by decide
  cellFace := by
    intro c d h k
    have h1 := (pair_cell h).1
    have := cellFaceOff_lt (c % 2) (Nat.mod_lt _ (by decide)) k
    rw [pair_faces h k]
    show _ < 3500
    omega
  cellNode := by
    intro c d h k
    have h1 := (pair_cell h).1
    rw [pair_nodes h k]
    show _ < 2500
    split_ifs <;> omega
  faceCell := by
    intro e he k
    obtain ⟨g, hg⟩ := List.mem_iff_getElem?.1 he
    obtain ⟨h1, h2, h3, -⟩ := pair_face hg
    match k with
    | 0 => right; rw [h2]; show _ < 1000; split_ifs <;> omega
    | 1 =>
      rw [h3]
      split_ifs
      · right; show _ < 1000; omega
      · left; rfl
  lists := by
    intro c d k e h he
    obtain ⟨h1, h2, h3, -⟩ := pair_face he
    obtain ⟨q1, q2⟩ := pair_at h rfl
    rw [q1, q2] at h2 h3
    have c0 : ∀ k, cellFaceOff 0 k < 4 := by decide
    have c1 : ∀ k, cellFaceOff 1 k ≠ 0 → ¬ cellFaceOff 1 k < 4 := by decide
    rcases Nat.mod_two_eq_zero_or_one c with hs | hs
    · refine ⟨0, ?_⟩
      rw [h2, hs, if_pos (c0 k)]
      omega
    · rw [hs] at h2 h3
      by_cases h0 : cellFaceOff 1 k = 0
      · refine ⟨1, ?_⟩
        rw [h3, if_pos h0]
        omega
      · refine ⟨0, ?_⟩
        rw [h2, if_neg (c1 k h0)]
        omega
  faceNode := by
    intro c d k e h he j
    obtain ⟨h1, -, -, h4⟩ := pair_face he
    obtain ⟨q1, q2⟩ := pair_at h rfl
    obtain ⟨i, hi⟩ := pair_facenode (c % 2) (Nat.mod_lt _ (by decide)) k j
    refine ⟨i, ?_⟩
    rw [h4, q1, q2, hi, pair_nodes h]
  distinct c d h := pair_conforming.distinct d (List.mem_of_getElem? h)
  omits := by
    intro c d h
    refine ⟨id, fun _ _ h => h, fun k e he i => ?_⟩
    obtain ⟨h1, -, -, h4⟩ := pair_face he
    obtain ⟨q1, q2⟩ := pair_at (k := k) h rfl
    rw [id, ← pair_omits (c % 2) (Nat.mod_lt _ (by decide)) k i, pair_nodes h]
    simp only [h4, q1, q2, Nat.add_left_cancel_iff]
  back := by
    intro g e he j d hd
    obtain ⟨h1, h2, h3, -⟩ := pair_face he
    have key : ∀ o < 7, ∃ k, cellFaceOff (if o < 4 then 0 else 1) k = o := by decide
    have hm : g % 7 < 7 := Nat.mod_lt _ (by decide)
    rcases (by decide : ∀ j : Fin 2, j = 0 ∨ j = 1) j with rfl | rfl
    · rw [h2] at hd
      obtain ⟨k, hk⟩ := key (g % 7) hm
      refine ⟨k, ?_⟩
      rw [pair_faces hd]
      have e1 : (2 * (g / 7) + (if g % 7 < 4 then 0 else 1)) / 2 = g / 7 := by split_ifs <;> omega
      have e2 : (2 * (g / 7) + (if g % 7 < 4 then 0 else 1)) % 2 = if g % 7 < 4 then 0 else 1 := by split_ifs <;> omega
      rw [e1, e2, hk]
      omega
    · rw [h3] at hd
      have hl := (pair_cell hd).1
      split_ifs at hd hl with h0
      · refine ⟨3, ?_⟩
        rw [pair_faces hd]
        have e2 : (2 * (g / 7) + 1) % 2 = 1 := by omega
        rw [e2]
        show 7 * ((2 * (g / 7) + 1) / 2) + 0 = g
        omega
      · exact absurd hl (by decide)
  sides := by
    intro e he
    obtain ⟨g, hg⟩ := List.mem_iff_getElem?.1 he
    obtain ⟨h1, h2, h3, -⟩ := pair_face hg
    rw [h2, h3]
    have : invalid = 2 ^ 64 - 1 := by decide
    split_ifs <;> omega

theorem pair_plain : Plain pairMesh where
  faces := by
    intro g h e f hg hh hn
    obtain ⟨h1, -, -, h4⟩ := pair_face hg
    obtain ⟨h1', -, -, h4'⟩ := pair_face hh
    have l1 (j : Fin 3) := faceNodeOff_lt (g % 7) (Nat.mod_lt _ (by decide)) j
    have l2 (j : Fin 3) := faceNodeOff_lt (h % 7) (Nat.mod_lt _ (by decide)) j
    have sub (j : Fin 3) : ∃ j', g / 7 = h / 7 ∧ faceNodeOff (h % 7) j' = faceNodeOff (g % 7) j := by
      obtain ⟨j', hj'⟩ := (hn _).1 ⟨j, rfl⟩
      rw [h4, h4'] at hj'
      have := l1 j
      have := l2 j'
      exact ⟨j', by omega, by omega⟩
    have key : ∀ o < 7, ∀ o' < 7, (∀ j, ∃ j', faceNodeOff o' j' = faceNodeOff o j) → o = o' := by decide +kernel
    have := key (g % 7) (Nat.mod_lt _ (by decide)) (h % 7) (Nat.mod_lt _ (by decide)) fun j => (sub j).imp fun _ h => h.2
    have := (sub 0).choose_spec.1
    omega
  cells := pair_conforming.noSame

/-- Where the corners are. -/
theorem pair_pts {c : Nat} (hc : c < 1000) (k : Fin 4) : pts pairVal pairMesh c k =
    ![10 * ((c / 2 : Nat) : ℝ) + pairOff (if k.val < 3 then k.val else 3 + c % 2) 0, pairOff (if k.val < 3 then k.val else 3 + c % 2) 1,
      pairOff (if k.val < 3 then k.val else 3 + c % 2) 2] := by
  have hl : c < pairMesh.cells.length := by simp only [pairMesh, List.length_map, List.length_range]; exact hc
  have hd : pairMesh.cells[c]? = some pairMesh.cells[c] := List.getElem?_eq_getElem hl
  rw [pts_tet hd]
  have hr : (pairMesh.cells[c]).nodes k < 2500 := by rw [pair_nodes hd]; split_ifs <;> omega
  have := pair_pos (K := ℝ) hr
  show pos (fun n => (n : ℝ)) pairMesh _ = _
  rw [this, pair_nodes hd]
  have e1 : (5 * (c / 2) + (if k.val < 3 then k.val else 3 + c % 2)) / 5 = c / 2 := by split_ifs <;> omega
  have e2 : (5 * (c / 2) + (if k.val < 3 then k.val else 3 + c % 2)) % 5 = if k.val < 3 then k.val else 3 + c % 2 := by split_ifs <;> omega
  rw [e1, e2]
  push_cast
  rfl

/-- The two cells of a pair touch along the face without their last corners. -/
theorem pair_across {c c' : Nat} {f f' : Fin 4} (h : Across pairMesh c f c' f') : c / 2 = c' / 2 ∧ f = 3 ∧ f' = 3 ∧ c % 2 ≠ c' % 2 ∧ c < 1000 ∧ c' < 1000 := by
  obtain ⟨hne, g, ⟨d, e, k, h1, h2, h3, h4⟩, ⟨d', e', k', h1', h2', h3', h4'⟩⟩ := h
  rw [h3, Option.some.injEq] at h3'
  subst h3'
  obtain ⟨q1, q2⟩ := pair_at h1 h2
  obtain ⟨q1', q2'⟩ := pair_at h1' h2'
  have hs : c % 2 ≠ c' % 2 := by omega
  have hk : ∀ s < 2, ∀ s' < 2, s ≠ s' → ∀ k k', cellFaceOff s k = cellFaceOff s' k' → k = 3 ∧ k' = 3 := by decide
  obtain ⟨rfl, rfl⟩ := hk (c % 2) (Nat.mod_lt _ (by decide)) (c' % 2) (Nat.mod_lt _ (by decide)) hs k k' (by omega)
  obtain ⟨-, -, -, h5⟩ := pair_face h3
  have o (c : Nat) (d : SCell) (f : Fin 4) (h : pairMesh.cells[c]? = some d) (h2 : d.faces 3 = g) (h4 : ∀ j, e.nodes j ≠ d.nodes f) : f = 3 := by
    by_contra hf
    obtain ⟨j, hj⟩ := (pair_omits (c % 2) (Nat.mod_lt _ (by decide)) 3 f).2 hf
    obtain ⟨q1, q2⟩ := pair_at h h2
    refine h4 j ?_
    rw [h5, q1, q2, hj, pair_nodes h]
  exact ⟨by omega, o c d f h1 h2 h4, o c' d' f' h1' h2' h4', hs, (pair_cell h1).1, (pair_cell h1').1⟩

theorem pair_fits : Fits pairVal pairMesh where
  nondeg := by
    intro c hc n0 n1 n2 d h
    have hc : c < 1000 := hc
    have h0 := h 0
    have h1 := h 1
    have h2 := h 2
    have h3 := h 3
    rw [pair_pts hc] at h0 h1 h2 h3
    rcases Nat.mod_two_eq_zero_or_one c with hs | hs <;> rw [hs] at h0 h1 h2 h3 <;> simp [pairOff] at h0 h1 h2 h3 <;>
      refine ⟨?_, ?_, ?_⟩ <;> linarith
  sides := by
    intro c f c' f' hx
    obtain ⟨e, rfl, rfl, hs, hc, hc'⟩ := pair_across hx
    rcases Nat.mod_two_eq_zero_or_one c with h | h
    · have h' : c' % 2 = 1 := by omega
      refine ⟨0, 0, -1, -2, fun v => ?_, ?_, ?_⟩
      · simp only [facePoints]
        rw [pair_pts hc, h]
        fin_cases v <;> simp [pairOff, Fin.succAbove]
      · rw [pair_pts hc, h]; simp [pairOff]; norm_num
      · rw [pair_pts hc', h']; simp [pairOff]
    · have h' : c' % 2 = 0 := by omega
      refine ⟨0, 0, 1, 2, fun v => ?_, ?_, ?_⟩
      · simp only [facePoints]
        rw [pair_pts hc, h]
        fin_cases v <;> simp [pairOff, Fin.succAbove]
      · rw [pair_pts hc, h]; simp [pairOff]
      · rw [pair_pts hc', h']; simp [pairOff]; norm_num

theorem pair_delaunay : Delaunay pairVal pairMesh := by
  refine ⟨fun c => ![10 * ((c / 2 : Nat) : ℝ) + 1, 1, if c % 2 = 0 then 3 else 1], fun _ => 3, ?_, ?_⟩
  · intro c hc v
    have hc : c < 1000 := hc
    rw [pair_pts hc]
    rcases Nat.mod_two_eq_zero_or_one c with h | h <;> fin_cases v <;> simp [pairOff, dist2, h] <;> norm_num
  · intro c f c' f' hx
    obtain ⟨e, rfl, rfl, hs, hc, hc'⟩ := pair_across hx
    rw [pair_pts hc', ← e]
    rcases Nat.mod_two_eq_zero_or_one c with h | h
    · have h' : c' % 2 = 1 := by omega
      rw [h']; simp [pairOff, dist2, h]; norm_num
    · have h' : c' % 2 = 0 := by omega
      rw [h']; simp [pairOff, dist2, h]; norm_num

theorem whole (a b c : Nat) (k : Fin 3) : pairVal ⌊(![(a : ℝ), b, c] : Fin 3 → ℝ) k⌋₊ = (![(a : ℝ), b, c] : Fin 3 → ℝ) k := by
  match k with
  | 0 => exact congrArg (fun n : Nat => (n : ℝ)) (Nat.floor_natCast _)
  | 1 => exact congrArg (fun n : Nat => (n : ℝ)) (Nat.floor_natCast _)
  | 2 => exact congrArg (fun n : Nat => (n : ℝ)) (Nat.floor_natCast _)

/-- The refined mesh has 8000 cells. -/
theorem pair_refined : ∃ m', Refinement pairVal pairMesh m' ∧ Halved pairVal pairMesh m' ∧ m'.numCells = 8000 ∧
    m'.numFaces ≤ 32000 ∧ m'.numNodes ≤ 32000 := by
  have hne : pairMesh.cells ≠ [] := by simp [pairMesh]
  have ht := (Verif.Refine.isTol_iff (K := ℝ) (val := pairVal) hne).2 rfl
  have A : Apart pairVal pairMesh _ := pair_apart ht
  obtain ⟨r, hr, R⟩ := Verif.Refine.refine_correct_partial pair_conforming ht A (by decide) (by decide)
  have h8 : r.cells.length = 8000 := R.count
  -- every point has whole coordinates
  have hb : ∀ q ∈ r.nodes, ∀ k, pairVal (⌊q k⌋₊) = q k := by
    intro q hq k
    obtain ⟨n, hn, rfl⟩ := List.mem_iff_getElem.1 hq
    obtain ⟨e, he, v, hv⟩ := R.used n hn
    obtain ⟨i, hi, rfl⟩ := List.mem_iff_getElem.1 he
    have hl : i / 8 < pairMesh.cells.length := by simp only [pairMesh, List.length_map, List.length_range]; omega
    obtain ⟨e', h1, -, h3⟩ := R.child (i / 8) pairMesh.cells[i / 8] ⟨i % 8, Nat.mod_lt _ (by decide)⟩ (List.getElem?_eq_getElem hl)
    have e8 : 8 * (i / 8) + (⟨i % 8, Nat.mod_lt _ (by decide)⟩ : Fin 8).val = i := by simp only; omega
    rw [e8, List.getElem?_eq_getElem hi, Option.some.injEq] at h1
    subst h1
    have h3 := h3 v
    rw [hv, List.getElem?_eq_getElem hn, Option.some.injEq, Verif.Refine.refineTet_eq] at h3
    rw [h3]
    obtain ⟨c, a, b, -, -, -, e⟩ := pair_half (K := ℝ) (a := pairMesh.cells[i / 8].nodes (lbl (minIndex (tetOf pairVal pairMesh pairMesh.cells[i / 8]))
        ⟨i % 8, Nat.mod_lt _ (by decide)⟩ v).1)
      (b := pairMesh.cells[i / 8].nodes (lbl (minIndex (tetOf pairVal pairMesh pairMesh.cells[i / 8])) ⟨i % 8, Nat.mod_lt _ (by decide)⟩ v).2)
      ⟨i / 8, _, _, _, List.getElem?_eq_getElem hl, rfl, rfl⟩
    have e : Verif.Refine.pt (tetOf pairVal pairMesh pairMesh.cells[i / 8]) (lbl (minIndex (tetOf pairVal pairMesh pairMesh.cells[i / 8]))
        ⟨i % 8, Nat.mod_lt _ (by decide)⟩ v) = _ := e
    rw [e]
    exact whole _ _ _ k
  have T := R.tets (fun x => ⌊x⌋₊)
  refine ⟨r.serial (fun x => ⌊x⌋₊), .step .refl ht A (by decide) (by decide) hr hb,
    halved_of pair_tets pair_plain (Verif.Refine.isTol_nonneg ht) A R hb, h8, ?_, ?_⟩
  · -- a face belongs to a cell
    have on (g : Fin r.faces.length) : ∃ x : Fin 8000 × Fin 4, ∃ d, r.cells[x.1.val]? = some d ∧ d.faces x.2 = g.val := by
      have hg : (r.serial (fun x => ⌊x⌋₊)).faces[g.val]? = some r.faces[g.val] := List.getElem?_eq_getElem g.isLt
      have hs := T.sides _ (List.mem_of_getElem? hg)
      have h0 := T.faceCell _ (List.mem_of_getElem? hg) 0
      have h1 := T.faceCell _ (List.mem_of_getElem? hg) 1
      have : ∃ j, r.faces[g.val].cells j < r.cells.length := by
        rcases h0 with h0 | h0
        · rcases h1 with h1 | h1
          · exact absurd (h0.trans h1.symm) hs
          · exact ⟨1, h1⟩
        · exact ⟨0, h0⟩
      obtain ⟨j, hj⟩ := this
      obtain ⟨k, hk⟩ := T.back g.val _ hg j r.cells[r.faces[g.val].cells j] (List.getElem?_eq_getElem hj)
      exact ⟨(⟨r.faces[g.val].cells j, by rw [← h8]; exact hj⟩, k), _, List.getElem?_eq_getElem hj, hk⟩
    choose x d hx1 hx2 using on
    have inj : Function.Injective x := by
      intro g h e
      have a := hx1 g
      rw [e, hx1 h, Option.some.injEq] at a
      have b := hx2 g
      rw [e, ← a, hx2 h] at b
      exact Fin.ext b.symm
    have := Fintype.card_le_of_injective x inj
    simp only [Fintype.card_fin, Fintype.card_prod] at this
    exact this
  · have on (n : Fin r.nodes.length) : ∃ x : Fin 8000 × Fin 4, ∃ d, r.cells[x.1.val]? = some d ∧ d.nodes x.2 = n.val := by
      obtain ⟨e, he, k, hk⟩ := R.used n.val n.isLt
      obtain ⟨i, hi, rfl⟩ := List.mem_iff_getElem.1 he
      exact ⟨(⟨i, by rw [← h8]; exact hi⟩, k), _, List.getElem?_eq_getElem hi, hk⟩
    choose x d hx1 hx2 using on
    have inj : Function.Injective x := by
      intro g h e
      have a := hx1 g
      rw [e, hx1 h, Option.some.injEq] at a
      have b := hx2 g
      rw [e, ← a, hx2 h] at b
      exact Fin.ext b.symm
    have := Fintype.card_le_of_injective x inj
    simp only [Fintype.card_fin, Fintype.card_prod] at this
    exact this

/-! ### A direction that is in no face of the refined mesh -/

/-- Twice the corners of the children of the cells of a pair. -/
def childOff (s : Nat) (q : Fin 3) (t : Fin 8) (k : Fin 4) (i : Fin 3) : ℤ :=
  pairOff (if (lbl q t k).1.val < 3 then (lbl q t k).1.val else 3 + s) i + pairOff (if (lbl q t k).2.val < 3 then (lbl q t k).2.val else 3 + s) i

/-- The triple product. -/
def trip {R : Type} [Mul R] [Sub R] [Add R] (a b c : Fin 3 → R) : R :=
  a 0 * (b 1 * c 2 - b 2 * c 1) - a 1 * (b 0 * c 2 - b 2 * c 0) + a 2 * (b 0 * c 1 - b 1 * c 0)

theorem childOff_trip : ∀ s < 2, ∀ q t, ∀ f : Fin 4, trip ![2, 3, 6] (fun i => childOff s q t (f.succAbove 1) i - childOff s q t (f.succAbove 0) i)
    (fun i => childOff s q t (f.succAbove 2) i - childOff s q t (f.succAbove 0) i) ≠ 0 := by decide +kernel

theorem trip_zero {a b c n : Fin 3 → ℝ} (h : trip a b c ≠ 0) (h1 : a 0 * n 0 + a 1 * n 1 + a 2 * n 2 = 0)
    (h2 : b 0 * n 0 + b 1 * n 1 + b 2 * n 2 = 0) (h3 : c 0 * n 0 + c 1 * n 1 + c 2 * n 2 = 0) : n 0 = 0 ∧ n 1 = 0 ∧ n 2 = 0 := by
  have e0 : trip a b c * n 0 = 0 := by unfold trip; linear_combination (b 1 * c 2 - b 2 * c 1) * h1 - (a 1 * c 2 - a 2 * c 1) * h2 + (a 1 * b 2 - a 2 * b 1) * h3
  have e1 : trip a b c * n 1 = 0 := by unfold trip; linear_combination -(b 0 * c 2 - b 2 * c 0) * h1 + (a 0 * c 2 - a 2 * c 0) * h2 - (a 0 * b 2 - a 2 * b 0) * h3
  have e2 : trip a b c * n 2 = 0 := by unfold trip; linear_combination (b 0 * c 1 - b 1 * c 0) * h1 - (a 0 * c 1 - a 1 * c 0) * h2 + (a 0 * b 1 - a 1 * b 0) * h3
  exact ⟨(mul_eq_zero.1 e0).resolve_left h, (mul_eq_zero.1 e1).resolve_left h, (mul_eq_zero.1 e2).resolve_left h⟩

theorem childOff_pts {m' : SerialMesh} (S : Halved pairVal pairMesh m') {c : Nat} (hc : c < 1000) {d : SCell} (hd : pairMesh.cells[c]? = some d) (t : Fin 8)
    (k : Fin 4) (i : Fin 3) : pts pairVal m' (8 * c + t.val) k i =
      (if i = 0 then 10 * ((c / 2 : Nat) : ℝ) else 0) + (childOff (c % 2) (minIndex (pts pairVal pairMesh c)) t k i : ℝ) / 2 := by
  rw [S.corner t hd]
  generalize minIndex (pts pairVal pairMesh c) = q
  simp only [half]
  rw [pair_pts hc, pair_pts hc]
  unfold childOff
  push_cast
  match i with
  | 0 => simp; ring
  | 1 => simp
  | 2 => simp

/-- Cells dealt out to two ranks in turn. -/
theorem dealt (n : Nat) : ∃ pv : List Nat, pv.length = n ∧ ∀ q ∈ pv, q < 2 := by
  refine ⟨(List.range n).map (· % 2), by simp, fun q hq => ?_⟩
  obtain ⟨i, -, rfl⟩ := List.mem_map.1 hq
  exact Nat.mod_lt _ (by decide)

/-- The input: one direction, two groups. -/
noncomputable def pairDeck : Deck := ⟨2, [⟨2 / 7, 3 / 7, 6 / 7, 1⟩], 1, 1 / 2, 2, 0⟩

/-- `refined_runs` and `refined_finishes` apply to it: the program runs on the refined mesh, on two ranks with
three threads, and its sweep comes to an end. -/
example : ∃ (m' : SerialMesh) (M : Mode) (P : ParallelMesh) (T : Nat → Mesh) (D : Nat → RankData) (psi : Nat → Verif.Traverse.Psi ℝ),
    Refinement pairVal pairMesh m' ∧ m'.numCells = 8000 ∧ M.n = 2 ∧ Ready pairVal pairDeck m' M P T D ∧ Swept M pairDeck T D psi := by
  obtain ⟨m', hR, S, h8, hfa, hno⟩ := pair_refined
  obtain ⟨H', -, F', -⟩ := refined_runs pair_tets pair_plain pair_fits hR
  have hs : Sensible pairVal pairDeck m' := by
    refine ⟨?_, ?_, by norm_num [pairDeck], by norm_num [pairDeck], ?_⟩
    · intro d hd
      obtain ⟨i, hi⟩ := List.mem_iff_getElem?.1 hd
      have hl : i < m'.numCells := by rw [H'.cells]; exact (List.getElem?_eq_some_iff.1 hi).1
      obtain ⟨c, e, t, rfl, he, hc⟩ := S.split hl
      obtain ⟨d', h1, h2, -⟩ := S.child c e t he
      rw [hi] at h1
      cases h1
      rw [h2, pair_material he]
      omega
    · intro i hi v
      obtain ⟨c, e, t, rfl, he, hc⟩ := S.split hi
      have y := childOff_pts S hc he t v 1
      rw [if_neg (by decide)] at y
      have hle : ∀ s < 2, ∀ q t k, childOff s q t k 1 ≤ 4 := by decide +kernel
      have := hle (c % 2) (Nat.mod_lt _ (by decide)) (minIndex (pts pairVal pairMesh c)) t v
      have : (childOff (c % 2) (minIndex (pts pairVal pairMesh c)) t v 1 : ℝ) ≤ 4 := by exact_mod_cast this
      unfold radius
      have hy : pts pairVal m' (8 * c + t.val) v 1 ≤ 2 := by rw [y]; linarith
      have : 0 < (pts pairVal m' (8 * c + t.val) v 1 - 50) ^ 2 := by nlinarith
      exact (Real.sqrt_pos.2 (by positivity)).ne'
    · intro d hd
      simp only [pairDeck, List.mem_cons, List.not_mem_nil, or_false] at hd
      subst hd
      norm_num
  obtain ⟨p, sS, Ds⟩ := describes_exists H' F' hs
  have htr : p.Transversal m' := by
    intro i f i' f' hx a ha h0
    rw [Ds.angles] at ha
    have ha : a < 1 := ha
    obtain rfl : a = 0 := by omega
    have hi := (across_cells H' hx).1
    obtain ⟨n, -, hn⟩ := normal_outward (pts pairVal m' i) f f.succAbove (std_table f) (F'.nondeg i hi)
    rw [Ds.omega i hi f n hn 0 ⟨2 / 7, 3 / 7, 6 / 7, 1⟩ rfl] at h0
    obtain ⟨c, d, t, rfl, hd, hc⟩ := S.split hi
    have pp := childOff_pts S hc hd t
    have hz := childOff_trip (c % 2) (Nat.mod_lt _ (by decide)) (minIndex (pts pairVal pairMesh c)) t f
    generalize childOff (c % 2) (minIndex (pts pairVal pairMesh c)) t = V at pp hz
    have hz : trip ![(2 : ℝ), 3, 6] (fun i => ((V (f.succAbove 1) i - V (f.succAbove 0) i : ℤ) : ℝ)) (fun i => ((V (f.succAbove 2) i - V (f.succAbove 0) i : ℤ) : ℝ)) ≠ 0 := by
      have : (trip ![(2 : ℝ), 3, 6] (fun i => ((V (f.succAbove 1) i - V (f.succAbove 0) i : ℤ) : ℝ)) (fun i => ((V (f.succAbove 2) i - V (f.succAbove 0) i : ℤ) : ℝ))) =
          ((trip ![2, 3, 6] (fun i => V (f.succAbove 1) i - V (f.succAbove 0) i) (fun i => V (f.succAbove 2) i - V (f.succAbove 0) i) : ℤ) : ℝ) := by
        simp [trip]
      rw [this]
      exact_mod_cast hz
    have e1 := hn.2.1 (f.succAbove 1) (f.succAbove 0) (Fin.succAbove_ne _ _) (Fin.succAbove_ne _ _)
    have e2 := hn.2.1 (f.succAbove 2) (f.succAbove 0) (Fin.succAbove_ne _ _) (Fin.succAbove_ne _ _)
    simp only [pp] at e1 e2
    obtain ⟨z0, z1, z2⟩ := trip_zero (n := n) hz (by simp; linarith) (by push_cast; linear_combination 2 * e1) (by push_cast; linear_combination 2 * e2)
    have := hn.1
    rw [z0, z1, z2] at this
    norm_num at this
  obtain ⟨pv, hpl, hpv⟩ := dealt 8000
  let M : Mode := ⟨pv, 2, 3, 5, .tycho, false, .original, fun _ _ _ => 1, fun _ _ _ _ _ => 2, fun _ _ _ _ _ => 0, fun _ _ => 1⟩
  obtain ⟨P, T, D, h⟩ := program_starts (M := M) H' (by omega) (by omega) F' hs (by rw [h8]; exact hpl) hpv
    (show 3 + 2 < 2 ^ 31 by norm_num) (show 0 < 3 by norm_num) (by rw [h8]; simp [pairDeck])
  obtain ⟨psi, hp⟩ := refined_finishes pair_tets pair_plain pair_fits pair_delaunay hR h hs Ds htr (show 0 < 5 by decide) rfl
  exact ⟨m', M, P, T, D, psi, hR, h8, rfl, h, hp⟩

end Verif.Program
