import Verif.Program.Spec
import Verif.Problem.Props

/-!
# From the serial mesh to the sweep (C70)
-/
set_option linter.unusedSectionVars false
set_option linter.unusedVariables false
namespace Verif.Program

open Verif.MeshFile Verif.TychoMesh Verif.Geometry Verif.Geometry.Spec Verif.Program.Spec

variable {val : Nat → ℝ} {m : SerialMesh} {pv : List Nat} {n : Nat} {P : ParallelMesh} {T : Nat → Mesh}

/-! ## Coordinates -/

theorem node_eq (H : Created m pv n P) {r : Nat} {part : Part} (hp : P.parts[r]? = some part) {i : Nat} {cell : PCell}
    (hc : part.cells[i]? = some cell) (v : Fin 4) :
    nodeCoord val part (cell.nodes v) = some (pts val m cell.globalID v) := by
  obtain ⟨k1, -, k3, -, -, -, -, -, k9⟩ := create_connectivity H.create hp
  obtain ⟨d, hd, -, -, hn⟩ := k1 _ (mem_of_get hc)
  obtain ⟨w, hw, hg⟩ := hn v
  obtain ⟨nd, h1, h2⟩ := k3 _ (mem_of_get hw)
  have hlt : cell.nodes v < part.numNodes := by
    rw [k9]; exact (List.getElem?_eq_some_iff.1 hw).1
  unfold nodeCoord pts
  rw [if_pos hlt, hw, Option.map_some, hd, Option.bind_some, ← hg, h1, h2]

theorem cellNode_eq (H : Created m pv n P) (L : Loaded val P T) {r : Nat} {part : Part} (hp : P.parts[r]? = some part)
    {i : Nat} {cell : PCell} (hc : part.cells[i]? = some cell) (v : Fin 4) :
    (T r).getCellNode i v = some (cell.nodes v) := by
  obtain ⟨B, -, -, -, -, -, -, -, hCN, -⟩ := loc_facts (x := ⟨r, 0, 0⟩) H L hp
  dsimp only at hCN
  unfold Mesh.getCellNode
  rw [hCN, List.getElem?_map, hc]; rfl

theorem cell_at (H : Created m pv n P) {r i c : Nat} (h : IsCell P r i c) {part : Part} (hp : P.parts[r]? = some part) :
    ∃ cell, part.cells[i]? = some cell ∧ cell.globalID = c := by
  obtain ⟨part', cell, h1, h2, h3⟩ := h
  rw [hp, Option.some.injEq] at h1
  subst h1
  exact ⟨cell, h2, h3⟩

/-- The vertices of a cell of a part are where the serial mesh has them. -/
theorem cellCoords_eq (H : Created m pv n P) (L : Loaded val P T) {r i c : Nat} (h : IsCell P r i c) {part : Part}
    (hp : P.parts[r]? = some part) : cellCoords val part (T r) i = some (pts val m c) := by
  obtain ⟨cell, hc, rfl⟩ := cell_at H h hp
  refine complete_iff.2 fun v => ?_
  rw [cellNode_eq H L hp hc, Option.bind_some, node_eq H hp hc]

/-- The vertices of a face are the vertices of the cell other than the opposite one, in some order. -/
theorem faceCoords_eq (H : Created m pv n P) (L : Loaded val P T) {r i c : Nat} (h : IsCell P r i c) {part : Part}
    (hp : P.parts[r]? = some part) (f : Fin 4) :
    ∃ t, FaceTable f t ∧ faceCoords val part (T r) i f = some (facePoints (pts val m c) t) := by
  obtain ⟨cell, hc, rfl⟩ := cell_at H h hp
  obtain ⟨c', g, hat⟩ := exists_at H (x := ⟨r, i, f⟩) ⟨part, cell, hp, hc⟩
  obtain ⟨part', cell', d, e, q1, q2, q3, hd, hk, he, hf⟩ := id hat
  have hv := (face_vertices H L hat hd he).1
  dsimp only at hv
  choose t ht1 ht2 ht3 ht4 using hv
  refine ⟨t, ⟨fun v w hvw => ?_, ht2⟩, complete_iff.2 fun k => ?_⟩
  · have := ht4 v
    rw [hvw, ht4 w, Option.some.injEq] at this
    exact this.symm
  · rw [ht1 k, Option.bind_some, cellNode_eq H L hp hc, Option.bind_some, node_eq H hp hc]
    rfl

/-! ## Lists built by loops -/

theorem range_mapM {α : Type} {f : Nat → Option α} {k : Nat} {g : Nat → α} (h : ∀ c < k, f c = some (g c)) :
    ∃ l, (List.range k).mapM f = some l ∧ ∀ c < k, l[c]? = some (g c) := by
  refine ⟨(List.range k).map g, ?_, fun c hc => by simp [hc]⟩
  rw [mapM_iff, List.forall₂_map_right_iff, List.forall₂_same]
  intro c hc
  exact h c (List.mem_range.1 hc)

theorem list_mapM {α β : Type} {f : α → Option β} {l : List α} {Q : α → β → Prop}
    (h : ∀ a ∈ l, ∃ b, f a = some b ∧ Q a b) :
    ∃ l', l.mapM f = some l' ∧ ∀ (i : Nat) (a : α), l[i]? = some a → ∃ b, l'[i]? = some b ∧ Q a b := by
  induction l with
  | nil => exact ⟨[], rfl, by simp⟩
  | cons a l ih =>
    obtain ⟨b, h1, h2⟩ := h a (by simp)
    obtain ⟨l', h3, h4⟩ := ih fun x hx => h x (by simp [hx])
    refine ⟨b :: l', by rw [List.mapM_cons, h1, h3]; rfl, ?_⟩
    intro i x hx
    cases i with
    | zero => simp only [List.getElem?_cons_zero, Option.some.injEq] at hx; subst hx; exact ⟨b, by simp, h2⟩
    | succ i => simpa using h4 i x (by simpa using hx)

/-! ## The geometry of the serial mesh -/

/-- The number the constructor computes, on serial coordinates. -/
noncomputable def dotN (val : Nat → ℝ) (m : SerialMesh) (om : Pt) (c : Nat) (f : Fin 4) : ℝ :=
  (omegaDotN om (facePoints (pts val m c) f.succAbove) (pts val m c)).getD 0

theorem std_table (f : Fin 4) : FaceTable f f.succAbove :=
  ⟨fun _ _ h => Fin.succAbove_right_injective h, fun _ => Fin.succAbove_ne _ _⟩

/-- The order of the face vertices does not matter. -/
theorem dot_order {p : Fin 4 → Pt} {f : Fin 4} {t : Fin 3 → Fin 4} (ht : FaceTable f t) (hp : NonCoplanar p) (om : Pt) :
    ∃ n, OutwardUnitNormal p f n ∧ omegaDotN om (facePoints p t) p = some (om 0 * n 0 + om 1 * n 1 + om 2 * n 2) := by
  obtain ⟨n, h1, h2⟩ := normal_outward p f t ht hp
  exact ⟨n, h2, by rw [omegaDotN, h1, Option.map_some]⟩

theorem dot_eq {p : Fin 4 → Pt} {f : Fin 4} {t : Fin 3 → Fin 4} (ht : FaceTable f t) (hp : NonCoplanar p) (om n : Pt)
    (hn : OutwardUnitNormal p f n) : omegaDotN om (facePoints p t) p = some (om 0 * n 0 + om 1 * n 1 + om 2 * n 2) := by
  obtain ⟨n', h1, h2⟩ := dot_order ht hp om
  rw [h2, outward_unique p f hp n n' hn h1]

theorem dotN_eq {c : Nat} (hp : NonCoplanar (pts val m c)) {f : Fin 4} {t : Fin 3 → Fin 4} (ht : FaceTable f t) (om : Pt) :
    omegaDotN om (facePoints (pts val m c) t) (pts val m c) = some (dotN val m om c f) := by
  obtain ⟨n, h1, h2⟩ := dot_order ht hp om
  unfold dotN
  rw [h2, dot_eq (std_table f) hp om n h1]; rfl

theorem isCell_part (H : Created m pv n P) {r : Nat} (hr : r < n) : ∃ part, P.parts[r]? = some part :=
  ⟨_, List.getElem?_eq_getElem (by have := (create_cells H.create).1; omega)⟩

theorem constructor_returns (H : Created m pv n P) (L : Loaded val P T) (F : Fits val m) (omega : List Pt) {r : Nat}
    {part : Part} (hp : P.parts[r]? = some part) (hr : r < n) :
    ∃ G, constructor val omega part (T r) = some G ∧ ∀ i c, IsCell P r i c →
      G.volume[i]? = some (tetVolume (pts val m c)) ∧
      G.area[i]? = some (fun f => triangleArea (facePoints (pts val m c) f.succAbove)) ∧
      ∀ (a : Nat) (om : Pt), omega[a]? = some om → ((G.omegaDotN[a]?).bind fun l => l[i]?) = some (dotN val m om c) := by
  have hlg : ∀ i < (T r).nCells, IsCell P r i (((T r).getLGCell i).getD 0) := by
    intro i hi
    obtain ⟨c, hc⟩ := isCell_of_lt H L hr hi
    rw [(isCell_lg H L hc).1]; exact hc
  have nd : ∀ {i c}, IsCell P r i c → NonCoplanar (pts val m c) := fun h => F.nondeg _ (isCell_lg H L h).2.2.2
  obtain ⟨lv, v1, v2⟩ := range_mapM (f := fun c => (cellCoords val part (T r) c).map tetVolume) (k := (T r).nCells)
    (g := fun i => tetVolume (pts val m (((T r).getLGCell i).getD 0))) (by
      intro i hi
      rw [cellCoords_eq H L (hlg i hi) hp]; rfl)
  obtain ⟨la, a1, a2⟩ := range_mapM (f := fun c => complete fun f => (faceCoords val part (T r) c f).map triangleArea)
    (k := (T r).nCells)
    (g := fun i f => triangleArea (facePoints (pts val m (((T r).getLGCell i).getD 0)) f.succAbove)) (by
      intro i hi
      refine complete_iff.2 fun f => ?_
      obtain ⟨t, ht, e⟩ := faceCoords_eq H L (hlg i hi) hp f
      rw [e, Option.map_some, area_order _ f t _ ht (std_table f)])
  obtain ⟨ld, d1, d2⟩ := list_mapM (l := omega)
    (f := fun om => (List.range (T r).nCells).mapM fun c => complete fun f =>
      (faceCoords val part (T r) c f).bind fun q => (cellCoords val part (T r) c).bind fun p => omegaDotN om q p)
    (Q := fun om l => ∀ i < (T r).nCells, l[i]? = some (dotN val m om (((T r).getLGCell i).getD 0))) (by
      intro om _
      refine range_mapM fun i hi => complete_iff.2 fun f => ?_
      obtain ⟨t, ht, e⟩ := faceCoords_eq H L (hlg i hi) hp f
      rw [e, Option.bind_some, cellCoords_eq H L (hlg i hi) hp, Option.bind_some, dotN_eq (nd (hlg i hi)) ht])
  refine ⟨⟨lv, la, ld⟩, ?_, ?_⟩
  · unfold constructor
    rw [v1]
    simp only [Option.bind_eq_bind, Option.bind_some]
    rw [a1]
    simp only [Option.bind_some]
    rw [d1]
    rfl
  · intro i c hc
    obtain ⟨e1, -, e3, -⟩ := isCell_lg H L hc
    have e : ((T r).getLGCell i).getD 0 = c := by rw [e1]; rfl
    refine ⟨by rw [v2 i e3, e], by rw [a2 i e3, e], fun a om ha => ?_⟩
    obtain ⟨l, q1, q2⟩ := d2 a om ha
    rw [q1, Option.bind_some, q2 i e3, e]

/-! ## The problem -/

theorem det_eq (p : Fin 4 → Pt) : tetVolume p = |(Matrix.of fun i j : Fin 3 => p i.succ j - p 0 j).det| / 6 := by
  rw [tetVolume_eq]
  congr 2
  rw [Matrix.det_fin_three]
  simp [D, dot, cross, sub]
  ring

theorem across_cells (H : Tets m) {c c' : Nat} {f f' : Fin 4} (h : Across m c f c' f') : c < m.numCells ∧ c' < m.numCells := by
  obtain ⟨-, g, ⟨d, e, k, h1, -⟩, ⟨d', e', k', h1', -⟩⟩ := h
  rw [H.toSound.cells]
  exact ⟨(List.getElem?_eq_some_iff.1 h1).1, (List.getElem?_eq_some_iff.1 h1').1⟩

/-- Cells that touch have the vertices of the face in common. -/
theorem across_share (H : Tets m) {c c' : Nat} {f f' : Fin 4} (h : Across m c f c' f') :
    ∀ i, i ≠ f' → ∃ j, j ≠ f ∧ pts val m c' i = pts val m c j := by
  obtain ⟨-, g, ⟨d, e, k, h1, h2, h3, h4⟩, ⟨d', e', k', h1', h2', h3', h4'⟩⟩ := h
  rw [h3, Option.some.injEq] at h3'
  subst h3'
  intro i hi
  obtain ⟨σ', -, hσ'⟩ := H.omits c' d' h1'
  obtain ⟨σ, -, hσ⟩ := H.omits c d h1
  have hf' : σ' k' = f' := by
    by_contra hne
    obtain ⟨j, hj⟩ := (hσ' k' e (by rw [h2']; exact h3) f').2 (Ne.symm hne)
    exact h4' j hj
  have hf : σ k = f := by
    by_contra hne
    obtain ⟨j, hj⟩ := (hσ k e (by rw [h2]; exact h3) f).2 (Ne.symm hne)
    exact h4 j hj
  obtain ⟨j, hj⟩ := (hσ' k' e (by rw [h2']; exact h3) i).2 (by rw [hf']; exact hi)
  obtain ⟨w, hw⟩ := H.faceNode c d k e h1 (by rw [h2]; exact h3) j
  refine ⟨w, ?_, ?_⟩
  · rintro rfl
    exact h4 j hw
  · unfold pts
    rw [h1, h1', Option.bind_some, Option.bind_some, ← hj, hw]

section
variable {deck : Deck} {p : Problem ℝ} {sS : Nat → ℝ}

theorem omega_get (deck : Deck) (a : Nat) : deck.omega[a]? = (deck.dirs[a]?).map fun d => ![d.xi, d.eta, d.mu] := by
  unfold Deck.omega
  rw [List.getElem?_map]

theorem radius_dist (x : Pt) : radius x = Verif.Problem.dist fun k => x k - Verif.Problem.cubeSize / 2 := by
  unfold radius
  rw [Verif.Problem.dist_eq]
  unfold Verif.Problem.cubeSize
  norm_num

/-- The geometry of the problem is the one the constructor computes on serial coordinates. -/
theorem describes_values (F : Fits val m) (Ds : Describes val deck m p sS) {c : Nat} (hc : c < m.numCells) :
    p.volume c = tetVolume (pts val m c) ∧
    (∀ f, p.area c f = triangleArea (facePoints (pts val m c) f.succAbove)) ∧
    ∀ (a : Nat) (om : Pt), deck.omega[a]? = some om → ∀ f, p.omegaDotN a c f = dotN val m om c f := by
  have nd := F.nondeg c hc
  have hv : p.volume c = tetVolume (pts val m c) := by rw [Ds.volume c hc, det_eq]
  refine ⟨hv, fun f => ?_, fun a om ha f => ?_⟩
  · obtain ⟨n, h1, h2⟩ := normal_outward (pts val m c) f _ (std_table f) nd
    obtain ⟨j, hj⟩ : ∃ j : Fin 4, j ≠ f := by
      fin_cases f
      exacts [⟨1, by decide⟩, ⟨0, by decide⟩, ⟨0, by decide⟩, ⟨0, by decide⟩]
    have e1 := volume_height _ f _ (std_table f) nd n h1 j hj
    have e2 := Ds.area c hc f n h2 j hj
    rw [hv, Fin.sum_univ_three] at e2
    have hpos := (volume_pos_iff _).2 nd
    set h := n 0 * (pts val m c j 0 - pts val m c f 0) + n 1 * (pts val m c j 1 - pts val m c f 1)
      + n 2 * (pts val m c j 2 - pts val m c f 2) with hh
    have hne : h ≠ 0 := by
      intro h0
      rw [h0] at e1
      rw [e1] at hpos
      simp at hpos
    have := mul_right_cancel₀ hne (e2.symm.trans e1)
    linarith
  · rw [omega_get, Option.map_eq_some_iff] at ha
    obtain ⟨d, hd, rfl⟩ := ha
    obtain ⟨n, h1, h2⟩ := dot_order (std_table f) nd ![d.xi, d.eta, d.mu]
    have := dotN_eq nd (std_table f) ![d.xi, d.eta, d.mu]
    rw [h2, Option.some.injEq] at this
    rw [← this, Ds.omega c hc f n h1 a d hd]
    rfl

/-- The value of `hatSource`. -/
theorem describes_source (Ds : Describes val deck m p sS) (hs : Sensible val deck m) {c : Nat} (hc : c < m.numCells)
    {a : Nat} {om : Pt} (ha : deck.omega[a]? = some om) {g : Nat} (hg : g < deck.nGroups) (v : Fin 4) :
    Verif.Problem.hatValue (fun k => pts val m c v k - Verif.Problem.cubeSize / 2) om (p.sigmaT c) (sS c)
      = some (p.source g v a c) := by
  rw [omega_get, Option.map_eq_some_iff] at ha
  obtain ⟨d, hd, rfl⟩ := ha
  have h0 := hs.centre c hc v
  obtain ⟨k1, k2⟩ := Ds.source c hc a d hd g hg v
  unfold Verif.Problem.hatValue
  dsimp only
  rw [← radius_dist]
  have h30 : (30 : ℝ) * radius (pts val m c v) ≠ 0 := mul_ne_zero (by norm_num) h0
  by_cases hr : radius (pts val m c v) ≤ 30
  · rw [if_pos hr, k1 hr]
    unfold Verif.Problem.fdiv Verif.Problem.cubeSize
    simp only [h30, if_false, Option.bind_eq_bind, Option.bind_some, Option.pure_def, Option.some.injEq]
    simp only [Matrix.cons_val_zero, Matrix.cons_val_one, Matrix.cons_val]
    field_simp
    norm_num
    ring
  · rw [if_neg hr, k2 (not_le.1 hr)]

/-- The problem of a mesh that fits is physical. -/
theorem describes_physical (H : Tets m) (F : Fits val m) (hs : Sensible val deck m) (Ds : Describes val deck m p sS) :
    p.Physical m := by
  have dirOf : ∀ a < p.nAngles, ∃ d, deck.dirs[a]? = some d ∧ deck.omega[a]? = some ![d.xi, d.eta, d.mu] ∧
      (![d.xi, d.eta, d.mu] : Pt) ≠ 0 := by
    intro a ha
    rw [Ds.angles] at ha
    refine ⟨deck.dirs[a], List.getElem?_eq_getElem ha, by rw [omega_get, List.getElem?_eq_getElem ha]; rfl, ?_⟩
    intro h
    have h1 := hs.dirs _ (List.getElem_mem ha)
    have e0 : (deck.dirs[a]).xi = 0 := congrFun h 0
    have e1 : (deck.dirs[a]).eta = 0 := congrFun h 1
    have e2 : (deck.dirs[a]).mu = 0 := congrFun h 2
    rw [e0, e1, e2] at h1
    norm_num at h1
  have geo : ∀ c < m.numCells, ∀ om : Pt,
      ∑ f, triangleArea (facePoints (pts val m c) f.succAbove) * dotN val m om c f = 0 ∧
      (om ≠ 0 → ∃ f, triangleArea (facePoints (pts val m c) f.succAbove) * dotN val m om c f ≠ 0) := by
    intro c hc om
    have nd := F.nondeg c hc
    obtain ⟨M, hM⟩ := geomOf_exists (fun _ => pts val m c) (fun _ f => f.succAbove) (fun _ => om) (fun _ f => std_table f)
      (fun _ => nd)
    have G := hM 0 0
    have e : ∀ f, M.omegaDotN 0 0 f = dotN val m om c f := by
      intro f
      have := G.dotN f
      rw [dotN_eq nd (std_table f), Option.some.injEq] at this
      exact this.symm
    have := geom_closed M _ _ _ 0 0 G
    simp only [G.area, e] at this
    exact this
  refine ⟨?_, ?_, ?_, ?_, ?_, ?_⟩
  · intro c hc
    rw [(describes_values F Ds hc).1]
    exact (volume_pos_iff _).2 (F.nondeg c hc)
  · intro c hc f
    rw [(describes_values F Ds hc).2.1]
    exact (area_pos _ f _ (std_table f) (F.nondeg c hc)).le
  · intro c hc
    have hc' : c < m.cells.length := by rw [← H.toSound.cells]; exact hc
    rcases Ds.sigma c _ (List.getElem?_eq_getElem hc') with ⟨-, h, -⟩ | ⟨-, h, -⟩
    · rw [h]; exact hs.sigma1
    · rw [h]; exact hs.sigma2
  · intro c hc a ha
    obtain ⟨d, -, h2, -⟩ := dirOf a ha
    obtain ⟨-, e1, e2⟩ := describes_values F Ds hc
    simp only [e1, e2 a _ h2]
    exact (geo c hc _).1
  · intro c hc a ha
    obtain ⟨d, -, h2, h3⟩ := dirOf a ha
    obtain ⟨-, e1, e2⟩ := describes_values F Ds hc
    simp only [e1, e2 a _ h2]
    exact .inr ((geo c hc _).2 h3)
  · intro c f c' f' hx a ha
    obtain ⟨d, -, h2, -⟩ := dirOf a ha
    obtain ⟨hc, hc'⟩ := across_cells H hx
    rw [(describes_values F Ds hc).2.2 a _ h2, (describes_values F Ds hc').2.2 a _ h2]
    obtain ⟨w, h3, h4, -⟩ := omega_opposite (pts val m c) (pts val m c') f f' _ _ (std_table f) (std_table f') (F.nondeg c hc)
      (F.nondeg c' hc') (across_share H hx) (F.sides c f c' f' hx) ![d.xi, d.eta, d.mu]
    rw [dotN_eq (F.nondeg c hc) (std_table f), Option.some.injEq] at h3
    rw [dotN_eq (F.nondeg c' hc') (std_table f'), Option.some.injEq] at h4
    rw [h4, h3]

end

end Verif.Program
