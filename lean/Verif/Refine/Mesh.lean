import Verif.Refine.Spec
import Mathlib.Data.List.Induction

/-!
# C48: refining a mesh
-/
set_option linter.unusedSectionVars false
set_option linter.unusedVariables false

namespace Verif.Refine

open Verif.MeshFile

/-! ### Lists -/

theorem mapM_some {α β : Type} {f : α → Option β} {g : α → β} {l : List α} (h : ∀ a ∈ l, f a = some (g a)) :
    l.mapM f = some (l.map g) := by
  induction l with
  | nil => rfl
  | cons a l ih =>
    rw [List.mapM_cons, h a (List.mem_cons_self ..), ih fun b hb => h b (List.mem_cons_of_mem _ hb)]
    rfl

theorem foldlM_flat {α β σ : Type} {f : σ → α → Option σ} {g : α → List β} {h : σ → β → Option σ} {l : List α}
    (hf : ∀ a ∈ l, ∀ s, f s a = (g a).foldlM h s) : ∀ s, l.foldlM f s = (l.flatMap g).foldlM h s := by
  induction l with
  | nil => intro s; rfl
  | cons a l ih =>
    intro s
    rw [List.foldlM_cons, List.flatMap_cons, List.foldlM_append, hf a (List.mem_cons_self ..)]
    congr 1
    funext s'
    exact ih (fun b hb => hf b (List.mem_cons_of_mem _ hb)) s'

theorem flat_get {α β : Type} {f : α → List β} (hf : ∀ a, (f a).length = 8) (l : List α) : ∀ (c t : Nat), t < 8 →
    (l.flatMap f)[8 * c + t]? = (l[c]?).bind fun a => (f a)[t]? := by
  induction l with
  | nil => intro c t _; simp
  | cons a l ih =>
    intro c t ht
    rw [List.flatMap_cons, List.getElem?_append, hf a]
    cases c with
    | zero => rw [if_pos (by omega)]; simp
    | succ c =>
      rw [if_neg (by omega), show 8 * (c + 1) + t - 8 = 8 * c + t by omega, ih c t ht]
      simp

theorem flat_len {α β : Type} {f : α → List β} (hf : ∀ a, (f a).length = 8) (l : List α) :
    (l.flatMap f).length = 8 * l.length := by
  induction l with
  | nil => rfl
  | cons a l ih => rw [List.flatMap_cons, List.length_append, hf, ih, List.length_cons]; omega

variable {K : Type} [Field K] [LinearOrder K]

/-! ### The tolerance -/

theorem maxOpt_spec (l : List K) : ∀ a : Option K, (l ≠ [] ∨ a ≠ none) →
    ∃ z, l.foldl maxOpt a = some z ∧ (z ∈ l ∨ a = some z) ∧ (∀ y ∈ l, y ≤ z) ∧ ∀ y, a = some y → y ≤ z := by
  induction l with
  | nil =>
    rintro a (h | h)
    · exact absurd rfl h
    · obtain ⟨z, rfl⟩ := Option.ne_none_iff_exists'.1 h
      exact ⟨z, rfl, Or.inr rfl, by simp, by simp⟩
  | cons b l ih =>
    intro a _
    have hs : maxOpt a b ≠ none := by cases a <;> simp [maxOpt]
    obtain ⟨z, h1, h2, h3, h4⟩ := ih (maxOpt a b) (Or.inr hs)
    refine ⟨z, h1, ?_, ?_, ?_⟩
    · rcases h2 with h2 | h2
      · exact Or.inl (List.mem_cons_of_mem _ h2)
      · cases a with
        | none => simp only [maxOpt, Option.some.injEq] at h2; left; rw [h2]; exact List.mem_cons_self ..
        | some a =>
          simp only [maxOpt, Option.some.injEq] at h2
          split_ifs at h2
          · left; rw [h2]; exact List.mem_cons_self ..
          · right; rw [h2]
    · intro y hy
      rcases List.mem_cons.1 hy with rfl | hy
      · cases a with
        | none => exact h4 y rfl
        | some a =>
          have := h4 _ (rfl : maxOpt (some a) y = _)
          split_ifs at this with hh
          · exact this
          · exact (not_lt.1 hh).trans this
      · exact h3 y hy
    · rintro y rfl
      have := h4 _ (rfl : maxOpt (some y) b = _)
      split_ifs at this with hh
      · exact hh.le.trans this
      · exact this

theorem minOpt_spec (l : List K) : ∀ a : Option K, (l ≠ [] ∨ a ≠ none) →
    ∃ z, l.foldl minOpt a = some z ∧ (z ∈ l ∨ a = some z) ∧ (∀ y ∈ l, z ≤ y) ∧ ∀ y, a = some y → z ≤ y := by
  induction l with
  | nil =>
    rintro a (h | h)
    · exact absurd rfl h
    · obtain ⟨z, rfl⟩ := Option.ne_none_iff_exists'.1 h
      exact ⟨z, rfl, Or.inr rfl, by simp, by simp⟩
  | cons b l ih =>
    intro a _
    have hs : minOpt a b ≠ none := by cases a <;> simp [minOpt]
    obtain ⟨z, h1, h2, h3, h4⟩ := ih (minOpt a b) (Or.inr hs)
    refine ⟨z, h1, ?_, ?_, ?_⟩
    · rcases h2 with h2 | h2
      · exact Or.inl (List.mem_cons_of_mem _ h2)
      · cases a with
        | none => simp only [minOpt, Option.some.injEq] at h2; left; rw [h2]; exact List.mem_cons_self ..
        | some a =>
          simp only [minOpt, Option.some.injEq] at h2
          split_ifs at h2
          · left; rw [h2]; exact List.mem_cons_self ..
          · right; rw [h2]
    · intro y hy
      rcases List.mem_cons.1 hy with rfl | hy
      · cases a with
        | none => exact h4 y rfl
        | some a =>
          have := h4 _ (rfl : minOpt (some a) y = _)
          split_ifs at this with hh
          · exact this
          · exact this.trans (not_lt.1 hh)
      · exact h3 y hy
    · rintro y rfl
      have := h4 _ (rfl : minOpt (some y) b = _)
      split_ifs at this with hh
      · exact this.trans hh.le
      · exact this

/-- The coordinates `i` of the corners. -/
theorem mem_coords {ts : List (Tet K)} {i : Fin 3} {z : K} :
    z ∈ ts.flatMap (fun x => [x 0 i, x 1 i, x 2 i, x 3 i]) ↔ ∃ x ∈ ts, ∃ k, z = x k i := by
  simp [Fin.exists_fin_succ]

variable [IsStrictOrderedRing K]

/-- The extent in one coordinate. -/
theorem extent_spec {ts : List (Tet K)} (hne : ts ≠ []) (i : Fin 3) :
    IsGreatest {z | ∃ x ∈ ts, ∃ y ∈ ts, ∃ k k', z = x k i - y k' i}
      (((ts.flatMap fun x => [x 0 i, x 1 i, x 2 i, x 3 i]).foldl maxOpt none).getD 0 -
        ((ts.flatMap fun x => [x 0 i, x 1 i, x 2 i, x 3 i]).foldl minOpt none).getD 0) := by
  have hc : (ts.flatMap fun x => [x 0 i, x 1 i, x 2 i, x 3 i]) ≠ [] := by
    cases ts with
    | nil => exact absurd rfl hne
    | cons x ts => simp
  obtain ⟨M, a1, a2, a3, -⟩ := maxOpt_spec _ none (Or.inl hc)
  obtain ⟨L, b1, b2, b3, -⟩ := minOpt_spec _ none (Or.inl hc)
  rw [a1, b1]
  simp only [Option.getD_some]
  constructor
  · obtain ⟨x, hx, k, hk⟩ := mem_coords.1 (a2.resolve_right (by simp))
    obtain ⟨y, hy, k', hk'⟩ := mem_coords.1 (b2.resolve_right (by simp))
    exact ⟨x, hx, y, hy, k, k', by rw [hk, hk']⟩
  · rintro z ⟨x, hx, y, hy, k, k', rfl⟩
    exact sub_le_sub (a3 _ (mem_coords.2 ⟨x, hx, k, rfl⟩)) (b3 _ (mem_coords.2 ⟨y, hy, k', rfl⟩))

/-- `graphDiameter` is the largest difference of a coordinate between two corners. -/
theorem diameter_spec {ts : List (Tet K)} (hne : ts ≠ []) :
    IsGreatest {z | ∃ x ∈ ts, ∃ y ∈ ts, ∃ k k' i, z = x k i - y k' i} (diameter ts) := by
  have h (i : Fin 3) := extent_spec hne i
  simp only [diameter]
  constructor
  · rcases max_choice (α := K) _ _ with e | e
    · rw [e]
      obtain ⟨x, hx, y, hy, k, k', hz⟩ := (h 0).1
      exact ⟨x, hx, y, hy, k, k', 0, hz⟩
    · rw [e]
      rcases max_choice (α := K) _ _ with e' | e'
      · rw [e']
        obtain ⟨x, hx, y, hy, k, k', hz⟩ := (h 1).1
        exact ⟨x, hx, y, hy, k, k', 1, hz⟩
      · rw [e']
        obtain ⟨x, hx, y, hy, k, k', hz⟩ := (h 2).1
        exact ⟨x, hx, y, hy, k, k', 2, hz⟩
  · rintro z ⟨x, hx, y, hy, k, k', i, hz⟩
    have := (h i).2 ⟨x, hx, y, hy, k, k', hz⟩
    match i with
    | 0 => exact this.trans (le_max_left _ _)
    | 1 => exact this.trans ((le_max_left _ _).trans (le_max_right _ _))
    | 2 => exact this.trans ((le_max_right _ _).trans (le_max_right _ _))

theorem isTol_nonneg {val : Nat → K} {m : SerialMesh} {tol : K} (h : IsTol val m tol) : 0 ≤ tol := by
  obtain ⟨D, ⟨⟨d, hd, d', hd', k, k', i, e⟩, hm⟩, rfl⟩ := h
  have : (0 : K) ≤ D := hm ⟨d, hd, d, hd, k, k, i, by simp⟩
  exact mul_nonneg (by positivity) this

/-- The tolerance is determined. -/
theorem isTol_iff {val : Nat → K} {m : SerialMesh} {tol : K} (hne : m.cells ≠ []) :
    IsTol val m tol ↔ tol = tolOf (m.cells.map (tetOf val m)) := by
  have h := diameter_spec (ts := m.cells.map (tetOf val m)) (by simpa using hne)
  have hs : {z | ∃ x ∈ m.cells.map (tetOf val m), ∃ y ∈ m.cells.map (tetOf val m), ∃ k k' i, z = x k i - y k' i} =
      {z | ∃ d ∈ m.cells, ∃ d' ∈ m.cells, ∃ k k' i, z = tetOf val m d k i - tetOf val m d' k' i} := by
    ext z; simp
  rw [hs] at h
  constructor
  · rintro ⟨D, hD, rfl⟩
    rw [hD.unique h, tolOf]
  · rintro rfl
    exact ⟨_, h, rfl⟩

/-! ### The loops -/

/-- The refined tetrahedra in order. -/
def flatTets (val : Nat → K) (m : SerialMesh) : List (Nat × Tet K) :=
  m.cells.flatMap fun d => (List.finRange 8).map fun t => (d.material, refineTet (tetOf val m d) t)

theorem corners_eq {val : Nat → K} {m : SerialMesh} {d : SCell} (h : ∀ k, d.nodes k < m.nodes.length) :
    corners val m d = some (tetOf val m d) := by
  have e (k : Fin 4) : m.nodes[d.nodes k]? = some (m.nodes[d.nodes k]'(h k)) := List.getElem?_eq_getElem (h k)
  simp only [corners, e, Option.bind_some]
  congr 1
  funext k
  have : tetOf val m d k = fun i => val ((m.nodes[d.nodes k]'(h k)).coords i) := by
    funext i; simp only [tetOf, pos, e]; rfl
  rw [this]
  match k with
  | 0 => rfl
  | 1 => rfl
  | 2 => rfl
  | 3 => rfl

theorem range_mapM {α β : Type} (l : List α) (g : α → β) (f : Nat → Option β) (h : ∀ c a, l[c]? = some a → f c = some (g a)) :
    (List.range l.length).mapM f = some (l.map g) := by
  induction l using List.reverseRecOn with
  | nil => rfl
  | append_singleton l a ih =>
    have h1 : f l.length = some (g a) := h l.length a (by simp)
    have h2 := ih fun c b hb => h c b (by rw [List.getElem?_append_left (List.getElem?_eq_some_iff.1 hb).1, hb])
    rw [List.length_append, List.length_singleton, List.range_succ, List.mapM_append, h2]
    simp [h1]

theorem range_foldlM {α σ : Type} (l : List α) (f : σ → Nat → Option σ) (f' : σ → α → Option σ)
    (h : ∀ c a, l[c]? = some a → ∀ s, f s c = f' s a) (s : σ) : (List.range l.length).foldlM f s = l.foldlM f' s := by
  induction l using List.reverseRecOn with
  | nil => rfl
  | append_singleton l a ih =>
    have h1 := h l.length a (by simp)
    have h2 := ih fun c b hb => h c b (by rw [List.getElem?_append_left (List.getElem?_eq_some_iff.1 hb).1, hb])
    rw [List.length_append, List.length_singleton, List.range_succ, List.foldlM_append, List.foldlM_append, h2]
    congr 1
    funext s'
    simp [h1 s']

/-- The whole refinement puts the refined tetrahedra one after the other. -/
theorem refine_flat {val : Nat → K} {m : SerialMesh} (hc : m.numCells = m.cells.length)
    (hr : ∀ d ∈ m.cells, ∀ k, d.nodes k < m.nodes.length) (h1000 : 1000 ≤ m.numCells) :
    refineMesh val m = ((flatTets val m).foldlM (fun s u => addTet (tolOf (m.cells.map (tetOf val m))) u.1 s u.2) {}).bind
      fun s => some ⟨s.cells, s.faces, s.nodes⟩ := by
  have hcorner (c : Nat) (d : SCell) (h : m.cells[c]? = some d) : corners val m d = some (tetOf val m d) :=
    corners_eq (hr d (List.mem_of_getElem? h))
  have h1 : allCorners val m = some (m.cells.map (tetOf val m)) := by
    unfold allCorners
    rw [hc]
    refine range_mapM _ _ _ fun c d h => ?_
    rw [h]; exact hcorner c d h
  unfold refineMesh
  rw [h1, Option.bind_some]
  congr 1
  rw [hc, range_foldlM m.cells _ (fun s d => ((List.finRange 8).map (refineTet (tetOf val m d))).foldlM
    (addTet (tolOf (m.cells.map (tetOf val m))) d.material) s)]
  · refine foldlM_flat (fun d _ s => ?_) _
    rw [List.foldlM_map, List.foldlM_map]
  · intro c d h s
    have hp : progress m.numCells c = some (decide (c % (m.numCells / 1000) = 0)) := by
      unfold progress
      rw [if_neg (by omega)]
    simp [refineCell, hp, h, hcorner c d h]

/-- Refining a mesh of one to 999 cells divides by zero. -/
theorem refine_small {val : Nat → K} {m : SerialMesh} (h0 : 0 < m.numCells) (h1 : m.numCells < 1000) : refineMesh val m = none := by
  unfold refineMesh
  cases allCorners val m with
  | none => rfl
  | some ts =>
    rw [Option.bind_some]
    obtain ⟨n, hn⟩ : ∃ n, m.numCells = n + 1 := ⟨m.numCells - 1, by omega⟩
    have : (List.range m.numCells).foldlM (refineCell (tolOf ts) val m) {} = none := by
      rw [hn, List.range_succ_eq_map, List.foldlM_cons]
      have : refineCell (tolOf ts) val m {} 0 = none := by
        unfold refineCell progress
        rw [if_pos (by omega)]; rfl
      rw [this]; rfl
    rw [this]; rfl

/-- Refining the empty mesh gives the empty mesh. -/
theorem refine_empty {val : Nat → K} {m : SerialMesh} (h0 : m.numCells = 0) : refineMesh val m = some ⟨[], [], []⟩ := by
  simp [refineMesh, allCorners, h0]

/-! ### Result -/

section
variable {val : Nat → K} {m : SerialMesh} {tol : K}

/-- The points of the refined mesh. -/
def MeshPt (val : Nat → K) (m : SerialMesh) (p : Pt K) : Prop := ∃ a b, Edge m a b ∧ p = half (pos val m a) (pos val m b)

theorem child_pt (d : SCell) (t : Fin 8) (k : Fin 4) : refineTet (tetOf val m d) t k =
    half (pos val m (d.nodes (lbl (minIndex (tetOf val m d)) t k).1)) (pos val m (d.nodes (lbl (minIndex (tetOf val m d)) t k).2)) := by
  rw [refineTet_eq]; rfl

theorem half_comm (p q : Pt K) : half p q = half q p := by
  funext i; simp only [half]; ring

theorem half_name {a b a' b' : Nat} (h : s(a, b) = s(a', b')) : half (pos val m a) (pos val m b) = half (pos val m a') (pos val m b') := by
  rcases Sym2.eq_iff.1 h with ⟨rfl, rfl⟩ | ⟨rfl, rfl⟩
  · rfl
  · exact half_comm _ _

end

end Verif.Refine
