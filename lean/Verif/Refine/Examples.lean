import Verif.Refine.Props
import Verif.TychoMesh.Exchange
import Mathlib.Tactic.NormNum
import Mathlib.Tactic.IntervalCases

/-!
# C48, C49: meshes that are refined, that are merged, and that fail
-/
set_option linter.unusedSectionVars false
set_option linter.unusedVariables false

namespace Verif.Refine

open Verif.MeshFile

variable {K : Type} [Field K] [LinearOrder K] [IsStrictOrderedRing K]
variable {val : Nat → K} {m : SerialMesh} {tol : K}

/-- A mesh of tetrahedra without repeated faces is conforming if no two cells have the same nodes. -/
theorem Conforming.of_tets (T : TychoMesh.Tets m)
    (hf : ∀ (g h : Nat) (e f : SFace), m.faces[g]? = some e → m.faces[h]? = some f → (∀ n, (∃ j, e.nodes j = n) ↔ ∃ j, f.nodes j = n) → g = h)
    (hs : ∀ (c c' : Nat) (d d' : SCell), m.cells[c]? = some d → m.cells[c']? = some d' → (∀ k, ∃ k', d.nodes k = d'.nodes k') → c = c') :
    Conforming m where
  count := T.cells
  inRange d hd k := by
    obtain ⟨c, hc⟩ := List.mem_iff_getElem?.1 hd
    have := T.cellNode c d hc k
    rwa [T.nodes] at this
  distinct d hd := by
    obtain ⟨c, hc⟩ := List.mem_iff_getElem?.1 hd
    exact T.distinct c d hc
  noSame := hs
  noThree := by
    intro c c' c'' d d' d'' h h' h'' n hn n1 n2 n3
    -- the face of a cell with three given nodes
    have face {c : Nat} {d : SCell} (h : m.cells[c]? = some d) (hk : ∀ j, ∃ k, n j = d.nodes k) :
        ∃ (g : Nat) (e : SFace), m.faces[g]? = some e ∧ (∃ j, e.cells j = c) ∧ ∀ v, (∃ j, e.nodes j = v) ↔ ∃ j, n j = v := by
      obtain ⟨σ, hσ, ho⟩ := T.omits c d h
      choose φ hφ using hk
      have hφi : Function.Injective φ := fun a b e => hn (by rw [hφ, hφ, e])
      obtain ⟨f, hff⟩ : ∃ f, ∀ i, (∃ j, φ j = i) ↔ i ≠ f := by
        clear hφ
        revert φ
        decide +kernel
      obtain ⟨k, hk⟩ := (Finite.injective_iff_surjective.1 hσ) f
      have hlt := T.cellFace c d h k
      rw [T.faces] at hlt
      have he := List.getElem?_eq_getElem hlt
      refine ⟨_, _, he, T.lists c d k _ h he, fun v => ?_⟩
      constructor
      · rintro ⟨j, hj⟩
        obtain ⟨i, hi⟩ := T.faceNode c d k _ h he j
        have hi' := (ho k _ he i).1 ⟨j, hi⟩
        obtain ⟨j', hj'⟩ := (hff i).2 (by rw [← hk]; exact hi')
        exact ⟨j', by rw [hφ, hj', ← hi, hj]⟩
      · rintro ⟨j, hj⟩
        have := (hff (φ j)).1 ⟨j, rfl⟩
        obtain ⟨j', hj'⟩ := (ho k _ he (φ j)).2 (by rw [hk]; exact this)
        exact ⟨j', by rw [hj', ← hφ, hj]⟩
    obtain ⟨g, e, a1, ⟨j1, b1⟩, q1⟩ := face h n1
    obtain ⟨g', e', a2, ⟨j2, b2⟩, q2⟩ := face h' n2
    obtain ⟨g'', e'', a3, ⟨j3, b3⟩, q3⟩ := face h'' n3
    have e12 := hf g g' e e' a1 a2 fun v => (q1 v).trans (q2 v).symm
    have e13 := hf g g'' e e'' a1 a3 fun v => (q1 v).trans (q3 v).symm
    subst e12 e13
    rw [a1] at a2 a3
    cases a2
    cases a3
    have : j1 = j2 ∨ j1 = j3 ∨ j2 = j3 := by clear * -; revert j1 j2 j3; decide
    rcases this with rfl | rfl | rfl
    · left; rw [← b1, b2]
    · right; left; rw [← b1, b3]
    · right; right; rw [← b2, b3]

/-- Two corners of the refined mesh get the same number exactly when they are within the tolerance in each
coordinate, if being so is transitive; this needs no other property of the mesh. -/
theorem refine_numbers (hc : m.numCells = m.cells.length) (hr : ∀ d ∈ m.cells, ∀ k, d.nodes k < m.nodes.length) (ht : IsTol val m tol)
    (chain : ∀ a b a' b' a'' b'', Edge m a b → Edge m a' b' → Edge m a'' b'' → ∀ i,
      Near tol (half (pos val m a) (pos val m b) i) (half (pos val m a') (pos val m b') i) →
      Near tol (half (pos val m a') (pos val m b') i) (half (pos val m a'') (pos val m b'') i) →
      Near tol (half (pos val m a) (pos val m b) i) (half (pos val m a'') (pos val m b'') i))
    (h1000 : 1000 ≤ m.numCells) (hfit : 32 * m.numCells ≤ invalid) : ∃ r, refineMesh val m = some r ∧ r.cells.length = 8 * m.numCells ∧
      ∀ (c c' : Nat) (d d' : SCell) (t t' : Fin 8), m.cells[c]? = some d → m.cells[c']? = some d' → ∃ e e', r.cells[8 * c + t.val]? = some e ∧
        r.cells[8 * c' + t'.val]? = some e' ∧ ∀ k k', e.nodes k = e'.nodes k' ↔
          NearPt tol (refineTet (tetOf val m d) t k) (refineTet (tetOf val m d') t' k') := by
  have hne : m.cells ≠ [] := by
    intro h
    rw [h] at hc
    simp at hc
    omega
  have ht0 := isTol_nonneg ht
  have htol := (isTol_iff hne).1 ht
  have W : WeakOn (nodeLt tol) (MeshPt val m) := nodeLt_weak ht0 (by
    rintro p q r i ⟨a, b, h1, rfl⟩ ⟨a', b', h2, rfl⟩ ⟨a'', b'', h3, rfl⟩
    exact chain a b a' b' a'' b'' h1 h2 h3 i)
  have hlen : (flatTets val m).length = 8 * m.cells.length := flat_len (by simp) m.cells
  have hget (c : Nat) (d : SCell) (t : Fin 8) (h : m.cells[c]? = some d) :
      (flatTets val m)[8 * c + t.val]? = some (d.material, refineTet (tetOf val m d) t) := by
    unfold flatTets
    rw [flat_get (by simp) m.cells c t.val t.isLt, h]
    simp
  have hpt (c : Nat) (d : SCell) (t : Fin 8) (k : Fin 4) (h : m.cells[c]? = some d) : MeshPt val m (refineTet (tetOf val m d) t k) :=
    ⟨_, _, ⟨c, d, _, _, h, rfl, rfl⟩, child_pt d t k⟩
  have hP : ∀ u ∈ flatTets val m, ∀ k, MeshPt val m (u.2 k) := by
    intro u hu k
    unfold flatTets at hu
    obtain ⟨d, hd, hu⟩ := List.mem_flatMap.1 hu
    obtain ⟨t, -, rfl⟩ := List.mem_map.1 hu
    obtain ⟨c, hc⟩ := List.mem_iff_getElem?.1 hd
    exact hpt c d t k hc
  obtain ⟨s, hs, I⟩ := addTets_spec W (flatTets val m) (inv_nil tol (MeshPt val m)) hP (by
    rw [hlen, ← hc]; simp only [List.length_nil]; omega)
  rw [List.nil_append] at I
  have cellAt (c : Nat) (d : SCell) (t : Fin 8) (h : m.cells[c]? = some d) : ∃ e, s.cells[8 * c + t.val]? = some e ∧
      ∀ k, ∃ q, s.nodes[e.nodes k]? = some q ∧ Eqv (nodeLt tol) q (refineTet (tetOf val m d) t k) := by
    have hlt : 8 * c + t.val < s.cells.length := by
      rw [I.count]; exact (List.getElem?_eq_some_iff.1 (hget c d t h)).1
    exact ⟨_, List.getElem?_eq_getElem hlt, (I.cell _ _ _ _ (List.getElem?_eq_getElem hlt) (hget c d t h)).2.1⟩
  refine ⟨⟨s.cells, s.faces, s.nodes⟩, ?_, ?_, ?_⟩
  · rw [refine_flat hc hr h1000, ← htol, hs]; rfl
  · show s.cells.length = _
    rw [I.count, hlen, hc]
  · intro c c' d d' t t' hd hd'
    obtain ⟨e, h1, h2⟩ := cellAt c d t hd
    obtain ⟨e', h1', h2'⟩ := cellAt c' d' t' hd'
    refine ⟨e, e', h1, h1', fun k k' => ?_⟩
    obtain ⟨q, a, b⟩ := h2 k
    obtain ⟨q', a', b'⟩ := h2' k'
    have mq := I.node.pts q (List.mem_of_getElem? a)
    have mq' := I.node.pts q' (List.mem_of_getElem? a')
    rw [← nodeLt_eqv ht0]
    constructor
    · intro h
      rw [h, a'] at a
      cases a
      exact W.eqv _ _ _ (hpt c d t k hd) mq (hpt c' d' t' k' hd') b.symm b'
    · intro h
      refine I.node.one _ _ q q' a a' ?_
      exact W.eqv _ _ _ mq (hpt c d t k hd) mq' b (W.eqv _ _ _ (hpt c d t k hd) (hpt c' d' t' k' hd') mq' h b'.symm)

/-- Refinement of a conforming mesh whose points are apart fails exactly for one to 999 cells. -/
theorem refine_fails_iff_partial (C : Conforming m) (ht : 0 < m.numCells → IsTol val m tol ∧ Apart val m tol) (hfit : 32 * m.numCells ≤ invalid) :
    refineMesh val m = none ↔ 0 < m.numCells ∧ m.numCells < 1000 := by
  constructor
  · intro h
    rcases Nat.eq_zero_or_pos m.numCells with h0 | h0
    · rw [refine_empty h0] at h; exact absurd h (by simp)
    · refine ⟨h0, ?_⟩
      by_contra hlt
      obtain ⟨h1, h2⟩ := ht h0
      obtain ⟨r, hr, -⟩ := refine_correct_partial C h1 h2 (by omega) hfit
      rw [hr] at h
      exact absurd h (by simp)
  · rintro ⟨h0, h1⟩
    exact refine_small h0 h1

/-! ### A mesh of 500 pairs of tetrahedra -/

/-- Corners of one pair. -/
def pairOff : Nat → Fin 3 → Nat
  | 0 => ![0, 0, 2]
  | 1 => ![2, 0, 2]
  | 2 => ![0, 2, 2]
  | 3 => ![0, 0, 4]
  | _ => ![0, 0, 0]

/-- Faces of the first and second cell of a pair: face `k` leaves out node `k`. -/
def cellFaceOff : Nat → Fin 4 → Nat
  | 0 => ![1, 2, 3, 0]
  | _ => ![4, 5, 6, 0]

/-- Nodes of the faces of a pair. -/
def faceNodeOff : Nat → Fin 3 → Nat
  | 0 => ![0, 1, 2]
  | 1 => ![1, 2, 3]
  | 2 => ![0, 2, 3]
  | 3 => ![0, 1, 3]
  | 4 => ![1, 2, 4]
  | 5 => ![0, 2, 4]
  | _ => ![0, 1, 4]

/-- Pair `p` has the nodes `5p` to `5p + 4` and the cells `2p` and `2p + 1`, which share the first three
nodes, and the faces `7p` to `7p + 6`, `7p` being the common one. -/
def pairMesh : SerialMesh where
  numCells := 1000
  numFaces := 3500
  numNodes := 2500
  cells := (List.range 1000).map fun c => ⟨fun k => 7 * (c / 2) + cellFaceOff (c % 2) k,
    ![5 * (c / 2), 5 * (c / 2) + 1, 5 * (c / 2) + 2, 5 * (c / 2) + 3 + c % 2], 1 + c % 2⟩
  faces := (List.range 3500).map fun g => ⟨![2 * (g / 7) + (if g % 7 < 4 then 0 else 1), if g % 7 = 0 then 2 * (g / 7) + 1 else invalid],
    fun j => 5 * (g / 7) + faceNodeOff (g % 7) j⟩
  nodes := (List.range 2500).map fun n => ⟨![10 * (n / 5) + pairOff (n % 5) 0, pairOff (n % 5) 1, pairOff (n % 5) 2]⟩

theorem pair_cell {c : Nat} {d : SCell} (h : pairMesh.cells[c]? = some d) : c < 1000 ∧
    d.nodes = ![5 * (c / 2), 5 * (c / 2) + 1, 5 * (c / 2) + 2, 5 * (c / 2) + 3 + c % 2] := by
  have hl := (List.getElem?_eq_some_iff.1 h).1
  simp only [pairMesh, List.length_map, List.length_range] at hl
  simp only [pairMesh, List.getElem?_map, List.getElem?_range hl, Option.map_some, Option.some.injEq] at h
  exact ⟨hl, by rw [← h]⟩

theorem pair_nodes {c : Nat} {d : SCell} (h : pairMesh.cells[c]? = some d) (k : Fin 4) :
    d.nodes k = 5 * (c / 2) + if k.val < 3 then k.val else 3 + c % 2 := by
  rw [(pair_cell h).2]
  match k with
  | 0 => rfl
  | 1 => rfl
  | 2 => rfl
  | 3 => show 5 * (c / 2) + 3 + c % 2 = _; rw [if_neg (by decide)]; omega

theorem pair_conforming : Conforming pairMesh where
  count := by simp [pairMesh]
  inRange := by
    intro d hd k
    obtain ⟨c, hc⟩ := List.mem_iff_getElem?.1 hd
    have := (pair_cell hc).1
    rw [pair_nodes hc k]
    simp only [pairMesh, List.length_map, List.length_range]
    split_ifs <;> omega
  distinct := by
    intro d hd k k' h
    obtain ⟨c, hc⟩ := List.mem_iff_getElem?.1 hd
    rw [pair_nodes hc, pair_nodes hc] at h
    apply Fin.ext
    split_ifs at h <;> omega
  noSame := by
    intro c c' d d' h h' hk
    have h3 := hk 3
    obtain ⟨k', h3⟩ := h3
    rw [pair_nodes h, pair_nodes h', if_neg (by decide)] at h3
    split_ifs at h3 <;> omega
  noThree := by
    intro c c' c'' d d' d'' h h' h'' n hn n1 n2 n3
    obtain ⟨k, e⟩ := n1 0
    obtain ⟨k', e'⟩ := n2 0
    obtain ⟨k'', e''⟩ := n3 0
    rw [pair_nodes h] at e
    rw [pair_nodes h'] at e'
    rw [pair_nodes h''] at e''
    split_ifs at e e' e'' <;> omega

theorem pair_pos {n : Nat} (h : n < 2500) : pos (fun n => (n : K)) pairMesh n =
    ![((10 * (n / 5) + pairOff (n % 5) 0 : Nat) : K), (pairOff (n % 5) 1 : Nat), (pairOff (n % 5) 2 : Nat)] := by
  funext i
  simp only [pos, pairMesh, List.getElem?_map, List.getElem?_range h, Option.map_some, Option.getD_some]
  fin_cases i <;> rfl

/-- The coordinates of a point of the refined mesh. -/
theorem pair_half {a b : Nat} (h : Edge pairMesh a b) : ∃ c, ∃ i j : Fin 4, c < 1000 ∧
    a = 5 * (c / 2) + (if i.val < 3 then i.val else 3 + c % 2) ∧ b = 5 * (c / 2) + (if j.val < 3 then j.val else 3 + c % 2) ∧
    half (pos (fun n => (n : K)) pairMesh a) (pos (fun n => (n : K)) pairMesh b) =
    ![((10 * (c / 2) + (pairOff (a % 5) 0 + pairOff (b % 5) 0) / 2 : Nat) : K), ((pairOff (a % 5) 1 + pairOff (b % 5) 1) / 2 : Nat),
      ((pairOff (a % 5) 2 + pairOff (b % 5) 2) / 2 : Nat)] := by
  obtain ⟨c, d, i, j, h, rfl, rfl⟩ := h
  have hc := (pair_cell h).1
  have ea := pair_nodes h i
  have eb := pair_nodes h j
  have ra : d.nodes i < 2500 := by rw [ea]; split_ifs <;> omega
  have rb : d.nodes j < 2500 := by rw [eb]; split_ifs <;> omega
  refine ⟨c, i, j, hc, ea, eb, ?_⟩
  rw [pair_pos ra, pair_pos rb]
  have qa : d.nodes i / 5 = c / 2 := by rw [ea]; split_ifs <;> omega
  have qb : d.nodes j / 5 = c / 2 := by rw [eb]; split_ifs <;> omega
  rw [qa, qb]
  have ha : d.nodes i % 5 < 5 := Nat.mod_lt _ (by decide)
  have hb : d.nodes j % 5 < 5 := Nat.mod_lt _ (by decide)
  generalize d.nodes i % 5 = u at ha
  generalize d.nodes j % 5 = v at hb
  have even : ∀ u < 5, ∀ i, pairOff u i = 2 * (pairOff u i / 2) := by decide
  have dv (i : Fin 3) : ((pairOff u i + pairOff v i) / 2 : Nat) = ((pairOff u i : K) + pairOff v i) / 2 := by
    have h1 := even u ha i
    have h2 := even v hb i
    have h3 : pairOff u i + pairOff v i = 2 * ((pairOff u i + pairOff v i) / 2) := by omega
    have h4 := congrArg (fun z : Nat => (z : K)) h3
    push_cast at h4
    linarith
  funext k
  fin_cases k
  · simp only [half]
    show ((10 * (c / 2) + pairOff u 0 : Nat) + (10 * (c / 2) + pairOff v 0 : Nat) : K) / 2 = ((10 * (c / 2) + (pairOff u 0 + pairOff v 0) / 2 : Nat) : K)
    rw [Nat.cast_add, Nat.cast_add, Nat.cast_add, dv 0]
    ring
  · exact (dv 1).symm
  · exact (dv 2).symm

theorem near_nat {K : Type} [Field K] [LinearOrder K] [IsStrictOrderedRing K] {tol : K} (h : tol < 1) {a b : Nat} (hn : Near tol (a : K) b) : a = b := by
  obtain ⟨h1, h2⟩ := hn
  have a1 : (a : K) < b + 1 := by linarith
  have a2 : (b : K) < a + 1 := by linarith
  have a1 : a < b + 1 := by exact_mod_cast a1
  have a2 : b < a + 1 := by exact_mod_cast a2
  omega

theorem pair_off_fin : ∀ u v u' v' : Fin 5, (¬ (u = 3 ∧ v = 4) ∧ ¬ (u = 4 ∧ v = 3) ∧ ¬ (u' = 3 ∧ v' = 4) ∧ ¬ (u' = 4 ∧ v' = 3) ∧
    ∀ i : Fin 3, (pairOff u i + pairOff v i) / 2 = (pairOff u' i + pairOff v' i) / 2) → (u = u' ∧ v = v') ∨ (u = v' ∧ v = u') := by
  decide +kernel

theorem pair_off_inj {u v u' v' : Nat} (hu : u < 5) (hv : v < 5) (hu' : u' < 5) (hv' : v' < 5) (h1 : ¬ (u = 3 ∧ v = 4)) (h2 : ¬ (u = 4 ∧ v = 3))
    (h3 : ¬ (u' = 3 ∧ v' = 4)) (h4 : ¬ (u' = 4 ∧ v' = 3))
    (h : ∀ i : Fin 3, (pairOff u i + pairOff v i) / 2 = (pairOff u' i + pairOff v' i) / 2) : (u = u' ∧ v = v') ∨ (u = v' ∧ v = u') := by
  have := pair_off_fin ⟨u, hu⟩ ⟨v, hv⟩ ⟨u', hu'⟩ ⟨v', hv'⟩ (by
    simp only [Fin.ext_iff]
    exact ⟨h1, h2, h3, h4, h⟩)
  simpa only [Fin.ext_iff] using this

theorem pair_small : ∀ u < 5, ∀ v < 5, ∀ i : Fin 3, (pairOff u i + pairOff v i) / 2 < 5 := by decide

theorem pair_tol {tol : K} (h : IsTol (fun n => (n : K)) pairMesh tol) : 0 ≤ tol ∧ tol < 1 := by
  refine ⟨isTol_nonneg h, ?_⟩
  obtain ⟨D, ⟨⟨d, hd, d', hd', k, k', i, e⟩, -⟩, rfl⟩ := h
  have bound (d : SCell) (hd : d ∈ pairMesh.cells) (k : Fin 4) (i : Fin 3) : 0 ≤ tetOf (fun n => (n : K)) pairMesh d k i ∧
      tetOf (fun n => (n : K)) pairMesh d k i ≤ 6000 := by
    have hr := pair_conforming.inRange d hd k
    simp only [pairMesh, List.length_map, List.length_range] at hr
    have hoff : ∀ u < 5, ∀ i : Fin 3, pairOff u i ≤ 4 := by decide
    have h0 := hoff (d.nodes k % 5) (Nat.mod_lt _ (by decide))
    simp only [tetOf]
    rw [pair_pos hr]
    match i with
    | 0 =>
      refine ⟨Nat.cast_nonneg _, ?_⟩
      have := h0 0
      have : 10 * (d.nodes k / 5) + pairOff (d.nodes k % 5) 0 ≤ 6000 := by omega
      show ((10 * (d.nodes k / 5) + pairOff (d.nodes k % 5) 0 : Nat) : K) ≤ 6000
      exact_mod_cast this
    | 1 =>
      refine ⟨Nat.cast_nonneg _, ?_⟩
      have := h0 1
      have : pairOff (d.nodes k % 5) 1 ≤ 6000 := by omega
      show ((pairOff (d.nodes k % 5) 1 : Nat) : K) ≤ 6000
      exact_mod_cast this
    | 2 =>
      refine ⟨Nat.cast_nonneg _, ?_⟩
      have := h0 2
      have : pairOff (d.nodes k % 5) 2 ≤ 6000 := by omega
      show ((pairOff (d.nodes k % 5) 2 : Nat) : K) ≤ 6000
      exact_mod_cast this
  have b1 := bound d hd k i
  have b2 := bound d' hd' k' i
  rw [e]
  have : (1 : K) / 10 ^ 14 * (tetOf (fun n => (n : K)) pairMesh d k i - tetOf (fun n => (n : K)) pairMesh d' k' i) ≤ 1 / 10 ^ 14 * 6000 := by
    apply mul_le_mul_of_nonneg_left _ (by positivity)
    linarith [b1.2, b2.1]
  refine this.trans_lt ?_
  norm_num

theorem pair_apart {tol : K} (h : IsTol (fun n => (n : K)) pairMesh tol) : Apart (fun n => (n : K)) pairMesh tol := by
  obtain ⟨t0, t1⟩ := pair_tol h
  constructor
  · intro a b a' b' h1 h2 hn
    obtain ⟨c, i, j, hc, ea, eb, e⟩ := pair_half (K := K) h1
    obtain ⟨c', i', j', hc', ea', eb', e'⟩ := pair_half (K := K) h2
    rw [e, e'] at hn
    have n0 := near_nat t1 (hn 0)
    have n1 := near_nat t1 (hn 1)
    have n2 := near_nat t1 (hn 2)
    have ha : a % 5 < 5 := Nat.mod_lt _ (by decide)
    have hb : b % 5 < 5 := Nat.mod_lt _ (by decide)
    have ha' : a' % 5 < 5 := Nat.mod_lt _ (by decide)
    have hb' : b' % 5 < 5 := Nat.mod_lt _ (by decide)
    have s1 := pair_small _ ha _ hb 0
    have s2 := pair_small _ ha' _ hb' 0
    have hcc : c / 2 = c' / 2 := by omega
    have n0' : (pairOff (a % 5) 0 + pairOff (b % 5) 0) / 2 = (pairOff (a' % 5) 0 + pairOff (b' % 5) 0) / 2 := by omega
    have x1 : ¬ (a % 5 = 3 ∧ b % 5 = 4) := by split_ifs at ea eb <;> omega
    have x2 : ¬ (a % 5 = 4 ∧ b % 5 = 3) := by split_ifs at ea eb <;> omega
    have x3 : ¬ (a' % 5 = 3 ∧ b' % 5 = 4) := by split_ifs at ea' eb' <;> omega
    have x4 : ¬ (a' % 5 = 4 ∧ b' % 5 = 3) := by split_ifs at ea' eb' <;> omega
    have qa : a / 5 = c / 2 := by split_ifs at ea <;> omega
    have qb : b / 5 = c / 2 := by split_ifs at eb <;> omega
    have qa' : a' / 5 = c' / 2 := by split_ifs at ea' <;> omega
    have qb' : b' / 5 = c' / 2 := by split_ifs at eb' <;> omega
    rcases pair_off_inj ha hb ha' hb' x1 x2 x3 x4 (fun i => by
      match i with
      | 0 => exact n0'
      | 1 => exact n1
      | 2 => exact n2) with ⟨p, q⟩ | ⟨p, q⟩
    · rw [show a = a' by omega, show b = b' by omega]
    · rw [show a = b' by omega, show b = a' by omega]; exact Sym2.eq_swap
  · intro a b a' b' a'' b'' h1 h2 h3 k n1 n2
    obtain ⟨c, i, j, hc, ea, eb, e⟩ := pair_half (K := K) h1
    obtain ⟨c', i', j', hc', ea', eb', e'⟩ := pair_half (K := K) h2
    obtain ⟨c'', i'', j'', hc'', ea'', eb'', e''⟩ := pair_half (K := K) h3
    rw [e, e'] at n1
    rw [e', e''] at n2
    rw [e, e'']
    have key {u v : Nat} (h : u = v) : Near tol (u : K) v := by
      rw [h]
      constructor <;> linarith
    match k with
    | 0 =>
      have x := near_nat t1 n1
      have y := near_nat t1 n2
      have z := x.trans y
      exact key z
    | 1 =>
      have x := near_nat t1 n1
      have y := near_nat t1 n2
      have z := x.trans y
      exact key z
    | 2 =>
      have x := near_nat t1 n1
      have y := near_nat t1 n2
      have z := x.trans y
      exact key z

/-- The theorems apply to `pairMesh`. -/
example : ∃ tol, Conforming pairMesh ∧ IsTol (fun n => (n : ℚ)) pairMesh tol ∧ Apart (fun n => (n : ℚ)) pairMesh tol ∧
    1000 ≤ pairMesh.numCells ∧ 32 * pairMesh.numCells ≤ invalid := by
  have hne : pairMesh.cells ≠ [] := by simp [pairMesh]
  exact ⟨_, pair_conforming, (isTol_iff hne).2 rfl, pair_apart ((isTol_iff hne).2 rfl), by decide, by decide⟩

/-! ### A cell thinner than the tolerance -/

/-- The corners, in units of `1e-15`. -/
def thinNodes : List SNode := [⟨![0, 0, 0]⟩, ⟨![10 ^ 15, 0, 0]⟩, ⟨![0, 10 ^ 15, 0]⟩, ⟨![0, 0, 1]⟩]

/-- One thousand times the same tetrahedron, of height `1e-15` over a base of size one. -/
def thinMesh : SerialMesh where
  numCells := 1000
  numFaces := 0
  numNodes := 4
  cells := List.replicate 1000 ⟨fun _ => 0, ![0, 1, 2, 3], 0⟩
  faces := []
  nodes := thinNodes

def thinVal (n : Nat) : ℚ := n / 10 ^ 15

theorem thin_cell {d : SCell} (h : d ∈ thinMesh.cells) : d = ⟨fun _ => 0, ![0, 1, 2, 3], 0⟩ := (List.mem_replicate.1 h).2

theorem thin_mem : ⟨fun _ => 0, ![0, 1, 2, 3], 0⟩ ∈ thinMesh.cells := List.mem_replicate.2 ⟨by decide, rfl⟩

/-- The corners. -/
def thinPos : Fin 4 → Fin 3 → ℚ := ![![0, 0, 0], ![1, 0, 0], ![0, 1, 0], ![0, 0, 1 / 10 ^ 15]]

theorem thin_pos (k : Fin 4) (i : Fin 3) : pos thinVal thinMesh k.val i = thinPos k i := by
  revert k i; decide +kernel

theorem thin_range (k : Fin 4) (i : Fin 3) : 0 ≤ thinPos k i ∧ thinPos k i ≤ 1 := by
  revert k i; decide +kernel

theorem thin_tol : IsTol thinVal thinMesh (1 / 10 ^ 14) := by
  have hn (k : Fin 4) : (![0, 1, 2, 3] : Fin 4 → Nat) k = k.val := by fin_cases k <;> rfl
  refine ⟨1, ⟨?_, ?_⟩, by norm_num⟩
  · refine ⟨_, thin_mem, _, thin_mem, 1, 0, 0, ?_⟩
    simp only [tetOf, hn, thin_pos]
    decide +kernel
  · rintro z ⟨d, hd, d', hd', k, k', i, rfl⟩
    rw [thin_cell hd, thin_cell hd']
    simp only [tetOf, hn, thin_pos]
    linarith [(thin_range k i).2, (thin_range k' i).1]

theorem thin_half {a b : Nat} (h : Edge thinMesh a b) : ∃ k l : Fin 4, a = k.val ∧ b = l.val := by
  obtain ⟨c, d, i, j, h, rfl, rfl⟩ := h
  rw [thin_cell (List.mem_of_getElem? h)]
  have hn (k : Fin 4) : (![0, 1, 2, 3] : Fin 4 → Nat) k = k.val := by fin_cases k <;> rfl
  exact ⟨i, j, hn i, hn j⟩

/-- In the mesh refined from `thinMesh`, two different corners of a cell are one node: points closer than the
tolerance are merged. -/
theorem merge_witness : ∃ r, refineMesh thinVal thinMesh = some r ∧
    refineTet (tetOf thinVal thinMesh ⟨fun _ => 0, ![0, 1, 2, 3], 0⟩) 0 0 ≠
      refineTet (tetOf thinVal thinMesh ⟨fun _ => 0, ![0, 1, 2, 3], 0⟩) 0 3 ∧
    (∃ e, r.cells[0]? = some e ∧ e.nodes 0 = e.nodes 3) ∧ ∀ bits, ¬ TychoMesh.Tets (r.serial bits) := by
  have hn (k : Fin 4) : (![0, 1, 2, 3] : Fin 4 → Nat) k = k.val := by fin_cases k <;> rfl
  -- coordinates are halves of whole numbers, except the third, which is small
  have hxy (k l : Fin 4) (i : Fin 3) (hi : i ≠ 2) : ∃ u : Nat, half (pos thinVal thinMesh k.val) (pos thinVal thinMesh l.val) i = (u : ℚ) / 2 := by
    simp only [half, thin_pos]
    refine ⟨(if k.val = i.val + 1 then 1 else 0) + (if l.val = i.val + 1 then 1 else 0), ?_⟩
    revert k l i; decide +kernel
  have hz (k l : Fin 4) : 0 ≤ half (pos thinVal thinMesh k.val) (pos thinVal thinMesh l.val) 2 ∧
      half (pos thinVal thinMesh k.val) (pos thinVal thinMesh l.val) 2 ≤ 1 / 10 ^ 15 := by
    simp only [half, thin_pos]
    revert k l; decide +kernel
  obtain ⟨r, hr, -, hcells⟩ := refine_numbers (val := thinVal) (m := thinMesh) (tol := 1 / 10 ^ 14) (List.length_replicate ..).symm
    (by
      intro d hd k
      rw [thin_cell hd]
      show (![0, 1, 2, 3] : Fin 4 → Nat) k < 4
      rw [hn]; exact k.isLt) thin_tol
    (by
      intro a b a' b' a'' b'' h1 h2 h3 i n1 n2
      obtain ⟨k, l, rfl, rfl⟩ := thin_half h1
      obtain ⟨k', l', rfl, rfl⟩ := thin_half h2
      obtain ⟨k'', l'', rfl, rfl⟩ := thin_half h3
      by_cases hi : i = 2
      · subst hi
        have x := hz k l
        have y := hz k'' l''
        constructor
        · refine x.2.trans ?_
          have : (1 : ℚ) / 10 ^ 15 ≤ 1 / 10 ^ 14 := by norm_num
          linarith [y.1]
        · refine y.2.trans ?_
          have : (1 : ℚ) / 10 ^ 15 ≤ 1 / 10 ^ 14 := by norm_num
          linarith [x.1]
      · obtain ⟨u, hu⟩ := hxy k l i hi
        obtain ⟨v, hv⟩ := hxy k' l' i hi
        obtain ⟨w, hw⟩ := hxy k'' l'' i hi
        rw [hu, hv] at n1
        rw [hv, hw] at n2
        rw [hu, hw]
        have a : u = v := near_nat (K := ℚ) (tol := 2 * (1 / 10 ^ 14)) (by norm_num) ⟨by linarith [n1.1], by linarith [n1.2]⟩
        have b : v = w := near_nat (K := ℚ) (tol := 2 * (1 / 10 ^ 14)) (by norm_num) ⟨by linarith [n2.1], by linarith [n2.2]⟩
        rw [a, b]
        constructor <;> norm_num)
    (by decide) (by decide)
  have h0 : thinMesh.cells[0]? = some ⟨fun _ => 0, ![0, 1, 2, 3], 0⟩ := rfl
  obtain ⟨e, e', he, he', hee⟩ := hcells 0 0 _ _ 0 0 h0 h0
  rw [he] at he'
  cases he'
  have p0 : refineTet (tetOf thinVal thinMesh ⟨fun _ => 0, ![0, 1, 2, 3], 0⟩) 0 0 = half (pos thinVal thinMesh (0 : Fin 4).val) (pos thinVal thinMesh (0 : Fin 4).val) := by
    rw [child_pt]; rfl
  have p3 : refineTet (tetOf thinVal thinMesh ⟨fun _ => 0, ![0, 1, 2, 3], 0⟩) 0 3 = half (pos thinVal thinMesh (0 : Fin 4).val) (pos thinVal thinMesh (3 : Fin 4).val) := by
    rw [child_pt]; rfl
  have hm : e.nodes 0 = e.nodes 3 := by
    refine (hee 0 3).2 ?_
    rw [p0, p3]
    intro i
    simp only [half, Near, thin_pos]
    revert i; decide +kernel
  refine ⟨r, hr, ?_, ⟨e, he, hm⟩, fun bits T => ?_⟩
  · rw [p0, p3]
    intro h
    have := congrFun h 2
    simp only [half, thin_pos] at this
    revert this; decide +kernel
  · exact absurd (T.distinct _ e he hm) (by decide)

/-! ### Small meshes -/

/-- The mesh of two tetrahedra is conforming, and refining it divides by zero. -/
example : Conforming exMesh ∧ refineMesh thinVal exMesh = none := by
  refine ⟨Conforming.of_tets TychoMesh.exMesh_tets ?_ ?_, refine_small (by decide) (by decide)⟩
  · have key : ∀ g h : Fin 7, (∀ j, ∃ j', (exMesh.faces[g.val]'g.isLt).nodes j = (exMesh.faces[h.val]'h.isLt).nodes j') → g = h := by decide +kernel
    intro g h e f hg hh hn
    obtain ⟨lg, rfl⟩ := List.getElem?_eq_some_iff.1 hg
    obtain ⟨lh, rfl⟩ := List.getElem?_eq_some_iff.1 hh
    have := key ⟨g, lg⟩ ⟨h, lh⟩ fun j => ((hn _).1 ⟨j, rfl⟩).imp fun _ h => h.symm
    exact congrArg Fin.val this
  · have key : ∀ g h : Fin 2, (∀ j, ∃ j', (exMesh.cells[g.val]'g.isLt).nodes j = (exMesh.cells[h.val]'h.isLt).nodes j') → g = h := by decide +kernel
    intro g h e f hg hh hn
    obtain ⟨lg, rfl⟩ := List.getElem?_eq_some_iff.1 hg
    obtain ⟨lh, rfl⟩ := List.getElem?_eq_some_iff.1 hh
    exact congrArg Fin.val (key ⟨g, lg⟩ ⟨h, lh⟩ hn)

end Verif.Refine
