import Verif.Program.Regular
import Verif.Refine.Examples
import Mathlib.LinearAlgebra.FiniteDimensional.Basic
import Mathlib.LinearAlgebra.Dimension.Constructions

/-!
# Refined meshes can be run (C89)

The mesh that `RefineSerialMesh` makes of a mesh the solver can run on is again one: its cells are not flat,
cells that share a face lie on different sides of it, and directions without a cycle of upwind cells on the
coarse mesh have none on the refined one.
-/
set_option linter.unusedVariables false
set_option linter.unusedSectionVars false
namespace Verif.Program

open Verif.MeshFile Verif.TychoMesh Verif.Geometry Verif.Geometry.Spec Verif.Program.Spec
open Verif.Refine (Refined Conforming Apart IsTol lbl half refineTet minIndex tetOf pos Edge Uses triNames name code RMesh)

/-- No triangle has two face numbers, and no two cells have the same corners. -/
structure Plain (m : SerialMesh) : Prop where
  faces : ∀ (g h : Nat) (e f : SFace), m.faces[g]? = some e → m.faces[h]? = some f →
    (∀ n, (∃ j, e.nodes j = n) ↔ ∃ j, f.nodes j = n) → g = h
  cells : ∀ (c c' : Nat) (d d' : SCell), m.cells[c]? = some d → m.cells[c']? = some d' →
    (∀ k, ∃ k', d.nodes k = d'.nodes k') → c = c'

/-! ### An affine function with given values at the corners -/

/-- The value of an affine function. -/
def aff (g : Pt) (b : ℝ) (x : Pt) : ℝ := g 0 * x 0 + g 1 * x 1 + g 2 * x 2 + b

theorem aff_half (g : Pt) (b : ℝ) (x y : Pt) : aff g b (half x y) = (aff g b x + aff g b y) / 2 := by
  simp only [aff, half]; ring

theorem aff_exists {x : Fin 4 → Pt} (hx : NonCoplanar x) (w : Fin 4 → ℝ) : ∃ g b, ∀ i, aff g b (x i) = w i := by
  let L : (Fin 4 → ℝ) →ₗ[ℝ] (Fin 4 → ℝ) :=
    { toFun := fun u i => u 0 * x i 0 + u 1 * x i 1 + u 2 * x i 2 + u 3
      map_add' := by intro u v; funext i; simp only [Pi.add_apply]; ring
      map_smul' := by intro a u; funext i; simp only [Pi.smul_apply, smul_eq_mul, RingHom.id_apply]; ring }
  have hL (u : Fin 4 → ℝ) (i : Fin 4) : L u i = u 0 * x i 0 + u 1 * x i 1 + u 2 * x i 2 + u 3 := rfl
  have inj : Function.Injective L := by
    rw [injective_iff_map_eq_zero]
    intro u hu
    have e (i : Fin 4) : u 0 * x i 0 + u 1 * x i 1 + u 2 * x i 2 + u 3 = 0 := by rw [← hL, hu]; rfl
    obtain ⟨h0, h1, h2⟩ := hx (u 0) (u 1) (u 2) (-u 3) (fun i => by linarith [e i])
    have h3 := e 0
    rw [h0, h1, h2] at h3
    funext i
    match i with
    | 0 => exact h0
    | 1 => exact h1
    | 2 => exact h2
    | 3 => show u 3 = 0; linarith
  obtain ⟨u, hu⟩ := (LinearMap.injective_iff_surjective.1 inj) w
  exact ⟨fun k => ![u 0, u 1, u 2] k, u 3, fun i => by rw [← hu, hL]; rfl⟩

/-! ### The potential inside a tetrahedron -/

/-- Values at the corners of the parent of the linear function of child `t`, for diagonal `q`. -/
def pot (q : Fin 3) : Fin 8 → Fin 4 → ℤ :=
  ![![![4, -6, -4, -4], ![-6, 4, -4, -4], ![-4, -4, 4, -6], ![-4, -4, -6, 4], ![1, -3, -1, -1], ![-3, 1, -1, -1], ![-1, -1, 1, -3], ![-1, -1, -3, 1]],
    ![![4, -4, -6, -4], ![-4, 4, -4, -6], ![-6, -4, 4, -4], ![-4, -6, -4, 4], ![1, -1, -3, -1], ![-1, 1, -1, -3], ![-3, -1, 1, -1], ![-1, -3, -1, 1]],
    ![![4, -4, -4, -6], ![-4, 4, -6, -4], ![-4, -6, 4, -4], ![-6, -4, -4, 4], ![1, -1, -1, -3], ![-1, 1, -3, -1], ![-1, -3, 1, -1], ![-3, -1, -1, 1]]] q

/-- Twice the value at the point with a name. -/
def pval (p : Fin 4 → ℤ) (l : Fin 4 × Fin 4) : ℤ := p l.1 + p l.2

theorem pot_table (q : Fin 3) (t : Fin 8) (g : Fin 4) (t' : Fin 8) (g' : Fin 4) (h : code q t g = code q t' g') (ht : t ≠ t') :
    (∀ k, k ≠ g → pval (pot q t') (lbl q t k) = pval (pot q t) (lbl q t k)) ∧
    pval (pot q t') (lbl q t g) < pval (pot q t) (lbl q t g) ∧ pval (pot q t) (lbl q t' g') < pval (pot q t') (lbl q t' g') := by
  revert q t g t' g'; decide +kernel

/-- A triangle in a face of the parent: the fourth corner of the child is off that face. -/
theorem uses_opposite (q : Fin 3) (t : Fin 8) (g f : Fin 4) (h : ∀ a, Uses q t g a ↔ a ≠ f) :
    ((lbl q t g).1 = f ∨ (lbl q t g).2 = f) ∧ ∀ k, k ≠ g → (lbl q t k).1 ≠ f ∧ (lbl q t k).2 ≠ f := by
  revert q t g f; decide +kernel

theorem lbl_uses (q : Fin 3) (t : Fin 8) (a : Fin 4) : ∃ k, (lbl q t k).1 = a ∨ (lbl q t k).2 = a := by
  revert q t a; decide +kernel

theorem lbl_child (q : Fin 3) (t t' : Fin 8) (h : ∀ k, ∃ k', lbl q t k = lbl q t' k') : t = t' := by
  revert q t t'; decide +kernel

theorem child_noncoplanar {x : Fin 4 → Pt} (hx : NonCoplanar x) (t : Fin 8) : NonCoplanar (refineTet x t) := by
  intro n0 n1 n2 d h
  have e (k : Fin 4) : (n0 * x (lbl (minIndex x) t k).1 0 + n1 * x (lbl (minIndex x) t k).1 1 + n2 * x (lbl (minIndex x) t k).1 2 - d) +
      (n0 * x (lbl (minIndex x) t k).2 0 + n1 * x (lbl (minIndex x) t k).2 1 + n2 * x (lbl (minIndex x) t k).2 2 - d) = 0 := by
    have := h k
    rw [Verif.Refine.refineTet_eq] at this
    simp only [Verif.Refine.pt, half] at this
    linarith
  refine hx n0 n1 n2 d fun i => ?_
  revert e
  generalize hu : (fun i => n0 * x i 0 + n1 * x i 1 + n2 * x i 2 - d) = u
  have hu' (i : Fin 4) : n0 * x i 0 + n1 * x i 1 + n2 * x i 2 - d = u i := congrFun hu i
  simp only [hu']
  intro e
  suffices u i = 0 by rw [← hu'] at this; linarith
  revert e
  generalize minIndex x = q
  intro e
  have e0 := e 0
  have e1 := e 1
  have e2 := e 2
  have e3 := e 3
  fin_cases q <;> fin_cases t <;> simp [lbl] at e0 e1 e2 e3 <;> fin_cases i <;> simp <;> linarith

/-! ### The refined mesh in terms of the coarse one -/

/-- Mesh `m'` is the refinement of `m` that is intended: cell `8c + t` is child `t` of cell `c`, with the same
material; the meshes are well formed; different points are different. -/
structure Halved (val : Nat → ℝ) (m m' : SerialMesh) : Prop where
  coarse : Tets m
  fine : Tets m'
  plain : Plain m
  count : m'.numCells = 8 * m.numCells
  child : ∀ (c : Nat) (d : SCell) (t : Fin 8), m.cells[c]? = some d → ∃ e, m'.cells[8 * c + t.val]? = some e ∧ e.material = d.material ∧
    pts val m' (8 * c + t.val) = refineTet (pts val m c) t
  apart : ∀ a b a' b', Edge m a b → Edge m a' b' → half (pos val m a) (pos val m b) = half (pos val m a') (pos val m b') →
    s(a, b) = s(a', b')

variable {val : Nat → ℝ} {deck : Deck} {m m' : SerialMesh} {p p' : Problem ℝ} {sS sS' : Nat → ℝ}

theorem pts_tet {c : Nat} {d : SCell} (hd : m.cells[c]? = some d) : pts val m c = tetOf val m d := by
  funext v
  unfold pts tetOf pos
  rw [hd]
  simp only [Option.bind_some]
  cases m.nodes[d.nodes v]? <;> rfl

theorem halved_of {bits : ℝ → Nat} {r : RMesh ℝ} (H : Tets m) (hp : Plain m) {tol : ℝ} (ht : 0 ≤ tol) (A : Apart val m tol)
    (R : Refined val m r) (hb : ∀ q ∈ r.nodes, ∀ k, val (bits (q k)) = q k) : Halved val m (r.serial bits) where
  coarse := H
  fine := R.tets bits
  plain := hp
  count := R.count
  child c d t hd := by
    obtain ⟨e, h1, h2, h3⟩ := R.child c d t hd
    refine ⟨e, h1, h2, ?_⟩
    funext v k
    have hc : (r.serial bits).cells[8 * c + t.val]? = some e := h1
    have hn : (r.serial bits).nodes[e.nodes v]? = some ⟨fun i => bits (refineTet (tetOf val m d) t v i)⟩ := by
      show (r.nodes.map _)[e.nodes v]? = _
      rw [List.getElem?_map, h3 v]; rfl
    rw [pts_tet hd]
    unfold pts
    rw [hc]
    simp only [Option.bind_some, hn]
    exact hb _ (List.mem_of_getElem? (h3 v)) k
  apart a b a' b' h1 h2 h := A.apart a b a' b' h1 h2 (by
    rw [h]
    intro i
    constructor <;> linarith)

section
variable (S : Halved val m m')
include S

theorem Halved.split {i : Nat} (hi : i < m'.numCells) : ∃ c d, ∃ t : Fin 8, i = 8 * c + t.val ∧ m.cells[c]? = some d ∧ c < m.numCells := by
  have := S.count
  have hc : i / 8 < m.numCells := by omega
  have hl : i / 8 < m.cells.length := by rw [← S.coarse.cells]; exact hc
  exact ⟨i / 8, m.cells[i / 8], ⟨i % 8, Nat.mod_lt _ (by decide)⟩, by simp only; omega, List.getElem?_eq_getElem hl, hc⟩

/-- The corner of a child. -/
theorem Halved.corner {c : Nat} {d : SCell} (t : Fin 8) (hd : m.cells[c]? = some d) (k : Fin 4) :
    pts val m' (8 * c + t.val) k = half (pts val m c (lbl (minIndex (pts val m c)) t k).1) (pts val m c (lbl (minIndex (pts val m c)) t k).2) := by
  obtain ⟨e, -, -, h⟩ := S.child c d t hd
  rw [h, Verif.Refine.refineTet_eq]; rfl

theorem Halved.names {c c' : Nat} {d d' : SCell} {t t' : Fin 8} (hd : m.cells[c]? = some d) (hd' : m.cells[c']? = some d') {k k' : Fin 4}
    (h : pts val m' (8 * c + t.val) k = pts val m' (8 * c' + t'.val) k') :
    name d.nodes (minIndex (pts val m c)) t k = name d'.nodes (minIndex (pts val m c')) t' k' := by
  rw [S.corner t hd, S.corner t' hd', pts_tet hd, pts_tet hd'] at h
  rw [pts_tet hd, pts_tet hd']
  exact S.apart _ _ _ _ ⟨c, d, _, _, hd, rfl, rfl⟩ ⟨c', d', _, _, hd', rfl, rfl⟩ h

/-- Children that touch are children of one cell, or of two cells that touch along the faces their common
triangle is in. -/
theorem Halved.shared {c c' : Nat} {d d' : SCell} {t t' : Fin 8} {F F' : Fin 4} (hd : m.cells[c]? = some d) (hd' : m.cells[c']? = some d')
    (hx : Across m' (8 * c + t.val) F (8 * c' + t'.val) F') :
    (c = c' ∧ t ≠ t' ∧ code (minIndex (pts val m c)) t F = code (minIndex (pts val m c)) t' F') ∨
    (c ≠ c' ∧ ∃ f f', Across m c f c' f' ∧ (∀ a, Uses (minIndex (pts val m c)) t F a ↔ a ≠ f) ∧
      ∀ a, Uses (minIndex (pts val m c')) t' F' a ↔ a ≠ f') := by
  have hx' : Across m' (8 * c' + t'.val) F' (8 * c + t.val) F := ⟨hx.1.symm, by obtain ⟨-, g, a, b⟩ := hx; exact ⟨g, b, a⟩⟩
  have tri : triNames d.nodes (minIndex (pts val m c)) t F = triNames d'.nodes (minIndex (pts val m c')) t' F' := by
    ext z
    constructor
    · rintro ⟨k, hk, rfl⟩
      obtain ⟨k', hk', e⟩ := across_share (val := val) S.fine hx' k hk
      exact ⟨k', hk', S.names hd hd' e⟩
    · rintro ⟨k, hk, rfl⟩
      obtain ⟨k', hk', e⟩ := across_share (val := val) S.fine hx k hk
      exact ⟨k', hk', S.names hd' hd e⟩
  by_cases hcc : c = c'
  · subst hcc
    rw [hd] at hd'
    cases hd'
    refine Or.inl ⟨rfl, ?_, Verif.Refine.triNames_code (S.coarse.distinct c d hd) tri⟩
    rintro rfl
    exact hx.1 rfl
  · refine Or.inr ⟨hcc, ?_⟩
    obtain hall | ⟨f, hf⟩ := Verif.Refine.uses_cases (minIndex (pts val m c)) t F
    · exact absurd (S.plain.cells c c' d d' hd hd' fun k => Verif.Refine.uses_node tri (hall k)) hcc
    obtain hall | ⟨f', hf'⟩ := Verif.Refine.uses_cases (minIndex (pts val m c')) t' F'
    · exact absurd (S.plain.cells c' c d' d hd' hd fun k => Verif.Refine.uses_node tri.symm (hall k)).symm hcc
    refine ⟨f, f', ?_, hf, hf'⟩
    -- the coarse faces
    have face : ∀ (c : Nat) (d : SCell), m.cells[c]? = some d → ∀ f, ∃ k e, m.faces[d.faces k]? = some e ∧
        (∀ j, e.nodes j ≠ d.nodes f) ∧ ∀ n, (∃ j, e.nodes j = n) ↔ ∃ i, i ≠ f ∧ d.nodes i = n := by
      intro c d hd f
      obtain ⟨σ, hσ, ho⟩ := S.coarse.omits c d hd
      obtain ⟨k, hk⟩ := Finite.injective_iff_surjective.1 hσ f
      have hl := S.coarse.cellFace c d hd k
      rw [S.coarse.toSound.faces] at hl
      refine ⟨k, m.faces[d.faces k], List.getElem?_eq_getElem hl, ?_, ?_⟩
      · intro j hj
        exact ((ho k _ (List.getElem?_eq_getElem hl) f).1 ⟨j, hj⟩) hk.symm
      · intro n
        constructor
        · rintro ⟨j, rfl⟩
          obtain ⟨i, hi⟩ := S.coarse.faceNode c d k _ hd (List.getElem?_eq_getElem hl) j
          refine ⟨i, ?_, hi.symm⟩
          rw [← hk]
          exact (ho k _ (List.getElem?_eq_getElem hl) i).1 ⟨j, hi⟩
        · rintro ⟨i, hi, rfl⟩
          exact (ho k _ (List.getElem?_eq_getElem hl) i).2 (by rw [hk]; exact hi)
    obtain ⟨k, e, h1, h2, h3⟩ := face c d hd f
    obtain ⟨k', e', h1', h2', h3'⟩ := face c' d' hd' f'
    have same : d.faces k = d'.faces k' := by
      refine S.plain.faces _ _ e e' h1 h1' fun n => ?_
      rw [h3, h3']
      constructor
      · rintro ⟨i, hi, rfl⟩
        obtain ⟨b, hb⟩ := Verif.Refine.uses_node tri ((hf i).2 hi)
        refine ⟨b, ?_, hb.symm⟩
        rintro rfl
        -- the node would be a corner of a used edge
        obtain ⟨k, hk, hka⟩ := (hf i).2 hi
        have : name d.nodes (minIndex (pts val m c)) t k ∈ triNames d'.nodes (minIndex (pts val m c')) t' F' := by rw [← tri]; exact ⟨k, hk, rfl⟩
        obtain ⟨k', hk', e⟩ := this
        have hm : d.nodes i ∈ name d.nodes (minIndex (pts val m c)) t k := by
          rcases hka with rfl | rfl
          · exact Sym2.mem_mk_left _ _
          · exact Sym2.mem_mk_right _ _
        rw [e, hb] at hm
        rcases Sym2.mem_iff.1 hm with h | h
        · exact (hf' b).1 ⟨k', hk', Or.inl (S.coarse.distinct c' d' hd' h).symm⟩ rfl
        · exact (hf' b).1 ⟨k', hk', Or.inr (S.coarse.distinct c' d' hd' h).symm⟩ rfl
      · rintro ⟨i, hi, rfl⟩
        obtain ⟨b, hb⟩ := Verif.Refine.uses_node tri.symm ((hf' i).2 hi)
        refine ⟨b, ?_, hb.symm⟩
        rintro rfl
        obtain ⟨k, hk, hka⟩ := (hf' i).2 hi
        have : name d'.nodes (minIndex (pts val m c')) t' k ∈ triNames d.nodes (minIndex (pts val m c)) t F := by rw [tri]; exact ⟨k, hk, rfl⟩
        obtain ⟨k', hk', e⟩ := this
        have hm : d'.nodes i ∈ name d'.nodes (minIndex (pts val m c')) t' k := by
          rcases hka with rfl | rfl
          · exact Sym2.mem_mk_left _ _
          · exact Sym2.mem_mk_right _ _
        rw [e, hb] at hm
        rcases Sym2.mem_iff.1 hm with h | h
        · exact (hf b).1 ⟨k', hk', Or.inl (S.coarse.distinct c d hd h).symm⟩ rfl
        · exact (hf b).1 ⟨k', hk', Or.inr (S.coarse.distinct c d hd h).symm⟩ rfl
    exact ⟨hcc, d.faces k, ⟨d, e, k, hd, rfl, h1, h2⟩, ⟨d', e', k', hd', same.symm, by rw [same]; exact h1', h2'⟩⟩

theorem Halved.value {c : Nat} {d : SCell} (t : Fin 8) (hd : m.cells[c]? = some d) (g : Pt) (b : ℝ) (k : Fin 4) :
    aff g b (pts val m' (8 * c + t.val) k) = (aff g b (pts val m c (lbl (minIndex (pts val m c)) t k).1) +
      aff g b (pts val m c (lbl (minIndex (pts val m c)) t k).2)) / 2 := by
  rw [S.corner t hd, aff_half]

/-- C89: the cells of the refined mesh are not flat, and cells that share a face lie on different sides of
it. -/
theorem Halved.fits (F : Fits val m) : Fits val m' := by
  constructor
  · intro i hi
    obtain ⟨c, d, t, rfl, hd, hc⟩ := S.split hi
    obtain ⟨e, -, -, h⟩ := S.child c d t hd
    rw [h]
    exact child_noncoplanar (F.nondeg c hc) t
  · intro i f i' f' hx
    obtain ⟨hi, hi'⟩ := across_cells S.fine hx
    obtain ⟨c, d, t, rfl, hd, hc⟩ := S.split hi
    obtain ⟨c', d', t', rfl, hd', hc'⟩ := S.split hi'
    -- an affine function that separates
    suffices ∃ g b, (∀ k, k ≠ f → aff g b (pts val m' (8 * c + t.val) k) = 0) ∧ aff g b (pts val m' (8 * c + t.val) f) < 0 ∧
        0 < aff g b (pts val m' (8 * c' + t'.val) f') by
      obtain ⟨g, b, h1, h2, h3⟩ := this
      refine ⟨g 0, g 1, g 2, -b, fun v => ?_, ?_, ?_⟩
      · have := h1 (f.succAbove v) (Fin.succAbove_ne f v)
        simp only [aff] at this
        simp only [facePoints]
        linarith
      · simp only [aff] at h2; linarith
      · simp only [aff] at h3; linarith
    rcases S.shared hd hd' hx with ⟨rfl, ht, hcode⟩ | ⟨-, g, g', hxc, hu, hu'⟩
    · rw [hd] at hd'
      cases hd'
      obtain ⟨p1, p2, p3⟩ := pot_table _ _ _ _ _ hcode ht
      obtain ⟨g, b, hg⟩ := aff_exists (F.nondeg c hc) (fun i => ((pot (minIndex (pts val m c)) t' i - pot (minIndex (pts val m c)) t i : ℤ) : ℝ))
      have v (t : Fin 8) (k : Fin 4) := S.value t hd g b k
      simp only [hg] at v
      simp only [pval] at p1 p2 p3
      refine ⟨g, b, fun k hk => ?_, ?_, ?_⟩
      · rw [v]
        have := p1 k hk
        have := congrArg (fun z : ℤ => (z : ℝ)) this
        push_cast at this ⊢
        linarith
      · rw [v]
        have := (Int.cast_lt (R := ℝ)).2 p2
        push_cast at this ⊢
        linarith
      · rw [v]
        have := (Int.cast_lt (R := ℝ)).2 p3
        push_cast at this ⊢
        linarith
    · obtain ⟨n0, n1, n2, e, h1, h2, h3⟩ := F.sides c g c' g' hxc
      have on (i : Fin 4) (hi : i ≠ g) : aff ![n0, n1, n2] (-e) (pts val m c i) = 0 := by
        obtain ⟨v, rfl⟩ := Fin.exists_succAbove_eq hi
        have := h1 v
        simp only [facePoints] at this
        simp [aff]
        linarith
      have below : aff ![n0, n1, n2] (-e) (pts val m c g) < 0 := by simp [aff]; linarith
      have above : 0 < aff ![n0, n1, n2] (-e) (pts val m c' g') := by simp [aff]; linarith
      have on' (i : Fin 4) (hi : i ≠ g') : aff ![n0, n1, n2] (-e) (pts val m c' i) = 0 := by
        obtain ⟨j, hj, e⟩ := across_share (val := val) S.coarse hxc i hi
        rw [e]; exact on j hj
      have nonpos (i : Fin 4) : aff ![n0, n1, n2] (-e) (pts val m c i) ≤ 0 := by
        by_cases hi : i = g
        · rw [hi]; exact below.le
        · exact (on i hi).le
      have nonneg (i : Fin 4) : 0 ≤ aff ![n0, n1, n2] (-e) (pts val m c' i) := by
        by_cases hi : i = g'
        · rw [hi]; exact above.le
        · exact (on' i hi).ge
      obtain ⟨o1, o2⟩ := uses_opposite _ _ _ _ hu
      obtain ⟨o1', o2'⟩ := uses_opposite _ _ _ _ hu'
      refine ⟨![n0, n1, n2], -e, fun k hk => ?_, ?_, ?_⟩
      · rw [S.value t hd, on _ (o2 k hk).1, on _ (o2 k hk).2]; norm_num
      · rw [S.value t hd]
        rcases o1 with h | h
        · have := nonpos (lbl (minIndex (pts val m c)) t f).2
          rw [h]; linarith
        · have := nonpos (lbl (minIndex (pts val m c)) t f).1
          rw [h]; linarith
      · rw [S.value t' hd']
        rcases o1' with h | h
        · have := nonneg (lbl (minIndex (pts val m c')) t' f').2
          rw [h]; linarith
        · have := nonneg (lbl (minIndex (pts val m c')) t' f').1
          rw [h]; linarith

/-- The outward normal of a child in a face of its parent is that of the parent. -/
theorem Halved.normal {c : Nat} {d : SCell} (t : Fin 8) (hd : m.cells[c]? = some d) {F f : Fin 4} {n : Pt}
    (hu : ∀ a, Uses (minIndex (pts val m c)) t F a ↔ a ≠ f) (hn : OutwardUnitNormal (pts val m c) f n) :
    OutwardUnitNormal (pts val m' (8 * c + t.val)) F n := by
  obtain ⟨o1, o2⟩ := uses_opposite _ _ _ _ hu
  obtain ⟨n1, n2, n3⟩ := hn
  refine ⟨n1, fun i j hi hj => ?_, fun j hj => ?_⟩
  · rw [S.corner t hd, S.corner t hd]
    simp only [half]
    have a := n2 _ _ (o2 i hi).1 (o2 j hj).1
    have b := n2 _ _ (o2 i hi).2 (o2 j hj).2
    linear_combination (a + b) / 2
  · rw [S.corner t hd, S.corner t hd]
    simp only [half]
    have le (i j : Fin 4) (hj : j ≠ f) : n 0 * (pts val m c i 0 - pts val m c j 0) + n 1 * (pts val m c i 1 - pts val m c j 1) +
        n 2 * (pts val m c i 2 - pts val m c j 2) ≤ 0 := by
      by_cases hi : i = f
      · rw [hi]; exact (n3 j hj).le
      · exact (n2 i j hi hj).le
    rcases o1 with h | h
    · have a := n3 _ (o2 j hj).1
      have b := le (lbl (minIndex (pts val m c)) t F).2 _ (o2 j hj).2
      rw [h]
      linarith
    · have a := n3 _ (o2 j hj).2
      have b := le (lbl (minIndex (pts val m c)) t F).1 _ (o2 j hj).1
      rw [h]
      linarith

/-- C89: a direction without a cycle on the coarse mesh has none on the refined mesh. -/
theorem Halved.noCycle (F : Fits val m) {om : Verif.Quadrature.Dir} (h : NoCycle val m om) : NoCycle val m' om := by
  intro i hcyc
  have F' := S.fits F
  -- the linear function of each child
  have lin : ∀ i, ∃ g : Pt, ∃ b, ∀ (c : Nat) (d : SCell) (t : Fin 8), i = 8 * c + t.val → m.cells[c]? = some d → c < m.numCells →
      ∀ j, aff g b (pts val m c j) = (pot (minIndex (pts val m c)) t j : ℝ) := by
    intro i
    by_cases hi : i < m'.numCells
    · obtain ⟨c, d, t, hi, hd, hc⟩ := S.split hi
      obtain ⟨g, b, hg⟩ := aff_exists (F.nondeg c hc) (fun j => (pot (minIndex (pts val m c)) t j : ℝ))
      refine ⟨g, b, fun c' d' t' hi' hd' hc' => ?_⟩
      have hcc : c = c' := by have := t.isLt; have := t'.isLt; omega
      subst hcc
      have : t = t' := Fin.ext (by omega)
      subst this
      exact hg
    · refine ⟨0, 0, fun c d t hi' hd hc => ?_⟩
      have := S.count
      have := t.isLt
      omega
  choose g b hg using lin
  have step : ∀ {i i' : Nat}, Flows val m' om i i' →
      (i / 8 = i' / 8 ∧ om.xi * g i 0 + om.eta * g i 1 + om.mu * g i 2 < om.xi * g i' 0 + om.eta * g i' 1 + om.mu * g i' 2) ∨
      Flows val m om (i / 8) (i' / 8) := by
    rintro i i' ⟨f, f', n, hx, hn, hw⟩
    obtain ⟨hi, hi'⟩ := across_cells S.fine hx
    have nd := F'.nondeg i hi
    obtain ⟨c, d, t, rfl, hd, hc⟩ := S.split hi
    obtain ⟨c', d', t', rfl, hd', hc'⟩ := S.split hi'
    have q1 : (8 * c + t.val) / 8 = c := by have := t.isLt; omega
    have q2 : (8 * c' + t'.val) / 8 = c' := by have := t'.isLt; omega
    rw [q1, q2]
    rcases S.shared hd hd' hx with ⟨rfl, ht, hcode⟩ | ⟨-, u, u', hxc, hu, -⟩
    · left
      refine ⟨rfl, ?_⟩
      obtain ⟨p1, p2, p3⟩ := pot_table _ _ _ _ _ hcode ht
      have g1 := hg (8 * c + t.val) c d t rfl hd hc
      have g2 := hg (8 * c + t'.val) c d t' rfl hd hc
      generalize g (8 * c + t.val) = G at g1 ⊢
      generalize g (8 * c + t'.val) = G' at g2 ⊢
      generalize b (8 * c + t.val) = B at g1
      generalize b (8 * c + t'.val) = B' at g2
      -- values of the difference at the corners of child t
      have v1 (k : Fin 4) := S.value t hd G B k
      have v2 (k : Fin 4) := S.value t hd G' B' k
      simp only [g1] at v1
      simp only [g2] at v2
      have zero (k : Fin 4) (hk : k ≠ f) : aff G' B' (pts val m' (8 * c + t.val) k) = aff G B (pts val m' (8 * c + t.val) k) := by
        rw [v1, v2]
        have := congrArg (fun z : ℤ => (z : ℝ)) (p1 k hk)
        simp only [pval] at this
        push_cast at this
        rw [this]
      have neg : aff G' B' (pts val m' (8 * c + t.val) f) < aff G B (pts val m' (8 * c + t.val) f) := by
        rw [v1, v2]
        have := (Int.cast_lt (R := ℝ)).2 p2
        simp only [pval] at this
        push_cast at this
        linarith
      obtain ⟨l, hl⟩ := normal_multiple (δ := fun k => G' k - G k) nd hn (by
        intro i j hi hj
        have a := zero i hi
        have b := zero j hj
        simp only [aff] at a b
        linarith)
      have hj : f.succAbove 0 ≠ f := Fin.succAbove_ne f 0
      have z := zero _ hj
      have hneg := hn.2.2 _ hj
      have l0 := hl 0
      have l1 := hl 1
      have l2 := hl 2
      have e : l * (n 0 * (pts val m' (8 * c + t.val) f 0 - pts val m' (8 * c + t.val) (f.succAbove 0) 0) +
          n 1 * (pts val m' (8 * c + t.val) f 1 - pts val m' (8 * c + t.val) (f.succAbove 0) 1) +
          n 2 * (pts val m' (8 * c + t.val) f 2 - pts val m' (8 * c + t.val) (f.succAbove 0) 2)) < 0 := by
        simp only [aff] at z neg
        have k0 : G' 0 = G 0 + l * n 0 := by linarith
        have k1 : G' 1 = G 1 + l * n 1 := by linarith
        have k2 : G' 2 = G 2 + l * n 2 := by linarith
        rw [k0, k1, k2] at z neg
        linarith
      have hlp : 0 < l := by
        by_contra hc
        have := mul_nonneg_of_nonpos_of_nonpos (not_lt.1 hc) hneg.le
        linarith
      have : 0 < l * (om.xi * n 0 + om.eta * n 1 + om.mu * n 2) := mul_pos hlp hw
      have : om.xi * G' 0 + om.eta * G' 1 + om.mu * G' 2 - (om.xi * G 0 + om.eta * G 1 + om.mu * G 2) =
          l * (om.xi * n 0 + om.eta * n 1 + om.mu * n 2) := by linear_combination om.xi * l0 + om.eta * l1 + om.mu * l2
      linarith
    · right
      obtain ⟨n', -, hn'⟩ := normal_outward (pts val m c) u u.succAbove (std_table u) (F.nondeg c hc)
      obtain rfl := outward_unique _ f nd n n' hn (S.normal t hd hu hn')
      exact ⟨u, u', n, hxc, hn', hw⟩
  have chain : ∀ {i i' : Nat}, Relation.TransGen (Flows val m' om) i i' →
      (i / 8 = i' / 8 ∧ om.xi * g i 0 + om.eta * g i 1 + om.mu * g i 2 < om.xi * g i' 0 + om.eta * g i' 1 + om.mu * g i' 2) ∨
      Relation.TransGen (Flows val m om) (i / 8) (i' / 8) := by
    intro i i' h
    induction h with
    | single h => exact (step h).imp id Relation.TransGen.single
    | tail _ h ih =>
      rcases ih with ⟨e1, l1⟩ | t1 <;> rcases step h with ⟨e2, l2⟩ | t2
      · exact Or.inl ⟨e1.trans e2, l1.trans l2⟩
      · exact Or.inr (by rw [e1]; exact Relation.TransGen.single t2)
      · exact Or.inr (by rw [← e2]; exact t1)
      · exact Or.inr (t1.tail t2)
  rcases chain hcyc with ⟨-, hlt⟩ | ht
  · exact lt_irrefl _ hlt
  · exact h _ ht

/-- No two cells of the refined mesh have the same corners. -/
theorem Halved.cells (c c' : Nat) (d d' : SCell) (h : m'.cells[c]? = some d) (h' : m'.cells[c']? = some d')
    (hk : ∀ k, ∃ k', d.nodes k = d'.nodes k') : c = c' := by
  have hc : c < m'.numCells := by rw [S.fine.cells]; exact (List.getElem?_eq_some_iff.1 h).1
  have hc' : c' < m'.numCells := by rw [S.fine.cells]; exact (List.getElem?_eq_some_iff.1 h').1
  obtain ⟨i, e, t, rfl, he, hi⟩ := S.split hc
  obtain ⟨i', e', t', rfl, he', hi'⟩ := S.split hc'
  have same (k : Fin 4) : ∃ k', name e.nodes (minIndex (pts val m i)) t k = name e'.nodes (minIndex (pts val m i')) t' k' := by
    obtain ⟨k', hk'⟩ := hk k
    refine ⟨k', S.names he he' ?_⟩
    rw [pts_tet h, pts_tet h']
    simp only [tetOf, hk']
  have hii : i = i' := by
    refine S.plain.cells i i' e e' he he' fun a => ?_
    obtain ⟨k, hka⟩ := lbl_uses (minIndex (pts val m i)) t a
    obtain ⟨k', hk'⟩ := same k
    have hm : e.nodes a ∈ name e.nodes (minIndex (pts val m i)) t k := by
      rcases hka with rfl | rfl
      · exact Sym2.mem_mk_left _ _
      · exact Sym2.mem_mk_right _ _
    rw [hk'] at hm
    rcases Sym2.mem_iff.1 hm with h | h
    · exact ⟨_, h⟩
    · exact ⟨_, h⟩
  subst hii
  rw [he] at he'
  cases he'
  rw [lbl_child (minIndex (pts val m i)) t t' fun k => ?_]
  obtain ⟨k', hk'⟩ := same k
  exact ⟨k', (Verif.Refine.name_lbl (S.coarse.distinct i e he)).1 hk'⟩

end

/-! ### Meshes refined by the program -/

/-- `m'` is a mesh file that `RefineSerialMesh` writes for `m`, run any number of times. The coordinates of
the points of each mesh are apart, there are at least 1000 cells and the numbers fit; coordinates are stored
exactly. -/
inductive Refinement (val : Nat → ℝ) (m : SerialMesh) : SerialMesh → Prop
  | refl : Refinement val m m
  | step {m' : SerialMesh} {r : RMesh ℝ} {bits : ℝ → Nat} {tol : ℝ} (h : Refinement val m m') (ht : IsTol val m' tol) (A : Apart val m' tol)
      (h1000 : 1000 ≤ m'.numCells) (hfit : 32 * m'.numCells ≤ invalid) (hr : Verif.Refine.refineMesh val m' = some r)
      (hb : ∀ q ∈ r.nodes, ∀ k, val (bits (q k)) = q k) : Refinement val m (r.serial bits)

/-- C89: a refined mesh is a mesh of tetrahedra without repeated faces or cells; its cells are not flat and
lie on different sides of the faces they share; and a direction that has no cycle on the coarse mesh has none
on it. -/
theorem refined_runs (H : Tets m) (hp : Plain m) (F : Fits val m) (hR : Refinement val m m') :
    Tets m' ∧ Plain m' ∧ Fits val m' ∧ ∀ om, NoCycle val m om → NoCycle val m' om := by
  induction hR with
  | refl => exact ⟨H, hp, F, fun _ h => h⟩
  | @step m' r bits tol h ht A h1000 hfit hr hb ih =>
    obtain ⟨H', hp', F', hn⟩ := ih
    obtain ⟨r', hr', R⟩ := Verif.Refine.refine_correct_partial (Conforming.of_tets H' hp'.faces hp'.cells) ht A h1000 hfit
    rw [hr] at hr'
    cases hr'
    have S := halved_of H' hp' (Verif.Refine.isTol_nonneg ht) A R hb
    exact ⟨S.fine, ⟨R.faces, S.cells⟩, S.fits F', fun om h => S.noCycle F' (hn om h)⟩

/-- C89: refinement of such a mesh does not fail. -/
theorem refined_exists (H : Tets m) (hp : Plain m) (F : Fits val m) (hR : Refinement val m m') {tol : ℝ} (ht : IsTol val m' tol)
    (A : Apart val m' tol) (h1000 : 1000 ≤ m'.numCells) (hfit : 32 * m'.numCells ≤ invalid) :
    ∃ r, Verif.Refine.refineMesh val m' = some r ∧ r.cells.length = 8 * m'.numCells := by
  obtain ⟨H', hp', -⟩ := refined_runs H hp F hR
  obtain ⟨r, hr, R⟩ := Verif.Refine.refine_correct_partial (Conforming.of_tets H' hp'.faces hp'.cells) ht A h1000 hfit
  exact ⟨r, hr, R.count⟩

/-- C89: on a mesh refined any number of times from a Delaunay mesh the sweeps come to an end, for every
quadrature with no direction in a face. -/
theorem refined_finishes {M : Mode} {P : ParallelMesh} {T : Nat → Mesh} {D : Nat → RankData} (H : Tets m) (hp : Plain m)
    (F : Fits val m) (hD : Delaunay val m) (hR : Refinement val m m') (h : Ready val deck m' M P T D) (hs : Sensible val deck m')
    (Ds : Describes val deck m' p' sS') (htr : p'.Transversal m') (hb : 0 < M.batch) (hproto : M.proto = .tycho) :
    ∃ psi, Swept M deck T D psi := by
  obtain ⟨H', -, F', hn⟩ := refined_runs H hp F hR
  exact program_finishes h F' hs Ds ((acyclic_iff H' F' Ds).2 fun om hom => hn om (regular_noCycle H F (hD.regular H) om)) htr hb hproto

end Verif.Program
