import Verif.Program.Whole
import Mathlib.LinearAlgebra.Matrix.Determinant.Basic
import Mathlib.Data.Fintype.EquivFin

/-!
# Numbering, orientation and groups do not matter (C85)

Two meshes that are the same up to the numbers of cells, faces, nodes and vertices, one of them turned or
reflected about the centre of the cube so that the directions are mapped to directions, have the same
flux; and every group has it.
-/
set_option linter.unusedSectionVars false
namespace Verif.Program

open Verif.MeshFile Verif.TychoMesh Verif.Geometry Verif.Geometry.Spec Verif.Program.Spec
open Verif.Traverse (Psi Bound)
open Verif.Input (Settings readInput SweepType Str)
open Verif.PsiFile (Contents)
open Verif.Schedule (AwayFrom)

/-! ### Statements -/

namespace Spec

/-- An orthogonal matrix: a turn or a reflection, or both. -/
def Orthogonal (L : Fin 3 → Fin 3 → ℝ) : Prop := ∀ i j, ∑ k, L k i * L k j = if i = j then 1 else 0

/-- The point `x` moved about the centre of the cube. -/
def moved (L : Fin 3 → Fin 3 → ℝ) (x : Pt) : Pt := fun i => 50 + ∑ k, L i k * (x k - 50)

/-- New numbers of cells, of faces, of nodes, and of the vertices in each cell. -/
structure Numbering where
  cell : Nat → Nat
  face : Nat → Nat
  node : Nat → Nat
  vertex : Nat → Fin 4 → Fin 4

/-- `m'` is the mesh `m` moved by `L` with other numbers; the faces of a cell and the nodes of a face may be listed in another
order. -/
structure SameMesh (L : Fin 3 → Fin 3 → ℝ) (val : Nat → ℝ) (N : Numbering) (m m' : SerialMesh) : Prop where
  count : m'.numCells = m.numCells
  cellInj : Function.Injective N.cell
  faceInj : Function.Injective N.face
  nodeInj : Function.Injective N.node
  vertexInj : ∀ c, Function.Injective (N.vertex c)
  cells : ∀ (c : Nat) (d : SCell), m.cells[c]? = some d → ∃ d' : SCell, m'.cells[N.cell c]? = some d' ∧ d'.material = d.material ∧
    (∀ v, d'.nodes (N.vertex c v) = N.node (d.nodes v)) ∧ ∃ k : Equiv.Perm (Fin 4), ∀ i, d'.faces (k i) = N.face (d.faces i)
  faces : ∀ (g : Nat) (e : SFace), m.faces[g]? = some e → ∃ e' : SFace, m'.faces[N.face g]? = some e' ∧
    ∃ k : Equiv.Perm (Fin 3), ∀ i, e'.nodes (k i) = N.node (e.nodes i)
  nodes : ∀ (i : Nat) (x : SNode), m.nodes[i]? = some x → ∃ x' : SNode, m'.nodes[N.node i]? = some x' ∧
    (fun k => val (x'.coords k)) = moved L fun k => val (x.coords k)

/-- The directions of `deck'` are those of `deck` moved by `L`, direction `a` with number `turn a`, with the same weights; the
cross sections are the same. The numbers of groups may differ. -/
structure SameDeck (L : Fin 3 → Fin 3 → ℝ) (turn : Nat → Nat) (deck deck' : Deck) : Prop where
  sigmaT1 : deck'.sigmaT1 = deck.sigmaT1
  sigmaS1 : deck'.sigmaS1 = deck.sigmaS1
  sigmaT2 : deck'.sigmaT2 = deck.sigmaT2
  sigmaS2 : deck'.sigmaS2 = deck.sigmaS2
  count : deck'.dirs.length = deck.dirs.length
  inj : ∀ a < deck.dirs.length, ∀ b < deck.dirs.length, turn a = turn b → a = b
  dirs : ∀ a d, deck.dirs[a]? = some d → ∃ d', deck'.dirs[turn a]? = some d' ∧ d'.w = d.w ∧
    (![d'.xi, d'.eta, d'.mu] : Pt) = fun i => ∑ k, L i k * (![d.xi, d.eta, d.mu] : Pt) k

/-- Two decks with the same order and cross sections; the numbers of groups may differ. -/
structure SameMaterials (s s' : Settings ℝ) : Prop where
  snOrder : s'.snOrder = s.snOrder
  sigmaT1 : s'.sigmaT1 = s.sigmaT1
  sigmaS1 : s'.sigmaS1 = s.sigmaS1
  sigmaT2 : s'.sigmaT2 = s.sigmaT2
  sigmaS2 : s'.sigmaS2 = s.sigmaS2

/-- A turn about the vertical axis by a multiple of `π/N`, perhaps with a reflection in a vertical plane, perhaps turned upside
down. -/
def Upright (N : Nat) (L : Fin 3 → Fin 3 → ℝ) : Prop :=
  ∃ (j : Nat) (s t : ℝ), (s = 1 ∨ s = -1) ∧ (t = 1 ∨ t = -1) ∧
    L = ![![Real.cos (j * Real.pi / N), - s * Real.sin (j * Real.pi / N), 0],
          ![Real.sin (j * Real.pi / N), s * Real.cos (j * Real.pi / N), 0], ![0, 0, t]]

end Spec

/-! ### Proofs: moved tetrahedra -/

variable {L : Fin 3 → Fin 3 → ℝ}

theorem orth_dot (hL : Orthogonal L) (x y : Fin 3 → ℝ) :
    ∑ i, (∑ k, L i k * x k) * (∑ k, L i k * y k) = ∑ k, x k * y k := by
  have e := fun i j => hL i j
  simp only [Orthogonal, Fin.sum_univ_three] at hL e ⊢
  have e00 := e 0 0
  have e01 := e 0 1
  have e02 := e 0 2
  have e11 := e 1 1
  have e12 := e 1 2
  have e22 := e 2 2
  simp only [if_true, Fin.isValue, Fin.reduceEq, if_false] at e00 e01 e02 e11 e12 e22
  linear_combination x 0 * y 0 * e00 + (x 0 * y 1 + x 1 * y 0) * e01 + (x 0 * y 2 + x 2 * y 0) * e02 +
    x 1 * y 1 * e11 + (x 1 * y 2 + x 2 * y 1) * e12 + x 2 * y 2 * e22

theorem moved_sub (x y : Pt) (i : Fin 3) : moved L x i - moved L y i = ∑ k, L i k * (x k - y k) := by
  simp only [moved, Fin.sum_univ_three]
  ring

theorem moved_radius (hL : Orthogonal L) (x : Pt) : radius (moved L x) = radius x := by
  have := orth_dot hL (fun k => x k - 50) (fun k => x k - 50)
  unfold radius
  congr 1
  simp only [Fin.sum_univ_three] at this
  simp only [moved, Fin.sum_univ_three]
  linear_combination this

theorem orth_det (hL : Orthogonal L) : |(Matrix.of L).det| = 1 := by
  have h : (Matrix.of L).transpose * Matrix.of L = 1 := by
    ext i j
    rw [Matrix.mul_apply, Matrix.one_apply]
    simpa using hL i j
  have := congrArg Matrix.det h
  rw [Matrix.det_mul, Matrix.det_transpose, Matrix.det_one] at this
  have h2 : |(Matrix.of L).det| * |(Matrix.of L).det| = 1 := by rw [← abs_mul, this, abs_one]
  nlinarith [abs_nonneg (Matrix.of L).det]

/-- Six times the volume, up to sign, with the four points on the same footing. -/
theorem det_four (p : Fin 4 → Pt) : (Matrix.of fun i j : Fin 3 => p i.succ j - p 0 j).det =
    (Matrix.of fun (i : Fin 4) (j : Fin 4) => (![1, p i 0, p i 1, p i 2] : Fin 4 → ℝ) j).det := by
  rw [Matrix.det_fin_three, Matrix.det_succ_row_zero]
  simp [Fin.sum_univ_succ, Matrix.det_fin_three, Fin.succAbove]
  ring

theorem volume_moved (hL : Orthogonal L) {p q : Fin 4 → Pt} {π : Fin 4 → Fin 4} (hπ : Function.Injective π)
    (h : ∀ v, q (π v) = moved L (p v)) :
    |(Matrix.of fun i j : Fin 3 => q i.succ j - q 0 j).det| = |(Matrix.of fun i j : Fin 3 => p i.succ j - p 0 j).det| := by
  have h1 : |(Matrix.of fun i j : Fin 3 => q i.succ j - q 0 j).det| =
      |(Matrix.of fun i j : Fin 3 => q (π i.succ) j - q (π 0) j).det| := by
    rw [det_four, det_four fun v => q (π v)]
    set e : Equiv.Perm (Fin 4) := Equiv.ofBijective π (Finite.injective_iff_bijective.1 hπ)
    have := Matrix.det_permute e (Matrix.of fun (i : Fin 4) (j : Fin 4) => (![1, q i 0, q i 1, q i 2] : Fin 4 → ℝ) j)
    have e2 : (Matrix.of fun (i : Fin 4) (j : Fin 4) => (![1, q i 0, q i 1, q i 2] : Fin 4 → ℝ) j).submatrix e id =
        Matrix.of fun (i : Fin 4) (j : Fin 4) => (![1, q (π i) 0, q (π i) 1, q (π i) 2] : Fin 4 → ℝ) j := rfl
    rw [e2] at this
    rw [this, abs_mul]
    have : |((Equiv.Perm.sign e : ℤ) : ℝ)| = 1 := by
      rcases Int.units_eq_one_or (Equiv.Perm.sign e) with h | h <;> rw [h] <;> simp
    rw [this, one_mul]
  rw [h1]
  have h2 : (Matrix.of fun i j : Fin 3 => q (π i.succ) j - q (π 0) j) =
      (Matrix.of fun i j : Fin 3 => p i.succ j - p 0 j) * (Matrix.of L).transpose := by
    ext i j
    rw [Matrix.mul_apply]
    simp only [Matrix.of_apply, Matrix.transpose_apply]
    rw [h, h, moved_sub]
    exact Finset.sum_congr rfl fun k _ => mul_comm _ _
  rw [h2, Matrix.det_mul, Matrix.det_transpose, abs_mul, orth_det hL, mul_one]

theorem dot_moved (hL : Orthogonal L) (n x y : Pt) :
    (∑ k, L 0 k * n k) * (moved L x 0 - moved L y 0) + (∑ k, L 1 k * n k) * (moved L x 1 - moved L y 1) +
      (∑ k, L 2 k * n k) * (moved L x 2 - moved L y 2) = n 0 * (x 0 - y 0) + n 1 * (x 1 - y 1) + n 2 * (x 2 - y 2) := by
  have := orth_dot hL n (fun k => x k - y k)
  rw [Fin.sum_univ_three] at this
  rw [moved_sub, moved_sub, moved_sub, this, Fin.sum_univ_three]

theorem normal_moved (hL : Orthogonal L) {p q : Fin 4 → Pt} {π : Fin 4 → Fin 4} (hπ : Function.Injective π)
    (h : ∀ v, q (π v) = moved L (p v)) {f : Fin 4} {n : Pt} (hn : OutwardUnitNormal p f n) :
    OutwardUnitNormal q (π f) fun i => ∑ k, L i k * n k := by
  obtain ⟨h1, h2, h3⟩ := hn
  have hs := (Finite.injective_iff_surjective.1 hπ)
  refine ⟨?_, ?_, ?_⟩
  · have := orth_dot hL n n
    rw [Fin.sum_univ_three, Fin.sum_univ_three (fun k => n k * n k)] at this
    linear_combination this + h1
  · intro i j hi hj
    obtain ⟨i, rfl⟩ := hs i
    obtain ⟨j, rfl⟩ := hs j
    rw [h, h, dot_moved hL]
    exact h2 i j (fun e => hi (by rw [e])) (fun e => hj (by rw [e]))
  · intro j hj
    obtain ⟨j, rfl⟩ := hs j
    rw [h, h, dot_moved hL]
    exact h3 j (fun e => hj (by rw [e]))

theorem dg_renumber {V σ : ℝ} {area psi Q : Fin 4 → ℝ} {inc : Fin 4 → Fin 4 → ℝ} (e : Equiv.Perm (Fin 4))
    (h : Verif.Transport.Spec.DG V σ area inc Q psi) :
    Verif.Transport.Spec.DG V σ (fun f => area (e f)) (fun f v => inc (e f) (e v)) (fun v => Q (e v)) fun v => psi (e v) := by
  intro i
  have hi := h (e i)
  unfold Verif.Transport.Spec.DGRow at hi ⊢
  have s1 : ∀ F : Fin 4 → ℝ, ∑ j ∈ Finset.univ.erase i, F (e j) = ∑ j ∈ Finset.univ.erase (e i), F j := fun F =>
    Finset.sum_equiv e (by simp) (by simp)
  have s2 : ∀ (f : Fin 4) (F : Fin 4 → ℝ), ∑ j ∈ (Finset.univ.erase f).erase i, F (e j) =
      ∑ j ∈ (Finset.univ.erase (e f)).erase (e i), F j := fun f F => Finset.sum_equiv e (by simp) (by simp)
  have s3 : ∑ j, psi (e j) = ∑ j, psi j := Equiv.sum_comp e psi
  rw [s1 psi, s1 Q, s3]
  have s4 : ∀ f j, Verif.Transport.Spec.upwind (fun f => area (e f)) (fun v => psi (e v)) (fun f v => inc (e f) (e v)) f j =
      Verif.Transport.Spec.upwind area psi inc (e f) (e j) := fun _ _ => rfl
  simp only [s4]
  have s5 : ∀ f, ∑ j ∈ (Finset.univ.erase f).erase i, Verif.Transport.Spec.upwind area psi inc (e f) (e j) =
      ∑ j ∈ (Finset.univ.erase (e f)).erase (e i), Verif.Transport.Spec.upwind area psi inc (e f) j := fun f =>
    s2 f fun j => Verif.Transport.Spec.upwind area psi inc (e f) j
  simp only [s5]
  rw [s1 fun f => area f / 12 * (2 * Verif.Transport.Spec.upwind area psi inc f (e i) +
    ∑ j ∈ (Finset.univ.erase f).erase (e i), Verif.Transport.Spec.upwind area psi inc f j)]
  exact hi

/-! ### Proofs: renumbered meshes -/

variable {val : Nat → ℝ} {deck deck' : Deck} {m m' : SerialMesh} {p p' : Problem ℝ} {sS sS' : Nat → ℝ} {κ : ℝ}
  {file file' g g' : List UInt8} {W : World} {C C' : Machine} {N : Numbering} {turn : Nat → Nat}
  {s s' : Settings ℝ} {mesh input mesh' input' : Str} {rest rest' : List Str}

theorem cell_of_lt {m : SerialMesh} (H : Tets m) {c : Nat} (hc : c < m.numCells) : ∃ d, m.cells[c]? = some d := by
  rw [H.cells] at hc
  exact ⟨_, List.getElem?_eq_getElem hc⟩

theorem lt_of_cell {m : SerialMesh} (H : Tets m) {c : Nat} {d : SCell} (h : m.cells[c]? = some d) : c < m.numCells := by
  rw [H.cells]
  exact (List.getElem?_eq_some_iff.1 h).1

theorem turn_lt (U : SameDeck L turn deck deck') {a : Nat} (ha : a < deck.dirs.length) : turn a < deck'.dirs.length := by
  obtain ⟨d', hd', -⟩ := U.dirs a _ (List.getElem?_eq_getElem ha)
  exact (List.getElem?_eq_some_iff.1 hd').1

theorem turn_sum (U : SameDeck L turn deck deck') (G : Nat → ℝ) : ∑ a ∈ Finset.range deck.dirs.length, G (turn a) = ∑ a ∈ Finset.range deck'.dirs.length, G a := by
  have h1 : ((Finset.range deck.dirs.length).image turn) ⊆ Finset.range deck'.dirs.length := by
    intro x hx
    obtain ⟨c, hc, rfl⟩ := Finset.mem_image.1 hx
    exact Finset.mem_range.2 (turn_lt U (Finset.mem_range.1 hc))
  have hi : Set.InjOn turn (Finset.range deck.dirs.length : Set Nat) := by
    intro a ha b hb h
    exact U.inj a (by simpa using ha) b (by simpa using hb) h
  have h2 : (Finset.range deck'.dirs.length).card ≤ ((Finset.range deck.dirs.length).image turn).card := by
    rw [Finset.card_image_of_injOn hi, Finset.card_range, Finset.card_range, U.count]
  rw [← Finset.eq_of_subset_of_card_le h1 h2, Finset.sum_image hi]

theorem turn_onto (U : SameDeck L turn deck deck') {b : Nat} (hb : b < deck'.dirs.length) : ∃ a < deck.dirs.length, turn a = b := by
  have h1 : ((Finset.range deck.dirs.length).image turn) ⊆ Finset.range deck'.dirs.length := by
    intro x hx
    obtain ⟨c, hc, rfl⟩ := Finset.mem_image.1 hx
    exact Finset.mem_range.2 (turn_lt U (Finset.mem_range.1 hc))
  have hi : Set.InjOn turn (Finset.range deck.dirs.length : Set Nat) := by
    intro a ha b hb h
    exact U.inj a (by simpa using ha) b (by simpa using hb) h
  have h2 : (Finset.range deck'.dirs.length).card ≤ ((Finset.range deck.dirs.length).image turn).card := by
    rw [Finset.card_image_of_injOn hi, Finset.card_range, Finset.card_range, U.count]
  have h3 := Finset.eq_of_subset_of_card_le h1 h2
  have : b ∈ (Finset.range deck.dirs.length).image turn := by rw [h3]; exact Finset.mem_range.2 hb
  obtain ⟨a, ha, e⟩ := Finset.mem_image.1 this
  exact ⟨a, Finset.mem_range.1 ha, e⟩

theorem weights_range (deck : Deck) : (deck.dirs.map fun d => d.w).sum =
    ∑ a ∈ Finset.range deck.dirs.length, ((deck.dirs[a]?).map fun d => d.w).getD 0 := by
  generalize deck.dirs = l
  induction l with
  | nil => simp
  | cons x l ih => rw [List.map_cons, List.sum_cons, List.length_cons, Finset.sum_range_succ', ih]; simp [add_comm]

section
variable (H : Tets m) (H' : Tets m') (S : SameMesh L val N m m')
include H H' S

theorem same_lt {c : Nat} (hc : c < m.numCells) : N.cell c < m'.numCells := by
  obtain ⟨d, hd⟩ := cell_of_lt H hc
  obtain ⟨d', hd', -⟩ := S.cells c d hd
  exact lt_of_cell H' hd'

theorem same_onto {c' : Nat} (hc : c' < m'.numCells) : ∃ c < m.numCells, N.cell c = c' := by
  have h1 : ((Finset.range m.numCells).image N.cell) ⊆ Finset.range m'.numCells := by
    intro x hx
    obtain ⟨c, hc, rfl⟩ := Finset.mem_image.1 hx
    exact Finset.mem_range.2 (same_lt H H' S (Finset.mem_range.1 hc))
  have h2 : (Finset.range m'.numCells).card ≤ ((Finset.range m.numCells).image N.cell).card := by
    rw [Finset.card_image_of_injective _ S.cellInj, Finset.card_range, Finset.card_range, S.count]
  have h3 := Finset.eq_of_subset_of_card_le h1 h2
  have : c' ∈ (Finset.range m.numCells).image N.cell := by rw [h3]; exact Finset.mem_range.2 hc
  obtain ⟨c, hc, e⟩ := Finset.mem_image.1 this
  exact ⟨c, Finset.mem_range.1 hc, e⟩

theorem same_sum (F : Nat → ℝ) : ∑ c ∈ Finset.range m.numCells, F (N.cell c) = ∑ c ∈ Finset.range m'.numCells, F c :=
  Finset.sum_bij (fun c _ => N.cell c) (fun c hc => Finset.mem_range.2 (same_lt H H' S (Finset.mem_range.1 hc)))
    (fun a _ b _ h => S.cellInj h) (fun b hb => by
      obtain ⟨c, hc, e⟩ := same_onto H H' S (Finset.mem_range.1 hb)
      exact ⟨c, Finset.mem_range.2 hc, e⟩) fun _ _ => rfl

theorem same_pts {c : Nat} (hc : c < m.numCells) (v : Fin 4) :
    pts val m' (N.cell c) (N.vertex c v) = moved L (pts val m c v) := by
  obtain ⟨d, hd⟩ := cell_of_lt H hc
  obtain ⟨d', hd', -, hn, -⟩ := S.cells c d hd
  have hx := H.cellNode c d hd v
  rw [H.nodes] at hx
  obtain ⟨x', hx', e⟩ := S.nodes _ _ (List.getElem?_eq_getElem hx)
  unfold pts
  rw [hd, hd', Option.bind_some, Option.bind_some, hn, hx', List.getElem?_eq_getElem hx]
  exact e

theorem same_face {c : Nat} {f : Fin 4} {g : Nat} (h : FaceOf m c f g) : FaceOf m' (N.cell c) (N.vertex c f) (N.face g) := by
  obtain ⟨d, e, k, hd, hk, he, hf⟩ := h
  obtain ⟨d', hd', -, hn, κ, hκ⟩ := S.cells c d hd
  obtain ⟨e', he', ι, hι⟩ := S.faces g e he
  refine ⟨d', e', κ k, hd', by rw [hκ, hk], he', fun j hj => ?_⟩
  have := hι (ι.symm j)
  rw [Equiv.apply_symm_apply, hj, hn] at this
  exact hf _ (S.nodeInj this).symm

theorem same_face_back {c : Nat} {f : Fin 4} {g' : Nat} (hc : c < m.numCells) (h : FaceOf m' (N.cell c) (N.vertex c f) g') :
    ∃ g, g' = N.face g ∧ FaceOf m c f g := by
  obtain ⟨d', e', k, hd', hk, he', hf⟩ := h
  obtain ⟨d, hd⟩ := cell_of_lt H hc
  obtain ⟨d1, hd1, -, hn, κ, hκ⟩ := S.cells c d hd
  rw [hd', Option.some.injEq] at hd1
  subst hd1
  have h1 := hκ (κ.symm k)
  rw [Equiv.apply_symm_apply, hk] at h1
  have hg := H.cellFace c d hd (κ.symm k)
  rw [H.faces] at hg
  refine ⟨d.faces (κ.symm k), h1, d, _, κ.symm k, hd, rfl, List.getElem?_eq_getElem hg, fun j hj => ?_⟩
  obtain ⟨e1, he1, ι, hι⟩ := S.faces _ _ (List.getElem?_eq_getElem hg)
  rw [← h1, he', Option.some.injEq] at he1
  subst he1
  have := hι j
  rw [hj, ← hn] at this
  exact hf _ this

theorem same_across {c c' : Nat} {f f' : Fin 4} (h : Across m c f c' f') :
    Across m' (N.cell c) (N.vertex c f) (N.cell c') (N.vertex c' f') := by
  obtain ⟨h1, g, h2, h3⟩ := h
  exact ⟨fun e => h1 (S.cellInj e), N.face g, same_face H H' S h2, same_face H H' S h3⟩

theorem same_across_back {c c1 : Nat} {f f1 : Fin 4} (hc : c < m.numCells) (h : Across m' (N.cell c) (N.vertex c f) c1 f1) :
    ∃ c' f', c' < m.numCells ∧ c1 = N.cell c' ∧ f1 = N.vertex c' f' ∧ Across m c f c' f' := by
  obtain ⟨h1, g', h2, h3⟩ := h
  obtain ⟨d1, -, -, hd1, -⟩ := id h3
  obtain ⟨c', hc', rfl⟩ := same_onto H H' S (lt_of_cell H' hd1)
  obtain ⟨f', rfl⟩ := (Finite.injective_iff_surjective.1 (S.vertexInj c')) f1
  obtain ⟨g, rfl, k1⟩ := same_face_back H H' S hc h2
  obtain ⟨g2, e, k2⟩ := same_face_back H H' S hc' h3
  rw [← S.faceInj e] at k2
  exact ⟨c', f', hc', rfl, rfl, fun e => h1 (by rw [e]), g, k1, k2⟩

theorem across_lt {c c' : Nat} {f f' : Fin 4} (h : Across m c f c' f') : c < m.numCells ∧ c' < m.numCells := by
  obtain ⟨-, g, ⟨d, -, -, hd, -⟩, ⟨d', -, -, hd', -⟩⟩ := h
  exact ⟨lt_of_cell H hd, lt_of_cell H hd'⟩

theorem fits_moved (hL : Orthogonal L) (F : Fits val m) : Fits val m' where
  nondeg := by
    intro c1 hc1
    obtain ⟨c, hc, rfl⟩ := same_onto H H' S hc1
    intro n0 n1 n2 d h
    have hn := F.nondeg c hc (n0 * L 0 0 + n1 * L 1 0 + n2 * L 2 0) (n0 * L 0 1 + n1 * L 1 1 + n2 * L 2 1)
      (n0 * L 0 2 + n1 * L 1 2 + n2 * L 2 2)
      (d - 50 * (n0 + n1 + n2) + 50 * ((n0 * L 0 0 + n1 * L 1 0 + n2 * L 2 0) + (n0 * L 0 1 + n1 * L 1 1 + n2 * L 2 1) +
        (n0 * L 0 2 + n1 * L 1 2 + n2 * L 2 2))) (by
      intro i
      have := h (N.vertex c i)
      rw [same_pts H H' S hc] at this
      simp only [moved, Fin.sum_univ_three] at this
      linear_combination this)
    obtain ⟨k0, k1, k2⟩ := hn
    have hLT : (Matrix.of L) * (Matrix.of L).transpose = 1 := by
      rw [mul_eq_one_comm]
      ext i j
      rw [Matrix.mul_apply, Matrix.one_apply]
      simpa using hL i j
    have e : ∀ i j, L i 0 * L j 0 + L i 1 * L j 1 + L i 2 * L j 2 = if i = j then 1 else 0 := by
      intro i j
      have := congrFun (congrFun hLT i) j
      rw [Matrix.mul_apply, Matrix.one_apply, Fin.sum_univ_three] at this
      simpa using this
    have e00 := e 0 0
    have e01 := e 0 1
    have e02 := e 0 2
    have e11 := e 1 1
    have e12 := e 1 2
    have e22 := e 2 2
    simp only [if_true, Fin.isValue, Fin.reduceEq, if_false] at e00 e01 e02 e11 e12 e22
    refine ⟨?_, ?_, ?_⟩
    · linear_combination L 0 0 * k0 + L 0 1 * k1 + L 0 2 * k2 - n0 * e00 - n1 * e01 - n2 * e02
    · linear_combination L 1 0 * k0 + L 1 1 * k1 + L 1 2 * k2 - n0 * e01 - n1 * e11 - n2 * e12
    · linear_combination L 2 0 * k0 + L 2 1 * k1 + L 2 2 * k2 - n0 * e02 - n1 * e12 - n2 * e22
  sides := by
    intro c1 f1 c2 f2 hA
    have hc1 : c1 < m'.numCells := by
      obtain ⟨-, g, ⟨d, -, -, hd, -⟩, -⟩ := hA
      exact lt_of_cell H' hd
    obtain ⟨c, hc, rfl⟩ := same_onto H H' S hc1
    have hs := Finite.injective_iff_surjective.1 (S.vertexInj c)
    obtain ⟨f, rfl⟩ := hs f1
    obtain ⟨c', f', hc', rfl, rfl, hA'⟩ := same_across_back H H' S hc hA
    obtain ⟨n0, n1, n2, d, q1, q2, q3⟩ := F.sides c f c' f' hA'
    have key : ∀ x : Pt, (∑ k, L 0 k * ![n0, n1, n2] k) * moved L x 0 + (∑ k, L 1 k * ![n0, n1, n2] k) * moved L x 1 +
        (∑ k, L 2 k * ![n0, n1, n2] k) * moved L x 2 = n0 * x 0 + n1 * x 1 + n2 * x 2 +
        (50 * ((∑ k, L 0 k * ![n0, n1, n2] k) + (∑ k, L 1 k * ![n0, n1, n2] k) + ∑ k, L 2 k * ![n0, n1, n2] k) -
          50 * (n0 + n1 + n2)) := by
      intro x
      have := orth_dot hL ![n0, n1, n2] fun k => x k - 50
      rw [Fin.sum_univ_three, Fin.sum_univ_three (fun k => (![n0, n1, n2] : Pt) k * (x k - 50))] at this
      simp only [Matrix.cons_val_zero, Matrix.cons_val_one, Matrix.cons_val] at this
      simp only [moved]
      linear_combination this
    refine ⟨∑ k, L 0 k * ![n0, n1, n2] k, ∑ k, L 1 k * ![n0, n1, n2] k, ∑ k, L 2 k * ![n0, n1, n2] k, d + (50 * ((∑ k, L 0 k * ![n0, n1, n2] k) + (∑ k, L 1 k * ![n0, n1, n2] k) + ∑ k, L 2 k * ![n0, n1, n2] k) -
          50 * (n0 + n1 + n2)), fun v => ?_, ?_, ?_⟩
    · unfold facePoints
      obtain ⟨j, hj⟩ := hs ((N.vertex c f).succAbove v)
      have hjf : j ≠ f := by
        rintro rfl
        exact Fin.succAbove_ne _ _ hj.symm
      obtain ⟨w, rfl⟩ := Fin.exists_succAbove_eq hjf
      rw [← hj, same_pts H H' S hc, key]
      have := q1 w
      unfold facePoints at this
      rw [this]
    · rw [same_pts H H' S hc, key]
      linarith
    · rw [same_pts H H' S hc', key]
      linarith

theorem sensible_moved (hL : Orthogonal L) (U : SameDeck L turn deck deck') (hs : Sensible val deck m) : Sensible val deck' m' where
  material := by
    intro d' hd'
    obtain ⟨i, hi, rfl⟩ := List.mem_iff_getElem.1 hd'
    obtain ⟨c, hc, rfl⟩ := same_onto H H' S (lt_of_cell H' (List.getElem?_eq_getElem hi))
    obtain ⟨d, hd⟩ := cell_of_lt H hc
    obtain ⟨d', hd', hm, -⟩ := S.cells c d hd
    rw [List.getElem?_eq_getElem hi, Option.some.injEq] at hd'
    rw [hd', hm]
    exact hs.material d (List.mem_of_getElem? hd)
  centre := by
    intro c1 hc1 v
    obtain ⟨c, hc, rfl⟩ := same_onto H H' S hc1
    obtain ⟨v, rfl⟩ := Finite.injective_iff_surjective.1 (S.vertexInj c) v
    rw [same_pts H H' S hc, moved_radius hL]
    exact hs.centre c hc v
  sigma1 := by rw [U.sigmaT1]; exact hs.sigma1
  sigma2 := by rw [U.sigmaT2]; exact hs.sigma2
  dirs := by
    intro d' hd'
    obtain ⟨i, hi, rfl⟩ := List.mem_iff_getElem.1 hd'
    obtain ⟨a, ha, rfl⟩ := turn_onto U hi
    obtain ⟨d2, hd2, -, e⟩ := U.dirs a _ (List.getElem?_eq_getElem ha)
    rw [List.getElem?_eq_getElem hi, Option.some.injEq] at hd2
    rw [hd2]
    have := orth_dot hL (![(deck.dirs[a]).xi, (deck.dirs[a]).eta, (deck.dirs[a]).mu] : Pt)
      (![(deck.dirs[a]).xi, (deck.dirs[a]).eta, (deck.dirs[a]).mu] : Pt)
    have e0 := congrFun e 0
    have e1 := congrFun e 1
    have e2 := congrFun e 2
    simp only [Matrix.cons_val_zero, Matrix.cons_val_one, Matrix.cons_val] at e0 e1 e2
    rw [Fin.sum_univ_three, ← e0, ← e1, ← e2, Fin.sum_univ_three (fun k => (![_, _, _] : Pt) k * (![_, _, _] : Pt) k)] at this
    simp only [Matrix.cons_val_zero, Matrix.cons_val_one, Matrix.cons_val] at this
    linear_combination this + hs.dirs _ (List.getElem_mem ha)

/-! ### Proofs: the described problems -/

variable (hL : Orthogonal L) (F : Fits val m) (Ds : Describes val deck m p sS) (Ds' : Describes val deck' m' p' sS')
  (U : SameDeck L turn deck deck')
include hL F Ds Ds' U

theorem same_volume {c : Nat} (hc : c < m.numCells) : p'.volume (N.cell c) = p.volume c := by
  rw [Ds.volume c hc, Ds'.volume _ (same_lt H H' S hc), volume_moved hL (S.vertexInj c) (same_pts H H' S hc)]

theorem same_area {c : Nat} (hc : c < m.numCells) (f : Fin 4) : p'.area (N.cell c) (N.vertex c f) = p.area c f := by
  obtain ⟨n, -, hn⟩ := normal_outward (pts val m c) f _ (std_table f) (F.nondeg c hc)
  obtain ⟨j, hj⟩ : ∃ j : Fin 4, j ≠ f := by
    fin_cases f
    exacts [⟨1, by decide⟩, ⟨0, by decide⟩, ⟨0, by decide⟩, ⟨0, by decide⟩]
  have e1 := Ds.area c hc f n hn j hj
  have e2 := Ds'.area _ (same_lt H H' S hc) _ _ (normal_moved hL (S.vertexInj c) (same_pts H H' S hc) hn) (N.vertex c j)
    (fun e => hj (S.vertexInj c e))
  rw [same_volume H H' S hL F Ds Ds' U hc, same_pts H H' S hc, same_pts H H' S hc, Fin.sum_univ_three, dot_moved hL] at e2
  rw [Fin.sum_univ_three] at e1
  have hlt := hn.2.2 j hj
  have hne : n 0 * (pts val m c j 0 - pts val m c f 0) + n 1 * (pts val m c j 1 - pts val m c f 1) +
      n 2 * (pts val m c j 2 - pts val m c f 2) ≠ 0 := by
    intro h0
    linarith
  have := mul_right_cancel₀ hne (e2.symm.trans e1)
  linarith

theorem same_omega {c : Nat} (hc : c < m.numCells) (f : Fin 4) {a : Nat} (ha : a < deck.dirs.length) :
    p'.omegaDotN (turn a) (N.cell c) (N.vertex c f) = p.omegaDotN a c f := by
  obtain ⟨n, -, hn⟩ := normal_outward (pts val m c) f _ (std_table f) (F.nondeg c hc)
  obtain ⟨d', hd', -, hL'⟩ := U.dirs a _ (List.getElem?_eq_getElem ha)
  rw [Ds.omega c hc f n hn a _ (List.getElem?_eq_getElem ha),
    Ds'.omega _ (same_lt H H' S hc) _ _ (normal_moved hL (S.vertexInj c) (same_pts H H' S hc) hn) _ _ hd']
  have := orth_dot hL (![(deck.dirs[a]).xi, (deck.dirs[a]).eta, (deck.dirs[a]).mu] : Pt) n
  have e0 := congrFun hL' 0
  have e1 := congrFun hL' 1
  have e2 := congrFun hL' 2
  simp only [Matrix.cons_val_zero, Matrix.cons_val_one, Matrix.cons_val] at e0 e1 e2
  rw [Fin.sum_univ_three, ← e0, ← e1, ← e2, Fin.sum_univ_three (fun k => (![_, _, _] : Pt) k * n k)] at this
  simpa using this

theorem same_sigma {c : Nat} (hc : c < m.numCells) : p'.sigmaT (N.cell c) = p.sigmaT c ∧ sS' (N.cell c) = sS c := by
  obtain ⟨d, hd⟩ := cell_of_lt H hc
  obtain ⟨d', hd', hm, -⟩ := S.cells c d hd
  have h1 := Ds.sigma c d hd
  have h2 := Ds'.sigma _ d' hd'
  unfold Spec.Sigma at h1 h2
  rw [hm, U.sigmaT1, U.sigmaT2, U.sigmaS1, U.sigmaS2] at h2
  rcases h1 with ⟨a1, a2, a3⟩ | ⟨a1, a2, a3⟩ <;> rcases h2 with ⟨b1, b2, b3⟩ | ⟨b1, b2, b3⟩
  · exact ⟨b2.trans a2.symm, b3.trans a3.symm⟩
  · omega
  · omega
  · exact ⟨b2.trans a2.symm, b3.trans a3.symm⟩

theorem same_source {c : Nat} (hc : c < m.numCells) (v : Fin 4) {a : Nat} (ha : a < deck.dirs.length) {g g' : Nat}
    (hg : g < deck.nGroups) (hg' : g' < deck'.nGroups) :
    p'.source g' (N.vertex c v) (turn a) (N.cell c) = p.source g v a c := by
  obtain ⟨d', hd', -, hL'⟩ := U.dirs a _ (List.getElem?_eq_getElem ha)
  obtain ⟨k1, k2⟩ := Ds.source c hc a _ (List.getElem?_eq_getElem ha) g hg v
  obtain ⟨k1', k2'⟩ := Ds'.source _ (same_lt H H' S hc) _ _ hd' g' hg' (N.vertex c v)
  rw [same_pts H H' S hc, moved_radius hL] at k1' k2'
  obtain ⟨s1, s2⟩ := same_sigma H H' S hL F Ds Ds' U hc
  rcases le_or_gt (radius (pts val m c v)) 30 with hr | hr
  · rw [k1 hr, k1' hr, s1, s2]
    have := orth_dot hL (fun k => pts val m c v k - 50) (![(deck.dirs[a]).xi, (deck.dirs[a]).eta, (deck.dirs[a]).mu] : Pt)
    have e0 := congrFun hL' 0
    have e1 := congrFun hL' 1
    have e2 := congrFun hL' 2
    simp only [Matrix.cons_val_zero, Matrix.cons_val_one, Matrix.cons_val] at e0 e1 e2
    rw [Fin.sum_univ_three, ← e0, ← e1, ← e2, Fin.sum_univ_three (fun k => (pts val m c v k - 50) * (![_, _, _] : Pt) k)] at this
    simp only [Matrix.cons_val_zero, Matrix.cons_val_one, Matrix.cons_val] at this
    congr 3
    rw [← this]
    simp only [moved]
    ring
  · rw [k2 hr, k2' hr]

/-- The flux on the moved mesh, read with the old numbers and taken from any group, solves the problem on the first mesh. -/
theorem scatter_back {psi' : Psi ℝ} (h : p'.Scatter m' (scattering deck' sS') psi') (γ : Nat → Nat) (hγ : ∀ g, γ g < deck'.nGroups) :
    p.Scatter m (scattering deck sS) fun g v a c => psi' (γ g) (N.vertex c v) (turn a) (N.cell c) := by
  intro c d hd a ha g hg
  have hc := lt_of_cell H hd
  have ha' : a < deck.dirs.length := by rw [← Ds.angles]; exact ha
  have hg1 : g < deck.nGroups := by rw [← Ds.groups]; exact hg
  obtain ⟨d', hd', hm, hn, κ, hκ⟩ := S.cells c d hd
  obtain ⟨inc, i1, i2⟩ := h (N.cell c) d' hd' (turn a)
    (by show turn a < p'.nAngles; rw [Ds'.angles]; exact turn_lt U ha') (γ g)
    (by show γ g < p'.nGroups; rw [Ds'.groups]; exact hγ g)
  have har : ∀ f, p'.area (N.cell c) (N.vertex c f) = p.area c f := same_area H H' S hL F Ds Ds' U hc
  have hom : ∀ f, p'.omegaDotN (turn a) (N.cell c) (N.vertex c f) = p.omegaDotN a c f := fun f =>
    same_omega H H' S hL F Ds Ds' U hc f ha'
  refine ⟨fun f v => inc (N.vertex c f) (N.vertex c v), ?_, ?_⟩
  · intro f v hv hin
    dsimp only at hin
    obtain ⟨j1, j2⟩ := i1 (N.vertex c f) (N.vertex c v) (fun e => hv (S.vertexInj c e)) (by
      show p'.area _ _ * p'.omegaDotN _ _ _ < 0
      rw [har, hom]; exact hin)
    constructor
    · intro c' f' hA
      obtain ⟨d1, w, hd1, hw, hinc⟩ := j1 _ _ (same_across H H' S hA)
      have hc' := (across_lt H H' S hA).2
      obtain ⟨d2, hd2⟩ := cell_of_lt H hc'
      obtain ⟨d3, hd3, -, hn3, -⟩ := S.cells c' d2 hd2
      rw [hd1, Option.some.injEq] at hd3
      subst hd3
      obtain ⟨w, rfl⟩ := (Finite.injective_iff_surjective.1 (S.vertexInj c')) w
      refine ⟨d2, w, hd2, ?_, hinc⟩
      rw [hn3, hn] at hw
      exact S.nodeInj hw
    · intro hno
      refine j2 fun c1 f1 hA => ?_
      obtain ⟨c', f', -, -, -, hA'⟩ := same_across_back H H' S hc hA
      exact hno c' f' hA'
  · have := dg_renumber (Equiv.ofBijective _ (Finite.injective_iff_bijective.1 (S.vertexInj c))) i2
    have e1 : (fun f => p'.area (N.cell c) (N.vertex c f) * p'.omegaDotN (turn a) (N.cell c) (N.vertex c f)) =
        fun f => p.area c f * p.omegaDotN a c f := by
      funext f
      rw [har, hom]
    have e2 : (fun v => p'.total (scattering deck' sS') psi' (γ g) (N.vertex c v) (turn a) (N.cell c)) =
        fun v => p.total (scattering deck sS) (fun g v a c => psi' (γ g) (N.vertex c v) (turn a) (N.cell c)) g v a c := by
      funext v
      unfold Problem.total
      rw [same_source H H' S hL F Ds Ds' U hc v ha' hg1 (hγ g), Ds.angles, Ds'.angles]
      congr 1
      have hs : (scattering deck' sS').sigmaS (N.cell c) = (scattering deck sS).sigmaS c := (same_sigma H H' S hL F Ds Ds' U hc).2
      rw [hs, ← turn_sum U]
      congr 1
      refine Finset.sum_congr rfl fun b hb => ?_
      congr 1
      obtain ⟨b', hb', hw, -⟩ := U.dirs b _ (List.getElem?_eq_getElem (Finset.mem_range.1 hb))
      unfold scattering
      dsimp only
      rw [hb', List.getElem?_eq_getElem (Finset.mem_range.1 hb)]
      exact hw
    have e3 := same_volume H H' S hL F Ds Ds' U hc
    have e4 := (same_sigma H H' S hL F Ds Ds' U hc).1
    dsimp only at this ⊢
    simp only [Equiv.ofBijective_apply] at this
    rw [e1, e2, e3, e4] at this
    exact this

/-- The solutions of the two problems are the same flux, in every group. -/
theorem scatter_same {psi psi' : Psi ℝ} (h' : p'.Scatter m' (scattering deck' sS') psi')
    (hu : ∀ q, p.Scatter m (scattering deck sS) q → ∀ c < m.numCells, ∀ a < p.nAngles, ∀ g < p.nGroups, ∀ v, q g v a c = psi g v a c)
    {c : Nat} (hc : c < m.numCells) {a : Nat} (ha : a < deck.dirs.length) {g : Nat} (hg : g < deck.nGroups) {g' : Nat}
    (hg' : g' < deck'.nGroups) (v : Fin 4) : psi' g' (N.vertex c v) (turn a) (N.cell c) = psi g v a c :=
  hu _ (scatter_back H H' S hL F Ds Ds' U h' (fun _ => g') fun _ => hg') c hc a (by rw [Ds.angles]; exact ha) g
    (by rw [Ds.groups]; exact hg) v

theorem same_average {c : Nat} (hc : c < m.numCells) (q : Fin 4 → ℝ) : ∑ v, q (N.vertex c v) = ∑ v, q v :=
  Equiv.sum_comp (Equiv.ofBijective _ (Finite.injective_iff_bijective.1 (S.vertexInj c))) q

theorem same_centroid {c : Nat} (hc : c < m.numCells) : Spec.exact (Spec.centroid val m' (N.cell c)) = Spec.exact (Spec.centroid val m c) := by
  have : Spec.centroid val m' (N.cell c) = moved L (Spec.centroid val m c) := by
    funext k
    unfold Spec.centroid
    rw [← same_average H H' S hL F Ds Ds' U hc fun v => pts val m' (N.cell c) v k]
    simp only [same_pts H H' S hc, moved, Fin.sum_univ_four, Fin.sum_univ_three]
    ring
  unfold Spec.exact
  rw [this, moved_radius hL]

/-- A sum over cells, angles, groups of quantities that are the same in both problems. -/
theorem same_total {A A' : Nat → Nat → Nat → ℝ} (h : ∀ c < m.numCells, ∀ a < deck.dirs.length, ∀ g < deck.nGroups, ∀ g' < deck'.nGroups,
    A' (N.cell c) (turn a) g' = A c a g) (hg : 0 < deck.nGroups) (hg' : 0 < deck'.nGroups) :
    deck.nGroups * Spec.total deck' m' A' = deck'.nGroups * Spec.total deck m A := by
  have e1 : Spec.total deck m A = deck.nGroups * ∑ c ∈ Finset.range m.numCells, ∑ a ∈ Finset.range deck.dirs.length, A c a 0 := by
    unfold Spec.total
    rw [Finset.mul_sum]
    refine Finset.sum_congr rfl fun c hc => ?_
    rw [Finset.mul_sum]
    refine Finset.sum_congr rfl fun a ha => ?_
    rw [Finset.sum_congr rfl (g := fun _ => A c a 0), Finset.sum_const, Finset.card_range, nsmul_eq_mul]
    intro g hg1
    rw [← h c (Finset.mem_range.1 hc) a (Finset.mem_range.1 ha) g (Finset.mem_range.1 hg1) 0 hg',
      ← h c (Finset.mem_range.1 hc) a (Finset.mem_range.1 ha) 0 hg 0 hg']
  have e2 : Spec.total deck' m' A' = deck'.nGroups * ∑ c ∈ Finset.range m.numCells, ∑ a ∈ Finset.range deck.dirs.length, A c a 0 := by
    unfold Spec.total
    rw [← same_sum H H' S, Finset.mul_sum]
    refine Finset.sum_congr rfl fun c hc => ?_
    rw [← turn_sum U fun a => ∑ g ∈ Finset.range deck'.nGroups, A' (N.cell c) a g, Finset.mul_sum]
    refine Finset.sum_congr rfl fun a ha => ?_
    rw [Finset.sum_congr rfl (g := fun _ => A c a 0), Finset.sum_const, Finset.card_range, nsmul_eq_mul]
    intro g hg1
    exact h c (Finset.mem_range.1 hc) a (Finset.mem_range.1 ha) 0 hg g (Finset.mem_range.1 hg1)
  rw [e1, e2]
  ring

theorem subcritical_moved (hκ : Subcritical deck κ) : Subcritical deck' κ := by
  have hw : (deck'.dirs.map fun d => d.w).sum = (deck.dirs.map fun d => d.w).sum := by
    rw [weights_range, weights_range deck, ← turn_sum U]
    refine Finset.sum_congr rfl fun a ha => ?_
    obtain ⟨d', hd', hw, -⟩ := U.dirs a _ (List.getElem?_eq_getElem (Finset.mem_range.1 ha))
    rw [hd', List.getElem?_eq_getElem (Finset.mem_range.1 ha)]
    exact hw
  refine ⟨hκ.nonneg, ?_, ?_, ?_, ?_, ?_, ?_⟩
  · intro d' hd'
    obtain ⟨i, hi, rfl⟩ := List.mem_iff_getElem.1 hd'
    obtain ⟨a, ha, rfl⟩ := turn_onto U hi
    obtain ⟨d2, hd2, e, -⟩ := U.dirs a _ (List.getElem?_eq_getElem ha)
    rw [List.getElem?_eq_getElem hi, Option.some.injEq] at hd2
    rw [hd2, e]
    exact hκ.weights _ (List.getElem_mem ha)
  · intro h
    have := U.count
    rw [h] at this
    exact hκ.some (List.length_eq_zero_iff.1 this.symm)
  · rw [U.sigmaS1]; exact hκ.sigma1
  · rw [U.sigmaS2]; exact hκ.sigma2
  · rw [hw, U.sigmaS1, U.sigmaT1]; exact hκ.ratio1
  · rw [hw, U.sigmaS2, U.sigmaT2]; exact hκ.ratio2

theorem across_moved {c1 c2 : Nat} {f1 f2 : Fin 4} (hA : Across m' c1 f1 c2 f2) : ∃ c c' f f', c < m.numCells ∧ c' < m.numCells ∧
    c1 = N.cell c ∧ c2 = N.cell c' ∧ f1 = N.vertex c f ∧ f2 = N.vertex c' f' ∧ Across m c f c' f' := by
  have hc1 : c1 < m'.numCells := by
    obtain ⟨-, g, ⟨d, -, -, hd, -⟩, -⟩ := hA
    exact lt_of_cell H' hd
  obtain ⟨c, hc, rfl⟩ := same_onto H H' S hc1
  obtain ⟨f, rfl⟩ := Finite.injective_iff_surjective.1 (S.vertexInj c) f1
  obtain ⟨c', f', hc', rfl, rfl, hA'⟩ := same_across_back H H' S hc hA
  exact ⟨c, c', f, f', hc, hc', rfl, rfl, rfl, rfl, hA'⟩

theorem away_moved {tol : ℝ} (h : AwayFrom p m tol) : AwayFrom p' m' tol := by
  intro c1 f1 c2 f2 hA b hb
  rw [Ds'.angles] at hb
  obtain ⟨a, ha, rfl⟩ := turn_onto U hb
  obtain ⟨c, c', f, f', hc, hc', rfl, rfl, rfl, rfl, hA'⟩ := across_moved H H' S hL F Ds Ds' U hA
  rw [same_omega H H' S hL F Ds Ds' U hc f ha]
  exact h c f c' f' hA' a (by rw [Ds.angles]; exact ha)

theorem transversal_moved (h : p.Transversal m) : p'.Transversal m' := by
  intro c1 f1 c2 f2 hA b hb
  rw [Ds'.angles] at hb
  obtain ⟨a, ha, rfl⟩ := turn_onto U hb
  obtain ⟨c, c', f, f', hc, hc', rfl, rfl, rfl, rfl, hA'⟩ := across_moved H H' S hL F Ds Ds' U hA
  rw [same_omega H H' S hL F Ds Ds' U hc f ha]
  exact h c f c' f' hA' a (by rw [Ds.angles]; exact ha)

theorem acyclic_moved (h : p.Acyclic m) : p'.Acyclic m' := by
  intro b hb
  rw [Ds'.angles] at hb
  obtain ⟨a, ha, rfl⟩ := turn_onto U hb
  have step : ∀ c1 c2, (∃ f f', Across m' c1 f c2 f' ∧ 0 < p'.omegaDotN (turn a) c1 f) → ∃ c c', c1 = N.cell c ∧ c2 = N.cell c' ∧
      ∃ f f', Across m c f c' f' ∧ 0 < p.omegaDotN a c f := by
    rintro c1 c2 ⟨f1, f2, hA, ho⟩
    obtain ⟨c, c', f, f', hc, hc', rfl, rfl, rfl, rfl, hA'⟩ := across_moved H H' S hL F Ds Ds' U hA
    rw [same_omega H H' S hL F Ds Ds' U hc f ha] at ho
    exact ⟨c, c', rfl, rfl, f, f', hA', ho⟩
  have all : ∀ c1 c2, Relation.TransGen (fun c c' => ∃ f f', Across m' c f c' f' ∧ 0 < p'.omegaDotN (turn a) c f) c1 c2 →
      ∃ c c', c1 = N.cell c ∧ c2 = N.cell c' ∧
        Relation.TransGen (fun c c' => ∃ f f', Across m c f c' f' ∧ 0 < p.omegaDotN a c f) c c' := by
    intro c1 c2 ht
    induction ht with
    | single h1 =>
      obtain ⟨c, c', e, e', k⟩ := step _ _ h1
      exact ⟨c, c', e, e', .single k⟩
    | tail _ h1 ih =>
      obtain ⟨c, c', e, e', k⟩ := ih
      obtain ⟨x, y, e1, e2, k2⟩ := step _ _ h1
      rw [e'] at e1
      rw [← S.cellInj e1] at k2
      exact ⟨c, y, e, e2, k.tail k2⟩
  intro c1 ht
  obtain ⟨c, c', e, e', k⟩ := all _ _ ht
  rw [e] at e'
  rw [← S.cellInj e'] at k
  exact h a (by rw [Ds.angles]; exact ha) c k

end

/-- C85: what is asked of a mesh and its settings does not depend on numbers and orientation either. -/
theorem good_moved (hL : Orthogonal L) (S : SameMesh L val N m m') (U : SameDeck L turn deck deck') (G : Good val file m deck p sS κ)
    (hr : readSerial file' = some m') (H' : Tets m') (hsm : Small deck' m') (hg : 0 < deck'.nGroups)
    (hb : deck'.dirs.length * 4 * deck'.nGroups < 2 ^ 31)
    (hz : 64 + 8 * (m'.numCells * (deck'.dirs.length * 4 * deck'.nGroups)) ≤ 2 ^ 63) :
    (∃ p' sS', Describes val deck' m' p' sS') ∧ ∀ p' sS', Describes val deck' m' p' sS' → Good val file' m' deck' p' sS' κ ∧
      ∀ tol, AwayFrom p m tol → AwayFrom p' m' tol := by
  have key : ∀ p' sS', Describes val deck' m' p' sS' → Good val file' m' deck' p' sS' κ ∧
      ∀ tol, AwayFrom p m tol → AwayFrom p' m' tol := by
    intro p' sS' Ds'
    have H := G.tets
    have F := G.fits
    have Ds := G.describes
    exact ⟨⟨hr, H', fits_moved H H' S hL F, sensible_moved H H' S hL U G.sensible, hsm, Ds',
      acyclic_moved H H' S hL F Ds Ds' U G.acyclic, transversal_moved H H' S hL F Ds Ds' U G.transversal,
      subcritical_moved H H' S hL F Ds Ds' U G.subcritical, G.below, hg, hb, hz⟩,
      fun tol h => away_moved H H' S hL F Ds Ds' U h⟩
  exact ⟨describes_exists H' (fits_moved G.tets H' S hL G.fits) (sensible_moved G.tets H' S hL U G.sensible), key⟩

/-! ### Proofs: runs -/

/-- C85: a run on a moved and renumbered mesh, with any number of groups, prints the same error; and what one file holds for a
group, vertex, direction and cell, the other holds for any group at the new numbers. Sweep type, partition, ranks, threads and all
other settings may differ too. -/
theorem main_moved (hL : Orthogonal L) (S : SameMesh L W.val N m m') (U : SameDeck L turn deck deck')
    (G : Good W.val file m deck p sS κ) (G' : Good W.val file' m' deck' p' sS' κ)
    (hs : readInput W.stod W.texts .original input = .ok s) (hs' : readInput W.stod W.texts .original input' = .ok s')
    (hd : Asks s deck) (hd' : Asks s' deck') (hg : W.files mesh = some g) (hP : Partitioned W.val file C.n g)
    (hg' : W.files mesh' = some g') (hP' : Partitioned W.val file' C'.n g') (hn : C.n ≤ 2 ^ 30) (hn' : C'.n ≤ 2 ^ 30)
    (hth : 0 < C.threads) (hth' : 0 < C'.threads)
    (hw : Scheduled s.sweepType ∨ Scheduled s'.sweepType → AwayFrom p m tolerance)
    {e e' : Option ℝ} {out out' : Option (Str × Verif.PsiFile.File)} (hr : Ran W C (mesh :: input :: rest) (.finished e out))
    (hr' : Ran W C' (mesh' :: input' :: rest') (.finished e' out')) :
    e = e' ∧ ∀ name f name' f', out = some (name, f) → out' = some (name', f') → ∃ u u' : Nat → Nat → Nat → Nat → Nat,
      Contents f m.numCells deck.nGroups 4 deck.dirs.length u ∧ Contents f' m'.numCells deck'.nGroups 4 deck'.dirs.length u' ∧
      ∀ g < deck.nGroups, ∀ g' < deck'.nGroups, ∀ v : Fin 4, ∀ a < deck.dirs.length, ∀ c < m.numCells,
        u' g' (N.vertex c v) (turn a) (N.cell c) = u g v a c := by
  have H := G.tets
  have H' := G'.tets
  have F := G.fits
  have Ds := G.describes
  have Ds' := G'.describes
  obtain ⟨S0, d1, d2, d3, d4⟩ := main_result G hs hd hg hP hn hth (fun h => hw (.inl h)) hr
  obtain ⟨S', e1, e2, e3, e4⟩ := main_result G' hs' hd' hg' hP' hn' hth'
    (fun h => away_moved H H' S hL F Ds Ds' U (hw (.inr h))) hr'
  have key : ∀ c < m.numCells, ∀ a < deck.dirs.length, ∀ g < deck.nGroups, ∀ g' < deck'.nGroups, ∀ v,
      S' g' (N.vertex c v) (turn a) (N.cell c) = S0 g v a c := fun c hc a ha g hg g' hg' v =>
    scatter_same H H' S hL F Ds Ds' U e1 d2 hc ha hg hg' v
  have avg : ∀ c < m.numCells, ∀ a < deck.dirs.length, ∀ g < deck.nGroups, ∀ g' < deck'.nGroups,
      ∑ v, S' g' v (turn a) (N.cell c) = ∑ v, S0 g v a c := by
    intro c hc a ha g hg g' hg'
    rw [← same_average H H' S hL F Ds Ds' U hc fun v => S' g' v (turn a) (N.cell c)]
    exact Finset.sum_congr rfl fun v _ => key c hc a ha g hg g' hg' v
  have n0 : (0 : ℝ) < deck.nGroups := by exact_mod_cast G.groups
  have n1 : (0 : ℝ) < deck'.nGroups := by exact_mod_cast G'.groups
  constructor
  · have k1 : deck.nGroups * size2 deck' m' S' = deck'.nGroups * size2 deck m S0 :=
      same_total H H' S hL F Ds Ds' U (fun c hc a ha g hg g' hg' => by rw [avg c hc a ha g hg g' hg']) G.groups G'.groups
    have k2 : deck.nGroups * distance2 W.val deck' m' S' = deck'.nGroups * distance2 W.val deck m S0 :=
      same_total H H' S hL F Ds Ds' U (fun c hc a ha g hg g' hg' => by
        rw [avg c hc a ha g hg g' hg', same_centroid H H' S hL F Ds Ds' U hc]) G.groups G'.groups
    have z : size2 deck' m' S' = 0 ↔ size2 deck m S0 = 0 := by
      constructor
      · intro h
        rw [h, mul_zero] at k1
        exact (mul_eq_zero.1 k1.symm).resolve_left n1.ne'
      · intro h
        rw [h, mul_zero] at k1
        exact (mul_eq_zero.1 k1).resolve_left n0.ne'
    rw [d3, e3]
    by_cases h0 : size2 deck m S0 = 0
    · rw [if_pos h0, if_pos (z.2 h0)]
    · rw [if_neg h0, if_neg fun h => h0 (z.1 h)]
      congr 2
      rw [div_eq_div_iff h0 fun h => h0 (z.1 h)]
      have : (deck.nGroups : ℝ) * deck'.nGroups * (distance2 W.val deck m S0 * size2 deck' m' S') =
          deck.nGroups * deck'.nGroups * (distance2 W.val deck' m' S' * size2 deck m S0) := by
        linear_combination (deck'.nGroups : ℝ) * distance2 W.val deck m S0 * k1 - (deck'.nGroups : ℝ) * size2 deck m S0 * k2
      exact mul_left_cancel₀ (mul_pos n0 n1).ne' this
  · intro name f name' f' h h'
    refine ⟨_, _, d4 name f h, e4 name' f' h', fun g hg g' hg' v a ha c hc => ?_⟩
    unfold bitsOf
    rw [dif_pos v.2, dif_pos (N.vertex c v).2]
    congr 1
    exact key c hc a ha g hg g' hg' v

/-! ### Proofs: the directions of the quadrature -/

open Verif.Quadrature in
/-- Turns about the vertical axis by `j` sectors, with or without reflections, map directions to directions. -/
theorem upright_mem {n : Nat} {Q : List Dir} (hQ : quadrature n = some Q) (hU : Upright n L) {d : Dir} (hd : d ∈ Q) :
    ∃ d' ∈ Q, d'.w = d.w ∧ (![d'.xi, d'.eta, d'.mu] : Pt) = fun i => ∑ k, L i k * (![d.xi, d.eta, d.mu] : Pt) k := by
  obtain ⟨j, s, t, hs, ht, rfl⟩ := hU
  -- the reflections first
  have hd1 : (⟨d.xi, s * d.eta, t * d.mu, d.w⟩ : Dir) ∈ Q := by
    have r1 : (⟨d.xi, s * d.eta, d.mu, d.w⟩ : Dir) ∈ Q := by
      rcases hs with rfl | rfl
      · rw [one_mul]; exact hd
      · rw [neg_one_mul]; exact (reflections hQ d hd).2.1
    rcases ht with rfl | rfl
    · rw [one_mul]; exact r1
    · rw [neg_one_mul]; exact (reflections hQ _ r1).2.2
  obtain ⟨X, Y, hT, hm⟩ := mem_quadrature hQ
  have hN0 : 0 < n := by have := hT.two; omega
  have hN : (n : ℝ) ≠ 0 := by exact_mod_cast hN0.ne'
  obtain ⟨i, hi, k, hk, e⟩ := (hm _).1 hd1
  have ex : d.xi = (direction n (X i) (Y i) k).xi := (congrArg Dir.xi e :)
  have ey : s * d.eta = (direction n (X i) (Y i) k).eta := (congrArg Dir.eta e :)
  have ez : t * d.mu = (direction n (X i) (Y i) k).mu := (congrArg Dir.mu e :)
  have ew : d.w = (direction n (X i) (Y i) k).w := (congrArg Dir.w e :)
  refine ⟨direction n (X i) (Y i) ((k + j) % (2 * n)), (hm _).2 ⟨i, hi, _, Nat.mod_lt _ (by omega), rfl⟩, by rw [ew]; rfl, ?_⟩
  have hz : mid (2 * n) ((k + j) % (2 * n)) = mid (2 * n) k + j * Real.pi / n + ((-(((k + j) / (2 * n) : Nat) : ℤ) : ℤ) : ℝ) * (2 * Real.pi) := by
    have h1 : (((k + j) % (2 * n) : Nat) : ℝ) = k + j - 2 * n * ((k + j) / (2 * n) : Nat) := by
      have := Nat.mod_add_div (k + j) (2 * n)
      have h2 : ((((k + j) % (2 * n) + 2 * n * ((k + j) / (2 * n)) : Nat)) : ℝ) = ((k + j : Nat) : ℝ) := by rw [this]
      push_cast at h2
      linarith
    unfold mid
    rw [h1, Int.cast_neg, Int.cast_natCast]
    generalize (((k + j) / (2 * n) : Nat) : ℝ) = z
    push_cast
    field_simp
    ring
  funext r
  simp only [direction, phi_eq] at ex ey ez ⊢
  rw [hz, Real.cos_add_int_mul_two_pi, Real.sin_add_int_mul_two_pi, Real.cos_add, Real.sin_add]
  have hs2 : s * s = 1 := by rcases hs with rfl | rfl <;> norm_num
  match r with
  | 0 =>
    simp only [Fin.sum_univ_three, Matrix.cons_val_zero, Matrix.cons_val_one, Matrix.cons_val]
    linear_combination - Real.cos (j * Real.pi / n) * ex + Real.sin (j * Real.pi / n) * ey
  | 1 =>
    simp only [Fin.sum_univ_three, Matrix.cons_val_zero, Matrix.cons_val_one, Matrix.cons_val]
    linear_combination - Real.sin (j * Real.pi / n) * ex - Real.cos (j * Real.pi / n) * ey
  | 2 =>
    simp only [Fin.sum_univ_three, Matrix.cons_val_zero, Matrix.cons_val_one, Matrix.cons_val]
    linear_combination - ez

theorem upright_orthogonal {n : Nat} (hU : Upright n L) : Orthogonal L := by
  obtain ⟨j, s, t, hs, ht, rfl⟩ := hU
  have hs2 : s * s = 1 := by rcases hs with rfl | rfl <;> norm_num
  have ht2 : t * t = 1 := by rcases ht with rfl | rfl <;> norm_num
  have h := Real.sin_sq_add_cos_sq (j * Real.pi / n)
  intro a b
  match a, b with
  | 0, 0 => simp [Fin.sum_univ_three]; linear_combination h
  | 0, 1 => simp [Fin.sum_univ_three]; ring
  | 0, 2 => simp [Fin.sum_univ_three]
  | 1, 0 => simp [Fin.sum_univ_three]; ring
  | 1, 1 => simp [Fin.sum_univ_three]; linear_combination s * s * h + hs2
  | 1, 2 => simp [Fin.sum_univ_three]
  | 2, 0 => simp [Fin.sum_univ_three]
  | 2, 1 => simp [Fin.sum_univ_three]
  | 2, 2 => simp [Fin.sum_univ_three]; linear_combination ht2

open Classical Verif.Quadrature in
/-- C85: such a turn gives the directions other numbers. -/
theorem upright_deck {n : Nat} (hQ : quadrature n = some deck.dirs) (hQ' : deck'.dirs = deck.dirs) (hU : Upright n L)
    (h1 : deck'.sigmaT1 = deck.sigmaT1) (h2 : deck'.sigmaS1 = deck.sigmaS1) (h3 : deck'.sigmaT2 = deck.sigmaT2)
    (h4 : deck'.sigmaS2 = deck.sigmaS2) : ∃ turn, SameDeck L turn deck deck' := by
  have ex : ∀ a : Nat, ∃ b : Nat, ∀ d : Dir, deck.dirs[a]? = some d → ∃ d' : Dir, deck'.dirs[b]? = some d' ∧ d'.w = d.w ∧
      (![d'.xi, d'.eta, d'.mu] : Pt) = fun i => ∑ k, L i k * (![d.xi, d.eta, d.mu] : Pt) k := by
    intro a
    by_cases ha : a < deck.dirs.length
    · obtain ⟨d', hd', hw, he⟩ := upright_mem hQ hU (List.getElem_mem ha)
      obtain ⟨b, hb, rfl⟩ := List.mem_iff_getElem.1 hd'
      refine ⟨b, fun d hd => ?_⟩
      rw [List.getElem?_eq_getElem ha, Option.some.injEq] at hd
      subst hd
      exact ⟨_, by rw [hQ']; exact List.getElem?_eq_getElem hb, hw, he⟩
    · refine ⟨0, fun d hd => ?_⟩
      exact absurd (List.getElem?_eq_some_iff.1 hd).1 ha
  choose turn ht using ex
  refine ⟨turn, h1, h2, h3, h4, by rw [hQ'], ?_, fun a d hd => ht a d hd⟩
  intro a ha b hb hab
  obtain ⟨x, hx, -, ex⟩ := ht a _ (List.getElem?_eq_getElem ha)
  obtain ⟨y, hy, -, ey⟩ := ht b _ (List.getElem?_eq_getElem hb)
  rw [hab, hy, Option.some.injEq] at hx
  subst hx
  have hnd := directions_distinct hQ
  have e := ex.symm.trans ey
  have hL := upright_orthogonal hU
  -- the square of the distance of the two directions
  set u : Pt := ![(deck.dirs[a]).xi, (deck.dirs[a]).eta, (deck.dirs[a]).mu] with hu
  set w : Pt := ![(deck.dirs[b]).xi, (deck.dirs[b]).eta, (deck.dirs[b]).mu] with hw
  have h0 := orth_dot hL (fun k => u k - w k) fun k => u k - w k
  have hz : ∀ i, ∑ k, L i k * (u k - w k) = 0 := by
    intro i
    have := congrFun e i
    simp only [mul_sub, Finset.sum_sub_distrib]
    rw [this, sub_self]
  simp only [hz, mul_zero, Finset.sum_const_zero, Fin.sum_univ_three] at h0
  have z0 : u 0 - w 0 = 0 := by nlinarith [mul_self_nonneg (u 0 - w 0), mul_self_nonneg (u 1 - w 1), mul_self_nonneg (u 2 - w 2)]
  have z1 : u 1 - w 1 = 0 := by nlinarith [mul_self_nonneg (u 0 - w 0), mul_self_nonneg (u 1 - w 1), mul_self_nonneg (u 2 - w 2)]
  have z2 : u 2 - w 2 = 0 := by nlinarith [mul_self_nonneg (u 0 - w 0), mul_self_nonneg (u 1 - w 1), mul_self_nonneg (u 2 - w 2)]
  simp only [hu, hw, Matrix.cons_val_zero, Matrix.cons_val_one, Matrix.cons_val] at z0 z1 z2
  have : (deck.dirs.map fun d => (d.xi, d.eta, d.mu))[a]'(by simpa using ha) =
      (deck.dirs.map fun d => (d.xi, d.eta, d.mu))[b]'(by simpa using hb) := by
    simp only [List.getElem_map]
    rw [sub_eq_zero.1 z0, sub_eq_zero.1 z1, sub_eq_zero.1 z2]
  exact (List.Nodup.getElem_inj_iff hnd).1 this

/-- C85: meshes turned about the vertical axis by multiples of `π/N`, among them quarter turns, and reflected in coordinate planes,
however numbered, and any number of groups: the same printed error, and the same flux at the new numbers. -/
theorem main_upright (hU : Upright s.snOrder L) (S : SameMesh L W.val N m m') (hss : SameMaterials s s')
    (G : Good W.val file m deck p sS κ) (G' : Good W.val file' m' deck' p' sS' κ)
    (hs : readInput W.stod W.texts .original input = .ok s) (hs' : readInput W.stod W.texts .original input' = .ok s')
    (hd : Asks s deck) (hd' : Asks s' deck') (hg : W.files mesh = some g) (hP : Partitioned W.val file C.n g)
    (hg' : W.files mesh' = some g') (hP' : Partitioned W.val file' C'.n g') (hn : C.n ≤ 2 ^ 30) (hn' : C'.n ≤ 2 ^ 30)
    (hth : 0 < C.threads) (hth' : 0 < C'.threads)
    (hw : Scheduled s.sweepType ∨ Scheduled s'.sweepType → AwayFrom p m tolerance)
    {e e' : Option ℝ} {out out' : Option (Str × Verif.PsiFile.File)} (hr : Ran W C (mesh :: input :: rest) (.finished e out))
    (hr' : Ran W C' (mesh' :: input' :: rest') (.finished e' out')) :
    e = e' ∧ ∃ turn, SameDeck L turn deck deck' ∧
      ∀ name f name' f', out = some (name, f) → out' = some (name', f') → ∃ u u' : Nat → Nat → Nat → Nat → Nat,
        Contents f m.numCells deck.nGroups 4 deck.dirs.length u ∧ Contents f' m'.numCells deck'.nGroups 4 deck'.dirs.length u' ∧
        ∀ g < deck.nGroups, ∀ g' < deck'.nGroups, ∀ v : Fin 4, ∀ a < deck.dirs.length, ∀ c < m.numCells,
          u' g' (N.vertex c v) (turn a) (N.cell c) = u g v a c := by
  have hQ' : deck'.dirs = deck.dirs := by
    have := hd'.dirs
    rw [hss.snOrder, hd.dirs, Option.some.injEq] at this
    exact this.symm
  obtain ⟨turn, U⟩ := upright_deck hd.dirs hQ' hU (by rw [hd.sigmaT1, hd'.sigmaT1, hss.sigmaT1])
    (by rw [hd.sigmaS1, hd'.sigmaS1, hss.sigmaS1]) (by rw [hd.sigmaT2, hd'.sigmaT2, hss.sigmaT2])
    (by rw [hd.sigmaS2, hd'.sigmaS2, hss.sigmaS2])
  obtain ⟨h1, h2⟩ := main_moved (upright_orthogonal hU) S U G G' hs hs' hd hd' hg hP hg' hP' hn hn' hth hth' hw hr hr'
  exact ⟨h1, turn, U, h2⟩

/-- A quarter turn about the vertical axis, a reflection and their products are such turns, whatever the order. -/
theorem upright_quarter {n : Nat} (h0 : 0 < n) (he : n % 2 = 0) : Upright n ![![0, -1, 0], ![1, 0, 0], ![0, 0, 1]] ∧
    Upright n ![![1, 0, 0], ![0, -1, 0], ![0, 0, 1]] ∧ Upright n ![![-1, 0, 0], ![0, 1, 0], ![0, 0, 1]] ∧
    Upright n ![![1, 0, 0], ![0, 1, 0], ![0, 0, -1]] ∧ Upright n ![![1, 0, 0], ![0, 1, 0], ![0, 0, 1]] := by
  have hn : (n : ℝ) ≠ 0 := by exact_mod_cast h0.ne'
  have hq : ((n / 2 : Nat) : ℝ) * Real.pi / n = Real.pi / 2 := by
    have : (2 : ℝ) * (n / 2 : Nat) = n := by exact_mod_cast (by omega : 2 * (n / 2) = n)
    rw [div_eq_div_iff hn two_ne_zero]
    linear_combination Real.pi * this
  refine ⟨⟨n / 2, 1, 1, .inl rfl, .inl rfl, ?_⟩, ⟨0, -1, 1, .inr rfl, .inl rfl, ?_⟩, ⟨n, -1, 1, .inr rfl, .inl rfl, ?_⟩,
    ⟨0, 1, -1, .inl rfl, .inr rfl, ?_⟩, ⟨0, 1, 1, .inl rfl, .inl rfl, ?_⟩⟩
  · rw [hq]; simp
  · simp
  · rw [mul_div_assoc, mul_div_cancel₀ _ hn]; simp
  · simp
  · simp

/-- A mesh is itself, with its own numbers. -/
theorem same_self (val : Nat → ℝ) (m : SerialMesh) :
    SameMesh ![![1, 0, 0], ![0, 1, 0], ![0, 0, 1]] val ⟨id, id, id, fun _ => id⟩ m m where
  count := rfl
  cellInj := Function.injective_id
  faceInj := Function.injective_id
  nodeInj := Function.injective_id
  vertexInj _ := Function.injective_id
  cells c d h := ⟨d, h, rfl, fun _ => rfl, 1, fun _ => rfl⟩
  faces g e h := ⟨e, h, 1, fun _ => rfl⟩
  nodes i x h := by
    refine ⟨x, h, ?_⟩
    funext k
    match k with
    | 0 => simp [moved, Fin.sum_univ_three]
    | 1 => simp [moved, Fin.sum_univ_three]
    | 2 => simp [moved, Fin.sum_univ_three]

/-- C85: the printed error does not depend on the number of groups, and every group in either file has the same flux. -/
theorem main_groups (hss : SameMaterials s s') (G : Good W.val file m deck p sS κ) (G' : Good W.val file m deck' p' sS' κ)
    (hs : readInput W.stod W.texts .original input = .ok s) (hs' : readInput W.stod W.texts .original input' = .ok s')
    (hd : Asks s deck) (hd' : Asks s' deck') (hg : W.files mesh = some g) (hP : Partitioned W.val file C.n g)
    (hg' : W.files mesh' = some g') (hP' : Partitioned W.val file C'.n g') (hn : C.n ≤ 2 ^ 30) (hn' : C'.n ≤ 2 ^ 30)
    (hth : 0 < C.threads) (hth' : 0 < C'.threads)
    (hw : Scheduled s.sweepType ∨ Scheduled s'.sweepType → AwayFrom p m tolerance)
    {e e' : Option ℝ} {out out' : Option (Str × Verif.PsiFile.File)} (hr : Ran W C (mesh :: input :: rest) (.finished e out))
    (hr' : Ran W C' (mesh' :: input' :: rest') (.finished e' out')) :
    e = e' ∧ ∀ name f name' f', out = some (name, f) → out' = some (name', f') → ∃ u u' : Nat → Nat → Nat → Nat → Nat,
      Contents f m.numCells deck.nGroups 4 deck.dirs.length u ∧ Contents f' m.numCells deck'.nGroups 4 deck.dirs.length u' ∧
      ∀ g < deck.nGroups, ∀ g' < deck'.nGroups, ∀ v : Fin 4, ∀ a < deck.dirs.length, ∀ c < m.numCells,
        u' g' v a c = u g v a c := by
  have hQ' : deck'.dirs = deck.dirs := by
    have := hd'.dirs
    rw [hss.snOrder, hd.dirs, Option.some.injEq] at this
    exact this.symm
  have U : SameDeck ![![1, 0, 0], ![0, 1, 0], ![0, 0, 1]] id deck deck' := by
    refine ⟨by rw [hd.sigmaT1, hd'.sigmaT1, hss.sigmaT1], by rw [hd.sigmaS1, hd'.sigmaS1, hss.sigmaS1],
      by rw [hd.sigmaT2, hd'.sigmaT2, hss.sigmaT2], by rw [hd.sigmaS2, hd'.sigmaS2, hss.sigmaS2], by rw [hQ'],
      fun a _ b _ h => h, fun a d h => ⟨d, by rw [hQ']; exact h, rfl, ?_⟩⟩
    funext k
    match k with
    | 0 => simp [Fin.sum_univ_three]
    | 1 => simp [Fin.sum_univ_three]
    | 2 => simp [Fin.sum_univ_three]
  have hL : Orthogonal ![![1, 0, 0], ![0, 1, 0], ![0, 0, 1]] :=
    upright_orthogonal (n := 2) (upright_quarter (by norm_num) (by norm_num)).2.2.2.2
  have := main_moved hL (same_self W.val m) U G G' hs hs' hd hd' hg hP hg' hP' hn hn' hth hth' hw hr hr'
  rw [hQ'] at this
  exact this
end Verif.Program
