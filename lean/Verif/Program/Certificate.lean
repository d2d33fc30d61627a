import Verif.Program.Regular

/-!
# Checking a mesh with integers (C76)

The coordinates in a mesh file are binary fractions, so that in a fine enough unit they are integers. For
such a mesh the conditions of the theorems on the program (`Fits`, `Acyclic`, `Transversal`) follow from
finitely many comparisons of integers. Nothing in this file is a model of code, other than `ieee`.
-/
set_option linter.unusedVariables false
namespace Verif.Program

open Verif.MeshFile Verif.TychoMesh Verif.Geometry Verif.Geometry.Spec Verif.Program.Spec

/-- The value of a finite `double` with bit pattern `b` (the words of the node coordinates in a mesh file,
src/SerialMesh.cc:283-288, are copied into `double`s). -/
def ieee (b : Nat) : ℚ :=
  let s : ℚ := if b / 2 ^ 63 % 2 = 0 then 1 else -1
  let e := b / 2 ^ 52 % 2048
  let f : ℕ := b % 2 ^ 52
  if e = 0 then s * f / 2 ^ 1074 else s * (2 ^ 52 + f) * 2 ^ e / 2 ^ 1075

/-- The same as a real number. -/
noncomputable def ieeeVal (b : Nat) : ℝ := ieee b

namespace Cert

abbrev IPt := Fin 3 → ℤ

def dotI (a b : IPt) : ℤ := a 0 * b 0 + a 1 * b 1 + a 2 * b 2

def subI (a b : IPt) : IPt := ![a 0 - b 0, a 1 - b 1, a 2 - b 2]

def crossI (a b : IPt) : IPt := ![a 1 * b 2 - a 2 * b 1, a 2 * b 0 - a 0 * b 2, a 0 * b 1 - a 1 * b 0]

/-- A normal of the face opposite to vertex `f`, pointing away from it. -/
def outI (p : Fin 4 → IPt) (f : Fin 4) : IPt :=
  let a := p (f.succAbove 0)
  let n := crossI (subI (p (f.succAbove 1)) a) (subI (p (f.succAbove 2)) a)
  if 0 < dotI n (subI (p f) a) then ![- n 0, - n 1, - n 2] else n

/-- The face of cell `c` opposite to vertex `f`, if it is number `k` of the cell. -/
def onFace (m : SerialMesh) (c : Nat) (f k : Fin 4) : Option Nat :=
  (m.cells[c]?).bind fun d => (m.faces[d.faces k]?).bind fun e =>
    if ∀ j, e.nodes j ≠ d.nodes f then some (d.faces k) else none

/-- The faces found, with their cells and opposite vertices. -/
def faceList (m : SerialMesh) : List (Nat × Fin 4 × Nat) :=
  (List.range m.numCells).flatMap fun c => (List.finRange 4).flatMap fun f => (List.finRange 4).filterMap fun k =>
    (onFace m c f k).map fun g => (c, f, g)

/-- Two cells, and the vertices opposite to their common face. -/
abbrev Pair := Nat × Fin 4 × Nat × Fin 4

/-- `adj` lists the common faces of different cells. -/
def adjOK (m : SerialMesh) (adj : List Pair) : Prop :=
  ∀ c < m.numCells, ∀ f k, ∀ c' < m.numCells, ∀ f' k', c ≠ c' → onFace m c f k ≠ none → onFace m c' f' k' = onFace m c f k →
    (c, f, c', f') ∈ adj

/-- The same as a computation. -/
def adjB (m : SerialMesh) (adj : List Pair) : Bool :=
  let l := faceList m
  l.all fun x => l.all fun y => x.1 == y.1 || x.2.2 != y.2.2 || adj.contains (x.1, x.2.1, y.1, y.2.1)

/-- The computed normals are normals pointing outwards. -/
def normalsOK (m : SerialMesh) (I : Nat → Fin 4 → IPt) : Prop :=
  ∀ c < m.numCells, ∀ f, (∀ i j, i ≠ f → j ≠ f → dotI (outI (I c) f) (subI (I c i) (I c j)) = 0) ∧
    ∀ j, j ≠ f → dotI (outI (I c) f) (subI (I c f) (I c j)) < 0

instance (m : SerialMesh) (I : Nat → Fin 4 → IPt) : Decidable (normalsOK m I) := by unfold normalsOK; infer_instance

/-- The vertex of the other cell is on the other side. -/
def sidesOK (I : Nat → Fin 4 → IPt) (adj : List Pair) : Prop :=
  ∀ x ∈ adj, 0 < dotI (outI (I x.1) x.2.1) (subI (I x.2.2.1 x.2.2.2) (I x.1 (x.2.1.succAbove 0)))

instance (I : Nat → Fin 4 → IPt) (adj : List Pair) : Decidable (sidesOK I adj) := by unfold sidesOK; infer_instance

/-- A direction known up to rounding: the components are between `lo` and `hi` in some unit. -/
structure Box where
  lo : IPt
  hi : IPt

/-- The smallest product of a vector with the directions in a box. -/
def Box.low (b : Box) (n : IPt) : ℤ :=
  min (n 0 * b.lo 0) (n 0 * b.hi 0) + min (n 1 * b.lo 1) (n 1 * b.hi 1) + min (n 2 * b.lo 2) (n 2 * b.hi 2)

/-- The largest. -/
def Box.high (b : Box) (n : IPt) : ℤ :=
  max (n 0 * b.lo 0) (n 0 * b.hi 0) + max (n 1 * b.lo 1) (n 1 * b.hi 1) + max (n 2 * b.lo 2) (n 2 * b.hi 2)

/-- No direction in the box is parallel to a common face. -/
def crossOK (I : Nat → Fin 4 → IPt) (adj : List Pair) (b : Box) : Prop :=
  ∀ x ∈ adj, 0 < b.low (outI (I x.1) x.2.1) ∨ b.high (outI (I x.1) x.2.1) < 0

instance (I : Nat → Fin 4 → IPt) (adj : List Pair) (b : Box) : Decidable (crossOK I adj b) := by
  unfold crossOK; infer_instance

/-- The determinant of three edges of a cell. -/
def detI (p : Fin 4 → IPt) : ℤ := dotI (subI (p 1) (p 0)) (crossI (subI (p 2) (p 0)) (subI (p 3) (p 0)))

/-- The gradient of the linear function with values `h` at the vertices of a cell, times `|detI p|`. -/
def gradI (h : IPt → ℤ) (p : Fin 4 → IPt) : IPt := fun k =>
  (detI p).sign * ((h (p 1) - h (p 0)) * crossI (subI (p 2) (p 0)) (subI (p 3) (p 0)) k +
    (h (p 2) - h (p 0)) * crossI (subI (p 3) (p 0)) (subI (p 1) (p 0)) k +
    (h (p 3) - h (p 0)) * crossI (subI (p 1) (p 0)) (subI (p 2) (p 0)) k)

/-- Its value at `x`, times `|detI p|`. -/
def liftI (h : IPt → ℤ) (p : Fin 4 → IPt) (x : IPt) : ℤ := dotI (gradI h p) (subI x (p 0)) + |detI p| * h (p 0)

/-- The linear functions of the cells are those of a convex function. -/
def convexOK (m : SerialMesh) (I : Nat → Fin 4 → IPt) (adj : List Pair) (h : IPt → ℤ) : Prop :=
  (∀ c < m.numCells, detI (I c) ≠ 0 ∧ ∀ v, liftI h (I c) (I c v) = |detI (I c)| * h (I c v)) ∧
  ∀ x ∈ adj, liftI h (I x.1) (I x.2.2.1 x.2.2.2) < |detI (I x.1)| * h (I x.2.2.1 x.2.2.2)

instance (m : SerialMesh) (I : Nat → Fin 4 → IPt) (adj : List Pair) (h : IPt → ℤ) : Decidable (convexOK m I adj h) := by
  unfold convexOK; infer_instance

/-- The coordinates of the mesh in the unit `1 / S`. -/
structure Scaled (val : Nat → ℝ) (m : SerialMesh) (I : Nat → Fin 4 → IPt) (S : ℝ) : Prop where
  pos : 0 < S
  pts : ∀ c < m.numCells, ∀ v k, pts val m c v k = I c v k / S

/-- The direction is in the box, in the unit `1 / K`. -/
structure InBox (d : Verif.Quadrature.Dir) (b : Box) (K : ℝ) : Prop where
  pos : 0 < K
  lo0 : b.lo 0 ≤ d.xi * K
  hi0 : d.xi * K ≤ b.hi 0
  lo1 : b.lo 1 ≤ d.eta * K
  hi1 : d.eta * K ≤ b.hi 1
  lo2 : b.lo 2 ≤ d.mu * K
  hi2 : d.mu * K ≤ b.hi 2

variable {val : Nat → ℝ} {deck : Deck} {m : SerialMesh} {I : Nat → Fin 4 → IPt} {S : ℝ} {adj : List Pair}
  {p : Problem ℝ} {sS : Nat → ℝ}

theorem mem_faceList {c g : Nat} {f k : Fin 4} (hc : c < m.numCells) (h : onFace m c f k = some g) : (c, f, g) ∈ faceList m := by
  unfold faceList
  simp only [List.mem_flatMap, List.mem_filterMap]
  exact ⟨c, List.mem_range.2 hc, f, List.mem_finRange f, k, List.mem_finRange k, by rw [h]; rfl⟩

theorem adj_of (h : adjB m adj = true) : adjOK m adj := by
  intro c hc f k c' hc' f' k' hne hs he
  obtain ⟨g, hg⟩ := Option.ne_none_iff_exists'.1 hs
  rw [hg] at he
  unfold adjB at h
  simp only [List.all_eq_true] at h
  have := h _ (mem_faceList hc hg) _ (mem_faceList hc' he)
  simp [hne] at this
  exact this

theorem face_onFace {c g : Nat} {f : Fin 4} (h : FaceOf m c f g) : ∃ k, onFace m c f k = some g := by
  obtain ⟨d, e, k, h1, h2, h3, h4⟩ := h
  refine ⟨k, ?_⟩
  unfold onFace
  rw [h1]
  simp only [Option.bind_some]
  rw [h2, h3]
  simp only [Option.bind_some]
  rw [if_pos h4]

theorem across_adj (ht : Tets m) (h : adjOK m adj) {c c' : Nat} {f f' : Fin 4} (hx : Across m c f c' f') :
    c < m.numCells ∧ c' < m.numCells ∧ (c, f, c', f') ∈ adj := by
  obtain ⟨hne, g, h1, h2⟩ := hx
  obtain ⟨k, hk⟩ := face_onFace h1
  obtain ⟨k', hk'⟩ := face_onFace h2
  obtain ⟨d, -, -, hd, -⟩ := h1
  obtain ⟨d', -, -, hd', -⟩ := h2
  have hc : c < m.numCells := by rw [ht.cells]; exact (List.getElem?_eq_some_iff.1 hd).1
  have hc' : c' < m.numCells := by rw [ht.cells]; exact (List.getElem?_eq_some_iff.1 hd').1
  exact ⟨hc, hc', h c hc f k c' hc' f' k' hne (by rw [hk]; simp) (by rw [hk, hk'])⟩

/-- The scalar product with a difference of two points of the mesh. -/
theorem Scaled.dot (hS : Scaled val m I S) {c c' : Nat} (hc : c < m.numCells) (hc' : c' < m.numCells) (n : IPt) (i j : Fin 4) :
    (n 0 : ℝ) * (Spec.pts val m c i 0 - Spec.pts val m c' j 0) + n 1 * (Spec.pts val m c i 1 - Spec.pts val m c' j 1)
      + n 2 * (Spec.pts val m c i 2 - Spec.pts val m c' j 2) = (dotI n (subI (I c i) (I c' j)) : ℝ) / S := by
  simp only [hS.pts c hc, hS.pts c' hc']
  simp only [dotI, subI, Matrix.cons_val_zero, Matrix.cons_val_one, Matrix.cons_val]
  push_cast
  have := hS.pos.ne'
  field_simp

theorem fits (hS : Scaled val m I S) (ht : Tets m) (ha : adjOK m adj) (hn : normalsOK m I) (hs : sidesOK I adj) : Fits val m where
  nondeg := by
    intro c hc n0 n1 n2 d h
    -- a plane through all four points: subtract, and use that the outward normals of three faces span
    rw [← Classical.not_not (a := n0 = 0 ∧ n1 = 0 ∧ n2 = 0)]
    intro hne
    have hD : D (Spec.pts val m c) ≠ 0 := by
      obtain ⟨h1, h2⟩ := hn c hc 3
      have e := h2 0 (by decide)
      have hout : outI (I c) 3 = crossI (subI (I c 1) (I c 0)) (subI (I c 2) (I c 0)) ∨
          outI (I c) 3 = ![- crossI (subI (I c 1) (I c 0)) (subI (I c 2) (I c 0)) 0,
            - crossI (subI (I c 1) (I c 0)) (subI (I c 2) (I c 0)) 1,
            - crossI (subI (I c 1) (I c 0)) (subI (I c 2) (I c 0)) 2] := by
        unfold outI
        have s0 : (3 : Fin 4).succAbove 0 = 0 := by decide
        have s1 : (3 : Fin 4).succAbove 1 = 1 := by decide
        have s2 : (3 : Fin 4).succAbove 2 = 2 := by decide
        simp only [s0, s1, s2]
        split
        · right; rfl
        · left; rfl
      have key : D (Spec.pts val m c) =
          (dotI (crossI (subI (I c 1) (I c 0)) (subI (I c 2) (I c 0))) (subI (I c 3) (I c 0)) : ℝ) / S ^ 3 := by
        unfold D Verif.Geometry.dot Verif.Geometry.cross Verif.Geometry.sub
        simp only [hS.pts c hc]
        simp [dotI, subI, crossI]
        have := hS.pos.ne'
        field_simp
      rw [key]
      refine div_ne_zero ?_ (pow_ne_zero _ hS.pos.ne')
      have : dotI (crossI (subI (I c 1) (I c 0)) (subI (I c 2) (I c 0))) (subI (I c 3) (I c 0)) ≠ 0 := by
        rcases hout with h | h <;> rw [h] at e
        · exact e.ne
        · intro h0
          simp [dotI] at e h0
          linarith
      exact_mod_cast this
    exact hne ((nonCoplanar_iff _).2 hD n0 n1 n2 d h)
  sides := by
    intro c f c' f' hx
    obtain ⟨hc, hc', hm⟩ := across_adj ht ha hx
    have h1 := hs _ hm
    dsimp only at h1
    obtain ⟨h2, h3⟩ := hn c hc f
    have n0 : f.succAbove 0 ≠ f := Fin.succAbove_ne f 0
    have hSp := hS.pos
    refine ⟨outI (I c) f 0, outI (I c) f 1, outI (I c) f 2, outI (I c) f 0 * Spec.pts val m c (f.succAbove 0) 0 +
      outI (I c) f 1 * Spec.pts val m c (f.succAbove 0) 1 + outI (I c) f 2 * Spec.pts val m c (f.succAbove 0) 2, ?_, ?_, ?_⟩
    · intro v
      have := hS.dot hc hc (outI (I c) f) (f.succAbove v) (f.succAbove 0)
      rw [h2 _ _ (Fin.succAbove_ne f v) n0] at this
      simp only [facePoints]
      simp at this
      linarith
    · have := hS.dot hc hc (outI (I c) f) f (f.succAbove 0)
      have hlt : (dotI (outI (I c) f) (subI (I c f) (I c (f.succAbove 0))) : ℝ) / S < 0 :=
        div_neg_of_neg_of_pos (by exact_mod_cast h3 _ n0) hSp
      linarith
    · have := hS.dot hc' hc (outI (I c) f) f' (f.succAbove 0)
      have hlt : 0 < (dotI (outI (I c) f) (subI (I c' f') (I c (f.succAbove 0))) : ℝ) / S :=
        div_pos (by exact_mod_cast h1) hSp
      linarith

/-- The length of a vector. -/
noncomputable def len (n : IPt) : ℝ := √((n 0 : ℝ) ^ 2 + (n 1 : ℝ) ^ 2 + (n 2 : ℝ) ^ 2)

theorem len_pos (hn : normalsOK m I) {c : Nat} (hc : c < m.numCells) (f : Fin 4) : 0 < len (outI (I c) f) := by
  obtain ⟨-, h⟩ := hn c hc f
  have h := h _ (Fin.succAbove_ne f 0)
  refine Real.sqrt_pos.2 ?_
  by_contra h0
  have a0 := sq_nonneg (outI (I c) f 0 : ℝ)
  have a1 := sq_nonneg (outI (I c) f 1 : ℝ)
  have a2 := sq_nonneg (outI (I c) f 2 : ℝ)
  have z0 : (outI (I c) f 0 : ℝ) = 0 := pow_eq_zero_iff (two_ne_zero) |>.1 (by linarith)
  have z1 : (outI (I c) f 1 : ℝ) = 0 := pow_eq_zero_iff (two_ne_zero) |>.1 (by linarith)
  have z2 : (outI (I c) f 2 : ℝ) = 0 := pow_eq_zero_iff (two_ne_zero) |>.1 (by linarith)
  norm_cast at z0 z1 z2
  unfold dotI at h
  rw [z0, z1, z2] at h
  simp at h

/-- The unit normal. -/
theorem unit_normal (hS : Scaled val m I S) (hn : normalsOK m I) {c : Nat} (hc : c < m.numCells) (f : Fin 4) :
    OutwardUnitNormal (Spec.pts val m c) f fun k => outI (I c) f k / len (outI (I c) f) := by
  have hl := len_pos hn hc f
  obtain ⟨h2, h3⟩ := hn c hc f
  have hsq : len (outI (I c) f) ^ 2 = (outI (I c) f 0 : ℝ) ^ 2 + (outI (I c) f 1 : ℝ) ^ 2 + (outI (I c) f 2 : ℝ) ^ 2 :=
    Real.sq_sqrt (by positivity)
  have key : ∀ i j, (outI (I c) f 0 : ℝ) / len (outI (I c) f) * (Spec.pts val m c i 0 - Spec.pts val m c j 0) +
      outI (I c) f 1 / len (outI (I c) f) * (Spec.pts val m c i 1 - Spec.pts val m c j 1) +
      outI (I c) f 2 / len (outI (I c) f) * (Spec.pts val m c i 2 - Spec.pts val m c j 2) =
      (dotI (outI (I c) f) (subI (I c i) (I c j)) : ℝ) / S / len (outI (I c) f) := by
    intro i j
    rw [← hS.dot hc hc]
    ring
  refine ⟨?_, ?_, ?_⟩
  · simp only [div_pow]
    rw [← add_div, ← add_div, ← hsq]
    exact div_self (pow_ne_zero _ hl.ne')
  · intro i j hi hj
    rw [key, h2 i j hi hj]
    simp
  · intro j hj
    rw [key]
    exact div_neg_of_neg_of_pos (div_neg_of_neg_of_pos (by exact_mod_cast h3 j hj) hS.pos) hl

theorem mul_between {n lo hi : ℤ} {x : ℝ} (h1 : (lo : ℝ) ≤ x) (h2 : x ≤ hi) :
    ((min (n * lo) (n * hi) : ℤ) : ℝ) ≤ n * x ∧ (n * x : ℝ) ≤ ((max (n * lo) (n * hi) : ℤ) : ℝ) := by
  push_cast
  rcases le_total 0 n with h | h
  · have h : (0 : ℝ) ≤ n := by exact_mod_cast h
    exact ⟨(min_le_left _ _).trans (mul_le_mul_of_nonneg_left h1 h), (mul_le_mul_of_nonneg_left h2 h).trans (le_max_right _ _)⟩
  · have h : (n : ℝ) ≤ 0 := by exact_mod_cast h
    exact ⟨(min_le_right _ _).trans (mul_le_mul_of_nonpos_left h2 h), (mul_le_mul_of_nonpos_left h1 h).trans (le_max_left _ _)⟩

theorem InBox.between {d : Verif.Quadrature.Dir} {b : Box} {K : ℝ} (h : InBox d b K) (n : IPt) :
    (b.low n : ℝ) ≤ (d.xi * n 0 + d.eta * n 1 + d.mu * n 2) * K ∧ (d.xi * n 0 + d.eta * n 1 + d.mu * n 2) * K ≤ b.high n := by
  obtain ⟨a0, b0⟩ := mul_between (n := n 0) h.lo0 h.hi0
  obtain ⟨a1, b1⟩ := mul_between (n := n 1) h.lo1 h.hi1
  obtain ⟨a2, b2⟩ := mul_between (n := n 2) h.lo2 h.hi2
  unfold Box.low Box.high
  rw [Int.cast_add, Int.cast_add, Int.cast_add, Int.cast_add]
  constructor <;> linarith

/-- The product of a direction of the quadrature with a face of the mesh, in integers. -/
theorem omega_eq (hS : Scaled val m I S) (hn : normalsOK m I) (Ds : Describes val deck m p sS) {c : Nat} (hc : c < m.numCells)
    (f : Fin 4) {a : Nat} {d : Verif.Quadrature.Dir} (hd : deck.dirs[a]? = some d) :
    p.omegaDotN a c f = (d.xi * outI (I c) f 0 + d.eta * outI (I c) f 1 + d.mu * outI (I c) f 2) / len (outI (I c) f) := by
  rw [Ds.omega c hc f _ (unit_normal hS hn hc f) a d hd]
  ring

theorem omega_low (hS : Scaled val m I S) (hn : normalsOK m I) (Ds : Describes val deck m p sS) {c : Nat} (hc : c < m.numCells)
    {f : Fin 4} {a : Nat} {d : Verif.Quadrature.Dir} (hd : deck.dirs[a]? = some d) {b : Box} {K : ℝ} (hb : InBox d b K) :
    (0 < b.low (outI (I c) f) → 0 < p.omegaDotN a c f) ∧ (b.high (outI (I c) f) < 0 → p.omegaDotN a c f < 0) := by
  obtain ⟨h1, h2⟩ := hb.between (outI (I c) f)
  rw [omega_eq hS hn Ds hc f hd]
  have hl := len_pos hn hc f
  constructor
  · intro h
    refine div_pos (pos_of_mul_pos_left ?_ hb.pos.le) hl
    exact lt_of_lt_of_le (by exact_mod_cast h) h1
  · intro h
    refine div_neg_of_neg_of_pos ?_ hl
    have h : (b.high (outI (I c) f) : ℝ) < 0 := by exact_mod_cast h
    have := hb.pos
    by_contra h0
    have := mul_nonneg (not_lt.1 h0) this.le
    linarith

/-- No interior face of the mesh is parallel to a direction. -/
theorem transversal (hS : Scaled val m I S) (ht : Tets m) (ha : adjOK m adj) (hn : normalsOK m I)
    (Ds : Describes val deck m p sS)
    (hd : ∀ d ∈ deck.dirs, ∃ b K, InBox d b K ∧ crossOK I adj b) : p.Transversal m := by
  intro c f c' f' hx a han
  rw [Ds.angles] at han
  have hda : deck.dirs[a]? = some deck.dirs[a] := List.getElem?_eq_getElem han
  obtain ⟨b, K, hb, ho⟩ := hd _ (List.getElem_mem han)
  obtain ⟨hc, hc', hm⟩ := across_adj ht ha hx
  rcases ho _ hm with h | h
  · exact ((omega_low hS hn Ds hc hda hb).1 h).ne'
  · exact ((omega_low hS hn Ds hc hda hb).2 h).ne

/-- The mesh is regular; `q` are the values of the convex function. -/
theorem regular (hS : Scaled val m I S) (ht : Tets m) (ha : adjOK m adj) {h : IPt → ℤ} (hc : convexOK m I adj h)
    {q : Pt → ℝ} (hq : ∀ c < m.numCells, ∀ v, q (Spec.pts val m c v) = h (I c v)) : Regular val m := by
  obtain ⟨h1, h2⟩ := hc
  have hSp := hS.pos.ne'
  have key : ∀ c < m.numCells, ∀ c' < m.numCells, ∀ v,
      (fun k => (gradI h (I c) k : ℝ) * S / |detI (I c)|) 0 * Spec.pts val m c' v 0 +
      (fun k => (gradI h (I c) k : ℝ) * S / |detI (I c)|) 1 * Spec.pts val m c' v 1 +
      (fun k => (gradI h (I c) k : ℝ) * S / |detI (I c)|) 2 * Spec.pts val m c' v 2 +
      (liftI h (I c) ![0, 0, 0] : ℝ) / |detI (I c)| = (liftI h (I c) (I c' v) : ℝ) / |detI (I c)| := by
    intro c hc c' hc' v
    simp only [hS.pts c' hc']
    unfold liftI dotI subI
    simp
    field_simp
    ring
  refine ⟨q, fun c k => gradI h (I c) k * S / |detI (I c)|, fun c => liftI h (I c) ![0, 0, 0] / |detI (I c)|, ?_, ?_⟩
  · intro c hc v
    obtain ⟨k1, k2⟩ := h1 c hc
    have hd : (0 : ℝ) < |detI (I c)| := Int.cast_pos.2 (abs_pos.2 k1)
    rw [key c hc c hc v, k2 v, hq c hc v]
    push_cast
    field_simp
  · intro c f c' f' hx
    obtain ⟨hc, hc', hm⟩ := across_adj ht ha hx
    have k1 := (h1 c hc).1
    have hd : (0 : ℝ) < |detI (I c)| := Int.cast_pos.2 (abs_pos.2 k1)
    rw [key c hc c' hc' f', hq c' hc', div_lt_iff₀ hd]
    have := h2 _ hm
    dsimp only at this
    have : (liftI h (I c) (I c' f') : ℝ) < ((|detI (I c)| * h (I c' f') : ℤ) : ℝ) := by exact_mod_cast this
    rw [Int.cast_mul] at this
    linarith

end Cert

end Verif.Program
