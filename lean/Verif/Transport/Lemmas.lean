import Verif.Transport.Model
import Mathlib.LinearAlgebra.Matrix.Determinant.Basic
import Mathlib.LinearAlgebra.Matrix.NonsingularInverse
import Mathlib.Tactic.LinearCombination
import Mathlib.Tactic.FinCases
import Mathlib.Tactic.FieldSimp

/-!
# Helper lemmas for the within-cell solve
-/
set_option linter.unusedSectionVars false

namespace Verif.Transport

variable {K : Type*} [Field K] [LinearOrder K] [IsStrictOrderedRing K]

open Matrix

theorem below0 : below 0 = [1, 2, 3] := by decide
theorem below1 : below 1 = [2, 3] := by decide
theorem below2 : below 2 = [3] := by decide
theorem below3 : below 3 = [] := by decide
theorem above0 : aboveDown 0 = [] := by decide
theorem above1 : aboveDown 1 = [0] := by decide
theorem above2 : aboveDown 2 = [1, 0] := by decide
theorem above3 : aboveDown 3 = [2, 1, 0] := by decide
theorem le0 : (List.finRange 4).filter (· ≤ (0 : Fin 4)) = [0] := by decide
theorem le1 : (List.finRange 4).filter (· ≤ (1 : Fin 4)) = [0, 1] := by decide
theorem le2 : (List.finRange 4).filter (· ≤ (2 : Fin 4)) = [0, 1, 2] := by decide

/-- Determinant of a 4x4 matrix written out. -/
theorem det4 (A : Matrix (Fin 4) (Fin 4) K) : A.det =
    A 0 0 * (A 1 1 * (A 2 2 * A 3 3 - A 2 3 * A 3 2) - A 1 2 * (A 2 1 * A 3 3 - A 2 3 * A 3 1)
      + A 1 3 * (A 2 1 * A 3 2 - A 2 2 * A 3 1))
    - A 0 1 * (A 1 0 * (A 2 2 * A 3 3 - A 2 3 * A 3 2) - A 1 2 * (A 2 0 * A 3 3 - A 2 3 * A 3 0)
      + A 1 3 * (A 2 0 * A 3 2 - A 2 2 * A 3 0))
    + A 0 2 * (A 1 0 * (A 2 1 * A 3 3 - A 2 3 * A 3 1) - A 1 1 * (A 2 0 * A 3 3 - A 2 3 * A 3 0)
      + A 1 3 * (A 2 0 * A 3 1 - A 2 1 * A 3 0))
    - A 0 3 * (A 1 0 * (A 2 1 * A 3 2 - A 2 2 * A 3 1) - A 1 1 * (A 2 0 * A 3 2 - A 2 2 * A 3 0)
      + A 1 2 * (A 2 0 * A 3 1 - A 2 1 * A 3 0)) := by
  rw [Matrix.det_succ_row_zero]
  simp [Fin.sum_univ_succ, Matrix.det_fin_three, Fin.succAbove]
  ring

theorem mulVec4 (A : Mat4 K) (x : Vec4 K) (i : Fin 4) :
    (Matrix.of A).mulVec x i = A i 0 * x 0 + A i 1 * x 1 + A i 2 * x 2 + A i 3 * x 3 := by
  simp [Matrix.mulVec, dotProduct, Fin.sum_univ_succ]; ring

/-- Row operations and `swap`: a row exchange does not change the solutions. -/
theorem swap_solves (A : Mat4 K) (b x : Vec4 K) (r s : Fin 4) :
    (Matrix.of (swapRows A r s)).mulVec x = swapEntries b r s ↔ (Matrix.of A).mulVec x = b := by
  constructor
  · intro h
    funext i
    by_cases hs : i = s
    · subst hs
      have := congrFun h r
      rw [mulVec4] at this ⊢
      simpa [swapRows, swapEntries] using this
    by_cases hr : i = r
    · subst hr
      have := congrFun h s
      rw [mulVec4] at this ⊢
      by_cases hrs : s = i
      · subst hrs; simpa [swapRows, swapEntries] using this
      · simpa [swapRows, swapEntries, hrs] using this
    · have := congrFun h i
      rw [mulVec4] at this ⊢
      simpa [swapRows, swapEntries, hr, hs] using this
  · intro h
    funext i
    have h1 := congrFun h i
    have h2 := congrFun h r
    have h3 := congrFun h s
    rw [mulVec4] at h1 h2 h3 ⊢
    unfold swapRows swapEntries
    split_ifs with hr hs
    · exact h3
    · exact h2
    · exact h1

theorem swap_det (A : Mat4 K) (r s : Fin 4) :
    (Matrix.of (swapRows A r s)).det = 0 ↔ (Matrix.of A).det = 0 := by
  have : Matrix.of (swapRows A r s) = (Matrix.of A).submatrix (Equiv.swap r s) id := by
    ext i j
    simp only [Matrix.of_apply, swapRows, Matrix.submatrix_apply, Equiv.swap_apply_def, id]
    split_ifs <;> rfl
  rw [this, Matrix.det_permute]
  rcases Int.units_eq_one_or (Equiv.Perm.sign (Equiv.swap r s)) with h | h <;> simp [h]


/-! ### Elimination with pivoting -/

/-- Elimination of column 0 entry by entry. -/
theorem core0 (A : Mat4 K) : elimCore 0 1 A = fun i j =>
    match i, j with
    | 0, 0 => 1 / A 0 0
    | 0, _ => A 0 j
    | _, 0 => A i 0 * (1 / A 0 0)
    | _, 1 => A i 1 - A i 0 * (1 / A 0 0) * A 0 1
    | _, _ => A i j := by
  funext i j
  simp only [elimCore, updateNext, scaleBelow, below0, le0, List.foldl, set2]
  fin_cases i <;> fin_cases j <;> simp

theorem core1 (A : Mat4 K) : elimCore 1 2 A = fun i j =>
    match i, j with
    | 0, _ => A 0 j
    | 1, 1 => 1 / A 1 1
    | 1, 2 => A 1 2 - A 1 0 * A 0 2
    | 1, _ => A 1 j
    | _, 1 => A i 1 * (1 / A 1 1)
    | _, 2 => A i 2 - A i 0 * A 0 2 - A i 1 * (1 / A 1 1) * (A 1 2 - A 1 0 * A 0 2)
    | _, _ => A i j := by
  funext i j
  simp only [elimCore, updateNext, scaleBelow, below0, below1, le1, List.foldl, set2]
  fin_cases i <;> fin_cases j <;> simp

theorem core2 (A : Mat4 K) : elimCore 2 3 A = fun i j =>
    match i, j with
    | 0, _ => A 0 j
    | 1, 3 => A 1 3 - A 1 0 * A 0 3
    | 1, _ => A 1 j
    | 2, 2 => 1 / A 2 2
    | 2, 3 => A 2 3 - A 2 0 * A 0 3 - A 2 1 * (A 1 3 - A 1 0 * A 0 3)
    | 2, _ => A 2 j
    | 3, 2 => A 3 2 * (1 / A 2 2)
    | 3, 3 => A 3 3 - A 3 0 * A 0 3 - A 3 1 * (A 1 3 - A 1 0 * A 0 3)
        - A 3 2 * (1 / A 2 2) * (A 2 3 - A 2 0 * A 0 3 - A 2 1 * (A 1 3 - A 1 0 * A 0 3))
    | 3, _ => A 3 j := by
  funext i j
  simp only [elimCore, updateNext, scaleBelow, below0, below1, below2, le2, List.foldl, set2]
  fin_cases i <;> fin_cases j <;> simp

/-- Elimination of an earlier column commutes with exchanging two later rows. -/
theorem core0_swap (A : Mat4 K) (r s : Fin 4) (hr : 0 < r) (hs : 0 < s) :
    elimCore 0 1 (swapRows A r s) = swapRows (elimCore 0 1 A) r s := by
  rw [core0, core0]
  funext i j
  fin_cases r <;> fin_cases s <;> simp at hr hs <;>
    fin_cases i <;> fin_cases j <;> simp [swapRows]

theorem core1_swap (A : Mat4 K) (r s : Fin 4) (hr : 1 < r) (hs : 1 < s) :
    elimCore 1 2 (swapRows A r s) = swapRows (elimCore 1 2 A) r s := by
  rw [core1, core1]
  funext i j
  fin_cases r <;> fin_cases s <;> simp at hr hs <;>
    fin_cases i <;> fin_cases j <;> simp [swapRows]

/-- The pivot search returns a row not above the column with the largest entry. -/
theorem pivot_spec (A : Mat4 K) (c : Fin 4) :
    c ≤ pivotSearch A c ∧ ∀ r, c ≤ r → |A r c| ≤ |A (pivotSearch A c) c| := by
  have key : ∀ (l : List (Fin 4)) (s : Fin 4 × K), (∀ r ∈ l, c ≤ r) → c ≤ s.1 →
      s.2 = |A s.1 c| →
      let t := l.foldl (fun (s : Fin 4 × K) row =>
        if |A row c| > s.2 then (row, |A row c|) else s) s
      c ≤ t.1 ∧ t.2 = |A t.1 c| ∧ s.2 ≤ t.2 ∧ ∀ r ∈ l, |A r c| ≤ t.2 := by
    intro l
    induction l with
    | nil => intro s _ h1 h2; simp [h1, h2]
    | cons a l ih =>
      intro s hl h1 h2
      simp only [List.foldl_cons]
      by_cases hgt : |A a c| > s.2
      · rw [if_pos hgt]
        obtain ⟨a1, a2, a3, a4⟩ := ih (a, |A a c|) (fun r hr => hl r (by simp [hr]))
          (hl a (by simp)) rfl
        refine ⟨a1, a2, le_trans hgt.le a3, ?_⟩
        intro r hr
        rcases List.mem_cons.1 hr with rfl | hr
        · exact a3
        · exact a4 r hr
      · rw [if_neg hgt]
        obtain ⟨a1, a2, a3, a4⟩ := ih s (fun r hr => hl r (by simp [hr])) h1 h2
        refine ⟨a1, a2, a3, ?_⟩
        intro r hr
        rcases List.mem_cons.1 hr with rfl | hr
        · exact le_trans (not_lt.1 hgt) a3
        · exact a4 r hr
  obtain ⟨a1, a2, a3, a4⟩ := key (below c) (c, |A c c|)
    (by intro r hr; simp [below] at hr; exact hr.le) le_rfl rfl
  refine ⟨a1, ?_⟩
  intro r hr
  have : ∀ r, c ≤ r → |A r c| ≤ (List.foldl (fun (s : Fin 4 × K) row =>
        if |A row c| > s.2 then (row, |A row c|) else s) (c, |A c c|) (below c)).2 := by
    intro r hr
    rcases eq_or_lt_of_le hr with rfl | hr
    · exact a3
    · exact a4 r (by simp [below, hr])
  exact (this r hr).trans (le_of_eq a2)


theorem swapRows_self (A : Mat4 K) (r : Fin 4) : swapRows A r r = A := by
  funext i j; unfold swapRows; split_ifs with h <;> simp [h]
theorem swapEntries_self (b : Vec4 K) (r : Fin 4) : swapEntries b r r = b := by
  funext i; unfold swapEntries; split_ifs with h <;> simp [h]

theorem elimStep_eq (c n : Fin 4) (A : Mat4 K) (b : Vec4 K) :
    elimStep c n (A, b) = if A (pivotSearch A c) c = 0 then none else
      some (elimCore c n (swapRows A (pivotSearch A c) c), swapEntries b (pivotSearch A c) c) := by
  have hs : (if pivotSearch A c ≠ c then
      (swapRows A (pivotSearch A c) c, swapEntries b (pivotSearch A c) c) else (A, b)) =
      (swapRows A (pivotSearch A c) c, swapEntries b (pivotSearch A c) c) := by
    by_cases h : pivotSearch A c = c
    · simp [h, swapRows_self, swapEntries_self]
    · simp [h]
  have hp : swapRows A (pivotSearch A c) c c c = A (pivotSearch A c) c := by
    unfold swapRows
    by_cases h : c = pivotSearch A c
    · rw [if_pos h]; rw [← h]
    · rw [if_neg h, if_pos rfl]
  unfold elimStep
  simp only [hs, hp]

/-- `B` holds the factors of `A`: unit lower factor below the diagonal, upper factor above,
reciprocals of the upper factor's diagonal `d` on the diagonal. -/
structure IsLU (A B : Mat4 K) (d : Vec4 K) : Prop where
  a00 : A 0 0 = d 0
  a01 : A 0 1 = B 0 1
  a02 : A 0 2 = B 0 2
  a03 : A 0 3 = B 0 3
  a10 : A 1 0 = B 1 0 * d 0
  a11 : A 1 1 = B 1 0 * B 0 1 + d 1
  a12 : A 1 2 = B 1 0 * B 0 2 + B 1 2
  a13 : A 1 3 = B 1 0 * B 0 3 + B 1 3
  a20 : A 2 0 = B 2 0 * d 0
  a21 : A 2 1 = B 2 0 * B 0 1 + B 2 1 * d 1
  a22 : A 2 2 = B 2 0 * B 0 2 + B 2 1 * B 1 2 + d 2
  a23 : A 2 3 = B 2 0 * B 0 3 + B 2 1 * B 1 3 + B 2 3
  a30 : A 3 0 = B 3 0 * d 0
  a31 : A 3 1 = B 3 0 * B 0 1 + B 3 1 * d 1
  a32 : A 3 2 = B 3 0 * B 0 2 + B 3 1 * B 1 2 + B 3 2 * d 2
  a33 : A 3 3 = B 3 0 * B 0 3 + B 3 1 * B 1 3 + B 3 2 * B 2 3 + d 3

theorem IsLU.det {A B : Mat4 K} {d : Vec4 K} (h : IsLU A B d) :
    (Matrix.of A).det = d 0 * d 1 * d 2 * d 3 := by
  rw [det4]
  simp only [Matrix.of_apply, h.a00, h.a01, h.a02, h.a03, h.a10, h.a11, h.a12, h.a13, h.a20,
    h.a21, h.a22, h.a23, h.a30, h.a31, h.a32, h.a33]
  ring

theorem forward_eq (B : Mat4 K) (b : Vec4 K) : forwardSubst B b = fun i =>
    match i with
    | 0 => b 0
    | 1 => b 1 - B 1 0 * b 0
    | 2 => b 2 - B 2 0 * b 0 - B 2 1 * (b 1 - B 1 0 * b 0)
    | 3 => b 3 - B 3 0 * b 0 - B 3 1 * (b 1 - B 1 0 * b 0)
        - B 3 2 * (b 2 - B 2 0 * b 0 - B 2 1 * (b 1 - B 1 0 * b 0)) := by
  funext i
  simp only [forwardSubst, below0, below1, below2, List.foldl, set1]
  fin_cases i <;> simp

theorem back_eq (B : Mat4 K) (y : Vec4 K) : ∃ x3 x2 x1 x0 : K, x3 = y 3 * B 3 3 ∧
    x2 = (y 2 - B 2 3 * x3) * B 2 2 ∧ x1 = (y 1 - B 1 3 * x3 - B 1 2 * x2) * B 1 1 ∧
    x0 = (y 0 - B 0 3 * x3 - B 0 2 * x2 - B 0 1 * x1) * B 0 0 ∧
    backSubst B y 0 = x0 ∧ backSubst B y 1 = x1 ∧ backSubst B y 2 = x2 ∧ backSubst B y 3 = x3 := by
  refine ⟨_, _, _, _, rfl, rfl, rfl, rfl, ?_, ?_, ?_, ?_⟩ <;>
    simp [backSubst, above0, above1, above2, above3, List.foldl, set1]

theorem IsLU.solves {A B : Mat4 K} {d : Vec4 K} (h : IsLU A B d) (h0 : B 0 0 * d 0 = 1)
    (h1 : B 1 1 * d 1 = 1) (h2 : B 2 2 * d 2 = 1) (h3 : B 3 3 * d 3 = 1) (b : Vec4 K) :
    (Matrix.of A).mulVec (backSubst B (forwardSubst B b)) = b := by
  have hf := forward_eq B b
  set y := forwardSubst B b with hy
  have y0 : y 0 = b 0 := by rw [hf]
  have y1 : y 1 = b 1 - B 1 0 * y 0 := by rw [hf]
  have y2 : y 2 = b 2 - B 2 0 * y 0 - B 2 1 * y 1 := by rw [hf]
  have y3 : y 3 = b 3 - B 3 0 * y 0 - B 3 1 * y 1 - B 3 2 * y 2 := by rw [hf]
  clear_value y
  obtain ⟨x3, x2, x1, x0, e3, e2, e1, e0, q0, q1, q2, q3⟩ := back_eq B y
  have u3 : d 3 * x3 = y 3 := by rw [e3]; linear_combination y 3 * h3
  have u2 : d 2 * x2 + B 2 3 * x3 = y 2 := by
    rw [e2]; linear_combination (y 2 - B 2 3 * x3) * h2
  have u1 : d 1 * x1 + B 1 2 * x2 + B 1 3 * x3 = y 1 := by
    rw [e1]; linear_combination (y 1 - B 1 3 * x3 - B 1 2 * x2) * h1
  have u0 : d 0 * x0 + B 0 1 * x1 + B 0 2 * x2 + B 0 3 * x3 = y 0 := by
    rw [e0]; linear_combination (y 0 - B 0 3 * x3 - B 0 2 * x2 - B 0 1 * x1) * h0
  funext i
  rw [mulVec4, q0, q1, q2, q3]
  fin_cases i
  · simp only [Fin.zero_eta, Fin.isValue, h.a00, h.a01, h.a02, h.a03]
    linear_combination u0 + y0
  · simp only [Fin.mk_one, Fin.isValue, h.a10, h.a11, h.a12, h.a13]
    linear_combination B 1 0 * u0 + u1 + y1
  · simp only [Fin.reduceFinMk, h.a20, h.a21, h.a22, h.a23]
    linear_combination B 2 0 * u0 + B 2 1 * u1 + u2 + y2
  · simp only [Fin.reduceFinMk, h.a30, h.a31, h.a32, h.a33]
    linear_combination B 3 0 * u0 + B 3 1 * u1 + B 3 2 * u2 + u3 + y3

/-- Pivots of the elimination without further row exchanges. -/
def pivots (A : Mat4 K) : Vec4 K := fun i => match i with
  | 0 => A 0 0
  | 1 => elimCore 0 1 A 1 1
  | 2 => elimCore 1 2 (elimCore 0 1 A) 2 2
  | 3 => elimCore 2 3 (elimCore 1 2 (elimCore 0 1 A)) 3 3

/-- Elimination of three columns gives the factors (the last diagonal entry is free). -/
theorem cores_isLU (A : Mat4 K) (x : K) (h0 : pivots A 0 ≠ 0) (h1 : pivots A 1 ≠ 0)
    (h2 : pivots A 2 ≠ 0) :
    IsLU A (set2 (elimCore 2 3 (elimCore 1 2 (elimCore 0 1 A))) 3 3 x) (pivots A) := by
  unfold pivots at *
  simp only at h0 h1 h2
  have hA : ∀ x : K, x * (1 / A 0 0) * A 0 0 = x := fun x => by field_simp
  have c0 := core0 A
  have hB : ∀ x : K, x * (1 / elimCore 0 1 A 1 1) * elimCore 0 1 A 1 1 = x := fun x => by field_simp
  have c1 := core1 (elimCore 0 1 A)
  set B := elimCore 0 1 A with hBdef
  have hC : ∀ x : K, x * (1 / elimCore 1 2 B 2 2) * elimCore 1 2 B 2 2 = x :=
    fun x => by field_simp
  have c2 := core2 (elimCore 1 2 B)
  set C := elimCore 1 2 B with hCdef
  set D := elimCore 2 3 C with hDdef
  clear_value B C D
  subst c2
  constructor
  all_goals simp only [set2, Fin.isValue, Fin.reduceEq, and_true, and_false,
    if_false, and_self]
  all_goals try rw [hC]
  all_goals subst c1
  all_goals simp only
  all_goals try rw [hB]
  all_goals subst c0
  all_goals simp only
  all_goals try rw [hA]
  all_goals ring

/-- Elimination without row exchange followed by the substitutions solves the system. -/
theorem cores_solve (A : Mat4 K) (b : Vec4 K) (h : ∀ i, pivots A i ≠ 0) :
    (Matrix.of A).mulVec
      (backSubst (set2 (elimCore 2 3 (elimCore 1 2 (elimCore 0 1 A))) 3 3 (1 / pivots A 3))
        (forwardSubst (set2 (elimCore 2 3 (elimCore 1 2 (elimCore 0 1 A))) 3 3 (1 / pivots A 3)) b))
      = b := by
  refine (cores_isLU A _ (h 0) (h 1) (h 2)).solves ?_ ?_ ?_ ?_ b
  · have := h 0
    simp only [set2, core0, core1, core2, pivots] at this ⊢
    simpa using inv_mul_cancel₀ this
  · have := h 1
    simp only [set2, core1, core2, pivots] at this ⊢
    simpa using inv_mul_cancel₀ this
  · have := h 2
    simp only [set2, core2, pivots] at this ⊢
    simpa using inv_mul_cancel₀ this
  · simp only [set2]
    simpa using inv_mul_cancel₀ (h 3)

theorem sing0 (A : Mat4 K) (h : ∀ r, A r 0 = 0) : (Matrix.of A).det = 0 := by
  rw [det4]; simp [h]

theorem sing1 (A : Mat4 K) (h0 : pivots A 0 ≠ 0) (h : ∀ r, 1 ≤ r → elimCore 0 1 A r 1 = 0) :
    (Matrix.of A).det = 0 := by
  rw [det4]
  have h0' : A 0 0 ≠ 0 := h0
  have e1 := h 1 (by decide)
  have e2 := h 2 (by decide)
  have e3 := h 3 (by decide)
  rw [core0] at e1 e2 e3
  simp only at e1 e2 e3
  obtain ⟨t, ht⟩ : ∃ t, t = 1 / A 0 0 * A 0 1 := ⟨_, rfl⟩
  have e0 : A 0 1 = A 0 0 * t := by rw [ht]; field_simp
  have e1' : A 1 1 = A 1 0 * t := by rw [ht]; linear_combination e1
  have e2' : A 2 1 = A 2 0 * t := by rw [ht]; linear_combination e2
  have e3' : A 3 1 = A 3 0 * t := by rw [ht]; linear_combination e3
  simp only [Matrix.of_apply, e0, e1', e2', e3']
  ring

theorem sing2 (A : Mat4 K) (h0 : pivots A 0 ≠ 0) (h1 : pivots A 1 ≠ 0)
    (h : ∀ r, 2 ≤ r → elimCore 1 2 (elimCore 0 1 A) r 2 = 0) :
    (Matrix.of A).det = 0 := by
  rw [det4]
  have h0' : A 0 0 ≠ 0 := h0
  have h1' : elimCore 0 1 A 1 1 ≠ 0 := h1
  have e2 := h 2 (by decide)
  have e3 := h 3 (by decide)
  rw [core1] at e2 e3
  simp only at e2 e3
  obtain ⟨p, hp⟩ : ∃ p, p = elimCore 0 1 A 1 1 := ⟨_, rfl⟩
  rw [← hp] at e2 e3 h1'
  have hp' := hp
  rw [core0] at e2 e3 hp'
  simp only at e2 e3 hp'
  -- column 2 is `a` times column 0 plus `b` times column 1
  obtain ⟨i0, hi0⟩ : ∃ i0, i0 = 1 / A 0 0 := ⟨_, rfl⟩
  obtain ⟨i1, hi1⟩ : ∃ i1, i1 = 1 / p := ⟨_, rfl⟩
  rw [← hi0] at e2 e3 hp'
  rw [← hi1] at e2 e3
  have k0 : i0 * A 0 0 = 1 := by rw [hi0]; field_simp
  have k1 : i1 * p = 1 := by rw [hi1]; field_simp
  obtain ⟨b, hb⟩ : ∃ b, b = i1 * (A 1 2 - A 1 0 * i0 * A 0 2) := ⟨_, rfl⟩
  obtain ⟨a, ha⟩ : ∃ a, a = i0 * A 0 2 - b * i0 * A 0 1 := ⟨_, rfl⟩
  have q0 : A 0 2 = A 0 0 * a + A 0 1 * b := by
    rw [ha]; linear_combination (b * A 0 1 - A 0 2) * k0
  have q1 : A 1 2 = A 1 0 * a + A 1 1 * b := by
    have : A 1 1 = p + A 1 0 * i0 * A 0 1 := by linear_combination -hp'
    rw [this, ha, hb]
    linear_combination (A 1 0 * i0 * A 0 2 - A 1 2) * k1
  have q2 : A 2 2 = A 2 0 * a + A 2 1 * b := by
    rw [ha, hb]; linear_combination e2
  have q3 : A 3 2 = A 3 0 * a + A 3 1 * b := by
    rw [ha, hb]; linear_combination e3
  simp only [Matrix.of_apply, q0, q1, q2, q3]
  ring

theorem sing3 (A : Mat4 K) (h0 : pivots A 0 ≠ 0) (h1 : pivots A 1 ≠ 0)
    (h2 : pivots A 2 ≠ 0) (h : pivots A 3 = 0) : (Matrix.of A).det = 0 := by
  rw [(cores_isLU A 0 h0 h1 h2).det, h, mul_zero]

/-- What elimination with row exchanges does: either some pivot vanishes and the matrix is
singular, or the result is that of elimination without exchanges on a system with the same
solutions. -/
theorem original_cases (A : Mat4 K) (b : Vec4 K) :
    (solveOriginal A b = none ∧ (Matrix.of A).det = 0) ∨
    (∃ x, solveOriginal A b = some x ∧ (Matrix.of A).mulVec x = b ∧ (Matrix.of A).det ≠ 0) := by
  unfold solveOriginal
  rw [elimStep_eq]
  obtain ⟨l0, m0⟩ := pivot_spec A 0
  generalize pivotSearch A 0 = p0 at l0 m0
  by_cases z0 : A p0 0 = 0
  · left
    refine ⟨by simp [z0], sing0 A fun r => ?_⟩
    have := m0 r (Fin.zero_le r)
    rw [z0, abs_zero] at this
    exact abs_nonpos_iff.1 this
  rw [if_neg z0]
  simp only [Option.bind_eq_bind, Option.bind_some]
  obtain ⟨A1, hA1⟩ : ∃ A1, A1 = swapRows A p0 0 := ⟨_, rfl⟩
  obtain ⟨b1, hb1⟩ : ∃ b1, b1 = swapEntries b p0 0 := ⟨_, rfl⟩
  rw [← hA1, ← hb1]
  have v0 : A1 0 0 ≠ 0 := by
    rw [hA1]; unfold swapRows
    by_cases h : (0 : Fin 4) = p0
    · rw [if_pos h]; rwa [← h] at z0
    · rw [if_neg h, if_pos rfl]; exact z0
  have solA : ∀ x, (Matrix.of A1).mulVec x = b1 ↔ (Matrix.of A).mulVec x = b := by
    intro x; rw [hA1, hb1]; exact swap_solves A b x p0 0
  have detA : (Matrix.of A1).det = 0 ↔ (Matrix.of A).det = 0 := by
    rw [hA1]; exact swap_det A p0 0
  -- column 1
  rw [elimStep_eq]
  obtain ⟨l1, m1⟩ := pivot_spec (elimCore 0 1 A1) 1
  generalize pivotSearch (elimCore 0 1 A1) 1 = p1 at l1 m1
  by_cases z1 : elimCore 0 1 A1 p1 1 = 0
  · left
    refine ⟨by simp [z1], detA.1 (sing1 A1 v0 fun r hr => ?_)⟩
    have := m1 r hr
    rw [z1, abs_zero] at this
    exact abs_nonpos_iff.1 this
  rw [if_neg z1]
  simp only [Option.bind_some]
  have p1pos : 0 < p1 := lt_of_lt_of_le (by decide) l1
  rw [← core0_swap A1 p1 1 p1pos (by decide)]
  obtain ⟨A2, hA2⟩ : ∃ A2, A2 = swapRows A1 p1 1 := ⟨_, rfl⟩
  obtain ⟨b2, hb2⟩ : ∃ b2, b2 = swapEntries b1 p1 1 := ⟨_, rfl⟩
  rw [← hA2, ← hb2]
  have w0 : pivots A2 0 ≠ 0 := by
    show A2 0 0 ≠ 0
    rw [hA2]; unfold swapRows
    rw [if_neg p1pos.ne, if_neg (by decide)]; exact v0
  have w1 : pivots A2 1 ≠ 0 := by
    show elimCore 0 1 A2 1 1 ≠ 0
    rw [hA2, core0_swap A1 p1 1 p1pos (by decide)]; unfold swapRows
    by_cases h : (1 : Fin 4) = p1
    · rw [if_pos h]; rwa [← h] at z1
    · rw [if_neg h, if_pos rfl]; exact z1
  have solA2 : ∀ x, (Matrix.of A2).mulVec x = b2 ↔ (Matrix.of A).mulVec x = b := by
    intro x; rw [hA2, hb2, ← solA x]; exact swap_solves A1 b1 x p1 1
  have detA2 : (Matrix.of A2).det = 0 ↔ (Matrix.of A).det = 0 := by
    rw [hA2, ← detA]; exact swap_det A1 p1 1
  -- column 2
  rw [elimStep_eq]
  obtain ⟨l2, m2⟩ := pivot_spec (elimCore 1 2 (elimCore 0 1 A2)) 2
  generalize pivotSearch (elimCore 1 2 (elimCore 0 1 A2)) 2 = p2 at l2 m2
  by_cases z2 : elimCore 1 2 (elimCore 0 1 A2) p2 2 = 0
  · left
    refine ⟨by simp [z2], detA2.1 (sing2 A2 w0 w1 fun r hr => ?_)⟩
    have := m2 r hr
    rw [z2, abs_zero] at this
    exact abs_nonpos_iff.1 this
  rw [if_neg z2]
  simp only [Option.bind_some]
  have p2pos : 1 < p2 := lt_of_lt_of_le (by decide) l2
  have p2pos' : 0 < p2 := lt_trans (by decide) p2pos
  rw [← core1_swap _ p2 2 p2pos (by decide), ← core0_swap A2 p2 2 p2pos' (by decide)]
  obtain ⟨A3, hA3⟩ : ∃ A3, A3 = swapRows A2 p2 2 := ⟨_, rfl⟩
  obtain ⟨b3, hb3⟩ : ∃ b3, b3 = swapEntries b2 p2 2 := ⟨_, rfl⟩
  rw [← hA3, ← hb3]
  have u0 : pivots A3 0 ≠ 0 := by
    show A3 0 0 ≠ 0
    rw [hA3]; unfold swapRows
    rw [if_neg p2pos'.ne, if_neg (by decide)]; exact w0
  have u1 : pivots A3 1 ≠ 0 := by
    show elimCore 0 1 A3 1 1 ≠ 0
    rw [hA3, core0_swap A2 p2 2 p2pos' (by decide)]; unfold swapRows
    rw [if_neg p2pos.ne, if_neg (by decide)]; exact w1
  have u2 : pivots A3 2 ≠ 0 := by
    show elimCore 1 2 (elimCore 0 1 A3) 2 2 ≠ 0
    rw [hA3, core0_swap A2 p2 2 p2pos' (by decide), core1_swap _ p2 2 p2pos (by decide)]
    unfold swapRows
    by_cases h : (2 : Fin 4) = p2
    · rw [if_pos h]; rwa [← h] at z2
    · rw [if_neg h, if_pos rfl]; exact z2
  have solA3 : ∀ x, (Matrix.of A3).mulVec x = b3 ↔ (Matrix.of A).mulVec x = b := by
    intro x; rw [hA3, hb3, ← solA2 x]; exact swap_solves A2 b2 x p2 2
  have detA3 : (Matrix.of A3).det = 0 ↔ (Matrix.of A).det = 0 := by
    rw [hA3, ← detA2]; exact swap_det A2 p2 2
  by_cases z3 : elimCore 2 3 (elimCore 1 2 (elimCore 0 1 A3)) 3 3 = 0
  · left
    exact ⟨by simp [z3], detA3.1 (sing3 A3 u0 u1 u2 z3)⟩
  · right
    refine ⟨_, by rw [if_neg z3], ?_, ?_⟩
    · rw [← solA3]
      refine cores_solve A3 b3 fun i => ?_
      fin_cases i
      · exact u0
      · exact u1
      · exact u2
      · exact z3
    · rw [Ne, ← detA3, (cores_isLU A3 0 u0 u1 u2).det]
      have u3 : pivots A3 3 ≠ 0 := z3
      simp [u0, u1, u2, u3]

end Verif.Transport
