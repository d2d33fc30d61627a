import Verif.Transport.Lemmas
import Mathlib.LinearAlgebra.Matrix.ToLinearEquiv
import Mathlib.Tactic.Positivity
import Mathlib.Tactic.Linarith
import Mathlib.Tactic.IntervalCases

/-!
# Helper lemmas: elimination without pivoting, Cramer's rule, the assembled system
-/
set_option linter.unusedSectionVars false

namespace Verif.Transport

variable {K : Type*} [Field K] [LinearOrder K] [IsStrictOrderedRing K]

open Matrix

/-! ### Cramer's rule -/

theorem glu_det (A : Mat4 K) :
    flat A 0 * gluInv (flat A) 0 + flat A 1 * gluInv (flat A) 4 + flat A 2 * gluInv (flat A) 8
      + flat A 3 * gluInv (flat A) 12 = (Matrix.of A).det := by
  rw [det4]
  simp only [gluInv, flat, Matrix.of_apply]
  simp [Fin.ofNat]
  ring

theorem glu_cases (A : Mat4 K) (b : Vec4 K) :
    (solveGlu A b = none ∧ (Matrix.of A).det = 0) ∨
    (∃ x, solveGlu A b = some x ∧ (Matrix.of A).mulVec x = b ∧ (Matrix.of A).det ≠ 0) := by
  unfold solveGlu
  simp only [glu_det]
  by_cases h : (Matrix.of A).det = 0
  · left; exact ⟨by rw [if_pos h], h⟩
  · right
    refine ⟨_, by rw [if_neg h], ?_, h⟩
    obtain ⟨d, hd⟩ : ∃ d, d = 1 / (Matrix.of A).det := ⟨_, rfl⟩
    have k : d * (Matrix.of A).det = 1 := by rw [hd]; field_simp
    rw [← hd]
    rw [det4] at k
    simp only [Matrix.of_apply] at k
    clear hd h
    funext i
    rw [mulVec4]
    simp only [applyFlat, gluInv, flat]
    simp only [Fin.ofNat]
    norm_num
    fin_cases i <;> simp only [Fin.zero_eta, Fin.mk_one, Fin.reduceFinMk]
    · linear_combination b 0 * k
    · linear_combination b 1 * k
    · linear_combination b 2 * k
    · linear_combination b 3 * k

theorem intel_det (A : Mat4 K) :
    intelSrc A 0 * intelDst (intelSrc A) 0 + intelSrc A 1 * intelDst (intelSrc A) 1
      + intelSrc A 2 * intelDst (intelSrc A) 2 + intelSrc A 3 * intelDst (intelSrc A) 3
      = (Matrix.of A).det := by
  rw [det4]
  simp only [intelDst, Matrix.of_apply]
  simp only [Nat.reduceLT, if_true, intelTmpA, intelSrc, Fin.ofNat]
  norm_num
  simp only [Fin.reduceFinMk]
  ring

theorem intel_cases (A : Mat4 K) (b : Vec4 K) :
    (solveIntel A b = none ∧ (Matrix.of A).det = 0) ∨
    (∃ x, solveIntel A b = some x ∧ (Matrix.of A).mulVec x = b ∧ (Matrix.of A).det ≠ 0) := by
  unfold solveIntel
  simp only [intel_det]
  by_cases h : (Matrix.of A).det = 0
  · left; exact ⟨by rw [if_pos h], h⟩
  · right
    refine ⟨_, by rw [if_neg h], ?_, h⟩
    obtain ⟨d, hd⟩ : ∃ d, d = 1 / (Matrix.of A).det := ⟨_, rfl⟩
    have k : d * (Matrix.of A).det = 1 := by rw [hd]; field_simp
    rw [← hd]
    rw [det4] at k
    simp only [Matrix.of_apply] at k
    clear hd h
    funext i
    rw [mulVec4]
    simp only [applyFlat, intelDst]
    simp only [Nat.reduceLT, if_true, if_false, intelTmpA, intelTmpB, intelSrc, Fin.ofNat]
    norm_num
    fin_cases i <;> simp only [Fin.zero_eta, Fin.mk_one, Fin.reduceFinMk]
    · linear_combination b 0 * k
    · linear_combination b 1 * k
    · linear_combination b 2 * k
    · linear_combination b 3 * k

/-! ### Elimination without pivoting -/

/-- State after normalising row 0 and clearing column 0. -/
def np0 (A : Mat4 K) (b : Vec4 K) : Mat4 K × Vec4 K :=
  (fun i j => match i, j with
    | 0, 0 => 1
    | 0, _ => A 0 j * (1 / A 0 0)
    | _, 0 => 0
    | _, _ => A i j - A 0 j * (1 / A 0 0) * A i 0,
   fun i => match i with
    | 0 => b 0 * (1 / A 0 0)
    | _ => b i - b 0 * (1 / A 0 0) * A i 0)

def np1 (A : Mat4 K) (b : Vec4 K) : Mat4 K × Vec4 K :=
  (fun i j => match i, j with
    | 0, _ => A 0 j
    | _, 0 => A i 0
    | 1, 1 => 1
    | 1, _ => A 1 j * (1 / A 1 1)
    | _, 1 => 0
    | _, _ => A i j - A 1 j * (1 / A 1 1) * A i 1,
   fun i => match i with
    | 0 => b 0
    | 1 => b 1 * (1 / A 1 1)
    | _ => b i - b 1 * (1 / A 1 1) * A i 1)

def np2 (A : Mat4 K) (b : Vec4 K) : Mat4 K × Vec4 K :=
  (fun i j => match i, j with
    | 2, 2 => 1
    | 2, 3 => A 2 3 * (1 / A 2 2)
    | 3, 2 => 0
    | 3, 3 => A 3 3 - A 2 3 * (1 / A 2 2) * A 3 2
    | _, _ => A i j,
   fun i => match i with
    | 2 => b 2 * (1 / A 2 2)
    | 3 => b 3 - b 2 * (1 / A 2 2) * A 3 2
    | _ => b i)

theorem normRow_eq (c : Fin 4) (s : Mat4 K × Vec4 K) (h : s.1 c c ≠ 0) :
    normRow c s = some ((below c).foldl (fun A j => set2 A c j (A c j * (1 / s.1 c c)))
      (set2 s.1 c c 1), set1 s.2 c (s.2 c * (1 / s.1 c c))) := by
  unfold normRow; rw [if_neg h]

theorem np0_eq (A : Mat4 K) (b : Vec4 K) (h : A 0 0 ≠ 0) :
    (normRow 0 (A, b)).map (fun s => clearRow 0 3 (clearRow 0 2 (clearRow 0 1 s)))
      = some (np0 A b) := by
  rw [normRow_eq 0 (A, b) h]
  simp only [Option.map_some, Option.some.injEq]
  refine Prod.ext ?_ ?_
  · funext i j
    simp only [clearRow, below0, List.foldl, set2, set1, np0]
    fin_cases i <;> fin_cases j <;> simp
  · funext i
    simp only [clearRow, below0, List.foldl, set2, set1, np0]
    fin_cases i <;> simp

theorem np1_eq (s : Mat4 K × Vec4 K) (h : s.1 1 1 ≠ 0) :
    (normRow 1 s).map (fun s => clearRow 1 3 (clearRow 1 2 s)) = some (np1 s.1 s.2) := by
  rw [normRow_eq 1 s h]
  simp only [Option.map_some, Option.some.injEq]
  refine Prod.ext ?_ ?_
  · funext i j
    simp only [clearRow, below1, List.foldl, set2, set1, np1]
    fin_cases i <;> fin_cases j <;> simp
  · funext i
    simp only [clearRow, below1, List.foldl, set2, set1, np1]
    fin_cases i <;> simp

theorem np2_eq (s : Mat4 K × Vec4 K) (h : s.1 2 2 ≠ 0) :
    (normRow 2 s).map (fun s => clearRow 2 3 s) = some (np2 s.1 s.2) := by
  rw [normRow_eq 2 s h]
  simp only [Option.map_some, Option.some.injEq]
  refine Prod.ext ?_ ?_
  · funext i j
    simp only [clearRow, below2, List.foldl, set2, set1, np2]
    fin_cases i <;> fin_cases j <;> simp
  · funext i
    simp only [clearRow, below2, List.foldl, set2, set1, np2]
    fin_cases i <;> simp

/-- The four pivots of elimination without pivoting. -/
theorem np_pivot1 (A : Mat4 K) (b : Vec4 K) : (np0 A b).1 1 1 = pivots A 1 := by
  simp only [np0, pivots, core0]; ring
theorem np_pivot2 (A : Mat4 K) (b : Vec4 K) :
    (np1 (np0 A b).1 (np0 A b).2).1 2 2 = pivots A 2 := by
  simp only [np1, np0, pivots, core1, core0]; ring_nf
theorem np_pivot3 (A : Mat4 K) (b : Vec4 K) :
    (np2 (np1 (np0 A b).1 (np0 A b).2).1 (np1 (np0 A b).1 (np0 A b).2).2).1 3 3
      = pivots A 3 := by
  have h1 := np_pivot1 A b
  have h2 := np_pivot2 A b
  have e1 : pivots A 1 = elimCore 0 1 A 1 1 := rfl
  have e2 : pivots A 2 = elimCore 1 2 (elimCore 0 1 A) 2 2 := rfl
  simp only [np2]
  rw [h2]
  simp only [np1] at h2 ⊢
  rw [h1] at h2 ⊢
  simp only [pivots, core2]
  rw [← e2]
  simp only [core1]
  rw [← e1]
  simp only [np0, core0]
  ring

theorem np0_solves {A : Mat4 K} {b x : Vec4 K} (h : A 0 0 ≠ 0)
    (hx : (Matrix.of (np0 A b).1).mulVec x = (np0 A b).2) : (Matrix.of A).mulVec x = b := by
  have g := fun i => (mulVec4 (np0 A b).1 x i).symm.trans (congrFun hx i)
  have r0 := g 0
  have r1 := g 1
  have r2 := g 2
  have r3 := g 3
  simp only [np0] at r0 r1 r2 r3
  obtain ⟨t, ht⟩ : ∃ t, t = 1 / A 0 0 := ⟨_, rfl⟩
  have k : t * A 0 0 = 1 := by rw [ht]; field_simp
  rw [← ht] at r0 r1 r2 r3
  funext i
  rw [mulVec4]
  fin_cases i
  · simp only [Fin.zero_eta]
    linear_combination A 0 0 * r0 - (A 0 1 * x 1 + A 0 2 * x 2 + A 0 3 * x 3 - b 0) * k
  · simp only [Fin.mk_one]
    linear_combination r1 + A 1 0 * r0
  · simp only [Fin.reduceFinMk]
    linear_combination r2 + A 2 0 * r0
  · simp only [Fin.reduceFinMk]
    linear_combination r3 + A 3 0 * r0

theorem np1_solves {A : Mat4 K} {b x : Vec4 K} (h : A 1 1 ≠ 0) (z : A 1 0 = 0)
    (hx : (Matrix.of (np1 A b).1).mulVec x = (np1 A b).2) : (Matrix.of A).mulVec x = b := by
  have g := fun i => (mulVec4 (np1 A b).1 x i).symm.trans (congrFun hx i)
  have r0 := g 0
  have r1 := g 1
  have r2 := g 2
  have r3 := g 3
  simp only [np1] at r0 r1 r2 r3
  obtain ⟨t, ht⟩ : ∃ t, t = 1 / A 1 1 := ⟨_, rfl⟩
  have k : t * A 1 1 = 1 := by rw [ht]; field_simp
  rw [← ht] at r1 r2 r3
  rw [z] at r1
  funext i
  rw [mulVec4]
  fin_cases i
  · exact r0
  · simp only [Fin.mk_one, z]
    linear_combination A 1 1 * r1 - (A 1 2 * x 2 + A 1 3 * x 3 - b 1) * k
  · simp only [Fin.reduceFinMk]
    linear_combination r2 + A 2 1 * r1
  · simp only [Fin.reduceFinMk]
    linear_combination r3 + A 3 1 * r1

theorem np2_solves {A : Mat4 K} {b x : Vec4 K} (h : A 2 2 ≠ 0) (z0 : A 2 0 = 0) (z1 : A 2 1 = 0)
    (hx : (Matrix.of (np2 A b).1).mulVec x = (np2 A b).2) : (Matrix.of A).mulVec x = b := by
  have g := fun i => (mulVec4 (np2 A b).1 x i).symm.trans (congrFun hx i)
  have r0 := g 0
  have r1 := g 1
  have r2 := g 2
  have r3 := g 3
  simp only [np2] at r0 r1 r2 r3
  obtain ⟨t, ht⟩ : ∃ t, t = 1 / A 2 2 := ⟨_, rfl⟩
  have k : t * A 2 2 = 1 := by rw [ht]; field_simp
  rw [← ht] at r2 r3
  rw [z0, z1] at r2
  funext i
  rw [mulVec4]
  fin_cases i
  · exact r0
  · exact r1
  · simp only [Fin.reduceFinMk, z0, z1]
    linear_combination A 2 2 * r2 - (A 2 3 * x 3 - b 2) * k
  · simp only [Fin.reduceFinMk]
    linear_combination r3 + A 3 2 * r2

theorem noPivot_cases (A : Mat4 K) (b : Vec4 K) :
    (solveNoPivot A b = none ∧ ∃ i, pivots A i = 0 ∧ ∀ j < i, pivots A j ≠ 0) ∨
    (∃ x, solveNoPivot A b = some x ∧ (Matrix.of A).mulVec x = b ∧ ∀ i, pivots A i ≠ 0) := by
  unfold solveNoPivot
  simp only [Option.bind_eq_bind]
  by_cases h0 : A 0 0 = 0
  · left
    exact ⟨by simp [normRow, h0], 0, h0, by intro j hj; exact absurd hj (Fin.not_lt_zero j)⟩
  rw [np0_eq A b h0, Option.bind_some]
  have p0 : pivots A 0 ≠ 0 := h0
  have e1 := np_pivot1 A b
  by_cases h1 : pivots A 1 = 0
  · left
    refine ⟨by simp [normRow, e1, h1], 1, h1, ?_⟩
    intro j hj
    fin_cases j
    · exact p0
    all_goals exact absurd hj (by decide)
  rw [np1_eq _ (by rw [e1]; exact h1), Option.bind_some]
  have e2 := np_pivot2 A b
  by_cases h2 : pivots A 2 = 0
  · left
    refine ⟨by simp [normRow, e2, h2], 2, h2, ?_⟩
    intro j hj
    fin_cases j
    · exact p0
    · exact h1
    all_goals exact absurd hj (by decide)
  rw [np2_eq _ (by rw [e2]; exact h2), Option.bind_some]
  have e3 := np_pivot3 A b
  by_cases h3 : pivots A 3 = 0
  · left
    refine ⟨by rw [if_pos (e3.trans h3)], 3, h3, ?_⟩
    intro j hj
    fin_cases j
    · exact p0
    · exact h1
    · exact h2
    all_goals exact absurd hj (by decide)
  right
  refine ⟨_, by rw [if_neg (by rw [e3]; exact h3)], ?_, ?_⟩
  · apply np0_solves h0
    apply np1_solves (by rw [e1]; exact h1) (by simp [np0])
    apply np2_solves (by rw [e2]; exact h2) (by simp [np0, np1]) (by simp [np1])
    generalize hP : np1 (np0 A b).1 (np0 A b).2 = P at *
    have z10 : P.1 1 0 = 0 := by rw [← hP]; simp [np0, np1]
    have z11 : P.1 1 1 = 1 := by rw [← hP]; simp [np1]
    have z20 : P.1 2 0 = 0 := by rw [← hP]; simp [np0, np1]
    have z21 : P.1 2 1 = 0 := by rw [← hP]; simp [np1]
    have z30 : P.1 3 0 = 0 := by rw [← hP]; simp [np0, np1]
    have z31 : P.1 3 1 = 0 := by rw [← hP]; simp [np1]
    have z00 : P.1 0 0 = 1 := by rw [← hP]; simp [np0, np1]
    generalize hQ : np2 P.1 P.2 = Q at *
    have q00 : Q.1 0 0 = 1 := by rw [← hQ]; simp [np2, z00]
    have q10 : Q.1 1 0 = 0 := by rw [← hQ]; simp [np2, z10]
    have q11 : Q.1 1 1 = 1 := by rw [← hQ]; simp [np2, z11]
    have q20 : Q.1 2 0 = 0 := by rw [← hQ]; simp [np2, z20]
    have q21 : Q.1 2 1 = 0 := by rw [← hQ]; simp [np2, z21]
    have q22 : Q.1 2 2 = 1 := by rw [← hQ]; simp [np2]
    have q30 : Q.1 3 0 = 0 := by rw [← hQ]; simp [np2, z30]
    have q31 : Q.1 3 1 = 0 := by rw [← hQ]; simp [np2, z31]
    have q32 : Q.1 3 2 = 0 := by rw [← hQ]; simp [np2]
    have hne : Q.1 3 3 ≠ 0 := by rw [e3]; exact h3
    funext i
    rw [mulVec4]
    fin_cases i <;> simp [backNoPivot, set1, q00, q10, q11, q20, q21, q22, q30, q31, q32]; field_simp
  · intro i
    fin_cases i
    · exact p0
    · exact h1
    · exact h2
    · exact h3

end Verif.Transport
