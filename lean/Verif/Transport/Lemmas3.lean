import Verif.Transport.Lemmas2
import Mathlib.Algebra.BigOperators.Fin

/-!
# Helper lemmas: leading minors, the assembled system, positivity
-/
set_option linter.unusedSectionVars false

namespace Verif.Transport

variable {K : Type*} [Field K] [LinearOrder K] [IsStrictOrderedRing K]

open Matrix

/-! ### Leading minors and pivots -/

/-- Determinant of the leading `k` by `k` block. -/
def leadingMinor (A : Mat4 K) (k : Nat) (h : k ≤ 4) : K :=
  ((Matrix.of A).submatrix (Fin.castLE h) (Fin.castLE h)).det

theorem lead1 (A : Mat4 K) (h : 1 ≤ 4) : leadingMinor A 1 h = A 0 0 := by
  simp [leadingMinor]
theorem lead2 (A : Mat4 K) (h : 2 ≤ 4) :
    leadingMinor A 2 h = A 0 0 * A 1 1 - A 0 1 * A 1 0 := by
  simp [leadingMinor, Matrix.det_fin_two]
theorem lead3 (A : Mat4 K) (h : 3 ≤ 4) :
    leadingMinor A 3 h = A 0 0 * A 1 1 * A 2 2 - A 0 0 * A 1 2 * A 2 1 - A 0 1 * A 1 0 * A 2 2
      + A 0 1 * A 1 2 * A 2 0 + A 0 2 * A 1 0 * A 2 1 - A 0 2 * A 1 1 * A 2 0 := by
  simp [leadingMinor, Matrix.det_fin_three]
theorem lead4 (A : Mat4 K) (h : 4 ≤ 4) : leadingMinor A 4 h = (Matrix.of A).det := by
  unfold leadingMinor
  congr 1

theorem lead2_piv (A : Mat4 K) (h : 2 ≤ 4) (h0 : pivots A 0 ≠ 0) :
    leadingMinor A 2 h = pivots A 0 * pivots A 1 := by
  rw [lead2]
  have : A 0 0 ≠ 0 := h0
  simp only [pivots, core0]
  field_simp

theorem lead3_piv (A : Mat4 K) (h : 3 ≤ 4) (h0 : pivots A 0 ≠ 0) (h1 : pivots A 1 ≠ 0) :
    leadingMinor A 3 h = pivots A 0 * pivots A 1 * pivots A 2 := by
  rw [lead3]
  have k0 : A 0 0 ≠ 0 := h0
  have e1 : pivots A 1 = A 1 1 - A 1 0 * (1 / A 0 0) * A 0 1 := by simp only [pivots, core0]
  have e2 : pivots A 2 = A 2 2 - A 2 0 * (1 / A 0 0) * A 0 2
      - (A 2 1 - A 2 0 * (1 / A 0 0) * A 0 1) * (1 / pivots A 1)
        * (A 1 2 - A 1 0 * (1 / A 0 0) * A 0 2) := by
    rw [e1]; simp only [pivots, core1, core0]
  have e0 : pivots A 0 = A 0 0 := rfl
  have e2' : pivots A 1 * pivots A 2 = pivots A 1 * (A 2 2 - A 2 0 * (1 / A 0 0) * A 0 2)
      - (A 2 1 - A 2 0 * (1 / A 0 0) * A 0 1) * (A 1 2 - A 1 0 * (1 / A 0 0) * A 0 2) := by
    rw [e2]; field_simp
  rw [mul_assoc (pivots A 0), e2', e1, e0]
  field_simp
  ring

theorem pivots_iff (A : Mat4 K) :
    (∀ i, pivots A i ≠ 0) ↔ ∀ k (h : k ≤ 4), leadingMinor A k h ≠ 0 := by
  constructor
  · intro hp k h
    interval_cases k
    · simp [leadingMinor]
    · rw [lead1]; exact hp 0
    · rw [lead2_piv A h (hp 0)]; exact mul_ne_zero (hp 0) (hp 1)
    · rw [lead3_piv A h (hp 0) (hp 1)]
      exact mul_ne_zero (mul_ne_zero (hp 0) (hp 1)) (hp 2)
    · rw [lead4, (cores_isLU A 0 (hp 0) (hp 1) (hp 2)).det]
      exact mul_ne_zero (mul_ne_zero (mul_ne_zero (hp 0) (hp 1)) (hp 2)) (hp 3)
  · intro hl
    have p0 : pivots A 0 ≠ 0 := by have := hl 1 (by decide); rwa [lead1] at this
    have p1 : pivots A 1 ≠ 0 := by
      have := hl 2 (by decide); rw [lead2_piv A _ p0] at this
      exact right_ne_zero_of_mul this
    have p2 : pivots A 2 ≠ 0 := by
      have := hl 3 (by decide); rw [lead3_piv A _ p0 p1] at this
      exact right_ne_zero_of_mul this
    have p3 : pivots A 3 ≠ 0 := by
      have := hl 4 (by decide); rw [lead4, (cores_isLU A 0 p0 p1 p2).det] at this
      exact right_ne_zero_of_mul this
    intro i
    fin_cases i <;> assumption

/-! ### The assembled system -/

/-- Coefficient 2 on the diagonal, 1 off it. -/
def cf (i j : Fin 4) : K := if i = j then 2 else 1

theorem volInt_entry (V σ : K) (area : Vec4 K) (i j : Fin 4) :
    calcVolumeIntegrals V area σ i j = area i / 12 + cf i j * σ * V / 20 := by
  fin_cases i <;> fin_cases j <;> simp [calcVolumeIntegrals, cf]

theorem outFace0_entry (area : Vec4 K) (M : Mat4 K) (i j : Fin 4) :
    outFace0 area M i j = M i j + if i ≠ 0 ∧ j ≠ 0 then cf i j * area 0 / 12 else 0 := by
  fin_cases i <;> fin_cases j <;> simp [outFace0, addTo, set2, cf]
theorem outFace1_entry (area : Vec4 K) (M : Mat4 K) (i j : Fin 4) :
    outFace1 area M i j = M i j + if i ≠ 1 ∧ j ≠ 1 then cf i j * area 1 / 12 else 0 := by
  fin_cases i <;> fin_cases j <;> simp [outFace1, addTo, set2, cf]
theorem outFace2_entry (area : Vec4 K) (M : Mat4 K) (i j : Fin 4) :
    outFace2 area M i j = M i j + if i ≠ 2 ∧ j ≠ 2 then cf i j * area 2 / 12 else 0 := by
  fin_cases i <;> fin_cases j <;> simp [outFace2, addTo, set2, cf]
theorem outFace3_entry (area : Vec4 K) (M : Mat4 K) (i j : Fin 4) :
    outFace3 area M i j = M i j + if i ≠ 3 ∧ j ≠ 3 then cf i j * area 3 / 12 else 0 := by
  fin_cases i <;> fin_cases j <;> simp [outFace3, addTo, set2, cf]

/-- Contribution of outgoing face `f` to entry `(i,j)`. -/
def outTerm (area : Vec4 K) (f i j : Fin 4) : K :=
  if 0 < area f then (if i ≠ f ∧ j ≠ f then cf i j * area f / 12 else 0) else 0

theorem outFlux_entry (area : Vec4 K) (M : Mat4 K) (i j : Fin 4) :
    calcOutgoingFlux area M i j = M i j + outTerm area 0 i j + outTerm area 1 i j
      + outTerm area 2 i j + outTerm area 3 i j := by
  have ite_app : ∀ (p : Prop) [Decidable p] (M N : Mat4 K),
      (if p then M else N) i j = if p then M i j else N i j := by
    intro p _ M N; split_ifs <;> rfl
  simp only [calcOutgoingFlux, ite_app, outFace0_entry, outFace1_entry, outFace2_entry,
    outFace3_entry, outTerm, gt_iff_lt]
  split_ifs <;> ring

/-- The assembled matrix. -/
def asm (V σ : K) (area : Vec4 K) : Mat4 K :=
  calcOutgoingFlux area (calcVolumeIntegrals V area σ)

theorem asm_entry (V σ : K) (area : Vec4 K) (i j : Fin 4) :
    asm V σ area i j = area i / 12 + cf i j * σ * V / 20 + outTerm area 0 i j + outTerm area 1 i j
      + outTerm area 2 i j + outTerm area 3 i j := by
  rw [asm, outFlux_entry, volInt_entry]

/-- Contribution of incoming face `f` to the right-hand side. -/
def inTerm (c2f : Fin 4 → Fin 4 → Fin 3) (lpb : Fin 3 → Fin 4 → K) (area : Vec4 K)
    (f i : Fin 4) : K :=
  if area f < 0 then (if i ≠ f then
    ∑ j ∈ Finset.univ.erase f, cf i j * area f / 12 * lpb (c2f f j) f else 0) else 0

theorem er0 : (Finset.univ.erase (0 : Fin 4)) = {1, 2, 3} := by decide
theorem er1 : (Finset.univ.erase (1 : Fin 4)) = {0, 2, 3} := by decide
theorem er2 : (Finset.univ.erase (2 : Fin 4)) = {0, 1, 3} := by decide
theorem er3 : (Finset.univ.erase (3 : Fin 4)) = {0, 1, 2} := by decide

theorem inFlux_entry (c2f : Fin 4 → Fin 4 → Fin 3) (lpb : Fin 3 → Fin 4 → K) (area b : Vec4 K)
    (i : Fin 4) : calcIncomingFlux c2f lpb area b i = b i - inTerm c2f lpb area 0 i
      - inTerm c2f lpb area 1 i - inTerm c2f lpb area 2 i - inTerm c2f lpb area 3 i := by
  have ite_app : ∀ (p : Prop) [Decidable p] (M N : Vec4 K),
      (if p then M else N) i = if p then M i else N i := by
    intro p _ M N; split_ifs <;> rfl
  have f0 : ∀ b, inFace0 c2f lpb area b i = b i - if i ≠ 0 then
      ∑ j ∈ Finset.univ.erase 0, cf i j * area 0 / 12 * lpb (c2f 0 j) 0 else 0 := by
    intro b; rw [er0]
    fin_cases i <;> simp [inFace0, subFrom, set1, cf] <;> ring
  have f1 : ∀ b, inFace1 c2f lpb area b i = b i - if i ≠ 1 then
      ∑ j ∈ Finset.univ.erase 1, cf i j * area 1 / 12 * lpb (c2f 1 j) 1 else 0 := by
    intro b; rw [er1]
    fin_cases i <;> simp [inFace1, subFrom, set1, cf] <;> ring
  have f2 : ∀ b, inFace2 c2f lpb area b i = b i - if i ≠ 2 then
      ∑ j ∈ Finset.univ.erase 2, cf i j * area 2 / 12 * lpb (c2f 2 j) 2 else 0 := by
    intro b; rw [er2]
    fin_cases i <;> simp [inFace2, subFrom, set1, cf] <;> ring
  have f3 : ∀ b, inFace3 c2f lpb area b i = b i - if i ≠ 3 then
      ∑ j ∈ Finset.univ.erase 3, cf i j * area 3 / 12 * lpb (c2f 3 j) 3 else 0 := by
    intro b; rw [er3]
    fin_cases i <;> simp [inFace3, subFrom, set1, cf] <;> ring
  simp only [calcIncomingFlux, ite_app, f0, f1, f2, f3, inTerm]
  split_ifs <;> ring

/-- Positive part of the face coefficient. -/
def oc (area : Vec4 K) (f : Fin 4) : K := if 0 < area f then area f / 12 else 0
/-- Negative part of the face coefficient. -/
def nc (area : Vec4 K) (f : Fin 4) : K := if area f < 0 then area f / 12 else 0

theorem outTerm_oc (area : Vec4 K) (f i j : Fin 4) :
    outTerm area f i j = if i ≠ f ∧ j ≠ f then cf i j * oc area f else 0 := by
  unfold outTerm oc; split_ifs <;> ring

theorem inTerm_nc (c2f : Fin 4 → Fin 4 → Fin 3) (lpb : Fin 3 → Fin 4 → K) (area : Vec4 K)
    (f i : Fin 4) : inTerm c2f lpb area f i = if i ≠ f then
      ∑ j ∈ Finset.univ.erase f, cf i j * nc area f * lpb (c2f f j) f else 0 := by
  unfold inTerm nc
  split_ifs
  · exact Finset.sum_congr rfl fun j _ => by ring
  · rfl
  · simp
  · rfl

/-! ### Positivity -/

/-- The quadratic form of the assembled matrix. -/
def quad (A : Mat4 K) (x : Vec4 K) : K := ∑ i, x i * (Matrix.of A).mulVec x i

/-- `Q_f`: integral of the square of a linear function over face `f`, up to a factor. -/
def faceQuad (x : Vec4 K) (f : Fin 4) : K :=
  (x 0 ^ 2 + x 1 ^ 2 + x 2 ^ 2 + x 3 ^ 2) + (x 0 + x 1 + x 2 + x 3) ^ 2
    - 2 * (x 0 + x 1 + x 2 + x 3) * x f

theorem faceQuad_nonneg (x : Vec4 K) (f : Fin 4) : 0 ≤ faceQuad x f := by
  have : faceQuad x f = (x 0 ^ 2 + x 1 ^ 2 + x 2 ^ 2 + x 3 ^ 2 - x f ^ 2)
      + (x 0 + x 1 + x 2 + x 3 - x f) ^ 2 := by unfold faceQuad; ring
  rw [this]
  have h : 0 ≤ x 0 ^ 2 + x 1 ^ 2 + x 2 ^ 2 + x 3 ^ 2 - x f ^ 2 := by
    fin_cases f <;> simp <;> nlinarith [sq_nonneg (x 0), sq_nonneg (x 1), sq_nonneg (x 2), sq_nonneg (x 3)]
  positivity

theorem outTerm_quad (area x : Vec4 K) (f : Fin 4) :
    (∑ i, ∑ j, x i * (outTerm area f i j * x j)) =
      if 0 < area f then area f / 12 * faceQuad x f else 0 := by
  by_cases h : 0 < area f
  · rw [if_pos h]
    simp only [outTerm, if_pos h]
    generalize area f = a
    fin_cases f <;> simp [Fin.sum_univ_succ, cf, faceQuad] <;> ring
  · simp [outTerm, h]

theorem quad_asm (V σ : K) (area x : Vec4 K)
    (hc : area 0 + area 1 + area 2 + area 3 = 0) :
    quad (asm V σ area) x = σ * V / 20 * ((x 0 ^ 2 + x 1 ^ 2 + x 2 ^ 2 + x 3 ^ 2)
        + (x 0 + x 1 + x 2 + x 3) ^ 2)
      + (|area 0| * faceQuad x 0 + |area 1| * faceQuad x 1 + |area 2| * faceQuad x 2
        + |area 3| * faceQuad x 3) / 24 := by
  have e : quad (asm V σ area) x =
      (∑ i, ∑ j, x i * ((area i / 12 + cf i j * σ * V / 20) * x j))
      + (∑ i, ∑ j, x i * (outTerm area 0 i j * x j)) + (∑ i, ∑ j, x i * (outTerm area 1 i j * x j))
      + (∑ i, ∑ j, x i * (outTerm area 2 i j * x j))
      + (∑ i, ∑ j, x i * (outTerm area 3 i j * x j)) := by
    unfold quad
    simp only [← Finset.sum_add_distrib]
    refine Finset.sum_congr rfl fun i _ => ?_
    rw [Matrix.mulVec, dotProduct, Finset.mul_sum]
    refine Finset.sum_congr rfl fun j _ => ?_
    rw [Matrix.of_apply, asm_entry]
    ring
  rw [e]
  simp only [outTerm_quad]
  have v : (∑ i, ∑ j, x i * ((area i / 12 + cf i j * σ * V / 20) * x j)) =
      σ * V / 20 * ((x 0 ^ 2 + x 1 ^ 2 + x 2 ^ 2 + x 3 ^ 2) + (x 0 + x 1 + x 2 + x 3) ^ 2)
      - (area 0 * faceQuad x 0 + area 1 * faceQuad x 1 + area 2 * faceQuad x 2
        + area 3 * faceQuad x 3) / 24 := by
    have h3 : area 3 = -(area 0 + area 1 + area 2) := by linear_combination hc
    simp [Fin.sum_univ_succ, cf, faceQuad]
    rw [h3]
    ring
  rw [v]
  have hf : ∀ f, (if 0 < area f then area f / 12 * faceQuad x f else 0)
      = (area f + |area f|) / 24 * faceQuad x f := by
    intro f
    split_ifs with h
    · rw [abs_of_pos h]; ring
    · rw [abs_of_nonpos (not_lt.1 h)]; ring
  rw [hf, hf, hf, hf]
  ring

theorem faceQuad_zero (x : Vec4 K) (f i : Fin 4) (hi : i ≠ f) (h : faceQuad x f = 0) : x i = 0 := by
  have q0 := sq_nonneg (x 0)
  have q1 := sq_nonneg (x 1)
  have q2 := sq_nonneg (x 2)
  have q3 := sq_nonneg (x 3)
  have e : faceQuad x f = (x 0 ^ 2 + x 1 ^ 2 + x 2 ^ 2 + x 3 ^ 2 - x f ^ 2)
      + (x 0 + x 1 + x 2 + x 3 - x f) ^ 2 := by unfold faceQuad; ring
  have q4 := sq_nonneg (x 0 + x 1 + x 2 + x 3 - x f)
  rw [e] at h
  apply pow_eq_zero_iff (two_ne_zero) |>.1
  revert h q4 hi
  generalize (x 0 + x 1 + x 2 + x 3 - x f) ^ 2 = s
  fin_cases f <;> fin_cases i <;> simp only [Fin.zero_eta, Fin.mk_one, Fin.reduceFinMk] <;>
    intro hi q4 h <;> first | exact absurd rfl hi | linarith

theorem quad_pos (V σ : K) (area x : Vec4 K) (hV : 0 < V) (hσ : 0 ≤ σ)
    (hc : area 0 + area 1 + area 2 + area 3 = 0) (hne : 0 < σ ∨ area ≠ 0) (hx : x ≠ 0) :
    0 < quad (asm V σ area) x := by
  rw [quad_asm V σ area x hc]
  have h0 := faceQuad_nonneg x 0
  have h1 := faceQuad_nonneg x 1
  have h2 := faceQuad_nonneg x 2
  have h3 := faceQuad_nonneg x 3
  rcases hne with hσ | harea
  · have hp : 0 < x 0 ^ 2 + x 1 ^ 2 + x 2 ^ 2 + x 3 ^ 2 := by
      by_contra hn
      apply hx
      have q0 := sq_nonneg (x 0)
      have q1 := sq_nonneg (x 1)
      have q2 := sq_nonneg (x 2)
      have q3 := sq_nonneg (x 3)
      funext i
      fin_cases i
      · exact pow_eq_zero_iff (two_ne_zero) |>.1 (by linarith : x 0 ^ 2 = 0)
      · exact pow_eq_zero_iff (two_ne_zero) |>.1 (by linarith : x 1 ^ 2 = 0)
      · exact pow_eq_zero_iff (two_ne_zero) |>.1 (by linarith : x 2 ^ 2 = 0)
      · exact pow_eq_zero_iff (two_ne_zero) |>.1 (by linarith : x 3 ^ 2 = 0)
    positivity
  · -- two faces with nonzero area, hence every component vanishes if the form does
    have hv : 0 ≤ σ * V / 20 * ((x 0 ^ 2 + x 1 ^ 2 + x 2 ^ 2 + x 3 ^ 2)
        + (x 0 + x 1 + x 2 + x 3) ^ 2) := by positivity
    have hb : 0 < |area 0| * faceQuad x 0 + |area 1| * faceQuad x 1 + |area 2| * faceQuad x 2
        + |area 3| * faceQuad x 3 := by
      have p0 : 0 ≤ |area 0| * faceQuad x 0 := by positivity
      have p1 : 0 ≤ |area 1| * faceQuad x 1 := by positivity
      have p2 : 0 ≤ |area 2| * faceQuad x 2 := by positivity
      have p3 : 0 ≤ |area 3| * faceQuad x 3 := by positivity
      by_contra hn
      have z : ∀ f, |area f| * faceQuad x f = 0 := by
        intro f
        fin_cases f <;> simp only [Fin.zero_eta, Fin.mk_one, Fin.reduceFinMk] <;> linarith
      obtain ⟨f, hf⟩ : ∃ f, area f ≠ 0 := by
        by_contra hall; push Not at hall; exact harea (funext hall)
      obtain ⟨f', hff, hf'⟩ : ∃ f', f' ≠ f ∧ area f' ≠ 0 := by
        by_contra hall
        push Not at hall
        apply hf
        revert hall
        fin_cases f <;> intro hall
        · have a := hall 1 (by decide); have b := hall 2 (by decide); have c := hall 3 (by decide)
          simp only [Fin.zero_eta]; linarith
        · have a := hall 0 (by decide); have b := hall 2 (by decide); have c := hall 3 (by decide)
          simp only [Fin.mk_one]; linarith
        · have a := hall 0 (by decide); have b := hall 1 (by decide); have c := hall 3 (by decide)
          simp only [Fin.reduceFinMk]; linarith
        · have a := hall 0 (by decide); have b := hall 1 (by decide); have c := hall 2 (by decide)
          simp only [Fin.reduceFinMk]; linarith
      have zf : faceQuad x f = 0 := by
        rcases mul_eq_zero.1 (z f) with h | h
        · exact absurd (abs_eq_zero.1 h) hf
        · exact h
      have zf' : faceQuad x f' = 0 := by
        rcases mul_eq_zero.1 (z f') with h | h
        · exact absurd (abs_eq_zero.1 h) hf'
        · exact h
      apply hx
      funext i
      by_cases hi : i = f
      · exact faceQuad_zero x f' i (by rw [hi]; exact hff.symm) zf'
      · exact faceQuad_zero x f i hi zf
    have : 0 < (|area 0| * faceQuad x 0 + |area 1| * faceQuad x 1 + |area 2| * faceQuad x 2
        + |area 3| * faceQuad x 3) / 24 := by positivity
    linarith

/-- A matrix with positive quadratic form has nonzero leading minors. -/
theorem minors_of_quad (A : Mat4 K) (h : ∀ x : Vec4 K, x ≠ 0 → 0 < quad A x) (k : Nat)
    (hk : k ≤ 4) : leadingMinor A k hk ≠ 0 := by
  intro hz
  obtain ⟨v, hv, hm⟩ := Matrix.exists_mulVec_eq_zero_iff.2 hz
  let x : Vec4 K := fun i => if hi : i.val < k then v ⟨i.val, hi⟩ else 0
  have hx : x ≠ 0 := by
    intro h0
    apply hv
    funext i
    have := congrFun h0 (Fin.castLE hk i)
    simpa [x] using this
  have hq := h x hx
  have hrow : ∀ i, x i * (Matrix.of A).mulVec x i = 0 := by
    intro i
    by_cases hi : i.val < k
    · have := congrFun hm ⟨i.val, hi⟩
      have e : (Matrix.of A).mulVec x i =
          ((Matrix.of A).submatrix (Fin.castLE hk) (Fin.castLE hk)).mulVec v ⟨i.val, hi⟩ := by
        interval_cases k
        · exact absurd hi (Nat.not_lt_zero _)
        all_goals simp [Matrix.mulVec, dotProduct, Fin.sum_univ_succ, x]
      rw [e, this]; simp
    · simp [x, hi]
  rw [quad, Finset.sum_eq_zero (fun i _ => hrow i)] at hq
  exact lt_irrefl _ hq

end Verif.Transport
