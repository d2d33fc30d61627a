import Verif.Refine.TetProps

/-!
# C47: the children tile the parent and cut its faces alike from both sides
-/
set_option linter.unusedSectionVars false
set_option linter.unusedVariables false

namespace Verif.Refine

variable {K : Type} [Field K] [LinearOrder K] [IsStrictOrderedRing K]

/-- The inverse of `up`: weights in child `t` of the point with parent coordinates `b` are
`∑ j, down d t k j * b j`. -/
def down : Fin 3 → Fin 8 → Fin 4 → Fin 4 → Int :=
  ![![![![1, -1, -1, -1], ![0, 2, 0, 0], ![0, 0, 2, 0], ![0, 0, 0, 2]],
      ![![-1, 1, -1, -1], ![2, 0, 0, 0], ![0, 0, 2, 0], ![0, 0, 0, 2]],
      ![![-1, -1, 1, -1], ![2, 0, 0, 0], ![0, 2, 0, 0], ![0, 0, 0, 2]],
      ![![-1, -1, -1, 1], ![2, 0, 0, 0], ![0, 2, 0, 0], ![0, 0, 2, 0]],
      ![![-1, 1, 1, 1], ![0, 2, 0, 0], ![1, -1, 1, -1], ![1, -1, -1, 1]],
      ![![1, -1, 1, 1], ![2, 0, 0, 0], ![-1, 1, 1, -1], ![-1, 1, -1, 1]],
      ![![1, 1, -1, 1], ![1, -1, 1, -1], ![-1, 1, 1, -1], ![0, 0, 0, 2]],
      ![![1, 1, 1, -1], ![1, -1, -1, 1], ![-1, 1, -1, 1], ![0, 0, 2, 0]]],
    ![![![1, -1, -1, -1], ![0, 2, 0, 0], ![0, 0, 2, 0], ![0, 0, 0, 2]],
      ![![-1, 1, -1, -1], ![2, 0, 0, 0], ![0, 0, 2, 0], ![0, 0, 0, 2]],
      ![![-1, -1, 1, -1], ![2, 0, 0, 0], ![0, 2, 0, 0], ![0, 0, 0, 2]],
      ![![-1, -1, -1, 1], ![2, 0, 0, 0], ![0, 2, 0, 0], ![0, 0, 2, 0]],
      ![![-1, 1, 1, 1], ![1, 1, -1, -1], ![0, 0, 2, 0], ![1, -1, -1, 1]],
      ![![1, -1, 1, 1], ![1, 1, -1, -1], ![-1, 1, 1, -1], ![0, 0, 0, 2]],
      ![![1, 1, -1, 1], ![2, 0, 0, 0], ![-1, 1, 1, -1], ![-1, -1, 1, 1]],
      ![![1, 1, 1, -1], ![1, -1, -1, 1], ![0, 2, 0, 0], ![-1, -1, 1, 1]]],
    ![![![1, -1, -1, -1], ![0, 2, 0, 0], ![0, 0, 2, 0], ![0, 0, 0, 2]],
      ![![-1, 1, -1, -1], ![2, 0, 0, 0], ![0, 0, 2, 0], ![0, 0, 0, 2]],
      ![![-1, -1, 1, -1], ![2, 0, 0, 0], ![0, 2, 0, 0], ![0, 0, 0, 2]],
      ![![-1, -1, -1, 1], ![2, 0, 0, 0], ![0, 2, 0, 0], ![0, 0, 2, 0]],
      ![![-1, 1, 1, 1], ![1, 1, -1, -1], ![1, -1, 1, -1], ![0, 0, 0, 2]],
      ![![1, -1, 1, 1], ![1, 1, -1, -1], ![0, 0, 2, 0], ![-1, 1, -1, 1]],
      ![![1, 1, -1, 1], ![1, -1, 1, -1], ![0, 2, 0, 0], ![-1, -1, 1, 1]],
      ![![1, 1, 1, -1], ![2, 0, 0, 0], ![-1, 1, -1, 1], ![-1, -1, 1, 1]]]]

theorem down_inv (d : Fin 3) (t : Fin 8) (i j : Fin 4) :
    bw (lbl d t 0) i * down d t 0 j + bw (lbl d t 1) i * down d t 1 j + bw (lbl d t 2) i * down d t 2 j
      + bw (lbl d t 3) i * down d t 3 j = if i = j then 2 else 0 := by
  revert d t i j; decide +kernel

theorem up_eq (d : Fin 3) (t : Fin 8) (w : Fin 4 → K) (i : Fin 4) :
    up d t w i = (w 0 * bw (lbl d t 0) i + w 1 * bw (lbl d t 1) i + w 2 * bw (lbl d t 2) i + w 3 * bw (lbl d t 3) i) / 2 := by
  simp only [up, bw]; push_cast; rfl

/-- The weights in child `t`. -/
def wts (d : Fin 3) (t : Fin 8) (b : Fin 4 → K) (k : Fin 4) : K :=
  down d t k 0 * b 0 + down d t k 1 * b 1 + down d t k 2 * b 2 + down d t k 3 * b 3

theorem up_wts (d : Fin 3) (t : Fin 8) (b : Fin 4 → K) : up d t (wts d t b) = b := by
  funext i
  have h (j : Fin 4) := congrArg (fun z : Int => (z : K)) (down_inv d t i j)
  have h0 := h 0; have h1 := h 1; have h2 := h 2; have h3 := h 3
  push_cast at h0 h1 h2 h3
  rw [up_eq]
  simp only [wts]
  have hb : b i = (if i = 0 then 1 else 0) * b 0 + (if i = 1 then 1 else 0) * b 1
      + (if i = 2 then 1 else 0) * b 2 + (if i = 3 then 1 else 0) * b 3 := by
    fin_cases i <;> simp
  have e (j : Fin 4) : (if i = j then (2 : K) else 0) = 2 * (if i = j then 1 else 0) := by split_ifs <;> simp
  rw [e] at h0 h1 h2 h3
  rw [hb]
  linear_combination (b 0 / 2) * h0 + (b 1 / 2) * h1 + (b 2 / 2) * h2 + (b 3 / 2) * h3

theorem wts_nn_0_0 (b : Fin 4 → K) (h0 : 0 ≤ ((1 : Int) : K) * b 0 + ((-1 : Int) : K) * b 1 + ((-1 : Int) : K) * b 2 + ((-1 : Int) : K) * b 3)
    (h1 : 0 ≤ ((0 : Int) : K) * b 0 + ((2 : Int) : K) * b 1 + ((0 : Int) : K) * b 2 + ((0 : Int) : K) * b 3)
    (h2 : 0 ≤ ((0 : Int) : K) * b 0 + ((0 : Int) : K) * b 1 + ((2 : Int) : K) * b 2 + ((0 : Int) : K) * b 3)
    (h3 : 0 ≤ ((0 : Int) : K) * b 0 + ((0 : Int) : K) * b 1 + ((0 : Int) : K) * b 2 + ((2 : Int) : K) * b 3) :
    ∀ k, 0 ≤ wts 0 0 b k := by
  intro k
  match k with
  | 0 => exact h0
  | 1 => exact h1
  | 2 => exact h2
  | 3 => exact h3

theorem wts_nn_0_1 (b : Fin 4 → K) (h0 : 0 ≤ ((-1 : Int) : K) * b 0 + ((1 : Int) : K) * b 1 + ((-1 : Int) : K) * b 2 + ((-1 : Int) : K) * b 3)
    (h1 : 0 ≤ ((2 : Int) : K) * b 0 + ((0 : Int) : K) * b 1 + ((0 : Int) : K) * b 2 + ((0 : Int) : K) * b 3)
    (h2 : 0 ≤ ((0 : Int) : K) * b 0 + ((0 : Int) : K) * b 1 + ((2 : Int) : K) * b 2 + ((0 : Int) : K) * b 3)
    (h3 : 0 ≤ ((0 : Int) : K) * b 0 + ((0 : Int) : K) * b 1 + ((0 : Int) : K) * b 2 + ((2 : Int) : K) * b 3) :
    ∀ k, 0 ≤ wts 0 1 b k := by
  intro k
  match k with
  | 0 => exact h0
  | 1 => exact h1
  | 2 => exact h2
  | 3 => exact h3

theorem wts_nn_0_2 (b : Fin 4 → K) (h0 : 0 ≤ ((-1 : Int) : K) * b 0 + ((-1 : Int) : K) * b 1 + ((1 : Int) : K) * b 2 + ((-1 : Int) : K) * b 3)
    (h1 : 0 ≤ ((2 : Int) : K) * b 0 + ((0 : Int) : K) * b 1 + ((0 : Int) : K) * b 2 + ((0 : Int) : K) * b 3)
    (h2 : 0 ≤ ((0 : Int) : K) * b 0 + ((2 : Int) : K) * b 1 + ((0 : Int) : K) * b 2 + ((0 : Int) : K) * b 3)
    (h3 : 0 ≤ ((0 : Int) : K) * b 0 + ((0 : Int) : K) * b 1 + ((0 : Int) : K) * b 2 + ((2 : Int) : K) * b 3) :
    ∀ k, 0 ≤ wts 0 2 b k := by
  intro k
  match k with
  | 0 => exact h0
  | 1 => exact h1
  | 2 => exact h2
  | 3 => exact h3

theorem wts_nn_0_3 (b : Fin 4 → K) (h0 : 0 ≤ ((-1 : Int) : K) * b 0 + ((-1 : Int) : K) * b 1 + ((-1 : Int) : K) * b 2 + ((1 : Int) : K) * b 3)
    (h1 : 0 ≤ ((2 : Int) : K) * b 0 + ((0 : Int) : K) * b 1 + ((0 : Int) : K) * b 2 + ((0 : Int) : K) * b 3)
    (h2 : 0 ≤ ((0 : Int) : K) * b 0 + ((2 : Int) : K) * b 1 + ((0 : Int) : K) * b 2 + ((0 : Int) : K) * b 3)
    (h3 : 0 ≤ ((0 : Int) : K) * b 0 + ((0 : Int) : K) * b 1 + ((2 : Int) : K) * b 2 + ((0 : Int) : K) * b 3) :
    ∀ k, 0 ≤ wts 0 3 b k := by
  intro k
  match k with
  | 0 => exact h0
  | 1 => exact h1
  | 2 => exact h2
  | 3 => exact h3

theorem wts_nn_0_4 (b : Fin 4 → K) (h0 : 0 ≤ ((-1 : Int) : K) * b 0 + ((1 : Int) : K) * b 1 + ((1 : Int) : K) * b 2 + ((1 : Int) : K) * b 3)
    (h1 : 0 ≤ ((0 : Int) : K) * b 0 + ((2 : Int) : K) * b 1 + ((0 : Int) : K) * b 2 + ((0 : Int) : K) * b 3)
    (h2 : 0 ≤ ((1 : Int) : K) * b 0 + ((-1 : Int) : K) * b 1 + ((1 : Int) : K) * b 2 + ((-1 : Int) : K) * b 3)
    (h3 : 0 ≤ ((1 : Int) : K) * b 0 + ((-1 : Int) : K) * b 1 + ((-1 : Int) : K) * b 2 + ((1 : Int) : K) * b 3) :
    ∀ k, 0 ≤ wts 0 4 b k := by
  intro k
  match k with
  | 0 => exact h0
  | 1 => exact h1
  | 2 => exact h2
  | 3 => exact h3

theorem wts_nn_0_5 (b : Fin 4 → K) (h0 : 0 ≤ ((1 : Int) : K) * b 0 + ((-1 : Int) : K) * b 1 + ((1 : Int) : K) * b 2 + ((1 : Int) : K) * b 3)
    (h1 : 0 ≤ ((2 : Int) : K) * b 0 + ((0 : Int) : K) * b 1 + ((0 : Int) : K) * b 2 + ((0 : Int) : K) * b 3)
    (h2 : 0 ≤ ((-1 : Int) : K) * b 0 + ((1 : Int) : K) * b 1 + ((1 : Int) : K) * b 2 + ((-1 : Int) : K) * b 3)
    (h3 : 0 ≤ ((-1 : Int) : K) * b 0 + ((1 : Int) : K) * b 1 + ((-1 : Int) : K) * b 2 + ((1 : Int) : K) * b 3) :
    ∀ k, 0 ≤ wts 0 5 b k := by
  intro k
  match k with
  | 0 => exact h0
  | 1 => exact h1
  | 2 => exact h2
  | 3 => exact h3

theorem wts_nn_0_6 (b : Fin 4 → K) (h0 : 0 ≤ ((1 : Int) : K) * b 0 + ((1 : Int) : K) * b 1 + ((-1 : Int) : K) * b 2 + ((1 : Int) : K) * b 3)
    (h1 : 0 ≤ ((1 : Int) : K) * b 0 + ((-1 : Int) : K) * b 1 + ((1 : Int) : K) * b 2 + ((-1 : Int) : K) * b 3)
    (h2 : 0 ≤ ((-1 : Int) : K) * b 0 + ((1 : Int) : K) * b 1 + ((1 : Int) : K) * b 2 + ((-1 : Int) : K) * b 3)
    (h3 : 0 ≤ ((0 : Int) : K) * b 0 + ((0 : Int) : K) * b 1 + ((0 : Int) : K) * b 2 + ((2 : Int) : K) * b 3) :
    ∀ k, 0 ≤ wts 0 6 b k := by
  intro k
  match k with
  | 0 => exact h0
  | 1 => exact h1
  | 2 => exact h2
  | 3 => exact h3

theorem wts_nn_0_7 (b : Fin 4 → K) (h0 : 0 ≤ ((1 : Int) : K) * b 0 + ((1 : Int) : K) * b 1 + ((1 : Int) : K) * b 2 + ((-1 : Int) : K) * b 3)
    (h1 : 0 ≤ ((1 : Int) : K) * b 0 + ((-1 : Int) : K) * b 1 + ((-1 : Int) : K) * b 2 + ((1 : Int) : K) * b 3)
    (h2 : 0 ≤ ((-1 : Int) : K) * b 0 + ((1 : Int) : K) * b 1 + ((-1 : Int) : K) * b 2 + ((1 : Int) : K) * b 3)
    (h3 : 0 ≤ ((0 : Int) : K) * b 0 + ((0 : Int) : K) * b 1 + ((2 : Int) : K) * b 2 + ((0 : Int) : K) * b 3) :
    ∀ k, 0 ≤ wts 0 7 b k := by
  intro k
  match k with
  | 0 => exact h0
  | 1 => exact h1
  | 2 => exact h2
  | 3 => exact h3

theorem wts_nn_1_0 (b : Fin 4 → K) (h0 : 0 ≤ ((1 : Int) : K) * b 0 + ((-1 : Int) : K) * b 1 + ((-1 : Int) : K) * b 2 + ((-1 : Int) : K) * b 3)
    (h1 : 0 ≤ ((0 : Int) : K) * b 0 + ((2 : Int) : K) * b 1 + ((0 : Int) : K) * b 2 + ((0 : Int) : K) * b 3)
    (h2 : 0 ≤ ((0 : Int) : K) * b 0 + ((0 : Int) : K) * b 1 + ((2 : Int) : K) * b 2 + ((0 : Int) : K) * b 3)
    (h3 : 0 ≤ ((0 : Int) : K) * b 0 + ((0 : Int) : K) * b 1 + ((0 : Int) : K) * b 2 + ((2 : Int) : K) * b 3) :
    ∀ k, 0 ≤ wts 1 0 b k := by
  intro k
  match k with
  | 0 => exact h0
  | 1 => exact h1
  | 2 => exact h2
  | 3 => exact h3

theorem wts_nn_1_1 (b : Fin 4 → K) (h0 : 0 ≤ ((-1 : Int) : K) * b 0 + ((1 : Int) : K) * b 1 + ((-1 : Int) : K) * b 2 + ((-1 : Int) : K) * b 3)
    (h1 : 0 ≤ ((2 : Int) : K) * b 0 + ((0 : Int) : K) * b 1 + ((0 : Int) : K) * b 2 + ((0 : Int) : K) * b 3)
    (h2 : 0 ≤ ((0 : Int) : K) * b 0 + ((0 : Int) : K) * b 1 + ((2 : Int) : K) * b 2 + ((0 : Int) : K) * b 3)
    (h3 : 0 ≤ ((0 : Int) : K) * b 0 + ((0 : Int) : K) * b 1 + ((0 : Int) : K) * b 2 + ((2 : Int) : K) * b 3) :
    ∀ k, 0 ≤ wts 1 1 b k := by
  intro k
  match k with
  | 0 => exact h0
  | 1 => exact h1
  | 2 => exact h2
  | 3 => exact h3

theorem wts_nn_1_2 (b : Fin 4 → K) (h0 : 0 ≤ ((-1 : Int) : K) * b 0 + ((-1 : Int) : K) * b 1 + ((1 : Int) : K) * b 2 + ((-1 : Int) : K) * b 3)
    (h1 : 0 ≤ ((2 : Int) : K) * b 0 + ((0 : Int) : K) * b 1 + ((0 : Int) : K) * b 2 + ((0 : Int) : K) * b 3)
    (h2 : 0 ≤ ((0 : Int) : K) * b 0 + ((2 : Int) : K) * b 1 + ((0 : Int) : K) * b 2 + ((0 : Int) : K) * b 3)
    (h3 : 0 ≤ ((0 : Int) : K) * b 0 + ((0 : Int) : K) * b 1 + ((0 : Int) : K) * b 2 + ((2 : Int) : K) * b 3) :
    ∀ k, 0 ≤ wts 1 2 b k := by
  intro k
  match k with
  | 0 => exact h0
  | 1 => exact h1
  | 2 => exact h2
  | 3 => exact h3

theorem wts_nn_1_3 (b : Fin 4 → K) (h0 : 0 ≤ ((-1 : Int) : K) * b 0 + ((-1 : Int) : K) * b 1 + ((-1 : Int) : K) * b 2 + ((1 : Int) : K) * b 3)
    (h1 : 0 ≤ ((2 : Int) : K) * b 0 + ((0 : Int) : K) * b 1 + ((0 : Int) : K) * b 2 + ((0 : Int) : K) * b 3)
    (h2 : 0 ≤ ((0 : Int) : K) * b 0 + ((2 : Int) : K) * b 1 + ((0 : Int) : K) * b 2 + ((0 : Int) : K) * b 3)
    (h3 : 0 ≤ ((0 : Int) : K) * b 0 + ((0 : Int) : K) * b 1 + ((2 : Int) : K) * b 2 + ((0 : Int) : K) * b 3) :
    ∀ k, 0 ≤ wts 1 3 b k := by
  intro k
  match k with
  | 0 => exact h0
  | 1 => exact h1
  | 2 => exact h2
  | 3 => exact h3

theorem wts_nn_1_4 (b : Fin 4 → K) (h0 : 0 ≤ ((-1 : Int) : K) * b 0 + ((1 : Int) : K) * b 1 + ((1 : Int) : K) * b 2 + ((1 : Int) : K) * b 3)
    (h1 : 0 ≤ ((1 : Int) : K) * b 0 + ((1 : Int) : K) * b 1 + ((-1 : Int) : K) * b 2 + ((-1 : Int) : K) * b 3)
    (h2 : 0 ≤ ((0 : Int) : K) * b 0 + ((0 : Int) : K) * b 1 + ((2 : Int) : K) * b 2 + ((0 : Int) : K) * b 3)
    (h3 : 0 ≤ ((1 : Int) : K) * b 0 + ((-1 : Int) : K) * b 1 + ((-1 : Int) : K) * b 2 + ((1 : Int) : K) * b 3) :
    ∀ k, 0 ≤ wts 1 4 b k := by
  intro k
  match k with
  | 0 => exact h0
  | 1 => exact h1
  | 2 => exact h2
  | 3 => exact h3

theorem wts_nn_1_5 (b : Fin 4 → K) (h0 : 0 ≤ ((1 : Int) : K) * b 0 + ((-1 : Int) : K) * b 1 + ((1 : Int) : K) * b 2 + ((1 : Int) : K) * b 3)
    (h1 : 0 ≤ ((1 : Int) : K) * b 0 + ((1 : Int) : K) * b 1 + ((-1 : Int) : K) * b 2 + ((-1 : Int) : K) * b 3)
    (h2 : 0 ≤ ((-1 : Int) : K) * b 0 + ((1 : Int) : K) * b 1 + ((1 : Int) : K) * b 2 + ((-1 : Int) : K) * b 3)
    (h3 : 0 ≤ ((0 : Int) : K) * b 0 + ((0 : Int) : K) * b 1 + ((0 : Int) : K) * b 2 + ((2 : Int) : K) * b 3) :
    ∀ k, 0 ≤ wts 1 5 b k := by
  intro k
  match k with
  | 0 => exact h0
  | 1 => exact h1
  | 2 => exact h2
  | 3 => exact h3

theorem wts_nn_1_6 (b : Fin 4 → K) (h0 : 0 ≤ ((1 : Int) : K) * b 0 + ((1 : Int) : K) * b 1 + ((-1 : Int) : K) * b 2 + ((1 : Int) : K) * b 3)
    (h1 : 0 ≤ ((2 : Int) : K) * b 0 + ((0 : Int) : K) * b 1 + ((0 : Int) : K) * b 2 + ((0 : Int) : K) * b 3)
    (h2 : 0 ≤ ((-1 : Int) : K) * b 0 + ((1 : Int) : K) * b 1 + ((1 : Int) : K) * b 2 + ((-1 : Int) : K) * b 3)
    (h3 : 0 ≤ ((-1 : Int) : K) * b 0 + ((-1 : Int) : K) * b 1 + ((1 : Int) : K) * b 2 + ((1 : Int) : K) * b 3) :
    ∀ k, 0 ≤ wts 1 6 b k := by
  intro k
  match k with
  | 0 => exact h0
  | 1 => exact h1
  | 2 => exact h2
  | 3 => exact h3

theorem wts_nn_1_7 (b : Fin 4 → K) (h0 : 0 ≤ ((1 : Int) : K) * b 0 + ((1 : Int) : K) * b 1 + ((1 : Int) : K) * b 2 + ((-1 : Int) : K) * b 3)
    (h1 : 0 ≤ ((1 : Int) : K) * b 0 + ((-1 : Int) : K) * b 1 + ((-1 : Int) : K) * b 2 + ((1 : Int) : K) * b 3)
    (h2 : 0 ≤ ((0 : Int) : K) * b 0 + ((2 : Int) : K) * b 1 + ((0 : Int) : K) * b 2 + ((0 : Int) : K) * b 3)
    (h3 : 0 ≤ ((-1 : Int) : K) * b 0 + ((-1 : Int) : K) * b 1 + ((1 : Int) : K) * b 2 + ((1 : Int) : K) * b 3) :
    ∀ k, 0 ≤ wts 1 7 b k := by
  intro k
  match k with
  | 0 => exact h0
  | 1 => exact h1
  | 2 => exact h2
  | 3 => exact h3

theorem wts_nn_2_0 (b : Fin 4 → K) (h0 : 0 ≤ ((1 : Int) : K) * b 0 + ((-1 : Int) : K) * b 1 + ((-1 : Int) : K) * b 2 + ((-1 : Int) : K) * b 3)
    (h1 : 0 ≤ ((0 : Int) : K) * b 0 + ((2 : Int) : K) * b 1 + ((0 : Int) : K) * b 2 + ((0 : Int) : K) * b 3)
    (h2 : 0 ≤ ((0 : Int) : K) * b 0 + ((0 : Int) : K) * b 1 + ((2 : Int) : K) * b 2 + ((0 : Int) : K) * b 3)
    (h3 : 0 ≤ ((0 : Int) : K) * b 0 + ((0 : Int) : K) * b 1 + ((0 : Int) : K) * b 2 + ((2 : Int) : K) * b 3) :
    ∀ k, 0 ≤ wts 2 0 b k := by
  intro k
  match k with
  | 0 => exact h0
  | 1 => exact h1
  | 2 => exact h2
  | 3 => exact h3

theorem wts_nn_2_1 (b : Fin 4 → K) (h0 : 0 ≤ ((-1 : Int) : K) * b 0 + ((1 : Int) : K) * b 1 + ((-1 : Int) : K) * b 2 + ((-1 : Int) : K) * b 3)
    (h1 : 0 ≤ ((2 : Int) : K) * b 0 + ((0 : Int) : K) * b 1 + ((0 : Int) : K) * b 2 + ((0 : Int) : K) * b 3)
    (h2 : 0 ≤ ((0 : Int) : K) * b 0 + ((0 : Int) : K) * b 1 + ((2 : Int) : K) * b 2 + ((0 : Int) : K) * b 3)
    (h3 : 0 ≤ ((0 : Int) : K) * b 0 + ((0 : Int) : K) * b 1 + ((0 : Int) : K) * b 2 + ((2 : Int) : K) * b 3) :
    ∀ k, 0 ≤ wts 2 1 b k := by
  intro k
  match k with
  | 0 => exact h0
  | 1 => exact h1
  | 2 => exact h2
  | 3 => exact h3

theorem wts_nn_2_2 (b : Fin 4 → K) (h0 : 0 ≤ ((-1 : Int) : K) * b 0 + ((-1 : Int) : K) * b 1 + ((1 : Int) : K) * b 2 + ((-1 : Int) : K) * b 3)
    (h1 : 0 ≤ ((2 : Int) : K) * b 0 + ((0 : Int) : K) * b 1 + ((0 : Int) : K) * b 2 + ((0 : Int) : K) * b 3)
    (h2 : 0 ≤ ((0 : Int) : K) * b 0 + ((2 : Int) : K) * b 1 + ((0 : Int) : K) * b 2 + ((0 : Int) : K) * b 3)
    (h3 : 0 ≤ ((0 : Int) : K) * b 0 + ((0 : Int) : K) * b 1 + ((0 : Int) : K) * b 2 + ((2 : Int) : K) * b 3) :
    ∀ k, 0 ≤ wts 2 2 b k := by
  intro k
  match k with
  | 0 => exact h0
  | 1 => exact h1
  | 2 => exact h2
  | 3 => exact h3

theorem wts_nn_2_3 (b : Fin 4 → K) (h0 : 0 ≤ ((-1 : Int) : K) * b 0 + ((-1 : Int) : K) * b 1 + ((-1 : Int) : K) * b 2 + ((1 : Int) : K) * b 3)
    (h1 : 0 ≤ ((2 : Int) : K) * b 0 + ((0 : Int) : K) * b 1 + ((0 : Int) : K) * b 2 + ((0 : Int) : K) * b 3)
    (h2 : 0 ≤ ((0 : Int) : K) * b 0 + ((2 : Int) : K) * b 1 + ((0 : Int) : K) * b 2 + ((0 : Int) : K) * b 3)
    (h3 : 0 ≤ ((0 : Int) : K) * b 0 + ((0 : Int) : K) * b 1 + ((2 : Int) : K) * b 2 + ((0 : Int) : K) * b 3) :
    ∀ k, 0 ≤ wts 2 3 b k := by
  intro k
  match k with
  | 0 => exact h0
  | 1 => exact h1
  | 2 => exact h2
  | 3 => exact h3

theorem wts_nn_2_4 (b : Fin 4 → K) (h0 : 0 ≤ ((-1 : Int) : K) * b 0 + ((1 : Int) : K) * b 1 + ((1 : Int) : K) * b 2 + ((1 : Int) : K) * b 3)
    (h1 : 0 ≤ ((1 : Int) : K) * b 0 + ((1 : Int) : K) * b 1 + ((-1 : Int) : K) * b 2 + ((-1 : Int) : K) * b 3)
    (h2 : 0 ≤ ((1 : Int) : K) * b 0 + ((-1 : Int) : K) * b 1 + ((1 : Int) : K) * b 2 + ((-1 : Int) : K) * b 3)
    (h3 : 0 ≤ ((0 : Int) : K) * b 0 + ((0 : Int) : K) * b 1 + ((0 : Int) : K) * b 2 + ((2 : Int) : K) * b 3) :
    ∀ k, 0 ≤ wts 2 4 b k := by
  intro k
  match k with
  | 0 => exact h0
  | 1 => exact h1
  | 2 => exact h2
  | 3 => exact h3

theorem wts_nn_2_5 (b : Fin 4 → K) (h0 : 0 ≤ ((1 : Int) : K) * b 0 + ((-1 : Int) : K) * b 1 + ((1 : Int) : K) * b 2 + ((1 : Int) : K) * b 3)
    (h1 : 0 ≤ ((1 : Int) : K) * b 0 + ((1 : Int) : K) * b 1 + ((-1 : Int) : K) * b 2 + ((-1 : Int) : K) * b 3)
    (h2 : 0 ≤ ((0 : Int) : K) * b 0 + ((0 : Int) : K) * b 1 + ((2 : Int) : K) * b 2 + ((0 : Int) : K) * b 3)
    (h3 : 0 ≤ ((-1 : Int) : K) * b 0 + ((1 : Int) : K) * b 1 + ((-1 : Int) : K) * b 2 + ((1 : Int) : K) * b 3) :
    ∀ k, 0 ≤ wts 2 5 b k := by
  intro k
  match k with
  | 0 => exact h0
  | 1 => exact h1
  | 2 => exact h2
  | 3 => exact h3

theorem wts_nn_2_6 (b : Fin 4 → K) (h0 : 0 ≤ ((1 : Int) : K) * b 0 + ((1 : Int) : K) * b 1 + ((-1 : Int) : K) * b 2 + ((1 : Int) : K) * b 3)
    (h1 : 0 ≤ ((1 : Int) : K) * b 0 + ((-1 : Int) : K) * b 1 + ((1 : Int) : K) * b 2 + ((-1 : Int) : K) * b 3)
    (h2 : 0 ≤ ((0 : Int) : K) * b 0 + ((2 : Int) : K) * b 1 + ((0 : Int) : K) * b 2 + ((0 : Int) : K) * b 3)
    (h3 : 0 ≤ ((-1 : Int) : K) * b 0 + ((-1 : Int) : K) * b 1 + ((1 : Int) : K) * b 2 + ((1 : Int) : K) * b 3) :
    ∀ k, 0 ≤ wts 2 6 b k := by
  intro k
  match k with
  | 0 => exact h0
  | 1 => exact h1
  | 2 => exact h2
  | 3 => exact h3

theorem wts_nn_2_7 (b : Fin 4 → K) (h0 : 0 ≤ ((1 : Int) : K) * b 0 + ((1 : Int) : K) * b 1 + ((1 : Int) : K) * b 2 + ((-1 : Int) : K) * b 3)
    (h1 : 0 ≤ ((2 : Int) : K) * b 0 + ((0 : Int) : K) * b 1 + ((0 : Int) : K) * b 2 + ((0 : Int) : K) * b 3)
    (h2 : 0 ≤ ((-1 : Int) : K) * b 0 + ((1 : Int) : K) * b 1 + ((-1 : Int) : K) * b 2 + ((1 : Int) : K) * b 3)
    (h3 : 0 ≤ ((-1 : Int) : K) * b 0 + ((-1 : Int) : K) * b 1 + ((1 : Int) : K) * b 2 + ((1 : Int) : K) * b 3) :
    ∀ k, 0 ≤ wts 2 7 b k := by
  intro k
  match k with
  | 0 => exact h0
  | 1 => exact h1
  | 2 => exact h2
  | 3 => exact h3

theorem wts_cover (d : Fin 3) (b : Fin 4 → K) (hb : ∀ i, 0 ≤ b i) : ∃ t, ∀ k, 0 ≤ wts d t b k := by
  have b0 := hb 0; have b1 := hb 1; have b2 := hb 2; have b3 := hb 3
  by_cases g0 : 0 ≤ b 0 - b 1 - b 2 - b 3
  · refine ⟨0, ?_⟩
    match d with
    | 0 => apply wts_nn_0_0 <;> push_cast <;> linarith
    | 1 => apply wts_nn_1_0 <;> push_cast <;> linarith
    | 2 => apply wts_nn_2_0 <;> push_cast <;> linarith
  by_cases g1 : 0 ≤ b 1 - b 0 - b 2 - b 3
  · refine ⟨1, ?_⟩
    match d with
    | 0 => apply wts_nn_0_1 <;> push_cast <;> linarith
    | 1 => apply wts_nn_1_1 <;> push_cast <;> linarith
    | 2 => apply wts_nn_2_1 <;> push_cast <;> linarith
  by_cases g2 : 0 ≤ b 2 - b 0 - b 1 - b 3
  · refine ⟨2, ?_⟩
    match d with
    | 0 => apply wts_nn_0_2 <;> push_cast <;> linarith
    | 1 => apply wts_nn_1_2 <;> push_cast <;> linarith
    | 2 => apply wts_nn_2_2 <;> push_cast <;> linarith
  by_cases g3 : 0 ≤ b 3 - b 0 - b 1 - b 2
  · refine ⟨3, ?_⟩
    match d with
    | 0 => apply wts_nn_0_3 <;> push_cast <;> linarith
    | 1 => apply wts_nn_1_3 <;> push_cast <;> linarith
    | 2 => apply wts_nn_2_3 <;> push_cast <;> linarith
  match d with
  | 0 =>
    rcases le_total 0 (b 0 - b 1 + b 2 - b 3) with p | p <;> rcases le_total 0 (b 0 - b 1 - b 2 + b 3) with q | q
    · refine ⟨4, ?_⟩; apply wts_nn_0_4 <;> push_cast <;> linarith
    · refine ⟨6, ?_⟩; apply wts_nn_0_6 <;> push_cast <;> linarith
    · refine ⟨7, ?_⟩; apply wts_nn_0_7 <;> push_cast <;> linarith
    · refine ⟨5, ?_⟩; apply wts_nn_0_5 <;> push_cast <;> linarith
  | 1 =>
    rcases le_total 0 (b 0 + b 1 - b 2 - b 3) with p | p <;> rcases le_total 0 (b 0 - b 1 - b 2 + b 3) with q | q
    · refine ⟨4, ?_⟩; apply wts_nn_1_4 <;> push_cast <;> linarith
    · refine ⟨5, ?_⟩; apply wts_nn_1_5 <;> push_cast <;> linarith
    · refine ⟨7, ?_⟩; apply wts_nn_1_7 <;> push_cast <;> linarith
    · refine ⟨6, ?_⟩; apply wts_nn_1_6 <;> push_cast <;> linarith
  | 2 =>
    rcases le_total 0 (b 0 + b 1 - b 2 - b 3) with p | p <;> rcases le_total 0 (b 0 - b 1 + b 2 - b 3) with q | q
    · refine ⟨4, ?_⟩; apply wts_nn_2_4 <;> push_cast <;> linarith
    · refine ⟨5, ?_⟩; apply wts_nn_2_5 <;> push_cast <;> linarith
    · refine ⟨6, ?_⟩; apply wts_nn_2_6 <;> push_cast <;> linarith
    · refine ⟨7, ?_⟩; apply wts_nn_2_7 <;> push_cast <;> linarith

/-- Every point of the parent is in a child. -/
theorem children_cover (x : Tet K) {p : Pt K} (h : InTet x p) : ∃ t, InTet (refineTet x t) p := by
  obtain ⟨b, h0, h1, rfl⟩ := h
  obtain ⟨t, ht⟩ := wts_cover (minIndex x) b h0
  refine ⟨t, wts (minIndex x) t b, ht, ?_, ?_⟩
  · rw [← up_sum (minIndex x) t, up_wts, h1]
  · rw [comb_up, up_wts]

/-- Candidates for a plane between two children. -/
def seps : List (Fin 4 → Int) :=
  [![1, -1, -1, -1], ![-1, 1, -1, -1], ![-1, -1, 1, -1], ![-1, -1, -1, 1],
   ![-1, 1, 1, 1], ![1, -1, 1, 1], ![1, 1, -1, 1], ![1, 1, 1, -1],
   ![1, 1, -1, -1], ![-1, -1, 1, 1], ![1, -1, 1, -1], ![-1, 1, -1, 1], ![1, -1, -1, 1], ![-1, 1, 1, -1]]

/-- Which side of the plane `f` the point with name `l` is on. -/
def side (f : Fin 4 → Int) (l : Fin 4 × Fin 4) : Int := f 0 * bw l 0 + f 1 * bw l 1 + f 2 * bw l 2 + f 3 * bw l 3

theorem separated (d : Fin 3) (t s : Fin 8) (h : t ≠ s) : ∃ f ∈ seps, (∀ k, 0 ≤ side f (lbl d t k)) ∧
    (∃ k, 0 < side f (lbl d t k)) ∧ ∀ k, side f (lbl d s k) ≤ 0 := by
  revert d t s; decide +kernel

theorem side_up (f : Fin 4 → Int) (d : Fin 3) (t : Fin 8) (w : Fin 4 → K) :
    (f 0 : K) * up d t w 0 + f 1 * up d t w 1 + f 2 * up d t w 2 + f 3 * up d t w 3 =
    (w 0 * side f (lbl d t 0) + w 1 * side f (lbl d t 1) + w 2 * side f (lbl d t 2) + w 3 * side f (lbl d t 3)) / 2 := by
  simp only [up_eq, side]; push_cast; ring

/-- No inner point of a child is in another child. -/
theorem children_disjoint {x : Tet K} (hx : vol6 x ≠ 0) {t s : Fin 8} {p : Pt K} (h : Inside (refineTet x t) p)
    (h' : InTet (refineTet x s) p) : t = s := by
  by_contra hts
  obtain ⟨w, w0, w1, rfl⟩ := h
  obtain ⟨v, v0, v1, e⟩ := h'
  rw [comb_up, comb_up] at e
  have e' := comb_inj hx (by rw [up_sum, up_sum, w1, v1]) e
  obtain ⟨f, -, f1, ⟨k, f2⟩, f3⟩ := separated (minIndex x) t s hts
  have a := side_up f (minIndex x) t w
  have b := side_up f (minIndex x) s v
  rw [e', b] at a
  have p1 (k : Fin 4) : 0 ≤ w k * (side f (lbl (minIndex x) t k) : K) := mul_nonneg (w0 k).le (by exact_mod_cast f1 k)
  have p2 : 0 < w k * (side f (lbl (minIndex x) t k) : K) := mul_pos (w0 k) (by exact_mod_cast f2)
  have p3 (k : Fin 4) : v k * (side f (lbl (minIndex x) s k) : K) ≤ 0 :=
    mul_nonpos_of_nonneg_of_nonpos (v0 k) (by exact_mod_cast f3 k)
  have q0 := p1 0; have q1 := p1 1; have q2 := p1 2; have q3 := p1 3
  have r0 := p3 0; have r1 := p3 1; have r2 := p3 2; have r3 := p3 3
  fin_cases k <;> simp only [Fin.zero_eta, Fin.mk_one, Fin.reduceFinMk] at p2 <;> linarith

end Verif.Refine
