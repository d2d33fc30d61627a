import Mathlib.Algebra.Order.Field.Basic
import Mathlib.Algebra.Order.AbsoluteValue.Basic

/-!
# Transport: the within-cell solve

Transcription of `src/Transport.cc`.

* `double` is an element of an arbitrary linearly ordered field `K`: rounding is not modelled.
* A C array is a function from its index type; an assignment is `set1`/`set2`; loops are folds
  over the same index sequence.
* A division by zero (and a failing `Assert`) is the outcome `none`.
-/
namespace Verif.Transport

variable {K : Type*} [Field K] [LinearOrder K] [IsStrictOrderedRing K]

/-- `double x[4]`. -/
abbrev Vec4 (K : Type*) := Fin 4 → K
/-- `double A[4][4]`; first index is the row. -/
abbrev Mat4 (K : Type*) := Fin 4 → Fin 4 → K

/-- Assignment `x[i] = v`. -/
def set1 {K : Type*} (x : Vec4 K) (i : Fin 4) (v : K) : Vec4 K := fun k => if k = i then v else x k
/-- Assignment `A[i][j] = v`. -/
def set2 {K : Type*} (A : Mat4 K) (i j : Fin 4) (v : K) : Mat4 K :=
  fun k l => if k = i ∧ l = j then v else A k l

/-! ## Assembly -/

/-- `calcSource` (src/Transport.cc:58-72). The four sources of the group are the argument `q`. -/
def calcSource (volume : K) (q : Vec4 K) : Vec4 K := fun i =>
  match i with
  | 0 => volume / 20 * (2 * q 0 + q 1 + q 2 + q 3)
  | 1 => volume / 20 * (q 0 + 2 * q 1 + q 2 + q 3)
  | 2 => volume / 20 * (q 0 + q 1 + 2 * q 2 + q 3)
  | 3 => volume / 20 * (q 0 + q 1 + q 2 + 2 * q 3)

/-- `calcVolumeIntegrals` (src/Transport.cc:79-103), the sixteen assignments in order. -/
def calcVolumeIntegrals (volume : K) (area : Vec4 K) (sigma : K) : Mat4 K := fun i j =>
  match i, j with
  | 0, 0 => area 0 / 12 + 2 * sigma * volume / 20
  | 0, 1 => area 0 / 12 + 1 * sigma * volume / 20
  | 0, 2 => area 0 / 12 + 1 * sigma * volume / 20
  | 0, 3 => area 0 / 12 + 1 * sigma * volume / 20
  | 1, 0 => area 1 / 12 + 1 * sigma * volume / 20
  | 1, 1 => area 1 / 12 + 2 * sigma * volume / 20
  | 1, 2 => area 1 / 12 + 1 * sigma * volume / 20
  | 1, 3 => area 1 / 12 + 1 * sigma * volume / 20
  | 2, 0 => area 2 / 12 + 1 * sigma * volume / 20
  | 2, 1 => area 2 / 12 + 1 * sigma * volume / 20
  | 2, 2 => area 2 / 12 + 2 * sigma * volume / 20
  | 2, 3 => area 2 / 12 + 1 * sigma * volume / 20
  | 3, 0 => area 3 / 12 + 1 * sigma * volume / 20
  | 3, 1 => area 3 / 12 + 1 * sigma * volume / 20
  | 3, 2 => area 3 / 12 + 1 * sigma * volume / 20
  | 3, 3 => area 3 / 12 + 2 * sigma * volume / 20

/-- `matrix[i][j] += v` (src/Transport.cc:110-168). -/
def addTo (M : Mat4 K) (i j : Fin 4) (v : K) : Mat4 K := set2 M i j (M i j + v)

/-- The body of `if (area[0] > 0)` in `calcOutgoingFlux` (src/Transport.cc:113-125). -/
def outFace0 (area : Vec4 K) (M : Mat4 K) : Mat4 K :=
  let M := addTo M 1 1 (2 * area 0 / 12)
  let M := addTo M 1 2 (1 * area 0 / 12)
  let M := addTo M 1 3 (1 * area 0 / 12)
  let M := addTo M 2 1 (1 * area 0 / 12)
  let M := addTo M 2 2 (2 * area 0 / 12)
  let M := addTo M 2 3 (1 * area 0 / 12)
  let M := addTo M 3 1 (1 * area 0 / 12)
  let M := addTo M 3 2 (1 * area 0 / 12)
  let M := addTo M 3 3 (2 * area 0 / 12)
  M

/-- The body of `if (area[1] > 0)` in `calcOutgoingFlux` (src/Transport.cc:127-139). -/
def outFace1 (area : Vec4 K) (M : Mat4 K) : Mat4 K :=
  let M := addTo M 0 0 (2 * area 1 / 12)
  let M := addTo M 0 2 (1 * area 1 / 12)
  let M := addTo M 0 3 (1 * area 1 / 12)
  let M := addTo M 2 0 (1 * area 1 / 12)
  let M := addTo M 2 2 (2 * area 1 / 12)
  let M := addTo M 2 3 (1 * area 1 / 12)
  let M := addTo M 3 0 (1 * area 1 / 12)
  let M := addTo M 3 2 (1 * area 1 / 12)
  let M := addTo M 3 3 (2 * area 1 / 12)
  M

/-- The body of `if (area[2] > 0)` in `calcOutgoingFlux` (src/Transport.cc:141-153). -/
def outFace2 (area : Vec4 K) (M : Mat4 K) : Mat4 K :=
  let M := addTo M 0 0 (2 * area 2 / 12)
  let M := addTo M 0 1 (1 * area 2 / 12)
  let M := addTo M 0 3 (1 * area 2 / 12)
  let M := addTo M 1 0 (1 * area 2 / 12)
  let M := addTo M 1 1 (2 * area 2 / 12)
  let M := addTo M 1 3 (1 * area 2 / 12)
  let M := addTo M 3 0 (1 * area 2 / 12)
  let M := addTo M 3 1 (1 * area 2 / 12)
  let M := addTo M 3 3 (2 * area 2 / 12)
  M

/-- The body of `if (area[3] > 0)` in `calcOutgoingFlux` (src/Transport.cc:155-167). -/
def outFace3 (area : Vec4 K) (M : Mat4 K) : Mat4 K :=
  let M := addTo M 0 0 (2 * area 3 / 12)
  let M := addTo M 0 1 (1 * area 3 / 12)
  let M := addTo M 0 2 (1 * area 3 / 12)
  let M := addTo M 1 0 (1 * area 3 / 12)
  let M := addTo M 1 1 (2 * area 3 / 12)
  let M := addTo M 1 2 (1 * area 3 / 12)
  let M := addTo M 2 0 (1 * area 3 / 12)
  let M := addTo M 2 1 (1 * area 3 / 12)
  let M := addTo M 2 2 (2 * area 3 / 12)
  M

/-- `calcOutgoingFlux` (src/Transport.cc:110-168). -/
def calcOutgoingFlux (area : Vec4 K) (M : Mat4 K) : Mat4 K :=
  let M := if area 0 > 0 then outFace0 area M else M
  let M := if area 1 > 0 then outFace1 area M else M
  let M := if area 2 > 0 then outFace2 area M else M
  let M := if area 3 > 0 then outFace3 area M else M
  M

/-- `cellSource[i] -= v` (src/Transport.cc:175-271). -/
def subFrom (b : Vec4 K) (i : Fin 4) (v : K) : Vec4 K := set1 b i (b i - v)

/-- The body of `if (area[0] < 0)` in `calcIncomingFlux` (src/Transport.cc:184-204).
`c2f face vrtx` is `getCellToFaceVrtx(cell, face, vrtx)` and `lpb fvrtx face` is
`localPsiBound(fvrtx, face, group)`. -/
def inFace0 (c2f : Fin 4 → Fin 4 → Fin 3) (lpb : Fin 3 → Fin 4 → K) (area b : Vec4 K) : Vec4 K :=
  let faceVertex1 := c2f 0 1
  let faceVertex2 := c2f 0 2
  let faceVertex3 := c2f 0 3
  let psiNeighbor1 := lpb faceVertex1 0
  let psiNeighbor2 := lpb faceVertex2 0
  let psiNeighbor3 := lpb faceVertex3 0
  let b := subFrom b 1 (2 * area 0 / 12 * psiNeighbor1)
  let b := subFrom b 1 (1 * area 0 / 12 * psiNeighbor2)
  let b := subFrom b 1 (1 * area 0 / 12 * psiNeighbor3)
  let b := subFrom b 2 (1 * area 0 / 12 * psiNeighbor1)
  let b := subFrom b 2 (2 * area 0 / 12 * psiNeighbor2)
  let b := subFrom b 2 (1 * area 0 / 12 * psiNeighbor3)
  let b := subFrom b 3 (1 * area 0 / 12 * psiNeighbor1)
  let b := subFrom b 3 (1 * area 0 / 12 * psiNeighbor2)
  let b := subFrom b 3 (2 * area 0 / 12 * psiNeighbor3)
  b

/-- The body of `if (area[1] < 0)` in `calcIncomingFlux` (src/Transport.cc:206-226).
`c2f face vrtx` is `getCellToFaceVrtx(cell, face, vrtx)` and `lpb fvrtx face` is
`localPsiBound(fvrtx, face, group)`. -/
def inFace1 (c2f : Fin 4 → Fin 4 → Fin 3) (lpb : Fin 3 → Fin 4 → K) (area b : Vec4 K) : Vec4 K :=
  let faceVertex0 := c2f 1 0
  let faceVertex2 := c2f 1 2
  let faceVertex3 := c2f 1 3
  let psiNeighbor0 := lpb faceVertex0 1
  let psiNeighbor2 := lpb faceVertex2 1
  let psiNeighbor3 := lpb faceVertex3 1
  let b := subFrom b 0 (2 * area 1 / 12 * psiNeighbor0)
  let b := subFrom b 0 (1 * area 1 / 12 * psiNeighbor2)
  let b := subFrom b 0 (1 * area 1 / 12 * psiNeighbor3)
  let b := subFrom b 2 (1 * area 1 / 12 * psiNeighbor0)
  let b := subFrom b 2 (2 * area 1 / 12 * psiNeighbor2)
  let b := subFrom b 2 (1 * area 1 / 12 * psiNeighbor3)
  let b := subFrom b 3 (1 * area 1 / 12 * psiNeighbor0)
  let b := subFrom b 3 (1 * area 1 / 12 * psiNeighbor2)
  let b := subFrom b 3 (2 * area 1 / 12 * psiNeighbor3)
  b

/-- The body of `if (area[2] < 0)` in `calcIncomingFlux` (src/Transport.cc:228-248).
`c2f face vrtx` is `getCellToFaceVrtx(cell, face, vrtx)` and `lpb fvrtx face` is
`localPsiBound(fvrtx, face, group)`. -/
def inFace2 (c2f : Fin 4 → Fin 4 → Fin 3) (lpb : Fin 3 → Fin 4 → K) (area b : Vec4 K) : Vec4 K :=
  let faceVertex0 := c2f 2 0
  let faceVertex1 := c2f 2 1
  let faceVertex3 := c2f 2 3
  let psiNeighbor0 := lpb faceVertex0 2
  let psiNeighbor1 := lpb faceVertex1 2
  let psiNeighbor3 := lpb faceVertex3 2
  let b := subFrom b 0 (2 * area 2 / 12 * psiNeighbor0)
  let b := subFrom b 0 (1 * area 2 / 12 * psiNeighbor1)
  let b := subFrom b 0 (1 * area 2 / 12 * psiNeighbor3)
  let b := subFrom b 1 (1 * area 2 / 12 * psiNeighbor0)
  let b := subFrom b 1 (2 * area 2 / 12 * psiNeighbor1)
  let b := subFrom b 1 (1 * area 2 / 12 * psiNeighbor3)
  let b := subFrom b 3 (1 * area 2 / 12 * psiNeighbor0)
  let b := subFrom b 3 (1 * area 2 / 12 * psiNeighbor1)
  let b := subFrom b 3 (2 * area 2 / 12 * psiNeighbor3)
  b

/-- The body of `if (area[3] < 0)` in `calcIncomingFlux` (src/Transport.cc:250-270).
`c2f face vrtx` is `getCellToFaceVrtx(cell, face, vrtx)` and `lpb fvrtx face` is
`localPsiBound(fvrtx, face, group)`. -/
def inFace3 (c2f : Fin 4 → Fin 4 → Fin 3) (lpb : Fin 3 → Fin 4 → K) (area b : Vec4 K) : Vec4 K :=
  let faceVertex0 := c2f 3 0
  let faceVertex1 := c2f 3 1
  let faceVertex2 := c2f 3 2
  let psiNeighbor0 := lpb faceVertex0 3
  let psiNeighbor1 := lpb faceVertex1 3
  let psiNeighbor2 := lpb faceVertex2 3
  let b := subFrom b 0 (2 * area 3 / 12 * psiNeighbor0)
  let b := subFrom b 0 (1 * area 3 / 12 * psiNeighbor1)
  let b := subFrom b 0 (1 * area 3 / 12 * psiNeighbor2)
  let b := subFrom b 1 (1 * area 3 / 12 * psiNeighbor0)
  let b := subFrom b 1 (2 * area 3 / 12 * psiNeighbor1)
  let b := subFrom b 1 (1 * area 3 / 12 * psiNeighbor2)
  let b := subFrom b 2 (1 * area 3 / 12 * psiNeighbor0)
  let b := subFrom b 2 (1 * area 3 / 12 * psiNeighbor1)
  let b := subFrom b 2 (2 * area 3 / 12 * psiNeighbor2)
  b

/-- `calcIncomingFlux` (src/Transport.cc:175-271). -/
def calcIncomingFlux (c2f : Fin 4 → Fin 4 → Fin 3) (lpb : Fin 3 → Fin 4 → K) (area b : Vec4 K) :
    Vec4 K :=
  let b := if area 0 < 0 then inFace0 c2f lpb area b else b
  let b := if area 1 < 0 then inFace1 c2f lpb area b else b
  let b := if area 2 < 0 then inFace2 c2f lpb area b else b
  let b := if area 3 < 0 then inFace3 c2f lpb area b else b
  b

/-! ## `gaussElim4`, option Original (src/Transport.cc:284-334) -/

/-- `for (row = c+1; row < 4; ++row)`. -/
def below (c : Fin 4) : List (Fin 4) := (List.finRange 4).filter (c < ·)
/-- `for (row = c-1; row >= 0; --row)`. -/
def aboveDown (c : Fin 4) : List (Fin 4) := ((List.finRange 4).filter (· < c)).reverse

/-- Pivot search (src/Transport.cc:288-296): `(rowmax, colmax)` after the loop. -/
def pivotSearch (A : Mat4 K) (column : Fin 4) : Fin 4 :=
  ((below column).foldl
    (fun (s : Fin 4 × K) row =>
      let temp := |A row column|
      if temp > s.2 then (row, temp) else s)
    (column, |A column column|)).1

/-- Row exchange of the matrix (src/Transport.cc:299-303). -/
def swapRows (A : Mat4 K) (r s : Fin 4) : Mat4 K :=
  fun i j => if i = r then A s j else if i = s then A r j else A i j
/-- Exchange of two entries of the right-hand side (src/Transport.cc:304-306). -/
def swapEntries (b : Vec4 K) (r s : Fin 4) : Vec4 K :=
  fun i => if i = r then b s else if i = s then b r else b i

/-- `A[row][column] *= A[column][column]` for rows below (src/Transport.cc:312-313). -/
def scaleBelow (column : Fin 4) (A : Mat4 K) : Mat4 K :=
  (below column).foldl (fun A row => set2 A row column (A row column * A column column)) A

/-- The double loop updating column `column+1` (src/Transport.cc:315-318). -/
def updateNext (column next : Fin 4) (A : Mat4 K) : Mat4 K :=
  ((List.finRange 4).filter (· ≤ column)).foldl
    (fun A column2 => (below column2).foldl
      (fun A row => set2 A row next (A row next - A row column2 * A column2 next)) A) A

/-- Lines 309-318 of src/Transport.cc, after the row exchange: store the reciprocal pivot, scale,
update the next column. -/
def elimCore (column next : Fin 4) (A : Mat4 K) : Mat4 K :=
  updateNext column next
    (scaleBelow column (set2 A column column (1 / A column column)))

/-- One pass of the loop over columns (src/Transport.cc:287-319). The state is `(A, b)`. -/
def elimStep (column next : Fin 4) (s : Mat4 K × Vec4 K) : Option (Mat4 K × Vec4 K) :=
  let rowmax := pivotSearch s.1 column
  let s' := if rowmax ≠ column then (swapRows s.1 rowmax column, swapEntries s.2 rowmax column)
    else s
  if s'.1 column column = 0 then none else some (elimCore column next s'.1, s'.2)

/-- Forward substitution (src/Transport.cc:324-327). -/
def forwardSubst (A : Mat4 K) (b : Vec4 K) : Vec4 K :=
  [0, 1, 2].foldl (fun b column => (below column).foldl
    (fun b row => set1 b row (b row - A row column * b column)) b) b

/-- Backward substitution (src/Transport.cc:329-333). -/
def backSubst (A : Mat4 K) (b : Vec4 K) : Vec4 K :=
  [3, 2, 1, 0].foldl (fun b column =>
    let b := set1 b column (b column * A column column)
    (aboveDown column).foldl (fun b row => set1 b row (b row - A row column * b column)) b) b

/-- `gaussElim4` with `GaussElim_Original` (src/Transport.cc:284-334). -/
def solveOriginal (A : Mat4 K) (b : Vec4 K) : Option (Vec4 K) := do
  let s ← elimStep 0 1 (A, b)
  let s ← elimStep 1 2 s
  let s ← elimStep 2 3 s
  if s.1 3 3 = 0 then none else
    let A := set2 s.1 3 3 (1 / s.1 3 3)
    some (backSubst A (forwardSubst A s.2))

/-! ## `gaussElim4`, option NoPivot (src/Transport.cc:338-410) -/

/-- "Set column c to 0.0" for one row (src/Transport.cc:351-356 and the like): with
`tmp = A[r][c]`, `A[r][c] = 0`, `A[r][j] = A[r][j] - A[c][j]*tmp` for `j > c`. -/
def clearRow (c r : Fin 4) (s : Mat4 K × Vec4 K) : Mat4 K × Vec4 K :=
  let tmp := s.1 r c
  let A := set2 s.1 r c 0
  let A := (below c).foldl (fun A j => set2 A r j (A r j - A c j * tmp)) A
  (A, set1 s.2 r (s.2 r - s.2 c * tmp))

/-- "Normalize row c" (src/Transport.cc:343-348 and the like). -/
def normRow (c : Fin 4) (s : Mat4 K × Vec4 K) : Option (Mat4 K × Vec4 K) :=
  if s.1 c c = 0 then none else
    let tmp := 1 / s.1 c c
    let A := set2 s.1 c c 1
    let A := (below c).foldl (fun A j => set2 A c j (A c j * tmp)) A
    some (A, set1 s.2 c (s.2 c * tmp))

/-- "Backward Solve" (src/Transport.cc:404-408), the last pivot being nonzero. -/
def backNoPivot (A : Mat4 K) (b : Vec4 K) : Vec4 K :=
  let b := set1 b 3 (b 3 / A 3 3)
  let b := set1 b 2 (b 2 - A 2 3 * b 3)
  let b := set1 b 1 (b 1 - A 1 3 * b 3 - A 1 2 * b 2)
  set1 b 0 (b 0 - A 0 3 * b 3 - A 0 2 * b 2 - A 0 1 * b 1)

/-- `gaussElim4` with `GaussElim_NoPivot` (src/Transport.cc:338-410). -/
def solveNoPivot (A : Mat4 K) (b : Vec4 K) : Option (Vec4 K) := do
  let s ← (normRow 0 (A, b)).map fun s => clearRow 0 3 (clearRow 0 2 (clearRow 0 1 s))
  let s ← (normRow 1 s).map fun s => clearRow 1 3 (clearRow 1 2 s)
  let s ← (normRow 2 s).map fun s => clearRow 2 3 s
  if s.1 3 3 = 0 then none else some (backNoPivot s.1 s.2)

/-! ## `gaussElim4`, option CramerGlu (src/Transport.cc:414-555) -/

/-- `m = &A[0][0]` (src/Transport.cc:421): row-major view of the matrix. -/
def flat (A : Mat4 K) (k : Nat) : K := A (Fin.ofNat 4 (k / 4)) (Fin.ofNat 4 (k % 4))

/-- The sixteen assignments to `inv` (src/Transport.cc:423-533). -/
def gluInv (m : Nat → K) : Nat → K
  | 0 => m 5 * m 10 * m 15 - m 5 * m 11 * m 14 - m 9 * m 6 * m 15 + m 9 * m 7 * m 14 + m 13 * m 6 * m 11 - m 13 * m 7 * m 10
  | 1 => -m 1 * m 10 * m 15 + m 1 * m 11 * m 14 + m 9 * m 2 * m 15 - m 9 * m 3 * m 14 - m 13 * m 2 * m 11 + m 13 * m 3 * m 10
  | 2 => m 1 * m 6 * m 15 - m 1 * m 7 * m 14 - m 5 * m 2 * m 15 + m 5 * m 3 * m 14 + m 13 * m 2 * m 7 - m 13 * m 3 * m 6
  | 3 => -m 1 * m 6 * m 11 + m 1 * m 7 * m 10 + m 5 * m 2 * m 11 - m 5 * m 3 * m 10 - m 9 * m 2 * m 7 + m 9 * m 3 * m 6
  | 4 => -m 4 * m 10 * m 15 + m 4 * m 11 * m 14 + m 8 * m 6 * m 15 - m 8 * m 7 * m 14 - m 12 * m 6 * m 11 + m 12 * m 7 * m 10
  | 5 => m 0 * m 10 * m 15 - m 0 * m 11 * m 14 - m 8 * m 2 * m 15 + m 8 * m 3 * m 14 + m 12 * m 2 * m 11 - m 12 * m 3 * m 10
  | 6 => -m 0 * m 6 * m 15 + m 0 * m 7 * m 14 + m 4 * m 2 * m 15 - m 4 * m 3 * m 14 - m 12 * m 2 * m 7 + m 12 * m 3 * m 6
  | 7 => m 0 * m 6 * m 11 - m 0 * m 7 * m 10 - m 4 * m 2 * m 11 + m 4 * m 3 * m 10 + m 8 * m 2 * m 7 - m 8 * m 3 * m 6
  | 8 => m 4 * m 9 * m 15 - m 4 * m 11 * m 13 - m 8 * m 5 * m 15 + m 8 * m 7 * m 13 + m 12 * m 5 * m 11 - m 12 * m 7 * m 9
  | 9 => -m 0 * m 9 * m 15 + m 0 * m 11 * m 13 + m 8 * m 1 * m 15 - m 8 * m 3 * m 13 - m 12 * m 1 * m 11 + m 12 * m 3 * m 9
  | 10 => m 0 * m 5 * m 15 - m 0 * m 7 * m 13 - m 4 * m 1 * m 15 + m 4 * m 3 * m 13 + m 12 * m 1 * m 7 - m 12 * m 3 * m 5
  | 11 => -m 0 * m 5 * m 11 + m 0 * m 7 * m 9 + m 4 * m 1 * m 11 - m 4 * m 3 * m 9 - m 8 * m 1 * m 7 + m 8 * m 3 * m 5
  | 12 => -m 4 * m 9 * m 14 + m 4 * m 10 * m 13 + m 8 * m 5 * m 14 - m 8 * m 6 * m 13 - m 12 * m 5 * m 10 + m 12 * m 6 * m 9
  | 13 => m 0 * m 9 * m 14 - m 0 * m 10 * m 13 - m 8 * m 1 * m 14 + m 8 * m 2 * m 13 + m 12 * m 1 * m 10 - m 12 * m 2 * m 9
  | 14 => -m 0 * m 5 * m 14 + m 0 * m 6 * m 13 + m 4 * m 1 * m 14 - m 4 * m 2 * m 13 - m 12 * m 1 * m 6 + m 12 * m 2 * m 5
  | 15 => m 0 * m 5 * m 10 - m 0 * m 6 * m 9 - m 4 * m 1 * m 10 + m 4 * m 2 * m 9 + m 8 * m 1 * m 6 - m 8 * m 2 * m 5
  | _ => 0

/-- The solution formula shared by both Cramer variants (src/Transport.cc:550-553, 668-671):
row `i` of the 4x4 array `inv` times `b`. -/
def applyFlat (inv : Nat → K) (b : Vec4 K) : Vec4 K := fun i =>
  match i with
  | 0 => inv 0 * b 0 + inv 1 * b 1 + inv 2 * b 2 + inv 3 * b 3
  | 1 => inv 4 * b 0 + inv 5 * b 1 + inv 6 * b 2 + inv 7 * b 3
  | 2 => inv 8 * b 0 + inv 9 * b 1 + inv 10 * b 2 + inv 11 * b 3
  | 3 => inv 12 * b 0 + inv 13 * b 1 + inv 14 * b 2 + inv 15 * b 3

/-- `gaussElim4` with `GaussElim_CramerGlu` (src/Transport.cc:414-555). -/
def solveGlu (A : Mat4 K) (b : Vec4 K) : Option (Vec4 K) :=
  let m := flat A
  let inv := gluInv m
  let det := m 0 * inv 0 + m 1 * inv 4 + m 2 * inv 8 + m 3 * inv 12
  if det = 0 then none else
    let det := 1 / det
    some (applyFlat (fun k => inv k * det) b)

/-! ## `gaussElim4`, option CramerIntel (src/Transport.cc:559-673) -/

/-- Transposition `src[i+4j] = A[i][j]` (src/Transport.cc:564-569). -/
def intelSrc (A : Mat4 K) (k : Nat) : K := A (Fin.ofNat 4 (k % 4)) (Fin.ofNat 4 (k / 4))

/-- First twelve products (src/Transport.cc:572-585). -/
def intelTmpA (src : Nat → K) : Nat → K
  | 0 => src 10 * src 15
  | 1 => src 11 * src 14
  | 2 => src 9 * src 15
  | 3 => src 11 * src 13
  | 4 => src 9 * src 14
  | 5 => src 10 * src 13
  | 6 => src 8 * src 15
  | 7 => src 11 * src 12
  | 8 => src 8 * src 14
  | 9 => src 10 * src 12
  | 10 => src 8 * src 13
  | 11 => src 9 * src 12
  | _ => 0

/-- Second twelve products (src/Transport.cc:613-626). -/
def intelTmpB (src : Nat → K) : Nat → K
  | 0 => src 2*src 7
  | 1 => src 3*src 6
  | 2 => src 1*src 7
  | 3 => src 3*src 5
  | 4 => src 1*src 6
  | 5 => src 2*src 5
  | 6 => src 0*src 7
  | 7 => src 3*src 4
  | 8 => src 0*src 6
  | 9 => src 2*src 4
  | 10 => src 0*src 5
  | 11 => src 1*src 4
  | _ => 0

/-- Cofactors, first eight with the first products, last eight with the second
(src/Transport.cc:588-610, 629-651). -/
def intelDst (src : Nat → K) (k : Nat) : K :=
  let tmp := if k < 8 then intelTmpA src else intelTmpB src
  match k with
  | 0 => tmp 0*src 5 + tmp 3*src 6 + tmp 4*src 7 - (tmp 1*src 5 + tmp 2*src 6 + tmp 5*src 7)
  | 1 => tmp 1*src 4 + tmp 6*src 6 + tmp 9*src 7 - (tmp 0*src 4 + tmp 7*src 6 + tmp 8*src 7)
  | 2 => tmp 2*src 4 + tmp 7*src 5 + tmp 10*src 7 - (tmp 3*src 4 + tmp 6*src 5 + tmp 11*src 7)
  | 3 => tmp 5*src 4 + tmp 8*src 5 + tmp 11*src 6 - (tmp 4*src 4 + tmp 9*src 5 + tmp 10*src 6)
  | 4 => tmp 1*src 1 + tmp 2*src 2 + tmp 5*src 3 - (tmp 0*src 1 + tmp 3*src 2 + tmp 4*src 3)
  | 5 => tmp 0*src 0 + tmp 7*src 2 + tmp 8*src 3 - (tmp 1*src 0 + tmp 6*src 2 + tmp 9*src 3)
  | 6 => tmp 3*src 0 + tmp 6*src 1 + tmp 11*src 3 - (tmp 2*src 0 + tmp 7*src 1 + tmp 10*src 3)
  | 7 => tmp 4*src 0 + tmp 9*src 1 + tmp 10*src 2 - (tmp 5*src 0 + tmp 8*src 1 + tmp 11*src 2)
  | 8 => tmp 0*src 13 + tmp 3*src 14 + tmp 4*src 15 - (tmp 1*src 13 + tmp 2*src 14 + tmp 5*src 15)
  | 9 => tmp 1*src 12 + tmp 6*src 14 + tmp 9*src 15 - (tmp 0*src 12 + tmp 7*src 14 + tmp 8*src 15)
  | 10 => tmp 2*src 12 + tmp 7*src 13 + tmp 10*src 15 - (tmp 3*src 12 + tmp 6*src 13 + tmp 11*src 15)
  | 11 => tmp 5*src 12 + tmp 8*src 13 + tmp 11*src 14 - (tmp 4*src 12 + tmp 9*src 13 + tmp 10*src 14)
  | 12 => tmp 2*src 10 + tmp 5*src 11 + tmp 1*src 9 - (tmp 4*src 11 + tmp 0*src 9 + tmp 3*src 10)
  | 13 => tmp 8*src 11 + tmp 0*src 8 + tmp 7*src 10 - (tmp 6*src 10 + tmp 9*src 11 + tmp 1*src 8)
  | 14 => tmp 6*src 9 + tmp 11*src 11 + tmp 3*src 8 - (tmp 10*src 11 + tmp 2*src 8 + tmp 7*src 9)
  | 15 => tmp 10*src 10 + tmp 4*src 8 + tmp 9*src 9 - (tmp 8*src 9 + tmp 11*src 10 + tmp 5*src 8)
  | _ => 0

/-- `gaussElim4` with `GaussElim_CramerIntel` (src/Transport.cc:559-673). -/
def solveIntel (A : Mat4 K) (b : Vec4 K) : Option (Vec4 K) :=
  let src := intelSrc A
  let dst := intelDst src
  let det := src 0 * dst 0 + src 1 * dst 1 + src 2 * dst 2 + src 3 * dst 3
  if det = 0 then none else
    let det := 1 / det
    some (applyFlat (fun k => dst k * det) b)

/-- `GaussElim` (src/Global.hh:99-105). -/
inductive GaussElim where
  | original | noPivot | cramerGlu | cramerIntel
deriving DecidableEq, Repr

/-- `gaussElim4` (src/Transport.cc:278-677): the switch on `g_gaussElim`. -/
def gaussElim4 (g : GaussElim) (A : Mat4 K) (b : Vec4 K) : Option (Vec4 K) :=
  match g with
  | .original => solveOriginal A b
  | .noPivot => solveNoPivot A b
  | .cramerGlu => solveGlu A b
  | .cramerIntel => solveIntel A b

/-! ## `Transport::solve` and `populateLocalPsiBound` -/

/-- The queries of the mesh object used here (src/TychoMesh.hh:70-116). `adjCell = none` is
`BOUNDARY_FACE`, `adjRank = none` is `BAD_RANK`. Vertex numbers are of type `Fin`, i.e. the mesh
tables are assumed to hold valid vertex numbers (proved of the loader in `Verif.TychoMesh`). -/
structure MeshView (K : Type*) where
  adjCell : Nat → Fin 4 → Option Nat
  adjRank : Nat → Fin 4 → Option Nat
  side : Nat → Fin 4 → Nat
  neighborVrtx : Nat → Fin 4 → Fin 3 → Fin 4
  cellToFaceVrtx : Nat → Fin 4 → Fin 4 → Fin 3
  omegaDotN : Nat → Nat → Fin 4 → K
  cellVolume : Nat → K
  faceArea : Nat → Fin 4 → K

/-- `isOutgoing` (src/TychoMesh.hh:107-108). -/
def MeshView.isOutgoing (m : MeshView K) (angle cell : Nat) (face : Fin 4) : Prop :=
  m.omegaDotN angle cell face > 0
/-- `isIncoming` (src/TychoMesh.hh:109-110). -/
def MeshView.isIncoming (m : MeshView K) (angle cell : Nat) (face : Fin 4) : Prop :=
  ¬ m.isOutgoing angle cell face

instance (m : MeshView K) (a c : Nat) (f : Fin 4) : Decidable (m.isOutgoing a c f) :=
  inferInstanceAs (Decidable (_ > _))
instance (m : MeshView K) (a c : Nat) (f : Fin 4) : Decidable (m.isIncoming a c f) :=
  inferInstanceAs (Decidable (¬ _))

/-- `area[face]` (src/Transport.cc:697-704). -/
def signedArea (m : MeshView K) (angle cell : Nat) : Vec4 K := fun f =>
  m.faceArea cell f * m.omegaDotN angle cell f

/-- The body of the group loop of `Transport::solve` (src/Transport.cc:710-731):
assemble and solve for one group. -/
def solveGroup (g : GaussElim) (m : MeshView K) (cell angle : Nat) (sigma : K)
    (lpb : Fin 3 → Fin 4 → K) (q : Vec4 K) : Option (Vec4 K) :=
  let volume := m.cellVolume cell
  let area := signedArea m angle cell
  let cellSource := calcSource volume q
  let matrix := calcVolumeIntegrals volume area sigma
  let matrix := calcOutgoingFlux area matrix
  let cellSource := calcIncomingFlux (m.cellToFaceVrtx cell) lpb area cellSource
  gaussElim4 g matrix cellSource

/-- `Transport::solve` (src/Transport.cc:687-733): the loop over groups writing `localPsi`.
`localPsi vertex group` starts with arbitrary contents. `none` if any group divides by zero. -/
def solve (g : GaussElim) (nGroups : Nat) (m : MeshView K) (cell angle : Nat) (sigma : K)
    (lpb : Fin 3 → Fin 4 → Nat → K) (q localPsi : Fin 4 → Nat → K) : Option (Fin 4 → Nat → K) :=
  (List.range nGroups).foldlM (fun psi group => do
    let x ← solveGroup g m cell angle sigma (fun v f => lpb v f group) (fun v => q v group)
    some (fun v h => if h = group then x v else psi v h)) localPsi

/-- `populateLocalPsiBound` (src/Transport.cc:740-776). `psi group vrtx angle cell` and
`psiBound group fvrtx angle side`. Each entry is written by exactly one iteration of the loops. -/
def populateLocalPsiBound (m : MeshView K) (angle cell : Nat)
    (psi : Nat → Fin 4 → Nat → Nat → K) (psiBound : Nat → Fin 3 → Nat → Nat → K) :
    Fin 3 → Fin 4 → Nat → K := fun fvrtx face group =>
  if m.isIncoming angle cell face then
    match m.adjCell cell face with
    | some neighborCell => psi group (m.neighborVrtx cell face fvrtx) angle neighborCell
    | none => match m.adjRank cell face with
      | some _ => psiBound group fvrtx angle (m.side cell face)
      | none => 0
  else 0

/-- `SweepData::update` (src/SweepData.hh:139-174): the new angular flux array. -/
def update (g : GaussElim) (nGroups : Nat) (m : MeshView K) (sigmaT : Nat → K)
    (source : Nat → Fin 4 → Nat → Nat → K) (psiBound : Nat → Fin 3 → Nat → Nat → K)
    (cell angle : Nat) (scratch : Fin 4 → Nat → K) (psi : Nat → Fin 4 → Nat → Nat → K) :
    Option (Nat → Fin 4 → Nat → Nat → K) := do
  let lpb := populateLocalPsiBound m angle cell psi psiBound
  let localPsi ← solve g nGroups m cell angle (sigmaT cell) lpb
    (fun v grp => source grp v angle cell) scratch
  some (fun grp v a c =>
    if c = cell ∧ a = angle ∧ grp < nGroups then localPsi v grp else psi grp v a c)

end Verif.Transport
