import Verif.Quadrature.Tables
import Mathlib.Analysis.SpecialFunctions.Trigonometric.Basic

/-
Model of `src/Quadrature.cc`: choice of the Gauss table and construction of the
directions and weights.

Simplifications: the arithmetic is that of the real numbers (`M_PI` is the real number
pi; `sqrt`, `cos` and `sin` are exact), and the table constants are the decimals in
the source.  `Insist(false, ..)` stops the program; it is the outcome `none`.
-/

namespace Verif.Quadrature

/-- The `switch` of the constructor, `src/Quadrature.cc:158-222`: weights `gw` and
nodes `gn`, or the failing `Insist` of the default case (lines 219-221). -/
def tables (snOrder : Nat) : Option (List Int × List Int) :=
  match snOrder with
  | 2 => some (s_w2, s_n2)
  | 4 => some (s_w4, s_n4)
  | 6 => some (s_w6, s_n6)
  | 8 => some (s_w8, s_n8)
  | 10 => some (s_w10, s_n10)
  | 12 => some (s_w12, s_n12)
  | 14 => some (s_w14, s_n14)
  | 16 => some (s_w16, s_n16)
  | 18 => some (s_w18, s_n18)
  | 20 => some (s_w20, s_n20)
  | 22 => some (s_w22, s_n22)
  | 24 => some (s_w24, s_n24)
  | 26 => some (s_w26, s_n26)
  | 28 => some (s_w28, s_n28)
  | 30 => some (s_w30, s_n30)
  | _ => none

/-- A table constant as a real number. -/
noncomputable def dec (x : Int) : ℝ := (x : ℝ) / 10 ^ 16

/-- The four arrays of `src/Quadrature.hh:59-62`, as one array of records, together with
the global `g_nAngles` that the constructor sets (line 226). -/
structure Dir where
  xi : ℝ
  eta : ℝ
  mu : ℝ
  w : ℝ

/-- The contents of the arrays after `resize` (`src/Quadrature.cc:227-230`): zeros. -/
noncomputable def Dir.zero : Dir := ⟨0, 0, 0, 0⟩

/-- The body of the double loop, `src/Quadrature.cc:236-242`, for the table entries
`gw[i]`, `gn[i]` (`phi` of line 236 is `2 pi / (2 N) (k + 1/2)`). -/
noncomputable def direction (N : Nat) (gw gn : ℝ) (k : Nat) : Dir :=
  let phi := (2 * Real.pi) / (2 * (N : ℝ)) * ((k : ℝ) + 1 / 2)
  { xi := Real.sqrt (1 - gn * gn) * Real.cos phi
    eta := Real.sqrt (1 - gn * gn) * Real.sin phi
    mu := gn
    w := gw * (2 * Real.pi) / (2 * (N : ℝ)) }

/-- The body of the double loop as it writes the arrays, `src/Quadrature.cc:237-242`.
Reads of the tables and writes of the arrays outside their bounds are the outcome `none`
(they do not occur, `quadrature_list`). -/
noncomputable def storeDir (snOrder : Nat) (gw gn : List Int) (i : Nat) (arr : List Dir)
    (k : Nat) : Option (List Dir) :=
  let index := i * 2 * snOrder + k
  match gw[i]?, gn[i]? with
  | some w, some n =>
    if index < arr.length then
      some (arr.set index (direction snOrder (dec w) (dec n) k))
    else none
  | _, _ => none

/-- Constructor `Quadrature::Quadrature`, `src/Quadrature.cc:150-244`; `i` and `k` are the
loop counters of lines 234 and 235, the array sizes those of line 226. -/
noncomputable def quadrature (snOrder : Nat) : Option (List Dir) :=
  match tables snOrder with
  | none => none
  | some (gw, gn) =>
    (List.range snOrder).foldlM
      (fun arr i => (List.range (2 * snOrder)).foldlM (storeDir snOrder gw gn i) arr)
      (List.replicate (2 * snOrder * snOrder) Dir.zero)

end Verif.Quadrature
