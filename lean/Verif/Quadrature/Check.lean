import Verif.Quadrature.Model
import Mathlib.Data.Nat.Choose.Basic

/-
Evaluation of the tables in exact arithmetic.  The check covers every entry of every table
and every pair of exponents, so with `tables_good` it is a proof about all accepted orders.
-/

namespace Verif.Quadrature

/-- The exact value of the integral of `(1 - x^2)^j x^c` over `[-1, 1]` for even `c`. -/
def exactQ (j c : Nat) : ℚ :=
  ((List.range (j + 1)).map fun q => (-1 : ℚ) ^ q * (j.choose q : ℚ) * (2 / ((2 * q + c + 1 : Nat) : ℚ))).sum

/-- The table sum for `(1 - x^2)^j x^c`, in units `10^(-16 (1 + 2 j + c))`. -/
def sumN (gw gn : List Int) (j c : Nat) : Nat :=
  ((gw.zip gn).map fun p =>
    p.1.natAbs * (10 ^ 32 - p.2.natAbs ^ 2) ^ j * p.2.natAbs ^ c).sum

def accurate (gw gn : List Int) (j c : Nat) : Bool :=
  let E := exactQ j c
  let U : Int := ((10 ^ (16 * (1 + 2 * j + c)) : Nat) : Int)
  decide ((((sumN gw gn j c : Nat) : Int) * (E.den : Int) - U * E.num).natAbs * 10 ^ 14
    ≤ (U * E.den).natAbs)

/-- Everything the theorems need to know about one pair of tables. -/
def good (N : Nat) (gw gn : List Int) : Bool :=
  decide (gw.length = N) && decide (gn.length = N) && decide (2 ≤ N) && decide (N % 2 = 0) &&
  gw.all (fun w => decide (0 < w)) &&
  gn.all (fun n => decide (n ≠ 0 ∧ -10 ^ 16 < n ∧ n < 10 ^ 16)) &&
  decide (gw.reverse = gw) && decide (gn.reverse = gn.map (fun n => -n)) &&
  (List.range (N - 1)).all (fun i => decide (gn.getD i 0 < gn.getD (i + 1) 0)) &&
  (List.range N).all (fun j => (List.range (N - j)).all fun c => accurate gw gn j (2 * c))

set_option maxRecDepth 100000 in
theorem tables_good {N gw gn} (h : tables N = some (gw, gn)) : good N gw gn = true := by
  unfold tables at h
  split at h <;> first | (simp at h; done) | (
    simp only [Option.some.injEq, Prod.mk.injEq] at h
    obtain ⟨rfl, rfl⟩ := h
    decide +kernel)

end Verif.Quadrature
