import Mathlib.Algebra.BigOperators.Fin
import Mathlib.Algebra.Order.Field.Basic

/-!
# Specification of the within-cell problem

The linear discontinuous Galerkin system of the user guide (doc/user_guide/user_guide.tex,
equations labelled `eq:dg_system`), written independently of the code. Vertex `i` is opposite
face `i`.
-/
namespace Verif.Transport.Spec

variable {K : Type*} [Field K] [LinearOrder K]

open Finset

/-- Upwind trace at vertex `v` of face `f`: the cell's own value on an outgoing face
(`area f > 0`), the incoming value otherwise. -/
def upwind (area psi : Fin 4 → K) (inc : Fin 4 → Fin 4 → K) (f v : Fin 4) : K :=
  if 0 < area f then psi v else inc f v

/-- Row `i` of the documented system. `area f` is the face area times `Ω·n`. -/
def DGRow (V σ : K) (area : Fin 4 → K) (inc : Fin 4 → Fin 4 → K) (Q psi : Fin 4 → K)
    (i : Fin 4) : Prop :=
  (∑ f ∈ univ.erase i, area f / 12 *
      (2 * upwind area psi inc f i + ∑ j ∈ (univ.erase f).erase i, upwind area psi inc f j))
    + area i / 12 * (∑ j, psi j)
    + σ * V / 20 * (2 * psi i + ∑ j ∈ univ.erase i, psi j)
  = V / 20 * (2 * Q i + ∑ j ∈ univ.erase i, Q j)

/-- `psi` solves the documented system of one cell, direction and group. -/
def DG (V σ : K) (area : Fin 4 → K) (inc : Fin 4 → Fin 4 → K) (Q psi : Fin 4 → K) : Prop :=
  ∀ i, DGRow V σ area inc Q psi i

/-- Integral of the upwind trace over face `f` (times the sign of `Ω·n`): net flow through the
face. A linear function on a triangle integrates to the area times the mean of its vertex
values. -/
def faceFlow (area psi : Fin 4 → K) (inc : Fin 4 → Fin 4 → K) (f : Fin 4) : K :=
  area f * ((∑ v ∈ univ.erase f, upwind area psi inc f v) / 3)

/-- Integral over the cell of a linear function with vertex values `u`. -/
def cellIntegral (V : K) (u : Fin 4 → K) : K := V * ((∑ v, u v) / 4)

end Verif.Transport.Spec
