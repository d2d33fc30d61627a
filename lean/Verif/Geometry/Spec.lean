import Verif.Geometry.Model

/-!
# Geometric vocabulary for the specifications

Written without reference to the code's formulas.
-/
namespace Verif.Geometry.Spec

/-- Four points do not lie in a common plane: only the trivial linear equation is satisfied by all
of them. -/
def NonCoplanar (p : Fin 4 → Pt) : Prop :=
  ∀ n0 n1 n2 d : ℝ, (∀ i, n0 * p i 0 + n1 * p i 1 + n2 * p i 2 = d) → n0 = 0 ∧ n1 = 0 ∧ n2 = 0

/-- `f2c` numbers the three vertices of face `f`: the vertices other than `f`, each once, in any
order. -/
def FaceTable (f : Fin 4) (f2c : Fin 3 → Fin 4) : Prop :=
  (∀ v w, f2c v = f2c w → v = w) ∧ ∀ v, f2c v ≠ f

/-- `n` is the outward unit normal of face `f` of the tetrahedron `p`. -/
def OutwardUnitNormal (p : Fin 4 → Pt) (f : Fin 4) (n : Pt) : Prop :=
  n 0 ^ 2 + n 1 ^ 2 + n 2 ^ 2 = 1 ∧
  (∀ i j, i ≠ f → j ≠ f →
    n 0 * (p i 0 - p j 0) + n 1 * (p i 1 - p j 1) + n 2 * (p i 2 - p j 2) = 0) ∧
  ∀ j, j ≠ f → n 0 * (p f 0 - p j 0) + n 1 * (p f 1 - p j 1) + n 2 * (p f 2 - p j 2) < 0

/-- A plane through the three points `q` with `x` strictly on one side and `y` on the other. -/
def Separates (q : Fin 3 → Pt) (x y : Pt) : Prop :=
  ∃ n0 n1 n2 d : ℝ, (∀ v, n0 * q v 0 + n1 * q v 1 + n2 * q v 2 = d) ∧
    n0 * x 0 + n1 * x 1 + n2 * x 2 < d ∧ d < n0 * y 0 + n1 * y 1 + n2 * y 2

end Verif.Geometry.Spec
