import Verif.Geometry.Spec
import Verif.TychoMesh.Link2

/-!
# When rounding cannot change a sign

Vocabulary for C87, without reference to the code.
-/
namespace Verif.Rounding.Spec

open Verif.Geometry Verif.MeshFile Verif.TychoMesh

/-- The determinant of three vectors: six times the volume they span. -/
def det (w a b : Pt) : ℝ :=
  w 0 * (a 1 * b 2 - a 2 * b 1) + w 1 * (a 2 * b 0 - a 0 * b 2) + w 2 * (a 0 * b 1 - a 1 * b 0)

/-- The same sum with all terms taken positive. -/
def perm (w a b : Pt) : ℝ :=
  |w 0| * (|a 1| * |b 2| + |a 2| * |b 1|) + |w 1| * (|a 2| * |b 0| + |a 0| * |b 2|) + |w 2| * (|a 0| * |b 1| + |a 1| * |b 0|)

/-- The vector from `y` to `x`. -/
def vec (y x : Pt) : Pt := fun k => x k - y k

/-- The three vectors span a volume that `k` roundings of relative size `u` cannot hide. -/
def Clear (u : ℝ) (k : ℕ) (w a b : Pt) : Prop := ((1 + u) ^ k - 1) * perm w a b < |det w a b|

/-- The points of the mesh. -/
def point (val : Nat → ℝ) (m : SerialMesh) (i : Nat) : Pt := fun k => ((m.nodes[i]?).map fun nd => val (nd.coords k)).getD 0

/-- All tetrahedra have a volume that rounding cannot hide: for each face `g` of cell `c` opposite to its
vertex `f`, the vectors from the first node of the face to the two others and to the vertex are `Clear`. -/
def WellShaped (u : ℝ) (val : Nat → ℝ) (m : SerialMesh) : Prop :=
  ∀ c f g d e, FaceOf m c f g → m.cells[c]? = some d → m.faces[g]? = some e →
    Clear u 9 (vec (point val m (e.nodes 0)) (point val m (d.nodes f)))
      (vec (point val m (e.nodes 0)) (point val m (e.nodes 1))) (vec (point val m (e.nodes 0)) (point val m (e.nodes 2)))

/-- The two cells at an interior face are on different sides of it. -/
def Opposed (val : Nat → ℝ) (m : SerialMesh) : Prop :=
  ∀ c f c' f' g d d' e, c ≠ c' → FaceOf m c f g → FaceOf m c' f' g → m.cells[c]? = some d → m.cells[c']? = some d' →
    m.faces[g]? = some e →
    det (vec (point val m (e.nodes 0)) (point val m (d.nodes f))) (vec (point val m (e.nodes 0)) (point val m (e.nodes 1)))
      (vec (point val m (e.nodes 0)) (point val m (e.nodes 2))) *
    det (vec (point val m (e.nodes 0)) (point val m (d'.nodes f'))) (vec (point val m (e.nodes 0)) (point val m (e.nodes 1)))
      (vec (point val m (e.nodes 0)) (point val m (e.nodes 2))) < 0

/-- No direction is parallel to an interior face up to rounding. -/
def Inclined (u : ℝ) (val : Nat → ℝ) (dirs : Nat → Pt) (nA : Nat) (m : SerialMesh) : Prop :=
  ∀ c f c' f' g e, c ≠ c' → FaceOf m c f g → FaceOf m c' f' g → m.faces[g]? = some e → ∀ a < nA,
    Clear u 8 (dirs a) (vec (point val m (e.nodes 0)) (point val m (e.nodes 1))) (vec (point val m (e.nodes 0)) (point val m (e.nodes 2)))

/-- In exact arithmetic, the direction `om` leaves cell `c` through its face `f`. -/
def Leaves (val : Nat → ℝ) (m : SerialMesh) (om : Pt) (c : Nat) (f : Fin 4) : Prop :=
  ∃ g d e, FaceOf m c f g ∧ m.cells[c]? = some d ∧ m.faces[g]? = some e ∧
    det om (vec (point val m (e.nodes 0)) (point val m (e.nodes 1))) (vec (point val m (e.nodes 0)) (point val m (e.nodes 2))) *
    det (vec (point val m (e.nodes 0)) (point val m (d.nodes f))) (vec (point val m (e.nodes 0)) (point val m (e.nodes 1)))
      (vec (point val m (e.nodes 0)) (point val m (e.nodes 2))) < 0

/-- In exact arithmetic, no direction leads from a cell through interior faces back to it. -/
def Acyclic (val : Nat → ℝ) (dirs : Nat → Pt) (nA : Nat) (m : SerialMesh) : Prop :=
  ∀ a < nA, ∀ c, ¬ Relation.TransGen (fun c c' => ∃ f f', Across m c f c' f' ∧ Leaves val m (dirs a) c f) c c

end Verif.Rounding.Spec
