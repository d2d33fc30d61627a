import Mathlib.Algebra.Order.Field.Basic
import Mathlib.Data.Fin.VecNotation
import Mathlib.Algebra.BigOperators.Fin

/-!
# Refining one tetrahedron

Model of `index2To1`, `index1To2`, `distanceBetweenNodes` and `refineTet` of
util/RefineSerialMesh.cc:143-317.

Simplification: coordinates are elements of an ordered field, so sums and halves are exact. Distances
are compared by their squares: `sqrt` is monotone, and it is not available in an ordered field. The
first comparison is with the largest double; the model takes it to succeed, and if it did not (infinite
distance) the code would keep the same choice, 0.
-/
namespace Verif.Refine

/-- `NodeCoords` (util/RefineSerialMesh.cc:63-66): a point. -/
abbrev Pt (K : Type) := Fin 3 → K

/-- `Tet` (util/RefineSerialMesh.cc:143-146): four corners. -/
abbrev Tet (K : Type) := Fin 4 → Pt K

/-- `index2To1` (util/RefineSerialMesh.cc:155-165); `none` is the failed assertion. -/
def index2To1 (i j : Nat) : Option (Fin 6) :=
  if i = 0 ∧ j = 1 then some 0
  else if i = 0 ∧ j = 2 then some 1
  else if i = 0 ∧ j = 3 then some 2
  else if i = 1 ∧ j = 2 then some 3
  else if i = 1 ∧ j = 3 then some 4
  else if i = 2 ∧ j = 3 then some 5
  else none

/-- `index1To2` (util/RefineSerialMesh.cc:174-184). -/
def index1To2 : Fin 6 → Fin 4 × Fin 4 :=
  ![(0, 1), (0, 2), (0, 3), (1, 2), (1, 3), (2, 3)]

variable {K : Type} [Field K] [LinearOrder K]

/-- The square of `distanceBetweenNodes` (util/RefineSerialMesh.cc:191-201). -/
def dist2 (p q : Pt K) : K :=
  0 + (p 0 - q 0) * (p 0 - q 0) + (p 1 - q 1) * (p 1 - q 1) + (p 2 - q 2) * (p 2 - q 2)

/-- `midNodes` (util/RefineSerialMesh.cc:225-231). -/
def midNodes (x : Tet K) (e : Fin 6) : Pt K :=
  fun c => 1 / 2 * (x (index1To2 e).1 c + x (index1To2 e).2 c)

/-- `midNodes[index2To1(i,j)]` with the arguments that occur in `refineTet`. -/
def mid (x : Tet K) (i j : Nat) : Pt K :=
  match index2To1 i j with
  | some e => midNodes x e
  | none => fun _ => 0

/-- `oppositeMidNodes` (util/RefineSerialMesh.cc:238-245). -/
def oppositeMidNodes (x : Tet K) : Fin 3 → Pt K × Pt K :=
  ![(mid x 0 1, mid x 2 3), (mid x 0 2, mid x 1 3), (mid x 0 3, mid x 1 2)]

/-- The length of diagonal `i` of the octahedron, squared. -/
def diag (x : Tet K) (i : Fin 3) : K := dist2 (oppositeMidNodes x i).1 (oppositeMidNodes x i).2

/-- One step of the loop at util/RefineSerialMesh.cc:252-256; the state is `minIndex` and `minDist`
(`none`: the largest double). -/
def minStep (x : Tet K) (s : Fin 3 × Option K) (i : Fin 3) : Fin 3 × Option K :=
  match s.2 with
  | none => (i, some (diag x i))
  | some d => if diag x i < d then (i, some (diag x i)) else s

/-- `minIndex` (util/RefineSerialMesh.cc:249-257). -/
def minIndex (x : Tet K) : Fin 3 := (([0, 1, 2] : List (Fin 3)).foldl (minStep x) (0, none)).1

/-- First corners of the four tetrahedra of the octahedron (util/RefineSerialMesh.cc:283-300). -/
def firstCorner (x : Tet K) (d : Fin 3) : Fin 4 → Pt K :=
  if d = 0 then ![mid x 2 3, mid x 2 3, mid x 0 1, mid x 0 1]
  else if d = 1 then ![mid x 1 3, mid x 0 2, mid x 1 3, mid x 0 2]
  else ![mid x 1 2, mid x 0 3, mid x 0 3, mid x 1 2]

/-- `refineTet` (util/RefineSerialMesh.cc:210-317): the eight tetrahedra `outTets`. -/
def refineTet (x : Tet K) : Fin 8 → Tet K :=
  ![![x 0, mid x 0 1, mid x 0 2, mid x 0 3],
    ![x 1, mid x 0 1, mid x 1 2, mid x 1 3],
    ![x 2, mid x 0 2, mid x 1 2, mid x 2 3],
    ![x 3, mid x 0 3, mid x 1 3, mid x 2 3],
    ![firstCorner x (minIndex x) 0, mid x 0 1, mid x 0 2, mid x 0 3],
    ![firstCorner x (minIndex x) 1, mid x 0 1, mid x 1 2, mid x 1 3],
    ![firstCorner x (minIndex x) 2, mid x 0 2, mid x 1 2, mid x 2 3],
    ![firstCorner x (minIndex x) 3, mid x 0 3, mid x 1 3, mid x 2 3]]

end Verif.Refine
