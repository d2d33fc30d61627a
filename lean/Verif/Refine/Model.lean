import Verif.Refine.Tet
import Verif.MeshFile.Create

/-!
# Refining a mesh

Model of `NodeCoords`, `FaceNodes`, `findFace`, `findNode` and `refineMesh` of
util/RefineSerialMesh.cc:60-137, 320-491.

Simplifications.
* Coordinates of the refined mesh are elements of an ordered field `K`; `val` gives the value of the
  bit pattern of a coordinate of the coarse mesh. Arithmetic on them is exact.
* A `std::map` is the list of its entries in order of insertion. Looking a key up finds the entry
  equivalent to it. `std::map` needs a comparison that is a strict weak order; looking up in a map where the
  comparison is not one on the keys and the sought key is undefined (`none`).
* Before the first coordinate the smallest and largest coordinates are plus and minus the largest
  double, here `none`, and any coordinate replaces them.
* The progress message has no effect other than its division.
-/
namespace Verif.Refine

open Verif.MeshFile

variable {K : Type} [Field K] [LinearOrder K]

/-- `NodeCoords::operator()` (util/RefineSerialMesh.cc:69-85), `tol` being `TOL`. -/
def nodeLt (tol : K) (p q : Pt K) : Bool :=
  if p 0 < q 0 - tol then true
  else if q 0 + tol < p 0 then false
  else if p 1 < q 1 - tol then true
  else if q 1 + tol < p 1 then false
  else if p 2 < q 2 - tol then true
  else if q 2 + tol < p 2 then false
  else false

/-- `FaceNodes::orderFaceNodes` (util/RefineSerialMesh.cc:121-136). -/
def orderFaceNodes (f : Fin 3 → Nat) : Fin 3 → Nat :=
  let lo := min (f 0) (min (f 1) (f 2))
  let hi := max (f 0) (max (f 1) (f 2))
  ![lo, if f 0 ≠ lo ∧ f 0 ≠ hi then f 0 else if f 1 ≠ lo ∧ f 1 ≠ hi then f 1 else f 2, hi]

/-- `FaceNodes::operator()` (util/RefineSerialMesh.cc:98-117). -/
def faceLt (f g : Fin 3 → Nat) : Bool :=
  let a := orderFaceNodes f
  let b := orderFaceNodes g
  if a 0 < b 0 then true
  else if b 0 < a 0 then false
  else if a 1 < b 1 then true
  else if b 1 < a 1 then false
  else if a 2 < b 2 then true
  else if b 2 < a 2 then false
  else false

/-- The comparison is a strict weak order on the keys of a list. -/
def StrictWeak {α : Type} (lt : α → α → Bool) (l : List α) : Prop :=
  (∀ a ∈ l, lt a a = false) ∧
  (∀ a ∈ l, ∀ b ∈ l, ∀ c ∈ l, lt a b = true → lt b c = true → lt a c = true) ∧
  ∀ a ∈ l, ∀ b ∈ l, ∀ c ∈ l, (lt a b = false ∧ lt b a = false) → (lt b c = false ∧ lt c b = false) →
    lt a c = false ∧ lt c a = false

instance {α : Type} (lt : α → α → Bool) (l : List α) : Decidable (StrictWeak lt l) :=
  inferInstanceAs (Decidable (_ ∧ _ ∧ _))

/-- `findFace` and `findNode` (util/RefineSerialMesh.cc:323-343): the number stored with the key, or the
largest number; `none` if the comparison is no order. -/
def mapFind {α : Type} (lt : α → α → Bool) (m : List (α × Nat)) (q : α) : Option Nat :=
  if StrictWeak lt (q :: m.map Prod.fst) then
    some (((m.find? fun e => !lt e.1 q && !lt q e.1).map Prod.snd).getD invalid)
  else none

/-- `nodeMap`, `faceMap` and the vectors of `refinedMesh` (util/RefineSerialMesh.cc:353-354,
src/SerialMesh.hh:106-110). -/
structure St (K : Type) where
  nodeMap : List (Pt K × Nat) := []
  faceMap : List ((Fin 3 → Nat) × Nat) := []
  cells : List SCell := []
  faces : List SFace := []
  nodes : List (Pt K) := []

/-- Finding or making one bounding node (util/RefineSerialMesh.cc:410-434). -/
def addNode (tol : K) (s : St K) (p : Pt K) : Option (St K × Nat) :=
  match mapFind (nodeLt tol) s.nodeMap p with
  | none => none
  | some node =>
    if node = invalid then
      some ({ s with nodeMap := s.nodeMap ++ [(p, s.nodes.length)], nodes := s.nodes ++ [p] }, s.nodes.length)
    else some (s, node)

/-- The nodes of face `lface` of a cell (util/RefineSerialMesh.cc:448-453). -/
def faceNodesOf (n : Fin 4 → Nat) (lface : Fin 4) : Fin 3 → Nat :=
  fun lnode => n (if lnode.val < lface.val then lnode.castSucc else lnode.succ)

/-- Finding or making one bounding face of the cell about to be stored (util/RefineSerialMesh.cc:441-472).
-/
def addFace (s : St K) (n : Fin 4 → Nat) (lface : Fin 4) : Option (St K × Nat) :=
  match mapFind faceLt s.faceMap (faceNodesOf n lface) with
  | none => none
  | some face =>
    if face = invalid then
      some ({ s with
        faceMap := s.faceMap ++ [(faceNodesOf n lface, s.faces.length)]
        faces := s.faces ++ [⟨![s.cells.length, invalid], faceNodesOf n lface⟩] }, s.faces.length)
    else
      match s.faces[face]? with
      | none => none
      | some e => some ({ s with faces := s.faces.set face ⟨![e.cells 0, s.cells.length], e.nodes⟩ }, face)

/-- The four bounding nodes (util/RefineSerialMesh.cc:408-435). -/
def addNodes (tol : K) (s : St K) (x : Tet K) : Option (St K × (Fin 4 → Nat)) :=
  (addNode tol s (x 0)).bind fun a =>
  (addNode tol a.1 (x 1)).bind fun b =>
  (addNode tol b.1 (x 2)).bind fun c =>
  (addNode tol c.1 (x 3)).bind fun d =>
  some (d.1, ![a.2, b.2, c.2, d.2])

/-- The four bounding faces (util/RefineSerialMesh.cc:439-473). -/
def addFaces (s : St K) (n : Fin 4 → Nat) : Option (St K × (Fin 4 → Nat)) :=
  (addFace s n 0).bind fun a =>
  (addFace a.1 n 1).bind fun b =>
  (addFace b.1 n 2).bind fun c =>
  (addFace c.1 n 3).bind fun d =>
  some (d.1, ![a.2, b.2, c.2, d.2])

/-- One refined tetrahedron (util/RefineSerialMesh.cc:401-483). -/
def addTet (tol : K) (material : Nat) (s : St K) (x : Tet K) : Option (St K) :=
  (addNodes tol s x).bind fun a =>
  (addFaces a.1 a.2).bind fun b =>
  some { b.1 with cells := b.1.cells ++ [⟨b.2, a.2, material⟩] }

/-- The corners of a coarse cell (util/RefineSerialMesh.cc:385-392). -/
def corners (val : Nat → K) (m : SerialMesh) (d : SCell) : Option (Tet K) :=
  (m.nodes[d.nodes 0]?).bind fun a => (m.nodes[d.nodes 1]?).bind fun b =>
  (m.nodes[d.nodes 2]?).bind fun c => (m.nodes[d.nodes 3]?).bind fun e =>
  some ![fun i => val (a.coords i), fun i => val (b.coords i), fun i => val (c.coords i), fun i => val (e.coords i)]

/-- The condition of the progress message (util/RefineSerialMesh.cc:380); `none` is the division by
zero. -/
def progress (numCells coarseCell : Nat) : Option Bool :=
  if numCells / 1000 = 0 then none else some (coarseCell % (numCells / 1000) = 0)

/-- One coarse cell (util/RefineSerialMesh.cc:380-484). -/
def refineCell (tol : K) (val : Nat → K) (m : SerialMesh) (s : St K) (coarseCell : Nat) : Option (St K) :=
  (progress m.numCells coarseCell).bind fun _ =>
  (m.cells[coarseCell]?).bind fun d =>
  (corners val m d).bind fun x =>
  ((List.finRange 8).map (refineTet x)).foldlM (addTet tol d.material) s

/-- The smaller of two coordinates, the first possibly not set yet (util/RefineSerialMesh.cc:368). -/
def minOpt (a : Option K) (b : K) : Option K :=
  match a with
  | none => some b
  | some a => some (if b < a then b else a)

/-- The larger of two coordinates (util/RefineSerialMesh.cc:369). -/
def maxOpt (a : Option K) (b : K) : Option K :=
  match a with
  | none => some b
  | some a => some (if a < b then b else a)

/-- `graphDiameter` (util/RefineSerialMesh.cc:360-374) from the corners of the cells. -/
def diameter (ts : List (Tet K)) : K :=
  let ext (i : Fin 3) : K :=
    let cs := ts.flatMap fun x => [x 0 i, x 1 i, x 2 i, x 3 i]
    (cs.foldl maxOpt none).getD 0 - (cs.foldl minOpt none).getD 0
  max (ext 0) (max (ext 1) (ext 2))

/-- `TOL` (util/RefineSerialMesh.cc:71). -/
def tolOf (ts : List (Tet K)) : K := 1 / 10 ^ 14 * diameter ts

/-- The corners of all cells, read by the loop at util/RefineSerialMesh.cc:362-372. -/
def allCorners (val : Nat → K) (m : SerialMesh) : Option (List (Tet K)) :=
  (List.range m.numCells).mapM fun c => (m.cells[c]?).bind (corners val m)

/-- The vectors of the refined mesh (util/RefineSerialMesh.cc:488-490: the counts are their lengths). -/
structure RMesh (K : Type) where
  cells : List SCell
  faces : List SFace
  nodes : List (Pt K)

/-- `refineMesh` (util/RefineSerialMesh.cc:350-491). -/
def refineMesh (val : Nat → K) (m : SerialMesh) : Option (RMesh K) :=
  (allCorners val m).bind fun ts =>
  ((List.range m.numCells).foldlM (refineCell (tolOf ts) val m) {}).bind fun s =>
  some ⟨s.cells, s.faces, s.nodes⟩

/-- The refined mesh as the mesh that is written to a file, `bits` giving the bit patterns of coordinates. -/
def RMesh.serial (bits : K → Nat) (r : RMesh K) : SerialMesh where
  numCells := r.cells.length
  numFaces := r.faces.length
  numNodes := r.nodes.length
  cells := r.cells
  faces := r.faces
  nodes := r.nodes.map fun p => ⟨fun i => bits (p i)⟩

end Verif.Refine
