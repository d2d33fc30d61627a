import Verif.Floating.Model

/-!
# What the machine computes, said on the serial mesh

No rank, part, message, thread or schedule is mentioned: which values of which cells the black boxes are
applied to.
-/
namespace Verif.Floating.Spec

open Verif.MeshFile Verif.TychoMesh Verif.Traverse Verif.Floating

variable {F : Type} {nA nG : Nat}

/-- The position of node `i` of the serial mesh. -/
def Position (coord : Nat → F) (m : SerialMesh) (i : Nat) (x : Fin 3 → F) : Prop :=
  ∃ nd, m.nodes[i]? = some nd ∧ x = fun k => coord (nd.coords k)

/-- `p` are the positions of the vertices of cell `c`. -/
def CellPoints (coord : Nat → F) (m : SerialMesh) (c : Nat) (p : Fin 4 → Fin 3 → F) : Prop :=
  ∃ d, m.cells[c]? = some d ∧ ∀ v, Position coord m (d.nodes v) (p v)

/-- `q` are the positions of the nodes of the face of `c` opposite to its vertex `f`, in the order of the
file. -/
def FacePoints (coord : Nat → F) (m : SerialMesh) (c : Nat) (f : Fin 4) (q : Fin 3 → Fin 3 → F) : Prop :=
  ∃ g e, FaceOf m c f g ∧ m.faces[g]? = some e ∧ ∀ k, Position coord m (e.nodes k) (q k)

/-- Position `k` of the face of `c` opposite to vertex `f` is vertex `v` of `c`. -/
def OnFace (m : SerialMesh) (c : Nat) (f : Fin 4) (k : Fin 3) (v : Fin 4) : Prop :=
  ∃ g e d, FaceOf m c f g ∧ m.faces[g]? = some e ∧ m.cells[c]? = some d ∧ d.nodes v = e.nodes k

/-- The product of direction `a` with the normal of face `f` of cell `c`, as the machine has it. -/
def Dot (K : Kernel F nA nG) (coord : Nat → F) (m : SerialMesh) (a c : Nat) (f : Fin 4) (x : F) : Prop :=
  ∃ q p, FacePoints coord m c f q ∧ CellPoints coord m c p ∧ K.omegaDotN a q p = some x

/-- Cross sections of a cell. -/
def Sigma (K : Kernel F nA nG) (m : SerialMesh) (c : Nat) (sT sS : F) : Prop :=
  ∃ d, m.cells[c]? = some d ∧
    ((d.material = 1 ∧ sT = K.sigmaT1 ∧ sS = K.sigmaS1) ∨ (d.material = 2 ∧ sT = K.sigmaT2 ∧ sS = K.sigmaS2))

/-- No face is outgoing from both of its cells. -/
def Consistent (K : Kernel F nA nG) (coord : Nat → F) (m : SerialMesh) : Prop :=
  ∀ c f c' f', Across m c f c' f' → ∀ a < nA, ∀ x x', Dot K coord m a c f x → Dot K coord m a c' f' x' →
    K.positive x = true → K.positive x' = false

/-- `inc` are the incoming values of cell `c`: by face vertex, face and group. -/
def Incoming (K : Kernel F nA nG) (m : SerialMesh) (a c : Nat) (dots : Fin 4 → F) (psi : Psi F)
    (inc : Fin 3 → Fin 4 → Fin nG → F) : Prop :=
  ∀ k f g, (K.positive (dots f) = true → inc k f g = K.zero) ∧
    (K.positive (dots f) = false →
      (∀ c' f' w, Across m c f c' f' → OnFace m c' f' k w → inc k f g = psi g w a c') ∧
      ((∀ c' f', ¬ Across m c f c' f') → inc k f g = K.zero))

/-- The flux of every cell is what `solve` returns for the geometry and data of the cell and the fluxes of
its upwind neighbours: value for value, not up to rounding. -/
def Solution (K : Kernel F nA nG) (coord : Nat → F) (m : SerialMesh) (source psi : Psi F) : Prop :=
  ∀ c < m.numCells, ∀ a < nA, ∃ (p : Fin 4 → Fin 3 → F) (q : Fin 4 → Fin 3 → Fin 3 → F) (dots : Fin 4 → F) (sT sS : F)
      (c2f : Fin 4 → Fin 4 → Fin 3) (inc : Fin 3 → Fin 4 → Fin nG → F), CellPoints coord m c p ∧ (∀ f, FacePoints coord m c f (q f)) ∧
    (∀ f, K.omegaDotN a (q f) p = some (dots f)) ∧ Sigma K m c sT sS ∧
    (∀ f v, (v = f → c2f f v = 0) ∧ (v ≠ f → OnFace m c f (c2f f v) v)) ∧
    Incoming K m a c dots psi inc ∧
    ∀ v (g : Fin nG), psi g v a c = K.solve (K.volume p) (fun f => K.area (q f)) dots sT c2f inc (fun v g => source g v a c) v g

/-- The source of the problem plus scattering of the flux `psi`. -/
def Total (K : Kernel F nA nG) (coord : Nat → F) (m : SerialMesh) (psi source : Psi F) : Prop :=
  ∀ c < m.numCells, ∃ p sT sS, CellPoints coord m c p ∧ Sigma K m c sT sS ∧ ∀ g < nG, ∀ a < nA, ∀ v,
    source g v a c = K.total (K.source a (p v) sT sS) sS (K.toPhi fun a => psi g v a c)

/-- Two arrays hold the same values in all cells, directions and groups. -/
def Same (nA nG : Nat) (m : SerialMesh) (psi psi' : Psi F) : Prop :=
  ∀ g < nG, ∀ v, ∀ a < nA, ∀ c < m.numCells, psi g v a c = psi' g v a c

/-- The arrays `psi` of the ranks hold `psiS`, each cell on its rank under its local number. -/
def Holds (nA nG : Nat) (n : Nat) (T : Nat → Mesh) (psi : Nat → Psi F) (psiS : Psi F) : Prop :=
  ∀ r < n, ∀ i c, (T r).getLGCell i = some c → ∀ g < nG, ∀ v, ∀ a < nA, psi r g v a i = psiS g v a c

end Verif.Floating.Spec
