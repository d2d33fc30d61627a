import Verif.Floating.Jacobi

/-!
# Source iteration and block Jacobi in one loop, with the arithmetic of a machine

`SweeperPBJSI` (src/SweeperPBJ.cc:227-305), with the floating-point code as a black box as in
`Verif.Floating.Model`.
-/
namespace Verif.Floating

open Verif.MeshFile Verif.TychoMesh Verif.Traverse

variable {F : Type} {nA nG : Nat}

/-- `calcTotalSource(c_source, phi0, totalSource)` (src/Util.cc:118-130). -/
def Kernel.sourceOf (K : Kernel F nA nG) (D : Tables F) (phi : Nat → Fin 4 → Nat → F) : Psi F := fun g v a c =>
  K.total (((D.source[c]?).getD fun _ _ => K.zero) v a) ((D.sigmaS[c]?).getD K.zero) (phi g v c)

/-- The test at the end of an iteration (src/SweeperPBJ.cc:256-275); the pairs are of `phi1` and `phi0`. -/
def Stop.metPhi (stop : Stop F) (nG n : Nat) (T : Nat → Mesh) (new old : Nat → Nat → Fin 4 → Nat → F) : Bool :=
  let p := fun r => pairs nG (T r).nCells (new r) (old r)
  stop.below (stop.gsum ((List.range n).map fun r => stop.error (p r))) (stop.gsum ((List.range n).map fun r => stop.norm (p r)))

/-- The loop of `SweeperPBJSI::solve` (src/SweeperPBJ.cc:246-280) from iteration `iter`, scalar flux `phi`, flux
`psi` and boundary arrays `bound`. The list are the fluxes after each iteration, the last the flux left. -/
inductive Kernel.BlockLoop (K : Kernel F nA nG) (stop : Stop F) (iterMax n : Nat) (T : Nat → Mesh) (D : Nat → Tables F) :
    Nat → (Nat → Nat → Fin 4 → Nat → F) → (Nat → Psi F) → (Nat → Bound F) → List (Nat → Psi F) → (Nat → Psi F) → Prop
  | limit {iter phi psi bound} (h : ¬ iter < iterMax) : K.BlockLoop stop iterMax n T D iter phi psi bound [] psi
  | conv {iter phi psi bound psi' bound'} (h : iter < iterMax)
      (hs : K.LocalSwept n T D (fun r => K.sourceOf (D r) (phi r)) psi bound psi') (hx : K.Exchange n T D psi' bound bound')
      (hc : stop.metPhi nG n T (fun r => K.phi (psi' r)) phi = true) :
    K.BlockLoop stop iterMax n T D iter phi psi bound [psi'] psi'
  | next {iter phi psi bound psi' bound' rest psiEnd} (h : iter < iterMax)
      (hs : K.LocalSwept n T D (fun r => K.sourceOf (D r) (phi r)) psi bound psi') (hx : K.Exchange n T D psi' bound bound')
      (hc : stop.metPhi nG n T (fun r => K.phi (psi' r)) phi = false)
      (hr : K.BlockLoop stop iterMax n T D (iter + 1) (fun r => K.phi (psi' r)) psi' bound' rest psiEnd) :
    K.BlockLoop stop iterMax n T D iter phi psi bound (psi' :: rest) psiEnd

/-- `SweeperPBJSI::solve` (src/SweeperPBJ.cc:228-292): scalar flux, flux and boundary arrays start at zero. -/
def Kernel.Blocks (K : Kernel F nA nG) (stop : Stop F) (iterMax n : Nat) (T : Nat → Mesh) (D : Nat → Tables F)
    (fluxes : List (Nat → Psi F)) (psiEnd : Nat → Psi F) : Prop :=
  K.BlockLoop stop iterMax n T D 1 (fun _ _ _ _ => K.zero) (fun _ _ _ _ _ => K.zero) (fun _ _ _ _ _ => K.zero) fluxes psiEnd

end Verif.Floating

namespace Verif.Floating.Spec

open Verif.MeshFile Verif.TychoMesh Verif.Traverse Verif.Floating

variable {F : Type} {nA nG : Nat}

/-- Seen from cell `c`: `psi` in the cells of the same part, `old` in all others. -/
def mix (pv : List Nat) (c : Nat) (old psi : Psi F) : Psi F := fun g v a c' =>
  if pv[c']? = pv[c]? then psi g v a c' else old g v a c'

/-- As `Solution`, except that across a face between parts `old` flows in. -/
def BlockSolution (K : Kernel F nA nG) (coord : Nat → F) (m : SerialMesh) (pv : List Nat) (source old psi : Psi F) : Prop :=
  ∀ c < m.numCells, ∀ a < nA, ∃ (p : Fin 4 → Fin 3 → F) (q : Fin 4 → Fin 3 → Fin 3 → F) (dots : Fin 4 → F) (sT sS : F)
      (c2f : Fin 4 → Fin 4 → Fin 3) (inc : Fin 3 → Fin 4 → Fin nG → F), CellPoints coord m c p ∧ (∀ f, FacePoints coord m c f (q f)) ∧
    (∀ f, K.omegaDotN a (q f) p = some (dots f)) ∧ Sigma K m c sT sS ∧
    (∀ f v, (v = f → c2f f v = 0) ∧ (v ≠ f → OnFace m c f (c2f f v) v)) ∧
    Incoming K m a c dots (mix pv c old psi) inc ∧
    ∀ v (g : Fin nG), psi g v a c = K.solve (K.volume p) (fun f => K.area (q f)) dots sT c2f inc (fun v g => source g v a c) v g

/-- The source of the problem plus scattering of the scalar flux `phi`. -/
def TotalOf (K : Kernel F nA nG) (coord : Nat → F) (m : SerialMesh) (phi : Nat → Fin 4 → Nat → F) (source : Psi F) : Prop :=
  ∀ c < m.numCells, ∃ p sT sS, CellPoints coord m c p ∧ Sigma K m c sT sS ∧ ∀ g < nG, ∀ a < nA, ∀ v,
    source g v a c = K.total (K.source a (p v) sT sS) sS (phi g v c)

/-- `psi`, with scalar flux `phi`, is iterate `k` of: start from zero; in each step all parts are solved at once, with
the scattering source of the iterate before and its flux across the faces between parts. -/
inductive BlockIterates (K : Kernel F nA nG) (coord : Nat → F) (m : SerialMesh) (pv : List Nat) :
    Nat → (Nat → Fin 4 → Nat → F) → Psi F → Prop
  | zero : BlockIterates K coord m pv 0 (fun _ _ _ => K.zero) (fun _ _ _ _ => K.zero)
  | succ {k phi old src psi} (h : BlockIterates K coord m pv k phi old) (ht : TotalOf K coord m phi src)
      (hs : BlockSolution K coord m pv src old psi) :
    BlockIterates K coord m pv (k + 1) (fun g v c => K.toPhi fun a => psi g v a c) psi

end Verif.Floating.Spec
