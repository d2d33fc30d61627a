import Verif.Floating.Blocks

/-!
# Block Jacobi around source iteration, with the arithmetic of a machine

`SweeperPBJOuter` with `g_useSourceIteration` (src/SweeperPBJ.cc:51-139), with the floating-point code as a
black box as in `Verif.Floating.Model`.
-/
namespace Verif.Floating

open Verif.MeshFile Verif.TychoMesh Verif.Traverse

variable {F : Type} {nA nG : Nat}

/-- The loop of `fixedPoint` (src/SourceIteration.cc:141-189), where `sweep` is a local sweep with the boundary arrays
`bound` (src/SweeperPBJ.cc:128-138), from iteration `iter`, the error before it and flux `psi`. The list are the
fluxes after each local sweep, the last the flux left. -/
inductive Kernel.InnerLoop (K : Kernel F nA nG) (test : Test F) (iterMax n : Nat) (T : Nat → Mesh) (D : Nat → Tables F)
    (bound : Nat → Bound F) : Nat → F → (Nat → Psi F) → List (Nat → Psi F) → (Nat → Psi F) → Prop
  | stop {iter error psi} (h : iterMax ≤ iter ∨ test.above error = false) : K.InnerLoop test iterMax n T D bound iter error psi [] psi
  | step {iter error psi psi' rest psiEnd} (h : iter < iterMax) (he : test.above error = true)
      (hs : K.LocalSwept n T D (fun r => K.totalSource (D r) (psi r)) psi bound psi')
      (hr : K.InnerLoop test iterMax n T D bound (iter + 1) (K.errorOf test n T psi psi') psi' rest psiEnd) :
    K.InnerLoop test iterMax n T D bound iter error psi (psi' :: rest) psiEnd

/-- The loop of `SweeperPBJOuter::solve` (src/SweeperPBJ.cc:74-113) from iteration `iter`, flux `psi`, flux `prev` of the
iteration before (`psi0`) and boundary arrays `bound`. The lists are the fluxes of the inner loops. -/
inductive Kernel.OuterLoop (K : Kernel F nA nG) (test : Test F) (iterMax : Nat) (stop : Stop F) (ddMax n : Nat) (T : Nat → Mesh)
    (D : Nat → Tables F) : Nat → (Nat → Psi F) → (Nat → Psi F) → (Nat → Bound F) → List (List (Nat → Psi F)) → (Nat → Psi F) → Prop
  | limit {iter psi prev bound} (h : ¬ iter < ddMax) : K.OuterLoop test iterMax stop ddMax n T D iter psi prev bound [] psi
  | conv {iter psi prev bound fl psi'} (h : iter < ddMax) (hi : K.InnerLoop test iterMax n T D bound 0 test.one psi fl psi')
      (hc : stop.met nA nG n T prev psi' = true) : K.OuterLoop test iterMax stop ddMax n T D iter psi prev bound [fl] psi'
  | next {iter psi prev bound fl psi' bound' rest psiEnd} (h : iter < ddMax)
      (hi : K.InnerLoop test iterMax n T D bound 0 test.one psi fl psi') (hc : stop.met nA nG n T prev psi' = false)
      (hx : K.Exchange n T D psi' bound bound')
      (hr : K.OuterLoop test iterMax stop ddMax n T D (iter + 1) psi' psi' bound' rest psiEnd) :
    K.OuterLoop test iterMax stop ddMax n T D iter psi prev bound (fl :: rest) psiEnd

/-- `SweeperPBJOuter::solve` (src/SweeperPBJ.cc:60-123): `c_psi` and `c_psiBound` are set to zero, and so is `psi0` by its
constructor (src/PsiData.hh:92-101). -/
def Kernel.Outer (K : Kernel F nA nG) (test : Test F) (iterMax : Nat) (stop : Stop F) (ddMax n : Nat) (T : Nat → Mesh)
    (D : Nat → Tables F) (runs : List (List (Nat → Psi F))) (psiEnd : Nat → Psi F) : Prop :=
  K.OuterLoop test iterMax stop ddMax n T D 1 (fun _ _ _ _ _ => K.zero) (fun _ _ _ _ _ => K.zero) (fun _ _ _ _ _ => K.zero) runs psiEnd

end Verif.Floating

namespace Verif.Floating.Spec

open Verif.MeshFile Verif.TychoMesh Verif.Traverse Verif.Floating

variable {F : Type} {nA nG : Nat}

/-- `psi` is source iterate `k`, from `start`, of the parts with `old` flowing in across the faces between them. -/
inductive InnerIterates (K : Kernel F nA nG) (coord : Nat → F) (m : SerialMesh) (pv : List Nat) (old start : Psi F) :
    Nat → Psi F → Prop
  | zero : InnerIterates K coord m pv old start 0 start
  | succ {k psi src psi'} (h : InnerIterates K coord m pv old start k psi) (ht : Total K coord m psi src)
      (hs : BlockSolution K coord m pv src old psi') : InnerIterates K coord m pv old start (k + 1) psi'

/-- Block Jacobi from zero, where a block solve is the number of source iterations in the list (latest first), starting
from the iterate before. -/
inductive OuterIterates (K : Kernel F nA nG) (coord : Nat → F) (m : SerialMesh) (pv : List Nat) : List Nat → Psi F → Prop
  | zero : OuterIterates K coord m pv [] (fun _ _ _ _ => K.zero)
  | succ {l old k psi} (h : OuterIterates K coord m pv l old) (hi : InnerIterates K coord m pv old old k psi) :
    OuterIterates K coord m pv (k :: l) psi

/-- The test of `fixedPoint` ends the loop only when no entry has changed. -/
def StrictTest (test : Test F) : Prop :=
  ∀ parts : List (List (F × F)), test.above (test.quotient (test.gsum (parts.map test.error)) (test.gsum (parts.map test.norm))) = false →
    ∀ p ∈ parts, ∀ q ∈ p, q.1 = q.2

/-- The test of `fixedPoint` ends the loop when no entry has changed. -/
def LenientTest (test : Test F) : Prop :=
  ∀ parts : List (List (F × F)), (∀ p ∈ parts, ∀ q ∈ p, q.1 = q.2) →
    test.above (test.quotient (test.gsum (parts.map test.error)) (test.gsum (parts.map test.norm))) = false

end Verif.Floating.Spec
