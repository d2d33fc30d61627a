import Verif.Floating.Start

/-!
# Block Jacobi with the arithmetic of a machine

`SweeperPBJ` (src/SweeperPBJ.cc:145-219), with the floating-point code as a black box as in
`Verif.Floating.Model`.
-/
namespace Verif.Floating

open Verif.MeshFile Verif.TychoMesh Verif.Traverse

variable {F : Type} {nA nG : Nat}

/-- The traversal of `Util::sweepLocal` (src/Util.cc:138-145): as that of a sweep, but
`g_graphTraverserForward` does not communicate (src/Main.cc:282-317), and there is no limit on the work of
a step. -/
def Kernel.localCfg (K : Kernel F nA nG) (n : Nat) (T : Nat → Mesh) (D : Nat → Tables F) (sched : Schedule F)
    (source psi0 : Nat → Psi F) : Cfg (Psi F × Bound F) (Fin 3 → Fin nG → F) :=
  { K.cfg n T D sched source psi0 with doComm := false, maxCompute := 2 ^ 64 - 1 }

/-- `sweepLocal(psi, source, bound)` may return on all ranks with `psi'`. -/
def Kernel.LocalSwept (K : Kernel F nA nG) (n : Nat) (T : Nat → Mesh) (D : Nat → Tables F) (source psi : Nat → Psi F)
    (bound : Nat → Bound F) (psi' : Nat → Psi F) : Prop :=
  ∃ (sched : Schedule F) (s : State (Psi F × Bound F) (Fin 3 → Fin nG → F)), 0 < sched.threads ∧ sched.bound0 = bound ∧
    Reachable (K.localCfg n T D sched source psi) s ∧
    ∀ r < n, (s.rank r).phase = .finished ∧ (s.rank r).data.1 = psi' r

/-- A packet of the exchange: `gSide`, `angle` and `localFaceData` (src/CommSides.cc:170-188). -/
structure Packet (F : Type) (nG : Nat) where
  gSide : Nat
  angle : Nat
  data : Fin 3 → Fin nG → F

/-- `c_adjRanks` (src/CommSides.cc:52-65). -/
def adjRanks (T : Mesh) : List Nat :=
  ((List.range T.nCells).flatMap fun c => (List.finRange 4).filterMap fun f =>
    if (T.getAdjCell c f).bind toNone = none then (T.getAdjRank c f).bind toNone else none).foldl
      (fun l q => if q ∈ l then l else l ++ [q]) []

/-- The packets a rank sends to rank `q`, in order: `c_sendMetaData` (src/CommSides.cc:78-100) and what
`commSides` puts there (src/CommSides.cc:163-189). -/
def Kernel.packets (K : Kernel F nA nG) (T : Mesh) (D : Tables F) (psi : Psi F) (q : Nat) : List (Packet F nG) :=
  (List.range T.nCells).flatMap fun c => (List.finRange 4).flatMap fun f =>
    if (T.getAdjRank c f).bind toNone = some q then
      (List.range nA).filterMap fun a =>
        if K.outgoing D a c f then
          some ⟨(T.getLGSide ((T.getSide c f).getD 0)).getD 0, a, fun k g => psi g ((T.getFaceToCellVrtx c f k).getD 0) a c⟩
        else none
    else []

/-- `c_numRecvPackets` for a neighbour `q` (src/CommSides.cc:95-97). -/
def Kernel.numRecv (K : Kernel F nA nG) (T : Mesh) (D : Tables F) (q : Nat) : Nat :=
  ((List.range T.nCells).flatMap fun c => (List.finRange 4).flatMap fun f =>
    if (T.getAdjRank c f).bind toNone = some q then (List.range nA).filter fun a => !K.outgoing D a c f else []).length

/-- What is done with a packet received (src/CommSides.cc:220-235). -/
def unpack (T : Mesh) (b : Bound F) (p : Packet F nG) : Bound F := fun g k a s =>
  if h : a = p.angle ∧ s = (T.getGLSide p.gSide).getD 0 ∧ g < nG then p.data k ⟨g, h.2.2⟩ else b g k a s

/-- `commSides` (src/CommSides.cc:119-245) may return on all ranks with `bound'`: `MPI_Waitany` takes the
messages of the adjacent ranks in some order. The calls themselves (posting, matching, returning) are the subject of C37;
here a rank receives what the other packed for it, which has the expected length (`packet_counts`). -/
def Kernel.Exchange (K : Kernel F nA nG) (n : Nat) (T : Nat → Mesh) (D : Nat → Tables F) (psi : Nat → Psi F)
    (bound bound' : Nat → Bound F) : Prop :=
  ∀ r < n, ∃ order : List Nat, order.Perm (adjRanks (T r)) ∧
    bound' r = (order.flatMap fun q => K.packets (T q) (D q) (psi q) r).foldl (unpack (T r)) (bound r)

/-- The arithmetic of the stopping test of block Jacobi. -/
structure Stop (F : Type) where
  /-- the loops `errL1 += fabs(psi0[i] - psi[i])` and `normL1 += fabs(psi[i])` (src/SweeperPBJ.cc:190-197) -/
  error : List (F × F) → F
  norm : List (F × F) → F
  /-- `Comm::gsum`, as in `Test` -/
  gsum : List F → F
  /-- `errL1 / normL1 < g_ddErrMax` (src/SweeperPBJ.cc:202) -/
  below : F → F → Bool

/-- The pairs of old and new flux in the order of `PsiData` (src/PsiData.hh:155-162): cell, angle, vertex,
group from slow to fast. -/
def fluxPairs (nA nG nCells : Nat) (old new : Psi F) : List (F × F) :=
  (List.range nCells).flatMap fun c => (List.range nA).flatMap fun a => (List.finRange 4).flatMap fun v =>
    (List.range nG).map fun g => (old g v a c, new g v a c)

/-- The test at the end of an iteration (src/SweeperPBJ.cc:190-203). -/
def Stop.met (stop : Stop F) (nA nG n : Nat) (T : Nat → Mesh) (prev psi : Nat → Psi F) : Bool :=
  let p := fun r => fluxPairs nA nG (T r).nCells (prev r) (psi r)
  stop.below (stop.gsum ((List.range n).map fun r => stop.error (p r))) (stop.gsum ((List.range n).map fun r => stop.norm (p r)))

/-- The loop of `SweeperPBJ::sweep` (src/SweeperPBJ.cc:181-212) from iteration `iter`, flux `psi`, flux
`prev` of the iteration before and boundary arrays `bound`. The list are the fluxes after each local
sweep; the last two the flux and boundary arrays left. -/
inductive Kernel.JacobiLoop (K : Kernel F nA nG) (stop : Stop F) (iterMax n : Nat) (T : Nat → Mesh) (D : Nat → Tables F)
    (source : Nat → Psi F) :
    Nat → (Nat → Psi F) → (Nat → Psi F) → (Nat → Bound F) → List (Nat → Psi F) → (Nat → Psi F) → (Nat → Bound F) → Prop
  | limit {iter psi prev bound} (h : ¬ iter < iterMax) : K.JacobiLoop stop iterMax n T D source iter psi prev bound [] psi bound
  | conv {iter psi prev bound psi'} (h : iter < iterMax) (hs : K.LocalSwept n T D source psi bound psi')
      (hc : stop.met nA nG n T prev psi' = true) :
    K.JacobiLoop stop iterMax n T D source iter psi prev bound [psi'] psi' bound
  | next {iter psi prev bound psi' bound' rest psiEnd boundEnd} (h : iter < iterMax) (hs : K.LocalSwept n T D source psi bound psi')
      (hc : stop.met nA nG n T prev psi' = false) (hx : K.Exchange n T D psi' bound bound')
      (hr : K.JacobiLoop stop iterMax n T D source (iter + 1) psi' psi' bound' rest psiEnd boundEnd) :
    K.JacobiLoop stop iterMax n T D source iter psi prev bound (psi' :: rest) psiEnd boundEnd

/-- `SweeperPBJ::sweep` (src/SweeperPBJ.cc:168-219). -/
def Kernel.Jacobi (K : Kernel F nA nG) (stop : Stop F) (iterMax n : Nat) (T : Nat → Mesh) (D : Nat → Tables F)
    (source psi : Nat → Psi F) (bound : Nat → Bound F) (sweeps : List (Nat → Psi F)) (psiEnd : Nat → Psi F)
    (boundEnd : Nat → Bound F) : Prop :=
  K.JacobiLoop stop iterMax n T D source 1 psi psi bound sweeps psiEnd boundEnd

/-- Source iteration with `SweeperPBJ` (src/SweeperPBJ.cc:148-162, src/SourceIteration.cc:127-207) may hold
flux `psi` and boundary arrays `bound` after `k` calls of `sweep`, each of which made the number of local sweeps
in the list (latest first). The boundary arrays are kept from one call to the next. -/
inductive Kernel.JacobiIterated (K : Kernel F nA nG) (stop : Stop F) (iterMax n : Nat) (T : Nat → Mesh) (D : Nat → Tables F) :
    List Nat → (Nat → Psi F) → (Nat → Bound F) → Prop
  | zero {bound} : K.JacobiIterated stop iterMax n T D [] (fun _ _ _ _ _ => K.zero) bound
  | succ {l psi bound sweeps psi' bound'} : K.JacobiIterated stop iterMax n T D l psi bound →
      K.Jacobi stop iterMax n T D (fun r => K.totalSource (D r) (psi r)) psi bound sweeps psi' bound' →
      K.JacobiIterated stop iterMax n T D (sweeps.length :: l) psi' bound'

end Verif.Floating

namespace Verif.Floating.Spec

open Verif.MeshFile Verif.TychoMesh Verif.Traverse Verif.Floating

variable {F : Type} {nA nG : Nat}

/-- Going upwind from cell `c` in direction `a` one may cross `k` faces between parts. -/
inductive Crossings (K : Kernel F nA nG) (coord : Nat → F) (m : SerialMesh) (pv : List Nat) (a : Nat) : Nat → Nat → Prop
  | nil (c) : Crossings K coord m pv a c 0
  | within {c f x c' f' k} (hd : Dot K coord m a c f x) (hp : K.positive x = false) (ha : Across m c f c' f')
      (hs : pv[c']? = pv[c]?) (h : Crossings K coord m pv a c' k) : Crossings K coord m pv a c k
  | between {c f x c' f' k} (hd : Dot K coord m a c f x) (hp : K.positive x = false) (ha : Across m c f c' f')
      (hs : pv[c']? ≠ pv[c]?) (h : Crossings K coord m pv a c' k) : Crossings K coord m pv a c (k + 1)

/-- A test that is met only when no entry has changed. -/
def Strict (stop : Stop F) : Prop :=
  ∀ parts : List (List (F × F)), stop.below (stop.gsum (parts.map stop.error)) (stop.gsum (parts.map stop.norm)) = true →
    ∀ p ∈ parts, ∀ q ∈ p, q.1 = q.2

/-- A test that is met when no entry has changed. -/
def Lenient (stop : Stop F) : Prop :=
  ∀ parts : List (List (F × F)), (∀ p ∈ parts, ∀ q ∈ p, q.1 = q.2) →
    stop.below (stop.gsum (parts.map stop.error)) (stop.gsum (parts.map stop.norm)) = true

end Verif.Floating.Spec
