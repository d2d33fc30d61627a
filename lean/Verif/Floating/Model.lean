import Verif.TychoMesh.Link2
import Verif.Problem.Model

/-!
# The solver with the arithmetic of a machine

Everywhere else `double` is a number of an ordered field. Here it is an arbitrary type `F` on which
nothing is assumed: not that addition is associative, not that `0 + x` is `x`. The straight-line
floating-point code is a black box (`Kernel`), the same on every rank since every rank runs the same
executable, so any rounding, contraction or reordering the compiler does inside a function is allowed.
What is modelled is everything around it: which values reach which function, through the partition, the
messages, the threads and the schedule.
-/
namespace Verif.Floating

open Verif.MeshFile Verif.TychoMesh Verif.Traverse

/-- The floating-point functions of the program, for `nA` directions and `nG` groups. -/
structure Kernel (F : Type) (nA nG : Nat) where
  /-- `0.0` -/
  zero : F
  /-- `getTetVolume` (src/TychoMesh.cc:95-117) of the vertices of a cell -/
  volume : (Fin 4 → Fin 3 → F) → F
  /-- `getTriangleArea` (src/TychoMesh.cc:67-86) of the vertices of a face -/
  area : (Fin 3 → Fin 3 → F) → F
  /-- `getNormal` and the product with direction `a` (src/TychoMesh.cc:124-187, 211-223), of the vertices
  of a face and of its cell; `none` is a read beyond the array -/
  omegaDotN : Nat → (Fin 3 → Fin 3 → F) → (Fin 4 → Fin 3 → F) → Option F
  /-- `> 0` in `isOutgoing` (src/TychoMesh.hh:107-108) -/
  positive : F → Bool
  /-- the cross sections of the input file -/
  sigmaT1 : F
  sigmaS1 : F
  sigmaT2 : F
  sigmaS2 : F
  /-- the assignment of `hatSource` (src/Problem.cc:62-84), of angle, vertex and cross sections -/
  source : Nat → (Fin 3 → F) → F → F → F
  /-- the part of `SweepData::update` between the reads and the writes (src/SweepData.hh:164-166):
  `Transport::solve` of volume, areas, `Ω·n`, cross section, face vertex numbers, incoming fluxes and
  source, for all groups -/
  solve : F → (Fin 4 → F) → (Fin 4 → F) → F → (Fin 4 → Fin 4 → Fin 3) → (Fin 3 → Fin 4 → Fin nG → F) →
    (Fin 4 → Fin nG → F) → Fin 4 → Fin nG → F
  /-- the sum over angles of `psiToPhi` (src/Util.cc:87-96) for one group, vertex and cell -/
  toPhi : (Fin nA → F) → F
  /-- the assignment of `calcTotalSource` (src/Util.cc:126-128), of source, cross section and `phi` -/
  total : F → F → F → F

variable {F : Type} {nA nG : Nat}

/-- A row of `c_nodeCoords` (src/TychoMeshIO.cc:168-174); `none` is a read beyond the array. -/
def nodeCoord (coord : Nat → F) (part : Part) (node : Nat) : Option (Fin 3 → F) :=
  if node < part.numNodes then part.nodes[node]?.map fun d k => coord (d.coords k) else none

/-- `getCellVrtxCoords` (src/TychoMesh.cc:265-277). -/
def cellCoords (coord : Nat → F) (part : Part) (T : Mesh) (c : Nat) : Option (Fin 4 → Fin 3 → F) :=
  complete fun v => (T.getCellNode c v).bind (nodeCoord coord part)

/-- `getFaceVrtxCoords` (src/TychoMesh.cc:283-295). -/
def faceCoords (coord : Nat → F) (part : Part) (T : Mesh) (c : Nat) (f : Fin 4) : Option (Fin 3 → Fin 3 → F) :=
  complete fun k => (T.getFaceToCellVrtx c f k).bind fun v => (T.getCellNode c v).bind (nodeCoord coord part)

/-- The arrays a rank has after set-up: `c_cellVolume`, `c_faceArea`, `c_omegaDotN` (by angle, then
cell), `g_sigmaT`, `g_sigmaS` and the source (by cell, the same for all groups). -/
structure Tables (F : Type) where
  volume : List F
  area : List (Fin 4 → F)
  omegaDotN : List (List (Fin 4 → F))
  sigmaT : List F
  sigmaS : List F
  source : List (Fin 4 → Nat → F)

/-- Volumes, areas and `Ω·n` of the mesh constructor (src/TychoMesh.cc:199-223), `createCrossSections`
(src/Problem.cc:149-172) and `hatSource` (src/Problem.cc:55-86) on a rank. -/
def Kernel.start (K : Kernel F nA nG) (coord : Nat → F) (part : Part) (T : Mesh) : Option (Tables F) := do
  let volume ← (List.range T.nCells).mapM fun c => (cellCoords coord part T c).map K.volume
  let area ← (List.range T.nCells).mapM fun c => complete fun f => (faceCoords coord part T c f).map K.area
  let dots ← (List.range nA).mapM fun a => (List.range T.nCells).mapM fun c => complete fun f =>
    (faceCoords coord part T c f).bind fun q => (cellCoords coord part T c).bind fun p => K.omegaDotN a q p
  let (sT, sS) ← Verif.Problem.createCrossSections K.sigmaT1 K.sigmaS1 K.sigmaT2 K.sigmaS2 T.material
  let source ← (List.range T.nCells).mapM fun c => (cellCoords coord part T c).map fun p v a =>
    K.source a (p v) ((sT[c]?).getD K.zero) ((sS[c]?).getD K.zero)
  some ⟨volume, area, dots, sT, sS, source⟩

/-- The settings of a sweep that are free: threads, batch, protocol, buffering of messages, priorities,
what the new `PsiBoundData` holds. -/
structure Schedule (F : Type) where
  threads : Nat
  batch : Nat
  protocol : Protocol
  rendezvous : Bool
  priority : Nat → Nat → Nat → Nat
  bound0 : Nat → Bound F

/-- `getOmegaDotN` (src/TychoMesh.hh:99-100). -/
def Kernel.omega (K : Kernel F nA nG) (D : Tables F) (a c : Nat) : Fin 4 → F :=
  ((D.omegaDotN[a]?).bind fun l => l[c]?).getD fun _ => K.zero

/-- `isOutgoing` (src/TychoMesh.hh:107-108). -/
def Kernel.outgoing (K : Kernel F nA nG) (D : Tables F) (a c : Nat) (f : Fin 4) : Bool := K.positive (K.omega D a c f)

/-- The mesh queries of a rank (src/TychoMesh.hh:70-116). -/
def Kernel.mesh (K : Kernel F nA nG) (T : Mesh) (D : Tables F) : RankMesh where
  nCells := T.nCells
  adjCell c f := (T.getAdjCell c f).bind toNone
  adjRank c f := (T.getAdjRank c f).bind toNone
  outgoing := K.outgoing D
  side c f := (T.getSide c f).getD 0
  lgSide s := (T.getLGSide s).getD 0
  glSide g := (T.getGLSide g).getD 0
  sideCell s := (T.getSideCell s).getD 0

/-- `populateLocalPsiBound` (src/Transport.cc:740-776). Each entry is written by exactly one iteration of
the loops. -/
def Kernel.localBound (K : Kernel F nA nG) (T : Mesh) (D : Tables F) (a c : Nat) (psi : Psi F) (bound : Bound F) :
    Fin 3 → Fin 4 → Fin nG → F := fun k f g =>
  if K.outgoing D a c f then K.zero else
    match (T.getAdjCell c f).bind toNone with
    | some n => psi g ((T.getNeighborVrtx c f k).getD 0) a n
    | none => match (T.getAdjRank c f).bind toNone with
      | some _ => bound g k a ((T.getSide c f).getD 0)
      | none => K.zero

/-- The face vertex numbers `calcIncomingFlux` reads (src/Transport.cc:184-270): those of the vertices on
the face. -/
def faceVertex (T : Mesh) (c : Nat) : Fin 4 → Fin 4 → Fin 3 := fun f v =>
  if v = f then 0 else (T.getCellToFaceVrtx c f v).getD 0

/-- `SweepData::update` (src/SweepData.hh:139-174). -/
def Kernel.update (K : Kernel F nA nG) (T : Mesh) (D : Tables F) (source : Psi F) (c a : Nat) (d : Psi F × Bound F) :
    Psi F × Bound F :=
  let x := K.solve ((D.volume[c]?).getD K.zero) ((D.area[c]?).getD fun _ => K.zero) (K.omega D a c)
    ((D.sigmaT[c]?).getD K.zero) (faceVertex T c) (K.localBound T D a c d.1 d.2) fun v g => source g v a c
  (fun g v a' c' => if h : a' = a ∧ c' = c ∧ g < nG then x v ⟨g, h.2.2⟩ else d.1 g v a' c', d.2)

/-- The traversal of `SweeperTraverse::sweep` (src/SweeperTraverse.cc:82-89) on `n` ranks, with
`SweepData` (src/SweepData.hh:85-174) as its data object. -/
def Kernel.cfg (K : Kernel F nA nG) (n : Nat) (T : Nat → Mesh) (D : Nat → Tables F) (sched : Schedule F)
    (source psi0 : Nat → Psi F) : Cfg (Psi F × Bound F) (Fin 3 → Fin nG → F) where
  nRanks := n
  nAngles := nA
  nThreads := sched.threads
  maxCompute := sched.batch
  direction := .forward
  doComm := true
  protocol := sched.protocol
  rendezvous := sched.rendezvous
  mesh r := K.mesh (T r) (D r)
  data r :=
    { getData := fun c f a d k g => d.1 g (((T r).getFaceToCellVrtx c f k).getD 0) a c
      setSideData := fun s a b d => (d.1, fun g k a' s' =>
        if h : a' = a ∧ s' = s ∧ g < nG then b k ⟨g, h.2.2⟩ else d.2 g k a' s')
      getPriority := fun c a _ => sched.priority r c a
      update := fun c a _ _ => K.update (T r) (D r) (source r) c a }
  init r := (psi0 r, sched.bound0 r)

/-- A sweep from `psi` may return with `psi'`: some execution under some schedule ends on all ranks. -/
def Kernel.Swept (K : Kernel F nA nG) (n : Nat) (T : Nat → Mesh) (D : Nat → Tables F) (source psi psi' : Nat → Psi F) : Prop :=
  ∃ (sched : Schedule F) (s : State (Psi F × Bound F) (Fin 3 → Fin nG → F)), 0 < sched.threads ∧
    Reachable (K.cfg n T D sched source psi) s ∧
    ∀ r < n, (s.rank r).phase = .finished ∧ (s.rank r).data.1 = psi' r

/-- `psiToPhi` (src/Util.cc:85-97). -/
def Kernel.phi (K : Kernel F nA nG) (psi : Psi F) (g : Nat) (v : Fin 4) (c : Nat) : F := K.toPhi fun a => psi g v a c

/-- `calcTotalSource` (src/Util.cc:118-130) after `psiToPhi`. -/
def Kernel.totalSource (K : Kernel F nA nG) (D : Tables F) (psi : Psi F) : Psi F := fun g v a c =>
  K.total (((D.source[c]?).getD fun _ _ => K.zero) v a) ((D.sigmaS[c]?).getD K.zero) (K.phi psi g v c)

/-- `fixedPoint` (src/SourceIteration.cc:127-207) from the zero flux of `solve`
(src/SweeperTraverse.cc:65-74) may hold `psi` after `k` sweeps. The sweeps may each have another
schedule. -/
inductive Kernel.Iterated (K : Kernel F nA nG) (n : Nat) (T : Nat → Mesh) (D : Nat → Tables F) : Nat → (Nat → Psi F) → Prop
  | zero : K.Iterated n T D 0 fun _ _ _ _ _ => K.zero
  | succ {k : Nat} {psi psi' : Nat → Psi F} : K.Iterated n T D k psi →
      K.Swept n T D (fun r => K.totalSource (D r) (psi r)) psi psi' → K.Iterated n T D (k + 1) psi'

/-- The arithmetic of the stopping test of `fixedPoint`. -/
structure Test (F : Type) where
  /-- the loop `error += fabs(phiNew[i] - phiOld[i])` (src/SourceIteration.cc:167-170) over the pairs in
  the order of the array -/
  error : List (F × F) → F
  /-- the loop `norm += fabs(phiNew[i])` -/
  norm : List (F × F) → F
  /-- `MPI_Allreduce` with `MPI_SUM` (src/Comm.cc:100-108), of the values of the ranks in order; that the
  library adds them in an order that does not change between calls is assumed -/
  gsum : List F → F
  /-- `error / norm` -/
  quotient : F → F → F
  /-- `error > g_errMax` -/
  above : F → Bool
  /-- the initial `1.0` -/
  one : F

/-- The pairs of new and old `phi` in the order of `PhiData` (src/PsiData.hh:363-370): cell, vertex, group from slow to
fast. -/
def pairs (nG nCells : Nat) (new old : Nat → Fin 4 → Nat → F) : List (F × F) :=
  (List.range nCells).flatMap fun c => (List.finRange 4).flatMap fun v => (List.range nG).map fun g => (new g v c, old g v c)

/-- The error after a sweep (src/SourceIteration.cc:163-173). -/
def Kernel.errorOf (K : Kernel F nA nG) (test : Test F) (n : Nat) (T : Nat → Mesh) (psi psi' : Nat → Psi F) : F :=
  let p := fun r => pairs nG (T r).nCells (K.phi (psi' r)) (K.phi (psi r))
  test.quotient (test.gsum ((List.range n).map fun r => test.error (p r))) (test.gsum ((List.range n).map fun r => test.norm (p r)))

/-- `fixedPoint` (src/SourceIteration.cc:127-207) with at most `iterMax` sweeps may return with flux `psi`,
having printed the errors `l` (latest first). -/
inductive Kernel.FixedPoint (K : Kernel F nA nG) (test : Test F) (iterMax n : Nat) (T : Nat → Mesh) (D : Nat → Tables F) :
    (Nat → Psi F) → List F → Prop
  | zero : K.FixedPoint test iterMax n T D (fun _ _ _ _ _ => K.zero) []
  | succ {psi psi' : Nat → Psi F} {l : List F} : K.FixedPoint test iterMax n T D psi l → l.length < iterMax →
      test.above (l.headD test.one) = true →
      K.Swept n T D (fun r => K.totalSource (D r) (psi r)) psi psi' →
      K.FixedPoint test iterMax n T D psi' (K.errorOf test n T psi psi' :: l)

/-- The loop of `fixedPoint` ends after the errors `l` (src/SourceIteration.cc:144). -/
def Test.Ended (test : Test F) (iterMax : Nat) (l : List F) : Prop :=
  iterMax ≤ l.length ∨ test.above (l.headD test.one) = false

end Verif.Floating
