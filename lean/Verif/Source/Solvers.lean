import Verif.Source.Contract
import Verif.Domain.Schur2

/-!
# The solve methods of all sweep types (src/SweeperTraverse.cc, src/SweeperPBJ.cc, src/SweeperSchur.cc)

Seven methods combine sweeps, boundary exchanges, source iteration and the Krylov solver differently.
Each result that is converged exactly solves the same problem (C57).
-/
set_option linter.unusedSectionVars false

namespace Verif.Source
open Classical List
open Verif.Transport Verif.Traverse Verif.Domain

variable {K : Type} [Field K] [LinearOrder K]

/-! ### Model: sweeps -/

/-- The traversal of `SweeperTraverse::sweep` (src/SweeperTraverse.cc:82-89): a fresh, zeroed boundary
array. -/
def fullRun (R : SweepRun K) (src psi0 : Nat → Psi K) : SweepRun K :=
  { R with source := src, psi0 := psi0, bound0 := fun _ _ _ _ _ => 0 }

/-- `SweeperTraverse::sweep(psi, src)` starting with flux `psi0` may return with flux `psi`. -/
def FullSwept (R : SweepRun K) (src psi0 psi : Nat → Psi K) : Prop :=
  ∃ s, Reachable (fullRun R src psi0).cfg s ∧ (∀ r < R.nRanks, (s.rank r).phase = .finished) ∧
    ∀ r < R.nRanks, ∃ b, (s.rank r).data = some (psi r, b)

/-- `SweeperTraverse` (src/SweeperTraverse.cc:82-89). The flag is ignored. -/
def traverseSweeper (R : SweepRun K) : Sweeper K where
  State := Unit
  run _ _ psi src _ psi' := FullSwept R src psi psi'

/-- `SweeperPBJOuter::sweep` (src/SweeperPBJ.cc:129-138) and `SweeperSchurOuter::sweep`
(src/SweeperSchur.cc:465-475): a local sweep with the boundary array held, or with the zero one. -/
def localSweeper (R : SweepRun K) (bound : Nat → Bound K) : Sweeper K where
  State := Unit
  run _ z psi src _ psi' := LocalSwept R src psi (if z then fun _ _ _ _ _ => 0 else bound) psi'

/-- `SweeperPBJ::sweep` (src/SweeperPBJ.cc:168-219), when it converged exactly: the last two local sweeps
agree, or there were more than `k`. The state is `c_psiBoundPrev`; the flag is ignored. -/
def pbjSweeper (R : SweepRun K) (tol : K) (iterMax k : Nat) : Sweeper K where
  State := Nat → Bound K
  run bound _ psi src bound' psi' := ∃ sweeps, PBJSweep R src tol iterMax psi bound sweeps psi' bound' ∧
    ((∃ ss p, sweeps = ss ++ [p, psi'] ∧ SameFlux R p psi') ∨ k < sweeps.length)

/-- `SweeperSchur::sweep` (src/SweeperSchur.cc:246-320), when the Krylov solver returned an exact
solution. The flag is ignored. -/
def schurSweeper (R : SweepRun K) : Sweeper K where
  State := Unit
  run _ _ _ src _ psi' := ∃ x b rhs, SchurOp R x b ∧ SchurRhs R src rhs ∧ SameVec R b rhs ∧
    SchurEnd R src x psi'

/-! ### Model: inner solves -/

/-- `if (g_useSourceIteration) fixedPoint(sweeper, psi, src) else krylov(sweeper, psi, src)`, converged
exactly: the last sweep of source iteration left the scalar flux as it was, or the Krylov solver returned
an exact solution. -/
inductive Solved (R : SweepRun K) (X : Scat K) (S : Sweeper K) (src psi psi' : Nat → Psi K) : Prop
  | iteration {errMax iterMax st tr st' n tr' old}
      (h : FixedPoint R X S src errMax iterMax st psi tr st' psi' n)
      (he : tr = tr' ++ [(old, psi')]) (hs : SamePhi R old (scal R X psi'))
  | krylov {x b rhs} (hop : LhsOp R X S x b) (hrhs : KrylovRhs R X S src rhs)
      (hsol : SamePhi R b rhs) (hend : KrylovEnd R X S src x psi')

/-! ### Model: outer loops -/

/-- The loop of `SweeperPBJOuter::solve` (src/SweeperPBJ.cc:73-112). -/
inductive OuterLoop (R : SweepRun K) (X : Scat K) (src : Nat → Psi K) (tol : K) (iterMax : Nat) :
    Nat → (Nat → Psi K) → (Nat → Psi K) → (Nat → Bound K) → List (Nat → Psi K) → (Nat → Psi K) → Prop
  | limit {iter psi prev bound} (h : ¬ iter < iterMax) :
    OuterLoop R X src tol iterMax iter psi prev bound [] psi
  | conv {iter psi prev bound psi'} (h : iter < iterMax)
      (hs : Solved R X (localSweeper R bound) src psi psi') (hc : Converged R tol prev psi') :
    OuterLoop R X src tol iterMax iter psi prev bound [psi'] psi'
  | next {iter psi prev bound psi' bound' rest psiEnd} (h : iter < iterMax)
      (hs : Solved R X (localSweeper R bound) src psi psi') (hc : ¬ Converged R tol prev psi')
      (hx : ExchangeRun R psi' bound bound')
      (hr : OuterLoop R X src tol iterMax (iter + 1) psi' psi' bound' rest psiEnd) :
    OuterLoop R X src tol iterMax iter psi prev bound (psi' :: rest) psiEnd

/-- The stopping test of `SweeperPBJSI::solve` (src/SweeperPBJ.cc:256-272), on scalar fluxes. -/
def ConvergedPhi (R : SweepRun K) (tol : K) (new old : Nat → Phi K) : Prop :=
  ∃ x, relErr R new old = .val x ∧ x < tol

/-- The loop of `SweeperPBJSI::solve` (src/SweeperPBJ.cc:246-277). The exchange comes before the test. -/
inductive SIPBJLoop (R : SweepRun K) (X : Scat K) (src : Nat → Psi K) (tol : K) (iterMax : Nat) :
    Nat → (Nat → Psi K) → (Nat → Phi K) → (Nat → Bound K) → List (Nat → Psi K) → (Nat → Psi K) → Prop
  | limit {iter psi phi bound} (h : ¬ iter < iterMax) :
    SIPBJLoop R X src tol iterMax iter psi phi bound [] psi
  | conv {iter psi phi bound tot psi' phi' bound'} (h : iter < iterMax) (ht : IsTotal R X src phi tot)
      (hs : LocalSwept R tot psi bound psi') (hp : IsPhi R X psi' phi')
      (hx : ExchangeRun R psi' bound bound') (hc : ConvergedPhi R tol phi' phi) :
    SIPBJLoop R X src tol iterMax iter psi phi bound [psi'] psi'
  | next {iter psi phi bound tot psi' phi' bound' rest psiEnd} (h : iter < iterMax)
      (ht : IsTotal R X src phi tot) (hs : LocalSwept R tot psi bound psi') (hp : IsPhi R X psi' phi')
      (hx : ExchangeRun R psi' bound bound') (hc : ¬ ConvergedPhi R tol phi' phi)
      (hr : SIPBJLoop R X src tol iterMax (iter + 1) psi' phi' bound' rest psiEnd) :
    SIPBJLoop R X src tol iterMax iter psi phi bound (psi' :: rest) psiEnd

/-- `SchurOuter` (src/SweeperSchur.cc:334-365) may map `x` to `b`. -/
def SchurOuterOp (R : SweepRun K) (X : Scat K) (x b : Nat → Nat → K) : Prop :=
  ∃ (bound : Nat → Bound K) (psi0 psi : Nat → Psi K) (bound' : Nat → Bound K) (b0 : Nat → Nat → K),
    Solved R X (localSweeper R fun r => vecToPsiBound R r (x r) (bound r)) (fun _ _ _ _ _ => 0) psi0 psi ∧
    ExchangeRun R psi (fun r => vecToPsiBound R r (x r) (bound r)) bound' ∧
    ∀ r < R.nRanks, ∀ i < psiBoundSize R r, b r i = x r i - psiBoundToVec R r (bound' r) (b0 r) i

/-- The right-hand side of `SweeperSchurOuter::solve` (src/SweeperSchur.cc:383-415). -/
def SchurOuterRhs (R : SweepRun K) (X : Scat K) (src : Nat → Psi K) (b : Nat → Nat → K) : Prop :=
  ∃ (psi : Nat → Psi K) (bound' : Nat → Bound K) (b0 : Nat → Nat → K),
    Solved R X (localSweeper R fun _ _ _ _ _ => 0) src (fun _ _ _ _ _ => 0) psi ∧
    ExchangeRun R psi (fun _ _ _ _ _ => 0) bound' ∧
    ∀ r < R.nRanks, ∀ i < psiBoundSize R r, b r i = psiBoundToVec R r (bound' r) (b0 r) i

/-- The flux recovered (src/SweeperSchur.cc:432-440). -/
def SchurOuterEnd (R : SweepRun K) (X : Scat K) (src : Nat → Psi K) (x : Nat → Nat → K)
    (psi : Nat → Psi K) : Prop :=
  ∃ (bound : Nat → Bound K) (psi0 : Nat → Psi K),
    Solved R X (localSweeper R fun r => vecToPsiBound R r (x r) (bound r)) src psi0 psi

/-- `SchurKrylov` (src/SweeperSchur.cc:490-526) may map `(x, p)` to `(b, q)`. -/
def SchurKrylovOp (R : SweepRun K) (X : Scat K) (x : Nat → Nat → K) (p : Nat → Phi K)
    (b : Nat → Nat → K) (q : Nat → Phi K) : Prop :=
  ∃ (bound : Nat → Bound K) (src psi0 psi : Nat → Psi K) (bound' : Nat → Bound K) (b0 : Nat → Nat → K)
    (phi : Nat → Phi K),
    (∀ r < R.nRanks, ∃ order f s, order.Perm (nest (R.nCells r) R.nAngles R.nGroups) ∧
      src r = phiToPsi order (operatorS (R.nCells r) R.nGroups (X.sigmaS r) X.mPi (p r) f) s) ∧
    LocalSwept R src psi0 (fun r => vecToPsiBound R r (x r) (bound r)) psi ∧
    ExchangeRun R psi (fun r => vecToPsiBound R r (x r) (bound r)) bound' ∧
    IsPhi R X psi phi ∧
    (∀ r < R.nRanks, ∀ i < psiBoundSize R r, b r i = x r i - psiBoundToVec R r (bound' r) (b0 r) i) ∧
    ∀ r < R.nRanks, ∀ g v c, g < R.nGroups → c < R.nCells r → q r g v c = p r g v c - phi r g v c

/-- The right-hand side of `SweeperSchurKrylov::solve` (src/SweeperSchur.cc:561-578). -/
def SchurKrylovRhs (R : SweepRun K) (X : Scat K) (src : Nat → Psi K) (b : Nat → Nat → K)
    (q : Nat → Phi K) : Prop :=
  ∃ (psi0 psi : Nat → Psi K) (bound' : Nat → Bound K) (b0 : Nat → Nat → K),
    LocalSwept R src psi0 (fun _ _ _ _ _ => 0) psi ∧
    ExchangeRun R psi (fun _ _ _ _ _ => 0) bound' ∧
    IsPhi R X psi q ∧
    ∀ r < R.nRanks, ∀ i < psiBoundSize R r, b r i = psiBoundToVec R r (bound' r) (b0 r) i

/-- The flux recovered (src/SweeperSchur.cc:598-607); the total source overwrites the source. -/
def SchurKrylovEnd (R : SweepRun K) (X : Scat K) (src : Nat → Psi K) (x : Nat → Nat → K)
    (p : Nat → Phi K) (psi : Nat → Psi K) : Prop :=
  ∃ (bound : Nat → Bound K) (tot psi0 : Nat → Psi K),
    (∀ r < R.nRanks, ∃ order, order.Perm (nest (R.nCells r) R.nAngles R.nGroups) ∧
      tot r = calcTotalSourceInPlace (X.sigmaS r) X.mPi order (p r) (src r)) ∧
    LocalSwept R tot psi0 (fun r => vecToPsiBound R r (x r) (bound r)) psi

/-- The exactly converged results of `sweeper->solve()` for the sweep types that use the graph
traverser (src/Main.cc:270-321). `k` bounds the number of partition faces on an upwind chain. -/
inductive Result (R : SweepRun K) (X : Scat K) (k : Nat) (src psi : Nat → Psi K) : Prop
  | traverse (h : Solved R X (traverseSweeper R) src (fun _ _ _ _ _ => 0) psi)
  | pbj {tol iterMax} (h : Solved R X (pbjSweeper R tol iterMax k) src (fun _ _ _ _ _ => 0) psi)
  | schur (h : Solved R X (schurSweeper R) src (fun _ _ _ _ _ => 0) psi)
  | pbjOuter {tol iterMax its ss p}
      (h : OuterLoop R X src tol iterMax 1 (fun _ _ _ _ _ => 0) (fun _ _ _ _ _ => 0)
        (fun _ _ _ _ _ => 0) its psi)
      (he : its = ss ++ [p, psi]) (hs : SameFlux R p psi)
  | pbjSI {tol iterMax its ss p}
      (h : SIPBJLoop R X src tol iterMax 1 (fun _ _ _ _ _ => 0) (fun _ _ _ _ => 0)
        (fun _ _ _ _ _ => 0) its psi)
      (he : its = ss ++ [p, psi]) (hs : SameFlux R p psi)
  | schurOuter {x b rhs} (hop : SchurOuterOp R X x b) (hrhs : SchurOuterRhs R X src rhs)
      (hsol : SameVec R b rhs) (hend : SchurOuterEnd R X src x psi)
  | schurKrylov {x p b q rhs rhsPhi} (hop : SchurKrylovOp R X x p b q)
      (hrhs : SchurKrylovRhs R X src rhs rhsPhi) (hsol : SameVec R b rhs) (hphi : SamePhi R q rhsPhi)
      (hend : SchurKrylovEnd R X src x p psi)

/-! ### Proofs -/

variable {R : SweepRun K} {X : Scat K}

theorem solved_scatters {S : Sweeper K} {L L0 : (Nat → Psi K) → (Nat → Psi K) → Prop}
    (C : Correct S L L0) (A : Affine R L L0) {src psi psi' : Nat → Psi K}
    (h : Solved R X S src psi psi') : Scatters R X L src psi' := by
  cases h with
  | iteration h he hs => exact fixedPoint_stationary C A h he hs
  | krylov hop hrhs hsol hend => exact krylov_solves C A hop hrhs hend hsol

variable [IsStrictOrderedRing K]

section
variable {mate : Loc → Option Loc} {node : Nat → Nat → Fin 4 → Nat}

theorem full_affine (H : R.Physical) (L : Linked R.cfg mate) (N : R.Nodes mate node)
    (hd : R.doComm = true) (A : Acyclic R.cfg mate) :
    Affine R (FullDG R mate node) (FullDG R mate node) where
  lin k _ _ _ _ h h' := fullDG_lin L N k h h'
  sub _ _ _ _ h h' := fullDG_lin L N (-1) h h'
  unique _ _ _ h h' := fullDG_unique H L N hd A h h'
  congr _ _ _ _ h hs hp := fullDG_flux_congr L (fullDG_congr h hs) hp

omit [IsStrictOrderedRing K] in
theorem localDG_bound_congr {src psi : Nat → Psi K} {bound bound' : Nat → Bound K}
    (h : LocalDG R mate node src bound psi) (hb : bound = bound') : LocalDG R mate node src bound' psi :=
  hb ▸ h

theorem local_affine (H : R.Physical) (L : Linked R.cfg mate) (N : R.Nodes mate node)
    (hd : R.doComm = true) (A : Acyclic R.cfg mate) (bound : Nat → Bound K) :
    Affine R (fun src psi => LocalDG R mate node src bound psi)
      (fun src psi => LocalDG R mate node src (fun _ _ _ _ _ => 0) psi) where
  lin k _ _ _ _ h h' := localDG_bound_congr (localDG_lin L N k h h') (by
    funext r g v a s; simp [linB])
  sub _ _ _ _ h h' := localDG_bound_congr (localDG_lin L N (-1) h h') (by
    funext r g v a s; simp [linB])
  unique _ _ _ h h' := localDG_unique H L N hd A h h'
  congr _ _ _ _ h hs hp := localDG_flux_congr L (localDG_congr h hs (fun _ _ _ _ _ _ _ _ _ _ _ _ => rfl) H) hp

theorem full_linked_of (L : Linked R.cfg mate) (src psi0 : Nat → Psi K) (bound : Nat → Bound K) (m : Nat) :
    Linked (SweepRun.cfg { R with source := src, psi0 := psi0, bound0 := bound, maxCompute := m }) mate :=
  ⟨L.threads, L.size, L.mate_in, L.mate_symm, L.near, L.far, L.ext, L.side_eq, L.side_cell, L.side_inj,
    L.orient⟩

theorem full_linked (L : Linked R.cfg mate) (src psi0 : Nat → Psi K) :
    Linked (fullRun R src psi0).cfg mate := full_linked_of L src psi0 _ R.maxCompute

theorem full_physical (H : R.Physical) (src psi0 : Nat → Psi K) : (fullRun R src psi0).Physical :=
  ⟨H.volume, H.area, H.sigma, H.closed, H.some_flow⟩

theorem full_nodes_of (N : R.Nodes mate node) (src psi0 : Nat → Psi K) (bound : Nat → Bound K) (m : Nat) :
    SweepRun.Nodes { R with source := src, psi0 := psi0, bound0 := bound, maxCompute := m } mate node :=
  ⟨N.inj, N.near, N.far⟩

theorem full_nodes (N : R.Nodes mate node) (src psi0 : Nat → Psi K) :
    (fullRun R src psi0).Nodes mate node := full_nodes_of N src psi0 _ R.maxCompute

theorem fullRun_solves (H : R.Physical) (L : Linked R.cfg mate) (N : R.Nodes mate node)
    (hd : R.doComm = true) {src psi0 : Nat → Psi K} {s : State _ _}
    (h1 : Reachable (fullRun R src psi0).cfg s) (h2 : ∀ r < R.nRanks, (s.rank r).phase = .finished) :
    ∃ psi1 : Nat → Psi K, (∀ r < R.nRanks, ∃ b, (s.rank r).data = some (psi1 r, b)) ∧
      FullDG R mate node src psi1 :=
  sweep_solves (fullRun R src psi0) (full_physical H src psi0) (full_linked L src psi0)
    (full_nodes N src psi0) hd h1 h2

/-- C57: the full sweep solves the full upwind system. -/
theorem fullSwept_solves (H : R.Physical) (L : Linked R.cfg mate) (N : R.Nodes mate node)
    (hd : R.doComm = true) {src psi0 psi : Nat → Psi K} (h : FullSwept R src psi0 psi) :
    FullDG R mate node src psi := by
  obtain ⟨s, h1, h2, h3⟩ := h
  obtain ⟨psi1, h4, h6⟩ := fullRun_solves H L N hd h1 h2
  refine fullDG_flux_congr L h6 ?_
  intro r c a g v hr _ _ _
  obtain ⟨b, hb⟩ := h3 r hr
  obtain ⟨b', hb'⟩ := h4 r hr
  have e : some (psi1 r, b') = some (psi r, b) := hb'.symm.trans hb
  simp only [Option.some.injEq, Prod.mk.injEq] at e
  rw [e.1]

theorem traverse_correct (H : R.Physical) (L : Linked R.cfg mate) (N : R.Nodes mate node)
    (hd : R.doComm = true) : Correct (traverseSweeper R) (FullDG R mate node) (FullDG R mate node) :=
  ⟨fun _ _ _ _ _ h => fullSwept_solves H L N hd h, fun _ _ _ _ _ h => fullSwept_solves H L N hd h⟩

theorem local_correct (H : R.Physical) (L : Linked R.cfg mate) (N : R.Nodes mate node)
    (bound : Nat → Bound K) : Correct (localSweeper R bound)
      (fun src psi => LocalDG R mate node src bound psi)
      (fun src psi => LocalDG R mate node src (fun _ _ _ _ _ => 0) psi) :=
  ⟨fun _ _ _ _ _ h => local_sweep_solves H L N h, fun _ _ _ _ _ h => local_sweep_solves H L N h⟩

theorem pbj_correct (H : R.Physical) (L : Linked R.cfg mate) (Xc : Crossed R.cfg mate)
    (N : R.Nodes mate node) (hd : R.doComm = true) (A : Acyclic R.cfg mate) (tol : K) (M : Nat) {k : Nat}
    (hk : ∀ r c a n, r < R.nRanks → c < R.nCells r → a < R.nAngles → Crossings R mate a r c n → n ≤ k) :
    Correct (pbjSweeper R tol M k) (FullDG R mate node) (FullDG R mate node) := by
  have key : ∀ bound psi src bound' psi', (∃ sweeps, PBJSweep R src tol M psi bound sweeps psi' bound' ∧
      ((∃ ss p, sweeps = ss ++ [p, psi'] ∧ SameFlux R p psi') ∨ k < sweeps.length)) →
      FullDG R mate node src psi' := by
    rintro bound psi src bound' psi' ⟨sweeps, h, ⟨ss, p, rfl, hs⟩ | hlt⟩
    · have := pbj_stationary H L Xc N h ss.length (by simp) (by simpa using hs)
      simpa using this
    · obtain ⟨star, hstar⟩ := fullDG_exists H L Xc N hd A src
      exact fullDG_flux_congr L hstar (sameFlux_symm ((pbj_finite H L Xc N hd A hstar h hk).1 hlt))
  exact ⟨fun _ _ _ _ _ h => key _ _ _ _ _ h, fun _ _ _ _ _ h => key _ _ _ _ _ h⟩

theorem schur_correct (H : R.Physical) (L : Linked R.cfg mate) (Xc : Crossed R.cfg mate)
    (N : R.Nodes mate node) (hd : R.doComm = true) (A : Acyclic R.cfg mate) :
    Correct (schurSweeper R) (FullDG R mate node) (FullDG R mate node) := by
  have key : ∀ src psi', (∃ x b rhs, SchurOp R x b ∧ SchurRhs R src rhs ∧ SameVec R b rhs ∧
      SchurEnd R src x psi') → FullDG R mate node src psi' := by
    rintro src psi' ⟨x, b, rhs, h1, h2, h3, h4⟩
    exact schur_gives_full H L Xc N hd A h1 h2 h4 h3
  exact ⟨fun _ _ _ _ _ h => key _ _ h, fun _ _ _ _ _ h => key _ _ h⟩

/-! #### Outer block Jacobi -/

theorem OuterLoop.stationary (H : R.Physical) (L : Linked R.cfg mate) (Xc : Crossed R.cfg mate)
    (N : R.Nodes mate node) (hd : R.doComm = true) (A : Acyclic R.cfg mate) {src : Nat → Psi K} {tol : K}
    {M iter : Nat} {psi prev : Nat → Psi K} {bound : Nat → Bound K} {its : List (Nat → Psi K)}
    {psiEnd : Nat → Psi K} (h : OuterLoop R X src tol M iter psi prev bound its psiEnd)
    (i : Nat) (hi : i + 1 < its.length) (hs : SameFlux R its[i] its[i + 1]) :
    Scatters R X (FullDG R mate node) src its[i + 1] := by
  induction h generalizing i with
  | limit => simp at hi
  | conv => simp at hi
  | @next _ _ _ bound psi' bound' rest _ h hsw hn hx hl ih =>
    cases i with
    | succ i => exact ih i (by simpa using hi) (by simpa using hs)
    | zero =>
      have hc := (hx.exchanged L Xc N).consistent
      cases hl with
      | limit => simp at hi
      | conv h2 hs2 hc2 =>
        have := solved_scatters (local_correct H L N _) (local_affine H L N hd A _) hs2
        exact consistent_is_full H this (hc.congr L hs)
      | next h2 hs2 hc2 hx2 hl2 =>
        have := solved_scatters (local_correct H L N _) (local_affine H L N hd A _) hs2
        exact consistent_is_full H this (hc.congr L hs)

theorem SIPBJLoop.stationary (H : R.Physical) (L : Linked R.cfg mate) (Xc : Crossed R.cfg mate)
    (N : R.Nodes mate node) {src : Nat → Psi K} {tol : K}
    {M iter : Nat} {psi : Nat → Psi K} {phi : Nat → Phi K} {bound : Nat → Bound K}
    {its : List (Nat → Psi K)} {psiEnd : Nat → Psi K}
    (h : SIPBJLoop R X src tol M iter psi phi bound its psiEnd)
    (i : Nat) (hi : i + 1 < its.length) (hs : SameFlux R its[i] its[i + 1]) :
    Scatters R X (FullDG R mate node) src its[i + 1] := by
  have key : ∀ {psi' psi'' tot : Nat → Psi K} {phi' : Nat → Phi K} {bound' : Nat → Bound K},
      IsPhi R X psi' phi' → Consistent R mate node psi' bound' → IsTotal R X src phi' tot →
      LocalSwept R tot psi' bound' psi'' → SameFlux R psi' psi'' →
      Scatters R X (FullDG R mate node) src psi'' := by
    intro psi' psi'' tot phi' bound' hp hc ht hl hs
    have h1 := consistent_is_full H (local_sweep_solves H L N hl) (hc.congr L hs)
    exact fullDG_congr h1 (sameFlux_trans ht.same
      (scat_congr (sameFlux_refl _) (hp.same.trans (scal_congr hs))))
  induction h generalizing i with
  | limit => simp at hi
  | conv => simp at hi
  | @next _ _ _ bound tot psi' phi' bound' rest _ h ht hsw hp hx hn hl ih =>
    cases i with
    | succ i => exact ih i (by simpa using hi) (by simpa using hs)
    | zero =>
      have hc := (hx.exchanged L Xc N).consistent
      cases hl with
      | limit => simp at hi
      | conv h2 ht2 hs2 => exact key hp hc ht2 hs2 hs
      | next h2 ht2 hs2 => exact key hp hc ht2 hs2 hs

/-! #### Schur complement systems -/

/-- The common part of the three Schur systems. -/
theorem schur_core (L : Linked R.cfg mate) (N : R.Nodes mate node) {x b rhs : Nat → Nat → K}
    {psi psi1 psi2 : Nat → Psi K} {bnd1 bnd2 : Nat → Bound K} {y1 y2 : Nat → Nat → K}
    (c1 : Consistent R mate node psi1 bnd1) (c2 : Consistent R mate node psi2 bnd2)
    (h1 : ∀ r < R.nRanks, ∀ i < psiBoundSize R r, rhs r i = psiBoundToVec R r (bnd1 r) (y1 r) i)
    (h2 : ∀ r < R.nRanks, ∀ i < psiBoundSize R r, b r i = x r i - psiBoundToVec R r (bnd2 r) (y2 r) i)
    (hsame : SameFlux R psi (lin 1 psi1 psi2)) (any : Nat → Bound K) :
    SameVec R b rhs ↔ Consistent R mate node psi fun r => vecToPsiBound R r (x r) (any r) := by
  constructor
  · intro he xx y a g v hxin hm hne ha hin hg hv
    have hs := slot_of_face (g := g) L ((R.view xx.rank).cellToFaceVrtx xx.cell xx.face v) hxin hm hne
      ha hin hg
    obtain ⟨i, hi, e1, e2⟩ := unpack_slot L hxin.1 (x xx.rank) (any xx.rank) hs
    obtain ⟨w, hw, e3⟩ := c1 xx y a g v hxin hm hne ha hin hg hv
    obtain ⟨w', hw', e4⟩ := c2 xx y a g v hxin hm hne ha hin hg hv
    have hyin := L.mate_in xx y hxin hm
    have := N.inj y.rank y.cell w w' hyin.1 hyin.2 (hw.trans hw'.symm)
    subst this
    refine ⟨w, hw, ?_⟩
    have e5 := he xx.rank hxin.1 i hi
    rw [h2 _ hxin.1 i hi, h1 _ hxin.1 i hi, e2, e2] at e5
    have e6 := hsame y.rank y.cell a g w hyin.1 hyin.2 ha hg
    refine e1.trans ?_
    rw [e6]
    simp only [lin, ← e3, ← e4]
    simp only [Slot.get] at e5
    linear_combination e5
  · intro hc r hr i hi
    obtain ⟨s, hs, hp⟩ := slot_index (R := R) hi
    obtain ⟨y, w, hy1, hy2, ha, hg, hval⟩ := slot_value L N hr hs
    have e1 := hval psi1 bnd1 c1
    have e2 := hval psi2 bnd2 c2
    have e3 := hval psi _ hc
    have e4 := hsame y.rank y.cell s.2.2.1 s.1 w hy1 hy2 ha hg
    have e5 := pack_unpack L hr (x r) (any r) (y2 r) i hi
    rw [hp, e3, e4] at e5
    rw [h2 r hr i hi, h1 r hr i hi, hp, hp, e1, e2, ← e5]
    simp only [lin]; ring

theorem unpack_any (L : Linked R.cfg mate) (x : Nat → Nat → K) {r : Nat} (hr : r < R.nRanks)
    (b b' : Bound K) : ∀ s ∈ slots R r,
      s.get (vecToPsiBound R r (x r) b) = s.get (vecToPsiBound R r (x r) b') := by
  intro s hs
  obtain ⟨i, hi, rfl⟩ := List.mem_iff_getElem.1 hs
  have hi' : i < psiBoundSize R r := by rw [psiBoundSize_eq]; exact hi
  rw [(unpack_get L hr _ b).1 i hi', (unpack_get L hr _ b').1 i hi']

/-- Adding a solution for the unpacked boundary to one for the zero boundary. -/
theorem local_split (H : R.Physical) (L : Linked R.cfg mate) (N : R.Nodes mate node)
    {s1 s2 s psi1 psi2 : Nat → Psi K} {x : Nat → Nat → K} {bnd bnd' : Nat → Bound K}
    (h1 : LocalDG R mate node s1 (fun _ _ _ _ _ => 0) psi1)
    (h2 : LocalDG R mate node s2 (fun r => vecToPsiBound R r (x r) (bnd r)) psi2)
    (hs : SameFlux R (lin 1 s1 s2) s) :
    LocalDG R mate node s (fun r => vecToPsiBound R r (x r) (bnd' r)) (lin 1 psi1 psi2) := by
  refine localDG_slots L H (localDG_lin L N 1 h1 h2) hs ?_
  intro r hr s hs
  rw [← unpack_any L x hr (bnd r) (bnd' r) s hs]
  simp [Slot.get, linB]

/-- C57: a vector solves the system of `SweeperSchurOuter` exactly when its entries are the flux recovered
from it. The local problem with scattering must have one solution, for which a scattering ratio below one
is enough. -/
theorem schurOuter_iff (H : R.Physical) (L : Linked R.cfg mate) (Xc : Crossed R.cfg mate)
    (N : R.Nodes mate node) (M : Matched R mate node) (hd : R.doComm = true) (A : Acyclic R.cfg mate)
    {κ : K} (hκ : Ratio R X κ) (hκ1 : κ < 1) {src : Nat → Psi K} {x b rhs : Nat → Nat → K}
    {psi : Nat → Psi K} (hop : SchurOuterOp R X x b) (hrhs : SchurOuterRhs R X src rhs)
    (hend : SchurOuterEnd R X src x psi) (any : Nat → Bound K) :
    SameVec R b rhs ↔ Consistent R mate node psi fun r => vecToPsiBound R r (x r) (any r) := by
  obtain ⟨bnd, psi0, psi2, bnd2, y2, h1, h2, h3⟩ := hop
  obtain ⟨psi1, bnd1, y1, h1', h2', h3'⟩ := hrhs
  obtain ⟨bndE, psi0E, hE⟩ := hend
  have s2 := solved_scatters (local_correct H L N _) (local_affine H L N hd A _) h1
  have s1 := solved_scatters (local_correct H L N _) (local_affine H L N hd A _) h1'
  have sE := solved_scatters (local_correct H L N _) (local_affine H L N hd A _) hE
  have hsum : Scatters R X (fun src psi => LocalDG R mate node src
      (fun r => vecToPsiBound R r (x r) (bndE r)) psi) src (lin 1 psi1 psi2) := by
    refine local_split H L N s1 s2 ?_
    intro r c a g v _ _ _ _
    rw [scal_lin]
    simp only [lin, scat]; ring
  have hsame := scatter_unique H hκ hκ1 (local_dissipative H L N M)
    (local_affine H L N hd A _) (local_affine H L N hd A _) sE hsum
  exact schur_core L N (h2'.exchanged L Xc N).consistent (h2.exchanged L Xc N).consistent h3' h3 hsame any

/-- C57: a vector solves the system of `SweeperSchurKrylov` exactly when its entries are the flux on the
partition faces and the scalar flux recovered from it. -/
theorem schurKrylov_iff (H : R.Physical) (L : Linked R.cfg mate) (Xc : Crossed R.cfg mate)
    (N : R.Nodes mate node) (hd : R.doComm = true) (A : Acyclic R.cfg mate) {src : Nat → Psi K}
    {x b rhs : Nat → Nat → K} {p q rhsPhi : Nat → Phi K} {psi : Nat → Psi K}
    (hop : SchurKrylovOp R X x p b q) (hrhs : SchurKrylovRhs R X src rhs rhsPhi)
    (hend : SchurKrylovEnd R X src x p psi) (any : Nat → Bound K) :
    (SameVec R b rhs ∧ SamePhi R q rhsPhi) ↔
      ((Consistent R mate node psi fun r => vecToPsiBound R r (x r) (any r)) ∧
        SamePhi R (scal R X psi) p) := by
  obtain ⟨bnd, s2, psi0, psi2, bnd2, y2, phi2, ho, h1, h2, hp, h3, h4⟩ := hop
  obtain ⟨psi0', psi1, bnd1, y1, h1', h2', hp', h3'⟩ := hrhs
  obtain ⟨bndE, tot, psi0E, hoE, hE⟩ := hend
  have e2 : SameFlux R s2 (scat X (fun _ _ _ _ _ => 0) p) := by
    intro r c a g v hr hc ha hg
    obtain ⟨order, f, s, hperm, e⟩ := ho r hr
    rw [e, phiToPsi_value hperm, if_pos ⟨hc, ha, hg⟩, operatorS_value, if_pos ⟨hc, hg⟩]
    simp [scat]
  have eT : SameFlux R tot (scat X src p) := by
    intro r c a g v hr hc ha hg
    obtain ⟨order, hperm, e⟩ := hoE r hr
    rw [e, calcTotalSource_inPlace hperm, calcTotalSource_value hperm, if_pos ⟨hc, ha, hg⟩]
    rfl
  have hsum := local_split (s := tot) (bnd' := bndE) H L N (local_sweep_solves H L N h1')
    (local_sweep_solves H L N h1) (by
      intro r c a g v hr hc ha hg
      rw [eT r c a g v hr hc ha hg]
      simp only [lin, e2 r c a g v hr hc ha hg, scat]; ring)
  have hsame := localDG_unique H L N hd A (local_sweep_solves H L N hE) hsum
  refine and_congr (schur_core L N (h2'.exchanged L Xc N).consistent (h2.exchanged L Xc N).consistent
    h3' h3 hsame any) ?_
  have hscal : ∀ r < R.nRanks, ∀ g v c, g < R.nGroups → c < R.nCells r →
      scal R X psi r g v c = rhsPhi r g v c + phi2 r g v c := by
    intro r hr g v c hg hc
    rw [scal_congr hsame r hr g v c hg hc, scal_lin]
    simp only [hp'.same r hr g v c hg hc, hp.same r hr g v c hg hc, one_mul]
  constructor
  · intro h r hr g v c hg hc
    rw [hscal r hr g v c hg hc, ← h r hr g v c hg hc, h4 r hr g v c hg hc]; ring
  · intro h r hr g v c hg hc
    rw [h4 r hr g v c hg hc, ← h r hr g v c hg hc, hscal r hr g v c hg hc]; ring

/-- C57: whatever the sweep type, an exactly converged result solves the problem with scattering on the
whole mesh. -/
theorem result_scatters (H : R.Physical) (L : Linked R.cfg mate) (Xc : Crossed R.cfg mate)
    (N : R.Nodes mate node) (M : Matched R mate node) (hd : R.doComm = true) (A : Acyclic R.cfg mate)
    {k : Nat}
    (hk : ∀ r c a n, r < R.nRanks → c < R.nCells r → a < R.nAngles → Crossings R mate a r c n → n ≤ k)
    {κ : K} (hκ : Ratio R X κ) (hκ1 : κ < 1) {src psi : Nat → Psi K} (h : Result R X k src psi) :
    Scatters R X (FullDG R mate node) src psi := by
  have AF := full_affine H L N hd A
  cases h with
  | traverse h => exact solved_scatters (traverse_correct H L N hd) AF h
  | pbj h => exact solved_scatters (pbj_correct H L Xc N hd A _ _ hk) AF h
  | schur h => exact solved_scatters (schur_correct H L Xc N hd A) AF h
  | @pbjOuter tol iterMax its ss p h he hs =>
    subst he
    have := h.stationary H L Xc N hd A ss.length (by simp) (by simpa using hs)
    simpa using this
  | @pbjSI tol iterMax its ss p h he hs =>
    subst he
    have := h.stationary H L Xc N ss.length (by simp) (by simpa using hs)
    simpa using this
  | schurOuter hop hrhs hsol hend =>
    obtain ⟨bnd, psi0, hE⟩ := id hend
    exact consistent_is_full H (solved_scatters (local_correct H L N _) (local_affine H L N hd A _) hE)
      ((schurOuter_iff H L Xc N M hd A hκ hκ1 hop hrhs hend bnd).1 hsol)
  | @schurKrylov x p b q rhs rhsPhi hop hrhs hsol hphi hend =>
    obtain ⟨bnd, tot, psi0, ho, hE⟩ := id hend
    obtain ⟨h1, h2⟩ := (schurKrylov_iff H L Xc N hd A hop hrhs hend bnd).1 ⟨hsol, hphi⟩
    have h3 := consistent_is_full H (local_sweep_solves H L N hE) h1
    refine fullDG_congr h3 ?_
    intro r c a g v hr hc ha hg
    obtain ⟨order, hperm, e⟩ := ho r hr
    rw [e, calcTotalSource_inPlace hperm, calcTotalSource_value hperm, if_pos ⟨hc, ha, hg⟩]
    simp only [scat]
    rw [h2 r hr g v c hg hc]

/-- C57: the choice of sweep type, tolerance and inner solver does not change an exactly converged
result. -/
theorem sweep_types_agree (H : R.Physical) (L : Linked R.cfg mate) (Xc : Crossed R.cfg mate)
    (N : R.Nodes mate node) (M : Matched R mate node) (hd : R.doComm = true) (A : Acyclic R.cfg mate)
    {k : Nat}
    (hk : ∀ r c a n, r < R.nRanks → c < R.nCells r → a < R.nAngles → Crossings R mate a r c n → n ≤ k)
    {κ : K} (hκ : Ratio R X κ) (hκ1 : κ < 1) {src psi psi' : Nat → Psi K} (h : Result R X k src psi)
    (h' : Result R X k src psi') : SameFlux R psi psi' :=
  scatter_unique H hκ hκ1 (full_dissipative H L N M) (full_affine H L N hd A) (full_affine H L N hd A)
    (result_scatters H L Xc N M hd A hk hκ hκ1 h) (result_scatters H L Xc N M hd A hk hκ hκ1 h')

/-- C58: on the whole mesh the problem with scattering has exactly one solution. -/
theorem full_scatter_exists_unique (H : R.Physical) (L : Linked R.cfg mate) (Xc : Crossed R.cfg mate)
    (N : R.Nodes mate node) (M : Matched R mate node) (hd : R.doComm = true) (A : Acyclic R.cfg mate)
    {κ : K} (hκ : Ratio R X κ) (hκ1 : κ < 1) (src : Nat → Psi K) :
    ∃ star, Scatters R X (FullDG R mate node) src star ∧
      ∀ psi, Scatters R X (FullDG R mate node) src psi → SameFlux R psi star := by
  have AF := full_affine H L N hd A
  have hD := full_dissipative H L N M
  obtain ⟨star, hs⟩ := scatter_exists (X := X) H hκ hκ1 hD AF AF (fullDG_exists H L Xc N hd A)
    (fullDG_exists H L Xc N hd A) src
  exact ⟨star, hs, fun psi h => scatter_unique H hκ hκ1 hD AF AF h hs⟩

theorem localDG_exists (H : R.Physical) (L : Linked R.cfg mate) (Xc : Crossed R.cfg mate)
    (N : R.Nodes mate node) (hd : R.doComm = true) (A : Acyclic R.cfg mate) (bound : Nat → Bound K)
    (src : Nat → Psi K) : ∃ psi, LocalDG R mate node src bound psi := by
  obtain ⟨psi, h⟩ := local_sweep_exists H L hd Xc A src (fun _ _ _ _ _ => 0) bound
  exact ⟨psi, local_sweep_solves H L N h⟩

/-- C58: so has the problem of each rank for given boundary values. -/
theorem local_scatter_exists_unique (H : R.Physical) (L : Linked R.cfg mate) (Xc : Crossed R.cfg mate)
    (N : R.Nodes mate node) (M : Matched R mate node) (hd : R.doComm = true) (A : Acyclic R.cfg mate)
    {κ : K} (hκ : Ratio R X κ) (hκ1 : κ < 1) (bound : Nat → Bound K) (src : Nat → Psi K) :
    ∃ star, Scatters R X (fun src psi => LocalDG R mate node src bound psi) src star ∧
      ∀ psi, Scatters R X (fun src psi => LocalDG R mate node src bound psi) src psi →
        SameFlux R psi star := by
  have AF := local_affine H L N hd A bound
  have A0 := local_affine H L N hd A (fun _ _ _ _ _ => 0)
  have hD := local_dissipative H L N M
  obtain ⟨star, hs⟩ := scatter_exists (X := X) H hκ hκ1 hD AF A0 (localDG_exists H L Xc N hd A bound)
    (localDG_exists H L Xc N hd A _) src
  exact ⟨star, hs, fun psi h => scatter_unique H hκ hκ1 hD AF A0 h hs⟩

/-- C58: the Krylov system of a sweeper has exactly one solution: a vector solves it exactly when it is
the scalar flux of the solution. -/
theorem krylov_system {S : Sweeper K} {Lp L0 : (Nat → Psi K) → (Nat → Psi K) → Prop}
    (C : Correct S Lp L0) (AF : Affine R Lp L0) (A0 : Affine R L0 L0) (H : R.Physical) {κ : K}
    (hκ : Ratio R X κ) (hκ1 : κ < 1) (hD : Dissipative R L0) {src star : Nat → Psi K}
    (hstar : Scatters R X Lp src star) {x b rhs : Nat → Phi K} {psi : Nat → Psi K}
    (hop : LhsOp R X S x b) (hrhs : KrylovRhs R X S src rhs) (hend : KrylovEnd R X S src x psi) :
    SamePhi R b rhs ↔ SamePhi R x (scal R X star) := by
  constructor
  · intro h
    have h1 := krylov_solves C AF hop hrhs hend h
    have h2 := (krylov_iff C AF hop hrhs hend).1 h
    exact h2.symm.trans (scal_congr (scatter_unique H hκ hκ1 hD AF A0 h1 hstar))
  · intro h
    exact (krylov_complete C AF hop hrhs hend hstar h).1

end

end Verif.Source
