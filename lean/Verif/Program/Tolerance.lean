import Verif.Program.Scatter
import Verif.Source.Tolerance
import Verif.Source.Scheduled

/-!
# What the tolerance of a run promises (C78)

A run with scattering does not converge exactly: source iteration stops when the relative change of the scalar
flux is at most `errMax`, the Krylov solver when its residual is small. Here the distance of the result from the
solution on the serial mesh is bounded, for any partition, and so is the distance of two runs.
-/
set_option linter.unusedSectionVars false
set_option linter.unusedVariables false
namespace Verif.Program

open Verif.MeshFile Verif.TychoMesh Verif.Geometry Verif.Program.Spec
open Verif.Traverse (Psi)
open Verif.Source
open Verif.Domain (FullDG)

/-! ### Statements -/

/-- The sweepers that source iteration calls for the whole mesh (src/SweeperTraverse.cc, src/SweeperPBJ.cc:168-226,
src/SweeperSchur.cc:241-320), the inner iterations of the last two converged exactly: PBJ after more than `k` sweeps or
when nothing changed. -/
inductive Inner (M : Mode) (deck : Deck) (T : Nat → Mesh) (D : Nat → RankData) (k : Nat) : Sweeper ℝ → Prop where
  | traverse : Inner M deck T D k (traverseSweeper (M.run deck T D))
  | pbj (tol : ℝ) (iters : Nat) : Inner M deck T D k (pbjSweeper (M.run deck T D) tol iters k)
  | schur : Inner M deck T D k (schurSweeper (M.run deck T D))

/-- Source iteration (`g_useSourceIteration`, src/SweeperTraverse.cc:65-74) with `errMax` and `iterMax` from a zero flux
makes `iters` sweeps and leaves `psi`. -/
def Iterated (M : Mode) (deck : Deck) (T : Nat → Mesh) (D : Nat → RankData) (k : Nat) (errMax : ℝ) (iterMax : Nat)
    (psi : Nat → Psi ℝ) (iters : Nat) : Prop :=
  ∃ S, Inner M deck T D k S ∧ ∃ st tr st', FixedPoint (M.run deck T D) (scatOf deck D) S (M.run deck T D).source errMax
    iterMax st (fun _ _ _ _ _ => 0) tr st' psi iters

/-- The Krylov solver (src/SourceIteration.cc:216-285) stopped at a vector with residual `res` against a right-hand side
`rhs`; `psi` is the flux recovered from the vector. -/
def Stopped (M : Mode) (deck : Deck) (T : Nat → Mesh) (D : Nat → RankData) (k : Nat) (rhs res : Nat → Phi ℝ)
    (psi : Nat → Psi ℝ) : Prop :=
  ∃ S, Inner M deck T D k S ∧ ∃ x y, LhsOp (M.run deck T D) (scatOf deck D) S x y ∧
    KrylovRhs (M.run deck T D) (scatOf deck D) S (M.run deck T D).source rhs ∧
    KrylovEnd (M.run deck T D) (scatOf deck D) S (M.run deck T D).source x psi ∧ res = subPhi rhs y

/-- Total cross section times volume of the cells lies between `b` and `B`. -/
structure Spec.Between (p : Problem ℝ) (m : SerialMesh) (b B : ℝ) : Prop where
  pos : 0 < b
  low : ∀ c < m.numCells, b ≤ p.sigmaT c * p.volume c
  high : ∀ c < m.numCells, p.sigmaT c * p.volume c ≤ B

/-- Sum of the scalar flux over vertices, cells and groups: the norm of the test (src/SourceIteration.cc:169-174). -/
noncomputable def fluxSum (M : Mode) (deck : Deck) (T : Nat → Mesh) (psi : Nat → Psi ℝ) : ℝ :=
  ∑ r ∈ Finset.range M.n, ∑ i ∈ Finset.range (T r).nCells, ∑ v, ∑ g ∈ Finset.range deck.nGroups,
    |∑ a ∈ Finset.range deck.dirs.length, psi r g v a i * ((deck.dirs[a]?).map fun d => d.w).getD 0|

/-- The 2-norm of a vector of the Krylov solver over all ranks. -/
noncomputable def norm2 (M : Mode) (deck : Deck) (T : Nat → Mesh) (x : Nat → Phi ℝ) : ℝ :=
  √(∑ r ∈ Finset.range M.n, ∑ i ∈ Finset.range (T r).nCells, ∑ v, ∑ g ∈ Finset.range deck.nGroups, x r g v i ^ 2)

/-- The flux of a run is within `e` of a flux on the serial mesh in every direction, and the scalar flux within `e`
times the sum of the weights. -/
def Spec.Within (M : Mode) (deck : Deck) (T : Nat → Mesh) (e : ℝ) (psi : Nat → Psi ℝ) (psiS : Psi ℝ) : Prop :=
  ∀ r < M.n, ∀ i c, (T r).getLGCell i = some c → ∀ g < deck.nGroups, ∀ v,
    (∀ a < deck.dirs.length, |psi r g v a i - psiS g v a c| ≤ e) ∧
    |(∑ a ∈ Finset.range deck.dirs.length, psi r g v a i * ((deck.dirs[a]?).map fun d => d.w).getD 0) -
      ∑ a ∈ Finset.range deck.dirs.length, psiS g v a c * ((deck.dirs[a]?).map fun d => d.w).getD 0| ≤
        e * (deck.dirs.map fun d => d.w).sum

/-! ### Proofs -/

variable {val : Nat → ℝ} {deck : Deck} {m : SerialMesh} {M M' : Mode} {P P' : ParallelMesh} {T T' : Nat → Mesh}
  {D D' : Nat → RankData} {p : Problem ℝ} {sS : Nat → ℝ} {κ b B : ℝ} {k k' : Nat}

theorem norm1_fluxSum (deck : Deck) (D : Nat → RankData) (psi : Nat → Psi ℝ) :
    norm1 (M.run deck T D) (scal (M.run deck T D) (scatOf deck D) psi) = fluxSum M deck T psi := by
  have e : (M.run deck T D).nAngles = deck.dirs.length := by
    show deck.omega.length = _
    unfold Deck.omega
    rw [List.length_map]
  unfold norm1 phiSum scal fluxSum
  rw [e]
  rfl

theorem sqrt_square2 (deck : Deck) (D : Nat → RankData) (x : Nat → Phi ℝ) :
    √(square2 (M.run deck T D) x) = norm2 M deck T x := rfl

theorem square2_nonneg' (deck : Deck) (D : Nat → RankData) (x : Nat → Phi ℝ) : 0 ≤ square2 (M.run deck T D) x :=
  phiSum_nonneg fun _ _ _ _ => sq_nonneg _

theorem abs_of_near {x w q y b B : ℝ} (hb : 0 < b) (hw : 0 < w) (hy : 0 ≤ y) (h : b * (w * x) ^ 2 ≤ q * y ^ 2) :
    |x| ≤ √(q / b) * y / w := by
  rw [le_div_iff₀ hw]
  have h1 : (|x| * w) ^ 2 ≤ q / b * y ^ 2 := by
    rw [mul_pow, sq_abs, div_mul_eq_mul_div, le_div_iff₀ hb]
    linarith
  rcases le_or_gt 0 (q / b) with hq | hq
  · refine le_of_sq_le_sq (h1.trans (le_of_eq ?_)) (by positivity)
    rw [mul_pow, Real.sq_sqrt hq]
  · have h2 : (|x| * w) ^ 2 ≤ 0 := h1.trans (mul_nonpos_of_nonpos_of_nonneg hq.le (sq_nonneg _))
    have h3 : |x| * w = 0 := by nlinarith [sq_nonneg (|x| * w)]
    rw [h3]
    positivity

section
variable (h : Ready val deck m M P T D) (F : Fits val m) (hs : Sensible val deck m) (Ds : Describes val deck m p sS)
  (hac : p.Acyclic m) (htr : p.Transversal m) (hκ : Subcritical deck κ) (hκ1 : κ < 1) (hk : m.numCells ≤ k)
include h F hs Ds hac htr

theorem Inner.correct (hk : m.numCells ≤ k) {S : Sweeper ℝ} (hS : Inner M deck T D k S) :
    Correct S (FullDG (M.run deck T D) (mateOf m P) (nodeOf m T)) (FullDG (M.run deck T D) (mateOf m P) (nodeOf m T)) := by
  have hph := describes_physical h.created.tets F hs Ds
  have hR := h.runOf F hs Ds
  have hP := run_physical h.created h.loaded hph hR
  have hL := run_linked h.created h.ranks h.loaded hph hR
  have hN := run_nodes h.created h.loaded hR
  have hX := run_crossed h.created h.loaded hph hR htr
  have hA := run_acyclic h.created h.loaded hph hR hac htr
  cases hS with
  | traverse => exact traverse_correct hP hL hN hR.comm
  | pbj tol iters =>
    exact pbj_correct hP hL hX hN hR.comm hA tol iters fun r c a k' _ _ ha hc =>
      (run_crossings h.created h.loaded hph hR hac htr ha r c k' hc).trans hk
  | schur => exact schur_correct hP hL hX hN hR.comm hA

include hκ hκ1

/-- The solution on the serial mesh, and how a bound on the ranks reads there. -/
theorem near_serial (Bt : Between p m b B) : ∃ psiS : Psi ℝ, p.Scatter m (scattering deck sS) psiS ∧
    (∀ psi', p.Scatter m (scattering deck sS) psi' →
      ∀ c < m.numCells, ∀ a < p.nAngles, ∀ g < p.nGroups, ∀ v, psi' g v a c = psiS g v a c) ∧
    ∃ star, Scatters (M.run deck T D) (scatOf deck D) (FullDG (M.run deck T D) (mateOf m P) (nodeOf m T))
        (M.run deck T D).source star ∧
      (∀ r < M.n, ∀ i c, (T r).getLGCell i = some c → ∀ g v a, star r g v a i = psiS g v a c) ∧
      ∀ psi q y, 0 ≤ y → Near (M.run deck T D) (scatOf deck D) κ b (q * y ^ 2) psi star →
        Within M deck T (√(q / b) * y / ((deck.dirs.map fun d => d.w).sum * (1 - κ))) psi psiS := by
  have hph := describes_physical h.created.tets F hs Ds
  have hR := h.runOf F hs Ds
  have hX := h.scatOf F hs Ds
  have hP := run_physical h.created h.loaded hph hR
  have hL := run_linked h.created h.ranks h.loaded hph hR
  have hN := run_nodes h.created h.loaded hR
  have hXc := run_crossed h.created h.loaded hph hR htr
  have hA := run_acyclic h.created h.loaded hph hR hac htr
  have hMa := run_matched h.created h.loaded hph (describes_matched h.created.tets F hs Ds) hR htr
  have hr := run_ratio h.created h.loaded hR hX (describes_ratio h.created.tets Ds hκ)
  obtain ⟨star, hst, -⟩ := full_scatter_exists_unique hP hL hXc hN hMa hR.comm hA hr hκ1 (M.run deck T D).source
  obtain ⟨psiS, hS⟩ := serial_flux h.created h.loaded star
  have hsc := (scatters_iff h.created h.loaded hR hX hS).1 hst
  have hlg : ∀ r < M.n, ∀ i c, (T r).getLGCell i = some c → ∀ g v a, star r g v a i = psiS g v a c :=
    fun r hr i c hc => hS r i c (lg_isCell h.created h.loaded hr hc)
  refine ⟨psiS, hsc, ?_, star, hst, hlg, ?_⟩
  · intro psi' h' c hc a ha g hg v
    have hP' : ∀ r i c, IsCell P r i c → ∀ g v a, psi' g v a (((T r).getLGCell i).getD 0) = psi' g v a c := by
      intro r i c hi g v a
      rw [(isCell_lg h.created h.loaded hi).1]; rfl
    have hs' := (scatters_iff (psi := fun r g v a i => psi' g v a (((T r).getLGCell i).getD 0)) h.created h.loaded hR hX hP').2 h'
    obtain ⟨r, i, hi⟩ := isCell_exists h.created hc
    obtain ⟨-, k2, k3, -⟩ := isCell_lg h.created h.loaded hi
    have hAf := full_affine hP hL hN hR.comm hA
    have := scatter_unique hP hr hκ1 (full_dissipative hP hL hN hMa) hAf hAf hs' hst r i a g v (by rw [hR.ranks]; exact k2)
      (by rw [hR.cells r k2]; exact k3) (by rw [hR.angles]; exact ha) (by rw [hR.groups]; exact hg)
    rw [← hS r i c hi, ← this]
    exact (hP' r i c hi g v a).symm
  · intro psi q y hy hn r hr' i c hc g hg v
    have hang : (M.run deck T D).nAngles = deck.dirs.length := hR.angles.trans Ds.angles
    have hgr : (M.run deck T D).nGroups = deck.nGroups := rfl
    have hW : ∑ a ∈ Finset.range (M.run deck T D).nAngles, (scatOf deck D).wt a = (deck.dirs.map fun d => d.w).sum := by
      rw [hang]; exact weight_sum deck sS
    have hWp := hr.total
    have hi : i < (M.run deck T D).nCells r := (isCell_lg h.created h.loaded (lg_isCell h.created h.loaded hr' hc)).2.2.1
    obtain ⟨n1, n2⟩ := hn r i g v hr' hi hg
    rw [hW] at n2 hWp
    have h1κ : 0 < 1 - κ := by linarith
    constructor
    · intro a ha
      rw [← hlg r hr' i c hc]
      exact abs_of_near (B := B) Bt.pos (mul_pos hWp h1κ) hy (n2 a (by rw [hang]; exact ha))
    · have := abs_of_near (B := B) Bt.pos h1κ hy n1
      have e1 : ∀ x : Nat → Psi ℝ, scal (M.run deck T D) (scatOf deck D) x r g v i =
          ∑ a ∈ Finset.range deck.dirs.length, x r g v a i * ((deck.dirs[a]?).map fun d => d.w).getD 0 := by
        intro x; unfold scal; rw [hang]; rfl
      rw [e1, e1] at this
      have e2 : ∑ a ∈ Finset.range deck.dirs.length, star r g v a i * ((deck.dirs[a]?).map fun d => d.w).getD 0 =
          ∑ a ∈ Finset.range deck.dirs.length, psiS g v a c * ((deck.dirs[a]?).map fun d => d.w).getD 0 :=
        Finset.sum_congr rfl fun a _ => by rw [hlg r hr' i c hc]
      rw [e2] at this
      refine this.trans (le_of_eq ?_)
      field_simp

omit hκ hκ1 htr hac in
theorem between_weighted (Bt : Between p m b B) (hB : 0 ≤ B) : Weighted (M.run deck T D) b B := by
  have hR := h.runOf F hs Ds
  have key : ∀ r c, r < (M.run deck T D).nRanks → c < (M.run deck T D).nCells r → ∃ gc < m.numCells,
      (M.run deck T D).sigmaT r c * ((M.run deck T D).view r).cellVolume c = p.sigmaT gc * p.volume gc := by
    intro r c hr hc
    have hr' : r < M.n := by have := hR.ranks; omega
    obtain ⟨gc, hgc⟩ := isCell_of_lt h.created h.loaded hr' (by rw [← hR.cells r hr']; exact hc)
    obtain ⟨h1, -, -, h4⟩ := isCell_lg h.created h.loaded hgc
    exact ⟨gc, h4, by rw [hR.sigma r hr' c gc h1, hR.volume r hr' c gc h1]⟩
  refine ⟨fun r c hr hc => ?_, fun r c hr hc => ?_, hB⟩
  · obtain ⟨gc, h1, h2⟩ := key r c hr hc
    rw [h2]; exact Bt.low gc h1
  · obtain ⟨gc, h1, h2⟩ := key r c hr hc
    rw [h2]; exact Bt.high gc h1

omit h F hs Ds hac htr hκ hκ1 in
theorem between_nonneg (Bt : Between p m b B) (h0 : 0 < m.numCells) : 0 ≤ B :=
  Bt.pos.le.trans ((Bt.low 0 h0).trans (Bt.high 0 h0))

include hk

omit hk in
/-- Source iteration with any sweeper that solves the transport problem. -/
theorem correct_error (h0 : 0 < m.numCells) (Bt : Between p m b B) {Z : Sweeper ℝ}
    (C : Correct Z (FullDG (M.run deck T D) (mateOf m P) (nodeOf m T)) (FullDG (M.run deck T D) (mateOf m P) (nodeOf m T)))
    {errMax : ℝ} (he : 0 ≤ errMax) {iterMax iters : Nat} {st : Z.State} {psi0 psi : Nat → Psi ℝ}
    {tr : List ((Nat → Phi ℝ) × (Nat → Psi ℝ))} {st' : Z.State}
    (hf : FixedPoint (M.run deck T D) (scatOf deck D) Z (M.run deck T D).source errMax iterMax st psi0 tr st' psi iters)
    (hn : 0 < iters) (hlt : iters < iterMax) :
    ∃ psiS : Psi ℝ, p.Scatter m (scattering deck sS) psiS ∧
      (∀ psi', p.Scatter m (scattering deck sS) psi' →
        ∀ c < m.numCells, ∀ a < p.nAngles, ∀ g < p.nGroups, ∀ v, psi' g v a c = psiS g v a c) ∧
      Within M deck T (√(2 * B / b) * (κ * (errMax * fluxSum M deck T psi)) / ((deck.dirs.map fun d => d.w).sum * (1 - κ)))
        psi psiS := by
  obtain ⟨psiS, h1, h2, star, h3, -, h4⟩ := near_serial h F hs Ds hac htr hκ hκ1 Bt
  refine ⟨psiS, h1, h2, h4 psi (2 * B) _ ?_ ?_⟩
  · exact mul_nonneg hκ.nonneg (mul_nonneg he (Finset.sum_nonneg fun _ _ => Finset.sum_nonneg fun _ _ =>
      Finset.sum_nonneg fun _ _ => Finset.sum_nonneg fun _ _ => abs_nonneg _))
  · have hph := describes_physical h.created.tets F hs Ds
    have hR := h.runOf F hs Ds
    have hP := run_physical h.created h.loaded hph hR
    have hL := run_linked h.created h.ranks h.loaded hph hR
    have hN := run_nodes h.created h.loaded hR
    have hA := run_acyclic h.created h.loaded hph hR hac htr
    have hMa := run_matched h.created h.loaded hph (describes_matched h.created.tets F hs Ds) hR htr
    have hr := run_ratio h.created h.loaded hR (h.scatOf F hs Ds) (describes_ratio h.created.tets Ds hκ)
    have := fixedPoint_error hP hr hκ1 (full_dissipative hP hL hN hMa) C
      (full_affine hP hL hN hR.comm hA) (between_weighted h F hs Ds Bt (between_nonneg Bt h0)) h3 hf hn hlt
    rwa [norm1_fluxSum] at this

omit hk in
/-- The Krylov solver with any sweeper that solves the transport problem. -/
theorem correct_residual (h0 : 0 < m.numCells) (Bt : Between p m b B) {Z : Sweeper ℝ}
    (C : Correct Z (FullDG (M.run deck T D) (mateOf m P) (nodeOf m T)) (FullDG (M.run deck T D) (mateOf m P) (nodeOf m T)))
    {x y rhs : Nat → Phi ℝ} {psi : Nat → Psi ℝ} (k1 : LhsOp (M.run deck T D) (scatOf deck D) Z x y)
    (k2 : KrylovRhs (M.run deck T D) (scatOf deck D) Z (M.run deck T D).source rhs)
    (k3 : KrylovEnd (M.run deck T D) (scatOf deck D) Z (M.run deck T D).source x psi) :
    ∃ psiS : Psi ℝ, p.Scatter m (scattering deck sS) psiS ∧
      (∀ psi', p.Scatter m (scattering deck sS) psi' →
        ∀ c < m.numCells, ∀ a < p.nAngles, ∀ g < p.nGroups, ∀ v, psi' g v a c = psiS g v a c) ∧
      Within M deck T (√(5 * B / b) * (κ * norm2 M deck T (subPhi rhs y)) / ((deck.dirs.map fun d => d.w).sum * (1 - κ)))
        psi psiS := by
  obtain ⟨psiS, h1, h2, star, h3, -, h4⟩ := near_serial h F hs Ds hac htr hκ hκ1 Bt
  refine ⟨psiS, h1, h2, h4 psi (5 * B) _ (mul_nonneg hκ.nonneg (Real.sqrt_nonneg _)) ?_⟩
  have hph := describes_physical h.created.tets F hs Ds
  have hR := h.runOf F hs Ds
  have hP := run_physical h.created h.loaded hph hR
  have hL := run_linked h.created h.ranks h.loaded hph hR
  have hN := run_nodes h.created h.loaded hR
  have hA := run_acyclic h.created h.loaded hph hR hac htr
  have hMa := run_matched h.created h.loaded hph (describes_matched h.created.tets F hs Ds) hR htr
  have hr := run_ratio h.created h.loaded hR (h.scatOf F hs Ds) (describes_ratio h.created.tets Ds hκ)
  have := krylov_error hP hr hκ1 (full_dissipative hP hL hN hMa) C
    (full_affine hP hL hN hR.comm hA) (between_weighted h F hs Ds Bt (between_nonneg Bt h0)) h3 k1 k2 k3
  rw [mul_pow, ← sqrt_square2 deck D, Real.sq_sqrt (square2_nonneg' deck D _)]
  exact this

/-- C78: source iteration that ended by its tolerance, on any partition and with any sweeper, is within
`√(2B/b) κ/(1-κ) errMax Φ/W` of the one solution on the serial mesh, `Φ` the sum of its scalar flux and `W` the sum of
the weights. -/
theorem iterated_error (h0 : 0 < m.numCells) (Bt : Between p m b B) {errMax : ℝ} (he : 0 ≤ errMax) {iterMax iters : Nat}
    {psi : Nat → Psi ℝ} (hp : Iterated M deck T D k errMax iterMax psi iters) (hn : 0 < iters) (hlt : iters < iterMax) :
    ∃ psiS : Psi ℝ, p.Scatter m (scattering deck sS) psiS ∧
      (∀ psi', p.Scatter m (scattering deck sS) psi' →
        ∀ c < m.numCells, ∀ a < p.nAngles, ∀ g < p.nGroups, ∀ v, psi' g v a c = psiS g v a c) ∧
      Within M deck T (√(2 * B / b) * (κ * (errMax * fluxSum M deck T psi)) / ((deck.dirs.map fun d => d.w).sum * (1 - κ)))
        psi psiS := by
  obtain ⟨S, hS, st, tr, st', hf⟩ := hp
  exact correct_error h F hs Ds hac htr hκ hκ1 h0 Bt (hS.correct h F hs Ds hac htr hk) he hf hn hlt

/-- C78: the Krylov solver, whatever vector it stopped at. -/
theorem stopped_error (h0 : 0 < m.numCells) (Bt : Between p m b B) {rhs res : Nat → Phi ℝ} {psi : Nat → Psi ℝ}
    (hp : Stopped M deck T D k rhs res psi) :
    ∃ psiS : Psi ℝ, p.Scatter m (scattering deck sS) psiS ∧
      (∀ psi', p.Scatter m (scattering deck sS) psi' →
        ∀ c < m.numCells, ∀ a < p.nAngles, ∀ g < p.nGroups, ∀ v, psi' g v a c = psiS g v a c) ∧
      Within M deck T (√(5 * B / b) * (κ * norm2 M deck T res) / ((deck.dirs.map fun d => d.w).sum * (1 - κ))) psi psiS := by
  obtain ⟨S, hS, x, y, k1, k2, k3, rfl⟩ := hp
  exact correct_residual h F hs Ds hac htr hκ hκ1 h0 Bt (hS.correct h F hs Ds hac htr hk) k1 k2 k3

/-- C78: a tolerance between 0 and 1 is reached. There is a number of sweeps that no run on these ranks exceeds, with
any of the sweepers and any limit; with a limit above it the run ends by the tolerance. -/
theorem iterated_reaches (h0 : 0 < m.numCells) (Bt : Between p m b B) {errMax : ℝ} (he : 0 < errMax) (he1 : errMax < 1) :
    ∃ n0, ∀ iterMax psi iters, Iterated M deck T D k errMax iterMax psi iters →
      iters ≤ n0 ∧ (n0 < iterMax → 0 < iters ∧ iters < iterMax) := by
  obtain ⟨psiS, -, -, star, h3, -, -⟩ := near_serial h F hs Ds hac htr hκ hκ1 Bt
  have hph := describes_physical h.created.tets F hs Ds
  have hR := h.runOf F hs Ds
  have hP := run_physical h.created h.loaded hph hR
  have hL := run_linked h.created h.ranks h.loaded hph hR
  have hN := run_nodes h.created h.loaded hR
  have hA := run_acyclic h.created h.loaded hph hR hac htr
  have hMa := run_matched h.created h.loaded hph (describes_matched h.created.tets F hs Ds) hR htr
  have hr := run_ratio h.created h.loaded hR (h.scatOf F hs Ds) (describes_ratio h.created.tets Ds hκ)
  have hz : norm1 (M.run deck T D) (scal (M.run deck T D) (scatOf deck D) star) ≠ 0 ∨
      SamePhi (M.run deck T D) (scal (M.run deck T D) (scatOf deck D) fun _ _ _ _ _ => 0)
        (scal (M.run deck T D) (scatOf deck D) star) := by
    by_cases hz : norm1 (M.run deck T D) (scal (M.run deck T D) (scatOf deck D) star) = 0
    · right
      intro r hr g v c hg hc
      rw [norm1_zero hz r hr g v c hg hc]
      simp [scal]
    · exact .inl hz
  have hDi := full_dissipative hP hL hN hMa
  have hAf := full_affine hP hL hN hR.comm hA
  have hWd := between_weighted h F hs Ds Bt (between_nonneg Bt h0)
  obtain ⟨n0, hn0⟩ := fixedPoint_reaches hP hr hκ1 hDi hAf hWd Bt.pos he h3 hz
  refine ⟨n0, ?_⟩
  rintro iterMax psi iters ⟨S, hS, st, tr, st', hf⟩
  have hle := hn0 S (hS.correct h F hs Ds hac htr hk) iterMax st tr st' psi iters hf
  refine ⟨hle, fun hlt => ⟨?_, by omega⟩⟩
  rcases fixedPoint_tolerance hf (by omega) with ⟨-, -, h'⟩ | ⟨tr', old, e, -⟩
  · exact absurd h' (not_le.2 he1)
  · rw [(fixedPoint_count hf).1, e]; simp

end

/-- C78: two runs, on any partitions and with any sweepers, that ended by their tolerances. -/
theorem iterated_agree (h : Ready val deck m M P T D) (h' : Ready val deck m M' P' T' D') (F : Fits val m)
    (hs : Sensible val deck m) (Ds : Describes val deck m p sS) (hac : p.Acyclic m) (htr : p.Transversal m)
    (hκ : Subcritical deck κ) (hκ1 : κ < 1) (hk : m.numCells ≤ k) (hk' : m.numCells ≤ k') (Bt : Between p m b B)
    {errMax errMax' : ℝ} (he : 0 ≤ errMax) (he' : 0 ≤ errMax') {iterMax iters iterMax' iters' : Nat} {psi psi' : Nat → Psi ℝ}
    (hp : Iterated M deck T D k errMax iterMax psi iters) (hn : 0 < iters) (hlt : iters < iterMax)
    (hp' : Iterated M' deck T' D' k' errMax' iterMax' psi' iters') (hn' : 0 < iters') (hlt' : iters' < iterMax')
    {r i r' i' c : Nat} (hr : r < M.n) (hr' : r' < M'.n) (hc : (T r).getLGCell i = some c)
    (hc' : (T' r').getLGCell i' = some c) : ∀ g < deck.nGroups, ∀ a < deck.dirs.length, ∀ v,
      |psi r g v a i - psi' r' g v a i'| ≤ √(2 * B / b) * (κ * (errMax * fluxSum M deck T psi + errMax' * fluxSum M' deck T' psi')) /
        ((deck.dirs.map fun d => d.w).sum * (1 - κ)) := by
  have hcn := (isCell_lg h.created h.loaded (lg_isCell h.created h.loaded hr hc)).2.2.2
  have h0 : 0 < m.numCells := by omega
  obtain ⟨S, d1, d2, d3⟩ := iterated_error h F hs Ds hac htr hκ hκ1 hk h0 Bt he hp hn hlt
  obtain ⟨S', e1, e2, e3⟩ := iterated_error h' F hs Ds hac htr hκ hκ1 hk' h0 Bt he' hp' hn' hlt'
  intro g hg a ha v
  have k1 := (d3 r hr i c hc g hg v).1 a ha
  have k2 := (e3 r' hr' i' c hc' g hg v).1 a ha
  rw [e2 S d1 c hcn a (by rw [Ds.angles]; exact ha) g (by rw [Ds.groups]; exact hg) v |>.symm] at k2
  rw [abs_sub_comm] at k2
  have := abs_sub_le (psi r g v a i) (S g v a c) (psi' r' g v a i')
  refine this.trans ((add_le_add k1 k2).trans (le_of_eq ?_))
  ring

theorem bounds_exist (f : Nat → ℝ) (n : Nat) (h : ∀ c < n, 0 < f c) : ∃ b B, 0 < b ∧ (∀ c < n, b ≤ f c) ∧ ∀ c < n, f c ≤ B := by
  induction n with
  | zero => exact ⟨1, 1, one_pos, fun c hc => absurd hc (Nat.not_lt_zero _), fun c hc => absurd hc (Nat.not_lt_zero _)⟩
  | succ n ih =>
    obtain ⟨b, B, h1, h2, h3⟩ := ih fun c hc => h c (by omega)
    refine ⟨min b (f n), max B (f n), lt_min h1 (h n (by omega)), fun c hc => ?_, fun c hc => ?_⟩
    · rcases Nat.lt_succ_iff_lt_or_eq.1 hc with h' | rfl
      · exact (min_le_left _ _).trans (h2 c h')
      · exact min_le_right _ _
    · rcases Nat.lt_succ_iff_lt_or_eq.1 hc with h' | rfl
      · exact (h3 c h').trans (le_max_left _ _)
      · exact le_max_right _ _

/-- C78: with positive total cross sections there are bounds `b` and `B`. -/
theorem between_exists (ht : Tets m) (F : Fits val m) (hs : Sensible val deck m) (Ds : Describes val deck m p sS)
    (h1 : 0 < deck.sigmaT1) (h2 : 0 < deck.sigmaT2) : ∃ b B, Between p m b B := by
  obtain ⟨b, B, k1, k2, k3⟩ := bounds_exist (fun c => p.sigmaT c * p.volume c) m.numCells fun c hc => by
    have hd := List.getElem?_eq_getElem (l := m.cells) (i := c) (by rw [← ht.toSound.cells]; exact hc)
    have hsig : 0 < p.sigmaT c := by
      rcases Ds.sigma c _ hd with ⟨-, e1, -⟩ | ⟨-, e1, -⟩ <;> rw [e1] <;> assumption
    exact mul_pos hsig ((describes_physical ht F hs Ds).volume c hc)
  exact ⟨b, B, k1, k2, k3⟩

/-- C78: source iteration with the full sweep comes to an end. -/
theorem iterated_returns (h : Ready val deck m M P T D) (F : Fits val m) (hs : Sensible val deck m)
    (Ds : Describes val deck m p sS) (hac : p.Acyclic m) (htr : p.Transversal m) (hb : 0 < M.batch) (hproto : M.proto = .tycho)
    (k : Nat) (errMax : ℝ) (iterMax : Nat) : ∃ psi iters, Iterated M deck T D k errMax iterMax psi iters := by
  have hph := describes_physical h.created.tets F hs Ds
  have hR := h.runOf F hs Ds
  obtain ⟨tr, st', psi, n, hf⟩ := fixedPoint_returns (R := M.run deck T D) (X := scatOf deck D)
    (S := traverseSweeper (M.run deck T D)) (fun _ psi src => by
      obtain ⟨psi', h'⟩ := fullSwept_exists (run_physical h.created h.loaded hph hR)
        (run_linked h.created h.ranks h.loaded hph hR) (run_crossed h.created h.loaded hph hR htr)
        (run_nodes h.created h.loaded hR) hR.comm (run_acyclic h.created h.loaded hph hR hac htr) hproto hb src psi
      exact ⟨(), psi', h'⟩) (M.run deck T D).source errMax iterMax () (fun _ _ _ _ _ => 0)
  exact ⟨psi, n, _, .traverse, (), tr, st', hf⟩

/-- C78: two runs on the mesh of two cells, on one rank and on two, with a tolerance of one in a million: both end by
the tolerance, so `iterated_error` and `iterated_agree` apply to them. -/
theorem two_iterated : ∃ (deck : Deck) (P P' : ParallelMesh) (T T' : Nat → Mesh) (D D' : Nat → RankData) (p : Problem ℝ)
    (sS : Nat → ℝ) (b B : ℝ) (iterMax iters iters' : Nat) (psi psi' : Nat → Psi ℝ),
    Sensible twoVal deck twoMesh ∧ Describes twoVal deck twoMesh p sS ∧ p.Acyclic twoMesh ∧ p.Transversal twoMesh ∧
    Subcritical deck (3 / 4) ∧ Between p twoMesh b B ∧ 0 < deck.sigmaS1 ∧ 0 < deck.sigmaS2 ∧
    Ready twoVal deck twoMesh oneRank P T D ∧ Ready twoVal deck twoMesh twoRanks P' T' D' ∧
    Iterated oneRank deck T D 2 (1 / 10 ^ 6) iterMax psi iters ∧ 0 < iters ∧ iters < iterMax ∧
    Iterated twoRanks deck T' D' 2 (1 / 10 ^ 6) iterMax psi' iters' ∧ 0 < iters' ∧ iters' < iterMax := by
  obtain ⟨Q, hQ⟩ := (Verif.Quadrature.orders 4).2 (by decide)
  let deck : Deck := ⟨2, Q, 1, 1 / 2, 2, 1⟩
  have hs : Sensible twoVal deck twoMesh := two_sensible (deck := deck) hQ (by norm_num [deck]) (by norm_num [deck])
  have hlen : Q.length = 32 := by
    have := Verif.Quadrature.count hQ
    omega
  obtain ⟨p, sS, Ds⟩ := describes_exists twoMesh_tets two_fits hs
  have htr := two_transversal Ds fun d hd => (Verif.Quadrature.off_planes hQ d hd).2.2
  have hac := two_acyclic Ds
  have hκ : Subcritical deck (3 / 4) := quadrature_subcritical (deck := deck) hQ (c := 1 / 2) (by norm_num) (by norm_num)
    (by norm_num [deck]) (by norm_num [deck]) (by norm_num [deck]) (by norm_num [deck]) (by norm_num [deck]) (by norm_num [deck])
  obtain ⟨b, B, hB⟩ := between_exists twoMesh_tets two_fits hs Ds (by norm_num [deck]) (by norm_num [deck])
  obtain ⟨P, T, D, h⟩ := program_starts (M := oneRank) twoMesh_tets (by decide) (by decide) two_fits hs rfl (by decide) (by decide)
    (by decide) (by show Q.length * 2 < 2 ^ 64; rw [hlen]; norm_num)
  obtain ⟨P', T', D', h'⟩ := program_starts (M := twoRanks) twoMesh_tets (by decide) (by decide) two_fits hs rfl (by decide) (by decide)
    (by decide) (by show Q.length * 2 < 2 ^ 64; rw [hlen]; norm_num)
  obtain ⟨n0, k0⟩ := iterated_reaches h two_fits hs Ds hac htr hκ (by norm_num) (k := 2) le_rfl (by decide) hB
    (errMax := 1 / 10 ^ 6) (by norm_num) (by norm_num)
  obtain ⟨n1, k1⟩ := iterated_reaches h' two_fits hs Ds hac htr hκ (by norm_num) (k := 2) le_rfl (by decide) hB
    (errMax := 1 / 10 ^ 6) (by norm_num) (by norm_num)
  obtain ⟨psi, iters, hi⟩ := iterated_returns h two_fits hs Ds hac htr (by decide) rfl 2 (1 / 10 ^ 6) (n0 + n1 + 1)
  obtain ⟨psi', iters', hi'⟩ := iterated_returns h' two_fits hs Ds hac htr (by decide) rfl 2 (1 / 10 ^ 6) (n0 + n1 + 1)
  obtain ⟨a1, a2⟩ := (k0 _ _ _ hi).2 (by omega)
  obtain ⟨a3, a4⟩ := (k1 _ _ _ hi').2 (by omega)
  exact ⟨deck, P, P', T, T', D, D', p, sS, b, B, _, iters, iters', psi, psi', hs, Ds, hac, htr, hκ, hB, by norm_num [deck],
    by norm_num [deck], h, h', hi, a1, a2, hi', a3, a4⟩

end Verif.Program
