import Verif.Source.Tolerance
import Verif.Source.Examples
import Verif.Domain.Defect

/-!
# What the tolerances of the decomposing methods promise (C81)

Block Jacobi stops on the relative change of the angular flux (`DD_ErrMax`), the Schur solvers on a residual. In either
case the boundary values of the last sweep are not quite the neighbours' flux. Together with the tolerance of the
source iteration this bounds the distance from the solution, for every sweep type that decomposes the domain.
-/
set_option linter.unusedSectionVars false

namespace Verif.Source
open Classical List
open Verif.Transport Verif.Traverse Verif.Domain

variable {K : Type} [Field K] [LinearOrder K]

/-! ### Model -/

/-- Sum of the absolute values of a flux, over all ranks (src/SweeperPBJ.cc:192-200). -/
def fluxNorm (R : SweepRun K) (psi : Nat → Psi K) : K := gsum R fun r g v a c => |psi r g v a c|

/-- Sum of the absolute changes of a flux (src/SweeperPBJ.cc:193). -/
def fluxDist (R : SweepRun K) (psi psi' : Nat → Psi K) : K := gsum R fun r g v a c => |psi r g v a c - psi' r g v a c|

/-- `SweeperPBJ::sweep` (src/SweeperPBJ.cc:168-219) with any end. The state is `c_psiBoundPrev`, and as history the local
sweeps of each call; the flag is ignored. -/
def pbjLogged (R : SweepRun K) (tol : K) (iterMax : Nat) : Sweeper K where
  State := (Nat → Bound K) × List (List (Nat → Psi K))
  run st _ psi src st' psi' := ∃ sweeps, PBJSweep R src tol iterMax psi st.1 sweeps psi' st'.1 ∧ st'.2 = st.2 ++ [sweeps]

/-- `SweeperSchur::sweep` (src/SweeperSchur.cc:246-320), when the Krylov solver returned a vector whose residual has
entries of at most `ρ`. The flag is ignored. -/
def schurNear (R : SweepRun K) (ρ : K) : Sweeper K where
  State := Unit
  run _ _ _ src _ psi' := ∃ x b rhs, SchurOp R x b ∧ SchurRhs R src rhs ∧
    (∀ r < R.nRanks, ∀ i < psiBoundSize R r, |rhs r i - b r i| ≤ ρ) ∧ SchurEnd R src x psi'

/-- `if (g_useSourceIteration) fixedPoint(sweeper, psi, src) else krylov(sweeper, psi, src)`, ended by the tolerance or
with any vector: the last parameter bounds what the last sweep changed in the scalar flux, in the sum. -/
inductive Settled (R : SweepRun K) (X : Scat K) (S : Sweeper K) (errMax : K) (srcMax : Nat) (src psi psi' : Nat → Psi K) :
    Bool → K → Prop
  | iteration {st tr st' n} (h : FixedPoint R X S src errMax srcMax st psi tr st' psi' n) (hn : 0 < n)
      (hlt : n < srcMax) : Settled R X S errMax srcMax src psi psi' true (errMax * norm1 R (scal R X psi'))
  | krylov {x y rhs} (hop : LhsOp R X S x y) (hrhs : KrylovRhs R X S src rhs) (hend : KrylovEnd R X S src x psi') :
      Settled R X S errMax srcMax src psi psi' false (norm1 R (subPhi rhs y))

/-- The loop of `SweeperPBJOuter::solve` (src/SweeperPBJ.cc:73-112) when it ends by its tolerance, with the change of
the flux in the last iteration and of the scalar flux in the last sweep. -/
inductive OuterStops (R : SweepRun K) (X : Scat K) (si : Bool) (errMax : K) (srcMax : Nat) (src : Nat → Psi K) (tol : K)
    (iterMax : Nat) : Nat → (Nat → Psi K) → (Nat → Psi K) → (Nat → Bound K) → (Nat → Psi K) → K → K → Prop
  | conv {iter psi prev bound psi' δ} (h : iter < iterMax)
      (hs : Settled R X (localSweeper R bound) errMax srcMax src psi psi' si δ) (hc : Converged R tol prev psi') :
    OuterStops R X si errMax srcMax src tol iterMax iter psi prev bound psi' (tol * fluxNorm R psi') δ
  | next {iter psi prev bound psi' δ bound' psiEnd η δ'} (h : iter < iterMax)
      (hs : Settled R X (localSweeper R bound) errMax srcMax src psi psi' si δ) (hc : ¬ Converged R tol prev psi')
      (hx : ExchangeRun R psi' bound bound')
      (hr : OuterStops R X si errMax srcMax src tol iterMax (iter + 1) psi' psi' bound' psiEnd η δ') :
    OuterStops R X si errMax srcMax src tol iterMax iter psi prev bound psiEnd η δ'

/-- The loop of `SweeperPBJSI::solve` (src/SweeperPBJ.cc:246-277) when it ends by its tolerance. The test is on the
scalar flux; `η` is the change of the flux, which the code does not look at. -/
inductive SIStops (R : SweepRun K) (X : Scat K) (src : Nat → Psi K) (tol : K) (iterMax : Nat) :
    Nat → (Nat → Psi K) → (Nat → Phi K) → (Nat → Bound K) → (Nat → Psi K) → K → K → Prop
  | conv {iter psi phi bound tot psi' phi' bound'} (h : iter < iterMax) (ht : IsTotal R X src phi tot)
      (hs : LocalSwept R tot psi bound psi') (hp : IsPhi R X psi' phi')
      (hx : ExchangeRun R psi' bound bound') (hc : ConvergedPhi R tol phi' phi) :
    SIStops R X src tol iterMax iter psi phi bound psi' (fluxDist R psi psi') (tol * norm1 R (scal R X psi'))
  | next {iter psi phi bound tot psi' phi' bound' psiEnd η δ} (h : iter < iterMax)
      (ht : IsTotal R X src phi tot) (hs : LocalSwept R tot psi bound psi') (hp : IsPhi R X psi' phi')
      (hx : ExchangeRun R psi' bound bound') (hc : ¬ ConvergedPhi R tol phi' phi)
      (hr : SIStops R X src tol iterMax (iter + 1) psi' phi' bound' psiEnd η δ) :
    SIStops R X src tol iterMax iter psi phi bound psiEnd η δ

/-! ### Statements -/

/-- What is kept of the calls of `SweeperPBJ::sweep` made so far: the change the test allowed in the last call with more
than one local sweep, and the norm of the flux after the first later call. A call with one local sweep exchanges
nothing. -/
def lagStep (R : SweepRun K) (tol : K) : K × Option K → List (Nat → Psi K) → K × Option K
  | s, [] => s
  | s, [p] => (s.1, some (s.2.getD (fluxNorm R p)))
  | _, _ :: p :: rest => (tol * fluxNorm R (rest.getLastD p), none)

/-- How far the flux `psi` may be from the one its boundary values were taken from. The number of calls without an
exchange does not matter: they contract, with `Y` from the scattering ratio. -/
def lagAll (R : SweepRun K) (tol Y : K) (log : List (List (Nat → Psi K))) (psi : Nat → Psi K) : K :=
  match log.foldl (lagStep R tol) (0, none) with
  | (d, none) => d
  | (d, some f) => d + tol * ((1 + Y) * f + Y * fluxNorm R psi)

/-- The results of `sweeper->solve()` that ended by their tolerances, for the sweep types that decompose the domain
(src/Main.cc:270-321). Here `η` bounds the error of the boundary values and `δ` what the last sweep changed in
the scalar flux. -/
inductive Ended (R : SweepRun K) (X : Scat K) (Y : K) (src psi : Nat → Psi K) : K → K → Prop
  | pbj {tol ddMax errMax iterMax tr bound log n} (h : FixedPoint R X (pbjLogged R tol ddMax) src errMax iterMax
        (fun _ _ _ _ _ => 0, []) (fun _ _ _ _ _ => 0) tr (bound, log) psi n) (hn : 0 < n) (hlt : n < iterMax)
      (ht : 0 ≤ tol) (hm : 2 < ddMax) (hl : ∀ sweeps, log.getLast? = some sweeps → sweeps.length + 1 < ddMax) :
      Ended R X Y src psi (lagAll R tol Y log psi) (errMax * norm1 R (scal R X psi))
  | schur {ρ errMax iterMax tr st st' n} (h : FixedPoint R X (schurNear R ρ) src errMax iterMax st
        (fun _ _ _ _ _ => 0) tr st' psi n) (hn : 0 < n) (hlt : n < iterMax) (hρ : 0 ≤ ρ) :
      Ended R X Y src psi ρ (errMax * norm1 R (scal R X psi))
  | pbjOuter {si errMax srcMax tol iterMax η δ} (h : OuterStops R X si errMax srcMax src tol iterMax 1 (fun _ _ _ _ _ => 0) (fun _ _ _ _ _ => 0)
        (fun _ _ _ _ _ => 0) psi η δ) : Ended R X Y src psi η δ
  | pbjSI {tol iterMax η δ} (h : SIStops R X src tol iterMax 1 (fun _ _ _ _ _ => 0) (fun _ _ _ _ => 0)
        (fun _ _ _ _ _ => 0) psi η δ) : Ended R X Y src psi η δ
  | schurOuter {x b rhs ρ} (hop : SchurOuterOp R X x b) (hrhs : SchurOuterRhs R X src rhs)
      (hres : ∀ r < R.nRanks, ∀ i < psiBoundSize R r, |rhs r i - b r i| ≤ ρ) (hρ : 0 ≤ ρ)
      (hend : SchurOuterEnd R X src x psi) : Ended R X Y src psi ρ 0
  | schurKrylov {x p b q rhs rhsPhi ρ} (hop : SchurKrylovOp R X x p b q) (hrhs : SchurKrylovRhs R X src rhs rhsPhi)
      (hres : ∀ r < R.nRanks, ∀ i < psiBoundSize R r, |rhs r i - b r i| ≤ ρ) (hρ : 0 ≤ ρ)
      (hend : SchurKrylovEnd R X src x p psi) : Ended R X Y src psi ρ (norm1 R (subPhi rhsPhi q))

/-- Two fluxes differ by at most `d` in every cell, direction, group and vertex. -/
def Apart (R : SweepRun K) (d : K) (psi psi' : Nat → Psi K) : Prop :=
  ∀ r c a g v, r < R.nRanks → c < R.nCells r → a < R.nAngles → g < R.nGroups → |psi r g v a c - psi' r g v a c| ≤ d

/-! ### Proofs: sums -/

variable {R : SweepRun K} {X : Scat K} [IsStrictOrderedRing K]

theorem gsum_le {f f' : Nat → Nat → Fin 4 → Nat → Nat → K} (h : ∀ r g v a c, f r g v a c ≤ f' r g v a c) :
    gsum R f ≤ gsum R f' :=
  Finset.sum_le_sum fun r _ => Finset.sum_le_sum fun c _ => Finset.sum_le_sum fun a _ => Finset.sum_le_sum fun v _ =>
    Finset.sum_le_sum fun g _ => h r g v a c

theorem gsum_nonneg {f : Nat → Nat → Fin 4 → Nat → Nat → K} (h : ∀ r g v a c, 0 ≤ f r g v a c) : 0 ≤ gsum R f :=
  Finset.sum_nonneg fun r _ => Finset.sum_nonneg fun c _ => Finset.sum_nonneg fun a _ => Finset.sum_nonneg fun v _ =>
    Finset.sum_nonneg fun g _ => h r g v a c

theorem gsum_add (f f' : Nat → Nat → Fin 4 → Nat → Nat → K) :
    gsum R (fun r g v a c => f r g v a c + f' r g v a c) = gsum R f + gsum R f' := by
  simp only [gsum, Finset.sum_add_distrib]

theorem gsum_single {f : Nat → Nat → Fin 4 → Nat → Nat → K} (h : ∀ r g v a c, 0 ≤ f r g v a c) {r c a g : Nat} (v : Fin 4)
    (hr : r < R.nRanks) (hc : c < R.nCells r) (ha : a < R.nAngles) (hg : g < R.nGroups) : f r g v a c ≤ gsum R f := by
  have a1 := Finset.single_le_sum (f := fun g => f r g v a c) (fun _ _ => h _ _ _ _ _) (Finset.mem_range.2 hg)
  have a2 := Finset.single_le_sum (f := fun v => ∑ g ∈ Finset.range R.nGroups, f r g v a c)
    (fun _ _ => Finset.sum_nonneg fun _ _ => h _ _ _ _ _) (Finset.mem_univ v)
  have a3 := Finset.single_le_sum (f := fun a => ∑ v, ∑ g ∈ Finset.range R.nGroups, f r g v a c)
    (fun _ _ => Finset.sum_nonneg fun _ _ => Finset.sum_nonneg fun _ _ => h _ _ _ _ _) (Finset.mem_range.2 ha)
  have a4 := Finset.single_le_sum (f := fun c => ∑ a ∈ Finset.range R.nAngles, ∑ v, ∑ g ∈ Finset.range R.nGroups, f r g v a c)
    (fun _ _ => Finset.sum_nonneg fun _ _ => Finset.sum_nonneg fun _ _ => Finset.sum_nonneg fun _ _ => h _ _ _ _ _)
    (Finset.mem_range.2 hc)
  have a5 := Finset.single_le_sum (f := fun r => ∑ c ∈ Finset.range (R.nCells r), ∑ a ∈ Finset.range R.nAngles, ∑ v,
    ∑ g ∈ Finset.range R.nGroups, f r g v a c) (fun _ _ => Finset.sum_nonneg fun _ _ => Finset.sum_nonneg fun _ _ =>
      Finset.sum_nonneg fun _ _ => Finset.sum_nonneg fun _ _ => h _ _ _ _ _) (Finset.mem_range.2 hr)
  exact ((((a1.trans a2).trans a3).trans a4).trans a5)

theorem fluxNorm_nonneg (p : Nat → Psi K) : 0 ≤ fluxNorm R p := gsum_nonneg fun _ _ _ _ _ => abs_nonneg _

theorem fluxDist_nonneg (p q : Nat → Psi K) : 0 ≤ fluxDist R p q := gsum_nonneg fun _ _ _ _ _ => abs_nonneg _

theorem fluxDist_self (p : Nat → Psi K) : fluxDist R p p = 0 := by simp [fluxDist, gsum]

theorem fluxDist_tri (p q s : Nat → Psi K) : fluxDist R p s ≤ fluxDist R p q + fluxDist R q s := by
  unfold fluxDist
  rw [← gsum_add]
  exact gsum_le fun r g v a c => abs_sub_le _ _ _

theorem converged_le {tol : K} {p q : Nat → Psi K} (h : Converged R tol p q) : fluxDist R p q ≤ tol * fluxNorm R q := by
  have hpos : 0 < fluxNorm R q := lt_of_le_of_ne (fluxNorm_nonneg q) (Ne.symm h.1)
  exact ((div_lt_iff₀ hpos).1 h.2).le

theorem fluxDist_apart (p q : Nat → Psi K) : Apart R (fluxDist R p q) p q := fun _ _ _ _ v hr hc ha hg =>
  gsum_single (f := fun r g v a c => |p r g v a c - q r g v a c|) (fun _ _ _ _ _ => abs_nonneg _) v hr hc ha hg

/-! ### Proofs: a source for the defect -/

variable {L L0 : (Nat → Psi K) → (Nat → Psi K) → Prop}

theorem cellM_small {p : Fin 4 → K} {θ : K} (h : ∀ i, |p i| ≤ θ) : cellM p p ≤ θ ^ 2 := by
  have h1 := cellM_high2 p
  have h2 : ∑ i, p i ^ 2 ≤ ∑ _ : Fin 4, θ ^ 2 := Finset.sum_le_sum fun i _ => sq_le_sq' (abs_le.1 (h i)).1 (abs_le.1 (h i)).2
  simp only [Finset.sum_const, Finset.card_univ, Fintype.card_fin, nsmul_eq_mul, Nat.cast_ofNat] at h2
  linarith

/-- The flux of a source that is small against the cross section. -/
theorem source_energy (H : R.Physical) (hD : Dissipative R L0) {b B : K} (Wd : Weighted R b B) {q u : Nat → Psi K}
    (h : L0 q u) {θ : K}
    (hq : ∀ r c a g v, r < R.nRanks → c < R.nCells r → a < R.nAngles → g < R.nGroups → |q r g v a c| ≤ R.sigmaT r c * θ)
    {a g : Nat} (ha : a < R.nAngles) (hg : g < R.nGroups) :
    energyAt R a g u ≤ meshSum R (fun _ _ => 1) * (B * θ ^ 2) := by
  have h1 : energyAt R a g u ≤ _ := hD _ _ h a g ha hg
  have h2 : 2 * meshSum R (fun r c => (R.view r).cellVolume c * cellM (fun v => q r g v a c) (fun v => u r g v a c)) ≤
      energyAt R a g u + meshSum R (fun _ _ => 1) * (B * θ ^ 2) := by
    unfold energyAt
    rw [mul_comm (meshSum R fun _ _ => (1 : K)), ← meshSum_mul, ← meshSum_mul, ← meshSum_add]
    refine meshSum_le fun r hr c hc => ?_
    set p : Fin 4 → K := fun v => q r g v a c
    set w : Fin 4 → K := fun v => u r g v a c
    have hV := (H.volume r c hr hc).le
    have hσ := H.sigma r c hr hc
    have hw := cellM_nonneg w
    have hB := mul_le_mul_of_nonneg_right (Wd.high r c hr hc) (sq_nonneg θ)
    have goal : 2 * cellM p w ≤ R.sigmaT r c * (θ ^ 2 + cellM w w) := by
      rcases hσ.eq_or_lt with h0 | hpos
      · have hp : p = 0 := by
          funext v
          have := hq r c a g v hr hc ha hg
          rw [← h0, zero_mul] at this
          exact abs_eq_zero.1 (le_antisymm this (abs_nonneg _))
        rw [hp, ← h0]; simp [cellM]
      · set s := R.sigmaT r c
        have hs : cellM (fun i => p i / s) (fun i => p i / s) ≤ θ ^ 2 := by
          refine cellM_small fun i => ?_
          rw [abs_div, abs_of_pos hpos, div_le_iff₀ hpos, mul_comm]
          exact hq r c a g i hr hc ha hg
        have hn := cellM_nonneg fun i => w i + (-1) * (p i / s)
        rw [cellM_add, cellM_comm w, cellM_comm (fun i => p i / s), cellM_add, cellM_add] at hn
        have e1 : cellM (fun i => p i / s) w = cellM p w / s := by
          simp only [cellM, Fin.sum_univ_four]; field_simp
        rw [cellM_comm w fun i => p i / s, e1] at hn
        have : 2 * (cellM p w / s) ≤ θ ^ 2 + cellM w w := by linarith
        calc 2 * cellM p w = s * (2 * (cellM p w / s)) := by field_simp
          _ ≤ _ := mul_le_mul_of_nonneg_left this hpos.le
    have := mul_le_mul_of_nonneg_left goal hV
    linarith
  linarith

/-- C81: the flux of a sweep with the scattering of `old` and a source that is off by at most `σt θ`. With `n` cells and
`N` entries of a scalar flux: the source moves it by `U` at most, and the change of the scalar flux in the sweep by
`Z`. -/
theorem defect_error (H : R.Physical) {κ : K} (hκ : Ratio R X κ) (h1 : κ < 1) (hD : Dissipative R L0) (A : Affine R L L0)
    {b B : K} (Wd : Weighted R b B) (hb : 0 < b) {src psi star q u : Nat → Psi K} {old : Nat → Phi K}
    (h : L (lin 1 (scat X src old) q) psi) (hu : L0 q u) (hs : Scatters R X L src star) {θ δ U Z : K}
    (hq : ∀ r c a g v, r < R.nRanks → c < R.nCells r → a < R.nAngles → g < R.nGroups → |q r g v a c| ≤ R.sigmaT r c * θ)
    (hδ : norm1 R (subPhi (scal R X psi) old) ≤ δ) (hU0 : 0 ≤ U) (hZ0 : 0 ≤ Z)
    (hU : 20 * (meshSum R (fun _ _ => 1) * (B * θ ^ 2)) ≤ b * U ^ 2)
    (hZ : 2 * B * (κ * (δ + (∑ a ∈ Finset.range R.nAngles, X.wt a) * U * phiSum R fun _ _ _ _ => 1)) ^ 2 ≤
      b * ((∑ a ∈ Finset.range R.nAngles, X.wt a) * (1 - κ) * Z) ^ 2) :
    Apart R (Z + U) psi star := by
  set W := ∑ a ∈ Finset.range R.nAngles, X.wt a with hW
  -- the flux of the defect
  have hu1 : ∀ r c a g v, r < R.nRanks → c < R.nCells r → a < R.nAngles → g < R.nGroups → |u r g v a c| ≤ U := by
    intro r c a g v hr hc ha hg
    have e1 := energyAt_low Wd H u (a := a) (g := g) hr hc v
    have e2 := source_energy H hD Wd hu hq ha hg
    have e3 : b * u r g v a c ^ 2 ≤ b * U ^ 2 := by linarith
    exact abs_le_of_sq_le_sq (le_of_mul_le_mul_left e3 hb) hU0
  have hus : norm1 R (scal R X u) ≤ W * U * phiSum R fun _ _ _ _ => 1 := by
    refine norm1_le fun r hr g v c hg hc => ?_
    refine (Finset.abs_sum_le_sum_abs _ _).trans ?_
    rw [hW, Finset.sum_mul]
    refine Finset.sum_le_sum fun a ha => ?_
    rw [abs_mul, abs_of_nonneg (hκ.weights a (Finset.mem_range.1 ha)), mul_comm]
    exact mul_le_mul_of_nonneg_left (hu1 r c a g v hr hc (Finset.mem_range.1 ha) hg) (hκ.weights a (Finset.mem_range.1 ha))
  -- without it
  have hL : L (scat X src old) (lin (-1) psi u) := by
    refine A.congr _ _ _ _ (A.lin (-1) _ _ _ _ h hu) ?_ (sameFlux_refl _)
    intro r c a g v _ _ _ _
    simp only [lin]; ring
  have hnear := (sweep_error H hκ h1 hD A Wd hL hs).mono (min_le_left _ _)
  have hn : norm1 R (subPhi (scal R X (lin (-1) psi u)) old) ≤ δ + W * U * phiSum R fun _ _ _ _ => 1 := by
    have t := norm1_tri (R := R) (subPhi (scal R X (lin (-1) psi u)) old) (subPhi (scal R X psi) old)
    have e : subPhi (subPhi (scal R X (lin (-1) psi u)) old) (subPhi (scal R X psi) old) =
        subPhi (fun _ _ _ _ => 0) (scal R X u) := by
      rw [scal_sub]; funext r g v c; simp only [subPhi]; ring
    have e' : norm1 R (subPhi (fun _ _ _ _ => 0) (scal R X u)) = norm1 R (scal R X u) := by
      unfold norm1 phiSum subPhi; simp only [zero_sub, abs_neg]
    rw [e, e'] at t
    linarith
  have k1 : 0 < 1 - κ := by linarith
  have hpos : 0 < W * (1 - κ) := mul_pos hκ.total k1
  intro r c a g v hr hc ha hg
  have e1 := (hnear r c g v hr hc hg).2 a ha
  have e2 : 2 * B * (κ * norm1 R (subPhi (scal R X (lin (-1) psi u)) old)) ^ 2 ≤
      2 * B * (κ * (δ + W * U * phiSum R fun _ _ _ _ => 1)) ^ 2 :=
    mul_le_mul_of_nonneg_left (pow_le_pow_left₀ (mul_nonneg hκ.nonneg (norm1_nonneg _))
      (mul_le_mul_of_nonneg_left hn hκ.nonneg) 2) (mul_nonneg (by norm_num) Wd.nonneg)
  have e3 := le_of_mul_le_mul_left ((e1.trans e2).trans hZ) hb
  have e4 := abs_le_of_sq_le_sq e3 (mul_nonneg hpos.le hZ0)
  rw [abs_mul, abs_of_pos hpos] at e4
  have e5 := le_of_mul_le_mul_left e4 hpos
  have e6 : psi r g v a c - star r g v a c = (lin (-1) psi u r g v a c - star r g v a c) + u r g v a c := by
    simp only [lin]; ring
  rw [e6]
  exact (abs_add_le _ _).trans (add_le_add e5 (hu1 r c a g v hr hc ha hg))

/-! ### Proofs: the boundary values of the methods -/

section
variable {mate : Loc → Option Loc} {node : Nat → Nat → Fin 4 → Nat}

/-- From consistent boundary values on, the boundary arrays hold a flux as near as the test asks. -/
theorem PBJLoop.traced (Lk : Linked R.cfg mate) (Xc : Crossed R.cfg mate) (N : R.Nodes mate node)
    {src : Nat → Psi K} {tol : K} {M iter : Nat} {psi prev : Nat → Psi K}
    {bound : Nat → Bound K} {sweeps : List (Nat → Psi K)} {psiEnd : Nat → Psi K} {boundEnd : Nat → Bound K}
    (h : PBJLoop R src tol M iter psi prev bound sweeps psiEnd boundEnd) (hp : prev = psi) (ht : 0 ≤ tol)
    (hc : Consistent R mate node psi bound) :
    ∃ chi, Consistent R mate node chi boundEnd ∧ fluxDist R chi psiEnd ≤ tol * fluxNorm R psiEnd := by
  induction h with
  | @limit _ psi => exact ⟨psi, hc, by rw [fluxDist_self]; exact mul_nonneg ht (fluxNorm_nonneg _)⟩
  | @conv iter psi prev bound psi' h hs hcv =>
    subst hp
    exact ⟨prev, hc, converged_le hcv⟩
  | @next iter psi prev bound psi' bound' rest _ _ h hs hn hx hr ih => exact ih rfl (hx.exchanged Lk Xc N).consistent

/-- A call either makes one sweep and keeps its boundary values, or leaves those of a flux as near as the test asks. -/
theorem PBJSweep.split (Lk : Linked R.cfg mate) (Xc : Crossed R.cfg mate) (N : R.Nodes mate node)
    {src : Nat → Psi K} {tol : K} {M : Nat} {psi : Nat → Psi K} {bound : Nat → Bound K} {sweeps : List (Nat → Psi K)}
    {psiEnd : Nat → Psi K} {boundEnd : Nat → Bound K} (h : PBJSweep R src tol M psi bound sweeps psiEnd boundEnd)
    (ht : 0 ≤ tol) (hM : 2 < M) :
    (sweeps = [psiEnd] ∧ boundEnd = bound ∧ LocalSwept R src psi bound psiEnd ∧ Converged R tol psi psiEnd) ∨
    (∃ p q rest, sweeps = p :: q :: rest ∧ psiEnd = rest.getLastD q ∧
      ∃ chi, Consistent R mate node chi boundEnd ∧ fluxDist R chi psiEnd ≤ tol * fluxNorm R psiEnd) := by
  have hlast := PBJLoop.last h
  unfold PBJSweep at h
  cases h with
  | limit h => omega
  | conv h hs hc => exact .inl ⟨rfl, rfl, hs, hc⟩
  | @next _ _ _ _ psi' bound' rest _ _ h hs hc hx hr =>
    refine .inr ?_
    have hch := PBJLoop.traced Lk Xc N hr rfl ht (hx.exchanged Lk Xc N).consistent
    cases hr with
    | limit h => omega
    | conv => exact ⟨psi', _, [], rfl, rfl, hch⟩
    | @next _ _ _ _ psi2 _ rest2 => exact ⟨psi', psi2, rest2, rfl, by rw [List.getLastD_cons, List.getLastD_cons] at hlast; exact hlast, hch⟩

theorem PBJLoop.tested (H : R.Physical) (Lk : Linked R.cfg mate) (N : R.Nodes mate node) {src : Nat → Psi K} {tol : K}
    {M iter : Nat} {psi prev : Nat → Psi K} {bound : Nat → Bound K} {sweeps : List (Nat → Psi K)} {psiEnd : Nat → Psi K}
    {boundEnd : Nat → Bound K} (h : PBJLoop R src tol M iter psi prev bound sweeps psiEnd boundEnd)
    (hl : sweeps.length + iter < M) : LocalDG R mate node src boundEnd psiEnd := by
  induction h with
  | limit h => simp at hl; omega
  | conv h hs hc => exact local_sweep_solves H Lk N hs
  | next h hs hn hx hr ih => exact ih (by simp only [List.length_cons] at hl; omega)

/-- What holds between the calls of `SweeperPBJ::sweep`. -/
def Lagged (R : SweepRun K) (X : Scat K) (mate : Loc → Option Loc) (node : Nat → Nat → Fin 4 → Nat) (src : Nat → Psi K)
    (tol : K) (bound : Nat → Bound K) (s : K × Option K) (psi : Nat → Psi K) : Prop :=
  ∃ chi, Consistent R mate node chi bound ∧
    match s with
    | (d, none) => fluxDist R chi psi ≤ d
    | (d, some f) => ∃ p old old', fluxDist R chi p ≤ d + tol * f ∧
        LocalDG R mate node (scat X src old) bound p ∧
        norm1 R (subPhi (scal R X p) old) ≤ (∑ a ∈ Finset.range R.nAngles, X.wt a) * (tol * f) ∧
        LocalDG R mate node (scat X src old') bound psi ∧
        norm1 R (subPhi (scal R X psi) old') ≤ (∑ a ∈ Finset.range R.nAngles, X.wt a) * (tol * fluxNorm R psi)

/-- The scalar flux changes by no more than the flux. -/
theorem norm1_scal {κ : K} (hκ : Ratio R X κ) (p q : Nat → Psi K) : norm1 R (subPhi (scal R X p) (scal R X q)) ≤
    (∑ a ∈ Finset.range R.nAngles, X.wt a) * fluxDist R p q := by
  set W := ∑ a ∈ Finset.range R.nAngles, X.wt a with hW
  have hw : ∀ a < R.nAngles, X.wt a ≤ W := fun a ha => Finset.single_le_sum (f := X.wt)
    (fun a ha => hκ.weights a (Finset.mem_range.1 ha)) (Finset.mem_range.2 ha)
  unfold norm1 phiSum fluxDist gsum
  rw [Finset.mul_sum]
  refine Finset.sum_le_sum fun r _ => ?_
  rw [Finset.mul_sum]
  refine Finset.sum_le_sum fun c _ => ?_
  rw [Finset.sum_comm (s := Finset.range R.nAngles), Finset.mul_sum]
  refine Finset.sum_le_sum fun v _ => ?_
  rw [Finset.sum_comm (s := Finset.range R.nAngles), Finset.mul_sum]
  refine Finset.sum_le_sum fun g _ => ?_
  simp only [subPhi, scal, ← Finset.sum_sub_distrib]
  refine (Finset.abs_sum_le_sum_abs _ _).trans ?_
  rw [Finset.mul_sum]
  refine Finset.sum_le_sum fun a ha => ?_
  rw [← sub_mul, abs_mul, abs_of_nonneg (hκ.weights a (Finset.mem_range.1 ha)), mul_comm]
  exact mul_le_mul_of_nonneg_right (hw a (Finset.mem_range.1 ha)) (abs_nonneg _)

theorem lagged_step (H : R.Physical) (Lk : Linked R.cfg mate) (Xc : Crossed R.cfg mate) (N : R.Nodes mate node)
    {κ : K} (hκ : Ratio R X κ) {src tot : Nat → Psi K} {tol : K} {M : Nat} (ht : 0 ≤ tol) (hM : 2 < M)
    {psi psi' : Nat → Psi K} {phi : Nat → Phi K} {bound bound' : Nat → Bound K} {sweeps : List (Nat → Psi K)}
    (hphi : SamePhi R phi (scal R X psi)) (htot : IsTotal R X src phi tot)
    (h : PBJSweep R tot tol M psi bound sweeps psi' bound') {s : K × Option K}
    (hI : Lagged R X mate node src tol bound s psi) : Lagged R X mate node src tol bound' (lagStep R tol s sweeps) psi' := by
  obtain ⟨chi, hc, hI⟩ := hI
  rcases PBJSweep.split Lk Xc N h ht hM with ⟨rfl, rfl, hs, hcv⟩ | ⟨p, q, rest, rfl, hlast, chi', hc', hd⟩
  · have hL : LocalDG R mate node (scat X src phi) bound' psi' :=
      localDG_congr (local_sweep_solves H Lk N hs) htot.same (fun _ _ _ _ _ _ _ _ _ _ _ _ => rfl) H
    have hn : norm1 R (subPhi (scal R X psi') phi) ≤
        (∑ a ∈ Finset.range R.nAngles, X.wt a) * (tol * fluxNorm R psi') := by
      have e : norm1 R (subPhi (scal R X psi') phi) = norm1 R (subPhi (scal R X psi') (scal R X psi)) :=
        norm1_congr fun r hr g v c hg hc => by simp only [subPhi, hphi r hr g v c hg hc]
      rw [e, norm1_symm]
      exact (norm1_scal hκ psi psi').trans (mul_le_mul_of_nonneg_left (converged_le hcv) hκ.total.le)
    refine ⟨chi, hc, ?_⟩
    rcases s with ⟨d, _ | f⟩
    · exact ⟨psi', phi, phi, (fluxDist_tri chi psi psi').trans (add_le_add hI (converged_le hcv)), hL, hn, hL, hn⟩
    · obtain ⟨p, old, old', h1, h2, h3, -, -⟩ := hI
      exact ⟨p, old, phi, h1, h2, h3, hL, hn⟩
  · refine ⟨chi', hc', ?_⟩
    show fluxDist R chi' psi' ≤ tol * fluxNorm R (rest.getLastD q)
    rw [← hlast]; exact hd

theorem SILoop.lagged (H : R.Physical) (Lk : Linked R.cfg mate) (Xc : Crossed R.cfg mate) (N : R.Nodes mate node)
    {κ : K} (hκ : Ratio R X κ) {src : Nat → Psi K} {tol errMax : K} {ddMax iterMax : Nat} (ht : 0 ≤ tol) (hM : 2 < ddMax)
    {iter : Nat} {err : Err K}
    {st st' : (pbjLogged R tol ddMax).State} {psi psi' : Nat → Psi K} {phi : Nat → Phi K}
    {tr : List ((Nat → Phi K) × (Nat → Psi K))} {n : Nat}
    (h : SILoop R X (pbjLogged R tol ddMax) src errMax iterMax iter err st psi phi tr st' psi' n)
    (hphi : SamePhi R phi (scal R X psi))
    (hI : Lagged R X mate node src tol st.1 (st.2.foldl (lagStep R tol) (0, none)) psi) :
    Lagged R X mate node src tol st'.1 (st'.2.foldl (lagStep R tol) (0, none)) psi' ∧
    (tr ≠ [] → (∀ sweeps, st'.2.getLast? = some sweeps → sweeps.length + 1 < ddMax) →
      ∃ tr0 old, tr = tr0 ++ [(old, psi')] ∧ LocalDG R mate node (scat X src old) st'.1 psi') := by
  induction h with
  | stop => exact ⟨hI, fun h => absurd rfl h⟩
  | @step iter err st psi phi tot st1 psi1 phi1 tr st' psi' n h ht' hs hp hr ih =>
    obtain ⟨sweeps, hsw, hlog⟩ := hs
    have hI1 : Lagged R X mate node src tol st1.1 (st1.2.foldl (lagStep R tol) (0, none)) psi1 := by
      rw [hlog, List.foldl_append]
      exact lagged_step H Lk Xc N hκ ht hM hphi ht' hsw hI
    obtain ⟨i1, i2⟩ := ih hp.same hI1
    refine ⟨i1, fun _ hlast => ?_⟩
    rcases tr with _ | ⟨t, tr⟩
    · cases hr with
      | stop =>
        refine ⟨[], phi, rfl, ?_⟩
        have := PBJLoop.tested H Lk N hsw (hlast sweeps (by rw [hlog]; simp))
        exact localDG_congr this ht'.same (fun _ _ _ _ _ _ _ _ _ _ _ _ => rfl) H
    · obtain ⟨tr0, old, e, hL⟩ := i2 (by simp) hlast
      exact ⟨(phi, psi1) :: tr0, old, by rw [e]; rfl, hL⟩

/-- However many calls made no exchange, the boundary values are near the flux. -/
theorem Lagged.traced (H : R.Physical) (Lk : Linked R.cfg mate) (Xc : Crossed R.cfg mate) (N : R.Nodes mate node)
    (Mt : Matched R mate node) (hd : R.doComm = true) (Ac : Acyclic R.cfg mate) {κ : K} (hκ : Ratio R X κ) (hκ1 : κ < 1)
    {b B Y : K} (Wd : Weighted R b B) (hb : 0 < b) (hY0 : 0 ≤ Y) (hY : 2 * B * κ ^ 2 ≤ b * ((1 - κ) * Y) ^ 2)
    {src psi : Nat → Psi K} {tol : K} {bound : Nat → Bound K} {log : List (List (Nat → Psi K))}
    (h : Lagged R X mate node src tol bound (log.foldl (lagStep R tol) (0, none)) psi) (ht : 0 ≤ tol)
    (hf : ∀ d f, log.foldl (lagStep R tol) (0, none) = (d, some f) → 0 ≤ f) :
    0 ≤ lagAll R tol Y log psi ∧ Traced R mate node psi bound (lagAll R tol Y log psi) := by
  obtain ⟨chi, hc, hm⟩ := h
  unfold lagAll
  rcases hs : log.foldl (lagStep R tol) (0, none) with ⟨d, _ | f⟩
  · rw [hs] at hm
    exact ⟨(fluxDist_nonneg _ _).trans hm, hc.traced Lk fun r c a g v hr hc' ha hg =>
      (fluxDist_apart chi psi r c a g v hr hc' ha hg).trans hm⟩
  · rw [hs] at hm
    have hf0 := hf d f hs
    obtain ⟨p, old, old', h1, h2, h3, h4, h5⟩ := hm
    set W := ∑ a ∈ Finset.range R.nAngles, X.wt a with hW
    obtain ⟨lim, hlim, -⟩ := local_scatter_exists_unique H Lk Xc N Mt hd Ac hκ hκ1 bound src
    have k1 : 0 < 1 - κ := by linarith
    have hpos : 0 < W * (1 - κ) := mul_pos hκ.total k1
    have key : ∀ (p : Nat → Psi K) (old : Nat → Phi K) (f : K), 0 ≤ f → LocalDG R mate node (scat X src old) bound p →
        norm1 R (subPhi (scal R X p) old) ≤ W * (tol * f) → Apart R (Y * (tol * f)) p lim := by
      intro p old f hf hL hn r c a g v hr hc ha hg
      have e1 := (((sweep_error H hκ hκ1 (local_dissipative H Lk N Mt) (local_affine H Lk N hd Ac bound) Wd hL hlim).mono
        (min_le_left _ _)) r c g v hr hc hg).2 a ha
      have hx : 0 ≤ tol * f := mul_nonneg ht hf
      have e2 : 2 * B * (κ * norm1 R (subPhi (scal R X p) old)) ^ 2 ≤ 2 * B * (κ * (W * (tol * f))) ^ 2 :=
        mul_le_mul_of_nonneg_left (pow_le_pow_left₀ (mul_nonneg hκ.nonneg (norm1_nonneg _))
          (mul_le_mul_of_nonneg_left hn hκ.nonneg) 2) (mul_nonneg (by norm_num) Wd.nonneg)
      have e3 : 2 * B * (κ * (W * (tol * f))) ^ 2 ≤ b * (W * (1 - κ) * (Y * (tol * f))) ^ 2 := by
        have := mul_le_mul_of_nonneg_right hY (sq_nonneg (W * (tol * f)))
        calc _ = 2 * B * κ ^ 2 * (W * (tol * f)) ^ 2 := by ring
          _ ≤ _ := this
          _ = _ := by ring
      have e4 := le_of_mul_le_mul_left ((e1.trans e2).trans e3) hb
      have e5 := abs_le_of_sq_le_sq e4 (mul_nonneg hpos.le (mul_nonneg hY0 hx))
      rw [abs_mul, abs_of_pos hpos] at e5
      exact le_of_mul_le_mul_left e5 hpos
    have a1 := key p old f hf0 h2 h3
    have a2 := key psi old' _ (fluxNorm_nonneg _) h4 h5
    have hle : ∀ r c a g v, r < R.nRanks → c < R.nCells r → a < R.nAngles → g < R.nGroups →
        |chi r g v a c - psi r g v a c| ≤ d + tol * ((1 + Y) * f + Y * fluxNorm R psi) := by
      intro r c a g v hr hc' ha hg
      have b1 := (fluxDist_apart chi p r c a g v hr hc' ha hg).trans h1
      have b2 := a1 r c a g v hr hc' ha hg
      have b3 := a2 r c a g v hr hc' ha hg
      rw [abs_sub_comm] at b3
      have b4 := abs_sub_le (chi r g v a c) (p r g v a c) (psi r g v a c)
      have b5 := abs_sub_le (p r g v a c) (lim r g v a c) (psi r g v a c)
      linarith
    refine ⟨?_, hc.traced Lk hle⟩
    have n1 := (fluxDist_nonneg (R := R) chi p).trans h1
    have n2 := mul_nonneg hY0 (mul_nonneg ht hf0)
    have n3 := mul_nonneg hY0 (mul_nonneg ht (fluxNorm_nonneg (R := R) psi))
    show 0 ≤ d + tol * ((1 + Y) * f + Y * fluxNorm R psi)
    linarith

/-- The lag is of the order of the tolerance, for any number of calls. -/
theorem lagAll_le {tol Y F : K} (ht : 0 ≤ tol) (hY : 0 ≤ Y) {log : List (List (Nat → Psi K))} {psi : Nat → Psi K}
    (hl : ∀ sw ∈ log, ∀ p ∈ sw, fluxNorm R p ≤ F) (hp : fluxNorm R psi ≤ F) :
    lagAll R tol Y log psi ≤ tol * ((2 + 2 * Y) * F) := by
  have hF : 0 ≤ F := (fluxNorm_nonneg psi).trans hp
  have key : ∀ (log : List (List (Nat → Psi K))) (s : K × Option K), (∀ sw ∈ log, ∀ p ∈ sw, fluxNorm R p ≤ F) →
      (s.1 ≤ tol * F ∧ ∀ f, s.2 = some f → f ≤ F) →
      (log.foldl (lagStep R tol) s).1 ≤ tol * F ∧ ∀ f, (log.foldl (lagStep R tol) s).2 = some f → f ≤ F := by
    intro log
    induction log with
    | nil => intro s _ hs; exact hs
    | cons sw log ih =>
      intro s hl hs
      refine ih _ (fun sw' h => hl sw' (by simp [h])) ?_
      have hsw := hl sw (by simp)
      match sw, hsw with
      | [], _ => exact hs
      | [p], hsw =>
        refine ⟨hs.1, fun f hf => ?_⟩
        obtain rfl : s.2.getD (fluxNorm R p) = f := by simpa [lagStep] using hf
        rcases h : s.2 with _ | x
        · exact hsw p (by simp)
        · exact hs.2 x h
      | q :: p :: rest, hsw =>
        refine ⟨mul_le_mul_of_nonneg_left (hsw _ ?_) ht, fun f hf => by simp [lagStep] at hf⟩
        rcases rest with _ | ⟨x, rest⟩
        · simp
        · simp only [List.getLastD_cons]
          rcases rest.eq_nil_or_concat with rfl | ⟨l, y, rfl⟩ <;> simp
  obtain ⟨h1, h2⟩ := key log (0, none) hl ⟨mul_nonneg ht hF, by simp⟩
  unfold lagAll
  rcases hs : log.foldl (lagStep R tol) (0, none) with ⟨d, _ | f⟩
  · rw [hs] at h1
    refine h1.trans (mul_le_mul_of_nonneg_left ?_ ht)
    nlinarith [mul_nonneg hY hF]
  · rw [hs] at h1 h2
    have hf := h2 f rfl
    have e : tol * ((2 + 2 * Y) * F) = tol * F + tol * ((1 + Y) * F + Y * F) := by ring
    rw [e]
    refine add_le_add h1 (mul_le_mul_of_nonneg_left (add_le_add ?_ ?_) ht)
    · exact mul_le_mul_of_nonneg_left hf (by linarith)
    · exact mul_le_mul_of_nonneg_left hp hY

theorem lagStep_nonneg (tol : K) (log : List (List (Nat → Psi K))) :
    ∀ d f, log.foldl (lagStep R tol) (0, none) = (d, some f) → 0 ≤ f := by
  have key : ∀ (log : List (List (Nat → Psi K))) (s : K × Option K), (∀ f, s.2 = some f → 0 ≤ f) →
      ∀ f, (log.foldl (lagStep R tol) s).2 = some f → 0 ≤ f := by
    intro log
    induction log with
    | nil => intro s hs; exact hs
    | cons sw log ih =>
      intro s hs
      refine ih _ ?_
      match sw with
      | [] => exact hs
      | [p] =>
        intro f hf
        obtain rfl : s.2.getD (fluxNorm R p) = f := by simpa [lagStep] using hf
        rcases h : s.2 with _ | x
        · exact fluxNorm_nonneg _
        · exact hs x h
      | _ :: p :: rest => intro f hf; simp [lagStep] at hf
  intro d f h
  exact key log (0, none) (by simp) f (by rw [h])

theorem settled_old {S : Sweeper K} (C : Correct S L L0) (A : Affine R L L0) {src psi psi' : Nat → Psi K} {δ errMax : K}
    {srcMax : Nat} {si : Bool} (h : Settled R X S errMax srcMax src psi psi' si δ) :
    ∃ old, L (scat X src old) psi' ∧ norm1 R (subPhi (scal R X psi') old) ≤ δ := by
  cases h with
  | iteration h hn hlt =>
    obtain ⟨tr1, old1, e, hL⟩ := fixedPoint_solves C A h hn
    rcases fixedPoint_tolerance h hlt with ⟨h0, -⟩ | ⟨tr', old, he, ht⟩
    · omega
    · rw [he] at e
      have e1 : old = old1 := by simpa using (List.append_inj' e rfl).2
      subst e1
      exact ⟨old, hL, relErr_le ht⟩
  | @krylov x y rhs hop hrhs hend =>
    have hr := krylov_residual C A hop hrhs hend
    obtain ⟨tot, stE, psiE, stE', hE1, hE2⟩ := hend
    exact ⟨x, A.congr _ _ _ _ (C.plain _ _ _ _ _ hE2) hE1.same (sameFlux_refl _), (norm1_congr hr).le⟩

theorem schur_core_near (Lk : Linked R.cfg mate) (N : R.Nodes mate node) {x b rhs : Nat → Nat → K}
    {psi psi1 psi2 : Nat → Psi K} {bnd1 bnd2 : Nat → Bound K} {y1 y2 : Nat → Nat → K} {ρ : K}
    (c1 : Consistent R mate node psi1 bnd1) (c2 : Consistent R mate node psi2 bnd2)
    (h1 : ∀ r < R.nRanks, ∀ i < psiBoundSize R r, rhs r i = psiBoundToVec R r (bnd1 r) (y1 r) i)
    (h2 : ∀ r < R.nRanks, ∀ i < psiBoundSize R r, b r i = x r i - psiBoundToVec R r (bnd2 r) (y2 r) i)
    (hsame : SameFlux R psi (lin 1 psi1 psi2)) (any : Nat → Bound K)
    (hres : ∀ r < R.nRanks, ∀ i < psiBoundSize R r, |rhs r i - b r i| ≤ ρ) :
    Traced R mate node psi (fun r => vecToPsiBound R r (x r) (any r)) ρ := by
  intro xx y a g v hxin hm hne ha hin hg hv
  have hs := slot_of_face (g := g) Lk ((R.view xx.rank).cellToFaceVrtx xx.cell xx.face v) hxin hm hne ha hin hg
  obtain ⟨i, hi, e1, e2⟩ := unpack_slot Lk hxin.1 (x xx.rank) (any xx.rank) hs
  obtain ⟨w, hw, e3⟩ := c1 xx y a g v hxin hm hne ha hin hg hv
  obtain ⟨w', hw', e4⟩ := c2 xx y a g v hxin hm hne ha hin hg hv
  have hyin := Lk.mate_in xx y hxin hm
  have := N.inj y.rank y.cell w w' hyin.1 hyin.2 (hw.trans hw'.symm)
  subst this
  refine ⟨w, hw, ?_⟩
  have e5 := hres xx.rank hxin.1 i hi
  rw [h2 _ hxin.1 i hi, h1 _ hxin.1 i hi, e2, e2] at e5
  have e6 := hsame y.rank y.cell a g w hyin.1 hyin.2 ha hg
  rw [abs_sub_comm] at e5
  refine le_trans (le_of_eq ?_) e5
  congr 1
  simp only [Slot.get] at e1 ⊢
  rw [e1, e6]
  simp only [lin, ← e3, ← e4]
  ring

theorem consistent_zero (N : R.Nodes mate node) :
    Consistent R mate node (fun _ _ _ _ _ => 0) (fun _ _ _ _ _ => 0) := by
  intro x y a g v h1 h2 h3 h4 h5 h6 h7
  exact ⟨_, N.far x y v h1 h2 h3 h7, rfl⟩

omit [IsStrictOrderedRing K] in
/-- The last sweep of source iteration. -/
theorem SILoop.last_run {S : Sweeper K} {src : Nat → Psi K} {errMax : K} {iterMax iter : Nat} {err : Err K}
    {st st' : S.State} {psi psi' : Nat → Psi K} {phi : Nat → Phi K} {tr : List ((Nat → Phi K) × (Nat → Psi K))} {n : Nat}
    (h : SILoop R X S src errMax iterMax iter err st psi phi tr st' psi' n) (hne : tr ≠ []) :
    ∃ tr0 old tot st0 psi0, tr = tr0 ++ [(old, psi')] ∧ IsTotal R X src old tot ∧ S.run st0 false psi0 tot st' psi' := by
  induction h with
  | stop => exact absurd rfl hne
  | @step iter err st psi phi tot st1 psi1 phi1 tr st' psi' n h ht hs hp hr ih =>
    rcases tr with _ | ⟨t, tr⟩
    · cases hr with
      | stop => exact ⟨[], phi, tot, st, psi, rfl, ht, hs⟩
    · obtain ⟨tr0, old, tot, st0, psi0, e, h1, h2⟩ := ih (by simp)
      exact ⟨(phi, psi1) :: tr0, old, tot, st0, psi0, by rw [e]; rfl, h1, h2⟩

theorem OuterStops.near (H : R.Physical) (Lk : Linked R.cfg mate) (Xc : Crossed R.cfg mate) (N : R.Nodes mate node)
    (hd : R.doComm = true) (Ac : Acyclic R.cfg mate) {src : Nat → Psi K} {tol : K} {M iter : Nat} {psi prev : Nat → Psi K}
    {bound : Nat → Bound K} {psiEnd : Nat → Psi K} {η δ : K}
    {si : Bool} {errMax : K} {srcMax : Nat} (h : OuterStops R X si errMax srcMax src tol M iter psi prev bound psiEnd η δ) (hc : Consistent R mate node prev bound) :
    0 ≤ η ∧ ∃ old bound', LocalDG R mate node (scat X src old) bound' psiEnd ∧ Traced R mate node psiEnd bound' η ∧
      norm1 R (subPhi (scal R X psiEnd) old) ≤ δ := by
  induction h with
  | @conv iter psi prev bound psi' δ h hs hcv =>
    obtain ⟨old, h1, h2⟩ := settled_old (local_correct H Lk N _) (local_affine H Lk N hd Ac _) hs
    have h3 := converged_le hcv
    refine ⟨(fluxDist_nonneg _ _).trans h3, old, bound, h1, hc.traced Lk fun r c a g v hr hc' ha hg => ?_, h2⟩
    exact (fluxDist_apart prev psi' r c a g v hr hc' ha hg).trans h3
  | next h hs hn hx hr ih => exact ih (hx.exchanged Lk Xc N).consistent

theorem SIStops.near (H : R.Physical) (Lk : Linked R.cfg mate) (Xc : Crossed R.cfg mate) (N : R.Nodes mate node)
    {src : Nat → Psi K} {tol : K} {M iter : Nat} {psi : Nat → Psi K} {phi : Nat → Phi K}
    {bound : Nat → Bound K} {psiEnd : Nat → Psi K} {η δ : K}
    (h : SIStops R X src tol M iter psi phi bound psiEnd η δ) (hc : Consistent R mate node psi bound) :
    0 ≤ η ∧ ∃ old bound', LocalDG R mate node (scat X src old) bound' psiEnd ∧ Traced R mate node psiEnd bound' η ∧
      norm1 R (subPhi (scal R X psiEnd) old) ≤ δ := by
  induction h with
  | @conv iter psi phi bound tot psi' phi' bound' h ht hs hp hx hcv =>
    refine ⟨fluxDist_nonneg _ _, phi, bound, ?_, hc.traced Lk fun r c a g v hr hc' ha hg =>
      fluxDist_apart psi psi' r c a g v hr hc' ha hg, ?_⟩
    · exact localDG_congr (local_sweep_solves H Lk N hs) ht.same (fun _ _ _ _ _ _ _ _ _ _ _ _ => rfl) H
    · obtain ⟨x, hx1, hx2⟩ := hcv
      have hgt : ¬ (relErr R phi' phi).gt tol := by rw [hx1]; exact not_lt.2 hx2.le
      rw [relErr_congr hp.same fun _ _ _ _ _ _ _ => rfl] at hgt
      exact relErr_le hgt
  | next h ht hs hp hx hn hr ih => exact ih (hx.exchanged Lk Xc N).consistent

/-- Every result that ended by its tolerances is a local solution with nearly the right boundary values and
scattering. -/
theorem ended_near (H : R.Physical) (Lk : Linked R.cfg mate) (Xc : Crossed R.cfg mate)
    (N : R.Nodes mate node) (Mt : Matched R mate node) (hd : R.doComm = true) (Ac : Acyclic R.cfg mate)
    {κ : K} (hκ : Ratio R X κ) (hκ1 : κ < 1) {b B Y : K} (Wd : Weighted R b B) (hb : 0 < b) (hY0 : 0 ≤ Y)
    (hY : 2 * B * κ ^ 2 ≤ b * ((1 - κ) * Y) ^ 2) {src psi : Nat → Psi K} {η δ : K} (h : Ended R X Y src psi η δ) :
    0 ≤ η ∧ ∃ old bound, LocalDG R mate node (scat X src old) bound psi ∧ Traced R mate node psi bound η ∧
      norm1 R (subPhi (scal R X psi) old) ≤ δ := by
  cases h with
  | @pbj tol ddMax errMax iterMax tr bound log n h hn hlt ht hm hl =>
    obtain ⟨phi, hphi, hloop⟩ := id h
    obtain ⟨hlag, hL⟩ := hloop.lagged H Lk Xc N hκ ht hm hphi.same ⟨fun _ _ _ _ _ => 0, consistent_zero N, by
      show fluxDist R _ _ ≤ 0
      exact (fluxDist_self _).le⟩
    obtain ⟨c1, c2⟩ := hlag.traced H Lk Xc N Mt hd Ac hκ hκ1 Wd hb hY0 hY ht (lagStep_nonneg tol log)
    have hne : tr ≠ [] := by
      intro e
      have := (fixedPoint_count h).1
      rw [e] at this
      simp at this; omega
    obtain ⟨tr0, old, e, hL⟩ := hL hne hl
    rcases fixedPoint_tolerance h hlt with ⟨h0, -⟩ | ⟨tr', old', he, htol⟩
    · omega
    · rw [he] at e
      have e1 : old' = old := by simpa using (List.append_inj' e rfl).2
      subst e1
      exact ⟨c1, old', bound, hL, c2, relErr_le htol⟩
  | @schur _ errMax iterMax tr st st' n h hn hlt hρ =>
    obtain ⟨phi, hphi, hloop⟩ := id h
    have hne : tr ≠ [] := by
      intro e
      have := (fixedPoint_count h).1
      rw [e] at this
      simp at this; omega
    obtain ⟨tr0, old, tot, st0, psi0, e, hT, x, y, rhs, hop, hrhs, hres, hend⟩ := hloop.last_run hne
    obtain ⟨bnd, psi0, psi2, bnd2, y2, h1, h2, h3⟩ := hop
    obtain ⟨psi0', psi1, bnd1, y1, h1', h2', h3'⟩ := hrhs
    obtain ⟨bndE, psi0E, hE⟩ := hend
    have hsum := local_split (s := tot) (bnd' := bndE) H Lk N (local_sweep_solves H Lk N h1')
      (local_sweep_solves H Lk N h1) (by intro r c a g v _ _ _ _; simp [lin])
    have hsame := localDG_unique H Lk N hd Ac (local_sweep_solves H Lk N hE) hsum
    have hTr := schur_core_near Lk N (h2'.exchanged Lk Xc N).consistent
      (h2.exchanged Lk Xc N).consistent h3' h3 hsame bndE hres
    have hL := localDG_congr (bound' := fun r => vecToPsiBound R r (x r) (bndE r)) (local_sweep_solves H Lk N hE) hT.same (fun _ _ _ _ _ _ _ _ _ _ _ _ => rfl) H
    rcases fixedPoint_tolerance h hlt with ⟨h0, -⟩ | ⟨tr', old', he, htol⟩
    · omega
    · rw [he] at e
      have e1 : old' = old := by simpa using (List.append_inj' e rfl).2
      subst e1
      exact ⟨hρ, old', _, hL, hTr, relErr_le htol⟩
  | pbjOuter h => exact h.near H Lk Xc N hd Ac (consistent_zero N)
  | pbjSI h => exact h.near H Lk Xc N (consistent_zero N)
  | @schurOuter x b rhs _ hop hrhs hres hρ hend =>
    obtain ⟨bnd, psi0, psi2, bnd2, y2, h1, h2, h3⟩ := hop
    obtain ⟨psi1, bnd1, y1, h1', h2', h3'⟩ := hrhs
    obtain ⟨bndE, psi0E, hE⟩ := hend
    have s2 := solved_scatters (local_correct H Lk N _) (local_affine H Lk N hd Ac _) h1
    have s1 := solved_scatters (local_correct H Lk N _) (local_affine H Lk N hd Ac _) h1'
    have sE := solved_scatters (local_correct H Lk N _) (local_affine H Lk N hd Ac _) hE
    have hsum : Scatters R X (fun src psi => LocalDG R mate node src
        (fun r => vecToPsiBound R r (x r) (bndE r)) psi) src (lin 1 psi1 psi2) := by
      refine local_split H Lk N s1 s2 ?_
      intro r c a g v _ _ _ _
      rw [scal_lin]
      simp only [lin, scat]; ring
    have hsame := scatter_unique H hκ hκ1 (local_dissipative H Lk N Mt)
      (local_affine H Lk N hd Ac _) (local_affine H Lk N hd Ac _) sE hsum
    refine ⟨hρ, scal R X psi, _, sE, schur_core_near Lk N (h2'.exchanged Lk Xc N).consistent
      (h2.exchanged Lk Xc N).consistent h3' h3 hsame bndE hres, le_of_eq ?_⟩
    simp [norm1, phiSum, subPhi]
  | @schurKrylov x p b q rhs rhsPhi _ hop hrhs hres hρ hend =>
    obtain ⟨bnd, s2, psi0, psi2, bnd2, y2, phi2, ho, h1, h2, hp, h3, h4⟩ := hop
    obtain ⟨psi0', psi1, bnd1, y1, h1', h2', hp', h3'⟩ := hrhs
    obtain ⟨bndE, tot, psi0E, hoE, hE⟩ := hend
    have e2 : SameFlux R s2 (scat X (fun _ _ _ _ _ => 0) p) := by
      intro r c a g v hr hc ha hg
      obtain ⟨order, f, s, hperm, e⟩ := ho r hr
      rw [e, phiToPsi_value hperm, if_pos ⟨hc, ha, hg⟩, operatorS_value, if_pos ⟨hc, hg⟩]
      simp [scat]
    have eT : SameFlux R tot (scat X src p) := by
      intro r c a g v hr hc ha hg
      obtain ⟨order, hperm, e⟩ := hoE r hr
      rw [e, calcTotalSource_inPlace hperm, calcTotalSource_value hperm, if_pos ⟨hc, ha, hg⟩]
      rfl
    have hsum := local_split (s := tot) (bnd' := bndE) H Lk N (local_sweep_solves H Lk N h1')
      (local_sweep_solves H Lk N h1) (by
        intro r c a g v hr hc ha hg
        rw [eT r c a g v hr hc ha hg]
        simp only [lin, e2 r c a g v hr hc ha hg, scat]; ring)
    have hsame := localDG_unique H Lk N hd Ac (local_sweep_solves H Lk N hE) hsum
    refine ⟨hρ, p, _, localDG_congr (local_sweep_solves H Lk N hE) eT (fun _ _ _ _ _ _ _ _ _ _ _ _ => rfl) H,
      schur_core_near Lk N (h2'.exchanged Lk Xc N).consistent
      (h2.exchanged Lk Xc N).consistent h3' h3 hsame bndE hres, le_of_eq (norm1_congr ?_)⟩
    intro r hr g v c hg hc
    simp only [subPhi]
    rw [scal_congr hsame r hr g v c hg hc, scal_lin, h4 r hr g v c hg hc]
    simp only [hp'.same r hr g v c hg hc, hp.same r hr g v c hg hc, one_mul]
    ring

/-- C81: what the tolerances of the decomposing methods promise. With `n` cells, `N` entries of a scalar flux and sum
of weights `W`: the flux is within `U` for the boundary values and `Z` for the scattering of the solution. -/
theorem ended_error (H : R.Physical) (Lk : Linked R.cfg mate) (Xc : Crossed R.cfg mate)
    (N : R.Nodes mate node) (Mt : Matched R mate node) (hd : R.doComm = true) (Ac : Acyclic R.cfg mate)
    {κ : K} (hκ : Ratio R X κ) (hκ1 : κ < 1) {b B α Y : K} (Wd : Weighted R b B) (hb : 0 < b) (T : Thick R α)
    (hY0 : 0 ≤ Y) (hY : 2 * B * κ ^ 2 ≤ b * ((1 - κ) * Y) ^ 2)
    {src psi star : Nat → Psi K} (hs : Scatters R X (FullDG R mate node) src star) {η δ U Z : K}
    (h : Ended R X Y src psi η δ) (hU0 : 0 ≤ U) (hZ0 : 0 ≤ Z)
    (hU : 20 * (meshSum R (fun _ _ => 1) * (B * (10 * α * η) ^ 2)) ≤ b * U ^ 2)
    (hZ : 2 * B * (κ * (δ + (∑ a ∈ Finset.range R.nAngles, X.wt a) * U * phiSum R fun _ _ _ _ => 1)) ^ 2 ≤
      b * ((∑ a ∈ Finset.range R.nAngles, X.wt a) * (1 - κ) * Z) ^ 2) :
    Apart R (Z + U) psi star := by
  obtain ⟨hη, old, bound, hL, hT, hδ⟩ := ended_near H Lk Xc N Mt hd Ac hκ hκ1 Wd hb hY0 hY h
  obtain ⟨q, hq1, hq2⟩ := traced_full H T hη hL hT
  obtain ⟨u, hu⟩ := fullDG_exists H Lk Xc N hd Ac q
  exact defect_error H hκ hκ1 (full_dissipative H Lk N Mt) (full_affine H Lk N hd Ac) Wd hb hq1 hu hs hq2 hδ hU0 hZ0 hU hZ

/-! ### Such results -/

/-- The operator, right-hand side and flux of `SweeperSchurOuter` for any vector. -/
theorem schurOuter_any (H : R.Physical) (Lk : Linked R.cfg mate) (Xc : Crossed R.cfg mate)
    (N : R.Nodes mate node) (Mt : Matched R mate node) (hd : R.doComm = true) (Ac : Acyclic R.cfg mate)
    {κ : K} (hκ : Ratio R X κ) (hκ1 : κ < 1) (src : Nat → Psi K) (x : Nat → Nat → K) :
    ∃ b rhs psi, SchurOuterOp R X x b ∧ SchurOuterRhs R X src rhs ∧ SchurOuterEnd R X src x psi := by
  let bnd : Nat → Bound K := fun r => vecToPsiBound R r (x r) (fun _ _ _ _ => 0)
  obtain ⟨psi2, h2⟩ := local_solved (X := X) H Lk Xc N Mt hd Ac hκ hκ1 bnd (fun _ _ _ _ _ => 0) (fun _ _ _ _ _ => 0)
  obtain ⟨b2, hx2⟩ := exchange_run_exists Lk Xc psi2 bnd
  obtain ⟨psi1, h1⟩ := local_solved (X := X) H Lk Xc N Mt hd Ac hκ hκ1 (fun _ _ _ _ _ => 0) src (fun _ _ _ _ _ => 0)
  obtain ⟨b1, hx1⟩ := exchange_run_exists Lk Xc psi1 (fun _ _ _ _ _ => 0)
  obtain ⟨psi3, h3⟩ := local_solved (X := X) H Lk Xc N Mt hd Ac hκ hκ1 bnd src (fun _ _ _ _ _ => 0)
  exact ⟨fun r i => x r i - psiBoundToVec R r (b2 r) (fun _ => 0) i, fun r i => psiBoundToVec R r (b1 r) (fun _ => 0) i, psi3,
    ⟨fun _ _ _ _ _ => 0, _, psi2, b2, fun _ _ => 0, h2, hx2, fun _ _ _ _ => rfl⟩,
    ⟨psi1, b1, fun _ _ => 0, h1, hx1, fun _ _ _ _ => rfl⟩, ⟨fun _ _ _ _ _ => 0, _, h3⟩⟩

/-- The same for `SweeperSchurKrylov`. -/
theorem schurKrylov_any (H : R.Physical) (Lk : Linked R.cfg mate) (Xc : Crossed R.cfg mate) (hd : R.doComm = true)
    (Ac : Acyclic R.cfg mate) (src : Nat → Psi K) (x : Nat → Nat → K) (p : Nat → Phi K) : ∃ b q rhs rhsPhi psi,
      SchurKrylovOp R X x p b q ∧ SchurKrylovRhs R X src rhs rhsPhi ∧ SchurKrylovEnd R X src x p psi := by
  let bnd : Nat → Bound K := fun r => vecToPsiBound R r (x r) (fun _ _ _ _ => 0)
  let ms : Nat → Psi K := fun r => phiToPsi (nest (R.nCells r) R.nAngles R.nGroups)
    (operatorS (R.nCells r) R.nGroups (X.sigmaS r) X.mPi (p r) (fun _ _ _ => 0)) (fun _ _ _ _ => 0)
  obtain ⟨psi2, h2⟩ := local_sweep_exists H Lk hd Xc Ac ms (fun _ _ _ _ _ => 0) bnd
  obtain ⟨b2, hx2⟩ := exchange_run_exists Lk Xc psi2 bnd
  obtain ⟨phi2, hp2⟩ := isPhi_exists (R := R) (X := X) psi2
  obtain ⟨psi1, h1⟩ := local_sweep_exists H Lk hd Xc Ac src (fun _ _ _ _ _ => 0) (fun _ _ _ _ _ => 0)
  obtain ⟨b1, hx1⟩ := exchange_run_exists Lk Xc psi1 (fun _ _ _ _ _ => 0)
  obtain ⟨phi1, hp1⟩ := isPhi_exists (R := R) (X := X) psi1
  let tot : Nat → Psi K := fun r => calcTotalSourceInPlace (X.sigmaS r) X.mPi
    (nest (R.nCells r) R.nAngles R.nGroups) (p r) (src r)
  obtain ⟨psi3, h3⟩ := local_sweep_exists H Lk hd Xc Ac tot (fun _ _ _ _ _ => 0) bnd
  exact ⟨fun r i => x r i - psiBoundToVec R r (b2 r) (fun _ => 0) i, fun r g v c => p r g v c - phi2 r g v c,
    fun r i => psiBoundToVec R r (b1 r) (fun _ => 0) i, phi1, psi3,
    ⟨fun _ _ _ _ _ => 0, ms, _, psi2, b2, fun _ _ => 0, phi2, fun r _ => ⟨_, _, _, List.Perm.refl _, rfl⟩, h2, hx2, hp2,
      fun _ _ _ _ => rfl, fun _ _ _ _ _ _ _ => rfl⟩,
    ⟨_, psi1, b1, fun _ _ => 0, h1, hx1, hp1, fun _ _ _ _ => rfl⟩,
    ⟨fun _ _ _ _ _ => 0, tot, _, fun r _ => ⟨_, List.Perm.refl _, rfl⟩, h3⟩⟩

end

end Verif.Source
