import Verif.Source.Ops

/-!
# Source iteration and its Krylov form (src/SourceIteration.cc)

`SourceIteration` calls a sweeper through `SweeperAbstract::sweep`; here a sweeper is a relation, so that
the results hold for every one. All ranks run the same iterations: the error they compare is a global sum.
-/
set_option linter.unusedSectionVars false

namespace Verif.Source
open Classical List
open Verif.Transport Verif.Traverse Verif.Domain

variable {K : Type} [Field K] [LinearOrder K]

/-! ### Model -/

/-- `Util::psiToPhi(phi, psi)` on every rank may give `phi` (any order of execution, any earlier
contents). -/
def IsPhi (R : SweepRun K) (X : Scat K) (psi : Nat → Psi K) (phi : Nat → Phi K) : Prop :=
  ∀ r < R.nRanks, ∃ order p, order.Perm (nest (R.nCells r) R.nAngles R.nGroups) ∧
    phi r = psiToPhi (R.nCells r) R.nGroups X.wt order p (psi r)

/-- `Util::calcTotalSource(src, phi, tot)` on every rank may give `tot`. -/
def IsTotal (R : SweepRun K) (X : Scat K) (src : Nat → Psi K) (phi : Nat → Phi K) (tot : Nat → Psi K) :
    Prop :=
  ∀ r < R.nRanks, ∃ order p, order.Perm (nest (R.nCells r) R.nAngles R.nGroups) ∧
    tot r = calcTotalSource (X.sigmaS r) X.mPi order (src r) (phi r) p

/-- `Util::operatorS(phi, phi); Util::phiToPsi(phi, src)` on every rank may give `src`
(src/SourceIteration.cc:95-99). -/
def IsMS (R : SweepRun K) (X : Scat K) (phi : Nat → Phi K) (src : Nat → Psi K) : Prop :=
  ∀ r < R.nRanks, ∃ order p, order.Perm (nest (R.nCells r) R.nAngles R.nGroups) ∧
    src r = phiToPsi order (operatorSInPlace (R.nCells r) R.nGroups (X.sigmaS r) X.mPi (phi r)) p

/-- `SweeperAbstract::sweep(psi, source, zeroPsiBound)` (src/SweeperAbstract.hh) on all ranks: from
internal state, flag, flux and source to the flux and the internal state left behind. -/
structure Sweeper (K : Type) where
  State : Type
  run : State → Bool → (Nat → Psi K) → (Nat → Psi K) → State → (Nat → Psi K) → Prop

/-- The value of `error`: a quotient of sums, infinite or not a number if the norm is zero. -/
inductive Err (K : Type)
  | val (x : K)
  | inf
  | nan

/-- `error > g_errMax`, false for a NaN. -/
def Err.gt : Err K → K → Prop
  | .val x, t => t < x
  | .inf, _ => True
  | .nan, _ => False

/-- Global sum over the entries of a scalar flux array (src/SourceIteration.cc:169-174). -/
def phiSum (R : SweepRun K) (f : Nat → Nat → Fin 4 → Nat → K) : K :=
  ∑ r ∈ Finset.range R.nRanks, ∑ c ∈ Finset.range (R.nCells r), ∑ v,
    ∑ g ∈ Finset.range R.nGroups, f r g v c

/-- `error / norm` (src/SourceIteration.cc:168-175). -/
def relErr (R : SweepRun K) (new old : Nat → Phi K) : Err K :=
  let e := phiSum R fun r g v c => |new r g v c - old r g v c|
  let n := phiSum R fun r g v c => |new r g v c|
  if n ≠ 0 then .val (e / n) else if e ≠ 0 then .inf else .nan

/-- The loop of `fixedPoint` (src/SourceIteration.cc:144-190) from iteration `iter`. The list holds
`phiOld` and the flux of each sweep. -/
inductive SILoop (R : SweepRun K) (X : Scat K) (S : Sweeper K) (src : Nat → Psi K) (errMax : K)
    (iterMax : Nat) : Nat → Err K → S.State → (Nat → Psi K) → (Nat → Phi K) →
    List ((Nat → Phi K) × (Nat → Psi K)) → S.State → (Nat → Psi K) → Nat → Prop
  | stop {iter err st psi phi} (h : ¬ (iter < iterMax ∧ err.gt errMax)) :
    SILoop R X S src errMax iterMax iter err st psi phi [] st psi iter
  | step {iter err st psi phi tot st1 psi1 phi1 tr st' psi' n} (h : iter < iterMax ∧ err.gt errMax)
      (ht : IsTotal R X src phi tot) (hs : S.run st false psi tot st1 psi1)
      (hp : IsPhi R X psi1 phi1)
      (hr : SILoop R X S src errMax iterMax (iter + 1) (relErr R phi1 phi) st1 psi1 phi1 tr st' psi' n) :
    SILoop R X S src errMax iterMax iter err st psi phi ((phi, psi1) :: tr) st' psi' n

/-- `SourceIteration::fixedPoint` (src/SourceIteration.cc:127-207), returning `n`. -/
def FixedPoint (R : SweepRun K) (X : Scat K) (S : Sweeper K) (src : Nat → Psi K) (errMax : K)
    (iterMax : Nat) (st : S.State) (psi : Nat → Psi K) (tr : List ((Nat → Phi K) × (Nat → Psi K)))
    (st' : S.State) (psi' : Nat → Psi K) (n : Nat) : Prop :=
  ∃ phi, IsPhi R X psi phi ∧ SILoop R X S src errMax iterMax 0 (.val 1) st psi phi tr st' psi' n

/-- `lhsOperator(x, b)` (src/SourceIteration.cc:76-114). -/
def LhsOp (R : SweepRun K) (X : Scat K) (S : Sweeper K) (x b : Nat → Phi K) : Prop :=
  ∃ st psi src st' psi' phi, IsMS R X x src ∧ S.run st true psi src st' psi' ∧ IsPhi R X psi' phi ∧
    ∀ r < R.nRanks, ∀ g v c, g < R.nGroups → c < R.nCells r → b r g v c = x r g v c - phi r g v c

/-- The right-hand side `D L⁻¹ Q` (src/SourceIteration.cc:238-242). -/
def KrylovRhs (R : SweepRun K) (X : Scat K) (S : Sweeper K) (src : Nat → Psi K) (b : Nat → Phi K) :
    Prop :=
  ∃ st psi st' psi', S.run st false psi src st' psi' ∧ IsPhi R X psi' b

/-- The flux recovered from the vector `x` (src/SourceIteration.cc:256-260). -/
def KrylovEnd (R : SweepRun K) (X : Scat K) (S : Sweeper K) (src : Nat → Psi K) (x : Nat → Phi K)
    (psi' : Nat → Psi K) : Prop :=
  ∃ tot st psi st', IsTotal R X src x tot ∧ S.run st false psi tot st' psi'

/-! ### What the iterations must do -/

/-- Same scalar flux in every entry. -/
def SamePhi (R : SweepRun K) (p q : Nat → Phi K) : Prop :=
  ∀ r < R.nRanks, ∀ g v c, g < R.nGroups → c < R.nCells r → p r g v c = q r g v c

/-- The scalar flux. -/
def scal (R : SweepRun K) (X : Scat K) (psi : Nat → Psi K) : Nat → Phi K :=
  fun r g v c => ∑ a ∈ Finset.range R.nAngles, psi r g v a c * X.wt a

/-- Fixed source plus isotropic scattering of `phi`. -/
def scat (X : Scat K) (src : Nat → Psi K) (phi : Nat → Phi K) : Nat → Psi K :=
  fun r g v a c => src r g v a c + X.sigmaS r c / (4 * X.mPi) * phi r g v c

/-- `psi` solves the problem with scattering: it solves `L` with its own scattering as source. -/
def Scatters (R : SweepRun K) (X : Scat K) (L : (Nat → Psi K) → (Nat → Psi K) → Prop)
    (src psi : Nat → Psi K) : Prop := L (scat X src (scal R X psi)) psi

/-- `L src psi` is an affine problem with homogeneous part `L0` and one solution. -/
structure Affine (R : SweepRun K) (L L0 : (Nat → Psi K) → (Nat → Psi K) → Prop) : Prop where
  lin : ∀ k s p s' p', L s p → L0 s' p' → L (Domain.lin k s s') (Domain.lin k p p')
  sub : ∀ s p s' p', L s p → L s' p' → L0 (Domain.lin (-1) s s') (Domain.lin (-1) p p')
  unique : ∀ s p p', L s p → L s p' → SameFlux R p p'
  congr : ∀ s s' p p', L s p → SameFlux R s s' → SameFlux R p p' → L s' p'

/-- The sweeper solves `L`, or `L0` when told to zero the boundary. -/
structure Correct (S : Sweeper K) (L L0 : (Nat → Psi K) → (Nat → Psi K) → Prop) : Prop where
  plain : ∀ st psi src st' psi', S.run st false psi src st' psi' → L src psi'
  zero : ∀ st psi src st' psi', S.run st true psi src st' psi' → L0 src psi'

/-! ### Proofs -/

variable {R : SweepRun K} {X : Scat K}

theorem IsPhi.same {psi : Nat → Psi K} {phi : Nat → Phi K} (h : IsPhi R X psi phi) :
    SamePhi R phi (scal R X psi) := by
  intro r hr g v c hg hc
  obtain ⟨order, p, ho, e⟩ := h r hr
  rw [e, psiToPhi_sum ho _ _ _ hg _ hc]
  rfl

theorem IsTotal.same {src tot : Nat → Psi K} {phi : Nat → Phi K} (h : IsTotal R X src phi tot) :
    SameFlux R tot (scat X src phi) := by
  intro r c a g v hr hc ha hg
  obtain ⟨order, p, ho, e⟩ := h r hr
  rw [e, calcTotalSource_value ho, if_pos ⟨hc, ha, hg⟩]
  rfl

theorem IsMS.same {src : Nat → Psi K} {phi : Nat → Phi K} (h : IsMS R X phi src) :
    SameFlux R src (scat X (fun _ _ _ _ _ => 0) phi) := by
  intro r c a g v hr hc ha hg
  obtain ⟨order, p, ho, e⟩ := h r hr
  rw [e, phiToPsi_value ho, if_pos ⟨hc, ha, hg⟩, operatorS_inPlace, operatorS_value, if_pos ⟨hc, hg⟩]
  simp [scat]

theorem SamePhi.symm {p q : Nat → Phi K} (h : SamePhi R p q) : SamePhi R q p :=
  fun r hr g v c hg hc => (h r hr g v c hg hc).symm

theorem SamePhi.trans {p q s : Nat → Phi K} (h : SamePhi R p q) (h' : SamePhi R q s) : SamePhi R p s :=
  fun r hr g v c hg hc => (h r hr g v c hg hc).trans (h' r hr g v c hg hc)

theorem sameFlux_symm {p q : Nat → Psi K} (h : SameFlux R p q) : SameFlux R q p :=
  fun r c a g v hr hc ha hg => (h r c a g v hr hc ha hg).symm

theorem sameFlux_refl (p : Nat → Psi K) : SameFlux R p p := fun _ _ _ _ _ _ _ _ _ => rfl

theorem sameFlux_trans {p q s : Nat → Psi K} (h : SameFlux R p q) (h' : SameFlux R q s) : SameFlux R p s :=
  fun r c a g v hr hc ha hg => (h r c a g v hr hc ha hg).trans (h' r c a g v hr hc ha hg)

theorem scat_congr {src src' : Nat → Psi K} {p q : Nat → Phi K} (hs : SameFlux R src src')
    (h : SamePhi R p q) : SameFlux R (scat X src p) (scat X src' q) := by
  intro r c a g v hr hc ha hg
  simp only [scat, hs r c a g v hr hc ha hg, h r hr g v c hg hc]

theorem scal_congr {p q : Nat → Psi K} (h : SameFlux R p q) : SamePhi R (scal R X p) (scal R X q) := by
  intro r hr g v c hg hc
  exact Finset.sum_congr rfl fun a ha => by rw [h r c a g v hr hc (Finset.mem_range.1 ha) hg]

theorem phiSum_congr {f f' : Nat → Nat → Fin 4 → Nat → K}
    (h : ∀ r < R.nRanks, ∀ g v c, g < R.nGroups → c < R.nCells r → f r g v c = f' r g v c) :
    phiSum R f = phiSum R f' := by
  unfold phiSum
  exact Finset.sum_congr rfl fun r hr => Finset.sum_congr rfl fun c hc => Finset.sum_congr rfl fun v _ =>
    Finset.sum_congr rfl fun g hg => h r (Finset.mem_range.1 hr) g v c (Finset.mem_range.1 hg)
      (Finset.mem_range.1 hc)

theorem relErr_congr {p q p' q' : Nat → Phi K} (h : SamePhi R p p') (h' : SamePhi R q q') :
    relErr R p q = relErr R p' q' := by
  unfold relErr
  rw [phiSum_congr (f := fun r g v c => |p r g v c - q r g v c|)
      (f' := fun r g v c => |p' r g v c - q' r g v c|)
      fun r hr g v c hg hc => by simp only [h r hr g v c hg hc, h' r hr g v c hg hc],
    phiSum_congr (f := fun r g v c => |p r g v c|) (f' := fun r g v c => |p' r g v c|)
      fun r hr g v c hg hc => by simp only [h r hr g v c hg hc]]

section
variable {S : Sweeper K} {src : Nat → Psi K} {errMax : K} {iterMax : Nat}

theorem SILoop.count {iter : Nat} {err : Err K} {st : S.State} {psi : Nat → Psi K} {phi : Nat → Phi K}
    {tr : List ((Nat → Phi K) × (Nat → Psi K))} {st' : S.State} {psi' : Nat → Psi K} {n : Nat}
    (h : SILoop R X S src errMax iterMax iter err st psi phi tr st' psi' n) :
    n = iter + tr.length ∧ (iter ≤ iterMax → n ≤ iterMax) ∧
      (tr = [] → n = iter ∧ psi' = psi ∧ ¬ (iter < iterMax ∧ err.gt errMax)) ∧
      (∀ tr' e, tr = tr' ++ [e] → psi' = e.2) := by
  induction h with
  | stop h => exact ⟨by simp, id, fun _ => ⟨rfl, rfl, h⟩, fun _ _ e => by simp at e⟩
  | @step iter err st psi phi tot st1 psi1 phi1 tr st' psi' n h ht hs hp hr ih =>
    refine ⟨by rw [ih.1, List.length_cons]; omega, fun _ => ih.2.1 h.1, by simp, ?_⟩
    intro tr' e he
    cases tr' with
    | nil =>
      simp only [nil_append, cons.injEq] at he
      obtain ⟨rfl, h2⟩ := he
      exact (ih.2.2.1 h2).2.1
    | cons x xs =>
      simp only [cons_append, cons.injEq] at he
      exact ih.2.2.2 xs e he.2

/-- What the end of a run with sweeps looks like. -/
theorem SILoop.last {iter : Nat} {err : Err K} {st : S.State} {psi : Nat → Psi K} {phi : Nat → Phi K}
    {tr : List ((Nat → Phi K) × (Nat → Psi K))} {st' : S.State} {psi' : Nat → Psi K} {n : Nat}
    (h : SILoop R X S src errMax iterMax iter err st psi phi tr st' psi' n) (hne : tr ≠ []) :
    ∃ tr' old tot sti psii phi1, tr = tr' ++ [(old, psi')] ∧ IsTotal R X src old tot ∧
      S.run sti false psii tot st' psi' ∧ IsPhi R X psi' phi1 ∧
      ¬ (n < iterMax ∧ (relErr R phi1 old).gt errMax) := by
  induction h with
  | stop h => exact absurd rfl hne
  | @step iter err st psi phi tot st1 psi1 phi1 tr st' psi' n h ht hs hp hr ih =>
    by_cases he : tr = []
    · subst he
      cases hr with
      | stop h' => exact ⟨[], phi, tot, st, psi, phi1, rfl, ht, hs, hp, h'⟩
    · obtain ⟨tr', old, tot', sti, psii, phi1', e, h1, h2, h3, h4⟩ := ih he
      exact ⟨(phi, psi1) :: tr', old, tot', sti, psii, phi1', by rw [e]; rfl, h1, h2, h3, h4⟩

/-- C41: the number returned is the number of sweeps made, and it is at most the limit. -/
theorem fixedPoint_count {st : S.State} {psi : Nat → Psi K}
    {tr : List ((Nat → Phi K) × (Nat → Psi K))} {st' : S.State} {psi' : Nat → Psi K} {n : Nat}
    (h : FixedPoint R X S src errMax iterMax st psi tr st' psi' n) : n = tr.length ∧ n ≤ iterMax := by
  obtain ⟨phi, -, hl⟩ := h
  have := hl.count
  exact ⟨by simpa using this.1, this.2.1 (Nat.zero_le _)⟩

/-- C41: fewer sweeps than the limit means that the last relative change is not above `errMax` — or that
`errMax` is at least one and nothing was swept. -/
theorem fixedPoint_tolerance {st : S.State} {psi : Nat → Psi K}
    {tr : List ((Nat → Phi K) × (Nat → Psi K))} {st' : S.State} {psi' : Nat → Psi K} {n : Nat}
    (h : FixedPoint R X S src errMax iterMax st psi tr st' psi' n) (hn : n < iterMax) :
    (n = 0 ∧ psi' = psi ∧ 1 ≤ errMax) ∨
    ∃ tr' old, tr = tr' ++ [(old, psi')] ∧ ¬ (relErr R (scal R X psi') old).gt errMax := by
  obtain ⟨phi, hphi, hl⟩ := h
  by_cases he : tr = []
  · left
    obtain ⟨h1, h2, h3⟩ := hl.count.2.2.1 he
    refine ⟨h1, h2, not_lt.1 fun hlt => h3 ⟨by omega, hlt⟩⟩
  · right
    obtain ⟨tr', old, tot, sti, psii, phi1, e, h1, h2, h3, h4⟩ := hl.last he
    refine ⟨tr', old, e, fun hg => h4 ⟨hn, ?_⟩⟩
    rwa [relErr_congr h3.same fun _ _ _ _ _ _ _ => rfl]

/-- With `errMax ≥ 1` nothing is swept. -/
theorem fixedPoint_none {st : S.State} {psi : Nat → Psi K}
    {tr : List ((Nat → Phi K) × (Nat → Psi K))} {st' : S.State} {psi' : Nat → Psi K} {n : Nat}
    (h : FixedPoint R X S src errMax iterMax st psi tr st' psi' n) (he : 1 ≤ errMax) :
    n = 0 ∧ tr = [] ∧ psi' = psi := by
  obtain ⟨phi, hphi, hl⟩ := h
  cases hl with
  | stop => exact ⟨rfl, rfl, rfl⟩
  | step h => exact absurd h.2 (not_lt.2 he)

/-- C41: every flux a run leaves after a sweep solves the problem with the scattering of the flux before. -/
theorem fixedPoint_solves {L L0 : (Nat → Psi K) → (Nat → Psi K) → Prop} (C : Correct S L L0)
    (A : Affine R L L0) {st : S.State} {psi : Nat → Psi K}
    {tr : List ((Nat → Phi K) × (Nat → Psi K))} {st' : S.State} {psi' : Nat → Psi K} {n : Nat}
    (h : FixedPoint R X S src errMax iterMax st psi tr st' psi' n) (hn : 0 < n) :
    ∃ tr' old, tr = tr' ++ [(old, psi')] ∧ L (scat X src old) psi' := by
  have hc := fixedPoint_count h
  obtain ⟨phi, hphi, hl⟩ := h
  obtain ⟨tr', old, tot, sti, psii, phi1, e, h1, h2, h3, h4⟩ := hl.last (by
    rintro rfl; simp at hc; omega)
  exact ⟨tr', old, e, A.congr _ _ _ _ (C.plain _ _ _ _ _ h2) h1.same (sameFlux_refl _)⟩

/-- C41: if the scalar flux did not change in the last sweep, the flux solves the problem with
scattering. -/
theorem fixedPoint_stationary {L L0 : (Nat → Psi K) → (Nat → Psi K) → Prop} (C : Correct S L L0)
    (A : Affine R L L0) {st : S.State} {psi : Nat → Psi K}
    {tr : List ((Nat → Phi K) × (Nat → Psi K))} {st' : S.State} {psi' : Nat → Psi K} {n : Nat}
    (h : FixedPoint R X S src errMax iterMax st psi tr st' psi' n) {tr' old}
    (he : tr = tr' ++ [(old, psi')]) (hs : SamePhi R old (scal R X psi')) : Scatters R X L src psi' := by
  have hc := fixedPoint_count h
  obtain ⟨tr1, old1, e, hL⟩ := fixedPoint_solves C A h (by rw [hc.1, he]; simp)
  rw [he] at e
  have e2 := List.append_inj' e rfl
  have e1 : old = old1 := by simpa using e2.2
  subst e1
  exact A.congr _ _ _ _ hL (scat_congr (sameFlux_refl _) hs) (sameFlux_refl _)

variable [IsStrictOrderedRing K]

theorem phiSum_nonneg {f : Nat → Nat → Fin 4 → Nat → K} (h : ∀ r g v c, 0 ≤ f r g v c) :
    0 ≤ phiSum R f :=
  Finset.sum_nonneg fun _ _ => Finset.sum_nonneg fun _ _ => Finset.sum_nonneg fun _ _ =>
    Finset.sum_nonneg fun _ _ => h _ _ _ _

/-- C41: what the test promises. If the run stopped before the limit, after a sweep that left a nonzero
scalar flux, the flux solves the problem with the scattering of a scalar flux that differs from its own by
at most `errMax` times its norm. -/
theorem fixedPoint_residual {L L0 : (Nat → Psi K) → (Nat → Psi K) → Prop} (C : Correct S L L0)
    (A : Affine R L L0) {st : S.State} {psi : Nat → Psi K}
    {tr : List ((Nat → Phi K) × (Nat → Psi K))} {st' : S.State} {psi' : Nat → Psi K} {n : Nat}
    (h : FixedPoint R X S src errMax iterMax st psi tr st' psi' n) (hn : 0 < n) (hlt : n < iterMax)
    (hz : phiSum R (fun r g v c => |scal R X psi' r g v c|) ≠ 0) :
    ∃ old, L (scat X src old) psi' ∧
      phiSum R (fun r g v c => |scal R X psi' r g v c - old r g v c|) ≤
        errMax * phiSum R fun r g v c => |scal R X psi' r g v c| := by
  obtain ⟨tr1, old1, e, hL⟩ := fixedPoint_solves C A h hn
  rcases fixedPoint_tolerance h hlt with ⟨h0, -⟩ | ⟨tr', old, he, ht⟩
  · omega
  · rw [he] at e
    have e2 := List.append_inj' e rfl
    have e1 : old = old1 := by simpa using e2.2
    subst e1
    refine ⟨old, hL, ?_⟩
    have hpos : 0 < phiSum R fun r g v c => |scal R X psi' r g v c| :=
      lt_of_le_of_ne (phiSum_nonneg fun _ _ _ _ => abs_nonneg _) (Ne.symm hz)
    unfold relErr at ht
    simp only [ne_eq, hz, not_false_eq_true, if_true, Err.gt, not_lt] at ht
    rwa [div_le_iff₀ hpos] at ht

/-- C41: started from a solution with a tolerance in `[0, 1)`, the run makes one sweep and returns the
solution. -/
theorem fixedPoint_fixed {L L0 : (Nat → Psi K) → (Nat → Psi K) → Prop} (C : Correct S L L0)
    (A : Affine R L L0) (h0 : 0 ≤ errMax) (h1 : errMax < 1) (hm : 0 < iterMax) {st : S.State}
    {psi : Nat → Psi K} (hsol : Scatters R X L src psi)
    {tr : List ((Nat → Phi K) × (Nat → Psi K))} {st' : S.State} {psi' : Nat → Psi K} {n : Nat}
    (h : FixedPoint R X S src errMax iterMax st psi tr st' psi' n) : n = 1 ∧ SameFlux R psi' psi := by
  obtain ⟨phi, hphi, hl⟩ := h
  cases hl with
  | stop h => exact absurd ⟨hm, h1⟩ h
  | @step _ _ _ _ _ tot st1 psi1 phi1 tr _ _ _ h ht hs hp hr =>
    have hL := A.congr _ _ _ _ (C.plain _ _ _ _ _ hs)
      (sameFlux_trans ht.same (scat_congr (sameFlux_refl _) hphi.same)) (sameFlux_refl _)
    have hsame := A.unique _ _ _ hL hsol
    have herr : ¬ (relErr R phi1 phi).gt errMax := by
      have e1 : SamePhi R phi1 phi :=
        (hp.same.trans (scal_congr hsame)).trans hphi.same.symm
      have e2 : phiSum R (fun r g v c => |phi1 r g v c - phi r g v c|) = 0 := by
        rw [phiSum_congr (f' := fun _ _ _ _ => 0)]
        · simp [phiSum]
        · intro r hr g v c hg hc; rw [e1 r hr g v c hg hc]; simp
      unfold relErr
      simp only [e2, zero_div, ne_eq, not_true_eq_false, if_false]
      split
      · simpa [Err.gt] using h0
      · simp [Err.gt]
    cases hr with
    | stop => exact ⟨rfl, hsame⟩
    | step h' => exact absurd h'.2 herr

omit [IsStrictOrderedRing K] in
theorem isPhi_exists (psi : Nat → Psi K) : ∃ phi, IsPhi R X psi phi :=
  ⟨fun r => psiToPhi (R.nCells r) R.nGroups X.wt (nest (R.nCells r) R.nAngles R.nGroups)
    (fun _ _ _ => 0) (psi r), fun _ _ => ⟨_, _, List.Perm.refl _, rfl⟩⟩

omit [IsStrictOrderedRing K] in
theorem isTotal_exists (src : Nat → Psi K) (phi : Nat → Phi K) : ∃ tot, IsTotal R X src phi tot :=
  ⟨fun r => calcTotalSource (X.sigmaS r) X.mPi (nest (R.nCells r) R.nAngles R.nGroups) (src r) (phi r)
    (fun _ _ _ _ => 0), fun _ _ => ⟨_, _, List.Perm.refl _, rfl⟩⟩

omit [IsStrictOrderedRing K] in
theorem isMS_exists (phi : Nat → Phi K) : ∃ src, IsMS R X phi src :=
  ⟨fun r => phiToPsi (nest (R.nCells r) R.nAngles R.nGroups)
    (operatorSInPlace (R.nCells r) R.nGroups (X.sigmaS r) X.mPi (phi r)) (fun _ _ _ _ => 0),
    fun _ _ => ⟨_, _, List.Perm.refl _, rfl⟩⟩

omit [IsStrictOrderedRing K] in
/-- C41: source iteration returns if the sweeper does. -/
theorem fixedPoint_returns (hS : ∀ st psi src, ∃ st' psi', S.run st false psi src st' psi')
    (src : Nat → Psi K) (errMax : K) (iterMax : Nat) (st : S.State) (psi : Nat → Psi K) :
    ∃ tr st' psi' n, FixedPoint R X S src errMax iterMax st psi tr st' psi' n := by
  have key : ∀ m iter err st psi phi, iterMax ≤ iter + m →
      ∃ tr st' psi' n, SILoop R X S src errMax iterMax iter err st psi phi tr st' psi' n := by
    intro m
    induction m with
    | zero => intro iter err st psi phi h; exact ⟨_, _, _, _, .stop fun h' => by omega⟩
    | succ m ih =>
      intro iter err st psi phi h
      by_cases hc : iter < iterMax ∧ err.gt errMax
      · obtain ⟨tot, ht⟩ := isTotal_exists (R := R) (X := X) src phi
        obtain ⟨st1, psi1, hs⟩ := hS st psi tot
        obtain ⟨phi1, hp⟩ := isPhi_exists (R := R) (X := X) psi1
        obtain ⟨tr, st', psi', n, hr⟩ := ih (iter + 1) (relErr R phi1 phi) st1 psi1 phi1 (by omega)
        exact ⟨_, _, _, _, .step hc ht hs hp hr⟩
      · exact ⟨_, _, _, _, .stop hc⟩
  obtain ⟨phi, hp⟩ := isPhi_exists (R := R) (X := X) psi
  obtain ⟨tr, st', psi', n, h⟩ := key iterMax 0 (.val 1) st psi phi (by omega)
  exact ⟨tr, st', psi', n, phi, hp, h⟩

omit [IsStrictOrderedRing K] in
theorem scal_lin (k : K) (p q : Nat → Psi K) :
    scal R X (lin k p q) = fun r g v c => scal R X p r g v c + k * scal R X q r g v c := by
  funext r g v c
  simp only [scal, lin, Finset.mul_sum, ← Finset.sum_add_distrib]
  exact Finset.sum_congr rfl fun _ _ => by ring

omit [IsStrictOrderedRing K] in
/-- C41: a vector solves the Krylov system exactly when it is the scalar flux of the flux recovered
from it. -/
theorem krylov_iff {L L0 : (Nat → Psi K) → (Nat → Psi K) → Prop} (C : Correct S L L0)
    (A : Affine R L L0) {x b rhs : Nat → Phi K} {psi : Nat → Psi K} (hop : LhsOp R X S x b)
    (hrhs : KrylovRhs R X S src rhs) (hend : KrylovEnd R X S src x psi) :
    SamePhi R b rhs ↔ SamePhi R (scal R X psi) x := by
  obtain ⟨st, psi0, s, st', psi2, phi2, h1, h2, h3, h4⟩ := hop
  obtain ⟨st1, psi01, st1', psi1, h1', h2'⟩ := hrhs
  obtain ⟨tot, stE, psiE, stE', hE1, hE2⟩ := hend
  have hsum := A.lin 1 _ _ _ _ (C.plain _ _ _ _ _ h1') (C.zero _ _ _ _ _ h2)
  have hsrc : SameFlux R (lin 1 src s) tot := by
    refine sameFlux_trans ?_ (sameFlux_symm hE1.same)
    intro r c a g v hr hc ha hg
    simp only [lin, h1.same r c a g v hr hc ha hg, scat]; ring
  have hsame := A.unique _ _ _ (C.plain _ _ _ _ _ hE2)
    (A.congr _ _ _ _ hsum hsrc (sameFlux_refl _))
  have hscal : ∀ r < R.nRanks, ∀ g v c, g < R.nGroups → c < R.nCells r →
      scal R X psi r g v c = rhs r g v c + phi2 r g v c := by
    intro r hr g v c hg hc
    rw [scal_congr hsame r hr g v c hg hc, scal_lin]
    simp only [h2'.same r hr g v c hg hc, h3.same r hr g v c hg hc, one_mul]
  constructor
  · intro h r hr g v c hg hc
    rw [hscal r hr g v c hg hc, ← h r hr g v c hg hc, h4 r hr g v c hg hc]; ring
  · intro h r hr g v c hg hc
    rw [h4 r hr g v c hg hc, ← h r hr g v c hg hc, hscal r hr g v c hg hc]; ring

omit [IsStrictOrderedRing K] in
/-- C41: the flux recovered from a solution of the Krylov system solves the problem with scattering. -/
theorem krylov_solves {L L0 : (Nat → Psi K) → (Nat → Psi K) → Prop} (C : Correct S L L0)
    (A : Affine R L L0) {x b rhs : Nat → Phi K} {psi : Nat → Psi K} (hop : LhsOp R X S x b)
    (hrhs : KrylovRhs R X S src rhs) (hend : KrylovEnd R X S src x psi) (h : SamePhi R b rhs) :
    Scatters R X L src psi := by
  have hx := (krylov_iff C A hop hrhs hend).1 h
  obtain ⟨tot, stE, psiE, stE', hE1, hE2⟩ := hend
  exact A.congr _ _ _ _ (C.plain _ _ _ _ _ hE2)
    (sameFlux_trans hE1.same (scat_congr (sameFlux_refl _) hx.symm)) (sameFlux_refl _)

omit [IsStrictOrderedRing K] in
/-- C41: conversely the scalar flux of any solution of the problem with scattering solves the Krylov
system, and that solution is what is recovered. -/
theorem krylov_complete {L L0 : (Nat → Psi K) → (Nat → Psi K) → Prop} (C : Correct S L L0)
    (A : Affine R L L0) {x b rhs : Nat → Phi K} {psi star : Nat → Psi K} (hop : LhsOp R X S x b)
    (hrhs : KrylovRhs R X S src rhs) (hend : KrylovEnd R X S src x psi)
    (hstar : Scatters R X L src star) (hx : SamePhi R x (scal R X star)) :
    SamePhi R b rhs ∧ SameFlux R psi star := by
  have hs : SameFlux R psi star := by
    obtain ⟨tot, stE, psiE, stE', hE1, hE2⟩ := id hend
    exact A.unique _ _ _ (A.congr _ _ _ _ (C.plain _ _ _ _ _ hE2)
      (sameFlux_trans hE1.same (scat_congr (sameFlux_refl _) hx)) (sameFlux_refl _)) hstar
  exact ⟨(krylov_iff C A hop hrhs hend).2 ((scal_congr hs).trans hx.symm), hs⟩

end

end Verif.Source
