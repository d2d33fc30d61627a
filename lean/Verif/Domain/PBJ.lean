import Verif.Domain.Local
import Mathlib.Algebra.Order.BigOperators.Group.Finset

/-!
# Block Jacobi (src/SweeperPBJ.cc)
-/
set_option linter.unusedSectionVars false

namespace Verif.Domain
open Classical List
open Verif.Transport Verif.Traverse

variable {K : Type} [Field K] [LinearOrder K]

/-! ### Model -/

/-- A boundary exchange returned with boundary arrays `bound'`. -/
def ExchangeRun (R : SweepRun K) (psi : Nat → Psi K) (bound bound' : Nat → Bound K) : Prop :=
  ∃ n s, XRun R psi bound n s ∧ (∀ r < R.nRanks, s.phase r = .finished) ∧ bound' = s.bound

/-- Sum over all entries of a flux array and over the ranks (src/SweeperPBJ.cc:192-200). -/
def gsum (R : SweepRun K) (f : Nat → Nat → Fin 4 → Nat → Nat → K) : K :=
  ∑ r ∈ Finset.range R.nRanks, ∑ c ∈ Finset.range (R.nCells r), ∑ a ∈ Finset.range R.nAngles, ∑ v,
    ∑ g ∈ Finset.range R.nGroups, f r g v a c

/-- `errL1 / normL1 < g_ddErrMax` (src/SweeperPBJ.cc:190-203). With a zero norm the quotient is
infinite or not a number, and the comparison false. -/
def Converged (R : SweepRun K) (tol : K) (prev psi : Nat → Psi K) : Prop :=
  gsum R (fun r g v a c => |psi r g v a c|) ≠ 0 ∧
  gsum R (fun r g v a c => |prev r g v a c - psi r g v a c|) /
    gsum R (fun r g v a c => |psi r g v a c|) < tol

/-- The loop of `SweeperPBJ::sweep` (src/SweeperPBJ.cc:181-212) from iteration `iter` with flux `psi`,
flux `prev` of the iteration before, and boundary arrays `bound`. The list holds the flux after each
local sweep; the last two are the flux and boundary arrays left behind. -/
inductive PBJLoop (R : SweepRun K) (src : Nat → Psi K) (tol : K) (iterMax : Nat) :
    Nat → (Nat → Psi K) → (Nat → Psi K) → (Nat → Bound K) →
    List (Nat → Psi K) → (Nat → Psi K) → (Nat → Bound K) → Prop
  | limit {iter psi prev bound} (h : ¬ iter < iterMax) :
    PBJLoop R src tol iterMax iter psi prev bound [] psi bound
  | conv {iter psi prev bound psi'} (h : iter < iterMax) (hs : LocalSwept R src psi bound psi')
      (hc : Converged R tol prev psi') :
    PBJLoop R src tol iterMax iter psi prev bound [psi'] psi' bound
  | next {iter psi prev bound psi' bound' rest psiEnd boundEnd} (h : iter < iterMax)
      (hs : LocalSwept R src psi bound psi') (hc : ¬ Converged R tol prev psi')
      (hx : ExchangeRun R psi' bound bound')
      (hr : PBJLoop R src tol iterMax (iter + 1) psi' psi' bound' rest psiEnd boundEnd) :
    PBJLoop R src tol iterMax iter psi prev bound (psi' :: rest) psiEnd boundEnd

/-- `SweeperPBJ::sweep` (src/SweeperPBJ.cc:168-219); `iter` starts at 1. -/
def PBJSweep (R : SweepRun K) (src : Nat → Psi K) (tol : K) (iterMax : Nat) (psi : Nat → Psi K)
    (bound : Nat → Bound K) (sweeps : List (Nat → Psi K)) (psiEnd : Nat → Psi K)
    (boundEnd : Nat → Bound K) : Prop :=
  PBJLoop R src tol iterMax 1 psi psi bound sweeps psiEnd boundEnd

/-! ### What the iteration must do -/

/-- There is a chain of upwind steps ending in cell `(r, c)` that crosses `k` partition faces. -/
inductive Crossings (R : SweepRun K) (mate : Loc → Option Loc) (a : Nat) : Nat → Nat → Nat → Prop
  | nil (r c) : Crossings R mate a r c 0
  | near {r c f y k} (hm : mate ⟨r, c, f⟩ = some y) (hin : ¬ (R.view r).isOutgoing a c f)
      (hr : y.rank = r) (h : Crossings R mate a y.rank y.cell k) : Crossings R mate a r c k
  | far {r c f y k} (hm : mate ⟨r, c, f⟩ = some y) (hin : ¬ (R.view r).isOutgoing a c f)
      (hr : y.rank ≠ r) (h : Crossings R mate a y.rank y.cell k) : Crossings R mate a r c (k + 1)

/-- The boundary arrays hold the neighbours' flux on every incoming partition face. -/
def Consistent (R : SweepRun K) (mate : Loc → Option Loc) (node : Nat → Nat → Fin 4 → Nat)
    (psi : Nat → Psi K) (bound : Nat → Bound K) : Prop :=
  ∀ x y a g v, R.cfg.In x → mate x = some y → y.rank ≠ x.rank → a < R.nAngles →
    ¬ (R.view x.rank).isOutgoing a x.cell x.face → g < R.nGroups → v ≠ x.face →
    ∃ w, node y.rank y.cell w = node x.rank x.cell v ∧
      bound x.rank g ((R.view x.rank).cellToFaceVrtx x.cell x.face v) a
        ((R.view x.rank).side x.cell x.face) = psi y.rank g w a y.cell

/-! ### Proofs: the iteration limit (C43) -/

theorem PBJLoop.length_le {R : SweepRun K} {src : Nat → Psi K} {tol : K} {N iter : Nat}
    {psi prev : Nat → Psi K} {bound : Nat → Bound K} {sweeps : List (Nat → Psi K)}
    {psiEnd : Nat → Psi K} {boundEnd : Nat → Bound K}
    (h : PBJLoop R src tol N iter psi prev bound sweeps psiEnd boundEnd) :
    sweeps.length ≤ N - iter := by
  induction h with
  | limit => simp
  | conv h => simp; omega
  | next h _ _ _ _ ih => simp only [List.length_cons]; omega

/-- C43, the part that holds: a limit of `N` allows at most `N` sweeps — in fact at most `N - 1`. -/
theorem pbj_limit_partial {R : SweepRun K} {src : Nat → Psi K} {tol : K} {N : Nat} {psi : Nat → Psi K}
    {bound : Nat → Bound K} {sweeps : List (Nat → Psi K)} {psiEnd : Nat → Psi K}
    {boundEnd : Nat → Bound K} (h : PBJSweep R src tol N psi bound sweeps psiEnd boundEnd) :
    sweeps.length ≤ N - 1 := h.length_le

/-- C43 is violated: with a limit of one nothing is swept and the flux given is returned unchanged. -/
theorem pbj_limit_one_sweeps_nothing {R : SweepRun K} {src : Nat → Psi K} {tol : K} {psi : Nat → Psi K}
    {bound : Nat → Bound K} {sweeps : List (Nat → Psi K)} {psiEnd : Nat → Psi K}
    {boundEnd : Nat → Bound K} (h : PBJSweep R src tol 1 psi bound sweeps psiEnd boundEnd) :
    sweeps = [] ∧ psiEnd = psi ∧ boundEnd = bound := by
  cases h with
  | limit => exact ⟨rfl, rfl, rfl⟩
  | conv h => omega
  | next h => omega

theorem PBJLoop.length_eq [IsStrictOrderedRing K] {R : SweepRun K} {src : Nat → Psi K} {tol : K}
    {N iter : Nat} {psi prev : Nat → Psi K} {bound : Nat → Bound K} {sweeps : List (Nat → Psi K)}
    {psiEnd : Nat → Psi K} {boundEnd : Nat → Bound K} (ht : tol ≤ 0)
    (h : PBJLoop R src tol N iter psi prev bound sweeps psiEnd boundEnd) :
    sweeps.length = N - iter := by
  induction h with
  | limit h => simp; omega
  | conv h hs hc =>
    exfalso
    refine absurd hc.2 (not_lt.2 (ht.trans (div_nonneg ?_ ?_))) <;>
      exact Finset.sum_nonneg fun _ _ => Finset.sum_nonneg fun _ _ => Finset.sum_nonneg fun _ _ =>
        Finset.sum_nonneg fun _ _ => Finset.sum_nonneg fun _ _ => abs_nonneg _
  | next h _ _ _ _ ih => simp only [List.length_cons]; omega

/-- C43: when the tolerance never stops it, a limit of `N` gives exactly `N - 1` sweeps. -/
theorem pbj_limit_exact [IsStrictOrderedRing K] {R : SweepRun K} {src : Nat → Psi K} {tol : K} {N : Nat}
    {psi : Nat → Psi K} {bound : Nat → Bound K} {sweeps : List (Nat → Psi K)} {psiEnd : Nat → Psi K}
    {boundEnd : Nat → Bound K} (ht : tol ≤ 0)
    (h : PBJSweep R src tol N psi bound sweeps psiEnd boundEnd) : sweeps.length = N - 1 :=
  h.length_eq ht

/-! ### Proofs: limit and finite convergence (C42) -/

variable [IsStrictOrderedRing K]

section
variable {R : SweepRun K} {mate : Loc → Option Loc} {node : Nat → Nat → Fin 4 → Nat}

/-- C42: a local solution whose boundary data are the neighbours' flux solves the whole problem. -/
theorem consistent_is_full (H : R.Physical) {src psi : Nat → Psi K} {bound : Nat → Bound K}
    (h : LocalDG R mate node src bound psi) (hc : Consistent R mate node psi bound) :
    FullDG R mate node src psi := by
  intro r c a g hr hc' ha hg
  obtain ⟨inc, hinc, hdg⟩ := h r c a g hr hc' ha hg
  refine ⟨inc, ?_, hdg⟩
  intro f v hv hneg
  obtain ⟨h1, h2, h3⟩ := hinc f v hv hneg
  refine ⟨?_, h3⟩
  intro y hy
  by_cases hyr : y.rank = r
  · obtain ⟨w, hw, e⟩ := h1 y hy hyr
    refine ⟨w, ?_, ?_⟩
    · rw [hyr]; exact hw
    · rw [hyr]; exact e
  · obtain ⟨w, hw, e⟩ := hc ⟨r, c, f⟩ y a g v ⟨hr, hc'⟩ hy hyr ha
      (incoming_of_neg H hr hc' hneg) hg hv
    exact ⟨w, hw, (h2 y hy hyr).trans e⟩

/-- C42: and the other way round, so consistent states are exactly the full solutions. -/
theorem full_is_local (L : Linked R.cfg mate) (N : R.Nodes mate node) (H : R.Physical)
    {src psi : Nat → Psi K} {bound : Nat → Bound K}
    (h : FullDG R mate node src psi) (hc : Consistent R mate node psi bound) :
    LocalDG R mate node src bound psi := by
  intro r c a g hr hc' ha hg
  obtain ⟨inc, hinc, hdg⟩ := h r c a g hr hc' ha hg
  refine ⟨inc, ?_, hdg⟩
  intro f v hv hneg
  obtain ⟨h1, h3⟩ := hinc f v hv hneg
  refine ⟨?_, ?_, h3⟩
  · intro y hy hyr
    obtain ⟨w, hw, e⟩ := h1 y hy
    rw [hyr] at hw e
    exact ⟨w, hw, e⟩
  · intro y hy hyr
    obtain ⟨w, hw, e⟩ := h1 y hy
    obtain ⟨w', hw', e'⟩ := hc ⟨r, c, f⟩ y a g v ⟨hr, hc'⟩ hy hyr ha
      (incoming_of_neg H hr hc' hneg) hg hv
    have hyin := L.mate_in ⟨r, c, f⟩ y ⟨hr, hc'⟩ hy
    have : w = w' := N.inj y.rank y.cell w w' hyin.1 hyin.2 (hw.trans hw'.symm)
    subst this
    rw [e, ← e']

theorem ExchangeRun.exchanged (L : Linked R.cfg mate) (X : Crossed R.cfg mate) (N : R.Nodes mate node)
    {psi : Nat → Psi K} {bound bound' : Nat → Bound K} (h : ExchangeRun R psi bound bound') :
    Exchanged R mate node psi bound bound' := by
  obtain ⟨n, s, h1, h2, rfl⟩ := h
  exact exchange_correct L X N h1 h2

theorem Exchanged.consistent {psi : Nat → Psi K} {bound bound' : Nat → Bound K}
    (h : Exchanged R mate node psi bound bound') : Consistent R mate node psi bound' := h.value

theorem Consistent.congr (L : Linked R.cfg mate) {psi psi' : Nat → Psi K} {bound : Nat → Bound K}
    (h : Consistent R mate node psi bound) (hs : SameFlux R psi psi') :
    Consistent R mate node psi' bound := by
  intro x y a g v h1 h2 h3 h4 h5 h6 h7
  obtain ⟨w, hw, e⟩ := h x y a g v h1 h2 h3 h4 h5 h6 h7
  have hyin := L.mate_in x y h1 h2
  exact ⟨w, hw, e.trans (hs _ _ _ _ _ hyin.1 hyin.2 h4 h6)⟩

/-- One iteration makes exact every cell whose chains cross at most one more partition face. -/
theorem iterate_exact (H : R.Physical) (L : Linked R.cfg mate) (N : R.Nodes mate node)
    (hd : R.doComm = true) (A : Acyclic R.cfg mate) {src star psi : Nat → Psi K}
    {bound : Nat → Bound K} (hstar : FullDG R mate node src star)
    (hloc : LocalDG R mate node src bound psi) (i : Nat) (psi0 : Nat → Psi K)
    (hcons : 0 < i → Consistent R mate node psi0 bound)
    (hprev : 0 < i → ∀ r c a g v, r < R.nRanks → c < R.nCells r → a < R.nAngles → g < R.nGroups →
      (∀ k, Crossings R mate a r c k → k < i) → psi0 r g v a c = star r g v a c)
    {r c a g : Nat} (hr : r < R.nRanks) (hc : c < R.nCells r) (ha : a < R.nAngles)
    (hg : g < R.nGroups) (hk : ∀ k, Crossings R mate a r c k → k < i + 1) (v : Fin 4) :
    psi r g v a c = star r g v a c := by
  have key := upwind_induction L A hd ha (P := fun r c =>
    (∀ k, Crossings R mate a r c k → k < i + 1) → ∀ v, psi r g v a c = star r g v a c) (by
    intro r c hr hc ih hk
    obtain ⟨inc, hinc, hdg⟩ := hloc r c a g hr hc ha hg
    obtain ⟨inc', hinc', hdg'⟩ := hstar r c a g hr hc ha hg
    refine congrFun (cell_agree H hr hc ha hdg hdg' ?_)
    intro f v hv hneg
    obtain ⟨h1, h2, h3⟩ := hinc f v hv hneg
    obtain ⟨h1', h3'⟩ := hinc' f v hv hneg
    have hin := incoming_of_neg H hr hc hneg
    rcases hm : mate ⟨r, c, f⟩ with _ | y
    · rw [h3 hm, h3' hm]
    · have hyin := L.mate_in ⟨r, c, f⟩ y ⟨hr, hc⟩ hm
      obtain ⟨w', hw', e'⟩ := h1' y hm
      by_cases hyr : y.rank = r
      · obtain ⟨w, hw, e⟩ := h1 y hm hyr
        rw [← hyr] at hw
        have hw2 : node y.rank y.cell w = node y.rank y.cell w' := by
          rw [hw, hw', hyr]
        have : w = w' := N.inj y.rank y.cell w w' hyin.1 hyin.2 hw2
        subst this
        rw [e, e']
        have := ih f y hm hin (fun k hk' => hk k (.near hm hin hyr hk')) w
        rw [hyr] at this ⊢
        exact this
      · have hi : 0 < i := by
          have := hk 1 (.far hm hin hyr (.nil _ _)); omega
        obtain ⟨w, hw, e⟩ := hcons hi ⟨r, c, f⟩ y a g v ⟨hr, hc⟩ hm hyr ha hin hg hv
        have : w = w' := N.inj y.rank y.cell w w' hyin.1 hyin.2 (hw.trans hw'.symm)
        subst this
        rw [h2 y hm hyr, e', e]
        exact hprev hi y.rank y.cell a g w hyin.1 hyin.2 ha hg
          (fun k hk' => by have := hk (k + 1) (.far hm hin hyr hk'); omega))
  exact key r c hr hc hk v

theorem PBJLoop.exact (H : R.Physical) (L : Linked R.cfg mate) (X : Crossed R.cfg mate)
    (N : R.Nodes mate node) (hd : R.doComm = true) (A : Acyclic R.cfg mate) {src star : Nat → Psi K}
    (hstar : FullDG R mate node src star) {tol : K} {M iter : Nat} {psi prev : Nat → Psi K}
    {bound : Nat → Bound K} {sweeps : List (Nat → Psi K)} {psiEnd : Nat → Psi K}
    {boundEnd : Nat → Bound K} (h : PBJLoop R src tol M iter psi prev bound sweeps psiEnd boundEnd)
    (j : Nat) (hcons : 0 < j → Consistent R mate node psi bound)
    (hprev : 0 < j → ∀ r c a g v, r < R.nRanks → c < R.nCells r → a < R.nAngles → g < R.nGroups →
      (∀ k, Crossings R mate a r c k → k < j) → psi r g v a c = star r g v a c) :
    ∀ i (hi : i < sweeps.length) r c a g v, r < R.nRanks → c < R.nCells r → a < R.nAngles →
      g < R.nGroups → (∀ k, Crossings R mate a r c k → k ≤ i + j) →
      sweeps[i] r g v a c = star r g v a c := by
  induction h generalizing j with
  | limit => intro i hi; simp at hi
  | conv h hs hc =>
    intro i hi r c a g v hr hc' ha hg hk
    have : i = 0 := by simpa using hi
    subst this
    exact iterate_exact H L N hd A hstar (local_sweep_solves H L N hs) j _ hcons hprev hr hc' ha hg
      (fun k hk' => by have := hk k hk'; omega) v
  | next h hs hc hx hl ih =>
    have h0 : ∀ r c a g v, r < R.nRanks → c < R.nCells r → a < R.nAngles → g < R.nGroups →
        (∀ k, Crossings R mate a r c k → k < j + 1) → _ = star r g v a c :=
      fun r c a g v hr hc' ha hg hk =>
        iterate_exact H L N hd A hstar (local_sweep_solves H L N hs) j _ hcons hprev hr hc' ha hg hk v
    intro i hi r c a g v hr hc' ha hg hk
    cases i with
    | zero => exact h0 r c a g v hr hc' ha hg fun k hk' => by have := hk k hk'; omega
    | succ i =>
      exact ih (j + 1) (fun _ => (hx.exchanged L X N).consistent) (fun _ => h0) i (by simpa using hi)
        r c a g v hr hc' ha hg fun k hk' => by have := hk k hk'; omega

/-- C42: from any initial flux and boundary data, sweep number `i + 1` gives the full solution in every
cell whose upwind chains cross at most `i` partition faces. -/
theorem pbj_exact_after (H : R.Physical) (L : Linked R.cfg mate) (X : Crossed R.cfg mate)
    (N : R.Nodes mate node) (hd : R.doComm = true) (A : Acyclic R.cfg mate) {src star : Nat → Psi K}
    (hstar : FullDG R mate node src star) {tol : K} {M : Nat} {psi : Nat → Psi K}
    {bound : Nat → Bound K} {sweeps : List (Nat → Psi K)} {psiEnd : Nat → Psi K}
    {boundEnd : Nat → Bound K} (h : PBJSweep R src tol M psi bound sweeps psiEnd boundEnd) :
    ∀ i (hi : i < sweeps.length) r c a g v, r < R.nRanks → c < R.nCells r → a < R.nAngles →
      g < R.nGroups → (∀ k, Crossings R mate a r c k → k ≤ i) →
      sweeps[i] r g v a c = star r g v a c :=
  PBJLoop.exact H L X N hd A hstar h 0 (fun h => absurd h (lt_irrefl _))
    (fun h => absurd h (lt_irrefl _))

theorem sameFlux_converged {tol : K} (ht : 0 < tol) {prev psi : Nat → Psi K} (h : SameFlux R prev psi)
    (hne : gsum R (fun r g v a c => |psi r g v a c|) ≠ 0) : Converged R tol prev psi := by
  refine ⟨hne, ?_⟩
  have : gsum R (fun r g v a c => |prev r g v a c - psi r g v a c|) = 0 := by
    unfold gsum
    refine Finset.sum_eq_zero fun r hr => Finset.sum_eq_zero fun c hc => Finset.sum_eq_zero fun a ha =>
      Finset.sum_eq_zero fun v _ => Finset.sum_eq_zero fun g hg => ?_
    show |prev r g v a c - psi r g v a c| = 0
    rw [h r c a g v (Finset.mem_range.1 hr) (Finset.mem_range.1 hc) (Finset.mem_range.1 ha)
      (Finset.mem_range.1 hg)]
    simp
  rw [this, zero_div]
  exact ht

theorem gsum_congr {p q : Nat → Psi K} (h : SameFlux R p q) :
    gsum R (fun r g v a c => |p r g v a c|) = gsum R (fun r g v a c => |q r g v a c|) := by
  unfold gsum
  refine Finset.sum_congr rfl fun r hr => Finset.sum_congr rfl fun c hc => Finset.sum_congr rfl
    fun a ha => Finset.sum_congr rfl fun v _ => Finset.sum_congr rfl fun g hg => ?_
  show |p r g v a c| = |q r g v a c|
  rw [h r c a g v (Finset.mem_range.1 hr) (Finset.mem_range.1 hc) (Finset.mem_range.1 ha)
    (Finset.mem_range.1 hg)]

/-- The flux left behind is that of the last sweep. -/
theorem PBJLoop.last {src : Nat → Psi K} {tol : K} {M iter : Nat} {psi prev : Nat → Psi K}
    {bound : Nat → Bound K} {sweeps : List (Nat → Psi K)} {psiEnd : Nat → Psi K}
    {boundEnd : Nat → Bound K} (h : PBJLoop R src tol M iter psi prev bound sweeps psiEnd boundEnd) :
    psiEnd = sweeps.getLastD psi := by
  induction h with
  | limit => rfl
  | conv => rfl
  | @next _ _ _ _ psi' _ rest _ _ _ _ _ _ _ ih =>
    rw [ih]
    cases rest with
    | nil => rfl
    | cons p ps => rfl

/-- The sweeps end at the first agreement. -/
theorem PBJLoop.stops {src : Nat → Psi K} {tol : K} {M iter : Nat} {psi prev : Nat → Psi K}
    {bound : Nat → Bound K} {sweeps : List (Nat → Psi K)} {psiEnd : Nat → Psi K}
    {boundEnd : Nat → Bound K} (h : PBJLoop R src tol M iter psi prev bound sweeps psiEnd boundEnd)
    (i : Nat) (hi : i + 1 < sweeps.length) (hc : Converged R tol sweeps[i] sweeps[i + 1]) :
    i + 2 = sweeps.length := by
  induction h generalizing i with
  | limit => simp at hi
  | conv => simp at hi
  | @next _ _ _ _ psi' bound' rest _ _ h hs hn hx hl ih =>
    cases i with
    | succ i =>
      have := ih i (by simpa using hi) (by simpa using hc)
      simp only [List.length_cons]; omega
    | zero =>
      cases hl with
      | limit => simp at hi
      | conv => rfl
      | next _ _ hn' _ _ => exact absurd hc hn'

/-- C42: if no chain crosses more than `k` partition faces, the result of a run of more than `k`
sweeps is the full solution; and with a positive tolerance and a nonzero solution at most `k + 2` sweeps are
made, whatever the limit. -/
theorem pbj_finite (H : R.Physical) (L : Linked R.cfg mate) (X : Crossed R.cfg mate)
    (N : R.Nodes mate node) (hd : R.doComm = true) (A : Acyclic R.cfg mate) {src star : Nat → Psi K}
    (hstar : FullDG R mate node src star) {tol : K} {M : Nat} {psi : Nat → Psi K}
    {bound : Nat → Bound K} {sweeps : List (Nat → Psi K)} {psiEnd : Nat → Psi K}
    {boundEnd : Nat → Bound K} (h : PBJSweep R src tol M psi bound sweeps psiEnd boundEnd) {k : Nat}
    (hk : ∀ r c a n, r < R.nRanks → c < R.nCells r → a < R.nAngles → Crossings R mate a r c n → n ≤ k) :
    (k < sweeps.length → SameFlux R psiEnd star) ∧
    (0 < tol → gsum R (fun r g v a c => |star r g v a c|) ≠ 0 → sweeps.length ≤ k + 2) := by
  have hex : ∀ i (hi : i < sweeps.length), k ≤ i → SameFlux R sweeps[i] star :=
    fun i hi hki r c a g v hr hc ha hg => pbj_exact_after H L X N hd A hstar h i hi r c a g v hr hc ha
      hg fun n hn => (hk r c a n hr hc ha hn).trans hki
  refine ⟨fun hl => ?_, fun ht hne => ?_⟩
  · have hlast := PBJLoop.last h
    have : psiEnd = sweeps[sweeps.length - 1] := by
      rw [hlast, List.getLastD_eq_getLast?, List.getLast?_eq_getElem?]
      rw [List.getElem?_eq_getElem (by omega)]
      rfl
    rw [this]
    exact hex _ _ (by omega)
  · by_contra hgt
    push Not at hgt
    have h1 := hex k (by omega) le_rfl
    have h2 := hex (k + 1) (by omega) (by omega)
    have hs : SameFlux R sweeps[k] sweeps[k + 1] := fun r c a g v hr hc ha hg =>
      (h1 r c a g v hr hc ha hg).trans (h2 r c a g v hr hc ha hg).symm
    have := PBJLoop.stops h k (by omega) (sameFlux_converged ht hs (by rw [gsum_congr h2]; exact hne))
    omega

/-- C42: whenever two successive sweeps give the same flux, it is the full solution. -/
theorem PBJLoop.stationary (H : R.Physical) (L : Linked R.cfg mate) (X : Crossed R.cfg mate)
    (N : R.Nodes mate node) {src : Nat → Psi K} {tol : K} {M iter : Nat} {psi prev : Nat → Psi K}
    {bound : Nat → Bound K} {sweeps : List (Nat → Psi K)} {psiEnd : Nat → Psi K}
    {boundEnd : Nat → Bound K} (h : PBJLoop R src tol M iter psi prev bound sweeps psiEnd boundEnd)
    (i : Nat) (hi : i + 1 < sweeps.length) (hs : SameFlux R sweeps[i] sweeps[i + 1]) :
    FullDG R mate node src sweeps[i + 1] := by
  induction h generalizing i with
  | limit => simp at hi
  | conv => simp at hi
  | @next _ _ _ _ psi' bound' rest _ _ h hsw hn hx hl ih =>
    cases i with
    | succ i => exact ih i (by simpa using hi) (by simpa using hs)
    | zero =>
      have key : ∀ p, LocalSwept R src psi' bound' p → SameFlux R psi' p → FullDG R mate node src p :=
        fun p hp hsp => consistent_is_full H (local_sweep_solves H L N hp)
          ((hx.exchanged L X N).consistent.congr L hsp)
      cases hl with
      | limit => simp at hi
      | conv _ hp _ => exact key _ hp (by simpa using hs)
      | next _ hp _ _ _ => exact key _ hp (by simpa using hs)

theorem pbj_stationary (H : R.Physical) (L : Linked R.cfg mate) (X : Crossed R.cfg mate)
    (N : R.Nodes mate node) {src : Nat → Psi K} {tol : K} {M : Nat} {psi : Nat → Psi K}
    {bound : Nat → Bound K} {sweeps : List (Nat → Psi K)} {psiEnd : Nat → Psi K}
    {boundEnd : Nat → Bound K} (h : PBJSweep R src tol M psi bound sweeps psiEnd boundEnd)
    (i : Nat) (hi : i + 1 < sweeps.length) (hs : SameFlux R sweeps[i] sweeps[i + 1]) :
    FullDG R mate node src sweeps[i + 1] := PBJLoop.stationary H L X N h i hi hs

theorem exchange_run_exists (L : Linked R.cfg mate) (X : Crossed R.cfg mate) (psi : Nat → Psi K)
    (bound : Nat → Bound K) : ∃ bound', ExchangeRun R psi bound bound' := by
  obtain ⟨n, s, h1, h2⟩ := exchange_finishes L X psi bound
  exact ⟨_, n, s, h1, h2, rfl⟩

/-- C42: block Jacobi always returns. -/
theorem pbj_returns (H : R.Physical) (L : Linked R.cfg mate) (X : Crossed R.cfg mate)
    (hd : R.doComm = true) (A : Acyclic R.cfg mate) (src : Nat → Psi K) (tol : K) (M : Nat)
    (psi : Nat → Psi K) (bound : Nat → Bound K) :
    ∃ sweeps psiEnd boundEnd, PBJSweep R src tol M psi bound sweeps psiEnd boundEnd := by
  have key : ∀ m iter psi prev bound, M ≤ iter + m →
      ∃ sweeps psiEnd boundEnd, PBJLoop R src tol M iter psi prev bound sweeps psiEnd boundEnd := by
    intro m
    induction m with
    | zero => intro iter psi prev bound h; exact ⟨_, _, _, .limit (by omega)⟩
    | succ m ih =>
      intro iter psi prev bound h
      by_cases hlt : iter < M
      · obtain ⟨psi', hs⟩ := local_sweep_exists H L hd X A src psi bound
        by_cases hc : Converged R tol prev psi'
        · exact ⟨_, _, _, .conv hlt hs hc⟩
        · obtain ⟨bound', hx⟩ := exchange_run_exists L X psi' bound
          obtain ⟨sw, p, b, hl⟩ := ih (iter + 1) psi' psi' bound' (by omega)
          exact ⟨_, _, _, .next hlt hs hc hx hl⟩
      · exact ⟨_, _, _, .limit hlt⟩
  exact key M 1 psi psi bound (by omega)

end

end Verif.Domain
