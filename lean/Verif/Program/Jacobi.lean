import Verif.Program.Decomposed
import Verif.Source.Jacobi

/-!
# The number of iterations of PBJSI and PBJOuter in a run of the whole program (C82)

Both send the values on the seams between the parts of the mesh once per iteration, so one iteration lags behind by a
sweep. That they come within their tolerance all the same, after a number of iterations that does not depend on the
partition, is shown here.
-/
set_option linter.unusedSectionVars false
set_option linter.unusedVariables false
namespace Verif.Program

open Verif.MeshFile Verif.TychoMesh Verif.Geometry Verif.Program.Spec
open Verif.Traverse (Psi SweepRun Bound)
open Verif.Input (Str Settings readInput SweepType)
open Verif.Source
open Verif.Domain (FullDG Thick psiBoundSize Converged gsum)

/-! ### Model -/

/-- `SweeperPBJSI::solve` (src/SweeperPBJ.cc:225-284) with any end, after `n` iterations (one printed line each,
src/SweeperPBJ.cc:271-273). -/
def RunsSI (n : Nat) (s : Settings ℝ) (M : Mode) (deck : Deck) (T : Nat → Mesh) (D : Nat → RankData) (_ : Nat)
    (psi : Nat → Psi ℝ) : Prop :=
  s.sweepType = .pbjsi ∧ ∃ its, SIPBJLoop (M.run deck T D) (scatOf deck D) (M.run deck T D).source s.ddErrMax s.ddIterMax 1
    (fun _ _ _ _ _ => 0) (fun _ _ _ _ => 0) (fun _ _ _ _ _ => 0) its psi ∧ its.length = n

/-- `SweeperPBJOuter::solve` (src/SweeperPBJ.cc:83-158) with any end, after `n` iterations; the problems on the parts are
solved exactly. -/
def RunsOuter (n : Nat) (s : Settings ℝ) (M : Mode) (deck : Deck) (T : Nat → Mesh) (D : Nat → RankData) (_ : Nat)
    (psi : Nat → Psi ℝ) : Prop :=
  s.sweepType = .pbjOuter ∧ ∃ its, OuterLoop (M.run deck T D) (scatOf deck D) (M.run deck T D).source s.ddErrMax s.ddIterMax 1
    (fun _ _ _ _ _ => 0) (fun _ _ _ _ _ => 0) (fun _ _ _ _ _ => 0) its psi ∧ its.length = n

/-- The same, and the last two iterates pass the test of the loop. -/
def EndsOuter (n : Nat) (s : Settings ℝ) (M : Mode) (deck : Deck) (T : Nat → Mesh) (D : Nat → RankData) (_ : Nat)
    (psi : Nat → Psi ℝ) : Prop :=
  s.sweepType = .pbjOuter ∧ ∃ its, OuterLoop (M.run deck T D) (scatOf deck D) (M.run deck T D).source s.ddErrMax s.ddIterMax 1
    (fun _ _ _ _ _ => 0) (fun _ _ _ _ _ => 0) (fun _ _ _ _ _ => 0) its psi ∧ its.length = n ∧ its.getLast? = some psi ∧
    Converged (M.run deck T D) s.ddErrMax (its.dropLast.getLastD fun _ _ _ _ _ => 0) psi

/-! ### Statements -/

/-- Sum of the absolute values of a flux on the serial mesh. -/
noncomputable def Spec.entrySum (deck : Deck) (m : SerialMesh) (psi : Psi ℝ) : ℝ :=
  ∑ c ∈ Finset.range m.numCells, ∑ a ∈ Finset.range deck.dirs.length, ∑ v, ∑ g ∈ Finset.range deck.nGroups, |psi g v a c|

/-- `k + 1` iterations of PBJSI are enough for the tolerance `tol`, where `psi` is the solution. -/
def Spec.EnoughSI (deck : Deck) (m : SerialMesh) (κ b B α tol : ℝ) (psi : Psi ℝ) (k : Nat) : Prop :=
  10 * (m.numCells * 4 * deck.nGroups) * (1 + tol) ^ 2 * ((7 * α + 1) * B) * (weights deck * entrySum deck m psi) ^ 2 <
    (k + 1) * ((1 - κ) * (b * (tol * scalarSum deck m psi) ^ 2))

/-- `k + 1` iterations of PBJOuter are enough; `w` is the smallest weight of a direction. -/
def Spec.EnoughOuter (deck : Deck) (m : SerialMesh) (κ b B α w tol : ℝ) (k : Nat) : Prop :=
  10 * (m.numCells * deck.dirs.length * 4 * deck.nGroups) * (1 + tol) ^ 2 * ((7 * α + 1) * B * weights deck) <
    (k + 1) * ((1 - κ) * (b * w * tol ^ 2))

/-! ### Proofs -/

variable {W : World} {C C' : Machine} {val : Nat → ℝ} {deck : Deck} {m : SerialMesh} {M M' : Mode} {P P' : ParallelMesh}
  {T T' : Nat → Mesh} {D D' : Nat → RankData} {p : Problem ℝ} {sS : Nat → ℝ} {κ b B α w tol : ℝ} {file g g' : List UInt8}
  {n n' k : Nat} {s s' : Settings ℝ} {args args' : List Str} {mesh input mesh' input' : Str} {rest rest' : List Str}

/-- What a run computes with may also be seen as the outcome of another description of its solver. -/
theorem ran_recast {Solve : Settings ℝ → Mode → Deck → (Nat → Mesh) → (Nat → RankData) → Nat → (Nat → Psi ℝ) → Prop}
    (G : Good W.val file m deck p sS κ) (hs : readInput W.stod W.texts .original input = .ok s)
    (hd : Asks s deck) (hg : W.files mesh = some g) (hP : Partitioned W.val file C.n g) (hn : C.n ≤ 2 ^ 30)
    (hth : 0 < C.threads) {e : Option ℝ} {out : Option (Str × Verif.PsiFile.File)}
    (hr : RanWith Solve W C (mesh :: input :: rest) (.finished e out)) :
    ∃ pv P T D psi, Ready W.val deck m { modeOf s C with pv := pv } P T D ∧ Solve s (modeOf s C) deck T D m.numCells psi ∧
      ∀ Solve' : Settings ℝ → Mode → Deck → (Nat → Mesh) → (Nat → RankData) → Nat → (Nat → Psi ℝ) → Prop,
        Solve' s (modeOf s C) deck T D m.numCells psi → RanWith Solve' W C (mesh :: input :: rest) (.finished e out) := by
  cases hr with
  | @finish _ _ _ s' deck' g' T D psi _ args_ read quad hfile opened solve write =>
    have args_' := args_
    simp only [List.cons.injEq] at args_
    obtain ⟨rfl, rfl, rfl⟩ := args_
    have read' := read
    rw [hs, Except.ok.injEq] at read
    subst read
    have quad' := quad
    rw [(deckOf_asks _ _).2 hd, Option.some.injEq] at quad
    subst quad
    have hfile' := hfile
    rw [hg, Option.some.injEq] at hfile
    subst hfile
    obtain ⟨pv, P, h, -⟩ := error_read (M := modeOf s C) G hP hn opened hth rfl
    have hk : ∑ r ∈ Finset.range C.n, (T r).nCells = m.numCells := sum_nCells h
    refine ⟨pv, P, T, D, psi, h, hk ▸ solve, fun Solve' h' => ?_⟩
    exact .finish rfl hs quad' hg opened (by rw [hk]; exact h') write

theorem entries_serial' (h : Ready val deck m M P T D) :
    gsum (M.run deck T D) (fun _ _ _ _ _ => (1 : ℝ)) = m.numCells * deck.dirs.length * 4 * deck.nGroups := by
  have e : (M.run deck T D).nAngles = deck.dirs.length := by
    show deck.omega.length = _
    unfold Deck.omega
    rw [List.length_map]
  have := sum_cells h.created h.loaded
    (fun _ _ => ∑ _ ∈ Finset.range deck.dirs.length, ∑ _ : Fin 4, ∑ _ ∈ Finset.range deck.nGroups, (1 : ℝ))
    (fun _ => ∑ _ ∈ Finset.range deck.dirs.length, ∑ _ : Fin 4, ∑ _ ∈ Finset.range deck.nGroups, (1 : ℝ)) fun _ _ _ _ => rfl
  unfold gsum
  rw [e]
  refine Eq.trans this ?_
  simp only [Finset.sum_const, Finset.card_range, Finset.card_univ, Fintype.card_fin, nsmul_eq_mul, mul_one]
  push_cast
  ring

theorem fluxNorm_serial (h : Ready val deck m M P T D) {psi : Nat → Psi ℝ} {psiG : Psi ℝ}
    (hp : ∀ r < M.n, ∀ i c, (T r).getLGCell i = some c → ∀ g v a, psi r g v a i = psiG g v a c) :
    fluxNorm (M.run deck T D) psi = entrySum deck m psiG := by
  have e : (M.run deck T D).nAngles = deck.dirs.length := by
    show deck.omega.length = _
    unfold Deck.omega
    rw [List.length_map]
  unfold fluxNorm gsum entrySum
  rw [e]
  refine sum_cells h.created h.loaded _ _ fun r i c hi => ?_
  obtain ⟨h1, h2, -, -⟩ := isCell_lg h.created h.loaded hi
  simp only [hp r h2 i c h1]
  rfl

theorem entrySum_congr {psi psi' : Psi ℝ}
    (h : ∀ c < m.numCells, ∀ a < deck.dirs.length, ∀ g < deck.nGroups, ∀ v, psi g v a c = psi' g v a c) :
    entrySum deck m psi = entrySum deck m psi' := by
  unfold entrySum
  refine Finset.sum_congr rfl fun c hc => Finset.sum_congr rfl fun a ha => Finset.sum_congr rfl fun v _ =>
    Finset.sum_congr rfl fun g hg => ?_
  rw [h c (Finset.mem_range.1 hc) a (Finset.mem_range.1 ha) g (Finset.mem_range.1 hg) v]

theorem scalarSum_congr {psi psi' : Psi ℝ}
    (h : ∀ c < m.numCells, ∀ a < deck.dirs.length, ∀ g < deck.nGroups, ∀ v, psi g v a c = psi' g v a c) :
    scalarSum deck m psi = scalarSum deck m psi' := by
  unfold scalarSum
  refine Finset.sum_congr rfl fun c hc => Finset.sum_congr rfl fun v _ => Finset.sum_congr rfl fun g hg => congrArg _ ?_
  refine Finset.sum_congr rfl fun a ha => ?_
  rw [h c (Finset.mem_range.1 hc) a (Finset.mem_range.1 ha) g (Finset.mem_range.1 hg) v]

theorem inflow_nonneg (Ds : Describes val deck m p sS) (hκ : Subcritical deck κ) (h0 : 0 < m.numCells) (Bt : Between p m b B)
    (hα : Inflow p m α) : 0 ≤ α := by
  have hpos := Bt.pos.trans_le (Bt.low 0 h0)
  have hang : 0 < p.nAngles := by rw [Ds.angles]; exact List.length_pos_iff.2 hκ.some
  have h5 : 0 ≤ α * (p.sigmaT 0 * p.volume 0) := (Finset.sum_nonneg fun f _ => le_max_left _ _).trans (hα 0 h0 0 hang)
  exact nonneg_of_mul_nonneg_left h5 hpos

section
variable (h : Ready val deck m M P T D) (F : Fits val m) (hs : Sensible val deck m) (Ds : Describes val deck m p sS)
  (hac : p.Acyclic m) (htr : p.Transversal m) (hκ : Subcritical deck κ) (hκ1 : κ < 1) (h0 : 0 < m.numCells) (Bt : Between p m b B)
  (hα : Inflow p m α) (ht : 0 < tol) {psiS : Psi ℝ} (hS : p.Scatter m (scattering deck sS) psiS)
include h F hs Ds hac htr hκ hκ1 h0 Bt hα ht hS

theorem ready_si (hpos : 0 < scalarSum deck m psiS) (hk : EnoughSI deck m κ b B α tol psiS k) {iterMax : Nat} (hM : k + 1 < iterMax)
    {its : List (Nat → Psi ℝ)} {psi : Nat → Psi ℝ}
    (hl : SIPBJLoop (M.run deck T D) (scatOf deck D) (M.run deck T D).source tol iterMax 1
      (fun _ _ _ _ _ => 0) (fun _ _ _ _ => 0) (fun _ _ _ _ _ => 0) its psi) :
    (∃ η δ, SIStops (M.run deck T D) (scatOf deck D) (M.run deck T D).source tol iterMax 1
      (fun _ _ _ _ _ => 0) (fun _ _ _ _ => 0) (fun _ _ _ _ _ => 0) psi η δ) ∧ its.length ≤ k + 1 := by
  obtain ⟨S, d1, d2, star, h3, h4, -⟩ := near_serial h F hs Ds hac htr hκ hκ1 Bt
  have hph := describes_physical h.created.tets F hs Ds
  have hR := h.runOf F hs Ds
  have hPh := run_physical h.created h.loaded hph hR
  have hL := run_linked h.created h.ranks h.loaded hph hR
  have hN := run_nodes h.created h.loaded hR
  have hX := run_crossed h.created h.loaded hph hR htr
  have hMa := run_matched h.created h.loaded hph (describes_matched h.created.tets F hs Ds) hR htr
  have hr := run_ratio h.created h.loaded hR (h.scatOf F hs Ds) (describes_ratio h.created.tets Ds hκ)
  have hB := between_nonneg Bt h0
  have hW : ∑ a ∈ Finset.range (M.run deck T D).nAngles, (scatOf deck D).wt a = weights deck := by
    rw [hR.angles.trans Ds.angles]; exact weight_sum deck sS
  have hSS := d2 psiS hS
  rw [Ds.angles, Ds.groups] at hSS
  have e1 : norm1 (M.run deck T D) (scal (M.run deck T D) (scatOf deck D) star) = scalarSum deck m psiS := by
    rw [norm1_fluxSum, fluxSum_serial h h4, scalarSum_congr hSS]
  have e2 : fluxNorm (M.run deck T D) star = entrySum deck m psiS := by
    rw [fluxNorm_serial h h4, entrySum_congr hSS]
  refine sipbj_stops hPh hL hX hN hMa hr hκ1 (between_weighted h F hs Ds Bt hB) Bt.pos hB
    (inflow_nonneg Ds hκ h0 Bt hα) (inflow_thick h F hs Ds hα) h3 (by rw [e1]; exact hpos) ht hM ?_ hl
  rw [entries_serial h, hW, e1, e2]
  exact hk

theorem ready_outer (hpos : 0 < entrySum deck m psiS) (hw0 : 0 < w) (hw : ∀ d ∈ deck.dirs, w ≤ d.w)
    (hk : EnoughOuter deck m κ b B α w tol k) {iterMax : Nat} (hM : k + 1 < iterMax) :
    (∀ its psi, OuterLoop (M.run deck T D) (scatOf deck D) (M.run deck T D).source tol iterMax 1
      (fun _ _ _ _ _ => 0) (fun _ _ _ _ _ => 0) (fun _ _ _ _ _ => 0) its psi →
      its.length ≤ k + 1 ∧ its.getLast? = some psi ∧
      Converged (M.run deck T D) tol (its.dropLast.getLastD fun _ _ _ _ _ => 0) psi) ∧
    ∀ errMax srcMax, ∃ psi η, OuterStops (M.run deck T D) (scatOf deck D) false errMax srcMax (M.run deck T D).source tol iterMax 1
      (fun _ _ _ _ _ => 0) (fun _ _ _ _ _ => 0) (fun _ _ _ _ _ => 0) psi η 0 := by
  obtain ⟨S, d1, d2, star, h3, h4, -⟩ := near_serial h F hs Ds hac htr hκ hκ1 Bt
  have hph := describes_physical h.created.tets F hs Ds
  have hR := h.runOf F hs Ds
  have hPh := run_physical h.created h.loaded hph hR
  have hL := run_linked h.created h.ranks h.loaded hph hR
  have hN := run_nodes h.created h.loaded hR
  have hX := run_crossed h.created h.loaded hph hR htr
  have hA := run_acyclic h.created h.loaded hph hR hac htr
  have hMa := run_matched h.created h.loaded hph (describes_matched h.created.tets F hs Ds) hR htr
  have hr := run_ratio h.created h.loaded hR (h.scatOf F hs Ds) (describes_ratio h.created.tets Ds hκ)
  have hB := between_nonneg Bt h0
  have hang : (M.run deck T D).nAngles = deck.dirs.length := hR.angles.trans Ds.angles
  have hW : ∑ a ∈ Finset.range (M.run deck T D).nAngles, (scatOf deck D).wt a = weights deck := by
    rw [hang]; exact weight_sum deck sS
  have hSS := d2 psiS hS
  rw [Ds.angles, Ds.groups] at hSS
  have e2 : fluxNorm (M.run deck T D) star = entrySum deck m psiS := by
    rw [fluxNorm_serial h h4, entrySum_congr hSS]
  refine outer_stops hPh hL hX hN hMa hR.comm hA hr hκ1 (between_weighted h F hs Ds Bt hB) Bt.pos hB
    (inflow_nonneg Ds hκ h0 Bt hα) (inflow_thick h F hs Ds hα) hw0 ?_ h3 (by rw [e2]; exact hpos) ht hM ?_
  · intro a ha
    rw [hang] at ha
    show w ≤ ((deck.dirs[a]?).map fun d => d.w).getD 0
    rw [List.getElem?_eq_getElem ha]
    exact hw _ (List.getElem_mem ha)
  · rw [entries_serial' h, hW]
    exact hk

end

section
variable (G : Good W.val file m deck p sS κ) (hs : readInput W.stod W.texts .original input = .ok s)
  (hd : Asks s deck) (hg : W.files mesh = some g) (hP : Partitioned W.val file C.n g) (hn : C.n ≤ 2 ^ 30) (hth : 0 < C.threads)
include G hs hd hg hP hn hth

/-- C82: a run of the whole program with PBJSI makes at most `k + 1` iterations and then ends by its tolerance, so that
`main_apart` says how far its output is from the solution. -/
theorem main_si_reaches (h0 : 0 < m.numCells) (Bt : Between p m b B) (hα : Inflow p m α) (ht : 0 < s.ddErrMax) {psiS : Psi ℝ}
    (hS : p.Scatter m (scattering deck sS) psiS) (hpos : 0 < scalarSum deck m psiS)
    (hk : EnoughSI deck m κ b B α s.ddErrMax psiS k) (hM : k + 1 < s.ddIterMax) {e : Option ℝ}
    {out : Option (Str × Verif.PsiFile.File)} (hr : RanWith (RunsSI n) W C (mesh :: input :: rest) (.finished e out)) :
    n ≤ k + 1 ∧ ∀ Y, ∃ η δ, RanWith (StopsApart Y η δ) W C (mesh :: input :: rest) (.finished e out) := by
  obtain ⟨pv, P, T, D, psi, h, ⟨hst, its, hl, hlen⟩, hrec⟩ := ran_recast G hs hd hg hP hn hth hr
  obtain ⟨⟨η, δ, h1⟩, h2⟩ := ready_si (M := { modeOf s C with pv := pv }) h G.fits G.sensible G.describes G.acyclic G.transversal
    G.subcritical G.below h0 Bt hα ht hS hpos hk hM hl
  refine ⟨hlen ▸ h2, fun Y => ⟨η, δ, hrec _ ?_⟩⟩
  unfold StopsApart
  rw [hst]
  exact h1

/-- C82: and every such run does come to an end. -/
theorem main_si_ends (hst : s.sweepType = .pbjsi) (rest : List Str) :
    ∃ n e out, RanWith (RunsSI n) W C (mesh :: input :: rest) (.finished e out) := by
  obtain ⟨pv, P, T, D, h, hend⟩ := ran_exists (C := C) G hs hd hg hP hn hth rest
  have hph := describes_physical h.created.tets G.fits G.sensible G.describes
  have hR := h.runOf G.fits G.sensible G.describes
  have hL := run_linked h.created h.ranks h.loaded hph hR
  have hPh := run_physical h.created h.loaded hph hR
  have hX := run_crossed h.created h.loaded hph hR G.transversal
  have hA := run_acyclic h.created h.loaded hph hR G.acyclic G.transversal
  obtain ⟨its, psi, hl⟩ := sipbj_returns (X := scatOf deck D) hPh hL hX hR.comm hA
    (Mode.run { modeOf s C with pv := pv } deck T D).source s.ddErrMax s.ddIterMax 1 (fun _ _ _ _ _ => 0) (fun _ _ _ _ => 0)
    (fun _ _ _ _ _ => 0)
  exact ⟨its.length, hend (RunsSI its.length) psi ⟨hst, its, hl, rfl⟩⟩

/-- C82: a run of the whole program with PBJOuter, the problems on the parts solved exactly, makes at most `k + 1`
iterations, and the last one passed the test. -/
theorem main_outer_reaches (h0 : 0 < m.numCells) (Bt : Between p m b B) (hα : Inflow p m α) (ht : 0 < s.ddErrMax) {psiS : Psi ℝ}
    (hS : p.Scatter m (scattering deck sS) psiS) (hpos : 0 < entrySum deck m psiS) (hw0 : 0 < w) (hw : ∀ d ∈ deck.dirs, w ≤ d.w)
    (hk : EnoughOuter deck m κ b B α w s.ddErrMax k) (hM : k + 1 < s.ddIterMax) {e : Option ℝ}
    {out : Option (Str × Verif.PsiFile.File)} (hr : RanWith (RunsOuter n) W C (mesh :: input :: rest) (.finished e out)) :
    n ≤ k + 1 ∧ RanWith (EndsOuter n) W C (mesh :: input :: rest) (.finished e out) := by
  obtain ⟨pv, P, T, D, psi, h, ⟨hst, its, hl, hlen⟩, hrec⟩ := ran_recast G hs hd hg hP hn hth hr
  obtain ⟨h1, h2, h3⟩ := (ready_outer (M := { modeOf s C with pv := pv }) h G.fits G.sensible G.describes G.acyclic G.transversal
    G.subcritical G.below h0 Bt hα ht hS hpos hw0 hw hk hM).1 its psi hl
  exact ⟨hlen ▸ h1, hrec _ ⟨hst, its, hl, hlen, h2, h3⟩⟩

/-- C82: there are such runs, with the Krylov solver on the parts, that end by their tolerance. -/
theorem main_outer_ends (h0 : 0 < m.numCells) (Bt : Between p m b B) (hα : Inflow p m α) (ht : 0 < s.ddErrMax) {psiS : Psi ℝ}
    (hS : p.Scatter m (scattering deck sS) psiS) (hpos : 0 < entrySum deck m psiS) (hw0 : 0 < w) (hw : ∀ d ∈ deck.dirs, w ≤ d.w)
    (hk : EnoughOuter deck m κ b B α w s.ddErrMax k) (hM : k + 1 < s.ddIterMax) (hst : s.sweepType = .pbjOuter)
    (hsi : s.sourceIteration = false) (rest : List Str) :
    ∃ η e out, ∀ Y, RanWith (StopsApart Y η 0) W C (mesh :: input :: rest) (.finished e out) := by
  obtain ⟨pv, P, T, D, h, hend⟩ := ran_exists (C := C) G hs hd hg hP hn hth rest
  obtain ⟨psi, η, h1⟩ := (ready_outer (M := { modeOf s C with pv := pv }) h G.fits G.sensible G.describes G.acyclic G.transversal
    G.subcritical G.below h0 Bt hα ht hS hpos hw0 hw hk hM).2 s.errMax s.iterMax
  have key : ∀ Y, StopsApart Y η 0 s (modeOf s C) deck T D m.numCells psi := by
    intro Y
    unfold StopsApart
    rw [hst, hsi]
    exact h1
  obtain ⟨e, out, hr⟩ := hend (fun s M deck T D k psi => ∀ Y, StopsApart Y η 0 s M deck T D k psi) psi key
  obtain ⟨_, _, _, _, _, _, h2, hrec⟩ := ran_recast G hs hd hg hP hn hth hr
  exact ⟨η, e, out, fun Y => hrec _ (h2 Y)⟩

end

/-- C82: such a number exists, whatever the tolerance, unless the solution has no scalar flux. It depends only on the
problem. -/
theorem enoughSI_exists (hκ1 : κ < 1) (Bt : Between p m b B) (ht : 0 < tol) {psiS : Psi ℝ} (hpos : 0 < scalarSum deck m psiS) :
    ∃ k, EnoughSI deck m κ b B α tol psiS k := by
  have h1 : 0 < (1 - κ) * (b * (tol * scalarSum deck m psiS) ^ 2) :=
    mul_pos (by linarith) (mul_pos Bt.pos (pow_pos (mul_pos ht hpos) 2))
  obtain ⟨k, hk⟩ := exists_nat_gt (10 * (m.numCells * 4 * deck.nGroups) * (1 + tol) ^ 2 * ((7 * α + 1) * B) *
    (weights deck * entrySum deck m psiS) ^ 2 / ((1 - κ) * (b * (tol * scalarSum deck m psiS) ^ 2)))
  refine ⟨k, ?_⟩
  rw [div_lt_iff₀ h1] at hk
  unfold EnoughSI
  linarith

theorem enoughOuter_exists (hκ1 : κ < 1) (Bt : Between p m b B) (ht : 0 < tol) (hw0 : 0 < w) :
    ∃ k, EnoughOuter deck m κ b B α w tol k := by
  have h1 : 0 < (1 - κ) * (b * w * tol ^ 2) := mul_pos (by linarith) (mul_pos (mul_pos Bt.pos hw0) (pow_pos ht 2))
  obtain ⟨k, hk⟩ := exists_nat_gt (10 * (m.numCells * deck.dirs.length * 4 * deck.nGroups) * (1 + tol) ^ 2 *
    ((7 * α + 1) * B * weights deck) / ((1 - κ) * (b * w * tol ^ 2)))
  refine ⟨k, ?_⟩
  rw [div_lt_iff₀ h1] at hk
  unfold EnoughOuter
  linarith

/-- C82: one number of iterations for all machines, partitions and decks with the same problem and tolerance. -/
theorem main_si_bound (G : Good W.val file m deck p sS κ) (h0 : 0 < m.numCells) (Bt : Between p m b B) (ht : 0 < tol)
    {psiS : Psi ℝ} (hS : p.Scatter m (scattering deck sS) psiS) (hpos : 0 < scalarSum deck m psiS) :
    ∃ k, ∀ (C : Machine) (s : Settings ℝ) (mesh input : Str) (rest : List Str) (g : List UInt8) (n : Nat) (e : Option ℝ)
      (out : Option (Str × Verif.PsiFile.File)), readInput W.stod W.texts .original input = .ok s → Asks s deck →
      W.files mesh = some g → Partitioned W.val file C.n g → C.n ≤ 2 ^ 30 → 0 < C.threads → s.ddErrMax = tol → k < s.ddIterMax →
      RanWith (RunsSI n) W C (mesh :: input :: rest) (.finished e out) →
      n ≤ k ∧ ∀ Y, ∃ η δ, RanWith (StopsApart Y η δ) W C (mesh :: input :: rest) (.finished e out) := by
  obtain ⟨α, hα⟩ := inflow_exists Bt
  obtain ⟨k, hk⟩ := enoughSI_exists (α := α) G.below Bt ht hpos
  refine ⟨k + 1, fun C s mesh input rest g n e out hs hd hg hP hn hth htol hM hr => ?_⟩
  subst htol
  exact main_si_reaches G hs hd hg hP hn hth h0 Bt hα ht hS hpos hk hM hr

/-- C82: the same for PBJOuter. -/
theorem main_outer_bound (G : Good W.val file m deck p sS κ) (h0 : 0 < m.numCells) (Bt : Between p m b B) (ht : 0 < tol)
    {psiS : Psi ℝ} (hS : p.Scatter m (scattering deck sS) psiS) (hpos : 0 < entrySum deck m psiS) (hw : ∀ d ∈ deck.dirs, 0 < d.w) :
    ∃ k, ∀ (C : Machine) (s : Settings ℝ) (mesh input : Str) (rest : List Str) (g : List UInt8) (n : Nat) (e : Option ℝ)
      (out : Option (Str × Verif.PsiFile.File)), readInput W.stod W.texts .original input = .ok s → Asks s deck →
      W.files mesh = some g → Partitioned W.val file C.n g → C.n ≤ 2 ^ 30 → 0 < C.threads → s.ddErrMax = tol → k < s.ddIterMax →
      RanWith (RunsOuter n) W C (mesh :: input :: rest) (.finished e out) →
      n ≤ k ∧ RanWith (EndsOuter n) W C (mesh :: input :: rest) (.finished e out) := by
  obtain ⟨α, hα⟩ := inflow_exists Bt
  obtain ⟨w, hw0, hw⟩ : ∃ w > 0, ∀ d ∈ deck.dirs, w ≤ d.w := by
    generalize deck.dirs = l at hw
    induction l with
    | nil => exact ⟨1, one_pos, by simp⟩
    | cons d l ih =>
      obtain ⟨w, h1, h2⟩ := ih fun d' h' => hw d' (List.mem_cons_of_mem _ h')
      refine ⟨min w d.w, lt_min h1 (hw d (by simp)), fun d' h' => ?_⟩
      rcases List.mem_cons.1 h' with rfl | h'
      · exact min_le_right _ _
      · exact (min_le_left _ _).trans (h2 d' h')
  obtain ⟨k, hk⟩ := enoughOuter_exists (α := α) (deck := deck) G.below Bt ht hw0
  refine ⟨k + 1, fun C s mesh input rest g n e out hs hd hg hP hn hth htol hM hr => ?_⟩
  subst htol
  exact main_outer_reaches G hs hd hg hP hn hth h0 Bt hα ht hS hpos hw0 hw hk hM hr

end Verif.Program
