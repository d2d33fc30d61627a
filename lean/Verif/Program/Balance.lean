import Verif.Program.Stopping
import Verif.TychoMesh.Balance
import Mathlib.Algebra.Order.Chebyshev

/-!
# Particle balance of what a run writes (C83)

What leaves the mesh through its surface and what the material takes away is what the source gives, in every energy group:
exactly for runs that have converged, up to a stated amount for runs that stopped by their tolerance.
-/
set_option linter.unusedSectionVars false
set_option linter.unusedVariables false
namespace Verif.Program

open Verif.MeshFile Verif.TychoMesh Verif.Geometry Verif.Program.Spec
open Verif.Traverse (Psi SweepRun)
open Verif.Input (Str Settings readInput SweepType)
open Verif.Source
open Verif.Domain (FullDG)
open Verif.Schedule (Sweeping AwayFrom Variant)

/-! ### Statements -/

/-- What leaves through the surface of the mesh: over all directions with their weights, the integral of the flux times the
product of direction and outward normal over the faces without neighbor where that product is positive. -/
noncomputable def Spec.leakage (deck : Deck) (p : Problem ℝ) (m : SerialMesh) (psi : Psi ℝ) (g : Nat) : ℝ :=
  ∑ a ∈ Finset.range deck.dirs.length, ((deck.dirs[a]?).map fun d => d.w).getD 0 * p.leak m psi a g

/-- What the material takes away: the collisions less what is scattered into the directions of the quadrature. -/
noncomputable def Spec.removal (deck : Deck) (p : Problem ℝ) (sS : Nat → ℝ) (m : SerialMesh) (psi : Psi ℝ) (g : Nat) : ℝ :=
  p.integral m fun c v => (p.sigmaT c - weights deck * (sS c / (4 * Real.pi))) *
    ∑ a ∈ Finset.range deck.dirs.length, psi g v a c * ((deck.dirs[a]?).map fun d => d.w).getD 0

/-- What the source gives. -/
noncomputable def Spec.emission (deck : Deck) (p : Problem ℝ) (m : SerialMesh) (g : Nat) : ℝ :=
  ∑ a ∈ Finset.range deck.dirs.length, ((deck.dirs[a]?).map fun d => d.w).getD 0 * p.integral m fun c v => p.source g v a c

/-- How much may be missing, by what the solver printed. -/
noncomputable def Spec.imbalance (s : Settings ℝ) (deck : Deck) (m : SerialMesh) (κ B : ℝ) (psi : Psi ℝ) : Report → ℝ
  | .sweeps _ => κ * B / 4 * (s.errMax * scalarSum deck m psi)
  | .residual rho => κ * B / 4 * (√(4 * m.numCells) * rho)

/-! ### Proofs -/

variable {W : World} {C : Machine} {val : Nat → ℝ} {deck : Deck} {m : SerialMesh} {M : Mode} {P : ParallelMesh}
  {T : Nat → Mesh} {D : Nat → RankData} {p : Problem ℝ} {sS : Nat → ℝ} {κ b B : ℝ} {file g : List UInt8}
  {s : Settings ℝ} {mesh input : Str} {rest : List Str}

section
variable (h : Ready val deck m M P T D) (F : Fits val m) (hs : Sensible val deck m) (Ds : Describes val deck m p sS)
include h F hs Ds

/-- A flux that a sweep left, on the serial mesh. -/
theorem swept_serial {psi : Nat → Psi ℝ} {psiG : Psi ℝ} {old : Nat → Phi ℝ}
    (hp : ∀ r i c, IsCell P r i c → ∀ g v a, psi r g v a i = psiG g v a c)
    (hL : FullDG (M.run deck T D) (mateOf m P) (nodeOf m T) (scat (scatOf deck D) (M.run deck T D).source old) psi) :
    ∃ oldS : Nat → Fin 4 → Nat → ℝ, (∀ r i c, IsCell P r i c → ∀ g v, old r g v i = oldS g v c) ∧
      Problem.DG { p with source := fun g v a c => p.source g v a c + sS c / (4 * Real.pi) * oldS g v c } m psiG := by
  obtain ⟨oldP, hold⟩ := serial_flux h.created h.loaded fun r g v a i => old r g v i
  refine ⟨fun g v c => oldP g v 0 c, fun r i c hi g v => hold r i c hi g v 0, ?_⟩
  have hR := h.runOf F hs Ds
  have hX := h.scatOf F hs Ds
  refine (globalDG_iff (R := { M.run deck T D with source := scat (scatOf deck D) (M.run deck T D).source old })
    h.created h.loaded ?_ hp).1 hL
  obtain ⟨h1, h2, h3, h4, h5, h6, h7, h8, h9, h10, h11, h12, h13, h14, h15, h16, h17, h18, h19, h20, h21⟩ := hR
  constructor <;> first | assumption | skip
  case source =>
    intro r hr i c hc g hg v a ha
    show (M.run deck T D).source r g v a i + (scatOf deck D).sigmaS r i / (4 * (scatOf deck D).mPi) * old r g v i = _
    rw [hX.sigma r hr i c hc, hX.pi, h21 r hr i c hc g hg v a ha, hold r i c (lg_isCell h.created h.loaded hr hc) g v 0]
    rfl

variable (hκ : Subcritical deck κ)
include hκ

theorem swept_balance (h0 : 0 < m.numCells) (Bt : Between p m b B) {psi : Nat → Psi ℝ} {psiG : Psi ℝ} {old : Nat → Phi ℝ}
    (hp : ∀ r i c, IsCell P r i c → ∀ g v a, psi r g v a i = psiG g v a c)
    (hL : FullDG (M.run deck T D) (mateOf m P) (nodeOf m T) (scat (scatOf deck D) (M.run deck T D).source old) psi)
    {g : Nat} (hg : g < deck.nGroups) :
    |leakage deck p m psiG g + removal deck p sS m psiG g - emission deck p m g| ≤ κ * B / 4 *
      ∑ r ∈ Finset.range M.n, ∑ i ∈ Finset.range (T r).nCells, ∑ v,
        |subPhi (scal (M.run deck T D) (scatOf deck D) psi) old r g v i| := by
  obtain ⟨oldS, ho, hdg⟩ := swept_serial h F hs Ds hp hL
  have hph := describes_physical h.created.tets F hs Ds
  have hR := h.runOf F hs Ds
  have hX := h.scatOf F hs Ds
  have hratio := describes_ratio (κ := κ) h.created.tets Ds hκ
  have hbal := lagged_balance (Y := scattering deck sS) h.created.tets hph (describes_matched h.created.tets F hs Ds) hdg
    (g := g) (by rw [Ds.groups]; exact hg)
  have hws : ∑ a ∈ Finset.range p.nAngles, (scattering deck sS).wt a = weights deck := by rw [Ds.angles]; exact weight_sum deck sS
  rw [hws, Ds.angles] at hbal
  have hWs : ∀ c < m.numCells, 0 ≤ weights deck * (sS c / (4 * Real.pi)) ∧ weights deck * (sS c / (4 * Real.pi)) ≤ κ * p.sigmaT c := by
    intro c hc
    have k1 := hratio.ratio c hc
    rw [hws] at k1
    exact ⟨mul_nonneg (by rw [← hws]; exact hratio.total.le) (hratio.scatter c hc), k1⟩
  let φ : Fin 4 → Nat → ℝ := fun v c => ∑ a ∈ Finset.range deck.dirs.length, psiG g v a c * ((deck.dirs[a]?).map fun d => d.w).getD 0
  have e1 : removal deck p sS m psiG g + p.integral m (fun c v => weights deck * (sS c / (4 * Real.pi)) * φ v c) =
      p.integral m (fun c v => p.sigmaT c * φ v c) := by
    unfold removal
    rw [← integral_add]
    exact integral_congr fun c _ v => by show _ * φ v c + _ = _; ring
  have e2 : p.integral m (fun c v => weights deck * (sS c / (4 * Real.pi)) * oldS g v c) +
      p.integral m (fun c v => weights deck * (sS c / (4 * Real.pi)) * (φ v c - oldS g v c)) =
      p.integral m (fun c v => weights deck * (sS c / (4 * Real.pi)) * φ v c) := by
    rw [← integral_add]
    exact integral_congr fun c _ v => by ring
  have e3 : leakage deck p m psiG g + p.integral m (fun c v => p.sigmaT c * φ v c) = emission deck p m g +
      p.integral m (fun c v => weights deck * (sS c / (4 * Real.pi)) * oldS g v c) := hbal
  have e4 : leakage deck p m psiG g + removal deck p sS m psiG g - emission deck p m g =
      - p.integral m (fun c v => weights deck * (sS c / (4 * Real.pi)) * (φ v c - oldS g v c)) := by linarith
  have e5 : ∑ r ∈ Finset.range M.n, ∑ i ∈ Finset.range (T r).nCells, ∑ v,
      |subPhi (scal (M.run deck T D) (scatOf deck D) psi) old r g v i| = ∑ c ∈ Finset.range m.numCells, ∑ v, |φ v c - oldS g v c| := by
    refine sum_cells h.created h.loaded _ _ fun r i c hi => Finset.sum_congr rfl fun v _ => ?_
    unfold subPhi
    rw [scal_serial h.created h.loaded hR hX hp hi, Ds.angles, ho r i c hi]
    rfl
  rw [e4, e5, abs_neg]
  unfold Problem.integral
  refine (Finset.abs_sum_le_sum_abs _ _).trans ?_
  rw [Finset.mul_sum]
  refine Finset.sum_le_sum fun c hc => ?_
  have hc := Finset.mem_range.1 hc
  obtain ⟨k1, k2⟩ := hWs c hc
  have hV := (hph.volume c hc).le
  have k3 : |∑ v, weights deck * (sS c / (4 * Real.pi)) * (φ v c - oldS g v c)| ≤ κ * p.sigmaT c * ∑ v, |φ v c - oldS g v c| := by
    refine (Finset.abs_sum_le_sum_abs _ _).trans ?_
    rw [Finset.mul_sum]
    refine Finset.sum_le_sum fun v _ => ?_
    rw [abs_mul, abs_of_nonneg k1]
    exact mul_le_mul_of_nonneg_right k2 (abs_nonneg _)
  have k4 : 0 ≤ ∑ v, |φ v c - oldS g v c| := Finset.sum_nonneg fun _ _ => abs_nonneg _
  rw [abs_mul, abs_of_nonneg hV, abs_div, abs_of_pos (by norm_num : (0 : ℝ) < 4)]
  calc p.volume c * (|∑ v, weights deck * (sS c / (4 * Real.pi)) * (φ v c - oldS g v c)| / 4)
      ≤ p.volume c * (κ * p.sigmaT c * (∑ v, |φ v c - oldS g v c|) / 4) :=
        mul_le_mul_of_nonneg_left (div_le_div_of_nonneg_right k3 (by norm_num)) hV
    _ = p.sigmaT c * p.volume c * (κ / 4 * ∑ v, |φ v c - oldS g v c|) := by ring
    _ ≤ B * (κ / 4 * ∑ v, |φ v c - oldS g v c|) :=
        mul_le_mul_of_nonneg_right (Bt.high c hc) (mul_nonneg (div_nonneg hκ.nonneg (by norm_num)) k4)
    _ = _ := by ring

end

section
variable (G : Good W.val file m deck p sS κ) (hs : readInput W.stod W.texts .original input = .ok s)
  (hd : Asks s deck) (hg : W.files mesh = some g) (hP : Partitioned W.val file C.n g) (hn : C.n ≤ 2 ^ 30) (hth : 0 < C.threads)
  (hw : Scheduled s.sweepType → AwayFrom p m tolerance)
include G hs hd hg hP hn hth hw

/-- C83: error and file of a converged run, with any sweep type and partition, are those of a flux that neither loses nor
creates particles. -/
theorem main_balance {e : Option ℝ} {out : Option (Str × Verif.PsiFile.File)}
    (hr : Ran W C (mesh :: input :: rest) (.finished e out)) :
    ∃ psi : Psi ℝ, Shows W deck m psi e out ∧ ∀ gr < deck.nGroups,
      leakage deck p m psi gr + removal deck p sS m psi gr = emission deck p m gr := by
  obtain ⟨pv, P, T, D, psi, h, -⟩ := ran_flux G hs hd hg hP hn hth hr
  obtain ⟨psiS, h1, -, h3, h4⟩ := main_result G hs hd hg hP hn hth hw hr
  refine ⟨psiS, ⟨h3, h4⟩, fun gr hgr => ?_⟩
  have := scatter_balance h.created.tets (describes_physical h.created.tets G.fits G.sensible G.describes)
    (describes_matched h.created.tets G.fits G.sensible G.describes) h1 (g := gr) (by rw [G.describes.groups]; exact hgr)
  have hws : ∑ a ∈ Finset.range p.nAngles, (scattering deck sS).wt a = weights deck := by
    rw [G.describes.angles]; exact weight_sum deck sS
  rw [hws, G.describes.angles] at this
  exact this

/-- C83: of a run that ended by its tolerance, or with any printed residual, at most `imbalance` is missing. -/
theorem main_imbalance (h0 : 0 < m.numCells) (Bt : Between p m b B) {rep : Report} {e : Option ℝ}
    {out : Option (Str × Verif.PsiFile.File)} (hr : RanWith (StopsWith rep) W C (mesh :: input :: rest) (.finished e out))
    (hE : Ended s rep) :
    ∃ psi : Psi ℝ, Shows W deck m psi e out ∧ ∀ gr < deck.nGroups,
      |leakage deck p m psi gr + removal deck p sS m psi gr - emission deck p m gr| ≤ imbalance s deck m κ B psi rep := by
  obtain ⟨pv, P, T, D, psi, h, ⟨Z, hZ, hsolve⟩, k⟩ := ran_flux G hs hd hg hP hn hth hr
  have hZC := sweptBy_correct (s := s) h G.fits G.sensible G.describes G.acyclic G.transversal hw (Z := Z) hZ
  obtain ⟨psiG, hG⟩ := serial_flux h.created h.loaded psi
  have hG' : ∀ r < C.n, ∀ i c, (T r).getLGCell i = some c → ∀ g v a, psi r g v a i = psiG g v a c :=
    fun r hr i c hc => hG r i c (lg_isCell h.created h.loaded hr hc)
  refine ⟨psiG, k psiG hG', fun gr hgr => ?_⟩
  have hph := describes_physical h.created.tets G.fits G.sensible G.describes
  have hR := h.runOf G.fits G.sensible G.describes
  have hL := run_linked h.created h.ranks h.loaded hph hR
  have hN := run_nodes h.created h.loaded hR
  have hPh := run_physical h.created h.loaded hph hR
  have hA := run_acyclic h.created h.loaded hph hR G.acyclic G.transversal
  have hAf := full_affine hPh hL hN hR.comm hA
  have hB : 0 ≤ B := between_nonneg Bt h0
  have hc0 : 0 ≤ κ * B / 4 := div_nonneg (mul_nonneg G.subcritical.nonneg hB) (by norm_num)
  split at hsolve
  · obtain ⟨st, tr, st', n, rfl, hf⟩ := hsolve
    obtain ⟨tr1, old1, e1, hLs⟩ := fixedPoint_solves hZC hAf hf hE.2.1
    rcases fixedPoint_tolerance hf hE.2.2 with ⟨hz, -⟩ | ⟨tr', old, he, ht⟩
    · have := hE.2.1
      omega
    · rw [he] at e1
      have e2 : old = old1 := by simpa using (List.append_inj' e1 rfl).2
      subst e2
      refine (swept_balance (M := { modeOf s C with pv := pv }) h G.fits G.sensible G.describes G.subcritical h0 Bt hG hLs hgr).trans ?_
      refine mul_le_mul_of_nonneg_left ?_ hc0
      have h1 := relErr_le ht
      rw [norm1_fluxSum] at h1
      refine le_trans ?_ (h1.trans_eq (congrArg (s.errMax * ·) (fluxSum_serial (M := { modeOf s C with pv := pv }) h hG')))
      refine Finset.sum_le_sum fun r _ => Finset.sum_le_sum fun i _ => Finset.sum_le_sum fun v _ => ?_
      exact Finset.single_le_sum (f := fun g => |subPhi (scal (Mode.run { modeOf s C with pv := pv } deck T D) (scatOf deck D) psi) old r g v i|)
        (fun _ _ => abs_nonneg _) (Finset.mem_range.2 hgr)
  · obtain ⟨x, y, rhs, k1, k2, k3, rfl⟩ := hsolve
    have hres := krylov_residual hZC hAf k1 k2 k3
    obtain ⟨tot, stE, psiE, stE', hE1, hE2⟩ := k3
    have hLs := hAf.congr _ _ _ _ (hZC.plain _ _ _ _ _ hE2) hE1.same (sameFlux_refl _)
    refine (swept_balance (M := { modeOf s C with pv := pv }) h G.fits G.sensible G.describes G.subcritical h0 Bt hG hLs hgr).trans ?_
    refine mul_le_mul_of_nonneg_left ?_ hc0
    have hsum : ∀ f : Nat → Nat → Fin 4 → ℝ, ∑ r ∈ Finset.range C.n, ∑ i ∈ Finset.range (T r).nCells, ∑ v, f r i v =
        ∑ q ∈ ((Finset.range C.n).sigma fun r => Finset.range (T r).nCells).product Finset.univ, f q.1.1 q.1.2 q.2 := by
      intro f
      rw [Finset.product_eq_sprod, Finset.sum_product, Finset.sum_sigma]
    have hcard : ((((Finset.range C.n).sigma fun r => Finset.range (T r).nCells).product (Finset.univ : Finset (Fin 4))).card : ℝ) =
        4 * m.numCells := by
      have := hsum fun _ _ _ => (1 : ℝ)
      rw [Finset.sum_const (s := Finset.product _ _), nsmul_eq_mul, mul_one] at this
      rw [← this]
      simp only [Finset.sum_const, Finset.card_univ, Fintype.card_fin, nsmul_eq_mul, mul_one, Finset.card_range]
      rw [← Finset.sum_mul, ← Nat.cast_sum]
      have hk : ∑ r ∈ Finset.range C.n, (T r).nCells = m.numCells := sum_nCells h
      rw [hk]
      push_cast
      ring
    have hsq : ∑ r ∈ Finset.range C.n, ∑ i ∈ Finset.range (T r).nCells, ∑ v, |subPhi rhs y r gr v i| ^ 2 ≤
        ∑ r ∈ Finset.range C.n, ∑ i ∈ Finset.range (T r).nCells, ∑ v, ∑ g ∈ Finset.range deck.nGroups, subPhi rhs y r g v i ^ 2 := by
      refine Finset.sum_le_sum fun r _ => Finset.sum_le_sum fun i _ => Finset.sum_le_sum fun v _ => ?_
      rw [sq_abs]
      exact Finset.single_le_sum (f := fun g => subPhi rhs y r g v i ^ 2) (fun _ _ => sq_nonneg _) (Finset.mem_range.2 hgr)
    have hcs := sq_sum_le_card_mul_sum_sq (s := ((Finset.range C.n).sigma fun r => Finset.range (T r).nCells).product Finset.univ)
      (f := fun q : (Σ _ : Nat, Nat) × Fin 4 => |subPhi rhs y q.1.1 gr q.2 q.1.2|)
    rw [hcard, ← hsum fun r i v => |subPhi rhs y r gr v i|, ← hsum fun r i v => |subPhi rhs y r gr v i| ^ 2] at hcs
    have hcong : ∑ r ∈ Finset.range C.n, ∑ i ∈ Finset.range (T r).nCells, ∑ v,
        |subPhi (scal (Mode.run { modeOf s C with pv := pv } deck T D) (scatOf deck D) psi) x r gr v i| =
        ∑ r ∈ Finset.range C.n, ∑ i ∈ Finset.range (T r).nCells, ∑ v, |subPhi rhs y r gr v i| := by
      refine Finset.sum_congr rfl fun r hr => Finset.sum_congr rfl fun i hi => Finset.sum_congr rfl fun v _ => congrArg _ ?_
      exact hres r (Finset.mem_range.1 hr) gr v i hgr (Finset.mem_range.1 hi)
    show ∑ r ∈ Finset.range C.n, ∑ i ∈ Finset.range (T r).nCells, ∑ v,
        |subPhi (scal (Mode.run { modeOf s C with pv := pv } deck T D) (scatOf deck D) psi) x r gr v i| ≤ _
    rw [hcong]
    unfold norm2
    rw [← Real.sqrt_mul (by positivity)]
    exact Real.le_sqrt_of_sq_le (hcs.trans (mul_le_mul_of_nonneg_left hsq (by positivity)))

end

/-! ### Example -/

/-- The runs of `two_mains` and `two_stops` on two and three ranks meet the hypotheses; what they write balances. -/
example : ∃ (deck : Deck) (p : Problem ℝ) (sS : Nat → ℝ) (W : World) (e : Option ℝ) (f : Verif.PsiFile.File) (psi : Psi ℝ),
    Ran W (machine 3 4 false) ["three.pmesh".toList, "schedule".toList] (.finished e (some ("schedule.psi".toList, f))) ∧
    Shows W deck twoMesh psi e (some ("schedule.psi".toList, f)) ∧
    ∀ g < deck.nGroups, leakage deck p twoMesh psi g + removal deck p sS twoMesh psi g = emission deck p twoMesh g := by
  obtain ⟨W, deck, p, sS, g, g', e, e', f, f', s, s', G, -, -, r1, r2, hd, hss, f1, f2, hP, hP', hw, -, h2, -⟩ := two_mains
  obtain ⟨psi, k1, k2⟩ := main_balance (C := machine 3 4 false) G r2 (hd.same hss) f2 hP' (by decide) (by decide) (fun _ => hw) h2
  exact ⟨deck, p, sS, W, e', f', psi, h2, k1, k2⟩

example : ∃ (deck : Deck) (p : Problem ℝ) (sS : Nat → ℝ) (W : World) (s : Settings ℝ) (rep : Report) (e : Option ℝ)
    (out : Option (Str × Verif.PsiFile.File)) (psi : Psi ℝ),
    RanWith (StopsWith rep) W (machine 2 1 true) ["two.pmesh".toList, "graph".toList] (.finished e out) ∧
    Shows W deck twoMesh psi e out ∧ ∀ g < deck.nGroups,
      |leakage deck p twoMesh psi g + removal deck p sS twoMesh psi g - emission deck p twoMesh g| ≤
        imbalance s deck twoMesh (3 / 4) (1000 / 3) psi rep := by
  obtain ⟨W, deck, p, sS, g, g', rep, rep', e, e', out, out', s, s', G, -, -, r1, r2, hd, hss, f1, f2, hP, hP', hw, Bt, h1, k1,
    h2, k2⟩ := two_stops
  obtain ⟨psi, j1, j2⟩ := main_imbalance (C := machine 2 1 true) G r1 hd f1 hP (by decide) (by decide) (fun _ => hw) (by decide) Bt h1 k1
  exact ⟨deck, p, sS, W, s, rep, e, out, psi, h1, j1, j2⟩

end Verif.Program
