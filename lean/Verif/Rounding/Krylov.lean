import Verif.Rounding.Stop

/-!
# The Krylov solver around rounded sweeps (C100)
-/
set_option linter.unusedSectionVars false
namespace Verif.Rounding

open Verif.MeshFile Verif.TychoMesh Verif.Geometry Verif.Program Verif.Program.Spec
open Verif.Rounding.Spec hiding Acyclic
open Verif.Floating (Kernel Tables)
open Verif.Floating.Spec (Holds CellPoints)
open Verif.Traverse (Psi)
open Verif.Source (cellM cellM_nonneg cellM_small cellM_squares)

/-- A scalar flux: group, vertex, cell. -/
abbrev Flux : Type := Nat → Fin 4 → Nat → ℝ

/-! ### The code -/

/-- The assignment of `operatorS` (src/Util.cc:151-159). -/
noncomputable def rscatter (rnd : ℝ → ℝ) (sS phi : ℝ) : ℝ := rnd (rnd (sS / rnd (4 * rnd Real.pi)) * phi)

variable {nA nG : ℕ}

/-- The array `source` that `hatSource` has filled (src/Problem.cc:61-79). -/
noncomputable def fixedSource (D : Tables ℝ) : Psi ℝ := fun _ v a c => ((D.source[c]?).getD fun _ _ => 0) v a

/-- `operatorS` and `phiToPsi` of `lhsOperator` (src/SourceIteration.cc:94-99, src/Util.cc:103-112). -/
noncomputable def scatterSource (rnd : ℝ → ℝ) (D : Tables ℝ) (x : Flux) : Psi ℝ := fun g v _ c =>
  rscatter rnd ((D.sigmaS[c]?).getD 0) (x g v c)

/-- `calcTotalSource(source, phiX, tempSource)` (src/SourceIteration.cc:258, src/Util.cc:118-130). -/
noncomputable def krylovSource (K : Kernel ℝ nA nG) (D : Tables ℝ) (x : Flux) : Psi ℝ := fun g v a c =>
  K.total (((D.source[c]?).getD fun _ _ => 0) v a) ((D.sigmaS[c]?).getD 0) (x g v c)

/-- `krylov` (src/SourceIteration.cc:216-285) around the traversal. `PETSc` is given the right hand side `b`
(lines 238-242) and `lhsOperator` (lines 76-114), and returns some vector `x`; `y` is what `lhsOperator` gives for `x`. The
last sweep (lines 256-260) leaves `psi`. The fluxes from which the sweeps start are any. -/
structure KrylovRun (rnd : ℝ → ℝ) (K : Kernel ℝ nA nG) (n : Nat) (T : Nat → Mesh) (D : Nat → Tables ℝ) (psiB psiA : Nat → Psi ℝ)
    (b x y : Nat → Flux) (psi : Nat → Psi ℝ) : Prop where
  rhs : ∃ psi0, K.Swept n T D (fun r => fixedSource (D r)) psi0 psiB
  b : ∀ r g v i, b r g v i = K.phi (psiB r) g v i
  op : ∃ psi0, K.Swept n T D (fun r => scatterSource rnd (D r) (x r)) psi0 psiA
  y : ∀ r g v i, y r g v i = rnd (x r g v i - K.phi (psiA r) g v i)
  last : ∃ psi0, K.Swept n T D (fun r => krylovSource K (D r) (x r)) psi0 psi

/-! ### From the ranks to the mesh -/

/-- The arrays `x` of the ranks hold `xS`. -/
def HoldsFlux (nG n : Nat) (T : Nat → Mesh) (x : Nat → Flux) (xS : Flux) : Prop :=
  ∀ r < n, ∀ i c, (T r).getLGCell i = some c → ∀ g < nG, ∀ v, x r g v i = xS g v c

variable {u : ℝ} {rnd : ℝ → ℝ} {val : Nat → ℝ} {m : SerialMesh}

/-- The three sources, seen on the serial mesh. -/
theorem sources_of {pv : List Nat} {n : Nat} {P : ParallelMesh} {T : Nat → Mesh} {D : Nat → Tables ℝ} {K : Kernel ℝ nA nG}
    (H : Created m pv n P) (L : Loaded val P T) (hD : Verif.Floating.Started K val P T D) (rnd : ℝ → ℝ) (x : Nat → Flux) :
    ∃ (xS : Flux) (sB sA sN : Psi ℝ), HoldsFlux nG n T x xS ∧ Holds nA nG n T (fun r => fixedSource (D r)) sB ∧
      Holds nA nG n T (fun r => scatterSource rnd (D r) (x r)) sA ∧ Holds nA nG n T (fun r => krylovSource K (D r) (x r)) sN ∧
      ∀ c < m.numCells, ∃ p sT sS, CellPoints val m c p ∧ Verif.Floating.Spec.Sigma K m c sT sS ∧ ∀ g v a,
        sB g v a c = K.source a (p v) sT sS ∧ sA g v a c = rscatter rnd sS (xS g v c) ∧
        sN g v a c = K.total (K.source a (p v) sT sS) sS (xS g v c) := by
  have hloc : ∀ c, ∃ x : Nat × Nat, c < m.numCells → IsCell P x.1 x.2 c := by
    intro c
    by_cases hc : c < m.numCells
    · obtain ⟨r, i, hi⟩ := isCell_exists H hc
      exact ⟨(r, i), fun _ => hi⟩
    · exact ⟨(0, 0), fun h => absurd h hc⟩
  choose loc hloc using hloc
  have hto : ∀ r < n, ∀ i c, (T r).getLGCell i = some c → r = (loc c).1 ∧ i = (loc c).2 := by
    intro r hr i c hc
    have hi := lg_isCell H L hr hc
    exact isCell_unique H hi (hloc c (isCell_lg H L hi).2.2.2)
  refine ⟨fun g v c => x (loc c).1 g v (loc c).2, fun g v a c => fixedSource (D (loc c).1) g v a (loc c).2,
    fun g v a c => scatterSource rnd (D (loc c).1) (x (loc c).1) g v a (loc c).2,
    fun g v a c => krylovSource K (D (loc c).1) (x (loc c).1) g v a (loc c).2, ?_, ?_, ?_, ?_, ?_⟩
  · intro r hr i c hc g _ v
    obtain ⟨e1, e2⟩ := hto r hr i c hc
    dsimp only
    rw [← e1, ← e2]
  · intro r hr i c hc g _ v a _
    obtain ⟨e1, e2⟩ := hto r hr i c hc
    dsimp only
    rw [← e1, ← e2]
  · intro r hr i c hc g _ v a _
    obtain ⟨e1, e2⟩ := hto r hr i c hc
    dsimp only
    rw [← e1, ← e2]
  · intro r hr i c hc g _ v a _
    obtain ⟨e1, e2⟩ := hto r hr i c hc
    dsimp only
    rw [← e1, ← e2]
  · intro c hc
    obtain ⟨p, q, sT, sS, R⟩ := Verif.Floating.row_of H L hD (hloc c hc)
    refine ⟨p, sT, sS, R.points, R.sigma, fun g v a => ⟨?_, ?_, ?_⟩⟩
    · unfold fixedSource; dsimp only; rw [R.source]; rfl
    · unfold scatterSource; dsimp only; rw [R.sigmaS]; rfl
    · unfold krylovSource; dsimp only; rw [R.source, R.sigmaS]; rfl

/-! ### Superposition -/

theorem sq_four (a b c d : ℝ) : (a + b - c - d) ^ 2 ≤ 4 * (a ^ 2 + b ^ 2 + c ^ 2 + d ^ 2) := by
  nlinarith [sq_nonneg (a - b), sq_nonneg (a + c), sq_nonneg (a + d), sq_nonneg (b + c), sq_nonneg (b + d), sq_nonneg (c - d)]

theorem cellM_four (a b c d : Fin 4 → ℝ) : cellM (fun i => a i + b i - c i - d i) (fun i => a i + b i - c i - d i) ≤
    4 * (cellM a a + cellM b b + cellM c c + cellM d d) := by
  unfold cellM
  simp only [Fin.sum_univ_four, ← sq]
  have h := sq_four (a 0 + a 1 + a 2 + a 3) (b 0 + b 1 + b 2 + b 3) (c 0 + c 1 + c 2 + c 3) (d 0 + d 1 + d 2 + d 3)
  have e : (a 0 + b 0 - c 0 - d 0 + (a 1 + b 1 - c 1 - d 1) + (a 2 + b 2 - c 2 - d 2) + (a 3 + b 3 - c 3 - d 3)) =
    (a 0 + a 1 + a 2 + a 3) + (b 0 + b 1 + b 2 + b 3) - (c 0 + c 1 + c 2 + c 3) - (d 0 + d 1 + d 2 + d 3) := by ring
  rw [e]
  have h0 := sq_four (a 0) (b 0) (c 0) (d 0)
  have h1 := sq_four (a 1) (b 1) (c 1) (d 1)
  have h2 := sq_four (a 2) (b 2) (c 2) (d 2)
  have h3 := sq_four (a 3) (b 3) (c 3) (d 3)
  linarith

variable {p : Problem ℝ}

/-- C100: three nearly solved problems, the source of the first nearly the sum of the other two: so are the
solutions, at every vertex. -/
theorem near_superposed (H : Tets m) (hp : p.Physical m) (hM : p.Matched m) (hσ : ∀ c < m.numCells, 0 < p.sigmaT c)
    {ρ δ : Nat → ℝ} {s1 s2 s3 psi1 psi2 psi3 : Psi ℝ} (h1 : NearDG { p with source := s1 } m (fun _ => ρ) psi1)
    (h2 : NearDG { p with source := s2 } m (fun _ => ρ) psi2) (h3 : NearDG { p with source := s3 } m (fun _ => ρ) psi3)
    (hδ : ∀ g < p.nGroups, ∀ v, ∀ a < p.nAngles, ∀ c < m.numCells, |s1 g v a c - s2 g v a c - s3 g v a c| ≤ δ c)
    {η : ℝ} (hη0 : 0 ≤ η)
    (hη : ∀ c < m.numCells, 20 * ∑ c ∈ Finset.range m.numCells,
      (4 * p.volume c * δ c ^ 2 / p.sigmaT c + 960 * ρ c ^ 2 / (p.sigmaT c * p.volume c)) ≤ p.sigmaT c * p.volume c * η ^ 2) :
    ∀ g < p.nGroups, ∀ v, ∀ a < p.nAngles, ∀ c < m.numCells, |psi1 g v a c - psi2 g v a c - psi3 g v a c| ≤ η := by
  intro g hg v a ha c hc
  have hph : ∀ s : Psi ℝ, Problem.Physical { p with source := s } m := fun s =>
    ⟨hp.volume, hp.area, hp.sigma, hp.closed, hp.flow, hp.opposite⟩
  obtain ⟨q1, d1, e1⟩ := near_solves H (hph _) h1
  obtain ⟨q2, d2, e2⟩ := near_solves H (hph _) h2
  obtain ⟨q3, d3, e3⟩ := near_solves H (hph _) h3
  have hd := dg_sub (p := p) H (dg_sub (p := p) H d1 d2) d3
  set r : Psi ℝ := fun g v a c => (s1 g v a c - s2 g v a c - s3 g v a c) + q1 g v a c - q2 g v a c - q3 g v a c with hr
  have er : (fun g v a c => (s1 g v a c + q1 g v a c - (s2 g v a c + q2 g v a c)) - (s3 g v a c + q3 g v a c)) = r := by
    funext g v a c; simp only [hr]; ring
  have hd : Problem.DG { p with source := r } m fun g v a c => psi1 g v a c - psi2 g v a c - psi3 g v a c :=
    (congrArg (fun s => Problem.DG { p with source := s } m fun g v a c => psi1 g v a c - psi2 g v a c - psi3 g v a c) er).mp hd
  have hb := dg_bound H (hph r) (show Problem.Matched { p with source := r } m from hM) hσ hd ha hg
  have hle : ∑ c ∈ Finset.range m.numCells, p.volume c / p.sigmaT c * cellM (fun v => r g v a c) (fun v => r g v a c) ≤
      ∑ c ∈ Finset.range m.numCells, (4 * p.volume c * δ c ^ 2 / p.sigmaT c + 960 * ρ c ^ 2 / (p.sigmaT c * p.volume c)) := by
    refine Finset.sum_le_sum fun c hc => ?_
    have hc := Finset.mem_range.1 hc
    have hV := hp.volume c hc
    have hs := hσ c hc
    have k0 := cellM_four (fun v => s1 g v a c - s2 g v a c - s3 g v a c) (fun v => q1 g v a c) (fun v => q2 g v a c) (fun v => q3 g v a c)
    have k1 := cellM_small (p := fun v => s1 g v a c - s2 g v a c - s3 g v a c) fun v => hδ g hg v a ha c hc
    have f1 : p.volume c * cellM (fun v => q1 g v a c) (fun v => q1 g v a c) ≤ 80 * ρ c ^ 2 / p.volume c := e1 c hc a ha g hg
    have f2 : p.volume c * cellM (fun v => q2 g v a c) (fun v => q2 g v a c) ≤ 80 * ρ c ^ 2 / p.volume c := e2 c hc a ha g hg
    have f3 : p.volume c * cellM (fun v => q3 g v a c) (fun v => q3 g v a c) ≤ 80 * ρ c ^ 2 / p.volume c := e3 c hc a ha g hg
    have k2 : p.volume c * cellM (fun v => r g v a c) (fun v => r g v a c) ≤ 4 * p.volume c * δ c ^ 2 + 960 * ρ c ^ 2 / p.volume c := by
      have a1 := mul_le_mul_of_nonneg_left k0 hV.le
      have a2 := mul_le_mul_of_nonneg_left k1 hV.le
      have e : 960 * ρ c ^ 2 / p.volume c = 12 * (80 * ρ c ^ 2 / p.volume c) := by ring
      rw [e]
      linarith
    have k3 := div_le_div_of_nonneg_right k2 hs.le
    refine le_trans (le_of_eq ?_) (k3.trans (le_of_eq ?_))
    · ring
    · rw [add_div, div_div, mul_comm (p.volume c) (p.sigmaT c)]
  set e : Psi ℝ := fun g v a c => psi1 g v a c - psi2 g v a c - psi3 g v a c with he
  have hone : p.sigmaT c * p.volume c * cellM (fun v => e g v a c) (fun v => e g v a c) ≤
      ∑ c ∈ Finset.range m.numCells, p.sigmaT c * p.volume c * cellM (fun v => e g v a c) (fun v => e g v a c) :=
    Finset.single_le_sum (f := fun c => p.sigmaT c * p.volume c * cellM (fun v => e g v a c) (fun v => e g v a c))
      (fun c hc => mul_nonneg (mul_nonneg (hσ c (Finset.mem_range.1 hc)).le (hp.volume c (Finset.mem_range.1 hc)).le) (cellM_nonneg _))
      (Finset.mem_range.2 hc)
  have hpos : 0 < p.sigmaT c * p.volume c := mul_pos (hσ c hc) (hp.volume c hc)
  have hb' : ∑ c ∈ Finset.range m.numCells, p.sigmaT c * p.volume c * cellM (fun v => e g v a c) (fun v => e g v a c) ≤
      ∑ c ∈ Finset.range m.numCells, p.volume c / p.sigmaT c * cellM (fun v => r g v a c) (fun v => r g v a c) := hb
  have htot : p.sigmaT c * p.volume c * (20 * cellM (fun v => e g v a c) (fun v => e g v a c)) ≤ p.sigmaT c * p.volume c * η ^ 2 := by
    have := hη c hc
    linarith
  have h20 := le_of_mul_le_mul_left htot hpos
  have hsq := cellM_squares fun v => e g v a c
  have hv : e g v a c ^ 2 ≤ ∑ v, e g v a c ^ 2 := Finset.single_le_sum (f := fun v => e g v a c ^ 2) (fun _ _ => sq_nonneg _) (Finset.mem_univ v)
  exact abs_le_of_sq_le_sq (by linarith) hη0

/-! ### The solver -/

variable {deck : Deck} {sS : Nat → ℝ} {κ : ℝ} {K : Kernel ℝ deck.dirs.length deck.nGroups}

theorem rscatter_size (R : Rounds u rnd) (hu : u ≤ 1 / 100000) {σ x Ξ : ℝ} (hσ : 0 ≤ σ) (hx : |x| ≤ Ξ) :
    |rscatter rnd σ x| ≤ 1.01 * (σ / (4 * Real.pi) * Ξ) := by
  have hu0 := R.small.1
  have hpi := Real.pi_pos
  have h := rtotal_near R hu (s := 0) (x := x) (φ := x) (γ := 0) hσ hx le_rfl (by norm_num) (by simp)
  unfold rtotal at h
  rw [zero_add, zero_add, abs_zero, mul_zero, zero_add, add_zero] at h
  change |rnd (rscatter rnd σ x) - _| ≤ _ at h
  set y := rscatter rnd σ x
  set G := σ / (4 * Real.pi) with hG
  have hG0 : 0 ≤ G := div_nonneg hσ (by linarith)
  have hGx : |G * x| ≤ G * Ξ := by rw [abs_mul, abs_of_nonneg hG0]; exact mul_le_mul_of_nonneg_left hx hG0
  have hn := R.near y
  have hy : |y| ≤ |rnd y - y| + |rnd y - G * x| + |G * x| := by
    have e : y = -(rnd y - y) + (rnd y - G * x) + G * x := by ring
    have a1 := abs_add_le (-(rnd y - y) + (rnd y - G * x)) (G * x)
    have a2 := abs_add_le (-(rnd y - y)) (rnd y - G * x)
    rw [abs_neg] at a2
    rw [← e] at a1
    linarith
  have hGΞ : 0 ≤ G * Ξ := mul_nonneg hG0 ((abs_nonneg _).trans hx)
  have k1 := mul_le_mul_of_nonneg_right hu hGΞ
  have k2 := mul_le_mul_of_nonneg_right hu (abs_nonneg y)
  linarith

/-- C100: whatever vector PETSc has returned, the flux that `krylov` leaves in rounded arithmetic, on any partition and
under any schedules, is near the exact solution if the machine's own right hand side and operator agree on the vector
up to `Res`. -/
theorem machine_krylov {pv : List Nat} {n : Nat} {P : ParallelMesh} {T : Nat → Mesh} {D : Nat → Tables ℝ}
    (R : Rounds u rnd) (hu : u ≤ 1 / 100000) (H : Created m pv n P) (hn : n < uintMax) (L : Loaded val P T)
    (hD : Verif.Floating.Started K val P T D) (F : Fits val m) (Ds : Describes val deck m p sS)
    (hK : Computes rnd (deckDir deck) K) (hS : Solves rnd deck K) (hA : Adds rnd deck K)
    (hH : K.source = fun a => rhat rnd (deckDir deck a)) (hw : WellShaped u val m) (S : Stout κ val m) (hap : Apart u val m)
    (hκ : 31 * u * κ ≤ 1 / 100) (hom : ∀ a < deck.dirs.length, size (deckDir deck a) ≤ 1.01)
    (hσ : ∀ c < m.numCells, 0 < p.sigmaT c)
    (ht : ∀ c < m.numCells, u * (2700 + 33 * κ) * ∑ f, p.area c f ≤ p.sigmaT c * p.volume c)
    (hγ : (1 + u) ^ (deck.dirs.length + 1) - 1 ≤ 1 / 100) {b : ℝ} (hb : p.Ratio m (scattering deck sS) b) (hb1 : b < 1)
    (hpS : ∀ c < m.numCells, 0 ≤ sS c) {M G : ℝ} (hM : ∀ c < m.numCells, |p.sigmaT c - sS c| ≤ M)
    (hG : ∀ c < m.numCells, sS c / (4 * Real.pi) ≤ G)
    (hsize : ∀ r < n, deck.dirs.length * (T r).nCells < 2 ^ 64)
    {psiB psiA psi' : Nat → Psi ℝ} {rhs x y : Nat → Flux} (h : KrylovRun rnd K n T D psiB psiA rhs x y psi')
    {Res : ℝ} (hres : ∀ r < n, ∀ i < (T r).nCells, ∀ g < deck.nGroups, ∀ v, |rhs r g v i - y r g v i| ≤ Res)
    {psi : Psi ℝ} (hpsi : p.Scatter m (scattering deck sS) psi) :
    ∃ (fluxB fluxA new : Psi ℝ) (xS : Flux),
      Holds deck.dirs.length deck.nGroups n T psiB fluxB ∧ Holds deck.dirs.length deck.nGroups n T psiA fluxA ∧
      Holds deck.dirs.length deck.nGroups n T psi' new ∧ HoldsFlux deck.nGroups n T x xS ∧
      ∀ X Ξ Q W γ η : ℝ,
        (∀ g < deck.nGroups, ∀ v, ∀ a < deck.dirs.length, ∀ c < m.numCells,
          |fluxB g v a c| ≤ X ∧ |fluxA g v a c| ≤ X ∧ |new g v a c| ≤ X) →
        (∀ g < deck.nGroups, ∀ v, ∀ c < m.numCells, |xS g v c| ≤ Ξ) →
        Q = 1.01 * (1.001 * (0.04 + M) + 1.01 * (G * Ξ)) →
        W = ∑ a ∈ Finset.range deck.dirs.length, (scattering deck sS).wt a →
        γ = (1 + u) ^ (deck.dirs.length + 1) - 1 → 0 ≤ η →
        (∀ c < m.numCells, 20 * ∑ c ∈ Finset.range m.numCells, (4 * p.volume c * (u * Q) ^ 2 / p.sigmaT c +
            960 * (u * (223 + 31 * κ) * (((∑ f, p.area c f) + p.sigmaT c * p.volume c) * X + p.volume c * Q)) ^ 2 /
              (p.sigmaT c * p.volume c)) ≤ p.sigmaT c * p.volume c * η ^ 2) →
        ∀ g < deck.nGroups,
          (1 - b) ^ 2 * ∑ a ∈ Finset.range deck.dirs.length, (scattering deck sS).wt a * ∑ c ∈ Finset.range m.numCells,
              p.sigmaT c * p.volume c * cellM (fun v => new g v a c - psi g v a c) (fun v => new g v a c - psi g v a c) ≤
            ∑ a ∈ Finset.range deck.dirs.length, (scattering deck sS).wt a * ∑ c ∈ Finset.range m.numCells,
              (2 * p.volume c * (14 * u * (0.04 + M) + u * (1.001 * (0.04 + M)) +
                  sS c / (4 * Real.pi) * (6 * u * Ξ + (Res + W * η + 2 * γ * (W * X) + u * (Ξ + 1.01 * (W * X))))) ^ 2 / p.sigmaT c +
                160 * (u * (223 + 31 * κ) * (((∑ f, p.area c f) + p.sigmaT c * p.volume c) * X + p.volume c * Q)) ^ 2 /
                  (p.sigmaT c * p.volume c)) := by
  have hu0 := R.small.1
  have hpi := Real.pi_pos
  have hcons := rounded_consistent R H.tets hK hw (opposed_of_fits R.small.1 H.tets F hw)
  obtain ⟨xS, sB, sA, sN, hx, hsB, hsA, hsN, hcells⟩ := sources_of H L hD rnd x
  obtain ⟨_, hBs⟩ := h.rhs
  obtain ⟨_, hAs⟩ := h.op
  obtain ⟨_, hNs⟩ := h.last
  obtain ⟨fluxB, solB, holB, -⟩ := Verif.Floating.swept_solution H hn L hD hcons hsize hBs hsB
  obtain ⟨fluxA, solA, holA, -⟩ := Verif.Floating.swept_solution H hn L hD hcons hsize hAs hsA
  obtain ⟨new, solN, holN, -⟩ := Verif.Floating.swept_solution H hn L hD hcons hsize hNs hsN
  refine ⟨fluxB, fluxA, new, xS, holB, holA, holN, hx, ?_⟩
  intro X Ξ Q W γ η hX hΞ hQ hW hγe hη0 hη g hg
  have hfix := hat_fixed R hu H.tets Ds hH hom hap hM
  -- the sources
  have hsrc : ∀ g < deck.nGroups, ∀ v, ∀ a < deck.dirs.length, ∀ c < m.numCells,
      |sB g v a c| ≤ 1.001 * (0.04 + M) ∧ |sA g v a c| ≤ 1.01 * (G * Ξ) ∧ sN g v a c = rnd (sB g v a c + sA g v a c) ∧
      |sN g v a c - (p.source g v a c + sS c / (4 * Real.pi) * xS g v c)| ≤
        14 * u * (0.04 + M) + u * (1.001 * (0.04 + M)) + sS c / (4 * Real.pi) * (6 * u * Ξ) := by
    intro g hg v a ha c hc
    obtain ⟨pt, sT, sS', hpt, hsig, hs⟩ := hcells c hc
    obtain ⟨rfl, rfl⟩ := sigma_deck Ds hS hA hsig
    obtain ⟨e1, e2, e3⟩ := hs g v a
    obtain ⟨f1, f2⟩ := hfix c hc pt hpt g hg v a ha
    have hxc := hΞ g hg v c hc
    refine ⟨by rw [e1]; exact f2, ?_, ?_, ?_⟩
    · rw [e2]
      refine (rscatter_size R hu (hpS c hc) hxc).trans ?_
      have := mul_le_mul_of_nonneg_right (hG c hc) ((abs_nonneg _).trans hxc)
      linarith
    · rw [e1, e2, e3, hA.total]; rfl
    · rw [e3, hA.total]
      have k := rtotal_near R hu (s := K.source a (pt v) (p.sigmaT c) (sS c)) (x := xS g v c) (φ := xS g v c) (γ := 0) (hpS c hc) hxc le_rfl
        (by norm_num) (by simp)
      rw [add_zero] at k
      have k2 := mul_le_mul_of_nonneg_left f2 hu0
      have e : rtotal rnd (K.source a (pt v) (p.sigmaT c) (sS c)) (sS c) (xS g v c) - (p.source g v a c + sS c / (4 * Real.pi) * xS g v c) =
        (rtotal rnd (K.source a (pt v) (p.sigmaT c) (sS c)) (sS c) (xS g v c) -
          (K.source a (pt v) (p.sigmaT c) (sS c) + sS c / (4 * Real.pi) * xS g v c)) +
          (K.source a (pt v) (p.sigmaT c) (sS c) - p.source g v a c) := by ring
      rw [e]
      refine (abs_add_le _ _).trans ?_
      linarith
  have hQb : ∀ g < deck.nGroups, ∀ v, ∀ a < deck.dirs.length, ∀ c < m.numCells,
      |sB g v a c| ≤ Q ∧ |sA g v a c| ≤ Q ∧ |sN g v a c| ≤ Q ∧ |sN g v a c - sB g v a c - sA g v a c| ≤ u * Q := by
    intro g hg v a ha c hc
    obtain ⟨k1, k2, k3, -⟩ := hsrc g hg v a ha c hc
    have n1 := abs_nonneg (sB g v a c)
    have n2 := abs_nonneg (sA g v a c)
    have k4 := abs_add_le (sB g v a c) (sA g v a c)
    have k5 := R.near (sB g v a c + sA g v a c)
    have k6 : |sB g v a c + sA g v a c| ≤ Q / 1.01 := by
      rw [hQ, mul_div_cancel_left₀ _ (by norm_num)]
      linarith
    have k7 := mul_le_mul_of_nonneg_left k6 hu0
    have n3 : 0 ≤ Q / 1.01 := (abs_nonneg _).trans k6
    have k8 := mul_le_mul_of_nonneg_right hu n3
    have e : Q = 1.01 * (Q / 1.01) := by rw [mul_div_cancel₀ _ (by norm_num)]
    have k9 : u * (Q / 1.01) ≤ u * Q := mul_le_mul_of_nonneg_left (by linarith) hu0
    have hs : |sN g v a c| ≤ |rnd (sB g v a c + sA g v a c) - (sB g v a c + sA g v a c)| + |sB g v a c + sA g v a c| := by
      have := abs_add_le (rnd (sB g v a c + sA g v a c) - (sB g v a c + sA g v a c)) (sB g v a c + sA g v a c)
      rw [sub_add_cancel] at this
      rw [k3]; exact this
    refine ⟨by linarith, by linarith, by linarith, ?_⟩
    rw [k3, sub_sub]
    linarith
  -- the three fluxes
  have hX1 := fun g hg v a ha c hc => (hX g hg v a ha c hc).1
  have hX2 := fun g hg v a ha c hc => (hX g hg v a ha c hc).2.1
  have hX3 := fun g hg v a ha c hc => (hX g hg v a ha c hc).2.2
  have nB := machine_near R hu H.tets F Ds hK hS hw S hκ hom hσ ht solB hX1 fun g hg v a ha c hc => (hQb g hg v a ha c hc).1
  have nA' := machine_near R hu H.tets F Ds hK hS hw S hκ hom hσ ht solA hX2 fun g hg v a ha c hc => (hQb g hg v a ha c hc).2.1
  have nN := machine_near R hu H.tets F Ds hK hS hw S hκ hom hσ ht solN hX3 fun g hg v a ha c hc => (hQb g hg v a ha c hc).2.2.1
  have hphys := geometry_physical H.tets F Ds hσ
  have hmat := geometry_matched (p := p) H.tets F Ds
  have hsup := near_superposed H.tets hphys hmat hσ (δ := fun _ => u * Q) nN nB nA'
    (fun g hg v a ha c hc => (hQb g (by rw [← Ds.groups]; exact hg) v a (by rw [← Ds.angles]; exact ha) c hc).2.2.2) hη0 hη
  -- the sums over angles
  have hww : ∀ a < deck.dirs.length, 0 ≤ (scattering deck sS).wt a := fun a ha => hb.weights a (by rw [Ds.angles]; exact ha)
  have hnear : ∀ flux : Psi ℝ, (∀ g < deck.nGroups, ∀ v, ∀ a < deck.dirs.length, ∀ c < m.numCells, |flux g v a c| ≤ X) →
      ∀ g < deck.nGroups, ∀ v, ∀ c < m.numCells,
        |(rphi rnd (deckWt deck) fun a => flux g v a c) - ∑ a ∈ Finset.range deck.dirs.length, flux g v a c * (scattering deck sS).wt a| ≤
          γ * (W * X) ∧ |∑ a ∈ Finset.range deck.dirs.length, flux g v a c * (scattering deck sS).wt a| ≤ W * X := by
    intro flux hf g hg v c hc
    have hsum : ∑ a ∈ Finset.range deck.dirs.length, |flux g v a c * (scattering deck sS).wt a| ≤ W * X := by
      rw [hW, Finset.sum_mul]
      refine Finset.sum_le_sum fun a ha => ?_
      have ha := Finset.mem_range.1 ha
      rw [abs_mul, abs_of_nonneg (hww a ha), mul_comm]
      exact mul_le_mul_of_nonneg_left (hf g hg v a ha c hc) (hww a ha)
    refine ⟨?_, (Finset.abs_sum_le_sum_abs _ _).trans hsum⟩
    rw [Finset.sum_range, Finset.sum_congr rfl fun b _ => by rw [deckWt_scattering], hγe]
    refine (rphi_near R _ _).trans (mul_le_mul_of_nonneg_left ?_ (gamma_nonneg R _))
    refine le_trans (le_of_eq ?_) hsum
    rw [Finset.sum_range]
    exact Finset.sum_congr rfl fun b _ => by rw [deckWt_scattering]
  have hγ0 : 0 ≤ γ := by rw [hγe]; exact gamma_nonneg R _
  have hγ1 : γ ≤ 1 / 100 := by rw [hγe]; exact hγ
  have hΔ : ∀ g < deck.nGroups, ∀ v, ∀ c < m.numCells,
      |xS g v c - ∑ a ∈ Finset.range deck.dirs.length, new g v a c * (scattering deck sS).wt a| ≤
        Res + W * η + 2 * γ * (W * X) + u * (Ξ + 1.01 * (W * X)) := by
    intro g hg v c hc
    obtain ⟨r, i, hi⟩ := isCell_exists H hc
    obtain ⟨q1, q2, q3, -⟩ := isCell_lg H L hi
    have hphi : ∀ {flux : Nat → Psi ℝ} {fluxS : Psi ℝ}, Holds deck.dirs.length deck.nGroups n T flux fluxS →
        K.phi (flux r) g v i = rphi rnd (deckWt deck) fun a => fluxS g v a c := by
      intro flux fluxS hf
      unfold Kernel.phi
      rw [hA.toPhi]
      congr 1
      funext a
      exact hf r q2 i c q1 g hg v a a.2
    have hr := hres r q2 i q3 g hg v
    rw [h.b, h.y, hphi holB, hphi holA, hx r q2 i c q1 g hg v] at hr
    obtain ⟨b1, b2⟩ := hnear fluxB hX1 g hg v c hc
    obtain ⟨a1, a2⟩ := hnear fluxA hX2 g hg v c hc
    set zB := ∑ a ∈ Finset.range deck.dirs.length, fluxB g v a c * (scattering deck sS).wt a
    set zA := ∑ a ∈ Finset.range deck.dirs.length, fluxA g v a c * (scattering deck sS).wt a
    set zN := ∑ a ∈ Finset.range deck.dirs.length, new g v a c * (scattering deck sS).wt a
    set φB := rphi rnd (deckWt deck) fun a => fluxB g v a c
    set φA := rphi rnd (deckWt deck) fun a => fluxA g v a c
    have hdiff : |zN - zB - zA| ≤ W * η := by
      have e : zN - zB - zA = ∑ a ∈ Finset.range deck.dirs.length, (new g v a c - fluxB g v a c - fluxA g v a c) * (scattering deck sS).wt a := by
        simp only [sub_mul, Finset.sum_sub_distrib, zN, zB, zA]
      rw [e, hW, Finset.sum_mul]
      refine (Finset.abs_sum_le_sum_abs _ _).trans (Finset.sum_le_sum fun a ha => ?_)
      have ha := Finset.mem_range.1 ha
      rw [abs_mul, abs_of_nonneg (hww a ha), mul_comm]
      exact mul_le_mul_of_nonneg_left (hsup g (by rw [Ds.groups]; exact hg) v a (by rw [Ds.angles]; exact ha) c hc) (hww a ha)
    have hWX : 0 ≤ W * X := (abs_nonneg _).trans a2
    have hφA : |φA| ≤ 1.01 * (W * X) := by
      have k := abs_add_le (φA - zA) zA
      rw [sub_add_cancel] at k
      have := mul_le_mul_of_nonneg_right hγ1 hWX
      linarith
    have hrn := R.near (xS g v c - φA)
    have hsz : |xS g v c - φA| ≤ Ξ + 1.01 * (W * X) := (abs_sub _ _).trans (add_le_add (hΞ g hg v c hc) hφA)
    have hrn := hrn.trans (mul_le_mul_of_nonneg_left hsz hu0)
    rw [abs_le] at hr hdiff hrn b1 a1 ⊢
    constructor <;> linarith
  have := near_scatter H.tets hphys hmat hσ hb hb1 hpsi nN
    (η := fun c => 14 * u * (0.04 + M) + u * (1.001 * (0.04 + M)) +
      sS c / (4 * Real.pi) * (6 * u * Ξ + (Res + W * η + 2 * γ * (W * X) + u * (Ξ + 1.01 * (W * X)))))
    (fun g hg v a ha c hc => by
      have hg' : g < deck.nGroups := by rw [← Ds.groups]; exact hg
      have k1 := (hsrc g hg' v a (by rw [← Ds.angles]; exact ha) c hc).2.2.2
      have k2 := hΔ g hg' v c hc
      have h4 : p.total (scattering deck sS) new g v a c = p.source g v a c + sS c / (4 * Real.pi) *
          ∑ b ∈ Finset.range deck.dirs.length, new g v b c * (scattering deck sS).wt b := by
        unfold Problem.total
        rw [Ds.angles]
        rfl
      have hG0 : 0 ≤ sS c / (4 * Real.pi) := div_nonneg (hpS c hc) (by linarith)
      have k3 := mul_le_mul_of_nonneg_left k2 hG0
      rw [← abs_of_nonneg hG0, ← abs_mul, abs_of_nonneg hG0] at k3
      have e : sN g v a c - p.total (scattering deck sS) new g v a c =
        (sN g v a c - (p.source g v a c + sS c / (4 * Real.pi) * xS g v c)) +
        sS c / (4 * Real.pi) * (xS g v c - ∑ b ∈ Finset.range deck.dirs.length, new g v b c * (scattering deck sS).wt b) := by rw [h4]; ring
      rw [e]
      refine (abs_add_le _ _).trans ?_
      linarith)
    (g := g) (by rw [Ds.groups]; exact hg)
  rw [Ds.angles] at this
  exact this

end Verif.Rounding
