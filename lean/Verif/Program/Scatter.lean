import Verif.Program.Example
import Verif.TychoMesh.Scatter
import Verif.Source.Examples

/-!
# The result of the program with scattering (C72)
-/
set_option linter.unusedSectionVars false
set_option linter.unusedVariables false
namespace Verif.Program

open Verif.MeshFile Verif.TychoMesh Verif.Geometry Verif.Geometry.Spec Verif.Program.Spec
open Verif.Traverse (Psi)
open Verif.Source (Scat Result)

/-- The scattering data a run solves with (src/Util.cc:85-137): the weights of the quadrature, `g_sigmaS` of
each rank, and `M_PI`, taken as π. -/
noncomputable def scatOf (deck : Deck) (D : Nat → RankData) : Scat ℝ where
  wt a := ((deck.dirs[a]?).map fun d => d.w).getD 0
  sigmaS r i := ((D r).sigmaS[i]?).getD 0
  mPi := Real.pi

/-- The result of `sweeper->solve()` (src/Main.cc:270-321) in a run, converged exactly: `getSource` gives the
source, then any of the methods of C57. -/
def Solves (M : Mode) (deck : Deck) (T : Nat → Mesh) (D : Nat → RankData) (k : Nat) (psi : Nat → Psi ℝ) : Prop :=
  Result (M.run deck T D) (scatOf deck D) k (M.run deck T D).source psi

/-- The scattering of the described problem. -/
noncomputable def Spec.scattering (deck : Deck) (sS : Nat → ℝ) : Scattering ℝ where
  wt a := ((deck.dirs[a]?).map fun d => d.w).getD 0
  sigmaS := sS
  pi := Real.pi

/-- Less than `κ` of the particles that collide are scattered. -/
structure Spec.Subcritical (deck : Deck) (κ : ℝ) : Prop where
  nonneg : 0 ≤ κ
  weights : ∀ d ∈ deck.dirs, 0 < d.w
  some : deck.dirs ≠ []
  sigma1 : 0 ≤ deck.sigmaS1
  sigma2 : 0 ≤ deck.sigmaS2
  ratio1 : (deck.dirs.map fun d => d.w).sum * deck.sigmaS1 ≤ κ * (4 * Real.pi) * deck.sigmaT1
  ratio2 : (deck.dirs.map fun d => d.w).sum * deck.sigmaS2 ≤ κ * (4 * Real.pi) * deck.sigmaT2

variable {val : Nat → ℝ} {deck : Deck} {m : SerialMesh} {M M' : Mode} {P P' : ParallelMesh} {T T' : Nat → Mesh}
  {D D' : Nat → RankData} {p : Problem ℝ} {sS : Nat → ℝ} {κ : ℝ}

/-- Touching cells have the same area. -/
theorem describes_matched (H : Tets m) (F : Fits val m) (hs : Sensible val deck m) (Ds : Describes val deck m p sS) :
    p.Matched m := by
  intro c f c' f' hx
  obtain ⟨hc, hc'⟩ := across_cells H hx
  rw [(describes_values F Ds hc).2.1, (describes_values F Ds hc').2.1]
  exact area_shared _ _ f f' _ _ (std_table f) (std_table f') (across_share H hx) (F.nondeg c' hc')

theorem weight_sum (deck : Deck) (sS : Nat → ℝ) :
    ∑ a ∈ Finset.range deck.dirs.length, (scattering deck sS).wt a = (deck.dirs.map fun d => d.w).sum := by
  show ∑ a ∈ Finset.range deck.dirs.length, ((deck.dirs[a]?).map fun d => d.w).getD 0 = _
  generalize deck.dirs = l
  induction l with
  | nil => simp
  | cons d l ih =>
    rw [List.length_cons, Finset.sum_range_succ', List.map_cons, List.sum_cons, ← ih, add_comm]
    simp

theorem describes_ratio (H : Tets m) (Ds : Describes val deck m p sS) (hκ : Subcritical deck κ) :
    p.Ratio m (scattering deck sS) κ := by
  have hpi := Real.pi_pos
  have hsum : ∑ a ∈ Finset.range p.nAngles, (scattering deck sS).wt a = (deck.dirs.map fun d => d.w).sum := by
    rw [Ds.angles, weight_sum]
  have hsig : ∀ c < m.numCells, 0 ≤ sS c ∧ (deck.dirs.map fun d => d.w).sum * sS c ≤ κ * (4 * Real.pi) * p.sigmaT c := by
    intro c hc
    have hd := List.getElem?_eq_getElem (l := m.cells) (i := c) (by rw [← H.toSound.cells]; exact hc)
    rcases Ds.sigma c _ hd with ⟨-, e1, e2⟩ | ⟨-, e1, e2⟩ <;> rw [e1, e2]
    · exact ⟨hκ.sigma1, hκ.ratio1⟩
    · exact ⟨hκ.sigma2, hκ.ratio2⟩
  refine ⟨hκ.nonneg, ?_, ?_, ?_, ?_⟩
  · intro a ha
    rw [Ds.angles] at ha
    show 0 ≤ ((deck.dirs[a]?).map fun d => d.w).getD 0
    rw [List.getElem?_eq_getElem ha]
    exact (hκ.weights _ (List.getElem_mem ha)).le
  · rw [hsum]
    refine List.sum_pos _ ?_ (by simpa using hκ.some)
    intro x hx
    obtain ⟨d, hd, rfl⟩ := List.mem_map.1 hx
    exact hκ.weights d hd
  · intro c hc
    exact div_nonneg (hsig c hc).1 (by positivity)
  · intro c hc
    rw [hsum]
    have := (hsig c hc).2
    show _ * (sS c / (4 * Real.pi)) ≤ _
    rw [← mul_div_assoc, div_le_iff₀ (by positivity)]
    linarith

theorem Ready.scatOf (h : Ready val deck m M P T D) (F : Fits val m) (hs : Sensible val deck m)
    (Ds : Describes val deck m p sS) : ScatOf p (scattering deck sS) M.n T (scatOf deck D) := by
  refine ⟨fun _ _ => rfl, rfl, ?_⟩
  intro r hr i c hc
  obtain ⟨part, hp⟩ := isCell_part h.created hr
  obtain ⟨src0, h0⟩ := h.started r part hp
  obtain ⟨D1, h1, h2⟩ := start_returns h.created h.loaded F hs Ds hp hr src0
  rw [h0, Option.some.injEq] at h1
  show ((D r).sigmaS[i]?).getD 0 = sS c
  rw [h1, (h2 i c (lg_isCell h.created h.loaded hr hc)).2.2.2.2.1]; rfl

/-- C72: an exactly converged result of the program, by any method, on any partition and ranks, holds in each
cell the one solution of the described problem with scattering. -/
theorem program_result (h : Ready val deck m M P T D) (F : Fits val m) (hs : Sensible val deck m)
    (Ds : Describes val deck m p sS) (hac : p.Acyclic m) (htr : p.Transversal m) (hκ : Subcritical deck κ) (hκ1 : κ < 1)
    {k : Nat} (hk : m.numCells ≤ k) {psi : Nat → Psi ℝ} (hp : Solves M deck T D k psi) :
    ∃ psiS : Psi ℝ, p.Scatter m (scattering deck sS) psiS ∧
      (∀ psi', p.Scatter m (scattering deck sS) psi' →
        ∀ c < m.numCells, ∀ a < p.nAngles, ∀ g < p.nGroups, ∀ v, psi' g v a c = psiS g v a c) ∧
      ∀ r < M.n, ∀ i c, (T r).getLGCell i = some c → ∀ g v a, psi r g v a i = psiS g v a c :=
  result_serial h.created h.ranks h.loaded (describes_physical h.created.tets F hs Ds)
    (describes_matched h.created.tets F hs Ds) (h.runOf F hs Ds) (h.scatOf F hs Ds) hac htr
    (describes_ratio h.created.tets Ds hκ) hκ1 hk hp

/-- C72: results of two runs agree in each cell of the serial mesh. -/
theorem program_results_agree (h : Ready val deck m M P T D) (h' : Ready val deck m M' P' T' D') (F : Fits val m)
    (hs : Sensible val deck m) (Ds : Describes val deck m p sS) (hac : p.Acyclic m) (htr : p.Transversal m)
    (hκ : Subcritical deck κ) (hκ1 : κ < 1) {k k' : Nat} (hk : m.numCells ≤ k) (hk' : m.numCells ≤ k')
    {psi psi' : Nat → Psi ℝ} (hp : Solves M deck T D k psi) (hp' : Solves M' deck T' D' k' psi')
    {r i r' i' c : Nat} (hr : r < M.n) (hr' : r' < M'.n) (hc : (T r).getLGCell i = some c)
    (hc' : (T' r').getLGCell i' = some c) :
    ∀ g < deck.nGroups, ∀ a < deck.dirs.length, ∀ v, psi r g v a i = psi' r' g v a i' := by
  obtain ⟨S, d1, d2, d3⟩ := program_result h F hs Ds hac htr hκ hκ1 hk hp
  obtain ⟨S', e1, e2, e3⟩ := program_result h' F hs Ds hac htr hκ hκ1 hk' hp'
  rw [← Ds.groups, ← Ds.angles]
  intro g hg a ha v
  rw [d3 r hr i c hc, e3 r' hr' i' c hc']
  exact e2 S d1 c (isCell_lg h.created h.loaded (lg_isCell h.created h.loaded hr hc)).2.2.2 a ha g hg v

/-- C72: with the quadrature of the program `Subcritical` holds if each scattering cross section is at most
`c` times the total one, `c` a little below `κ`. -/
theorem quadrature_subcritical {N : Nat} (hq : Verif.Quadrature.quadrature N = some deck.dirs) {c : ℝ} (hc : 0 ≤ c)
    (hcκ : c * (1 + 1 / 10 ^ 14) ≤ κ) (h1 : 0 ≤ deck.sigmaS1) (h2 : 0 ≤ deck.sigmaS2)
    (hT1 : 0 ≤ deck.sigmaT1) (hT2 : 0 ≤ deck.sigmaT2)
    (r1 : deck.sigmaS1 ≤ c * deck.sigmaT1) (r2 : deck.sigmaS2 ≤ c * deck.sigmaT2) : Subcritical deck κ := by
  have hpi := Real.pi_pos
  have hw := abs_le.1 (Verif.Quadrature.total_weight hq)
  have hN := ((Verif.Quadrature.orders N).1 ⟨_, hq⟩).2.1
  have hlen := Verif.Quadrature.count hq
  have hS : (deck.dirs.map fun d => d.w).sum ≤ 4 * Real.pi * (1 + 1 / 10 ^ 14) := by
    have := hw.2
    nlinarith
  have hS0 : 0 ≤ (deck.dirs.map fun d => d.w).sum := by
    refine List.sum_nonneg ?_
    intro x hx
    obtain ⟨d, hd, rfl⟩ := List.mem_map.1 hx
    exact ((Verif.Quadrature.unit_positive hq d hd).2).le
  have key : ∀ s t : ℝ, 0 ≤ s → 0 ≤ t → s ≤ c * t → (deck.dirs.map fun d => d.w).sum * s ≤ κ * (4 * Real.pi) * t := by
    intro s t hs ht hst
    calc (deck.dirs.map fun d => d.w).sum * s ≤ 4 * Real.pi * (1 + 1 / 10 ^ 14) * (c * t) :=
          mul_le_mul hS hst hs (by positivity)
      _ = c * (1 + 1 / 10 ^ 14) * (4 * Real.pi * t) := by ring
      _ ≤ κ * (4 * Real.pi * t) := mul_le_mul_of_nonneg_right hcκ (by positivity)
      _ = κ * (4 * Real.pi) * t := by ring
  refine ⟨le_trans (by positivity) hcκ, fun d hd => (Verif.Quadrature.unit_positive hq d hd).2, ?_, h1, h2,
    key _ _ h1 hT1 r1, key _ _ h2 hT2 r2⟩
  intro h0
  rw [h0, List.length_nil] at hlen
  have : 0 < 2 * N ^ 2 := by positivity
  omega

/-- C72: the program does have exactly converged results: those of the full sweep with an exact Krylov
solver. -/
theorem program_result_exists (h : Ready val deck m M P T D) (F : Fits val m) (hs : Sensible val deck m)
    (Ds : Describes val deck m p sS) (hac : p.Acyclic m) (htr : p.Transversal m) (hκ : Subcritical deck κ) (hκ1 : κ < 1)
    (hb : 0 < M.batch) (hproto : M.proto = .tycho) (k : Nat) : ∃ psi, Solves M deck T D k psi := by
  have hph := describes_physical h.created.tets F hs Ds
  have hR := h.runOf F hs Ds
  exact Verif.Source.traverse_result (run_physical h.created h.loaded hph hR) (run_linked h.created h.ranks h.loaded hph hR)
    (run_crossed h.created h.loaded hph hR htr) (run_nodes h.created h.loaded hR)
    (run_matched h.created h.loaded hph (describes_matched h.created.tets F hs Ds) hR htr) hR.comm
    (run_acyclic h.created h.loaded hph hR hac htr) hproto hb
    (run_ratio h.created h.loaded hR (h.scatOf F hs Ds) (describes_ratio h.created.tets Ds hκ)) hκ1 k _

end Verif.Program
