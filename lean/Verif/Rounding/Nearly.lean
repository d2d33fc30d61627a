import Verif.Rounding.Perturb
import Verif.TychoMesh.Energy

/-!
# Values that nearly solve the discretisation are near its solution (for C97)
-/
namespace Verif.Rounding.Spec

open Verif.MeshFile Verif.TychoMesh

/-- `psi` misses the discretisation on the serial mesh (`Problem.DG`) by at most `ρ` in each row. -/
def NearDG (p : Problem ℝ) (m : SerialMesh) (ρ : Nat → Nat → ℝ) (psi : Nat → Fin 4 → Nat → Nat → ℝ) : Prop :=
  ∀ (c : Nat) (d : SCell), m.cells[c]? = some d → ∀ a < p.nAngles, ∀ g < p.nGroups, ∃ inc : Fin 4 → Fin 4 → ℝ,
    (∀ f v, v ≠ f → p.area c f * p.omegaDotN a c f < 0 →
      (∀ (c' : Nat) (f' : Fin 4), Across m c f c' f' → ∃ (d' : SCell) (w : Fin 4), m.cells[c']? = some d' ∧
        d'.nodes w = d.nodes v ∧ inc f v = psi g w a c') ∧
      ((∀ c' f', ¬ Across m c f c' f') → inc f v = 0)) ∧
    ∀ i, |rowDefect (p.volume c) (p.sigmaT c) (fun f => p.area c f * p.omegaDotN a c f) inc
      (fun v => p.source g v a c) (fun v => psi g v a c) i| ≤ ρ a c

end Verif.Rounding.Spec

namespace Verif.Rounding

open Verif.MeshFile Verif.TychoMesh Verif.Transport Verif.Rounding.Spec Verif.Source Finset
open Verif.Traverse (Psi)

variable {m : SerialMesh} {p : Problem ℝ}

/-- The source that makes up for the defects `r` of the rows. -/
noncomputable def makeUp (V : ℝ) (r : Vec4 ℝ) : Vec4 ℝ := fun i => 20 / V * (r i - (∑ j, r j) / 5)

theorem makeUp_row {V : ℝ} (hV : V ≠ 0) (r : Vec4 ℝ) (i : Fin 4) :
    V / 20 * (2 * makeUp V r i + ∑ j ∈ univ.erase i, makeUp V r j) = r i := by
  have h := Finset.add_sum_erase univ (makeUp V r) (mem_univ i)
  have h2 : ∑ j, makeUp V r j = 20 / V * ((∑ j, r j) / 5) := by
    unfold makeUp
    rw [← Finset.mul_sum, Finset.sum_sub_distrib]
    simp only [Finset.sum_const, Finset.card_univ, Fintype.card_fin, nsmul_eq_mul]
    push_cast
    ring
  have h3 : 2 * makeUp V r i + ∑ j ∈ univ.erase i, makeUp V r j = makeUp V r i + ∑ j, makeUp V r j := by linear_combination h
  rw [h3, h2]
  unfold makeUp
  field_simp
  ring

theorem makeUp_size {V ρ : ℝ} (hV : 0 < V) {r : Vec4 ℝ} (h : ∀ i, |r i| ≤ ρ) : V * cellM (makeUp V r) (makeUp V r) ≤ 80 * ρ ^ 2 / V := by
  have sq : ∀ i, r i ^ 2 ≤ ρ ^ 2 := fun i => sq_le_sq' (by have := (abs_le.1 (h i)).1; linarith) (abs_le.1 (h i)).2
  have e : V * cellM (makeUp V r) (makeUp V r) = 20 / V * ((r 0 ^ 2 + r 1 ^ 2 + r 2 ^ 2 + r 3 ^ 2) - (r 0 + r 1 + r 2 + r 3) ^ 2 / 5) := by
    unfold cellM makeUp
    simp only [Fin.sum_univ_four]
    field_simp
    ring
  rw [e, div_mul_eq_mul_div]
  refine div_le_div_of_nonneg_right ?_ hV.le
  have := sq_nonneg (r 0 + r 1 + r 2 + r 3)
  linarith [sq 0, sq 1, sq 2, sq 3]

theorem rowDefect_source (V σ : ℝ) (s Q Q' psi : Vec4 ℝ) (inc : Fin 4 → Fin 4 → ℝ) (i : Fin 4) :
    rowDefect V σ s inc (fun v => Q v + Q' v) psi i = rowDefect V σ s inc Q psi i - V / 20 * (2 * Q' i + ∑ j ∈ univ.erase i, Q' j) := by
  unfold rowDefect
  rw [Finset.sum_add_distrib]
  ring

/-- Values that nearly solve the discretisation solve it with another source. -/
theorem near_solves (H : Tets m) (hp : p.Physical m) {ρ : Nat → Nat → ℝ} {psi : Psi ℝ} (h : NearDG p m ρ psi) :
    ∃ q : Psi ℝ, Problem.DG { p with source := fun g v a c => p.source g v a c + q g v a c } m psi ∧
      ∀ c < m.numCells, ∀ a < p.nAngles, ∀ g < p.nGroups,
        p.volume c * cellM (fun v => q g v a c) (fun v => q g v a c) ≤ 80 * ρ a c ^ 2 / p.volume c := by
  have hch : ∀ (g a c : Nat), ∃ inc : Fin 4 → Fin 4 → ℝ, g < p.nGroups → a < p.nAngles → ∀ d, m.cells[c]? = some d →
      (∀ f v, v ≠ f → p.area c f * p.omegaDotN a c f < 0 →
        (∀ (c' : Nat) (f' : Fin 4), Across m c f c' f' → ∃ (d' : SCell) (w : Fin 4), m.cells[c']? = some d' ∧
          d'.nodes w = d.nodes v ∧ inc f v = psi g w a c') ∧
        ((∀ c' f', ¬ Across m c f c' f') → inc f v = 0)) ∧
      ∀ i, |rowDefect (p.volume c) (p.sigmaT c) (fun f => p.area c f * p.omegaDotN a c f) inc
        (fun v => p.source g v a c) (fun v => psi g v a c) i| ≤ ρ a c := by
    intro g a c
    by_cases k : g < p.nGroups ∧ a < p.nAngles ∧ ∃ d, m.cells[c]? = some d
    · obtain ⟨hg, ha, d, hd⟩ := k
      obtain ⟨inc, k⟩ := h c d hd a ha g hg
      refine ⟨inc, fun _ _ d' hd' => ?_⟩
      rw [hd, Option.some.injEq] at hd'
      subst hd'
      exact k
    · exact ⟨fun _ _ => 0, fun h1 h2 d hd => absurd ⟨h1, h2, d, hd⟩ k⟩
  choose inc hinc using hch
  let r : Nat → Nat → Nat → Vec4 ℝ := fun g a c i => rowDefect (p.volume c) (p.sigmaT c) (fun f => p.area c f * p.omegaDotN a c f) (inc g a c)
        (fun v => p.source g v a c) (fun v => psi g v a c) i
  have hlt : ∀ {c : Nat} {d : SCell}, m.cells[c]? = some d → c < m.numCells := fun hd => by
    rw [H.toSound.cells]; exact (List.getElem?_eq_some_iff.1 hd).1
  refine ⟨fun g v a c => makeUp (p.volume c) (r g a c) v, ?_, ?_⟩
  · intro c d hd a ha g hg
    refine ⟨inc g a c, (hinc g a c hg ha d hd).1, fun i => ?_⟩
    refine (rowDefect_zero _ _ _ _ _ _ _).1 ?_
    show rowDefect (p.volume c) (p.sigmaT c) (fun f => p.area c f * p.omegaDotN a c f) (inc g a c)
      (fun v => p.source g v a c + makeUp (p.volume c) (r g a c) v) (fun v => psi g v a c) i = 0
    rw [rowDefect_source, makeUp_row (hp.volume c (hlt hd)).ne']
    exact sub_self _
  · intro c hc a ha g hg
    rw [H.toSound.cells] at hc
    have hd := List.getElem?_eq_getElem hc
    exact makeUp_size (hp.volume c (hlt hd)) (hinc g a c hg ha _ hd).2

/-- C97: values that miss each row by at most `ρ` are near the solution, in the mean over the mesh. -/
theorem near_error (H : Tets m) (hp : p.Physical m) (hM : p.Matched m) (hσ : ∀ c < m.numCells, 0 < p.sigmaT c) {ρ : Nat → Nat → ℝ}
    {psi psi' : Psi ℝ} (h : p.DG m psi) (h' : NearDG p m ρ psi') {a g : Nat} (ha : a < p.nAngles) (hg : g < p.nGroups) :
    ∑ c ∈ range m.numCells, p.sigmaT c * p.volume c *
        cellM (fun v => psi' g v a c - psi g v a c) (fun v => psi' g v a c - psi g v a c) ≤
      80 * ∑ c ∈ range m.numCells, ρ a c ^ 2 / (p.sigmaT c * p.volume c) := by
  obtain ⟨q, hq, hsize⟩ := near_solves H hp h'
  have hd := dg_sub (p := p) H hq (show Problem.DG { p with source := p.source } m psi from h)
  have e : (fun g v a c => p.source g v a c + q g v a c - p.source g v a c) = q := by funext g v a c; ring
  rw [e] at hd
  have hp' : Problem.Physical { p with source := q } m := ⟨hp.volume, hp.area, hp.sigma, hp.closed, hp.flow, hp.opposite⟩
  have hM' : Problem.Matched { p with source := q } m := hM
  refine (dg_bound H hp' hM' hσ hd ha hg).trans ?_
  rw [Finset.mul_sum]
  refine Finset.sum_le_sum fun c hc => ?_
  have hc := mem_range.1 hc
  have hs := hσ c hc
  have := div_le_div_of_nonneg_right (hsize c hc a ha g hg) hs.le
  refine le_trans (le_of_eq ?_) (this.trans (le_of_eq ?_))
  · show p.volume c / p.sigmaT c * _ = _
    ring
  · have := (hp.volume c hc).ne'
    field_simp

end Verif.Rounding
