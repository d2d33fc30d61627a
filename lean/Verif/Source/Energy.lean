import Verif.Source.Iteration
import Mathlib.Tactic.LinearCombination
import Mathlib.Tactic.Linarith
import Mathlib.Tactic.Positivity

/-!
# The energy inequality of the upwind system

The discretisation is dissipative: absorption weighted by the flux is at most the source weighted by the
flux. This is what makes source iteration converge.
-/
set_option linter.unusedSectionVars false

namespace Verif.Source
open Classical
open Verif.Transport Verif.Traverse Verif.Domain

variable {K : Type} [Field K] [LinearOrder K]

/-- Mean over a tetrahedron of the product of two linear functions. -/
def cellM (p q : Fin 4 → K) : K := (∑ i, p i * q i + (∑ i, p i) * ∑ i, q i) / 20

/-- Mean over face `f` of the product of two linear functions. -/
def faceM (f : Fin 4) (p q : Fin 4 → K) : K :=
  (∑ i ∈ Finset.univ.erase f, p i * q i +
    (∑ i ∈ Finset.univ.erase f, p i) * ∑ i ∈ Finset.univ.erase f, q i) / 12

theorem cellM_add (k : K) (p q s : Fin 4 → K) :
    cellM (fun i => p i + k * q i) s = cellM p s + k * cellM q s := by
  simp only [cellM, Fin.sum_univ_four]; ring

theorem cellM_comm (p q : Fin 4 → K) : cellM p q = cellM q p := by
  simp only [cellM, Fin.sum_univ_four]; ring

variable [IsStrictOrderedRing K]

theorem cellM_nonneg (p : Fin 4 → K) : 0 ≤ cellM p p := by
  unfold cellM
  exact div_nonneg (add_nonneg (Finset.sum_nonneg fun i _ => mul_self_nonneg _) (mul_self_nonneg _))
    (by norm_num)

theorem cellM_zero {p : Fin 4 → K} (h : cellM p p ≤ 0) : p = 0 := by
  unfold cellM at h
  have h1 : ∑ i, p i * p i + (∑ i, p i) * ∑ i, p i ≤ 0 := by
    by_contra hc
    push Not at hc
    have := div_pos hc (by norm_num : (0 : K) < 20)
    exact absurd h (not_le.2 this)
  have h2 : ∑ i, p i * p i = 0 := le_antisymm (by nlinarith [mul_self_nonneg (∑ i, p i)])
    (Finset.sum_nonneg fun i _ => mul_self_nonneg _)
  funext i
  have := (Finset.sum_eq_zero_iff_of_nonneg (fun i _ => mul_self_nonneg (p i))).1 h2 i (Finset.mem_univ _)
  simpa using this

theorem faceM_nonneg (f : Fin 4) (p : Fin 4 → K) : 0 ≤ faceM f p p := by
  unfold faceM
  exact div_nonneg (add_nonneg (Finset.sum_nonneg fun i _ => mul_self_nonneg _) (mul_self_nonneg _))
    (by norm_num)

theorem erase0 : (Finset.univ : Finset (Fin 4)).erase 0 = {1, 2, 3} := by decide
theorem erase1 : (Finset.univ : Finset (Fin 4)).erase 1 = {0, 2, 3} := by decide
theorem erase2 : (Finset.univ : Finset (Fin 4)).erase 2 = {0, 1, 3} := by decide
theorem erase3 : (Finset.univ : Finset (Fin 4)).erase 3 = {0, 1, 2} := by decide

theorem sum3 (f : Fin 4 → K) {a b c : Fin 4} (h1 : a ≠ b) (h2 : a ≠ c) (h3 : b ≠ c) :
    ∑ i ∈ ({a, b, c} : Finset (Fin 4)), f i = f a + f b + f c := by
  rw [Finset.sum_insert (by simp [h1, h2]), Finset.sum_insert (by simp [h3]), Finset.sum_singleton, add_assoc]

theorem sum_e0 (f : Fin 4 → K) : ∑ i ∈ Finset.univ.erase 0, f i = f 1 + f 2 + f 3 := by
  rw [erase0, sum3 f (by decide) (by decide) (by decide)]
theorem sum_e1 (f : Fin 4 → K) : ∑ i ∈ Finset.univ.erase 1, f i = f 0 + f 2 + f 3 := by
  rw [erase1, sum3 f (by decide) (by decide) (by decide)]
theorem sum_e2 (f : Fin 4 → K) : ∑ i ∈ Finset.univ.erase 2, f i = f 0 + f 1 + f 3 := by
  rw [erase2, sum3 f (by decide) (by decide) (by decide)]
theorem sum_e3 (f : Fin 4 → K) : ∑ i ∈ Finset.univ.erase 3, f i = f 0 + f 1 + f 2 := by
  rw [erase3, sum3 f (by decide) (by decide) (by decide)]

/-- What leaves through a face, weighted by the flux. -/
def faceTerm (area psi : Fin 4 → K) (inc : Fin 4 → Fin 4 → K) (f : Fin 4) : K :=
  area f * (faceM f (Spec.upwind area psi inc f) psi - faceM f psi psi / 2)

/-- Energy balance of a cell. -/
theorem cell_energy {V σ : K} {area Q psi : Fin 4 → K} {inc : Fin 4 → Fin 4 → K}
    (hclosed : ∑ f, area f = 0) (h : Spec.DG V σ area inc Q psi) :
    σ * V * cellM psi psi + ∑ f, faceTerm area psi inc f = V * cellM Q psi := by
  have r : ∀ i, _ := fun i => h i
  have r0 := r 0; have r1 := r 1; have r2 := r 2; have r3 := r 3
  have pair : ∀ (f i j k : Fin 4), ({i, j, k} : Finset (Fin 4)) = Finset.univ.erase f → i ≠ j → i ≠ k →
      j ≠ k → ∀ g : Fin 4 → K, ∑ x ∈ (Finset.univ.erase f).erase i, g x = g j + g k := by
    intro f i j k h1 hij hik hjk g
    rw [← h1, Finset.erase_insert (by simp [hij, hik]), Finset.sum_insert (by simp [hjk]),
      Finset.sum_singleton]
  simp only [Spec.DGRow, sum_e0, sum_e1, sum_e2, sum_e3, Fin.sum_univ_four,
    pair 1 0 2 3 (by decide) (by decide) (by decide) (by decide),
    pair 2 0 1 3 (by decide) (by decide) (by decide) (by decide),
    pair 3 0 1 2 (by decide) (by decide) (by decide) (by decide),
    pair 0 1 2 3 (by decide) (by decide) (by decide) (by decide),
    pair 2 1 0 3 (by decide) (by decide) (by decide) (by decide),
    pair 3 1 0 2 (by decide) (by decide) (by decide) (by decide),
    pair 0 2 1 3 (by decide) (by decide) (by decide) (by decide),
    pair 1 2 0 3 (by decide) (by decide) (by decide) (by decide),
    pair 3 2 0 1 (by decide) (by decide) (by decide) (by decide),
    pair 0 3 1 2 (by decide) (by decide) (by decide) (by decide),
    pair 1 3 0 2 (by decide) (by decide) (by decide) (by decide),
    pair 2 3 0 1 (by decide) (by decide) (by decide) (by decide)] at r0 r1 r2 r3 hclosed
  simp only [faceTerm, faceM, cellM, sum_e0, sum_e1, sum_e2, sum_e3, Fin.sum_univ_four]
  linear_combination psi 0 * r0 + psi 1 * r1 + psi 2 * r2 + psi 3 * r3 -
    (psi 0 * psi 0 + psi 1 * psi 1 + psi 2 * psi 2 + psi 3 * psi 3 +
      (psi 0 + psi 1 + psi 2 + psi 3) ^ 2) / 24 * hclosed

/-- A lower bound for the term of an outgoing face. -/
theorem faceTerm_out {area psi : Fin 4 → K} {inc : Fin 4 → Fin 4 → K} {f : Fin 4} (h : 0 < area f) :
    faceTerm area psi inc f = area f / 2 * faceM f psi psi := by
  have : Spec.upwind area psi inc f = psi := by funext v; simp [Spec.upwind, h]
  unfold faceTerm
  rw [this]; ring

theorem faceM_sub (f : Fin 4) (p q : Fin 4 → K) :
    faceM f (fun v => p v - q v) (fun v => p v - q v) = faceM f p p - 2 * faceM f q p + faceM f q q := by
  fin_cases f <;> simp only [faceM, Fin.zero_eta, Fin.mk_one, Fin.reduceFinMk, sum_e0, sum_e1, sum_e2, sum_e3] <;> ring

/-- And for an incoming one. -/
theorem faceTerm_in {area psi : Fin 4 → K} {inc : Fin 4 → Fin 4 → K} {f : Fin 4} (h : area f ≤ 0) :
    area f / 2 * faceM f (inc f) (inc f) ≤ faceTerm area psi inc f := by
  have : Spec.upwind area psi inc f = inc f := by funext v; simp [Spec.upwind, not_lt.2 h]
  unfold faceTerm
  rw [this]
  have h1 := faceM_nonneg f fun v => psi v - inc f v
  rw [faceM_sub] at h1
  nlinarith [mul_nonneg (neg_nonneg.2 h) h1]

/-- Traces that agree at matched vertices have the same norm. -/
theorem faceM_match {N : Type} {f f' : Fin 4} {p q : Fin 4 → K} {node node' : Fin 4 → N}
    (hi : ∀ v w, node v = node w → v = w) (hi' : ∀ v w, node' v = node' w → v = w)
    (h1 : ∀ v, v ≠ f → ∃ w, w ≠ f' ∧ node' w = node v)
    (h2 : ∀ w, w ≠ f' → ∃ v, v ≠ f ∧ node v = node' w)
    (hv : ∀ v w, v ≠ f → node' w = node v → p v = q w) : faceM f p p = faceM f' q q := by
  have key : ∀ (F : K → K), ∑ v ∈ Finset.univ.erase f, F (p v) = ∑ w ∈ Finset.univ.erase f', F (q w) := by
    intro F
    refine Finset.sum_bij (fun v hv => (h1 v (Finset.mem_erase.1 hv).1).choose) ?_ ?_ ?_ ?_
    · intro v hv
      exact Finset.mem_erase.2 ⟨(h1 v (Finset.mem_erase.1 hv).1).choose_spec.1, Finset.mem_univ _⟩
    · intro v hv v2 hv2 e
      have e1 := (h1 v (Finset.mem_erase.1 hv).1).choose_spec.2
      have e2 := (h1 v2 (Finset.mem_erase.1 hv2).1).choose_spec.2
      apply hi
      rw [← e1, ← e2, e]
    · intro w hw
      obtain ⟨v, hv, e⟩ := h2 w (Finset.mem_erase.1 hw).1
      refine ⟨v, Finset.mem_erase.2 ⟨hv, Finset.mem_univ _⟩, ?_⟩
      apply hi'
      rw [(h1 v hv).choose_spec.2, e]
    · intro v hv'
      rw [hv v _ (Finset.mem_erase.1 hv').1 (h1 v (Finset.mem_erase.1 hv').1).choose_spec.2]
  unfold faceM
  rw [key (fun x => x * x), key (fun x => x)]

/-- The energy inequality on a mesh: `partner` gives the cell and face across a face, `none` where
nothing comes in. -/
theorem mesh_energy {ι N : Type} (cells : Finset ι) (V σ : ι → K)
    (area Q psi : ι → Fin 4 → K) (inc : ι → Fin 4 → Fin 4 → K) (node : ι → Fin 4 → N)
    (partner : ι → Fin 4 → Option (ι × Fin 4))
    (hclosed : ∀ c ∈ cells, ∑ f, area c f = 0)
    (hdg : ∀ c ∈ cells, Spec.DG (V c) (σ c) (area c) (inc c) (Q c) (psi c))
    (hinj : ∀ c ∈ cells, ∀ v w, node c v = node c w → v = w)
    (hpart : ∀ c ∈ cells, ∀ f c' f', partner c f = some (c', f') →
      c' ∈ cells ∧ partner c' f' = some (c, f) ∧ area c' f' = - area c f ∧
      ∀ v, v ≠ f → ∃ w, w ≠ f' ∧ node c' w = node c v)
    (hinc : ∀ c ∈ cells, ∀ f c' f', partner c f = some (c', f') → area c f < 0 →
      ∀ v w, v ≠ f → node c' w = node c v → inc c f v = psi c' w)
    (hbd : ∀ c ∈ cells, ∀ f, partner c f = none → area c f < 0 → ∀ v, v ≠ f → inc c f v = 0) :
    ∑ c ∈ cells, σ c * V c * cellM (psi c) (psi c) ≤ ∑ c ∈ cells, V c * cellM (Q c) (psi c) := by
  have hE : ∑ c ∈ cells, V c * cellM (Q c) (psi c) =
      ∑ c ∈ cells, σ c * V c * cellM (psi c) (psi c) +
        ∑ c ∈ cells, ∑ f, faceTerm (area c) (psi c) (inc c) f := by
    rw [← Finset.sum_add_distrib]
    exact Finset.sum_congr rfl fun c hc => (cell_energy (hclosed c hc) (hdg c hc)).symm
  rw [hE]
  refine le_add_of_nonneg_right ?_
  -- lower bounds, antisymmetric across faces
  let h : ι × Fin 4 → K := fun p =>
    match partner p.1 p.2 with
    | none => 0
    | some (c', f') =>
      if 0 < area p.1 p.2 then area p.1 p.2 / 2 * faceM p.2 (psi p.1) (psi p.1)
      else area p.1 p.2 / 2 * faceM f' (psi c') (psi c')
  have hle : ∀ p ∈ cells ×ˢ (Finset.univ : Finset (Fin 4)),
      h p ≤ faceTerm (area p.1) (psi p.1) (inc p.1) p.2 := by
    rintro ⟨c, f⟩ hp
    have hc := (Finset.mem_product.1 hp).1
    simp only [h]
    rcases hq : partner c f with _ | ⟨c', f'⟩
    · rcases lt_trichotomy (area c f) 0 with hneg | h0 | hpos
      · have h1 := faceTerm_in (psi := psi c) (inc := inc c) hneg.le
        have h2 : faceM f (inc c f) (inc c f) = 0 := by
          have : ∀ i ∈ Finset.univ.erase f, inc c f i = 0 :=
            fun i hi => hbd c hc f hq hneg i (Finset.mem_erase.1 hi).1
          unfold faceM
          rw [Finset.sum_eq_zero fun i hi => by rw [this i hi, mul_zero], Finset.sum_eq_zero this]
          simp
        rw [h2, mul_zero] at h1
        exact h1
      · simp [faceTerm, h0]
      · show 0 ≤ faceTerm (area c) (psi c) (inc c) f
        rw [faceTerm_out hpos]
        exact mul_nonneg (by linarith) (faceM_nonneg _ _)
    · obtain ⟨h1, h2, h3, h4⟩ := hpart c hc f c' f' hq
      obtain ⟨-, -, -, h4'⟩ := hpart c' h1 f' c f h2
      show (if 0 < area c f then area c f / 2 * faceM f (psi c) (psi c)
        else area c f / 2 * faceM f' (psi c') (psi c')) ≤ _
      rcases lt_trichotomy (area c f) 0 with hneg | h0 | hpos
      · rw [if_neg (not_lt.2 hneg.le)]
        have := faceTerm_in (psi := psi c) (inc := inc c) hneg.le
        rwa [faceM_match (hinj c hc) (hinj c' h1) h4 h4' (hinc c hc f c' f' hq hneg)] at this
      · simp [faceTerm, h0]
      · rw [if_pos hpos, faceTerm_out hpos]
  have hsum : ∑ p ∈ cells ×ˢ (Finset.univ : Finset (Fin 4)), h p = 0 := by
    have hanti : ∀ c ∈ cells, ∀ f c' f', partner c f = some (c', f') → h (c, f) + h (c', f') = 0 := by
      intro c hc f c' f' hq
      obtain ⟨h1, h2, h3, h4⟩ := hpart c hc f c' f' hq
      simp only [h]
      rw [hq, h2]
      show (if 0 < area c f then area c f / 2 * faceM f (psi c) (psi c)
        else area c f / 2 * faceM f' (psi c') (psi c')) +
        (if 0 < area c' f' then area c' f' / 2 * faceM f' (psi c') (psi c')
        else area c' f' / 2 * faceM f (psi c) (psi c)) = 0
      rw [h3]
      rcases lt_trichotomy (area c f) 0 with hneg | h0 | hpos
      · rw [if_neg (not_lt.2 hneg.le), if_pos (by linarith)]; ring
      · simp [h0]
      · rw [if_pos hpos, if_neg (by linarith)]; ring
    refine Finset.sum_involution (fun p _ => match partner p.1 p.2 with
      | none => p
      | some q => q) ?_ ?_ ?_ ?_
    · rintro ⟨c, f⟩ hp
      have hc := (Finset.mem_product.1 hp).1
      rcases hq : partner c f with _ | ⟨c', f'⟩
      · simp [h, hq]
      · simp only; exact hanti c hc f c' f' hq
    · rintro ⟨c, f⟩ hp hne he
      have hc := (Finset.mem_product.1 hp).1
      rcases hq : partner c f with _ | ⟨c', f'⟩
      · exact hne (by simp [h, hq])
      · simp only [hq] at he
        have := hanti c hc f c' f' hq
        rw [he] at this
        apply hne
        linarith
    · rintro ⟨c, f⟩ hp
      have hc := (Finset.mem_product.1 hp).1
      rcases hq : partner c f with _ | ⟨c', f'⟩
      · simpa [hq] using hc
      · simpa [hq] using (hpart c hc f c' f' hq).1
    · rintro ⟨c, f⟩ hp
      have hc := (Finset.mem_product.1 hp).1
      rcases hq : partner c f with _ | ⟨c', f'⟩
      · simp [hq]
      · simp [(hpart c hc f c' f' hq).2.1]
  rw [← Finset.sum_product' cells Finset.univ fun c f => faceTerm (area c) (psi c) (inc c) f, ← hsum]
  exact Finset.sum_le_sum hle

end Verif.Source
