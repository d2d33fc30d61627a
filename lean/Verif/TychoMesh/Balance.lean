import Verif.TychoMesh.Scatter
import Verif.Transport.Props

/-!
# Particle balance of the discretisation on the serial mesh (C83)

What flows out of the surface of the mesh plus what is absorbed is what the source puts in. `Verif.Transport.balance_mesh`
is the same for cells and incoming values given in any way; here the mesh is that of a file.
-/
set_option linter.unusedSectionVars false
set_option linter.unusedVariables false
namespace Verif.TychoMesh

open Verif.MeshFile Verif.Transport
open Verif.Traverse (Psi)

variable {K : Type} [Field K] [LinearOrder K]

/-! ### Statements -/

open Classical in
/-- What leaves the mesh in direction `a`: the integral of the outgoing flux over the faces that no other cell has. A linear
function on a triangle integrates to the area times the mean of its vertex values. -/
noncomputable def Problem.leak (p : Problem K) (m : SerialMesh) (psi : Psi K) (a g : Nat) : K :=
  ∑ c ∈ Finset.range m.numCells, ∑ f, if ∃ c' f', Across m c f c' f' then 0
    else max 0 (p.area c f * p.omegaDotN a c f) * ((∑ v ∈ Finset.univ.erase f, psi g v a c) / 3)

/-- The integral over the mesh of a function that is linear on each cell, given by its vertex values. -/
def Problem.integral (p : Problem K) (m : SerialMesh) (u : Nat → Fin 4 → K) : K :=
  ∑ c ∈ Finset.range m.numCells, p.volume c * ((∑ v, u c v) / 4)

/-! ### Proofs -/

variable {m : SerialMesh} {p : Problem K}

theorem faceOf_omits (H : Tets m) {c : Nat} {d : SCell} (hd : m.cells[c]? = some d) {σ : Fin 4 → Fin 4}
    (hσ : ∀ k e, m.faces[d.faces k]? = some e → ∀ i, (∃ j, e.nodes j = d.nodes i) ↔ i ≠ σ k) {f k : Fin 4} {g : Nat} {e : SFace}
    (h2 : d.faces k = g) (h3 : m.faces[g]? = some e) (h4 : ∀ j, e.nodes j ≠ d.nodes f) : σ k = f := by
  by_contra hne
  obtain ⟨j, hj⟩ := (hσ k e (by rw [h2]; exact h3) f).2 (Ne.symm hne)
  exact h4 j hj

/-- A face of a cell is the face of one vertex, and a vertex has one face. -/
theorem faceOf_unique (H : Tets m) {c : Nat} {f f' : Fin 4} {g g' : Nat} (h : FaceOf m c f g) (h' : FaceOf m c f' g') :
    f = f' ↔ g = g' := by
  obtain ⟨d, e, k, h1, h2, h3, h4⟩ := h
  obtain ⟨d', e', k', h1', h2', h3', h4'⟩ := h'
  rw [h1, Option.some.injEq] at h1'
  subst h1'
  obtain ⟨σ, hi, hσ⟩ := H.omits c d h1
  have e1 := faceOf_omits H h1 hσ h2 h3 h4
  have e2 := faceOf_omits H h1 hσ h2' h3' h4'
  constructor
  · rintro rfl
    rw [← h2, ← h2', hi (e1.trans e2.symm)]
  · rintro rfl
    rw [h3, Option.some.injEq] at h3'
    subst h3'
    by_contra hne
    obtain ⟨j, hj⟩ := (hσ k e (by rw [h2]; exact h3) f').2 (by rw [e1]; exact Ne.symm hne)
    exact h4' j hj

theorem across_unique (H : Tets m) {c c' c'' : Nat} {f f' f'' : Fin 4} (h : Across m c f c' f') (h' : Across m c f c'' f'') :
    c'' = c' ∧ f'' = f' := by
  obtain ⟨hne, g, h1, h2⟩ := h
  obtain ⟨hne', g', h1', h2'⟩ := h'
  obtain rfl := (faceOf_unique H h1 h1').1 rfl
  have hc : c'' = c' := by
    obtain ⟨d, e, k, a1, a2, a3, a4⟩ := h1
    obtain ⟨d', e', k', b1, b2, b3, b4⟩ := h2
    obtain ⟨d'', e'', k'', c1, c2, c3, c4⟩ := h2'
    rw [a3, Option.some.injEq] at b3 c3
    subst b3 c3
    obtain ⟨j, hj⟩ := H.toSound.lists c d k e a1 (by rw [a2]; exact a3)
    obtain ⟨j', hj'⟩ := H.toSound.lists c' d' k' e b1 (by rw [b2]; exact a3)
    obtain ⟨j'', hj''⟩ := H.toSound.lists c'' d'' k'' e c1 (by rw [c2]; exact a3)
    have : j ≠ j' := fun e' => hne (by rw [← hj, ← hj', e'])
    have : j ≠ j'' := fun e' => hne' (by rw [← hj, ← hj'', e'])
    have : j' = j'' := by omega
    rw [← hj', ← hj'', this]
  subst hc
  exact ⟨rfl, (faceOf_unique H h2' h2).2 rfl⟩

theorem Across.symm {c c' : Nat} {f f' : Fin 4} (h : Across m c f c' f') : Across m c' f' c f := by
  obtain ⟨hne, g, h1, h2⟩ := h
  exact ⟨hne.symm, g, h2, h1⟩

theorem Across.nodes (H : Tets m) {c c' : Nat} {f f' : Fin 4} (h : Across m c f c' f') {d d' : SCell} (hd : m.cells[c]? = some d)
    (hd' : m.cells[c']? = some d') {v : Fin 4} (hv : v ≠ f) : ∃ w, w ≠ f' ∧ d'.nodes w = d.nodes v := by
  obtain ⟨-, g, ⟨d0, e, k, h1, h2, h3, h4⟩, ⟨d0', e', k', h1', h2', h3', h4'⟩⟩ := h
  rw [hd, Option.some.injEq] at h1
  rw [hd', Option.some.injEq] at h1'
  subst h1 h1'
  rw [h3, Option.some.injEq] at h3'
  subst h3'
  obtain ⟨σ, -, hσ⟩ := H.omits c d hd
  have hf := faceOf_omits H hd hσ h2 h3 h4
  obtain ⟨j, hj⟩ := (hσ k e (by rw [h2]; exact h3) v).2 (by rw [hf]; exact hv)
  obtain ⟨w, hw⟩ := H.faceNode c' d' k' e hd' (by rw [h2']; exact h3) j
  refine ⟨w, ?_, hw.symm.trans hj⟩
  rintro rfl
  exact h4' j hw

theorem Across.cell (H : Tets m) {c c' : Nat} {f f' : Fin 4} (h : Across m c f c' f') : c' < m.numCells := by
  obtain ⟨-, g, -, ⟨d, e, k, h1, -⟩⟩ := h
  rw [H.toSound.cells]
  exact (List.getElem?_eq_some_iff.1 h1).1

open Classical in
/-- C83: the balance in each direction and group. -/
theorem dg_balance [IsStrictOrderedRing K] (H : Tets m) (hp : p.Physical m) (hM : p.Matched m) {psi : Psi K} (h : p.DG m psi) {a g : Nat}
    (ha : a < p.nAngles) (hg : g < p.nGroups) :
    p.leak m psi a g + p.integral m (fun c v => p.sigmaT c * psi g v a c) = p.integral m fun c v => p.source g v a c := by
  have hcell : ∀ c < m.numCells, ∃ d, m.cells[c]? = some d := fun c hc => by
    rw [H.toSound.cells] at hc
    exact ⟨_, List.getElem?_eq_getElem hc⟩
  have hch : ∀ c, ∃ inc : Fin 4 → Fin 4 → K, c < m.numCells → ∀ d, m.cells[c]? = some d →
      (∀ f v, v ≠ f → p.area c f * p.omegaDotN a c f < 0 →
        (∀ (c' : Nat) (f' : Fin 4), Across m c f c' f' → ∃ (d' : SCell) (w : Fin 4), m.cells[c']? = some d' ∧
          d'.nodes w = d.nodes v ∧ inc f v = psi g w a c') ∧
        ((∀ c' f', ¬ Across m c f c' f') → inc f v = 0)) ∧
      Spec.DG (p.volume c) (p.sigmaT c) (fun f => p.area c f * p.omegaDotN a c f) inc
        (fun v => p.source g v a c) (fun v => psi g v a c) := by
    intro c
    by_cases hc : c < m.numCells
    · obtain ⟨d, hd⟩ := hcell c hc
      obtain ⟨inc, k⟩ := h c d hd a ha g hg
      refine ⟨inc, fun _ d' hd' => ?_⟩
      rw [hd, Option.some.injEq] at hd'
      subst hd'
      exact k
    · exact ⟨fun _ _ => 0, fun h => absurd h hc⟩
  choose inc hinc using hch
  let partner : Nat → Fin 4 → Option (Nat × Fin 4) := fun c f =>
    if k : ∃ x : Nat × Fin 4, Across m c f x.1 x.2 then some k.choose else none
  have hsome : ∀ c f c' f', partner c f = some (c', f') ↔ Across m c f c' f' := by
    intro c f c' f'
    by_cases k : ∃ x : Nat × Fin 4, Across m c f x.1 x.2
    · simp only [partner, dif_pos k, Option.some.injEq]
      have hk := k.choose_spec
      constructor
      · intro e
        rw [e] at hk
        exact hk
      · intro e
        obtain ⟨e1, e2⟩ := across_unique H e hk
        exact Prod.ext e1 e2
    · simp only [partner, dif_neg k]
      constructor
      · intro e; cases e
      · intro e; exact absurd ⟨(c', f'), e⟩ k
  have hnone : ∀ c f, partner c f = none ↔ ¬ ∃ c' f', Across m c f c' f' := by
    intro c f
    constructor
    · rintro e ⟨c', f', k⟩
      rw [(hsome c f c' f').2 k] at e
      cases e
    · intro e
      cases k : partner c f with
      | none => rfl
      | some x => exact absurd ⟨x.1, x.2, (hsome c f x.1 x.2).1 k⟩ e
  let node : Nat → Fin 4 → Nat := fun c v => ((m.cells[c]?).map fun d => d.nodes v).getD 0
  have hnode : ∀ {c d}, m.cells[c]? = some d → node c = d.nodes := by
    intro c d hd; funext v; simp [node, hd]
  have key := balance_mesh (Finset.range m.numCells) p.volume p.sigmaT (fun c f => p.area c f * p.omegaDotN a c f)
    (fun c v => p.source g v a c) (fun c v => psi g v a c) inc node partner
    (fun c hc => hp.closed c (Finset.mem_range.1 hc) a ha)
    (fun c hc => by
      obtain ⟨d, hd⟩ := hcell c (Finset.mem_range.1 hc)
      exact (hinc c (Finset.mem_range.1 hc) d hd).2)
    (fun c hc v w e => by
      obtain ⟨d, hd⟩ := hcell c (Finset.mem_range.1 hc)
      rw [hnode hd] at e
      exact H.distinct c d hd e)
    (fun c hc f c' f' e => by
      have k := (hsome c f c' f').1 e
      have hc' := k.cell H
      obtain ⟨d, hd⟩ := hcell c (Finset.mem_range.1 hc)
      obtain ⟨d', hd'⟩ := hcell c' hc'
      refine ⟨Finset.mem_range.2 hc', (hsome c' f' c f).2 k.symm, ?_, fun v hv => ?_⟩
      · show p.area c' f' * p.omegaDotN a c' f' = - (p.area c f * p.omegaDotN a c f)
        rw [hM c f c' f' k, hp.opposite c f c' f' k a ha]
        ring
      · rw [hnode hd, hnode hd']
        exact k.nodes H hd hd' hv)
    (fun c hc f c' f' e hneg v w hv ew => by
      have k := (hsome c f c' f').1 e
      obtain ⟨d, hd⟩ := hcell c (Finset.mem_range.1 hc)
      obtain ⟨d', w', hd', e1, e2⟩ := (((hinc c (Finset.mem_range.1 hc) d hd).1 f v hv hneg).1 c' f' k)
      rw [hnode hd, hnode hd'] at ew
      rw [e2, H.distinct c' d' hd' (e1.trans ew.symm)])
  have e1 : ∑ x ∈ (Finset.range m.numCells ×ˢ Finset.univ).filter (fun x => partner x.1 x.2 = none),
      Spec.faceFlow (fun f => p.area x.1 f * p.omegaDotN a x.1 f) (fun v => psi g v a x.1) (inc x.1) x.2 = p.leak m psi a g := by
    rw [Finset.sum_filter, Finset.sum_product]
    unfold Problem.leak
    refine Finset.sum_congr rfl fun c hc => Finset.sum_congr rfl fun f _ => ?_
    by_cases k : ∃ c' f', Across m c f c' f'
    · rw [if_pos k, if_neg]
      rw [hnone]
      exact fun h => h k
    · rw [if_neg k, if_pos ((hnone c f).2 k)]
      obtain ⟨d, hd⟩ := hcell c (Finset.mem_range.1 hc)
      have hz := (hinc c (Finset.mem_range.1 hc) d hd).1 f
      unfold Spec.faceFlow Spec.upwind
      rcases lt_trichotomy (p.area c f * p.omegaDotN a c f) 0 with hlt | heq | hgt
      · have : ∑ v ∈ Finset.univ.erase f, (if 0 < p.area c f * p.omegaDotN a c f then psi g v a c else inc c f v) = 0 := by
          refine Finset.sum_eq_zero fun v hv => ?_
          rw [if_neg hlt.not_gt]
          exact (hz v (Finset.mem_erase.1 hv).1 hlt).2 fun c' f' h => k ⟨c', f', h⟩
        rw [this, max_eq_left hlt.le]
        ring
      · simp only [heq, max_self, zero_mul]
      · rw [max_eq_right hgt.le]
        simp only [if_pos hgt]
  rw [e1] at key
  have e2 : ∑ c ∈ Finset.range m.numCells, p.sigmaT c * Spec.cellIntegral (p.volume c) (fun v => psi g v a c) =
      p.integral m (fun c v => p.sigmaT c * psi g v a c) := by
    unfold Problem.integral Spec.cellIntegral
    refine Finset.sum_congr rfl fun c _ => ?_
    rw [← Finset.mul_sum]
    ring
  rw [e2] at key
  exact key

theorem integral_add (u u' : Nat → Fin 4 → K) :
    p.integral m (fun c v => u c v + u' c v) = p.integral m u + p.integral m u' := by
  unfold Problem.integral
  rw [← Finset.sum_add_distrib]
  refine Finset.sum_congr rfl fun c _ => ?_
  rw [Finset.sum_add_distrib]
  ring

theorem integral_mul (k : K) (u : Nat → Fin 4 → K) : p.integral m (fun c v => k * u c v) = k * p.integral m u := by
  unfold Problem.integral
  rw [Finset.mul_sum]
  refine Finset.sum_congr rfl fun c _ => ?_
  rw [← Finset.mul_sum]
  ring

theorem integral_sum {ι : Type} (s : Finset ι) (u : ι → Nat → Fin 4 → K) :
    p.integral m (fun c v => ∑ i ∈ s, u i c v) = ∑ i ∈ s, p.integral m (u i) := by
  classical
  induction s using Finset.induction with
  | empty => simp [Problem.integral]
  | insert i s hi ih =>
    rw [Finset.sum_insert hi, ← ih, ← integral_add]
    simp only [Finset.sum_insert hi]

theorem integral_congr {u u' : Nat → Fin 4 → K} (h : ∀ c < m.numCells, ∀ v, u c v = u' c v) : p.integral m u = p.integral m u' := by
  unfold Problem.integral
  refine Finset.sum_congr rfl fun c hc => ?_
  simp only [h c (Finset.mem_range.1 hc)]

/-- Summed over the directions with their weights, with the scattering of any scalar flux `phi` as further source:
leakage and collisions are source and scattering. -/
theorem lagged_balance [IsStrictOrderedRing K] (H : Tets m) (hp : p.Physical m) (hM : p.Matched m) {Y : Scattering K} {psi : Psi K}
    {phi : Nat → Fin 4 → Nat → K}
    (h : Problem.DG { p with source := fun g v a c => p.source g v a c + Y.sigmaS c / (4 * Y.pi) * phi g v c } m psi) {g : Nat}
    (hg : g < p.nGroups) :
    (∑ a ∈ Finset.range p.nAngles, Y.wt a * p.leak m psi a g) +
      p.integral m (fun c v => p.sigmaT c * ∑ a ∈ Finset.range p.nAngles, psi g v a c * Y.wt a) =
      (∑ a ∈ Finset.range p.nAngles, Y.wt a * p.integral m fun c v => p.source g v a c) +
      p.integral m fun c v => (∑ a ∈ Finset.range p.nAngles, Y.wt a) * (Y.sigmaS c / (4 * Y.pi)) * phi g v c := by
  set p' : Problem K := { p with source := fun g v a c => p.source g v a c + Y.sigmaS c / (4 * Y.pi) * phi g v c } with hp'
  have hph : p'.Physical m := ⟨hp.volume, hp.area, hp.sigma, hp.closed, hp.flow, hp.opposite⟩
  have key : ∀ a ∈ Finset.range p.nAngles, Y.wt a * p.leak m psi a g +
      Y.wt a * p.integral m (fun c v => p.sigmaT c * psi g v a c) = Y.wt a * p.integral m (fun c v => p.source g v a c) +
      Y.wt a * p.integral m (fun c v => Y.sigmaS c / (4 * Y.pi) * phi g v c) := by
    intro a ha
    have := dg_balance (p := p') H hph hM h (Finset.mem_range.1 ha) hg
    have e : p'.integral m (fun c v => p'.source g v a c) = p.integral m (fun c v => p.source g v a c) +
        p.integral m (fun c v => Y.sigmaS c / (4 * Y.pi) * phi g v c) :=
      integral_add (p := p) _ _
    rw [e] at this
    rw [← mul_add, ← mul_add, ← this]
    rfl
  have hsum := Finset.sum_congr rfl key
  rw [Finset.sum_add_distrib, Finset.sum_add_distrib, ← Finset.sum_mul (s := Finset.range p.nAngles) (f := Y.wt)] at hsum
  simp only [← integral_mul] at hsum ⊢
  rw [← integral_sum] at hsum
  have e1 : p.integral m (fun c v => p.sigmaT c * ∑ a ∈ Finset.range p.nAngles, psi g v a c * Y.wt a) =
      p.integral m (fun c v => ∑ a ∈ Finset.range p.nAngles, Y.wt a * (p.sigmaT c * psi g v a c)) := by
    refine integral_congr fun c _ v => ?_
    rw [Finset.mul_sum]
    exact Finset.sum_congr rfl fun a _ => by ring
  have e2 : p.integral m (fun c v => (∑ a ∈ Finset.range p.nAngles, Y.wt a) * (Y.sigmaS c / (4 * Y.pi)) * phi g v c) =
      p.integral m (fun c v => (∑ a ∈ Finset.range p.nAngles, Y.wt a) * (Y.sigmaS c / (4 * Y.pi) * phi g v c)) :=
    integral_congr fun c _ v => mul_assoc _ _ _
  rw [e1, e2]
  exact hsum

/-- C83: with scattering and summed over the directions with their weights: leakage plus what the material takes away, the
collisions less what is scattered, is the source. -/
theorem scatter_balance [IsStrictOrderedRing K] (H : Tets m) (hp : p.Physical m) (hM : p.Matched m) {Y : Scattering K} {psi : Psi K}
    (h : p.Scatter m Y psi) {g : Nat} (hg : g < p.nGroups) :
    (∑ a ∈ Finset.range p.nAngles, Y.wt a * p.leak m psi a g) +
      p.integral m (fun c v => (p.sigmaT c - (∑ a ∈ Finset.range p.nAngles, Y.wt a) * (Y.sigmaS c / (4 * Y.pi))) *
        ∑ a ∈ Finset.range p.nAngles, psi g v a c * Y.wt a) =
      ∑ a ∈ Finset.range p.nAngles, Y.wt a * p.integral m fun c v => p.source g v a c := by
  have := lagged_balance (Y := Y) (phi := fun g v c => ∑ b ∈ Finset.range p.nAngles, psi g v b c * Y.wt b) H hp hM h hg
  have e : p.integral m (fun c v => (p.sigmaT c - (∑ a ∈ Finset.range p.nAngles, Y.wt a) * (Y.sigmaS c / (4 * Y.pi))) *
        ∑ a ∈ Finset.range p.nAngles, psi g v a c * Y.wt a) +
      p.integral m (fun c v => (∑ a ∈ Finset.range p.nAngles, Y.wt a) * (Y.sigmaS c / (4 * Y.pi)) *
        ∑ b ∈ Finset.range p.nAngles, psi g v b c * Y.wt b) =
      p.integral m (fun c v => p.sigmaT c * ∑ a ∈ Finset.range p.nAngles, psi g v a c * Y.wt a) := by
    rw [← integral_add]
    exact integral_congr fun c _ v => by ring
  linear_combination this + e

end Verif.TychoMesh
