import Verif.Program.Hat
import Verif.Program.Balance
import Verif.Program.Decomposed
import Verif.Source.Stability

/-!
# How far the printed error can be from zero (C84)

An a priori bound of what the program prints: the distance between the computed flux and the flux the source is made for, by
the size and shape of the cells.
-/
set_option linter.unusedSectionVars false
set_option linter.unusedVariables false
namespace Verif.Program

open Verif.MeshFile Verif.TychoMesh Verif.Geometry Verif.Program.Spec
open Verif.Traverse (Psi SweepRun)
open Verif.Input (Str Settings readInput SweepType)
open Verif.Source
open Verif.Domain (FullDG)
open Verif.Schedule (Sweeping AwayFrom Variant)

/-! ### Statements -/

/-- Size and shape of the cells, and the smallest cross section and weight. -/
structure Spec.Shape (val : Nat → ℝ) (deck : Deck) (m : SerialMesh) (p : Problem ℝ) (h η σ₀ w₀ : ℝ) : Prop where
  /-- no edge is longer than `h` -/
  edges : ∀ c < m.numCells, ∀ v w, Apart h (pts val m c v) (pts val m c w)
  /-- no height is shorter than `η` -/
  heights : ∀ c < m.numCells, ∀ f, η * p.area c f ≤ 3 * p.volume c
  /-- the mesh covers the ball outside of which the flux vanishes: vertices of the surface are not inside -/
  surface : ∀ c < m.numCells, ∀ f, (∀ c' f', ¬ Across m c f c' f') → ∀ v, v ≠ f → 30 ≤ radius (pts val m c v)
  sigma : ∀ c < m.numCells, σ₀ ≤ p.sigmaT c
  weight : ∀ d ∈ deck.dirs, w₀ ≤ d.w
  eta_pos : 0 < η
  sigma_pos : 0 < σ₀
  weight_pos : 0 < w₀

/-- The flux is smooth on the cell: vertices and centre are on the same side of the sphere where the flux has a kink, and not
nearer than `ρ` to the centre where it has a tip. -/
def Spec.Smooth (val : Nat → ℝ) (m : SerialMesh) (ρ : ℝ) (c : Nat) : Prop :=
  (∀ x : Pt, (x = centroid val m c ∨ ∃ v, x = pts val m c v) → ρ ≤ radius x ∧ radius x ≤ 30) ∨
  ∀ x : Pt, (x = centroid val m c ∨ ∃ v, x = pts val m c v) → 30 < radius x

open Classical in
/-- How many cells are not smooth, of one. -/
noncomputable def Spec.roughness (val : Nat → ℝ) (m : SerialMesh) (ρ : ℝ) : ℝ :=
  ((Finset.range m.numCells).filter fun c => ¬ Smooth val m ρ c).card / m.numCells

/-- By how much the exact flux fails the discrete equations, in the mean: first order on cells where it is smooth; the tables
of the quadrature are accurate to fourteen digits. -/
noncomputable def Spec.truncation (deck : Deck) (h η ρ β : ℝ) : ℝ :=
  let ε := max deck.sigmaS1 deck.sigmaS2 / (2 * 10 ^ 14)
  √(β * (h / (5 * η) + ε) ^ 2 + (h ^ 2 / (20 * ρ * η) + ε) ^ 2)

/-- By how much the mean of the exact flux at the vertices misses its value at the centre, in the mean. -/
noncomputable def Spec.misfit (val : Nat → ℝ) (m : SerialMesh) : ℝ :=
  √((∑ c ∈ Finset.range m.numCells, ((∑ v, exact (pts val m c v)) / 4 - exact (centroid val m c)) ^ 2) / m.numCells)

/-- The bound: by the size and shape of the cells, the scattering ratio and the roughness. -/
noncomputable def Spec.accuracy (val : Nat → ℝ) (deck : Deck) (m : SerialMesh) (h η ρ σ₀ w₀ κ b B : ℝ) : ℝ :=
  √(weights deck * B / (deck.dirs.length * w₀ * b)) / (σ₀ * (1 - κ)) * truncation deck h η ρ (roughness val m ρ) + misfit val m

/-- Number of the values that are compared. -/
def Spec.count (deck : Deck) (m : SerialMesh) : ℝ := m.numCells * (deck.dirs.length * deck.nGroups)

/-- Root mean square of the exact flux at the centres of the cells. -/
noncomputable def Spec.height (val : Nat → ℝ) (m : SerialMesh) : ℝ :=
  √((∑ c ∈ Finset.range m.numCells, exact (centroid val m c) ^ 2) / m.numCells)

/-! ### Proofs -/

section
variable {ι : Type} (s : Finset ι)

theorem sqrt_sum_add (f g : ι → ℝ) : √(∑ i ∈ s, (f i + g i) ^ 2) ≤ √(∑ i ∈ s, f i ^ 2) + √(∑ i ∈ s, g i ^ 2) := by
  have hf : 0 ≤ ∑ i ∈ s, f i ^ 2 := Finset.sum_nonneg fun _ _ => sq_nonneg _
  have hg : 0 ≤ ∑ i ∈ s, g i ^ 2 := Finset.sum_nonneg fun _ _ => sq_nonneg _
  refine Real.sqrt_le_iff.2 ⟨by positivity, ?_⟩
  have cs := Real.sum_mul_le_sqrt_mul_sqrt s f g
  have e : ∑ i ∈ s, (f i + g i) ^ 2 = ∑ i ∈ s, f i ^ 2 + 2 * ∑ i ∈ s, f i * g i + ∑ i ∈ s, g i ^ 2 := by
    rw [Finset.mul_sum, ← Finset.sum_add_distrib, ← Finset.sum_add_distrib]
    exact Finset.sum_congr rfl fun i _ => by ring
  rw [e, add_sq, Real.sq_sqrt hf, Real.sq_sqrt hg]
  linarith

end

theorem total_product (deck : Deck) (m : SerialMesh) (f : Nat → Nat → Nat → ℝ) :
    total deck m f = ∑ q ∈ Finset.range m.numCells ×ˢ (Finset.range deck.dirs.length ×ˢ Finset.range deck.nGroups), f q.1 q.2.1 q.2.2 := by
  unfold total
  rw [Finset.sum_product]
  refine Finset.sum_congr rfl fun c _ => ?_
  rw [Finset.sum_product]

/-- Distances of three fields add. -/
theorem total_triangle (deck : Deck) (m : SerialMesh) (f g : Nat → Nat → Nat → ℝ) :
    √(total deck m fun c a i => (f c a i + g c a i) ^ 2) ≤ √(total deck m fun c a i => f c a i ^ 2) + √(total deck m fun c a i => g c a i ^ 2) := by
  simp only [total_product]
  exact sqrt_sum_add _ (fun q : Nat × Nat × Nat => f q.1 q.2.1 q.2.2) fun q => g q.1 q.2.1 q.2.2

theorem total_le {deck : Deck} {m : SerialMesh} {f g : Nat → Nat → Nat → ℝ}
    (h : ∀ c < m.numCells, ∀ a < deck.dirs.length, ∀ i < deck.nGroups, f c a i ≤ g c a i) : total deck m f ≤ total deck m g := by
  unfold total
  exact Finset.sum_le_sum fun c hc => Finset.sum_le_sum fun a ha => Finset.sum_le_sum fun i hi =>
    h c (Finset.mem_range.1 hc) a (Finset.mem_range.1 ha) i (Finset.mem_range.1 hi)

theorem total_cells (deck : Deck) (m : SerialMesh) (f : Nat → ℝ) :
    total deck m (fun c _ _ => f c) = deck.dirs.length * deck.nGroups * ∑ c ∈ Finset.range m.numCells, f c := by
  unfold total
  simp only [Finset.sum_const, Finset.card_range, nsmul_eq_mul]
  rw [Finset.mul_sum]
  exact Finset.sum_congr rfl fun c _ => by ring

theorem mean_cellM (p : Fin 4 → ℝ) : ((∑ v, p v) / 4) ^ 2 ≤ cellM p p := by
  simp only [cellM, Fin.sum_univ_four]
  nlinarith [sq_nonneg (p 0 - p 1), sq_nonneg (p 0 - p 2), sq_nonneg (p 0 - p 3), sq_nonneg (p 1 - p 2), sq_nonneg (p 1 - p 3),
    sq_nonneg (p 2 - p 3)]

variable {W : World} {C : Machine} {val : Nat → ℝ} {deck : Deck} {m : SerialMesh} {M : Mode} {P : ParallelMesh}
  {T : Nat → Mesh} {D : Nat → RankData} {p : Problem ℝ} {sS : Nat → ℝ} {κ b B h η ρ σ₀ w₀ : ℝ} {file g : List UInt8}
  {s : Settings ℝ} {mesh input : Str} {rest : List Str}

/-! ### Stability on the serial mesh -/

/-- The energy of a solution on the serial mesh is bounded by its source. -/
theorem serial_load {pv : List Nat} {n : Nat} {R : SweepRun ℝ} {X : Scat ℝ} {Y : Scattering ℝ} (hC : Created m pv n P)
    (hn : n < uintMax) (hL : Loaded val P T) (hph : p.Physical m) (hM : p.Matched m) (htr : p.Transversal m)
    (hR : RunOf p n T R) (hX : ScatOf p Y n T X) (hκ : p.Ratio m Y κ) (h1 : κ < 1)
    (hσ : ∀ c < m.numCells, 0 < p.sigmaT c) {psi : Psi ℝ} (hS : p.Scatter m Y psi) {g : Nat} (hg : g < p.nGroups) :
    (1 - κ) ^ 2 * ∑ a ∈ Finset.range p.nAngles, Y.wt a * ∑ c ∈ Finset.range m.numCells,
        p.sigmaT c * p.volume c * cellM (fun v => psi g v a c) (fun v => psi g v a c) ≤
      ∑ a ∈ Finset.range p.nAngles, Y.wt a * ∑ c ∈ Finset.range m.numCells,
        p.volume c / p.sigmaT c * cellM (fun v => p.source g v a c) fun v => p.source g v a c := by
  have hPh := run_physical hC hL hph hR
  have hLi := run_linked hC hn hL hph hR
  have hN := run_nodes hC hL hR
  have hMa := run_matched hC hL hph hM hR htr
  have hr := run_ratio hC hL hR hX hκ
  let star : Nat → Psi ℝ := fun r g v a i => psi g v a (((T r).getLGCell i).getD 0)
  have hst : ∀ r i c, IsCell P r i c → ∀ g v a, star r g v a i = psi g v a c := by
    intro r i c hi g v a
    show psi g v a (((T r).getLGCell i).getD 0) = _
    rw [(isCell_lg hC hL hi).1]; rfl
  have hsc := (scatters_iff (psi := star) hC hL hR hX hst).2 hS
  have key := load_energy (g := g) hPh hLi hN hMa hr h1 hsc (by rw [hR.groups]; exact hg) ?_
  · have wt : ∀ F : Nat → ℝ, ∑ a ∈ Finset.range R.nAngles, X.wt a * F a = ∑ a ∈ Finset.range p.nAngles, Y.wt a * F a := by
      intro F
      rw [hR.angles]
      exact Finset.sum_congr rfl fun a ha => by rw [hX.wt a (Finset.mem_range.1 ha)]
    unfold Verif.Source.load at key
    rw [wt, wt] at key
    have mesh : ∀ (F : Nat → Nat → ℝ) (G : Nat → ℝ), (∀ r i c, IsCell P r i c → F r i = G c) →
        meshSum R F = ∑ c ∈ Finset.range m.numCells, G c := by
      intro F G hFG
      rw [← sum_cells hC hL F G hFG]
      unfold meshSum
      rw [hR.ranks]
      exact Finset.sum_congr rfl fun r hr => by rw [hR.cells r (Finset.mem_range.1 hr)]
    have e1 : ∀ a, energyAt R a g star = ∑ c ∈ Finset.range m.numCells,
        p.sigmaT c * p.volume c * cellM (fun v => psi g v a c) fun v => psi g v a c := by
      intro a
      refine mesh _ _ fun r i c hi => ?_
      obtain ⟨k1, k2, -, -⟩ := isCell_lg hC hL hi
      rw [hR.sigma r k2 i c k1, hR.volume r k2 i c k1]
      simp only [hst r i c hi]
    have e2 : ∀ a < p.nAngles, (meshSum R fun r c => (R.view r).cellVolume c / R.sigmaT r c *
        cellM (fun v => R.source r g v a c) fun v => R.source r g v a c) = ∑ c ∈ Finset.range m.numCells,
        p.volume c / p.sigmaT c * cellM (fun v => p.source g v a c) fun v => p.source g v a c := by
      intro a ha
      refine mesh _ _ fun r i c hi => ?_
      obtain ⟨k1, k2, -, -⟩ := isCell_lg hC hL hi
      rw [hR.sigma r k2 i c k1, hR.volume r k2 i c k1]
      simp only [hR.source r k2 i c k1 g hg _ a ha]
    simp only [e1] at key
    refine key.trans_eq (Finset.sum_congr rfl fun a ha => ?_)
    rw [e2 a (Finset.mem_range.1 ha)]
  · intro r hr i hi
    rw [hR.ranks] at hr
    rw [hR.cells r hr] at hi
    obtain ⟨c, hc⟩ := isCell_of_lt hC hL hr hi
    obtain ⟨k1, -, -, k4⟩ := isCell_lg hC hL hc
    rw [hR.sigma r hr i c k1]
    exact hσ c k4

/-! ### Truncation -/

section
variable (Sh : Shape val deck m p h η σ₀ w₀)
include Sh

theorem edge_nonneg {c : Nat} (hc : c < m.numCells) : 0 ≤ h := (Sh.edges c hc 0 0).1

theorem centroid_apart {c : Nat} (hc : c < m.numCells) (v : Fin 4) : Apart (3 * h / 4) (centroid val m c) (pts val m c v) := by
  have h0 := edge_nonneg Sh hc
  refine ⟨by positivity, ?_⟩
  have e := fun w => (Sh.edges c hc w v).2
  unfold centroid
  simp only [Fin.sum_univ_four]
  set x := pts val m c
  have tri : ∀ a b c : ℝ, (a + b + c) ^ 2 ≤ 3 * (a ^ 2 + b ^ 2 + c ^ 2) := fun a b c => by
    nlinarith [sq_nonneg (a - b), sq_nonneg (a - c), sq_nonneg (b - c)]
  have key : ∀ i j k : Fin 4, (∀ l, x 0 l + x 1 l + x 2 l + x 3 l = x v l + x i l + x j l + x k l) →
      (x v 0 - (x 0 0 + x 1 0 + x 2 0 + x 3 0) / 4) ^ 2 + (x v 1 - (x 0 1 + x 1 1 + x 2 1 + x 3 1) / 4) ^ 2 +
        (x v 2 - (x 0 2 + x 1 2 + x 2 2 + x 3 2) / 4) ^ 2 ≤ (3 * h / 4) ^ 2 := by
    intro i j k hs
    rw [hs 0, hs 1, hs 2]
    have q := fun l => tri (x v l - x i l) (x v l - x j l) (x v l - x k l)
    have r : ∀ l, (x v l - (x v l + x i l + x j l + x k l) / 4) ^ 2 = ((x v l - x i l) + (x v l - x j l) + (x v l - x k l)) ^ 2 / 16 := by
      intro l; ring
    rw [r 0, r 1, r 2]
    have := e i
    have := e j
    have := e k
    have := q 0
    have := q 1
    have := q 2
    nlinarith
  match v with
  | 0 => exact key 1 2 3 fun l => by ring
  | 1 => exact key 0 2 3 fun l => by ring
  | 2 => exact key 0 1 3 fun l => by ring
  | 3 => exact key 0 1 2 fun l => by ring

open Classical in
/-- The mean of the vertices against the value at the centre. -/
theorem mean_exact (h0 : 0 < ρ) {c : Nat} (hc : c < m.numCells) :
    |(∑ v, exact (pts val m c v)) / 4 - exact (centroid val m c)| ≤ if Smooth val m ρ c then 3 * h ^ 2 / (320 * ρ) else h / 40 := by
  have hA := fun v => centroid_apart Sh hc v
  split
  · rename_i hS
    have hsl : ∑ v, slope (centroid val m c) (fun k => pts val m c v k - centroid val m c k) = 0 := by
      unfold slope
      split
      · simp only [Fin.sum_univ_four, centroid]
        ring
      · simp
    have e : (∑ v, exact (pts val m c v)) / 4 - exact (centroid val m c) = (∑ v, rem (centroid val m c) (pts val m c v)) / 4 := by
      unfold rem
      rw [Finset.sum_sub_distrib, hsl, Finset.sum_sub_distrib]
      simp
      ring
    have k : ∀ v, |rem (centroid val m c) (pts val m c v)| ≤ 3 * h ^ 2 / (320 * ρ) := by
      intro v
      rcases hS with hS | hS
      · have q1 := hS _ (.inl rfl)
        have q2 := hS (pts val m c v) (.inr ⟨v, rfl⟩)
        have := rem_smooth (hA v) h0 q1.1 q1.2 q2.2
        refine this.trans_eq ?_
        field_simp
        ring
      · rw [rem_far (hS _ (.inl rfl)) (hS _ (.inr ⟨v, rfl⟩)), abs_zero]
        positivity
    rw [e, abs_div, abs_of_pos (by norm_num : (0 : ℝ) < 4), div_le_iff₀ (by norm_num)]
    refine (Finset.abs_sum_le_sum_abs _ _).trans ((Finset.sum_le_sum fun v _ => k v).trans_eq ?_)
    simp
    ring
  · have e : (∑ v, exact (pts val m c v)) / 4 - exact (centroid val m c) =
        (∑ v, (exact (pts val m c v) - exact (centroid val m c))) / 4 := by
      rw [Finset.sum_sub_distrib]
      simp
      ring
    rw [e, abs_div, abs_of_pos (by norm_num : (0 : ℝ) < 4), div_le_iff₀ (by norm_num)]
    refine (Finset.abs_sum_le_sum_abs _ _).trans ((Finset.sum_le_sum fun v _ => exact_near (hA v)).trans_eq ?_)
    simp
    ring

open Classical in
/-- What the exact flux leaves of the discrete equations. -/
theorem defect_le (H : Tets m) (hs : Sensible val deck m) (F : Fits val m) (Ds : Describes val deck m p sS) (hκ : Subcritical deck κ)
    (hW : |weights deck - 4 * Real.pi| ≤ 2 * Real.pi / 10 ^ 14) (h0 : 0 < ρ) {c : Nat} (hc : c < m.numCells) {a : Nat}
    (ha : a < deck.dirs.length) {g : Nat} (hg : g < deck.nGroups) (v : Fin 4) :
    |p.defect (scattering deck sS) (fun c v => exact (pts val m c v)) g v a c| ≤
      (if Smooth val m ρ c then h ^ 2 / (20 * ρ * η) else h / (5 * η)) + max deck.sigmaS1 deck.sigmaS2 / (2 * 10 ^ 14) := by
  have hh := edge_nonneg Sh hc
  have hη := Sh.eta_pos
  have hV := (describes_physical H F hs Ds).volume c hc
  rw [defect_eq H hs F Ds hc ha hg v _ rfl]
  refine (abs_add_le _ _).trans (add_le_add ?_ ?_)
  · have key : ∀ τ : ℝ, (∀ f, f ≠ v → |rem (pts val m c v) (pts val m c f)| ≤ τ) →
        |(∑ f, p.area c f * p.omegaDotN a c f * rem (pts val m c v) (pts val m c f)) / (3 * p.volume c)| ≤ 3 * τ / η := by
      intro τ hτ
      have self : rem (pts val m c v) (pts val m c v) = 0 := by
        unfold rem slope
        simp
      rw [abs_div, abs_of_pos (by positivity : 0 < 3 * p.volume c), div_le_div_iff₀ (by positivity) hη,
        ← Finset.add_sum_erase _ _ (Finset.mem_univ v), self, mul_zero, zero_add]
      have one : ∀ f ∈ Finset.univ.erase v, |p.area c f * p.omegaDotN a c f * rem (pts val m c v) (pts val m c f)| * η ≤
          3 * p.volume c * τ := by
        intro f hf
        have q1 := hτ f (Finset.ne_of_mem_erase hf)
        have q2 := flow_le hs F Ds hc ha f
        have q3 := Sh.heights c hc f
        rw [abs_mul]
        have q0 : 0 ≤ τ := (abs_nonneg _).trans q1
        calc |p.area c f * p.omegaDotN a c f| * |rem (pts val m c v) (pts val m c f)| * η
            ≤ p.area c f * τ * η := mul_le_mul_of_nonneg_right (mul_le_mul q2 q1 (abs_nonneg _) ((abs_nonneg _).trans q2)) hη.le
          _ = η * p.area c f * τ := by ring
          _ ≤ _ := by gcongr
      calc |∑ f ∈ Finset.univ.erase v, p.area c f * p.omegaDotN a c f * rem (pts val m c v) (pts val m c f)| * η
          ≤ (∑ f ∈ Finset.univ.erase v, |p.area c f * p.omegaDotN a c f * rem (pts val m c v) (pts val m c f)|) * η := by
            gcongr; exact Finset.abs_sum_le_sum_abs _ _
        _ = ∑ f ∈ Finset.univ.erase v, |p.area c f * p.omegaDotN a c f * rem (pts val m c v) (pts val m c f)| * η := Finset.sum_mul _ _ _
        _ ≤ ∑ f ∈ Finset.univ.erase v, 3 * p.volume c * τ := Finset.sum_le_sum one
        _ = _ := by
            rw [Finset.sum_const, Finset.card_erase_of_mem (Finset.mem_univ v)]
            simp
            ring
    split
    · rename_i hS
      refine (key (h ^ 2 / (60 * ρ)) fun f _ => ?_).trans_eq (by field_simp; ring)
      rcases hS with hS | hS
      · have q1 := hS _ (.inr ⟨v, rfl⟩)
        exact rem_smooth (Sh.edges c hc v f) h0 q1.1 q1.2 (hS _ (.inr ⟨f, rfl⟩)).2
      · rw [rem_far (hS _ (.inr ⟨v, rfl⟩)) (hS _ (.inr ⟨f, rfl⟩)), abs_zero]
        positivity
    · refine (key (h / 15) fun f _ => ?_).trans_eq (by field_simp; ring)
      exact rem_any (Sh.edges c hc v f) ((radius_nonneg _).lt_of_ne' (hs.centre c hc v))
  · have hpi := Real.pi_pos
    have hws : ∑ b ∈ Finset.range p.nAngles, (scattering deck sS).wt b = weights deck := by rw [Ds.angles]; exact weight_sum deck sS
    have hc' : c < m.cells.length := by rw [← H.toSound.cells]; exact hc
    obtain ⟨k1, k2⟩ : 0 ≤ sS c ∧ sS c ≤ max deck.sigmaS1 deck.sigmaS2 := by
      rcases Ds.sigma c _ (List.getElem?_eq_getElem hc') with ⟨-, -, q⟩ | ⟨-, -, q⟩
      · rw [q]; exact ⟨hκ.sigma1, le_max_left _ _⟩
      · rw [q]; exact ⟨hκ.sigma2, le_max_right _ _⟩
    rw [hws, abs_mul, abs_mul, abs_of_nonneg k1, abs_of_nonneg (exact_nonneg _)]
    have e : weights deck / (4 * (scattering deck sS).pi) - 1 = (weights deck - 4 * Real.pi) / (4 * Real.pi) := by
      show weights deck / (4 * Real.pi) - 1 = _
      field_simp
    have q : |weights deck / (4 * (scattering deck sS).pi) - 1| ≤ 1 / (2 * 10 ^ 14) := by
      rw [e, abs_div, abs_of_pos (by positivity : 0 < 4 * Real.pi), div_le_iff₀ (by positivity)]
      refine hW.trans_eq ?_
      ring
    calc sS c * |weights deck / (4 * (scattering deck sS).pi) - 1| * exact (pts val m c v)
        ≤ max deck.sigmaS1 deck.sigmaS2 * (1 / (2 * 10 ^ 14)) * 1 := by
          have q3 := k1.trans k2
          exact mul_le_mul (mul_le_mul k2 q (abs_nonneg _) q3) (exact_le _) (exact_nonneg _) (by positivity)
      _ = _ := by ring

open Classical in
/-- A quantity that differs between smooth and other cells, over the mesh. -/
theorem rough_sum (hN : 0 < m.numCells) (A B : ℝ) :
    ∑ c ∈ Finset.range m.numCells, (if Smooth val m ρ c then A else B) ^ 2 ≤ m.numCells * (roughness val m ρ * B ^ 2 + A ^ 2) := by
  have e : ∀ c, (if Smooth val m ρ c then A else B) ^ 2 ≤ (if ¬ Smooth val m ρ c then B ^ 2 else 0) + A ^ 2 := by
    intro c
    by_cases hS : Smooth val m ρ c
    · simp [hS]
    · simp only [hS, if_false, not_false_eq_true, if_true]
      nlinarith [sq_nonneg A]
  refine (Finset.sum_le_sum fun c _ => e c).trans (le_of_eq ?_)
  have hN' : (m.numCells : ℝ) ≠ 0 := by exact_mod_cast hN.ne'
  rw [Finset.sum_add_distrib, ← Finset.sum_filter, Finset.sum_const, Finset.sum_const, Finset.card_range]
  unfold roughness
  simp only [nsmul_eq_mul]
  field_simp

end

theorem roughness_nonneg (val : Nat → ℝ) (m : SerialMesh) (ρ : ℝ) : 0 ≤ roughness val m ρ := by
  unfold roughness; positivity

open Classical in
theorem roughness_le_one (val : Nat → ℝ) (m : SerialMesh) (ρ : ℝ) : roughness val m ρ ≤ 1 := by
  unfold roughness
  refine div_le_one_of_le₀ ?_ (Nat.cast_nonneg _)
  exact_mod_cast (Finset.card_filter_le _ _).trans_eq (Finset.card_range _)

theorem sqrt_two {β x y : ℝ} (hβ : 0 ≤ β) (hx : 0 ≤ x) (hy : 0 ≤ y) : √(β * x ^ 2 + y ^ 2) ≤ √β * x + y := by
  have h := Real.sqrt_nonneg β
  refine Real.sqrt_le_iff.2 ⟨by positivity, ?_⟩
  rw [add_sq, mul_pow, Real.sq_sqrt hβ]
  have : 0 ≤ √β * x * y := by positivity
  linarith

open Classical in
theorem misfit_le (Sh : Shape val deck m p h η σ₀ w₀) (hN : 0 < m.numCells) (h0 : 0 < ρ) :
    misfit val m ≤ √(roughness val m ρ) * (h / 40) + 3 * h ^ 2 / (320 * ρ) := by
  have hh := edge_nonneg Sh hN
  have hNr : 0 < (m.numCells : ℝ) := by exact_mod_cast hN
  refine le_trans ?_ (sqrt_two (roughness_nonneg val m ρ) (by positivity) (by positivity))
  unfold misfit
  refine Real.sqrt_le_sqrt ?_
  rw [div_le_iff₀ hNr]
  have k : ∑ c ∈ Finset.range m.numCells, ((∑ v, exact (pts val m c v)) / 4 - exact (centroid val m c)) ^ 2 ≤
      ∑ c ∈ Finset.range m.numCells, (if Smooth val m ρ c then 3 * h ^ 2 / (320 * ρ) else h / 40) ^ 2 := by
    refine Finset.sum_le_sum fun c hc => ?_
    have := mean_exact Sh h0 (Finset.mem_range.1 hc)
    exact sq_le_sq' (abs_le.1 this).1 (abs_le.1 this).2
  linarith [k.trans (rough_sum Sh hN _ _)]

/-- C84: the order of the bound. For cells of the same shape (`h / η` bounded) it is the root of the share of cells at the kink
and the tip, plus a term that is proportional to `h`, plus the digits of the quadrature. -/
theorem accuracy_order (Sh : Shape val deck m p h η σ₀ w₀) (hκ : Subcritical deck κ) (h1 : κ < 1) (hN : 0 < m.numCells) (h0 : 0 < ρ) :
    let K := √(weights deck * B / (deck.dirs.length * w₀ * b)) / (σ₀ * (1 - κ))
    let ε := max deck.sigmaS1 deck.sigmaS2 / (2 * 10 ^ 14)
    accuracy val deck m h η ρ σ₀ w₀ κ b B ≤ √(roughness val m ρ) * (K * (h / η) / 5 + h / 40) +
      h * (K * (h / η) / (20 * ρ) + 3 * h / (320 * ρ)) + 2 * K * ε := by
  intro K ε
  have hh := edge_nonneg Sh hN
  have hη := Sh.eta_pos
  have hK : 0 ≤ K := by
    have := Sh.sigma_pos
    have : 0 < 1 - κ := by linarith
    positivity
  have hε : 0 ≤ ε := by
    have := hκ.sigma1.trans (le_max_left deck.sigmaS1 deck.sigmaS2)
    positivity
  have hβ := roughness_nonneg val m ρ
  have hβ1 : √(roughness val m ρ) ≤ 1 := Real.sqrt_le_one.2 (roughness_le_one val m ρ)
  have t : truncation deck h η ρ (roughness val m ρ) ≤ √(roughness val m ρ) * (h / (5 * η) + ε) + (h ^ 2 / (20 * ρ * η) + ε) :=
    sqrt_two hβ (by positivity) (by positivity)
  have q := mul_le_mul_of_nonneg_left t hK
  have m1 := misfit_le Sh hN h0
  have c1 : √(roughness val m ρ) * (K * ε) ≤ 1 * (K * ε) := mul_le_mul_of_nonneg_right hβ1 (by positivity)
  show K * truncation deck h η ρ (roughness val m ρ) + misfit val m ≤ _
  refine (add_le_add q m1).trans ?_
  have e1 : K * (√(roughness val m ρ) * (h / (5 * η) + ε) + (h ^ 2 / (20 * ρ * η) + ε)) =
      √(roughness val m ρ) * (K * (h / η) / 5) + √(roughness val m ρ) * (K * ε) + h * (K * (h / η) / (20 * ρ)) + K * ε := by
    field_simp
    ring
  rw [e1]
  have e2 : 3 * h ^ 2 / (320 * ρ) = h * (3 * h / (320 * ρ)) := by ring
  rw [e2]
  linarith

open Classical in
/-- C84: the cell averages of the solution and the exact flux at the centres, on the serial mesh. -/
theorem serial_accuracy (Sh : Shape val deck m p h η σ₀ w₀) (hr : Ready val deck m M P T D) (F : Fits val m) (hs : Sensible val deck m)
    (Ds : Describes val deck m p sS) (htr : p.Transversal m) (hκ : Subcritical deck κ) (h1 : κ < 1)
    (hW : |weights deck - 4 * Real.pi| ≤ 2 * Real.pi / 10 ^ 14) (h0 : 0 < ρ) (hN : 0 < m.numCells) (Bt : Between p m b B)
    {psi : Psi ℝ} (hS : p.Scatter m (scattering deck sS) psi) :
    √(distance2 val deck m psi) ≤ √(count deck m) * accuracy val deck m h η ρ σ₀ w₀ κ b B := by
  have H := hr.created.tets
  have hph := describes_physical H F hs Ds
  have hmat := describes_matched H F hs Ds
  have hrat := describes_ratio (κ := κ) H Ds hκ
  have hR := hr.runOf F hs Ds
  have hX := hr.scatOf F hs Ds
  have hη := Sh.eta_pos
  have hσ := Sh.sigma_pos
  have hw := Sh.weight_pos
  have hb := Bt.pos
  have hθ : 0 < 1 - κ := by linarith
  have hB : 0 ≤ B := between_nonneg Bt hN
  have hA : 0 < (deck.dirs.length : ℝ) := by exact_mod_cast List.length_pos_iff.2 hκ.some
  have hNr : 0 < (m.numCells : ℝ) := by exact_mod_cast hN
  have hws : ∑ b ∈ Finset.range p.nAngles, (scattering deck sS).wt b = weights deck := by rw [Ds.angles]; exact weight_sum deck sS
  have hwt : 0 < weights deck := by rw [← hws]; exact hrat.total
  set u : Nat → Fin 4 → ℝ := fun c v => exact (pts val m c v) with hu
  -- the error solves the problem with the defect as its source
  have hE : Problem.Scatter { p with source := p.defect (scattering deck sS) u } m (scattering deck sS) fun g v a c => psi g v a c - u c v := by
    refine scatter_interp H hph hS ?_ fun c hc f hno v hv => exact_out (Sh.surface c hc f hno v hv)
    intro c c' d d' v w hd hd' e
    show exact (pts val m c v) = exact (pts val m c' w)
    unfold pts
    rw [hd, hd', Option.bind_some, Option.bind_some, e]
  have hcl : ∀ q : Psi ℝ, Problem.Physical { p with source := q } m := fun q => ⟨hph.1, hph.2, hph.3, hph.4, hph.5, hph.6⟩
  set ε := max deck.sigmaS1 deck.sigmaS2 / (2 * 10 ^ 14) with hε
  set τ : Nat → ℝ := fun c => if Smooth val m ρ c then h ^ 2 / (20 * ρ * η) + ε else h / (5 * η) + ε with hτ
  have hdef : ∀ c < m.numCells, ∀ a < deck.dirs.length, ∀ g < deck.nGroups, ∀ v,
      |p.defect (scattering deck sS) u g v a c| ≤ τ c := by
    intro c hc a ha g hg v
    refine (defect_le Sh H hs F Ds hκ hW h0 hc ha hg v).trans_eq ?_
    simp only [hτ]
    split <;> rfl
  have stab : ∀ g < deck.nGroups, ∑ a ∈ Finset.range deck.dirs.length, ∑ c ∈ Finset.range m.numCells,
      ((∑ v, (psi g v a c - u c v)) / 4) ^ 2 ≤
      weights deck * B / (w₀ * b * (σ₀ * (1 - κ)) ^ 2) * ∑ c ∈ Finset.range m.numCells, τ c ^ 2 := by
    intro g hg
    let R' : SweepRun ℝ := { M.run deck T D with source := fun r g v a i => p.defect (scattering deck sS) u g v a (((T r).getLGCell i).getD 0) }
    have hR' : RunOf { p with source := p.defect (scattering deck sS) u } M.n T R' := by
      obtain ⟨h1, h2, h3, h4, h5, h6, h7, h8, h9, h10, h11, h12, h13, h14, h15, h16, h17, h18, h19, h20, h21⟩ := hR
      constructor <;> first | assumption | skip
      case source =>
        intro r hr i c hc g hg v a ha
        show p.defect (scattering deck sS) u g v a (((T r).getLGCell i).getD 0) = _
        rw [hc]; rfl
    have hX' : ScatOf { p with source := p.defect (scattering deck sS) u } (scattering deck sS) M.n T (scatOf deck D) :=
      ⟨hX.1, hX.2, hX.3⟩
    have hrat' : Problem.Ratio { p with source := p.defect (scattering deck sS) u } m (scattering deck sS) κ :=
      ⟨hrat.1, hrat.2, hrat.3, hrat.4, hrat.5⟩
    have key := serial_load (p := { p with source := p.defect (scattering deck sS) u }) hr.created hr.ranks hr.loaded (hcl _) hmat htr hR' hX' hrat' h1
      (fun c hc => hσ.trans_le (Sh.sigma c hc)) hE (g := g) (by show g < p.nGroups; rw [Ds.groups]; exact hg)
    simp only [Ds.angles] at key
    have wtE : ∀ a (ha : a < deck.dirs.length), (scattering deck sS).wt a = (deck.dirs[a]).w := by
      intro a ha
      show ((deck.dirs[a]?).map fun d => d.w).getD 0 = _
      rw [List.getElem?_eq_getElem ha]; rfl
    have low : w₀ * b * ∑ a ∈ Finset.range deck.dirs.length, ∑ c ∈ Finset.range m.numCells, ((∑ v, (psi g v a c - u c v)) / 4) ^ 2 ≤
        ∑ a ∈ Finset.range deck.dirs.length, (scattering deck sS).wt a * ∑ c ∈ Finset.range m.numCells, p.sigmaT c * p.volume c *
          cellM (fun v => psi g v a c - u c v) fun v => psi g v a c - u c v := by
      rw [Finset.mul_sum]
      refine Finset.sum_le_sum fun a ha => ?_
      have ha := Finset.mem_range.1 ha
      have q : b * ∑ c ∈ Finset.range m.numCells, ((∑ v, (psi g v a c - u c v)) / 4) ^ 2 ≤
          ∑ c ∈ Finset.range m.numCells, p.sigmaT c * p.volume c * cellM (fun v => psi g v a c - u c v) fun v => psi g v a c - u c v := by
        rw [Finset.mul_sum]
        refine Finset.sum_le_sum fun c hc => ?_
        have := Bt.low c (Finset.mem_range.1 hc)
        exact mul_le_mul this (mean_cellM _) (sq_nonneg _) (hb.le.trans this)
      have hq : 0 ≤ b * ∑ c ∈ Finset.range m.numCells, ((∑ v, (psi g v a c - u c v)) / 4) ^ 2 := by positivity
      rw [mul_assoc, wtE a ha]
      exact mul_le_mul (Sh.weight _ (List.getElem_mem ha)) q hq (hw.le.trans (Sh.weight _ (List.getElem_mem ha)))
    have high : ∑ a ∈ Finset.range deck.dirs.length, (scattering deck sS).wt a * ∑ c ∈ Finset.range m.numCells, p.volume c / p.sigmaT c *
        cellM (fun v => p.defect (scattering deck sS) u g v a c) (fun v => p.defect (scattering deck sS) u g v a c) ≤
        weights deck * (B / σ₀ ^ 2 * ∑ c ∈ Finset.range m.numCells, τ c ^ 2) := by
      rw [← hws, Ds.angles, Finset.sum_mul]
      refine Finset.sum_le_sum fun a ha => ?_
      have ha := Finset.mem_range.1 ha
      refine mul_le_mul_of_nonneg_left ?_ (hrat.weights a (by rw [Ds.angles]; exact ha))
      rw [Finset.mul_sum]
      refine Finset.sum_le_sum fun c hc => ?_
      have hc := Finset.mem_range.1 hc
      have hsc := Sh.sigma c hc
      have hsp := hσ.trans_le hsc
      have e : p.volume c / p.sigmaT c ≤ B / σ₀ ^ 2 := by
        rw [show p.volume c / p.sigmaT c = p.sigmaT c * p.volume c / p.sigmaT c ^ 2 by field_simp]
        exact div_le_div₀ hB (Bt.high c hc) (by positivity) (by gcongr)
      exact mul_le_mul e (cellM_small fun v => hdef c hc a ha g hg v) (cellM_nonneg _) (by positivity)
    have := (mul_le_mul_of_nonneg_left low (sq_nonneg (1 - κ))).trans (key.trans high)
    rw [div_mul_eq_mul_div, le_div_iff₀ (by positivity)]
    have e : weights deck * (B / σ₀ ^ 2 * ∑ c ∈ Finset.range m.numCells, τ c ^ 2) * σ₀ ^ 2 =
        weights deck * B * ∑ c ∈ Finset.range m.numCells, τ c ^ 2 := by field_simp
    rw [← e]
    have := mul_le_mul_of_nonneg_right this (sq_nonneg σ₀)
    linarith
  -- sums over the mesh
  have sumτ : ∑ c ∈ Finset.range m.numCells, τ c ^ 2 ≤
      m.numCells * (roughness val m ρ * (h / (5 * η) + ε) ^ 2 + (h ^ 2 / (20 * ρ * η) + ε) ^ 2) := rough_sum Sh hN _ _
  have part1 : √(total deck m fun c a g => ((∑ v, (psi g v a c - u c v)) / 4) ^ 2) ≤
      √(count deck m) * (√(weights deck * B / (deck.dirs.length * w₀ * b)) / (σ₀ * (1 - κ)) *
        truncation deck h η ρ (roughness val m ρ)) := by
    unfold truncation
    rw [← hε]
    have tr0 : 0 ≤ roughness val m ρ * (h / (5 * η) + ε) ^ 2 + (h ^ 2 / (20 * ρ * η) + ε) ^ 2 := by
      have : 0 ≤ roughness val m ρ := by unfold roughness; positivity
      positivity
    refine Real.sqrt_le_iff.2 ⟨by positivity, ?_⟩
    rw [mul_pow, mul_pow, div_pow, Real.sq_sqrt (by unfold count; positivity), Real.sq_sqrt (by positivity), Real.sq_sqrt tr0]
    have e1 : total deck m (fun c a g => ((∑ v, (psi g v a c - u c v)) / 4) ^ 2) = ∑ g ∈ Finset.range deck.nGroups,
        ∑ a ∈ Finset.range deck.dirs.length, ∑ c ∈ Finset.range m.numCells, ((∑ v, (psi g v a c - u c v)) / 4) ^ 2 := by
      unfold total
      rw [Finset.sum_comm]
      rw [Finset.sum_congr rfl fun a _ => Finset.sum_comm]
      rw [Finset.sum_comm]
    rw [e1]
    refine (Finset.sum_le_sum fun g hg => stab g (Finset.mem_range.1 hg)).trans ?_
    rw [Finset.sum_const, Finset.card_range, nsmul_eq_mul]
    have k := mul_le_mul_of_nonneg_left sumτ (by positivity : 0 ≤ weights deck * B / (w₀ * b * (σ₀ * (1 - κ)) ^ 2))
    refine (mul_le_mul_of_nonneg_left k (Nat.cast_nonneg _)).trans_eq ?_
    unfold count
    field_simp
  have part2 : √(total deck m fun c a g => ((∑ v, u c v) / 4 - exact (centroid val m c)) ^ 2) = √(count deck m) * misfit val m := by
    unfold misfit
    rw [← Real.sqrt_mul (by unfold count; positivity), total_cells deck m fun c => ((∑ v, u c v) / 4 - exact (centroid val m c)) ^ 2]
    congr 1
    unfold count
    field_simp
    ring
  have e : distance2 val deck m psi = total deck m fun c a g =>
      ((∑ v, (psi g v a c - u c v)) / 4 + ((∑ v, u c v) / 4 - exact (centroid val m c))) ^ 2 := by
    unfold distance2
    congr 1
    funext c a g
    rw [Finset.sum_sub_distrib]
    ring
  rw [e]
  refine (total_triangle deck m (fun c a g => (∑ v, (psi g v a c - u c v)) / 4) fun c a g => (∑ v, u c v) / 4 - exact (centroid val m c)).trans ?_
  unfold accuracy
  linarith [part1, part2]

/-- A flux near the solution. -/
theorem close_distance {psi psiS : Psi ℝ} {dev A : ℝ} (hd : 0 ≤ dev) (hc : Close deck m dev psi psiS)
    (hA : √(distance2 val deck m psiS) ≤ √(count deck m) * A) :
    √(distance2 val deck m psi) ≤ √(count deck m) * (A + dev) := by
  have e : distance2 val deck m psi = total deck m fun c a g =>
      (((∑ v, psiS g v a c) / 4 - exact (centroid val m c)) + (∑ v, (psi g v a c - psiS g v a c)) / 4) ^ 2 := by
    unfold distance2
    congr 1
    funext c a g
    rw [Finset.sum_sub_distrib]
    ring
  have k : total deck m (fun c a g => ((∑ v, (psi g v a c - psiS g v a c)) / 4) ^ 2) ≤ total deck m fun _ _ _ => dev ^ 2 := by
    refine total_le fun c hc' a ha g hg => ?_
    have : |(∑ v, (psi g v a c - psiS g v a c)) / 4| ≤ dev := by
      rw [abs_div, abs_of_pos (by norm_num : (0 : ℝ) < 4), div_le_iff₀ (by norm_num)]
      refine (Finset.abs_sum_le_sum_abs _ _).trans ((Finset.sum_le_sum fun v _ => hc c hc' a ha g hg v).trans_eq ?_)
      simp
      ring
    exact sq_le_sq' (abs_le.1 this).1 (abs_le.1 this).2
  have k2 : total deck m (fun _ _ _ => dev ^ 2) = count deck m * dev ^ 2 := by
    rw [total_cells deck m fun _ => dev ^ 2]
    unfold count
    simp
    ring
  rw [e]
  refine (total_triangle deck m (fun c a g => (∑ v, psiS g v a c) / 4 - exact (centroid val m c))
    fun c a g => (∑ v, (psi g v a c - psiS g v a c)) / 4).trans ?_
  rw [mul_add]
  refine add_le_add hA ((Real.sqrt_le_sqrt (k.trans_eq k2)).trans_eq ?_)
  rw [Real.sqrt_mul (by unfold count; positivity), Real.sqrt_sq hd]

/-- From the distance to the relative error. -/
theorem relative_error {psi : Psi ℝ} {A : ℝ} (hN : 0 < count deck m) (hA : √(distance2 val deck m psi) ≤ √(count deck m) * A)
    (hH : A < height val m) : size2 deck m psi ≠ 0 ∧ √(distance2 val deck m psi / size2 deck m psi) ≤ A / (height val m - A) := by
  have hs0 : 0 ≤ size2 deck m psi := by
    unfold size2 total
    positivity
  have hd0 : 0 ≤ distance2 val deck m psi := by
    unfold distance2 total
    positivity
  have e : √(total deck m fun c _ _ => exact (centroid val m c) ^ 2) = √(count deck m) * height val m := by
    have hM : (m.numCells : ℝ) ≠ 0 := by
      intro h0
      unfold count at hN
      rw [h0, zero_mul] at hN
      exact hN.false
    unfold height
    rw [← Real.sqrt_mul hN.le, total_cells deck m fun c => exact (centroid val m c) ^ 2]
    unfold count
    congr 1
    field_simp
  have tri := total_triangle deck m (fun c a g => (∑ v, psi g v a c) / 4)
    fun c a g => -((∑ v, psi g v a c) / 4 - exact (centroid val m c))
  have e1 : (total deck m fun c a g => ((∑ v, psi g v a c) / 4 + -((∑ v, psi g v a c) / 4 - exact (centroid val m c))) ^ 2) =
      total deck m fun c _ _ => exact (centroid val m c) ^ 2 := by
    congr 1
    funext c a g
    ring
  have e2 : (total deck m fun c a g => (-((∑ v, psi g v a c) / 4 - exact (centroid val m c))) ^ 2) = distance2 val deck m psi := by
    unfold distance2
    congr 1
    funext c a g
    ring
  rw [e1, e2, e] at tri
  have hr := Real.sqrt_pos.2 hN
  have low : √(count deck m) * (height val m - A) ≤ √(size2 deck m psi) := by
    have : √(total deck m fun c a g => ((∑ v, psi g v a c) / 4) ^ 2) = √(size2 deck m psi) := rfl
    rw [this] at tri
    linarith
  have hpos : 0 < √(count deck m) * (height val m - A) := mul_pos hr (by linarith)
  have hsz : 0 < √(size2 deck m psi) := hpos.trans_le low
  refine ⟨(Real.sqrt_pos.1 hsz).ne', ?_⟩
  rw [Real.sqrt_div hd0]
  refine (div_le_div₀ ?_ hA hpos low).trans_eq (mul_div_mul_left _ _ hr.ne')
  exact (Real.sqrt_nonneg _).trans hA

section
variable (G : Good W.val file m deck p sS κ) (hs : readInput W.stod W.texts .original input = .ok s)
  (hd : Asks s deck) (hg : W.files mesh = some g) (hP : Partitioned W.val file C.n g) (hn : C.n ≤ 2 ^ 30) (hth : 0 < C.threads)
  (hN : 0 < m.numCells) (Bt : Between p m b B) (Sh : Shape W.val deck m p h η σ₀ w₀) (h0 : 0 < ρ)
include G hs hd hg hP hn hth hN Bt Sh h0

theorem count_pos : 0 < count deck m := by
  unfold count
  have h1 : 0 < deck.dirs.length := List.length_pos_iff.2 G.subcritical.some
  have h2 := G.groups
  positivity

theorem shows_accuracy {Solve : Settings ℝ → Mode → Deck → (Nat → Mesh) → (Nat → RankData) → Nat → (Nat → Psi ℝ) → Prop}
    {e : Option ℝ} {out : Option (Str × Verif.PsiFile.File)} (hr : RanWith Solve W C (mesh :: input :: rest) (.finished e out))
    {psi psiS : Psi ℝ} (hS : p.Scatter m (scattering deck sS) psiS) (sh : Shows W deck m psi e out) {dev : ℝ}
    (hc : Close deck m dev psi psiS) :
    √(distance2 W.val deck m psi) ≤ √(count deck m) * (accuracy W.val deck m h η ρ σ₀ w₀ κ b B + dev) ∧
    (accuracy W.val deck m h η ρ σ₀ w₀ κ b B + dev < height W.val m → ∃ x, e = some x ∧
      x ≤ (accuracy W.val deck m h η ρ σ₀ w₀ κ b B + dev) /
        (height W.val m - (accuracy W.val deck m h η ρ σ₀ w₀ κ b B + dev))) := by
  obtain ⟨pv, P, T, D, -, h, -, -⟩ := ran_flux G hs hd hg hP hn hth hr
  have hcp := count_pos G hs hd hg hP hn hth hN Bt Sh h0
  have hdev : 0 ≤ dev := (abs_nonneg _).trans (hc 0 hN 0 (List.length_pos_iff.2 G.subcritical.some) 0 G.groups 0)
  have k1 := close_distance hdev hc (serial_accuracy Sh h G.fits G.sensible G.describes G.transversal G.subcritical G.below
    (Verif.Quadrature.total_weight hd.dirs) h0 hN Bt hS)
  refine ⟨k1, fun hH => ?_⟩
  obtain ⟨k2, k3⟩ := relative_error hcp k1 hH
  refine ⟨_, ?_, k3⟩
  rw [sh.1, if_neg k2]

/-- C84: the cell averages of what a converged run has written differ in the root mean square from the exact flux at the
centres by at most `accuracy`, and with `accuracy` below the size of the exact flux the printed error is small with it. -/
theorem main_accuracy (hw : Scheduled s.sweepType → AwayFrom p m tolerance) {e : Option ℝ}
    {out : Option (Str × Verif.PsiFile.File)} (hr : Ran W C (mesh :: input :: rest) (.finished e out)) :
    let A := accuracy W.val deck m h η ρ σ₀ w₀ κ b B
    ∃ psi : Psi ℝ, Shows W deck m psi e out ∧ √(distance2 W.val deck m psi) ≤ √(count deck m) * A ∧
      (A < height W.val m → ∃ x, e = some x ∧ x ≤ A / (height W.val m - A)) := by
  obtain ⟨psiS, h1, -, h3, h4⟩ := main_result G hs hd hg hP hn hth hw hr
  have := shows_accuracy (dev := 0) G hs hd hg hP hn hth hN Bt Sh h0 hr h1 ⟨h3, h4⟩ fun c _ a _ g _ v => by simp
  rw [add_zero] at this
  exact ⟨psiS, ⟨h3, h4⟩, this⟩

/-- C84: the same for runs that stop by their tolerance or with a printed residual. -/
theorem main_accuracy_tolerance (hw : Scheduled s.sweepType → AwayFrom p m tolerance) {rep : Report} {e : Option ℝ}
    {out : Option (Str × Verif.PsiFile.File)} (hr : RanWith (StopsWith rep) W C (mesh :: input :: rest) (.finished e out))
    (hE : Ended s rep) :
    ∃ psi : Psi ℝ, Shows W deck m psi e out ∧
      let A := accuracy W.val deck m h η ρ σ₀ w₀ κ b B + deviation s deck m κ b B psi rep
      √(distance2 W.val deck m psi) ≤ √(count deck m) * A ∧
      (A < height W.val m → ∃ x, e = some x ∧ x ≤ A / (height W.val m - A)) := by
  obtain ⟨psi, psiS, h1, -, h3, h4⟩ := main_tolerance G hs hd hg hP hn hth hw hN Bt hr hE
  exact ⟨psi, h3, shows_accuracy G hs hd hg hP hn hth hN Bt Sh h0 hr h1 h3 h4⟩

/-- C84: the same for the sweep types with inner iterations. -/
theorem main_accuracy_apart {α ζ δ : ℝ} (hα : Inflow p m α) (ht : 0 ≤ s.ddErrMax) {e : Option ℝ}
    {out : Option (Str × Verif.PsiFile.File)}
    (hr : RanWith (StopsApart (amplify κ b B) ζ δ) W C (mesh :: input :: rest) (.finished e out)) :
    let A := accuracy W.val deck m h η ρ σ₀ w₀ κ b B + spread deck m κ b B α ζ δ
    ∃ psi : Psi ℝ, Shows W deck m psi e out ∧ √(distance2 W.val deck m psi) ≤ √(count deck m) * A ∧
      (A < height W.val m → ∃ x, e = some x ∧ x ≤ A / (height W.val m - A)) := by
  obtain ⟨psi, psiS, h1, -, h3, h4⟩ := main_apart G hs hd hg hP hn hth hN Bt hα ht hr
  exact ⟨psi, h3, shows_accuracy G hs hd hg hP hn hth hN Bt Sh h0 hr h1 h3 h4⟩

end

end Verif.Program
