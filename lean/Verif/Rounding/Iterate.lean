import Verif.Rounding.Machine

/-!
# Source iteration in rounded arithmetic (C98)
-/
set_option linter.unusedSectionVars false
namespace Verif.Rounding

open Verif.MeshFile Verif.TychoMesh Verif.Geometry Verif.Geometry.Spec Verif.Program Verif.Program.Spec Verif.Transport
open Verif.Rounding.Spec hiding Acyclic
open Verif.Traverse (Psi)
open Verif.Floating (Kernel)
open Verif.Floating.Spec (CellPoints FacePoints OnFace Incoming Solution Holds Total)
open Verif.Source (cellM cellM_nonneg cellM_add cellM_comm cellM_small)

/-! ### The code -/

/-- `psiToPhi` (src/Util.cc:83-97) for one group, vertex and cell: `phi` starts at zero, and each angle in turn
is multiplied by its weight and added. -/
noncomputable def rphi (rnd : ℝ → ℝ) {n : Nat} (wt psi : Fin n → ℝ) : ℝ :=
  (List.finRange n).foldl (fun s a => rnd (s + rnd (psi a * wt a))) 0

/-- The assignment of `calcTotalSource` (src/Util.cc:126-128); `M_PI` is the rounded π. -/
noncomputable def rtotal (rnd : ℝ → ℝ) (s sS phi : ℝ) : ℝ :=
  rnd (s + rnd (rnd (sS / rnd (4 * rnd Real.pi)) * phi))

/-- The weights of the quadrature. -/
noncomputable def deckWt (deck : Deck) (a : Fin deck.dirs.length) : ℝ := deck.dirs[a].w

/-- The machine functions sum over angles and add scattering in rounded arithmetic, with the weights and
scattering cross sections of the input deck. -/
structure Adds (rnd : ℝ → ℝ) (deck : Deck) {nG : Nat} (K : Kernel ℝ deck.dirs.length nG) : Prop where
  sigmaS1 : K.sigmaS1 = deck.sigmaS1
  sigmaS2 : K.sigmaS2 = deck.sigmaS2
  toPhi : K.toPhi = rphi rnd (deckWt deck)
  total : K.total = rtotal rnd

variable {u : ℝ} {rnd : ℝ → ℝ} {val : Nat → ℝ} {m : SerialMesh} {deck : Deck} {p : Problem ℝ} {sS : Nat → ℝ} {κ : ℝ}

/-! ### Rounding of the source -/

theorem rphi_fold (R : Rounds u rnd) {n : Nat} (wt psi : Fin n → ℝ) (l : List (Fin n)) {k : ℕ} {s S B : ℝ}
    (h : |s - S| ≤ ((1 + u) ^ (k + 1) - 1) * B) (hS : |S| ≤ B) :
    |l.foldl (fun s a => rnd (s + rnd (psi a * wt a))) s - (S + (l.map fun a => psi a * wt a).sum)| ≤
      ((1 + u) ^ (k + 1 + l.length) - 1) * (B + (l.map fun a => |psi a * wt a|).sum) := by
  have hu0 := R.small.1
  induction l generalizing k s S B with
  | nil => simpa using h
  | cons a l ih =>
    have hB : 0 ≤ B := (abs_nonneg _).trans hS
    have h1 := R.near (psi a * wt a)
    set x := psi a * wt a with hx
    set y := rnd x
    have hpow : (1 + u) ^ (k + 1) = 1 + ((1 + u) ^ (k + 1) - 1) := by ring
    have hge : u ≤ (1 + u) ^ (k + 1) - 1 := by
      have := one_le_pow₀ (n := k) (show 1 ≤ 1 + u by linarith)
      rw [pow_succ]
      nlinarith
    set γ := (1 + u) ^ (k + 1) - 1 with hγ
    have hγ0 : 0 ≤ γ := hu0.trans hge
    have h2 : |(s + y) - (S + x)| ≤ γ * (B + |x|) := by
      have e : (s + y) - (S + x) = (s - S) + (y - x) := by ring
      rw [e]
      refine (abs_add_le _ _).trans ?_
      have := mul_le_mul_of_nonneg_right hge (abs_nonneg x)
      linarith
    have h3 : |s + y| ≤ (1 + γ) * (B + |x|) := by
      have e : s + y = ((s + y) - (S + x)) + (S + x) := by ring
      rw [e]
      refine (abs_add_le _ _).trans ?_
      have := abs_add_le S x
      linarith
    have h4 := R.near (s + y)
    have h5 : |rnd (s + y) - (S + x)| ≤ ((1 + u) ^ (k + 1 + 1) - 1) * (B + |x|) := by
      have e : rnd (s + y) - (S + x) = (rnd (s + y) - (s + y)) + ((s + y) - (S + x)) := by ring
      rw [e]
      refine (abs_add_le _ _).trans ?_
      have h6 := mul_le_mul_of_nonneg_left h3 hu0
      have e2 : (1 + u) ^ (k + 1 + 1) - 1 = γ + u * (1 + γ) := by rw [pow_succ, hγ]; ring
      rw [e2]
      linarith
    have h6 := ih (k := k + 1) h5 ((abs_add_le S x).trans (by linarith))
    rw [List.foldl_cons, List.map_cons, List.map_cons, List.sum_cons, List.sum_cons, List.length_cons, ← hx, ← add_assoc S, ← add_assoc B]
    have e3 : k + 1 + (l.length + 1) = k + 1 + 1 + l.length := by omega
    rw [e3]
    exact h6

/-- C98: the rounding errors of the sum over angles. -/
theorem rphi_near (R : Rounds u rnd) {n : Nat} (wt psi : Fin n → ℝ) :
    |rphi rnd wt psi - ∑ a, psi a * wt a| ≤ ((1 + u) ^ (n + 1) - 1) * ∑ a, |psi a * wt a| := by
  have h := rphi_fold R wt psi (List.finRange n) (k := 0) (s := 0) (S := 0) (B := 0) (by simp) (by simp)
  rw [zero_add, zero_add, zero_add, List.length_finRange, ← List.ofFn_eq_map, ← List.ofFn_eq_map, List.sum_ofFn, List.sum_ofFn, add_comm 1 n] at h
  exact h

/-- C98: the rounding errors of the source with scattering. -/
theorem rtotal_near (R : Rounds u rnd) (hu : u ≤ 1 / 100000) {s sS x φ Φ γ : ℝ} (hsS : 0 ≤ sS) (hφ : |φ| ≤ Φ) (hγ0 : 0 ≤ γ) (hγ : γ ≤ 1 / 100)
    (h : |x - φ| ≤ γ * Φ) :
    |rtotal rnd s sS x - (s + sS / (4 * Real.pi) * φ)| ≤ u * |s| + (6 * u + γ) * (sS / (4 * Real.pi) * Φ) := by
  have hu0 := R.small.1
  have hpi := Real.pi_pos
  have hΦ : 0 ≤ Φ := (abs_nonneg _).trans hφ
  unfold rtotal
  set P := rnd (4 * rnd Real.pi) with hP
  have h1 : |rnd Real.pi - Real.pi| ≤ u * Real.pi := by have := R.near Real.pi; rwa [abs_of_pos hpi] at this
  have h1' := abs_le.1 h1
  have hr : 0 < rnd Real.pi := R.pos hpi
  have h2 : |P - 4 * rnd Real.pi| ≤ u * (4 * rnd Real.pi) := by
    have := R.near (4 * rnd Real.pi)
    rwa [abs_of_pos (by linarith : 0 < 4 * rnd Real.pi)] at this
  have h2' := abs_le.1 h2
  have hup : u * Real.pi ≤ 1 / 100000 * Real.pi := mul_le_mul_of_nonneg_right hu hpi.le
  have hur : u * rnd Real.pi ≤ u * (1.001 * Real.pi) := mul_le_mul_of_nonneg_left (by linarith) hu0
  have hPhi : P ≤ 4 * Real.pi * (1 + 2.01 * u) := by nlinarith
  have hPlo : 4 * Real.pi * (1 - 2.01 * u) ≤ P := by nlinarith
  have hPpos : 0 < P := R.pos (by linarith)
  set G := sS / (4 * Real.pi) with hG
  have hG0 : 0 ≤ G := div_nonneg hsS (by linarith)
  have hsG : sS = G * (4 * Real.pi) := by rw [hG]; field_simp
  -- the quotient
  have h3 : |sS / P - G| ≤ 2.02 * u * G := by
    have e : sS / P - G = G * ((4 * Real.pi - P) / P) := by rw [hsG]; field_simp
    rw [e, abs_mul, abs_of_nonneg hG0, mul_comm]
    refine mul_le_mul_of_nonneg_right ?_ hG0
    rw [abs_div, abs_of_pos hPpos, div_le_iff₀ hPpos, abs_le]
    have : 0 ≤ u * Real.pi := mul_nonneg hu0 hpi.le
    have h4 : u * u * Real.pi ≤ 1 / 100000 * (u * Real.pi) := by
      calc u * u * Real.pi = u * (u * Real.pi) := by ring
        _ ≤ 1 / 100000 * (u * Real.pi) := mul_le_mul_of_nonneg_right hu this
    have h5 : 2.02 * u * (4 * Real.pi * (1 - 2.01 * u)) ≤ 2.02 * u * P := mul_le_mul_of_nonneg_left hPlo (by linarith)
    constructor <;> nlinarith
  have hq : |sS / P| ≤ 1.001 * G := by
    have : |sS / P| ≤ |sS / P - G| + |G| := by have := abs_add_le (sS / P - G) G; rwa [sub_add_cancel] at this
    rw [abs_of_nonneg hG0] at this
    nlinarith
  set g := rnd (sS / P)
  have h4 : |g - G| ≤ 3.03 * u * G := by
    have e : g - G = (g - sS / P) + (sS / P - G) := by ring
    rw [e]
    refine (abs_add_le _ _).trans ?_
    have := (R.near (sS / P)).trans (mul_le_mul_of_nonneg_left hq hu0)
    have k := mul_nonneg hu0 hG0
    have : |g - sS / P| ≤ 1.001 * (u * G) := by linarith
    linarith
  -- the product
  have hx : |x| ≤ 1.01 * Φ := by
    have : |x| ≤ |x - φ| + |φ| := by have := abs_add_le (x - φ) φ; rwa [sub_add_cancel] at this
    have := mul_le_mul_of_nonneg_right hγ hΦ
    linarith
  have hGΦ : 0 ≤ G * Φ := mul_nonneg hG0 hΦ
  have huGΦ : 0 ≤ u * (G * Φ) := mul_nonneg hu0 hGΦ
  have huG : u * (G * Φ) ≤ 1 / 100000 * (G * Φ) := mul_le_mul_of_nonneg_right hu hGΦ
  have h5 : |g * x - G * φ| ≤ (3.07 * u + γ) * (G * Φ) := by
    have e : g * x - G * φ = (g - G) * x + G * (x - φ) := by ring
    rw [e]
    refine (abs_add_le _ _).trans ?_
    rw [abs_mul, abs_mul, abs_of_nonneg hG0]
    have a1 : |g - G| * |x| ≤ 3.03 * u * G * (1.01 * Φ) :=
      mul_le_mul h4 hx (abs_nonneg _) (mul_nonneg (by linarith) hG0)
    have a2 : G * |x - φ| ≤ G * (γ * Φ) := mul_le_mul_of_nonneg_left h hG0
    nlinarith
  have hγG : γ * (G * Φ) ≤ 1 / 100 * (G * Φ) := mul_le_mul_of_nonneg_right hγ hGΦ
  have hGφ : |G * φ| ≤ G * Φ := by rw [abs_mul, abs_of_nonneg hG0]; exact mul_le_mul_of_nonneg_left hφ hG0
  have h6 : |g * x| ≤ 1.02 * (G * Φ) := by
    have : |g * x| ≤ |g * x - G * φ| + |G * φ| := by have := abs_add_le (g * x - G * φ) (G * φ); rwa [sub_add_cancel] at this
    linarith
  set y := rnd (g * x)
  have h7 : |y - G * φ| ≤ (4.1 * u + γ) * (G * Φ) := by
    have e : y - G * φ = (y - g * x) + (g * x - G * φ) := by ring
    rw [e]
    refine (abs_add_le _ _).trans ?_
    have := (R.near (g * x)).trans (mul_le_mul_of_nonneg_left h6 hu0)
    have : |y - g * x| ≤ 1.02 * (u * (G * Φ)) := by linarith
    linarith
  have h8 : |y| ≤ 1.03 * (G * Φ) := by
    have : |y| ≤ |y - G * φ| + |G * φ| := by have := abs_add_le (y - G * φ) (G * φ); rwa [sub_add_cancel] at this
    linarith
  have e : rnd (s + y) - (s + G * φ) = (rnd (s + y) - (s + y)) + (y - G * φ) := by ring
  rw [e]
  refine (abs_add_le _ _).trans ?_
  have k1 := (R.near (s + y)).trans (mul_le_mul_of_nonneg_left (abs_add_le s y) hu0)
  have k2 := mul_le_mul_of_nonneg_left h8 hu0
  linarith

/-! ### Scattering -/

/-- C98: values that nearly solve the discretisation with a source near their own scattering are near the
solution with scattering. -/
theorem near_scatter (H : Tets m) (hp : p.Physical m) (hM : p.Matched m) (hσ : ∀ c < m.numCells, 0 < p.sigmaT c) {Y : Scattering ℝ}
    {b : ℝ} (hb : p.Ratio m Y b) (hb1 : b < 1) {ρ : Nat → Nat → ℝ} {η : Nat → ℝ} {source psi psi' : Psi ℝ} (h : p.Scatter m Y psi)
    (h' : NearDG { p with source := source } m ρ psi')
    (hη : ∀ g < p.nGroups, ∀ v, ∀ a < p.nAngles, ∀ c < m.numCells, |source g v a c - p.total Y psi' g v a c| ≤ η c)
    {g : Nat} (hg : g < p.nGroups) :
    (1 - b) ^ 2 * ∑ a ∈ Finset.range p.nAngles, Y.wt a * ∑ c ∈ Finset.range m.numCells, p.sigmaT c * p.volume c *
        cellM (fun v => psi' g v a c - psi g v a c) (fun v => psi' g v a c - psi g v a c) ≤
      ∑ a ∈ Finset.range p.nAngles, Y.wt a * ∑ c ∈ Finset.range m.numCells,
        (2 * p.volume c * η c ^ 2 / p.sigmaT c + 160 * ρ a c ^ 2 / (p.sigmaT c * p.volume c)) := by
  have hps : Problem.Physical { p with source := source } m := ⟨hp.volume, hp.area, hp.sigma, hp.closed, hp.flow, hp.opposite⟩
  obtain ⟨q, hq, hsize⟩ := near_solves H hps h'
  have hd := dg_sub (p := p) H hq h
  set r : Psi ℝ := fun g v a c => (source g v a c - p.total Y psi' g v a c) + 1 * q g v a c with hr
  have hs : Problem.Scatter { p with source := r } m Y fun g v a c => psi' g v a c - psi g v a c := by
    unfold Problem.Scatter
    refine (congrArg (fun x => Problem.DG { p with source := x } m fun g v a c => psi' g v a c - psi g v a c) ?_).mp hd
    funext g v a c
    simp only [Problem.total, hr, sub_mul, Finset.sum_sub_distrib]
    ring
  have hpr : Problem.Physical { p with source := r } m := ⟨hp.volume, hp.area, hp.sigma, hp.closed, hp.flow, hp.opposite⟩
  have hMr : Problem.Matched { p with source := r } m := hM
  have hbr : Problem.Ratio { p with source := r } m Y b := ⟨hb.nonneg, hb.weights, hb.total, hb.scatter, hb.ratio⟩
  refine (scatter_bound H hpr hMr hσ hbr hb1 hs hg).trans ?_
  refine Finset.sum_le_sum fun a ha => mul_le_mul_of_nonneg_left ?_ (hb.weights a (Finset.mem_range.1 ha))
  have ha := Finset.mem_range.1 ha
  refine Finset.sum_le_sum fun c hc => ?_
  have hc := Finset.mem_range.1 hc
  have hV := hp.volume c hc
  have hs := hσ c hc
  show p.volume c / p.sigmaT c * cellM (fun v => r g v a c) (fun v => r g v a c) ≤ _
  set x : Fin 4 → ℝ := fun v => source g v a c - p.total Y psi' g v a c
  set y : Fin 4 → ℝ := fun v => q g v a c
  have k1 : cellM (fun v => r g v a c) (fun v => r g v a c) ≤ 2 * cellM x x + 2 * cellM y y := by
    have k := cellM_nonneg fun i => x i + (-1) * y i
    have e : (fun v => r g v a c) = fun i => x i + 1 * y i := rfl
    rw [e, cellM_add, cellM_comm x, cellM_comm y, cellM_add, cellM_add, cellM_comm x y]
    rw [cellM_add, cellM_comm x, cellM_comm y, cellM_add, cellM_add, cellM_comm x y] at k
    linarith
  have k2 : cellM x x ≤ η c ^ 2 := cellM_small fun v => hη g hg v a ha c hc
  have k3 := hsize c hc a ha g hg
  change p.volume c * cellM y y ≤ 80 * ρ a c ^ 2 / p.volume c at k3
  have k4 : p.volume c * cellM (fun v => r g v a c) (fun v => r g v a c) ≤ 2 * p.volume c * η c ^ 2 + 160 * ρ a c ^ 2 / p.volume c := by
    have a1 := mul_le_mul_of_nonneg_left k1 hV.le
    have a2 := mul_le_mul_of_nonneg_left k2 hV.le
    have e : 160 * ρ a c ^ 2 / p.volume c = 2 * (80 * ρ a c ^ 2 / p.volume c) := by ring
    rw [e]
    linarith
  have k5 := div_le_div_of_nonneg_right k4 hs.le
  refine le_trans (le_of_eq ?_) (k5.trans (le_of_eq ?_))
  · ring
  · rw [add_div, div_div, mul_comm (p.volume c) (p.sigmaT c)]

/-! ### The iteration -/

variable {K : Kernel ℝ deck.dirs.length deck.nGroups}

theorem sigma_deck (Ds : Describes val deck m p sS) (hS : Solves rnd deck K) (hA : Adds rnd deck K) {c : Nat} {sT sS' : ℝ}
    (h : Verif.Floating.Spec.Sigma K m c sT sS') : sT = p.sigmaT c ∧ sS' = sS c := by
  obtain ⟨d, h1, h2⟩ := h
  rcases Ds.sigma c d h1 with ⟨k1, k2, k3⟩ | ⟨k1, k2, k3⟩ <;> rcases h2 with ⟨l1, l2, l3⟩ | ⟨l1, l2, l3⟩
  · rw [k2, k3, l2, l3, hS.sigmaT1, hA.sigmaS1]; exact ⟨rfl, rfl⟩
  · rw [k1] at l1; exact absurd l1 (by decide)
  · rw [k1] at l1; exact absurd l1 (by decide)
  · rw [k2, k3, l2, l3, hS.sigmaT2, hA.sigmaS2]; exact ⟨rfl, rfl⟩

theorem deckWt_scattering (a : Fin deck.dirs.length) : (scattering deck sS).wt a = deckWt deck a := by
  show ((deck.dirs[(a : Nat)]?).map fun d => d.w).getD 0 = _
  rw [List.getElem?_eq_getElem a.2]
  rfl

/-- C98: how far the computed source of an iteration is from the source with the scattering of the new flux:
what the source of the problem is off by, rounding, and the change of the scalar flux. -/
theorem source_near (R : Rounds u rnd) (hu : u ≤ 1 / 100000) (Ds : Describes val deck m p sS) (hS : Solves rnd deck K)
    (hA : Adds rnd deck K) {b : ℝ} (hb : p.Ratio m (scattering deck sS) b) (hpS : ∀ c < m.numCells, 0 ≤ sS c)
    (hγ : (1 + u) ^ (deck.dirs.length + 1) - 1 ≤ 1 / 100) {source old new : Psi ℝ} (hT : Total K val m old source) {X Δ ε S0 : ℝ}
    (hX : ∀ g < deck.nGroups, ∀ v, ∀ a < deck.dirs.length, ∀ c < m.numCells, |old g v a c| ≤ X)
    (hfix : ∀ c < m.numCells, ∀ P, CellPoints val m c P → ∀ g < deck.nGroups, ∀ v, ∀ a < deck.dirs.length,
      |K.source a (P v) (p.sigmaT c) (sS c) - p.source g v a c| ≤ ε ∧ |K.source a (P v) (p.sigmaT c) (sS c)| ≤ S0)
    (hΔ : ∀ g < deck.nGroups, ∀ v, ∀ c < m.numCells,
      |∑ a ∈ Finset.range deck.dirs.length, (old g v a c - new g v a c) * (scattering deck sS).wt a| ≤ Δ)
    {g : Nat} (hg : g < deck.nGroups) (v : Fin 4) {a : Nat} (ha : a < deck.dirs.length) {c : Nat} (hc : c < m.numCells) :
    |source g v a c - p.total (scattering deck sS) new g v a c| ≤
      ε + u * S0 + sS c / (4 * Real.pi) *
        ((6 * u + ((1 + u) ^ (deck.dirs.length + 1) - 1)) * ((∑ a ∈ Finset.range deck.dirs.length, (scattering deck sS).wt a) * X) + Δ) := by
  have hu0 := R.small.1
  have hpi := Real.pi_pos
  set Y := scattering deck sS with hY
  set W := ∑ a ∈ Finset.range deck.dirs.length, Y.wt a with hW
  obtain ⟨P, sT, sS', hP, hsig, hsrc⟩ := hT c hc
  obtain ⟨rfl, rfl⟩ := sigma_deck Ds hS hA hsig
  have hsrc := hsrc g hg a ha v
  rw [hA.total, hA.toPhi] at hsrc
  have hf := hfix c hc P hP g hg v a ha
  set s := K.source a (P v) (p.sigmaT c) (sS c)
  have hX0 : 0 ≤ X := (abs_nonneg _).trans (hX g hg v a ha c hc)
  -- the sum over angles
  set φ := ∑ b ∈ Finset.range deck.dirs.length, old g v b c * Y.wt b with hφ
  have hφF : φ = ∑ b : Fin deck.dirs.length, old g v b c * deckWt deck b := by
    rw [hφ, Finset.sum_range]
    exact Finset.sum_congr rfl fun b _ => by rw [deckWt_scattering]
  have hww : ∀ b : Fin deck.dirs.length, 0 ≤ deckWt deck b := fun b => by
    rw [← deckWt_scattering (sS := sS)]
    exact hb.weights b (by rw [Ds.angles]; exact b.2)
  have hΦ : ∑ b : Fin deck.dirs.length, |old g v b c * deckWt deck b| ≤ W * X := by
    rw [hW, Finset.sum_range, Finset.sum_mul]
    refine Finset.sum_le_sum fun b _ => ?_
    rw [abs_mul, abs_of_nonneg (hww b), deckWt_scattering, mul_comm]
    exact mul_le_mul_of_nonneg_left (hX g hg v b b.2 c hc) (hww b)
  have hγ0 : 0 ≤ (1 + u) ^ (deck.dirs.length + 1) - 1 := by
    have := one_le_pow₀ (n := deck.dirs.length + 1) (show 1 ≤ 1 + u by linarith); linarith
  have h1 : |rphi rnd (deckWt deck) (fun b : Fin deck.dirs.length => old g v b c) - φ| ≤
      ((1 + u) ^ (deck.dirs.length + 1) - 1) * (W * X) := by
    rw [hφF]
    exact (rphi_near R _ _).trans (mul_le_mul_of_nonneg_left hΦ hγ0)
  have h2 : |φ| ≤ W * X := by
    rw [hφF]
    exact (Finset.abs_sum_le_sum_abs _ _).trans hΦ
  have h3 := rtotal_near R hu (s := s) (hpS c hc) h2 hγ0 hγ h1
  rw [← hsrc] at h3
  set G := sS c / (4 * Real.pi) with hG
  have hG0 : 0 ≤ G := div_nonneg (hpS c hc) (by linarith)
  have h4 : p.total Y new g v a c = p.source g v a c + G * ∑ b ∈ Finset.range deck.dirs.length, new g v b c * Y.wt b := by
    unfold Problem.total
    rw [Ds.angles]
    rfl
  have h5 := hΔ g hg v c hc
  have h6 : ∑ a ∈ Finset.range deck.dirs.length, (old g v a c - new g v a c) * Y.wt a =
      φ - ∑ b ∈ Finset.range deck.dirs.length, new g v b c * Y.wt b := by
    simp only [sub_mul, Finset.sum_sub_distrib, hφ]
  rw [h6] at h5
  have e : source g v a c - p.total Y new g v a c = (source g v a c - (s + G * φ)) + (s - p.source g v a c) +
      G * (φ - ∑ b ∈ Finset.range deck.dirs.length, new g v b c * Y.wt b) := by rw [h4]; ring
  rw [e]
  refine (abs_add_le _ _).trans ?_
  have k1 := abs_add_le (source g v a c - (s + G * φ)) (s - p.source g v a c)
  have k2 : |G * (φ - ∑ b ∈ Finset.range deck.dirs.length, new g v b c * Y.wt b)| ≤ G * Δ := by
    rw [abs_mul, abs_of_nonneg hG0]
    exact mul_le_mul_of_nonneg_left h5 hG0
  have k3 := mul_le_mul_of_nonneg_left hf.2 hu0
  linarith [hf.1]

/-- C98: after any number of source iterations of the machine, in any execution on any partition, the flux is
near the solution of the problem with scattering in exact arithmetic. -/
theorem machine_iterated {pv : List Nat} {n : Nat} {P : ParallelMesh} {T : Nat → Mesh} {D : Nat → Verif.Floating.Tables ℝ}
    (R : Rounds u rnd) (hu : u ≤ 1 / 100000) (H : Created m pv n P) (hn : n < uintMax) (L : Loaded val P T)
    (hD : Verif.Floating.Started K val P T D) (F : Fits val m) (Ds : Describes val deck m p sS)
    (hK : Computes rnd (deckDir deck) K) (hS : Solves rnd deck K) (hA : Adds rnd deck K) (hw : WellShaped u val m) (S : Stout κ val m)
    (hκ : 31 * u * κ ≤ 1 / 100) (hom : ∀ a < deck.dirs.length, size (deckDir deck a) ≤ 1.01)
    (hσ : ∀ c < m.numCells, 0 < p.sigmaT c)
    (ht : ∀ c < m.numCells, u * (2700 + 33 * κ) * ∑ f, p.area c f ≤ p.sigmaT c * p.volume c)
    (hγ : (1 + u) ^ (deck.dirs.length + 1) - 1 ≤ 1 / 100) {b : ℝ} (hb : p.Ratio m (scattering deck sS) b) (hb1 : b < 1)
    (hpS : ∀ c < m.numCells, 0 ≤ sS c)
    (hsize : ∀ r < n, deck.dirs.length * (T r).nCells < 2 ^ 64) {k : Nat} {psi' : Nat → Psi ℝ} (h : K.Iterated n T D (k + 1) psi')
    {ε S0 : ℝ} (hfix : ∀ c < m.numCells, ∀ P, CellPoints val m c P → ∀ g < deck.nGroups, ∀ v, ∀ a < deck.dirs.length,
      |K.source a (P v) (p.sigmaT c) (sS c) - p.source g v a c| ≤ ε ∧ |K.source a (P v) (p.sigmaT c) (sS c)| ≤ S0)
    {psi : Psi ℝ} (hpsi : p.Scatter m (scattering deck sS) psi) :
    ∃ (before : Nat → Psi ℝ) (old new src : Psi ℝ), K.Iterated n T D k before ∧
      Holds deck.dirs.length deck.nGroups n T before old ∧ Holds deck.dirs.length deck.nGroups n T psi' new ∧
      Holds deck.dirs.length deck.nGroups n T (fun r => K.totalSource (D r) (before r)) src ∧
      ∀ X Q Δ : ℝ,
        (∀ g < deck.nGroups, ∀ v, ∀ a < deck.dirs.length, ∀ c < m.numCells,
          |old g v a c| ≤ X ∧ |new g v a c| ≤ X ∧ |src g v a c| ≤ Q) →
        (∀ g < deck.nGroups, ∀ v, ∀ c < m.numCells,
          |∑ a ∈ Finset.range deck.dirs.length, (old g v a c - new g v a c) * (scattering deck sS).wt a| ≤ Δ) →
        ∀ g < deck.nGroups,
          (1 - b) ^ 2 * ∑ a ∈ Finset.range deck.dirs.length, (scattering deck sS).wt a * ∑ c ∈ Finset.range m.numCells,
              p.sigmaT c * p.volume c * cellM (fun v => new g v a c - psi g v a c) (fun v => new g v a c - psi g v a c) ≤
            ∑ a ∈ Finset.range deck.dirs.length, (scattering deck sS).wt a * ∑ c ∈ Finset.range m.numCells,
              (2 * p.volume c * (ε + u * S0 + sS c / (4 * Real.pi) * ((6 * u + ((1 + u) ^ (deck.dirs.length + 1) - 1)) *
                  ((∑ a ∈ Finset.range deck.dirs.length, (scattering deck sS).wt a) * X) + Δ)) ^ 2 / p.sigmaT c +
                160 * (u * (223 + 31 * κ) * (((∑ f, p.area c f) + p.sigmaT c * p.volume c) * X + p.volume c * Q)) ^ 2 /
                  (p.sigmaT c * p.volume c)) := by
  have hcons := rounded_consistent R H.tets hK hw (opposed_of_fits R.small.1 H.tets F hw)
  cases h with
  | @succ _ before _ h1 h2 =>
    obtain ⟨old, ho, -⟩ := Verif.Floating.iterated_bitwise H hn L hD H hn L hD hcons hsize hsize h1 h1
    obtain ⟨src, hT, hsrc⟩ := Verif.Floating.total_of H L hD ho
    obtain ⟨new, hsol, hnew, -⟩ := Verif.Floating.swept_solution H hn L hD hcons hsize h2 hsrc
    refine ⟨before, old, new, src, h1, ho, hnew, hsrc, fun X Q Δ hXQ hΔ g hg => ?_⟩
    have hnear := machine_near R hu H.tets F Ds hK hS hw S hκ hom hσ ht hsol
      (fun g hg v a ha c hc => (hXQ g hg v a ha c hc).2.1) (fun g hg v a ha c hc => (hXQ g hg v a ha c hc).2.2)
    have := near_scatter H.tets (geometry_physical H.tets F Ds hσ) (geometry_matched H.tets F Ds) hσ hb hb1 hpsi hnear
      (η := fun c => ε + u * S0 + sS c / (4 * Real.pi) * ((6 * u + ((1 + u) ^ (deck.dirs.length + 1) - 1)) *
                  ((∑ a ∈ Finset.range deck.dirs.length, (scattering deck sS).wt a) * X) + Δ))
      (fun g hg v a ha c hc => source_near R hu Ds hS hA hb hpS hγ hT (fun g hg v a ha c hc => (hXQ g hg v a ha c hc).1) hfix hΔ
        (by rw [← Ds.groups]; exact hg) v (by rw [← Ds.angles]; exact ha) hc)
      (g := g) (by rw [Ds.groups]; exact hg)
    rw [Ds.angles] at this
    exact this

end Verif.Rounding
