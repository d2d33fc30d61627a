import Verif.Rounding.Stop
import Verif.Rounding.MachineExample

/-!
# Example for C99: two tetrahedra in double precision, one direction, no scattering
-/
set_option linter.unusedSectionVars false

namespace Verif.Rounding

open Verif.MeshFile Verif.TychoMesh Verif.Geometry Verif.Traverse Verif.Program Verif.Program.Spec
open Verif.Rounding.Spec hiding Acyclic
open Verif.Floating (Kernel Test crude_material)
open Verif.Floating.Spec (Holds Total Same)

/-- The stopping test over the doubles; the ranks are added in order. -/
noncomputable def test64 (tol : ℝ) : Test ℝ where
  error l := l.foldl (fun s q => binary64 (s + |binary64 (q.1 - q.2)|)) 0
  norm l := l.foldl (fun s q => binary64 (s + |q.1|)) 0
  gsum l := match l with
    | [] => 0
    | x :: l => l.foldl (fun s y => binary64 (s + y)) x
  quotient x y := binary64 (x / y)
  above x := open Classical in decide (tol < x)
  one := 1

theorem sums_fold {rnd : ℝ → ℝ} : ∀ (l l0 : List ℝ) {s : ℝ}, Sums rnd l0 s → Sums rnd (l0 ++ l) (l.foldl (fun s y => rnd (s + y)) s)
  | [], l0, s, h => by simpa using h
  | y :: l, l0, s, h => by
    have := sums_fold l (l0 ++ [y]) (.add h (.one y))
    rwa [List.append_assoc] at this

theorem test64_tests (tol : ℝ) : Tests binary64 tol (test64 tol) where
  error _ := rfl
  norm _ := rfl
  gsum l hl := match l, hl with
    | x :: l, _ => sums_fold l [x] (.one x)
  quotient _ _ _ := rfl
  above x := by simp [test64]
  one := rfl

/-- One direction, one group, no scattering. -/
noncomputable def oneDeck : Deck := ⟨1, [⟨2 / 3, 2 / 3, 1 / 3, 1⟩], 1, 0, 2, 0⟩

theorem rnd_zero {u : ℝ} {rnd : ℝ → ℝ} (R : Rounds u rnd) : rnd 0 = 0 := by
  have := R.near 0
  simpa using this

theorem rnd_eq_zero {u : ℝ} {rnd : ℝ → ℝ} (R : Rounds u rnd) {x : ℝ} (h : rnd x = 0) : x = 0 := by
  have h1 := R.near x
  rw [h, zero_sub, abs_neg] at h1
  by_contra hx
  have := abs_pos.2 hx
  nlinarith [R.small.2]

theorem one_machine : ∃ (p : Problem ℝ) (sS : Nat → ℝ) (P : ParallelMesh) (T : Nat → Mesh) (D : Nat → Verif.Floating.Tables ℝ),
    Sensible twoVal oneDeck twoMesh ∧ Describes twoVal oneDeck twoMesh p sS ∧ p.Acyclic twoMesh ∧ p.Transversal twoMesh ∧
    p.sigmaT 0 = 1 ∧ sS 0 = 0 ∧ p.sigmaT 1 = 2 ∧ sS 1 = 0 ∧
    Created twoMesh [1, 0] 2 P ∧ Loaded twoVal P T ∧ Verif.Floating.Started (machine64 oneDeck) twoVal P T D ∧
    Verif.Floating.Sorted (machine64 oneDeck) twoVal twoMesh ∧ (∀ a < oneDeck.dirs.length, size (deckDir oneDeck a) ≤ 1.01) ∧
    (∀ r < 2, (T r).nCells ≤ 2) := by
  have hs : Sensible twoVal oneDeck twoMesh := by
    refine ⟨crude_material, fun c hc v => (two_radius hc v).1.ne', by norm_num [oneDeck], by norm_num [oneDeck], ?_⟩
    intro d hd
    simp only [oneDeck, List.mem_singleton] at hd
    subst hd
    norm_num
  obtain ⟨p, sS, Ds⟩ := describes_exists twoMesh_tets two_fits hs
  have hmu : ∀ d ∈ oneDeck.dirs, d.mu ≠ 0 := by
    intro d hd
    simp only [oneDeck, List.mem_singleton] at hd
    subst hd
    norm_num
  have s0 := Ds.sigma 0 _ (List.getElem?_eq_getElem (l := twoMesh.cells) (i := 0) (by decide))
  have s1 := Ds.sigma 1 _ (List.getElem?_eq_getElem (l := twoMesh.cells) (i := 1) (by decide))
  have ts : p.sigmaT 0 = 1 ∧ sS 0 = 0 ∧ p.sigmaT 1 = 2 ∧ sS 1 = 0 := by
    rcases s0 with ⟨-, e, e'⟩ | ⟨e, -⟩
    · rcases s1 with ⟨e1, -⟩ | ⟨-, e1, e1'⟩
      · simp [twoMesh] at e1
      · exact ⟨e, e', e1, e1'⟩
    · simp [twoMesh] at e
  obtain ⟨P, H⟩ := created_of twoMesh_tets (by decide) (by decide) (pv := [1, 0]) (n := 2) rfl (by decide) (by decide)
  obtain ⟨T, L⟩ := load_succeeds twoVal H
  have hK := machine64_computes (deck := oneDeck)
  obtain ⟨D, hD⟩ := rounded_started binary64_rounds H L hK two_shaped crude_material
  have hac := two_acyclic Ds
  have hdir : ∀ a (ha : a < oneDeck.dirs.length), deckDir oneDeck a = ![oneDeck.dirs[a].xi, oneDeck.dirs[a].eta, oneDeck.dirs[a].mu] := by
    intro a ha
    unfold deckDir Deck.omega
    rw [List.getElem?_map, List.getElem?_eq_getElem ha]
    rfl
  have hm : ∀ a < oneDeck.dirs.length, deckDir oneDeck a 2 ≠ 0 := by
    intro a ha
    rw [hdir a ha]
    exact hmu _ (List.getElem_mem ha)
  refine ⟨p, sS, P, T, D, hs, Ds, hac, two_transversal Ds hmu, ts.1, ts.2.1, ts.2.2.1, ts.2.2.2, H, L, hD,
    machine_sorted binary64_rounds twoMesh_tets two_fits Ds hac hK two_shaped (two_inclined hm), fun a ha => ?_, fun r hr => ?_⟩
  · rw [hdir a ha]
    unfold size
    have := hs.dirs oneDeck.dirs[a] (List.getElem_mem ha)
    simp only [Matrix.cons_val_zero, Matrix.cons_val_one, Matrix.cons_val]
    rw [this, Real.sqrt_one]
    norm_num
  · have hl := (create_cells H.create).1
    have hp : P.parts[r]? = some P.parts[r] := List.getElem?_eq_getElem (by omega)
    have h1 := (loaded_cells H L hp).1
    have h2 := part_le H hp
    have h3 := ((create_cells H.create).2 r _ hp).1
    have : twoMesh.numCells = 2 := rfl
    omega

section
variable {p : Problem ℝ} {sS : Nat → ℝ} {P : ParallelMesh} {T : Nat → Mesh} {D : Nat → Verif.Floating.Tables ℝ}
  (hs : Sensible twoVal oneDeck twoMesh) (Ds : Describes twoVal oneDeck twoMesh p sS)
  (t1 : p.sigmaT 0 = 1) (t2 : sS 0 = 0) (t3 : p.sigmaT 1 = 2) (t4 : sS 1 = 0)
  (H : Created twoMesh [1, 0] 2 P) (L : Loaded twoVal P T) (hD : Verif.Floating.Started (machine64 oneDeck) twoVal P T D)
  (hsort : Verif.Floating.Sorted (machine64 oneDeck) twoVal twoMesh) (hom : ∀ a < oneDeck.dirs.length, size (deckDir oneDeck a) ≤ 1.01)
  (hsize : ∀ r < 2, oneDeck.dirs.length * (T r).nCells < 2 ^ 64)
include Ds t2 t4

/-- Without scattering the source does not depend on the flux. -/
theorem one_total {psi src : Psi ℝ} (h : Total (machine64 oneDeck) twoVal twoMesh psi src) {c : Nat} (hc : c < 2) :
    ∃ P, Verif.Floating.Spec.CellPoints twoVal twoMesh c P ∧ ∀ g < 1, ∀ a < oneDeck.dirs.length, ∀ v,
      src g v a c = binary64 ((machine64 oneDeck).source a (P v) (p.sigmaT c) (sS c)) := by
  obtain ⟨P, sT, sS', hP, hsig, hsrc⟩ := h c hc
  obtain ⟨rfl, rfl⟩ := sigma_deck Ds machine64_solves machine64_adds hsig
  refine ⟨P, hP, fun g hg a ha v => ?_⟩
  rw [hsrc g hg a ha v]
  have h0 : sS c = 0 := by
    interval_cases c
    · exact t2
    · exact t4
  show binary64 (_ + binary64 (binary64 (sS c / _) * _)) = _
  rw [h0, zero_div, rnd_zero binary64_rounds, zero_mul, rnd_zero binary64_rounds, add_zero]

include H L hD hsort hsize in
/-- Two sweeps give the same. -/
theorem one_same {j k : Nat} {psi psi' : Nat → Psi ℝ} (h : (machine64 oneDeck).Iterated 2 T D (j + 1) psi)
    (h' : (machine64 oneDeck).Iterated 2 T D (k + 1) psi') :
    ∀ r < 2, ∀ i < (T r).nCells, ∀ g < 1, ∀ v, ∀ a < oneDeck.dirs.length, psi r g v a i = psi' r g v a i := by
  have hcons := hsort.consistent
  cases h with
  | succ h1 h2 =>
  cases h' with
  | succ h1' h2' =>
  obtain ⟨old, ho, -⟩ := Verif.Floating.iterated_bitwise H (by decide) L hD H (by decide) L hD hcons hsize hsize h1 h1
  obtain ⟨old', ho', -⟩ := Verif.Floating.iterated_bitwise H (by decide) L hD H (by decide) L hD hcons hsize hsize h1' h1'
  obtain ⟨src, hT, hsrc⟩ := Verif.Floating.total_of H L hD ho
  obtain ⟨src', hT', hsrc'⟩ := Verif.Floating.total_of H L hD ho'
  obtain ⟨new, hsol, hnew, log, l1, l2⟩ := Verif.Floating.swept_solution H (by decide) L hD hcons hsize h2 hsrc
  obtain ⟨new', hsol', hnew', -⟩ := Verif.Floating.swept_solution H (by decide) L hD hcons hsize h2' hsrc'
  have hsame : Same oneDeck.dirs.length oneDeck.nGroups twoMesh src src' := by
    intro g hg v a ha c hc
    obtain ⟨P, hP, e⟩ := one_total Ds t2 t4 hT hc
    obtain ⟨P', hP', e'⟩ := one_total Ds t2 t4 hT' hc
    rw [e g hg a ha v, e' g hg a ha v]
    obtain ⟨d, hd, hPd⟩ := hP
    obtain ⟨d', hd', hPd'⟩ := hP'
    rw [hd, Option.some.injEq] at hd'
    subst hd'
    rw [position_point (hPd v), position_point (hPd' v)]
  have := Verif.Floating.solution_unique twoMesh_tets hsol hsol' hsame l1 l2
  intro r hr i hi g hg v a ha
  obtain ⟨c, hc⟩ := isCell_of_lt H L hr hi
  obtain ⟨q1, -, -, q4⟩ := isCell_lg H L hc
  rw [hnew r hr i c q1 g hg v a ha, hnew' r hr i c q1 g hg v a ha]
  exact this g hg v a ha c q4

include hs t1 t3 H L hD hsort hsize hom in
/-- The computed scalar flux is not zero. -/
theorem one_nonzero {k : Nat} {psi : Nat → Psi ℝ} (h : (machine64 oneDeck).Iterated 2 T D (k + 1) psi) :
    ∃ r < 2, ∃ i < (T r).nCells, ∃ g < oneDeck.nGroups, ∃ v, (machine64 oneDeck).phi (psi r) g v i ≠ 0 := by
  by_contra hz
  push Not at hz
  have hcons := hsort.consistent
  cases h with
  | succ h1 h2 =>
  obtain ⟨old, ho, -⟩ := Verif.Floating.iterated_bitwise H (by decide) L hD H (by decide) L hD hcons hsize hsize h1 h1
  obtain ⟨src, hT, hsrc⟩ := Verif.Floating.total_of H L hD ho
  obtain ⟨new, hsol, hnew, -⟩ := Verif.Floating.swept_solution H (by decide) L hD hcons hsize h2 hsrc
  have hzero : ∀ g < oneDeck.nGroups, ∀ v, ∀ a < oneDeck.dirs.length, ∀ c < twoMesh.numCells, new g v a c = 0 := by
    intro g hg v a ha c hc
    obtain ⟨r, i, hi⟩ := isCell_exists H hc
    obtain ⟨q1, q2, q3, -⟩ := isCell_lg H L hi
    have e := hz r q2 i q3 g hg v
    have ha1 : a < 1 := ha
    obtain rfl : a = 0 := by omega
    rw [← hnew r q2 i c q1 g hg v 0 ha]
    have e2 : binary64 (0 + binary64 (psi r g v 0 i * 1)) = 0 := e
    rw [zero_add, mul_one] at e2
    exact rnd_eq_zero binary64_rounds (rnd_eq_zero binary64_rounds e2)
  have hcell : ∀ c < twoMesh.numCells, 0 < p.sigmaT c ∧ |p.sigmaT c - sS c| ≤ 2 := by
    intro c hc
    have hc : c < 2 := hc
    interval_cases c
    · rw [t1, t2]; norm_num
    · rw [t3, t4]; norm_num
  have hfix := hat_fixed (K := machine64 oneDeck) binary64_rounds (by norm_num) twoMesh_tets Ds rfl hom two_apart (fun c hc => (hcell c hc).2)
  have hq : ∀ g < oneDeck.nGroups, ∀ v, ∀ a < oneDeck.dirs.length, ∀ c < twoMesh.numCells,
      |src g v a c| ≤ 3 ∧ |src g v a c - p.source g v a c| ≤ 1 / 100 := by
    intro g hg v a ha c hc
    obtain ⟨P, hP, e⟩ := one_total Ds t2 t4 hT hc
    rw [e g hg a ha v]
    obtain ⟨f1, f2⟩ := hfix c hc P hP g hg v a ha
    set s := (machine64 oneDeck).source a (P v) (p.sigmaT c) (sS c)
    have hr := binary64_rounds.near s
    rw [abs_le] at f1 f2
    have hr2 : |binary64 s - s| ≤ 1 / 1000 := by
      refine hr.trans ?_
      have : |s| ≤ 3 := by rw [abs_le]; constructor <;> norm_num at f2 ⊢ <;> linarith
      have h2 : (2 : ℝ) ^ (-53 : ℤ) ≤ 1 / 3000 := by norm_num
      have := mul_le_mul h2 this (abs_nonneg _) (by norm_num)
      linarith
    rw [abs_le] at hr2
    norm_num at f1 f2
    constructor <;> rw [abs_le] <;> constructor <;> linarith
  have hdg := machine_near binary64_rounds (by norm_num) twoMesh_tets two_fits Ds machine64_computes machine64_solves two_shaped two_stout
    (by norm_num) hom (fun c hc => (hcell c hc).1) (fun c hc => two_thick Ds t1 t3 hc) hsol (X := 0) (Q := 3)
    (fun g hg v a ha c hc => by rw [hzero g hg v a ha c hc, abs_zero]) (fun g hg v a ha c hc => (hq g hg v a ha c hc).1)
  obtain ⟨inc, hinc, hrow⟩ := hdg 1 _ (List.getElem?_eq_getElem (l := twoMesh.cells) (i := 1) (by decide)) 0
    (by rw [show ({ p with source := src } : Problem ℝ).nAngles = p.nAngles from rfl, Ds.angles]; exact Nat.one_pos) 0
    (by rw [show ({ p with source := src } : Problem ℝ).nGroups = p.nGroups from rfl, Ds.groups]; exact Nat.one_pos)
  have hup : ∀ f v, v ≠ f → p.area 1 f * p.omegaDotN 0 1 f *
      Verif.Transport.Spec.upwind (fun f => p.area 1 f * p.omegaDotN 0 1 f) (fun v => new 0 v 0 1) inc f v = 0 := by
    intro f v hv
    unfold Verif.Transport.Spec.upwind
    rcases lt_trichotomy (p.area 1 f * p.omegaDotN 0 1 f) 0 with hneg | h0 | hpos
    · rw [if_neg (not_lt.2 hneg.le)]
      obtain ⟨k1, k2⟩ := hinc f v hv hneg
      by_cases hx : ∃ c' f', Across twoMesh 1 f c' f'
      · obtain ⟨c', f', hx⟩ := hx
        obtain ⟨d', w, hd', -, e⟩ := k1 c' f' hx
        rw [e, hzero 0 Nat.one_pos w 0 Nat.one_pos c' (lt_of_get twoMesh_tets hd'), mul_zero]
      · rw [k2 fun c' f' h => hx ⟨c', f', h⟩, mul_zero]
    · rw [h0, zero_mul]
    · rw [if_pos hpos]; dsimp only; rw [hzero 0 Nat.one_pos v 0 Nat.one_pos 1 (by decide), mul_zero]
  have hlow : ∀ v, 0.6 ≤ src 0 v 0 1 := by
    intro v
    have e1 := (abs_le.1 (hq 0 Nat.one_pos v 0 Nat.one_pos 1 (by decide)).2).1
    have e2 := (abs_le.1 (two_source Ds (a := 0) (d := ⟨2 / 3, 2 / 3, 1 / 3, 1⟩) rfl (by norm_num) (g := 0) Nat.one_pos (c := 1) (by decide) v)).1
    have e3 := (two_radius (c := 1) (by decide) v).2
    unfold twoIso at e2
    rw [t3, t4] at e2
    norm_num at e1 e2 ⊢
    linarith
  have hr := hrow 0
  have e : rowDefect (p.volume 1) (p.sigmaT 1) (fun f => p.area 1 f * p.omegaDotN 0 1 f) inc (fun v => src 0 v 0 1) (fun v => new 0 v 0 1) 0 =
      - (p.volume 1 / 20 * (2 * src 0 0 0 1 + ∑ j ∈ Finset.univ.erase 0, src 0 j 0 1)) := by
    unfold rowDefect
    rw [Finset.sum_eq_zero, Finset.sum_eq_zero, Finset.sum_eq_zero]
    · dsimp only; rw [hzero 0 Nat.one_pos 0 0 Nat.one_pos 1 (by decide)]; ring
    · intro j _; exact hzero 0 Nat.one_pos j 0 Nat.one_pos 1 (by decide)
    · intro j _; exact hzero 0 Nat.one_pos j 0 Nat.one_pos 1 (by decide)
    · intro f hf
      rw [div_mul_eq_mul_div, mul_add, mul_left_comm, hup f 0 (Finset.ne_of_mem_erase hf).symm, Finset.mul_sum, Finset.sum_eq_zero]
      · ring
      · intro j hj
        exact hup f j (Finset.ne_of_mem_erase (Finset.mem_of_mem_erase hj))
  have hr : |rowDefect (p.volume 1) (p.sigmaT 1) (fun f => p.area 1 f * p.omegaDotN 0 1 f) inc (fun v => src 0 v 0 1) (fun v => new 0 v 0 1) 0|
      ≤ 2 ^ (-53 : ℤ) * (223 + 31 * 2) * (((∑ f, p.area 1 f) + p.sigmaT 1 * p.volume 1) * 0 + p.volume 1 * 3) := hr
  rw [e, abs_neg, (two_volumes Ds).2] at hr
  have hsum : 1.8 ≤ ∑ j ∈ Finset.univ.erase (0 : Fin 4), src 0 j 0 1 := by
    rw [show Finset.univ.erase (0 : Fin 4) = {1, 2, 3} from by decide, Finset.sum_insert (by decide), Finset.sum_insert (by decide), Finset.sum_singleton]
    linarith [hlow 1, hlow 2, hlow 3]
  have hr2 := (abs_le.1 hr).2
  have h0 := hlow 0
  norm_num at hr2 hsum h0
  linarith

include hs t1 t3 H L hD hsort hsize hom in
/-- The iteration ends by its tolerance. -/
theorem one_ends : ∃ psi e l, (machine64 oneDeck).FixedPoint (test64 (1 / 10 ^ 8)) 5 2 T D psi (e :: l) ∧ (test64 (1 / 10 ^ 8)).above e = false := by
  have hlt : (test64 (1 / 10 ^ 8)).above (test64 (1 / 10 ^ 8)).one = true := ((test64_tests _).above _).2 (by norm_num [test64])
  obtain ⟨psi, l, h, hend⟩ := Verif.Floating.fixedPoint_returns H (by decide) L hD hsort hsize
    ⟨3, 5, .tycho, false, fun _ c _ => c, fun _ _ _ _ _ => 3⟩ (by decide) (by decide) rfl (test64 (1 / 10 ^ 8)) 5
  cases h with
  | zero =>
    rcases hend with h | h
    · simp at h
    · rw [show ([] : List ℝ).headD (test64 (1 / 10 ^ 8)).one = (test64 (1 / 10 ^ 8)).one from rfl, hlt] at h
      exact absurd h (by decide)
  | @succ before _ l h1 h2 h3 h4 =>
    refine ⟨psi, _, l, .succ h1 h2 h3 h4, ?_⟩
    rcases hend with hend | hend
    · -- the last two sweeps gave the same
      obtain ⟨k, hk⟩ : ∃ k, l.length = k + 1 := ⟨l.length - 1, by simp at hend; omega⟩
      have i1 := fixedPoint_iterated h1
      have i2 := Kernel.Iterated.succ i1 h4
      rw [hk] at i1
      have hsame := one_same Ds t2 t4 H L hD hsort hsize i1 i2
      have hphi : ∀ r < 2, ∀ i < (T r).nCells, ∀ g < oneDeck.nGroups, ∀ v,
          (machine64 oneDeck).phi (before r) g v i = (machine64 oneDeck).phi (psi r) g v i := by
        intro r hr i hi g hg v
        unfold Kernel.phi
        congr 1
        funext a
        exact hsame r hr i hi g hg v a a.2
      have herr : ∀ r < 2, (test64 (1 / 10 ^ 8)).error (Verif.Floating.pairs oneDeck.nGroups (T r).nCells ((machine64 oneDeck).phi (psi r))
          ((machine64 oneDeck).phi (before r))) = 0 := by
        intro r hr
        have hmem : ∀ q ∈ Verif.Floating.pairs oneDeck.nGroups (T r).nCells ((machine64 oneDeck).phi (psi r)) ((machine64 oneDeck).phi (before r)), q.1 = q.2 := by
          intro q hq
          unfold Verif.Floating.pairs at hq
          simp only [List.mem_flatMap, List.mem_map, List.mem_range] at hq
          obtain ⟨i, hi, v, -, g, hg, rfl⟩ := hq
          exact (hphi r hr i hi g hg v).symm
        have key : ∀ w : List (ℝ × ℝ), (∀ q ∈ w, q.1 = q.2) → w.foldl (fun s q => binary64 (s + |binary64 (q.1 - q.2)|)) 0 = 0 := by
          intro w
          induction w with
          | nil => intro _; rfl
          | cons q w ih =>
            intro hw
            rw [List.foldl_cons, hw q (by simp), sub_self, rnd_zero binary64_rounds, abs_zero, add_zero, rnd_zero binary64_rounds]
            exact ih fun q' hq' => hw q' (by simp [hq'])
        exact key _ hmem
      have hq : (machine64 oneDeck).errorOf (test64 (1 / 10 ^ 8)) 2 T before psi = 0 := by
        unfold Kernel.errorOf
        dsimp only
        rw [show (List.range 2) = [0, 1] from rfl]
        simp only [List.map_cons, List.map_nil]
        rw [herr 0 (by decide), herr 1 (by decide)]
        show binary64 (binary64 (0 + 0) / _) = 0
        rw [add_zero, rnd_zero binary64_rounds, zero_div, rnd_zero binary64_rounds]
      rw [hq, ← Bool.not_eq_true, (test64_tests _).above]
      norm_num
    · exact hend
end

/-- C99: all conditions of `machine_stops` hold in double precision for two tetrahedra on two ranks with the tolerance
`1e-8`: the iteration ends by its tolerance, the computed scalar flux is not zero, the exact solution exists, and the
bound holds. -/
example : ∃ (p : Problem ℝ) (sS : Nat → ℝ) (T : Nat → Mesh) (D : Nat → Verif.Floating.Tables ℝ) (psi' : Nat → Psi ℝ) (e : ℝ) (l : List ℝ)
    (new psi : Psi ℝ) (X Q Φ : ℝ), (machine64 oneDeck).FixedPoint (test64 (1 / 10 ^ 8)) 5 2 T D psi' (e :: l) ∧
    (test64 (1 / 10 ^ 8)).above e = false ∧ Holds oneDeck.dirs.length oneDeck.nGroups 2 T psi' new ∧
    p.Scatter twoMesh (scattering oneDeck sS) psi ∧
    ∀ g < oneDeck.nGroups,
      (1 - 0) ^ 2 * ∑ a ∈ Finset.range oneDeck.dirs.length, (scattering oneDeck sS).wt a * ∑ c ∈ Finset.range 2,
          p.sigmaT c * p.volume c * Verif.Source.cellM (fun v => new g v a c - psi g v a c) (fun v => new g v a c - psi g v a c) ≤
        ∑ a ∈ Finset.range oneDeck.dirs.length, (scattering oneDeck sS).wt a * ∑ c ∈ Finset.range 2,
          (2 * p.volume c * (14 * 2 ^ (-53 : ℤ) * (0.04 + 2) + 2 ^ (-53 : ℤ) * (1.001 * (0.04 + 2)) +
              sS c / (4 * Real.pi) * ((6 * 2 ^ (-53 : ℤ) + 3 * ((1 + 2 ^ (-53 : ℤ)) ^ (oneDeck.dirs.length + 1) - 1)) *
              ((∑ a ∈ Finset.range oneDeck.dirs.length, (scattering oneDeck sS).wt a) * X) + 1.03 * (1 / 10 ^ 8) * Φ)) ^ 2 / p.sigmaT c +
            160 * (2 ^ (-53 : ℤ) * (223 + 31 * 2) * (((∑ f, p.area c f) + p.sigmaT c * p.volume c) * X + p.volume c * Q)) ^ 2 /
              (p.sigmaT c * p.volume c)) := by
  obtain ⟨p, sS, P, T, D, hs, Ds, hac, htr, t1, t2, t3, t4, H, L, hD, hsort, hom, hcells⟩ := one_machine
  have hsize : ∀ r < 2, oneDeck.dirs.length * (T r).nCells < 2 ^ 64 := by
    intro r hr
    have := hcells r hr
    show 1 * (T r).nCells < _
    omega
  have hcell : ∀ c < twoMesh.numCells, 0 < p.sigmaT c ∧ 0 ≤ sS c ∧ |p.sigmaT c - sS c| ≤ 2 ∧ sS c = 0 := by
    intro c hc
    have hc : c < 2 := hc
    interval_cases c
    · rw [t1, t2]; norm_num
    · rw [t3, t4]; norm_num
  obtain ⟨psi', e, l, hrun, hend⟩ := one_ends hs Ds t1 t2 t3 t4 H L hD hsort hom hsize
  have hph := geometry_physical twoMesh_tets two_fits Ds fun c hc => (hcell c hc).1
  have hrat : p.Ratio twoMesh (scattering oneDeck sS) 0 := by
    refine ⟨le_rfl, ?_, ?_, fun c hc => ?_, fun c hc => ?_⟩
    · intro a ha
      rw [Ds.angles] at ha
      have ha1 : a < 1 := ha
      obtain rfl : a = 0 := by omega
      show (0 : ℝ) ≤ 1
      norm_num
    · rw [Ds.angles, show oneDeck.dirs.length = 1 from rfl, Finset.sum_range_one]
      show (0 : ℝ) < 1
      norm_num
    · show 0 ≤ sS c / _
      rw [(hcell c hc).2.2.2, zero_div]
    · show _ * (sS c / _) ≤ _
      rw [(hcell c hc).2.2.2, zero_div, mul_zero, zero_mul]
  obtain ⟨psi, hpsi⟩ := scatter_solution H (by decide) L hph (geometry_matched twoMesh_tets two_fits Ds) hac htr
    (by rw [Ds.angles]; exact hsize) hrat (by norm_num)
  obtain ⟨before, old, new, src, -, -, hnew, -, hbound⟩ := machine_stops binary64_rounds (by norm_num) H (by decide) L hD two_fits
    Ds machine64_computes machine64_solves machine64_adds rfl two_shaped two_stout two_apart (by norm_num) hom
    (fun c hc => (hcell c hc).1) (fun c hc => two_thick Ds t1 t3 hc) (by rw [show oneDeck.dirs.length = 1 from rfl]; norm_num) hrat (by norm_num)
    (fun c hc => (hcell c hc).2.1) (fun c hc => (hcell c hc).2.2.1) hsize (test64_tests _) (N := 8)
    (fun r hr => by have := hcells r hr; show (T r).nCells * (4 * 1) ≤ 8; omega) (by norm_num) hrun hend
    (one_nonzero hs Ds t1 t2 t3 t4 H L hD hsort hom hsize (fixedPoint_iterated hrun)) hpsi
  obtain ⟨X1, hX1⟩ := bounded old oneDeck.nGroups oneDeck.dirs.length twoMesh.numCells
  obtain ⟨X2, hX2⟩ := bounded new oneDeck.nGroups oneDeck.dirs.length twoMesh.numCells
  obtain ⟨Q, hQ⟩ := bounded src oneDeck.nGroups oneDeck.dirs.length twoMesh.numCells
  exact ⟨p, sS, T, D, psi', e, l, new, psi, max X1 X2, Q, _, hrun, hend, hnew, hpsi,
    hbound (max X1 X2) Q _ _ (fun g hg v a ha c hc => ⟨(hX1 g hg v a ha c hc).trans (le_max_left _ _),
      (hX2 g hg v a ha c hc).trans (le_max_right _ _), hQ g hg v a ha c hc⟩) rfl rfl⟩

end Verif.Rounding
