import Verif.Rounding.Close
import Verif.Floating.Props

/-!
# A sweep in rounded arithmetic against the exact solution (C97)
-/
set_option linter.unusedSectionVars false
namespace Verif.Rounding

open Verif.MeshFile Verif.TychoMesh Verif.Geometry Verif.Geometry.Spec Verif.Program Verif.Program.Spec Verif.Transport
open Verif.Rounding.Spec hiding Acyclic
open Verif.Traverse (Psi)
open Verif.Floating (Kernel)
open Verif.Floating.Spec (CellPoints FacePoints OnFace Incoming Solution Holds)

variable {u : ℝ} {rnd : ℝ → ℝ} {val : Nat → ℝ} {m : SerialMesh} {deck : Deck} {p : Problem ℝ} {sS : Nat → ℝ} {κ : ℝ}

/-- `solve` of the machine functions is `Transport::solve` in rounded arithmetic (`rsolve`), where that
divides by no zero, for the total cross sections of the input deck. -/
structure Solves {nA nG : Nat} (rnd : ℝ → ℝ) (deck : Deck) (K : Kernel ℝ nA nG) : Prop where
  zero : K.zero = 0
  sigmaT1 : K.sigmaT1 = deck.sigmaT1
  sigmaT2 : K.sigmaT2 = deck.sigmaT2
  solve : ∀ (V : ℝ) (A dots : Fin 4 → ℝ) (σ : ℝ) (c2f : Fin 4 → Fin 4 → Fin 3) (inc : Fin 3 → Fin 4 → Fin nG → ℝ)
    (q : Fin 4 → Fin nG → ℝ) (g : Fin nG) (x : Fin 4 → ℝ),
    rsolve rnd V A dots σ c2f (fun k f => inc k f g) (fun v => q v g) = some x → ∀ v, K.solve V A dots σ c2f inc q v g = x v

theorem onFace_nodes (H : Tets m) {c c' : Nat} {f f' : Fin 4} {k : Fin 3} {v w : Fin 4} {d : SCell} (h : Across m c f c' f')
    (hd : m.cells[c]? = some d) (hv : OnFace m c f k v) (hw : OnFace m c' f' k w) :
    ∃ d', m.cells[c']? = some d' ∧ d'.nodes w = d.nodes v := by
  obtain ⟨-, g, hg, hg'⟩ := h
  obtain ⟨g1, e1, d1, a1, a2, a3, a4⟩ := hv
  obtain ⟨g2, e2, d2, b1, b2, b3, b4⟩ := hw
  obtain rfl := Verif.Floating.faceOf_unique H a1 hg
  obtain rfl := Verif.Floating.faceOf_unique H b1 hg'
  rw [a2, Option.some.injEq] at b2
  rw [hd, Option.some.injEq] at a3
  subst b2 a3
  exact ⟨d2, b3, b4.trans a4.symm⟩

/-- A cell thick enough for rounding not to hide its absorption has no zero pivot. -/
theorem thick_solves (R : Rounds u rnd) (hu : u ≤ 1 / 100000) {V V' σ : ℝ} {A s faceArea dots : Fin 4 → ℝ} (hV : 0 < V) (hσ : 0 < σ)
    (hκ1 : 1 ≤ κ) (hκ : 31 * u * κ ≤ 1 / 100) (hA0 : ∀ f, 0 ≤ A f) (hA : ∀ f, |s f| ≤ 1.01 * A f)
    (N : Near (31 * u * κ) V V' A s (rsigned rnd faceArea dots)) (hcl : ∑ f, s f = 0)
    (ht : u * (2700 + 33 * κ) * ∑ f, A f ≤ σ * V) (c2f : Fin 4 → Fin 4 → Fin 3) (lpb : Fin 3 → Fin 4 → ℝ) (q : Fin 4 → ℝ) :
    ∃ x, rsolve rnd V' faceArea dots σ c2f lpb q = some x := by
  have hu0 := R.small.1
  refine rsolve_some R (by linarith) ?_ c2f lpb q
  set s' := rsigned rnd faceArea dots
  have hS0 : 0 ≤ ∑ f, A f := Finset.sum_nonneg fun f _ => hA0 f
  have h1 : ∑ f, |s' f| ≤ 1.02 * ∑ f, A f := by
    rw [Finset.mul_sum]
    refine Finset.sum_le_sum fun f _ => ?_
    have h2 := N.faces f
    have h3 : |s' f| ≤ |s' f - s f| + |s f| := by have := abs_add_le (s' f - s f) (s f); rwa [sub_add_cancel] at this
    have h4 := mul_le_mul_of_nonneg_right hκ (hA0 f)
    linarith [hA f]
  have h2 : |∑ f, s' f| ≤ 31 * u * κ * ∑ f, A f := by
    have e : ∑ f, s' f = ∑ f, (s' f - s f) := by rw [Finset.sum_sub_distrib, hcl, sub_zero]
    rw [e, Finset.mul_sum]
    exact (Finset.abs_sum_le_sum_abs _ _).trans (Finset.sum_le_sum fun f _ => N.faces f)
  have hv := abs_le.1 N.volume
  have h3 := mul_le_mul_of_nonneg_right hκ hV.le
  have hV' : |V'| ≤ 1.01 * V := by rw [abs_le]; constructor <;> linarith
  have hσV : 0 < σ * V := mul_pos hσ hV
  have hlow : 0.99 * (σ * V) ≤ σ * V' := by
    have : 0.99 * V ≤ V' := by linarith
    nlinarith
  rw [abs_of_pos hσ]
  have hup : σ * |V'| ≤ 1.01 * (σ * V) := by nlinarith
  have a1 : 2500 * u * ((∑ f, |s' f|) + σ * |V'|) ≤ 2500 * u * (1.02 * (∑ f, A f) + 1.01 * (σ * V)) :=
    mul_le_mul_of_nonneg_left (by linarith) (by linarith)
  have a2 : u * (σ * V) ≤ 1 / 100000 * (σ * V) := mul_le_mul_of_nonneg_right hu hσV.le
  have a3 : 0 ≤ u * ∑ f, A f := mul_nonneg hu0 hS0
  have a4 : 0 ≤ u * κ * ∑ f, A f := mul_nonneg (mul_nonneg hu0 (by linarith)) hS0
  nlinarith

variable {K : Kernel ℝ deck.dirs.length deck.nGroups}

/-- C97: what a sweep of the machine leaves misses every row of the discretisation in exact arithmetic, on the
exact geometry, by a multiple of the roundoff unit only. -/
theorem machine_near (R : Rounds u rnd) (hu : u ≤ 1 / 100000) (H : Tets m) (F : Fits val m) (Ds : Describes val deck m p sS)
    (hK : Computes rnd (deckDir deck) K) (hS : Solves rnd deck K) (hw : WellShaped u val m) (S : Stout κ val m)
    (hκ : 31 * u * κ ≤ 1 / 100) (hom : ∀ a < deck.dirs.length, size (deckDir deck a) ≤ 1.01)
    (hσ : ∀ c < m.numCells, 0 < p.sigmaT c)
    (ht : ∀ c < m.numCells, u * (2700 + 33 * κ) * ∑ f, p.area c f ≤ p.sigmaT c * p.volume c) {source psi : Psi ℝ}
    (h : Solution K val m source psi) {X Q : ℝ}
    (hX : ∀ g < deck.nGroups, ∀ v, ∀ a < deck.dirs.length, ∀ c < m.numCells, |psi g v a c| ≤ X)
    (hQ : ∀ g < deck.nGroups, ∀ v, ∀ a < deck.dirs.length, ∀ c < m.numCells, |source g v a c| ≤ Q) :
    NearDG { p with source := source } m
      (fun _ c => u * (223 + 31 * κ) * (((∑ f, p.area c f) + p.sigmaT c * p.volume c) * X + p.volume c * Q)) psi := by
  have hp := geometry_physical H F Ds hσ
  intro c d hd a ha g hg
  have ha' : a < deck.dirs.length := by rw [← Ds.angles]; exact ha
  have hg' : g < deck.nGroups := by rw [← Ds.groups]; exact hg
  have hc := lt_of_get H hd
  obtain ⟨P, q, dots, sT, sS', c2f, inc, hP, hq, hdots, hsig, hc2f, hinc, hsolve⟩ := h c hc a ha'
  have hsT : p.sigmaT c = sT := by
    obtain ⟨d1, h1, h2⟩ := hsig
    rw [hd, Option.some.injEq] at h1
    subst h1
    rcases Ds.sigma c d hd with ⟨k1, k2, -⟩ | ⟨k1, k2, -⟩ <;> rcases h2 with ⟨l1, l2, -⟩ | ⟨l1, l2, -⟩
    · rw [k2, l2, hS.sigmaT1]
    · rw [k1] at l1; exact absurd l1 (by decide)
    · rw [k1] at l1; exact absurd l1 (by decide)
    · rw [k2, l2, hS.sigmaT2]
  subst hsT
  rw [hK.omegaDotN] at hdots
  rw [hK.volume, hK.area] at hsolve
  have hface := fun f => face_near R (by linarith) H F Ds hw S hκ ha' (hom a ha') hP (hq f) (hdots f)
  have N := cell_near R (by linarith) H F Ds hw S hκ ha' (hom a ha') hP hq hdots
  obtain ⟨G, rfl⟩ : ∃ G : Fin deck.nGroups, (G : Nat) = g := ⟨⟨g, hg'⟩, rfl⟩
  obtain ⟨x, hx⟩ := thick_solves R hu (hp.volume c hc) (hσ c hc) S.one hκ (hp.area c hc) (fun f => (hface f).2.1) N (hp.closed c hc a ha)
    (ht c hc) c2f (fun k f => inc k f G) (fun v => source G v a c)
  have hpsi : (fun v => psi G v a c) = x := by
    funext v
    rw [hsolve v G]
    exact hS.solve _ _ _ _ _ _ (fun v g => source g v a c) G x hx v
  have hX0 : 0 ≤ X := (abs_nonneg _).trans (hX G hg' 0 a ha' c hc)
  have hlt' : ∀ {c' f f'}, Across m c f c' f' → c' < m.numCells := fun hac => (across_cells H hac).2
  have hincX : ∀ k f, |inc k f G| ≤ X := by
    intro k f
    obtain ⟨i1, i2⟩ := hinc k f G
    cases hpos : K.positive (dots f) with
    | true => rw [i1 hpos, hS.zero, abs_zero]; exact hX0
    | false =>
      obtain ⟨j1, j2⟩ := i2 hpos
      by_cases hac : ∃ c' f', Across m c f c' f'
      · obtain ⟨c', f', hac⟩ := hac
        obtain ⟨w, hw'⟩ := Verif.Floating.onFace_exists H hac k
        rw [j1 c' f' w hac hw']
        exact hX G hg' w a ha' c' (hlt' hac)
      · rw [j2 (fun c' f' k => hac ⟨c', f', k⟩), hS.zero, abs_zero]; exact hX0
  have hnb : ∀ f v, ∃ y : ℝ, |y| ≤ X ∧
      (v ≠ f → ∀ c' f', Across m c f c' f' → ∃ (d' : SCell) (w : Fin 4), m.cells[c']? = some d' ∧ d'.nodes w = d.nodes v ∧ y = psi G w a c') ∧
      ((∀ c' f', ¬ Across m c f c' f') → y = 0) ∧ (v ≠ f → K.positive (dots f) = false → inc (c2f f v) f G = y) := by
    intro f v
    by_cases hvf : v = f
    · exact ⟨0, by rw [abs_zero]; exact hX0, fun k => absurd hvf k, fun _ => rfl, fun k => absurd hvf k⟩
    have hon := (hc2f f v).2 hvf
    by_cases hac : ∃ c' f', Across m c f c' f'
    · obtain ⟨c', f', hac⟩ := hac
      obtain ⟨w, hw'⟩ := Verif.Floating.onFace_exists H hac (c2f f v)
      refine ⟨psi G w a c', hX G hg' w a ha' c' (hlt' hac), fun _ c2 f2 hac2 => ?_, fun k => absurd hac (k c' f'), fun _ hpos => ?_⟩
      · obtain ⟨rfl, rfl⟩ := across_unique H hac hac2
        obtain ⟨d', k1, k2⟩ := onFace_nodes H hac hd hon hw'
        exact ⟨d', w, k1, k2, rfl⟩
      · exact ((hinc (c2f f v) f G).2 hpos).1 c' f' w hac hw'
    · refine ⟨0, by rw [abs_zero]; exact hX0, fun _ c' f' k => absurd ⟨c', f', k⟩ hac, fun _ => rfl, fun _ hpos => ?_⟩
      rw [((hinc (c2f f v) f G).2 hpos).2 (fun c' f' k => hac ⟨c', f', k⟩), hS.zero]
  choose nb hnb1 hnb2 hnb3 hnb4 using hnb
  refine ⟨nb, fun f v hvf _ => ⟨hnb2 f v hvf, hnb3 f v⟩, fun i => ?_⟩
  have hmain := cell_machine R (by linarith) (hp.volume c hc).le (hσ c hc).le (fun f => (hface f).2.1) hκ N hx (nb := nb) (X := X) (Q := Q)
    (fun j => by rw [← hpsi]; exact hX G hg' j a ha' c hc) hincX hnb1 (fun j => hQ G hg' j a ha' c hc)
    (fun f v hvf hneg => hnb4 f v hvf (by
      by_contra hpos
      rw [Bool.not_eq_false, hK.positive] at hpos
      have := R.pos (mul_pos (hface f).2.2 hpos)
      unfold rsigned at hneg
      linarith)) i
  rw [← hpsi] at hmain
  refine hmain.trans (le_of_eq ?_)
  ring

/-- C97: so what a sweep of the machine leaves is near the solution of the discretisation
in exact arithmetic, on the exact geometry. -/
theorem machine_error (R : Rounds u rnd) (hu : u ≤ 1 / 100000) (H : Tets m) (F : Fits val m) (Ds : Describes val deck m p sS)
    (hK : Computes rnd (deckDir deck) K) (hS : Solves rnd deck K) (hw : WellShaped u val m) (S : Stout κ val m)
    (hκ : 31 * u * κ ≤ 1 / 100) (hom : ∀ a < deck.dirs.length, size (deckDir deck a) ≤ 1.01)
    (hσ : ∀ c < m.numCells, 0 < p.sigmaT c)
    (ht : ∀ c < m.numCells, u * (2700 + 33 * κ) * ∑ f, p.area c f ≤ p.sigmaT c * p.volume c) {source psi' psi : Psi ℝ}
    (h : Solution K val m source psi') {X Q : ℝ}
    (hX : ∀ g < deck.nGroups, ∀ v, ∀ a < deck.dirs.length, ∀ c < m.numCells, |psi' g v a c| ≤ X)
    (hQ : ∀ g < deck.nGroups, ∀ v, ∀ a < deck.dirs.length, ∀ c < m.numCells, |source g v a c| ≤ Q)
    (hpsi : Problem.DG { p with source := source } m psi) {a g : Nat} (ha : a < deck.dirs.length) (hg : g < deck.nGroups) :
    ∑ c ∈ Finset.range m.numCells, p.sigmaT c * p.volume c *
        Verif.Source.cellM (fun v => psi' g v a c - psi g v a c) (fun v => psi' g v a c - psi g v a c) ≤
      80 * (u * (223 + 31 * κ)) ^ 2 * ∑ c ∈ Finset.range m.numCells,
        (((∑ f, p.area c f) + p.sigmaT c * p.volume c) * X + p.volume c * Q) ^ 2 / (p.sigmaT c * p.volume c) := by
  have hp := geometry_physical H F Ds hσ
  have hp' : Problem.Physical { p with source := source } m := ⟨hp.volume, hp.area, hp.sigma, hp.closed, hp.flow, hp.opposite⟩
  have hM' : Problem.Matched { p with source := source } m := geometry_matched (p := p) H F Ds
  have hn := machine_near R hu H F Ds hK hS hw S hκ hom hσ ht h hX hQ
  refine (near_error H hp' hM' hσ hpsi hn (by show a < p.nAngles; rw [Ds.angles]; exact ha)
    (by show g < p.nGroups; rw [Ds.groups]; exact hg)).trans (le_of_eq ?_)
  rw [mul_assoc, Finset.mul_sum _ _ ((u * (223 + 31 * κ)) ^ 2)]
  congr 1
  refine Finset.sum_congr rfl fun c _ => ?_
  show (u * (223 + 31 * κ) * (((∑ f, p.area c f) + p.sigmaT c * p.volume c) * X + p.volume c * Q)) ^ 2 / (p.sigmaT c * p.volume c) = _
  rw [mul_pow, mul_div_assoc]

/-- C97: so is what any execution of a sweep leaves on the ranks of any partition. -/
theorem machine_sweep {pv : List Nat} {n : Nat} {P : ParallelMesh} {T : Nat → Mesh} {D : Nat → Verif.Floating.Tables ℝ}
    (R : Rounds u rnd) (hu : u ≤ 1 / 100000) (H : Created m pv n P) (hn : n < uintMax) (L : Loaded val P T)
    (hD : Verif.Floating.Started K val P T D) (F : Fits val m) (Ds : Describes val deck m p sS)
    (hK : Computes rnd (deckDir deck) K) (hS : Solves rnd deck K) (hw : WellShaped u val m) (S : Stout κ val m)
    (hκ : 31 * u * κ ≤ 1 / 100) (hom : ∀ a < deck.dirs.length, size (deckDir deck a) ≤ 1.01)
    (hσ : ∀ c < m.numCells, 0 < p.sigmaT c)
    (ht : ∀ c < m.numCells, u * (2700 + 33 * κ) * ∑ f, p.area c f ≤ p.sigmaT c * p.volume c)
    (hsize : ∀ r < n, deck.dirs.length * (T r).nCells < 2 ^ 64) {source psi0 psi' : Nat → Psi ℝ}
    (h : K.Swept n T D source psi0 psi') {srcS : Psi ℝ} (hsrc : Holds deck.dirs.length deck.nGroups n T source srcS) :
    ∃ psiS : Psi ℝ, Holds deck.dirs.length deck.nGroups n T psi' psiS ∧ ∀ X Q : ℝ,
      (∀ g < deck.nGroups, ∀ v, ∀ a < deck.dirs.length, ∀ c < m.numCells, |psiS g v a c| ≤ X ∧ |srcS g v a c| ≤ Q) →
      ∀ psi, Problem.DG { p with source := srcS } m psi → ∀ a < deck.dirs.length, ∀ g < deck.nGroups,
        ∑ c ∈ Finset.range m.numCells, p.sigmaT c * p.volume c *
            Verif.Source.cellM (fun v => psiS g v a c - psi g v a c) (fun v => psiS g v a c - psi g v a c) ≤
          80 * (u * (223 + 31 * κ)) ^ 2 * ∑ c ∈ Finset.range m.numCells,
            (((∑ f, p.area c f) + p.sigmaT c * p.volume c) * X + p.volume c * Q) ^ 2 / (p.sigmaT c * p.volume c) := by
  obtain ⟨psiS, h1, h2, -⟩ := Verif.Floating.swept_solution H hn L hD
    (rounded_consistent R H.tets hK hw (opposed_of_fits R.small.1 H.tets F hw)) hsize h hsrc
  exact ⟨psiS, h2, fun X Q hXQ psi hpsi a ha g hg => machine_error R hu H.tets F Ds hK hS hw S hκ hom hσ ht h1
    (fun g hg v a ha c hc => (hXQ g hg v a ha c hc).1) (fun g hg v a ha c hc => (hXQ g hg v a ha c hc).2) hpsi ha hg⟩

end Verif.Rounding
