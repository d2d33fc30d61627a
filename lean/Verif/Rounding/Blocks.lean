import Verif.Rounding.Hat
import Verif.Floating.OuterProps

/-!
# Block Jacobi in rounded arithmetic against the exact solution (C106)
-/
set_option linter.unusedSectionVars false
namespace Verif.Rounding

open Verif.MeshFile Verif.TychoMesh Verif.Geometry Verif.Geometry.Spec Verif.Program Verif.Program.Spec Verif.Transport
open Verif.Rounding.Spec hiding Acyclic
open Verif.Traverse (Psi Bound)
open Verif.Source (cellM)
open Verif.Floating (Kernel Stop Test Tables)
open Verif.Floating.Spec (CellPoints FacePoints OnFace Incoming Total Holds BlockSolution mix)

/-! ### The code between two iterates -/

section
variable {F : Type} {nA nG : Nat} {K : Kernel F nA nG} {n iterMax ddMax : Nat} {T : Nat → Mesh} {D : Nat → Tables F} {test : Test F}
  {stop : Stop F}

theorem blockLoop_step {N iter : Nat} {phi : Nat → Nat → Fin 4 → Nat → F} {psi psiEnd : Nat → Psi F} {bound : Nat → Bound F}
    {fl : List (Nat → Psi F)} (h : K.BlockLoop stop N n T D iter phi psi bound fl psiEnd) :
    ∀ j (hj : j + 1 < fl.length), ∃ b b', K.Exchange n T D fl[j] b b' ∧
      K.LocalSwept n T D (fun r => K.totalSource (D r) (fl[j] r)) fl[j] b' fl[j + 1] := by
  induction h with
  | limit => intro j hj; simp at hj
  | conv => intro j hj; simp at hj
  | @next _ _ _ bound psi' bound' rest _ _ _ hx _ hr ih =>
    intro j hj
    cases j with
    | succ j => exact ih j (by simpa using hj)
    | zero =>
      cases hr with
      | limit => simp at hj
      | conv _ hs => exact ⟨bound, bound', hx, hs⟩
      | next _ hs => exact ⟨bound, bound', hx, hs⟩

theorem innerLoop_step {bound : Nat → Bound F} {iter : Nat} {error : F} {psi e : Nat → Psi F} {fl : List (Nat → Psi F)}
    (h : K.InnerLoop test iterMax n T D bound iter error psi fl e) : ∀ (pre post : List (Nat → Psi F)) (x y : Nat → Psi F),
    psi :: fl = pre ++ x :: y :: post → K.LocalSwept n T D (fun r => K.totalSource (D r) (x r)) x bound y := by
  induction h with
  | stop =>
    intro pre post x y hl
    have := congrArg List.length hl
    simp at this
    omega
  | step _ _ hs _ ih =>
    intro pre post x y hl
    cases pre with
    | nil =>
      simp only [List.nil_append, List.cons.injEq] at hl
      obtain ⟨rfl, rfl, -⟩ := hl
      exact hs
    | cons z pre =>
      simp only [List.cons_append, List.cons.injEq] at hl
      exact ih pre post x y hl.2

theorem outer_step {psiEnd : Nat → Psi F} {runs : List (List (Nat → Psi F))} (h : K.Outer test iterMax stop ddMax n T D runs psiEnd) {j : Nat}
    (hj : j + 1 < runs.length) {fl pre post : List (Nat → Psi F)} {o x y : Nat → Psi F} (h0 : runs[j] = fl ++ [o])
    (h1 : o :: runs[j + 1] = pre ++ x :: y :: post) :
    ∃ b b', K.Exchange n T D o b b' ∧ K.LocalSwept n T D (fun r => K.totalSource (D r) (x r)) x b' y := by
  obtain ⟨p, x', b, b', e1, e2, e3⟩ := Verif.Floating.OuterLoop.drop h j hj
  rw [h0] at e1
  obtain rfl : x' = o := by rw [e1]; simp
  rw [List.drop_eq_getElem_cons hj] at e3
  have inner : ∃ e, K.InnerLoop test iterMax n T D b' 0 test.one x' runs[j + 1] e := by
    generalize runs.drop (j + 1 + 1) = l at e3
    generalize runs[j + 1] = l' at e3
    cases e3 with
    | conv _ hi => exact ⟨_, hi⟩
    | next _ hi => exact ⟨_, hi⟩
  obtain ⟨e, hi⟩ := inner
  exact ⟨b, b', e2, innerLoop_step hi pre post x y h1⟩

end

/-! ### One cell -/

theorem rowDefect_inflow {V σ Λ : ℝ} {s q psi : Fin 4 → ℝ} {inc inc' : Fin 4 → Fin 4 → ℝ} (hΛ : 0 ≤ Λ)
    (h : ∀ f v, v ≠ f → |inc f v - inc' f v| ≤ Λ) (i : Fin 4) :
    |rowDefect V σ s inc q psi i - rowDefect V σ s inc' q psi i| ≤ (∑ f, |s f|) * Λ / 3 := by
  rw [rowDefect_eq, rowDefect_eq]
  unfold exactSide
  have e : ∀ f, |(if s f < 0 ∧ i ≠ f then ∑ v, (if v ≠ f then twice i v * s f / 12 * inc f v else 0) else 0) -
      (if s f < 0 ∧ i ≠ f then ∑ v, (if v ≠ f then twice i v * s f / 12 * inc' f v else 0) else 0)| ≤ |s f| * Λ / 3 := by
    intro f
    have hp : 0 ≤ |s f| * Λ / 3 := by positivity
    by_cases hc : s f < 0 ∧ i ≠ f
    · rw [if_pos hc, if_pos hc, ← Finset.sum_sub_distrib]
      have k : ∀ v, |(if v ≠ f then twice i v * s f / 12 * inc f v else 0) - (if v ≠ f then twice i v * s f / 12 * inc' f v else 0)| ≤
          (if v ≠ f then twice i v else 0) * (|s f| / 12 * Λ) := by
        intro v
        by_cases hv : v ≠ f
        · rw [if_pos hv, if_pos hv, if_pos hv, ← mul_sub, abs_mul, abs_div, abs_mul, abs_of_nonneg (twice_nonneg i v)]
          have := mul_le_mul_of_nonneg_left (h f v hv) (show 0 ≤ twice i v * (|s f| / 12) from mul_nonneg (twice_nonneg _ _) (by positivity))
          norm_num at this ⊢
          linarith
        · rw [if_neg hv, if_neg hv, if_neg hv]; simp
      refine (Finset.abs_sum_le_sum_abs _ _).trans ((Finset.sum_le_sum fun v _ => k v).trans (le_of_eq ?_))
      rw [← Finset.sum_mul, twice_face hc.2]
      ring
    · rw [if_neg hc, if_neg hc, sub_zero, abs_zero]; exact hp
  have e2 := (Finset.abs_sum_le_sum_abs (fun f => (if s f < 0 ∧ i ≠ f then ∑ v, (if v ≠ f then twice i v * s f / 12 * inc f v else 0) else 0) -
      (if s f < 0 ∧ i ≠ f then ∑ v, (if v ≠ f then twice i v * s f / 12 * inc' f v else 0) else 0)) Finset.univ).trans
      (Finset.sum_le_sum fun f _ => e f)
  rw [Finset.sum_sub_distrib] at e2
  rw [Finset.sum_mul, Finset.sum_div]
  refine le_trans (le_of_eq ?_) e2
  congr 1
  ring

/-! ### All cells -/

variable {u : ℝ} {rnd : ℝ → ℝ} {val : Nat → ℝ} {m : SerialMesh} {deck : Deck} {p : Problem ℝ} {sS : Nat → ℝ} {κ : ℝ}
variable {K : Kernel ℝ deck.dirs.length deck.nGroups} {pv : List Nat}

/-- C106: what the parts compute, with `old` flowing in across the faces between them, misses every row of the discretisation in
exact arithmetic by roundings and, at those faces, by the change from `old`. -/
theorem block_near (R : Rounds u rnd) (hu : u ≤ 1 / 100000) (H : Tets m) (F : Fits val m) (Ds : Describes val deck m p sS)
    (hK : Computes rnd (deckDir deck) K) (hS : Solves rnd deck K) (hw : WellShaped u val m) (S : Stout κ val m)
    (hκ : 31 * u * κ ≤ 1 / 100) (hom : ∀ a < deck.dirs.length, size (deckDir deck a) ≤ 1.01)
    (hσ : ∀ c < m.numCells, 0 < p.sigmaT c)
    (ht : ∀ c < m.numCells, u * (2700 + 33 * κ) * ∑ f, p.area c f ≤ p.sigmaT c * p.volume c) {source old psi : Psi ℝ}
    (h : BlockSolution K val m pv source old psi) {X Q : ℝ} {Λ : Nat → ℝ}
    (hO : ∀ g < deck.nGroups, ∀ v, ∀ a < deck.dirs.length, ∀ c < m.numCells, |old g v a c| ≤ X)
    (hX : ∀ g < deck.nGroups, ∀ v, ∀ a < deck.dirs.length, ∀ c < m.numCells, |psi g v a c| ≤ X)
    (hQ : ∀ g < deck.nGroups, ∀ v, ∀ a < deck.dirs.length, ∀ c < m.numCells, |source g v a c| ≤ Q)
    (hΛ0 : ∀ c < m.numCells, 0 ≤ Λ c)
    (hΛ : ∀ c f c' f', Across m c f c' f' → pv[c']? ≠ pv[c]? → ∀ g < deck.nGroups, ∀ v, ∀ a < deck.dirs.length,
      |old g v a c' - psi g v a c'| ≤ Λ c) :
    NearDG { p with source := source } m
      (fun _ c => u * (223 + 31 * κ) * (((∑ f, p.area c f) + p.sigmaT c * p.volume c) * X + p.volume c * Q) +
        0.34 * (∑ f, p.area c f) * Λ c) psi := by
  have hp := geometry_physical H F Ds hσ
  intro c d hd a ha g hg
  have ha' : a < deck.dirs.length := by rw [← Ds.angles]; exact ha
  have hg' : g < deck.nGroups := by rw [← Ds.groups]; exact hg
  have hc := lt_of_get H hd
  obtain ⟨P, q, dots, sT, sS', c2f, inc, hP, hq, hdots, hsig, hc2f, hinc, hsolve⟩ := h c hc a ha'
  have hsT : p.sigmaT c = sT := by
    obtain ⟨d1, h1, h2⟩ := hsig
    rw [hd, Option.some.injEq] at h1
    subst h1
    rcases Ds.sigma c d hd with ⟨k1, k2, -⟩ | ⟨k1, k2, -⟩ <;> rcases h2 with ⟨l1, l2, -⟩ | ⟨l1, l2, -⟩
    · rw [k2, l2, hS.sigmaT1]
    · rw [k1] at l1; exact absurd l1 (by decide)
    · rw [k1] at l1; exact absurd l1 (by decide)
    · rw [k2, l2, hS.sigmaT2]
  subst hsT
  rw [hK.omegaDotN] at hdots
  rw [hK.volume, hK.area] at hsolve
  have hface := fun f => face_near R (by linarith) H F Ds hw S hκ ha' (hom a ha') hP (hq f) (hdots f)
  have N := cell_near R (by linarith) H F Ds hw S hκ ha' (hom a ha') hP hq hdots
  obtain ⟨G, rfl⟩ : ∃ G : Fin deck.nGroups, (G : Nat) = g := ⟨⟨g, hg'⟩, rfl⟩
  obtain ⟨x, hx⟩ := thick_solves R hu (hp.volume c hc) (hσ c hc) S.one hκ (hp.area c hc) (fun f => (hface f).2.1) N (hp.closed c hc a ha)
    (ht c hc) c2f (fun k f => inc k f G) (fun v => source G v a c)
  have hpsi : (fun v => psi G v a c) = x := by
    funext v
    rw [hsolve v G]
    exact hS.solve _ _ _ _ _ _ (fun v g => source g v a c) G x hx v
  have hX0 : 0 ≤ X := (abs_nonneg _).trans (hX G hg' 0 a ha' c hc)
  have hmixX : ∀ w c', c' < m.numCells → |mix pv c old psi G w a c'| ≤ X := by
    intro w c' hc'
    unfold mix
    split_ifs
    · exact hX G hg' w a ha' c' hc'
    · exact hO G hg' w a ha' c' hc'
  have hlt' : ∀ {c' f f'}, Across m c f c' f' → c' < m.numCells := fun hac => (across_cells H hac).2
  have hincX : ∀ k f, |inc k f G| ≤ X := by
    intro k f
    obtain ⟨i1, i2⟩ := hinc k f G
    cases hpos : K.positive (dots f) with
    | true => rw [i1 hpos, hS.zero, abs_zero]; exact hX0
    | false =>
      obtain ⟨j1, j2⟩ := i2 hpos
      by_cases hac : ∃ c' f', Across m c f c' f'
      · obtain ⟨c', f', hac⟩ := hac
        obtain ⟨w, hw'⟩ := Verif.Floating.onFace_exists H hac k
        rw [j1 c' f' w hac hw']
        exact hmixX w c' (hlt' hac)
      · rw [j2 (fun c' f' k => hac ⟨c', f', k⟩), hS.zero, abs_zero]; exact hX0
  have hnb : ∀ f v, ∃ y z : ℝ, |z| ≤ X ∧ |y - z| ≤ Λ c ∧
      (v ≠ f → ∀ c' f', Across m c f c' f' → ∃ (d' : SCell) (w : Fin 4), m.cells[c']? = some d' ∧ d'.nodes w = d.nodes v ∧ y = psi G w a c') ∧
      ((∀ c' f', ¬ Across m c f c' f') → y = 0) ∧ (v ≠ f → K.positive (dots f) = false → inc (c2f f v) f G = z) := by
    intro f v
    by_cases hvf : v = f
    · exact ⟨0, 0, by rw [abs_zero]; exact hX0, by rw [sub_zero, abs_zero]; exact hΛ0 c hc, fun k => absurd hvf k, fun _ => rfl,
        fun k => absurd hvf k⟩
    have hon := (hc2f f v).2 hvf
    by_cases hac : ∃ c' f', Across m c f c' f'
    · obtain ⟨c', f', hac⟩ := hac
      obtain ⟨w, hw'⟩ := Verif.Floating.onFace_exists H hac (c2f f v)
      refine ⟨psi G w a c', mix pv c old psi G w a c', hmixX w c' (hlt' hac), ?_, fun _ c2 f2 hac2 => ?_, fun k => absurd hac (k c' f'),
        fun _ hpos => ?_⟩
      · unfold mix
        split_ifs with hpart
        · rw [sub_self, abs_zero]; exact hΛ0 c hc
        · rw [abs_sub_comm]; exact hΛ c f c' f' hac hpart G hg' w a ha'
      · obtain ⟨rfl, rfl⟩ := across_unique H hac hac2
        obtain ⟨d', k1, k2⟩ := onFace_nodes H hac hd hon hw'
        exact ⟨d', w, k1, k2, rfl⟩
      · exact ((hinc (c2f f v) f G).2 hpos).1 c' f' w hac hw'
    · refine ⟨0, 0, by rw [abs_zero]; exact hX0, by rw [sub_zero, abs_zero]; exact hΛ0 c hc, fun _ c' f' k => absurd ⟨c', f', k⟩ hac,
        fun _ => rfl, fun _ hpos => ?_⟩
      rw [((hinc (c2f f v) f G).2 hpos).2 (fun c' f' k => hac ⟨c', f', k⟩), hS.zero]
  choose nb nb' hnb1 hnbΛ hnb2 hnb3 hnb4 using hnb
  refine ⟨nb, fun f v hvf _ => ⟨hnb2 f v hvf, hnb3 f v⟩, fun i => ?_⟩
  have hmain := cell_machine R (by linarith) (hp.volume c hc).le (hσ c hc).le (fun f => (hface f).2.1) hκ N hx (nb := nb') (X := X) (Q := Q)
    (fun j => by rw [← hpsi]; exact hX G hg' j a ha' c hc) hincX hnb1 (fun j => hQ G hg' j a ha' c hc)
    (fun f v hvf hneg => hnb4 f v hvf (by
      by_contra hpos
      rw [Bool.not_eq_false, hK.positive] at hpos
      have := R.pos (mul_pos (hface f).2.2 hpos)
      unfold rsigned at hneg
      linarith)) i
  rw [← hpsi] at hmain
  have hin := rowDefect_inflow (V := p.volume c) (σ := p.sigmaT c) (s := fun f => p.area c f * p.omegaDotN a c f)
    (q := fun v => source G v a c) (psi := fun v => psi G v a c) (hΛ0 c hc) (fun f v _ => hnbΛ f v) i
  have hsum : ∑ f, |p.area c f * p.omegaDotN a c f| ≤ 1.01 * ∑ f, p.area c f := by
    rw [Finset.mul_sum]
    exact Finset.sum_le_sum fun f _ => (hface f).2.1
  have hsum' := mul_le_mul_of_nonneg_right hsum (hΛ0 c hc)
  have hA0 : 0 ≤ (∑ f, p.area c f) * Λ c := mul_nonneg (Finset.sum_nonneg fun f _ => hp.area c hc f) (hΛ0 c hc)
  have k := abs_add_le (rowDefect (p.volume c) (p.sigmaT c) (fun f => p.area c f * p.omegaDotN a c f) nb (fun v => source G v a c)
    (fun v => psi G v a c) i - rowDefect (p.volume c) (p.sigmaT c) (fun f => p.area c f * p.omegaDotN a c f) nb' (fun v => source G v a c)
    (fun v => psi G v a c) i) (rowDefect (p.volume c) (p.sigmaT c) (fun f => p.area c f * p.omegaDotN a c f) nb' (fun v => source G v a c)
    (fun v => psi G v a c) i)
  rw [sub_add_cancel] at k
  refine k.trans ((add_le_add hin hmain).trans ?_)
  nlinarith

variable {n iterMax ddMax N : Nat} {P : ParallelMesh} {T : Nat → Mesh} {D : Nat → Tables ℝ} {test : Test ℝ} {stop : Stop ℝ}

/-- C106: what a local sweep of the ranks leaves, from a flux `mid` and with `old` in the boundary arrays. -/
theorem machine_local
    (R : Rounds u rnd) (hu : u ≤ 1 / 100000) (H : Created m pv n P) (hn : n < uintMax) (L : Loaded val P T)
    (hD : Verif.Floating.Started K val P T D) (hsort : Verif.Floating.Sorted K val m) (F : Fits val m) (Ds : Describes val deck m p sS)
    (hK : Computes rnd (deckDir deck) K) (hS : Solves rnd deck K) (hA : Adds rnd deck K)
    (hH : K.source = fun a => rhat rnd (deckDir deck a)) (hw : WellShaped u val m) (S : Stout κ val m) (hap : Apart u val m)
    (hκ : 31 * u * κ ≤ 1 / 100) (hom : ∀ a < deck.dirs.length, size (deckDir deck a) ≤ 1.01)
    (hσ : ∀ c < m.numCells, 0 < p.sigmaT c)
    (ht : ∀ c < m.numCells, u * (2700 + 33 * κ) * ∑ f, p.area c f ≤ p.sigmaT c * p.volume c)
    (hγ : (1 + u) ^ (deck.dirs.length + 1) - 1 ≤ 1 / 100) {b : ℝ} (hb : p.Ratio m (scattering deck sS) b) (hb1 : b < 1)
    (hpS : ∀ c < m.numCells, 0 ≤ sS c) {M : ℝ} (hM : ∀ c < m.numCells, |p.sigmaT c - sS c| ≤ M)
    (hsize : ∀ r < n, deck.dirs.length * (T r).nCells < 2 ^ 64) {y x : Nat → Psi ℝ} {bound : Nat → Bound ℝ} {old mid : Psi ℝ}
    (hsw : K.LocalSwept n T D (fun r => K.totalSource (D r) (x r)) x bound y) (hx : Holds deck.dirs.length deck.nGroups n T x mid)
    (hfar : Verif.Floating.FarHolds K val m P T bound old) {psi : Psi ℝ} (hpsi : p.Scatter m (scattering deck sS) psi) :
    ∃ new src : Psi ℝ, Holds deck.dirs.length deck.nGroups n T y new ∧
      Holds deck.dirs.length deck.nGroups n T (fun r => K.totalSource (D r) (x r)) src ∧
      ∀ (X Q Δ : ℝ) (Λ : Nat → ℝ),
        (∀ g < deck.nGroups, ∀ v, ∀ a < deck.dirs.length, ∀ c < m.numCells,
          |old g v a c| ≤ X ∧ |mid g v a c| ≤ X ∧ |new g v a c| ≤ X ∧ |src g v a c| ≤ Q) →
        (∀ g < deck.nGroups, ∀ v, ∀ c < m.numCells,
          |∑ a ∈ Finset.range deck.dirs.length, (mid g v a c - new g v a c) * (scattering deck sS).wt a| ≤ Δ) →
        (∀ c < m.numCells, 0 ≤ Λ c) →
        (∀ c f c' f', Across m c f c' f' → pv[c']? ≠ pv[c]? → ∀ g < deck.nGroups, ∀ v, ∀ a < deck.dirs.length,
          |old g v a c' - new g v a c'| ≤ Λ c) →
        ∀ g < deck.nGroups,
          (1 - b) ^ 2 * ∑ a ∈ Finset.range deck.dirs.length, (scattering deck sS).wt a * ∑ c ∈ Finset.range m.numCells,
              p.sigmaT c * p.volume c * cellM (fun v => new g v a c - psi g v a c) (fun v => new g v a c - psi g v a c) ≤
            ∑ a ∈ Finset.range deck.dirs.length, (scattering deck sS).wt a * ∑ c ∈ Finset.range m.numCells,
              (2 * p.volume c * (14 * u * (0.04 + M) + u * (1.001 * (0.04 + M)) +
                  sS c / (4 * Real.pi) * ((6 * u + ((1 + u) ^ (deck.dirs.length + 1) - 1)) *
                  ((∑ a ∈ Finset.range deck.dirs.length, (scattering deck sS).wt a) * X) + Δ)) ^ 2 / p.sigmaT c +
                160 * (u * (223 + 31 * κ) * (((∑ f, p.area c f) + p.sigmaT c * p.volume c) * X + p.volume c * Q) +
                    0.34 * (∑ f, p.area c f) * Λ c) ^ 2 / (p.sigmaT c * p.volume c)) := by
  obtain ⟨src, hT, hsrc⟩ := Verif.Floating.total_of H L hD hx
  have hl := Verif.Floating.local_eq (m := m) (P := P) (fun sched ht => Verif.Floating.cfg_linked H hn L hD hsort.consistent ht hsize) hsw
  obtain ⟨new, hsol, hnew⟩ := Verif.Floating.block_of_local H L hD (Verif.Floating.cfg_linked
    (source := fun r => K.totalSource (D r) (x r)) (psi0 := x) (sched := ⟨1, 1, .tycho, true, fun _ _ _ => 0, bound⟩) H hn L hD
    hsort.consistent Nat.one_pos hsize) hl hsrc hfar
  refine ⟨new, src, hnew, hsrc, fun X Q Δ Λ hXQ hΔ hΛ0 hΛ g hg => ?_⟩
  have hnear := block_near R hu H.tets F Ds hK hS hw S hκ hom hσ ht hsol (fun g hg v a ha c hc => (hXQ g hg v a ha c hc).1)
    (fun g hg v a ha c hc => (hXQ g hg v a ha c hc).2.2.1) (fun g hg v a ha c hc => (hXQ g hg v a ha c hc).2.2.2) hΛ0 hΛ
  have := near_scatter H.tets (geometry_physical H.tets F Ds hσ) (geometry_matched H.tets F Ds) hσ hb hb1 hpsi hnear
    (η := fun c => 14 * u * (0.04 + M) + u * (1.001 * (0.04 + M)) + sS c / (4 * Real.pi) *
                ((6 * u + ((1 + u) ^ (deck.dirs.length + 1) - 1)) *
                ((∑ a ∈ Finset.range deck.dirs.length, (scattering deck sS).wt a) * X) + Δ))
    (fun g hg v a ha c hc => source_near R hu Ds hS hA hb hpS hγ hT (fun g hg v a ha c hc => (hXQ g hg v a ha c hc).2.1)
      (hat_fixed R hu H.tets Ds hH hom hap hM) hΔ (by rw [← Ds.groups]; exact hg) v (by rw [← Ds.angles]; exact ha) hc)
    (g := g) (by rw [Ds.groups]; exact hg)
  rw [Ds.angles] at this
  exact this

theorem holds_exists {val : Nat → ℝ} (H : Created m pv n P) (L : Loaded val P T) (x : Nat → Psi ℝ) {nA nG : Nat} :
    ∃ y, Holds nA nG n T x y := by
  have hl : ∀ c, ∃ x : Nat × Nat, c < m.numCells → IsCell P x.1 x.2 c := by
    intro c
    by_cases hc : c < m.numCells
    · obtain ⟨r, i, hi⟩ := isCell_exists H hc
      exact ⟨(r, i), fun _ => hi⟩
    · exact ⟨(0, 0), fun h => absurd h hc⟩
  choose loc hl using hl
  refine ⟨fun g v a c => x (loc c).1 g v a (loc c).2, fun r hr i c hc g _ v a _ => ?_⟩
  have hi := lg_isCell H L hr hc
  obtain ⟨e1, e2⟩ := isCell_unique H hi (hl c (isCell_lg H L hi).2.2.2)
  dsimp only
  rw [← e1, ← e2]

/-- C106: the flux after an iteration of `SweeperPBJSI` in rounded arithmetic, on any partition and under any schedule, against the
solution with scattering in exact arithmetic. -/
theorem machine_blocks
    (R : Rounds u rnd) (hu : u ≤ 1 / 100000) (H : Created m pv n P) (hn : n < uintMax) (L : Loaded val P T)
    (hD : Verif.Floating.Started K val P T D) (hsort : Verif.Floating.Sorted K val m) (F : Fits val m) (Ds : Describes val deck m p sS)
    (hK : Computes rnd (deckDir deck) K) (hS : Solves rnd deck K) (hA : Adds rnd deck K)
    (hH : K.source = fun a => rhat rnd (deckDir deck a)) (hw : WellShaped u val m) (S : Stout κ val m) (hap : Apart u val m)
    (hκ : 31 * u * κ ≤ 1 / 100) (hom : ∀ a < deck.dirs.length, size (deckDir deck a) ≤ 1.01)
    (hσ : ∀ c < m.numCells, 0 < p.sigmaT c)
    (ht : ∀ c < m.numCells, u * (2700 + 33 * κ) * ∑ f, p.area c f ≤ p.sigmaT c * p.volume c)
    (hγ : (1 + u) ^ (deck.dirs.length + 1) - 1 ≤ 1 / 100) {b : ℝ} (hb : p.Ratio m (scattering deck sS) b) (hb1 : b < 1)
    (hpS : ∀ c < m.numCells, 0 ≤ sS c) {M : ℝ} (hM : ∀ c < m.numCells, |p.sigmaT c - sS c| ≤ M)
    (hsize : ∀ r < n, deck.dirs.length * (T r).nCells < 2 ^ 64) {fluxes : List (Nat → Psi ℝ)} {psiEnd : Nat → Psi ℝ}
    (h : K.Blocks stop N n T D fluxes psiEnd) {j : Nat} (hj : j + 1 < fluxes.length)
    {psi : Psi ℝ} (hpsi : p.Scatter m (scattering deck sS) psi) :
    ∃ old new src : Psi ℝ, Holds deck.dirs.length deck.nGroups n T fluxes[j] old ∧
      Holds deck.dirs.length deck.nGroups n T fluxes[j + 1] new ∧
      Holds deck.dirs.length deck.nGroups n T (fun r => K.totalSource (D r) (fluxes[j] r)) src ∧
      ∀ (X Q Δ : ℝ) (Λ : Nat → ℝ),
        (∀ g < deck.nGroups, ∀ v, ∀ a < deck.dirs.length, ∀ c < m.numCells,
          |old g v a c| ≤ X ∧ |new g v a c| ≤ X ∧ |src g v a c| ≤ Q) →
        (∀ g < deck.nGroups, ∀ v, ∀ c < m.numCells,
          |∑ a ∈ Finset.range deck.dirs.length, (old g v a c - new g v a c) * (scattering deck sS).wt a| ≤ Δ) →
        (∀ c < m.numCells, 0 ≤ Λ c) →
        (∀ c f c' f', Across m c f c' f' → pv[c']? ≠ pv[c]? → ∀ g < deck.nGroups, ∀ v, ∀ a < deck.dirs.length,
          |old g v a c' - new g v a c'| ≤ Λ c) →
        ∀ g < deck.nGroups,
          (1 - b) ^ 2 * ∑ a ∈ Finset.range deck.dirs.length, (scattering deck sS).wt a * ∑ c ∈ Finset.range m.numCells,
              p.sigmaT c * p.volume c * cellM (fun v => new g v a c - psi g v a c) (fun v => new g v a c - psi g v a c) ≤
            ∑ a ∈ Finset.range deck.dirs.length, (scattering deck sS).wt a * ∑ c ∈ Finset.range m.numCells,
              (2 * p.volume c * (14 * u * (0.04 + M) + u * (1.001 * (0.04 + M)) +
                  sS c / (4 * Real.pi) * ((6 * u + ((1 + u) ^ (deck.dirs.length + 1) - 1)) *
                  ((∑ a ∈ Finset.range deck.dirs.length, (scattering deck sS).wt a) * X) + Δ)) ^ 2 / p.sigmaT c +
                160 * (u * (223 + 31 * κ) * (((∑ f, p.area c f) + p.sigmaT c * p.volume c) * X + p.volume c * Q) +
                    0.34 * (∑ f, p.area c f) * Λ c) ^ 2 / (p.sigmaT c * p.volume c)) := by
  obtain ⟨bd, bd', e1, e2⟩ := blockLoop_step h j hj
  obtain ⟨old, ho⟩ := holds_exists (nA := deck.dirs.length) (nG := deck.nGroups) H L fluxes[j]
  obtain ⟨new, src, f1, f2, f3⟩ := machine_local R hu H hn L hD hsort F Ds hK hS hA hH hw S hap hκ hom hσ ht hγ hb hb1 hpS hM hsize e2 ho
    (Verif.Floating.far_of_exchange H hn L hD hsort hsize e1 ho) hpsi
  exact ⟨old, new, src, ho, f1, f2, fun X Q Δ Λ h1 h2 h3 h4 => f3 X Q Δ Λ
    (fun g hg v a ha c hc => ⟨(h1 g hg v a ha c hc).1, h1 g hg v a ha c hc⟩) h2 h3 h4⟩

/-- C106: the flux `y` after a source iteration, from the flux `x`, of `SweeperPBJOuter` in rounded arithmetic; `o` is the flux after
the outer iteration before. -/
theorem machine_outer
    (R : Rounds u rnd) (hu : u ≤ 1 / 100000) (H : Created m pv n P) (hn : n < uintMax) (L : Loaded val P T)
    (hD : Verif.Floating.Started K val P T D) (hsort : Verif.Floating.Sorted K val m) (F : Fits val m) (Ds : Describes val deck m p sS)
    (hK : Computes rnd (deckDir deck) K) (hS : Solves rnd deck K) (hA : Adds rnd deck K)
    (hH : K.source = fun a => rhat rnd (deckDir deck a)) (hw : WellShaped u val m) (S : Stout κ val m) (hap : Apart u val m)
    (hκ : 31 * u * κ ≤ 1 / 100) (hom : ∀ a < deck.dirs.length, size (deckDir deck a) ≤ 1.01)
    (hσ : ∀ c < m.numCells, 0 < p.sigmaT c)
    (ht : ∀ c < m.numCells, u * (2700 + 33 * κ) * ∑ f, p.area c f ≤ p.sigmaT c * p.volume c)
    (hγ : (1 + u) ^ (deck.dirs.length + 1) - 1 ≤ 1 / 100) {b : ℝ} (hb : p.Ratio m (scattering deck sS) b) (hb1 : b < 1)
    (hpS : ∀ c < m.numCells, 0 ≤ sS c) {M : ℝ} (hM : ∀ c < m.numCells, |p.sigmaT c - sS c| ≤ M)
    (hsize : ∀ r < n, deck.dirs.length * (T r).nCells < 2 ^ 64) {runs : List (List (Nat → Psi ℝ))} {psiEnd : Nat → Psi ℝ}
    (h : K.Outer test iterMax stop ddMax n T D runs psiEnd) {j : Nat} (hj : j + 1 < runs.length)
    {fl pre post : List (Nat → Psi ℝ)} {o x y : Nat → Psi ℝ} (h0 : runs[j] = fl ++ [o]) (h1 : o :: runs[j + 1] = pre ++ x :: y :: post)
    {psi : Psi ℝ} (hpsi : p.Scatter m (scattering deck sS) psi) :
    ∃ old mid new src : Psi ℝ, Holds deck.dirs.length deck.nGroups n T o old ∧
      Holds deck.dirs.length deck.nGroups n T x mid ∧ Holds deck.dirs.length deck.nGroups n T y new ∧
      Holds deck.dirs.length deck.nGroups n T (fun r => K.totalSource (D r) (x r)) src ∧
      ∀ (X Q Δ : ℝ) (Λ : Nat → ℝ),
        (∀ g < deck.nGroups, ∀ v, ∀ a < deck.dirs.length, ∀ c < m.numCells,
          |old g v a c| ≤ X ∧ |mid g v a c| ≤ X ∧ |new g v a c| ≤ X ∧ |src g v a c| ≤ Q) →
        (∀ g < deck.nGroups, ∀ v, ∀ c < m.numCells,
          |∑ a ∈ Finset.range deck.dirs.length, (mid g v a c - new g v a c) * (scattering deck sS).wt a| ≤ Δ) →
        (∀ c < m.numCells, 0 ≤ Λ c) →
        (∀ c f c' f', Across m c f c' f' → pv[c']? ≠ pv[c]? → ∀ g < deck.nGroups, ∀ v, ∀ a < deck.dirs.length,
          |old g v a c' - new g v a c'| ≤ Λ c) →
        ∀ g < deck.nGroups,
          (1 - b) ^ 2 * ∑ a ∈ Finset.range deck.dirs.length, (scattering deck sS).wt a * ∑ c ∈ Finset.range m.numCells,
              p.sigmaT c * p.volume c * cellM (fun v => new g v a c - psi g v a c) (fun v => new g v a c - psi g v a c) ≤
            ∑ a ∈ Finset.range deck.dirs.length, (scattering deck sS).wt a * ∑ c ∈ Finset.range m.numCells,
              (2 * p.volume c * (14 * u * (0.04 + M) + u * (1.001 * (0.04 + M)) +
                  sS c / (4 * Real.pi) * ((6 * u + ((1 + u) ^ (deck.dirs.length + 1) - 1)) *
                  ((∑ a ∈ Finset.range deck.dirs.length, (scattering deck sS).wt a) * X) + Δ)) ^ 2 / p.sigmaT c +
                160 * (u * (223 + 31 * κ) * (((∑ f, p.area c f) + p.sigmaT c * p.volume c) * X + p.volume c * Q) +
                    0.34 * (∑ f, p.area c f) * Λ c) ^ 2 / (p.sigmaT c * p.volume c)) := by
  obtain ⟨bd, bd', e1, e2⟩ := outer_step h hj h0 h1
  obtain ⟨old, ho⟩ := holds_exists (nA := deck.dirs.length) (nG := deck.nGroups) H L o
  obtain ⟨mid, hm⟩ := holds_exists (nA := deck.dirs.length) (nG := deck.nGroups) H L x
  obtain ⟨new, src, f1, f2, f3⟩ := machine_local R hu H hn L hD hsort F Ds hK hS hA hH hw S hap hκ hom hσ ht hγ hb hb1 hpS hM hsize e2 hm
    (Verif.Floating.far_of_exchange H hn L hD hsort hsize e1 ho) hpsi
  exact ⟨old, mid, new, src, ho, hm, f1, f2, f3⟩

theorem pow_growth {u : ℝ} (hu : 0 ≤ u) : ∀ k : Nat, (1 + u) ^ k - 1 ≤ 1 / 100 → (1 + u) ^ k - 1 ≤ 1.02 * k * u
  | 0, _ => by simp
  | k + 1, h => by
    have h0 := one_le_pow₀ (n := k) (show 1 ≤ 1 + u by linarith)
    have e : (1 + u) ^ (k + 1) = (1 + u) ^ k + (1 + u) ^ k * u := by ring
    have hk : (1 + u) ^ k - 1 ≤ 1 / 100 := by nlinarith
    have := pow_growth hu k hk
    push_cast
    nlinarith

theorem rounding_terms {u V σ s W X M r G : ℝ} {k : Nat} (hu : 0 ≤ u) (hV : 0 ≤ V) (hσ : 0 < σ) (hs : 0 ≤ s) (hW : 0 ≤ W) (hX : 0 ≤ X)
    (hM : 0 ≤ M) (hk : (1 + u) ^ k - 1 ≤ 1 / 100) (hG : 0 ≤ G) :
    2 * V * (14 * u * (0.04 + M) + u * (1.001 * (0.04 + M)) + s / (4 * Real.pi) * ((6 * u + ((1 + u) ^ k - 1)) * (W * X) + 0)) ^ 2 / σ +
      160 * (u * r * G + 0) ^ 2 / (σ * V) ≤
    u ^ 2 * (2 * V * (15.001 * (0.04 + M) + s / (4 * Real.pi) * ((6 + 1.02 * k) * (W * X))) ^ 2 / σ + 160 * (r * G) ^ 2 / (σ * V)) := by
  have h1 := pow_growth hu k hk
  have h2 : 0 ≤ s / (4 * Real.pi) := div_nonneg hs (by positivity)
  have h0 := one_le_pow₀ (n := k) (show 1 ≤ 1 + u by linarith)
  have h3 : s / (4 * Real.pi) * ((6 * u + ((1 + u) ^ k - 1)) * (W * X) + 0) ≤ u * (s / (4 * Real.pi) * ((6 + 1.02 * k) * (W * X))) := by
    rw [add_zero, show u * (s / (4 * Real.pi) * ((6 + 1.02 * k) * (W * X))) = s / (4 * Real.pi) * ((6 * u + 1.02 * k * u) * (W * X)) from by ring]
    have : 0 ≤ W * X := mul_nonneg hW hX
    gcongr
  have h4 : 0 ≤ s / (4 * Real.pi) * ((6 * u + ((1 + u) ^ k - 1)) * (W * X) + 0) :=
    mul_nonneg h2 (by rw [add_zero]; exact mul_nonneg (by linarith) (mul_nonneg hW hX))
  have h5 : (14 * u * (0.04 + M) + u * (1.001 * (0.04 + M)) + s / (4 * Real.pi) * ((6 * u + ((1 + u) ^ k - 1)) * (W * X) + 0)) ^ 2 ≤
      (u * (15.001 * (0.04 + M) + s / (4 * Real.pi) * ((6 + 1.02 * k) * (W * X)))) ^ 2 := by
    refine pow_le_pow_left₀ (by positivity) ?_ 2
    linarith
  have h6 : 2 * V * (14 * u * (0.04 + M) + u * (1.001 * (0.04 + M)) + s / (4 * Real.pi) * ((6 * u + ((1 + u) ^ k - 1)) * (W * X) + 0)) ^ 2 / σ ≤
      2 * V * (u * (15.001 * (0.04 + M) + s / (4 * Real.pi) * ((6 + 1.02 * k) * (W * X)))) ^ 2 / σ := by gcongr
  refine (add_le_add h6 le_rfl).trans (le_of_eq ?_)
  rw [add_zero]
  ring

theorem local_settled
    (R : Rounds u rnd) (hu : u ≤ 1 / 100000) (H : Created m pv n P) (hn : n < uintMax) (L : Loaded val P T)
    (hD : Verif.Floating.Started K val P T D) (hsort : Verif.Floating.Sorted K val m) (F : Fits val m) (Ds : Describes val deck m p sS)
    (hK : Computes rnd (deckDir deck) K) (hS : Solves rnd deck K) (hA : Adds rnd deck K)
    (hH : K.source = fun a => rhat rnd (deckDir deck a)) (hw : WellShaped u val m) (S : Stout κ val m) (hap : Apart u val m)
    (hκ : 31 * u * κ ≤ 1 / 100) (hom : ∀ a < deck.dirs.length, size (deckDir deck a) ≤ 1.01)
    (hσ : ∀ c < m.numCells, 0 < p.sigmaT c)
    (ht : ∀ c < m.numCells, u * (2700 + 33 * κ) * ∑ f, p.area c f ≤ p.sigmaT c * p.volume c)
    (hγ : (1 + u) ^ (deck.dirs.length + 1) - 1 ≤ 1 / 100) {b : ℝ} (hb : p.Ratio m (scattering deck sS) b) (hb1 : b < 1)
    (hpS : ∀ c < m.numCells, 0 ≤ sS c) {M : ℝ} (hM : ∀ c < m.numCells, |p.sigmaT c - sS c| ≤ M)
    (hsize : ∀ r < n, deck.dirs.length * (T r).nCells < 2 ^ 64) {y x : Nat → Psi ℝ} {bound bound' : Nat → Bound ℝ} (hex : K.Exchange n T D x bound bound')
    (hsw : K.LocalSwept n T D (fun r => K.totalSource (D r) (x r)) x bound' y)
    (hsame : Verif.Floating.SameOn deck.dirs.length deck.nGroups n T x y) {psi : Psi ℝ} (hpsi : p.Scatter m (scattering deck sS) psi) :
    ∃ new src : Psi ℝ, Holds deck.dirs.length deck.nGroups n T y new ∧
      Holds deck.dirs.length deck.nGroups n T (fun r => K.totalSource (D r) (y r)) src ∧
      ∀ X Q : ℝ, (∀ g < deck.nGroups, ∀ v, ∀ a < deck.dirs.length, ∀ c < m.numCells, |new g v a c| ≤ X ∧ |src g v a c| ≤ Q) →
        ∀ g < deck.nGroups,
          (1 - b) ^ 2 * ∑ a ∈ Finset.range deck.dirs.length, (scattering deck sS).wt a * ∑ c ∈ Finset.range m.numCells,
              p.sigmaT c * p.volume c * cellM (fun v => new g v a c - psi g v a c) (fun v => new g v a c - psi g v a c) ≤
            u ^ 2 * ∑ a ∈ Finset.range deck.dirs.length, (scattering deck sS).wt a * ∑ c ∈ Finset.range m.numCells,
              (2 * p.volume c * (15.001 * (0.04 + M) + sS c / (4 * Real.pi) * ((6 + 1.02 * (deck.dirs.length + 1)) *
                  ((∑ a ∈ Finset.range deck.dirs.length, (scattering deck sS).wt a) * X))) ^ 2 / p.sigmaT c +
                160 * ((223 + 31 * κ) * (((∑ f, p.area c f) + p.sigmaT c * p.volume c) * X + p.volume c * Q)) ^ 2 /
                  (p.sigmaT c * p.volume c)) := by
  obtain ⟨old, ho⟩ := holds_exists (nA := deck.dirs.length) (nG := deck.nGroups) H L x
  obtain ⟨new, src, hnew, hsrc, key⟩ := machine_local R hu H hn L hD hsort F Ds hK hS hA hH hw S hap hκ hom hσ ht hγ hb hb1 hpS hM hsize hsw ho
    (Verif.Floating.far_of_exchange H hn L hD hsort hsize hex ho) hpsi
  have hs := Verif.Floating.same_of H L ho hnew hsame
  refine ⟨new, src, hnew, fun r hr i c hc g hg v a ha => ?_, fun X Q hXQ g hg => ?_⟩
  · rw [← hsrc r hr i c hc g hg v a ha]
    unfold Kernel.totalSource Kernel.phi
    dsimp only
    congr 2
    funext a
    exact (hsame r hr i (isCell_lg H L (lg_isCell H L hr hc)).2.2.1 a a.2 v g hg).symm
  have hold : ∀ g < deck.nGroups, ∀ v, ∀ a < deck.dirs.length, ∀ c < m.numCells, |old g v a c| ≤ X := fun g hg v a ha c hc => by
    rw [hs g hg v a ha c hc]; exact (hXQ g hg v a ha c hc).1
  have hkey := key X Q 0 (fun _ => 0)
    (fun g hg v a ha c hc => ⟨hold g hg v a ha c hc, hold g hg v a ha c hc, hXQ g hg v a ha c hc⟩)
    (fun g hg v c hc => by
      rw [Finset.sum_eq_zero fun a ha => by rw [hs g hg v a (Finset.mem_range.1 ha) c hc, sub_self, zero_mul], abs_zero])
    (fun _ _ => le_rfl)
    (fun c f c' f' hac _ g hg v a ha => by rw [hs g hg v a ha c' (across_cells H.tets hac).2, sub_self, abs_zero]) g hg
  refine hkey.trans ?_
  rw [Finset.mul_sum]
  refine Finset.sum_le_sum fun a ha => ?_
  have ha := Finset.mem_range.1 ha
  have hwt : ∀ a < deck.dirs.length, 0 ≤ (scattering deck sS).wt a := fun a ha => hb.weights a (by rw [Ds.angles]; exact ha)
  rw [mul_left_comm (u ^ 2)]
  refine mul_le_mul_of_nonneg_left ?_ (hwt a ha)
  rw [Finset.mul_sum]
  refine Finset.sum_le_sum fun c hc => ?_
  have hc := Finset.mem_range.1 hc
  have hp := geometry_physical H.tets F Ds hσ
  have hX0 : 0 ≤ X := (abs_nonneg _).trans (hXQ g hg 0 a ha c hc).1
  have hQ0 : 0 ≤ Q := (abs_nonneg _).trans (hXQ g hg 0 a ha c hc).2
  have hV := hp.volume c hc
  have key2 := rounding_terms (r := 223 + 31 * κ) (G := ((∑ f, p.area c f) + p.sigmaT c * p.volume c) * X + p.volume c * Q) R.small.1 hV.le (hσ c hc)
    (hpS c hc) (Finset.sum_nonneg fun a ha => hwt a (Finset.mem_range.1 ha)) hX0 ((abs_nonneg _).trans (hM c hc)) hγ
    (by
      have := Finset.sum_nonneg fun f (_ : f ∈ Finset.univ) => hp.area c hc f
      have := mul_nonneg (hσ c hc).le hV.le
      positivity)
  push_cast at key2
  rw [mul_zero]
  exact key2

/-- C106: once an iteration of `SweeperPBJSI` has left the bits of the flux, only roundings are between it and the solution with
scattering in exact arithmetic. -/
theorem machine_settled
    (R : Rounds u rnd) (hu : u ≤ 1 / 100000) (H : Created m pv n P) (hn : n < uintMax) (L : Loaded val P T)
    (hD : Verif.Floating.Started K val P T D) (hsort : Verif.Floating.Sorted K val m) (F : Fits val m) (Ds : Describes val deck m p sS)
    (hK : Computes rnd (deckDir deck) K) (hS : Solves rnd deck K) (hA : Adds rnd deck K)
    (hH : K.source = fun a => rhat rnd (deckDir deck a)) (hw : WellShaped u val m) (S : Stout κ val m) (hap : Apart u val m)
    (hκ : 31 * u * κ ≤ 1 / 100) (hom : ∀ a < deck.dirs.length, size (deckDir deck a) ≤ 1.01)
    (hσ : ∀ c < m.numCells, 0 < p.sigmaT c)
    (ht : ∀ c < m.numCells, u * (2700 + 33 * κ) * ∑ f, p.area c f ≤ p.sigmaT c * p.volume c)
    (hγ : (1 + u) ^ (deck.dirs.length + 1) - 1 ≤ 1 / 100) {b : ℝ} (hb : p.Ratio m (scattering deck sS) b) (hb1 : b < 1)
    (hpS : ∀ c < m.numCells, 0 ≤ sS c) {M : ℝ} (hM : ∀ c < m.numCells, |p.sigmaT c - sS c| ≤ M)
    (hsize : ∀ r < n, deck.dirs.length * (T r).nCells < 2 ^ 64) {fluxes : List (Nat → Psi ℝ)} {psiEnd : Nat → Psi ℝ}
    (h : K.Blocks stop N n T D fluxes psiEnd) {j : Nat} (hj : j + 1 < fluxes.length)
    (hsame : Verif.Floating.SameOn deck.dirs.length deck.nGroups n T fluxes[j] fluxes[j + 1])
    {psi : Psi ℝ} (hpsi : p.Scatter m (scattering deck sS) psi) :
    ∃ new src : Psi ℝ, Holds deck.dirs.length deck.nGroups n T fluxes[j + 1] new ∧
      Holds deck.dirs.length deck.nGroups n T (fun r => K.totalSource (D r) (fluxes[j + 1] r)) src ∧
      ∀ X Q : ℝ, (∀ g < deck.nGroups, ∀ v, ∀ a < deck.dirs.length, ∀ c < m.numCells, |new g v a c| ≤ X ∧ |src g v a c| ≤ Q) →
        ∀ g < deck.nGroups,
          (1 - b) ^ 2 * ∑ a ∈ Finset.range deck.dirs.length, (scattering deck sS).wt a * ∑ c ∈ Finset.range m.numCells,
              p.sigmaT c * p.volume c * cellM (fun v => new g v a c - psi g v a c) (fun v => new g v a c - psi g v a c) ≤
            u ^ 2 * ∑ a ∈ Finset.range deck.dirs.length, (scattering deck sS).wt a * ∑ c ∈ Finset.range m.numCells,
              (2 * p.volume c * (15.001 * (0.04 + M) + sS c / (4 * Real.pi) * ((6 + 1.02 * (deck.dirs.length + 1)) *
                  ((∑ a ∈ Finset.range deck.dirs.length, (scattering deck sS).wt a) * X))) ^ 2 / p.sigmaT c +
                160 * ((223 + 31 * κ) * (((∑ f, p.area c f) + p.sigmaT c * p.volume c) * X + p.volume c * Q)) ^ 2 /
                  (p.sigmaT c * p.volume c)) := by
  obtain ⟨bd, bd', e1, e2⟩ := blockLoop_step h j hj
  exact local_settled R hu H hn L hD hsort F Ds hK hS hA hH hw S hap hκ hom hσ ht hγ hb hb1 hpS hM hsize e1 e2 hsame hpsi

/-- C106: the same where the first source iteration of an outer iteration of `SweeperPBJOuter` has left the bits of the flux. -/
theorem machine_settled_outer
    (R : Rounds u rnd) (hu : u ≤ 1 / 100000) (H : Created m pv n P) (hn : n < uintMax) (L : Loaded val P T)
    (hD : Verif.Floating.Started K val P T D) (hsort : Verif.Floating.Sorted K val m) (F : Fits val m) (Ds : Describes val deck m p sS)
    (hK : Computes rnd (deckDir deck) K) (hS : Solves rnd deck K) (hA : Adds rnd deck K)
    (hH : K.source = fun a => rhat rnd (deckDir deck a)) (hw : WellShaped u val m) (S : Stout κ val m) (hap : Apart u val m)
    (hκ : 31 * u * κ ≤ 1 / 100) (hom : ∀ a < deck.dirs.length, size (deckDir deck a) ≤ 1.01)
    (hσ : ∀ c < m.numCells, 0 < p.sigmaT c)
    (ht : ∀ c < m.numCells, u * (2700 + 33 * κ) * ∑ f, p.area c f ≤ p.sigmaT c * p.volume c)
    (hγ : (1 + u) ^ (deck.dirs.length + 1) - 1 ≤ 1 / 100) {b : ℝ} (hb : p.Ratio m (scattering deck sS) b) (hb1 : b < 1)
    (hpS : ∀ c < m.numCells, 0 ≤ sS c) {M : ℝ} (hM : ∀ c < m.numCells, |p.sigmaT c - sS c| ≤ M)
    (hsize : ∀ r < n, deck.dirs.length * (T r).nCells < 2 ^ 64) {runs : List (List (Nat → Psi ℝ))} {psiEnd : Nat → Psi ℝ}
    (h : K.Outer test iterMax stop ddMax n T D runs psiEnd) {j : Nat} (hj : j + 1 < runs.length)
    {fl post : List (Nat → Psi ℝ)} {x y : Nat → Psi ℝ} (h0 : runs[j] = fl ++ [x]) (h1 : runs[j + 1] = y :: post)
    (hsame : Verif.Floating.SameOn deck.dirs.length deck.nGroups n T x y)
    {psi : Psi ℝ} (hpsi : p.Scatter m (scattering deck sS) psi) :
    ∃ new src : Psi ℝ, Holds deck.dirs.length deck.nGroups n T y new ∧
      Holds deck.dirs.length deck.nGroups n T (fun r => K.totalSource (D r) (y r)) src ∧
      ∀ X Q : ℝ, (∀ g < deck.nGroups, ∀ v, ∀ a < deck.dirs.length, ∀ c < m.numCells, |new g v a c| ≤ X ∧ |src g v a c| ≤ Q) →
        ∀ g < deck.nGroups,
          (1 - b) ^ 2 * ∑ a ∈ Finset.range deck.dirs.length, (scattering deck sS).wt a * ∑ c ∈ Finset.range m.numCells,
              p.sigmaT c * p.volume c * cellM (fun v => new g v a c - psi g v a c) (fun v => new g v a c - psi g v a c) ≤
            u ^ 2 * ∑ a ∈ Finset.range deck.dirs.length, (scattering deck sS).wt a * ∑ c ∈ Finset.range m.numCells,
              (2 * p.volume c * (15.001 * (0.04 + M) + sS c / (4 * Real.pi) * ((6 + 1.02 * (deck.dirs.length + 1)) *
                  ((∑ a ∈ Finset.range deck.dirs.length, (scattering deck sS).wt a) * X))) ^ 2 / p.sigmaT c +
                160 * ((223 + 31 * κ) * (((∑ f, p.area c f) + p.sigmaT c * p.volume c) * X + p.volume c * Q)) ^ 2 /
                  (p.sigmaT c * p.volume c)) := by
  obtain ⟨bd, bd', e1, e2⟩ := outer_step h hj h0 (pre := []) (post := post) (x := x) (y := y) (by rw [h1]; rfl)
  exact local_settled R hu H hn L hD hsort F Ds hK hS hA hH hw S hap hκ hom hσ ht hγ hb hb1 hpS hM hsize e1 e2 hsame hpsi

end Verif.Rounding
