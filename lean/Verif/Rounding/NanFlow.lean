import Verif.Rounding.Nan

/-!
# What a vertex at the centre of the hat does to source iteration in rounded arithmetic
-/
set_option linter.unusedSectionVars false

namespace Verif.Rounding

open Verif.MeshFile Verif.TychoMesh Verif.Geometry Verif.Traverse Verif.Program
open Verif.Rounding.Spec
open Verif.Floating (Kernel Test Started Sorted row_of)
open Verif.Floating.Spec (Position CellPoints FacePoints Dot Sigma BadSource Downwind Consistent Holds)

/-! ### A kernel over numbers seen as one over values -/

theorem complete_some {α : Type} {k : Nat} (x : Fin k → α) : complete (fun i => some (x i)) = some x := by
  simp [complete]

section
variable {nA nG : Nat} {K : Kernel ℝ nA nG} {K' : Kernel (Option ℝ) nA nG} {val : Nat → ℝ} {m : SerialMesh}

theorem position_some {i : Nat} {x : Fin 3 → Option ℝ} (h : Position (fun b => some (val b)) m i x) :
    ∃ y, Position val m i y ∧ x = fun k => some (y k) := by
  obtain ⟨nd, h1, rfl⟩ := h
  exact ⟨_, ⟨nd, h1, rfl⟩, rfl⟩

theorem cellPoints_some {c : Nat} {x : Fin 4 → Fin 3 → Option ℝ} (h : CellPoints (fun b => some (val b)) m c x) :
    ∃ y, CellPoints val m c y ∧ x = fun v k => some (y v k) := by
  obtain ⟨d, h1, h2⟩ := h
  choose y hy e using fun v => position_some (h2 v)
  exact ⟨y, ⟨d, h1, hy⟩, funext e⟩

theorem facePoints_some {c : Nat} {f : Fin 4} {x : Fin 3 → Fin 3 → Option ℝ} (h : FacePoints (fun b => some (val b)) m c f x) :
    ∃ y, FacePoints val m c f y ∧ x = fun v k => some (y v k) := by
  obtain ⟨g, e, h0, h1, h2⟩ := h
  choose y hy e' using fun v => position_some (h2 v)
  exact ⟨y, ⟨g, e, h0, h1, hy⟩, funext e'⟩

variable (ho : ∀ a q p, K'.omegaDotN a (fun k j => some (q k j)) (fun v k => some (p v k)) = (K.omegaDotN a q p).map some)
  (hp : ∀ x, K'.positive (some x) = K.positive x)
include ho

theorem dot_some {a c : Nat} {f : Fin 4} {x : Option ℝ} (h : Dot K' (fun b => some (val b)) m a c f x) :
    ∃ y, Dot K val m a c f y ∧ x = some y := by
  obtain ⟨q, p, h1, h2, h3⟩ := h
  obtain ⟨q, k1, rfl⟩ := facePoints_some h1
  obtain ⟨p, k2, rfl⟩ := cellPoints_some h2
  rw [ho] at h3
  obtain ⟨y, h4, rfl⟩ := Option.map_eq_some_iff.1 h3
  exact ⟨y, ⟨q, p, k1, k2, h4⟩, rfl⟩

include hp in
theorem consistent_some (h : Consistent K val m) : Consistent K' (fun b => some (val b)) m := by
  intro c f c' f' h1 a ha x x' hx hx' hpos
  obtain ⟨y, hy, rfl⟩ := dot_some ho hx
  obtain ⟨y', hy', rfl⟩ := dot_some ho hx'
  rw [hp] at hpos ⊢
  exact h c f c' f' h1 a ha y y' hy hy' hpos

include hp in
theorem sorted_some (h : Sorted K val m) : Sorted K' (fun b => some (val b)) m := by
  refine ⟨?_, ?_, ?_⟩
  · exact consistent_some ho hp h.consistent
  · intro c f c' f' h1 a ha x x' hx hx' hpos
    obtain ⟨y, hy, rfl⟩ := dot_some ho hx
    obtain ⟨y', hy', rfl⟩ := dot_some ho hx'
    rw [hp] at hpos ⊢
    exact h.crossed c f c' f' h1 a ha y y' hy hy' hpos
  · intro a ha c hc
    refine h.acyclic a ha c (hc.lift id ?_)
    rintro c c' ⟨f, f', x, h1, h2, h3⟩
    obtain ⟨y, hy, rfl⟩ := dot_some ho h2
    exact ⟨f, f', y, h1, hy, by rwa [hp] at h3⟩
end

/-! ### The machine -/

variable {u : ℝ} {rnd : ℝ → ℝ} {deck : Deck} {val : Nat → ℝ} {m : SerialMesh}

open Classical in
/-- The geometry alone, over numbers. -/
noncomputable def geoMachine (rnd : ℝ → ℝ) (deck : Deck) : Kernel ℝ deck.dirs.length deck.nGroups where
  zero := 0
  volume := rvolume rnd
  area := rarea rnd
  omegaDotN a := romega rnd (deckDir deck a)
  positive x := decide (0 < x)
  sigmaT1 := 0
  sigmaS1 := 0
  sigmaT2 := 0
  sigmaS2 := 0
  source _ _ _ _ := 0
  solve _ _ _ _ _ _ _ _ _ := 0
  toPhi _ := 0
  total _ _ _ := 0

theorem geo_computes : Computes rnd (deckDir deck) (geoMachine rnd deck) where
  volume := rfl
  area := rfl
  omegaDotN := rfl
  positive x := by simp [geoMachine]

theorem nan_omega (a : Nat) (q : Fin 3 → Fin 3 → ℝ) (p : Fin 4 → Fin 3 → ℝ) :
    (nanMachine rnd deck).omegaDotN a (fun k j => some (q k j)) (fun v k => some (p v k)) = ((geoMachine rnd deck).omegaDotN a q p).map some := by
  simp only [nanMachine, complete_some]
  rfl

theorem nan_positive (x : ℝ) : (nanMachine rnd deck).positive (some x) = (geoMachine rnd deck).positive x := rfl

theorem nan_consistent (R : Rounds u rnd) (H : Tets m) (hw : WellShaped u val m) (ho : Opposed val m) :
    Consistent (nanMachine rnd deck) (fun b => some (val b)) m :=
  consistent_some nan_omega nan_positive (rounded_consistent R H geo_computes hw ho)

theorem nan_area (R : Rounds u rnd) {a : Nat} {q : Fin 3 → Pt} {p : Fin 4 → Pt} {x : ℝ} (h : (geoMachine rnd deck).omegaDotN a q p = some x) :
    ∃ A, (nanMachine rnd deck).area (fun k j => some (q k j)) = some A ∧ 0 < A := by
  refine ⟨rarea rnd q, ?_, ?_⟩
  · simp only [nanMachine, complete_some]
    rfl
  · have h0 : rnorm rnd (rcross rnd (rsub rnd (q 1) (q 0)) (rsub rnd (q 2) (q 0))) ≠ 0 := by
      intro h0
      simp [geoMachine, romega, rnormal, h0] at h
    have h1 : 0 ≤ rnorm rnd (rcross rnd (rsub rnd (q 1) (q 0)) (rsub rnd (q 2) (q 0))) := rnd_nonneg R (Real.sqrt_nonneg _)
    refine lt_of_le_of_ne (rnd_nonneg R (by positivity)) fun h => h0 ?_
    have := (rnd_zero_iff R).1 h.symm
    linarith

variable {S : Type} [LinearOrder S] {sval : Nat → S} {pv : List Nat} {n : Nat} {P : ParallelMesh} {T : Nat → Mesh}
  {D : Nat → Verif.Floating.Tables (Option ℝ)}

/-- Where the exact flow leaves cell `c` through a face, the machine takes what flows into the neighbour from `c`. -/
theorem nan_downwind (R : Rounds u rnd) (H : Created m pv n P) (L : Loaded sval P T)
    (hD : Started (nanMachine rnd deck) (fun b => some (val b)) P T D) (hw : WellShaped u val m) (ho : Opposed val m)
    (hi : Inclined u val (deckDir deck) deck.dirs.length m) {a : Nat} (ha : a < deck.dirs.length) {c c' : Nat} {f f' : Fin 4}
    (h : Across m c f c' f') (hl : Leaves val m (deckDir deck a) c f) :
    Downwind (Enters rnd) (nanMachine rnd deck) (fun b => some (val b)) m a c c' := by
  obtain ⟨hc, hc'⟩ := Verif.Floating.across_lt H.tets h
  obtain ⟨r, i, hr⟩ := isCell_exists H hc
  obtain ⟨r', i', hr'⟩ := isCell_exists H hc'
  obtain ⟨p', q', sT, sS, Q⟩ := row_of H L hD hr'
  have d' := Verif.Floating.dot_of H L hD hr' ha f'
  obtain ⟨y, hy, ey⟩ := dot_some nan_omega (Verif.Floating.dot_of H L hD hr ha f)
  obtain ⟨y', hy', ey'⟩ := dot_some nan_omega d'
  have e := rounded_opposite R H.tets geo_computes hw ho h hy hy'
  have hpos := (rounded_sign R H.tets geo_computes hw hi ha h hy).1.2 hl
  refine ⟨f', f, q', (nanMachine rnd deck).omega (D r') a i', ⟨h.1.symm, h.2.imp fun _ h => ⟨h.2, h.1⟩⟩, Q.faces,
    Verif.Floating.dot_of H L hD hr' ha, ?_, ?_⟩
  · rw [ey', nan_positive]
    simp only [geoMachine, decide_eq_false_iff_not]
    linarith
  · obtain ⟨q0, p0, k1, k2, k3⟩ := hy'
    obtain ⟨q1, k4, e1⟩ := facePoints_some (Q.faces f')
    obtain rfl := Verif.Floating.facePoints_unique H.tets k1 k4
    obtain ⟨A, hA, hp⟩ := nan_area R k3
    refine ⟨A, y', ?_, ey', ?_⟩
    · dsimp only
      rw [e1]
      exact hA
    · have : rnd (A * y') = -rnd (A * y) := by rw [← R.odd, e, mul_neg]
      rw [this, neg_lt_zero]
      refine lt_of_le_of_ne (rnd_nonneg R (by positivity)) fun h => ?_
      have := (rnd_zero_iff R).1 h.symm
      rcases mul_eq_zero.1 this with h | h <;> linarith

/-- The source of a cell with a vertex at the centre. -/
theorem nan_source (R : Rounds u rnd) (H : Created m pv n P) (L : Loaded sval P T)
    (hD : Started (nanMachine rnd deck) (fun b => some (val b)) P T D) {c : Nat} {d : SCell} (hc : m.cells[c]? = some d) {v : Fin 4}
    (hv : ∀ k, point val m (d.nodes v) k = 50) (a : Nat) : BadSource (· = none) (nanMachine rnd deck) (fun b => some (val b)) m c a := by
  have hlt : c < m.numCells := by
    have := (List.getElem?_eq_some_iff.1 hc).1
    rwa [← H.tets.toSound.cells] at this
  obtain ⟨r, i, hr⟩ := isCell_exists H hlt
  obtain ⟨p, q, sT, sS, Q⟩ := row_of H L hD hr
  refine ⟨p, sT, sS, v, Q.points, Q.sigma, ?_⟩
  obtain ⟨y, ⟨d', h1, h2⟩, rfl⟩ := cellPoints_some Q.points
  rw [hc, Option.some.injEq] at h1
  subst h1
  obtain ⟨xT, xS, rfl, rfl⟩ : ∃ xT xS, sT = some xT ∧ sS = some xS := by
    obtain ⟨d', -, ⟨-, rfl, rfl⟩ | ⟨-, rfl, rfl⟩⟩ := Q.sigma
    · exact ⟨_, _, rfl, rfl⟩
    · exact ⟨_, _, rfl, rfl⟩
  refine (nhat_iff R (deckDir deck a) (y v) xT xS).trans (if_pos fun k => ?_)
  rw [position_point (h2 v)]
  exact hv k

/-- C107: with a vertex at (50, 50, 50) source iteration in rounded arithmetic makes one sweep, the error it prints is not a number, and
neither is the flux of any direction in the cells with this vertex and in all cells downwind of them. -/
theorem nan_fixedPoint (R : Rounds u rnd) (H : Created m pv n P) (hn : n < uintMax) (L : Loaded sval P T)
    (hD : Started (nanMachine rnd deck) (fun b => some (val b)) P T D) (hw : WellShaped u val m) (ho : Opposed val m)
    (hi : Inclined u val (deckDir deck) deck.dirs.length m) (hs : ∀ r < n, deck.dirs.length * (T r).nCells < 2 ^ 64)
    {c : Nat} {d : SCell} (hc : m.cells[c]? = some d) {v : Fin 4} (hv : ∀ k, point val m (d.nodes v) k = 50) (hA : 0 < deck.dirs.length)
    (hG : 0 < deck.nGroups) {tol : ℝ} (ht : tol < 1) {iterMax : Nat} (hN : 0 < iterMax) {psi : Nat → Psi (Option ℝ)} {l : List (Option ℝ)}
    (h : (nanMachine rnd deck).FixedPoint (nanTest rnd tol) iterMax n T D psi l) (hend : (nanTest rnd tol).Ended iterMax l) :
    l = [none] ∧ ∀ a < deck.dirs.length, ∀ c', Relation.ReflTransGen
      (fun c c' => ∃ f f', Across m c f c' f' ∧ Leaves val m (deckDir deck a) c f) c c' →
      ∀ r i, IsCell P r i c' → ∀ g < deck.nGroups, ∀ w, psi r g w a i = none := by
  have hcons := nan_consistent (deck := deck) R H.tets hw ho
  have hlt : c < m.numCells := by
    have := (List.getElem?_eq_some_iff.1 hc).1
    rwa [← H.tets.toSound.cells] at this
  obtain ⟨e, hl, he, -⟩ := Verif.Floating.fixedPoint_bad H hn L hD hcons hs nan_spreads nanTest_spreads (by simp [nanTest, ht]) hlt hA hG
    (nan_source R H L hD hc hv 0) hN h hend
  refine ⟨by rw [hl, he], fun a ha c' hcc r i hr => ?_⟩
  cases h with
  | zero => simp at hl
  | @succ _ _ l' q1 q2 q3 q4 =>
    obtain rfl : l' = [] := (List.cons.inj hl).2
    cases q1
    refine Verif.Floating.downwind_bad H hn L hD hcons hs nan_spreads nan_flows hlt ha (nan_source R H L hD hc hv a)
      (psiS := fun _ _ _ _ => (nanMachine rnd deck).zero) (fun _ _ _ _ _ _ _ _ _ _ => rfl) q4 (hcc.lift id ?_) hr
    rintro c c' ⟨f, f', h1, h2⟩
    exact nan_downwind R H L hD hw ho hi ha h1 h2

end Verif.Rounding
