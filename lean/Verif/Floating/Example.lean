import Verif.Floating.Start
import Verif.Program.Example

/-!
# An example for C86: arithmetic that is not associative
-/
namespace Verif.Floating

open Verif.MeshFile Verif.TychoMesh Verif.Traverse Verif.Floating.Spec Verif.PsiFile Verif.Storage Verif.Program

/-- Addition with a last digit that is lost. -/
def crudeAdd (x y : Int) : Int := (x + y) / 10 * 10

example : crudeAdd (crudeAdd 4 3) 9 ≠ crudeAdd 4 (crudeAdd 3 9) ∧ crudeAdd 0 7 ≠ 7 := by decide

/-- The product of a direction with the (not normalised) outward normal. -/
def crudeDot (om : Fin 3 → Int) (q : Fin 3 → Fin 3 → Int) (p : Fin 4 → Fin 3 → Int) : Option Int :=
  let a := fun k => q 1 k - q 0 k
  let b := fun k => q 2 k - q 0 k
  let n : Fin 3 → Int := ![a 1 * b 2 - a 2 * b 1, a 2 * b 0 - a 0 * b 2, a 0 * b 1 - a 1 * b 0]
  ((List.finRange 4).find? fun v => ∀ j, ∃ k, p v k ≠ q j k).map fun v =>
    let s := n 0 * (p v 0 - q 0 0) + n 1 * (p v 1 - q 0 1) + n 2 * (p v 2 - q 0 2)
    let d := om 0 * n 0 + om 1 * n 1 + om 2 * n 2
    if 0 < s then -d else d

/-- A kernel with two directions and two groups. -/
def crude : Kernel Int 2 2 where
  zero := 0
  volume p := p 0 0
  area q := q 0 0
  omegaDotN a := crudeDot (if a = 0 then ![1, 2, 3] else ![-1, -2, -3])
  positive x := decide (0 < x)
  sigmaT1 := 3
  sigmaS1 := 1
  sigmaT2 := 5
  sigmaS2 := 2
  source a x sT sS := crudeAdd (x 0) (crudeAdd (sT * a) sS)
  solve vol area dots sT c2f inc src v g := crudeAdd (crudeAdd (src v g) vol) (crudeAdd (inc (c2f 0 v) 0 g) (crudeAdd (inc 1 1 g) (dots 0 * sT + area 2)))
  toPhi psi := crudeAdd (psi 0) (psi 1)
  total s sS phi := crudeAdd s (sS * phi)

def crudeCoord (b : Nat) : Int := b

theorem crude_material : ∀ d ∈ twoMesh.cells, d.material = 1 ∨ d.material = 2 := by decide

/-- The vertices of the cells. -/
def crudeCell (c : Nat) : Fin 4 → Fin 3 → Int := fun v k =>
  (((twoMesh.cells[c]?).bind fun d => (twoMesh.nodes[d.nodes v]?)).map fun nd => crudeCoord (nd.coords k)).getD 0

theorem crude_cell {c : Nat} {p : Fin 4 → Fin 3 → Int} (h : CellPoints crudeCoord twoMesh c p) : c < 2 ∧ p = crudeCell c := by
  obtain ⟨d, h1, h2⟩ := h
  refine ⟨(List.getElem?_eq_some_iff.1 h1).1, ?_⟩
  funext v k
  obtain ⟨nd, h3, h4⟩ := h2 v
  unfold crudeCell
  rw [h1, Option.bind_some, h3, h4]
  rfl

/-- The number of the face opposite to a vertex. -/
def crudeFace (c : Nat) (f : Fin 4) : Nat := if c = 0 then f.val else (![0, 6, 5, 4] : Fin 4 → Nat) f

def crudePoints (c : Nat) (f : Fin 4) : Fin 3 → Fin 3 → Int := fun j k =>
  (((twoMesh.faces[crudeFace c f]?).bind fun e => (twoMesh.nodes[e.nodes j]?)).map fun nd => crudeCoord (nd.coords k)).getD 0

theorem crude_faceOf {c : Nat} (hc : c < 2) (f : Fin 4) : FaceOf twoMesh c f (crudeFace c f) := by
  have key : ∀ c < 2, ∀ f, ∃ (k : Fin 4), ∃ d ∈ twoMesh.cells[c]?, d.faces k = crudeFace c f ∧
      ∃ e ∈ twoMesh.faces[crudeFace c f]?, ∀ j, e.nodes j ≠ d.nodes f := by decide
  obtain ⟨k, d, h1, h2, e, h3, h4⟩ := key c hc f
  exact ⟨d, e, k, h1, h2, h3, h4⟩

theorem crude_face {c : Nat} (hc : c < 2) {f : Fin 4} {q : Fin 3 → Fin 3 → Int} (h : FacePoints crudeCoord twoMesh c f q) :
    q = crudePoints c f := by
  obtain ⟨g, e, h1, h2, h3⟩ := h
  obtain rfl := faceOf_unique twoMesh_tets h1 (crude_faceOf hc f)
  funext j k
  obtain ⟨nd, h4, h5⟩ := h3 j
  unfold crudePoints
  rw [h2, Option.bind_some, h4, h5]
  rfl

theorem crude_dots : ∀ c f q p, FacePoints crudeCoord twoMesh c f q → CellPoints crudeCoord twoMesh c p →
    ∀ a < 2, ∃ x, crude.omegaDotN a q p = some x := by
  intro c f q p h1 h2 a ha
  obtain ⟨hc, rfl⟩ := crude_cell h2
  obtain rfl := crude_face hc h1
  have key : ∀ c < 2, ∀ f, ∀ a < 2, (crude.omegaDotN a (crudePoints c f) (crudeCell c)).isSome = true := by decide +kernel
  exact Option.isSome_iff_exists.1 (key c hc f a ha)

/-- Across the interior face the flow is from the upper cell to the lower one or back. -/
theorem crude_dot {a c : Nat} {x : Int} (ha : a < 2) (h : Dot crude crudeCoord twoMesh a c 0 x) :
    c < 2 ∧ (crude.positive x = true ↔ a ≠ c) := by
  obtain ⟨q, p, h1, h2, h3⟩ := h
  obtain ⟨hc, rfl⟩ := crude_cell h2
  obtain rfl := crude_face hc h1
  have key : ∀ c < 2, ∀ a < 2, ∀ x ∈ crude.omegaDotN a (crudePoints c 0) (crudeCell c), (crude.positive x = true ↔ a ≠ c) := by
    decide +kernel
  exact ⟨hc, key c hc a ha x h3⟩

theorem crude_sorted : Sorted crude crudeCoord twoMesh := by
  refine ⟨?_, ?_, ?_⟩
  · intro c f c' f' h a ha x x' hx hx' hp
    obtain ⟨rfl, rfl, h1, h2⟩ := twoMesh_across h
    have hne := h.1
    have k1 := (crude_dot ha hx).2.1 hp
    cases hq : crude.positive x'
    · rfl
    · have k2 := (crude_dot ha hx').2.1 hq
      omega
  · intro c f c' f' h a ha x x' hx hx' hp
    obtain ⟨rfl, rfl, h1, h2⟩ := twoMesh_across h
    have hne := h.1
    refine (crude_dot ha hx').2.2 fun he => ?_
    have : ¬ a ≠ c := fun hh => by rw [(crude_dot ha hx).2.2 hh] at hp; simp at hp
    omega
  · intro a ha c h
    have key : ∀ {c c'}, Relation.TransGen (fun c c' => ∃ f f' x, Across twoMesh c f c' f' ∧ Dot crude crudeCoord twoMesh a c f x ∧
        crude.positive x = true) c c' → c ≠ a ∧ c' = a := by
      intro c c' h
      have step : ∀ {c c'}, (∃ f f' x, Across twoMesh c f c' f' ∧ Dot crude crudeCoord twoMesh a c f x ∧
          crude.positive x = true) → c ≠ a ∧ c' = a := by
        rintro c c' ⟨f, f', x, h, hx, hp⟩
        obtain ⟨rfl, rfl, h1, h2⟩ := twoMesh_across h
        have hne := h.1
        have := (crude_dot ha hx).2.1 hp
        omega
      induction h with
      | single h => exact step h
      | tail _ h ih => exact ⟨ih.1, (step h).2⟩
    exact (key h).1 (key h).2

/-- C86: the hypotheses of `sweep_bitwise`, `iterated_bitwise` and `output_bitwise` hold for two
tetrahedra on one rank (one thread) and on two (three threads) and the crude arithmetic: the files after
four sweeps are equal. -/
example : ∃ (P P' : ParallelMesh) (T T' : Nat → Mesh) (D D' : Nat → Tables Int) (psi psi' : Nat → Psi Int) (A A' : Nat → PsiData Nat)
    (f : File), Created twoMesh [0, 0] 1 P ∧ Created twoMesh [1, 0] 2 P' ∧ Loaded (id : Nat → Nat) P T ∧ Loaded (id : Nat → Nat) P' T' ∧
    Started crude crudeCoord P T D ∧ Started crude crudeCoord P' T' D' ∧ Consistent crude crudeCoord twoMesh ∧
    crude.Iterated 1 T D 4 psi ∧ crude.Iterated 2 T' D' 4 psi' ∧ Stored (fun x => x.toNat % 2 ^ 64) 1 T 2 2 psi A ∧
    Stored (fun x => x.toNat % 2 ^ 64) 2 T' 2 2 psi' A' ∧ Written 1 A (lgOf T) f ∧ Written 2 A' (lgOf T') f := by
  obtain ⟨P, H⟩ := created_of twoMesh_tets (by decide) (by decide) (pv := [0, 0]) (n := 1) rfl (by decide) (by decide)
  obtain ⟨P', H'⟩ := created_of twoMesh_tets (by decide) (by decide) (pv := [1, 0]) (n := 2) rfl (by decide) (by decide)
  obtain ⟨T, L⟩ := load_succeeds (id : Nat → Nat) H
  obtain ⟨T', L'⟩ := load_succeeds (id : Nat → Nat) H'
  obtain ⟨D, hD⟩ := started_exists (K := crude) (coord := crudeCoord) H L crude_material crude_dots
  obtain ⟨D', hD'⟩ := started_exists (K := crude) (coord := crudeCoord) H' L' crude_material crude_dots
  have small : ∀ {pv : List Nat} {n : Nat} {P : ParallelMesh} {T : Nat → Mesh}, Created twoMesh pv n P → Loaded (id : Nat → Nat) P T →
      ∀ r < n, (T r).nCells ≤ 2 := by
    intro pv n P T H L r hr
    have hl := (create_cells H.create).1
    have hp : P.parts[r]? = some P.parts[r] := List.getElem?_eq_getElem (by omega)
    have h1 := (loaded_cells H L hp).1
    have h2 := part_le H hp
    have h3 := ((create_cells H.create).2 r _ hp).1
    have : twoMesh.numCells = 2 := rfl
    omega
  have s1 : ∀ r < 1, 2 * (T r).nCells < 2 ^ 64 := fun r hr => by have := small H L r hr; omega
  have s2 : ∀ r < 2, 2 * (T' r).nCells < 2 ^ 64 := fun r hr => by have := small H' L' r hr; omega
  obtain ⟨psi, h⟩ := iterated_exists H (by decide) L hD crude_sorted s1 ⟨1, 1, .tycho, true, fun _ _ _ => 0, fun _ _ _ _ _ => 7⟩
    (by decide) (by decide) rfl 4
  obtain ⟨psi', h'⟩ := iterated_exists H' (by decide) L' hD' crude_sorted s2 ⟨3, 5, .tycho, false, fun _ c _ => c, fun _ _ _ _ _ => 3⟩
    (by decide) (by decide) rfl 4
  obtain ⟨A, hA⟩ := stored_exists (fun x : Int => x.toNat % 2 ^ 64) 1 T 2 2 psi
    (fun r hr => by have := small H L r hr; unfold W; omega)
  obtain ⟨A', hA'⟩ := stored_exists (fun x : Int => x.toNat % 2 ^ 64) 2 T' 2 2 psi'
    (fun r hr => by have := small H' L' r hr; unfold W; omega)
  obtain ⟨f, w⟩ := psiFile_returns (loaded_spread H L (by decide) hA (by decide) (by decide) (by decide) (by decide))
  obtain ⟨f', w'⟩ := psiFile_returns (loaded_spread H' L' (by decide) hA' (by decide) (by decide) (by decide) (by decide))
  have e : f = f' := output_bitwise H (by decide) (by decide) L hD H' (by decide) (by decide) L' hD' crude_sorted.consistent s1 s2
    (by decide) (by decide) (by decide) (by decide) h h' hA hA' w w'
  subst e
  exact ⟨P, P', T, T', D, D', psi, psi', A, A', f, H, H', L, L', hD, hD', crude_sorted.consistent, h, h', hA, hA', w, w'⟩

/-- The stopping test in the crude arithmetic. -/
def crudeTest : Test Int where
  error l := l.foldl (fun s x => crudeAdd s |x.1 - x.2|) 0
  norm l := l.foldl (fun s x => crudeAdd s |x.1|) 0
  gsum l := l.foldl crudeAdd 0
  quotient x y := x / y
  above x := decide (x > 0)
  one := 1

/-- C86: the hypotheses of `fixedPoint_repeats` hold for two tetrahedra on two ranks. -/
example : ∃ (P : ParallelMesh) (T : Nat → Mesh) (D : Nat → Tables Int) (psi : Nat → Psi Int) (l : List Int),
    Created twoMesh [1, 0] 2 P ∧ Loaded (id : Nat → Nat) P T ∧ Started crude crudeCoord P T D ∧ Consistent crude crudeCoord twoMesh ∧
    crude.FixedPoint crudeTest 9 2 T D psi l ∧ crudeTest.Ended 9 l := by
  obtain ⟨P, H⟩ := created_of twoMesh_tets (by decide) (by decide) (pv := [1, 0]) (n := 2) rfl (by decide) (by decide)
  obtain ⟨T, L⟩ := load_succeeds (id : Nat → Nat) H
  obtain ⟨D, hD⟩ := started_exists (K := crude) (coord := crudeCoord) H L crude_material crude_dots
  have s1 : ∀ r < 2, 2 * (T r).nCells < 2 ^ 64 := by
    intro r hr
    have hl := (create_cells H.create).1
    have hp : P.parts[r]? = some P.parts[r] := List.getElem?_eq_getElem (by omega)
    have h1 := (loaded_cells H L hp).1
    have h2 := part_le H hp
    have h3 := ((create_cells H.create).2 r _ hp).1
    have : twoMesh.numCells = 2 := rfl
    omega
  obtain ⟨psi, l, h, h'⟩ := fixedPoint_returns H (by decide) L hD crude_sorted s1 ⟨3, 5, .tycho, false, fun _ c _ => c, fun _ _ _ _ _ => 3⟩
    (by decide) (by decide) rfl crudeTest 9
  exact ⟨P, T, D, psi, l, H, L, hD, crude_sorted.consistent, h, h'⟩

end Verif.Floating
