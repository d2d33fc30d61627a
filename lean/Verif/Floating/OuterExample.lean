import Verif.Floating.OuterProps
import Verif.Floating.BlocksExample

/-!
# An example for C105: block Jacobi around source iteration in arithmetic that is not associative
-/
namespace Verif.Floating

open Verif.MeshFile Verif.TychoMesh Verif.Traverse Verif.Floating.Spec Verif.PsiFile Verif.Storage Verif.Program

/-- A test that never ends the loop, as with a tolerance of zero. -/
def neverTest : Test Int where
  error l := l.foldl (fun s x => crudeAdd s |x.1 - x.2|) 0
  norm l := l.foldl (fun s x => crudeAdd s |x.1|) 0
  gsum l := l.foldl crudeAdd 0
  quotient x y := x / y
  above _ := true
  one := 1

/-- A test that counts the entries changed. -/
def countTest : Test Int where
  error l := ((l.filter fun x => x.1 ≠ x.2).length : Int)
  norm _ := 1
  gsum l := l.sum
  quotient x _ := x
  above x := decide (0 < x)
  one := 1

theorem count_test (parts : List (List (Int × Int))) :
    countTest.above (countTest.quotient (countTest.gsum (parts.map countTest.error)) (countTest.gsum (parts.map countTest.norm))) = false ↔
      ∀ p ∈ parts, ∀ q ∈ p, q.1 = q.2 := by
  rw [← (count_sum parts).2]
  show decide (0 < (parts.map countStop.error).sum) = false ↔ _
  rw [decide_eq_false_iff_not, not_lt]

theorem count_strictTest : StrictTest countTest := fun parts h => (count_test parts).1 h

theorem count_lenientTest : LenientTest countTest := fun parts h => (count_test parts).2 h

theorem never_inner {K : Kernel Int 2 2} {iterMax n : Nat} {T : Nat → Mesh} {D : Nat → Tables Int} {bound : Nat → Bound Int} {iter : Nat}
    {error : Int} {psi e : Nat → Psi Int} {fl : List (Nat → Psi Int)} (h : K.InnerLoop neverTest iterMax n T D bound iter error psi fl e) :
    fl.length = iterMax - iter := by
  induction h with
  | stop h => rcases h with h | h
              · simp; omega
              · simp [neverTest] at h
  | step _ _ _ _ ih => simp only [List.length_cons]; omega

theorem never_outer {K : Kernel Int 2 2} {iterMax ddMax n : Nat} {T : Nat → Mesh} {D : Nat → Tables Int} {bound : Nat → Bound Int}
    {iter : Nat} {psi prev e : Nat → Psi Int} {runs : List (List (Nat → Psi Int))}
    (h : K.OuterLoop neverTest iterMax crudeStop ddMax n T D iter psi prev bound runs e) :
    runs.map List.length = List.replicate (ddMax - iter) iterMax := by
  induction h with
  | @limit iter _ _ _ h => rw [show ddMax - iter = 0 from by omega]; rfl
  | conv _ _ hc => simp [Stop.met, crudeStop] at hc
  | @next iter _ _ _ _ _ _ _ _ h hi _ _ _ ih =>
    rw [List.map_cons, ih, never_inner hi, show ddMax - iter = ddMax - (iter + 1) + 1 from by omega]
    rfl

/-- C105: the hypotheses of `outer_iterates`, `outer_repeat` and `outer_deterministic` hold: three outer iterations of two source
iterations each for two tetrahedra, each on a rank of its own, with scattering. -/
example : ∃ (P : ParallelMesh) (T : Nat → Mesh) (D : Nat → Tables Int) (runs : List (List (Nat → Psi Int))) (psiEnd : Nat → Psi Int)
    (psiS : Psi Int), Created twoMesh [1, 0] 2 P ∧ Loaded (id : Nat → Nat) P T ∧
    Started crude crudeCoord P T D ∧ crude.Outer neverTest 2 crudeStop 4 2 T D runs psiEnd ∧
    OuterIterates crude crudeCoord twoMesh [1, 0] [2, 2, 2] psiS ∧ Holds 2 2 2 T psiEnd psiS := by
  obtain ⟨P, H⟩ := created_of twoMesh_tets (by decide) (by decide) (pv := [1, 0]) (n := 2) rfl (by decide) (by decide)
  obtain ⟨T, L⟩ := load_succeeds (id : Nat → Nat) H
  obtain ⟨D, hD⟩ := started_exists (K := crude) (coord := crudeCoord) H L crude_material crude_dots
  have s1 : ∀ r < 2, 2 * (T r).nCells < 2 ^ 64 := fun r hr => by have := crude_small H L r hr; omega
  obtain ⟨runs, psiEnd, h⟩ := outer_returns H (by decide) L hD crude_sorted s1 neverTest 2 crudeStop 4
  obtain ⟨psiS, e1, e2⟩ := outer_iterates H (by decide) L hD crude_sorted s1 h
  rw [never_outer h] at e1
  exact ⟨P, T, D, runs, psiEnd, psiS, H, L, hD, h, e1, e2⟩

/-- With one source iteration a block solve, and no scattering, the loop is that of block Jacobi. -/
theorem absorber_outer {test : Test Int} {stop : Stop Int} (hone : test.above test.one = true) {n N : Nat} {T : Nat → Mesh}
    {D : Nat → Tables Int} {iter : Nat} {psi prev : Nat → Psi Int} {bound : Nat → Bound Int} {runs : List (List (Nat → Psi Int))}
    {e : Nat → Psi Int} (h : absorber.OuterLoop test 1 stop N n T D iter psi prev bound runs e) :
    ∃ (sweeps : List (Nat → Psi Int)) (b : Nat → Bound Int), runs = sweeps.map (fun x => [x]) ∧
      absorber.JacobiLoop stop N n T D (fun r => absorber.sourceOf (D r) fun _ _ _ => 0) iter psi prev bound sweeps e b := by
  have one : ∀ {bound : Nat → Bound Int} {psi e : Nat → Psi Int} {fl : List (Nat → Psi Int)},
      absorber.InnerLoop test 1 n T D bound 0 test.one psi fl e → fl = [e] ∧
        absorber.LocalSwept n T D (fun r => absorber.sourceOf (D r) fun _ _ _ => 0) psi bound e := by
    intro bound psi e fl h
    cases h with
    | stop h =>
      rw [hone] at h
      simp at h
    | step _ _ hs hr =>
      cases hr with
      | stop => exact ⟨rfl, hs⟩
      | step h => exact absurd h (by decide)
  induction h with
  | limit h => exact ⟨[], _, rfl, .limit h⟩
  | conv h hi hc =>
    obtain ⟨rfl, h2⟩ := one hi
    exact ⟨[_], _, rfl, .conv h h2 hc⟩
  | next h hi hc hx _ ih =>
    obtain ⟨rfl, h2⟩ := one hi
    obtain ⟨sw, b, rfl, h3⟩ := ih
    exact ⟨_ :: sw, b, rfl, .next h h2 hc hx h3⟩

/-- C105: the hypotheses of `outer_fixed` and `outer_stay` hold. -/
example : ∃ (P P' : ParallelMesh) (T T' : Nat → Mesh) (D D' : Nat → Tables Int) (x y z psiEnd q q' : Nat → Psi Int) (psiS : Psi Int),
    Created twoMesh [1, 0] 2 P ∧ Created twoMesh [0, 0] 1 P' ∧
    Loaded (id : Nat → Nat) P T ∧ Loaded (id : Nat → Nat) P' T' ∧ Started absorber crudeCoord P T D ∧
    Started absorber crudeCoord P' T' D' ∧ absorber.Outer neverTest 1 crudeStop 4 2 T D [[x], [y], [z]] psiEnd ∧ SameOn 2 2 2 T y z ∧
    Holds 2 2 2 T y psiS ∧ Holds 2 2 1 T' q psiS ∧
    absorber.Swept 1 T' D' (fun r => absorber.totalSource (D' r) (q r)) (fun _ _ _ _ _ => 9) q' ∧ Holds 2 2 1 T' q' psiS := by
  obtain ⟨P, H⟩ := created_of twoMesh_tets (by decide) (by decide) (pv := [1, 0]) (n := 2) rfl (by decide) (by decide)
  obtain ⟨P', H'⟩ := created_of twoMesh_tets (by decide) (by decide) (pv := [0, 0]) (n := 1) rfl (by decide) (by decide)
  obtain ⟨T, L⟩ := load_succeeds (id : Nat → Nat) H
  obtain ⟨T', L'⟩ := load_succeeds (id : Nat → Nat) H'
  obtain ⟨D, hD⟩ := started_exists (K := absorber) (coord := crudeCoord) H L crude_material crude_dots
  obtain ⟨D', hD'⟩ := started_exists (K := absorber) (coord := crudeCoord) H' L' crude_material crude_dots
  have s1 : ∀ r < 2, 2 * (T r).nCells < 2 ^ 64 := fun r hr => by have := crude_small H L r hr; omega
  have s2 : ∀ r < 1, 2 * (T' r).nCells < 2 ^ 64 := fun r hr => by have := crude_small H' L' r hr; omega
  obtain ⟨runs, psiEnd, h⟩ := outer_returns H (by decide) L hD absorber_sorted s1 neverTest 1 crudeStop 4
  obtain ⟨sweeps, b, rfl, hb⟩ := absorber_outer rfl h
  have hl : sweeps.length = 3 := jacobi_length (fun _ _ => rfl) hb
  obtain ⟨x, y, z, rfl⟩ : ∃ x y z, sweeps = [x, y, z] := List.length_eq_three.1 hl
  obtain ⟨psi', h', -⟩ := sweep_returns H (by decide) L hD absorber_sorted s1 (fun r => absorber.sourceOf (D r) fun _ _ _ => 0)
    (fun _ _ _ _ _ => 0) ⟨3, 5, .tycho, false, fun _ c _ => c, fun _ _ _ _ _ => 3⟩ (by decide) (by decide) rfl
  obtain ⟨srcS, -, hsrc⟩ := sourceOf_total H L hD (phi := fun _ _ _ _ => 0) (phiS := fun _ _ _ => 0)
    (fun _ _ _ _ _ _ _ _ => rfl)
  obtain ⟨psiS, -, hS, -⟩ := swept_solution H (by decide) L hD absorber_sorted.consistent s1 h' hsrc
  have hcell : ∀ i (hi : i < 3), 0 < i → Holds 2 2 2 T ([x, y, z][i]) psiS := by
    intro i hi h0 r hr j c hjc g hg v a ha
    rw [jacobi_cells H (by decide) L hD H (by decide) L hD absorber_sorted s1 s1 hsrc hsrc hb h' (i := i) hi ha
      (fun k hk => by have := absorber_crossings ha hk; omega) hr hjc hr hjc g hg v]
    exact hS r hr j c hjc g hg v a ha
  have hy : Holds 2 2 2 T y psiS := hcell 1 (by decide) (by decide)
  have hz : Holds 2 2 2 T z psiS := hcell 2 (by decide) (by decide)
  have hsame : SameOn 2 2 2 T y z := sameOn_of H L hy hz (same_refl _)
  let q : Nat → Psi Int := fun r g v a i => psiS g v a (((T' r).getLGCell i).getD 0)
  have hq : Holds 2 2 1 T' q psiS := by
    intro r hr i c hc g hg v a ha
    show psiS g v a _ = _
    rw [hc]
    rfl
  obtain ⟨q', hsw, -⟩ := sweep_returns H' (by decide) L' hD' absorber_sorted s2 (fun r => absorber.totalSource (D' r) (q r))
    (fun _ _ _ _ _ => 9) ⟨2, 1, .tycho, true, fun _ c _ => c, fun _ _ _ _ _ => 3⟩ (by decide) (by decide) rfl
  exact ⟨P, P', T, T', D, D', x, y, z, psiEnd, q, q', psiS, H, H', L, L', hD, hD', h, hsame, hy, hq, hsw,
    outer_fixed H (by decide) L hD H' (by decide) L' hD' absorber_sorted s1 s2 h (j := 1) (by simp) (fl0 := []) rfl rfl hsame hy hq hsw⟩

/-- C105: the hypotheses of `outer_strict` and `outer_ends` hold: with a limit of ten the loop ends by its test, after two or three
outer iterations. -/
example : ∃ (P : ParallelMesh) (T : Nat → Mesh) (D : Nat → Tables Int) (sweeps : List (Nat → Psi Int)) (psiEnd : Nat → Psi Int),
    Created twoMesh [1, 0] 2 P ∧ Loaded (id : Nat → Nat) P T ∧ Started absorber crudeCoord P T D ∧
    absorber.Outer countTest 1 countStop 10 2 T D (sweeps.map fun x => [x]) psiEnd ∧ 2 ≤ sweeps.length ∧ sweeps.length ≤ 3 := by
  obtain ⟨P, H⟩ := created_of twoMesh_tets (by decide) (by decide) (pv := [1, 0]) (n := 2) rfl (by decide) (by decide)
  obtain ⟨T, L⟩ := load_succeeds (id : Nat → Nat) H
  obtain ⟨D, hD⟩ := started_exists (K := absorber) (coord := crudeCoord) H L crude_material crude_dots
  have s1 : ∀ r < 2, 2 * (T r).nCells < 2 ^ 64 := fun r hr => by have := crude_small H L r hr; omega
  obtain ⟨runs, psiEnd, h⟩ := outer_returns H (by decide) L hD absorber_sorted s1 countTest 1 countStop 10
  obtain ⟨sweeps, b, rfl, hb⟩ := absorber_outer (by decide) h
  obtain ⟨srcS, -, hsrc⟩ := sourceOf_total H L hD (phi := fun _ _ _ _ => 0) (phiS := fun _ _ _ => 0)
    (fun _ _ _ _ _ _ _ _ => rfl)
  refine ⟨P, T, D, sweeps, psiEnd, H, L, hD, h, ?_, jacobi_ends H (by decide) L hD absorber_sorted s1 hsrc count_lenient hb (B := 1)
    (fun a ha c k hk => by have := absorber_crossings ha hk; omega)⟩
  obtain ⟨r, i, hc⟩ := isCell_exists H (c := 0) (by decide)
  obtain ⟨e, hr, hi, -⟩ := isCell_lg H L hc
  cases hb with
  | limit hlt => exact absurd hlt (by decide)
  | conv _ hsw hm =>
    exfalso
    have hq : (0 : Int) = psiEnd r 0 0 0 i := count_strict ((List.range 2).map fun r => fluxPairs 2 2 (T r).nCells (fun _ _ _ _ => 0) (psiEnd r))
      (by rw [Stop.met] at hm; simp only [List.map_map, Function.comp_def]; exact hm) _ (List.mem_map.2 ⟨r, List.mem_range.2 hr, rfl⟩)
      (0, psiEnd r 0 0 0 i) (by
        simp only [fluxPairs, List.mem_flatMap, List.mem_map, List.mem_range, List.mem_finRange, true_and]
        exact ⟨i, hi, 0, by decide, 0, 0, by decide, rfl⟩)
    have := (absorber_odd H (by decide) L hD hsw hr hi (a := 0) (g := 0) (v := 0) (by decide) (by decide)).1
    omega
  | next _ _ _ _ hr =>
    cases hr with
    | limit hlt => exact absurd hlt (by decide)
    | conv => simp
    | next => simp

/-- C105: the hypotheses of `inner_strict` and `inner_ends` hold: with a limit of five the first inner loop ends by its test, after
two local sweeps. -/
example : ∃ (P : ParallelMesh) (T : Nat → Mesh) (D : Nat → Tables Int) (runs : List (List (Nat → Psi Int))) (psiEnd x y : Nat → Psi Int),
    Created twoMesh [1, 0] 2 P ∧ Loaded (id : Nat → Nat) P T ∧ Started absorber crudeCoord P T D ∧
    absorber.Outer countTest 5 countStop 10 2 T D ([x, y] :: runs) psiEnd := by
  obtain ⟨P, H⟩ := created_of twoMesh_tets (by decide) (by decide) (pv := [1, 0]) (n := 2) rfl (by decide) (by decide)
  obtain ⟨T, L⟩ := load_succeeds (id : Nat → Nat) H
  obtain ⟨D, hD⟩ := started_exists (K := absorber) (coord := crudeCoord) H L crude_material crude_dots
  have s1 : ∀ r < 2, 2 * (T r).nCells < 2 ^ 64 := fun r hr => by have := crude_small H L r hr; omega
  obtain ⟨log, o1, o2⟩ := order_of H (by decide) L hD absorber_sorted s1
  obtain ⟨runs, psiEnd, h⟩ := outer_returns H (by decide) L hD absorber_sorted s1 countTest 5 countStop 10
  have two : ∀ {fl : List (Nat → Psi Int)} {e : Nat → Psi Int}, absorber.InnerLoop countTest 5 2 T D (fun _ _ _ _ _ => 0) 0 countTest.one
      (fun _ _ _ _ _ => 0) fl e → ∃ x y, fl = [x, y] := by
    intro fl e h
    obtain ⟨r, i, hc⟩ := isCell_exists H (c := 0) (by decide)
    obtain ⟨ec, hr, hi, -⟩ := isCell_lg H L hc
    have hz : Holds 2 2 2 T (fun _ _ _ _ _ => (0 : Int)) (fun _ _ _ _ => 0) := fun _ _ _ _ _ _ _ _ _ _ => rfl
    have hf : FarHolds absorber crudeCoord twoMesh P T (fun _ _ _ _ _ => 0) (fun _ _ _ _ => 0) :=
      fun _ _ _ _ _ _ _ _ _ _ _ _ _ _ _ _ _ _ _ _ _ => rfl
    rcases InnerLoop.uncons h with ⟨-, h | h⟩ | ⟨x, rest, rfl, -, sw, hr1⟩
    · exact absurd h (by decide)
    · exact absurd h (by decide)
    · obtain ⟨src, x', t1, t2, t3⟩ := inner_step H (by decide) L hD absorber_sorted s1 sw hz hf
      rcases InnerLoop.uncons hr1 with ⟨-, h | h⟩ | ⟨y, rest, rfl, -, sw2, hr2⟩
      · exact absurd h (by decide)
      · exfalso
        have hq : absorber.phi (x r) 0 0 i = 0 := count_strictTest ((List.range 2).map fun r =>
            pairs 2 (T r).nCells (absorber.phi (x r)) (absorber.phi fun _ _ _ _ => 0))
          (by rw [Kernel.errorOf] at h; simp only [List.map_map, Function.comp_def]; exact h) _ (List.mem_map.2 ⟨r, List.mem_range.2 hr, rfl⟩)
          (absorber.phi (x r) 0 0 i, 0) (by
            simp only [pairs, List.mem_flatMap, List.mem_map, List.mem_range, List.mem_finRange, true_and]
            exact ⟨i, hi, 0, 0, by decide, rfl⟩)
        exact (absorber_odd H (by decide) L hD sw hr hi (a := 0) (g := 0) (v := 0) (by decide) (by decide)).2 hq
      · obtain ⟨src2, y', u1, u2, u3⟩ := inner_step H (by decide) L hD absorber_sorted s1 sw2 t3 hf
        have hsrc : Same 2 2 twoMesh src src2 := by
          intro g hg v a ha c hc
          obtain ⟨p, sT, sS, h1, h2, h3⟩ := t1 c hc
          obtain ⟨p', sT', sS', h1', h2', h3'⟩ := u1 c hc
          obtain rfl := cellPoints_unique h1 h1'
          obtain ⟨rfl, rfl⟩ := sigma_unique h2 h2'
          rw [h3 g hg a ha v, h3' g hg a ha v]
          rfl
        have hxy := sameOn_of H L t3 u3 (block_unique H.tets t2 u2 hsrc (same_refl _) o1 o2)
        rcases InnerLoop.uncons hr2 with ⟨rfl, -⟩ | ⟨z, rest, rfl, h, -⟩
        · exact ⟨x, y, rfl⟩
        · exfalso
          have ht := count_lenientTest ((List.range 2).map fun r => pairs 2 (T r).nCells (absorber.phi (y r)) (absorber.phi (x r))) (by
            intro p hp q hq
            obtain ⟨r, hr, rfl⟩ := List.mem_map.1 hp
            simp only [pairs, List.mem_flatMap, List.mem_map, List.mem_range, List.mem_finRange, true_and] at hq
            obtain ⟨i, hi, v, g, hg, rfl⟩ := hq
            unfold Kernel.phi
            dsimp only
            congr 1
            funext a
            exact (hxy r (List.mem_range.1 hr) i hi a a.2 v g hg).symm)
          simp only [List.map_map, Function.comp_def] at ht
          simp only [Kernel.errorOf] at h
          rw [ht] at h
          exact absurd h (by decide)
  have h' := h
  cases h' with
  | limit hlt => exact absurd hlt (by decide)
  | conv _ hi _ =>
    obtain ⟨x, y, rfl⟩ := two hi
    exact ⟨P, T, D, [], psiEnd, x, y, H, L, hD, h⟩
  | next _ hi _ _ _ =>
    obtain ⟨x, y, rfl⟩ := two hi
    exact ⟨P, T, D, _, psiEnd, x, y, H, L, hD, h⟩

end Verif.Floating
