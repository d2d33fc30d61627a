import Verif.Floating.Poison
import Verif.Rounding.Hat

/-!
# Rounded arithmetic with a value that is not a number

`none` is the value that is not a number. Every operation hands it on, a division by zero gives it (a nonzero number divided by zero
would be an infinity, which is not told apart from it here), and comparisons with it fail. The functions are those of
`Verif.Rounding.Solve`, `Verif.Rounding.Hat` and `Verif.Rounding.Iterate` with these operations.
-/
set_option linter.unusedSectionVars false

namespace Verif.Rounding

open Verif.Transport Verif.TychoMesh Verif.Geometry Verif.Program
open Verif.Rounding.Spec hiding Acyclic
open Verif.Floating (Kernel Test Stop)

def lift2 (rnd : ℝ → ℝ) (op : ℝ → ℝ → ℝ) : Option ℝ → Option ℝ → Option ℝ
  | some x, some y => some (rnd (op x y))
  | _, _ => none

noncomputable def nadd (rnd : ℝ → ℝ) := lift2 rnd (· + ·)
noncomputable def nsub (rnd : ℝ → ℝ) := lift2 rnd (· - ·)
noncomputable def nmul (rnd : ℝ → ℝ) := lift2 rnd (· * ·)

open Classical in
noncomputable def ndiv (rnd : ℝ → ℝ) : Option ℝ → Option ℝ → Option ℝ
  | some x, some y => if y = 0 then none else some (rnd (x / y))
  | _, _ => none

theorem lift2_left (rnd op) (y : Option ℝ) : lift2 rnd op none y = none := rfl
theorem lift2_right (rnd op) (x : Option ℝ) : lift2 rnd op x none = none := by cases x <;> rfl
theorem ndiv_left (rnd) (y : Option ℝ) : ndiv rnd none y = none := rfl

open Classical in
/-- `hatSource` (src/Problem.cc:61-79) as in `rhat`. The comparison `c <= 30.0` fails where `c` is not a number. -/
noncomputable def nhat (rnd : ℝ → ℝ) (om : Pt) (pos : Fin 3 → Option ℝ) (sT sS : Option ℝ) : Option ℝ :=
  let x := nsub rnd (pos 0) (some 50)
  let y := nsub rnd (pos 1) (some 50)
  let z := nsub rnd (pos 2) (some 50)
  let c := (nadd rnd (nadd rnd (nmul rnd x x) (nmul rnd y y)) (nmul rnd z z)).map fun s => rnd √s
  if ∃ r, c = some r ∧ r ≤ 30 then
    let d := nmul rnd (some 30) c
    nadd rnd (nsub rnd (nsub rnd (nmul rnd (ndiv rnd (x.map (- ·)) d) (some (om 0))) (nmul rnd (ndiv rnd y d) (some (om 1))))
        (nmul rnd (ndiv rnd z d) (some (om 2))))
      (nmul rnd (nsub rnd sT sS) (nsub rnd (some 1) (ndiv rnd c (some 30))))
  else some 0

/-- `calcSource` (src/Transport.cc:58-72). -/
noncomputable def nsource (rnd : ℝ → ℝ) (volume : ℝ) (q : Fin 4 → Option ℝ) : Fin 4 → Option ℝ := fun i =>
  let v := some (rnd (volume / 20))
  match i with
  | 0 => nmul rnd v (nadd rnd (nadd rnd (nadd rnd (nmul rnd (some 2) (q 0)) (q 1)) (q 2)) (q 3))
  | 1 => nmul rnd v (nadd rnd (nadd rnd (nadd rnd (q 0) (nmul rnd (some 2) (q 1))) (q 2)) (q 3))
  | 2 => nmul rnd v (nadd rnd (nadd rnd (nadd rnd (q 0) (q 1)) (nmul rnd (some 2) (q 2))) (q 3))
  | 3 => nmul rnd v (nadd rnd (nadd rnd (nadd rnd (q 0) (q 1)) (q 2)) (nmul rnd (some 2) (q 3)))

/-- `calcIncomingFlux` (src/Transport.cc:175-271) as in `rincoming`. -/
noncomputable def nincoming (rnd : ℝ → ℝ) (c2f : Fin 4 → Fin 4 → Fin 3) (lpb : Fin 3 → Fin 4 → Option ℝ) (area : Vec4 ℝ)
    (b : Fin 4 → Option ℝ) : Fin 4 → Option ℝ := fun i =>
  (List.finRange 4).foldl (fun x f =>
    if area f < 0 ∧ i ≠ f then
      (List.finRange 4).foldl (fun x v =>
        if v ≠ f then nsub rnd x (nmul rnd (some (rnd (rnd (twice i v * area f) / 12))) (lpb (c2f f v) f)) else x) x
    else x) (b i)

open Classical in
/-- One pass of the loop over columns (src/Transport.cc:287-319); the matrix holds numbers. -/
noncomputable def nelimStep (rnd : ℝ → ℝ) (column next : Fin 4) (s : Mat4 ℝ × (Fin 4 → Option ℝ)) : Option (Mat4 ℝ × (Fin 4 → Option ℝ)) :=
  let rowmax := pivotSearch s.1 column
  let s' := if rowmax ≠ column then (swapRows s.1 rowmax column, fun i => if i = rowmax then s.2 column else if i = column then s.2 rowmax else s.2 i)
    else s
  if s'.1 column column = 0 then none else some (relimCore rnd column next s'.1, s'.2)

/-- Forward substitution (src/Transport.cc:324-327). -/
noncomputable def nforward (rnd : ℝ → ℝ) (A : Mat4 ℝ) (b : Fin 4 → Option ℝ) : Fin 4 → Option ℝ :=
  [0, 1, 2].foldl (fun b column => (below column).foldl
    (fun b row => set1 b row (nsub rnd (b row) (nmul rnd (some (A row column)) (b column)))) b) b

/-- Backward substitution (src/Transport.cc:329-333). -/
noncomputable def nback (rnd : ℝ → ℝ) (A : Mat4 ℝ) (b : Fin 4 → Option ℝ) : Fin 4 → Option ℝ :=
  [3, 2, 1, 0].foldl (fun b column =>
    let b := set1 b column (nmul rnd (b column) (some (A column column)))
    (aboveDown column).foldl (fun b row => set1 b row (nsub rnd (b row) (nmul rnd (some (A row column)) (b column)))) b) b

open Classical in
/-- `gaussElim4` with `GaussElim_Original` (src/Transport.cc:284-334). -/
noncomputable def ngauss (rnd : ℝ → ℝ) (A : Mat4 ℝ) (b : Fin 4 → Option ℝ) : Option (Fin 4 → Option ℝ) := do
  let s ← nelimStep rnd 0 1 (A, b)
  let s ← nelimStep rnd 1 2 s
  let s ← nelimStep rnd 2 3 s
  if s.1 3 3 = 0 then none else
    let A := set2 s.1 3 3 (rnd (1 / s.1 3 3))
    some (nback rnd A (nforward rnd A s.2))

/-- One group of `Transport::solve` (src/Transport.cc:687-733); volume, areas, directions and cross section are numbers. -/
noncomputable def nsolve (rnd : ℝ → ℝ) (volume : ℝ) (faceArea dots : Vec4 ℝ) (sigma : ℝ) (c2f : Fin 4 → Fin 4 → Fin 3)
    (lpb : Fin 3 → Fin 4 → Option ℝ) (q : Fin 4 → Option ℝ) : Option (Fin 4 → Option ℝ) :=
  let area := rsigned rnd faceArea dots
  ngauss rnd (routgoing rnd area (rvolumeIntegrals rnd volume area sigma)) (nincoming rnd c2f lpb area (nsource rnd volume q))

/-- `psiToPhi` (src/Util.cc:87-96). -/
noncomputable def nphi (rnd : ℝ → ℝ) {n : Nat} (wt : Fin n → ℝ) (psi : Fin n → Option ℝ) : Option ℝ :=
  (List.finRange n).foldl (fun s a => nadd rnd s (nmul rnd (psi a) (some (wt a)))) (some 0)

/-- `calcTotalSource` (src/Util.cc:126-128). -/
noncomputable def ntotal (rnd : ℝ → ℝ) (s sS phi : Option ℝ) : Option ℝ :=
  nadd rnd s (nmul rnd (ndiv rnd sS (some (rnd (4 * rnd Real.pi)))) phi)

/-- All that one source iteration computes. Geometry of points that are not numbers is left out. Where the code stops at a pivot of
zero the flux is not a number. -/
noncomputable def nanMachine (rnd : ℝ → ℝ) (deck : Deck) : Kernel (Option ℝ) deck.dirs.length deck.nGroups where
  zero := some 0
  volume p := (complete fun v => complete (p v)).map (rvolume rnd)
  area q := (complete fun k => complete (q k)).map (rarea rnd)
  omegaDotN a q p := (complete fun k => complete (q k)).bind fun q => (complete fun v => complete (p v)).bind fun p =>
    (romega rnd (deckDir deck a) q p).map some
  positive x := open Classical in x.elim false fun x => decide (0 < x)
  sigmaT1 := some deck.sigmaT1
  sigmaS1 := some deck.sigmaS1
  sigmaT2 := some deck.sigmaT2
  sigmaS2 := some deck.sigmaS2
  source a := nhat rnd (deckDir deck a)
  solve V A dots σ c2f inc q v g := match V, complete A, complete dots, σ with
    | some V, some A, some dots, some σ => ((nsolve rnd V A dots σ c2f (fun k f => inc k f g) (fun v => q v g)).getD fun _ => none) v
    | _, _, _, _ => none
  toPhi := nphi rnd (deckWt deck)
  total := ntotal rnd

/-- The test of `fixedPoint` (src/SourceIteration.cc:144, 163-173). -/
noncomputable def nanTest (rnd : ℝ → ℝ) (tol : ℝ) : Test (Option ℝ) where
  error l := l.foldl (fun s q => nadd rnd s ((nsub rnd q.1 q.2).map (|·|))) (some 0)
  norm l := l.foldl (fun s q => nadd rnd s (q.1.map (|·|))) (some 0)
  gsum l := l.foldl (fun s y => nadd rnd s y) (some 0)
  quotient := ndiv rnd
  above x := open Classical in x.elim false fun x => decide (tol < x)
  one := some 1

/-- The test of the block Jacobi loops (src/SweeperPBJ.cc:190-202). -/
noncomputable def nanStop (rnd : ℝ → ℝ) (tol : ℝ) : Stop (Option ℝ) where
  error l := l.foldl (fun s q => nadd rnd s ((nsub rnd q.1 q.2).map (|·|))) (some 0)
  norm l := l.foldl (fun s q => nadd rnd s (q.2.map (|·|))) (some 0)
  gsum l := l.foldl (fun s y => nadd rnd s y) (some 0)
  below x y := open Classical in (ndiv rnd x y).elim false fun x => decide (x < tol)

/-! ### Values that are not numbers are handed on -/

variable {rnd : ℝ → ℝ}

theorem foldl_none {α β : Type} {f : Option β → α → Option β} (h : ∀ x, f none x = none) : ∀ l : List α, l.foldl f none = none
  | [] => rfl
  | x :: l => by rw [List.foldl_cons, h, foldl_none h l]

theorem foldl_bad {α β : Type} {f : Option β → α → Option β} (h : ∀ x, f none x = none) : ∀ (l : List α) (s : Option β),
    (∃ x ∈ l, ∀ s, f s x = none) → l.foldl f s = none
  | [], _, ⟨_, hx, _⟩ => by simp at hx
  | y :: l, s, ⟨x, hx, he⟩ => by
    rw [List.foldl_cons]
    rcases List.mem_cons.1 hx with rfl | hx
    · rw [he, foldl_none h]
    · exact foldl_bad h l _ ⟨x, hx, he⟩

theorem nsource_bad {volume : ℝ} {q : Fin 4 → Option ℝ} {v : Fin 4} (h : q v = none) (i : Fin 4) : nsource rnd volume q i = none := by
  fin_cases v <;> simp only [Fin.zero_eta, Fin.mk_one, Fin.reduceFinMk] at h <;> fin_cases i <;>
    simp [nsource, nadd, nmul, h, lift2_left, lift2_right]

theorem nincoming_bad {c2f : Fin 4 → Fin 4 → Fin 3} {lpb : Fin 3 → Fin 4 → Option ℝ} {area : Vec4 ℝ} {b : Fin 4 → Option ℝ}
    (h : ∀ i, b i = none) (i : Fin 4) : nincoming rnd c2f lpb area b i = none := by
  unfold nincoming
  rw [h i]
  refine foldl_none (fun f => ?_) _
  split
  · refine foldl_none (fun v => ?_) _
    split <;> rfl
  · rfl

theorem set1_bad {b : Fin 4 → Option ℝ} (h : ∀ i, b i = none) (k : Fin 4) {x : Option ℝ} (hx : x = none) (i : Fin 4) : set1 b k x i = none := by
  unfold set1
  split
  · exact hx
  · exact h i

theorem fold_rows_bad {α : Type} {f : (Fin 4 → Option ℝ) → α → Fin 4 → Option ℝ} (hf : ∀ b x, (∀ i, b i = none) → ∀ i, f b x i = none) :
    ∀ (l : List α) (b : Fin 4 → Option ℝ), (∀ i, b i = none) → ∀ i, l.foldl f b i = none
  | [], _, h => h
  | x :: l, b, h => by
    rw [List.foldl_cons]
    exact fold_rows_bad hf l _ (hf b x h)

theorem nforward_bad {A : Mat4 ℝ} {b : Fin 4 → Option ℝ} (h : ∀ i, b i = none) : ∀ i, nforward rnd A b i = none := by
  unfold nforward
  refine fold_rows_bad (fun b x h => fold_rows_bad (fun b y h => set1_bad h _ ?_) _ _ h) _ _ h
  rw [h y]
  rfl

theorem nback_bad {A : Mat4 ℝ} {b : Fin 4 → Option ℝ} (h : ∀ i, b i = none) : ∀ i, nback rnd A b i = none := by
  unfold nback
  refine fold_rows_bad (fun b x h => ?_) _ _ h
  refine fold_rows_bad (fun b y h => set1_bad h _ ?_) _ _ (set1_bad h _ ?_)
  · rw [h y]
    rfl
  · rw [h x]
    rfl

theorem nelimStep_bad {column next : Fin 4} {s s' : Mat4 ℝ × (Fin 4 → Option ℝ)} (h : ∀ i, s.2 i = none) (he : nelimStep rnd column next s = some s') :
    ∀ i, s'.2 i = none := by
  have aux : ∀ t : Mat4 ℝ × (Fin 4 → Option ℝ), (∀ i, t.2 i = none) →
      (open Classical in if t.1 column column = 0 then none else some (relimCore rnd column next t.1, t.2)) = some s' → ∀ i, s'.2 i = none := by
    intro t ht he
    split at he
    · exact absurd he (by simp)
    · rw [← Option.some.inj he]
      exact ht
  refine aux _ ?_ he
  intro i
  split
  · dsimp only
    split
    · exact h _
    · split
      · exact h _
      · exact h _
  · exact h i

theorem ngauss_bad {A : Mat4 ℝ} {b : Fin 4 → Option ℝ} (h : ∀ i, b i = none) (i : Fin 4) : ((ngauss rnd A b).getD fun _ => none) i = none := by
  unfold ngauss
  rcases e0 : nelimStep rnd 0 1 (A, b) with _ | s0
  · rfl
  rcases e1 : nelimStep rnd 1 2 s0 with _ | s1
  · simp [e1]
  rcases e2 : nelimStep rnd 2 3 s1 with _ | s2
  · simp [e1, e2]
  simp only [Option.bind_eq_bind, Option.bind_some, e1, e2]
  split
  · rfl
  · exact nback_bad (nforward_bad (nelimStep_bad (nelimStep_bad (nelimStep_bad h e0) e1) e2)) i

/-! One entry of the right-hand side is enough. -/

theorem nforward_last {A : Mat4 ℝ} {b : Fin 4 → Option ℝ} (h : ∃ i, b i = none) : nforward rnd A b 3 = none := by
  obtain ⟨i, h⟩ := h
  fin_cases i <;> simp only [Fin.zero_eta, Fin.mk_one, Fin.reduceFinMk] at h <;>
    simp [nforward, show below 0 = [1, 2, 3] from by decide, show below 1 = [2, 3] from by decide, show below 2 = [3] from by decide, set1,
      nsub, nmul, h, lift2_left, lift2_right]

theorem nback_last {A : Mat4 ℝ} {b : Fin 4 → Option ℝ} (h : b 3 = none) (i : Fin 4) : nback rnd A b i = none := by
  fin_cases i <;> simp [nback, show aboveDown 3 = [2, 1, 0] from by decide, show aboveDown 2 = [1, 0] from by decide,
    show aboveDown 1 = [0] from by decide, show aboveDown 0 = [] from by decide, set1, nsub, nmul, h, lift2_left, lift2_right]

theorem nelimStep_some {column next : Fin 4} {s s' : Mat4 ℝ × (Fin 4 → Option ℝ)} (h : ∃ i, s.2 i = none) (he : nelimStep rnd column next s = some s') :
    ∃ i, s'.2 i = none := by
  have aux : ∀ t : Mat4 ℝ × (Fin 4 → Option ℝ), (∃ i, t.2 i = none) →
      (open Classical in if t.1 column column = 0 then none else some (relimCore rnd column next t.1, t.2)) = some s' → ∃ i, s'.2 i = none := by
    intro t ht he
    split at he
    · exact absurd he (by simp)
    · rw [← Option.some.inj he]
      exact ht
  refine aux _ ?_ he
  obtain ⟨i, hi⟩ := h
  by_cases h0 : pivotSearch s.1 column ≠ column
  · rw [if_pos h0]
    dsimp only
    by_cases h1 : i = pivotSearch s.1 column
    · exact ⟨column, by rw [if_neg h0.symm, if_pos rfl, ← h1, hi]⟩
    · by_cases h2 : i = column
      · exact ⟨pivotSearch s.1 column, by rw [if_pos rfl, ← h2, hi]⟩
      · exact ⟨i, by rw [if_neg h1, if_neg h2, hi]⟩
  · rw [if_neg h0]
    exact ⟨i, hi⟩

theorem ngauss_some {A : Mat4 ℝ} {b : Fin 4 → Option ℝ} (h : ∃ i, b i = none) (i : Fin 4) : ((ngauss rnd A b).getD fun _ => none) i = none := by
  unfold ngauss
  rcases e0 : nelimStep rnd 0 1 (A, b) with _ | s0
  · rfl
  rcases e1 : nelimStep rnd 1 2 s0 with _ | s1
  · simp [e1]
  rcases e2 : nelimStep rnd 2 3 s1 with _ | s2
  · simp [e1, e2]
  simp only [Option.bind_eq_bind, Option.bind_some, e1, e2]
  split
  · rfl
  · exact nback_last (nforward_last (nelimStep_some (nelimStep_some (nelimStep_some h e0) e1) e2)) i

theorem nincoming_some {c2f : Fin 4 → Fin 4 → Fin 3} {lpb : Fin 3 → Fin 4 → Option ℝ} {area : Vec4 ℝ} {b : Fin 4 → Option ℝ} {f : Fin 4}
    (hf : area f < 0) (h : ∀ k, lpb k f = none) {i : Fin 4} (hi : i ≠ f) : nincoming rnd c2f lpb area b i = none := by
  unfold nincoming
  have h0 : ∀ f' v, (if v ≠ f' then nsub rnd none (nmul rnd (some (rnd (rnd (twice i v * area f') / 12))) (lpb (c2f f' v) f')) else none) = none := by
    intro f' v
    split <;> rfl
  refine foldl_bad (fun f' => ?_) _ _ ⟨f, List.mem_finRange f, fun s => ?_⟩
  · split
    · exact foldl_none (h0 f') _
    · rfl
  · rw [if_pos ⟨hf, hi⟩]
    refine foldl_bad (h0 f) _ _ ⟨i, List.mem_finRange i, fun s => ?_⟩
    rw [if_pos hi, h]
    show lift2 rnd _ s (lift2 rnd _ _ none) = none
    rw [lift2_right, lift2_right]

/-- C107: `gaussElim4`, the sources and the sums of the code hand on what is not a number. -/
theorem nan_spreads {deck : Deck} : Verif.Floating.Spec.Spreads (· = none) (nanMachine rnd deck) where
  solve V A dots σ c2f inc q g h v := by
    obtain ⟨w, hw⟩ := h
    show (match V, complete A, complete dots, σ with
      | some V, some A, some dots, some σ => ((nsolve rnd V A dots σ c2f (fun k f => inc k f g) (fun v => q v g)).getD fun _ => none) v
      | _, _, _, _ => none) = none
    split
    · exact ngauss_bad (nincoming_bad (nsource_bad hw)) v
    · rfl
  toPhi x h := by
    obtain ⟨a, ha⟩ := h
    refine foldl_bad (fun _ => rfl) _ _ ⟨a, List.mem_finRange a, fun s => ?_⟩
    rw [ha]
    exact lift2_right _ _ s
  total s sS phi h := by
    show nadd rnd s (nmul rnd _ phi) = none
    rcases h with rfl | rfl
    · rfl
    · rw [show nmul rnd (ndiv rnd sS (some (rnd (4 * rnd Real.pi)))) none = none from lift2_right _ _ _]
      exact lift2_right _ _ s

/-- The flow enters through face `f`: product of area and direction, as computed, below zero. -/
def Enters (rnd : ℝ → ℝ) (area dots : Fin 4 → Option ℝ) (f : Fin 4) : Prop :=
  ∃ A d, area f = some A ∧ dots f = some d ∧ rnd (A * d) < 0

/-- C107: what is not a number goes on through the faces, too. -/
theorem nan_flows {deck : Deck} : Verif.Floating.Spec.SpreadsFlow (· = none) (Enters rnd) (nanMachine rnd deck) := by
  intro V A dots σ c2f inc q g f h hb v
  obtain ⟨x, d, hx, hd, hlt⟩ := h
  show (match V, complete A, complete dots, σ with
    | some V, some A, some dots, some σ => ((nsolve rnd V A dots σ c2f (fun k f => inc k f g) (fun v => q v g)).getD fun _ => none) v
    | _, _, _, _ => none) = none
  split
  · rename_i _ A' dots' _ hA hdots
    have e1 : A' f = x := by
      have := (complete_iff.1 hA) f
      rw [hx] at this
      exact (Option.some.inj this).symm
    have e2 : dots' f = d := by
      have := (complete_iff.1 hdots) f
      rw [hd] at this
      exact (Option.some.inj this).symm
    obtain ⟨i, hi⟩ : ∃ i, i ≠ f := ⟨f + 1, by clear * -; revert f; decide⟩
    refine ngauss_some ⟨i, nincoming_some (f := f) ?_ hb hi⟩ v
    show rnd (A' f * dots' f) < 0
    rw [e1, e2]
    exact hlt
  · rfl

theorem sums_bad {α : Type} {f : α → Option ℝ} (l : List α) (h : ∃ x ∈ l, f x = none) : l.foldl (fun s x => nadd rnd s (f x)) (some 0) = none := by
  obtain ⟨x, hx, he⟩ := h
  refine foldl_bad (fun _ => rfl) _ _ ⟨x, hx, fun s => ?_⟩
  rw [he]
  exact lift2_right _ _ s

theorem change_bad {q : Option ℝ × Option ℝ} (h : q.1 = none ∨ q.2 = none) : (nsub rnd q.1 q.2).map (|·|) = none := by
  rcases h with h | h
  · rw [h]; rfl
  · rw [h, show nsub rnd q.1 none = none from lift2_right _ _ _]; rfl

theorem nanTest_spreads {tol : ℝ} : Verif.Floating.Spec.SpreadsTest (· = none) (nanTest rnd tol) where
  error l h := by
    obtain ⟨q, hq, h⟩ := h
    exact sums_bad (f := fun q => (nsub rnd q.1 q.2).map (|·|)) l ⟨q, hq, change_bad h⟩
  gsum l h := sums_bad (f := fun x => x) l h
  quotient x y h := by
    rw [h]
    rfl
  above x h := by
    rw [h]
    rfl

theorem nanStop_spreads {tol : ℝ} : Verif.Floating.Spec.SpreadsStop (· = none) (nanStop rnd tol) where
  error l h := by
    obtain ⟨q, hq, h⟩ := h
    exact sums_bad (f := fun q => (nsub rnd q.1 q.2).map (|·|)) l ⟨q, hq, change_bad h⟩
  gsum l h := sums_bad (f := fun x => x) l h
  below x y h := by
    rw [h]
    rfl

/-! ### Where all are numbers the functions are those without `none` -/

/-- A vector of numbers. -/
def nums (b : Vec4 ℝ) : Fin 4 → Option ℝ := fun i => some (b i)

theorem set1_nums (b : Vec4 ℝ) (k : Fin 4) (x : ℝ) : set1 (nums b) k (some x) = nums (set1 b k x) := by
  funext i
  by_cases h : i = k <;> simp [set1, nums, h]

theorem fold_nums {α : Type} {f : (Fin 4 → Option ℝ) → α → Fin 4 → Option ℝ} {g : Vec4 ℝ → α → Vec4 ℝ} (h : ∀ b x, f (nums b) x = nums (g b x)) :
    ∀ (l : List α) (b : Vec4 ℝ), l.foldl f (nums b) = nums (l.foldl g b)
  | [], _ => rfl
  | x :: l, b => by rw [List.foldl_cons, h, fold_nums h l, List.foldl_cons]

theorem fold_some {α : Type} {f : Option ℝ → α → Option ℝ} {g : ℝ → α → ℝ} (h : ∀ b x, f (some b) x = some (g b x)) :
    ∀ (l : List α) (b : ℝ), l.foldl f (some b) = some (l.foldl g b)
  | [], _ => rfl
  | x :: l, b => by rw [List.foldl_cons, h, fold_some h l, List.foldl_cons]

theorem nforward_nums (A : Mat4 ℝ) (b : Vec4 ℝ) : nforward rnd A (nums b) = nums (rforward rnd A b) := by
  unfold nforward rforward
  refine fold_nums (fun b x => ?_) _ b
  refine fold_nums (fun b y => ?_) _ b
  exact set1_nums b _ _

theorem nback_nums (A : Mat4 ℝ) (b : Vec4 ℝ) : nback rnd A (nums b) = nums (rback rnd A b) :=
  fold_nums (fun b x => by
    dsimp only
    rw [show nmul rnd (nums b x) (some (A x x)) = some (rnd (b x * A x x)) from rfl, set1_nums]
    exact fold_nums (fun b y => set1_nums b y _) _ _) _ b

theorem nelimStep_nums (column next : Fin 4) (s : Mat4 ℝ × Vec4 ℝ) :
    nelimStep rnd column next (s.1, nums s.2) = (relimStep rnd column next s).map fun s => (s.1, nums s.2) := by
  have aux : ∀ t : Mat4 ℝ × Vec4 ℝ,
      (open Classical in if t.1 column column = 0 then none else some (relimCore rnd column next t.1, nums t.2)) =
      (open Classical in if t.1 column column = 0 then none else some (relimCore rnd column next t.1, t.2)).map fun s => (s.1, nums s.2) := by
    intro t
    split <;> rfl
  unfold nelimStep relimStep
  dsimp only
  rw [← aux]
  by_cases h : pivotSearch s.1 column ≠ column
  · rw [if_pos h, if_pos h]
    have e : (fun i => if i = pivotSearch s.1 column then nums s.2 column else if i = column then nums s.2 (pivotSearch s.1 column) else nums s.2 i) =
        nums (swapEntries s.2 (pivotSearch s.1 column) column) := by
      funext i
      unfold nums swapEntries
      split
      · rfl
      · split <;> rfl
    dsimp only
    rw [e]
  · rw [if_neg h, if_neg h]

theorem ngauss_nums (A : Mat4 ℝ) (b : Vec4 ℝ) : ngauss rnd A (nums b) = (rgauss rnd A b).map nums := by
  unfold ngauss rgauss
  rw [show (A, nums b) = ((A, b).1, nums (A, b).2) from rfl, nelimStep_nums]
  rcases relimStep rnd 0 1 (A, b) with _ | s0
  · rfl
  simp only [Option.map_some, Option.bind_eq_bind, Option.bind_some]
  rw [nelimStep_nums]
  rcases relimStep rnd 1 2 s0 with _ | s1
  · rfl
  simp only [Option.map_some, Option.bind_some]
  rw [nelimStep_nums]
  rcases relimStep rnd 2 3 s1 with _ | s2
  · rfl
  simp only [Option.map_some, Option.bind_some]
  split
  · rfl
  · rw [nforward_nums, nback_nums]
    rfl

/-- C107: where all arguments are numbers, the solve in a cell is that of `rsolve`, the sum over the angles `rphi` and the total source
`rtotal`. -/
theorem nsolve_nums (volume : ℝ) (faceArea dots : Vec4 ℝ) (sigma : ℝ) (c2f : Fin 4 → Fin 4 → Fin 3) (lpb : Fin 3 → Fin 4 → ℝ) (q : Vec4 ℝ) :
    nsolve rnd volume faceArea dots sigma c2f (fun k f => some (lpb k f)) (nums q) =
      (rsolve rnd volume faceArea dots sigma c2f lpb q).map nums := by
  have e1 : nsource rnd volume (nums q) = nums (rsource rnd volume q) := by
    funext i
    fin_cases i <;> rfl
  have e2 : ∀ area b, nincoming rnd c2f (fun k f => some (lpb k f)) area (nums b) = nums (rincoming rnd c2f lpb area b) := by
    intro area b
    funext i
    refine fold_some (fun x f => ?_) _ _
    split
    · refine fold_some (fun x v => ?_) _ _
      split <;> rfl
    · rfl
  unfold nsolve rsolve
  dsimp only
  rw [e1, e2, ngauss_nums]

theorem nphi_nums {n : Nat} (wt psi : Fin n → ℝ) : nphi rnd wt (fun a => some (psi a)) = some (rphi rnd wt psi) :=
  fold_some (fun _ _ => rfl) _ _

theorem rnd_zero_iff {u : ℝ} (R : Rounds u rnd) {x : ℝ} : rnd x = 0 ↔ x = 0 := by
  constructor
  · intro h
    have h1 := R.near x
    rw [h, zero_sub, abs_neg] at h1
    by_contra hx
    have := abs_pos.2 hx
    nlinarith [R.small.2]
  · rintro rfl
    have := R.near 0
    simpa using this

theorem ntotal_nums {u : ℝ} (R : Rounds u rnd) (s sS phi : ℝ) : ntotal rnd (some s) (some sS) (some phi) = some (rtotal rnd s sS phi) := by
  have h : rnd (4 * rnd Real.pi) ≠ 0 := fun h => Real.pi_ne_zero ((rnd_zero_iff R).1 (by have := (rnd_zero_iff R).1 h; linarith))
  unfold ntotal rtotal ndiv
  dsimp only
  rw [if_neg h]
  rfl

theorem rnd_nonneg {u : ℝ} (R : Rounds u rnd) {x : ℝ} (h : 0 ≤ x) : 0 ≤ rnd x := by
  have h1 := (abs_le.1 (R.near x)).1
  rw [abs_of_nonneg h] at h1
  nlinarith [R.small.2]

/-- The distance from the centre the code has is zero exactly at the centre. -/
theorem centre_iff {u : ℝ} (R : Rounds u rnd) (pos : Pt) :
    rnd √(rnd (rnd (rnd (rnd (pos 0 - 50) * rnd (pos 0 - 50)) + rnd (rnd (pos 1 - 50) * rnd (pos 1 - 50))) +
      rnd (rnd (pos 2 - 50) * rnd (pos 2 - 50)))) = 0 ↔ ∀ k, pos k = 50 := by
  have nn : ∀ x : ℝ, 0 ≤ rnd (x * x) := fun x => rnd_nonneg R (mul_self_nonneg x)
  have n1 := nn (rnd (pos 0 - 50))
  have n2 := nn (rnd (pos 1 - 50))
  have n3 := nn (rnd (pos 2 - 50))
  have n4 := rnd_nonneg R (add_nonneg n1 n2)
  rw [rnd_zero_iff R, Real.sqrt_eq_zero (rnd_nonneg R (add_nonneg n4 n3)), rnd_zero_iff R, add_eq_zero_iff_of_nonneg n4 n3, rnd_zero_iff R,
    add_eq_zero_iff_of_nonneg n1 n2]
  simp only [rnd_zero_iff R, mul_self_eq_zero, sub_eq_zero]
  constructor
  · rintro ⟨⟨h0, h1⟩, h2⟩ k
    fin_cases k
    · exact h0
    · exact h1
    · exact h2
  · exact fun h => ⟨⟨h 0, h 1⟩, h 2⟩

/-- C107: the source is not a number exactly in a vertex at the centre of the hat; elsewhere it is that of `rhat`. -/
theorem nhat_iff {u : ℝ} (R : Rounds u rnd) (om pos : Pt) (sT sS : ℝ) :
    nhat rnd om (fun k => some (pos k)) (some sT) (some sS) =
      open Classical in if ∀ k, pos k = 50 then none else some (rhat rnd om pos sT sS) := by
  have hc := centre_iff R pos
  unfold nhat rhat
  simp only [nsub, nadd, nmul, lift2, Option.map_some, Option.some.injEq, exists_eq_left']
  generalize rnd √(rnd (rnd (rnd (rnd (pos 0 - 50) * rnd (pos 0 - 50)) + rnd (rnd (pos 1 - 50) * rnd (pos 1 - 50))) +
      rnd (rnd (pos 2 - 50) * rnd (pos 2 - 50)))) = c at hc ⊢
  by_cases h0 : ∀ k, pos k = 50
  · have h1 := hc.2 h0
    rw [if_pos h0, if_pos (by rw [h1]; norm_num), h1]
    simp [ndiv, (rnd_zero_iff R).2 rfl]
  · have h1 : rnd (30 * c) ≠ 0 := fun h => h0 (hc.1 (by have := (rnd_zero_iff R).1 h; linarith))
    rw [if_neg h0]
    by_cases h2 : c ≤ 30
    · rw [if_pos h2, if_pos h2]
      simp [ndiv, h1]
    · rw [if_neg h2, if_neg h2]

end Verif.Rounding
