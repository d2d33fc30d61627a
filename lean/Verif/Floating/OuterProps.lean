import Verif.Floating.Outer
import Verif.Floating.BlocksProps

/-!
# `SweeperPBJOuter` makes the iterates of block Jacobi around source iteration (C105)
-/
set_option linter.unusedSectionVars false
namespace Verif.Floating

open Verif.MeshFile Verif.TychoMesh Verif.Traverse Verif.Floating.Spec Verif.PsiFile Verif.Storage

variable {F : Type} {nA nG : Nat} {K : Kernel F nA nG} {coord : Nat → F}
variable {S : Type} [LinearOrder S] {val : Nat → S} {m : SerialMesh} {pv : List Nat} {n : Nat} {P : ParallelMesh} {T : Nat → Mesh}
variable {S' : Type} [LinearOrder S'] {val' : Nat → S'} {pv' : List Nat} {n' : Nat} {P' : ParallelMesh} {T' : Nat → Mesh}
variable {D D' : Nat → Tables F} {test test' : Test F} {stop stop' : Stop F} {iterMax iterMax' ddMax ddMax' : Nat}

/-- A local sweep from a flux and boundary arrays on the serial mesh. -/
theorem inner_step (H : Created m pv n P) (hn : n < uintMax) (L : Loaded val P T) (hD : Started K coord P T D)
    (hsort : Sorted K coord m) (hs : ∀ r < n, nA * (T r).nCells < 2 ^ 64) {bound : Nat → Bound F} {psi psi' : Nat → Psi F} {x old : Psi F}
    (hsw : K.LocalSwept n T D (fun r => K.totalSource (D r) (psi r)) psi bound psi') (hx : Holds nA nG n T psi x)
    (hfar : FarHolds K coord m P T bound old) :
    ∃ src y, Total K coord m x src ∧ BlockSolution K coord m pv src old y ∧ Holds nA nG n T psi' y := by
  obtain ⟨src, t1, t2⟩ := total_of H L hD hx
  have hl := local_eq (m := m) (P := P) (fun sched ht => cfg_linked H hn L hD hsort.consistent ht hs) hsw
  obtain ⟨y, b1, b2⟩ := block_of_local H L hD (cfg_linked (source := fun r => K.totalSource (D r) (psi r)) (psi0 := psi)
    (sched := ⟨1, 1, .tycho, true, fun _ _ _ => 0, bound⟩) H hn L hD hsort.consistent Nat.one_pos hs) hl t2 hfar
  exact ⟨src, y, t1, b1, b2⟩

theorem total_same {x x' src src' : Psi F} (h : Total K coord m x src) (h' : Total K coord m x' src') (hx : Same nA nG m x x') :
    Same nA nG m src src' :=
  totalOf_unique (phi := fun g v c => K.toPhi fun a => x g v a c) (phi' := fun g v c => K.toPhi fun a => x' g v a c) h h'
    (fun g hg v c hc => by congr 1; funext a; exact hx g hg v a a.2 c hc)

/-- C105: the iterates are determined by the serial mesh, the part of each cell and the numbers of source iterations. -/
theorem outer_unique (H : Tets m) {log : List (Nat × Nat)} (hc : ∀ a < nA, ∀ c < m.numCells, (a, c) ∈ log)
    (ho : ∀ l1 a c l2, log = l1 ++ (a, c) :: l2 → a < nA ∧ c < m.numCells ∧ ∀ f x c' f', Dot K coord m a c f x →
      K.positive x = false → Across m c f c' f' → (a, c') ∈ l1) {l : List Nat} {psi psi' : Psi F}
    (h : OuterIterates K coord m pv l psi) (h' : OuterIterates K coord m pv l psi') : Same nA nG m psi psi' := by
  have inner : ∀ {old old' start start' : Psi F} {k : Nat} {psi psi' : Psi F}, Same nA nG m old old' → Same nA nG m start start' →
      InnerIterates K coord m pv old start k psi → InnerIterates K coord m pv old' start' k psi' → Same nA nG m psi psi' := by
    intro old old' start start' k psi psi' e1 e2 h h'
    induction h generalizing psi' with
    | zero => cases h' with | zero => exact e2
    | succ _ ht hs ih =>
      cases h' with
      | succ h2 ht2 hs2 => exact block_unique H hs hs2 (total_same ht ht2 (ih h2)) e1 hc ho
  induction h generalizing psi' with
  | zero => cases h' with | zero => exact same_refl _
  | succ _ hi ih =>
    cases h' with
    | succ h2 hi2 => exact inner (ih h2) (ih h2) hi hi2

theorem InnerLoop.uncons {bound : Nat → Bound F} {iter : Nat} {error : F} {psi psiEnd : Nat → Psi F} {fl : List (Nat → Psi F)}
    (h : K.InnerLoop test iterMax n T D bound iter error psi fl psiEnd) : (fl = [] ∧ (iterMax ≤ iter ∨ test.above error = false)) ∨
      ∃ psi' rest, fl = psi' :: rest ∧ test.above error = true ∧ K.LocalSwept n T D (fun r => K.totalSource (D r) (psi r)) psi bound psi' ∧
        K.InnerLoop test iterMax n T D bound (iter + 1) (K.errorOf test n T psi psi') psi' rest psiEnd := by
  cases h with
  | stop h => exact .inl ⟨rfl, h⟩
  | step h he hs hr => exact .inr ⟨_, _, rfl, he, hs, hr⟩

theorem InnerLoop.last {bound : Nat → Bound F} {iter : Nat} {error : F} {psi psiEnd : Nat → Psi F} {fl : List (Nat → Psi F)}
    (h : K.InnerLoop test iterMax n T D bound iter error psi fl psiEnd) : psiEnd = fl.getLastD psi := by
  induction h with
  | stop => rfl
  | @step _ _ _ _ rest _ _ _ _ _ ih =>
    rw [ih]
    cases rest <;> rfl

theorem InnerLoop.iterates (H : Created m pv n P) (hn : n < uintMax) (L : Loaded val P T) (hD : Started K coord P T D)
    (hsort : Sorted K coord m) (hs : ∀ r < n, nA * (T r).nCells < 2 ^ 64) {bound : Nat → Bound F} {iter : Nat} {error : F}
    {psi psiEnd : Nat → Psi F} {fl : List (Nat → Psi F)} (h : K.InnerLoop test iterMax n T D bound iter error psi fl psiEnd)
    {old start x : Psi F} {k : Nat} (hk : InnerIterates K coord m pv old start k x) (hx : Holds nA nG n T psi x)
    (hfar : FarHolds K coord m P T bound old) :
    ∃ y, InnerIterates K coord m pv old start (k + fl.length) y ∧ Holds nA nG n T psiEnd y := by
  induction h generalizing x k with
  | stop => exact ⟨x, hk, hx⟩
  | step _ _ hsw _ ih =>
    obtain ⟨src, y, t1, t2, t3⟩ := inner_step H hn L hD hsort hs hsw hx hfar
    obtain ⟨z, e1, e2⟩ := ih (.succ hk t1 t2) t3
    exact ⟨z, by rw [List.length_cons, ← Nat.add_assoc, Nat.add_right_comm]; exact e1, e2⟩

theorem OuterLoop.iterates (H : Created m pv n P) (hn : n < uintMax) (L : Loaded val P T) (hD : Started K coord P T D)
    (hsort : Sorted K coord m) (hs : ∀ r < n, nA * (T r).nCells < 2 ^ 64) {iter : Nat} {psi prev psiEnd : Nat → Psi F}
    {bound : Nat → Bound F} {runs : List (List (Nat → Psi F))}
    (h : K.OuterLoop test iterMax stop ddMax n T D iter psi prev bound runs psiEnd) {l : List Nat} {x : Psi F}
    (hl : OuterIterates K coord m pv l x) (hx : Holds nA nG n T psi x) (hfar : FarHolds K coord m P T bound x) :
    ∃ y, OuterIterates K coord m pv ((runs.map List.length).reverse ++ l) y ∧ Holds nA nG n T psiEnd y := by
  induction h generalizing l x with
  | limit => exact ⟨x, hl, hx⟩
  | conv _ hi _ =>
    obtain ⟨y, e1, e2⟩ := InnerLoop.iterates H hn L hD hsort hs hi .zero hx hfar
    exact ⟨y, by simpa using OuterIterates.succ hl e1, e2⟩
  | @next _ _ _ _ fl _ _ rest _ _ hi _ hex _ ih =>
    obtain ⟨y, e1, e2⟩ := InnerLoop.iterates H hn L hD hsort hs hi .zero hx hfar
    rw [Nat.zero_add] at e1
    obtain ⟨z, f1, f2⟩ := ih (.succ hl e1) e2 (far_of_exchange H hn L hD hsort hs hex e2)
    exact ⟨z, by simpa using f1, f2⟩

/-- C105: the flux `SweeperPBJOuter` leaves is, to the last bit, that of block Jacobi on the serial mesh with as many
source iterations in each block solve. -/
theorem outer_iterates (H : Created m pv n P) (hn : n < uintMax) (L : Loaded val P T) (hD : Started K coord P T D)
    (hsort : Sorted K coord m) (hs : ∀ r < n, nA * (T r).nCells < 2 ^ 64) {psiEnd : Nat → Psi F} {runs : List (List (Nat → Psi F))}
    (h : K.Outer test iterMax stop ddMax n T D runs psiEnd) :
    ∃ psiS, OuterIterates K coord m pv (runs.map List.length).reverse psiS ∧ Holds nA nG n T psiEnd psiS := by
  have := OuterLoop.iterates H hn L hD hsort hs h .zero (fun _ _ _ _ _ _ _ _ _ _ => rfl)
    (fun _ _ _ _ _ _ _ _ _ _ _ _ _ _ _ _ _ _ _ _ _ => rfl)
  rwa [List.append_nil] at this

/-- C105: two runs on the same partition with as many source iterations in each block solve end with the same bits. -/
theorem outer_repeat (H : Created m pv n P) (hn : n < uintMax) (L : Loaded val P T) (hD : Started K coord P T D)
    (H' : Created m pv n P') (L' : Loaded val' P' T') (hD' : Started K coord P' T' D')
    (hsort : Sorted K coord m) (hs : ∀ r < n, nA * (T r).nCells < 2 ^ 64) (hs' : ∀ r < n, nA * (T' r).nCells < 2 ^ 64)
    {psiEnd psiEnd' : Nat → Psi F} {runs runs' : List (List (Nat → Psi F))}
    (h : K.Outer test iterMax stop ddMax n T D runs psiEnd) (h' : K.Outer test' iterMax' stop' ddMax' n T' D' runs' psiEnd')
    (hl : runs.map List.length = runs'.map List.length) : ∃ psiS, Holds nA nG n T psiEnd psiS ∧ Holds nA nG n T' psiEnd' psiS := by
  obtain ⟨log, o1, o2⟩ := order_of H hn L hD hsort hs
  obtain ⟨x, e1, e2⟩ := outer_iterates H hn L hD hsort hs h
  obtain ⟨y, f1, f2⟩ := outer_iterates H' hn L' hD' hsort hs' h'
  rw [← hl] at f1
  exact ⟨x, e2, holds_same H' L' f2 (outer_unique H.tets o1 o2 f1 e1)⟩

theorem sameOn_of (H : Created m pv n P) (L : Loaded val P T) {p q : Nat → Psi F} {x y : Psi F} (hp : Holds nA nG n T p x)
    (hq : Holds nA nG n T q y) (h : Same nA nG m x y) : SameOn nA nG n T p q := by
  intro r hr i hi a ha v g hg
  obtain ⟨c, hc⟩ := isCell_of_lt H L hr hi
  obtain ⟨e, -, -, hcl⟩ := isCell_lg H L hc
  rw [hp r hr i c e g hg v a ha, hq r hr i c e g hg v a ha, h g hg v a ha c hcl]

theorem same_of (H : Created m pv n P) (L : Loaded val P T) {p q : Nat → Psi F} {x y : Psi F} (hp : Holds nA nG n T p x)
    (hq : Holds nA nG n T q y) (h : SameOn nA nG n T p q) : Same nA nG m x y := by
  intro g hg v a ha c hc
  obtain ⟨r, i, hi⟩ := isCell_exists H hc
  obtain ⟨e, hr, hil, -⟩ := isCell_lg H L hi
  rw [← hp r hr i c e g hg v a ha, ← hq r hr i c e g hg v a ha, h r hr i hil a ha v g hg]

theorem errorOf_congr {p p' q q' : Nat → Psi F} (hp : SameOn nA nG n T p p') (hq : SameOn nA nG n T q q') :
    K.errorOf test n T p q = K.errorOf test n T p' q' := by
  have hf : ∀ {p p' : Nat → Psi F}, SameOn nA nG n T p p' → ∀ r < n, ∀ i < (T r).nCells, ∀ g < nG, ∀ v,
      K.phi (p r) g v i = K.phi (p' r) g v i := by
    intro p p' h r hr i hi g hg v
    unfold Kernel.phi
    congr 1
    funext a
    exact h r hr i hi a a.2 v g hg
  have hpr : ∀ r < n, pairs nG (T r).nCells (K.phi (q r)) (K.phi (p r)) = pairs nG (T r).nCells (K.phi (q' r)) (K.phi (p' r)) := by
    intro r hr
    unfold pairs
    rw [List.flatMap_def, List.flatMap_def]
    congr 1
    refine List.map_congr_left fun c hc => ?_
    congr 1
    funext v
    refine List.map_congr_left fun g hg => ?_
    rw [hf hp r hr c (List.mem_range.1 hc) g (List.mem_range.1 hg) v, hf hq r hr c (List.mem_range.1 hc) g (List.mem_range.1 hg) v]
  unfold Kernel.errorOf
  dsimp only
  congr 2
  · refine List.map_congr_left fun r hr => ?_
    rw [hpr r (List.mem_range.1 hr)]
  · refine List.map_congr_left fun r hr => ?_
    rw [hpr r (List.mem_range.1 hr)]

theorem met_congr {p p' q q' : Nat → Psi F} (hp : SameOn nA nG n T p p') (hq : SameOn nA nG n T q q') :
    stop.met nA nG n T p q = stop.met nA nG n T p' q' := by
  have hpr : ∀ r < n, fluxPairs nA nG (T r).nCells (p r) (q r) = fluxPairs nA nG (T r).nCells (p' r) (q' r) := by
    intro r hr
    unfold fluxPairs
    rw [List.flatMap_def, List.flatMap_def]
    congr 1
    refine List.map_congr_left fun c hc => ?_
    rw [List.flatMap_def, List.flatMap_def]
    congr 1
    refine List.map_congr_left fun a ha => ?_
    congr 1
    funext v
    refine List.map_congr_left fun g hg => ?_
    rw [hp r hr c (List.mem_range.1 hc) a (List.mem_range.1 ha) v g (List.mem_range.1 hg),
      hq r hr c (List.mem_range.1 hc) a (List.mem_range.1 ha) v g (List.mem_range.1 hg)]
  unfold Stop.met
  dsimp only
  congr 2
  · refine List.map_congr_left fun r hr => ?_
    rw [hpr r (List.mem_range.1 hr)]
  · refine List.map_congr_left fun r hr => ?_
    rw [hpr r (List.mem_range.1 hr)]

/-- C105: two runs with the same partition, tests and limits make the same number of iterations, outer and inner, and end with the same bits. -/
theorem outer_deterministic (H : Created m pv n P) (hn : n < uintMax) (L : Loaded val P T) (hD : Started K coord P T D)
    (hsort : Sorted K coord m) (hs : ∀ r < n, nA * (T r).nCells < 2 ^ 64) {psiEnd psiEnd' : Nat → Psi F}
    {runs runs' : List (List (Nat → Psi F))} (h : K.Outer test iterMax stop ddMax n T D runs psiEnd)
    (h' : K.Outer test iterMax stop ddMax n T D runs' psiEnd') :
    runs.map List.length = runs'.map List.length ∧ SameOn nA nG n T psiEnd psiEnd' := by
  obtain ⟨log, o1, o2⟩ := order_of H hn L hD hsort hs
  have inner : ∀ {bound bound' : Nat → Bound F} {iter : Nat} {error : F} {psi psi' e e' : Nat → Psi F} {fl fl' : List (Nat → Psi F)}
      {x old : Psi F}, K.InnerLoop test iterMax n T D bound iter error psi fl e → K.InnerLoop test iterMax n T D bound' iter error psi' fl' e' →
      Holds nA nG n T psi x → Holds nA nG n T psi' x → FarHolds K coord m P T bound old → FarHolds K coord m P T bound' old →
      fl.length = fl'.length ∧ ∃ y, Holds nA nG n T e y ∧ Holds nA nG n T e' y := by
    intro bound bound' iter error psi psi' e e' fl fl' x old h h' hx hx' hb hb'
    induction h generalizing psi' e' fl' x with
    | stop h =>
      cases h' with
      | stop => exact ⟨rfl, x, hx, hx'⟩
      | step h1 h2 => rw [h2] at h; simp at h; omega
    | step h1 h2 hsw _ ih =>
      cases h' with
      | stop h => rw [h2] at h; simp at h; omega
      | step _ _ hsw' hr' =>
        obtain ⟨src, y, t1, t2, t3⟩ := inner_step H hn L hD hsort hs hsw hx hb
        obtain ⟨src', y', t1', t2', t3'⟩ := inner_step H hn L hD hsort hs hsw' hx' hb'
        have e := block_unique H.tets t2' t2 (total_same t1' t1 (same_refl _)) (same_refl _) o1 o2
        have t3'' := holds_same H L t3' e
        rw [← errorOf_congr (sameOn_of H L hx hx' (same_refl _)) (sameOn_of H L t3 t3'' (same_refl _))] at hr'
        obtain ⟨el, z, f1, f2⟩ := ih hr' t3 t3''
        exact ⟨by simp [el], z, f1, f2⟩
  have outer : ∀ {iter : Nat} {psi psi' prev prev' e e' : Nat → Psi F} {bound bound' : Nat → Bound F} {runs runs' : List (List (Nat → Psi F))}
      {x z : Psi F}, K.OuterLoop test iterMax stop ddMax n T D iter psi prev bound runs e →
      K.OuterLoop test iterMax stop ddMax n T D iter psi' prev' bound' runs' e' →
      Holds nA nG n T psi x → Holds nA nG n T psi' x → Holds nA nG n T prev z → Holds nA nG n T prev' z →
      FarHolds K coord m P T bound x → FarHolds K coord m P T bound' x →
      runs.map List.length = runs'.map List.length ∧ ∃ y, Holds nA nG n T e y ∧ Holds nA nG n T e' y := by
    intro iter psi psi' prev prev' e e' bound bound' runs runs' x z h h' hx hx' hz hz' hb hb'
    induction h generalizing psi' prev' e' bound' runs' x z with
    | limit h =>
      cases h' with
      | limit => exact ⟨rfl, x, hx, hx'⟩
      | conv h2 => exact absurd h2 h
      | next h2 => exact absurd h2 h
    | conv h hi hc =>
      cases h' with
      | limit h2 => exact absurd h h2
      | conv _ hi' _ =>
        obtain ⟨e1, y, f1, f2⟩ := inner hi hi' hx hx' hb hb'
        exact ⟨by simp [e1], y, f1, f2⟩
      | next _ hi' hc' =>
        obtain ⟨e1, y, f1, f2⟩ := inner hi hi' hx hx' hb hb'
        rw [met_congr (sameOn_of H L hz hz' (same_refl _)) (sameOn_of H L f1 f2 (same_refl _)), hc'] at hc
        exact absurd hc (by decide)
    | next h hi hc hex _ ih =>
      cases h' with
      | limit h2 => exact absurd h h2
      | conv _ hi' hc' =>
        obtain ⟨e1, y, f1, f2⟩ := inner hi hi' hx hx' hb hb'
        rw [met_congr (sameOn_of H L hz hz' (same_refl _)) (sameOn_of H L f1 f2 (same_refl _)), hc'] at hc
        exact absurd hc (by decide)
      | next _ hi' _ hex' hr' =>
        obtain ⟨e1, y, f1, f2⟩ := inner hi hi' hx hx' hb hb'
        obtain ⟨e2, w, g1, g2⟩ := ih hr' f1 f2 f1 f2 (far_of_exchange H hn L hD hsort hs hex f1) (far_of_exchange H hn L hD hsort hs hex' f2)
        exact ⟨by simp [e1, e2], w, g1, g2⟩
  have hz : Holds nA nG n T (fun _ _ _ _ _ => K.zero) (fun _ _ _ _ => K.zero) := fun _ _ _ _ _ _ _ _ _ _ => rfl
  have hf : FarHolds K coord m P T (fun _ _ _ _ _ => K.zero) (fun _ _ _ _ => K.zero) :=
    fun _ _ _ _ _ _ _ _ _ _ _ _ _ _ _ _ _ _ _ _ _ => rfl
  obtain ⟨e, y, f1, f2⟩ := outer h h' hz hz hz hz hf hf
  exact ⟨e, sameOn_of H L f1 f2 (same_refl _)⟩

/-- What an outer iteration after the first starts from. -/
theorem OuterLoop.drop {iter : Nat} {psi prev psiEnd : Nat → Psi F} {bound : Nat → Bound F} {runs : List (List (Nat → Psi F))}
    (h : K.OuterLoop test iterMax stop ddMax n T D iter psi prev bound runs psiEnd) :
    ∀ j (hj : j + 1 < runs.length), ∃ p x b b', x = runs[j].getLastD p ∧ K.Exchange n T D x b b' ∧
      K.OuterLoop test iterMax stop ddMax n T D (iter + j + 1) x x b' (runs.drop (j + 1)) psiEnd := by
  induction h with
  | limit => intro j hj; simp at hj
  | conv => intro j hj; simp at hj
  | @next iter psi _ bound fl psi' bound' rest _ _ hi _ hx hr ih =>
    intro j hj
    cases j with
    | zero => exact ⟨psi, psi', bound, bound', InnerLoop.last hi, hx, hr⟩
    | succ j =>
      obtain ⟨p, x, b, b', e1, e2, e3⟩ := ih j (by simpa using hj)
      exact ⟨p, x, b, b', e1, e2, by rw [show iter + (j + 1) + 1 = iter + 1 + j + 1 from by omega]; exact e3⟩

/-- C105: where the first local sweep of an outer iteration leaves the bits of the flux, that flux is a fixed point of source
iteration with the traversal, on any partition. -/
theorem outer_fixed (H : Created m pv n P) (hn : n < uintMax) (L : Loaded val P T) (hD : Started K coord P T D)
    (H' : Created m pv' n' P') (hn' : n' < uintMax) (L' : Loaded val' P' T') (hD' : Started K coord P' T' D')
    (hsort : Sorted K coord m) (hs : ∀ r < n, nA * (T r).nCells < 2 ^ 64) (hs' : ∀ r < n', nA * (T' r).nCells < 2 ^ 64)
    {runs : List (List (Nat → Psi F))} {psiEnd : Nat → Psi F} (h : K.Outer test iterMax stop ddMax n T D runs psiEnd) {j : Nat}
    (hj : j + 1 < runs.length) {fl0 fl : List (Nat → Psi F)} {x y : Nat → Psi F} (h0 : runs[j] = fl0 ++ [x]) (h1 : runs[j + 1] = y :: fl)
    (hsame : SameOn nA nG n T x y) {psiS : Psi F} (hS : Holds nA nG n T x psiS) {q q0 q' : Nat → Psi F} (hq : Holds nA nG n' T' q psiS)
    (hsw : K.Swept n' T' D' (fun r => K.totalSource (D' r) (q r)) q0 q') : Holds nA nG n' T' q' psiS := by
  obtain ⟨log, o1, o2⟩ := order_of H hn L hD hsort hs
  obtain ⟨p, x', b, b', e1, e2, e3⟩ := OuterLoop.drop h j hj
  rw [h0] at e1
  obtain rfl : x' = x := by rw [e1]; simp
  rw [List.drop_eq_getElem_cons hj, h1] at e3
  have inner : ∃ e, K.InnerLoop test iterMax n T D b' 0 test.one x' (y :: fl) e := by
    generalize runs.drop (j + 1 + 1) = l at e3
    cases e3 with
    | conv _ hi => exact ⟨_, hi⟩
    | next _ hi => exact ⟨_, hi⟩
  obtain ⟨e, hi⟩ := inner
  cases hi with
  | step _ _ hl _ =>
    obtain ⟨src, z, t1, t2, t3⟩ := inner_step H hn L hD hsort hs hl hS (far_of_exchange H hn L hD hsort hs e2 hS)
    have hz := same_of H L hS t3 hsame
    have hsol := block_self.1 (block_congr H.tets t2 hz)
    obtain ⟨srcQ, u1, u2⟩ := total_of H' L' hD' hq
    obtain ⟨star, s1, s2, -⟩ := swept_solution H' hn' L' hD' hsort.consistent hs' hsw u2
    have w := solution_unique H.tets s1 hsol (total_same u1 t1 (same_refl _)) o1 o2
    exact holds_same H' L' s2 fun g hg v a ha c hc => (w g hg v a ha c hc).trans (hz g hg v a ha c hc).symm

/-- C105: once the flux after an outer iteration is a fixed point of source iteration, for one partition, no later local sweep
changes a bit. -/
theorem outer_stay (H : Created m pv n P) (hn : n < uintMax) (L : Loaded val P T) (hD : Started K coord P T D)
    (H' : Created m pv' n' P') (hn' : n' < uintMax) (L' : Loaded val' P' T') (hD' : Started K coord P' T' D')
    (hsort : Sorted K coord m) (hs : ∀ r < n, nA * (T r).nCells < 2 ^ 64) (hs' : ∀ r < n', nA * (T' r).nCells < 2 ^ 64)
    {runs : List (List (Nat → Psi F))} {psiEnd : Nat → Psi F} (h : K.Outer test iterMax stop ddMax n T D runs psiEnd) {j : Nat}
    (hj : j + 1 < runs.length) {fl0 : List (Nat → Psi F)} {x : Nat → Psi F} (h0 : runs[j] = fl0 ++ [x])
    {psiS : Psi F} (hS : Holds nA nG n T x psiS) {q q0 q' : Nat → Psi F} (hq : Holds nA nG n' T' q psiS)
    (hsw : K.Swept n' T' D' (fun r => K.totalSource (D' r) (q r)) q0 q') (hq' : Holds nA nG n' T' q' psiS) :
    (∀ i (hi : i < runs.length), j < i → ∀ y ∈ runs[i], Holds nA nG n T y psiS) ∧ Holds nA nG n T psiEnd psiS := by
  obtain ⟨log, o1, o2⟩ := order_of H hn L hD hsort hs
  obtain ⟨srcQ, u1, u2⟩ := total_of H' L' hD' hq
  obtain ⟨star, s1, s2, -⟩ := swept_solution H' hn' L' hD' hsort.consistent hs' hsw u2
  have hstar : Same nA nG m star psiS := same_of H' L' s2 hq' (fun _ _ _ _ _ _ _ _ _ => rfl)
  have hstar' : Same nA nG m psiS star := fun g hg v a ha c hc => (hstar g hg v a ha c hc).symm
  have inner : ∀ {bound : Nat → Bound F} {iter : Nat} {error : F} {psi e : Nat → Psi F} {fl : List (Nat → Psi F)},
      K.InnerLoop test iterMax n T D bound iter error psi fl e → Holds nA nG n T psi psiS → FarHolds K coord m P T bound psiS →
      (∀ y ∈ fl, Holds nA nG n T y psiS) ∧ Holds nA nG n T e psiS := by
    intro bound iter error psi e fl h hx hb
    induction h with
    | stop => exact ⟨by simp, hx⟩
    | step _ _ hl _ ih =>
      obtain ⟨src, z, t1, t2, t3⟩ := inner_step H hn L hD hsort hs hl hx hb
      have w := block_unique H.tets t2 (block_self.2 s1) (total_same t1 u1 (same_refl _)) hstar' o1 o2
      have t4 := holds_same H L (holds_same H L t3 w) hstar
      obtain ⟨i1, i2⟩ := ih t4
      refine ⟨fun y hy => ?_, i2⟩
      rcases List.mem_cons.1 hy with rfl | hy
      · exact t4
      · exact i1 y hy
  have outer : ∀ {iter : Nat} {psi prev e : Nat → Psi F} {bound : Nat → Bound F} {runs : List (List (Nat → Psi F))},
      K.OuterLoop test iterMax stop ddMax n T D iter psi prev bound runs e → Holds nA nG n T psi psiS → FarHolds K coord m P T bound psiS →
      (∀ fl ∈ runs, ∀ y ∈ fl, Holds nA nG n T y psiS) ∧ Holds nA nG n T e psiS := by
    intro iter psi prev e bound runs h hx hb
    induction h with
    | limit => exact ⟨by simp, hx⟩
    | conv _ hi _ =>
      obtain ⟨i1, i2⟩ := inner hi hx hb
      exact ⟨by simpa using i1, i2⟩
    | next _ hi _ hex _ ih =>
      obtain ⟨i1, i2⟩ := inner hi hx hb
      obtain ⟨j1, j2⟩ := ih i2 (far_of_exchange H hn L hD hsort hs hex i2)
      refine ⟨fun fl hfl => ?_, j2⟩
      rcases List.mem_cons.1 hfl with rfl | hfl
      · exact i1
      · exact j1 fl hfl
  obtain ⟨p, x', b, b', e1, e2, e3⟩ := OuterLoop.drop h j hj
  rw [h0] at e1
  obtain rfl : x' = x := by rw [e1]; simp
  obtain ⟨r1, r2⟩ := outer e3 hS (far_of_exchange H hn L hD hsort hs e2 hS)
  refine ⟨fun i hi hji => r1 _ ?_, r2⟩
  rw [List.mem_drop_iff_getElem]
  exact ⟨i - (j + 1), by omega, by congr 1; omega⟩

/-- C105: at most `g_ddIterMax - 1` outer iterations of at most `g_iterMax` local sweeps each. -/
theorem outer_length {runs : List (List (Nat → Psi F))} {psiEnd : Nat → Psi F} (h : K.Outer test iterMax stop ddMax n T D runs psiEnd) :
    runs.length ≤ ddMax - 1 ∧ ∀ fl ∈ runs, fl.length ≤ iterMax := by
  have inner : ∀ {bound : Nat → Bound F} {iter : Nat} {error : F} {psi e : Nat → Psi F} {fl : List (Nat → Psi F)},
      K.InnerLoop test iterMax n T D bound iter error psi fl e → fl.length ≤ iterMax - iter := by
    intro bound iter error psi e fl h
    induction h with
    | stop => simp
    | step _ _ _ _ ih => simp only [List.length_cons]; omega
  have outer : ∀ {iter : Nat} {psi prev e : Nat → Psi F} {bound : Nat → Bound F} {runs : List (List (Nat → Psi F))},
      K.OuterLoop test iterMax stop ddMax n T D iter psi prev bound runs e →
      runs.length ≤ ddMax - iter ∧ ∀ fl ∈ runs, fl.length ≤ iterMax := by
    intro iter psi prev e bound runs h
    induction h with
    | limit => simp
    | conv h hi _ => exact ⟨by simp only [List.length_singleton]; omega, by simpa using inner hi⟩
    | next h hi _ _ _ ih =>
      refine ⟨by simp only [List.length_cons]; omega, fun fl hfl => ?_⟩
      rcases List.mem_cons.1 hfl with rfl | hfl
      · exact inner hi
      · exact ih.2 fl hfl
  exact outer h

/-- C105: with a test that is met only when no entry has changed, a loop that ends before its limit after two outer iterations or
more ends with the flux of the iteration before. -/
theorem outer_strict (hstrict : Strict stop) {runs : List (List (Nat → Psi F))} {psiEnd : Nat → Psi F}
    (h : K.Outer test iterMax stop ddMax n T D runs psiEnd) {j : Nat} (hj : runs.length = j + 2) (hN : runs.length < ddMax - 1)
    {fl0 : List (Nat → Psi F)} {x : Nat → Psi F} (h0 : runs[j] = fl0 ++ [x]) : SameOn nA nG n T x psiEnd := by
  obtain ⟨p, x', b, b', e1, e2, e3⟩ := OuterLoop.drop h j (by omega)
  rw [h0] at e1
  obtain rfl : x' = x := by rw [e1]; simp
  have hm : stop.met nA nG n T x' psiEnd = true := by
    generalize hd : runs.drop (j + 1) = l at e3
    have hl : l.length = 1 := by rw [← hd, List.length_drop]; omega
    cases e3 with
    | limit => simp at hl
    | conv _ _ hc => exact hc
    | next _ _ _ _ hr =>
      cases hr with
      | limit h => omega
      | conv => simp at hl
      | next => simp at hl
  intro r hr i hi q hq v g hg
  exact hstrict ((List.range n).map fun r => fluxPairs nA nG (T r).nCells (x' r) (psiEnd r))
    (by simpa [Stop.met, List.map_map, Function.comp_def] using hm) _ (List.mem_map.2 ⟨r, List.mem_range.2 hr, rfl⟩)
    (x' r g v q i, psiEnd r g v q i) (by
      simp only [fluxPairs, List.mem_flatMap, List.mem_map, List.mem_range, List.mem_finRange, true_and]
      exact ⟨i, hi, q, hq, v, g, hg, rfl⟩)

/-- C105: with a test that is met when no entry has changed, the loop ends at the first outer iteration that leaves the flux. -/
theorem outer_ends (hlen : Lenient stop) {runs : List (List (Nat → Psi F))} {psiEnd : Nat → Psi F}
    (h : K.Outer test iterMax stop ddMax n T D runs psiEnd) {j : Nat} (hj : j + 1 < runs.length) {fl0 fl1 : List (Nat → Psi F)}
    {x y : Nat → Psi F} (h0 : runs[j] = fl0 ++ [x]) (h1 : runs[j + 1] = fl1 ++ [y]) (hsame : SameOn nA nG n T x y) :
    runs.length = j + 2 := by
  obtain ⟨p, x', b, b', e1, e2, e3⟩ := OuterLoop.drop h j hj
  rw [h0] at e1
  obtain rfl : x' = x := by rw [e1]; simp
  rw [List.drop_eq_getElem_cons hj, h1] at e3
  generalize hd : runs.drop (j + 1 + 1) = l at e3
  generalize hf : fl1 ++ [y] = f at e3
  cases e3 with
  | conv =>
    have := congrArg List.length hd
    rw [List.length_drop] at this
    simp at this
    omega
  | next _ hi hc =>
    exfalso
    have hy := InnerLoop.last hi
    rw [← hf] at hy
    rw [hy, List.getLastD_concat] at hc
    have := hlen ((List.range n).map fun r => fluxPairs nA nG (T r).nCells (x' r) (y r)) (by
      intro p hp q hq
      obtain ⟨r, hr, rfl⟩ := List.mem_map.1 hp
      simp only [fluxPairs, List.mem_flatMap, List.mem_map, List.mem_range, List.mem_finRange, true_and] at hq
      obtain ⟨i, hi, a, ha, v, g, hg, rfl⟩ := hq
      exact hsame r (List.mem_range.1 hr) i hi a ha v g hg)
    simp only [List.map_map, Function.comp_def] at this
    simp only [Stop.met] at hc
    rw [this] at hc
    exact absurd hc (by decide)

/-- The tests of an inner loop. -/
theorem InnerLoop.tested {bound : Nat → Bound F} {iter : Nat} {error : F} {psi e : Nat → Psi F} {fl : List (Nat → Psi F)}
    (h : K.InnerLoop test iterMax n T D bound iter error psi fl e) :
    (∀ l1 a b c l2, psi :: fl = l1 ++ a :: b :: c :: l2 → test.above (K.errorOf test n T a b) = true) ∧
    (fl.length < iterMax - iter → ∀ l1 a b, psi :: fl = l1 ++ [a, b] → test.above (K.errorOf test n T a b) = false) := by
  induction h with
  | stop h =>
    refine ⟨fun l1 a b c l2 he => ?_, fun _ l1 a b he => ?_⟩
    · have := congrArg List.length he
      simp only [List.length_append, List.length_cons, List.length_nil] at this
      omega
    · have := congrArg List.length he
      simp only [List.length_append, List.length_cons, List.length_nil] at this
      omega
  | @step iter error psi psi' rest psiEnd h he hs hr ih =>
    constructor
    · intro l1 a b c l2 heq
      cases l1 with
      | nil =>
        simp only [List.nil_append, List.cons.injEq] at heq
        obtain ⟨rfl, rfl, rfl⟩ := heq
        cases hr with
        | step _ he' => exact he'
      | cons _ l1 =>
        simp only [List.cons_append, List.cons.injEq] at heq
        exact ih.1 l1 a b c l2 heq.2
    · intro hl l1 a b heq
      cases l1 with
      | nil =>
        simp only [List.nil_append, List.cons.injEq] at heq
        obtain ⟨rfl, rfl, rfl⟩ := heq
        cases hr with
        | stop h' =>
          rcases h' with h' | h'
          · simp at hl; omega
          · exact h'
      | cons _ l1 =>
        simp only [List.cons_append, List.cons.injEq] at heq
        exact ih.2 (by simp only [List.length_cons] at hl; omega) l1 a b heq.2

theorem OuterLoop.inner {iter : Nat} {psi prev psiEnd : Nat → Psi F} {bound : Nat → Bound F} {runs : List (List (Nat → Psi F))}
    (h : K.OuterLoop test iterMax stop ddMax n T D iter psi prev bound runs psiEnd) :
    ∀ fl ∈ runs, ∃ b x e, K.InnerLoop test iterMax n T D b 0 test.one x fl e := by
  induction h with
  | limit => simp
  | conv _ hi _ => simpa using ⟨_, _, _, hi⟩
  | next _ hi _ _ _ ih =>
    intro fl hfl
    rcases List.mem_cons.1 hfl with rfl | hfl
    · exact ⟨_, _, _, hi⟩
    · exact ih fl hfl

/-- C105: with a test that ends it only when no entry has changed, an inner loop of fewer sweeps than its limit ends with the
scalar flux of the sweep before. -/
theorem inner_strict (hstrict : StrictTest test) {runs : List (List (Nat → Psi F))} {psiEnd : Nat → Psi F}
    (h : K.Outer test iterMax stop ddMax n T D runs psiEnd) {fl : List (Nat → Psi F)} {x y : Nat → Psi F} (hf : fl ++ [x, y] ∈ runs)
    (hl : (fl ++ [x, y]).length < iterMax) : ∀ r < n, ∀ i < (T r).nCells, ∀ g < nG, ∀ v,
      (K.toPhi fun a => y r g v a i) = K.toPhi fun a => x r g v a i := by
  obtain ⟨b, p, e, hi⟩ := OuterLoop.inner h _ hf
  have := (InnerLoop.tested hi).2 (by omega) (p :: fl) x y rfl
  intro r hr i hi g hg v
  exact hstrict ((List.range n).map fun r => pairs nG (T r).nCells (K.phi (y r)) (K.phi (x r)))
    (by simpa only [Kernel.errorOf, List.map_map, Function.comp_def] using this) _ (List.mem_map.2 ⟨r, List.mem_range.2 hr, rfl⟩)
    (K.phi (y r) g v i, K.phi (x r) g v i) (by
      simp only [pairs, List.mem_flatMap, List.mem_map, List.mem_range, List.mem_finRange, true_and]
      exact ⟨i, hi, v, g, hg, rfl⟩)

/-- C105: with a test that ends it when no entry has changed, an inner loop ends at the first sweep that leaves the scalar flux. -/
theorem inner_ends (hlen : LenientTest test) {runs : List (List (Nat → Psi F))} {psiEnd : Nat → Psi F}
    (h : K.Outer test iterMax stop ddMax n T D runs psiEnd) {fl rest : List (Nat → Psi F)} {x y : Nat → Psi F}
    (hf : fl ++ x :: y :: rest ∈ runs) (hsame : ∀ r < n, ∀ i < (T r).nCells, ∀ g < nG, ∀ v,
      (K.toPhi fun a => y r g v a i) = K.toPhi fun a => x r g v a i) : rest = [] := by
  obtain ⟨b, p, e, hi⟩ := OuterLoop.inner h _ hf
  cases rest with
  | nil => rfl
  | cons z rest =>
    exfalso
    have := (InnerLoop.tested hi).1 (p :: fl) x y z rest rfl
    have ht := hlen ((List.range n).map fun r => pairs nG (T r).nCells (K.phi (y r)) (K.phi (x r))) (by
      intro p hp q hq
      obtain ⟨r, hr, rfl⟩ := List.mem_map.1 hp
      simp only [pairs, List.mem_flatMap, List.mem_map, List.mem_range, List.mem_finRange, true_and] at hq
      obtain ⟨i, hi, v, g, hg, rfl⟩ := hq
      exact hsame r (List.mem_range.1 hr) i hi g hg v)
    simp only [List.map_map, Function.comp_def] at ht
    simp only [Kernel.errorOf] at this
    rw [ht] at this
    exact absurd this (by decide)

/-- C105: there is a run, whatever the answers of the tests. -/
theorem outer_returns (H : Created m pv n P) (hn : n < uintMax) (L : Loaded val P T) (hD : Started K coord P T D)
    (hsort : Sorted K coord m) (hs : ∀ r < n, nA * (T r).nCells < 2 ^ 64) (test : Test F) (iterMax : Nat) (stop : Stop F) (ddMax : Nat) :
    ∃ runs psiEnd, K.Outer test iterMax stop ddMax n T D runs psiEnd := by
  have inner : ∀ bound k iter error psi, iterMax - iter = k → ∃ fl e, K.InnerLoop test iterMax n T D bound iter error psi fl e := by
    intro bound k
    induction k with
    | zero => intro iter error psi h; exact ⟨_, _, .stop (.inl (by omega))⟩
    | succ k ih =>
      intro iter error psi h
      cases ha : test.above error
      · exact ⟨_, _, .stop (.inr ha)⟩
      · obtain ⟨psi', h1⟩ := local_returns H hn L hD hsort hs (fun r => K.totalSource (D r) (psi r)) psi bound
          ⟨1, 1, .tycho, true, fun _ _ _ => 0, bound⟩ Nat.one_pos
        obtain ⟨fl, e, h2⟩ := ih (iter + 1) (K.errorOf test n T psi psi') psi' (by omega)
        exact ⟨_, _, .step (by omega) ha h1 h2⟩
  have outer : ∀ k iter psi prev bound, ddMax - iter = k →
      ∃ runs e, K.OuterLoop test iterMax stop ddMax n T D iter psi prev bound runs e := by
    intro k
    induction k with
    | zero => intro iter psi prev bound h; exact ⟨_, _, .limit (by omega)⟩
    | succ k ih =>
      intro iter psi prev bound h
      obtain ⟨fl, psi', h1⟩ := inner bound _ 0 test.one psi rfl
      cases hc : stop.met nA nG n T prev psi'
      · obtain ⟨bound', h2⟩ : ∃ b, K.Exchange n T D psi' bound b := ⟨fun r => ((adjRanks (T r)).flatMap fun q =>
          K.packets (T q) (D q) (psi' q) r).foldl (unpack (T r)) (bound r), fun r _ => ⟨_, List.Perm.refl _, rfl⟩⟩
        obtain ⟨runs, e, h3⟩ := ih (iter + 1) psi' psi' bound' (by omega)
        exact ⟨_, _, .next (by omega) h1 hc h2 h3⟩
      · exact ⟨_, _, .conv (by omega) h1 hc⟩
  exact outer _ 1 _ _ _ rfl

end Verif.Floating
