import Verif.Floating.OuterProps

/-!
# Without scattering `SweeperPBJSI` and `SweeperPBJOuter` settle (C104, C105)
-/
set_option linter.unusedSectionVars false
namespace Verif.Floating

open Verif.MeshFile Verif.TychoMesh Verif.Traverse Verif.Floating.Spec Verif.PsiFile Verif.Storage

variable {F : Type} {nA nG : Nat} {K : Kernel F nA nG} {coord : Nat → F}
variable {S : Type} [LinearOrder S] {val : Nat → S} {m : SerialMesh} {pv : List Nat} {n : Nat} {P : ParallelMesh} {T : Nat → Mesh}
variable {D : Nat → Tables F} {test : Test F} {stop : Stop F} {iterMax ddMax : Nat}

/-- Neither material scatters: the total source does not depend on the scalar flux. -/
def Spec.Absorbs (K : Kernel F nA nG) : Prop :=
  ∀ s x y, K.total s K.sigmaS1 x = K.total s K.sigmaS1 y ∧ K.total s K.sigmaS2 x = K.total s K.sigmaS2 y

theorem same_sources (hno : Absorbs K) {phi phi' : Nat → Fin 4 → Nat → F} {src src' : Psi F} (h : TotalOf K coord m phi src)
    (h' : TotalOf K coord m phi' src') : Same nA nG m src src' := by
  intro g hg v a ha c hc
  obtain ⟨p, sT, sS, h1, h2, h3⟩ := h c hc
  obtain ⟨p', sT', sS', h1', h2', h3'⟩ := h' c hc
  obtain rfl := cellPoints_unique h1 h1'
  obtain ⟨rfl, rfl⟩ := sigma_unique h2 h2'
  rw [h3 g hg a ha v, h3' g hg a ha v]
  obtain ⟨d, -, e⟩ := h2
  rcases e with ⟨-, -, e⟩ | ⟨-, -, e⟩ <;> rw [e]
  · exact (hno _ _ _).1
  · exact (hno _ _ _).2

/-- What a cell of a block solution depends on. -/
theorem block_cell (H : Tets m) {src src' old old' psi psi' : Psi F} (hb : BlockSolution K coord m pv src old psi)
    (hb' : BlockSolution K coord m pv src' old' psi') (hs : Same nA nG m src src') {a c : Nat} (ha : a < nA) (hcl : c < m.numCells)
    (hup : ∀ f x c' f', Dot K coord m a c f x → K.positive x = false → Across m c f c' f' →
      (pv[c']? = pv[c]? → ∀ w (g : Fin nG), psi g w a c' = psi' g w a c') ∧
      (pv[c']? ≠ pv[c]? → ∀ w (g : Fin nG), old g w a c' = old' g w a c')) (v : Fin 4) (g : Fin nG) : psi g v a c = psi' g v a c := by
  obtain ⟨p, q, dots, sT, sS, c2f, inc, h1, h2, h3, h4, h5, h6, h7⟩ := hb c hcl a ha
  obtain ⟨p', q', dots', sT', sS', c2f', inc', h1', h2', h3', h4', h5', h6', h7'⟩ := hb' c hcl a ha
  obtain rfl := cellPoints_unique h1 h1'
  obtain rfl : q = q' := funext fun f => facePoints_unique H (h2 f) (h2' f)
  obtain rfl : dots = dots' := by
    funext f
    have := h3 f
    rw [h3' f, Option.some.injEq] at this
    exact this.symm
  obtain ⟨rfl, rfl⟩ := sigma_unique h4 h4'
  obtain rfl : c2f = c2f' := by
    funext f v
    by_cases hv : v = f
    · rw [(h5 f v).1 hv, (h5' f v).1 hv]
    · obtain ⟨g1, e1, d1, a1, a2, a3, a4⟩ := (h5 f v).2 hv
      obtain ⟨g2, e2, d2, b1, b2, b3, b4⟩ := (h5' f v).2 hv
      obtain rfl := faceOf_unique H a1 b1
      rw [a2, Option.some.injEq] at b2
      rw [a3, Option.some.injEq] at b3
      subst b2 b3
      exact faceNodes_inj H a1 a2 (a4.symm.trans b4)
  obtain rfl : inc = inc' := by
    funext k f g
    obtain ⟨i1, i2⟩ := h6 k f g
    obtain ⟨j1, j2⟩ := h6' k f g
    cases hpos : K.positive (dots f)
    · obtain ⟨i2, i3⟩ := i2 hpos
      obtain ⟨j2, j3⟩ := j2 hpos
      by_cases hex : ∃ c' f', Across m c f c' f'
      · obtain ⟨c', f', hac⟩ := hex
        obtain ⟨w, hw⟩ := onFace_exists H hac k
        rw [i2 c' f' w hac hw, j2 c' f' w hac hw]
        have hd : Dot K coord m a c f (dots f) := ⟨q f, p, h2 f, h1, h3 f⟩
        unfold mix
        split
        · next hsame => exact (hup f (dots f) c' f' hd hpos hac).1 hsame w g
        · next hsame => exact (hup f (dots f) c' f' hd hpos hac).2 hsame w g
      · push Not at hex
        rw [i3 hex, j3 hex]
    · rw [i1 hpos, j1 hpos]
  rw [h7 v g, h7' v g]
  congr 1
  funext v g
  exact hs g g.2 v a ha c hcl

theorem iterates_settle (H : Tets m) (hno : Absorbs K) {log : List (Nat × Nat)}
    (ho : ∀ l1 a c l2, log = l1 ++ (a, c) :: l2 → a < nA ∧ c < m.numCells ∧ ∀ f x c' f', Dot K coord m a c f x →
      K.positive x = false → Across m c f c' f' → (a, c') ∈ l1) :
    ∀ l1 l2, log = l1 ++ l2 → ∀ a c, (a, c) ∈ l1 → ∀ {k k' : Nat} {phi phi' : Nat → Fin 4 → Nat → F} {psi psi' : Psi F},
      BlockIterates K coord m pv k phi psi → BlockIterates K coord m pv k' phi' psi' →
      (∀ x, Crossings K coord m pv a c x → x < k) → (∀ x, Crossings K coord m pv a c x → x < k') →
      ∀ (g : Fin nG) v, psi g v a c = psi' g v a c := by
  intro l1
  induction l1 using List.reverseRecOn with
  | nil => simp
  | append_singleton l1 t ih =>
    intro l2 hl a c hac k k' phi phi' psi psi' hit hit' hk hk' g v
    have ih := ih (t :: l2) (by rw [hl]; simp)
    rcases List.mem_append.1 hac with hac | hac
    · exact ih a c hac hit hit' hk hk' g v
    obtain rfl := List.mem_singleton.1 hac
    obtain ⟨ha, hcl, hup⟩ := ho l1 a c l2 (by rw [hl]; simp)
    cases hit with
    | zero => exact absurd (hk 0 (.nil c)) (Nat.lt_irrefl _)
    | succ hx ht hb =>
    cases hit' with
    | zero => exact absurd (hk' 0 (.nil c)) (Nat.lt_irrefl _)
    | succ hx' ht' hb' =>
      refine block_cell H hb hb' (same_sources hno ht ht') ha hcl (fun f x c' f' hd hpos hac => ?_) v g
      have hin := hup f x c' f' hd hpos hac
      exact ⟨fun hp w g => ih a c' hin (.succ hx ht hb) (.succ hx' ht' hb') (fun x k => hk x (.within hd hpos hac hp k))
          (fun x k => hk' x (.within hd hpos hac hp k)) g w,
        fun hp w g => ih a c' hin hx hx' (fun x k => Nat.lt_of_succ_lt_succ (hk (x + 1) (.between hd hpos hac hp k)))
          (fun x k => Nat.lt_of_succ_lt_succ (hk' (x + 1) (.between hd hpos hac hp k))) g w⟩

/-- C104: without scattering all iterates from number `i + 1` on have the same bits, where no upwind chain crosses more than
`i` faces between parts. -/
theorem blocks_settle (H : Created m pv n P) (hn : n < uintMax) (L : Loaded val P T) (hD : Started K coord P T D)
    (hsort : Sorted K coord m) (hs : ∀ r < n, nA * (T r).nCells < 2 ^ 64) (hno : Absorbs K) {stop : Stop F} {N : Nat}
    {fluxes : List (Nat → Psi F)} {psiEnd : Nat → Psi F} (h : K.Blocks stop N n T D fluxes psiEnd) {i : Nat}
    (hc : ∀ a < nA, ∀ c < m.numCells, ∀ k, Crossings K coord m pv a c k → k ≤ i) {j j' : Nat} (hj : j < fluxes.length)
    (hj' : j' < fluxes.length) (hij : i ≤ j) (hij' : i ≤ j') : SameOn nA nG n T fluxes[j] fluxes[j'] := by
  obtain ⟨log, o1, o2⟩ := order_of H hn L hD hsort hs
  obtain ⟨phi, psi, e1, e2⟩ := blocks_iterates H hn L hD hsort hs h j hj
  obtain ⟨phi', psi', e1', e2'⟩ := blocks_iterates H hn L hD hsort hs h j' hj'
  intro r hr x hx a ha v g hg
  obtain ⟨c, hcx⟩ := isCell_of_lt H L hr hx
  obtain ⟨e, -, -, hcm⟩ := isCell_lg H L hcx
  rw [e2 r hr x c e g hg v a ha, e2' r hr x c e g hg v a ha]
  exact iterates_settle H.tets hno o2 log [] (by simp) a c (o1 a ha c hcm) e1 e1' (fun k hk => by have := hc a ha c hcm k hk; omega)
    (fun k hk => by have := hc a ha c hcm k hk; omega) ⟨g, hg⟩ v

theorem outer_iterates_settle (H : Tets m) (hno : Absorbs K) {log : List (Nat × Nat)}
    (ho : ∀ l1 a c l2, log = l1 ++ (a, c) :: l2 → a < nA ∧ c < m.numCells ∧ ∀ f x c' f', Dot K coord m a c f x →
      K.positive x = false → Across m c f c' f' → (a, c') ∈ l1) :
    ∀ l1 l2, log = l1 ++ l2 → ∀ a c, (a, c) ∈ l1 → ∀ {l l' : List Nat} {psi psi' : Psi F},
      OuterIterates K coord m pv l psi → OuterIterates K coord m pv l' psi' → (∀ k ∈ l, 0 < k) → (∀ k ∈ l', 0 < k) →
      (∀ x, Crossings K coord m pv a c x → x < l.length) → (∀ x, Crossings K coord m pv a c x → x < l'.length) →
      ∀ (g : Fin nG) v, psi g v a c = psi' g v a c := by
  intro l1
  induction l1 using List.reverseRecOn with
  | nil => simp
  | append_singleton l1 t ih =>
    intro l2 hl a c hac l l' psi psi' hit hit' hp hp' hk hk' g v
    have ih := ih (t :: l2) (by rw [hl]; simp)
    rcases List.mem_append.1 hac with hac | hac
    · exact ih a c hac hit hit' hp hp' hk hk' g v
    obtain rfl := List.mem_singleton.1 hac
    obtain ⟨ha, hcl, hup⟩ := ho l1 a c l2 (by rw [hl]; simp)
    cases hit with
    | zero => exact absurd (hk 0 (.nil c)) (Nat.lt_irrefl _)
    | succ hx hi =>
    cases hit' with
    | zero => exact absurd (hk' 0 (.nil c)) (Nat.lt_irrefl _)
    | succ hx' hi' =>
    cases id hi with
    | zero => exact absurd (hp 0 (by simp)) (Nat.lt_irrefl _)
    | succ _ ht hb =>
    cases id hi' with
    | zero => exact absurd (hp' 0 (by simp)) (Nat.lt_irrefl _)
    | succ _ ht' hb' =>
      have hsrc : Same nA nG m _ _ := same_sources (phi := fun g v c => K.toPhi fun a => _) (phi' := fun g v c => K.toPhi fun a => _) hno ht ht'
      refine block_cell H hb hb' hsrc ha hcl (fun f x c' f' hd hpos hac => ?_) v g
      have hin := hup f x c' f' hd hpos hac
      exact ⟨fun hs w g => ih a c' hin (.succ hx hi) (.succ hx' hi') hp hp' (fun x k => hk x (.within hd hpos hac hs k))
          (fun x k => hk' x (.within hd hpos hac hs k)) g w,
        fun hs w g => ih a c' hin hx hx' (fun k h => hp k (by simp [h])) (fun k h => hp' k (by simp [h]))
          (fun x k => Nat.lt_of_succ_lt_succ (hk (x + 1) (.between hd hpos hac hs k)))
          (fun x k => Nat.lt_of_succ_lt_succ (hk' (x + 1) (.between hd hpos hac hs k))) g w⟩

theorem OuterLoop.prefix (H : Created m pv n P) (hn : n < uintMax) (L : Loaded val P T) (hD : Started K coord P T D)
    (hsort : Sorted K coord m) (hs : ∀ r < n, nA * (T r).nCells < 2 ^ 64) {iter : Nat} {psi prev psiEnd : Nat → Psi F}
    {bound : Nat → Bound F} {runs : List (List (Nat → Psi F))}
    (h : K.OuterLoop test iterMax stop ddMax n T D iter psi prev bound runs psiEnd) {l : List Nat} {x : Psi F}
    (hl : OuterIterates K coord m pv l x) (hx : Holds nA nG n T psi x) (hfar : FarHolds K coord m P T bound x) :
    ∀ j (hj : j < runs.length), ∀ fl (y : Nat → Psi F), runs[j] = fl ++ [y] →
      ∃ z, OuterIterates K coord m pv (((runs.take (j + 1)).map List.length).reverse ++ l) z ∧ Holds nA nG n T y z := by
  induction h generalizing l x with
  | limit => intro j hj; simp at hj
  | conv _ hi _ =>
    intro j hj fl y hy
    obtain ⟨z, e1, e2⟩ := InnerLoop.iterates H hn L hD hsort hs hi .zero hx hfar
    have hlast := InnerLoop.last hi
    obtain rfl : j = 0 := by simpa using hj
    simp only [List.getElem_cons_zero] at hy
    rw [hy] at hlast
    simp at hlast
    subst hlast
    exact ⟨z, by simpa using OuterIterates.succ hl e1, e2⟩
  | @next _ _ _ _ fl' _ _ rest _ _ hi _ hex _ ih =>
    intro j hj fl y hy
    obtain ⟨z, e1, e2⟩ := InnerLoop.iterates H hn L hD hsort hs hi .zero hx hfar
    rw [Nat.zero_add] at e1
    cases j with
    | zero =>
      have hlast := InnerLoop.last hi
      simp only [List.getElem_cons_zero] at hy
      rw [hy] at hlast
      simp at hlast
      subst hlast
      exact ⟨z, by simpa using OuterIterates.succ hl e1, e2⟩
    | succ j =>
      obtain ⟨z', f1, f2⟩ := ih (.succ hl e1) e2 (far_of_exchange H hn L hD hsort hs hex e2) j (by simpa using hj) fl y (by simpa using hy)
      exact ⟨z', by simpa using f1, f2⟩

/-- C105: without scattering, and with a source iteration in every block solve, the fluxes after outer iterations from number `i + 1` on
have the same bits, where no upwind chain crosses more than `i` faces between parts. -/
theorem outer_settle (H : Created m pv n P) (hn : n < uintMax) (L : Loaded val P T) (hD : Started K coord P T D)
    (hsort : Sorted K coord m) (hs : ∀ r < n, nA * (T r).nCells < 2 ^ 64) (hno : Absorbs K)
    {runs : List (List (Nat → Psi F))} {psiEnd : Nat → Psi F} (h : K.Outer test iterMax stop ddMax n T D runs psiEnd)
    (hne : ∀ fl ∈ runs, fl ≠ []) {i : Nat} (hc : ∀ a < nA, ∀ c < m.numCells, ∀ k, Crossings K coord m pv a c k → k ≤ i) {j j' : Nat}
    (hj : j < runs.length) (hj' : j' < runs.length) (hij : i ≤ j) (hij' : i ≤ j') {fl fl' : List (Nat → Psi F)} {x x' : Nat → Psi F}
    (hx : runs[j] = fl ++ [x]) (hx' : runs[j'] = fl' ++ [x']) : SameOn nA nG n T x x' := by
  obtain ⟨log, o1, o2⟩ := order_of H hn L hD hsort hs
  have pre := OuterLoop.prefix H hn L hD hsort hs h .zero (fun _ _ _ _ _ _ _ _ _ _ => rfl)
    (fun _ _ _ _ _ _ _ _ _ _ _ _ _ _ _ _ _ _ _ _ _ => rfl)
  obtain ⟨z, e1, e2⟩ := pre j hj fl x hx
  obtain ⟨z', e1', e2'⟩ := pre j' hj' fl' x' hx'
  rw [List.append_nil] at e1 e1'
  have hpos : ∀ j, ∀ k ∈ ((runs.take (j + 1)).map List.length).reverse, 0 < k := by
    intro j k hk
    simp only [List.mem_reverse, List.mem_map] at hk
    obtain ⟨fl, h1, rfl⟩ := hk
    exact List.length_pos_of_ne_nil (hne fl (List.mem_of_mem_take h1))
  intro r hr q hq a ha v g hg
  obtain ⟨c, hcx⟩ := isCell_of_lt H L hr hq
  obtain ⟨e, -, -, hcm⟩ := isCell_lg H L hcx
  rw [e2 r hr q c e g hg v a ha, e2' r hr q c e g hg v a ha]
  exact outer_iterates_settle H.tets hno o2 log [] (by simp) a c (o1 a ha c hcm) e1 e1' (hpos j) (hpos j')
    (fun k hk => by have := hc a ha c hcm k hk; simp; omega) (fun k hk => by have := hc a ha c hcm k hk; simp; omega) ⟨g, hg⟩ v

end Verif.Floating
