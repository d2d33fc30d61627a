import Verif.Floating.Lemmas2

/-!
# Bit-for-bit reproducibility (C86)
-/
set_option linter.unusedSectionVars false
namespace Verif.Floating

open Verif.MeshFile Verif.TychoMesh Verif.Traverse Verif.Floating.Spec

variable {F : Type} {nA nG : Nat} {K : Kernel F nA nG} {coord : Nat → F}
variable {S : Type} [LinearOrder S] {val : Nat → S} {m : SerialMesh} {pv : List Nat} {n : Nat} {P : ParallelMesh} {T : Nat → Mesh}
variable {D : Nat → Tables F} {source psi0 : Nat → Psi F}

/-- A face has three different nodes. -/
theorem faceNodes_inj (H : Tets m) {c g : Nat} {f : Fin 4} {e : SFace} (h : FaceOf m c f g) (he : m.faces[g]? = some e) {j j' : Fin 3}
    (hj : e.nodes j = e.nodes j') : j = j' := by
  obtain ⟨d, e', k, h1, h2, h3, h4⟩ := h
  rw [he, Option.some.injEq] at h3
  subst h3
  obtain ⟨σ, -, hs⟩ := H.omits c d h1
  have hs := hs k e (by rw [h2]; exact he)
  have hex : ∀ i : {i : Fin 4 // i ≠ σ k}, ∃ j, e.nodes j = d.nodes i := fun i => (hs i.1).2 i.2
  choose s hs1 using hex
  have hinj : Function.Injective s := by
    intro a b hab
    have := hs1 a
    rw [hab, hs1 b] at this
    exact Subtype.ext (H.distinct c d h1 this.symm)
  have hbij : Function.Bijective s := (Fintype.bijective_iff_injective_and_card s).2 ⟨hinj, by simp⟩
  obtain ⟨a, rfl⟩ := hbij.2 j
  obtain ⟨b, rfl⟩ := hbij.2 j'
  rw [hs1, hs1] at hj
  rw [Subtype.ext (H.distinct c d h1 hj)]

theorem onFace_exists (H : Tets m) {c c' : Nat} {f f' : Fin 4} (h : Across m c f c' f') (k : Fin 3) : ∃ w, OnFace m c' f' k w := by
  obtain ⟨-, g, -, d, e, j, h1, h2, h3, h4⟩ := h
  obtain ⟨w, hw⟩ := H.faceNode c' d j e h1 (by rw [h2]; exact h3) k
  exact ⟨w, g, e, d, ⟨d, e, j, h1, h2, h3, h4⟩, h3, h1, hw.symm⟩

/-- The values of a cell are determined by those of its upwind neighbours. -/
theorem solution_unique (H : Tets m) {src src' psi psi' : Psi F} (h : Solution K coord m src psi)
    (h' : Solution K coord m src' psi') (hs : Same nA nG m src src') {log : List (Nat × Nat)}
    (hc : ∀ a < nA, ∀ c < m.numCells, (a, c) ∈ log)
    (ho : ∀ l1 a c l2, log = l1 ++ (a, c) :: l2 → a < nA ∧ c < m.numCells ∧ ∀ f x c' f', Dot K coord m a c f x →
      K.positive x = false → Across m c f c' f' → (a, c') ∈ l1) : Same nA nG m psi psi' := by
  have key : ∀ l1 l2, log = l1 ++ l2 → ∀ a c, (a, c) ∈ l1 → ∀ (g : Fin nG) v, psi g v a c = psi' g v a c := by
    intro l1
    induction l1 using List.reverseRecOn with
    | nil => simp
    | append_singleton l1 t ih =>
      intro l2 hl a c hac g v
      have ih := ih (t :: l2) (by rw [hl]; simp)
      rcases List.mem_append.1 hac with hac | hac
      · exact ih a c hac g v
      obtain rfl := List.mem_singleton.1 hac
      obtain ⟨ha, hcl, hup⟩ := ho l1 a c l2 (by rw [hl]; simp)
      obtain ⟨p, q, dots, sT, sS, c2f, inc, h1, h2, h3, h4, h5, h6, h7⟩ := h c hcl a ha
      obtain ⟨p', q', dots', sT', sS', c2f', inc', h1', h2', h3', h4', h5', h6', h7'⟩ := h' c hcl a ha
      obtain rfl := cellPoints_unique h1 h1'
      obtain rfl : q = q' := funext fun f => facePoints_unique H (h2 f) (h2' f)
      obtain rfl : dots = dots' := by
        funext f
        have := h3 f
        rw [h3' f, Option.some.injEq] at this
        exact this.symm
      obtain ⟨rfl, rfl⟩ := sigma_unique h4 h4'
      obtain rfl : c2f = c2f' := by
        funext f v
        by_cases hv : v = f
        · rw [(h5 f v).1 hv, (h5' f v).1 hv]
        · obtain ⟨g1, e1, d1, a1, a2, a3, a4⟩ := (h5 f v).2 hv
          obtain ⟨g2, e2, d2, b1, b2, b3, b4⟩ := (h5' f v).2 hv
          obtain rfl := faceOf_unique H a1 b1
          rw [a2, Option.some.injEq] at b2
          rw [a3, Option.some.injEq] at b3
          subst b2 b3
          exact faceNodes_inj H a1 a2 (a4.symm.trans b4)
      obtain rfl : inc = inc' := by
        funext k f g
        obtain ⟨i1, i2⟩ := h6 k f g
        obtain ⟨j1, j2⟩ := h6' k f g
        cases hpos : K.positive (dots f)
        · obtain ⟨i2, i3⟩ := i2 hpos
          obtain ⟨j2, j3⟩ := j2 hpos
          by_cases hex : ∃ c' f', Across m c f c' f'
          · obtain ⟨c', f', hac⟩ := hex
            obtain ⟨w, hw⟩ := onFace_exists H hac k
            rw [i2 c' f' w hac hw, j2 c' f' w hac hw]
            exact ih a c' (hup f (dots f) c' f' ⟨q f, p, h2 f, h1, h3 f⟩ hpos hac) g w
          · push Not at hex
            rw [i3 hex, j3 hex]
        · rw [i1 hpos, j1 hpos]
      rw [h7 v g, h7' v g]
      congr 1
      funext v g
      exact hs g g.2 v a ha c hcl
  intro g hg v a ha c hc'
  exact key log [] (by simp) a c (hc a ha c hc') ⟨g, hg⟩ v

theorem same_refl (psi : Psi F) : Same nA nG m psi psi := fun _ _ _ _ _ _ _ => rfl

/-- What the ranks hold of a serial array is determined where there are cells. -/
theorem holds_same (H : Created m pv n P) (L : Loaded val P T) {psi : Nat → Psi F} {psiS psiS' : Psi F} (h : Holds nA nG n T psi psiS)
    (h' : Same nA nG m psiS psiS') : Holds nA nG n T psi psiS' := by
  intro r hr i c hc g hg v a ha
  rw [h r hr i c hc g hg v a ha]
  exact h' g hg v a ha c (isCell_lg H L (lg_isCell H L hr hc)).2.2.2

/-- C86: the values a sweep leaves in the flux arrays are, to the last bit, the ones given by the serial
mesh, the source and the compiled functions: they depend neither on the partition nor on the number of
ranks and threads, batches, priorities, protocol, message order or interleaving, nor on what the arrays
held before. -/
theorem sweep_bitwise {S' : Type} [LinearOrder S'] {val' : Nat → S'} {pv' : List Nat} {n' : Nat} {P' : ParallelMesh} {T' : Nat → Mesh}
    {D' : Nat → Tables F} {source' psi0' : Nat → Psi F} (H : Created m pv n P) (hn : n < uintMax) (L : Loaded val P T)
    (hD : Started K coord P T D) (H' : Created m pv' n' P') (hn' : n' < uintMax) (L' : Loaded val' P' T')
    (hD' : Started K coord P' T' D') (hcons : Consistent K coord m) (hs : ∀ r < n, nA * (T r).nCells < 2 ^ 64)
    (hs' : ∀ r < n', nA * (T' r).nCells < 2 ^ 64) {srcS : Psi F} (hsrc : Holds nA nG n T source srcS)
    (hsrc' : Holds nA nG n' T' source' srcS) {psi psi' : Nat → Psi F} (h : K.Swept n T D source psi0 psi)
    (h' : K.Swept n' T' D' source' psi0' psi') :
    ∃ psiS : Psi F, Solution K coord m srcS psiS ∧ Holds nA nG n T psi psiS ∧ Holds nA nG n' T' psi' psiS := by
  obtain ⟨psiS, a1, a2, log, a3, a4⟩ := swept_solution H hn L hD hcons hs h hsrc
  obtain ⟨psiS', b1, b2, -⟩ := swept_solution H' hn' L' hD' hcons hs' h' hsrc'
  have hsame := solution_unique H.tets a1 b1 (same_refl _) a3 a4
  exact ⟨psiS, a1, a2, holds_same H' L' b2 fun g hg v a ha c hc => (hsame g hg v a ha c hc).symm⟩

theorem total_of (H : Created m pv n P) (L : Loaded val P T) (hD : Started K coord P T D) {psi : Nat → Psi F} {psiS : Psi F}
    (h : Holds nA nG n T psi psiS) : ∃ srcS, Total K coord m psiS srcS ∧ Holds nA nG n T (fun r => K.totalSource (D r) (psi r)) srcS := by
  have hloc : ∀ c, ∃ x : Nat × Nat, c < m.numCells → IsCell P x.1 x.2 c := by
    intro c
    by_cases hc : c < m.numCells
    · obtain ⟨r, i, hi⟩ := isCell_exists H hc
      exact ⟨(r, i), fun _ => hi⟩
    · exact ⟨(0, 0), fun h => absurd h hc⟩
  choose loc hloc using hloc
  refine ⟨fun g v a c => K.totalSource (D (loc c).1) (psi (loc c).1) g v a (loc c).2, ?_, ?_⟩
  · intro c hc
    have hi := hloc c hc
    obtain ⟨e1, hr, -⟩ := isCell_lg H L hi
    obtain ⟨p, q, sT, sS, R⟩ := row_of H L hD hi
    refine ⟨p, sT, sS, R.points, R.sigma, fun g hg a ha v => ?_⟩
    unfold Kernel.totalSource Kernel.phi
    dsimp only
    rw [R.source, R.sigmaS, Option.getD_some, Option.getD_some]
    congr 2
    funext a
    exact h _ hr _ _ e1 g hg v a a.2
  · intro r hr i c hc g _ v a _
    have hi := lg_isCell H L hr hc
    obtain ⟨e1, e2⟩ := isCell_unique H hi (hloc c (isCell_lg H L hi).2.2.2)
    dsimp only
    rw [← e1, ← e2]

theorem total_unique {psi src src' : Psi F} (h : Total K coord m psi src) (h' : Total K coord m psi src') : Same nA nG m src src' := by
  intro g hg v a ha c hc
  obtain ⟨p, sT, sS, h1, h2, h3⟩ := h c hc
  obtain ⟨p', sT', sS', h1', h2', h3'⟩ := h' c hc
  obtain rfl := cellPoints_unique h1 h1'
  obtain ⟨rfl, rfl⟩ := sigma_unique h2 h2'
  rw [h3 g hg a ha v, h3' g hg a ha v]

/-- C86: so it is after any number of source iterations: two runs that have made the same number of
sweeps hold the same bits for every cell, vertex, direction and group. -/
theorem iterated_bitwise {S' : Type} [LinearOrder S'] {val' : Nat → S'} {pv' : List Nat} {n' : Nat} {P' : ParallelMesh} {T' : Nat → Mesh}
    {D' : Nat → Tables F} (H : Created m pv n P) (hn : n < uintMax) (L : Loaded val P T) (hD : Started K coord P T D)
    (H' : Created m pv' n' P') (hn' : n' < uintMax) (L' : Loaded val' P' T') (hD' : Started K coord P' T' D')
    (hcons : Consistent K coord m) (hs : ∀ r < n, nA * (T r).nCells < 2 ^ 64) (hs' : ∀ r < n', nA * (T' r).nCells < 2 ^ 64)
    {k : Nat} {psi psi' : Nat → Psi F} (h : K.Iterated n T D k psi) (h' : K.Iterated n' T' D' k psi') :
    ∃ psiS : Psi F, Holds nA nG n T psi psiS ∧ Holds nA nG n' T' psi' psiS := by
  induction h generalizing psi' with
  | zero =>
    cases h'
    exact ⟨fun _ _ _ _ => K.zero, fun _ _ _ _ _ _ _ _ _ _ => rfl, fun _ _ _ _ _ _ _ _ _ _ => rfl⟩
  | succ _ hsw ih =>
    cases h' with
    | succ h1' hsw' =>
      obtain ⟨psiS, a1, a2⟩ := ih h1'
      obtain ⟨src, t1, t2⟩ := total_of H L hD a1
      obtain ⟨src', t1', t2'⟩ := total_of H' L' hD' a2
      obtain ⟨psiS', -, b1, b2⟩ := sweep_bitwise H hn L hD H' hn' L' hD' hcons hs hs' t2
        (holds_same H' L' t2' (total_unique t1' t1)) hsw hsw'
      exact ⟨psiS', b1, b2⟩

/-- The errors of two sweeps between arrays that agree are the same. -/
theorem errorOf_eq {test : Test F} {psi psi2 psi' psi2' : Nat → Psi F}
    (h : ∀ r < n, ∀ i < (T r).nCells, ∀ g < nG, ∀ v, ∀ a < nA, psi r g v a i = psi' r g v a i)
    (h2 : ∀ r < n, ∀ i < (T r).nCells, ∀ g < nG, ∀ v, ∀ a < nA, psi2 r g v a i = psi2' r g v a i) :
    K.errorOf test n T psi psi2 = K.errorOf test n T psi' psi2' := by
  have hp : ∀ r < n, pairs nG (T r).nCells (K.phi (psi2 r)) (K.phi (psi r)) = pairs nG (T r).nCells (K.phi (psi2' r)) (K.phi (psi' r)) := by
    intro r hr
    unfold pairs
    refine List.flatMap_congr fun c hc => List.flatMap_congr fun v _ => List.map_congr_left fun g hg => ?_
    have hc := List.mem_range.1 hc
    have hg := List.mem_range.1 hg
    unfold Kernel.phi
    congr 2
    · funext a; exact h2 r hr c hc g hg v a a.2
    · funext a; exact h r hr c hc g hg v a a.2
  unfold Kernel.errorOf
  dsimp only
  congr 2 <;> exact List.map_congr_left fun r hr => by rw [hp r (List.mem_range.1 hr)]

/-- C86: on one partition, two runs of the source iteration print the same errors, stop after the same
number of sweeps and return the same bits, whatever the threads and the timing: the test that stops the
iteration included. -/
theorem fixedPoint_repeats (H : Created m pv n P) (hn : n < uintMax) (L : Loaded val P T) (hD : Started K coord P T D)
    (hcons : Consistent K coord m) (hs : ∀ r < n, nA * (T r).nCells < 2 ^ 64) {test : Test F} {iterMax : Nat}
    {psi psi' : Nat → Psi F} {l l' : List F} (h : K.FixedPoint test iterMax n T D psi l) (hend : test.Ended iterMax l)
    (h' : K.FixedPoint test iterMax n T D psi' l') (hend' : test.Ended iterMax l') :
    l = l' ∧ ∀ r < n, ∀ i < (T r).nCells, ∀ g < nG, ∀ v, ∀ a < nA, psi r g v a i = psi' r g v a i := by
  -- an execution holds what the iteration does
  have hit : ∀ {psi l}, K.FixedPoint test iterMax n T D psi l → K.Iterated n T D l.length psi := by
    intro psi l h
    induction h with
    | zero => exact .zero
    | succ _ _ _ hsw ih => exact .succ ih hsw
  have hval : ∀ {k} {psi psi' : Nat → Psi F}, K.Iterated n T D k psi → K.Iterated n T D k psi' →
      ∀ r < n, ∀ i < (T r).nCells, ∀ g < nG, ∀ v, ∀ a < nA, psi r g v a i = psi' r g v a i := by
    intro k psi psi' q q' r hr i hi g hg v a ha
    obtain ⟨psiS, b1, b2⟩ := iterated_bitwise H hn L hD H hn L hD hcons hs hs q q'
    obtain ⟨c, hc⟩ := isCell_of_lt H L hr hi
    rw [b1 r hr i c (isCell_lg H L hc).1 g hg v a ha, b2 r hr i c (isCell_lg H L hc).1 g hg v a ha]
  have hlist : ∀ k, ∀ {psi psi' l l'}, K.FixedPoint test iterMax n T D psi l → K.FixedPoint test iterMax n T D psi' l' →
      l.length = k → l'.length = k → l = l' := by
    intro k
    induction k with
    | zero => intro _ _ l l' _ _ e e'; rw [List.length_eq_zero_iff.1 e, List.length_eq_zero_iff.1 e']
    | succ k ih =>
      intro _ _ l l' q q' e e'
      cases q with
      | zero => simp at e
      | succ q1 _ _ q4 =>
        cases q' with
        | zero => simp at e'
        | succ q1' _ _ q4' =>
          have e := Nat.succ.inj e
          have e' := Nat.succ.inj e'
          obtain rfl := ih q1 q1' e e'
          congr 1
          refine errorOf_eq (hval (hit q1) (hit q1')) (hval (.succ (hit q1) q4) (.succ (hit q1') q4'))
  -- a shorter execution has not ended
  have hprefix : ∀ {psi l}, K.FixedPoint test iterMax n T D psi l → ∀ j < l.length,
      ∃ psi1 l1, K.FixedPoint test iterMax n T D psi1 l1 ∧ l1.length = j ∧ ¬ test.Ended iterMax l1 := by
    intro psi l h
    induction h with
    | zero => simp
    | @succ psi1 psi2 l1 q1 q2 q3 q4 ih =>
      intro j hj
      rcases Nat.lt_succ_iff_lt_or_eq.1 hj with hj | rfl
      · exact ih j hj
      · exact ⟨psi1, l1, q1, rfl, by rintro (h | h); · omega
                                     · rw [q3] at h; simp at h⟩
  have hlen : l.length = l'.length := by
    rcases Nat.lt_trichotomy l.length l'.length with hlt | he | hgt
    · obtain ⟨psi1, l1, q1, q2, q3⟩ := hprefix h' _ hlt
      obtain rfl := hlist _ q1 h q2 rfl
      exact absurd hend q3
    · exact he
    · obtain ⟨psi1, l1, q1, q2, q3⟩ := hprefix h _ hgt
      obtain rfl := hlist _ q1 h' q2 rfl
      exact absurd hend' q3
  refine ⟨hlist _ h h' hlen rfl, hval (hit h) ?_⟩
  rw [hlen]
  exact hit h'

/-- The upwind relation of the machine has no cycle: an interior face is outgoing from exactly one of its
cells, and no cell is upwind of itself. -/
structure Sorted (K : Kernel F nA nG) (coord : Nat → F) (m : SerialMesh) : Prop where
  consistent : Consistent K coord m
  crossed : ∀ c f c' f', Across m c f c' f' → ∀ a < nA, ∀ x x', Dot K coord m a c f x → Dot K coord m a c' f' x' →
    K.positive x = false → K.positive x' = true
  acyclic : ∀ a < nA, ∀ c, ¬ Relation.TransGen (fun c c' => ∃ f f' x, Across m c f c' f' ∧ Dot K coord m a c f x ∧ K.positive x = true) c c

/-- On a sorted mesh the traversal meets the conditions for going on and returning. -/
theorem cfg_sorted (H : Created m pv n P) (hn : n < uintMax) (L : Loaded val P T) (hD : Started K coord P T D)
    (hsort : Sorted K coord m) (hs : ∀ r < n, nA * (T r).nCells < 2 ^ 64) (source psi0 : Nat → Psi F) (sched : Schedule F)
    (ht : 0 < sched.threads) :
    Linked (K.cfg n T D sched source psi0) (mateOf m P) ∧ Crossed (K.cfg n T D sched source psi0) (mateOf m P) ∧
      Verif.Traverse.Acyclic (K.cfg n T D sched source psi0) (mateOf m P) := by
  have Q := cfg_linked (source := source) (psi0 := psi0) H hn L hD hsort.consistent ht hs
  have info : ∀ {x y : Traverse.Loc} {a : Nat}, mateOf m P x = some y → a < nA → ∃ c c', IsCell P x.rank x.cell c ∧ IsCell P y.rank y.cell c' ∧
      Across m c x.face c' y.face ∧ Dot K coord m a c x.face (K.omega (D x.rank) a x.cell x.face) ∧
      Dot K coord m a c' y.face (K.omega (D y.rank) a y.cell y.face) := by
    intro x y a hy ha
    have hm := (mateOf_iff H).1 hy
    obtain ⟨h1, h2⟩ := lt_of_exists H L (mates_exists hm).1
    obtain ⟨h3, h4⟩ := lt_of_exists H L (mates_exists hm).2
    obtain ⟨c, hc⟩ := isCell_of_lt H L h1 h2
    obtain ⟨c', hc'⟩ := isCell_of_lt H L h3 h4
    exact ⟨c, c', hc, hc', (mates_across hc hc').1 hm, dot_of H L hD hc ha _, dot_of H L hD hc' ha _⟩
  have hin : ∀ {x : Traverse.Loc} {a : Nat}, (K.cfg n T D sched source psi0).inDir x.rank a x.cell x.face = true →
      K.positive (K.omega (D x.rank) a x.cell x.face) = false := by
    intro x a h
    change (!K.outgoing (D x.rank) a x.cell x.face) = true at h
    simpa [Kernel.outgoing] using h
  have hcr : Crossed (K.cfg n T D sched source psi0) (mateOf m P) := by
    intro x y a hx hy ha h
    obtain ⟨c, c', -, -, hac, d1, d2⟩ := info hy ha
    have := hsort.crossed _ _ _ _ hac a ha _ _ d1 d2 (hin h)
    show (if K.outgoing (D y.rank) a y.cell y.face = true then _ else _) = true
    unfold Kernel.outgoing
    simp [this, Kernel.cfg]
  have hac : Verif.Traverse.Acyclic (K.cfg n T D sched source psi0) (mateOf m P) := by
    intro a ha t ht
    refine hsort.acyclic a ha (((T t.1).getLGCell t.2).getD 0) ?_
    refine ht.lift (fun t : Nat × Nat => ((T t.1).getLGCell t.2).getD 0) ?_
    rintro _ _ ⟨x, y, hx, hy, hneed, rfl, rfl⟩
    obtain ⟨c, c', hc, hc', hac, d1, d2⟩ := info hy ha
    have hp := hsort.crossed _ _ _ _ hac a ha _ _ d1 d2 (hin hneed.1)
    show ∃ f f' z, Across m (((T y.rank).getLGCell y.cell).getD 0) f (((T x.rank).getLGCell x.cell).getD 0) f' ∧
      Dot K coord m a (((T y.rank).getLGCell y.cell).getD 0) f z ∧ K.positive z = true
    rw [(isCell_lg H L hc).1, (isCell_lg H L hc').1]
    exact ⟨y.face, x.face, _, ⟨hac.1.symm, hac.2.imp fun g h => ⟨h.2, h.1⟩⟩, d2, hp⟩
  exact ⟨Q, hcr, hac⟩

/-- C86: such sweeps exist: on every partition, with every number of threads and every batch size, the
sweep of the machine runs to the end on all ranks. -/
theorem sweep_returns (H : Created m pv n P) (hn : n < uintMax) (L : Loaded val P T) (hD : Started K coord P T D)
    (hsort : Sorted K coord m) (hs : ∀ r < n, nA * (T r).nCells < 2 ^ 64) (source psi0 : Nat → Psi F) (sched : Schedule F)
    (ht : 0 < sched.threads) (hb : 0 < sched.batch) (hproto : sched.protocol = .tycho) :
    ∃ psi, K.Swept n T D source psi0 psi ∧ ∃ s : State _ _, Reachable (K.cfg n T D sched source psi0) s ∧
      ∀ r < n, (s.rank r).phase = .finished ∧ (s.rank r).data.1 = psi r := by
  obtain ⟨Q, hcr, hac⟩ := cfg_sorted H hn L hD hsort hs source psi0 sched ht
  obtain ⟨k, s, hrun, hf⟩ := traverse_finishes Q hb (fun _ => hproto) hcr hac
  refine ⟨fun r => (s.rank r).data.1, ⟨sched, s, ht, hrun.reachable .init, fun r hr => ⟨hf r hr, rfl⟩⟩, s, hrun.reachable .init,
    fun r hr => ⟨hf r hr, rfl⟩⟩

end Verif.Floating
