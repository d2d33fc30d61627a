import Verif.Floating.OuterProps

/-!
# What a value that is not a number does to a run

The black boxes are those of `Verif.Floating.Model`; of them it is assumed here that they hand on values that are not numbers, as
the operations of IEEE arithmetic do, and that comparisons with such values fail.
-/
set_option linter.unusedSectionVars false

namespace Verif.Floating.Spec

open Verif.MeshFile Verif.TychoMesh Verif.Traverse Verif.Floating

variable {F : Type} {nA nG : Nat}

/-- The functions of the program hand on values that are not numbers: a source in one vertex to the flux of the group in all vertices,
a flux in one direction to the scalar flux, source or scalar flux to the total source. -/
structure Spreads (bad : F → Prop) (K : Kernel F nA nG) : Prop where
  solve : ∀ vol area dots sT c2f inc (src : Fin 4 → Fin nG → F) g, (∃ v, bad (src v g)) → ∀ v, bad (K.solve vol area dots sT c2f inc src v g)
  toPhi : ∀ x : Fin nA → F, (∃ a, bad (x a)) → bad (K.toPhi x)
  total : ∀ s sS phi, bad s ∨ bad phi → bad (K.total s sS phi)

/-- The solve hands them on from a face through which the flow enters to all vertices. `enters` tells from the areas and the
directions of the faces whether it does. -/
def SpreadsFlow (bad : F → Prop) (enters : (Fin 4 → F) → (Fin 4 → F) → Fin 4 → Prop) (K : Kernel F nA nG) : Prop :=
  ∀ vol area dots sT c2f (inc : Fin 3 → Fin 4 → Fin nG → F) src g f, enters area dots f → (∀ k, bad (inc k f g)) →
    ∀ v, bad (K.solve vol area dots sT c2f inc src v g)

/-- The flow of direction `a` goes from cell `c'` to cell `c` across their common face. -/
def Downwind (enters : (Fin 4 → F) → (Fin 4 → F) → Fin 4 → Prop) (K : Kernel F nA nG) (coord : Nat → F) (m : SerialMesh) (a c' c : Nat) : Prop :=
  ∃ (f f' : Fin 4) (q : Fin 4 → Fin 3 → Fin 3 → F) (dots : Fin 4 → F), Across m c f c' f' ∧ (∀ f, FacePoints coord m c f (q f)) ∧
    (∀ f, Dot K coord m a c f (dots f)) ∧ K.positive (dots f) = false ∧ enters (fun f => K.area (q f)) dots f

/-- The test of `fixedPoint`: the comparison `error > g_errMax` fails. -/
structure SpreadsTest (bad : F → Prop) (test : Test F) : Prop where
  error : ∀ l : List (F × F), (∃ q ∈ l, bad q.1 ∨ bad q.2) → bad (test.error l)
  gsum : ∀ l : List F, (∃ x ∈ l, bad x) → bad (test.gsum l)
  quotient : ∀ x y, bad x → bad (test.quotient x y)
  above : ∀ x, bad x → test.above x = false

/-- The test of the block Jacobi loops: the comparison `error < g_ddErrMax` fails. -/
structure SpreadsStop (bad : F → Prop) (stop : Stop F) : Prop where
  error : ∀ l : List (F × F), (∃ q ∈ l, bad q.1 ∨ bad q.2) → bad (stop.error l)
  gsum : ∀ l : List F, (∃ x ∈ l, bad x) → bad (stop.gsum l)
  below : ∀ x y, bad x → stop.below x y = false

/-- The source in some vertex of cell `c` and direction `a` is not a number. -/
def BadSource (bad : F → Prop) (K : Kernel F nA nG) (coord : Nat → F) (m : SerialMesh) (c a : Nat) : Prop :=
  ∃ p sT sS v, CellPoints coord m c p ∧ Sigma K m c sT sS ∧ bad (K.source a (p v) sT sS)

end Verif.Floating.Spec

namespace Verif.Floating

open Verif.MeshFile Verif.TychoMesh Verif.Traverse Verif.Floating.Spec

variable {F S : Type} [LinearOrder S] {nA nG : Nat} {K : Kernel F nA nG} {coord : Nat → F} {m : SerialMesh} {val : Nat → S} {pv : List Nat}
  {n : Nat} {P : ParallelMesh} {T : Nat → Mesh} {D : Nat → Tables F} {bad : F → Prop} {test : Test F} {stop : Stop F}

/-- The total source is not a number there either, whatever the scalar flux. -/
theorem badSource_local (H : Created m pv n P) (L : Loaded val P T) (hD : Started K coord P T D) (hK : Spreads bad K) {c a : Nat}
    (hb : BadSource bad K coord m c a) {r i : Nat} (hi : IsCell P r i c) (phi : Nat → Fin 4 → Nat → F) (g : Nat) :
    ∃ v, bad (K.sourceOf (D r) phi g v a i) := by
  obtain ⟨p, sT, sS, v, h1, h2, h3⟩ := hb
  obtain ⟨p', q, sT', sS', R⟩ := row_of H L hD hi
  obtain rfl := cellPoints_unique h1 R.points
  obtain ⟨rfl, rfl⟩ := sigma_unique h2 R.sigma
  refine ⟨v, ?_⟩
  unfold Kernel.sourceOf
  rw [R.source, R.sigmaS, Option.getD_some, Option.getD_some]
  exact hK.total _ _ _ (.inl h3)

/-- After a sweep the flux of the cell in this direction is not a number in any vertex. -/
theorem swept_bad (H : Created m pv n P) (hn : n < uintMax) (L : Loaded val P T) (hD : Started K coord P T D) (hcons : Consistent K coord m)
    (hs : ∀ r < n, nA * (T r).nCells < 2 ^ 64) (hK : Spreads bad K) {c a : Nat} (ha : a < nA) (hb : BadSource bad K coord m c a)
    {psi psi' : Nat → Psi F} {psiS : Psi F} (hp : Holds nA nG n T psi psiS)
    (h : K.Swept n T D (fun r => K.totalSource (D r) (psi r)) psi psi') {r i : Nat} (hi : IsCell P r i c) :
    ∀ g < nG, ∀ v, bad (psi' r g v a i) := by
  intro g hg v
  obtain ⟨srcS, -, hsrc⟩ := total_of H L hD hp
  obtain ⟨new, a1, a2, -⟩ := swept_solution H hn L hD hcons hs h hsrc
  obtain ⟨e1, hr, -, hc⟩ := isCell_lg H L hi
  rw [a2 r hr i c e1 g hg v a ha]
  obtain ⟨p, q, dots, sT, sS, c2f, inc, -, -, -, -, -, -, hx⟩ := a1 c hc a ha
  rw [hx v ⟨g, hg⟩]
  refine hK.solve _ _ _ _ _ _ _ _ ?_ v
  obtain ⟨w, hw⟩ := badSource_local H L hD hK hb hi (K.phi (psi r)) g
  refine ⟨w, ?_⟩
  dsimp only
  rw [← hsrc r hr i c e1 g hg w a ha]
  exact hw

/-- C107: nor is it in any cell downwind of it. -/
theorem downwind_bad (H : Created m pv n P) (hn : n < uintMax) (L : Loaded val P T) (hD : Started K coord P T D) (hcons : Consistent K coord m)
    (hs : ∀ r < n, nA * (T r).nCells < 2 ^ 64) (hK : Spreads bad K) {enters : (Fin 4 → F) → (Fin 4 → F) → Fin 4 → Prop}
    (hf : SpreadsFlow bad enters K) {c a : Nat} (hc : c < m.numCells) (ha : a < nA) (hb : BadSource bad K coord m c a)
    {psi psi' : Nat → Psi F} {psiS : Psi F} (hp : Holds nA nG n T psi psiS)
    (h : K.Swept n T D (fun r => K.totalSource (D r) (psi r)) psi psi') {d : Nat}
    (hd : Relation.ReflTransGen (Downwind enters K coord m a) c d) {r i : Nat} (hi : IsCell P r i d) :
    ∀ g < nG, ∀ v, bad (psi' r g v a i) := by
  obtain ⟨srcS, -, hsrc⟩ := total_of H L hD hp
  obtain ⟨new, a1, a2, -⟩ := swept_solution H hn L hD hcons hs h hsrc
  have key : ∀ g < nG, ∀ v, bad (new g v a d) := by
    clear hi
    induction hd with
    | refl =>
      obtain ⟨r, i, hi⟩ := isCell_exists H hc
      obtain ⟨e1, hr, -, -⟩ := isCell_lg H L hi
      intro g hg v
      rw [← a2 r hr i c e1 g hg v a ha]
      exact swept_bad H hn L hD hcons hs hK ha hb hp h hi g hg v
    | @tail b d _ hbd ih =>
      intro g hg v
      obtain ⟨f, f', q, dots, h1, h2, h3, h4, h5⟩ := hbd
      have hlt : d < m.numCells := (across_lt H.tets h1).1
      obtain ⟨p, q', dots', sT, sS, c2f, inc, b1, b2, b3, -, -, b4, hx⟩ := a1 d hlt a ha
      obtain rfl : q = q' := funext fun f => facePoints_unique H.tets (h2 f) (b2 f)
      obtain rfl : dots = dots' := funext fun f => by
        obtain ⟨q0, p0, k1, k2, k3⟩ := h3 f
        obtain rfl := facePoints_unique H.tets k1 (b2 f)
        obtain rfl := cellPoints_unique k2 b1
        rw [b3 f] at k3
        exact (Option.some.inj k3).symm
      rw [hx v ⟨g, hg⟩]
      refine hf _ _ _ _ _ _ _ _ f h5 (fun k => ?_) v
      obtain ⟨w, hw⟩ := onFace_exists H.tets h1 k
      rw [((b4 k f ⟨g, hg⟩).2 h4).1 b f' w h1 hw]
      exact ih g hg w
  obtain ⟨e1, hr, -, -⟩ := isCell_lg H L hi
  intro g hg v
  rw [a2 r hr i d e1 g hg v a ha]
  exact key g hg v

theorem local_bad (H : Created m pv n P) (hn : n < uintMax) (L : Loaded val P T) (hD : Started K coord P T D) (hcons : Consistent K coord m)
    (hs : ∀ r < n, nA * (T r).nCells < 2 ^ 64) (hK : Spreads bad K) {c a : Nat} (ha : a < nA) (hb : BadSource bad K coord m c a)
    {phi : Nat → Nat → Fin 4 → Nat → F} {psi psi' : Nat → Psi F} {bound : Nat → Bound F}
    (h : K.LocalSwept n T D (fun r => K.sourceOf (D r) (phi r)) psi bound psi') {r i : Nat} (hi : IsCell P r i c) :
    ∀ g < nG, ∀ v, bad (psi' r g v a i) := by
  intro g hg v
  obtain ⟨-, hr, hlt, -⟩ := isCell_lg H L hi
  have hl := local_eq (m := m) (P := P) (fun sched ht => cfg_linked H hn L hD hcons ht hs) h
  rw [hl r hr i hlt a ha v ⟨g, hg⟩]
  exact hK.solve _ _ _ _ _ _ _ _ (badSource_local H L hD hK hb hi (phi r) g) v

theorem phi_bad (hK : Spreads bad K) {psi : Psi F} {g a i : Nat} {v : Fin 4} (ha : a < nA) (h : bad (psi g v a i)) : bad (K.phi psi g v i) :=
  hK.toPhi _ ⟨⟨a, ha⟩, h⟩

theorem mem_pairs {new old : Nat → Fin 4 → Nat → F} {g i N : Nat} {v : Fin 4} (hg : g < nG) (hi : i < N) :
    (new g v i, old g v i) ∈ pairs nG N new old := by
  simp only [pairs, List.mem_flatMap, List.mem_map, List.mem_range, List.mem_finRange, true_and]
  exact ⟨i, hi, v, g, hg, rfl⟩

theorem error_bad (hK : Spreads bad K) (ht : SpreadsTest bad test) {psi psi' : Nat → Psi F} {r g a i : Nat} {v : Fin 4} (hr : r < n) (hg : g < nG)
    (ha : a < nA) (hi : i < (T r).nCells) (h : bad (psi' r g v a i)) : bad (K.errorOf test n T psi psi') :=
  ht.quotient _ _ (ht.gsum _ ⟨_, List.mem_map.2 ⟨r, List.mem_range.2 hr, rfl⟩, ht.error _ ⟨_, mem_pairs hg hi, .inl (phi_bad hK ha h)⟩⟩)

/-- C107: where the source of a cell is not a number, `fixedPoint` makes one sweep and no more, whatever tolerance and limit, partition
and threads; the error it prints and the flux of the cell are not numbers. -/
theorem fixedPoint_bad (H : Created m pv n P) (hn : n < uintMax) (L : Loaded val P T) (hD : Started K coord P T D) (hcons : Consistent K coord m)
    (hs : ∀ r < n, nA * (T r).nCells < 2 ^ 64) (hK : Spreads bad K) (ht : SpreadsTest bad test) (h1 : test.above test.one = true) {c a : Nat}
    (hc : c < m.numCells) (ha : a < nA) (hG : 0 < nG) (hb : BadSource bad K coord m c a) {iterMax : Nat} (hN : 0 < iterMax)
    {psi : Nat → Psi F} {l : List F} (h : K.FixedPoint test iterMax n T D psi l) (hend : test.Ended iterMax l) :
    ∃ e, l = [e] ∧ bad e ∧ ∀ r i, IsCell P r i c → ∀ g < nG, ∀ v, bad (psi r g v a i) := by
  have key : ∀ {psi l}, K.FixedPoint test iterMax n T D psi l → l = [] ∨
      ∃ e, l = [e] ∧ bad e ∧ ∀ r i, IsCell P r i c → ∀ g < nG, ∀ v, bad (psi r g v a i) := by
    intro psi l h
    induction h with
    | zero => exact .inl rfl
    | @succ psi psi' l q1 q2 q3 q4 ih =>
      right
      obtain rfl : l = [] := by
        rcases ih with h | ⟨e, rfl, h, -⟩
        · exact h
        · rw [List.headD_cons, ht.above e h] at q3
          exact absurd q3 (by decide)
      have hsw : ∀ r i, IsCell P r i c → ∀ g < nG, ∀ v, bad (psi' r g v a i) := by
        intro r i hi
        cases q1
        exact swept_bad H hn L hD hcons hs hK ha hb (psiS := fun _ _ _ _ => K.zero) (fun _ _ _ _ _ _ _ _ _ _ => rfl) q4 hi
      obtain ⟨r, i, hi⟩ := isCell_exists H hc
      obtain ⟨-, hr, hlt, -⟩ := isCell_lg H L hi
      exact ⟨_, rfl, error_bad hK ht hr hG ha hlt (hsw r i hi 0 hG 0), hsw⟩
  rcases key h with rfl | h
  · rcases hend with h | h
    · simp at h
      omega
    · rw [List.headD_nil, h1] at h
      exact absurd h (by decide)
  · exact h

/-- C107: `SweeperPBJSI` makes all its iterations instead. -/
theorem blocks_bad (H : Created m pv n P) (hn : n < uintMax) (L : Loaded val P T) (hD : Started K coord P T D) (hcons : Consistent K coord m)
    (hs : ∀ r < n, nA * (T r).nCells < 2 ^ 64) (hK : Spreads bad K) (ht : SpreadsStop bad stop) {c a : Nat}
    (hc : c < m.numCells) (ha : a < nA) (hG : 0 < nG) (hb : BadSource bad K coord m c a) {N : Nat}
    {fluxes : List (Nat → Psi F)} {psiEnd : Nat → Psi F} (h : K.Blocks stop N n T D fluxes psiEnd) :
    fluxes.length = N - 1 ∧ ∀ x ∈ fluxes, ∀ r i, IsCell P r i c → ∀ g < nG, ∀ v, bad (x r g v a i) := by
  have key : ∀ {iter : Nat} {phi : Nat → Nat → Fin 4 → Nat → F} {psi : Nat → Psi F} {bound : Nat → Bound F} {fl : List (Nat → Psi F)}
      {e : Nat → Psi F}, K.BlockLoop stop N n T D iter phi psi bound fl e →
      fl.length = N - iter ∧ ∀ x ∈ fl, ∀ r i, IsCell P r i c → ∀ g < nG, ∀ v, bad (x r g v a i) := by
    intro iter phi psi bound fl e h
    induction h with
    | limit => exact ⟨by simp; omega, by simp⟩
    | conv _ hs' _ hc' =>
      obtain ⟨r, i, hi⟩ := isCell_exists H hc
      obtain ⟨-, hr, hlt, -⟩ := isCell_lg H L hi
      have := local_bad H hn L hD hcons hs hK ha hb hs' hi 0 hG 0
      unfold Stop.metPhi at hc'
      rw [ht.below _ _ (ht.gsum _ ⟨_, List.mem_map.2 ⟨r, List.mem_range.2 hr, rfl⟩, ht.error _
        ⟨_, mem_pairs hG hlt, .inl (phi_bad hK ha this)⟩⟩)] at hc'
      exact absurd hc' (by decide)
    | next _ hs' _ _ _ ih =>
      refine ⟨by rw [List.length_cons, ih.1]; omega, fun x hx r i hi => ?_⟩
      rcases List.mem_cons.1 hx with rfl | hx
      · exact local_bad H hn L hD hcons hs hK ha hb hs' hi
      · exact ih.2 x hx r i hi
  exact key h

/-- C107: `SweeperPBJOuter` makes all its outer iterations, each of one sweep. -/
theorem outer_bad (H : Created m pv n P) (hn : n < uintMax) (L : Loaded val P T) (hD : Started K coord P T D) (hcons : Consistent K coord m)
    (hs : ∀ r < n, nA * (T r).nCells < 2 ^ 64) (hK : Spreads bad K) (ht : SpreadsTest bad test) (h1 : test.above test.one = true)
    (hst : SpreadsStop bad stop) {c a : Nat} (hc : c < m.numCells) (ha : a < nA) (hG : 0 < nG) (hb : BadSource bad K coord m c a)
    {iterMax ddMax : Nat} (hN : 0 < iterMax) {runs : List (List (Nat → Psi F))} {psiEnd : Nat → Psi F}
    (h : K.Outer test iterMax stop ddMax n T D runs psiEnd) : runs.map List.length = List.replicate (ddMax - 1) 1 := by
  have inner : ∀ {bound : Nat → Bound F} {psi e : Nat → Psi F} {fl : List (Nat → Psi F)},
      K.InnerLoop test iterMax n T D bound 0 test.one psi fl e →
      fl.length = 1 ∧ ∀ r i, IsCell P r i c → ∀ g < nG, ∀ v, bad (e r g v a i) := by
    intro bound psi e fl h
    cases h with
    | stop h =>
      rcases h with h | h
      · omega
      · rw [h1] at h
        exact absurd h (by decide)
    | @step _ _ _ psi' rest _ _ _ hs' hr =>
      have hsw : ∀ r i, IsCell P r i c → ∀ g < nG, ∀ v, bad (psi' r g v a i) := fun r i hi =>
        local_bad H hn L hD hcons hs hK ha hb (phi := fun r => K.phi (psi r)) hs' hi
      cases hr with
      | stop => exact ⟨rfl, hsw⟩
      | step _ he =>
        obtain ⟨r, i, hi⟩ := isCell_exists H hc
        obtain ⟨-, hr, hlt, -⟩ := isCell_lg H L hi
        rw [ht.above _ (error_bad hK ht hr hG ha hlt (hsw r i hi 0 hG 0))] at he
        exact absurd he (by decide)
  have key : ∀ {iter : Nat} {psi prev : Nat → Psi F} {bound : Nat → Bound F} {runs : List (List (Nat → Psi F))} {e : Nat → Psi F},
      K.OuterLoop test iterMax stop ddMax n T D iter psi prev bound runs e → runs.map List.length = List.replicate (ddMax - iter) 1 := by
    intro iter psi prev bound runs e h
    induction h with
    | @limit iter _ _ _ h => rw [show ddMax - iter = 0 from by omega]; rfl
    | conv _ hi' hc' =>
      obtain ⟨r, i, hi⟩ := isCell_exists H hc
      obtain ⟨-, hr, hlt, -⟩ := isCell_lg H L hi
      have := (inner hi').2 r i hi 0 hG 0
      unfold Stop.met at hc'
      rw [hst.below _ _ (hst.gsum _ ⟨_, List.mem_map.2 ⟨r, List.mem_range.2 hr, rfl⟩, hst.error _ ⟨_, by
        simp only [fluxPairs, List.mem_flatMap, List.mem_map, List.mem_range, List.mem_finRange, true_and]
        exact ⟨i, hlt, a, ha, 0, 0, hG, rfl⟩, .inr this⟩⟩)] at hc'
      exact absurd hc' (by decide)
    | @next iter _ _ _ _ _ _ _ _ h hi' _ _ _ ih =>
      rw [List.map_cons, ih, (inner hi').1, show ddMax - iter = ddMax - (iter + 1) + 1 from by omega]
      rfl
  exact key h

/-- C107, the part that holds: source iteration that makes fewer sweeps than its limit allows has met its tolerance, if the last error is
a number. Missing: that it is one (`nan_stops`). -/
theorem stops_within_partial {within : F → Prop} (ht : ∀ x, test.above x = false → ¬ bad x → within x) {iterMax : Nat}
    {psi : Nat → Psi F} {l : List F} (_h : K.FixedPoint test iterMax n T D psi l) (hend : test.Ended iterMax l) (hN : l.length < iterMax)
    (hb : ¬ bad (l.headD test.one)) : within (l.headD test.one) := by
  rcases hend with h | h
  · omega
  · exact ht _ h hb

end Verif.Floating
