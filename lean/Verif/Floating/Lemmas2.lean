import Verif.Floating.Lemmas

/-!
# Machine sweeps on loaded parts: what a sweep leaves
-/
set_option linter.unusedSectionVars false
namespace Verif.Floating

open Verif.MeshFile Verif.TychoMesh Verif.Traverse Verif.Floating.Spec

variable {F : Type} {nA nG : Nat} {K : Kernel F nA nG} {coord : Nat → F}
variable {S : Type} [LinearOrder S] {val : Nat → S} {m : SerialMesh} {pv : List Nat} {n : Nat} {P : ParallelMesh} {T : Nat → Mesh}
variable {D : Nat → Tables F} {sched : Schedule F} {source psi0 : Nat → Psi F}

/-- A problem with nothing in it, to reuse what is known of the tables of loaded parts. -/
def blank (nA : Nat) : Problem ℚ where
  nAngles := nA
  nGroups := 0
  volume _ := 1
  area _ _ := 0
  omegaDotN _ _ _ := 0
  sigmaT _ := 1
  source _ _ _ _ := 0

theorem blank_physical (nA : Nat) (m : SerialMesh) : (blank nA).Physical m :=
  ⟨fun _ _ => one_pos, fun _ _ _ => le_refl _, fun _ _ => zero_le_one, fun _ _ _ _ => by simp [blank],
    fun _ _ _ _ => Or.inl one_pos, fun _ _ _ _ _ _ _ => by simp [blank]⟩

theorem dot_of (H : Created m pv n P) (L : Loaded val P T) (hD : Started K coord P T D) {r i c : Nat} (h : IsCell P r i c)
    {a : Nat} (ha : a < nA) (f : Fin 4) : Dot K coord m a c f (K.omega (D r) a i f) := by
  obtain ⟨p, q, sT, sS, R⟩ := row_of H L hD h
  exact ⟨q f, p, R.faces f, R.points, R.omega a ha f⟩

theorem cfg_linked (H : Created m pv n P) (hn : n < uintMax) (L : Loaded val P T) (hD : Started K coord P T D)
    (hcons : Consistent K coord m) (ht : 0 < sched.threads) (hs : ∀ r < n, nA * (T r).nCells < 2 ^ 64) :
    Linked (K.cfg n T D sched source psi0) (mateOf m P) := by
  have Q := run_linked (p := blank nA) H hn L (blank_physical nA m)
    (runOn_of (batch := 0) (proto := .tycho) (rv := true) (gauss := .original) (prio := fun _ _ _ => 0) (psi0 := fun _ _ _ _ _ => 0)
      (bound0 := fun _ _ _ _ _ => 0) (scratch := fun _ _ => 0) ht hs)
  refine ⟨ht, hs, Q.mate_in, Q.mate_symm, Q.near, Q.far, Q.ext, Q.side_eq, Q.side_cell, Q.side_inj, ?_⟩
  intro x y a hx hy ha hout
  have hm := (mateOf_iff H).1 hy
  obtain ⟨h1, h2⟩ := lt_of_exists H L (mates_exists hm).1
  obtain ⟨h3, h4⟩ := lt_of_exists H L (mates_exists hm).2
  obtain ⟨c, hc⟩ := isCell_of_lt H L h1 h2
  obtain ⟨c', hc'⟩ := isCell_of_lt H L h3 h4
  have hac := (mates_across hc hc').1 hm
  have hout : K.outgoing (D x.rank) a x.cell x.face = true := by
    simpa [Cfg.outDir, Kernel.cfg, Kernel.mesh] using hout
  show (!K.outgoing (D y.rank) a y.cell y.face) = true
  have := hcons _ _ _ _ hac a ha _ _ (dot_of H L hD hc ha x.face) (dot_of H L hD hc' ha y.face) hout
  unfold Kernel.outgoing
  rw [this]; rfl

/-- What a sweep reads and writes. -/
def frame (K : Kernel F nA nG) (n : Nat) (T : Nat → Mesh) (D : Nat → Tables F) (sched : Schedule F) (source psi0 : Nat → Psi F) :
    Frame (K.cfg n T D sched source psi0) (Fin nG → Fin 4 → F) where
  ok _ := True
  obs _ d c a := fun g v => d.1 g v a c
  bnd _ d s a := fun k g => d.2 g k a s
  init_ok _ _ := trivial
  upd_ok _ _ _ _ _ _ _ _ := trivial
  set_ok _ _ _ _ _ _ _ := trivial
  upd_self r c a d d' _ _ _ _ _ hup := by
    suffices e : K.localBound (T r) (D r) a c d.1 d.2 = K.localBound (T r) (D r) a c d'.1 d'.2 by
      funext g v
      simp [Kernel.cfg, Kernel.update, e]
    funext k f g
    unfold Kernel.localBound
    by_cases ho : K.outgoing (D r) a c f = true
    · rw [if_pos ho, if_pos ho]
    · rw [if_neg ho, if_neg ho]
      have hin : (K.cfg n T D sched source psi0).inDir r a c f = true := by
        show (!K.outgoing (D r) a c f) = true
        simpa using ho
      obtain ⟨h1, h2⟩ := hup f hin
      rcases hadj : ((T r).getAdjCell c f).bind toNone with _ | nb
      · rcases hrk : ((T r).getAdjRank c f).bind toNone with _ | q
        · rfl
        · exact congrFun (congrFun (h2 q hadj hrk) k) g
      · exact congrFun (congrFun (h1 nb hadj) g) _
  upd_obs r c a d c' a' _ _ _ _ hne := by
    funext g v
    simp only [Kernel.cfg, Kernel.update]
    rw [dif_neg]
    rintro ⟨rfl, rfl, -⟩
    simp at hne
  upd_bnd r c a d s a' _ _ _ _ := rfl
  set_self r s a b d _ _ := by
    funext k g
    simp [Kernel.cfg]
  set_bnd r s a b d s' a' _ _ hne := by
    funext k g
    simp only [Kernel.cfg]
    rw [dif_neg]
    rintro ⟨rfl, rfl, -⟩
    simp at hne
  set_obs _ _ _ _ _ _ _ _ _ := rfl
  get r c f a d d' _ _ _ h := by
    funext k g
    exact congrFun (congrFun h g) _

/-- The face vertices of the parts are those of the serial mesh. -/
theorem onFace_of (H : Created m pv n P) (L : Loaded val P T) {r i c : Nat} (h : IsCell P r i c) (f : Fin 4) (k : Fin 3) :
    ∃ v, (T r).getFaceToCellVrtx i f k = some v ∧ OnFace m c f k v ∧ v ≠ f ∧ (T r).getCellToFaceVrtx i f v = some k := by
  obtain ⟨part, cell, hp, hc, e0⟩ := id h
  obtain ⟨c', g, hat⟩ := exists_at H (x := ⟨r, i, f⟩) ⟨part, cell, hp, hc⟩
  obtain ⟨h1, h2⟩ := at_split.1 hat
  obtain rfl := isCell_fun h h1
  obtain ⟨_, _, d, e, _, _, _, hd, -, hf, -⟩ := id hat
  obtain ⟨v, a1, a2, a3, a4⟩ := (face_vertices H L hat hd hf).1 k
  exact ⟨v, a1, ⟨g, e, d, h2, hf, hd, a3⟩, a2, a4⟩

theorem faceVertex_of (H : Created m pv n P) (L : Loaded val P T) {r i c : Nat} (h : IsCell P r i c) (f v : Fin 4) :
    (v = f → faceVertex (T r) i f v = 0) ∧ (v ≠ f → OnFace m c f (faceVertex (T r) i f v) v) := by
  unfold faceVertex
  refine ⟨fun e => if_pos e, fun hv => ?_⟩
  rw [if_neg hv]
  obtain ⟨part, cell, hp, hc, e0⟩ := id h
  obtain ⟨c', g, hat⟩ := exists_at H (x := ⟨r, i, f⟩) ⟨part, cell, hp, hc⟩
  obtain ⟨h1, h2⟩ := at_split.1 hat
  obtain rfl := isCell_fun h h1
  obtain ⟨_, _, d, e, _, _, _, hd, -, hf, -⟩ := id hat
  obtain ⟨k, b1, b2⟩ := (face_vertices H L hat hd hf).2 v hv
  obtain ⟨w, a1, a2, -⟩ := onFace_of H L h f k
  dsimp only at b1 b2
  rw [b2, Option.some.injEq] at a1
  subst a1
  rw [b1]
  exact a2

theorem across_lt (H : Tets m) {c c' : Nat} {f f' : Fin 4} (h : Across m c f c' f') : c < m.numCells ∧ c' < m.numCells := by
  obtain ⟨-, g, ⟨d, e, k, h1, -⟩, ⟨d', e', k', h1', -⟩⟩ := h
  rw [H.toSound.cells]
  exact ⟨(List.getElem?_eq_some_iff.1 h1).1, (List.getElem?_eq_some_iff.1 h1').1⟩

/-- The angle and the serial cell of an update. -/
def task {B : Type} (T : Nat → Mesh) : Event B → Option (Nat × Nat)
  | .upd r c a _ => ((T r).getLGCell c).map fun g => (a, g)
  | .side .. => none

/-- What the updates of a complete sweep leave, in whatever order they were made. -/
theorem log_solution (H : Created m pv n P) (hn : n < uintMax) (L : Loaded val P T) (hD : Started K coord P T D)
    (Q : Linked (K.cfg n T D sched source psi0) (mateOf m P)) {log : List (Event (Fin 3 → Fin nG → F))}
    (hord : Ordered (K.cfg n T D sched source psi0) (mateOf m P) log)
    (hcomp : ∀ r c a, r < n → c < (T r).nCells → a < nA → Done log r c a) {psi' : Nat → Psi F}
    (hfin : ∀ r < n, (replay (K.cfg n T D sched source psi0) r log).1 = psi' r) {srcS : Psi F} (hsrc : Holds nA nG n T source srcS) :
    ∃ psiS : Psi F, Solution K coord m srcS psiS ∧ Holds nA nG n T psi' psiS ∧
      ∃ log : List (Nat × Nat), (∀ a < nA, ∀ c < m.numCells, (a, c) ∈ log) ∧
        ∀ l1 a c l2, log = l1 ++ (a, c) :: l2 → a < nA ∧ c < m.numCells ∧ ∀ f x c' f', Dot K coord m a c f x → K.positive x = false →
          Across m c f c' f' → (a, c') ∈ l1 := by
  have hsol := (frame K n T D sched source psi0).solves Q hord hcomp
  -- the location of a cell
  have hloc : ∀ c, ∃ x : Nat × Nat, c < m.numCells → IsCell P x.1 x.2 c := by
    intro c
    by_cases hc : c < m.numCells
    · obtain ⟨r, i, hi⟩ := isCell_exists H hc
      exact ⟨(r, i), fun _ => hi⟩
    · exact ⟨(0, 0), fun h => absurd h hc⟩
  choose loc hloc using hloc
  let psiS : Psi F := fun g v a c => psi' (loc c).1 g v a (loc c).2
  have hS : ∀ r i c, IsCell P r i c → ∀ g v a, psi' r g v a i = psiS g v a c := by
    intro r i c hi g v a
    obtain ⟨e1, e2⟩ := isCell_unique H hi (hloc c (isCell_lg H L hi).2.2.2)
    show _ = psi' (loc c).1 g v a (loc c).2
    rw [← e1, ← e2]
  refine ⟨psiS, ?_, fun r hr i c hic g _ v a _ => hS r i c (lg_isCell H L hr hic) g v a, ?_⟩
  · intro c hc a ha
    obtain ⟨r, i, hi⟩ := isCell_exists H hc
    obtain ⟨e1, hr, hil, -⟩ := isCell_lg H L hi
    obtain ⟨p, q, sT, sS, R⟩ := row_of H L hD hi
    have hc1 := hsol.cell r i a hr hil ha
    obtain ⟨bnd, hb⟩ : ∃ bnd, replay (K.cfg n T D sched source psi0) r log = (psi' r, bnd) := ⟨_, Prod.ext (hfin r hr) rfl⟩
    rw [hb] at hc1
    refine ⟨p, q, K.omega (D r) a i, sT, sS, faceVertex (T r) i, K.localBound (T r) (D r) a i (psi' r) bnd, R.points, R.faces,
      R.omega a ha, R.sigma, faceVertex_of H L hi, ?_, ?_⟩
    · intro k f g
      unfold Kernel.localBound Kernel.outgoing
      refine ⟨fun e => if_pos e, fun e => ?_⟩
      have e' : ¬ K.positive (K.omega (D r) a i f) = true := by rw [e]; simp
      rw [if_neg e']
      have hE : Exists P ⟨r, i, f⟩ := by
        obtain ⟨part, cell, hp, hcl, -⟩ := hi
        exact ⟨part, cell, hp, hcl⟩
      have hIn : (K.cfg n T D sched source psi0).In ⟨r, i, f⟩ := ⟨hr, hil⟩
      constructor
      · intro c' f' w hac hw
        obtain ⟨r', i', hi'⟩ := isCell_exists H (across_lt H.tets hac).2
        have hm : Mates m P ⟨r, i, f⟩ ⟨r', i', f'⟩ := (mates_across hi hi').2 hac
        have hy := (mateOf_iff H).2 hm
        obtain ⟨w', a1, a2, -⟩ := onFace_of H L hi' f' k
        obtain rfl := onFace_unique H.tets hw a2
        by_cases hrr : r' = r
        · subst hrr
          have hnear := (Q.near _ _ hIn hy rfl).1
          change ((T r').getAdjCell i f).bind toNone = some i' at hnear
          rw [hnear]
          obtain ⟨c1, c2, g1, k1, k2, k3⟩ := id hm
          obtain ⟨w1, n1, n2⟩ := neighbor_vertices H L k1 k2 k3 rfl k
          dsimp only at n1 n2 ⊢
          rw [n1, Option.getD_some]
          rw [a1, Option.some.injEq] at n2
          rw [← n2]
          exact hS _ _ _ hi' g w a
        · have hfar := Q.far _ _ hIn hy hrr
          change ((T r).getAdjCell i f).bind toNone = none ∧ ((T r).getAdjRank i f).bind toNone = some r' at hfar
          rw [hfar.1]
          dsimp only
          rw [hfar.2]
          dsimp only
          have hr' : r' < n := (isCell_lg H L hi').2.1
          have hneed : Needs (K.cfg n T D sched source psi0) (mateOf m P) ⟨r, i, f⟩ a := by
            refine ⟨?_, _, hy, Or.inl rfl⟩
            show (!K.outgoing (D r) a i f) = true
            unfold Kernel.outgoing
            rw [e]; rfl
          have hside := hsol.side _ _ a hIn hy hrr ha hneed
          dsimp only at hside
          rw [hb] at hside
          have hside := congrFun (congrFun hside k) g
          change bnd g k a (((T r).getSide i f).getD 0) = (replay (K.cfg n T D sched source psi0) r' log).1 g (((T r').getFaceToCellVrtx i' f' k).getD 0) a i' at hside
          rw [hside, hfin r' hr', a1, Option.getD_some]
          exact hS _ _ _ hi' g w a
      · intro hno
        have hy : mateOf m P ⟨r, i, f⟩ = none := by
          refine mateOf_none.2 fun y hy => ?_
          obtain ⟨e1, e2⟩ := lt_of_exists H L (mates_exists hy).2
          obtain ⟨c', hc'⟩ := isCell_of_lt H L e1 e2
          exact hno c' y.face ((mates_across hi hc').1 hy)
        have hext := Q.ext _ hIn hy
        change ((T r).getAdjCell i f).bind toNone = none ∧ ((T r).getAdjRank i f).bind toNone = none at hext
        rw [hext.1]
        dsimp only
        rw [hext.2]
    · intro v g
      have hc2 := congrFun (congrFun hc1 g) v
      change psi' r g v a i = (K.update (T r) (D r) (source r) i a (psi' r, bnd)).1 g v a i at hc2
      rw [← hS r i c hi g v a, hc2]
      unfold Kernel.update
      simp only [true_and, g.2, dite_true]
      rw [R.volume, R.area, R.sigmaT, Option.getD_some, Option.getD_some, Option.getD_some]
      congr 1
      funext v g
      exact hsrc r hr i c e1 g g.2 v a ha
  · -- the order of the updates
    refine ⟨log.filterMap (task T), fun a ha c hc => ?_, fun l1 a c l2 hlog => ?_⟩
    · obtain ⟨r, i, hi⟩ := isCell_exists H hc
      obtain ⟨e1, hr, hil, -⟩ := isCell_lg H L hi
      obtain ⟨k, hk⟩ := hcomp r i a hr hil ha
      exact List.mem_filterMap.2 ⟨_, hk, by simp [task, e1]⟩
    · obtain ⟨m1, m2, q1, q2, q3⟩ := List.filterMap_eq_append_iff.1 hlog
      obtain ⟨m3, e, m4, q4, q5, q6, q7⟩ := List.filterMap_eq_cons_iff.1 q3
      have hin := hord (m1 ++ m3) e m4 (by rw [q1, q4]; simp)
      cases e with
      | side => simp [task] at q6
      | upd r i a' k =>
        obtain ⟨h1, h2, h3, -, h5⟩ := hin
        obtain ⟨c0, hc0⟩ := isCell_of_lt H L h1 h2
        obtain ⟨e1, hr, hil, hcl⟩ := isCell_lg H L hc0
        have q6' : (a', c0) = (a, c) := by
          have := q6
          simp only [task, e1, Option.map_some, Option.some.injEq] at this
          exact this
        rw [Prod.mk.injEq] at q6'
        obtain ⟨rfl, rfl⟩ := q6'
        refine ⟨h3, hcl, fun f x c' f' hx hpos hac => ?_⟩
        obtain ⟨r', i', hi'⟩ := isCell_exists H (across_lt H.tets hac).2
        have hm : Mates m P ⟨r, i, f⟩ ⟨r', i', f'⟩ := (mates_across hc0 hi').2 hac
        have hy := (mateOf_iff H).2 hm
        have hneed : Needs (K.cfg n T D sched source psi0) (mateOf m P) ⟨r, i, f⟩ a' := by
          refine ⟨?_, _, hy, Or.inl rfl⟩
          show (!K.outgoing (D r) a' i f) = true
          unfold Kernel.outgoing
          rw [dot_unique H.tets (dot_of H L hD hc0 h3 f) hx, hpos]; rfl
        obtain ⟨k', hk'⟩ := (h5 f _ hy hneed).1
        have hmem : (a', c') ∈ (m1 ++ m3).filterMap (task T) :=
          List.mem_filterMap.2 ⟨_, hk', by simp [task, (isCell_lg H L hi').1]⟩
        rw [List.filterMap_append, q2] at hmem
        rcases List.mem_append.1 hmem with hh | hh
        · exact hh
        · obtain ⟨e', z1, z2⟩ := List.mem_filterMap.1 hh
          rw [q5 e' z1] at z2
          simp at z2

/-- What a sweep that has returned on all ranks leaves. -/
theorem swept_solution (H : Created m pv n P) (hn : n < uintMax) (L : Loaded val P T) (hD : Started K coord P T D)
    (hcons : Consistent K coord m) (hs : ∀ r < n, nA * (T r).nCells < 2 ^ 64) {psi' : Nat → Psi F}
    (h : K.Swept n T D source psi0 psi') {srcS : Psi F} (hsrc : Holds nA nG n T source srcS) :
    ∃ psiS : Psi F, Solution K coord m srcS psiS ∧ Holds nA nG n T psi' psiS ∧
      ∃ log : List (Nat × Nat), (∀ a < nA, ∀ c < m.numCells, (a, c) ∈ log) ∧
        ∀ l1 a c l2, log = l1 ++ (a, c) :: l2 → a < nA ∧ c < m.numCells ∧ ∀ f x c' f', Dot K coord m a c f x → K.positive x = false →
          Across m c f c' f' → (a, c') ∈ l1 := by
  obtain ⟨sched, s, ht, hreach, hfin⟩ := h
  have Q := cfg_linked (source := source) (psi0 := psi0) H hn L hD hcons ht hs
  exact log_solution H hn L hD Q (hreach.inv Q).ordered (complete_of_finished Q hreach (fun r hr => (hfin r hr).1))
    (fun r hr => by rw [← (hreach.inv Q).data r hr, (hfin r hr).2]) hsrc

end Verif.Floating
