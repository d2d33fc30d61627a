import Verif.Floating.Jacobi
import Verif.Domain.Exchange

/-!
# Block Jacobi ends with the bits of the sweep (C102)
-/
set_option linter.unusedSectionVars false
namespace Verif.Floating

open Verif.MeshFile Verif.TychoMesh Verif.Traverse Verif.Floating.Spec Verif.PsiFile Verif.Storage

variable {F : Type} {nA nG : Nat} {K : Kernel F nA nG} {coord : Nat → F}
variable {S : Type} [LinearOrder S] {val : Nat → S} {m : SerialMesh} {pv : List Nat} {n : Nat} {P : ParallelMesh} {T : Nat → Mesh}
variable {D : Nat → Tables F} {sched : Schedule F} {source psi0 : Nat → Psi F}

theorem isCell_part (H : Created m pv n P) {r i c : Nat} (h : IsCell P r i c) : pv[c]? = some r := by
  obtain ⟨part, cell, hp, hc, rfl⟩ := h
  exact (cell_rank H hp hc).2

/-! ### A local sweep -/

theorem local_linked (Q : Linked (K.cfg n T D sched source psi0) (mateOf m P)) :
    Linked (K.localCfg n T D sched source psi0) (mateOf m P) :=
  ⟨Q.threads, Q.size, Q.mate_in, Q.mate_symm, Q.near, Q.far, Q.ext, Q.side_eq, Q.side_cell, Q.side_inj, Q.orient⟩

def localFrame (K : Kernel F nA nG) (n : Nat) (T : Nat → Mesh) (D : Nat → Tables F) (sched : Schedule F) (source psi0 : Nat → Psi F) :
    Frame (K.localCfg n T D sched source psi0) (Fin nG → Fin 4 → F) :=
  let R := frame K n T D sched source psi0
  ⟨R.ok, R.obs, R.bnd, R.init_ok, R.upd_ok, R.set_ok, R.upd_self, R.upd_obs, R.upd_bnd, R.set_self, R.set_bnd, R.set_obs, R.get⟩

/-- A local sweep does not touch the boundary arrays. -/
theorem local_bound {log : List (Event (Fin 3 → Fin nG → F))} (ho : Ordered (K.localCfg n T D sched source psi0) (mateOf m P) log)
    (r : Nat) : (replay (K.localCfg n T D sched source psi0) r log).2 = sched.bound0 r := by
  induction log using List.reverseRecOn with
  | nil => rfl
  | append_singleton log e ih =>
    have ih := ih (ordered_prefix ho)
    have he := ho log e [] rfl
    rw [replay_snoc]
    cases e with
    | upd r' c a k =>
      simp only [applyEvent]
      split
      · exact ih
      · exact ih
    | side r' s a b =>
      exfalso
      obtain ⟨x, y, h1, h2, h3, h4, h5, h6, ⟨-, y', h7, h8⟩, -⟩ := he
      rw [h3, Option.some.injEq] at h7
      subst h7
      rcases h8 with h8 | h8
      · exact absurd h8 (by simp [Kernel.localCfg])
      · exact h4 (h8.trans h1)

/-- Every cell holds what `solve` returns for its neighbours' values and the boundary array. -/
def LocalEq (K : Kernel F nA nG) (n : Nat) (T : Nat → Mesh) (D : Nat → Tables F) (source : Nat → Psi F) (bound : Nat → Bound F)
    (psi : Nat → Psi F) : Prop :=
  ∀ r < n, ∀ i < (T r).nCells, ∀ a < nA, ∀ v (g : Fin nG), psi r g v a i =
    K.solve (((D r).volume[i]?).getD K.zero) (((D r).area[i]?).getD fun _ => K.zero) (K.omega (D r) a i)
      (((D r).sigmaT[i]?).getD K.zero) (faceVertex (T r) i) (K.localBound (T r) (D r) a i (psi r) (bound r)) (fun v g => source r g v a i) v g

theorem local_eq (Q : ∀ sched : Schedule F, 0 < sched.threads → Linked (K.cfg n T D sched source psi0) (mateOf m P))
    {bound : Nat → Bound F} {psi' : Nat → Psi F} (h : K.LocalSwept n T D source psi0 bound psi') : LocalEq K n T D source bound psi' := by
  obtain ⟨sched, s, ht, rfl, hs, hf⟩ := h
  have L' := local_linked (Q sched ht)
  have hsol := (localFrame K n T D sched source psi0).solves L' (hs.inv L').ordered
    (complete_of_finished L' hs (fun r hr => (hf r hr).1))
  intro r hr i hi a ha v g
  have hc := hsol.cell r i a hr hi ha
  have hd : replay (K.localCfg n T D sched source psi0) r s.log = (psi' r, sched.bound0 r) :=
    Prod.ext (by rw [← (hs.inv L').data r hr]; exact (hf r hr).2) (local_bound (hs.inv L').ordered r)
  rw [hd] at hc
  have hc := congrFun (congrFun hc g) v
  change psi' r g v a i = (K.update (T r) (D r) (source r) i a (psi' r, sched.bound0 r)).1 g v a i at hc
  rw [hc]
  unfold Kernel.update
  simp only [true_and, g.2, dite_true]

/-- A cell of a local sweep holds the value of the global solution if its upwind neighbours on the same
rank and the boundary array do. -/
theorem local_agree (H : Created m pv n P) (L : Loaded val P T) (hD : Started K coord P T D)
    (Q : Linked (K.cfg n T D sched source psi0) (mateOf m P)) {bound : Nat → Bound F} {psi : Nat → Psi F}
    (hloc : LocalEq K n T D source bound psi) {srcS star : Psi F} (hstar : Solution K coord m srcS star)
    (hsrc : Holds nA nG n T source srcS) {r i c a : Nat} (hi : IsCell P r i c) (ha : a < nA)
    (hnear : ∀ f x c' f' i', Dot K coord m a c f x → K.positive x = false → Across m c f c' f' → IsCell P r i' c' →
      ∀ (g : Fin nG) v, psi r g v a i' = star g v a c')
    (hfar : ∀ f x c' f' r' i' k w, Dot K coord m a c f x → K.positive x = false → Across m c f c' f' → IsCell P r' i' c' → r' ≠ r →
      OnFace m c' f' k w → ∀ g : Fin nG, bound r g k a (((T r).getSide i f).getD 0) = star g w a c') (g : Fin nG) (v : Fin 4) :
    psi r g v a i = star g v a c := by
  obtain ⟨e1, hr, hil, hcl⟩ := isCell_lg H L hi
  obtain ⟨p', q', sT', sS', R⟩ := row_of H L hD hi
  obtain ⟨p, q, dots, sT, sS, c2f, inc, h1, h2, h3, h4, h5, h6, h7⟩ := hstar c hcl a ha
  obtain rfl := cellPoints_unique h1 R.points
  obtain rfl : q = q' := funext fun f => facePoints_unique H.tets (h2 f) (R.faces f)
  obtain rfl : dots = K.omega (D r) a i := by
    funext f
    have := h3 f
    rw [R.omega a ha f, Option.some.injEq] at this
    exact this.symm
  obtain ⟨rfl, rfl⟩ := sigma_unique h4 R.sigma
  obtain rfl : c2f = faceVertex (T r) i := by
    funext f v
    obtain ⟨k1, k2⟩ := faceVertex_of H L hi f v
    by_cases hv : v = f
    · rw [(h5 f v).1 hv, k1 hv]
    · obtain ⟨g1, e1, d1, a1, a2, a3, a4⟩ := (h5 f v).2 hv
      obtain ⟨g2, e2, d2, b1, b2, b3, b4⟩ := k2 hv
      obtain rfl := faceOf_unique H.tets a1 b1
      rw [a2, Option.some.injEq] at b2
      rw [a3, Option.some.injEq] at b3
      subst b2 b3
      exact faceNodes_inj H.tets a1 a2 (a4.symm.trans b4)
  rw [hloc r hr i hil a ha v g, h7 v g, R.volume, R.area, R.sigmaT, Option.getD_some, Option.getD_some, Option.getD_some]
  have hinc : K.localBound (T r) (D r) a i (psi r) (bound r) = inc := by
    funext k f g
    obtain ⟨i1, i2⟩ := h6 k f g
    unfold Kernel.localBound Kernel.outgoing
    cases hpos : K.positive (K.omega (D r) a i f)
    swap
    · rw [i1 hpos]; rfl
    obtain ⟨i2, i3⟩ := i2 hpos
    have hdot : Dot K coord m a c f (K.omega (D r) a i f) := ⟨q f, p, h2 f, h1, h3 f⟩
    have hIn : (K.cfg n T D sched source psi0).In ⟨r, i, f⟩ := ⟨hr, hil⟩
    rw [if_neg (by simp)]
    by_cases hex : ∃ c' f', Across m c f c' f'
    · obtain ⟨c', f', hac⟩ := hex
      obtain ⟨r', i', hi'⟩ := isCell_exists H (across_lt H.tets hac).2
      have hm : Mates m P ⟨r, i, f⟩ ⟨r', i', f'⟩ := (mates_across hi hi').2 hac
      have hy := (mateOf_iff H).2 hm
      obtain ⟨w, a1, a2, -⟩ := onFace_of H L hi' f' k
      rw [i2 c' f' w hac a2]
      by_cases hrr : r' = r
      · subst hrr
        have hnr := (Q.near _ _ hIn hy rfl).1
        change ((T r').getAdjCell i f).bind toNone = some i' at hnr
        rw [hnr]
        obtain ⟨c1, c2, g1, k1, k2, k3⟩ := id hm
        obtain ⟨w1, n1, n2⟩ := neighbor_vertices H L k1 k2 k3 rfl k
        dsimp only at n1 n2 ⊢
        rw [n1, Option.getD_some]
        rw [a1, Option.some.injEq] at n2
        rw [← n2]
        exact hnear f _ c' f' i' hdot hpos hac hi' g w
      · have hfr := Q.far _ _ hIn hy hrr
        change ((T r).getAdjCell i f).bind toNone = none ∧ ((T r).getAdjRank i f).bind toNone = some r' at hfr
        rw [hfr.1]
        dsimp only
        rw [hfr.2]
        exact hfar f _ c' f' r' i' k w hdot hpos hac hi' hrr a2 g
    · push Not at hex
      have hy : mateOf m P ⟨r, i, f⟩ = none := by
        refine mateOf_none.2 fun y hy => ?_
        obtain ⟨e1, e2⟩ := lt_of_exists H L (mates_exists hy).2
        obtain ⟨c', hc'⟩ := isCell_of_lt H L e1 e2
        exact hex c' y.face ((mates_across hi hc').1 hy)
      have hext := Q.ext _ hIn hy
      change ((T r).getAdjCell i f).bind toNone = none ∧ ((T r).getAdjRank i f).bind toNone = none at hext
      rw [hext.1]
      dsimp only
      rw [hext.2, i3 hex]
  rw [hinc]
  congr 1
  funext v g
  exact hsrc r hr i c e1 g g.2 v a ha

/-- Along an upwind order. -/
theorem local_agree_all (H : Created m pv n P) (L : Loaded val P T) (hD : Started K coord P T D)
    (Q : Linked (K.cfg n T D sched source psi0) (mateOf m P)) {bound : Nat → Bound F} {psi : Nat → Psi F}
    (hloc : LocalEq K n T D source bound psi) {srcS star : Psi F} (hstar : Solution K coord m srcS star)
    (hsrc : Holds nA nG n T source srcS) {log : List (Nat × Nat)} (hc : ∀ a < nA, ∀ c < m.numCells, (a, c) ∈ log)
    (ho : ∀ l1 a c l2, log = l1 ++ (a, c) :: l2 → a < nA ∧ c < m.numCells ∧ ∀ f x c' f', Dot K coord m a c f x →
      K.positive x = false → Across m c f c' f' → (a, c') ∈ l1) (G : Nat → Nat → Prop)
    (hG : ∀ a c f x c' f', a < nA → G a c → Dot K coord m a c f x → K.positive x = false → Across m c f c' f' →
      pv[c']? = pv[c]? → G a c')
    (hfar : ∀ a c r i f x c' f' r' i' k w, a < nA → G a c → IsCell P r i c → Dot K coord m a c f x → K.positive x = false →
      Across m c f c' f' → IsCell P r' i' c' → r' ≠ r → OnFace m c' f' k w →
      (G a c' → ∀ (g : Fin nG) v, psi r' g v a i' = star g v a c') →
      ∀ g : Fin nG, bound r g k a (((T r).getSide i f).getD 0) = star g w a c') :
    ∀ a < nA, ∀ c, G a c → ∀ r i, IsCell P r i c → ∀ (g : Fin nG) v, psi r g v a i = star g v a c := by
  have key : ∀ l1 l2, log = l1 ++ l2 → ∀ a c, (a, c) ∈ l1 → G a c → ∀ r i, IsCell P r i c → ∀ (g : Fin nG) v,
      psi r g v a i = star g v a c := by
    intro l1
    induction l1 using List.reverseRecOn with
    | nil => simp
    | append_singleton l1 t ih =>
      intro l2 hl a c hac hg r i hi
      have ih := ih (t :: l2) (by rw [hl]; simp)
      rcases List.mem_append.1 hac with hac | hac
      · exact ih a c hac hg r i hi
      obtain rfl := List.mem_singleton.1 hac
      obtain ⟨ha, hcl, hup⟩ := ho l1 a c l2 (by rw [hl]; simp)
      refine local_agree H L hD Q hloc hstar hsrc hi ha ?_ ?_
      · intro f x c' f' i' hx hp hac' hi'
        exact ih a c' (hup f x c' f' hx hp hac') (hG a c f x c' f' ha hg hx hp hac' ((isCell_part H hi').trans (isCell_part H hi).symm)) r i' hi'
      · intro f x c' f' r' i' k w hx hp hac' hi' hne hw
        exact hfar a c r i f x c' f' r' i' k w ha hg hi hx hp hac' hi' hne hw
          fun hg' => ih a c' (hup f x c' f' hx hp hac') hg' r' i' hi'
  intro a ha c hg r i hi
  exact key log [] (by simp) a c (hc a ha c (isCell_lg H L hi).2.2.2) hg r i hi

/-! ### The exchange -/

theorem unpack_fold (T : Mesh) (l : List (Packet F nG)) (b : Bound F) (a s : Nat) :
    (∃ p ∈ l, p.angle = a ∧ (T.getGLSide p.gSide).getD 0 = s ∧ ∀ (g : Fin nG) k, l.foldl (unpack T) b g k a s = p.data k g) ∨
    ((∀ p ∈ l, ¬ (p.angle = a ∧ (T.getGLSide p.gSide).getD 0 = s)) ∧ ∀ g k, l.foldl (unpack T) b g k a s = b g k a s) := by
  induction l using List.reverseRecOn with
  | nil => exact .inr ⟨by simp, fun _ _ => rfl⟩
  | append_singleton l p ih =>
    rw [List.foldl_append, List.foldl_cons, List.foldl_nil]
    by_cases hp : p.angle = a ∧ (T.getGLSide p.gSide).getD 0 = s
    · refine .inl ⟨p, by simp, hp.1, hp.2, fun g k => ?_⟩
      unfold unpack
      rw [dif_pos ⟨hp.1.symm, hp.2.symm, g.2⟩]
    · have e : ∀ g k, unpack T (l.foldl (unpack T) b) p g k a s = l.foldl (unpack T) b g k a s := by
        intro g k
        show (if h : _ then _ else _) = _
        rw [dif_neg]
        rintro ⟨h1, h2, -⟩
        exact hp ⟨h1.symm, h2.symm⟩
      rcases ih with ⟨q, h1, h2, h3, h4⟩ | ⟨h1, h2⟩
      · exact .inl ⟨q, by simp [h1], h2, h3, fun g k => (e g k).trans (h4 g k)⟩
      · refine .inr ⟨fun q hq => ?_, fun g k => (e g k).trans (h2 g k)⟩
        rcases List.mem_append.1 hq with hq | hq
        · exact h1 q hq
        · obtain rfl := List.mem_singleton.1 hq
          exact hp

theorem mem_adjRanks (T : Mesh) (q : Nat) : q ∈ adjRanks T ↔ ∃ c < T.nCells, ∃ f : Fin 4, (T.getAdjCell c f).bind toNone = none ∧
    (T.getAdjRank c f).bind toNone = some q := by
  have key : ∀ (l acc : List Nat), q ∈ l.foldl (fun l q => if q ∈ l then l else l ++ [q]) acc ↔ q ∈ acc ∨ q ∈ l := by
    intro l
    induction l with
    | nil => simp
    | cons x l ih =>
      intro acc
      rw [List.foldl_cons, ih]
      split
      · rename_i hx
        constructor
        · rintro (h | h)
          · exact .inl h
          · exact .inr (List.mem_cons_of_mem _ h)
        · rintro (h | h)
          · exact .inl h
          · rcases List.mem_cons.1 h with rfl | h
            · exact .inl hx
            · exact .inr h
      · simp only [List.mem_append, List.mem_cons, List.not_mem_nil, or_false]
        tauto
  unfold adjRanks
  rw [key]
  simp only [List.not_mem_nil, false_or, List.mem_flatMap, List.mem_range, List.mem_filterMap, List.mem_finRange, true_and,
    Option.ite_none_right_eq_some]

theorem mem_packets {T : Mesh} {D : Tables F} {psi : Psi F} {q : Nat} {p : Packet F nG} : p ∈ K.packets T D psi q ↔
    ∃ c < T.nCells, ∃ f : Fin 4, (T.getAdjRank c f).bind toNone = some q ∧ ∃ a < nA, K.outgoing D a c f = true ∧
      p = ⟨(T.getLGSide ((T.getSide c f).getD 0)).getD 0, a, fun k g => psi g ((T.getFaceToCellVrtx c f k).getD 0) a c⟩ := by
  unfold Kernel.packets
  simp only [List.mem_flatMap, List.mem_range, List.mem_finRange, true_and]
  refine exists_congr fun c => and_congr_right fun _ => exists_congr fun f => ?_
  split
  · rename_i h
    simp only [List.mem_filterMap, List.mem_range, Option.ite_none_right_eq_some, Option.some.injEq, h, true_and]
    exact exists_congr fun a => and_congr_right fun _ => and_congr_right fun _ => eq_comm
  · rename_i h
    simp [h]

/-- C102: after the exchange every incoming partition face holds the values of the cell across, node by
node. -/
theorem exchange_value (H : Created m pv n P) (hn : n < uintMax) (L : Loaded val P T) (hD : Started K coord P T D)
    (hsort : Sorted K coord m) (hs : ∀ r < n, nA * (T r).nCells < 2 ^ 64) {psi : Nat → Psi F} {bound bound' : Nat → Bound F}
    (hx : K.Exchange n T D psi bound bound') {a c r i : Nat} {f : Fin 4} {x : F} {c' r' i' : Nat} {f' : Fin 4} {k : Fin 3} {w : Fin 4}
    (ha : a < nA) (hi : IsCell P r i c) (hdot : Dot K coord m a c f x) (hp : K.positive x = false) (hac : Across m c f c' f')
    (hi' : IsCell P r' i' c') (hne : r' ≠ r) (hw : OnFace m c' f' k w) (g : Fin nG) :
    bound' r g k a (((T r).getSide i f).getD 0) = psi r' g w a i' := by
  have Q := cfg_linked (source := psi) (psi0 := psi) (sched := ⟨1, 1, .tycho, true, fun _ _ _ => 0, bound⟩) H hn L hD hsort.consistent
    Nat.one_pos hs
  obtain ⟨-, hr, hil, -⟩ := isCell_lg H L hi
  obtain ⟨-, hr', hil', -⟩ := isCell_lg H L hi'
  have hm : Mates m P ⟨r, i, f⟩ ⟨r', i', f'⟩ := (mates_across hi hi').2 hac
  have hy := (mateOf_iff H).2 hm
  have hIn : (K.cfg n T D ⟨1, 1, .tycho, true, fun _ _ _ => 0, bound⟩ psi psi).In ⟨r, i, f⟩ := ⟨hr, hil⟩
  have hIn' : (K.cfg n T D ⟨1, 1, .tycho, true, fun _ _ _ => 0, bound⟩ psi psi).In ⟨r', i', f'⟩ := ⟨hr', hil'⟩
  have hy' := Q.mate_symm _ _ hIn hy
  have hfar := Q.far _ _ hIn hy hne
  have hfar' := Q.far _ _ hIn' hy' (Ne.symm hne)
  have hside := Q.side_eq _ _ hIn' hy' (Ne.symm hne)
  change ((T r).getGLSide (((T r').getLGSide (((T r').getSide i' f').getD 0)).getD 0)).getD 0 = ((T r).getSide i f).getD 0 at hside
  obtain ⟨w', a1, a2, -⟩ := onFace_of H L hi' f' k
  obtain rfl := onFace_unique H.tets hw a2
  have hout : K.outgoing (D r') a i' f' = true :=
    hsort.crossed _ _ _ _ hac a ha _ _ hdot (dot_of H L hD hi' ha f') hp
  obtain ⟨order, hperm, hb⟩ := hx r hr
  rw [hb]
  rcases unpack_fold (T r) (order.flatMap fun q => K.packets (T q) (D q) (psi q) r) (bound r) a (((T r).getSide i f).getD 0) with
    ⟨p, h1, h2, h3, h4⟩ | ⟨h1, -⟩
  · rw [h4 g k]
    obtain ⟨q, hq, hpk⟩ := List.mem_flatMap.1 h1
    obtain ⟨j, hj, f2, hadj, a', ha', -, rfl⟩ := mem_packets.1 hpk
    dsimp only at h2 h3 ⊢
    subst h2
    -- the sender is a rank, and the face is a partition face
    have hqn : q < n ∧ q ≠ r := by
      obtain ⟨d', hd', f4, e1, e2⟩ := (mem_adjRanks (T r) q).1 (hperm.mem_iff.1 hq)
      have hIn4 : (K.cfg n T D ⟨1, 1, .tycho, true, fun _ _ _ => 0, bound⟩ psi psi).In ⟨r, d', f4⟩ := ⟨hr, hd'⟩
      rcases hy4 : mateOf m P ⟨r, d', f4⟩ with _ | y4
      · have := (Q.ext _ hIn4 hy4).2
        change ((T r).getAdjRank d' f4).bind toNone = none at this
        rw [this] at e2
        simp at e2
      · by_cases h44 : y4.rank = r
        · have := (Q.near _ _ hIn4 hy4 h44).1
          change ((T r).getAdjCell d' f4).bind toNone = some y4.cell at this
          rw [this] at e1
          simp at e1
        · have := (Q.far _ _ hIn4 hy4 h44).2
          change ((T r).getAdjRank d' f4).bind toNone = some y4.rank at this
          rw [this, Option.some.injEq] at e2
          subst e2
          exact ⟨(Q.mate_in _ _ hIn4 hy4).1, h44⟩
    have hInq : (K.cfg n T D ⟨1, 1, .tycho, true, fun _ _ _ => 0, bound⟩ psi psi).In ⟨q, j, f2⟩ := ⟨hqn.1, hj⟩
    rcases hyq : mateOf m P ⟨q, j, f2⟩ with _ | y
    · have := (Q.ext _ hInq hyq).2
      change ((T q).getAdjRank j f2).bind toNone = none at this
      rw [this] at hadj
      simp at hadj
    have hyr : y.rank = r := by
      by_cases hh : y.rank = q
      · have := (Q.near _ _ hInq hyq hh).2
        change ((T q).getAdjRank j f2).bind toNone = some q at this
        rw [this, Option.some.injEq] at hadj
        exact absurd hadj hqn.2
      · have := (Q.far _ _ hInq hyq hh).2
        change ((T q).getAdjRank j f2).bind toNone = some y.rank at this
        rw [this, Option.some.injEq] at hadj
        exact hadj
    have hyne : y.rank ≠ q := by rw [hyr]; exact Ne.symm hqn.2
    have hs2 := Q.side_eq _ _ hInq hyq hyne
    change ((T y.rank).getGLSide (((T q).getLGSide (((T q).getSide j f2).getD 0)).getD 0)).getD 0 = ((T y.rank).getSide y.cell y.face).getD 0 at hs2
    rw [hyr, h3] at hs2
    have hyIn := Q.mate_in _ _ hInq hyq
    have hyy := Q.mate_symm _ _ hInq hyq
    have hxy := Q.side_inj ⟨r, i, f⟩ y ⟨r', i', f'⟩ ⟨q, j, f2⟩ hIn hyIn hy hyy hne (Ne.symm hyne) hyr.symm (by
      change ((T r).getSide i f).getD 0 = ((T y.rank).getSide y.cell y.face).getD 0
      rw [hyr]
      exact hs2)
    subst hxy
    rw [hy, Option.some.injEq] at hyy
    cases hyy
    rw [a1, Option.getD_some]
  · exfalso
    refine h1 ⟨((T r').getLGSide (((T r').getSide i' f').getD 0)).getD 0, a, fun k g => psi r' g (((T r').getFaceToCellVrtx i' f' k).getD 0) a i'⟩
      (List.mem_flatMap.2 ⟨r', hperm.mem_iff.2 ((mem_adjRanks _ _).2 ⟨i, hil, f, hfar.1, hfar.2⟩), mem_packets.2
        ⟨i', hil', f', hfar'.2, a, ha, hout, rfl⟩⟩) ⟨rfl, hside⟩

/-- A run over the rationals on the same mesh in which the machine's signs are those of `±1`. -/
def shadow (K : Kernel F nA nG) (n : Nat) (T : Nat → Mesh) (D : Nat → Tables F) : SweepRun ℚ where
  nRanks := n
  nAngles := nA
  nThreads := 1
  maxCompute := 1
  nGroups := 0
  doComm := true
  protocol := .tycho
  rendezvous := true
  gauss := .original
  view r :=
    { adjCell := fun c f => ((T r).getAdjCell c f).bind toNone
      adjRank := fun c f => ((T r).getAdjRank c f).bind toNone
      side := fun c f => ((T r).getSide c f).getD 0
      neighborVrtx := fun _ _ _ => 0
      cellToFaceVrtx := fun _ _ _ => 0
      omegaDotN := fun a c f => if K.outgoing (D r) a c f then 1 else -1
      cellVolume := fun _ => 0
      faceArea := fun _ _ => 0 }
  nCells r := (T r).nCells
  lgSide r s := ((T r).getLGSide s).getD 0
  glSide r g := ((T r).getGLSide g).getD 0
  sideCell r s := ((T r).getSideCell s).getD 0
  faceToCellVrtx _ _ _ _ := 0
  sigmaT _ _ := 0
  source _ _ _ _ _ := 0
  priority _ _ _ := 0
  psi0 _ _ _ _ _ := 0
  bound0 _ _ _ _ _ := 0
  scratch _ _ := 0

theorem shadow_outgoing (r a c : Nat) (f : Fin 4) : ((shadow K n T D).mesh r).outgoing a c f = K.outgoing (D r) a c f := by
  show decide ((if K.outgoing (D r) a c f then (1 : ℚ) else -1) > 0) = _
  cases K.outgoing (D r) a c f
  · rw [if_neg (by simp)]; exact decide_eq_false (by norm_num)
  · rw [if_pos rfl]; exact decide_eq_true (by norm_num)

/-- C102: a message of the exchange has the number of packets its receiver expects. -/
theorem packet_counts (H : Created m pv n P) (hn : n < uintMax) (L : Loaded val P T) (hD : Started K coord P T D)
    (hsort : Sorted K coord m) (hs : ∀ r < n, nA * (T r).nCells < 2 ^ 64) (psi : Psi F) {r q : Nat} (hr : r < n) (hq : q < n) (hne : q ≠ r) :
    (K.packets (T q) (D q) psi r).length = K.numRecv (T r) (D r) q := by
  obtain ⟨Q, hcr, -⟩ := cfg_sorted H hn L hD hsort hs (fun _ => psi) (fun _ => psi)
    ⟨1, 1, .tycho, true, fun _ _ _ => 0, fun _ _ _ _ _ => K.zero⟩ Nat.one_pos
  have Q' : Linked (shadow K n T D).cfg (mateOf m P) := by
    refine ⟨Nat.one_pos, hs, Q.mate_in, Q.mate_symm, Q.near, Q.far, Q.ext, Q.side_eq, Q.side_cell, Q.side_inj, ?_⟩
    intro x y a hx hy ha h
    have h' : ((shadow K n T D).mesh x.rank).outgoing a x.cell x.face = true := by simpa [Cfg.outDir, SweepRun.cfg] using h
    show (!((shadow K n T D).mesh y.rank).outgoing a y.cell y.face) = true
    rw [shadow_outgoing] at h' ⊢
    exact Q.orient x y a hx hy ha (by simpa [Cfg.outDir, Kernel.cfg, Kernel.mesh] using h')
  have X' : Crossed (shadow K n T D).cfg (mateOf m P) := by
    intro x y a hx hy ha h
    have h' : (!((shadow K n T D).mesh x.rank).outgoing a x.cell x.face) = true := h
    rw [shadow_outgoing] at h'
    have := hcr x y a hx hy ha h'
    have : K.outgoing (D y.rank) a y.cell y.face = true := by simpa [Cfg.outDir, Kernel.cfg, Kernel.mesh] using this
    rw [← shadow_outgoing (n := n) (T := T)] at this
    simpa [Cfg.outDir, SweepRun.cfg] using this
  have key := Verif.Domain.counts_agree Q' X' hr hq hne
  have e1 : (K.packets (T q) (D q) psi r).length = (Verif.Domain.metaData (shadow K n T D) true q r).length := by
    unfold Kernel.packets Verif.Domain.metaData
    simp only [List.length_flatMap]
    congr 1
    refine List.map_congr_left fun c _ => ?_
    congr 1
    refine List.map_congr_left fun f _ => ?_
    show _ = (if ((T q).getAdjRank c f).bind toNone = some r then _ else []).length
    split
    · rw [← List.length_map (f := fun p : Packet F nG => p.angle), ← List.length_map (f := fun z : Nat × Face × Nat => z.2.2), List.map_filterMap,
        List.map_filterMap]
      congr 1
      refine List.filterMap_congr fun a _ => ?_
      rw [shadow_outgoing]
      cases K.outgoing (D q) a c f <;> rfl
    · rfl
  have e2 : K.numRecv (T r) (D r) q = (Verif.Domain.metaData (shadow K n T D) false r q).length := by
    unfold Kernel.numRecv Verif.Domain.metaData
    simp only [List.length_flatMap]
    congr 1
    refine List.map_congr_left fun c _ => ?_
    congr 1
    refine List.map_congr_left fun f _ => ?_
    show _ = (if ((T r).getAdjRank c f).bind toNone = some q then _ else []).length
    split
    · rw [← List.filterMap_eq_filter, ← List.length_map (f := fun z : Nat × Face × Nat => z.2.2), List.map_filterMap]
      congr 1
      refine List.filterMap_congr fun a _ => ?_
      rw [shadow_outgoing]
      cases h : K.outgoing (D r) a c f <;> simp [Option.guard, h]
    · rfl
  rw [e1, e2]
  exact key.symm

/-! ### The iteration -/

/-- Two fluxes hold the same values in all cells of all ranks. -/
def SameOn (nA nG n : Nat) (T : Nat → Mesh) (psi psi' : Nat → Psi F) : Prop :=
  ∀ r < n, ∀ i < (T r).nCells, ∀ a < nA, ∀ v, ∀ g < nG, psi r g v a i = psi' r g v a i

theorem JacobiLoop.last {stop : Stop F} {N iter : Nat} {psi prev : Nat → Psi F} {bound : Nat → Bound F} {sweeps : List (Nat → Psi F)}
    {psiEnd : Nat → Psi F} {boundEnd : Nat → Bound F} (h : K.JacobiLoop stop N n T D source iter psi prev bound sweeps psiEnd boundEnd) :
    psiEnd = sweeps.getLastD psi := by
  induction h with
  | limit => rfl
  | conv => rfl
  | @next _ _ _ _ psi' _ rest _ _ _ _ _ _ _ ih =>
    rw [ih]
    cases rest with
    | nil => rfl
    | cons p ps => rfl

theorem JacobiLoop.exact (H : Created m pv n P) (hn : n < uintMax) (L : Loaded val P T) (hD : Started K coord P T D)
    (hsort : Sorted K coord m) (hs : ∀ r < n, nA * (T r).nCells < 2 ^ 64) {srcS star : Psi F} (hstar : Solution K coord m srcS star)
    (hsrc : Holds nA nG n T source srcS) {log : List (Nat × Nat)} (hc : ∀ a < nA, ∀ c < m.numCells, (a, c) ∈ log)
    (ho : ∀ l1 a c l2, log = l1 ++ (a, c) :: l2 → a < nA ∧ c < m.numCells ∧ ∀ f x c' f', Dot K coord m a c f x →
      K.positive x = false → Across m c f c' f' → (a, c') ∈ l1)
    {stop : Stop F} {N iter : Nat} {psi prev : Nat → Psi F} {bound : Nat → Bound F} {sweeps : List (Nat → Psi F)}
    {psiEnd : Nat → Psi F} {boundEnd : Nat → Bound F} (h : K.JacobiLoop stop N n T D source iter psi prev bound sweeps psiEnd boundEnd)
    (j : Nat) (hx : 0 < j → ∃ b, K.Exchange n T D psi b bound)
    (hprev : 0 < j → ∀ a < nA, ∀ c, (∀ k, Crossings K coord m pv a c k → k < j) → ∀ r i, IsCell P r i c → ∀ (g : Fin nG) v,
      psi r g v a i = star g v a c) :
    ∀ l (hl : l < sweeps.length), ∀ a < nA, ∀ c, (∀ k, Crossings K coord m pv a c k → k ≤ l + j) → ∀ r i, IsCell P r i c →
      ∀ (g : Fin nG) v, sweeps[l] r g v a i = star g v a c := by
  have step : ∀ {psi psi' : Nat → Psi F} {bound : Nat → Bound F} (j : Nat), K.LocalSwept n T D source psi bound psi' →
      (0 < j → ∃ b, K.Exchange n T D psi b bound) →
      (0 < j → ∀ a < nA, ∀ c, (∀ k, Crossings K coord m pv a c k → k < j) → ∀ r i, IsCell P r i c → ∀ (g : Fin nG) v,
        psi r g v a i = star g v a c) →
      ∀ a < nA, ∀ c, (∀ k, Crossings K coord m pv a c k → k ≤ j) → ∀ r i, IsCell P r i c → ∀ (g : Fin nG) v,
        psi' r g v a i = star g v a c := by
    intro psi psi' bound j hsw hx hprev
    have hl := local_eq (m := m) (P := P) (fun sched ht => cfg_linked H hn L hD hsort.consistent ht hs) hsw
    refine local_agree_all H L hD (cfg_linked (source := source) (psi0 := psi) (sched := ⟨1, 1, .tycho, true, fun _ _ _ => 0, bound⟩)
      H hn L hD hsort.consistent Nat.one_pos hs) hl hstar hsrc hc ho (fun a c => ∀ k, Crossings K coord m pv a c k → k ≤ j) ?_ ?_
    · intro a c f x c' f' _ hg hx hp hac hpv k hk
      exact hg k (.within hx hp hac hpv hk)
    · intro a c r i f x c' f' r' i' k w ha hg hi hd hp hac hi' hne hw _ g
      have hpv : pv[c']? ≠ pv[c]? := by
        rw [isCell_part H hi, isCell_part H hi']
        simpa using hne
      have hj : 0 < j := by
        have := hg 1 (.between hd hp hac hpv (.nil _))
        omega
      obtain ⟨b, hb⟩ := hx hj
      rw [exchange_value H hn L hD hsort hs hb ha hi hd hp hac hi' hne hw g]
      refine hprev hj a ha c' (fun k hk => ?_) r' i' hi' g w
      have := hg (k + 1) (.between hd hp hac hpv hk)
      omega
  induction h generalizing j with
  | limit => intro l hl; simp at hl
  | conv h hsw _ =>
    intro l hl
    obtain rfl : l = 0 := by simpa using hl
    intro a ha c hk
    exact step j hsw hx hprev a ha c fun k hk' => by have := hk k hk'; omega
  | next h hsw _ hex _ ih =>
    have h0 := step j hsw hx hprev
    intro l hl a ha c hk
    cases l with
    | zero => exact h0 a ha c fun k hk' => by have := hk k hk'; omega
    | succ l =>
      exact ih (j + 1) (fun _ => ⟨_, hex⟩) (fun _ a ha c hk => h0 a ha c fun k hk' => by have := hk k hk'; omega) l
        (by simpa using hl) a ha c fun k hk' => by have := hk k hk'; omega

variable {S' : Type} [LinearOrder S'] {val' : Nat → S'} {pv' : List Nat} {n' : Nat} {P' : ParallelMesh} {T' : Nat → Mesh}
variable {D' : Nat → Tables F}

/-- C102: let a sweep of the traversal, on any partition, return with `psi'`. From any flux and any boundary arrays,
local sweep number `i + 1` of block Jacobi with the same source has, to the last bit, the values of `psi'` in every cell
from which one cannot go upwind across more than `i` faces between parts. -/
theorem jacobi_cells (H : Created m pv n P) (hn : n < uintMax) (L : Loaded val P T) (hD : Started K coord P T D)
    (H' : Created m pv' n' P') (hn' : n' < uintMax) (L' : Loaded val' P' T') (hD' : Started K coord P' T' D')
    (hsort : Sorted K coord m) (hs : ∀ r < n, nA * (T r).nCells < 2 ^ 64) (hs' : ∀ r < n', nA * (T' r).nCells < 2 ^ 64)
    {srcS : Psi F} {source source' : Nat → Psi F} (hsrc : Holds nA nG n T source srcS) (hsrc' : Holds nA nG n' T' source' srcS)
    {stop : Stop F} {N : Nat} {psi0 psi0' psi' psiEnd : Nat → Psi F} {bound boundEnd : Nat → Bound F} {sweeps : List (Nat → Psi F)}
    (h : K.Jacobi stop N n T D source psi0 bound sweeps psiEnd boundEnd) (h' : K.Swept n' T' D' source' psi0' psi') {i : Nat}
    (hi : i < sweeps.length) {a c : Nat} (ha : a < nA) (hc : ∀ k, Crossings K coord m pv a c k → k ≤ i)
    {r r' j j' : Nat} (hr : r < n) (hj : (T r).getLGCell j = some c) (hr' : r' < n') (hj' : (T' r').getLGCell j' = some c)
    (g : Nat) (hg : g < nG) (v : Fin 4) : sweeps[i] r g v a j = psi' r' g v a j' := by
  obtain ⟨star, s1, s2, log, s3, s4⟩ := swept_solution H' hn' L' hD' hsort.consistent hs' h' hsrc'
  rw [s2 r' hr' j' c hj' g hg v a ha]
  exact JacobiLoop.exact H hn L hD hsort hs s1 hsrc s3 s4 h 0 (fun h => absurd h (Nat.lt_irrefl _)) (fun h => absurd h (Nat.lt_irrefl _))
    i hi a ha c hc r j (lg_isCell H L hr hj) ⟨g, hg⟩ v

theorem jacobi_star (H : Created m pv n P) (hn : n < uintMax) (L : Loaded val P T) (hD : Started K coord P T D)
    (hsort : Sorted K coord m) (hs : ∀ r < n, nA * (T r).nCells < 2 ^ 64) {srcS star : Psi F} (hstar : Solution K coord m srcS star)
    (hsrc : Holds nA nG n T source srcS) {log : List (Nat × Nat)} (hc : ∀ a < nA, ∀ c < m.numCells, (a, c) ∈ log)
    (ho : ∀ l1 a c l2, log = l1 ++ (a, c) :: l2 → a < nA ∧ c < m.numCells ∧ ∀ f x c' f', Dot K coord m a c f x →
      K.positive x = false → Across m c f c' f' → (a, c') ∈ l1)
    {stop : Stop F} {N : Nat} {psi0 psiEnd : Nat → Psi F} {bound boundEnd : Nat → Bound F} {sweeps : List (Nat → Psi F)}
    (h : K.Jacobi stop N n T D source psi0 bound sweeps psiEnd boundEnd)
    (hk : ∀ a < nA, ∀ c k, Crossings K coord m pv a c k → k < sweeps.length) (hpos : 0 < sweeps.length) :
    Holds nA nG n T psiEnd star := by
  intro r hr i c hic g hg v a ha
  have hlast := JacobiLoop.last h
  have e : psiEnd = sweeps[sweeps.length - 1] := by
    rw [hlast, List.getLastD_eq_getLast?, List.getLast?_eq_getElem?, List.getElem?_eq_getElem (by omega)]
    rfl
  rw [e]
  exact JacobiLoop.exact H hn L hD hsort hs hstar hsrc hc ho h 0 (fun h => absurd h (Nat.lt_irrefl _)) (fun h => absurd h (Nat.lt_irrefl _))
    _ (by omega) a ha c (fun k hk' => by have := hk a ha c k hk'; omega) r i (lg_isCell H L hr hic) ⟨g, hg⟩ v

/-- C102: when it has made more local sweeps than an upwind chain can cross faces between parts, block Jacobi leaves
the bits that the traversal leaves, on the same or any other partition. -/
theorem jacobi_bitwise (H : Created m pv n P) (hn : n < uintMax) (L : Loaded val P T) (hD : Started K coord P T D)
    (H' : Created m pv' n' P') (hn' : n' < uintMax) (L' : Loaded val' P' T') (hD' : Started K coord P' T' D')
    (hsort : Sorted K coord m) (hs : ∀ r < n, nA * (T r).nCells < 2 ^ 64) (hs' : ∀ r < n', nA * (T' r).nCells < 2 ^ 64)
    {srcS : Psi F} {source source' : Nat → Psi F} (hsrc : Holds nA nG n T source srcS) (hsrc' : Holds nA nG n' T' source' srcS)
    {stop : Stop F} {N : Nat} {psi0 psi0' psi' psiEnd : Nat → Psi F} {bound boundEnd : Nat → Bound F} {sweeps : List (Nat → Psi F)}
    (h : K.Jacobi stop N n T D source psi0 bound sweeps psiEnd boundEnd) (h' : K.Swept n' T' D' source' psi0' psi')
    (hk : ∀ a < nA, ∀ c k, Crossings K coord m pv a c k → k < sweeps.length) (hpos : 0 < sweeps.length) :
    ∃ psiS, Holds nA nG n T psiEnd psiS ∧ Holds nA nG n' T' psi' psiS := by
  obtain ⟨star, s1, s2, log, s3, s4⟩ := swept_solution H' hn' L' hD' hsort.consistent hs' h' hsrc'
  exact ⟨star, jacobi_star H hn L hD hsort hs s1 hsrc s3 s4 h hk hpos, s2⟩

theorem JacobiLoop.stationary {stop : Stop F} {N iter : Nat} {psi prev : Nat → Psi F} {bound : Nat → Bound F}
    {sweeps : List (Nat → Psi F)} {psiEnd : Nat → Psi F} {boundEnd : Nat → Bound F}
    (h : K.JacobiLoop stop N n T D source iter psi prev bound sweeps psiEnd boundEnd) :
    ∀ i (hi : i + 1 < sweeps.length), ∃ b b', K.Exchange n T D sweeps[i] b b' ∧ K.LocalSwept n T D source sweeps[i] b' sweeps[i + 1] := by
  induction h with
  | limit => intro i hi; simp at hi
  | conv => intro i hi; simp at hi
  | @next iter psi prev bound psi' bound' rest psiEnd boundEnd h hsw _ hex hr ih =>
    intro i hi
    cases i with
    | zero =>
      cases hr with
      | limit => simp at hi
      | conv _ hs2 _ => exact ⟨_, _, hex, hs2⟩
      | next _ hs2 _ _ _ => exact ⟨_, _, hex, hs2⟩
    | succ i => exact ih i (by simpa using hi)

/-- C102: two local sweeps in a row with the same bits: these are the bits of the traversal, however few local sweeps
were made. -/
theorem jacobi_stationary (H : Created m pv n P) (hn : n < uintMax) (L : Loaded val P T) (hD : Started K coord P T D)
    (H' : Created m pv' n' P') (hn' : n' < uintMax) (L' : Loaded val' P' T') (hD' : Started K coord P' T' D')
    (hsort : Sorted K coord m) (hs : ∀ r < n, nA * (T r).nCells < 2 ^ 64) (hs' : ∀ r < n', nA * (T' r).nCells < 2 ^ 64)
    {srcS : Psi F} {source source' : Nat → Psi F} (hsrc : Holds nA nG n T source srcS) (hsrc' : Holds nA nG n' T' source' srcS)
    {stop : Stop F} {N : Nat} {psi0 psi0' psi' psiEnd : Nat → Psi F} {bound boundEnd : Nat → Bound F} {sweeps : List (Nat → Psi F)}
    (h : K.Jacobi stop N n T D source psi0 bound sweeps psiEnd boundEnd) (h' : K.Swept n' T' D' source' psi0' psi') {i : Nat}
    (hi : i + 1 < sweeps.length) (hsame : SameOn nA nG n T sweeps[i] sweeps[i + 1]) :
    ∃ psiS, Holds nA nG n T sweeps[i] psiS ∧ Holds nA nG n' T' psi' psiS := by
  obtain ⟨star, s1, s2, log, s3, s4⟩ := swept_solution H' hn' L' hD' hsort.consistent hs' h' hsrc'
  obtain ⟨b, b', hex, hsw⟩ := JacobiLoop.stationary h i hi
  have hl := local_eq (m := m) (P := P) (fun sched ht => cfg_linked H hn L hD hsort.consistent ht hs) hsw
  have key := local_agree_all H L hD (cfg_linked (source := source) (psi0 := sweeps[i]) (sched := ⟨1, 1, .tycho, true, fun _ _ _ => 0, b'⟩)
    H hn L hD hsort.consistent Nat.one_pos hs) hl s1 hsrc s3 s4 (fun _ _ => True) (fun _ _ _ _ _ _ _ _ _ _ _ _ => trivial) (by
      intro a c r i f x c' f' r' i' k w ha _ hi hd hp hac hi' hne hw ih g
      obtain ⟨-, hr', hil', -⟩ := isCell_lg H L hi'
      rw [exchange_value H hn L hD hsort hs hex ha hi hd hp hac hi' hne hw g, ← ih trivial g w]
      exact hsame r' hr' i' hil' a ha w g g.2)
  refine ⟨star, fun r hr j c hjc g hg v a ha => ?_, s2⟩
  have hj := lg_isCell H L hr hjc
  rw [hsame r hr j (isCell_lg H L hj).2.2.1 a ha v g hg]
  exact key a ha c trivial r j hj ⟨g, hg⟩ v

/-- A loop that ends before its limit has met its test. -/
theorem JacobiLoop.tested {stop : Stop F} {N iter : Nat} {psi prev : Nat → Psi F} {bound : Nat → Bound F}
    {sweeps : List (Nat → Psi F)} {psiEnd : Nat → Psi F} {boundEnd : Nat → Bound F}
    (h : K.JacobiLoop stop N n T D source iter psi prev bound sweeps psiEnd boundEnd) (hl : sweeps.length < N - iter) :
    ∃ l a b, prev :: sweeps = l ++ [a, b] ∧ stop.met nA nG n T a b = true := by
  induction h with
  | limit h => simp at hl; omega
  | conv _ _ hc => exact ⟨[], _, _, rfl, hc⟩
  | @next iter psi prev bound psi' bound' rest _ _ _ _ _ _ _ ih =>
    obtain ⟨l, a, b, e, hm⟩ := ih (by simp only [List.length_cons] at hl; omega)
    exact ⟨prev :: l, a, b, by rw [e]; rfl, hm⟩

/-- C102: with a test that is met only when no entry has changed, block Jacobi that ends before its limit, after at least two
local sweeps, leaves the bits of the traversal. -/
theorem jacobi_strict (H : Created m pv n P) (hn : n < uintMax) (L : Loaded val P T) (hD : Started K coord P T D)
    (H' : Created m pv' n' P') (hn' : n' < uintMax) (L' : Loaded val' P' T') (hD' : Started K coord P' T' D')
    (hsort : Sorted K coord m) (hs : ∀ r < n, nA * (T r).nCells < 2 ^ 64) (hs' : ∀ r < n', nA * (T' r).nCells < 2 ^ 64)
    {srcS : Psi F} {source source' : Nat → Psi F} (hsrc : Holds nA nG n T source srcS) (hsrc' : Holds nA nG n' T' source' srcS)
    {stop : Stop F} (hstrict : Strict stop) {N : Nat} {psi0 psi0' psi' psiEnd : Nat → Psi F} {bound boundEnd : Nat → Bound F}
    {sweeps : List (Nat → Psi F)} (h : K.Jacobi stop N n T D source psi0 bound sweeps psiEnd boundEnd)
    (h' : K.Swept n' T' D' source' psi0' psi') (h2 : 2 ≤ sweeps.length) (hN : sweeps.length < N - 1) :
    ∃ psiS, Holds nA nG n T psiEnd psiS ∧ Holds nA nG n' T' psi' psiS := by
  obtain ⟨l, a, b, e, hm⟩ := JacobiLoop.tested h hN
  cases l with
  | nil => simp only [List.nil_append, List.cons.injEq] at e; rw [e.2] at h2; simp at h2
  | cons x l =>
    simp only [List.cons_append, List.cons.injEq] at e
    obtain ⟨-, rfl⟩ := e
    have hsame : SameOn nA nG n T a b := by
      intro r hr i hi q hq v g hg
      have := hstrict ((List.range n).map fun r => fluxPairs nA nG (T r).nCells (a r) (b r))
        (by simpa [Stop.met, List.map_map, Function.comp_def] using hm) _ (List.mem_map.2 ⟨r, List.mem_range.2 hr, rfl⟩)
        (a r g v q i, b r g v q i) (by
          simp only [fluxPairs, List.mem_flatMap, List.mem_map, List.mem_range, List.mem_finRange, true_and]
          exact ⟨i, hi, q, hq, v, g, hg, rfl⟩)
      exact this
    have hlen : l.length + 1 < (l ++ [a, b]).length := by simp
    obtain ⟨psiS, s1, s2⟩ := jacobi_stationary H hn L hD H' hn' L' hD' hsort hs hs' hsrc hsrc' h h' hlen
      (by simpa [List.getElem_append_right] using hsame)
    refine ⟨psiS, fun r hr i c hic g hg v q hq => ?_, s2⟩
    have el : psiEnd = b := by rw [JacobiLoop.last h]; simp
    rw [el, ← hsame r hr i (isCell_lg H L (lg_isCell H L hr hic)).2.2.1 q hq v g hg]
    have e' : (l ++ [a, b])[l.length]'(by simp) = a := by simp
    rw [e'] at s1
    exact s1 r hr i c hic g hg v q hq

/-- Where the loop went on its test was not met. -/
theorem JacobiLoop.untested {stop : Stop F} {N iter : Nat} {psi prev : Nat → Psi F} {bound : Nat → Bound F}
    {sweeps : List (Nat → Psi F)} {psiEnd : Nat → Psi F} {boundEnd : Nat → Bound F}
    (h : K.JacobiLoop stop N n T D source iter psi prev bound sweeps psiEnd boundEnd) (i : Nat) (hi : i + 1 < sweeps.length) :
    stop.met nA nG n T ((prev :: sweeps)[i]'(by simp; omega)) sweeps[i] = false := by
  induction h generalizing i with
  | limit h => simp at hi
  | conv _ _ hc => simp at hi
  | @next iter psi prev bound psi' bound' rest _ _ _ _ hc _ _ ih =>
    cases i with
    | zero => exact hc
    | succ i => simpa using ih i (by simpa using hi)

/-- C102: with a test that is met when no entry has changed, block Jacobi makes at most one local sweep more than it
takes to have the bits of the traversal. -/
theorem jacobi_ends (H : Created m pv n P) (hn : n < uintMax) (L : Loaded val P T) (hD : Started K coord P T D)
    (hsort : Sorted K coord m) (hs : ∀ r < n, nA * (T r).nCells < 2 ^ 64)
    {srcS : Psi F} {source : Nat → Psi F} (hsrc : Holds nA nG n T source srcS)
    {stop : Stop F} (hlen : Lenient stop) {N : Nat} {psi0 psiEnd : Nat → Psi F} {bound boundEnd : Nat → Bound F}
    {sweeps : List (Nat → Psi F)} (h : K.Jacobi stop N n T D source psi0 bound sweeps psiEnd boundEnd)
    {B : Nat} (hk : ∀ a < nA, ∀ c k, Crossings K coord m pv a c k → k ≤ B) : sweeps.length ≤ B + 2 := by
  by_contra hlt
  obtain ⟨psi', h', -⟩ := sweep_returns H hn L hD hsort hs source psi0 ⟨1, 1, .tycho, true, fun _ _ _ => 0, bound⟩
    Nat.one_pos Nat.one_pos rfl
  have hf := JacobiLoop.untested h (B + 1) (by omega)
  rw [Stop.met] at hf
  have ht := hlen ((List.range n).map fun r => fluxPairs nA nG (T r).nCells ((sweeps[B]'(by omega)) r) ((sweeps[B + 1]'(by omega)) r)) (by
    intro p hp q hq
    obtain ⟨r, hr, rfl⟩ := List.mem_map.1 hp
    have hr := List.mem_range.1 hr
    simp only [fluxPairs, List.mem_flatMap, List.mem_map, List.mem_range, List.mem_finRange, true_and] at hq
    obtain ⟨i, hi, a, ha, v, g, hg, rfl⟩ := hq
    obtain ⟨c, hc⟩ := isCell_of_lt H L hr hi
    obtain ⟨e, -⟩ := isCell_lg H L hc
    show sweeps[B] r g v a i = sweeps[B + 1] r g v a i
    rw [jacobi_cells H hn L hD H hn L hD hsort hs hs hsrc hsrc h h' (i := B) (by omega) ha (fun k => hk a ha c k) hr e hr e g hg v,
      jacobi_cells H hn L hD H hn L hD hsort hs hs hsrc hsrc h h' (i := B + 1) (by omega) ha
        (fun k hk' => (hk a ha c k hk').trans (Nat.le_succ _)) hr e hr e g hg v])
  simp only [List.map_map, Function.comp_def] at ht
  simp only [List.getElem_cons_succ] at hf
  rw [ht] at hf
  exact absurd hf (by decide)

/-- A loop that the test never ends makes `N - iter` local sweeps. -/
theorem JacobiLoop.length {stop : Stop F} {N iter : Nat} {psi prev : Nat → Psi F} {bound : Nat → Bound F}
    {sweeps : List (Nat → Psi F)} {psiEnd : Nat → Psi F} {boundEnd : Nat → Bound F} (hstop : ∀ x y, stop.below x y = false)
    (h : K.JacobiLoop stop N n T D source iter psi prev bound sweeps psiEnd boundEnd) : sweeps.length = N - iter := by
  induction h with
  | limit => simp; omega
  | conv _ _ hc => simp [Stop.met, hstop] at hc
  | next _ _ _ _ _ ih => simp only [List.length_cons]; omega

theorem jacobi_length {stop : Stop F} {N : Nat} {psi psiEnd : Nat → Psi F} {bound boundEnd : Nat → Bound F}
    {sweeps : List (Nat → Psi F)} (hstop : ∀ x y, stop.below x y = false)
    (h : K.Jacobi stop N n T D source psi bound sweeps psiEnd boundEnd) : sweeps.length = N - 1 := JacobiLoop.length hstop h

/-- C102: source iteration with block Jacobi, each call of which makes more local sweeps than an upwind chain can cross
faces between parts, has after every iteration the bits of source iteration with the traversal on any partition. -/
theorem jacobi_iterated (H : Created m pv n P) (hn : n < uintMax) (L : Loaded val P T) (hD : Started K coord P T D)
    (H' : Created m pv' n' P') (hn' : n' < uintMax) (L' : Loaded val' P' T') (hD' : Started K coord P' T' D')
    (hsort : Sorted K coord m) (hs : ∀ r < n, nA * (T r).nCells < 2 ^ 64) (hs' : ∀ r < n', nA * (T' r).nCells < 2 ^ 64)
    {stop : Stop F} {N : Nat} {l : List Nat} {psi psi' : Nat → Psi F} {bound : Nat → Bound F}
    (h : K.JacobiIterated stop N n T D l psi bound) (h' : K.Iterated n' T' D' l.length psi')
    (hk : ∀ a < nA, ∀ c k, Crossings K coord m pv a c k → ∀ s ∈ l, k < s) (hpos : ∀ s ∈ l, 0 < s) :
    ∃ psiS, Holds nA nG n T psi psiS ∧ Holds nA nG n' T' psi' psiS := by
  induction h generalizing psi' with
  | zero =>
    cases h' with
    | zero => exact ⟨fun _ _ _ _ => K.zero, fun _ _ _ _ _ _ _ _ _ _ => rfl, fun _ _ _ _ _ _ _ _ _ _ => rfl⟩
  | @succ l psi1 bound1 sweeps psi2 bound2 hit hj ih =>
    rw [List.length_cons] at h'
    cases h' with
    | succ h1 h2 =>
      obtain ⟨q, e1, e2⟩ := ih h1 (fun a ha c k hc s hs => hk a ha c k hc s (List.mem_cons_of_mem _ hs))
        (fun s hs => hpos s (List.mem_cons_of_mem _ hs))
      obtain ⟨t, t1, t2⟩ := total_of H L hD e1
      obtain ⟨t', t1', t2'⟩ := total_of H' L' hD' e2
      refine jacobi_bitwise H hn L hD H' hn' L' hD' hsort hs hs' t2 (holds_same H' L' t2' ?_) hj h2
        (fun a ha c k hc => hk a ha c k hc _ (List.mem_cons_self ..)) (hpos _ (List.mem_cons_self ..))
      exact total_unique t1' t1

/-- C102: and the output files are equal byte by byte. -/
theorem jacobi_output (H : Created m pv n P) (hn : n < uintMax) (h0 : 0 < n) (L : Loaded val P T) (hD : Started K coord P T D)
    (H' : Created m pv' n' P') (hn' : n' < uintMax) (h0' : 0 < n') (L' : Loaded val' P' T') (hD' : Started K coord P' T' D')
    (hsort : Sorted K coord m) (hs : ∀ r < n, nA * (T r).nCells < 2 ^ 64) (hs' : ∀ r < n', nA * (T' r).nCells < 2 ^ 64)
    (hng : 0 < nG) (hna : 0 < nA) (hblock : nA * 4 * nG < 2 ^ 31) (hfile : 64 + 8 * (m.numCells * (nA * 4 * nG)) ≤ 2 ^ 63)
    {stop : Stop F} {N : Nat} {l : List Nat} {psi psi' : Nat → Psi F} {bound : Nat → Bound F}
    (h : K.JacobiIterated stop N n T D l psi bound) (h' : K.Iterated n' T' D' l.length psi')
    (hk : ∀ a < nA, ∀ c k, Crossings K coord m pv a c k → ∀ s ∈ l, k < s) (hpos : ∀ s ∈ l, 0 < s) {bits : F → Nat}
    {A A' : Nat → PsiData Nat} (hA : Stored bits n T nG nA psi A) (hA' : Stored bits n' T' nG nA psi' A')
    {f f' : File} (hf : Written n A (lgOf T) f) (hf' : Written n' A' (lgOf T') f') : f = f' := by
  obtain ⟨psiS, h1, h2⟩ := jacobi_iterated H hn L hD H' hn' L' hD' hsort hs hs' h h' hk hpos
  exact file_of_cells H L h0 H' L' h0' hng hna hblock hfile hA hA' h1 h2 hf hf'

open Classical in
/-- C102: an upwind chain crosses fewer faces between parts than the mesh has cells, so that many local sweeps are
always enough. -/
theorem crossings_lt (H : Tets m) (hdot : ∀ c f c' f', Across m c f c' f' → ∀ a < nA, ∃ x, Dot K coord m a c' f' x)
    (hsort : Sorted K coord m) {a c k : Nat} (ha : a < nA) (hc : c < m.numCells) (h : Crossings K coord m pv a c k) : k < m.numCells := by
  let R : Nat → Nat → Prop := fun c c' => ∃ f f' x, Across m c f c' f' ∧ Dot K coord m a c f x ∧ K.positive x = true
  let U : Nat → Finset Nat := fun c => (Finset.range m.numCells).filter fun c' => Relation.TransGen R c' c
  have up : ∀ {c f x c' f'}, Dot K coord m a c f x → K.positive x = false → Across m c f c' f' → R c' c := by
    intro c f x c' f' hx hp hac
    obtain ⟨x', hx'⟩ := hdot _ _ _ _ hac a ha
    exact ⟨f', f, x', ⟨hac.1.symm, hac.2.imp fun g h => ⟨h.2, h.1⟩⟩, hx', hsort.crossed _ _ _ _ hac a ha _ _ hx hx' hp⟩
  have sub : ∀ {c c'}, R c' c → U c' ⊂ U c := by
    intro c c' hr
    refine Finset.ssubset_iff_subset_ne.2 ⟨fun z hz => ?_, fun he => ?_⟩
    · obtain ⟨z1, z2⟩ := Finset.mem_filter.1 hz
      exact Finset.mem_filter.2 ⟨z1, z2.tail hr⟩
    · obtain ⟨f, f', x, hac, -⟩ := id hr
      have : c' ∈ U c := Finset.mem_filter.2 ⟨Finset.mem_range.2 (across_lt H hac).1, .single hr⟩
      rw [← he] at this
      exact hsort.acyclic a ha c' (Finset.mem_filter.1 this).2
  have key : k ≤ (U c).card := by
    clear hc
    induction h with
    | nil => exact Nat.zero_le _
    | within hd hp hac _ _ ih => exact ih.trans (Finset.card_lt_card (sub (up hd hp hac))).le
    | between hd hp hac _ _ ih =>
      have := Finset.card_lt_card (sub (up hd hp hac))
      omega
  have hlt : U c ⊂ Finset.range m.numCells := by
    refine Finset.ssubset_iff_subset_ne.2 ⟨Finset.filter_subset _ _, fun he => ?_⟩
    have : c ∈ U c := by rw [he]; exact Finset.mem_range.2 hc
    exact hsort.acyclic a ha c (Finset.mem_filter.1 this).2
  have := Finset.card_lt_card hlt
  rw [Finset.card_range] at this
  omega

/-- C102: as many local sweeps as the mesh has cells give the bits of the traversal. -/
theorem jacobi_enough (H : Created m pv n P) (hn : n < uintMax) (L : Loaded val P T) (hD : Started K coord P T D)
    (H' : Created m pv' n' P') (hn' : n' < uintMax) (L' : Loaded val' P' T') (hD' : Started K coord P' T' D')
    (hsort : Sorted K coord m) (hs : ∀ r < n, nA * (T r).nCells < 2 ^ 64) (hs' : ∀ r < n', nA * (T' r).nCells < 2 ^ 64)
    {srcS : Psi F} {source source' : Nat → Psi F} (hsrc : Holds nA nG n T source srcS) (hsrc' : Holds nA nG n' T' source' srcS)
    {stop : Stop F} {N : Nat} {psi0 psi0' psi' psiEnd : Nat → Psi F} {bound boundEnd : Nat → Bound F} {sweeps : List (Nat → Psi F)}
    (h : K.Jacobi stop N n T D source psi0 bound sweeps psiEnd boundEnd) (h' : K.Swept n' T' D' source' psi0' psi')
    (hk : m.numCells ≤ sweeps.length) (hpos : 0 < sweeps.length) :
    ∃ psiS, Holds nA nG n T psiEnd psiS ∧ Holds nA nG n' T' psi' psiS := by
  refine jacobi_bitwise H hn L hD H' hn' L' hD' hsort hs hs' hsrc hsrc' h h' (fun a ha c k hc => ?_) hpos
  by_cases hcl : c < m.numCells
  · refine lt_of_lt_of_le (crossings_lt H.tets ?_ hsort ha hcl hc) hk
    intro c f c' f' hac a ha
    obtain ⟨r, i, hi⟩ := isCell_exists H (across_lt H.tets hac).2
    exact ⟨_, dot_of H L hD hi ha f'⟩
  · cases hc with
    | nil => exact hpos
    | within _ _ hac => exact absurd (across_lt H.tets hac).1 hcl
    | between _ _ hac => exact absurd (across_lt H.tets hac).1 hcl

/-! ### It returns -/

theorem local_returns (H : Created m pv n P) (hn : n < uintMax) (L : Loaded val P T) (hD : Started K coord P T D)
    (hsort : Sorted K coord m) (hs : ∀ r < n, nA * (T r).nCells < 2 ^ 64) (source psi0 : Nat → Psi F) (bound : Nat → Bound F)
    (sched : Schedule F) (ht : 0 < sched.threads) : ∃ psi, K.LocalSwept n T D source psi0 bound psi := by
  obtain ⟨Q, hcr, hac⟩ := cfg_sorted H hn L hD hsort hs source psi0 { sched with bound0 := bound } ht
  have hac' : Verif.Traverse.Acyclic (K.localCfg n T D { sched with bound0 := bound } source psi0) (mateOf m P) := by
    intro a ha t h
    refine hac a ha t (Relation.TransGen.mono ?_ _ _ h)
    rintro _ _ ⟨x, y, h1, h2, ⟨h3, y', h4, -⟩, h5, h6⟩
    exact ⟨x, y, h1, h2, ⟨h3, y', h4, .inl rfl⟩, h5, h6⟩
  obtain ⟨k, s, hrun, hf⟩ := traverse_finishes (local_linked Q) (by show 0 < 2 ^ 64 - 1; decide)
    (fun h => absurd h (by simp [Kernel.localCfg])) hcr hac'
  exact ⟨fun r => (s.rank r).data.1, { sched with bound0 := bound }, s, ht, rfl, hrun.reachable .init, fun r hr => ⟨hf r hr, rfl⟩⟩

/-- C102: block Jacobi comes to an end, whatever the test and the limit. -/
theorem jacobi_returns (H : Created m pv n P) (hn : n < uintMax) (L : Loaded val P T) (hD : Started K coord P T D)
    (hsort : Sorted K coord m) (hs : ∀ r < n, nA * (T r).nCells < 2 ^ 64) (source psi0 : Nat → Psi F) (bound : Nat → Bound F)
    (stop : Stop F) (N : Nat) : ∃ sweeps psiEnd boundEnd, K.Jacobi stop N n T D source psi0 bound sweeps psiEnd boundEnd := by
  have key : ∀ k iter psi prev bound, N - iter = k →
      ∃ sweeps psiEnd boundEnd, K.JacobiLoop stop N n T D source iter psi prev bound sweeps psiEnd boundEnd := by
    intro k
    induction k with
    | zero => intro iter psi prev bound h; exact ⟨_, _, _, .limit (by omega)⟩
    | succ k ih =>
      intro iter psi prev bound h
      obtain ⟨psi', h1⟩ := local_returns H hn L hD hsort hs source psi bound ⟨1, 1, .tycho, true, fun _ _ _ => 0, bound⟩ Nat.one_pos
      cases hc : stop.met nA nG n T prev psi'
      · obtain ⟨sweeps, psiEnd, boundEnd, h2⟩ := ih (iter + 1) psi' psi'
          (fun r => ((adjRanks (T r)).flatMap fun q => K.packets (T q) (D q) (psi' q) r).foldl (unpack (T r)) (bound r)) (by omega)
        exact ⟨_, _, _, .next (by omega) h1 hc (fun r _ => ⟨_, List.Perm.refl _, rfl⟩) h2⟩
      · exact ⟨_, _, _, .conv (by omega) h1 hc⟩
  exact key _ 1 psi0 psi0 bound rfl

/-- Any number of source iterations can be made. -/
theorem jacobi_iterated_exists (H : Created m pv n P) (hn : n < uintMax) (L : Loaded val P T) (hD : Started K coord P T D)
    (hsort : Sorted K coord m) (hs : ∀ r < n, nA * (T r).nCells < 2 ^ 64) (stop : Stop F) (N k : Nat)
    (hstop : ∀ x y, stop.below x y = false) :
    ∃ psi bound, K.JacobiIterated stop N n T D (List.replicate k (N - 1)) psi bound := by
  induction k with
  | zero => exact ⟨_, fun _ _ _ _ _ => K.zero, .zero⟩
  | succ k ih =>
    obtain ⟨psi, bound, h⟩ := ih
    obtain ⟨sweeps, psi', bound', h'⟩ := jacobi_returns H hn L hD hsort hs (fun r => K.totalSource (D r) (psi r)) psi bound stop N
    refine ⟨psi', bound', ?_⟩
    have := Kernel.JacobiIterated.succ h h'
    rw [jacobi_length hstop h'] at this
    exact this

end Verif.Floating
