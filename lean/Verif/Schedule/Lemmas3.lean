import Verif.Schedule.Lemmas2

set_option linter.unusedSectionVars false

namespace Verif.Schedule
open Classical List Verif.Traverse

variable {G : Graph} {mate : Loc → Option Loc}

theorem mem_neighbors {r q : Nat} : q ∈ G.neighbors r ↔ q < G.nRanks ∧
    ∃ c f, c < (G.mesh r).nCells ∧ (G.mesh r).adjCell c f = none ∧ (G.mesh r).adjRank c f = some q := by
  simp only [Graph.neighbors, List.mem_filter, List.mem_range, List.any_eq_true, List.mem_finRange,
    true_and, Bool.decide_and, Bool.and_eq_true, decide_eq_true_eq]
  constructor
  · rintro ⟨h, c, hc, f, h1, h2⟩; exact ⟨h, c, f, hc, h1, h2⟩
  · rintro ⟨h, c, f, hc, h1, h2⟩; exact ⟨h, c, hc, f, h1, h2⟩

theorem nodup_neighbors (G : Graph) (r : Nat) : (G.neighbors r).Nodup := (List.nodup_range).filter _

/-- A face leads to another rank. -/
theorem mate_of_far (J : Joined G mate) {x : Loc} (hx : G.In x) {q : Nat}
    (h1 : (G.mesh x.rank).adjCell x.cell x.face = none)
    (h2 : (G.mesh x.rank).adjRank x.cell x.face = some q) :
    ∃ y, mate x = some y ∧ y.rank = q ∧ q ≠ x.rank := by
  cases hm : mate x with
  | none => rw [(J.ext x hx hm).2] at h2; simp at h2
  | some y =>
    by_cases hy : y.rank = x.rank
    · rw [J.near x y hx hm hy] at h1; simp at h1
    · rw [(J.far x y hx hm hy).2] at h2
      injection h2 with h2
      exact ⟨y, rfl, h2, h2 ▸ hy⟩

/-- Neighbourhood is symmetric. -/
theorem neighbors_symm (J : Joined G mate) {r q : Nat} (hr : r < G.nRanks) :
    q ∈ G.neighbors r → r ∈ G.neighbors q := by
  intro h
  obtain ⟨hq, c, f, hc, h1, h2⟩ := mem_neighbors.1 h
  obtain ⟨y, hm, hy, hne⟩ := mate_of_far J (x := ⟨r, c, f⟩) ⟨hr, hc⟩ h1 h2
  have hin := J.mate_in _ _ (show G.In ⟨r, c, f⟩ from ⟨hr, hc⟩) hm
  have hb := J.mate_symm _ _ (show G.In ⟨r, c, f⟩ from ⟨hr, hc⟩) hm
  have hfar := J.far y _ hin hb (by rw [hy]; exact fun h => hne h.symm)
  rw [hy] at hfar
  exact mem_neighbors.2 ⟨hr, y.cell, y.face, hy ▸ hin.2, hfar.1, hfar.2⟩

/-- The faces credited by one message. -/
theorem inbox_locs (J : Joined G mate) {r q : Nat} (hq : q < G.nRanks) {E : List (Nat × Nat)}
    (hE : ∀ t ∈ E, t.1 < G.angles.length ∧ t.2 < (G.mesh q).nCells) (hnd : E.Nodup) :
    ∃ L : List (Nat × Nat × Face),
    G.inbox r (G.outbox q (E.map G.work) r) = L.map (fun x => (x.1, x.2.1)) ∧ L.Nodup ∧
    ∀ x, x ∈ L ↔ ∃ t ∈ E, x.1 = t.1 ∧ q ≠ r ∧ ∃ f, mate ⟨q, t.2, f⟩ = some ⟨r, x.2.1, x.2.2⟩ ∧
      G.free q t.1 t.2 f = true := by
  let g : Nat × Nat → Face → Option (Nat × Nat × Face) := fun t f =>
    if G.free q t.1 t.2 f = true ∧ q ≠ r then
      (mate ⟨q, t.2, f⟩).bind fun y => if y.rank = r then some (t.1, y.cell, y.face) else none
    else none
  have hg : ∀ t f b, g t f = some b ↔ b.1 = t.1 ∧ q ≠ r ∧
      mate ⟨q, t.2, f⟩ = some ⟨r, b.2.1, b.2.2⟩ ∧ G.free q t.1 t.2 f = true := by
    intro t f b
    simp only [g]
    constructor
    · intro h
      split at h <;> [skip; simp at h]
      rename_i hc
      obtain ⟨y, hm, hy⟩ := Option.bind_eq_some_iff.1 h
      split at hy <;> [skip; simp at hy]
      rename_i hyr
      injection hy with hy
      subst hy
      refine ⟨rfl, hc.2, ?_, hc.1⟩
      rw [hm]
      cases y
      simp only at hyr
      subst hyr; rfl
    · rintro ⟨h1, h2, h3, h4⟩
      rw [if_pos ⟨h4, h2⟩, h3]
      obtain ⟨b1, b2, b3⟩ := b
      simp only at h1
      subst h1
      simp
  refine ⟨E.flatMap fun t => (List.finRange 4).filterMap (g t), ?_, ?_, ?_⟩
  · rw [Graph.inbox, Graph.outbox, List.map_flatMap, List.map_flatMap, List.flatMap_map]
    refine List.flatMap_congr fun t ht => ?_
    obtain ⟨ha, hc⟩ := hE t ht
    rw [List.map_filterMap, List.map_filterMap]
    refine List.filterMap_congr fun f _ => ?_
    simp only [Graph.work, glAngle_get J ha]
    have hin : G.In ⟨q, t.2, f⟩ := ⟨hq, hc⟩
    by_cases hcond : G.free q t.1 t.2 f = true ∧ (G.mesh q).adjCell t.2 f = none ∧
        (G.mesh q).adjRank t.2 f = some r
    · rw [if_pos hcond]
      obtain ⟨y, hm, hy, hne⟩ := mate_of_far J hin hcond.2.1 hcond.2.2
      have hb := J.mate_symm _ _ hin hm
      have hyin := J.mate_in _ _ hin hm
      have hqr : q ≠ r := fun h => hne h.symm
      have h1 := J.side_eq _ _ hin hm (by rw [hy]; exact hne)
      have h2 := J.side_cell y _ hyin hb (by rw [hy]; exact hqr)
      rw [hy] at h1 h2
      have : g t f = some (t.1, y.cell, y.face) := by
        simp only [g]
        rw [if_pos ⟨hcond.1, hqr⟩, hm]
        simp [hy]
      rw [this]
      simp [h1, h2]
    · rw [if_neg hcond]
      have : g t f = none := by
        rw [Option.eq_none_iff_forall_not_mem]
        intro b hb
        obtain ⟨h1, h2, h3, h4⟩ := (hg t f b).1 hb
        have := J.far _ _ hin h3 (fun h => h2 h.symm)
        exact hcond ⟨h4, this.1, this.2⟩
      rw [this]
      rfl
  · rw [List.nodup_flatMap]
    refine ⟨fun t ht => ?_, ?_⟩
    · refine (List.nodup_finRange 4).filterMap ?_
      intro f f' b hb hb'
      obtain ⟨h1, h2, h3, h4⟩ := (hg t f b).1 hb
      obtain ⟨k1, k2, k3, k4⟩ := (hg t f' b).1 hb'
      have hc := (hE t ht).2
      have := mate_inj J (x := ⟨q, t.2, f⟩) (x' := ⟨q, t.2, f'⟩) ⟨hq, hc⟩ ⟨hq, hc⟩ h3 k3
      injection this
    · refine List.Pairwise.imp_of_mem ?_ hnd
      intro t t' ht ht' hne
      simp only [Function.onFun, List.disjoint_left, List.mem_filterMap, List.mem_finRange, true_and,
        not_exists]
      rintro b ⟨f, hb⟩ f' hb'
      obtain ⟨h1, h2, h3, h4⟩ := (hg t f b).1 hb
      obtain ⟨k1, k2, k3, k4⟩ := (hg t' f' b).1 hb'
      have := mate_inj J (x := ⟨q, t.2, f⟩) (x' := ⟨q, t'.2, f'⟩) ⟨hq, (hE t ht).2⟩
        ⟨hq, (hE t' ht').2⟩ h3 k3
      injection this with _ h5
      exact hne (Prod.ext (h1.symm.trans k1) h5)
  · intro x
    simp only [List.mem_flatMap, List.mem_filterMap, List.mem_finRange, true_and]
    constructor
    · rintro ⟨t, ht, f, hf⟩
      obtain ⟨h1, h2, h3, h4⟩ := (hg t f x).1 hf
      exact ⟨t, ht, h1, h2, f, h3, h4⟩
    · rintro ⟨t, ht, h1, h2, f, h3, h4⟩
      exact ⟨t, ht, f, (hg t f x).2 ⟨h1, h2, h3, h4⟩⟩

/-- After the exchange every neighbour done so far is credited. -/
theorem receive_inv (J : Joined G mate) {r : Nat} (hr : r < G.nRanks) {D E : Nat → List (Nat × Nat)}
    {w : Nat → Todo}
    (h : ∀ q < G.nRanks, RankInv G q (w q) (D q ++ E q) (Got mate q D (D q ++ E q))) :
    RankInv G r (G.receive r (fun q => (E q).map G.work) (w r)) (D r ++ E r)
      (Got mate r (fun q => D q ++ E q) (D r ++ E r)) := by
  have hval : ∀ q < G.nRanks, ∀ t ∈ E q, t.1 < G.angles.length ∧ t.2 < (G.mesh q).nCells := by
    intro q hq t ht
    obtain ⟨h1, h2, -⟩ := ((h q hq).mem t).1 (by simp [ht])
    exact ⟨h1, h2⟩
  have hnd : ∀ q < G.nRanks, (D q ++ E q).Nodup := fun q hq =>
    ((h q hq).nodup).sublist (List.sublist_append_right _ _)
  have hndE : ∀ q < G.nRanks, (E q).Nodup := fun q hq => (hnd q hq).sublist (List.sublist_append_right _ _)
  choose! L hL1 hL2 hL3 using fun q (hq : q < G.nRanks) => inbox_locs J (r := r) hq (hval q hq) (hndE q hq)
  have hnb : ∀ q ∈ G.neighbors r, q < G.nRanks := fun q hq => (mem_neighbors.1 hq).1
  have heq : ∀ (N : List Nat), (∀ q ∈ N, q < G.nRanks) → ∀ w : Todo,
      N.foldl (fun w q => (G.inbox r (G.outbox q ((E q).map G.work) r)).foldl Todo.credit w) w =
      ((N.flatMap L).map fun x => (x.1, x.2.1)).foldl Todo.credit w := by
    intro N
    induction N with
    | nil => intro _ w; rfl
    | cons q N ih =>
      intro hN w
      rw [List.foldl_cons, hL1 q (hN q (by simp)), ih (fun q' hq' => hN q' (by simp [hq'])),
        List.flatMap_cons, List.map_append, List.foldl_append]
  have hmemL : ∀ x, x ∈ (G.neighbors r).flatMap L ↔ ∃ q ∈ G.neighbors r, ∃ t ∈ E q, x.1 = t.1 ∧ q ≠ r ∧
      ∃ f, mate ⟨q, t.2, f⟩ = some ⟨r, x.2.1, x.2.2⟩ ∧ G.free q t.1 t.2 f = true := by
    intro x
    rw [List.mem_flatMap]
    constructor
    · rintro ⟨q, hq, hx⟩; exact ⟨q, hq, (hL3 q (hnb q hq) x).1 hx⟩
    · rintro ⟨q, hq, hx⟩; exact ⟨q, hq, (hL3 q (hnb q hq) x).2 hx⟩
  have hLnd : ((G.neighbors r).flatMap L).Nodup := by
    rw [List.nodup_flatMap]
    refine ⟨fun q hq => hL2 q (hnb q hq), ?_⟩
    refine List.Pairwise.imp_of_mem ?_ (nodup_neighbors G r)
    intro q q' hq hq' hne
    simp only [Function.onFun, List.disjoint_left]
    intro x hx hx'
    obtain ⟨t, ht, -, -, f, hm, -⟩ := (hL3 q (hnb q hq) x).1 hx
    obtain ⟨t', ht', -, -, f', hm', -⟩ := (hL3 q' (hnb q' hq') x).1 hx'
    have := mate_inj J ⟨hnb q hq, (hval q (hnb q hq) t ht).2⟩ ⟨hnb q' hq', (hval q' (hnb q' hq') t' ht').2⟩
      hm hm'
    injection this with h1
    exact hne h1
  unfold Graph.receive
  rw [heq _ hnb]
  have hc := (h r hr).credits _ hLnd (by
    intro x hx
    obtain ⟨q, hq, t, ht, h1, hqr, f, hm, hfree⟩ := (hmemL x).1 hx
    have hin : G.In ⟨q, t.2, f⟩ := ⟨hnb q hq, (hval q (hnb q hq) t ht).2⟩
    have hxin := J.mate_in _ _ hin hm
    have hb := J.mate_symm _ _ hin hm
    have ha := (hval q (hnb q hq) t ht).1
    refine ⟨h1 ▸ ha, hxin.2, ?_, ?_⟩
    · rw [h1, J.sync _ _ _ hxin hb ha]; exact hfree
    · rintro ⟨y, hy, hd⟩
      rw [hb] at hy
      injection hy with hy
      subst hy
      simp only [hqr, if_false] at hd
      have := hnd q (hnb q hq)
      rw [List.nodup_append] at this
      refine this.2.2 _ hd t ht ?_
      rw [h1])
  refine hc.congr fun a c f ha hcc hw => ?_
  have hin : G.In ⟨r, c, f⟩ := ⟨hr, hcc⟩
  constructor
  · rintro (⟨y, hy, hd⟩ | hx)
    · refine ⟨y, hy, ?_⟩
      split at hd
      · rename_i hyr; rw [if_pos hyr]; exact hd
      · rename_i hyr; rw [if_neg hyr]; simp [hd]
    · obtain ⟨q, hq, t, ht, h1, hqr, f', hm, -⟩ := (hmemL _).1 hx
      simp only at h1 hm
      refine ⟨_, J.mate_symm _ _ (show G.In ⟨q, t.2, f'⟩ from ⟨hnb q hq, (hval q (hnb q hq) t ht).2⟩) hm, ?_⟩
      simp only [hqr, if_false]
      rw [h1]
      simp [ht]
  · rintro ⟨y, hy, hd⟩
    by_cases hyr : y.rank = r
    · left
      exact ⟨y, hy, by rw [if_pos hyr] at hd ⊢; exact hd⟩
    · rw [if_neg hyr, List.mem_append] at hd
      rcases hd with hd | hd
      · exact Or.inl ⟨y, hy, by rw [if_neg hyr]; exact hd⟩
      · right
        rw [hmemL]
        have hyin := J.mate_in _ _ hin hy
        have hfar := J.far _ _ hin hy hyr
        refine ⟨y.rank, mem_neighbors.2 ⟨hyin.1, c, f, hcc, hfar.1, hfar.2⟩, _, hd, rfl, hyr, y.face,
          J.mate_symm _ _ hin hy, ?_⟩
        have := J.sync _ _ a hin hy ha
        simp only
        rw [← this]; exact hw

/-- What holds between steps. `D` lists the pairs done by each rank. -/
structure Inv (G : Graph) (mate : Loc → Option Loc) (s : State) (E : Nat → List (List (Nat × Nat))) :
    Prop where
  orders : ∀ r < G.nRanks, s.workOrders r = (E r).map fun l => l.map G.work
  rank : ∀ r < G.nRanks, RankInv G r (s.todo r) (E r).flatten
    (Got mate r (fun q => (E q).flatten) (E r).flatten)
  order : ∀ r < G.nRanks, ∀ i l1 t l2, (E r)[i]? = some (l1 ++ t :: l2) → ∀ f, G.wait r t.1 t.2 f = true →
    Got mate r (fun q => ((E q).take i).flatten) (((E r).take i).flatten ++ l1) t.1 t.2 f
  size : ∀ r < G.nRanks, ∀ l ∈ E r, l.length ≤ G.maxStep
  steps : ∃ k, ∀ r < G.nRanks, (E r).length = k

theorem Inv.init (G : Graph) (mate : Loc → Option Loc) : Inv G mate G.init (fun _ => []) := by
  refine ⟨fun r _ => rfl, fun r hr => ?_, fun r _ i l1 t l2 h => by simp at h, fun r _ l h => by simp at h,
    0, fun r _ => rfl⟩
  refine (RankInv.start G r).congr fun a c f _ _ _ => ?_
  simp [Got]

theorem Inv.step (J : Joined G mate) {prio : Nat → Nat → Nat → Nat} {s s' : State}
    {E : Nat → List (List (Nat × Nat))} (h : Inv G mate s E) (hs : Step G prio s s') :
    ∃ F : Nat → List (Nat × Nat), Inv G mate s' (fun r => E r ++ [F r]) ∧
      ((∃ r < G.nRanks, (s.todo r).queue ≠ []) ∧ (0 < G.maxStep → ∃ r < G.nRanks, F r ≠ [])) := by
  cases hs with
  | mk w d hnd htopo =>
    choose! F hF1 hF2 hF3 hF4 using fun r (hr : r < G.nRanks) => (htopo r hr).sorted J hr (h.rank r hr)
    have hd : ∀ q < G.nRanks, d q = (F q).map G.work := fun q hq => by simpa using hF1 q hq
    have hrec : ∀ r < G.nRanks, G.receive r d (w r) = G.receive r (fun q => (F q).map G.work) (w r) := by
      intro r hr
      unfold Graph.receive
      have : ∀ (N : List Nat), (∀ q ∈ N, q < G.nRanks) → ∀ w : Todo,
        N.foldl (fun w q => (G.inbox r (G.outbox q (d q) r)).foldl Todo.credit w) w =
        N.foldl (fun w q => (G.inbox r (G.outbox q ((F q).map G.work) r)).foldl Todo.credit w) w := by
        intro N
        induction N with
        | nil => intro _ _; rfl
        | cons q N ih =>
          intro hN w
          rw [List.foldl_cons, List.foldl_cons, hd q (hN q (by simp)),
            ih fun q' hq' => hN q' (by simp [hq'])]
      exact this _ (fun q hq => (mem_neighbors.1 hq).1) _
    refine ⟨F, ⟨?_, ?_, ?_, ?_, ?_⟩, ?_, ?_⟩
    · intro r hr
      simp only [Graph.after, List.map_append, List.map_cons, List.map_nil]
      rw [h.orders r hr, hd r hr]
    · intro r hr
      simp only [Graph.after]
      rw [hrec r hr]
      have := receive_inv J hr (D := fun q => (E q).flatten) (E := F) (w := w) fun q hq => (hF2 q hq).inv
      simpa using this
    · intro r hr i l1 t l2 hi f hw
      obtain ⟨k, hk⟩ := h.steps
      rcases lt_or_ge i (E r).length with hlt | hge
      · rw [List.getElem?_append_left hlt] at hi
        obtain ⟨y, hy, hd'⟩ := h.order r hr i l1 t l2 hi f hw
        refine ⟨y, hy, ?_⟩
        have hyr : y.rank < G.nRanks := by
          have ht : t ∈ (E r).flatten := by
            rw [List.mem_flatten]
            exact ⟨_, List.mem_of_getElem? hi, by simp⟩
          obtain ⟨-, h2, -⟩ := ((h.rank r hr).mem t).1 (by simp [ht])
          exact (J.mate_in _ _ (show G.In ⟨r, t.2, f⟩ from ⟨hr, h2⟩) hy).1
        have hle : ∀ q < G.nRanks, (E q ++ [F q]).take i = (E q).take i := by
          intro q hq
          rw [List.take_append_of_le_length]
          rw [hk q hq]; rw [hk r hr] at hlt; omega
        simp only [hle r hr, hle y.rank hyr]
        exact hd'
      · rw [List.getElem?_append_right hge] at hi
        have hi0 : i - (E r).length = 0 := by
          by_contra h0
          obtain ⟨m, hm⟩ := Nat.exists_eq_succ_of_ne_zero h0
          rw [hm] at hi
          simp at hi
        rw [hi0] at hi
        simp only [List.getElem?_cons_zero, Option.some.injEq] at hi
        have hie : i = (E r).length := by omega
        obtain ⟨y, hy, hd'⟩ := (hF2 r hr).order l1 t l2 hi f hw
        refine ⟨y, hy, ?_⟩
        have hyr : y.rank < G.nRanks := by
          have ht : t ∈ (E r).flatten ++ F r := by rw [hi]; simp
          obtain ⟨-, h2, -⟩ := ((hF2 r hr).inv.mem t).1 (by rw [List.mem_append]; exact Or.inr ht)
          exact (J.mate_in _ _ (show G.In ⟨r, t.2, f⟩ from ⟨hr, h2⟩) hy).1
        have hle : ∀ q < G.nRanks, (E q ++ [F q]).take i = E q := by
          intro q hq
          rw [List.take_append_of_le_length (by rw [hk q hq]; rw [hk r hr] at hie; omega)]
          rw [hie, hk r hr, ← hk q hq, List.take_length]
        simp only [hle r hr, hle y.rank hyr]
        exact hd'
    · intro r hr l hl
      rw [List.mem_append, List.mem_singleton] at hl
      rcases hl with hl | rfl
      · exact h.size r hr l hl
      · have := hF3 r hr (Nat.zero_le _)
        rw [hd r hr] at this
        simpa using this
    · obtain ⟨k, hk⟩ := h.steps
      exact ⟨k + 1, fun r hr => by simp [hk r hr]⟩
    · unfold Graph.AllDone at hnd
      push Not at hnd
      exact hnd
    · intro hpos
      unfold Graph.AllDone at hnd
      push Not at hnd
      obtain ⟨r, hr, hq⟩ := hnd
      exact ⟨r, hr, hF4 r hr hpos hq⟩

theorem Reached.inv (J : Joined G mate) {prio : Nat → Nat → Nat → Nat} {s : State} (h : Reached G prio s) :
    ∃ E, Inv G mate s E := by
  induction h with
  | init => exact ⟨_, Inv.init G mate⟩
  | step s s' _ hs ih =>
    obtain ⟨E, hE⟩ := ih
    obtain ⟨F, hF, -⟩ := hE.step J hs
    exact ⟨_, hF⟩

end Verif.Schedule
