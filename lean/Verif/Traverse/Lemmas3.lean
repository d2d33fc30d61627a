import Verif.Traverse.Lemmas2

set_option linter.unusedSectionVars false

namespace Verif.Traverse
open Classical List

variable {D B : Type}

/-! ### One pass of the inner loop -/

/-- Dependencies met while the faces `fs` of the task `(c0, a0)` have been handled. -/
def Mid (cfg : Cfg D B) (mate : Loc → Option Loc) (log : List (Event B)) (r c0 a0 : Nat)
    (fs : List Face) (c a : Nat) (f : Face) : Prop :=
  Arr cfg mate log r c a f ∨
    (a = a0 ∧ ∃ f' ∈ fs, mate ⟨r, c, f⟩ = some ⟨r, c0, f'⟩ ∧ cfg.outDir r a0 c0 f' = true)

section child
variable (cfg : Cfg D B) (r g c a : Nat) (st : RankState D B) (f : Face)
theorem child_remaining : (child cfg r g c a st f).remaining = st.remaining := by
  unfold child; split
  · split
    · exact release_remaining ..
    · split
      · split <;> rfl
      · rfl
  · rfl
theorem child_data : (child cfg r g c a st f).data = st.data := by
  unfold child; split
  · split
    · exact release_data ..
    · split
      · split <;> rfl
      · rfl
  · rfl
theorem child_dark : (child cfg r g c a st f).dark = st.dark := by
  unfold child; split
  · split
    · exact release_dark ..
    · split
      · split <;> rfl
      · rfl
  · rfl
theorem child_round : (child cfg r g c a st f).round = st.round := by
  unfold child; split
  · split
    · exact release_round ..
    · split
      · split <;> rfl
      · rfl
  · rfl
theorem child_sent : (child cfg r g c a st f).sent = st.sent := by
  unfold child; split
  · split
    · exact release_sent ..
    · split
      · split <;> rfl
      · rfl
  · rfl
theorem child_recvd : (child cfg r g c a st f).recvd = st.recvd := by
  unfold child; split
  · split
    · exact release_recvd ..
    · split
      · split <;> rfl
      · rfl
  · rfl
end child

theorem foldl_child_inv {α : Type} (cfg : Cfg D B) (r g c a : Nat) (F : RankState D B → α)
    (hF : ∀ st f, F (child cfg r g c a st f) = F st) (fs : List Face) (st : RankState D B) :
    F (fs.foldl (child cfg r g c a) st) = F st := by
  induction fs generalizing st with
  | nil => rfl
  | cons f fs ih => rw [List.foldl_cons, ih, hF]

theorem computeOne_remaining (cfg : Cfg D B) (r g : Nat) (t : Tuple) (rest : List Tuple)
    (st : RankState D B) : (computeOne cfg r g t rest st).remaining = dec st.remaining :=
  foldl_child_inv cfg r g t.cell t.angle RankState.remaining (child_remaining cfg r g _ _) _ _
theorem computeOne_data (cfg : Cfg D B) (r g : Nat) (t : Tuple) (rest : List Tuple)
    (st : RankState D B) : (computeOne cfg r g t rest st).data =
      (cfg.data r).update t.cell t.angle (adjCellsSides (cfg.mesh r) t.cell)
        (bdryType (cfg.mesh r) t.angle t.cell) st.data :=
  foldl_child_inv cfg r g t.cell t.angle RankState.data (child_data cfg r g _ _) _ _
theorem computeOne_dark (cfg : Cfg D B) (r g : Nat) (t : Tuple) (rest : List Tuple)
    (st : RankState D B) : (computeOne cfg r g t rest st).dark = st.dark :=
  foldl_child_inv cfg r g t.cell t.angle RankState.dark (child_dark cfg r g _ _) _ _
theorem computeOne_round (cfg : Cfg D B) (r g : Nat) (t : Tuple) (rest : List Tuple)
    (st : RankState D B) : (computeOne cfg r g t rest st).round = st.round :=
  foldl_child_inv cfg r g t.cell t.angle RankState.round (child_round cfg r g _ _) _ _
theorem computeOne_sent (cfg : Cfg D B) (r g : Nat) (t : Tuple) (rest : List Tuple)
    (st : RankState D B) : (computeOne cfg r g t rest st).sent = st.sent :=
  foldl_child_inv cfg r g t.cell t.angle RankState.sent (child_sent cfg r g _ _) _ _
theorem computeOne_recvd (cfg : Cfg D B) (r g : Nat) (t : Tuple) (rest : List Tuple)
    (st : RankState D B) : (computeOne cfg r g t rest st).recvd = st.recvd :=
  foldl_child_inv cfg r g t.cell t.angle RankState.recvd (child_recvd cfg r g _ _) _ _

/-- The counters and queues while children are handled. -/
theorem RI.children {cfg : Cfg D B} {mate : Loc → Option Loc} (L : Linked cfg mate)
    {log : List (Event B)} {r c0 a0 : Nat} (hr : r < cfg.nRanks) (hc0 : c0 < (cfg.mesh r).nCells)
    (ha0 : a0 < cfg.nAngles) (hnd : ¬ Done log r c0 a0) {done : Nat → Nat → Prop} :
    ∀ (fs : List Face) (pre : List Face) (st : RankState D B), (pre ++ fs).Nodup →
      RI cfg r st.numDeps st.queue done (Mid cfg mate log r c0 a0 pre) →
      RI cfg r (fs.foldl (child cfg r (cfg.group a0) c0 a0) st).numDeps
        (fs.foldl (child cfg r (cfg.group a0) c0 a0) st).queue done
        (Mid cfg mate log r c0 a0 (pre ++ fs)) := by
  intro fs
  induction fs with
  | nil => intro pre st _ h; simpa using h
  | cons f fs ih =>
    intro pre st hnodup h
    rw [List.foldl_cons]
    have hf : f ∉ pre := by
      intro hmem
      rw [List.nodup_append] at hnodup
      exact hnodup.2.2 f hmem f (by simp) rfl
    have hpre : pre ++ f :: fs = (pre ++ [f]) ++ fs := by simp
    rw [hpre] at hnodup ⊢
    apply ih (pre ++ [f]) _ hnodup
    have hx : cfg.In ⟨r, c0, f⟩ := ⟨hr, hc0⟩
    -- the case of nothing released
    have hsame : ∀ st' : RankState D B, st'.numDeps = st.numDeps → st'.queue = st.queue →
        (cfg.outDir r a0 c0 f = true → (cfg.mesh r).adjCell c0 f = none) →
        RI cfg r st'.numDeps st'.queue done (Mid cfg mate log r c0 a0 (pre ++ [f])) := by
      intro st' h1 h2 h3
      rw [h1, h2]
      refine h.congr (fun _ _ _ _ => Iff.rfl) ?_
      intro c hc a ha f' _
      unfold Mid
      constructor
      · rintro (h4 | ⟨rfl, f'', h4, h5⟩)
        · exact Or.inl h4
        · exact Or.inr ⟨rfl, f'', by simp [h4], h5⟩
      · rintro (h4 | ⟨rfl, f'', h4, h5, h6⟩)
        · exact Or.inl h4
        · rcases List.mem_append.1 h4 with h7 | h7
          · exact Or.inr ⟨rfl, f'', h7, h5, h6⟩
          · simp at h7; subst h7
            have hin : cfg.In ⟨r, c, f'⟩ := ⟨hr, hc⟩
            have := L.mate_symm _ _ hin h5
            have := (L.near _ _ hx this rfl).1
            simp only [] at this
            rw [h3 h6] at this
            simp at this
    unfold child
    by_cases hout : cfg.outDir r a0 c0 f = true
    · rw [if_pos hout]
      rcases hadj : (cfg.mesh r).adjCell c0 f with _ | c'
      · dsimp only
        rcases hrk : (cfg.mesh r).adjRank c0 f with _ | q
        · exact hsame _ rfl rfl (fun _ => hadj)
        · dsimp only
          split
          · exact hsame _ rfl rfl (fun _ => hadj)
          · exact hsame _ rfl rfl (fun _ => hadj)
      · dsimp only
        obtain ⟨y, hy1, hy2, hy3⟩ := adjCell_some L hx hadj
        simp only [] at hy2
        have hyin := L.mate_in _ _ hx hy1
        have hys := L.mate_symm _ _ hx hy1
        have hyeq : (⟨r, c', y.face⟩ : Loc) = y := by rw [← hy2, ← hy3]
        have hc' : c' < (cfg.mesh r).nCells := by rw [← hy3, ← hy2]; exact hyin.2
        have hneeds : Needs cfg mate ⟨r, c', y.face⟩ a0 := by
          rw [hyeq]
          exact ⟨L.orient _ _ _ hx hy1 ha0 hout, _, hys, Or.inr hy2.symm⟩
        have hcnt : cfg.counts r a0 c' y.face = true :=
          (counts_iff (x := ⟨r, c', y.face⟩) L ⟨hr, hc'⟩).2 hneeds
        have hmate' : mate ⟨r, c', y.face⟩ = some ⟨r, c0, f⟩ := by rw [hyeq]; exact hys
        have hna : ¬ Mid cfg mate log r c0 a0 pre c' a0 y.face := by
          rintro (⟨z, hz, -, (⟨hz1, hz2⟩ | ⟨hz1, -⟩)⟩ | ⟨-, f'', hf'', hz, -⟩)
          · rw [hmate'] at hz; simp at hz; subst hz; exact hnd hz2
          · rw [hmate'] at hz; simp at hz; subst hz; exact hz1 rfl
          · rw [hmate'] at hz; simp at hz; subst hz; exact hf hf''
        refine (h.release hc' ha0 hcnt hna).congr (fun _ _ _ _ => Iff.rfl) ?_
        intro c hc a ha f' _
        unfold Mid
        constructor
        · rintro ((h4 | ⟨rfl, f'', h4, h5⟩) | ⟨rfl, rfl, rfl⟩)
          · exact Or.inl h4
          · exact Or.inr ⟨rfl, f'', by simp [h4], h5⟩
          · exact Or.inr ⟨rfl, f, by simp, hmate', hout⟩
        · rintro (h4 | ⟨rfl, f'', h4, h5, h6⟩)
          · exact Or.inl (Or.inl h4)
          · rcases List.mem_append.1 h4 with h7 | h7
            · exact Or.inl (Or.inr ⟨rfl, f'', h7, h5, h6⟩)
            · simp at h7; subst h7
              have hin : cfg.In ⟨r, c, f'⟩ := ⟨hr, hc⟩
              have := mate_inj L hin (⟨hr, hc'⟩ : cfg.In ⟨r, c', y.face⟩) h5 hmate'
              simp at this
              exact Or.inr ⟨this.1, rfl, this.2⟩
    · rw [if_neg hout]
      exact hsame _ rfl rfl (fun h1 => absurd h1 hout)

theorem flatMap_update_perm {α : Type} (F G : Nat → List α) (l : List α) (g : Nat)
    (hg : G g = F g ++ l) (ho : ∀ i, i ≠ g → G i = F i) : ∀ n, (List.range n).flatMap G ~
      (List.range n).flatMap F ++ (if g < n then l else []) := by
  intro n
  induction n with
  | zero => simp
  | succ n ih =>
    rw [List.range_succ, List.flatMap_append, List.flatMap_append]
    simp only [List.flatMap_cons, List.flatMap_nil, List.append_nil]
    refine (ih.append_right _).trans ?_
    by_cases h1 : n = g
    · subst h1
      rw [if_neg (by omega), if_pos (by omega), hg]
      simp
    · rw [ho n h1]
      by_cases h2 : g < n
      · rw [if_pos h2, if_pos (by omega), List.append_assoc, List.append_assoc]
        exact (List.perm_append_comm).append_left _
      · rw [if_neg h2, if_neg (by omega)]
        simp

/-- What a task sends to rank `q` for a face. -/
def packetOf (cfg : Cfg D B) (r c a q : Nat) (d : D) (f : Face) : Option (Packet B) :=
  if cfg.outDir r a c f = true ∧ (cfg.mesh r).adjCell c f = none ∧
      (cfg.mesh r).adjRank c f = some q ∧ cfg.doComm = true then
    some ⟨cfg.gs ⟨r, c, f⟩, a, (cfg.data r).getData c f a d⟩
  else none

theorem outbox_child {cfg : Cfg D B} {r g c a : Nat} (hg : g < cfg.nThreads) (st : RankState D B)
    (f : Face) (q : Nat) : outbox cfg (child cfg r g c a st f) q ~
      outbox cfg st q ++ (packetOf cfg r c a q st.data f).toList := by
  unfold child packetOf
  by_cases hout : cfg.outDir r a c f = true
  · rw [if_pos hout]
    rcases hadj : (cfg.mesh r).adjCell c f with _ | c'
    · dsimp only
      rcases hrk : (cfg.mesh r).adjRank c f with _ | q'
      · simp
      · dsimp only
        by_cases hd : cfg.doComm = true
        · rw [if_pos hd]
          by_cases hq : q' = q
          · subst hq
            simp only [hout, hd, and_self, if_true, Option.toList_some]
            unfold outbox
            have := flatMap_update_perm (fun g => st.sendBuf g q')
              (fun g' => setAt st.sendBuf g (setAt (st.sendBuf g) q' (st.sendBuf g q' ++
              [⟨(cfg.mesh r).lgSide ((cfg.mesh r).side c f), a, (cfg.data r).getData c f a st.data⟩])) g' q')
              [⟨(cfg.mesh r).lgSide ((cfg.mesh r).side c f), a, (cfg.data r).getData c f a st.data⟩] g
              (by simp [setAt]) (by intro i hi; simp [setAt, hi]) cfg.nThreads
            rw [if_pos hg] at this
            exact this
          · have : outbox cfg { st with
              sendBuf := setAt st.sendBuf g (setAt (st.sendBuf g) q' (st.sendBuf g q' ++
              [⟨(cfg.mesh r).lgSide ((cfg.mesh r).side c f), a,
                (cfg.data r).getData c f a st.data⟩])) } q = outbox cfg st q := by
              unfold outbox
              dsimp only
              congr 1
              funext g'
              simp only [setAt]
              split
              · rename_i h; subst h; rw [setAt_ne _ _ (Ne.symm hq)]
              · rfl
            rw [this]
            simp [hq]
        · rw [if_neg hd]; simp [hd]
    · dsimp only
      unfold outbox
      rw [release_sendBuf]
      simp
  · rw [if_neg hout]; simp [hout]

theorem outbox_children {cfg : Cfg D B} {r g c a : Nat} (hg : g < cfg.nThreads) (q : Nat) :
    ∀ (fs : List Face) (st : RankState D B),
      outbox cfg (fs.foldl (child cfg r g c a) st) q ~
        outbox cfg st q ++ fs.filterMap (packetOf cfg r c a q st.data) := by
  intro fs
  induction fs with
  | nil => intro st; simp
  | cons f fs ih =>
    intro st
    rw [List.foldl_cons, List.filterMap_cons]
    refine (ih _).trans ?_
    rw [child_data]
    refine ((outbox_child hg st f q).append_right _).trans ?_
    rcases packetOf cfg r c a q st.data f with _ | p
    · simp
    · simp

/-- What the task sends, counted. -/
theorem pcount_packets {cfg : Cfg D B} {mate : Loc → Option Loc} (L : Linked cfg mate) {x y : Loc}
    (hx : cfg.In x) (hm : mate x = some y) (hr : y.rank ≠ x.rank) {a : Nat}
    (hd : cfg.doComm = true) (hout : cfg.outDir x.rank a x.cell x.face = true)
    {c0 a0 : Nat} (hc0 : c0 < (cfg.mesh x.rank).nCells) (d : D) :
    pcount ((List.finRange 4).filterMap (packetOf cfg x.rank c0 a0 y.rank d)) (cfg.gs x) a =
      if x.cell = c0 ∧ a = a0 then 1 else 0 := by
  unfold pcount
  rw [List.countP_filterMap]
  by_cases hk : x.cell = c0 ∧ a = a0
  · obtain ⟨rfl, rfl⟩ := hk
    rw [if_pos (by simp)]
    obtain ⟨h1, h2⟩ := L.far x y hx hm hr
    have hone := List.count_eq_one_of_mem (List.nodup_finRange 4) (List.mem_finRange x.face)
    rw [← hone]
    unfold List.count
    apply List.countP_congr
    intro f _
    simp only [beq_iff_eq]
    constructor
    · intro hany
      unfold packetOf at hany
      split at hany
      · rename_i hcond
        simp at hany
        obtain ⟨y', hy', hr', hq'⟩ := adjCell_none (x := ⟨x.rank, x.cell, f⟩) L ⟨hx.1, hc0⟩ hcond.2.1 hcond.2.2.1
        have := gs_inj L hx (⟨hx.1, hc0⟩ : cfg.In ⟨x.rank, x.cell, f⟩) hm hy' hr hr' hq'.symm hany.symm
        rw [this]
      · simp at hany
    · rintro rfl
      unfold packetOf
      rw [if_pos ⟨hout, h1, h2, hd⟩]
      simp
  · rw [if_neg hk, List.countP_eq_zero]
    intro f _
    unfold packetOf
    split
    · rename_i hcond
      intro h0
      simp at h0
      obtain ⟨h1, h2⟩ := h0
      subst h2
      obtain ⟨y', hy', hr', hq'⟩ := adjCell_none (x := ⟨x.rank, c0, f⟩) L ⟨hx.1, hc0⟩ hcond.2.1 hcond.2.2.1
      have := gs_inj L hx (⟨hx.1, hc0⟩ : cfg.In ⟨x.rank, c0, f⟩) hm hy' hr hr' hq'.symm h1.symm
      exact hk ⟨by rw [this], rfl⟩
    · simp

theorem pcount_perm {l l' : List (Packet B)} (h : l ~ l') (gs a : Nat) : pcount l gs a = pcount l' gs a :=
  h.countP_eq _

theorem pcount_append (l l' : List (Packet B)) (gs a : Nat) :
    pcount (l ++ l') gs a = pcount l gs a + pcount l' gs a := List.countP_append ..

theorem dcount_append (l l' : List (Event B)) (r s a : Nat) :
    dcount (l ++ l') r s a = dcount l r s a + dcount l' r s a := List.countP_append ..

theorem ucount_append (l l' : List (Event B)) (r : Nat) :
    ucount (l ++ l') r = ucount l r + ucount l' r := List.countP_append ..

section steps
variable {cfg : Cfg D B} {mate : Loc → Option Loc} (L : Linked cfg mate) {s : State D B}
  (I : Inv cfg mate s)
include L I

/-- Facts about the task taken. -/
theorem Inv.taken {r g : Nat} (hr : r < cfg.nRanks) {l1 l2 : List Tuple} {t : Tuple}
    (hq : (s.rank r).queue g = l1 ++ t :: l2) :
    t.cell < (cfg.mesh r).nCells ∧ t.angle < cfg.nAngles ∧ cfg.group t.angle = g ∧
    ¬ Done s.log r t.cell t.angle ∧
    InOrder cfg mate s.log (.upd r t.cell t.angle ((s.rank r).round + 1)) ∧
    0 < (s.rank r).remaining := by
  obtain ⟨-, h1, h2, h3, h4, h5⟩ := (I.ri r hr).pop hq
  refine ⟨h3, h4, h5, h1, ⟨hr, h3, h4, h1, ?_⟩, ?_⟩
  · intro f y hm hn
    have harr : Arr cfg mate s.log r t.cell t.angle f := by
      by_contra hna
      have : f ∈ open_ cfg r (Arr cfg mate s.log r) t.cell t.angle := by
        simp only [open_, Finset.mem_filter, Finset.mem_univ, true_and]
        exact ⟨(counts_iff (x := ⟨r, t.cell, f⟩) L ⟨hr, h3⟩).2 hn, hna⟩
      rw [h2] at this; simp at this
    obtain ⟨y', hy', hout, hcase⟩ := harr
    rw [hm] at hy'
    have := Option.some.inj hy'
    subst this
    rcases hcase with ⟨h6, h7⟩ | ⟨h6, h7⟩
    · exact ⟨h6 ▸ h7, fun h => absurd h6 h⟩
    · refine ⟨?_, fun _ => h7⟩
      -- delivered: so sent
      obtain ⟨b, hb⟩ := h7
      obtain ⟨m1, m2, heq⟩ := List.append_of_mem hb
      obtain ⟨x', y', hx1, hx2, hx3, hx4, hx5, hx6, hx7, hx8, hx9, hx10⟩ := I.ordered m1 _ m2 heq
      have hxx : (⟨r, t.cell, f⟩ : Loc) = x' :=
        L.side_inj ⟨r, t.cell, f⟩ x' y y' ⟨hr, h3⟩ hx2 hm hx3 h6 (by rw [hx1]; exact hx4) hx1.symm
          (by simp only []; rw [hx1, hx6])
      rw [← hxx, hm] at hx3
      have := Option.some.inj hx3
      subst this
      obtain ⟨k1, k, k2, hk, -⟩ := hx10
      refine ⟨k, ?_⟩
      rw [heq, hk]
      simp
  · by_contra h0
    exact h1 (I.done_of_rem L hr (by omega) h3 h4)

theorem Inv.compute {r g : Nat} {steps : Nat → Nat} {l1 l2 : List Tuple} {t : Tuple}
    (hr : r < cfg.nRanks) (hg : g < cfg.nThreads)
    (hphase : (s.rank r).phase = .computing steps)
    (hq : (s.rank r).queue g = l1 ++ t :: l2) (steps' : Nat → Nat) (k : Nat) :
    Inv cfg mate { s with
      rank := setAt s.rank r { computeOne cfg r g t (l1 ++ l2) (s.rank r) with
        phase := .computing steps' }
      log := s.log ++ [.upd r t.cell t.angle k] } := by
  obtain ⟨hc, ha, hga, hnd, hord, hrem⟩ := I.taken L hr hq
  have hx0 : ∀ f, cfg.In ⟨r, t.cell, f⟩ := fun f => ⟨hr, hc⟩
  have hlog : ∀ r' c a, Done (s.log ++ [Event.upd r t.cell t.angle k]) r' c a ↔
      Done s.log r' c a ∨ (r' = r ∧ c = t.cell ∧ a = t.angle) := by
    intro r' c a; rw [done_append, done_single]
  have hdel : ∀ r' c a, Delivered (s.log ++ [Event.upd r t.cell t.angle k]) r' c a ↔
      Delivered s.log r' c a := by
    intro r' c a; rw [delivered_append]; simp [delivered_upd]
  have hdc : ∀ r' c a, dcount (s.log ++ [Event.upd r t.cell t.angle k]) r' c a = dcount s.log r' c a := by
    intro r' c a; rw [dcount_append]; simp [dcount, Event.slot]
  -- transit
  have htr : ∀ q r', transit cfg { s with
      rank := setAt s.rank r { computeOne cfg r g t (l1 ++ l2) (s.rank r) with
        phase := .computing steps' }
      log := s.log ++ [.upd r t.cell t.angle k] } q r' ~
      transit cfg s q r' ++ (if q = r then (List.finRange 4).filterMap (packetOf cfg r t.cell t.angle r'
        ((cfg.data r).update t.cell t.angle (adjCellsSides (cfg.mesh r) t.cell)
          (bdryType (cfg.mesh r) t.angle t.cell) (s.rank r).data)) else []) := by
    intro q r'
    have hgot : gotFrom (setAt s.rank r { computeOne cfg r g t (l1 ++ l2) (s.rank r) with
        phase := .computing steps' } r').phase q = gotFrom (s.rank r').phase q := by
      by_cases h : r' = r
      · subst h; rw [setAt_same, hphase]; rfl
      · rw [setAt_ne _ _ h]
    unfold transit
    dsimp only
    rw [hgot]
    by_cases hqr : q = r
    · subst hqr
      rw [if_pos rfl, setAt_same]
      have := outbox_children (cfg := cfg) (r := q) (c := t.cell) (a := t.angle) hg r' (List.finRange 4)
        { s.rank q with
          queue := setAt (s.rank q).queue g (l1 ++ l2)
          remaining := dec (s.rank q).remaining
          data := (cfg.data q).update t.cell t.angle (adjCellsSides (cfg.mesh q) t.cell)
            (bdryType (cfg.mesh q) t.angle t.cell) (s.rank q).data }
      refine (List.Perm.append_right _ this).trans ?_
      rw [List.append_assoc, List.append_assoc]
      exact List.Perm.append_left _ List.perm_append_comm
    · rw [if_neg hqr, setAt_ne _ _ hqr]; simp
  have hdata : (cfg.data r).update t.cell t.angle (adjCellsSides (cfg.mesh r) t.cell)
      (bdryType (cfg.mesh r) t.angle t.cell) (s.rank r).data =
      replay cfg r (s.log ++ [.upd r t.cell t.angle k]) := by
    rw [replay_snoc, ← I.data r hr]
    simp [applyEvent]
  refine ⟨?_, ?_, ?_, ?_, ?_, ?_, ?_, ?_, ?_⟩
  · -- ri
    intro r' hr'
    dsimp only
    by_cases h : r' = r
    · subst h
      rw [setAt_same]
      have h0 := ((I.ri r' hr).pop hq).1
      have h1 : RI cfg r' (s.rank r').numDeps (setAt (s.rank r').queue g (l1 ++ l2))
          (fun c a => Done s.log r' c a ∨ (c = t.cell ∧ a = t.angle))
          (Mid cfg mate s.log r' t.cell t.angle []) :=
        h0.congr (fun _ _ _ _ => Iff.rfl) (by intro c _ a _ f _; unfold Mid; simp)
      have h2 := RI.children L hr hc ha hnd (List.finRange 4) [] { s.rank r' with
          queue := setAt (s.rank r').queue g (l1 ++ l2)
          remaining := dec (s.rank r').remaining
          data := (cfg.data r').update t.cell t.angle (adjCellsSides (cfg.mesh r') t.cell)
            (bdryType (cfg.mesh r') t.angle t.cell) (s.rank r').data }
          (by simpa using List.nodup_finRange 4) h1
      rw [hga] at h2
      refine h2.congr ?_ ?_
      · intro c _ a _; rw [hlog]; simp
      · intro c hc' a ha' f _
        unfold Mid Arr
        simp only [hdel, hlog]
        constructor
        · rintro (⟨y, hy1, hy2, hy3⟩ | ⟨rfl, f', -, hy1, hy2⟩)
          · refine ⟨y, hy1, hy2, ?_⟩
            tauto
          · exact ⟨_, hy1, hy2, Or.inl ⟨rfl, Or.inr ⟨trivial, rfl, rfl⟩⟩⟩
        · rintro ⟨y, hy1, hy2, (⟨hy3, (hy4 | ⟨-, hy5, hy6⟩)⟩ | hy3)⟩
          · exact Or.inl ⟨y, hy1, hy2, Or.inl ⟨hy3, hy4⟩⟩
          · right
            subst hy6
            have hye : y = ⟨r', t.cell, y.face⟩ := by rw [← hy3, ← hy5]
            refine ⟨rfl, y.face, by simp, ?_, ?_⟩
            · rw [hy1]; exact congrArg some hye
            · rw [hye] at hy2; exact hy2
          · exact Or.inl ⟨y, hy1, hy2, Or.inr hy3⟩
    · rw [setAt_ne _ _ h]
      refine (I.ri r' hr').congr ?_ ?_
      · intro c _ a _; rw [hlog]; simp [h]
      · intro c hc' a ha' f _
        unfold Arr
        simp only [hdel, hlog, h, false_and, or_false]
  · -- rem
    intro r' hr'
    dsimp only
    rw [ucount_append]
    have h0 := I.rem r' hr'
    by_cases h : r' = r
    · subst h
      rw [setAt_same]
      dsimp only
      rw [computeOne_remaining, dec_pos hrem]
      have : ucount [Event.upd (B := B) r' t.cell t.angle k] r' = 1 := by simp [ucount, Event.task]
      omega
    · rw [setAt_ne _ _ h]
      have : ucount [Event.upd (B := B) r t.cell t.angle k] r' = 0 := by
        simp [ucount, Event.task]; exact fun h1 => h h1.symm
      omega
  · -- data
    intro r' hr'
    dsimp only
    by_cases h : r' = r
    · subst h
      rw [setAt_same]
      dsimp only
      rw [computeOne_data, hdata]
    · rw [setAt_ne _ _ h, I.data r' hr', replay_snoc]
      simp [applyEvent, Ne.symm h]
  · exact ordered_snoc I.ordered hord
  · -- good
    intro q r' p hp
    rw [(htr q r').mem_iff, List.mem_append] at hp
    rcases hp with hp | hp
    · exact good_append (I.good q r' p hp)
    · split at hp
      · rename_i hqr
        subst hqr
        rw [List.mem_filterMap] at hp
        obtain ⟨f, -, hp⟩ := hp
        unfold packetOf at hp
        split at hp
        · rename_i hcond
          simp only [Option.some.injEq] at hp
          subst hp
          obtain ⟨y, hy, hyr, hyq⟩ := adjCell_none (x := ⟨q, t.cell, f⟩) L (hx0 f) hcond.2.1 hcond.2.2.1
          refine ⟨⟨q, t.cell, f⟩, y, hx0 f, rfl, hy, hyq, ?_, hcond.2.2.2, ha, hcond.1, rfl, ?_⟩
          · intro h; exact hyr (by rw [hyq, ← h])
          · refine ⟨s.log, k, [], rfl, ?_⟩
            dsimp only
            rw [hdata]
        · simp at hp
      · simp at hp
  · -- count
    intro x y a hx hm hxy ha' hd hout
    rw [pcount_perm (htr _ _), pcount_append, hdc]
    have h0 := I.count x y a hx hm hxy ha' hd hout
    have hiff := hlog x.rank x.cell a
    by_cases hxr : x.rank = r
    · rw [if_pos hxr]
      subst hxr
      rw [pcount_packets L hx hm hxy hd hout hc]
      by_cases hk : x.cell = t.cell ∧ a = t.angle
      · rw [if_pos hk, if_pos (hiff.2 (Or.inr ⟨rfl, hk⟩))]
        rw [if_neg (by rw [hk.1, hk.2]; exact hnd)] at h0
        omega
      · rw [if_neg hk]
        have : (Done (s.log ++ [Event.upd x.rank t.cell t.angle k]) x.rank x.cell a) ↔
            Done s.log x.rank x.cell a := by rw [hiff]; tauto
        simp only [this]
        omega
    · rw [if_neg hxr]
      have : (Done (s.log ++ [Event.upd r t.cell t.angle k]) x.rank x.cell a) ↔
          Done s.log x.rank x.cell a := by rw [hiff]; tauto
      simp only [this]
      have : pcount ([] : List (Packet B)) (cfg.gs x) a = 0 := rfl
      omega
  · -- over
    intro r' hr' hov
    dsimp only at hov ⊢
    by_cases h : r' = r
    · subst h; rw [setAt_same] at hov; exact hov.elim
    · rw [setAt_ne _ _ h] at hov ⊢; exact I.over r' hr' hov
  · -- killed
    intro q r' hk
    dsimp only at hk ⊢
    obtain ⟨h1, h2⟩ := I.killed q r' hk
    refine ⟨h1, ?_⟩
    by_cases h : q = r
    · subst h; omega
    · rw [setAt_ne _ _ h]; exact h2
  · -- dark
    intro q r' hk
    dsimp only at hk ⊢
    have : (s.rank r').dark q = true := by
      by_cases h : r' = r
      · subst h; rw [setAt_same] at hk; dsimp only at hk; rw [computeOne_dark] at hk; exact hk
      · rw [setAt_ne _ _ h] at hk; exact hk
    obtain ⟨h1, h2⟩ := I.dark q r' this
    refine ⟨h1, ?_⟩
    by_cases h : q = r
    · subst h; omega
    · rw [setAt_ne _ _ h]; exact h2

end steps

end Verif.Traverse
