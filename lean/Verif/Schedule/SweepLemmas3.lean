import Verif.Schedule.SweepLemmas2

/-!
# The sweep along schedules: receiving
-/
set_option linter.unusedSectionVars false
set_option linter.unusedVariables false

namespace Verif.Schedule
open Classical List
open Verif.Traverse

variable {D B : Type} {S : Core D B}
  {sim : Nat → D → D → Prop} {mate : Loc → Option Loc} {angles : Nat → List Nat}

theorem filter_range_head (P : Nat → Prop) [DecidablePred P] {k n : Nat} (hk : k < n) (hP : P k) :
    (List.range n).filter (fun x => k ≤ x ∧ P x) = k :: (List.range n).filter (fun x => k + 1 ≤ x ∧ P x) := by
  obtain ⟨m, rfl⟩ := Nat.exists_eq_add_of_lt hk
  induction m with
  | zero =>
    simp only [Nat.add_zero]
    rw [List.range_succ, List.filter_append, List.filter_append, List.filter_singleton,
      List.filter_singleton]
    have h1 : (List.range k).filter (fun x => k ≤ x ∧ P x) = [] := by
      rw [List.filter_eq_nil_iff]
      intro x hx
      have := List.mem_range.1 hx
      simp; omega
    have h2 : (List.range k).filter (fun x => k + 1 ≤ x ∧ P x) = [] := by
      rw [List.filter_eq_nil_iff]
      intro x hx
      have := List.mem_range.1 hx
      simp; omega
    rw [h1, h2]
    simp [hP]
  | succ m ih =>
    have ih := ih (by omega)
    rw [show k + (m + 1) + 1 = (k + m + 1) + 1 by omega, List.range_succ, List.filter_append, List.filter_append,
      ih, List.filter_singleton, List.filter_singleton, List.cons_append]
    congr 2
    have : (k ≤ k + m + 1 ∧ P (k + m + 1)) ↔ (k + 1 ≤ k + m + 1 ∧ P (k + m + 1)) := by
      constructor
      · rintro ⟨-, h⟩; exact ⟨by omega, h⟩
      · rintro ⟨-, h⟩; exact ⟨by omega, h⟩
    rw [decide_eq_decide.2 this]

theorem outDir_of_out (T : Timetable S mate angles) {r a c : Nat} {f : Face} (h : (S.cfg.mesh r).outgoing a c f = true) :
    S.cfg.outDir r a c f = true := by
  unfold Cfg.outDir
  simp [T.forward, h]

/-- Message steps sent but not received before step `k` of the receiver. -/
theorem done_arrivals {r r' c a : Nat} {m : List (Packet B)} : ¬ Done (S.arrivals r m) r' c a := by
  rintro ⟨k, h⟩
  simp [Core.arrivals] at h

theorem delivered_arrivals {r r' n a q : Nat} {m : List (Packet B)} {es : List (Work × Face)}
    {log : List (Event B)} (h : List.Forall₂ (S.PktOk log q) es m) :
    Delivered (S.arrivals r m) r' n a ↔ r' = r ∧ ∃ e ∈ es,
      (S.cfg.mesh r).glSide ((S.cfg.mesh q).lgSide ((S.cfg.mesh q).side e.1.cell e.2)) = n ∧ e.1.angle = a := by
  induction h with
  | nil => simp [Delivered, Core.arrivals]
  | cons hp _ ih =>
    rename_i e p es m _
    have : S.arrivals r (p :: m) = [.side r ((S.cfg.mesh r).glSide p.side) p.angle p.data] ++ S.arrivals r m := rfl
    rw [this, delivered_append, ih, delivered_side, hp.1, hp.2.1]
    simp only [List.mem_cons, exists_eq_or_imp]
    constructor
    · rintro (⟨h1, h2, h3⟩ | ⟨h1, h2⟩)
      · exact ⟨h1, Or.inl ⟨h2.symm, h3.symm⟩⟩
      · exact ⟨h1, Or.inr h2⟩
    · rintro ⟨h1, h2 | h2⟩
      · exact Or.inl ⟨h1, h2.1.symm, h2.2.symm⟩
      · exact Or.inr ⟨h1, h2⟩

section
variable (T : Timetable S mate angles) (L : Linked S.cfg mate) (hd : S.cfg.doComm = true)
include T L

/-- The sides of a message are in order, if none has been set before and none of their cells is done. -/
theorem ordered_arrivals (hd : S.cfg.doComm = true) {r q g k : Nat} (hr : r < S.cfg.nRanks)
    (hq : q < S.cfg.nRanks) (hg : g < S.nAngleGroups) {es : List (Work × Face)} {m : List (Packet B)} :
    ∀ {log : List (Event B)}, List.Forall₂ (S.PktOk log q) es m → es.Nodup →
    (∀ e ∈ es, e ∈ S.cross q r (S.workAt g q k)) →
    (∀ e ∈ es, ¬ Delivered log r
      ((S.cfg.mesh r).glSide ((S.cfg.mesh q).lgSide ((S.cfg.mesh q).side e.1.cell e.2))) e.1.angle) →
    (∀ e ∈ es, ∀ x, mate ⟨q, e.1.cell, e.2⟩ = some x → ¬ Done log r x.cell e.1.angle) →
    Ordered S.cfg mate log → Ordered S.cfg mate (log ++ S.arrivals r m) := by
  induction es generalizing m with
  | nil =>
    intro log h _ _ _ _ ho
    cases h
    simpa [Core.arrivals] using ho
  | cons e es ih =>
    intro log h hnd hcr hdel hdone ho
    cases h with
    | cons hp hps =>
      rename_i p m
      have hsplit : log ++ S.arrivals r (p :: m) =
          (log ++ [.side r ((S.cfg.mesh r).glSide p.side) p.angle p.data]) ++ S.arrivals r m := by
        simp [Core.arrivals]
      rw [hsplit]
      have he := hcr e (by simp)
      obtain ⟨hmem, hl, hrk⟩ := mem_cross.1 he
      obtain ⟨i, hi⟩ := List.mem_iff_getElem?.1 hmem
      obtain ⟨hc, hang⟩ := T.valid g hg q hq k i _ hi
      have ha := T.below g hg _ hang
      obtain ⟨x, hm, hx, hne, hxin, hmx⟩ := far_of_leaves T L hq hc hl hrk
      have hyin : S.cfg.In ⟨q, e.1.cell, e.2⟩ := ⟨hq, hc⟩
      have hside : (S.cfg.mesh r).glSide ((S.cfg.mesh q).lgSide ((S.cfg.mesh q).side e.1.cell e.2)) =
          (S.cfg.mesh r).side x.cell x.face := by
        have := L.side_eq _ x hyin hm (by rw [hx]; exact hne)
        rw [hx] at this
        exact this
      have hsideinj : ∀ e' ∈ es, (S.cfg.mesh r).glSide ((S.cfg.mesh q).lgSide ((S.cfg.mesh q).side e'.1.cell e'.2)) =
          (S.cfg.mesh r).glSide ((S.cfg.mesh q).lgSide ((S.cfg.mesh q).side e.1.cell e.2)) → e'.1.angle = e.1.angle → False := by
        intro e' he' h1 h2
        obtain ⟨hmem', hl', hrk'⟩ := mem_cross.1 (hcr e' (by simp [he']))
        obtain ⟨i', hi'⟩ := List.mem_iff_getElem?.1 hmem'
        obtain ⟨hc', -⟩ := T.valid g hg q hq k i' _ hi'
        obtain ⟨x', hm', hx', hne', hxin', hmx'⟩ := far_of_leaves T L hq hc' hl' hrk'
        have hside' := L.side_eq ⟨q, e'.1.cell, e'.2⟩ x' ⟨hq, hc'⟩ hm' (by rw [hx']; exact hne')
        rw [hx'] at hside'
        have hss : (S.cfg.mesh x'.rank).side x'.cell x'.face = (S.cfg.mesh x.rank).side x.cell x.face := by
          rw [hx, hx']
          exact hside'.symm.trans (h1.trans hside)
        have hxx := L.side_inj x' x _ _ hxin' hxin hmx' hmx (by rw [hx']; exact Ne.symm hne)
          (by rw [hx]; exact Ne.symm hne) (by rw [hx, hx']) hss
        rw [hxx, hmx] at hmx'
        simp only [Option.some.injEq, Loc.mk.injEq, true_and] at hmx'
        have : e' = e := by
          obtain ⟨⟨c1, a1⟩, f1⟩ := e
          obtain ⟨⟨c2, a2⟩, f2⟩ := e'
          simp only at hmx' h2
          obtain ⟨rfl, rfl⟩ := hmx'
          rw [h2]
        rw [this] at he'
        exact (List.nodup_cons.1 hnd).1 he'
      have hpangle : p.angle = e.1.angle := hp.2.1
      have hpside : (S.cfg.mesh r).glSide p.side = (S.cfg.mesh r).side x.cell x.face := by rw [hp.1, hside]
      refine ih (hps.imp fun _ _ h => pktOk_append h) (List.nodup_cons.1 hnd).2
        (fun e' he' => hcr e' (by simp [he'])) ?_ ?_ ?_
      · intro e' he' hdl
        rw [delivered_append, delivered_side] at hdl
        rcases hdl with hdl | ⟨-, h1, h2⟩
        · exact hdel e' (by simp [he']) hdl
        · rw [hp.1] at h1
          rw [hpangle] at h2
          exact hsideinj e' he' h1 h2
      · intro e' he' x' hx' hdn
        rw [done_append] at hdn
        rcases hdn with hdn | hdn
        · exact hdone e' (by simp [he']) x' hx' hdn
        · exact done_side hdn
      · refine ordered_snoc ho ⟨x, ⟨q, e.1.cell, e.2⟩, hx, hxin, hmx, Ne.symm hne, ?_, ?_, ?_, ?_, ?_, ?_⟩
        · rw [hpangle]; exact ha
        · exact hpside.symm
        · refine ⟨?_, ⟨q, e.1.cell, e.2⟩, hmx, Or.inl hd⟩
          rw [hpangle]
          exact L.orient ⟨q, e.1.cell, e.2⟩ x _ hyin hm ha (outDir_of_out T hl.2)
        · rw [hp.1, hpangle]; exact hdel e (by simp)
        · rw [hpangle]; exact hdone e (by simp) x hm
        · rw [hpangle]; exact hp.2.2

theorem SweepInv.recv (A : S.Agrees sim) (hd : S.cfg.doComm = true) {s : SweepState S} (h : SweepInv S sim mate angles s)
    {r g k j q : Nat} {m : List (Packet B)} {ms : List (List (Packet B))}
    (hr : r < S.cfg.nRanks) (hg : g < S.nAngleGroups) (hpl : (s.rank r).place g = ⟨k, .comm j⟩)
    (hj : (S.recvAt g r k)[j]? = some q) (hch : s.chan q r g = m :: ms) :
    SweepInv S sim mate angles (s.recv r g k j q m ms) := by
  have hqmem : q ∈ S.recvAt g r k := List.mem_of_getElem? hj
  have hq := T.recv_lt g hg r hr k q hqmem
  have hsend : r ∈ S.sendAt g q k := (T.agree g hg q hq r hr k).2 hqmem
  obtain ⟨hjl, hjq⟩ := List.getElem?_eq_some_iff.1 hj
  have hdrop : (S.recvAt g r k).drop j = q :: (S.recvAt g r k).drop (j + 1) := by
    rw [List.drop_eq_getElem_cons hjl, hjq]
  have hnd : (q :: (S.recvAt g r k).drop (j + 1)).Nodup := by
    rw [← hdrop]
    exact (T.recv_nodup g hg r hr k).sublist (List.drop_sublist _ _)
  have hold_q : S.recvUpto g r ((s.rank r).place g) q = k := by
    rw [hpl]
    simp only [Core.recvUpto]
    rw [if_pos]
    rw [hdrop]; simp
  have hother : ∀ r' g', ¬ (r' = r ∧ g' = g) →
      ((s.recv r g k j q m ms).rank r').place g' = (s.rank r').place g' := by
    intro r' g' hne
    rw [place_recv, if_neg hne]
  have hnew : ((s.recv r g k j q m ms).rank r).place g = ⟨k, .comm (j + 1)⟩ := by
    rw [place_recv, if_pos ⟨rfl, rfl⟩]
  have hnew_q : S.recvUpto g r (((s.recv r g k j q m ms).rank r).place g) q = k + 1 := by
    rw [hnew]
    simp only [Core.recvUpto]
    rw [if_neg (List.nodup_cons.1 hnd).1]
  have hnew_ne : ∀ p, p ≠ q → S.recvUpto g r (((s.recv r g k j q m ms).rank r).place g) p =
      S.recvUpto g r ((s.rank r).place g) p := by
    intro p hp
    rw [hnew, hpl]
    simp only [Core.recvUpto]
    have : p ∈ (S.recvAt g r k).drop j ↔ p ∈ (S.recvAt g r k).drop (j + 1) := by
      rw [hdrop]; simp [hp]
    simp only [this]
  have hsent : ∀ r' g', (((s.recv r g k j q m ms).rank r').place g').sentUpto =
      ((s.rank r').place g').sentUpto := by
    intro r' g'
    rw [place_recv]
    split
    · rename_i he; rw [he.1, he.2, hpl]; rfl
    · rfl
  have hlog : (s.recv r g k j q m ms).log = s.log ++ S.arrivals r m := rfl
  -- the message is the one of step `k`
  have hc := h.chan q hq r hr g hg
  rw [hch] at hc
  have hks : k < ((s.rank q).place g).sentUpto := by
    cases hfl : S.inFlight s q r g with
    | nil => rw [hfl] at hc; cases hc
    | cons k0 l =>
      have hk0 : k0 ∈ S.inFlight s q r g := by rw [hfl]; simp
      unfold Core.inFlight at hk0
      rw [List.mem_filter, List.mem_range] at hk0
      have h2 := of_decide_eq_true hk0.2
      rw [hold_q] at h2
      exact lt_of_le_of_lt h2.1 hk0.1
  have hfl : S.inFlight s q r g = k :: S.inFlight (s.recv r g k j q m ms) q r g := by
    unfold Core.inFlight
    rw [hsent, hold_q, hnew_q]
    exact filter_range_head (fun k => r ∈ S.sendAt g q k) hks hsend
  rw [hfl] at hc
  obtain ⟨hm, hms⟩ := List.forall₂_cons.1 hc
  -- the entries of the message
  have hentry : ∀ e ∈ S.cross q r (S.workAt g q k), e.1 ∈ S.workAt g q k ∧ e.1.angle ∈ angles g ∧
      ∃ x, mate ⟨q, e.1.cell, e.2⟩ = some x ∧ x.rank = r ∧ r ≠ q ∧ S.cfg.In x ∧
        mate x = some ⟨q, e.1.cell, e.2⟩ ∧ S.leaves q e.1.angle e.1.cell e.2 ∧
        (S.cfg.mesh r).glSide ((S.cfg.mesh q).lgSide ((S.cfg.mesh q).side e.1.cell e.2)) =
          (S.cfg.mesh r).side x.cell x.face := by
    intro e he
    obtain ⟨hmem, hl, hrk⟩ := mem_cross.1 he
    obtain ⟨i, hi⟩ := List.mem_iff_getElem?.1 hmem
    obtain ⟨hc, hang⟩ := T.valid g hg q hq k i _ hi
    obtain ⟨x, h1, h2, h3, h4, h5⟩ := far_of_leaves T L hq hc hl hrk
    refine ⟨hmem, hang, x, h1, h2, h3, h4, h5, hl, ?_⟩
    have := L.side_eq ⟨q, e.1.cell, e.2⟩ x ⟨hq, hc⟩ h1 (by rw [h2]; exact h3)
    rw [h2] at this
    exact this
  constructor
  · rw [hlog]
    refine ordered_arrivals T L hd hr hq hg hm (nodup_cross (work_nodup T hg hq)) (fun e he => he) ?_ ?_ h.ordered
    · intro e he hdl
      obtain ⟨hmem, hang, x, h1, h2, h3, h4, h5, h6, h7⟩ := hentry e he
      rw [h7, h.delivered r hr g hg _ _ hang] at hdl
      obtain ⟨x', y', k', g1, g2, g3, g4, g5, g6, g7, g8⟩ := hdl
      have hxx := L.side_inj x' x _ _ g2 h4 g3 h5 (by rw [g1]; exact g4) (by rw [h2]; exact Ne.symm h3)
        (by rw [g1, h2]) (by rw [g1, h2]; exact g5)
      rw [hxx, h5] at g3
      have hyy := Option.some.inj g3
      subst hyy
      have hkk := step_unique T hg hq g7 hmem
      rw [hold_q] at g8
      omega
    · intro e he x hx hdn
      obtain ⟨hmem, hang, x', h1, h2, h3, h4, h5, h6, h7⟩ := hentry e he
      rw [h1] at hx
      have hxx := Option.some.inj hx
      subst hxx
      rw [h.done r hr g hg _ _ hang, hpl] at hdn
      obtain ⟨k2, i2, hi2, hlt⟩ := hdn
      have ha := T.below g hg _ hang
      have hin : S.cfg.inDir x'.rank e.1.angle x'.cell x'.face = true := by
        refine L.orient ⟨q, e.1.cell, e.2⟩ x' _ ?_ h1 ha ?_
        · exact L.mate_in _ _ h4 h5
        · exact outDir_of_out T h6.2
      have hno := not_out_of_inDir T hin
      have hrx : (⟨r, x'.cell, x'.face⟩ : Loc) = x' := by rw [← h2]
      obtain ⟨k3, i3, hi3, hlt3⟩ := (T.order g hg r hr k2 i2 _ hi2 x'.face ⟨q, e.1.cell, e.2⟩
        (by simp only; rw [hrx]; exact h5) (by rw [h2] at hno; exact hno)).2 (Ne.symm h3)
      have hkk : k3 = k := step_unique T hg hq (List.mem_of_getElem? hi3) hmem
      simp only [Place.upto] at hlt
      omega
  · intro r' hr'
    rw [hlog, data_recv]
    by_cases he : r' = r
    · subst he
      rw [if_pos rfl]
      exact recv_sim A hr (h.data r' hr')
    · rw [if_neg he, replay_arrivals he]
      exact h.data r' hr'
  · intro r' hr' g' hg' c a hag
    rw [hlog, done_append, h.done r' hr' g' hg' c a hag]
    have : (((s.recv r g k j q m ms).rank r').place g').upto = ((s.rank r').place g').upto := by
      rw [place_recv]
      split
      · rename_i he; rw [he.1, he.2, hpl]; rfl
      · rfl
    rw [this]
    simp only [done_arrivals, or_false]
  · intro r' hr' g' hg' n a hag
    rw [hlog, delivered_append, delivered_arrivals hm, h.delivered r' hr' g' hg' n a hag]
    by_cases he : r' = r ∧ g' = g
    · obtain ⟨rfl, rfl⟩ := he
      constructor
      · rintro (⟨x, y, k', h1, h2, h3, h4, h5, h6, h7, h8⟩ | ⟨-, e, he, h1, h2⟩)
        · refine ⟨x, y, k', h1, h2, h3, h4, h5, h6, h7, ?_⟩
          by_cases hyq : y.rank = q
          · rw [hyq, hnew_q]
            rw [hyq, hold_q] at h8
            omega
          · rw [hnew_ne _ hyq]; exact h8
        · obtain ⟨hmem, hang, x, g1, g2, g3, g4, g5, g6, g7⟩ := hentry e he
          subst h2
          refine ⟨x, _, k, g2, g4, g5, Ne.symm g3, ?_, g6, hmem, ?_⟩
          · rw [← g7, h1]
          · simp only; rw [hnew_q]; omega
      · rintro ⟨x, y, k', h1, h2, h3, h4, h5, h6, h7, h8⟩
        by_cases hyq : y.rank = q
        · by_cases hkk : k' = k
          · right
            subst hkk
            refine ⟨rfl, (⟨y.cell, a⟩, y.face), ?_, ?_, rfl⟩
            · rw [mem_cross]
              have hyin := L.mate_in x y h2 h3
              have hrk := (L.far y x hyin (L.mate_symm x y h2 h3) (by rw [h1]; exact Ne.symm h4)).2
              rw [h1] at hrk
              rw [hyq] at h7 h6
              refine ⟨h7, h6, ?_⟩
              rw [← hyq]
              exact hrk
            · have hyin := L.mate_in x y h2 h3
              have := L.side_eq y x hyin (L.mate_symm x y h2 h3) (by rw [h1]; exact Ne.symm h4)
              rw [h1, hyq] at this
              exact this.trans h5
          · left
            refine ⟨x, y, k', h1, h2, h3, h4, h5, h6, h7, ?_⟩
            rw [hyq, hnew_q] at h8
            rw [hyq, hold_q]
            omega
        · left
          rw [hnew_ne _ hyq] at h8
          exact ⟨x, y, k', h1, h2, h3, h4, h5, h6, h7, h8⟩
    · rw [hother r' g' he]
      constructor
      · rintro (h1 | ⟨rfl, e, hee, h1, h2⟩)
        · exact h1
        · obtain ⟨-, hang, -⟩ := hentry e hee
          rw [h2] at hang
          exact absurd ⟨rfl, T.disjoint g' hg' g hg a hag hang⟩ he
      · exact Or.inl
  · intro p' hp' q' hq' g' hg'
    rw [hlog, chan_recv]
    by_cases he : p' = q ∧ q' = r ∧ g' = g
    · obtain ⟨rfl, rfl, rfl⟩ := he
      rw [if_pos ⟨rfl, rfl, rfl⟩]
      exact hms.imp fun _ _ h => pkts_append h
    · rw [if_neg he]
      have hfe : S.inFlight (s.recv r g k j q m ms) p' q' g' = S.inFlight s p' q' g' := by
        unfold Core.inFlight
        rw [hsent]
        by_cases h2 : q' = r ∧ g' = g
        · obtain ⟨rfl, rfl⟩ := h2
          rw [hnew_ne p' (fun h => he ⟨h, rfl, rfl⟩)]
        · rw [hother q' g' h2]
      rw [hfe]
      exact (h.chan p' hp' q' hq' g' hg').imp fun _ _ h => pkts_append h
  · intro p' hp' q' hq' g' hg'
    rw [hlog, buf_recv]
    have : S.pending g' p' (((s.recv r g k j q m ms).rank p').place g') =
        S.pending g' p' ((s.rank p').place g') := by
      rw [place_recv]
      split
      · rename_i he; rw [he.1, he.2, hpl]; rfl
      · rfl
    rw [this]
    exact pkts_append (h.buf p' hp' q' hq' g' hg')
  · intro p' hp' q' hq' g' hg' k' hk hs
    rw [hsent]
    by_cases h2 : q' = r ∧ g' = g
    · obtain ⟨rfl, rfl⟩ := h2
      by_cases hpq : p' = q
      · subst hpq
        rw [hnew_q] at hk
        by_cases hkk : k' = k
        · rw [hkk]; exact hks
        · refine h.causal p' hp' q' hq' g' hg' k' ?_ hs
          rw [hold_q]; omega
      · rw [hnew_ne p' hpq] at hk
        exact h.causal p' hp' q' hq' g' hg' k' hk hs
    · rw [hother q' g' h2] at hk
      exact h.causal p' hp' q' hq' g' hg' k' hk hs

end

end Verif.Schedule
