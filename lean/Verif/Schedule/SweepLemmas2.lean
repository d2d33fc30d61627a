import Verif.Schedule.SweepLemmas

/-!
# The sweep along schedules: the invariant holds
-/
set_option linter.unusedSectionVars false
set_option linter.unusedVariables false

namespace Verif.Schedule
open Classical List
open Verif.Traverse

variable {D B : Type} {S : Core D B}
  {sim : Nat → D → D → Prop} {mate : Loc → Option Loc} {angles : Nat → List Nat}

/-! ### Places -/

theorem rank_set (s : SweepState S) (r : Nat) (v : Vars S) : (s.setRank r v).rank r = v :=
  setAt_self _ _ _

theorem rank_set_ne (s : SweepState S) {r q : Nat} (v : Vars S) (h : q ≠ r) :
    (s.setRank r v).rank q = s.rank q := setAt_ne _ _ h

theorem place_work (s : SweepState S) (r g k i : Nat) (w : Work) (r' g' : Nat) :
    ((s.work r g k i w).rank r').place g' =
      if r' = r ∧ g' = g then ⟨k, .compute (i + 1)⟩ else (s.rank r').place g' := by
  simp only [SweepState.work, SweepState.setRank, Vars.setPlace, setAt]
  by_cases hr : r' = r
  · subst hr
    by_cases hg : g' = g <;> simp [setAt, hg]
  · simp [hr]

theorem place_send (s : SweepState S) (r g k : Nat) (r' g' : Nat) :
    ((s.send r g k).rank r').place g' =
      if r' = r ∧ g' = g then ⟨k, .comm 0⟩ else (s.rank r').place g' := by
  simp only [SweepState.send, SweepState.setRank, Vars.setPlace, setAt]
  by_cases hr : r' = r
  · subst hr
    by_cases hg : g' = g <;> simp [setAt, hg]
  · simp [hr]

theorem place_recv (s : SweepState S) (r g k j q : Nat) (m : List (Packet B))
    (ms : List (List (Packet B))) (r' g' : Nat) :
    ((s.recv r g k j q m ms).rank r').place g' =
      if r' = r ∧ g' = g then ⟨k, .comm (j + 1)⟩ else (s.rank r').place g' := by
  simp only [SweepState.recv, SweepState.setRank, Vars.setPlace, setAt]
  by_cases hr : r' = r
  · subst hr
    by_cases hg : g' = g <;> simp [setAt, hg]
  · simp [hr]

theorem buf_work (s : SweepState S) (r g k i : Nat) (w : Work) (r' g' q : Nat) :
    ((s.work r g k i w).rank r').buf g' q =
      if r' = r ∧ g' = g then (s.rank r).buf g q ++ S.packets r w (S.compute r w (s.rank r).data) q
      else (s.rank r').buf g' q := by
  simp only [SweepState.work, SweepState.setRank, Vars.setPlace, setAt]
  by_cases hr : r' = r
  · subst hr
    by_cases hg : g' = g <;> simp [setAt, hg]
  · simp [hr]

theorem buf_send (s : SweepState S) (r g k : Nat) (r' g' q : Nat) :
    ((s.send r g k).rank r').buf g' q =
      if r' = r ∧ g' = g ∧ q ∈ S.sendAt g r k then [] else (s.rank r').buf g' q := by
  simp only [SweepState.send, SweepState.setRank, Vars.setPlace, setAt]
  by_cases hr : r' = r
  · subst hr
    by_cases hg : g' = g
    · subst hg; simp [setAt]
    · simp [setAt, hg]
  · simp [hr]

theorem buf_recv (s : SweepState S) (r g k j q : Nat) (m : List (Packet B))
    (ms : List (List (Packet B))) (r' : Nat) :
    ((s.recv r g k j q m ms).rank r').buf = (s.rank r').buf := by
  simp only [SweepState.recv, SweepState.setRank, Vars.setPlace, setAt]
  split
  · rename_i h; rw [h]
  · rfl

theorem data_work (s : SweepState S) (r g k i : Nat) (w : Work) (r' : Nat) :
    ((s.work r g k i w).rank r').data =
      if r' = r then S.compute r w (s.rank r).data else (s.rank r').data := by
  simp only [SweepState.work, SweepState.setRank, Vars.setPlace, setAt]
  split <;> rfl

theorem data_send (s : SweepState S) (r g k : Nat) (r' : Nat) :
    ((s.send r g k).rank r').data = (s.rank r').data := by
  simp only [SweepState.send, SweepState.setRank, Vars.setPlace, setAt]
  split
  · rename_i h; rw [h]
  · rfl

theorem data_recv (s : SweepState S) (r g k j q : Nat) (m : List (Packet B))
    (ms : List (List (Packet B))) (r' : Nat) :
    ((s.recv r g k j q m ms).rank r').data =
      if r' = r then S.setBoundData r m (s.rank r).data else (s.rank r').data := by
  simp only [SweepState.recv, SweepState.setRank, Vars.setPlace, setAt]
  split <;> rfl

theorem chan_send (s : SweepState S) (r g k : Nat) (p q g' : Nat) :
    (s.send r g k).chan p q g' =
      if p = r ∧ g' = g ∧ q ∈ S.sendAt g r k then s.chan p q g' ++ [(s.rank r).buf g q]
      else s.chan p q g' := by
  simp only [SweepState.send, SweepState.setRank, setAt]
  by_cases hp : p = r
  · subst hp
    by_cases hq : q ∈ S.sendAt g p k
    · by_cases hg : g' = g
      · subst hg; simp [setAt, hq]
      · simp [setAt, hq, hg]
    · simp [hq]
  · simp [hp]

theorem chan_recv (s : SweepState S) (r g k j q : Nat) (m : List (Packet B))
    (ms : List (List (Packet B))) (p' q' g' : Nat) :
    (s.recv r g k j q m ms).chan p' q' g' =
      if p' = q ∧ q' = r ∧ g' = g then ms else s.chan p' q' g' := by
  simp only [SweepState.recv, SweepState.setRank, setAt]
  by_cases hp : p' = q
  · subst hp
    by_cases hq : q' = r
    · subst hq
      by_cases hg : g' = g
      · subst hg; simp [setAt]
      · simp [setAt, hg]
    · simp [setAt, hq]
  · simp [hp]

/-! ### Steps that only move on -/

/-- The invariant looks at places only through these functions. -/
theorem SweepInv.congr {s s' : SweepState S} (h : SweepInv S sim mate angles s) (hlog : s'.log = s.log)
    (hchan : s'.chan = s.chan) (hdata : ∀ r, (s'.rank r).data = (s.rank r).data)
    (hbuf : ∀ r, (s'.rank r).buf = (s.rank r).buf)
    (hp : ∀ r < S.cfg.nRanks, ∀ g < S.nAngleGroups,
      ((s'.rank r).place g).upto = ((s.rank r).place g).upto ∧
      S.pending g r ((s'.rank r).place g) = S.pending g r ((s.rank r).place g) ∧
      ((s'.rank r).place g).sentUpto = ((s.rank r).place g).sentUpto ∧
      ∀ q, S.recvUpto g r ((s'.rank r).place g) q = S.recvUpto g r ((s.rank r).place g) q) :
    SweepInv S sim mate angles s' := by
  constructor
  · rw [hlog]; exact h.ordered
  · intro r hr; rw [hlog, hdata]; exact h.data r hr
  · intro r hr g hg c a ha
    rw [hlog, (hp r hr g hg).1]
    exact h.done r hr g hg c a ha
  · intro r hr g hg n a ha
    rw [hlog, h.delivered r hr g hg n a ha]
    simp only [(hp r hr g hg).2.2.2]
  · intro p hp' q hq g hg
    have he : S.inFlight s' p q g = S.inFlight s p q g := by
      unfold Core.inFlight
      rw [(hp p hp' g hg).2.2.1, (hp q hq g hg).2.2.2]
    rw [hlog, hchan, he]
    exact h.chan p hp' q hq g hg
  · intro p hp' q hq g hg
    rw [hlog, hbuf, (hp p hp' g hg).2.1]
    exact h.buf p hp' q hq g hg
  · intro p hp' q hq g hg k hk hs
    rw [(hp q hq g hg).2.2.2] at hk
    rw [(hp p hp' g hg).2.2.1]
    exact h.causal p hp' q hq g hg k hk hs

section
variable (T : Timetable S mate angles)
include T

theorem mem_work {g r k : Nat} {w : Work} (hm : w ∈ S.workAt g r k) : ∃ i : Nat, (S.workAt g r k)[i]? = some w :=
  List.mem_iff_getElem?.1 hm

theorem step_unique {g r k k' : Nat} {w : Work} (hg : g < S.nAngleGroups) (hr : r < S.cfg.nRanks)
    (h : w ∈ S.workAt g r k) (h' : w ∈ S.workAt g r k') : k = k' := by
  obtain ⟨i, hi⟩ := List.mem_iff_getElem?.1 h
  obtain ⟨i', hi'⟩ := List.mem_iff_getElem?.1 h'
  exact (T.unique g hg r hr k i k' i' w hi hi').1

theorem work_nodup {g r k : Nat} (hg : g < S.nAngleGroups) (hr : r < S.cfg.nRanks) :
    (S.workAt g r k).Nodup := by
  rw [List.nodup_iff_getElem?_ne_getElem?]
  intro i j hij hj heq
  obtain ⟨w, hw⟩ : ∃ w, (S.workAt g r k)[i]? = some w := by
    rw [heq, List.getElem?_eq_getElem hj]; exact ⟨_, rfl⟩
  have := (T.unique g hg r hr k i k j w hw (heq ▸ hw)).2
  omega

theorem before_succ {g r k i : Nat} {w : Work} (hg : g < S.nAngleGroups) (hr : r < S.cfg.nRanks)
    (hw : (S.workAt g r k)[i]? = some w) (v : Work) :
    S.Before g r k (i + 1) v ↔ S.Before g r k i v ∨ v = w := by
  constructor
  · rintro ⟨k', i', hv, hlt⟩
    by_cases hki : k' = k ∧ i' = i
    · right
      rw [hki.1, hki.2, hw] at hv
      exact (Option.some.inj hv).symm
    · left
      exact ⟨k', i', hv, by omega⟩
  · rintro (⟨k', i', hv, hlt⟩ | rfl)
    · exact ⟨k', i', hv, by omega⟩
    · exact ⟨k, i, hw, by omega⟩

theorem before_end {g r k i : Nat} (hi : (S.workAt g r k).length ≤ i) (v : Work) :
    S.Before g r k i v ↔ S.Before g r (k + 1) 0 v := by
  constructor
  · rintro ⟨k', i', hv, hlt⟩
    exact ⟨k', i', hv, by omega⟩
  · rintro ⟨k', i', hv, hlt⟩
    refine ⟨k', i', hv, ?_⟩
    by_cases hk : k' = k
    · subst hk
      have := (List.getElem?_eq_some_iff.1 hv).1
      omega
    · omega

/-- What is received was computed. -/
theorem SweepInv.computed {s : SweepState S} (h : SweepInv S sim mate angles s) {p q g k : Nat}
    (hp : p < S.cfg.nRanks) (hq : q < S.cfg.nRanks) (hg : g < S.nAngleGroups)
    (hk : k < S.recvUpto g q ((s.rank q).place g) p) (hs : q ∈ S.sendAt g p k) {c a : Nat}
    (ha : a ∈ angles g) (hm : (⟨c, a⟩ : Work) ∈ S.workAt g p k) : Done s.log p c a := by
  rw [h.done p hp g hg c a ha]
  obtain ⟨i, hi⟩ := List.mem_iff_getElem?.1 hm
  have hc := h.causal p hp q hq g hg k hk hs
  refine ⟨k, i, hi, Or.inl ?_⟩
  unfold Place.sentUpto at hc
  unfold Place.upto
  cases hph : ((s.rank p).place g).phase <;> rw [hph] at hc <;> exact hc

variable (L : Linked S.cfg mate) (A : S.Agrees sim) (hd : S.cfg.doComm = true)

include L in
theorem far_of_leaves {p q c a : Nat} {f : Face} (hp : p < S.cfg.nRanks) (hc : c < (S.cfg.mesh p).nCells)
    (hl : S.leaves p a c f) (hr : (S.cfg.mesh p).adjRank c f = some q) :
    ∃ x, mate ⟨p, c, f⟩ = some x ∧ x.rank = q ∧ q ≠ p ∧ S.cfg.In x ∧ mate x = some ⟨p, c, f⟩ := by
  have hin : S.cfg.In ⟨p, c, f⟩ := ⟨hp, hc⟩
  cases hm : mate ⟨p, c, f⟩ with
  | none =>
    have : (S.cfg.mesh p).adjRank c f = none := (L.ext _ hin hm).2
    rw [hr] at this; exact absurd this (by simp)
  | some x =>
    by_cases hx : x.rank = p
    · have : (S.cfg.mesh p).adjCell c f = some x.cell := (L.near _ x hin hm hx).1
      rw [hl.1] at this; exact absurd this (by simp)
    · have h2 : (S.cfg.mesh p).adjRank c f = some x.rank := (L.far _ x hin hm hx).2
      rw [hr] at h2
      have h3 := Option.some.inj h2
      exact ⟨x, rfl, h3.symm, by rw [h3]; exact hx, L.mate_in _ x hin hm, L.mate_symm _ x hin hm⟩

include L in
theorem leaves_of_mate {x y : Loc} {a : Nat} (hx : S.cfg.In x) (hm : mate x = some y)
    (hne : y.rank ≠ x.rank) (ha : a < S.cfg.nAngles)
    (hin : ¬ (S.cfg.mesh x.rank).outgoing a x.cell x.face = true) :
    S.leaves y.rank a y.cell y.face ∧ (S.cfg.mesh y.rank).adjRank y.cell y.face = some x.rank := by
  have hy := L.mate_in x y hx hm
  have hf := L.far y x hy (L.mate_symm x y hx hm) (Ne.symm hne)
  exact ⟨⟨hf.1, T.facing x y a hx hm ha hin⟩, hf.2⟩

theorem not_out_of_inDir {r a c : Nat} {f : Face} (h : S.cfg.inDir r a c f = true) :
    ¬ (S.cfg.mesh r).outgoing a c f = true := by
  unfold Cfg.inDir at h
  rw [T.forward] at h
  simpa using h

/-- A task in the schedule is in order when its turn comes. -/
theorem SweepInv.upd_inOrder {s : SweepState S} (h : SweepInv S sim mate angles s) (L : Linked S.cfg mate)
    {r g k i : Nat} {w : Work} (hr : r < S.cfg.nRanks) (hg : g < S.nAngleGroups)
    (hpl : (s.rank r).place g = ⟨k, .compute i⟩) (hw : (S.workAt g r k)[i]? = some w) :
    InOrder S.cfg mate s.log (.upd r w.cell w.angle k) := by
  obtain ⟨hc, hang⟩ := T.valid g hg r hr k i w hw
  have ha := T.below g hg _ hang
  refine ⟨hr, hc, ha, ?_, ?_⟩
  · rw [h.done r hr g hg _ _ hang, hpl]
    rintro ⟨k', i', hv, hlt⟩
    obtain ⟨h1, h2⟩ := T.unique g hg r hr k i k' i' w hw hv
    simp only [Place.upto] at hlt
    omega
  · intro f y hm hn
    have hnot := not_out_of_inDir T hn.1
    have hxin : S.cfg.In ⟨r, w.cell, f⟩ := ⟨hr, hc⟩
    have hyin := L.mate_in _ y hxin hm
    obtain ⟨hnear, hfar⟩ := T.order g hg r hr k i w hw f y hm hnot
    by_cases hy : y.rank = r
    · refine ⟨?_, fun hne => absurd hy hne⟩
      have := (h.done r hr g hg y.cell _ hang).2 (by rw [hpl]; exact hnear hy)
      rw [hy]; exact this
    · obtain ⟨k', i', hv, hlt⟩ := hfar hy
      obtain ⟨hl, hrk⟩ := leaves_of_mate T L hxin hm hy ha hnot
      have hmem : (⟨y.cell, w.angle⟩ : Work) ∈ S.workAt g y.rank k' := List.mem_of_getElem? hv
      have hs : r ∈ S.sendAt g y.rank k' :=
        (T.needed g hg y.rank hyin.1 r hr k').2 ⟨_, hmem, y.face, hl, hrk⟩
      have hk : k' < S.recvUpto g r ((s.rank r).place g) y.rank := by
        rw [hpl]; simp only [Core.recvUpto]; omega
      refine ⟨h.computed T hyin.1 hr hg hk hs hang hmem, fun _ => ?_⟩
      exact (h.delivered r hr g hg _ _ hang).2
        ⟨⟨r, w.cell, f⟩, y, k', rfl, hxin, hm, hy, rfl, hl, hmem, hk⟩

include L A in
theorem SweepInv.work {s : SweepState S} (h : SweepInv S sim mate angles s) {r g k i : Nat} {w : Work}
    (hr : r < S.cfg.nRanks) (hg : g < S.nAngleGroups) (hpl : (s.rank r).place g = ⟨k, .compute i⟩)
    (hw : (S.workAt g r k)[i]? = some w) : SweepInv S sim mate angles (s.work r g k i w) := by
  obtain ⟨hc, hang⟩ := T.valid g hg r hr k i w hw
  have ha := T.below g hg _ hang
  have hlog : (s.work r g k i w).log = s.log ++ [.upd r w.cell w.angle k] := rfl
  have hchan : (s.work r g k i w).chan = s.chan := rfl
  have hsent : ∀ r' g', (((s.work r g k i w).rank r').place g').sentUpto = ((s.rank r').place g').sentUpto := by
    intro r' g'
    rw [place_work]
    split
    · rename_i he; rw [he.1, he.2, hpl]; rfl
    · rfl
  have hrecv : ∀ g1 r' g' q, S.recvUpto g1 r' (((s.work r g k i w).rank r').place g') q =
      S.recvUpto g1 r' ((s.rank r').place g') q := by
    intro g1 r' g' q
    rw [place_work]
    split
    · rename_i he; rw [he.1, he.2, hpl]; rfl
    · rfl
  constructor
  · rw [hlog]; exact ordered_snoc h.ordered (h.upd_inOrder T L hr hg hpl hw)
  · intro r' hr'
    rw [hlog, data_work, replay_snoc]
    simp only [applyEvent]
    by_cases he : r' = r
    · subst he
      simp only [if_true]
      exact (A.compute r' hr w hc ha _ _ (h.data r' hr')).1
    · rw [if_neg he, if_neg (Ne.symm he)]
      exact h.data r' hr'
  · intro r' hr' g' hg' c a hag
    rw [hlog, done_append, done_single, h.done r' hr' g' hg' c a hag, place_work]
    split
    · rename_i he
      obtain ⟨rfl, rfl⟩ := he
      rw [hpl]
      simp only [Place.upto]
      rw [before_succ T hg hr hw]
      obtain ⟨wc, wa⟩ := w
      simp
    · rename_i he
      constructor
      · rintro (h1 | ⟨rfl, rfl, rfl⟩)
        · exact h1
        · exact absurd ⟨rfl, T.disjoint g' hg' g hg _ hag hang⟩ he
      · exact Or.inl
  · intro r' hr' g' hg' n a hag
    rw [hlog, delivered_append, h.delivered r' hr' g' hg' n a hag]
    simp only [hrecv, delivered_upd, or_false]
  · intro p hp q hq g' hg'
    have he : S.inFlight (s.work r g k i w) p q g' = S.inFlight s p q g' := by
      unfold Core.inFlight
      rw [hsent, hrecv]
    rw [hlog, hchan, he]
    exact (h.chan p hp q hq g' hg').imp fun _ _ h => pkts_append h
  · intro p hp q hq g' hg'
    rw [hlog, buf_work, place_work]
    have hold := pkts_append (l := [.upd r w.cell w.angle k]) (h.buf p hp q hq g' hg')
    by_cases he : p = r ∧ g' = g
    · obtain ⟨rfl, rfl⟩ := he
      rw [if_pos ⟨rfl, rfl⟩, if_pos ⟨rfl, rfl⟩]
      rw [hpl] at hold
      have htake : S.pending g' p ⟨k, .compute (i + 1)⟩ = S.pending g' p ⟨k, .compute i⟩ ++ [w] := by
        simp only [Core.pending]
        rw [List.take_add_one, hw]; rfl
      rw [htake, cross_append]
      exact List.rel_append hold (packets_ok A hr hc ha (h.data p hp))
    · rw [if_neg he, if_neg he]
      exact hold
  · intro p hp q hq g' hg' k' hk hs
    rw [hrecv] at hk
    rw [hsent]
    exact h.causal p hp q hq g' hg' k' hk hs

/-- Calling `send` does not change which messages are still to come. -/
theorem recv_pred {s : SweepState S} {r g k i : Nat} (hr : r < S.cfg.nRanks) (hg : g < S.nAngleGroups)
    (hpl : (s.rank r).place g = ⟨k, .compute i⟩) {p : Nat} (hp : p < S.cfg.nRanks) {q : Nat} (k' : Nat) :
    (S.recvUpto g q (((s.send r g k).rank q).place g) p ≤ k' ∧ q ∈ S.sendAt g p k' ↔
      S.recvUpto g q ((s.rank q).place g) p ≤ k' ∧ q ∈ S.sendAt g p k') ∧
    (k' < S.recvUpto g q (((s.send r g k).rank q).place g) p ∧ q ∈ S.sendAt g p k' ↔
      k' < S.recvUpto g q ((s.rank q).place g) p ∧ q ∈ S.sendAt g p k') := by
  rw [place_send]
  by_cases hq : q = r
  · subst hq
    rw [if_pos ⟨rfl, rfl⟩, hpl]
    simp only [Core.recvUpto, List.drop_zero]
    split
    · exact ⟨Iff.rfl, Iff.rfl⟩
    · rename_i hnot
      rw [← T.agree g hg p hp q hr k] at hnot
      constructor
      · constructor
        · rintro ⟨h1, h2⟩; exact ⟨by omega, h2⟩
        · rintro ⟨h1, h2⟩
          refine ⟨?_, h2⟩
          by_contra hlt
          have : k' = k := by omega
          subst this
          exact hnot h2
      · constructor
        · rintro ⟨h1, h2⟩
          refine ⟨?_, h2⟩
          by_contra hlt
          have : k' = k := by omega
          subst this
          exact hnot h2
        · rintro ⟨h1, h2⟩; exact ⟨by omega, h2⟩
  · rw [if_neg (fun h => hq h.1)]
    exact ⟨Iff.rfl, Iff.rfl⟩

include L in
theorem SweepInv.send {s : SweepState S} (h : SweepInv S sim mate angles s) {r g k i : Nat}
    (hr : r < S.cfg.nRanks) (hg : g < S.nAngleGroups) (hpl : (s.rank r).place g = ⟨k, .compute i⟩)
    (hi : (S.workAt g r k).length ≤ i) : SweepInv S sim mate angles (s.send r g k) := by
  have hlog : (s.send r g k).log = s.log := rfl
  have hother : ∀ r' g', ¬ (r' = r ∧ g' = g) → ((s.send r g k).rank r').place g' = (s.rank r').place g' := by
    intro r' g' hne
    rw [place_send, if_neg hne]
  have hnew : ((s.send r g k).rank r).place g = ⟨k, .comm 0⟩ := by
    rw [place_send, if_pos ⟨rfl, rfl⟩]
  constructor
  · exact h.ordered
  · intro r' hr'
    rw [data_send]
    exact h.data r' hr'
  · intro r' hr' g' hg' c a hag
    rw [hlog, h.done r' hr' g' hg' c a hag]
    by_cases he : r' = r ∧ g' = g
    · obtain ⟨rfl, rfl⟩ := he
      rw [hnew, hpl]
      exact before_end T hi _
    · rw [hother r' g' he]
  · intro r' hr' g' hg' n a hag
    rw [hlog, h.delivered r' hr' g' hg' n a hag]
    by_cases he : r' = r ∧ g' = g
    · obtain ⟨rfl, rfl⟩ := he
      have key : ∀ x y k', x.rank = r' → S.cfg.In x → mate x = some y → y.rank ≠ r' →
          S.leaves y.rank a y.cell y.face → (⟨y.cell, a⟩ : Work) ∈ S.workAt g' y.rank k' →
          (k' < S.recvUpto g' r' ((s.rank r').place g') y.rank ↔
           k' < S.recvUpto g' r' (((s.send r' g' k).rank r').place g') y.rank) := by
        intro x y k' hx hxin hm hne hl hmem
        have hyin := L.mate_in x y hxin hm
        have hrk := (L.far y x hyin (L.mate_symm x y hxin hm) (by rw [hx]; exact Ne.symm hne)).2
        rw [hx] at hrk
        have hs : r' ∈ S.sendAt g' y.rank k' :=
          (T.needed g' hg y.rank hyin.1 r' hr k').2 ⟨_, hmem, y.face, hl, hrk⟩
        have := (recv_pred T hr hg hpl hyin.1 (q := r') k').2
        constructor
        · intro h1; exact (this.2 ⟨h1, hs⟩).1
        · intro h1; exact (this.1 ⟨h1, hs⟩).1
      constructor
      · rintro ⟨x, y, k', h1, h2, h3, h4, h5, h6, h7, h8⟩
        exact ⟨x, y, k', h1, h2, h3, h4, h5, h6, h7, (key x y k' h1 h2 h3 h4 h6 h7).1 h8⟩
      · rintro ⟨x, y, k', h1, h2, h3, h4, h5, h6, h7, h8⟩
        exact ⟨x, y, k', h1, h2, h3, h4, h5, h6, h7, (key x y k' h1 h2 h3 h4 h6 h7).2 h8⟩
    · rw [hother r' g' he]
  · intro p hp q hq g' hg'
    rw [hlog, chan_send]
    have hold := h.chan p hp q hq g' hg'
    by_cases hgg : g' = g
    · subst hgg
      have hfil : ∀ n, (List.range n).filter (fun k' =>
          S.recvUpto g' q (((s.send r g' k).rank q).place g') p ≤ k' ∧ q ∈ S.sendAt g' p k') =
          (List.range n).filter (fun k' =>
          S.recvUpto g' q ((s.rank q).place g') p ≤ k' ∧ q ∈ S.sendAt g' p k') := by
        intro n
        refine List.filter_congr fun k' _ => ?_
        rw [decide_eq_decide]
        exact (recv_pred T hr hg hpl hp k').1
      unfold Core.inFlight
      rw [hfil]
      by_cases hpr : p = r
      · subst hpr
        rw [hnew]
        simp only [Place.sentUpto]
        unfold Core.inFlight at hold
        rw [hpl] at hold
        simp only [Place.sentUpto] at hold
        rw [List.range_succ, List.filter_append]
        by_cases hqs : q ∈ S.sendAt g' p k
        · rw [if_pos ⟨trivial, trivial, hqs⟩]
          have hle : S.recvUpto g' q ((s.rank q).place g') p ≤ k := by
            by_contra hlt
            have := h.causal p hp q hq g' hg' k (by omega) hqs
            rw [hpl] at this
            simp [Place.sentUpto] at this
          rw [List.filter_singleton]
          simp only [hle, hqs, and_self, decide_true, cond_true]
          refine List.rel_append hold (.cons ?_ .nil)
          have hb := h.buf p hp q hq g' hg'
          rw [hpl] at hb
          simp only [Core.pending] at hb
          rwa [List.take_of_length_le hi] at hb
        · rw [if_neg (fun h => hqs h.2.2), List.filter_singleton]
          simp only [hqs, and_false, decide_false, cond_false, List.append_nil]
          exact hold
      · rw [if_neg (fun h => hpr h.1), hother p g' (fun h => hpr h.1)]
        exact hold
    · rw [if_neg (fun h => hgg h.2.1)]
      have he : S.inFlight (s.send r g k) p q g' = S.inFlight s p q g' := by
        unfold Core.inFlight
        rw [hother p g' (fun h => hgg h.2), hother q g' (fun h => hgg h.2)]
      rw [he]
      exact hold
  · intro p hp q hq g' hg'
    rw [hlog, buf_send]
    have hold := h.buf p hp q hq g' hg'
    by_cases he : p = r ∧ g' = g
    · obtain ⟨rfl, rfl⟩ := he
      rw [hnew]
      simp only [Core.pending, Core.cross, List.flatMap_nil, true_and]
      split
      · exact .nil
      · rename_i hqs
        rw [hpl] at hold
        simp only [Core.pending] at hold
        rw [List.take_of_length_le hi] at hold
        have : S.cross p q (S.workAt g' p k) = [] := by
          by_contra hne
          obtain ⟨e, he⟩ := List.exists_mem_of_ne_nil _ hne
          obtain ⟨h1, h2, h3⟩ := mem_cross.1 he
          exact hqs ((T.needed g' hg p hp q hq k).2 ⟨e.1, h1, e.2, h2, h3⟩)
        rw [this] at hold
        exact hold
    · rw [hother p g' he, if_neg (fun h => he ⟨h.1, h.2.1⟩)]
      exact hold
  · intro p hp q hq g' hg' k' hk hs
    by_cases hgg : g' = g
    · subst hgg
      have h1 := h.causal p hp q hq g' hg' k' ((recv_pred T hr hg hpl hp k').2.1 ⟨hk, hs⟩).1 hs
      by_cases hpr : p = r
      · subst hpr
        rw [hnew]
        rw [hpl] at h1
        simp only [Place.sentUpto] at h1 ⊢
        omega
      · rw [hother p g' (fun h => hpr h.1)]
        exact h1
    · rw [hother q g' (fun h => hgg h.2)] at hk
      rw [hother p g' (fun h => hgg h.2)]
      exact h.causal p hp q hq g' hg' k' hk hs

end

end Verif.Schedule
