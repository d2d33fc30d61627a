import Verif.Wire.Bound

/-! # Every call is matched by a step on whole messages, or by none -/

set_option linter.unusedSectionVars false

namespace Verif.Wire

open Verif.Traverse

variable {D B : Type}

/-- Calls a rank still has to make before it waits again. -/
def pot (cfg : Cfg D B) (w : State D B) : Nat :=
  ∑ r ∈ Finset.range cfg.nRanks, ((w.ops r).length + if w.waiting r = none then 1 else 0)

theorem sum_local {n r : Nat} (hr : r < n) (f g : Nat → Nat) (h : ∀ i, i ≠ r → g i = f i) :
    (∑ i ∈ Finset.range n, g i) + f r = (∑ i ∈ Finset.range n, f i) + g r := by
  have hm : r ∈ Finset.range n := Finset.mem_range.2 hr
  rw [← Finset.add_sum_erase _ _ hm, ← Finset.add_sum_erase _ f hm]
  have : ∑ i ∈ (Finset.range n).erase r, g i = ∑ i ∈ (Finset.range n).erase r, f i :=
    Finset.sum_congr rfl fun i hi => h i (Finset.ne_of_mem_erase hi)
  rw [this]
  omega

theorem opSizes_sendOps (kill : Bool) (qs : List Nat) (hnd : qs.Nodup) (buf : Nat → List UInt8) (q : Nat) :
    opSizes (sendOps kill qs buf) q =
      if q ∈ qs then [if kill then uintMax else (buf q).length] else [] := by
  unfold opSizes sendOps
  induction qs with
  | nil => simp
  | cons q' qs ih =>
    rw [List.nodup_cons] at hnd
    rw [List.flatMap_cons, List.flatMap_append, ih hnd.2]
    have h1 : (sendTo kill buf q').flatMap (Op.sizes q) =
        if q' = q then [if kill then uintMax else (buf q').length] else [] := by
      unfold sendTo
      dsimp only
      rw [List.flatMap_cons]
      split_ifs <;> simp_all [Op.sizes]
    rw [h1]
    by_cases h : q' = q
    · subst h
      simp [hnd.1]
    · have : q ∈ q' :: qs ↔ q ∈ qs := by simp [Ne.symm h]
      simp [h, this]

theorem opDatas_sendOps (kill : Bool) (qs : List Nat) (hnd : qs.Nodup) (buf : Nat → List UInt8) (q : Nat)
    (hb : (buf q).length < intMax) :
    opDatas (sendOps kill qs buf) q =
      if q ∈ qs ∧ kill = false ∧ (buf q).length > 0 then [buf q] else [] := by
  unfold opDatas sendOps
  induction qs with
  | nil => simp
  | cons q' qs ih =>
    rw [List.nodup_cons] at hnd
    rw [List.flatMap_cons, List.flatMap_append, ih hnd.2]
    by_cases h : q' = q
    · subst h
      have hne : (buf q').length ≠ uintMax := by unfold intMax at hb; unfold uintMax; omega
      rw [if_neg (fun h => hnd.1 h.1)]
      unfold sendTo
      dsimp only
      rw [List.flatMap_cons]
      cases kill with
      | true => simp [Op.datas]
      | false =>
        by_cases h0 : (buf q').length > 0
        · simp [Op.datas, h0, hne]
        · simp [Op.datas, h0]
    · have h1 : (sendTo kill buf q').flatMap (Op.datas q) = [] := by
        unfold sendTo
        dsimp only
        rw [List.flatMap_cons]
        split_ifs <;> simp [Op.datas, h]
      have : q ∈ q' :: qs ↔ q ∈ qs := by simp [Ne.symm h]
      rw [h1]
      simp [this]

theorem length_sendOps (kill : Bool) (qs : List Nat) (buf : Nat → List UInt8) :
    (sendOps kill qs buf).length ≤ 2 * qs.length := by
  unfold sendOps
  induction qs with
  | nil => simp
  | cons q qs ih =>
    rw [List.flatMap_cons, List.length_append, List.length_cons]
    have : (sendTo kill buf q).length ≤ 2 := by
      unfold sendTo
      dsimp only
      split_ifs <;> simp
    omega

section
variable {cfg : Cfg D B} {mate : Loc → Option Loc} (L : Linked cfg mate) {C : Codec B} (hC : C.Ok)
  (F : Fits cfg C) (hd : cfg.doComm = true) (ht : cfg.protocol = .tycho)
  {w : State D B} {s : Traverse.State D B} (S : Sim C w s) (h : Reachable cfg s)
include L hC F hd ht S h

theorem targets_nodup (r : Nat) (st : RankState D B) : (targets cfg r st).Nodup := by
  rw [show targets cfg r st = _ by unfold targets; rw [ht]]; exact (nodup_adjRanks _).filter _

theorem targets_length {r : Nat} (hr : r < cfg.nRanks) (st : RankState D B) :
    (targets cfg r st).length ≤ cfg.nRanks := by
  have hsub : (targets cfg r st).toFinset ⊆ Finset.range cfg.nRanks := by
    intro q hq
    rw [List.mem_toFinset, show targets cfg r st = _ by unfold targets; rw [ht]] at hq
    exact Finset.mem_range.2 (adj_lt L hr (List.mem_of_mem_filter hq)).1
  have := Finset.card_le_card hsub
  rwa [List.toFinset_card_of_nodup (targets_nodup L hC F hd ht S h r st), Finset.card_range] at this

/-- The packets received are as they were sent. -/
theorem got_valid {r : Nat} {k : Bool} {ps : List Nat} {got : List (Nat × Packet B)}
    (hp : (s.rank r).phase = .exchanging k ps got) :
    packetsOf C (w.inbuf r) = got.map Prod.snd := by
  rw [S.inbuf r k ps got hp]
  refine packetsOf_bytesOf hC fun p hpm => ?_
  obtain ⟨⟨q, p'⟩, hm, rfl⟩ := List.mem_map.1 hpm
  obtain ⟨x, y, h1, -, -, -, -, -, h7, -, h9, -⟩ := (h.inv L).good q r p' (by
    unfold transit gotFrom
    rw [hp]
    refine List.mem_append_right _ (List.mem_append_right _ ?_)
    dsimp only
    exact List.mem_map.2 ⟨(q, p'), List.mem_filter.2 ⟨hm, by simp⟩, rfl⟩)
  dsimp only
  rw [h9]
  exact ⟨F.sides x h1, lt_of_lt_of_le h7 F.angles⟩

/-- What `MPI_Isend` puts into the channels, together with what it still has to put there, is one
message. -/
theorem Sim.enter {r : Nat} (hr : r < cfg.nRanks) (kill : Bool)
    (hsame : w.rank r = s.rank r) (hne : ∀ k ps got, (s.rank r).phase ≠ .exchanging k ps got)
    (rest : RankState D B → RankState D B) :
    Sim C (enter cfg C w r kill rest)
      { s with
        rank := setAt s.rank r { rest (s.rank r) with
          phase := .exchanging kill (sources cfg r (s.rank r)) []
          round := (s.rank r).round + 1
          sent := fun q => if q ∈ targets cfg r (s.rank r) then (s.rank r).sent q + 1
            else (s.rank r).sent q }
        chan := post s.chan r (targets cfg r (s.rank r)) fun q =>
          if kill then .kill else .packets (outbox cfg (s.rank r) q) } ∧
    pot cfg (enter cfg C w r kill rest) ≤ pot cfg w + 2 * cfg.nRanks := by
  obtain ⟨ho, hw⟩ := S.quiet hne
  have hnd := targets_nodup L hC F hd ht S h r (s.rank r)
  have hsm : ∀ q, (bytesOf C (outbox cfg (s.rank r) q)).length < intMax := fun q =>
    outbox_small L hC F hd h hr
  refine ⟨⟨?_, S.log, ?_, ?_, ?_, ?_, ?_, ?_⟩, ?_⟩
  · intro r'
    by_cases hr' : r' = r
    · subst hr'
      simp only [Wire.enter, setAt_same, hsame, strip]
    · simp only [Wire.enter, setAt_ne _ _ hr']
      exact S.rank r'
  · intro r' k ps got hp
    by_cases hr' : r' = r
    · subst hr'
      simp only [setAt_same, Phase.exchanging.injEq] at hp
      obtain ⟨-, -, rfl⟩ := hp
      simp [Wire.enter, setAt_same, bytesOf, Verif.Packet.appendAll]
    · simp only [setAt_ne _ _ hr'] at hp
      simp only [Wire.enter, setAt_ne _ _ hr']
      exact S.inbuf r' k ps got hp
  · intro q q'
    have hs := S.sizes q q'
    by_cases hq : q = r
    · subst hq
      rw [ho] at hs
      simp only [Wire.enter, setAt_same, hsame, post]
      rw [opSizes_sendOps _ _ hnd]
      by_cases hm : q' ∈ targets cfg q (s.rank q)
      · rw [if_pos hm, if_pos hm, List.map_append, ← hs]
        simp only [opSizes, List.flatMap_nil, List.append_nil, List.append_assoc]
        cases kill <;> simp [msgSize]
      · rw [if_neg hm, if_neg hm, ← hs]
        simp [opSizes]
    · simp only [Wire.enter, setAt_ne _ _ hq, post]
      exact hs
  · intro q q'
    have hs := S.datas q q'
    by_cases hq : q = r
    · subst hq
      rw [ho] at hs
      simp only [Wire.enter, setAt_same, hsame, post]
      rw [opDatas_sendOps _ _ hnd _ _ (hsm q')]
      by_cases hm : q' ∈ targets cfg q (s.rank q)
      · rw [if_pos hm, List.flatMap_append, ← hs]
        simp only [opDatas, List.flatMap_nil, List.append_nil]
        cases kill with
        | true => simp [msgData]
        | false => by_cases h0 : (bytesOf C (outbox cfg (s.rank q) q')).length > 0 <;> simp [msgData, hm, h0]
      · rw [if_neg hm, if_neg (fun h => hm h.1), ← hs]
        simp [opDatas]
    · simp only [Wire.enter, setAt_ne _ _ hq, post]
      exact hs
  · intro r' hops
    by_cases hr' : r' = r
    · subst hr'
      exact ⟨hw, by simp only [setAt_same]; exact ⟨_, _, _, rfl⟩⟩
    · simp only [Wire.enter, setAt_ne _ _ hr'] at hops ⊢
      exact S.ops r' hops
  · intro r' q n hw'
    by_cases hr' : r' = r
    · subst hr'
      simp only [Wire.enter] at hw'
      rw [hw] at hw'
      simp at hw'
    · simp only [setAt_ne _ _ hr']
      exact S.waiting r' q n hw'
  · intro q q' ps hps
    by_cases hq : q = r
    · subst hq
      simp only [post, setAt_same] at hps
      split at hps
      · rcases List.mem_append.1 hps with hps | hps
        · exact S.small q q' ps hps
        · rw [List.mem_singleton] at hps
          split at hps
          · simp at hps
          · simp only [Msg.packets.injEq] at hps
            rw [hps]
            exact hsm q'
      · exact S.small q q' ps hps
    · simp only [post, setAt_ne _ _ hq] at hps
      exact S.small q q' ps hps
  · have := sum_local hr (fun i => (w.ops i).length + if w.waiting i = none then 1 else 0)
      (fun i => ((Wire.enter cfg C w r kill rest).ops i).length +
        if (Wire.enter cfg C w r kill rest).waiting i = none then 1 else 0)
      (fun i hi => by simp only [Wire.enter, setAt_ne _ _ hi]; rfl)
    simp only [Wire.enter, setAt_same, ho, hw] at this
    have hl := length_sendOps kill (targets cfg r (w.rank r)) fun q => bytesOf C (outbox cfg (w.rank r) q)
    have hl2 := targets_length L hC F hd ht S h hr (w.rank r)
    unfold pot
    simp only [Wire.enter]
    simp only [List.length_nil, if_true] at this
    omega

/-- The rank `r` has received the oldest message of `q`. -/
theorem Sim.heard {r q n : Nat} {k : Bool} {p1 p2 : List Nat} {got : List (Nat × Packet B)}
    {m : Msg B} {ms : List (Msg B)}
    (hp : (s.rank r).phase = .exchanging k (p1 ++ q :: p2) got) (hc : s.chan q r = m :: ms)
    (hn : msgSize C m = n) :
    heard (w.rank r) q n k (p1 ++ p2) =
      { s.rank r with
        phase := strip (.exchanging k (p1 ++ p2) (got ++ m.list.map fun p => (q, p)))
        dark := darken (s.rank r).dark q m
        recvd := setAt (s.rank r).recvd q ((s.rank r).recvd q + 1) } := by
  unfold Wire.heard
  rw [S.rank r]
  simp only [strip]
  congr 1
  cases m with
  | kill =>
    simp only [msgSize] at hn
    rw [if_pos hn.symm]
    rfl
  | packets ps =>
    have := S.small q r ps (by rw [hc]; simp)
    simp only [msgSize] at hn
    rw [if_neg (by unfold intMax at this; unfold uintMax; omega)]
    rfl

theorem Sim.call {w' : State D B} {r : Nat} (hr : r < cfg.nRanks) (hs : Call cfg C r w w') :
    (Sim C w' s ∧ pot cfg w' < pot cfg w) ∨
    ∃ s', Traverse.Step cfg s s' ∧ Sim C w' s' ∧ pot cfg w' ≤ pot cfg w + 2 * cfg.nRanks + 1 := by
  cases hs with
  | begin steps hphase hdone =>
    right
    rw [S.phase, strip_computing] at hphase
    have hsame := S.same (r := r) (by rw [hphase]; rfl)
    rw [hsame] at hdone
    have := Sim.enter L hC F hd ht S h hr false hsame (by rw [hphase]; simp)
      fun st => { st with sendBuf := fun _ _ => [] }
    exact ⟨_, Traverse.Step.send s r steps hr hphase hdone hd, this.1, by omega⟩
  | beginKill hphase =>
    right
    rw [S.phase, strip_closing] at hphase
    have hsame := S.same (r := r) (by rw [hphase]; rfl)
    have := Sim.enter L hC F hd ht S h hr true hsame (by rw [hphase]; simp) id
    exact ⟨_, Traverse.Step.kill s r hr hphase, this.1, by omega⟩
  | isendSize q n rest hops =>
    left
    have hne : w.ops r ≠ [] := by rw [hops]; simp
    refine ⟨⟨S.rank, S.log, S.inbuf, ?_, ?_, ?_, S.waiting, S.small⟩, ?_⟩
    · intro r' q'
      rw [← S.sizes r' q']
      dsimp only
      rw [push_apply]
      by_cases hr' : r' = r
      · subst hr'
        rw [setAt_same, hops]
        by_cases hq : q' = q
        · subst hq; simp [opSizes, Op.sizes]
        · simp [opSizes, Op.sizes, hq, Ne.symm hq]
      · simp only [setAt_ne _ _ hr', hr', false_and, if_false]
    · intro r' q'
      rw [← S.datas r' q']
      by_cases hr' : r' = r
      · subst hr'
        simp only [setAt_same, hops]
        simp [opDatas, Op.datas]
      · simp only [setAt_ne _ _ hr']
    · intro r' ho
      by_cases hr' : r' = r
      · subst hr'; exact S.ops r' hne
      · simp only [setAt_ne _ _ hr'] at ho; exact S.ops r' ho
    · have := sum_local hr (fun i => (w.ops i).length + if w.waiting i = none then 1 else 0)
        (fun i => ((setAt w.ops r rest) i).length + if w.waiting i = none then 1 else 0)
        (fun i hi => by simp only [setAt_ne _ _ hi])
      simp only [setAt_same, hops, List.length_cons] at this
      unfold pot
      dsimp only
      omega
  | isendData q b rest hops hlen =>
    left
    have hne : w.ops r ≠ [] := by rw [hops]; simp
    refine ⟨⟨S.rank, S.log, S.inbuf, ?_, ?_, ?_, S.waiting, S.small⟩, ?_⟩
    · intro r' q'
      rw [← S.sizes r' q']
      by_cases hr' : r' = r
      · subst hr'
        simp only [setAt_same, hops]
        simp [opSizes, Op.sizes]
      · simp only [setAt_ne _ _ hr']
    · intro r' q'
      rw [← S.datas r' q']
      dsimp only
      rw [push_apply]
      by_cases hr' : r' = r
      · subst hr'
        rw [setAt_same, hops]
        by_cases hq : q' = q
        · subst hq; simp [opDatas, Op.datas]
        · simp [opDatas, Op.datas, hq, Ne.symm hq]
      · simp only [setAt_ne _ _ hr', hr', false_and, if_false]
    · intro r' ho
      by_cases hr' : r' = r
      · subst hr'; exact S.ops r' hne
      · simp only [setAt_ne _ _ hr'] at ho; exact S.ops r' ho
    · have := sum_local hr (fun i => (w.ops i).length + if w.waiting i = none then 1 else 0)
        (fun i => ((setAt w.ops r rest) i).length + if w.waiting i = none then 1 else 0)
        (fun i hi => by simp only [setAt_ne _ _ hi])
      simp only [setAt_same, hops, List.length_cons] at this
      unfold pot
      dsimp only
      omega
  | waitData q n ns kill p1 p2 hphase hops hw hsz hn =>
    left
    rw [S.phase, strip_exchanging] at hphase
    obtain ⟨-, got, hp⟩ := hphase
    refine ⟨⟨S.rank, S.log, S.inbuf, ?_, S.datas, ?_, ?_, S.small⟩, ?_⟩
    · intro q' r'
      rw [← S.sizes q' r']
      dsimp only
      rw [put_apply]
      by_cases hr' : r' = r
      · subst hr'
        have hm : mid w.waiting q' r' = [] := by simp [mid, hw]
        rw [hm]
        by_cases hq : q' = q
        · subst hq
          simp [mid, setAt_same, hsz]
        · simp [mid, setAt_same, hq, Ne.symm hq]
      · simp [mid, setAt_ne _ _ hr', hr']
    · intro r' ho
      by_cases hr' : r' = r
      · subst hr'; exact absurd hops ho
      · simp only [setAt_ne _ _ hr']; exact S.ops r' ho
    · intro r' q' n' hw'
      by_cases hr' : r' = r
      · subst hr'
        simp only [setAt_same, Option.some.injEq, Prod.mk.injEq] at hw'
        obtain ⟨rfl, rfl⟩ := hw'
        exact ⟨hn, kill, _, got, hp, by simp⟩
      · simp only [setAt_ne _ _ hr'] at hw'; exact S.waiting r' q' n' hw'
    · have := sum_local hr (fun i => (w.ops i).length + if w.waiting i = none then 1 else 0)
        (fun i => (w.ops i).length + if (setAt w.waiting r (some (q, n))) i = none then 1 else 0)
        (fun i hi => by simp only [setAt_ne _ _ hi])
      simp only [setAt_same, hops, hw] at this
      simp only [if_true, reduceCtorEq, if_false] at this
      unfold pot
      dsimp only
      omega
  | waitNone q n ns kill p1 p2 hphase hops hw hsz hn =>
    right
    rw [S.phase, strip_exchanging] at hphase
    obtain ⟨-, got, hp⟩ := hphase
    have hs := S.sizes q r
    have hm : mid w.waiting q r = [] := by simp [mid, hw]
    rw [hm, hsz] at hs
    cases hc : s.chan q r with
    | nil => rw [hc] at hs; simp at hs
    | cons m ms =>
      rw [hc] at hs
      simp only [List.cons_append, List.nil_append, List.map_cons, List.cons.injEq] at hs
      obtain ⟨hn', hs⟩ := hs
      have hempty : m.list = [] ∧ msgData C m = [] := by
        cases m with
        | kill => exact ⟨rfl, rfl⟩
        | packets ps =>
          have hsm := S.small q r ps (by rw [hc]; simp)
          simp only [msgSize] at hn'
          have h0 : (bytesOf C ps).length = 0 := by
            unfold intMax at hsm
            unfold uintMax at hn
            omega
          rw [bytesOf_eq_nil hC h0]
          refine ⟨rfl, ?_⟩
          simp [msgData, bytesOf, Verif.Packet.appendAll]
      refine ⟨_, Traverse.Step.recv s r q kill p1 p2 got m ms hr hp hc
        (fun h => by rw [ht] at h; simp at h), ?_, ?_⟩
      · have hh := Sim.heard L hC F hd ht S h hp hc hn'.symm
        refine ⟨?_, S.log, ?_, ?_, ?_, ?_, ?_, ?_⟩
        · intro r'
          by_cases hr' : r' = r
          · subst hr'; simp only [setAt_same]; exact hh
          · simp only [setAt_ne _ _ hr']; exact S.rank r'
        · intro r' k ps got' hp'
          by_cases hr' : r' = r
          · subst hr'
            simp only [setAt_same, Phase.exchanging.injEq, hempty.1, List.map_nil, List.append_nil] at hp'
            obtain ⟨-, -, rfl⟩ := hp'
            exact S.inbuf r' _ _ _ hp
          · simp only [setAt_ne _ _ hr'] at hp'; exact S.inbuf r' k ps got' hp'
        · intro q' r'
          change mid w.waiting q' r' ++ (put w.sizes q r ns q' r' ++ opSizes (w.ops q') r') =
            (put s.chan q r ms q' r').map (msgSize C)
          rw [put_apply, put_apply]
          by_cases hq : q' = q ∧ r' = r
          · obtain ⟨rfl, rfl⟩ := hq
            simp only [and_self, if_true, hm, List.nil_append]
            exact hs
          · rw [if_neg hq, if_neg hq]; exact S.sizes q' r'
        · intro q' r'
          change w.datas q' r' ++ opDatas (w.ops q') r' = (put s.chan q r ms q' r').flatMap (msgData C)
          rw [put_apply, S.datas q' r']
          by_cases hq : q' = q ∧ r' = r
          · obtain ⟨rfl, rfl⟩ := hq
            simp [hc, hempty.2]
          · rw [if_neg hq]
        · intro r' ho
          by_cases hr' : r' = r
          · subst hr'; exact absurd hops ho
          · simp only [setAt_ne _ _ hr']; exact S.ops r' ho
        · intro r' q' n' hw'
          by_cases hr' : r' = r
          · subst hr'
            simp only at hw'
            rw [hw] at hw'
            simp at hw'
          · simp only [setAt_ne _ _ hr']; exact S.waiting r' q' n' hw'
        · intro q' r' ps hps
          change Msg.packets ps ∈ put s.chan q r ms q' r' at hps
          rw [put_apply] at hps
          by_cases hq : q' = q ∧ r' = r
          · obtain ⟨rfl, rfl⟩ := hq
            simp only [and_self, if_true] at hps
            exact S.small q' r' ps (by rw [hc]; exact List.mem_cons_of_mem _ hps)
          · rw [if_neg hq] at hps; exact S.small q' r' ps hps
      · change pot cfg w ≤ _
        omega
  | recvData q n b bs kill p1 p2 hphase hw hsz hlen =>
    right
    rw [S.phase, strip_exchanging] at hphase
    obtain ⟨-, got, hp⟩ := hphase
    obtain ⟨ps, ms, hc, hn, hpos⟩ := S.head hw
    have hs := S.sizes q r
    have hdt := S.datas q r
    have hm : mid w.waiting q r = [n] := by simp [mid, hw]
    rw [hm, hc] at hs
    rw [hsz, hc] at hdt
    simp only [List.cons_append, List.nil_append, List.map_cons, List.cons.injEq] at hs
    simp only [List.cons_append, List.flatMap_cons, msgData, hpos, if_true, List.nil_append,
      List.cons.injEq] at hdt
    obtain ⟨hb, hdt⟩ := hdt
    refine ⟨_, Traverse.Step.recv s r q kill p1 p2 got (.packets ps) ms hr hp hc
      (fun h => by rw [ht] at h; simp at h), ?_, ?_⟩
    · have hh := Sim.heard L hC F hd ht S h hp hc hs.1.symm
      refine ⟨?_, S.log, ?_, ?_, ?_, ?_, ?_, ?_⟩
      · intro r'
        by_cases hr' : r' = r
        · subst hr'; simp only [setAt_same]; exact hh
        · simp only [setAt_ne _ _ hr']; exact S.rank r'
      · intro r' k ps' got' hp'
        by_cases hr' : r' = r
        · subst hr'
          simp only [setAt_same, Phase.exchanging.injEq, Msg.list] at hp' ⊢
          obtain ⟨-, -, rfl⟩ := hp'
          rw [List.map_append, List.map_map, bytesOf_append, S.inbuf r' _ _ _ hp, hb]
          congr 2
          simp [Function.comp_def]
        · simp only [setAt_ne _ _ hr'] at hp' ⊢; exact S.inbuf r' k ps' got' hp'
      · intro q' r'
        change mid (setAt w.waiting r none) q' r' ++ (w.sizes q' r' ++ opSizes (w.ops q') r') =
          (put s.chan q r ms q' r').map (msgSize C)
        rw [put_apply]
        by_cases hr' : r' = r
        · subst hr'
          have hm' : mid (setAt w.waiting r' none) q' r' = [] := by simp [mid, setAt_same]
          rw [hm']
          by_cases hq : q' = q
          · subst hq
            simp only [and_self, if_true, List.nil_append]
            exact hs.2
          · rw [if_neg (fun h => hq h.1), ← S.sizes q' r']
            have : mid w.waiting q' r' = [] := by simp [mid, hw, Ne.symm hq]
            rw [this]
        · rw [if_neg (fun h => hr' h.2), ← S.sizes q' r']
          have : mid (setAt w.waiting r none) q' r' = mid w.waiting q' r' := by
            simp [mid, setAt_ne _ _ hr']
          rw [this]
      · intro q' r'
        change put w.datas q r bs q' r' ++ opDatas (w.ops q') r' =
          (put s.chan q r ms q' r').flatMap (msgData C)
        rw [put_apply, put_apply]
        by_cases hq : q' = q ∧ r' = r
        · obtain ⟨rfl, rfl⟩ := hq
          simp only [and_self, if_true]
          exact hdt
        · rw [if_neg hq, if_neg hq]; exact S.datas q' r'
      · intro r' ho
        by_cases hr' : r' = r
        · subst hr'; exact absurd (S.ops_nil hw) ho
        · simp only [setAt_ne _ _ hr']; exact S.ops r' ho
      · intro r' q' n' hw'
        by_cases hr' : r' = r
        · subst hr'; simp [setAt_same] at hw'
        · simp only [setAt_ne _ _ hr'] at hw' ⊢; exact S.waiting r' q' n' hw'
      · intro q' r' ps' hps
        change Msg.packets ps' ∈ put s.chan q r ms q' r' at hps
        rw [put_apply] at hps
        by_cases hq : q' = q ∧ r' = r
        · obtain ⟨rfl, rfl⟩ := hq
          simp only [and_self, if_true] at hps
          exact S.small q' r' ps' (by rw [hc]; exact List.mem_cons_of_mem _ hps)
        · rw [if_neg hq] at hps; exact S.small q' r' ps' hps
    · have := sum_local hr (fun i => (w.ops i).length + if w.waiting i = none then 1 else 0)
        (fun i => (w.ops i).length + if (setAt w.waiting r none) i = none then 1 else 0)
        (fun i hi => by simp only [setAt_ne _ _ hi])
      simp only [setAt_same, hw] at this
      simp only [if_true, reduceCtorEq, if_false] at this
      unfold pot
      dsimp only
      omega
  | unpack hphase hops hw hsends hwhole =>
    right
    rw [S.phase, strip_exchanging] at hphase
    obtain ⟨-, got, hp⟩ := hphase
    have hg := got_valid L hC F hd ht S h hp
    have hu : ∀ st, unpackAll cfg r ((packetsOf C (w.inbuf r)).map fun p => (0, p)) st =
        unpackAll cfg r got st := by
      intro st; rw [hg]; unfold unpackAll; simp [Function.comp_def]
    have he : unpackEvents cfg r ((packetsOf C (w.inbuf r)).map fun p => (0, p)) =
        unpackEvents cfg r got := by
      rw [hg]; unfold unpackEvents; simp [Function.comp_def]
    refine ⟨_, Traverse.Step.unpack s r got hr hp (S.sendsDone hops hsends), ?_, ?_⟩
    · refine ⟨?_, ?_, ?_, S.sizes, S.datas, ?_, ?_, S.small⟩
      · intro r'
        by_cases hr' : r' = r
        · subst hr'
          simp only [setAt_same]
          rw [hu, S.rank r', unpackAll_phase']
          have : strip (unpackAll cfg r' got (s.rank r')).phase = (unpackAll cfg r' got (s.rank r')).phase := by
            rw [unpackAll_phase, strip_loopTest]
          rw [this]
        · simp only [setAt_ne _ _ hr']; exact S.rank r'
      · simp only [S.log, he]
      · intro r' k ps got' hp'
        by_cases hr' : r' = r
        · subst hr'
          simp only [setAt_same] at hp'
          rw [unpackAll_phase] at hp'
          unfold loopTest at hp'
          split at hp'
          · simp at hp'
          · split at hp' <;> simp at hp'
        · simp only [setAt_ne _ _ hr'] at hp'; exact S.inbuf r' k ps got' hp'
      · intro r' ho
        by_cases hr' : r' = r
        · subst hr'; exact absurd hops ho
        · simp only [setAt_ne _ _ hr']; exact S.ops r' ho
      · intro r' q n hw'
        by_cases hr' : r' = r
        · subst hr'
          simp only at hw'
          rw [hw] at hw'
          simp at hw'
        · simp only [setAt_ne _ _ hr']; exact S.waiting r' q n hw'
    · change pot cfg w ≤ _
      omega
  | close hphase hops hw hsends =>
    right
    rw [S.phase, strip_exchanging] at hphase
    obtain ⟨-, got, hp⟩ := hphase
    refine ⟨_, Traverse.Step.close s r got hr hp (S.sendsDone hops hsends), ?_, ?_⟩
    · refine ⟨?_, S.log, ?_, S.sizes, S.datas, ?_, ?_, S.small⟩
      · intro r'
        by_cases hr' : r' = r
        · subst hr'; simp only [setAt_same]; rw [S.rank r']; rfl
        · simp only [setAt_ne _ _ hr']; exact S.rank r'
      · intro r' k ps got' hp'
        by_cases hr' : r' = r
        · subst hr'; simp [setAt_same] at hp'
        · simp only [setAt_ne _ _ hr'] at hp'; exact S.inbuf r' k ps got' hp'
      · intro r' ho
        by_cases hr' : r' = r
        · subst hr'; exact absurd hops ho
        · simp only [setAt_ne _ _ hr']; exact S.ops r' ho
      · intro r' q n hw'
        by_cases hr' : r' = r
        · subst hr'
          simp only at hw'
          rw [hw] at hw'
          simp at hw'
        · simp only [setAt_ne _ _ hr']; exact S.waiting r' q n hw'
    · change pot cfg w ≤ _
      omega

theorem Sim.step {w' : State D B} (hs : Step cfg C w w') :
    (Sim C w' s ∧ pot cfg w' < pot cfg w) ∨
    ∃ s', Traverse.Step cfg s s' ∧ Sim C w' s' ∧ pot cfg w' ≤ pot cfg w + 2 * cfg.nRanks + 1 := by
  cases hs with
  | call r hr hc => exact Sim.call L hC F hd ht S h hr hc
  | compute r g steps l1 l2 t hr hg hphase hq htop hsteps =>
    right
    rw [S.phase, strip_computing] at hphase
    have hsame := S.same (r := r) (by rw [hphase]; rfl)
    rw [hsame] at hq htop
    refine ⟨_, Traverse.Step.compute s r g steps l1 l2 t hr hg hphase hq htop hsteps, ?_, ?_⟩
    · refine ⟨?_, ?_, ?_, S.sizes, S.datas, ?_, ?_, S.small⟩
      · intro r'
        by_cases hr' : r' = r
        · subst hr'; simp only [setAt_same, hsame, strip]
        · simp only [setAt_ne _ _ hr']; exact S.rank r'
      · simp only [S.log, hsame]
      · intro r' k ps got hp
        by_cases hr' : r' = r
        · subst hr'; simp [setAt_same] at hp
        · simp only [setAt_ne _ _ hr'] at hp; exact S.inbuf r' k ps got hp
      · intro r' ho
        by_cases hr' : r' = r
        · subst hr'
          exact absurd (S.quiet (by rw [hphase]; simp)).1 ho
        · simp only [setAt_ne _ _ hr']; exact S.ops r' ho
      · intro r' q n hw
        by_cases hr' : r' = r
        · subst hr'
          have := (S.quiet (r := r') (by rw [hphase]; simp)).2
          simp only at hw
          rw [this] at hw
          simp at hw
        · simp only [setAt_ne _ _ hr']; exact S.waiting r' q n hw
    · change pot cfg w ≤ _
      omega

end

end Verif.Wire
