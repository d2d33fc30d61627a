import Verif.Wire.Sim

/-! # How long the messages of an exchange can be -/

set_option linter.unusedSectionVars false

namespace Verif.Wire

open Verif.Traverse

variable {D B : Type}

/-- Faces of rank `r` behind which there is a cell of rank `q`. -/
def shared (cfg : Cfg D B) (r q : Nat) : Nat :=
  ((Finset.range (cfg.mesh r).nCells ×ˢ (Finset.univ : Finset Face)).filter fun p =>
    (cfg.mesh r).adjCell p.1 p.2 = none ∧ (cfg.mesh r).adjRank p.1 p.2 = some q).card

/-- Numbers fit their types and no message can have more bytes than MPI can count: the packets of one
exchange are at most one for every angle and shared face, and at most four for every task of a batch. -/
structure Fits (cfg : Cfg D B) (C : Codec B) : Prop where
  sides : ∀ x, cfg.In x → cfg.gs x < 2 ^ 64
  angles : cfg.nAngles ≤ 2 ^ 64
  bytes : ∀ r < cfg.nRanks, ∀ q, Verif.Packet.packetSize C.size *
    min (cfg.nAngles * shared cfg r q) (4 * (cfg.nThreads * cfg.maxCompute)) < intMax

/-- Packets for one rank in an exchange are distinct. -/
theorem outbox_le_shared {cfg : Cfg D B} {mate : Loc → Option Loc} (L : Linked cfg mate)
    {s : Traverse.State D B} (h : Reachable cfg s) {r q : Nat} :
    (outbox cfg (s.rank r) q).length ≤ cfg.nAngles * shared cfg r q := by
  have I := h.inv L
  have hgood : ∀ p ∈ outbox cfg (s.rank r) q, GoodPacket cfg mate s.log r q p := fun p hp =>
    I.good r q p (by unfold transit; exact List.mem_append_left _ hp)
  have hnd : ((outbox cfg (s.rank r) q).map fun p => (p.side, p.angle)).Nodup := by
    rw [List.nodup_iff_count_le_one]
    rintro ⟨gs, a⟩
    by_cases hmem : (gs, a) ∈ (outbox cfg (s.rank r) q).map fun p => (p.side, p.angle)
    · obtain ⟨p, hp, he⟩ := List.mem_map.1 hmem
      simp only [Prod.mk.injEq] at he
      obtain ⟨rfl, rfl⟩ := he
      obtain ⟨x, y, h1, h2, h3, h4, h5, h6, h7, h8, h9, -⟩ := hgood p hp
      subst h2 h4
      have hc := I.count x y p.angle h1 h3 h5.symm h7 h6 h8
      have hle : pcount (outbox cfg (s.rank x.rank) y.rank) (cfg.gs x) p.angle ≤
          pcount (transit cfg s x.rank y.rank) (cfg.gs x) p.angle := by
        unfold transit
        rw [pcount_append]
        omega
      have h1 : pcount (outbox cfg (s.rank x.rank) y.rank) (cfg.gs x) p.angle ≤ 1 := by
        split at hc <;> omega
      refine le_trans (le_of_eq ?_) h1
      unfold pcount List.count
      rw [List.countP_map]
      apply List.countP_congr
      intro p' _
      simp [h9]
    · rw [List.count_eq_zero_of_not_mem hmem]; omega
  let T := (Finset.range (cfg.mesh r).nCells ×ˢ (Finset.univ : Finset Face)).filter fun p =>
    (cfg.mesh r).adjCell p.1 p.2 = none ∧ (cfg.mesh r).adjRank p.1 p.2 = some q
  have hsub : ((outbox cfg (s.rank r) q).map fun p => (p.side, p.angle)).toFinset ⊆
      (T ×ˢ Finset.range cfg.nAngles).image fun t => (cfg.gs ⟨r, t.1.1, t.1.2⟩, t.2) := by
    intro t ht
    rw [List.mem_toFinset] at ht
    obtain ⟨p, hp, rfl⟩ := List.mem_map.1 ht
    obtain ⟨x, y, h1, h2, h3, h4, h5, h6, h7, h8, h9, -⟩ := hgood p hp
    subst h2 h4
    obtain ⟨f1, f2⟩ := L.far x y h1 h3 h5.symm
    rw [Finset.mem_image]
    refine ⟨((x.cell, x.face), p.angle), ?_, ?_⟩
    · simp only [T, Finset.mem_product, Finset.mem_filter, Finset.mem_range, Finset.mem_univ, and_true]
      exact ⟨⟨h1.2, f1, f2⟩, h7⟩
    · simp [h9]
  have hcard := Finset.card_le_card hsub
  rw [List.toFinset_card_of_nodup hnd, List.length_map] at hcard
  refine hcard.trans (Finset.card_image_le.trans ?_)
  rw [Finset.card_product, Finset.card_range, Nat.mul_comm]
  exact le_refl _

/-- What is in the buffers of a thread comes from its current batch. -/
def Batch (cfg : Cfg D B) (s : Traverse.State D B) : Prop :=
  ∀ r, match (s.rank r).phase with
    | .computing st => ∀ g, st g ≤ cfg.maxCompute ∧ ∀ q, ((s.rank r).sendBuf g q).length ≤ 4 * st g
    | _ => ∀ g q, (s.rank r).sendBuf g q = []

theorem sendBuf_child (cfg : Cfg D B) (r g c a : Nat) (st : RankState D B) (f : Face) (g' q : Nat) :
    ((child cfg r g c a st f).sendBuf g' q).length ≤ (st.sendBuf g' q).length +
      if g' = g then 1 else 0 := by
  unfold child
  split
  · split
    · rw [release_sendBuf]; omega
    · split
      · split
        · by_cases hg : g' = g
          · subst hg
            rename_i q' _ _
            by_cases hq : q = q'
            · subst hq; simp [setAt]
            · simp [setAt, hq]
          · simp [setAt, hg]
        · omega
      · omega
  · omega

theorem sendBuf_children (cfg : Cfg D B) (r g c a : Nat) (g' q : Nat) : ∀ (fs : List Face)
    (st : RankState D B), ((fs.foldl (child cfg r g c a) st).sendBuf g' q).length ≤
      (st.sendBuf g' q).length + if g' = g then fs.length else 0 := by
  intro fs
  induction fs with
  | nil => intro st; simp
  | cons f fs ih =>
    intro st
    rw [List.foldl_cons]
    have h1 := ih (child cfg r g c a st f)
    have h2 := sendBuf_child cfg r g c a st f g' q
    rw [List.length_cons]
    split_ifs at * <;> omega

theorem Batch.loop {cfg : Cfg D B} {n : Nat} {sb : Nat → Nat → List (Packet B)}
    (h : ∀ g q, sb g q = []) : match loopTest (B := B) cfg n with
    | .computing st => ∀ g, st g ≤ cfg.maxCompute ∧ ∀ q, (sb g q).length ≤ 4 * st g
    | _ => ∀ g q, sb g q = [] := by
  unfold loopTest
  split
  · rename_i st he
    split at he
    · simp only [Phase.computing.injEq] at he
      subst he
      intro g
      exact ⟨Nat.zero_le _, fun q => by rw [h g q]; simp⟩
    · split at he <;> simp at he
  · exact h

theorem Reachable.batch {cfg : Cfg D B} (hd : cfg.doComm = true) {s : Traverse.State D B}
    (h : Reachable cfg s) : Batch cfg s := by
  induction h with
  | init => intro r; exact Batch.loop fun _ _ => rfl
  | @step s s' h0 hs ih =>
    have other : ∀ (r r' : Nat) (st : RankState D B) (_ : r' ≠ r),
        setAt s.rank r st r' = s.rank r' := fun r r' st hne => setAt_ne _ _ hne
    have look : ∀ (r : Nat) (st : RankState D B), (match st.phase with
          | .computing st' => ∀ g, st' g ≤ cfg.maxCompute ∧ ∀ q, (st.sendBuf g q).length ≤ 4 * st' g
          | _ => ∀ g q, st.sendBuf g q = []) →
        ∀ r', match (setAt s.rank r st r').phase with
          | .computing st' => ∀ g, st' g ≤ cfg.maxCompute ∧
              ∀ q, ((setAt s.rank r st r').sendBuf g q).length ≤ 4 * st' g
          | _ => ∀ g q, (setAt s.rank r st r').sendBuf g q = [] := by
      intro r st hst r'
      by_cases hr : r' = r
      · subst hr; rw [setAt_same]; exact hst
      · rw [other r r' st hr]; exact ih r'
    cases hs with
    | compute r g steps l1 l2 t hr hg hphase hq htop hsteps =>
      refine look r _ ?_
      have hr := ih r
      rw [hphase] at hr
      dsimp only at hr ⊢
      intro g'
      have hk : ∀ q, ((computeOne cfg r g t (l1 ++ l2) (s.rank r)).sendBuf g' q).length ≤
          ((s.rank r).sendBuf g' q).length + if g' = g then 4 else 0 := by
        intro q
        have := sendBuf_children cfg r g t.cell t.angle g' q (List.finRange 4)
          { s.rank r with
            queue := setAt (s.rank r).queue g (l1 ++ l2)
            remaining := Traverse.dec (s.rank r).remaining
            data := (cfg.data r).update t.cell t.angle (adjCellsSides (cfg.mesh r) t.cell)
              (bdryType (cfg.mesh r) t.angle t.cell) (s.rank r).data }
        simpa [computeOne] using this
      by_cases hg' : g' = g
      · subst hg'
        rw [setAt_same]
        refine ⟨hsteps, fun q => ?_⟩
        have h1 := hk q
        have h2 := (hr g').2 q
        rw [if_pos rfl] at h1
        omega
      · rw [setAt_ne _ _ hg']
        refine ⟨(hr g').1, fun q => ?_⟩
        have h1 := hk q
        have h2 := (hr g').2 q
        rw [if_neg hg'] at h1
        omega
    | skip r steps hr hphase hdone hcomm => rw [hd] at hcomm; simp at hcomm
    | send r steps hr hphase hdone hcomm => exact look r _ fun _ _ => rfl
    | kill r hr hphase =>
      refine look r _ ?_
      have hr := ih r
      rw [hphase] at hr
      exact hr
    | recv r q kill p1 p2 got m ms hr hphase hchan hcap =>
      refine look r _ ?_
      have hr := ih r
      rw [hphase] at hr
      exact hr
    | miss r q kill ps got hr hphase hcap hsends =>
      refine look r _ ?_
      have hr := ih r
      rw [hphase] at hr
      exact hr
    | unpack r got hr hphase hsends =>
      refine look r _ ?_
      have hr := ih r
      rw [hphase] at hr
      rw [unpackAll_phase, unpackAll_sendBuf]
      exact Batch.loop hr
    | close r got hr hphase hsends =>
      refine look r _ ?_
      have hr := ih r
      rw [hphase] at hr
      exact hr

theorem outbox_le_batch {cfg : Cfg D B} (hd : cfg.doComm = true) {s : Traverse.State D B}
    (h : Reachable cfg s) {r q : Nat} :
    (outbox cfg (s.rank r) q).length ≤ 4 * (cfg.nThreads * cfg.maxCompute) := by
  have hb := Reachable.batch hd h r
  have hg : ∀ g, ((s.rank r).sendBuf g q).length ≤ 4 * cfg.maxCompute := by
    intro g
    split at hb
    · have := hb g
      have := this.2 q
      omega
    · rw [hb g q]; simp
  unfold outbox
  rw [List.length_flatMap]
  have := List.sum_le_card_nsmul ((List.range cfg.nThreads).map fun g => ((s.rank r).sendBuf g q).length)
    (4 * cfg.maxCompute) (by
      intro x hx
      obtain ⟨g, -, rfl⟩ := List.mem_map.1 hx
      exact hg g)
  simp only [List.length_map, List.length_range, smul_eq_mul] at this
  calc _ ≤ _ := this
    _ = _ := by ring

/-- What a rank sends to another in one exchange is short enough. -/
theorem outbox_small {cfg : Cfg D B} {mate : Loc → Option Loc} (L : Linked cfg mate) {C : Codec B}
    (hC : C.Ok) (F : Fits cfg C) (hd : cfg.doComm = true) {s : Traverse.State D B}
    (h : Reachable cfg s) {r q : Nat} (hr : r < cfg.nRanks) :
    (bytesOf C (outbox cfg (s.rank r) q)).length < intMax := by
  rw [bytesOf_length hC]
  refine lt_of_le_of_lt (Nat.mul_le_mul_left _ ?_) (F.bytes r hr q)
  exact le_min (outbox_le_shared L h) (outbox_le_batch hd h)

end Verif.Wire
