import Verif.Domain.Exchange

/-!
# The boundary exchange is correct (C37)
-/
set_option linter.unusedSectionVars false

namespace Verif.Domain
open Classical List
open Verif.Transport Verif.Traverse

variable {K : Type} [Field K] [LinearOrder K]

/-! ### Unpacking -/

/-- The array entry of a packet. -/
def Pkt.key {n : Nat} (R : SweepRun K) (r : Nat) (p : Pkt K n) : Nat × Nat :=
  (p.angle, (R.mesh r).glSide p.gSide)

theorem putAll_miss (R : SweepRun K) (r : Nat) (ps : List (Pkt K R.nGroups)) (bound : Bound K)
    (g : Nat) (fv : Fin 3) (a s : Nat) (h : g < R.nGroups → ∀ p ∈ ps, p.key R r ≠ (a, s)) :
    putAll R r bound ps g fv a s = bound g fv a s := by
  unfold putAll
  induction ps generalizing bound with
  | nil => rfl
  | cons p ps ih =>
    rw [List.foldl_cons, ih _ fun hg q hq => h hg q (by simp [hq])]
    unfold putPkt
    rw [dif_neg]
    rintro ⟨rfl, rfl, hg⟩
    exact h hg p (by simp) rfl

theorem putAll_hit (R : SweepRun K) (r : Nat) (ps : List (Pkt K R.nGroups)) (bound : Bound K)
    (g : Nat) (hg : g < R.nGroups) (fv : Fin 3) (a s : Nat) (v : K) (h : ∃ p ∈ ps, p.key R r = (a, s))
    (hv : ∀ p ∈ ps, p.key R r = (a, s) → p.data fv ⟨g, hg⟩ = v) :
    putAll R r bound ps g fv a s = v := by
  induction ps generalizing bound with
  | nil => simp at h
  | cons p ps ih =>
    show putAll R r (putPkt R r bound p) ps g fv a s = v
    by_cases hl : ∃ p ∈ ps, p.key R r = (a, s)
    · exact ih _ hl fun q hq => hv q (by simp [hq])
    · rw [putAll_miss R r ps _ g fv a s fun _ q hq e => hl ⟨q, hq, e⟩]
      have hp : p.key R r = (a, s) := by
        obtain ⟨q, hq, e⟩ := h
        rcases List.mem_cons.1 hq with rfl | hq
        · exact e
        · exact absurd ⟨q, hq, e⟩ hl
      have hv' := hv p (by simp) hp
      simp only [Pkt.key, Prod.mk.injEq] at hp
      unfold putPkt
      rw [dif_pos ⟨hp.1.symm, hp.2.symm, hg⟩]
      exact hv'

theorem putAll_append (R : SweepRun K) (r : Nat) (ps qs : List (Pkt K R.nGroups)) (bound : Bound K) :
    putAll R r bound (ps ++ qs) = putAll R r (putAll R r bound ps) qs := by
  simp [putAll]

/-! ### The invariant -/

def XPhase.posted : XPhase → Prop
  | .start => False
  | _ => True

/-- The rank has yet to receive from `q`. -/
def XPhase.expects (q : Nat) : XPhase → Prop
  | .start => True
  | .waiting p => q ∈ p
  | _ => False

structure XInv (R : SweepRun K) (psi : Nat → Psi K) (bound : Nat → Bound K) (s : XState K R.nGroups) :
    Prop where
  start : ∀ r < R.nRanks, s.phase r = .start → s.bound r = bound r
  wait : ∀ r p, r < R.nRanks → s.phase r = .waiting p → ∃ l, (p ++ l).Perm (recvRanks R r) ∧
    (∀ q ∈ l, (s.phase q).posted) ∧
    s.bound r = putAll R r (bound r) (l.flatMap fun q => message R psi q r)
  fin : ∀ r < R.nRanks, s.phase r = .finished → ∃ l : List Nat, l.Perm (recvRanks R r) ∧
    (∀ q ∈ l, (s.phase q).posted) ∧
    s.bound r = putAll R r (bound r) (l.flatMap fun q => message R psi q r)
  trunc : ∀ r < R.nRanks, s.phase r ≠ .truncated
  chan : ∀ q < R.nRanks, ∀ r, s.chan q r =
    if (s.phase q).posted ∧ r ∈ sendRanks R q ∧ (s.phase r).expects q then [message R psi q r] else []

section
variable {R : SweepRun K} {mate : Loc → Option Loc} (L : Linked R.cfg mate) (X : Crossed R.cfg mate)
include L

theorem recvRanks_nodup (r : Nat) : (recvRanks R r).Nodup :=
  (foldl_adj_nodup _ _ List.nodup_nil).filter _

theorem recvRanks_lt {r q : Nat} (hr : r < R.nRanks) (h : q ∈ recvRanks R r) :
    q ≠ r ∧ q < R.nRanks := adjRanks_ne L hr (List.mem_filter.1 h).1

theorem sendRanks_lt {r q : Nat} (hr : r < R.nRanks) (h : q ∈ sendRanks R r) :
    q ≠ r ∧ q < R.nRanks := adjRanks_ne L hr (List.mem_filter.1 h).1

include X

theorem message_length {r q : Nat} (hr : r < R.nRanks) (hq : q < R.nRanks) (hne : q ≠ r)
    (psi : Nat → Psi K) : (message R psi q r).length = numRecv R r q := by
  rw [counts_agree L X hr hq hne]; simp [message]

theorem received_message {r q : Nat} (hr : r < R.nRanks) (hq : q < R.nRanks) (hne : q ≠ r)
    (psi : Nat → Psi K) : received R r q (message R psi q r) = message R psi q r := by
  unfold received
  rw [message_length L X hr hq hne psi]; simp

theorem XInv.step {psi : Nat → Psi K} {bound : Nat → Bound K} {s s' : XState K R.nGroups}
    (I : XInv R psi bound s) (h : XStep R psi s s') : XInv R psi bound s' := by
  cases h with
  | post r hr hp =>
    have mono : ∀ q, (s.phase q).posted → (setAt s.phase r (.waiting (recvRanks R r)) q).posted := by
      intro q h
      simp only [setAt]
      split
      · trivial
      · exact h
    refine ⟨?_, ?_, ?_, ?_, ?_⟩
    · intro r' hr' h'
      simp only [setAt] at h'
      split at h'
      · simp at h'
      · exact I.start r' hr' h'
    · intro r' p hr' h'
      simp only [setAt] at h'
      split at h'
      · rename_i e; subst e
        simp only [XPhase.waiting.injEq] at h'
        subst h'
        exact ⟨[], by simp, by simp, by simp [putAll, I.start r' hr' hp]⟩
      · obtain ⟨l, h1, h2, h3⟩ := I.wait r' p hr' h'
        exact ⟨l, h1, fun q hq => mono q (h2 q hq), h3⟩
    · intro r' hr' h'
      simp only [setAt] at h'
      split at h'
      · simp at h'
      · obtain ⟨l, h1, h2, h3⟩ := I.fin r' hr' h'
        exact ⟨l, h1, fun q hq => mono q (h2 q hq), h3⟩
    · intro r' hr' h'
      simp only [setAt] at h'
      split at h'
      · simp at h'
      · exact I.trunc r' hr' h'
    · intro q hq t
      have hc := I.chan q hq t
      simp only [setAt]
      by_cases hqr : q = r
      · subst hqr
        simp only [if_true]
        rw [if_neg (by rw [hp]; simp [XPhase.posted])] at hc
        rw [hc]
        simp only [XPhase.posted, true_and, List.nil_append]
        by_cases hts : t ∈ sendRanks R q
        · have htq := sendRanks_lt L hq hts
          have hmem : t ∈ sendRanks R q ↔ q ∈ recvRanks R t := mem_sendRanks L X htq.2 hq
          rw [if_pos hts, if_neg htq.1, if_pos]
          refine ⟨hts, ?_⟩
          rcases ht : s.phase t with _ | p | _ | _
          · trivial
          · obtain ⟨l, hl, hpo, -⟩ := I.wait t p htq.2 ht
            have : q ∈ p ++ l := hl.mem_iff.2 (hmem.1 hts)
            rcases List.mem_append.1 this with h1 | h1
            · exact h1
            · have := hpo q h1
              rw [hp] at this; exact this.elim
          · obtain ⟨l, hl, hpo, -⟩ := I.fin t htq.2 ht
            have := hpo q (hl.mem_iff.2 (hmem.1 hts))
            rw [hp] at this; exact this.elim
          · exact absurd ht (I.trunc t htq.2)
        · rw [if_neg hts, if_neg (fun h => hts h.1)]
      · simp only [if_neg hqr]
        rw [hc]
        by_cases htr : t = r
        · subst htr
          have : (s.phase t).expects q ↔ True := by rw [hp]; simp [XPhase.expects]
          by_cases hts : t ∈ sendRanks R q
          · have : q ∈ recvRanks R t := (mem_sendRanks L X hr hq).1 hts
            simp [hp, XPhase.expects, hts, this]
          · simp [hts]
        · simp only [if_neg htr]
  | recv r q p m ms hr hp hq hm hl =>
    obtain ⟨l, hperm, hpo, hb⟩ := I.wait r p hr hp
    have hqr : q ∈ recvRanks R r := hperm.mem_iff.1 (List.mem_append_left _ hq)
    have hql := recvRanks_lt L hr hqr
    have hnd : (p ++ l).Nodup := hperm.nodup_iff.2 (recvRanks_nodup L r)
    have hpn : p.Nodup := (List.nodup_append.1 hnd).1
    have hc := I.chan q hql.2 r
    rw [hm] at hc
    have hcond : (s.phase q).posted ∧ r ∈ sendRanks R q ∧ (s.phase r).expects q := by
      by_contra hn
      rw [if_neg hn] at hc; simp at hc
    rw [if_pos hcond] at hc
    simp only [List.cons.injEq] at hc
    obtain ⟨rfl, rfl⟩ := hc
    have mono : ∀ t, (s.phase t).posted → (setAt s.phase r (.waiting (p.erase q)) t).posted := by
      intro t h
      simp only [setAt]
      split
      · trivial
      · exact h
    have mono' : ∀ t, (setAt s.phase r (.waiting (p.erase q)) t).posted ↔ (s.phase t).posted := by
      intro t
      refine ⟨?_, mono t⟩
      simp only [setAt]
      split
      · rename_i e; subst e; rw [hp]; exact id
      · exact id
    refine ⟨?_, ?_, ?_, ?_, ?_⟩
    · intro r' hr' h'
      simp only [setAt] at h' ⊢
      split at h'
      · simp at h'
      · rename_i e; rw [if_neg e]; exact I.start r' hr' h'
    · intro r' p' hr' h'
      simp only [setAt] at h' ⊢
      split at h'
      · rename_i e; subst e
        simp only [XPhase.waiting.injEq] at h'
        subst h'
        rw [if_pos rfl]
        refine ⟨l ++ [q], ?_, ?_, ?_⟩
        · refine List.Perm.trans ?_ hperm
          have : (p.erase q ++ (l ++ [q])).Perm ([q] ++ p.erase q ++ l) := by
            rw [← List.append_assoc]
            refine List.perm_append_comm.trans ?_
            rw [List.append_assoc]
          refine this.trans ?_
          exact (List.Perm.append_right l (List.perm_cons_erase hq).symm)
        · intro t ht
          apply mono t
          rcases List.mem_append.1 ht with ht | ht
          · exact hpo t ht
          · simp only [List.mem_singleton] at ht; subst ht; exact hcond.1
        · rw [received_message L X hr' hql.2 hql.1, hb, ← putAll_append]
          simp
      · rename_i e; rw [if_neg e]
        obtain ⟨l, h1, h2, h3⟩ := I.wait r' p' hr' h'
        exact ⟨l, h1, fun q hq => mono q (h2 q hq), h3⟩
    · intro r' hr' h'
      simp only [setAt] at h' ⊢
      split at h'
      · simp at h'
      · rename_i e; rw [if_neg e]
        obtain ⟨l, h1, h2, h3⟩ := I.fin r' hr' h'
        exact ⟨l, h1, fun q hq => mono q (h2 q hq), h3⟩
    · intro r' hr' h'
      simp only [setAt] at h'
      split at h'
      · simp at h'
      · exact I.trunc r' hr' h'
    · intro q' hq' t
      simp only [mono']
      have hc' := I.chan q' hq' t
      by_cases htr : t = r
      · subst htr
        by_cases hqq : q' = q
        · subst hqq
          simp only [setAt, if_true]
          rw [if_neg]
          rintro ⟨-, -, h⟩
          exact (List.Nodup.not_mem_erase hpn) h
        · simp only [setAt, if_neg hqq, if_true]
          rw [hc', hp]
          have : XPhase.expects q' (.waiting (p.erase q)) ↔ XPhase.expects q' (.waiting p) :=
            List.mem_erase_of_ne hqq
          simp only [this]
      · by_cases hqq : q' = q
        · subst hqq
          simp only [setAt, if_true, if_neg htr]
          exact hc'
        · simp only [setAt, if_neg hqq, if_neg htr]
          exact hc'
  | trunc r q p m ms hr hp hq hm hl =>
    exfalso
    obtain ⟨l, hperm, hpo, hb⟩ := I.wait r p hr hp
    have hqr : q ∈ recvRanks R r := hperm.mem_iff.1 (List.mem_append_left _ hq)
    have hql := recvRanks_lt L hr hqr
    have hc := I.chan q hql.2 r
    rw [hm] at hc
    split at hc
    · simp only [List.cons.injEq] at hc
      obtain ⟨rfl, rfl⟩ := hc
      rw [message_length L X hr hql.2 hql.1] at hl
      omega
    · simp at hc
  | done r hr hp hs =>
    obtain ⟨l, hperm, hpo, hb⟩ := I.wait r [] hr hp
    have mono' : ∀ t, (setAt s.phase r .finished t).posted ↔ (s.phase t).posted := by
      intro t
      simp only [setAt]
      split
      · rename_i e; subst e; rw [hp]; exact Iff.rfl
      · exact Iff.rfl
    have mono2 : ∀ t q, (setAt s.phase r .finished t).expects q ↔ (s.phase t).expects q := by
      intro t q
      simp only [setAt]
      split
      · rename_i e; subst e; rw [hp]; simp [XPhase.expects]
      · exact Iff.rfl
    refine ⟨?_, ?_, ?_, ?_, ?_⟩
    · intro r' hr' h'
      simp only [setAt] at h'
      split at h'
      · simp at h'
      · exact I.start r' hr' h'
    · intro r' p' hr' h'
      simp only [mono']
      simp only [setAt] at h'
      split at h'
      · simp at h'
      · exact I.wait r' p' hr' h'
    · intro r' hr' h'
      simp only [mono']
      simp only [setAt] at h'
      split at h'
      · rename_i e; subst e
        exact ⟨l, by simpa using hperm, hpo, hb⟩
      · exact I.fin r' hr' h'
    · intro r' hr' h'
      simp only [setAt] at h'
      split at h'
      · simp at h'
      · exact I.trunc r' hr' h'
    · intro q hq t
      simp only [mono', mono2]
      exact I.chan q hq t

theorem XRun.inv {psi : Nat → Psi K} {bound : Nat → Bound K} {n : Nat} {s : XState K R.nGroups}
    (h : XRun R psi bound n s) : XInv R psi bound s := by
  induction h with
  | nil =>
    refine ⟨fun _ _ _ => rfl, ?_, ?_, ?_, ?_⟩
    · intro r p _ h; simp [xInit] at h
    · intro r _ h; simp [xInit] at h
    · intro r _ h; simp [xInit] at h
    · intro q hq r; simp [xInit, XPhase.posted]
  | snoc _ hs ih => exact ih.step L X hs

/-! ### C37 -/

theorem exchanged_of_perm {node : Nat → Nat → Fin 4 → Nat} (N : R.Nodes mate node)
    {psi : Nat → Psi K} {bound bound' : Nat → Bound K}
    (h : ∀ r < R.nRanks, ∃ l : List Nat, l.Perm (recvRanks R r) ∧
      bound' r = putAll R r (bound r) (l.flatMap fun q => message R psi q r)) :
    Exchanged R mate node psi bound bound' := by
  -- every packet for `r` comes from a face whose mate is on `r`
  have pk : ∀ r < R.nRanks, ∀ (l : List Nat), l.Perm (recvRanks R r) →
      ∀ p ∈ l.flatMap (fun q => message R psi q r), ∃ x y a, R.cfg.In x ∧ mate x = some y ∧
        x.rank = r ∧ y.rank ≠ r ∧ a < R.nAngles ∧ ¬ (R.view r).isOutgoing a x.cell x.face ∧
        p.key R r = (a, (R.view r).side x.cell x.face) ∧
        p.data = fun fv (g : Fin R.nGroups) =>
          psi y.rank g (R.faceToCellVrtx y.rank y.cell y.face fv) a y.cell := by
    intro r hr l hl p hp
    obtain ⟨q, hq, hp⟩ := List.mem_flatMap.1 hp
    have hql := recvRanks_lt L hr (hl.mem_iff.1 hq)
    obtain ⟨⟨c, f, a⟩, hmd, rfl⟩ := List.mem_map.1 hp
    rw [mem_metaData] at hmd
    obtain ⟨x, hx, hxr⟩ := mate_of_adjRank L hql.2 hmd.1 hmd.2.1 (Ne.symm hql.1)
    have hin : R.cfg.In ⟨q, c, f⟩ := ⟨hql.2, hmd.1⟩
    have hxin := L.mate_in _ x hin hx
    have hsx := L.mate_symm _ x hin hx
    subst hxr
    refine ⟨x, ⟨q, c, f⟩, a, hxin, hsx, rfl, hql.1, hmd.2.2.1, ?_, ?_, rfl⟩
    · have := L.orient _ x a hin hx hmd.2.2.1 (by
        simp [Cfg.outDir, SweepRun.cfg, hmd.2.2.2])
      simpa [Cfg.inDir, SweepRun.cfg, SweepRun.mesh] using this
    · show (a, (R.mesh x.rank).glSide ((R.mesh q).lgSide ((R.mesh q).side c f))) = _
      have := L.side_eq _ x hin hx (Ne.symm hql.1)
      exact congrArg (Prod.mk a) this
  refine ⟨?_, ?_⟩
  · intro x y a g v hxin hxy hne ha hin hg hv
    obtain ⟨l, hl, hb⟩ := h x.rank hxin.1
    refine ⟨_, N.far x y v hxin hxy hne hv, ?_⟩
    rw [hb]
    have hyin := L.mate_in x y hxin hxy
    have hsy := L.mate_symm x y hxin hxy
    have hfar := L.far x y hxin hxy hne
    have hfar' := L.far y x hyin hsy (Ne.symm hne)
    have hin' : R.cfg.inDir x.rank a x.cell x.face = true := by
      show (!decide ((R.view x.rank).isOutgoing a x.cell x.face)) = true
      simpa using hin
    have hout := X x y a hxin hxy ha hin'
    have hmd : (y.cell, y.face, a) ∈ metaData R true y.rank x.rank := by
      rw [mem_metaData]
      exact ⟨hyin.2, hfar'.2, ha, by simpa [Cfg.outDir, SweepRun.cfg] using hout⟩
    have hyr : y.rank ∈ l := by
      rw [hl.mem_iff, ← mem_sendRanks L X hxin.1 hyin.1]
      unfold sendRanks
      rw [List.mem_filter]
      refine ⟨mem_adjRanks.2 ⟨y.cell, y.face, hyin.2, hfar'.1, hfar'.2⟩, ?_⟩
      simpa using List.length_pos_of_mem hmd
    apply putAll_hit R x.rank _ _ g hg
    · refine ⟨packetOf R psi y.rank (y.cell, y.face, a),
        List.mem_flatMap.2 ⟨y.rank, hyr, List.mem_map.2 ⟨_, hmd, rfl⟩⟩, ?_⟩
      show (a, (R.mesh x.rank).glSide ((R.mesh y.rank).lgSide ((R.mesh y.rank).side y.cell y.face))) = _
      exact congrArg (Prod.mk a) (L.side_eq y x hyin hsy (Ne.symm hne))
    · intro p hp hk
      obtain ⟨x', y', a', h1, h2, h3, h4, h5, h6, h7, h8⟩ := pk x.rank hxin.1 l hl p hp
      rw [h7] at hk
      simp only [Prod.mk.injEq] at hk
      obtain ⟨rfl, hk⟩ := hk
      have : x' = x := L.side_inj x' x y' y h1 hxin h2 hxy (by rw [h3]; exact h4) hne h3 (by
        rw [h3]; exact hk)
      subst this
      rw [hxy] at h2
      simp only [Option.some.injEq] at h2
      subst h2
      rw [h8]
  · intro r g fv a s hr hno
    obtain ⟨l, hl, hb⟩ := h r hr
    rw [hb]
    apply putAll_miss
    intro hg p hp hk
    obtain ⟨x, y, a', h1, h2, h3, h4, h5, h6, h7, h8⟩ := pk r hr l hl p hp
    rw [h7] at hk
    simp only [Prod.mk.injEq] at hk
    obtain ⟨rfl, hk⟩ := hk
    exact hno hg x y h1 h3 h2 h4 h5 h6 hk

/-- C37: whatever the message order, when `commSides` has returned on all ranks every incoming
partition-boundary value is the neighbour's flux at the same node and no other entry has changed. -/
theorem exchange_correct {node : Nat → Nat → Fin 4 → Nat} (N : R.Nodes mate node)
    {psi : Nat → Psi K} {bound : Nat → Bound K} {n : Nat} {s : XState K R.nGroups}
    (h : XRun R psi bound n s) (hf : ∀ r < R.nRanks, s.phase r = .finished) :
    Exchanged R mate node psi bound s.bound := by
  apply exchanged_of_perm L X N
  intro r hr
  obtain ⟨l, h1, -, h2⟩ := (h.inv L X).fin r hr (hf r hr)
  exact ⟨l, h1, h2⟩

/-- C37: a message never exceeds its buffer. -/
theorem exchange_no_truncation {psi : Nat → Psi K} {bound : Nat → Bound K} {n : Nat}
    {s : XState K R.nGroups} (h : XRun R psi bound n s) : ∀ r < R.nRanks, s.phase r ≠ .truncated :=
  (h.inv L X).trunc

/-- C37: as long as a rank has not returned, some rank can take a step, even if a send completes only
when it is received. -/
theorem exchange_no_deadlock {psi : Nat → Psi K} {bound : Nat → Bound K} {n : Nat}
    {s : XState K R.nGroups} (h : XRun R psi bound n s)
    (hnf : ∃ r < R.nRanks, s.phase r ≠ .finished) : ∃ s', XStep R psi s s' := by
  have I := h.inv L X
  by_cases h1 : ∃ r < R.nRanks, s.phase r = .start
  · obtain ⟨r, hr, hp⟩ := h1
    exact ⟨_, .post s r hr hp⟩
  push Not at h1
  by_cases h2 : ∃ r < R.nRanks, ∃ q p, s.phase r = .waiting (q :: p)
  · obtain ⟨r, hr, q, p, hp⟩ := h2
    obtain ⟨l, hperm, -, -⟩ := I.wait r _ hr hp
    have hqr : q ∈ recvRanks R r := hperm.mem_iff.1 (by simp)
    have hql := recvRanks_lt L hr hqr
    have hc := I.chan q hql.2 r
    rw [if_pos] at hc
    · exact ⟨_, .recv s r q _ _ [] hr hp (by simp) hc
        (by rw [message_length L X hr hql.2 hql.1])⟩
    · refine ⟨?_, (mem_sendRanks L X hr hql.2).2 hqr, by rw [hp]; simp [XPhase.expects]⟩
      rcases hq : s.phase q with _ | _ | _ | _
      · exact absurd hq (h1 q hql.2)
      all_goals trivial
  push Not at h2
  obtain ⟨r, hr, hrn⟩ := hnf
  have hw : ∀ t < R.nRanks, s.phase t = .waiting [] ∨ s.phase t = .finished := by
    intro t ht
    rcases hp : s.phase t with _ | p | _ | _
    · exact absurd hp (h1 t ht)
    · cases p with
      | nil => exact Or.inl rfl
      | cons q p => exact absurd hp (h2 t ht q p)
    · exact Or.inr rfl
    · exact absurd hp (I.trunc t ht)
  have hp : s.phase r = .waiting [] := (hw r hr).resolve_right hrn
  refine ⟨_, .done s r hr hp fun _ q => ?_⟩
  rw [I.chan r hr q, if_neg]
  rintro ⟨-, hq, he⟩
  rcases hw q (sendRanks_lt L hr hq).2 with e | e <;> rw [e] at he <;> simp [XPhase.expects] at he

/-- Steps left to a rank. -/
def XPhase.work (R : SweepRun K) (r : Nat) : XPhase → Nat
  | .start => (recvRanks R r).length + 2
  | .waiting p => p.length + 1
  | _ => 0

omit L X in
theorem XStep.work {psi : Nat → Psi K} {s s' : XState K R.nGroups} (h : XStep R psi s s') :
    ∑ r ∈ Finset.range R.nRanks, (s'.phase r).work R r <
      ∑ r ∈ Finset.range R.nRanks, (s.phase r).work R r := by
  have key : ∀ r p, r < R.nRanks → p.work R r < (s.phase r).work R r →
      ∑ t ∈ Finset.range R.nRanks, (setAt s.phase r p t).work R t <
        ∑ t ∈ Finset.range R.nRanks, (s.phase t).work R t := by
    intro r p hr hlt
    refine Finset.sum_lt_sum ?_ ⟨r, Finset.mem_range.2 hr, by simpa [setAt] using hlt⟩
    intro t _
    simp only [setAt]
    split
    · rename_i e; subst e; exact hlt.le
    · exact le_rfl
  cases h with
  | post r hr hp => exact key r _ hr (by rw [hp]; simp [XPhase.work])
  | recv r q p m ms hr hp hq hm hl =>
    refine key r _ hr ?_
    rw [hp]
    have := List.length_erase_of_mem hq
    have := List.length_pos_of_mem hq
    simp only [XPhase.work]; omega
  | trunc r q p m ms hr hp hq hm hl => exact key r _ hr (by rw [hp]; simp [XPhase.work])
  | done r hr hp hs => exact key r _ hr (by rw [hp]; simp [XPhase.work])

omit L X in
/-- C37: every execution has bounded length. -/
theorem exchange_terminates {psi : Nat → Psi K} {bound : Nat → Bound K} {n : Nat}
    {s : XState K R.nGroups} (h : XRun R psi bound n s) :
    n ≤ ∑ r ∈ Finset.range R.nRanks, ((recvRanks R r).length + 2) := by
  have : n + ∑ r ∈ Finset.range R.nRanks, (s.phase r).work R r ≤
      ∑ r ∈ Finset.range R.nRanks, ((recvRanks R r).length + 2) := by
    induction h with
    | nil => simp [xInit, XPhase.work]
    | snoc _ hs ih => have := hs.work; omega
  omega

/-- C37: so the exchange returns on all ranks. -/
theorem exchange_finishes (psi : Nat → Psi K) (bound : Nat → Bound K) :
    ∃ n s, XRun R psi bound n s ∧ ∀ r < R.nRanks, s.phase r = .finished := by
  have : ∀ m n s, XRun R psi bound n s →
      ∑ r ∈ Finset.range R.nRanks, ((recvRanks R r).length + 2) ≤ n + m →
      ∃ n s, XRun R psi bound n s ∧ ∀ r < R.nRanks, s.phase r = .finished := by
    intro m
    induction m with
    | zero =>
      intro n s h hm
      refine ⟨n, s, h, ?_⟩
      by_contra hno
      push Not at hno
      obtain ⟨s', hs⟩ := exchange_no_deadlock L X h hno
      have := exchange_terminates (h.snoc hs)
      omega
    | succ m ih =>
      intro n s h hm
      by_cases hf : ∀ r < R.nRanks, s.phase r = .finished
      · exact ⟨n, s, h, hf⟩
      · push Not at hf
        obtain ⟨s', hs⟩ := exchange_no_deadlock L X h hf
        exact ih (n + 1) s' (h.snoc hs) (by omega)
  exact this (∑ r ∈ Finset.range R.nRanks, ((recvRanks R r).length + 2)) 0 _ .nil (by omega)

end

end Verif.Domain
