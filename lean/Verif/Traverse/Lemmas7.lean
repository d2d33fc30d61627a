import Verif.Traverse.Lemmas6
import Mathlib.Algebra.BigOperators.Group.Finset.Basic
import Mathlib.Algebra.Order.BigOperators.Group.Finset
import Mathlib.Logic.Relation

set_option linter.unusedSectionVars false

namespace Verif.Traverse
open Classical List

variable {D B : Type}

/-! ### Rounds of events -/

/-- The packet was produced by an update in round `k` of rank `q`, for rank `r`. -/
def MadeIn (cfg : Cfg D B) (mate : Loc → Option Loc) (log : List (Event B)) (q r k : Nat)
    (p : Packet B) : Prop :=
  ∃ x y, cfg.In x ∧ x.rank = q ∧ mate x = some y ∧ y.rank = r ∧ q ≠ r ∧ p.side = cfg.gs x ∧
    Event.upd q x.cell p.angle k ∈ log

/-- What holds of rounds with or without communication. -/
structure Rounds (cfg : Cfg D B) (s : State D B) : Prop where
  steps : ∀ r st, (s.rank r).phase = .computing st → ∀ g, 0 < st g →
    ∃ c a, Event.upd r c a ((s.rank r).round + 1) ∈ s.log
  now : ∀ r c a k, Event.upd r c a k ∈ s.log → k ≤ (s.rank r).round + 1 ∧
    (¬ (s.rank r).phase.isComputing → k ≤ (s.rank r).round) ∧
    ((s.rank r).phase.killed → cfg.doComm = true → cfg.protocol = .tycho → k < (s.rank r).round)

theorem loopTest_steps {cfg : Cfg D B} {n : Nat} {st : Nat → Nat}
    (h : loopTest (B := B) cfg n = .computing st) : st = fun _ => 0 := by
  unfold loopTest at h
  split at h
  · simp at h; exact h.symm
  · split at h <;> simp at h

theorem not_isComputing_loopTest {cfg : Cfg D B} {n : Nat} (h : 0 < n) :
    (loopTest (B := B) cfg n).isComputing := by
  unfold loopTest; rw [if_pos h]; trivial

theorem Rounds.start (cfg : Cfg D B) : Rounds cfg (initState cfg) := by
  refine ⟨?_, ?_⟩
  · intro r st h g hg
    have := loopTest_steps h
    subst this
    simp at hg
  · intro r c a k h; simp [initState] at h

theorem unpackAll_round (cfg : Cfg D B) (r : Nat) (got : List (Nat × Packet B)) (st : RankState D B) :
    (unpackAll cfg r got st).round = st.round :=
  foldl_unpack_inv cfg r RankState.round (unpackOne_round cfg r) _ _
theorem unpackAll_recvd (cfg : Cfg D B) (r : Nat) (got : List (Nat × Packet B)) (st : RankState D B) :
    (unpackAll cfg r got st).recvd = st.recvd :=
  foldl_unpack_inv cfg r RankState.recvd (unpackOne_recvd cfg r) _ _
theorem unpackAll_sendBuf (cfg : Cfg D B) (r : Nat) (got : List (Nat × Packet B)) (st : RankState D B) :
    (unpackAll cfg r got st).sendBuf = st.sendBuf :=
  foldl_unpack_inv cfg r RankState.sendBuf (unpackOne_sendBuf cfg r) _ _
theorem unpackAll_remaining (cfg : Cfg D B) (r : Nat) (got : List (Nat × Packet B)) (st : RankState D B) :
    (unpackAll cfg r got st).remaining = st.remaining :=
  foldl_unpack_inv cfg r RankState.remaining (unpackOne_remaining cfg r) _ _
theorem unpackAll_phase (cfg : Cfg D B) (r : Nat) (got : List (Nat × Packet B)) (st : RankState D B) :
    (unpackAll cfg r got st).phase = loopTest cfg st.remaining := by
  rw [← unpackAll_remaining cfg r got st]; rfl

theorem mem_unpackEvents {cfg : Cfg D B} {r r' c a k : Nat} {got : List (Nat × Packet B)} :
    Event.upd r' c a k ∉ unpackEvents cfg r got := by
  simp [unpackEvents]

theorem Rounds.step {cfg : Cfg D B} {s s' : State D B} (R : Rounds cfg s) (h : Step cfg s s') :
    Rounds cfg s' := by
  cases h with
  | compute r g steps l1 l2 t hr hg hphase hq htop hsteps =>
    have hrd : (computeOne cfg r g t (l1 ++ l2) (s.rank r)).round = (s.rank r).round := computeOne_round ..
    refine ⟨?_, ?_⟩
    · intro r' st hst g' hg'
      dsimp only at hst ⊢
      by_cases h : r' = r
      · subst h
        rw [setAt_same]
        dsimp only
        rw [hrd]
        exact ⟨t.cell, t.angle, by simp⟩
      · rw [setAt_ne _ _ h] at hst ⊢
        obtain ⟨c, a, hm⟩ := R.steps r' st hst g' hg'
        exact ⟨c, a, by simp [hm]⟩
    · intro r' c a k hk
      dsimp only at hk ⊢
      rw [List.mem_append] at hk
      by_cases h : r' = r
      · subst h
        rw [setAt_same]
        dsimp only
        rw [hrd]
        refine ⟨?_, fun h1 => absurd trivial h1, fun h1 => h1.elim⟩
        rcases hk with hk | hk
        · exact (R.now r' c a k hk).1
        · simp at hk; omega
      · rw [setAt_ne _ _ h]
        rcases hk with hk | hk
        · exact R.now r' c a k hk
        · simp at hk; exact absurd hk.1 h
  | skip r steps hr hphase hdone hcomm =>
    refine ⟨?_, ?_⟩
    · intro r' st hst g' hg'
      dsimp only at hst ⊢
      by_cases h : r' = r
      · subst h
        rw [setAt_same] at hst
        have := loopTest_steps hst
        subst this
        simp at hg'
      · rw [setAt_ne _ _ h] at hst ⊢
        exact R.steps r' st hst g' hg'
    · intro r' c a k hk
      dsimp only at hk ⊢
      have h0 := R.now r' c a k hk
      by_cases h : r' = r
      · subst h
        rw [setAt_same]
        dsimp only
        exact ⟨by omega, fun _ => h0.1, fun _ h2 => by rw [hcomm] at h2; simp at h2⟩
      · rw [setAt_ne _ _ h]; exact h0
  | send r steps hr hphase hdone hcomm =>
    refine ⟨?_, ?_⟩
    · intro r' st hst g' hg'
      dsimp only at hst ⊢
      by_cases h : r' = r
      · subst h; rw [setAt_same] at hst; simp at hst
      · rw [setAt_ne _ _ h] at hst ⊢
        exact R.steps r' st hst g' hg'
    · intro r' c a k hk
      dsimp only at hk ⊢
      have h0 := R.now r' c a k hk
      by_cases h : r' = r
      · subst h
        rw [setAt_same]
        dsimp only
        exact ⟨by omega, fun _ => h0.1, fun h2 => by simp [Phase.killed] at h2⟩
      · rw [setAt_ne _ _ h]; exact h0
  | kill r hr hphase =>
    refine ⟨?_, ?_⟩
    · intro r' st hst g' hg'
      dsimp only at hst ⊢
      by_cases h : r' = r
      · subst h; rw [setAt_same] at hst; simp at hst
      · rw [setAt_ne _ _ h] at hst ⊢
        exact R.steps r' st hst g' hg'
    · intro r' c a k hk
      dsimp only at hk ⊢
      have h0 := R.now r' c a k hk
      by_cases h : r' = r
      · subst h
        rw [setAt_same]
        dsimp only
        have h1 := h0.2.1 (by rw [hphase]; exact id)
        exact ⟨by omega, fun _ => by omega, fun _ _ _ => by omega⟩
      · rw [setAt_ne _ _ h]; exact h0
  | recv r q kill p1 p2 got m ms hr hphase hchan hcap =>
    refine ⟨?_, ?_⟩
    · intro r' st hst g' hg'
      dsimp only at hst ⊢
      by_cases h : r' = r
      · subst h; rw [setAt_same] at hst; simp at hst
      · rw [setAt_ne _ _ h] at hst ⊢
        exact R.steps r' st hst g' hg'
    · intro r' c a k hk
      dsimp only at hk ⊢
      have h0 := R.now r' c a k hk
      by_cases h : r' = r
      · subst h
        rw [hphase] at h0
        rw [setAt_same]
        exact h0
      · rw [setAt_ne _ _ h]; exact h0
  | miss r q kill ps got hr hphase hcap hsends =>
    refine ⟨?_, ?_⟩
    · intro r' st hst g' hg'
      dsimp only at hst ⊢
      by_cases h : r' = r
      · subst h; rw [setAt_same] at hst; simp at hst
      · rw [setAt_ne _ _ h] at hst ⊢
        exact R.steps r' st hst g' hg'
    · intro r' c a k hk
      dsimp only at hk ⊢
      have h0 := R.now r' c a k hk
      by_cases h : r' = r
      · subst h
        rw [hphase] at h0
        rw [setAt_same]
        exact h0
      · rw [setAt_ne _ _ h]; exact h0
  | unpack r got hr hphase hsends =>
    refine ⟨?_, ?_⟩
    · intro r' st hst g' hg'
      dsimp only at hst ⊢
      by_cases h : r' = r
      · subst h
        rw [setAt_same, unpackAll_phase] at hst
        have := loopTest_steps hst
        subst this
        simp at hg'
      · rw [setAt_ne _ _ h] at hst ⊢
        obtain ⟨c, a, hm⟩ := R.steps r' st hst g' hg'
        exact ⟨c, a, by simp [hm]⟩
    · intro r' c a k hk
      dsimp only at hk ⊢
      rw [List.mem_append] at hk
      rcases hk with hk | hk
      · have h0 := R.now r' c a k hk
        by_cases h : r' = r
        · subst h
          rw [hphase] at h0
          rw [setAt_same, unpackAll_round]
          have h1 := h0.2.1 id
          refine ⟨h0.1, fun _ => h1, fun h2 h3 h4 => ?_⟩
          rw [unpackAll_phase] at h2
          exact absurd h2 (killed_loopTest h3 h4 _)
        · rw [setAt_ne _ _ h]; exact h0
      · exact absurd hk mem_unpackEvents
  | close r got hr hphase hsends =>
    refine ⟨?_, ?_⟩
    · intro r' st hst g' hg'
      dsimp only at hst ⊢
      by_cases h : r' = r
      · subst h; rw [setAt_same] at hst; simp at hst
      · rw [setAt_ne _ _ h] at hst ⊢
        exact R.steps r' st hst g' hg'
    · intro r' c a k hk
      dsimp only at hk ⊢
      have h0 := R.now r' c a k hk
      by_cases h : r' = r
      · subst h
        rw [hphase] at h0
        rw [setAt_same]
        exact ⟨h0.1, h0.2.1, fun _ => h0.2.2 rfl⟩
      · rw [setAt_ne _ _ h]; exact h0

theorem Reachable.rounds {cfg : Cfg D B} {s : State D B} (h : Reachable cfg s) : Rounds cfg s := by
  induction h with
  | init => exact Rounds.start cfg
  | step _ hs ih => exact ih.step hs

/-- Where packets of which round are. -/
structure Where (cfg : Cfg D B) (mate : Loc → Option Loc) (s : State D B) : Prop where
  out : ∀ q r, ∀ p ∈ outbox cfg (s.rank q) r, MadeIn cfg mate s.log q r ((s.rank q).round + 1) p
  chan : ∀ q r n m, (s.chan q r)[n]? = some m → ∀ p ∈ m.list,
    MadeIn cfg mate s.log q r ((s.rank r).recvd q + n + 1) p
  got : ∀ q r, ∀ p ∈ gotFrom (s.rank r).phase q, MadeIn cfg mate s.log q r (s.rank r).round p
  recvd : ∀ r q, (s.rank r).recvd q ≤ (s.rank r).round

theorem MadeIn.append {cfg : Cfg D B} {mate : Loc → Option Loc} {log l : List (Event B)} {q r k : Nat}
    {p : Packet B} (h : MadeIn cfg mate log q r k p) : MadeIn cfg mate (log ++ l) q r k p := by
  obtain ⟨x, y, h1, h2, h3, h4, h5, h6, h7⟩ := h
  exact ⟨x, y, h1, h2, h3, h4, h5, h6, by simp [h7]⟩

theorem Where.start (cfg : Cfg D B) (mate : Loc → Option Loc) : Where cfg mate (initState cfg) := by
  refine ⟨?_, ?_, ?_, ?_⟩
  · intro q r p hp; simp [initState, outbox, initRank] at hp
  · intro q r n m h; simp [initState] at h
  · intro q r p hp
    simp only [initState, initRank, loopTest] at hp
    split at hp
    · simp [gotFrom] at hp
    · split at hp <;> simp [gotFrom] at hp
  · intro r q; rfl

section
variable {cfg : Cfg D B} {mate : Loc → Option Loc} (L : Linked cfg mate) {s : State D B}
  (I : Inv cfg mate s) (P : Proto cfg s) (hd : cfg.doComm = true) (ht : cfg.protocol = .tycho)
include L I P hd ht

/-- Beginning an exchange. -/
theorem Where.begin (W : Where cfg mate s) {r : Nat} (hr : r < cfg.nRanks)
    (hnk : ¬ (s.rank r).phase.killed) (msg : Nat → Msg B)
    (hmsg : ∀ q, ∀ p ∈ (msg q).list, p ∈ outbox cfg (s.rank r) q) (kill : Bool) (ps : List Nat)
    (X : RankState D B) (hXp : X.phase = .exchanging kill ps []) (hXr : X.recvd = (s.rank r).recvd)
    (hXo : X.round = (s.rank r).round + 1) (hsb : ∀ q, outbox cfg X q = []) :
    Where cfg mate
        { s with
          rank := setAt s.rank r X
          chan := post s.chan r (targets cfg r (s.rank r)) msg } := by
  have hrec : ∀ r' q, (setAt s.rank r X r').recvd q = (s.rank r').recvd q := by
    intro r' q
    by_cases h : r' = r
    · subst h; rw [setAt_same, hXr]
    · rw [setAt_ne _ _ h]
  refine ⟨?_, ?_, ?_, ?_⟩
  · intro q r' p hp
    dsimp only at hp ⊢
    by_cases h : q = r
    · subst h; rw [setAt_same, hsb] at hp; simp at hp
    · rw [setAt_ne _ _ h] at hp ⊢; exact W.out q r' p hp
  · intro q r' n m hm p hp
    dsimp only [post] at hm ⊢
    rw [hrec]
    by_cases h : q = r
    · subst h
      rw [setAt_same] at hm
      split at hm
      · rename_i hmem
        by_cases hn : n < (s.chan q r').length
        · rw [List.getElem?_append_left hn] at hm
          exact W.chan q r' n m hm p hp
        · rw [List.getElem?_append_right (by omega)] at hm
          rw [targets_tycho L I P hd ht, List.mem_filter] at hmem
          have hn0 : n - (s.chan q r').length = 0 := by
            by_contra h0
            rw [List.getElem?_eq_none (by simp; omega)] at hm
            simp at hm
          rw [hn0] at hm
          simp at hm
          subst hm
          have h1 := W.out q r' p (hmsg r' p hp)
          have h2 := P.flow q r'
          have h3 := P.sent_eq q hr r' hmem.1 (by simpa using hmem.2)
          have : (s.rank r').recvd q + n + 1 = (s.rank q).round + 1 := by omega
          rw [this]
          exact h1
      · exact W.chan q r' n m hm p hp
    · rw [setAt_ne _ _ h] at hm
      exact W.chan q r' n m hm p hp
  · intro q r' p hp
    dsimp only at hp ⊢
    by_cases h : r' = r
    · subst h; rw [setAt_same, hXp] at hp; simp [gotFrom] at hp
    · rw [setAt_ne _ _ h] at hp ⊢; exact W.got q r' p hp
  · intro r' q
    dsimp only
    rw [hrec]
    have := W.recvd r' q
    by_cases h : r' = r
    · subst h; rw [setAt_same, hXo]; omega
    · rw [setAt_ne _ _ h]; exact this

theorem Where.step (W : Where cfg mate s) {s' : State D B} (h : Step cfg s s') : Where cfg mate s' := by
  cases h with
  | compute r g steps l1 l2 t hr hg hphase hq htop hsteps =>
    obtain ⟨hc, ha, hga, hnd, hord, hrem⟩ := I.taken L hr hq
    have hrd : (computeOne cfg r g t (l1 ++ l2) (s.rank r)).round = (s.rank r).round := computeOne_round ..
    have hrc : (computeOne cfg r g t (l1 ++ l2) (s.rank r)).recvd = (s.rank r).recvd := computeOne_recvd ..
    refine ⟨?_, ?_, ?_, ?_⟩
    · intro q r' p hp
      dsimp only at hp ⊢
      by_cases h : q = r
      · subst h
        rw [setAt_same] at hp ⊢
        have := outbox_children (cfg := cfg) (r := q) (c := t.cell) (a := t.angle) hg r' (List.finRange 4)
          { s.rank q with
            queue := setAt (s.rank q).queue g (l1 ++ l2)
            remaining := dec (s.rank q).remaining
            data := (cfg.data q).update t.cell t.angle (adjCellsSides (cfg.mesh q) t.cell)
              (bdryType (cfg.mesh q) t.angle t.cell) (s.rank q).data }
        have hp' := this.mem_iff.1 hp
        dsimp only
        rw [hrd]
        rw [List.mem_append] at hp'
        rcases hp' with hp' | hp'
        · exact (W.out q r' p hp').append
        · rw [List.mem_filterMap] at hp'
          obtain ⟨f, -, hp'⟩ := hp'
          unfold packetOf at hp'
          split at hp'
          · rename_i hcond
            simp only [Option.some.injEq] at hp'
            subst hp'
            obtain ⟨y, hy, hyr, hyq⟩ := adjCell_none (x := ⟨q, t.cell, f⟩) L ⟨hr, hc⟩ hcond.2.1 hcond.2.2.1
            exact ⟨⟨q, t.cell, f⟩, y, ⟨hr, hc⟩, rfl, hy, hyq, fun h => hyr (by rw [hyq, ← h]), rfl,
              by simp⟩
          · simp at hp'
      · rw [setAt_ne _ _ h] at hp ⊢; exact (W.out q r' p hp).append
    · intro q r' n m hm p hp
      dsimp only at hm ⊢
      have : (setAt s.rank r { computeOne cfg r g t (l1 ++ l2) (s.rank r) with
            phase := .computing (setAt steps g (steps g + 1)) } r').recvd = (s.rank r').recvd := by
        by_cases h : r' = r
        · subst h; rw [setAt_same]; exact hrc
        · rw [setAt_ne _ _ h]
      rw [this]
      exact (W.chan q r' n m hm p hp).append
    · intro q r' p hp
      dsimp only at hp ⊢
      by_cases h : r' = r
      · subst h; rw [setAt_same] at hp; simp [gotFrom] at hp
      · rw [setAt_ne _ _ h] at hp ⊢; exact (W.got q r' p hp).append
    · intro r' q
      dsimp only
      by_cases h : r' = r
      · subst h; rw [setAt_same]; dsimp only; rw [hrd, hrc]; exact W.recvd r' q
      · rw [setAt_ne _ _ h]; exact W.recvd r' q
  | skip r steps hr hphase hdone hcomm => rw [hd] at hcomm; simp at hcomm
  | send r steps hr hphase hdone hcomm =>
    exact W.begin L I P hd ht hr (by rw [hphase]; exact id)
      (fun q => .packets (outbox cfg (s.rank r) q)) (fun q p hp => hp) _ _ _ rfl rfl rfl
      (fun q => by simp [outbox])
  | kill r hr hphase =>
    exact W.begin L I P hd ht hr (by rw [hphase]; exact id) _ (fun q p hp => by simp [Msg.list] at hp)
      _ _ _ rfl rfl rfl (fun q => P.empty r hr (by rw [hphase]; exact id) q)
  | recv r q kill p1 p2 got m ms hr hphase hchan hcap =>
    have hpe : (s.rank r).phase.pending = p1 ++ q :: p2 := by rw [hphase]; rfl
    obtain ⟨hqadj, hqdark, hqrec⟩ := P.pend r hr q (by rw [hpe]; simp)
    refine ⟨?_, ?_, ?_, ?_⟩
    · intro q' r' p hp
      dsimp only at hp ⊢
      by_cases h : q' = r
      · subst h; rw [setAt_same] at hp ⊢; exact W.out q' r' p hp
      · rw [setAt_ne _ _ h] at hp ⊢; exact W.out q' r' p hp
    · intro q' r' n m' hm p hp
      dsimp only at hm ⊢
      by_cases h : q' = q ∧ r' = r
      · obtain ⟨rfl, rfl⟩ := h
        rw [setAt_same, setAt_same] at hm
        rw [setAt_same]
        dsimp only
        rw [setAt_same]
        have := W.chan q' r' (n + 1) m' (by rw [hchan]; simpa using hm) p hp
        have e : (s.rank r').recvd q' + 1 + n + 1 = (s.rank r').recvd q' + (n + 1) + 1 := by omega
        rw [e]
        exact this
      · have h1 : setAt s.chan q (setAt (s.chan q) r ms) q' r' = s.chan q' r' := by
          by_cases hq' : q' = q
          · subst hq'
            rw [setAt_same, setAt_ne _ _ (fun h2 => h ⟨rfl, h2⟩)]
          · rw [setAt_ne _ _ hq']
        rw [h1] at hm
        have h2 : (setAt s.rank r ({ s.rank r with
            phase := .exchanging kill (p1 ++ p2) (got ++ m.list.map fun p => (q, p))
            dark := darken (s.rank r).dark q m
            recvd := setAt (s.rank r).recvd q ((s.rank r).recvd q + 1) } : RankState D B) r').recvd q' =
            (s.rank r').recvd q' := by
          by_cases hr' : r' = r
          · subst hr'
            rw [setAt_same]
            dsimp only
            rw [setAt_ne _ _ (fun h3 => h ⟨h3, rfl⟩)]
          · rw [setAt_ne _ _ hr']
        have h3 := W.chan q' r' n m' hm p hp
        rw [← h2] at h3
        exact h3
    · intro q' r' p hp
      dsimp only at hp ⊢
      by_cases h : r' = r
      · subst h
        rw [setAt_same] at hp ⊢
        dsimp only [gotFrom] at hp ⊢
        rw [List.filter_append, List.map_append, List.mem_append] at hp
        rcases hp with hp | hp
        · exact W.got q' r' p (by rw [hphase]; exact hp)
        · simp only [List.mem_map, List.mem_filter, decide_eq_true_eq] at hp
          obtain ⟨p', ⟨⟨p'', hp1, rfl⟩, hp2⟩, rfl⟩ := hp
          simp only [] at hp2
          subst hp2
          have := W.chan q r' 0 m (by rw [hchan]; rfl) p'' hp1
          rw [Nat.add_zero, hqrec] at this
          exact this
      · rw [setAt_ne _ _ h] at hp ⊢; exact W.got q' r' p hp
    · intro r' q'
      dsimp only
      by_cases h : r' = r
      · subst h
        rw [setAt_same]
        dsimp only
        by_cases hq' : q' = q
        · subst hq'; rw [setAt_same]; omega
        · rw [setAt_ne _ _ hq']; exact W.recvd r' q'
      · rw [setAt_ne _ _ h]; exact W.recvd r' q'
  | miss r q kill ps got hr hphase hcap hsends => rw [ht] at hcap; simp at hcap
  | unpack r got hr hphase hsends =>
    refine ⟨?_, ?_, ?_, ?_⟩
    · intro q r' p hp
      dsimp only at hp ⊢
      by_cases h : q = r
      · subst h
        unfold outbox at hp
        rw [setAt_same, unpackAll_sendBuf] at hp
        rw [setAt_same, unpackAll_round]
        exact (W.out q r' p hp).append
      · rw [setAt_ne _ _ h] at hp ⊢; exact (W.out q r' p hp).append
    · intro q r' n m hm p hp
      dsimp only at hm ⊢
      have : (setAt s.rank r (unpackAll cfg r got (s.rank r)) r').recvd = (s.rank r').recvd := by
        by_cases h : r' = r
        · subst h; rw [setAt_same]; exact unpackAll_recvd ..
        · rw [setAt_ne _ _ h]
      rw [this]
      exact (W.chan q r' n m hm p hp).append
    · intro q r' p hp
      dsimp only at hp ⊢
      by_cases h : r' = r
      · subst h; rw [setAt_same, unpackAll_phase, gotFrom_loopTest L I] at hp; simp at hp
      · rw [setAt_ne _ _ h] at hp ⊢; exact (W.got q r' p hp).append
    · intro r' q
      dsimp only
      by_cases h : r' = r
      · subst h; rw [setAt_same, unpackAll_round, unpackAll_recvd]; exact W.recvd r' q
      · rw [setAt_ne _ _ h]; exact W.recvd r' q
  | close r got hr hphase hsends =>
    refine ⟨?_, ?_, ?_, ?_⟩
    · intro q r' p hp
      dsimp only at hp ⊢
      by_cases h : q = r
      · subst h; rw [setAt_same] at hp ⊢; exact W.out q r' p hp
      · rw [setAt_ne _ _ h] at hp ⊢; exact W.out q r' p hp
    · intro q r' n m hm p hp
      dsimp only at hm ⊢
      have : (setAt s.rank r { s.rank r with phase := .finished } r').recvd = (s.rank r').recvd := by
        by_cases h : r' = r
        · subst h; rw [setAt_same]
        · rw [setAt_ne _ _ h]
      rw [this]
      exact W.chan q r' n m hm p hp
    · intro q r' p hp
      dsimp only at hp ⊢
      by_cases h : r' = r
      · subst h; rw [setAt_same] at hp; simp [gotFrom] at hp
      · rw [setAt_ne _ _ h] at hp ⊢; exact W.got q r' p hp
    · intro r' q
      dsimp only
      by_cases h : r' = r
      · subst h; rw [setAt_same]; exact W.recvd r' q
      · rw [setAt_ne _ _ h]; exact W.recvd r' q

end

theorem Reachable.whr {cfg : Cfg D B} {mate : Loc → Option Loc} (L : Linked cfg mate) {s : State D B}
    (hd : cfg.doComm = true) (ht : cfg.protocol = .tycho) (h : Reachable cfg s) : Where cfg mate s := by
  induction h with
  | init => exact Where.start cfg mate
  | step h0 hs ih => exact Where.step L (h0.inv L) (h0.proto L hd ht) hd ht ih hs

end Verif.Traverse
