import Verif.Traverse.Lemmas4

set_option linter.unusedSectionVars false

namespace Verif.Traverse
open Classical List

variable {D B : Type}

/-! ### The two-sided protocol -/

/-- Ranks a message is still expected from. -/
def Phase.pending : Phase B → List Nat
  | .exchanging _ ps _ => ps
  | _ => []

/-- The kill message has been sent. -/
def Phase.killed : Phase B → Prop
  | .exchanging kill _ _ => kill = true
  | .finished => True
  | _ => False

def Phase.isComputing : Phase B → Prop
  | .computing _ => True
  | _ => False

structure Proto (cfg : Cfg D B) (s : State D B) : Prop where
  flow : ∀ q r, (s.rank q).sent r = (s.rank r).recvd q + (s.chan q r).length
  sent_eq : ∀ r < cfg.nRanks, ∀ q ∈ (cfg.mesh r).adjRanks, (s.rank r).dark q = false →
    (s.rank r).sent q = (s.rank r).round
  pend_nodup : ∀ r < cfg.nRanks, (s.rank r).phase.pending.Nodup
  pend : ∀ r < cfg.nRanks, ∀ q ∈ (s.rank r).phase.pending, q ∈ (cfg.mesh r).adjRanks ∧
    (s.rank r).dark q = false ∧ (s.rank r).recvd q + 1 = (s.rank r).round
  got_all : ∀ r < cfg.nRanks, ∀ q ∈ (cfg.mesh r).adjRanks, (s.rank r).dark q = false →
    q ∉ (s.rank r).phase.pending → (s.rank r).recvd q = (s.rank r).round
  dark : ∀ r q, (s.rank r).dark q = true → r < cfg.nRanks ∧ q ∈ (cfg.mesh r).adjRanks ∧
    (s.rank r).sent q = (s.rank r).recvd q ∧ s.chan q r = [] ∧ (s.rank q).phase.killed
  told : ∀ q < cfg.nRanks, ∀ r ∈ (cfg.mesh q).adjRanks, (s.rank q).phase.killed →
    (s.rank q).dark r = false → (s.rank r).dark q = true ∨ ∃ l, s.chan q r = l ++ [Msg.kill]
  last : ∀ q r l1 l2, s.chan q r = l1 ++ Msg.kill :: l2 → l2 = [] ∧ (s.rank q).phase.killed
  chans : ∀ q r, s.chan q r ≠ [] → q < cfg.nRanks ∧ r ∈ (cfg.mesh q).adjRanks
  empty : ∀ r < cfg.nRanks, ¬ (s.rank r).phase.isComputing → ∀ q, outbox cfg (s.rank r) q = []

section adj
variable {cfg : Cfg D B} {mate : Loc → Option Loc} (L : Linked cfg mate)
include L

theorem adj_iff {r q : Nat} (hr : r < cfg.nRanks) : q ∈ (cfg.mesh r).adjRanks ↔
    ∃ x y, cfg.In x ∧ x.rank = r ∧ mate x = some y ∧ y.rank = q ∧ q ≠ r := by
  rw [mem_adjRanks_iff]
  constructor
  · rintro ⟨c, hc, f, h1, h2⟩
    obtain ⟨y, hy, hyr, hyq⟩ := adjCell_none (x := ⟨r, c, f⟩) L ⟨hr, hc⟩ h1 h2
    exact ⟨⟨r, c, f⟩, y, ⟨hr, hc⟩, rfl, hy, hyq, by rw [← hyq]; exact hyr⟩
  · rintro ⟨x, y, hx, rfl, hm, rfl, hne⟩
    obtain ⟨h1, h2⟩ := L.far x y hx hm hne
    exact ⟨x.cell, hx.2, x.face, h1, h2⟩

theorem adj_lt {r q : Nat} (hr : r < cfg.nRanks) (h : q ∈ (cfg.mesh r).adjRanks) :
    q < cfg.nRanks ∧ r ∈ (cfg.mesh q).adjRanks ∧ q ≠ r := by
  obtain ⟨x, y, hx, rfl, hm, rfl, hne⟩ := (adj_iff L hr).1 h
  have hy := L.mate_in x y hx hm
  exact ⟨hy.1, (adj_iff L hy.1).2 ⟨y, x, hy, rfl, L.mate_symm x y hx hm, rfl, hne.symm⟩, hne⟩

end adj

theorem pending_loopTest (cfg : Cfg D B) (n : Nat) : (loopTest (B := B) cfg n).pending = [] := by
  unfold loopTest
  split
  · rfl
  · split <;> rfl

theorem killed_loopTest {cfg : Cfg D B} (hd : cfg.doComm = true) (ht : cfg.protocol = .tycho) (n : Nat) :
    ¬ (loopTest (B := B) cfg n).killed := by
  unfold loopTest
  split
  · exact id
  · rw [if_pos ⟨hd, ht⟩]; exact id

theorem Proto.start {cfg : Cfg D B} (hd : cfg.doComm = true) (ht : cfg.protocol = .tycho) :
    Proto cfg (initState cfg) := by
  have hp : ∀ r, (initRank cfg r).phase.pending = [] := fun r => pending_loopTest cfg _
  have hk : ∀ r, ¬ (initRank cfg r).phase.killed := fun r => killed_loopTest hd ht _
  refine ⟨?_, ?_, ?_, ?_, ?_, ?_, ?_, ?_, ?_, ?_⟩
  · intro q r; rfl
  · intro r _ q _ _; rfl
  · intro r _; simp only [initState]; rw [hp]; exact List.nodup_nil
  · intro r _ q hq; simp only [initState] at hq; rw [hp] at hq; simp at hq
  · intro r _ q _ _ _; rfl
  · intro r q h; simp [initState, initRank] at h
  · intro q _ r _ h; exact absurd h (hk q)
  · intro q r l1 l2 h; simp [initState] at h
  · intro q r h; simp [initState] at h
  · intro r _ _ q; simp [initState, outbox, initRank]

section steps
variable {cfg : Cfg D B} {mate : Loc → Option Loc} (L : Linked cfg mate) {s : State D B}
  (I : Inv cfg mate s) (P : Proto cfg s) (hd : cfg.doComm = true) (ht : cfg.protocol = .tycho)
include L I P hd ht

theorem Proto.compute {r g : Nat} {steps : Nat → Nat} {l1 l2 : List Tuple} {t : Tuple}
    (hphase : (s.rank r).phase = .computing steps) (steps' : Nat → Nat) (log : List (Event B)) :
    Proto cfg { s with
      rank := setAt s.rank r { computeOne cfg r g t (l1 ++ l2) (s.rank r) with
        phase := .computing steps' }
      log := log } := by
  have hsplit : ∀ (F : RankState D B → Prop) r', F (s.rank r') → (r' = r →
      F { computeOne cfg r g t (l1 ++ l2) (s.rank r) with phase := .computing steps' }) →
      F (setAt s.rank r { computeOne cfg r g t (l1 ++ l2) (s.rank r) with
        phase := .computing steps' } r') := by
    intro F r' h1 h2
    by_cases h : r' = r
    · subst h; rw [setAt_same]; exact h2 rfl
    · rw [setAt_ne _ _ h]; exact h1
  have hsent : ∀ r', (setAt s.rank r { computeOne cfg r g t (l1 ++ l2) (s.rank r) with
        phase := .computing steps' } r').sent = (s.rank r').sent := fun r' =>
    hsplit (fun x => x.sent = (s.rank r').sent) r' rfl (fun h => by subst h; exact computeOne_sent ..)
  have hrecvd : ∀ r', (setAt s.rank r { computeOne cfg r g t (l1 ++ l2) (s.rank r) with
        phase := .computing steps' } r').recvd = (s.rank r').recvd := fun r' =>
    hsplit (fun x => x.recvd = (s.rank r').recvd) r' rfl (fun h => by subst h; exact computeOne_recvd ..)
  have hdark : ∀ r', (setAt s.rank r { computeOne cfg r g t (l1 ++ l2) (s.rank r) with
        phase := .computing steps' } r').dark = (s.rank r').dark := fun r' =>
    hsplit (fun x => x.dark = (s.rank r').dark) r' rfl (fun h => by subst h; exact computeOne_dark ..)
  have hround : ∀ r', (setAt s.rank r { computeOne cfg r g t (l1 ++ l2) (s.rank r) with
        phase := .computing steps' } r').round = (s.rank r').round := fun r' =>
    hsplit (fun x => x.round = (s.rank r').round) r' rfl (fun h => by subst h; exact computeOne_round ..)
  have hpend : ∀ r', (setAt s.rank r { computeOne cfg r g t (l1 ++ l2) (s.rank r) with
        phase := .computing steps' } r').phase.pending = (s.rank r').phase.pending := fun r' =>
    hsplit (fun x => x.phase.pending = (s.rank r').phase.pending) r' rfl
      (fun h => by subst h; rw [hphase]; rfl)
  have hkilled : ∀ r', (setAt s.rank r { computeOne cfg r g t (l1 ++ l2) (s.rank r) with
        phase := .computing steps' } r').phase.killed = (s.rank r').phase.killed := fun r' =>
    hsplit (fun x => x.phase.killed = (s.rank r').phase.killed) r' rfl
      (fun h => by subst h; rw [hphase]; rfl)
  refine ⟨?_, ?_, ?_, ?_, ?_, ?_, ?_, ?_, P.chans, ?_⟩
  · intro q r'; dsimp only; rw [hsent, hrecvd]; exact P.flow q r'
  · intro r' hr' q hq; dsimp only; rw [hsent, hround, hdark]; exact P.sent_eq r' hr' q hq
  · intro r' hr'; dsimp only; rw [hpend]; exact P.pend_nodup r' hr'
  · intro r' hr' q; dsimp only; rw [hpend, hdark, hrecvd, hround]; exact P.pend r' hr' q
  · intro r' hr' q hq; dsimp only; rw [hpend, hdark, hrecvd, hround]; exact P.got_all r' hr' q hq
  · intro r' q; dsimp only; rw [hdark, hsent, hrecvd, hkilled]; exact P.dark r' q
  · intro q hq r' hr'; dsimp only; rw [hkilled, hdark, hdark]; exact P.told q hq r' hr'
  · intro q r' k1 k2; dsimp only; rw [hkilled]; exact P.last q r' k1 k2
  · intro r' hr' hc q
    dsimp only at hc ⊢
    by_cases h : r' = r
    · subst h; rw [setAt_same] at hc; exact absurd trivial hc
    · rw [setAt_ne _ _ h] at hc ⊢; exact P.empty r' hr' hc q

theorem targets_tycho (r : Nat) (st : RankState D B) :
    targets cfg r st = (cfg.mesh r).adjRanks.filter fun q => !st.dark q := by
  unfold targets; rw [ht]
theorem sources_tycho (r : Nat) (st : RankState D B) :
    sources cfg r st = (cfg.mesh r).adjRanks.filter fun q => !st.dark q := by
  unfold sources; rw [ht]

/-- Beginning an exchange, with data or with the kill message. -/
theorem Proto.begin {r : Nat} (hr : r < cfg.nRanks)
    (hpend : (s.rank r).phase.pending = []) (hnk : ¬ (s.rank r).phase.killed)
    (kill : Bool) (msg : Nat → Msg B) (hmsg : ∀ q, msg q = Msg.kill ↔ kill = true)
    (X : RankState D B) (hXp : X.phase = .exchanging kill (sources cfg r (s.rank r)) [])
    (hXd : X.dark = (s.rank r).dark) (hXr : X.recvd = (s.rank r).recvd)
    (hXo : X.round = (s.rank r).round + 1)
    (hXs : X.sent = fun q => if q ∈ targets cfg r (s.rank r) then (s.rank r).sent q + 1
      else (s.rank r).sent q)
    (hsb : ∀ q, outbox cfg X q = []) :
    Proto cfg
        { s with
          rank := setAt s.rank r X
          chan := post s.chan r (targets cfg r (s.rank r)) msg } := by
  rw [sources_tycho L I P hd ht] at hXp
  rw [targets_tycho L I P hd ht] at hXs ⊢
  have hnodark : ∀ r', (s.rank r').dark r = false := by
    intro r'
    by_contra h
    exact hnk (P.dark r' r (by simpa using h)).2.2.2.2
  have hnokill : ∀ q l1 l2, s.chan r q ≠ l1 ++ Msg.kill :: l2 := by
    intro q l1 l2 h
    exact hnk (P.last r q l1 l2 h).2
  have hrr : r ∉ (cfg.mesh r).adjRanks := fun h => (adj_lt L hr h).2.2 rfl
  refine ⟨?_, ?_, ?_, ?_, ?_, ?_, ?_, ?_, ?_, ?_⟩
  · intro q r'
    have h0 := P.flow q r'
    dsimp only [post]
    have hrec : (setAt s.rank r X r').recvd = (s.rank r').recvd := by
      by_cases h : r' = r
      · subst h; rw [setAt_same, hXr]
      · rw [setAt_ne _ _ h]
    rw [hrec]
    by_cases h : q = r
    · subst h
      rw [setAt_same, setAt_same, hXs]
      dsimp only
      split
      · rw [List.length_append]; simp; omega
      · exact h0
    · rw [setAt_ne _ _ h, setAt_ne _ _ h]; exact h0
  · intro r' hr' q hq hdk
    dsimp only at hdk ⊢
    by_cases h : r' = r
    · subst h
      rw [setAt_same] at hdk ⊢
      rw [hXd] at hdk
      rw [hXs, hXo]
      dsimp only
      rw [if_pos (by rw [List.mem_filter]; exact ⟨hq, by simp [hdk]⟩), P.sent_eq r' hr' q hq hdk]
    · rw [setAt_ne _ _ h] at hdk ⊢
      exact P.sent_eq r' hr' q hq hdk
  · intro r' hr'
    dsimp only
    by_cases h : r' = r
    · subst h
      rw [setAt_same, hXp]
      exact (nodup_adjRanks _).filter _
    · rw [setAt_ne _ _ h]; exact P.pend_nodup r' hr'
  · intro r' hr' q hq
    dsimp only at hq ⊢
    by_cases h : r' = r
    · subst h
      rw [setAt_same] at hq ⊢
      rw [hXp] at hq
      rw [hXd, hXr, hXo]
      dsimp only [Phase.pending] at hq ⊢
      rw [List.mem_filter] at hq
      have hdk : (s.rank r').dark q = false := by simpa using hq.2
      refine ⟨hq.1, hdk, ?_⟩
      rw [P.got_all r' hr q hq.1 hdk (by rw [hpend]; simp)]
    · rw [setAt_ne _ _ h] at hq ⊢; exact P.pend r' hr' q hq
  · intro r' hr' q hq hdk hnp
    dsimp only at hdk hnp ⊢
    by_cases h : r' = r
    · subst h
      rw [setAt_same] at hdk hnp
      rw [hXd] at hdk
      rw [hXp] at hnp
      dsimp only [Phase.pending] at hnp
      exact absurd (by rw [List.mem_filter]; exact ⟨hq, by simp [hdk]⟩) hnp
    · rw [setAt_ne _ _ h] at hdk hnp ⊢; exact P.got_all r' hr' q hq hdk hnp
  · intro r' q hdk
    dsimp only [post] at hdk ⊢
    have hold : (s.rank r').dark q = true := by
      by_cases h : r' = r
      · subst h; rw [setAt_same, hXd] at hdk; exact hdk
      · rw [setAt_ne _ _ h] at hdk; exact hdk
    obtain ⟨h1, h2, h3, h4, h5⟩ := P.dark r' q hold
    have hqr : q ≠ r := by rintro rfl; exact hnk h5
    refine ⟨h1, h2, ?_, ?_, ?_⟩
    · by_cases h : r' = r
      · subst h
        rw [setAt_same, hXs, hXr]
        dsimp only
        rw [if_neg (by rw [List.mem_filter]; simp [hold]), h3]
      · rw [setAt_ne _ _ h]; exact h3
    · rw [setAt_ne _ _ hqr]; exact h4
    · rw [setAt_ne _ _ hqr]; exact h5
  · intro q hq r' hr' hk hdk
    dsimp only [post] at hk hdk ⊢
    have hdk' : ∀ a b, (setAt s.rank r X a).dark b = (s.rank a).dark b := by
      intro a b
      by_cases h : a = r
      · subst h; rw [setAt_same, hXd]
      · rw [setAt_ne _ _ h]
    rw [hdk'] at hdk ⊢
    by_cases h : q = r
    · subst h
      right
      rw [setAt_same]
      rw [setAt_same, hXp] at hk
      dsimp only [Phase.killed] at hk
      rw [if_pos (by rw [List.mem_filter]; exact ⟨hr', by simp [hdk]⟩)]
      exact ⟨s.chan q r', by rw [(hmsg r').2 hk]⟩
    · rw [setAt_ne _ _ h] at hk ⊢
      exact P.told q hq r' hr' hk hdk
  · intro q r' k1 k2 heq
    dsimp only [post] at heq ⊢
    by_cases h : q = r
    · subst h
      rw [setAt_same] at heq ⊢
      split at heq
      · rcases List.eq_nil_or_concat k2 with rfl | ⟨k3, e, rfl⟩
        · refine ⟨rfl, ?_⟩
          have := List.append_inj_right' heq rfl
          simp at this
          rw [hXp]
          exact (hmsg r').1 this
        · exfalso
          rw [List.concat_eq_append, ← List.cons_append, ← List.append_assoc] at heq
          exact hnokill r' k1 k3 (List.append_inj_left' heq rfl)
      · exact absurd heq (hnokill r' k1 k2)
    · rw [setAt_ne _ _ h] at heq ⊢
      exact P.last q r' k1 k2 heq
  · intro q r' hne
    dsimp only [post] at hne
    by_cases h : q = r
    · subst h
      rw [setAt_same] at hne
      split at hne
      · rename_i hmem
        rw [List.mem_filter] at hmem
        exact ⟨hr, hmem.1⟩
      · exact P.chans q r' hne
    · rw [setAt_ne _ _ h] at hne; exact P.chans q r' hne
  · intro r' hr' hc q
    dsimp only at hc ⊢
    by_cases h : r' = r
    · subst h; rw [setAt_same]; exact hsb q
    · rw [setAt_ne _ _ h] at hc ⊢; exact P.empty r' hr' hc q

theorem Proto.recv {r q : Nat} {kill : Bool} {p1 p2 : List Nat} {got : List (Nat × Packet B)}
    {m : Msg B} {ms : List (Msg B)} (hr : r < cfg.nRanks)
    (hphase : (s.rank r).phase = .exchanging kill (p1 ++ q :: p2) got)
    (hchan : s.chan q r = m :: ms) (got' : List (Nat × Packet B))
    (X : RankState D B) (hXp : X.phase = .exchanging kill (p1 ++ p2) got')
    (hXd : X.dark = darken (s.rank r).dark q m)
    (hXr : X.recvd = setAt (s.rank r).recvd q ((s.rank r).recvd q + 1))
    (hXo : X.round = (s.rank r).round) (hXs : X.sent = (s.rank r).sent)
    (hXb : X.sendBuf = (s.rank r).sendBuf) :
    Proto cfg
        { s with
          rank := setAt s.rank r X
          chan := setAt s.chan q (setAt (s.chan q) r ms) } := by
  have hpe : (s.rank r).phase.pending = p1 ++ q :: p2 := by rw [hphase]; rfl
  obtain ⟨hqadj, hqdark, hqrec⟩ := P.pend r hr q (by rw [hpe]; simp)
  have hnd := P.pend_nodup r hr
  rw [hpe] at hnd
  have hq1 : q ∉ p1 ++ p2 := by
    intro h
    rw [List.nodup_middle] at hnd
    exact (List.nodup_cons.1 hnd).1 h
  obtain ⟨hqlt, hradj, hqr⟩ := adj_lt L hr hqadj
  -- dark afterwards
  have hdk : ∀ a b, (setAt s.rank r X a).dark b = true ↔
      ((s.rank a).dark b = true ∨ (a = r ∧ b = q ∧ m = Msg.kill)) := by
    intro a b
    by_cases h : a = r
    · subst h
      rw [setAt_same, hXd]
      cases m with
      | packets _ => simp [darken]
      | kill =>
        dsimp only [darken]
        by_cases h2 : b = q
        · subst h2; rw [setAt_same]; simp
        · rw [setAt_ne _ _ h2]; simp [h2]
    · rw [setAt_ne _ _ h]; simp [h]
  have hrec : ∀ a b, (setAt s.rank r X a).recvd b =
      if a = r ∧ b = q then (s.rank r).recvd q + 1 else (s.rank a).recvd b := by
    intro a b
    by_cases h : a = r
    · subst h
      rw [setAt_same, hXr]
      by_cases h2 : b = q
      · subst h2; rw [setAt_same]; simp
      · rw [setAt_ne _ _ h2]; simp [h2]
    · rw [setAt_ne _ _ h]; simp [h]
  have hround : ∀ a, (setAt s.rank r X a).round =
      (s.rank a).round := by
    intro a
    by_cases h : a = r
    · subst h; rw [setAt_same, hXo]
    · rw [setAt_ne _ _ h]
  have hsent : ∀ a, (setAt s.rank r X a).sent =
      (s.rank a).sent := by
    intro a
    by_cases h : a = r
    · subst h; rw [setAt_same, hXs]
    · rw [setAt_ne _ _ h]
  have hkl : ∀ a, (setAt s.rank r X a).phase.killed =
      (s.rank a).phase.killed := by
    intro a
    by_cases h : a = r
    · subst h; rw [setAt_same, hphase, hXp]; rfl
    · rw [setAt_ne _ _ h]
  have hch : ∀ a b, setAt s.chan q (setAt (s.chan q) r ms) a b =
      if a = q ∧ b = r then ms else s.chan a b := by
    intro a b
    by_cases h : a = q
    · subst h
      rw [setAt_same]
      by_cases h2 : b = r
      · subst h2; rw [setAt_same]; simp
      · rw [setAt_ne _ _ h2]; simp [h2]
    · rw [setAt_ne _ _ h]; simp [h]
  have hdkf : ∀ a b, (setAt s.rank r X a).dark b = false →
      (s.rank a).dark b = false := by
    intro a b h
    by_contra h2
    have := (hdk a b).2 (Or.inl (by simpa using h2))
    rw [h] at this
    simp at this
  refine ⟨?_, ?_, ?_, ?_, ?_, ?_, ?_, ?_, ?_, ?_⟩
  · intro a b
    dsimp only
    rw [hsent, hrec, hch]
    have h0 := P.flow a b
    by_cases h : a = q ∧ b = r
    · obtain ⟨rfl, rfl⟩ := h
      rw [if_pos ⟨rfl, rfl⟩, if_pos ⟨rfl, rfl⟩]
      rw [hchan] at h0
      simp at h0
      omega
    · rw [if_neg h, if_neg (fun h2 => h ⟨h2.2, h2.1⟩)]
      exact h0
  · intro a ha b hb h
    dsimp only at h ⊢
    rw [hsent, hround]
    exact P.sent_eq a ha b hb (hdkf a b h)
  · intro a ha
    dsimp only
    by_cases h : a = r
    · subst h
      rw [setAt_same, hXp]
      dsimp only [Phase.pending]
      rw [List.nodup_middle] at hnd
      exact (List.nodup_cons.1 hnd).2
    · rw [setAt_ne _ _ h]; exact P.pend_nodup a ha
  · intro a ha b hb
    dsimp only at hb ⊢
    rw [hrec, hround]
    by_cases h : a = r
    · subst h
      rw [setAt_same, hXp] at hb
      dsimp only [Phase.pending] at hb
      have hbq : b ≠ q := by rintro rfl; exact hq1 hb
      obtain ⟨h1, h2, h3⟩ := P.pend a hr b (by rw [hpe]; simp at hb ⊢; tauto)
      refine ⟨h1, ?_, ?_⟩
      · by_contra h4
        rcases (hdk a b).1 (by simpa using h4) with h5 | ⟨-, h5, -⟩
        · rw [h2] at h5; simp at h5
        · exact hbq h5
      · rw [if_neg (fun h4 => hbq h4.2)]; exact h3
    · rw [setAt_ne _ _ h] at hb ⊢
      rw [if_neg (fun h4 => h h4.1)]
      exact P.pend a ha b hb
  · intro a ha b hb h1 h2
    dsimp only at h1 h2 ⊢
    rw [hrec, hround]
    have h3 := hdkf a b h1
    by_cases h : a = r
    · subst h
      rw [setAt_same, hXp] at h2
      dsimp only [Phase.pending] at h2
      by_cases hbq : b = q
      · subst hbq
        rw [if_pos ⟨rfl, rfl⟩]; exact hqrec
      · rw [if_neg (fun h4 => hbq h4.2)]
        refine P.got_all a ha b hb h3 ?_
        rw [hpe]
        simp at h2 ⊢
        tauto
    · rw [setAt_ne _ _ h] at h2
      rw [if_neg (fun h4 => h h4.1)]
      exact P.got_all a ha b hb h3 h2
  · intro a b h
    dsimp only at h ⊢
    rw [hsent, hrec, hch, hkl]
    rcases (hdk a b).1 h with h1 | ⟨rfl, rfl, rfl⟩
    · obtain ⟨e1, e2, e3, e4, e5⟩ := P.dark a b h1
      refine ⟨e1, e2, ?_, ?_, e5⟩
      · rw [if_neg]; exact e3
        rintro ⟨rfl, rfl⟩
        rw [hqdark] at h1; simp at h1
      · rw [if_neg]; exact e4
        rintro ⟨rfl, rfl⟩
        rw [hqdark] at h1; simp at h1
    · have := P.last b a [] ms (by rw [hchan]; rfl)
      refine ⟨hr, hqadj, ?_, ?_, this.2⟩
      · rw [if_pos ⟨rfl, rfl⟩, P.sent_eq a hr b hqadj hqdark, hqrec]
      · rw [if_pos ⟨rfl, rfl⟩]; exact this.1
  · intro a ha b hb h1 h2
    dsimp only at h1 h2 ⊢
    rw [hkl] at h1
    rw [hdk, hch]
    rcases P.told a ha b hb h1 (hdkf a b h2) with h3 | ⟨l, h3⟩
    · exact Or.inl (Or.inl h3)
    · by_cases h : a = q ∧ b = r
      · obtain ⟨rfl, rfl⟩ := h
        rw [if_pos ⟨rfl, rfl⟩]
        rw [hchan] at h3
        cases l with
        | nil =>
          simp at h3
          exact Or.inl (Or.inr ⟨rfl, rfl, h3.1⟩)
        | cons m' l =>
          simp at h3
          exact Or.inr ⟨l, h3.2⟩
      · rw [if_neg h]
        exact Or.inr ⟨l, h3⟩
  · intro a b k1 k2 h
    dsimp only at h ⊢
    rw [hch] at h
    rw [hkl]
    by_cases h' : a = q ∧ b = r
    · obtain ⟨rfl, rfl⟩ := h'
      rw [if_pos ⟨rfl, rfl⟩] at h
      exact P.last a b (m :: k1) k2 (by rw [hchan, h]; rfl)
    · rw [if_neg h'] at h
      exact P.last a b k1 k2 h
  · intro a b h
    dsimp only at h
    rw [hch] at h
    by_cases h' : a = q ∧ b = r
    · obtain ⟨rfl, rfl⟩ := h'
      exact P.chans a b (by rw [hchan]; simp)
    · rw [if_neg h'] at h
      exact P.chans a b h
  · intro a ha hc b
    dsimp only at hc ⊢
    by_cases h : a = r
    · subst h
      rw [setAt_same]
      unfold outbox
      rw [hXb]
      exact P.empty a ha (by rw [hphase]; exact id) b
    · rw [setAt_ne _ _ h] at hc ⊢; exact P.empty a ha hc b

/-- Steps that leave all protocol variables alone. -/
theorem Proto.mono {s' : State D B} (hchan : s'.chan = s.chan)
    (hsent : ∀ r, (s'.rank r).sent = (s.rank r).sent)
    (hrecvd : ∀ r, (s'.rank r).recvd = (s.rank r).recvd)
    (hdark : ∀ r, (s'.rank r).dark = (s.rank r).dark)
    (hround : ∀ r, (s'.rank r).round = (s.rank r).round)
    (hpend : ∀ r, (s'.rank r).phase.pending = (s.rank r).phase.pending)
    (hkilled : ∀ r, (s'.rank r).phase.killed ↔ (s.rank r).phase.killed)
    (hempty : ∀ r < cfg.nRanks, ¬ (s'.rank r).phase.isComputing → ∀ q, outbox cfg (s'.rank r) q = []) :
    Proto cfg s' := by
  refine ⟨?_, ?_, ?_, ?_, ?_, ?_, ?_, ?_, ?_, hempty⟩
  · intro q r'; rw [hsent, hrecvd, hchan]; exact P.flow q r'
  · intro r' hr' q hq; rw [hsent, hround, hdark]; exact P.sent_eq r' hr' q hq
  · intro r' hr'; rw [hpend]; exact P.pend_nodup r' hr'
  · intro r' hr' q; rw [hpend, hdark, hrecvd, hround]; exact P.pend r' hr' q
  · intro r' hr' q hq; rw [hpend, hdark, hrecvd, hround]; exact P.got_all r' hr' q hq
  · intro r' q; rw [hdark, hsent, hrecvd, hkilled, hchan]; exact P.dark r' q
  · intro q hq r' hr'; rw [hkilled, hdark, hdark, hchan]; exact P.told q hq r' hr'
  · intro q r' k1 k2; rw [hkilled, hchan]; exact P.last q r' k1 k2
  · intro q r'; rw [hchan]; exact P.chans q r'

theorem Proto.unpack {r : Nat} {got : List (Nat × Packet B)}
    (hphase : (s.rank r).phase = .exchanging false [] got)
    (log : List (Event B)) :
    Proto cfg
        { s with
          rank := setAt s.rank r (unpackAll cfg r got (s.rank r))
          log := log } := by
  have hsplit : ∀ (F : RankState D B → Prop) r', F (s.rank r') → (r' = r →
      F (unpackAll cfg r got (s.rank r))) →
      F (setAt s.rank r (unpackAll cfg r got (s.rank r)) r') := by
    intro F r' h1 h2
    by_cases h : r' = r
    · subst h; rw [setAt_same]; exact h2 rfl
    · rw [setAt_ne _ _ h]; exact h1
  apply P.mono L I hd ht
  · rfl
  · exact fun r' => hsplit (fun x => x.sent = (s.rank r').sent) r' rfl
      (fun h => by subst h; exact foldl_unpack_inv cfg r' RankState.sent (unpackOne_sent cfg r') _ _)
  · exact fun r' => hsplit (fun x => x.recvd = (s.rank r').recvd) r' rfl
      (fun h => by subst h; exact foldl_unpack_inv cfg r' RankState.recvd (unpackOne_recvd cfg r') _ _)
  · exact fun r' => hsplit (fun x => x.dark = (s.rank r').dark) r' rfl
      (fun h => by subst h; exact foldl_unpack_inv cfg r' RankState.dark (unpackOne_dark cfg r') _ _)
  · exact fun r' => hsplit (fun x => x.round = (s.rank r').round) r' rfl
      (fun h => by subst h; exact foldl_unpack_inv cfg r' RankState.round (unpackOne_round cfg r') _ _)
  · exact fun r' => hsplit (fun x => x.phase.pending = (s.rank r').phase.pending) r' rfl
      (fun h => by subst h; rw [hphase]; exact pending_loopTest _ _)
  · exact fun r' => hsplit (fun x => x.phase.killed ↔ (s.rank r').phase.killed) r' Iff.rfl
      (fun h => by
        subst h; rw [hphase]
        constructor
        · intro h; exact absurd h (killed_loopTest hd ht _)
        · intro h; simp [Phase.killed] at h)
  · intro r' hr' hc q
    dsimp only at hc ⊢
    by_cases h : r' = r
    · subst h
      rw [setAt_same]
      unfold outbox unpackAll
      dsimp only
      have hfs : ((got.map Prod.snd).foldl (unpackOne cfg r') (s.rank r')).sendBuf = (s.rank r').sendBuf :=
        foldl_unpack_inv cfg r' RankState.sendBuf (unpackOne_sendBuf cfg r') _ _
      rw [hfs]
      exact P.empty r' hr' (by rw [hphase]; exact id) q
    · rw [setAt_ne _ _ h] at hc ⊢; exact P.empty r' hr' hc q

theorem Proto.close {r : Nat} {got : List (Nat × Packet B)}
    (hphase : (s.rank r).phase = .exchanging true [] got) :
    Proto cfg { s with rank := setAt s.rank r { s.rank r with phase := .finished } } := by
  have hsplit : ∀ (F : RankState D B → Prop) r', F (s.rank r') → (r' = r →
      F { s.rank r with phase := .finished }) →
      F (setAt s.rank r { s.rank r with phase := .finished } r') := by
    intro F r' h1 h2
    by_cases h : r' = r
    · subst h; rw [setAt_same]; exact h2 rfl
    · rw [setAt_ne _ _ h]; exact h1
  apply P.mono L I hd ht
  · rfl
  · exact fun r' => hsplit (fun x => x.sent = (s.rank r').sent) r' rfl (fun h => by rw [h])
  · exact fun r' => hsplit (fun x => x.recvd = (s.rank r').recvd) r' rfl (fun h => by rw [h])
  · exact fun r' => hsplit (fun x => x.dark = (s.rank r').dark) r' rfl (fun h => by rw [h])
  · exact fun r' => hsplit (fun x => x.round = (s.rank r').round) r' rfl (fun h => by rw [h])
  · exact fun r' => hsplit (fun x => x.phase.pending = (s.rank r').phase.pending) r' rfl
      (fun h => by subst h; rw [hphase]; rfl)
  · exact fun r' => hsplit (fun x => x.phase.killed ↔ (s.rank r').phase.killed) r' Iff.rfl
      (fun h => by subst h; rw [hphase]; simp [Phase.killed])
  · intro r' hr' hc q
    dsimp only at hc ⊢
    by_cases h : r' = r
    · subst h
      rw [setAt_same]
      exact P.empty r' hr' (by rw [hphase]; exact id) q
    · rw [setAt_ne _ _ h] at hc ⊢; exact P.empty r' hr' hc q

theorem Proto.step {s' : State D B} (h : Step cfg s s') : Proto cfg s' := by
  cases h with
  | compute r g steps l1 l2 t hr hg hphase hq htop hsteps => exact P.compute L I hd ht hphase _ _
  | skip r steps hr hphase hdone hcomm => rw [hd] at hcomm; simp at hcomm
  | send r steps hr hphase hdone hcomm =>
    exact P.begin L I hd ht hr (by rw [hphase]; rfl) (by rw [hphase]; exact id) false _
      (fun q => by simp) _ rfl rfl rfl rfl rfl (fun q => by simp [outbox])
  | kill r hr hphase =>
    exact P.begin L I hd ht hr (by rw [hphase]; rfl) (by rw [hphase]; exact id) true _
      (fun q => by simp) _ rfl rfl rfl rfl rfl
      (fun q => P.empty r hr (by rw [hphase]; exact id) q)
  | recv r q kill p1 p2 got m ms hr hphase hchan hcap =>
    exact P.recv L I hd ht hr hphase hchan _ _ rfl rfl rfl rfl rfl rfl
  | miss r q kill ps got hr hphase hcap hsends => rw [ht] at hcap; simp at hcap
  | unpack r got hr hphase hsends => exact P.unpack L I hd ht hphase _
  | close r got hr hphase hsends => exact P.close L I hd ht hphase

end steps

theorem Reachable.proto {cfg : Cfg D B} {mate : Loc → Option Loc} (L : Linked cfg mate) {s : State D B}
    (hd : cfg.doComm = true) (ht : cfg.protocol = .tycho) (h : Reachable cfg s) : Proto cfg s := by
  induction h with
  | init => exact Proto.start hd ht
  | step h0 hs ih => exact Proto.step L (h0.inv L) ih hd ht hs

end Verif.Traverse
