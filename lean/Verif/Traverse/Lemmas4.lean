import Verif.Traverse.Lemmas3

set_option linter.unusedSectionVars false

namespace Verif.Traverse
open Classical List

variable {D B : Type}

theorem Inv.start {cfg : Cfg D B} {mate : Loc → Option Loc} (_ : Linked cfg mate) :
    Inv cfg mate (initState cfg) := by
  have hphase : ∀ r q, gotFrom (initRank cfg r).phase q = [] := by
    intro r q
    simp only [initRank, loopTest]
    split
    · rfl
    · split <;> rfl
  have ht : ∀ q r, transit cfg (initState cfg) q r = [] := by
    intro q r
    unfold transit
    simp only [initState, hphase, outbox]
    simp [initRank]
  refine ⟨?_, ?_, ?_, ?_, ?_, ?_, ?_, ?_, ?_⟩
  · intro r _
    refine (RI.start cfg r).congr ?_ ?_
    · intro c _ a _; simp [initState, Done]
    · intro c _ a _ f _; simp [initState, Arr, Done, Delivered]
  · intro r _; simp [initState, ucount, initRank]
  · intro r _; simp [initState, replay, initRank]
  · intro l1 e l2 h; simp [initState] at h
  · intro q r p hp; rw [ht] at hp; simp at hp
  · intro x y a _ _ _ _ _ _
    rw [ht]; simp [pcount, dcount, initState, Done]
  · intro r _ hov
    simp only [initState, initRank, loopTest] at hov ⊢
    split at hov
    · exact hov.elim
    · omega
  · intro q r h; simp [initState] at h
  · intro q r h; simp [initState, initRank] at h

section steps
variable {cfg : Cfg D B} {mate : Loc → Option Loc} (L : Linked cfg mate) {s : State D B}
  (I : Inv cfg mate s)
include L I

theorem Inv.mono {s' : State D B} (hlog : s'.log = s.log)
    (hnd : ∀ r, (s'.rank r).numDeps = (s.rank r).numDeps)
    (hq : ∀ r, (s'.rank r).queue = (s.rank r).queue)
    (hrem : ∀ r, (s'.rank r).remaining = (s.rank r).remaining)
    (hdata : ∀ r, (s'.rank r).data = (s.rank r).data)
    (htr : ∀ q r, transit cfg s' q r ~ transit cfg s q r)
    (hov : ∀ r < cfg.nRanks, (s'.rank r).phase.over → (s.rank r).remaining = 0)
    (hkill : ∀ q r, Msg.kill ∈ s'.chan q r → q < cfg.nRanks ∧ (s.rank q).remaining = 0)
    (hdark : ∀ q r, (s'.rank r).dark q = true → q < cfg.nRanks ∧ (s.rank q).remaining = 0) :
    Inv cfg mate s' := by
  refine ⟨?_, ?_, ?_, ?_, ?_, ?_, ?_, ?_, ?_⟩
  · intro r hr; rw [hlog, hnd, hq]; exact I.ri r hr
  · intro r hr; rw [hlog, hrem]; exact I.rem r hr
  · intro r hr; rw [hlog, hdata]; exact I.data r hr
  · rw [hlog]; exact I.ordered
  · intro q r p hp; rw [hlog]; exact I.good q r p ((htr q r).mem_iff.1 hp)
  · intro x y a h1 h2 h3 h4 h5 h6
    rw [hlog, pcount_perm (htr _ _)]
    exact I.count x y a h1 h2 h3 h4 h5 h6
  · intro r hr h; rw [hrem]; exact hov r hr h
  · intro q r h; rw [hrem]; exact hkill q r h
  · intro q r h; rw [hrem]; exact hdark q r h

theorem over_loopTest {n : Nat} (h : (loopTest (B := B) cfg n).over) : n = 0 := by
  unfold loopTest at h
  split at h
  · exact h.elim
  · omega

theorem gotFrom_loopTest (n q : Nat) : gotFrom (loopTest (B := B) cfg n) q = [] := by
  unfold loopTest
  split
  · rfl
  · split <;> rfl

theorem Inv.skip {r : Nat} (hr : r < cfg.nRanks) {steps : Nat → Nat}
    (hphase : (s.rank r).phase = .computing steps) (k : Nat) :
    Inv cfg mate { s with rank := setAt s.rank r { s.rank r with
            phase := loopTest cfg (s.rank r).remaining
            round := k } } := by
  have hsplit : ∀ (P : RankState D B → Prop) r', P (s.rank r') → (r' = r → P { s.rank r with
            phase := loopTest cfg (s.rank r).remaining
            round := k }) → P (setAt s.rank r { s.rank r with
            phase := loopTest cfg (s.rank r).remaining
            round := k } r') := by
    intro P r' h1 h2
    by_cases h : r' = r
    · subst h; rw [setAt_same]; exact h2 rfl
    · rw [setAt_ne _ _ h]; exact h1
  apply I.mono L
  · rfl
  · intro r'; exact hsplit (fun x => x.numDeps = (s.rank r').numDeps) r' rfl (fun h => by rw [h])
  · intro r'; exact hsplit (fun x => x.queue = (s.rank r').queue) r' rfl (fun h => by rw [h])
  · intro r'; exact hsplit (fun x => x.remaining = (s.rank r').remaining) r' rfl (fun h => by rw [h])
  · intro r'; exact hsplit (fun x => x.data = (s.rank r').data) r' rfl (fun h => by rw [h])
  · intro q r'
    unfold transit
    dsimp only
    have h1 := hsplit (fun x => outbox cfg x r' = outbox cfg (s.rank q) r') q rfl
      (fun h => by rw [h]; rfl)
    have h2 := hsplit (fun x => gotFrom x.phase q = gotFrom (s.rank r').phase q) r' rfl
      (fun h => by rw [h, hphase]; exact gotFrom_loopTest L I _ q)
    rw [h1, h2]
  · intro r' hr'
    exact hsplit (fun x => x.phase.over → (s.rank r').remaining = 0) r' (I.over r' hr')
      (fun h => by rw [h]; exact over_loopTest L I)
  · exact I.killed
  · intro q r'
    exact hsplit (fun x => x.dark q = true → q < cfg.nRanks ∧ (s.rank q).remaining = 0) r' (I.dark q r')
      (fun h => by rw [h] at *; exact I.dark q r)

/-- Whatever is in the outbox for a rank gets a message. -/
theorem Inv.outbox_targets {r q : Nat} (h : outbox cfg (s.rank r) q ≠ []) :
    q ∈ targets cfg r (s.rank r) := by
  obtain ⟨p, hp⟩ := List.exists_mem_of_ne_nil _ h
  have hpt : p ∈ transit cfg s r q := by unfold transit; simp [hp]
  obtain ⟨x, y, hx, hxr, hm, hy, hne, -⟩ := I.waited L hpt
  have hadj : q ∈ (cfg.mesh r).adjRanks := by
    rw [← hxr, ← hy]
    exact mem_adjRanks L hx hm (by rw [hy, hxr]; exact hne.symm)
  unfold targets
  cases cfg.protocol
  · dsimp only
    rw [List.mem_filter]
    refine ⟨hadj, ?_⟩
    simp only [Bool.not_eq_true']
    by_contra hd
    obtain ⟨h1, h2⟩ := I.dark q r (by simpa using hd)
    rw [I.transit_nil L h1 h2] at hpt
    simp at hpt
  · dsimp only
    rw [List.mem_filter]
    refine ⟨hadj, ?_⟩
    simpa using h

theorem Inv.send {r : Nat} (hr : r < cfg.nRanks) {steps : Nat → Nat}
    (hphase : (s.rank r).phase = .computing steps) (k : Nat) (ps : List Nat) (sent : Nat → Nat) :
    Inv cfg mate
        { s with
          rank := setAt s.rank r { s.rank r with
            phase := .exchanging false ps []
            sendBuf := fun _ _ => []
            round := k
            sent := sent }
          chan := post s.chan r (targets cfg r (s.rank r)) fun q => .packets (outbox cfg (s.rank r) q) } := by
  have hsplit : ∀ (P : RankState D B → Prop) r', (r' ≠ r → P (s.rank r')) → (r' = r → P { s.rank r with
            phase := .exchanging false ps []
            sendBuf := fun _ _ => []
            round := k
            sent := sent }) → P (setAt s.rank r { s.rank r with
            phase := .exchanging false ps []
            sendBuf := fun _ _ => []
            round := k
            sent := sent } r') := by
    intro P r' h1 h2
    by_cases h : r' = r
    · subst h; rw [setAt_same]; exact h2 rfl
    · rw [setAt_ne _ _ h]; exact h1 h
  apply I.mono L
  · rfl
  · intro r'; exact hsplit (fun x => x.numDeps = (s.rank r').numDeps) r' (fun _ => rfl) (fun h => by rw [h])
  · intro r'; exact hsplit (fun x => x.queue = (s.rank r').queue) r' (fun _ => rfl) (fun h => by rw [h])
  · intro r'; exact hsplit (fun x => x.remaining = (s.rank r').remaining) r' (fun _ => rfl) (fun h => by rw [h])
  · intro r'; exact hsplit (fun x => x.data = (s.rank r').data) r' (fun _ => rfl) (fun h => by rw [h])
  · intro q r'
    unfold transit
    dsimp only
    have h2 := hsplit (fun x => gotFrom x.phase q = gotFrom (s.rank r').phase q) r' (fun _ => rfl)
      (fun h => by rw [h, hphase]; rfl)
    rw [h2, ← List.append_assoc, ← List.append_assoc]
    apply List.Perm.append_right
    by_cases hq : q = r
    · subst hq
      rw [setAt_same]
      have hout : outbox cfg ({ s.rank q with
            phase := .exchanging false ps []
            sendBuf := fun _ _ => []
            round := k
            sent := sent } : RankState D B) r' = [] := by
        simp [outbox]
      rw [hout]
      unfold post
      rw [setAt_same]
      by_cases hmem : r' ∈ targets cfg q (s.rank q)
      · rw [if_pos hmem, List.flatMap_append]
        simp only [List.flatMap_cons, List.flatMap_nil, List.append_nil, List.nil_append]
        exact List.perm_append_comm
      · rw [if_neg hmem]
        have : outbox cfg (s.rank q) r' = [] := by
          by_contra h; exact hmem (I.outbox_targets L h)
        rw [this]
    · rw [setAt_ne _ _ hq]
      unfold post
      rw [setAt_ne _ _ hq]
  · intro r' hr'
    exact hsplit (fun x => x.phase.over → (s.rank r').remaining = 0) r' (fun _ => I.over r' hr')
      (fun h h1 => by simp [Phase.over] at h1)
  · intro q r' hk
    apply I.killed q r'
    dsimp only [post] at hk
    by_cases hq : q = r
    · subst hq
      rw [setAt_same] at hk
      split at hk
      · rw [List.mem_append] at hk
        rcases hk with hk | hk
        · exact hk
        · simp at hk
      · exact hk
    · rw [setAt_ne _ _ hq] at hk; exact hk
  · intro q r'
    exact hsplit (fun x => x.dark q = true → q < cfg.nRanks ∧ (s.rank q).remaining = 0) r'
      (fun _ => I.dark q r') (fun h => by rw [h] at *; exact I.dark q r)

theorem Inv.kill {r : Nat} (hr : r < cfg.nRanks)
    (hphase : (s.rank r).phase = .closing) (k : Nat) (ps qs : List Nat) (sent : Nat → Nat) :
    Inv cfg mate
        { s with
          rank := setAt s.rank r { s.rank r with
            phase := .exchanging true ps []
            round := k
            sent := sent }
          chan := post s.chan r qs fun _ => .kill } := by
  have h0 : (s.rank r).remaining = 0 := I.over r hr (by rw [hphase]; trivial)
  have hsplit : ∀ (P : RankState D B → Prop) r', (r' ≠ r → P (s.rank r')) → (r' = r → P { s.rank r with
            phase := .exchanging true ps []
            round := k
            sent := sent }) → P (setAt s.rank r { s.rank r with
            phase := .exchanging true ps []
            round := k
            sent := sent } r') := by
    intro P r' h1 h2
    by_cases h : r' = r
    · subst h; rw [setAt_same]; exact h2 rfl
    · rw [setAt_ne _ _ h]; exact h1 h
  apply I.mono L
  · rfl
  · intro r'; exact hsplit (fun x => x.numDeps = (s.rank r').numDeps) r' (fun _ => rfl) (fun h => by rw [h])
  · intro r'; exact hsplit (fun x => x.queue = (s.rank r').queue) r' (fun _ => rfl) (fun h => by rw [h])
  · intro r'; exact hsplit (fun x => x.remaining = (s.rank r').remaining) r' (fun _ => rfl) (fun h => by rw [h])
  · intro r'; exact hsplit (fun x => x.data = (s.rank r').data) r' (fun _ => rfl) (fun h => by rw [h])
  · intro q r'
    unfold transit
    dsimp only
    have h1 := hsplit (fun x => outbox cfg x r' = outbox cfg (s.rank q) r') q (fun _ => rfl)
      (fun h => by rw [h]; rfl)
    have h2 := hsplit (fun x => gotFrom x.phase q = gotFrom (s.rank r').phase q) r' (fun _ => rfl)
      (fun h => by rw [h, hphase]; rfl)
    rw [h1, h2]
    apply List.Perm.append_left
    apply List.Perm.append_right
    unfold post
    by_cases hq : q = r
    · subst hq
      rw [setAt_same]
      split
      · rw [List.flatMap_append]; simp [Msg.list]
      · rfl
    · rw [setAt_ne _ _ hq]
  · intro r' hr'
    exact hsplit (fun x => x.phase.over → (s.rank r').remaining = 0) r' (fun _ => I.over r' hr')
      (fun h _ => by rw [h]; exact h0)
  · intro q r' hk
    by_cases hq : q = r
    · subst hq; exact ⟨hr, h0⟩
    · apply I.killed q r'
      dsimp only [post] at hk
      rw [setAt_ne _ _ hq] at hk; exact hk
  · intro q r'
    exact hsplit (fun x => x.dark q = true → q < cfg.nRanks ∧ (s.rank q).remaining = 0) r'
      (fun _ => I.dark q r') (fun h => by rw [h] at *; exact I.dark q r)

theorem Inv.recv {r q : Nat} {kill : Bool} {ps : List Nat} {got : List (Nat × Packet B)}
    {m : Msg B} {ms : List (Msg B)} (hr : r < cfg.nRanks)
    (hphase : (s.rank r).phase = .exchanging kill ps got)
    (hchan : s.chan q r = m :: ms) (ps' : List Nat) (recvd : Nat → Nat) :
    Inv cfg mate
        { s with
          rank := setAt s.rank r { s.rank r with
            phase := .exchanging kill ps' (got ++ m.list.map fun p => (q, p))
            dark := darken (s.rank r).dark q m
            recvd := recvd }
          chan := setAt s.chan q (setAt (s.chan q) r ms) } := by
  have hsplit : ∀ (P : RankState D B → Prop) r', (r' ≠ r → P (s.rank r')) → (r' = r → P { s.rank r with
            phase := .exchanging kill ps' (got ++ m.list.map fun p => (q, p))
            dark := darken (s.rank r).dark q m
            recvd := recvd }) → P (setAt s.rank r { s.rank r with
            phase := .exchanging kill ps' (got ++ m.list.map fun p => (q, p))
            dark := darken (s.rank r).dark q m
            recvd := recvd } r') := by
    intro P r' h1 h2
    by_cases h : r' = r
    · subst h; rw [setAt_same]; exact h2 rfl
    · rw [setAt_ne _ _ h]; exact h1 h
  apply I.mono L
  · rfl
  · intro r'; exact hsplit (fun x => x.numDeps = (s.rank r').numDeps) r' (fun _ => rfl) (fun h => by rw [h])
  · intro r'; exact hsplit (fun x => x.queue = (s.rank r').queue) r' (fun _ => rfl) (fun h => by rw [h])
  · intro r'; exact hsplit (fun x => x.remaining = (s.rank r').remaining) r' (fun _ => rfl) (fun h => by rw [h])
  · intro r'; exact hsplit (fun x => x.data = (s.rank r').data) r' (fun _ => rfl) (fun h => by rw [h])
  · intro q' r'
    unfold transit
    dsimp only
    have h1 := hsplit (fun x => outbox cfg x r' = outbox cfg (s.rank q') r') q' (fun _ => rfl)
      (fun h => by rw [h]; rfl)
    rw [h1]
    apply List.Perm.append_left
    by_cases hr' : r' = r
    · subst hr'
      rw [setAt_same, hphase]
      simp only [gotFrom]
      by_cases hq' : q' = q
      · subst hq'
        rw [setAt_same, setAt_same, hchan, List.flatMap_cons, List.filter_append, List.map_append]
        have : (List.map Prod.snd (List.filter (fun p => decide (p.1 = q'))
            (List.map (fun p => (q', p)) m.list))) = m.list := by
          rw [List.filter_eq_self.2]
          · simp
          · intro a ha
            rw [List.mem_map] at ha
            obtain ⟨p, -, rfl⟩ := ha
            simp
        rw [this, List.append_assoc, ← List.append_assoc]
        exact List.perm_append_comm
      · rw [setAt_ne _ _ hq', List.filter_append]
        have : (List.filter (fun p => decide (p.1 = q'))
            (List.map (fun p => (q, p)) m.list)) = [] := by
          rw [List.filter_eq_nil_iff]
          intro a ha
          rw [List.mem_map] at ha
          obtain ⟨p, -, rfl⟩ := ha
          simp [Ne.symm hq']
        rw [this, List.append_nil]
    · rw [setAt_ne _ _ hr']
      by_cases hq' : q' = q
      · subst hq'; rw [setAt_same, setAt_ne _ _ hr']
      · rw [setAt_ne _ _ hq']
  · intro r' hr'
    exact hsplit (fun x => x.phase.over → (s.rank r').remaining = 0) r' (fun _ => I.over r' hr')
      (fun h h1 => by
        subst h
        apply I.over r' hr
        rw [hphase]
        exact h1)
  · intro q' r' hk
    apply I.killed q' r'
    dsimp only at hk
    by_cases hq' : q' = q
    · subst hq'
      rw [setAt_same] at hk
      by_cases hr' : r' = r
      · subst hr'; rw [setAt_same] at hk; rw [hchan]; exact List.mem_cons_of_mem _ hk
      · rw [setAt_ne _ _ hr'] at hk; exact hk
    · rw [setAt_ne _ _ hq'] at hk; exact hk
  · intro q' r'
    apply hsplit (fun x => x.dark q' = true → q' < cfg.nRanks ∧ (s.rank q').remaining = 0) r'
      (fun _ => I.dark q' r')
    rintro rfl h
    cases m with
    | packets _ => exact I.dark q' r' h
    | kill =>
      dsimp only [darken] at h
      by_cases hq' : q' = q
      · subst hq'
        exact I.killed q' r' (by rw [hchan]; simp)
      · rw [setAt_ne _ _ hq'] at h
        exact I.dark q' r' h

theorem Inv.miss {r : Nat} {kill : Bool} {ps : List Nat} {got : List (Nat × Packet B)}
    (hr : r < cfg.nRanks) (hphase : (s.rank r).phase = .exchanging kill ps got) (ps' : List Nat) :
    Inv cfg mate
        { s with rank := setAt s.rank r { s.rank r with phase := .exchanging kill ps' got } } := by
  have hsplit : ∀ (P : RankState D B → Prop) r', (r' ≠ r → P (s.rank r')) → (r' = r →
      P { s.rank r with phase := .exchanging kill ps' got }) →
      P (setAt s.rank r { s.rank r with phase := .exchanging kill ps' got } r') := by
    intro P r' h1 h2
    by_cases h : r' = r
    · subst h; rw [setAt_same]; exact h2 rfl
    · rw [setAt_ne _ _ h]; exact h1 h
  apply I.mono L
  · rfl
  · intro r'; exact hsplit (fun x => x.numDeps = (s.rank r').numDeps) r' (fun _ => rfl) (fun h => by rw [h])
  · intro r'; exact hsplit (fun x => x.queue = (s.rank r').queue) r' (fun _ => rfl) (fun h => by rw [h])
  · intro r'; exact hsplit (fun x => x.remaining = (s.rank r').remaining) r' (fun _ => rfl) (fun h => by rw [h])
  · intro r'; exact hsplit (fun x => x.data = (s.rank r').data) r' (fun _ => rfl) (fun h => by rw [h])
  · intro q r'
    unfold transit
    dsimp only
    have h1 := hsplit (fun x => outbox cfg x r' = outbox cfg (s.rank q) r') q (fun _ => rfl)
      (fun h => by rw [h]; rfl)
    have h2 := hsplit (fun x => gotFrom x.phase q = gotFrom (s.rank r').phase q) r' (fun _ => rfl)
      (fun h => by rw [h, hphase]; rfl)
    rw [h1, h2]
  · intro r' hr'
    exact hsplit (fun x => x.phase.over → (s.rank r').remaining = 0) r' (fun _ => I.over r' hr')
      (fun h h1 => by subst h; apply I.over r' hr; rw [hphase]; exact h1)
  · exact I.killed
  · intro q r'
    exact hsplit (fun x => x.dark q = true → q < cfg.nRanks ∧ (s.rank q).remaining = 0) r'
      (fun _ => I.dark q r') (fun h => by rw [h] at *; exact I.dark q r)

theorem Inv.close {r : Nat} {got : List (Nat × Packet B)}
    (hr : r < cfg.nRanks) (hphase : (s.rank r).phase = .exchanging true [] got) :
    Inv cfg mate
        { s with rank := setAt s.rank r { s.rank r with phase := .finished } } := by
  have h0 : (s.rank r).remaining = 0 := I.over r hr (by rw [hphase]; simp [Phase.over])
  have hsplit : ∀ (P : RankState D B → Prop) r', (r' ≠ r → P (s.rank r')) → (r' = r →
      P { s.rank r with phase := .finished }) →
      P (setAt s.rank r { s.rank r with phase := .finished } r') := by
    intro P r' h1 h2
    by_cases h : r' = r
    · subst h; rw [setAt_same]; exact h2 rfl
    · rw [setAt_ne _ _ h]; exact h1 h
  apply I.mono L
  · rfl
  · intro r'; exact hsplit (fun x => x.numDeps = (s.rank r').numDeps) r' (fun _ => rfl) (fun h => by rw [h])
  · intro r'; exact hsplit (fun x => x.queue = (s.rank r').queue) r' (fun _ => rfl) (fun h => by rw [h])
  · intro r'; exact hsplit (fun x => x.remaining = (s.rank r').remaining) r' (fun _ => rfl) (fun h => by rw [h])
  · intro r'; exact hsplit (fun x => x.data = (s.rank r').data) r' (fun _ => rfl) (fun h => by rw [h])
  · intro q r'
    have hnil : ∀ q, gotFrom (s.rank r).phase q = [] := by
      intro q
      have := I.transit_nil L (q := q) hr h0
      unfold transit at this
      simp only [List.append_eq_nil_iff] at this
      exact this.2.2
    unfold transit
    dsimp only
    have h1 := hsplit (fun x => outbox cfg x r' = outbox cfg (s.rank q) r') q (fun _ => rfl)
      (fun h => by rw [h]; rfl)
    have h2 := hsplit (fun x => gotFrom x.phase q = gotFrom (s.rank r').phase q) r' (fun _ => rfl)
      (fun h => by rw [h, hnil]; rfl)
    rw [h1, h2]
  · intro r' hr'
    exact hsplit (fun x => x.phase.over → (s.rank r').remaining = 0) r' (fun _ => I.over r' hr')
      (fun h h1 => by subst h; exact h0)
  · exact I.killed
  · intro q r'
    exact hsplit (fun x => x.dark q = true → q < cfg.nRanks ∧ (s.rank q).remaining = 0) r'
      (fun _ => I.dark q r') (fun h => by rw [h] at *; exact I.dark q r)

end steps

/-! ### Unpacking -/

section unpack
variable (cfg : Cfg D B) (r : Nat) (st : RankState D B) (p : Packet B)
theorem unpackOne_remaining : (unpackOne cfg r st p).remaining = st.remaining := release_remaining ..
theorem unpackOne_data : (unpackOne cfg r st p).data =
    (cfg.data r).setSideData ((cfg.mesh r).glSide p.side) p.angle p.data st.data := release_data ..
theorem unpackOne_sendBuf : (unpackOne cfg r st p).sendBuf = st.sendBuf := release_sendBuf ..
theorem unpackOne_dark : (unpackOne cfg r st p).dark = st.dark := release_dark ..
theorem unpackOne_round : (unpackOne cfg r st p).round = st.round := release_round ..
theorem unpackOne_sent : (unpackOne cfg r st p).sent = st.sent := release_sent ..
theorem unpackOne_recvd : (unpackOne cfg r st p).recvd = st.recvd := release_recvd ..
end unpack

theorem foldl_unpack_inv {α : Type} (cfg : Cfg D B) (r : Nat) (F : RankState D B → α)
    (hF : ∀ st p, F (unpackOne cfg r st p) = F st) (ps : List (Packet B)) (st : RankState D B) :
    F (ps.foldl (unpackOne cfg r) st) = F st := by
  induction ps generalizing st with
  | nil => rfl
  | cons f fs ih => rw [List.foldl_cons, ih, hF]

/-- Packets from one source, counted. -/
def scount (l : List (Nat × Packet B)) (q gs a : Nat) : Nat :=
  l.countP fun p => p.1 = q ∧ p.2.side = gs ∧ p.2.angle = a

theorem scount_eq (l : List (Nat × Packet B)) (q gs a : Nat) :
    pcount ((l.filter fun p => p.1 = q).map Prod.snd) gs a = scount l q gs a := by
  unfold pcount scount
  rw [List.countP_map, List.countP_filter]
  congr 1
  funext p
  by_cases h : p.1 = q <;> simp [h]

/-- A dependency is met by unpacking a good packet. -/
theorem unpack_event {cfg : Cfg D B} {mate : Loc → Option Loc} (L : Linked cfg mate) {r : Nat}
    (hr : r < cfg.nRanks) {log : List (Event B)} {st : RankState D B} {q : Nat} {p : Packet B}
    (hri : RI cfg r st.numDeps st.queue (Done log r) (Arr cfg mate log r))
    (hdata : st.data = replay cfg r log)
    (hord : Ordered cfg mate log) (hgood : GoodPacket cfg mate log q r p)
    (hcount : ∀ x y a, cfg.In x → mate x = some y → y.rank = r → x.rank ≠ r → a < cfg.nAngles →
      cfg.outDir x.rank a x.cell x.face = true →
      p.side = cfg.gs x → p.angle = a → dcount log r ((cfg.mesh r).side y.cell y.face) a = 0) :
    let e := Event.side r ((cfg.mesh r).glSide p.side) p.angle p.data
    RI cfg r (unpackOne cfg r st p).numDeps (unpackOne cfg r st p).queue (Done (log ++ [e]) r)
        (Arr cfg mate (log ++ [e]) r) ∧
      (unpackOne cfg r st p).data = replay cfg r (log ++ [e]) ∧ Ordered cfg mate (log ++ [e]) := by
  intro e
  obtain ⟨x, y, hx, hxr, hm, hyr, hqr, hd, ha, hout, hside, hsent⟩ := hgood
  have hxr' : x.rank ≠ r := by rw [hxr]; exact hqr
  have hyx : y.rank ≠ x.rank := by rw [hyr]; exact hxr'.symm
  have hy := L.mate_in x y hx hm
  have hms := L.mate_symm x y hx hm
  have hls : (cfg.mesh r).glSide p.side = (cfg.mesh r).side y.cell y.face := by
    rw [hside, ← hyr]; exact L.side_eq x y hx hm hyx
  have hcell : (cfg.mesh r).sideCell ((cfg.mesh r).glSide p.side) = y.cell := by
    rw [hls, ← hyr]; exact L.side_cell y x hy hms (Ne.symm hyx)
  have hc : y.cell < (cfg.mesh r).nCells := by rw [← hyr]; exact hy.2
  have hyeq : (⟨r, y.cell, y.face⟩ : Loc) = y := by rw [← hyr]
  have hneeds : Needs cfg mate y p.angle := ⟨L.orient x y p.angle hx hm ha hout, x, hms, Or.inl hd⟩
  have hcnt : cfg.counts r p.angle y.cell y.face = true := by
    have := (counts_iff L hy).2 hneeds
    rwa [hyr] at this
  have hd0 := hcount x y p.angle hx hm hyr hxr' ha hout hside rfl
  have hnd : ¬ Delivered log r ((cfg.mesh r).side y.cell y.face) p.angle := by
    rw [delivered_iff]; omega
  have hna : ¬ Arr cfg mate log r y.cell p.angle y.face := by
    rintro ⟨z, hz, -, (⟨hz1, -⟩ | ⟨-, hz2⟩)⟩
    · rw [hyeq, hms] at hz; simp at hz; subst hz; exact hxr' hz1
    · exact hnd hz2
  have hndone : ¬ Done log r y.cell p.angle := by
    intro hdn
    have h1 := hri.done_open y.cell hc p.angle ha hdn
    have : y.face ∈ open_ cfg r (Arr cfg mate log r) y.cell p.angle := by
      simp only [open_, Finset.mem_filter, Finset.mem_univ, true_and]
      exact ⟨hcnt, hna⟩
    rw [h1] at this; simp at this
  refine ⟨?_, ?_, ?_⟩
  · unfold unpackOne
    dsimp only
    rw [hcell]
    have hri' : RI cfg r ({ st with data := (cfg.data r).setSideData ((cfg.mesh r).glSide p.side) p.angle p.data st.data } : RankState D B).numDeps
      ({ st with data := (cfg.data r).setSideData ((cfg.mesh r).glSide p.side) p.angle p.data st.data } : RankState D B).queue
      (Done log r) (Arr cfg mate log r) := hri
    refine (hri'.release hc ha hcnt hna).congr ?_ ?_
    · intro c _ a _; rw [done_append]; simp [e, done_side]
    · intro c hc' a ha' f _
      unfold Arr
      simp only [done_append, delivered_append, e, done_side, or_false, delivered_side, hls, true_and]
      constructor
      · rintro (⟨z, h1, h2, h3⟩ | ⟨rfl, rfl, rfl⟩)
        · exact ⟨z, h1, h2, by tauto⟩
        · exact ⟨x, by rw [hyeq]; exact hms, hout, Or.inr ⟨hxr', Or.inr ⟨rfl, rfl⟩⟩⟩
      · rintro ⟨z, h1, h2, (h3 | ⟨h3, (h4 | ⟨h4, rfl⟩)⟩)⟩
        · exact Or.inl ⟨z, h1, h2, Or.inl h3⟩
        · exact Or.inl ⟨z, h1, h2, Or.inr ⟨h3, h4⟩⟩
        · right
          have := L.side_inj ⟨r, c, f⟩ y z x ⟨hr, hc'⟩ hy h1 hms h3 (Ne.symm hyx) hyr.symm
            (by rw [hyr]; exact h4)
          rw [← this]
          exact ⟨rfl, rfl, rfl⟩
  · rw [unpackOne_data, replay_snoc, hdata]
    simp [applyEvent, e]
  · refine ordered_snoc hord ?_
    refine ⟨y, x, hyr, hy, hms, hxr', ha, hls.symm, hneeds, ?_, hndone, hsent⟩
    rw [hls]; exact hnd

theorem unpack_fold {cfg : Cfg D B} {mate : Loc → Option Loc} (L : Linked cfg mate) {r : Nat}
    (hr : r < cfg.nRanks) : ∀ (got : List (Nat × Packet B)) (log : List (Event B)) (st : RankState D B),
    RI cfg r st.numDeps st.queue (Done log r) (Arr cfg mate log r) →
    st.data = replay cfg r log → Ordered cfg mate log →
    (∀ p ∈ got, GoodPacket cfg mate log p.1 r p.2) →
    (∀ x y a, cfg.In x → mate x = some y → y.rank = r → x.rank ≠ r → a < cfg.nAngles →
      cfg.outDir x.rank a x.cell x.face = true →
      scount got x.rank (cfg.gs x) a + dcount log r ((cfg.mesh r).side y.cell y.face) a ≤ 1) →
    RI cfg r ((got.map Prod.snd).foldl (unpackOne cfg r) st).numDeps
        ((got.map Prod.snd).foldl (unpackOne cfg r) st).queue
        (Done (log ++ unpackEvents cfg r got) r) (Arr cfg mate (log ++ unpackEvents cfg r got) r) ∧
      ((got.map Prod.snd).foldl (unpackOne cfg r) st).data =
        replay cfg r (log ++ unpackEvents cfg r got) ∧
      Ordered cfg mate (log ++ unpackEvents cfg r got) ∧
      ∀ x y a, cfg.In x → mate x = some y → y.rank = r → x.rank ≠ r → a < cfg.nAngles →
        dcount (log ++ unpackEvents cfg r got) r ((cfg.mesh r).side y.cell y.face) a =
          scount got x.rank (cfg.gs x) a + dcount log r ((cfg.mesh r).side y.cell y.face) a := by
  intro got
  induction got with
  | nil =>
    intro log st h1 h2 h3 _ _
    simp only [unpackEvents, List.map_nil, List.foldl_nil, List.append_nil]
    exact ⟨h1, h2, h3, fun _ _ _ _ _ _ _ _ => by simp [scount]⟩
  | cons p got ih =>
    intro log st h1 h2 h3 h4 h5
    have hg := h4 p (by simp)
    have hev := unpack_event L hr h1 h2 h3 hg (by
      intro x y a hx hm hy hxr ha hout hs hpa
      have := h5 x y a hx hm hy hxr ha hout
      have hxr2 : x.rank = p.1 := by
        obtain ⟨x', y', hx', hxr', hm', hyr', hqr', -, -, -, hs', -⟩ := hg
        have := gs_inj L hx hx' hm hm' (by rw [hy]; exact hxr.symm)
          (by rw [hyr', hxr']; exact hqr'.symm) (by rw [hy, hyr']) (by rw [← hs, hs'])
        rw [this, hxr']
      have : 0 < scount (p :: got) x.rank (cfg.gs x) a := by
        unfold scount
        rw [List.countP_pos_iff]
        exact ⟨p, by simp, by simp [hxr2, hs, hpa]⟩
      omega)
    -- the event counts what the packet counted
    have hcnt : ∀ x y a, cfg.In x → mate x = some y → y.rank = r → x.rank ≠ r →
        dcount [Event.side r ((cfg.mesh r).glSide p.2.side) p.2.angle p.2.data] r
          ((cfg.mesh r).side y.cell y.face) a = scount [p] x.rank (cfg.gs x) a := by
      intro x y a hx hm hy hxr
      obtain ⟨x', y', hx', hxr', hm', hyr', hqr', -, -, -, hs', -⟩ := hg
      have hyx' : y'.rank ≠ x'.rank := by rw [hyr', hxr']; exact hqr'.symm
      have hyx : y.rank ≠ x.rank := by rw [hy]; exact hxr.symm
      have hls : (cfg.mesh r).glSide p.2.side = (cfg.mesh r).side y'.cell y'.face := by
        rw [hs', ← hyr']; exact L.side_eq x' y' hx' hm' hyx'
      have hiff : ((cfg.mesh r).glSide p.2.side = (cfg.mesh r).side y.cell y.face) ↔
          (p.1 = x.rank ∧ p.2.side = cfg.gs x) := by
        rw [hls]
        constructor
        · intro h
          have hyy := L.side_inj y' y x' x (L.mate_in x' y' hx' hm') (L.mate_in x y hx hm)
            (L.mate_symm x' y' hx' hm') (L.mate_symm x y hx hm) hyx'.symm hyx.symm
            (by rw [hyr', hy]) (by rw [hyr', hy]; exact h)
          subst hyy
          have := mate_inj L hx hx' hm hm'
          subst this
          exact ⟨hxr'.symm, hs'⟩
        · rintro ⟨h6, h7⟩
          have := gs_inj L hx hx' hm hm' hyx hyx' (by rw [hy, hyr']) (by rw [← h7, hs'])
          subst this
          rw [hm] at hm'
          have := Option.some.inj hm'
          rw [this]
      unfold dcount scount
      simp only [List.countP_cons, List.countP_nil, Event.slot, Option.some.injEq, Prod.mk.injEq,
        true_and, hiff]
      congr 1
      by_cases h6 : p.1 = x.rank <;> by_cases h7 : p.2.side = cfg.gs x <;>
        by_cases h8 : p.2.angle = a <;> simp [h6, h7, h8]
    obtain ⟨e1, e2, e3⟩ := hev
    have hsc : ∀ q gs a, scount (p :: got) q gs a = scount [p] q gs a + scount got q gs a := by
      intro q gs a
      have : p :: got = [p] ++ got := rfl
      rw [this]
      unfold scount
      rw [List.countP_append]
    have hih := ih (log ++ [Event.side r ((cfg.mesh r).glSide p.2.side) p.2.angle p.2.data])
      (unpackOne cfg r st p.2) e1 e2 e3
      (fun p' hp' => good_append (h4 p' (by simp [hp'])))
      (by
        intro x y a hx hm hy hxr ha hout
        have h6 := h5 x y a hx hm hy hxr ha hout
        rw [dcount_append, hcnt x y a hx hm hy hxr]
        rw [hsc] at h6
        omega)
    have hl : log ++ unpackEvents cfg r (p :: got) =
        (log ++ [Event.side r ((cfg.mesh r).glSide p.2.side) p.2.angle p.2.data]) ++
          unpackEvents cfg r got := by
      simp [unpackEvents]
    rw [hl]
    obtain ⟨j1, j2, j3, j4⟩ := hih
    refine ⟨j1, j2, j3, ?_⟩
    intro x y a hx hm hy hxr ha
    rw [j4 x y a hx hm hy hxr ha, dcount_append, hcnt x y a hx hm hy hxr, hsc]
    omega

section steps
variable {cfg : Cfg D B} {mate : Loc → Option Loc} (L : Linked cfg mate) {s : State D B}
  (I : Inv cfg mate s)
include L I

theorem Inv.unpack {r : Nat} {got : List (Nat × Packet B)}
    (hr : r < cfg.nRanks) (hphase : (s.rank r).phase = .exchanging false [] got) :
    Inv cfg mate
        { s with
          rank := setAt s.rank r (unpackAll cfg r got (s.rank r))
          log := s.log ++ unpackEvents cfg r got } := by
  unfold unpackAll
  have hgot : ∀ q, gotFrom (s.rank r).phase q = (got.filter fun p => p.1 = q).map Prod.snd := by
    intro q; rw [hphase]; rfl
  have htr : ∀ q, transit cfg s q r = outbox cfg (s.rank q) r ++
      ((s.chan q r).flatMap Msg.list ++ (got.filter fun p => p.1 = q).map Prod.snd) := by
    intro q; unfold transit; rw [hgot]
  have hmem : ∀ p ∈ got, p.2 ∈ transit cfg s p.1 r := by
    intro p hp
    rw [htr]
    simp only [List.mem_append, List.mem_map, List.mem_filter]
    exact Or.inr (Or.inr ⟨p, ⟨hp, by simp⟩, rfl⟩)
  -- nothing arrives without communication
  have hcomm : got ≠ [] → cfg.doComm = true := by
    intro h
    obtain ⟨p, hp⟩ := List.exists_mem_of_ne_nil _ h
    obtain ⟨_, _, _, _, _, _, _, h6, _⟩ := I.good _ _ _ (hmem p hp)
    exact h6
  have hle : ∀ x y a, cfg.In x → mate x = some y → y.rank = r → x.rank ≠ r → a < cfg.nAngles →
      cfg.outDir x.rank a x.cell x.face = true →
      scount got x.rank (cfg.gs x) a + dcount s.log r ((cfg.mesh r).side y.cell y.face) a ≤ 1 := by
    intro x y a hx hm hy hxr ha hout
    by_cases hd : cfg.doComm = true
    · have h0 := I.count x y a hx hm (by rw [hy]; exact hxr.symm) ha hd hout
      rw [hy, htr, pcount_append, pcount_append, scount_eq] at h0
      split at h0 <;> omega
    · have hn : got = [] := by by_contra h; exact hd (hcomm h)
      subst hn
      have : ¬ Delivered s.log r ((cfg.mesh r).side y.cell y.face) a := by
        rintro ⟨b, hb⟩
        obtain ⟨m1, m2, heq⟩ := List.append_of_mem hb
        obtain ⟨x', y', hx1, hx2, hx3, hx4, hx5, hx6, ⟨-, y'', h7, (h8 | h8)⟩, -⟩ := I.ordered m1 _ m2 heq
        · exact hd h8
        · rw [hx3] at h7
          have := Option.some.inj h7
          subst this
          exact hx4 (by rw [h8, hx1])
      rw [delivered_iff] at this
      simp only [scount, List.countP_nil]
      omega
  obtain ⟨u1, u2, u3, u4⟩ := unpack_fold L hr got s.log (s.rank r) (I.ri r hr) (I.data r hr) I.ordered
    (fun p hp => I.good _ _ _ (hmem p hp)) hle
  have hdone : ∀ r' c a, Done (s.log ++ unpackEvents cfg r got) r' c a ↔ Done s.log r' c a := by
    intro r' c a
    rw [done_append]
    constructor
    · rintro (h | ⟨k, h⟩)
      · exact h
      · simp [unpackEvents] at h
    · exact Or.inl
  have hdel : ∀ r' c a, r' ≠ r → (Delivered (s.log ++ unpackEvents cfg r got) r' c a ↔
      Delivered s.log r' c a) := by
    intro r' c a hne
    rw [delivered_append]
    constructor
    · rintro (h | ⟨b, h⟩)
      · exact h
      · simp only [unpackEvents, List.mem_map, Event.side.injEq] at h
        obtain ⟨_, _, h, _⟩ := h
        exact absurd h.symm hne
    · exact Or.inl
  have hdc : ∀ r' c a, r' ≠ r → dcount (s.log ++ unpackEvents cfg r got) r' c a = dcount s.log r' c a := by
    intro r' c a hne
    rw [dcount_append]
    have : dcount (unpackEvents cfg r got) r' c a = 0 := by
      unfold dcount
      rw [List.countP_eq_zero]
      intro e he
      simp only [unpackEvents, List.mem_map] at he
      obtain ⟨p, -, rfl⟩ := he
      simp [Event.slot, Ne.symm hne]
    omega
  have huc : ∀ r', ucount (s.log ++ unpackEvents cfg r got) r' = ucount s.log r' := by
    intro r'
    rw [ucount_append]
    have : ucount (unpackEvents cfg r got) r' = 0 := by
      unfold ucount
      rw [List.countP_eq_zero]
      intro e he
      simp only [unpackEvents, List.mem_map] at he
      obtain ⟨p, -, rfl⟩ := he
      simp [Event.task]
    omega
  have hrepl : ∀ r', r' ≠ r → replay cfg r' (s.log ++ unpackEvents cfg r got) = replay cfg r' s.log := by
    intro r' hne
    unfold replay
    rw [List.foldl_append]
    generalize List.foldl (applyEvent cfg r') (cfg.init r') s.log = d
    unfold unpackEvents
    clear u1 u2 u3 u4 hle hcomm hmem htr hgot hphase hdone hdel hdc huc
    induction got generalizing d with
    | nil => rfl
    | cons p got ih =>
      rw [List.map_cons, List.foldl_cons]
      have : applyEvent cfg r' d (Event.side r ((cfg.mesh r).glSide p.2.side) p.2.angle p.2.data) = d := by
        simp [applyEvent, Ne.symm hne]
      rw [this]
      exact ih d
  have hfr : ((got.map Prod.snd).foldl (unpackOne cfg r) (s.rank r)).remaining = (s.rank r).remaining :=
    foldl_unpack_inv cfg r RankState.remaining (unpackOne_remaining cfg r) _ _
  have hfs : ((got.map Prod.snd).foldl (unpackOne cfg r) (s.rank r)).sendBuf = (s.rank r).sendBuf :=
    foldl_unpack_inv cfg r RankState.sendBuf (unpackOne_sendBuf cfg r) _ _
  have hfd : ((got.map Prod.snd).foldl (unpackOne cfg r) (s.rank r)).dark = (s.rank r).dark :=
    foldl_unpack_inv cfg r RankState.dark (unpackOne_dark cfg r) _ _
  -- transit afterwards
  have htr' : ∀ q r', transit cfg { s with
          rank := setAt s.rank r
            (let st := (got.map Prod.snd).foldl (unpackOne cfg r) (s.rank r)
             { st with phase := loopTest cfg st.remaining })
          log := s.log ++ unpackEvents cfg r got } q r' =
        if r' = r then outbox cfg (s.rank q) r ++ (s.chan q r).flatMap Msg.list
        else transit cfg s q r' := by
    intro q r'
    have hob : outbox cfg (setAt s.rank r
            (let st := (got.map Prod.snd).foldl (unpackOne cfg r) (s.rank r)
             { st with phase := loopTest cfg st.remaining }) q) r' = outbox cfg (s.rank q) r' := by
      by_cases h : q = r
      · subst h
        rw [setAt_same]
        unfold outbox
        dsimp only
        rw [hfs]
      · rw [setAt_ne _ _ h]
    unfold transit
    dsimp only at hob ⊢
    rw [hob]
    by_cases h : r' = r
    · subst h
      rw [if_pos rfl, setAt_same]
      dsimp only
      rw [gotFrom_loopTest L I, List.append_nil]
    · rw [if_neg h, setAt_ne _ _ h]
  have hsub : ∀ q r' p, p ∈ transit cfg { s with
          rank := setAt s.rank r
            (let st := (got.map Prod.snd).foldl (unpackOne cfg r) (s.rank r)
             { st with phase := loopTest cfg st.remaining })
          log := s.log ++ unpackEvents cfg r got } q r' → p ∈ transit cfg s q r' := by
    intro q r' p hp
    rw [htr'] at hp
    split at hp
    · rename_i h; subst h
      unfold transit
      simp only [List.mem_append] at hp ⊢
      tauto
    · exact hp
  refine ⟨?_, ?_, ?_, u3, ?_, ?_, ?_, ?_, ?_⟩
  · intro r' hr'
    dsimp only
    by_cases h : r' = r
    · subst h; rw [setAt_same]; exact u1
    · rw [setAt_ne _ _ h]
      refine (I.ri r' hr').congr ?_ ?_
      · intro c _ a _; rw [hdone]
      · intro c _ a _ f _
        unfold Arr
        simp only [hdone, hdel _ _ _ h]
  · intro r' hr'
    dsimp only
    rw [huc]
    by_cases h : r' = r
    · subst h; rw [setAt_same]; dsimp only; rw [hfr]; exact I.rem r' hr'
    · rw [setAt_ne _ _ h]; exact I.rem r' hr'
  · intro r' hr'
    dsimp only
    by_cases h : r' = r
    · subst h; rw [setAt_same]; exact u2
    · rw [setAt_ne _ _ h, hrepl r' h]; exact I.data r' hr'
  · intro q r' p hp
    exact good_append (I.good q r' p (hsub q r' p hp))
  · intro x y a hx hm hxy ha hd hout
    have h0 := I.count x y a hx hm hxy ha hd hout
    rw [htr']
    simp only [hdone]
    by_cases h : y.rank = r
    · rw [if_pos h, h, u4 x y a hx hm h (by rw [← h]; exact hxy.symm) ha]
      rw [h, htr, pcount_append, pcount_append, scount_eq] at h0
      rw [pcount_append]
      omega
    · rw [if_neg h, hdc _ _ _ h]
      exact h0
  · intro r' hr' hov
    dsimp only at hov ⊢
    by_cases h : r' = r
    · subst h; rw [setAt_same] at hov ⊢
      exact over_loopTest L I hov
    · rw [setAt_ne _ _ h] at hov ⊢; exact I.over r' hr' hov
  · intro q r' hk
    obtain ⟨h1, h2⟩ := I.killed q r' hk
    refine ⟨h1, ?_⟩
    dsimp only
    by_cases h : q = r
    · subst h; rw [setAt_same]; dsimp only; rw [hfr]; exact h2
    · rw [setAt_ne _ _ h]; exact h2
  · intro q r' hk
    have : (s.rank r').dark q = true := by
      dsimp only at hk
      by_cases h : r' = r
      · subst h; rw [setAt_same] at hk; dsimp only at hk; rw [hfd] at hk; exact hk
      · rw [setAt_ne _ _ h] at hk; exact hk
    obtain ⟨h1, h2⟩ := I.dark q r' this
    refine ⟨h1, ?_⟩
    dsimp only
    by_cases h : q = r
    · subst h; rw [setAt_same]; dsimp only; rw [hfr]; exact h2
    · rw [setAt_ne _ _ h]; exact h2

theorem Inv.step {s' : State D B} (h : Step cfg s s') : Inv cfg mate s' := by
  cases h with
  | compute r g steps l1 l2 t hr hg hphase hq htop hsteps => exact I.compute L hr hg hphase hq _ _
  | skip r steps hr hphase hdone hcomm => exact I.skip L hr hphase _
  | send r steps hr hphase hdone hcomm => exact I.send L hr hphase _ _ _
  | kill r hr hphase => exact I.kill L hr hphase _ _ _ _
  | recv r q kill p1 p2 got m ms hr hphase hchan hcap => exact I.recv L hr hphase hchan _ _
  | miss r q kill ps got hr hphase hcap hsends => exact I.miss L hr hphase _
  | unpack r got hr hphase hsends => exact I.unpack L hr hphase
  | close r got hr hphase hsends => exact I.close L hr hphase

end steps

theorem Reachable.inv {cfg : Cfg D B} {mate : Loc → Option Loc} (L : Linked cfg mate) {s : State D B}
    (h : Reachable cfg s) : Inv cfg mate s := by
  induction h with
  | init => exact Inv.start L
  | step _ hs ih => exact Inv.step L ih hs

end Verif.Traverse
