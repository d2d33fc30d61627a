import Verif.Traverse.Lemmas7
import Mathlib.Algebra.BigOperators.Group.Finset.Piecewise

set_option linter.unusedSectionVars false

namespace Verif.Traverse
open Classical List

variable {D B : Type}

/-- Extra assumptions under which a traversal finishes: a batch holds at least one task, the face
opposite an upwind face is downwind, and waiting is well founded. -/
structure Live (cfg : Cfg D B) (mate : Loc → Option Loc) (level : Nat → Nat → Nat → Nat) (b : Nat) :
    Prop where
  batch : 0 < cfg.maxCompute
  proto : cfg.doComm = true → cfg.protocol = .tycho
  back : ∀ x y a, cfg.In x → mate x = some y → a < cfg.nAngles →
    cfg.inDir x.rank a x.cell x.face = true → cfg.outDir y.rank a y.cell y.face = true
  down : ∀ x y a, cfg.In x → mate x = some y → a < cfg.nAngles → Needs cfg mate x a →
    level y.rank y.cell a < level x.rank x.cell a
  bound : ∀ r c a, r < cfg.nRanks → c < (cfg.mesh r).nCells → a < cfg.nAngles → level r c a ≤ b

/-- Updates up to round `k`. -/
def isUpd (k : Nat) : Event B → Bool
  | .upd _ _ _ k' => decide (k' ≤ k)
  | .side .. => false

def updCount (log : List (Event B)) (k : Nat) : Nat := log.countP (isUpd k)

theorem updCount_mono (log : List (Event B)) {k k' : Nat} (h : k ≤ k') :
    updCount log k ≤ updCount log k' := by
  unfold updCount
  apply List.countP_mono_left
  intro e _ he
  cases e with
  | upd r c a j => simp only [isUpd, decide_eq_true_eq] at he ⊢; omega
  | side r s a b => simp [isUpd] at he

theorem updCount_lt (log : List (Event B)) {k r c a : Nat} (h : Event.upd r c a (k + 1) ∈ log) :
    updCount log k < updCount log (k + 1) := by
  induction log with
  | nil => simp at h
  | cons e log ih =>
    unfold updCount at *
    rw [List.countP_cons, List.countP_cons]
    rw [List.mem_cons] at h
    have hm := updCount_mono log (show k ≤ k + 1 by omega)
    unfold updCount at hm
    rcases h with h | h
    · subst h
      rw [if_neg (by simp [isUpd]), if_pos (by simp [isUpd])]
      omega
    · have := ih h
      cases e with
      | upd r c a j =>
        simp only [isUpd, decide_eq_true_eq]
        split <;> split <;> omega
      | side r s a b => simp only [isUpd]; simpa using this

theorem updCount_append (l l' : List (Event B)) (k : Nat) : updCount l k ≤ updCount (l ++ l') k := by
  unfold updCount; rw [List.countP_append]; omega

/-- All updates. -/
def isTask : Event B → Bool
  | .upd .. => true
  | .side .. => false

def total (log : List (Event B)) : Nat := log.countP isTask

theorem updCount_le_total (log : List (Event B)) (k : Nat) : updCount log k ≤ total log := by
  unfold updCount total
  apply List.countP_mono_left
  intro e _ he
  cases e with
  | upd r c a j => rfl
  | side r s a b => simp [isUpd] at he

theorem total_eq {log : List (Event B)} {n : Nat}
    (h : ∀ r c a k, Event.upd r c a k ∈ log → r < n) :
    total log = ∑ r ∈ Finset.range n, ucount log r := by
  induction log with
  | nil => simp [total, ucount]
  | cons e log ih =>
    have ih := ih (fun r c a k hm => h r c a k (by simp [hm]))
    unfold total ucount at *
    rw [List.countP_cons, ih]
    cases e with
    | upd r c a k =>
      have hr := h r c a k (by simp)
      have : ∀ r' ∈ Finset.range n, List.countP (fun e : Event B => decide (∃ c a, e.task = some (r', c, a)))
          (Event.upd r c a k :: log) =
          List.countP (fun e : Event B => decide (∃ c a, e.task = some (r', c, a))) log +
            if r' = r then 1 else 0 := by
        intro r' _
        rw [List.countP_cons]
        congr 1
        by_cases hh : r' = r
        · subst hh; simp [Event.task]
        · have : ¬ r = r' := fun h => hh h.symm
          simp [Event.task, hh, this]
      rw [Finset.sum_congr rfl this, Finset.sum_add_distrib, Finset.sum_ite_eq']
      simp [isTask, hr]
    | side r s a b =>
      have : ∀ r' ∈ Finset.range n, List.countP (fun e : Event B => decide (∃ c a, e.task = some (r', c, a)))
          (Event.side r s a b :: log) =
          List.countP (fun e : Event B => decide (∃ c a, e.task = some (r', c, a))) log := by
        intro r' _
        rw [List.countP_cons]
        simp [Event.task]
      rw [Finset.sum_congr rfl this]
      simp [isTask]

/-- Two updates of the same task are the same. -/
theorem Ordered.round_unique {cfg : Cfg D B} {mate : Loc → Option Loc} {log : List (Event B)}
    (h : Ordered cfg mate log) {r c a k k' : Nat} (h1 : Event.upd r c a k ∈ log)
    (h2 : Event.upd r c a k' ∈ log) : k = k' := by
  induction log using List.reverseRecOn with
  | nil => simp at h1
  | append_singleton log e ih =>
    have ih := ih (ordered_prefix h)
    have ho := h log e [] rfl
    rw [List.mem_append, List.mem_singleton] at h1 h2
    rcases h1 with h1 | h1 <;> rcases h2 with h2 | h2
    · exact ih h1 h2
    · subst h2; exact absurd ⟨k, h1⟩ ho.2.2.2.1
    · subst h1; exact absurd ⟨k', h2⟩ ho.2.2.2.1
    · rw [← h1] at h2; injection h2 with _ _ _ h3; exact h3.symm

/-- As long as a task is not done, rounds are paid for by updates. -/
def Paid (cfg : Cfg D B) (level : Nat → Nat → Nat → Nat) (s : State D B) : Prop :=
  ∀ r < cfg.nRanks, ∀ k ≤ (s.rank r).round, ∀ c < (cfg.mesh r).nCells, ∀ a < cfg.nAngles,
    (∀ k', Event.upd r c a k' ∈ s.log → k < k') → k ≤ updCount s.log k + level r c a

theorem Paid.start (cfg : Cfg D B) (level : Nat → Nat → Nat → Nat) : Paid cfg level (initState cfg) := by
  intro r _ k hk c _ a _ _
  simp [initState, initRank] at hk
  omega

theorem Paid.mono {cfg : Cfg D B} {level : Nat → Nat → Nat → Nat} {s s' : State D B}
    (h : Paid cfg level s) {l : List (Event B)} (hlog : s'.log = s.log ++ l)
    (hround : ∀ r < cfg.nRanks, ∀ k, (s.rank r).round < k → k ≤ (s'.rank r).round → 
      ∀ c < (cfg.mesh r).nCells, ∀ a < cfg.nAngles,
      (∀ k', Event.upd r c a k' ∈ s'.log → k < k') → k ≤ updCount s'.log k + level r c a) :
    Paid cfg level s' := by
  intro r hr k hk c hc a ha hu
  by_cases h1 : k ≤ (s.rank r).round
  · have := h r hr k h1 c hc a ha (fun k' hm => hu k' (by rw [hlog]; simp [hm]))
    have h2 := updCount_append s.log l k
    rw [hlog]
    omega
  · exact hround r hr k (by omega) hk c hc a ha hu

section
variable {cfg : Cfg D B} {mate : Loc → Option Loc} (L : Linked cfg mate)
  {level : Nat → Nat → Nat → Nat} {b : Nat} (V : Live cfg mate level b) {s : State D B}
  (h : Reachable cfg s)
include L V h

/-- What a task on a rank at the end of its batch waits for. -/
theorem Paid.round (Q : Paid cfg level s) {r : Nat} (hr : r < cfg.nRanks) {steps : Nat → Nat}
    (hphase : (s.rank r).phase = .computing steps)
    (hdone : ∀ g < cfg.nThreads, (s.rank r).queue g = [] ∨ ¬ steps g < cfg.maxCompute) :
    ∀ n c, c < (cfg.mesh r).nCells → ∀ a < cfg.nAngles, level r c a = n →
      ¬ Done s.log r c a →
      (s.rank r).round + 1 ≤ updCount s.log ((s.rank r).round + 1) + n := by
  have I := h.inv L
  have R := h.rounds
  intro n
  induction n using Nat.strong_induction_on with
  | _ n ih =>
    intro c hc a ha hlev hnd
    by_cases ho : open_ cfg r (Arr cfg mate s.log r) c a = ∅
    · have hcount := (I.ri r hr).count c hc a ha
      rw [if_pos ⟨ho, hnd⟩] at hcount
      have hq : (s.rank r).queue (cfg.group a) ≠ [] := by
        intro hq; rw [hq] at hcount; simp [qcount] at hcount
      rcases hdone _ (group_lt L.threads ha) with h1 | h1
      · exact absurd h1 hq
      · obtain ⟨c', a', hm⟩ := R.steps r steps hphase (cfg.group a) (by have := V.batch; omega)
        have h2 := updCount_lt s.log hm
        have h3 := Q r hr _ le_rfl c hc a ha (fun k' hm' => absurd ⟨k', hm'⟩ hnd)
        omega
    · obtain ⟨f, hf⟩ := Finset.nonempty_iff_ne_empty.2 ho
      simp only [open_, Finset.mem_filter, Finset.mem_univ, true_and] at hf
      obtain ⟨hcnt, hna⟩ := hf
      have hx : cfg.In ⟨r, c, f⟩ := ⟨hr, hc⟩
      have hneeds := (counts_iff (x := ⟨r, c, f⟩) L hx).1 hcnt
      obtain ⟨hin, y, hy, hloc⟩ := hneeds
      have hyin := L.mate_in _ _ hx hy
      have hout := V.back _ _ a hx hy ha hin
      have hlt := V.down _ _ a hx hy ha ((counts_iff (x := ⟨r, c, f⟩) L hx).1 hcnt)
      dsimp only at hlt hloc
      by_cases hyr : y.rank = r
      · have hyd : ¬ Done s.log r y.cell a := fun hd => hna ⟨y, hy, hout, Or.inl ⟨hyr, hd⟩⟩
        have := ih (level r y.cell a) (by rw [hyr] at hlt; omega) y.cell (by have := hyin.2; rw [hyr] at this; exact this) a ha rfl hyd
        rw [hyr] at hlt
        omega
      · have hd : cfg.doComm = true := hloc.resolve_right hyr
        have ht := V.proto hd
        have P := h.proto L hd ht
        have W := h.whr L hd ht
        have hnotdel : ¬ Delivered s.log r ((cfg.mesh r).side c f) a :=
          fun hdl => hna ⟨y, hy, hout, Or.inr ⟨hyr, hdl⟩⟩
        have hym := L.mate_symm _ _ hx hy
        have hne : r ≠ y.rank := fun h => hyr h.symm
        have hadj : y.rank ∈ (cfg.mesh r).adjRanks := mem_adjRanks L hx hy hyr
        have hadj' : r ∈ (cfg.mesh y.rank).adjRanks := mem_adjRanks L hyin hym hne
        have hcount := I.count y ⟨r, c, f⟩ a hyin hym hne ha hd hout
        dsimp only at hcount
        have hdc : dcount s.log r ((cfg.mesh r).side c f) a = 0 := by
          by_contra h0; exact hnotdel (delivered_iff.2 (by omega))
        rw [hdc, Nat.add_zero] at hcount
        have hgot : gotFrom (s.rank r).phase y.rank = [] := by rw [hphase]; rfl
        -- a packet under way was made in a later round
        have hlater : ∀ k', Event.upd y.rank y.cell a k' ∈ s.log →
            ∃ p, (p ∈ outbox cfg (s.rank y.rank) r ∨ ∃ n : Nat, ∃ m : Msg B, (s.chan y.rank r)[n]? = some m ∧ p ∈ m.list) ∧
              p.side = cfg.gs y ∧ p.angle = a := by
          intro k' hk'
          rw [if_pos ⟨k', hk'⟩] at hcount
          have : 0 < pcount (transit cfg s y.rank r) (cfg.gs y) a := by omega
          unfold pcount at this
          rw [List.countP_pos_iff] at this
          obtain ⟨p, hp, hpp⟩ := this
          simp only [decide_eq_true_eq] at hpp
          unfold transit at hp
          rw [hgot, List.append_nil, List.mem_append, List.mem_flatMap] at hp
          refine ⟨p, ?_, hpp⟩
          rcases hp with hp | ⟨m, hm, hp⟩
          · exact Or.inl hp
          · obtain ⟨n, hn⟩ := List.mem_iff_getElem?.1 hm
            exact Or.inr ⟨n, m, hn, hp⟩
        have hrdark : (s.rank r).dark y.rank = false := by
          by_contra hdk
          have hdk : (s.rank r).dark y.rank = true := by simpa using hdk
          obtain ⟨-, -, -, hch, hkl⟩ := P.dark r y.rank hdk
          have h0 := (I.dark y.rank r hdk).2
          obtain ⟨k', hk'⟩ := I.done_of_rem L hyin.1 h0 hyin.2 ha
          obtain ⟨p, hp | ⟨n, m, hn, -⟩, -⟩ := hlater k' hk'
          · rw [P.empty y.rank hyin.1 (by
              intro hcomp
              rcases hph : (s.rank y.rank).phase with st | ⟨k, ps, got⟩ | _ | _ <;>
                rw [hph] at hkl hcomp <;> first | exact hkl | exact hcomp)] at hp
            simp at hp
          · rw [hch] at hn; simp at hn
        have hydark : (s.rank y.rank).dark r = false := by
          by_contra hdk
          have := (P.dark y.rank r (by simpa using hdk)).2.2.2.2
          rw [hphase] at this
          exact this
        have hrec := P.got_all r hr y.rank hadj hrdark (by rw [hphase]; simp [Phase.pending])
        have hsent := P.sent_eq y.rank hyin.1 r hadj' hydark
        have hflow := P.flow y.rank r
        have hround : (s.rank r).round ≤ (s.rank y.rank).round := by omega
        have hmade : ∀ k p, p.side = cfg.gs y → p.angle = a →
            MadeIn cfg mate s.log y.rank r k p → Event.upd y.rank y.cell a k ∈ s.log := by
          rintro k p h1 h2 ⟨x', y', hx', hxr', hm', hyr', hne', hs', hu'⟩
          have : x' = y := gs_inj L hx' hyin hm' hym (by rw [hyr', hxr']; exact hne) hne (by rw [hyr'])
            (by rw [← hs', h1])
          subst this
          rw [h2] at hu'
          exact hu'
        have hq := Q y.rank hyin.1 (s.rank r).round hround y.cell hyin.2 a ha (by
          intro k' hk'
          obtain ⟨p, hp, hps, hpa⟩ := hlater k' hk'
          rcases hp with hp | ⟨n, m, hn, hp⟩
          · have := I.ordered.round_unique hk' (hmade _ p hps hpa (W.out _ _ p hp))
            omega
          · have := I.ordered.round_unique hk' (hmade _ p hps hpa (W.chan _ _ n m hn p hp))
            omega)
        have := updCount_mono s.log (show (s.rank r).round ≤ (s.rank r).round + 1 by omega)
        omega

theorem Paid.step (Q : Paid cfg level s) {s' : State D B} (hs : Step cfg s s') : Paid cfg level s' := by
  have I := h.inv L
  have R := h.rounds
  cases hs with
  | compute r g steps l1 l2 t hr hg hphase hq htop hsteps =>
    refine Q.mono (l := [.upd r t.cell t.angle ((s.rank r).round + 1)]) rfl ?_
    intro r' hr' k h1 h2
    exfalso
    dsimp only at h2
    by_cases hh : r' = r
    · subst hh; rw [setAt_same] at h2; dsimp only at h2; rw [computeOne_round] at h2; omega
    · rw [setAt_ne _ _ hh] at h2; omega
  | skip r steps hr hphase hdone hcomm =>
    refine Q.mono (l := []) (by simp) ?_
    intro r' hr' k h1 h2 c hc a ha hu
    dsimp only at h2 hu ⊢
    by_cases hh : r' = r
    · subst hh
      rw [setAt_same] at h2
      dsimp only at h2
      have hk : k = (s.rank r').round + 1 := by omega
      subst hk
      exact Paid.round L V h Q hr hphase hdone _ c hc a ha rfl (fun ⟨k', hk'⟩ => by
        have h3 := hu k' hk'
        have h4 := (R.now r' c a k' hk').1
        omega)
    · rw [setAt_ne _ _ hh] at h2; omega
  | send r steps hr hphase hdone hcomm =>
    refine Q.mono (l := []) (by simp) ?_
    intro r' hr' k h1 h2 c hc a ha hu
    dsimp only at h2 hu ⊢
    by_cases hh : r' = r
    · subst hh
      rw [setAt_same] at h2
      dsimp only at h2
      have hk : k = (s.rank r').round + 1 := by omega
      subst hk
      exact Paid.round L V h Q hr hphase hdone _ c hc a ha rfl (fun ⟨k', hk'⟩ => by
        have h3 := hu k' hk'
        have h4 := (R.now r' c a k' hk').1
        omega)
    · rw [setAt_ne _ _ hh] at h2; omega
  | kill r hr hphase =>
    refine Q.mono (l := []) (by simp) ?_
    intro r' hr' k h1 h2 c hc a ha hu
    dsimp only at h2 hu ⊢
    by_cases hh : r' = r
    · subst hh
      obtain ⟨k', hk'⟩ := I.done_of_rem L hr (I.over r' hr (by rw [hphase]; trivial)) hc ha
      have h3 := hu k' hk'
      have h4 := (R.now r' c a k' hk').1
      omega
    · rw [setAt_ne _ _ hh] at h2; omega
  | recv r q kill p1 p2 got m ms hr hphase hchan hcap =>
    refine Q.mono (l := []) (by simp) ?_
    intro r' hr' k h1 h2
    exfalso
    dsimp only at h2
    by_cases hh : r' = r
    · subst hh; rw [setAt_same] at h2; dsimp only at h2; omega
    · rw [setAt_ne _ _ hh] at h2; omega
  | miss r q kill ps got hr hphase hcap hsends =>
    refine Q.mono (l := []) (by simp) ?_
    intro r' hr' k h1 h2
    exfalso
    dsimp only at h2
    by_cases hh : r' = r
    · subst hh; rw [setAt_same] at h2; dsimp only at h2; omega
    · rw [setAt_ne _ _ hh] at h2; omega
  | unpack r got hr hphase hsends =>
    refine Q.mono (l := unpackEvents cfg r got) rfl ?_
    intro r' hr' k h1 h2
    exfalso
    dsimp only at h2
    by_cases hh : r' = r
    · subst hh; rw [setAt_same, unpackAll_round] at h2; omega
    · rw [setAt_ne _ _ hh] at h2; omega
  | close r got hr hphase hsends =>
    refine Q.mono (l := []) (by simp) ?_
    intro r' hr' k h1 h2
    exfalso
    dsimp only at h2
    by_cases hh : r' = r
    · subst hh; rw [setAt_same] at h2; dsimp only at h2; omega
    · rw [setAt_ne _ _ hh] at h2; omega

end

theorem Reachable.paid {cfg : Cfg D B} {mate : Loc → Option Loc} (L : Linked cfg mate)
    {level : Nat → Nat → Nat → Nat} {b : Nat} (V : Live cfg mate level b) {s : State D B}
    (h : Reachable cfg s) : Paid cfg level s := by
  induction h with
  | init => exact Paid.start cfg level
  | step h0 hs ih => exact ih.step L V h0 hs

/-- Number of tasks. -/
def Cfg.tasks (cfg : Cfg D B) : Nat := ∑ r ∈ Finset.range cfg.nRanks, cfg.nAngles * (cfg.mesh r).nCells

theorem total_le {cfg : Cfg D B} {mate : Loc → Option Loc} (L : Linked cfg mate) {s : State D B}
    (h : Reachable cfg s) : total s.log ≤ cfg.tasks := by
  have I := h.inv L
  rw [total_eq (n := cfg.nRanks) (fun r c a k hm => (ordered_append_mem I.ordered ⟨k, hm⟩).1)]
  apply Finset.sum_le_sum
  intro r hr
  have := I.rem r (Finset.mem_range.1 hr)
  omega

/-- The number of rounds of a rank is bounded. -/
def RoundBound (cfg : Cfg D B) (b : Nat) (s : State D B) : Prop :=
  ∀ r < cfg.nRanks, match (s.rank r).phase with
    | .computing _ => (s.rank r).round ≤ b
    | .exchanging false _ _ => (s.rank r).round ≤ b + 1
    | .closing => (s.rank r).round ≤ b + 1
    | .exchanging true _ _ => (s.rank r).round ≤ b + 2
    | .finished => (s.rank r).round ≤ b + 2

section
variable {cfg : Cfg D B} {mate : Loc → Option Loc} (L : Linked cfg mate)
  {level : Nat → Nat → Nat → Nat} {b : Nat} (V : Live cfg mate level b)
include L V

theorem round_of_remaining {s : State D B} (h : Reachable cfg s) {r : Nat} (hr : r < cfg.nRanks)
    (h0 : 0 < (s.rank r).remaining) : (s.rank r).round ≤ cfg.tasks + b := by
  have I := h.inv L
  have hrem := I.rem r hr
  have hex : ∃ c < (cfg.mesh r).nCells, ∃ a < cfg.nAngles, ¬ Done s.log r c a := by
    by_contra hno
    push Not at hno
    have hsub : Finset.range (cfg.mesh r).nCells ×ˢ Finset.range cfg.nAngles ⊆
        (tasksOf s.log r).toFinset := by
      rintro ⟨c, a⟩ hx
      simp only [Finset.mem_product, Finset.mem_range] at hx
      rw [List.mem_toFinset, mem_tasksOf]
      exact hno c hx.1 a hx.2
    have h1 := Finset.card_le_card hsub
    have h2 := List.toFinset_card_le (tasksOf s.log r)
    rw [length_tasksOf] at h2
    rw [Finset.card_product, Finset.card_range, Finset.card_range, Nat.mul_comm] at h1
    omega
  obtain ⟨c, hc, a, ha, hnd⟩ := hex
  have h1 := h.paid L V r hr _ le_rfl c hc a ha (fun k hk => absurd ⟨k, hk⟩ hnd)
  have h2 := updCount_le_total s.log (s.rank r).round
  have h3 := total_le L h
  have h4 := V.bound r c a hr hc ha
  omega

theorem roundBound_loop {s : State D B} (h : Reachable cfg s) {r : Nat} (hr : r < cfg.nRanks)
    (hp : (s.rank r).phase = loopTest cfg (s.rank r).remaining)
    (hle : (s.rank r).round ≤ cfg.tasks + b + 1) :
    match (s.rank r).phase with
    | .computing _ => (s.rank r).round ≤ cfg.tasks + b
    | .exchanging false _ _ => (s.rank r).round ≤ cfg.tasks + b + 1
    | .closing => (s.rank r).round ≤ cfg.tasks + b + 1
    | .exchanging true _ _ => (s.rank r).round ≤ cfg.tasks + b + 2
    | .finished => (s.rank r).round ≤ cfg.tasks + b + 2 := by
  rw [hp]
  unfold loopTest
  by_cases h0 : 0 < (s.rank r).remaining
  · rw [if_pos h0]; exact round_of_remaining L V h hr h0
  · rw [if_neg h0]
    by_cases h1 : cfg.doComm = true ∧ cfg.protocol = .tycho
    · rw [if_pos h1]; exact hle
    · rw [if_neg h1]; exact Nat.le_succ_of_le hle

theorem Reachable.roundBound {s : State D B} (h : Reachable cfg s) : RoundBound cfg (cfg.tasks + b) s := by
  induction h with
  | init =>
    intro r hr
    exact roundBound_loop L V Reachable.init hr rfl (by simp [initState, initRank])
  | @step s s' h0 hs ih =>
    intro r hr
    have hr' := h0.step hs
    cases hs with
    | compute r' g steps l1 l2 t hr0 hg hphase hq htop hsteps =>
      have h1 := ih r' hr0
      rw [hphase] at h1
      by_cases hh : r = r'
      · subst hh; dsimp only; rw [setAt_same]; dsimp only; rw [computeOne_round]; exact h1
      · dsimp only; rw [setAt_ne _ _ hh]; exact ih r hr
    | skip r' steps hr0 hphase hdone hcomm =>
      have h1 := ih r' hr0
      rw [hphase] at h1
      by_cases hh : r = r'
      · subst hh
        apply roundBound_loop L V hr' hr0
        · dsimp only; rw [setAt_same]
        · dsimp only; rw [setAt_same]; dsimp only at h1 ⊢; omega
      · dsimp only; rw [setAt_ne _ _ hh]; exact ih r hr
    | send r' steps hr0 hphase hdone hcomm =>
      have h1 := ih r' hr0
      rw [hphase] at h1
      by_cases hh : r = r'
      · subst hh; dsimp only; rw [setAt_same]; dsimp only at h1 ⊢; omega
      · dsimp only; rw [setAt_ne _ _ hh]; exact ih r hr
    | kill r' hr0 hphase =>
      have h1 := ih r' hr0
      rw [hphase] at h1
      by_cases hh : r = r'
      · subst hh; dsimp only; rw [setAt_same]; dsimp only at h1 ⊢; omega
      · dsimp only; rw [setAt_ne _ _ hh]; exact ih r hr
    | recv r' q kill p1 p2 got m ms hr0 hphase hchan hcap =>
      have h1 := ih r' hr0
      rw [hphase] at h1
      by_cases hh : r = r'
      · subst hh; dsimp only; rw [setAt_same]
        cases kill <;> exact h1
      · dsimp only; rw [setAt_ne _ _ hh]; exact ih r hr
    | miss r' q kill ps got hr0 hphase hcap hsends =>
      have h1 := ih r' hr0
      rw [hphase] at h1
      by_cases hh : r = r'
      · subst hh; dsimp only; rw [setAt_same]
        cases kill <;> exact h1
      · dsimp only; rw [setAt_ne _ _ hh]; exact ih r hr
    | unpack r' got hr0 hphase hsends =>
      have h1 := ih r' hr0
      rw [hphase] at h1
      by_cases hh : r = r'
      · subst hh
        apply roundBound_loop L V hr' hr0
        · dsimp only; rw [setAt_same, unpackAll_phase, unpackAll_remaining]
        · dsimp only; rw [setAt_same, unpackAll_round]; exact h1
      · dsimp only; rw [setAt_ne _ _ hh]; exact ih r hr
    | close r' got hr0 hphase hsends =>
      have h1 := ih r' hr0
      rw [hphase] at h1
      by_cases hh : r = r'
      · subst hh; dsimp only; rw [setAt_same]; exact h1
      · dsimp only; rw [setAt_ne _ _ hh]; exact ih r hr

theorem round_le {s : State D B} (h : Reachable cfg s) {r : Nat} (hr : r < cfg.nRanks) :
    (s.rank r).round ≤ cfg.tasks + b + 2 := by
  have h1 := h.roundBound L V r hr
  rcases hp : (s.rank r).phase with st | ⟨k, ps, got⟩ | _ | _ <;> rw [hp] at h1
  · dsimp only at h1; omega
  · cases k <;> dsimp only at h1 <;> omega
  · dsimp only at h1; omega
  · exact h1

end
end Verif.Traverse
