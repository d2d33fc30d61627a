import Verif.Traverse.Lemmas9

set_option linter.unusedSectionVars false

namespace Verif.Traverse
open Classical List

variable {D B : Type}

/-- What the update of a cell reads and writes: `obs` is the result kept for a cell and angle, `bnd`
what was received for a side and angle. `ok` are data objects on which no failure has occurred. -/
structure Frame (cfg : Cfg D B) (V : Type) where
  ok : D → Prop
  obs : Nat → D → Nat → Nat → V
  bnd : Nat → D → Nat → Nat → B
  init_ok : ∀ r < cfg.nRanks, ok (cfg.init r)
  upd_ok : ∀ r c a d, r < cfg.nRanks → c < (cfg.mesh r).nCells → a < cfg.nAngles → ok d →
    ok ((cfg.data r).update c a (adjCellsSides (cfg.mesh r) c) (bdryType (cfg.mesh r) a c) d)
  set_ok : ∀ r s a b d, r < cfg.nRanks → ok d → ok ((cfg.data r).setSideData s a b d)
  upd_self : ∀ r c a d d', r < cfg.nRanks → c < (cfg.mesh r).nCells → a < cfg.nAngles → ok d → ok d' →
    (∀ f, cfg.inDir r a c f = true →
      (∀ n, (cfg.mesh r).adjCell c f = some n → obs r d n a = obs r d' n a) ∧
      (∀ q, (cfg.mesh r).adjCell c f = none → (cfg.mesh r).adjRank c f = some q →
        bnd r d ((cfg.mesh r).side c f) a = bnd r d' ((cfg.mesh r).side c f) a)) →
    obs r ((cfg.data r).update c a (adjCellsSides (cfg.mesh r) c) (bdryType (cfg.mesh r) a c) d) c a =
    obs r ((cfg.data r).update c a (adjCellsSides (cfg.mesh r) c) (bdryType (cfg.mesh r) a c) d') c a
  upd_obs : ∀ r c a d c' a', r < cfg.nRanks → c < (cfg.mesh r).nCells → a < cfg.nAngles → ok d →
    (c' ≠ c ∨ a' ≠ a) →
    obs r ((cfg.data r).update c a (adjCellsSides (cfg.mesh r) c) (bdryType (cfg.mesh r) a c) d) c' a' =
    obs r d c' a'
  upd_bnd : ∀ r c a d s a', r < cfg.nRanks → c < (cfg.mesh r).nCells → a < cfg.nAngles → ok d →
    bnd r ((cfg.data r).update c a (adjCellsSides (cfg.mesh r) c) (bdryType (cfg.mesh r) a c) d) s a' =
    bnd r d s a'
  set_self : ∀ r s a b d, r < cfg.nRanks → ok d → bnd r ((cfg.data r).setSideData s a b d) s a = b
  set_bnd : ∀ r s a b d s' a', r < cfg.nRanks → ok d → (s' ≠ s ∨ a' ≠ a) →
    bnd r ((cfg.data r).setSideData s a b d) s' a' = bnd r d s' a'
  set_obs : ∀ r s a b d c a', r < cfg.nRanks → ok d →
    obs r ((cfg.data r).setSideData s a b d) c a' = obs r d c a'
  get : ∀ r c f a d d', r < cfg.nRanks → ok d → ok d' → obs r d c a = obs r d' c a →
    (cfg.data r).getData c f a d = (cfg.data r).getData c f a d'

/-- The data objects satisfy the upwind system: recomputing any cell changes nothing, what a side
holds is what its cell on the other side sends, and sides nothing is sent to are as at the start. -/
structure Solves (cfg : Cfg D B) (mate : Loc → Option Loc) {V : Type} (F : Frame cfg V) (d : Nat → D) :
    Prop where
  ok : ∀ r < cfg.nRanks, F.ok (d r)
  cell : ∀ r c a, r < cfg.nRanks → c < (cfg.mesh r).nCells → a < cfg.nAngles →
    F.obs r (d r) c a = F.obs r ((cfg.data r).update c a (adjCellsSides (cfg.mesh r) c)
      (bdryType (cfg.mesh r) a c) (d r)) c a
  side : ∀ x y a, cfg.In x → mate x = some y → y.rank ≠ x.rank → a < cfg.nAngles → Needs cfg mate x a →
    F.bnd x.rank (d x.rank) ((cfg.mesh x.rank).side x.cell x.face) a =
      (cfg.data y.rank).getData y.cell y.face a (d y.rank)
  rest : ∀ x y a, cfg.In x → mate x = some y → y.rank ≠ x.rank → a < cfg.nAngles → ¬ Needs cfg mate x a →
    F.bnd x.rank (d x.rank) ((cfg.mesh x.rank).side x.cell x.face) a =
      F.bnd x.rank (cfg.init x.rank) ((cfg.mesh x.rank).side x.cell x.face) a

/-- All tasks are in the log. -/
def Complete (cfg : Cfg D B) (log : List (Event B)) : Prop :=
  ∀ r c a, r < cfg.nRanks → c < (cfg.mesh r).nCells → a < cfg.nAngles → Done log r c a

section
variable {cfg : Cfg D B} {mate : Loc → Option Loc} (L : Linked cfg mate) {V : Type} (F : Frame cfg V)
include L

theorem Frame.replay_ok {log : List (Event B)} (h : Ordered cfg mate log) {r : Nat}
    (hr : r < cfg.nRanks) : F.ok (replay cfg r log) := by
  induction log using List.reverseRecOn with
  | nil => exact F.init_ok r hr
  | append_singleton log e ih =>
    have ih := ih (ordered_prefix h)
    have he := h log e [] rfl
    rw [replay_snoc]
    cases e with
    | upd r' c a k =>
      simp only [applyEvent]
      split
      · rename_i hh; subst hh; exact F.upd_ok _ _ _ _ hr he.2.1 he.2.2.1 ih
      · exact ih
    | side r' s a b =>
      simp only [applyEvent]
      split
      · exact F.set_ok _ _ _ _ _ hr ih
      · exact ih

/-- A result stays once computed. -/
theorem Frame.obs_stays {l1 l2 : List (Event B)} (h : Ordered cfg mate (l1 ++ l2)) {r c a : Nat}
    (hd : Done l1 r c a) : F.obs r (replay cfg r (l1 ++ l2)) c a = F.obs r (replay cfg r l1) c a := by
  have hr := (ordered_append_mem (ordered_prefix h) hd).1
  induction l2 using List.reverseRecOn with
  | nil => simp
  | append_singleton l2 e ih =>
    rw [← List.append_assoc] at h ⊢
    have ih := ih (ordered_prefix h)
    have he := h (l1 ++ l2) e [] rfl
    have hok := F.replay_ok L (ordered_prefix h) hr
    rw [replay_snoc, ← ih]
    cases e with
    | upd r' c' a' k =>
      simp only [applyEvent]
      split
      · rename_i hh
        subst hh
        apply F.upd_obs _ _ _ _ _ _ hr he.2.1 he.2.2.1 hok
        by_contra hno
        push Not at hno
        obtain ⟨rfl, rfl⟩ := hno
        exact he.2.2.2.1 (done_append.2 (Or.inl hd))
      · rfl
    | side r' s a b =>
      simp only [applyEvent]
      split
      · exact F.set_obs _ _ _ _ _ _ _ hr hok
      · rfl

/-- Received data stays. -/
theorem Frame.bnd_stays {l1 l2 : List (Event B)} (h : Ordered cfg mate (l1 ++ l2)) {r s a : Nat}
    (hr : r < cfg.nRanks) (hd : Delivered l1 r s a) :
    F.bnd r (replay cfg r (l1 ++ l2)) s a = F.bnd r (replay cfg r l1) s a := by
  induction l2 using List.reverseRecOn with
  | nil => simp
  | append_singleton l2 e ih =>
    rw [← List.append_assoc] at h ⊢
    have ih := ih (ordered_prefix h)
    have he := h (l1 ++ l2) e [] rfl
    have hok := F.replay_ok L (ordered_prefix h) hr
    rw [replay_snoc, ← ih]
    cases e with
    | upd r' c' a' k =>
      simp only [applyEvent]
      split
      · rename_i hh
        subst hh
        exact F.upd_bnd _ _ _ _ _ _ hr he.2.1 he.2.2.1 hok
      · rfl
    | side r' s' a' b =>
      simp only [applyEvent]
      split
      · rename_i hh
        subst hh
        apply F.set_bnd _ _ _ _ _ _ _ hr hok
        by_contra hno
        push Not at hno
        obtain ⟨rfl, rfl⟩ := hno
        obtain ⟨x, y, -, -, -, -, -, -, -, hnd, -⟩ := he
        exact hnd (delivered_append.2 (Or.inl hd))
      · rfl

/-- What was not received is as at the start. -/
theorem Frame.bnd_init {log : List (Event B)} (h : Ordered cfg mate log) {r s a : Nat}
    (hr : r < cfg.nRanks) (hd : ¬ Delivered log r s a) :
    F.bnd r (replay cfg r log) s a = F.bnd r (cfg.init r) s a := by
  induction log using List.reverseRecOn with
  | nil => rfl
  | append_singleton log e ih =>
    have ih := ih (ordered_prefix h) (fun h' => hd (delivered_append.2 (Or.inl h')))
    have he := h log e [] rfl
    have hok := F.replay_ok L (ordered_prefix h) hr
    rw [replay_snoc, ← ih]
    cases e with
    | upd r' c' a' k =>
      simp only [applyEvent]
      split
      · rename_i hh
        subst hh
        exact F.upd_bnd _ _ _ _ _ _ hr he.2.1 he.2.2.1 hok
      · rfl
    | side r' s' a' b =>
      simp only [applyEvent]
      split
      · rename_i hh
        subst hh
        apply F.set_bnd _ _ _ _ _ _ _ hr hok
        by_contra hno
        push Not at hno
        obtain ⟨rfl, rfl⟩ := hno
        exact hd ⟨b, by simp⟩
      · rfl

/-- The side a face receives on. -/
theorem needs_of_delivered {log : List (Event B)} (h : Ordered cfg mate log) {x y : Loc} {a : Nat}
    (hx : cfg.In x) (hy : mate x = some y) (hne : y.rank ≠ x.rank)
    (hd : Delivered log x.rank ((cfg.mesh x.rank).side x.cell x.face) a) :
    Needs cfg mate x a ∧ ∃ l1 b l2, log = l1 ++ Event.side x.rank
      ((cfg.mesh x.rank).side x.cell x.face) a b :: l2 ∧ SentBy cfg l1 y a b := by
  obtain ⟨b, hb⟩ := hd
  obtain ⟨l1, l2, heq⟩ := List.append_of_mem hb
  obtain ⟨x', y', hr', hx', hm', hne', -, hs', hn', -, -, hsent⟩ := h l1 _ l2 heq
  have : x' = x := L.side_inj x' x y' y hx' hx hm' hy (by rw [hr']; exact hne') hne hr'
    (by rw [hr']; exact hs')
  subst this
  rw [hy] at hm'
  injection hm' with hm'
  subst hm'
  exact ⟨hn', l1, b, l2, heq, hsent⟩

theorem Frame.solves {log : List (Event B)} (h : Ordered cfg mate log) (hc : Complete cfg log) :
    Solves cfg mate F (fun r => replay cfg r log) := by
  -- an update sees final values
  have hfix : ∀ l1 r c a k l2, log = l1 ++ Event.upd r c a k :: l2 →
      F.obs r (replay cfg r log) c a = F.obs r ((cfg.data r).update c a (adjCellsSides (cfg.mesh r) c)
        (bdryType (cfg.mesh r) a c) (replay cfg r log)) c a := by
    intro l1 r c a k l2 heq
    obtain ⟨hr, hcc, ha, hnd, hup⟩ := h l1 _ l2 heq
    have hlog : Ordered cfg mate (l1 ++ [Event.upd r c a k] ++ l2) := by
      rw [List.append_assoc, List.singleton_append, ← heq]; exact h
    have hlog1 : Ordered cfg mate (l1 ++ (Event.upd r c a k :: l2)) := by rw [← heq]; exact h
    have h1 : F.obs r (replay cfg r log) c a = F.obs r (replay cfg r (l1 ++ [Event.upd r c a k])) c a := by
      have := F.obs_stays L hlog (r := r) (c := c) (a := a) ⟨k, by simp⟩
      rw [← this, heq]
      simp
    rw [h1, replay_snoc]
    simp only [applyEvent, if_true]
    apply F.upd_self _ _ _ _ _ hr hcc ha (F.replay_ok L (ordered_prefix hlog1) hr) (F.replay_ok L h hr)
    intro f hf
    constructor
    · intro n hn
      obtain ⟨y, hy, hyr, hyc⟩ := adjCell_some (x := ⟨r, c, f⟩) L ⟨hr, hcc⟩ hn
      have hd := (hup f y hy ⟨hf, y, hy, Or.inr hyr⟩).1
      rw [hyr, hyc] at hd
      have := F.obs_stays L hlog1 hd
      rw [heq, this]
    · intro q hn hq
      obtain ⟨y, hy, hyr, hyq⟩ := adjCell_none (x := ⟨r, c, f⟩) L ⟨hr, hcc⟩ hn hq
      by_cases hneed : Needs cfg mate ⟨r, c, f⟩ a
      · have hd := (hup f y hy hneed).2 hyr
        have := F.bnd_stays L hlog1 hr hd
        rw [heq, this]
      · have hnd : ¬ Delivered log r ((cfg.mesh r).side c f) a := fun hd =>
          hneed (needs_of_delivered (x := ⟨r, c, f⟩) L h ⟨hr, hcc⟩ hy hyr hd).1
        rw [F.bnd_init L h hr hnd, F.bnd_init L (ordered_prefix hlog1) hr]
        intro hd
        apply hnd
        rw [heq]
        exact delivered_append.2 (Or.inl hd)
  refine ⟨fun r hr => F.replay_ok L h hr, ?_, ?_, ?_⟩
  · intro r c a hr hcc ha
    obtain ⟨k, hk⟩ := hc r c a hr hcc ha
    obtain ⟨l1, l2, heq⟩ := List.append_of_mem hk
    exact hfix l1 r c a k l2 heq
  · intro x y a hx hy hne ha hn
    obtain ⟨k, hk⟩ := hc x.rank x.cell a hx.1 hx.2 ha
    obtain ⟨l1, l2, heq⟩ := List.append_of_mem hk
    obtain ⟨-, -, -, -, hup⟩ := h l1 _ l2 heq
    have hd1 := (hup x.face y hy hn).2 hne
    have hd : Delivered log x.rank ((cfg.mesh x.rank).side x.cell x.face) a := by
      rw [heq]; exact delivered_append.2 (Or.inl hd1)
    obtain ⟨-, m1, b, m2, heq2, n1, k', n2, heq3, hb⟩ := needs_of_delivered L h hx hy hne hd
    have hl2 : Ordered cfg mate (m1 ++ [Event.side x.rank ((cfg.mesh x.rank).side x.cell x.face) a b] ++ m2) := by
      rw [List.append_assoc, List.singleton_append, ← heq2]; exact h
    have e1 : F.bnd x.rank (replay cfg x.rank log) ((cfg.mesh x.rank).side x.cell x.face) a = b := by
      have := F.bnd_stays L hl2 hx.1 (s := (cfg.mesh x.rank).side x.cell x.face) (a := a) ⟨b, by simp⟩
      rw [show log = m1 ++ [Event.side x.rank ((cfg.mesh x.rank).side x.cell x.face) a b] ++ m2 by
        rw [heq2]; simp, this, replay_snoc]
      simp only [applyEvent, if_true]
      exact F.set_self _ _ _ _ _ hx.1 (F.replay_ok L (ordered_prefix (ordered_prefix hl2)) hx.1)
    have hyin := L.mate_in x y hx hy
    have heq4 : log = n1 ++ [Event.upd y.rank y.cell a k'] ++
        (n2 ++ Event.side x.rank ((cfg.mesh x.rank).side x.cell x.face) a b :: m2) := by
      rw [heq2, heq3]; simp
    have hl3 := h
    rw [heq4] at hl3
    rw [e1, hb]
    apply F.get _ _ _ _ _ _ hyin.1 (F.replay_ok L (ordered_prefix hl3) hyin.1) (F.replay_ok L h hyin.1)
    rw [heq4]
    exact (F.obs_stays L hl3 ⟨k', by simp⟩).symm
  · intro x y a hx hy hne ha hn
    exact F.bnd_init L h hx.1 (fun hd => hn (needs_of_delivered L h hx hy hne hd).1)

/-- Two solutions of the upwind system agree. -/
theorem Frame.unique {log : List (Event B)} (h : Ordered cfg mate log) {d d' : Nat → D}
    (hs : Solves cfg mate F d) (hs' : Solves cfg mate F d') {r c a : Nat} (hd : Done log r c a) :
    F.obs r (d r) c a = F.obs r (d' r) c a := by
  induction log using List.reverseRecOn generalizing r c a with
  | nil => simp [Done] at hd
  | append_singleton log e ih =>
    have ih := @ih (ordered_prefix h)
    rcases done_append.1 hd with hd | hd
    · exact ih hd
    · cases e with
      | side r' s a' b => exact absurd hd done_side
      | upd r' c' a' k =>
        obtain ⟨rfl, rfl, rfl⟩ := done_single.1 hd
        obtain ⟨hr, hcc, ha, hnd, hup⟩ := h log _ [] rfl
        rw [hs.cell r c a hr hcc ha, hs'.cell r c a hr hcc ha]
        apply F.upd_self _ _ _ _ _ hr hcc ha (hs.ok r hr) (hs'.ok r hr)
        intro f hf
        constructor
        · intro n hn
          obtain ⟨y, hy, hyr, hyc⟩ := adjCell_some (x := ⟨r, c, f⟩) L ⟨hr, hcc⟩ hn
          have hd := (hup f y hy ⟨hf, y, hy, Or.inr hyr⟩).1
          rw [hyr, hyc] at hd
          exact ih hd
        · intro q hn hq
          obtain ⟨y, hy, hyr, hyq⟩ := adjCell_none (x := ⟨r, c, f⟩) L ⟨hr, hcc⟩ hn hq
          by_cases hneed : Needs cfg mate ⟨r, c, f⟩ a
          · have hd := (hup f y hy hneed).1
            have hyin := L.mate_in _ y ⟨hr, hcc⟩ hy
            have e1 := hs.side ⟨r, c, f⟩ y a ⟨hr, hcc⟩ hy hyr ha hneed
            have e2 := hs'.side ⟨r, c, f⟩ y a ⟨hr, hcc⟩ hy hyr ha hneed
            dsimp only at e1 e2
            rw [e1, e2]
            exact F.get _ _ _ _ _ _ hyin.1 (hs.ok _ hyin.1) (hs'.ok _ hyin.1) (ih hd)
          · have e1 := hs.rest ⟨r, c, f⟩ y a ⟨hr, hcc⟩ hy hyr ha hneed
            have e2 := hs'.rest ⟨r, c, f⟩ y a ⟨hr, hcc⟩ hy hyr ha hneed
            dsimp only at e1 e2
            rw [e1, e2]

end

theorem complete_of_finished {cfg : Cfg D B} {mate : Loc → Option Loc} (L : Linked cfg mate)
    {s : State D B} (h : Reachable cfg s) (hf : ∀ r < cfg.nRanks, (s.rank r).phase = .finished) :
    Complete cfg s.log := by
  intro r c a hr hc ha
  have I := h.inv L
  exact I.done_of_rem L hr (I.over r hr (by rw [hf r hr]; trivial)) hc ha

end Verif.Traverse
