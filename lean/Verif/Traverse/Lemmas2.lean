import Verif.Traverse.Lemmas
import Mathlib.Data.Finset.Prod
import Mathlib.Data.List.Perm.Basic

set_option linter.unusedSectionVars false

namespace Verif.Traverse
open Classical

variable {D B : Type}

/-- A counted dependency of `(r, c, a)` on face `f` has been met. -/
def Arr (cfg : Cfg D B) (mate : Loc → Option Loc) (log : List (Event B)) (r c a : Nat) (f : Face) :
    Prop :=
  ∃ y, mate ⟨r, c, f⟩ = some y ∧ cfg.outDir y.rank a y.cell y.face = true ∧
    ((y.rank = r ∧ Done log r y.cell a) ∨
      (y.rank ≠ r ∧ Delivered log r ((cfg.mesh r).side c f) a))

/-- Packets received and not unpacked from rank `q`. -/
def gotFrom (ph : Phase B) (q : Nat) : List (Packet B) :=
  match ph with
  | .exchanging _ _ got => (got.filter fun p => p.1 = q).map Prod.snd
  | _ => []

/-- All packets from `q` to `r` produced and not unpacked. -/
def transit (cfg : Cfg D B) (s : State D B) (q r : Nat) : List (Packet B) :=
  outbox cfg (s.rank q) r ++ ((s.chan q r).flatMap Msg.list ++ gotFrom (s.rank r).phase q)

def pcount (l : List (Packet B)) (gs a : Nat) : Nat := l.countP fun p => p.side = gs ∧ p.angle = a

noncomputable def dcount (log : List (Event B)) (r s a : Nat) : Nat :=
  log.countP fun e => e.slot = some (r, s, a)

/-- Number of updates of rank `r`. -/
noncomputable def ucount (log : List (Event B)) (r : Nat) : Nat :=
  log.countP fun e => ∃ c a, e.task = some (r, c, a)

/-- The global side number of a location. -/
def Cfg.gs (cfg : Cfg D B) (x : Loc) : Nat :=
  (cfg.mesh x.rank).lgSide ((cfg.mesh x.rank).side x.cell x.face)

/-- The packet is what `q` must send to `r` for one of its faces. -/
def GoodPacket (cfg : Cfg D B) (mate : Loc → Option Loc) (log : List (Event B)) (q r : Nat)
    (p : Packet B) : Prop :=
  ∃ x y, cfg.In x ∧ x.rank = q ∧ mate x = some y ∧ y.rank = r ∧ q ≠ r ∧ cfg.doComm = true ∧
    p.angle < cfg.nAngles ∧ cfg.outDir x.rank p.angle x.cell x.face = true ∧
    p.side = cfg.gs x ∧ SentBy cfg log x p.angle p.data

/-- Phases in which the rank has nothing left to compute. -/
def Phase.over : Phase B → Prop
  | .exchanging kill _ _ => kill = true
  | .closing => True
  | .finished => True
  | .computing _ => False

structure Inv (cfg : Cfg D B) (mate : Loc → Option Loc) (s : State D B) : Prop where
  ri : ∀ r < cfg.nRanks, RI cfg r (s.rank r).numDeps (s.rank r).queue (Done s.log r)
    (Arr cfg mate s.log r)
  rem : ∀ r < cfg.nRanks, (s.rank r).remaining + ucount s.log r = cfg.nAngles * (cfg.mesh r).nCells
  data : ∀ r < cfg.nRanks, (s.rank r).data = replay cfg r s.log
  ordered : Ordered cfg mate s.log
  good : ∀ q r, ∀ p ∈ transit cfg s q r, GoodPacket cfg mate s.log q r p
  count : ∀ x y a, cfg.In x → mate x = some y → y.rank ≠ x.rank → a < cfg.nAngles →
    cfg.doComm = true → cfg.outDir x.rank a x.cell x.face = true →
    pcount (transit cfg s x.rank y.rank) (cfg.gs x) a +
      dcount s.log y.rank ((cfg.mesh y.rank).side y.cell y.face) a =
      if Done s.log x.rank x.cell a then 1 else 0
  over : ∀ r < cfg.nRanks, (s.rank r).phase.over → (s.rank r).remaining = 0
  killed : ∀ q r, Msg.kill ∈ s.chan q r → q < cfg.nRanks ∧ (s.rank q).remaining = 0
  dark : ∀ q r, (s.rank r).dark q = true → q < cfg.nRanks ∧ (s.rank q).remaining = 0

/-! ### About logs -/

theorem done_append {l1 l2 : List (Event B)} {r c a : Nat} :
    Done (l1 ++ l2) r c a ↔ Done l1 r c a ∨ Done l2 r c a := by
  unfold Done; simp only [List.mem_append]; constructor
  · rintro ⟨k, h | h⟩ <;> [left; right] <;> exact ⟨k, h⟩
  · rintro (⟨k, h⟩ | ⟨k, h⟩) <;> exact ⟨k, by tauto⟩

theorem delivered_append {l1 l2 : List (Event B)} {r c a : Nat} :
    Delivered (l1 ++ l2) r c a ↔ Delivered l1 r c a ∨ Delivered l2 r c a := by
  unfold Delivered; simp only [List.mem_append]; constructor
  · rintro ⟨k, h | h⟩ <;> [left; right] <;> exact ⟨k, h⟩
  · rintro (⟨k, h⟩ | ⟨k, h⟩) <;> exact ⟨k, by tauto⟩

theorem done_single {r c a r' c' a' k : Nat} :
    Done [Event.upd (B := B) r' c' a' k] r c a ↔ r = r' ∧ c = c' ∧ a = a' := by
  simp [Done]

theorem done_side {r c a r' c' a' : Nat} {b : B} : ¬ Done [Event.side r' c' a' b] r c a := by
  simp [Done]

theorem delivered_upd {r c a r' c' a' k : Nat} :
    ¬ Delivered [Event.upd (B := B) r' c' a' k] r c a := by simp [Delivered]

theorem delivered_side {r c a r' c' a' : Nat} {b : B} :
    Delivered [Event.side r' c' a' b] r c a ↔ r = r' ∧ c = c' ∧ a = a' := by
  simp [Delivered]

theorem delivered_iff {log : List (Event B)} {r s a : Nat} :
    Delivered log r s a ↔ 0 < dcount log r s a := by
  unfold Delivered dcount
  rw [List.countP_pos_iff]
  constructor
  · rintro ⟨b, h⟩; exact ⟨_, h, by simp [Event.slot]⟩
  · rintro ⟨e, h, he⟩
    cases e with
    | upd => simp [Event.slot] at he
    | side r' s' a' b =>
      simp [Event.slot] at he
      obtain ⟨rfl, rfl, rfl⟩ := he
      exact ⟨b, h⟩

theorem sentBy_append {cfg : Cfg D B} {log l : List (Event B)} {y : Loc} {a : Nat} {b : B}
    (h : SentBy cfg log y a b) : SentBy cfg (log ++ l) y a b := by
  obtain ⟨l1, k, l2, rfl, hb⟩ := h
  exact ⟨l1, k, l2 ++ l, by simp, hb⟩

theorem good_append {cfg : Cfg D B} {mate : Loc → Option Loc} {log l : List (Event B)} {q r : Nat}
    {p : Packet B} (h : GoodPacket cfg mate log q r p) : GoodPacket cfg mate (log ++ l) q r p := by
  obtain ⟨x, y, h1, h2, h3, h4, h5, h6, h7, h8, h9, h10⟩ := h
  exact ⟨x, y, h1, h2, h3, h4, h5, h6, h7, h8, h9, sentBy_append h10⟩

theorem ordered_snoc {cfg : Cfg D B} {mate : Loc → Option Loc} {log : List (Event B)} {e : Event B}
    (h : Ordered cfg mate log) (he : InOrder cfg mate log e) : Ordered cfg mate (log ++ [e]) := by
  intro l1 e' l2 heq
  rcases List.eq_nil_or_concat l2 with rfl | ⟨l, e'', rfl⟩
  · have := List.append_inj_left' heq rfl
    have h2 := List.append_inj_right' heq rfl
    simp at h2
    subst this; subst h2; exact he
  · rw [List.concat_eq_append, ← List.cons_append, ← List.append_assoc] at heq
    exact h l1 e' l (List.append_inj_left' heq rfl)

theorem ordered_prefix {cfg : Cfg D B} {mate : Loc → Option Loc} {l1 l2 : List (Event B)}
    (h : Ordered cfg mate (l1 ++ l2)) : Ordered cfg mate l1 := by
  intro k1 e k2 heq
  exact h k1 e (k2 ++ l2) (by rw [heq]; simp)

theorem replay_snoc (cfg : Cfg D B) (r : Nat) (log : List (Event B)) (e : Event B) :
    replay cfg r (log ++ [e]) = applyEvent cfg r (replay cfg r log) e := by
  simp [replay]

/-- Tasks of a rank in the log. -/
def tasksOf (log : List (Event B)) (r : Nat) : List (Nat × Nat) :=
  log.filterMap fun e => match e with
    | .upd r' c a _ => if r' = r then some (c, a) else none
    | .side .. => none

theorem mem_tasksOf {log : List (Event B)} {r c a : Nat} : (c, a) ∈ tasksOf log r ↔ Done log r c a := by
  unfold tasksOf Done
  rw [List.mem_filterMap]
  constructor
  · rintro ⟨e, he, h⟩
    cases e with
    | side => simp at h
    | upd r' c' a' k =>
      simp at h
      obtain ⟨rfl, rfl, rfl⟩ := h
      exact ⟨k, he⟩
  · rintro ⟨k, h⟩; exact ⟨_, h, by simp⟩

theorem length_tasksOf (log : List (Event B)) (r : Nat) : (tasksOf log r).length = ucount log r := by
  induction log with
  | nil => rfl
  | cons e log ih =>
    unfold tasksOf ucount at *
    rw [List.filterMap_cons, List.countP_cons]
    cases e with
    | side => simp [ih, Event.task]
    | upd r' c' a' k =>
      by_cases hr : r' = r
      · subst hr; simp [ih, Event.task]
      · simp [ih, Event.task, hr]

theorem ordered_append_mem {cfg : Cfg D B} {mate : Loc → Option Loc} {log : List (Event B)}
    (h : Ordered cfg mate log) {r c a : Nat} (hd : Done log r c a) :
    r < cfg.nRanks ∧ c < (cfg.mesh r).nCells ∧ a < cfg.nAngles := by
  obtain ⟨k, hm⟩ := hd
  obtain ⟨l1, l2, heq⟩ := List.append_of_mem hm
  have := h l1 _ l2 heq
  exact ⟨this.1, this.2.1, this.2.2.1⟩

theorem nodup_tasksOf {cfg : Cfg D B} {mate : Loc → Option Loc} {log : List (Event B)}
    (h : Ordered cfg mate log) (r : Nat) : (tasksOf log r).Nodup := by
  induction log using List.reverseRecOn with
  | nil => simp [tasksOf]
  | append_singleton log e ih =>
    have ih := ih (ordered_prefix h)
    have he := h log e [] rfl
    unfold tasksOf at *
    rw [List.filterMap_append, List.nodup_append]
    cases e with
    | side => simp [ih]
    | upd r' c a k =>
      by_cases hr : r' = r
      · subst hr
        refine ⟨ih, by simp, ?_⟩
        intro x hx y hy
        simp at hy; subst hy
        rintro rfl
        exact he.2.2.2.1 (mem_tasksOf.1 hx)
      · simp [ih, hr]

/-- No task left: all are done. -/
theorem all_done {cfg : Cfg D B} {mate : Loc → Option Loc} {log : List (Event B)}
    (h : Ordered cfg mate log) {r : Nat}
    (hcount : cfg.nAngles * (cfg.mesh r).nCells ≤ ucount log r) {c a : Nat}
    (hc : c < (cfg.mesh r).nCells) (ha : a < cfg.nAngles) : Done log r c a := by
  have hsub : (tasksOf log r).toFinset ⊆ Finset.range (cfg.mesh r).nCells ×ˢ Finset.range cfg.nAngles := by
    rintro ⟨c', a'⟩ hx
    rw [List.mem_toFinset, mem_tasksOf] at hx
    obtain ⟨-, h1, h2⟩ := ordered_append_mem h hx
    simp [h1, h2]
  have heq := Finset.eq_of_subset_of_card_le hsub (by
    rw [List.toFinset_card_of_nodup (nodup_tasksOf h r), length_tasksOf, Finset.card_product,
      Finset.card_range, Finset.card_range, Nat.mul_comm]
    exact hcount)
  have : (c, a) ∈ (tasksOf log r).toFinset := by rw [heq]; simp [hc, ha]
  rw [List.mem_toFinset, mem_tasksOf] at this
  exact this

/-! ### About faces -/

section faces
variable {cfg : Cfg D B} {mate : Loc → Option Loc} (L : Linked cfg mate)
include L

theorem counts_iff {x : Loc} (hx : cfg.In x) {a : Nat} :
    cfg.counts x.rank a x.cell x.face = true ↔ Needs cfg mate x a := by
  unfold Needs Cfg.counts
  rcases hm : mate x with _ | y
  · obtain ⟨h1, h2⟩ := L.ext x hx hm
    simp [h1, h2]
  · by_cases hr : y.rank = x.rank
    · obtain ⟨h1, h2⟩ := L.near x y hx hm hr
      cases hd : cfg.doComm <;> simp [h1, h2, hr]
    · obtain ⟨h1, h2⟩ := L.far x y hx hm hr
      cases hd : cfg.doComm <;> simp [h1, h2, hr]

theorem adjCell_some {x : Loc} (hx : cfg.In x) {c : Nat}
    (h : (cfg.mesh x.rank).adjCell x.cell x.face = some c) :
    ∃ y, mate x = some y ∧ y.rank = x.rank ∧ y.cell = c := by
  rcases hm : mate x with _ | y
  · rw [(L.ext x hx hm).1] at h; simp at h
  · by_cases hr : y.rank = x.rank
    · rw [(L.near x y hx hm hr).1] at h; simp at h
      exact ⟨y, rfl, hr, h⟩
    · rw [(L.far x y hx hm hr).1] at h; simp at h

theorem adjCell_none {x : Loc} (hx : cfg.In x) {q : Nat}
    (h : (cfg.mesh x.rank).adjCell x.cell x.face = none)
    (h2 : (cfg.mesh x.rank).adjRank x.cell x.face = some q) :
    ∃ y, mate x = some y ∧ y.rank ≠ x.rank ∧ y.rank = q := by
  rcases hm : mate x with _ | y
  · rw [(L.ext x hx hm).2] at h2; simp at h2
  · by_cases hr : y.rank = x.rank
    · rw [(L.near x y hx hm hr).1] at h; simp at h
    · rw [(L.far x y hx hm hr).2] at h2; simp at h2
      exact ⟨y, rfl, hr, h2⟩

theorem mate_inj {x x' y : Loc} (hx : cfg.In x) (hx' : cfg.In x') (h : mate x = some y)
    (h' : mate x' = some y) : x = x' := by
  have h1 := L.mate_symm x y hx h
  rw [L.mate_symm x' y hx' h'] at h1
  exact (Option.some.inj h1).symm

/-- Packets to one rank carry different global sides. -/
theorem gs_inj {x x' y y' : Loc} (hx : cfg.In x) (hx' : cfg.In x') (h : mate x = some y)
    (h' : mate x' = some y') (hr : y.rank ≠ x.rank) (hr' : y'.rank ≠ x'.rank)
    (hyy : y.rank = y'.rank) (hg : cfg.gs x = cfg.gs x') : x = x' := by
  have h1 := L.side_eq x y hx h hr
  have h2 := L.side_eq x' y' hx' h' hr'
  unfold Cfg.gs at hg
  rw [hg, hyy, h2] at h1
  have hy := L.mate_in x y hx h
  have hy' := L.mate_in x' y' hx' h'
  have := L.side_inj y y' x x' hy hy' (L.mate_symm x y hx h) (L.mate_symm x' y' hx' h') hr.symm hr'.symm
    hyy (by rw [hyy]; exact h1.symm)
  subst this
  exact mate_inj L hx hx' h h'

theorem mem_adjRanks {x y : Loc} (hx : cfg.In x) (h : mate x = some y) (hr : y.rank ≠ x.rank) :
    y.rank ∈ (cfg.mesh x.rank).adjRanks := by
  obtain ⟨h1, h2⟩ := L.far x y hx h hr
  unfold RankMesh.adjRanks
  have key : ∀ (l acc : List Nat) (q : Nat), (q ∈ acc ∨ q ∈ l) →
      q ∈ l.foldl (fun l q => if q ∈ l then l else l ++ [q]) acc := by
    intro l
    induction l with
    | nil => intro acc q hq; simpa using hq
    | cons b l ih =>
      intro acc q hq
      rw [List.foldl_cons]
      apply ih
      by_cases hb : b ∈ acc
      · rw [if_pos hb]
        rcases hq with hq | hq
        · exact Or.inl hq
        · rcases List.mem_cons.1 hq with rfl | hq
          · exact Or.inl hb
          · exact Or.inr hq
      · rw [if_neg hb]
        rcases hq with hq | hq
        · exact Or.inl (by simp [hq])
        · rcases List.mem_cons.1 hq with rfl | hq
          · exact Or.inl (by simp)
          · exact Or.inr hq
  apply key
  right
  rw [List.mem_flatMap]
  refine ⟨x.cell, by simpa using hx.2, ?_⟩
  rw [List.mem_filterMap]
  exact ⟨x.face, List.mem_finRange _, by rw [if_pos h1, h2]⟩

end faces

/-- The ranks adjacent, exactly. -/
theorem mem_adjRanks_iff {m : RankMesh} {q : Nat} : q ∈ m.adjRanks ↔
    ∃ c < m.nCells, ∃ f, m.adjCell c f = none ∧ m.adjRank c f = some q := by
  unfold RankMesh.adjRanks
  have key : ∀ (l acc : List Nat), (q ∈ l.foldl (fun l q => if q ∈ l then l else l ++ [q]) acc) ↔
      (q ∈ acc ∨ q ∈ l) := by
    intro l
    induction l with
    | nil => intro acc; simp
    | cons b l ih =>
      intro acc
      rw [List.foldl_cons, ih]
      by_cases hb : b ∈ acc
      · rw [if_pos hb]
        simp only [List.mem_cons]
        constructor
        · tauto
        · rintro (h | rfl | h) <;> tauto
      · rw [if_neg hb]
        simp only [List.mem_cons, List.mem_append, List.not_mem_nil, or_false]
        tauto
  rw [key]
  simp only [List.not_mem_nil, false_or, List.mem_flatMap, List.mem_range, List.mem_filterMap,
    List.mem_finRange, true_and]
  constructor
  · rintro ⟨c, hc, f, h⟩
    split at h
    · exact ⟨c, hc, f, by assumption, h⟩
    · simp at h
  · rintro ⟨c, hc, f, h1, h2⟩
    exact ⟨c, hc, f, by rw [if_pos h1, h2]⟩

theorem nodup_adjRanks (m : RankMesh) : m.adjRanks.Nodup := by
  unfold RankMesh.adjRanks
  have key : ∀ (l acc : List Nat), acc.Nodup →
      (l.foldl (fun l q => if q ∈ l then l else l ++ [q]) acc).Nodup := by
    intro l
    induction l with
    | nil => intro acc h; exact h
    | cons b l ih =>
      intro acc h
      rw [List.foldl_cons]
      apply ih
      by_cases hb : b ∈ acc
      · rw [if_pos hb]; exact h
      · rw [if_neg hb, List.nodup_append]
        refine ⟨h, by simp, ?_⟩
        intro x hx y hy
        simp at hy; subst hy
        rintro rfl; exact hb hx
  exact key _ _ (by simp)

/-! ### Consequences of the invariant -/

section inv
variable {cfg : Cfg D B} {mate : Loc → Option Loc} (L : Linked cfg mate) {s : State D B}
  (I : Inv cfg mate s)
include L I

theorem Inv.done_of_rem {r : Nat} (hr : r < cfg.nRanks) (h0 : (s.rank r).remaining = 0) {c a : Nat}
    (hc : c < (cfg.mesh r).nCells) (ha : a < cfg.nAngles) : Done s.log r c a := by
  have := I.rem r hr
  exact all_done I.ordered (by omega) hc ha

/-- A packet that is under way is waited for. -/
theorem Inv.waited {q r : Nat} {p : Packet B} (hp : p ∈ transit cfg s q r) :
    ∃ x y, cfg.In x ∧ x.rank = q ∧ mate x = some y ∧ y.rank = r ∧ q ≠ r ∧ p.angle < cfg.nAngles ∧
      cfg.outDir x.rank p.angle x.cell x.face = true ∧ p.side = cfg.gs x ∧
      SentBy cfg s.log x p.angle p.data ∧ Needs cfg mate y p.angle ∧
      ¬ Delivered s.log r ((cfg.mesh r).side y.cell y.face) p.angle ∧ ¬ Done s.log r y.cell p.angle := by
  obtain ⟨x, y, h1, h2, h3, h4, h5, h6, h7, h8, h9, h10⟩ := I.good q r p hp
  subst h2 h4
  have hc := I.count x y p.angle h1 h3 h5.symm h7 h6 h8
  have hpos : 0 < pcount (transit cfg s x.rank y.rank) (cfg.gs x) p.angle := by
    unfold pcount
    rw [List.countP_pos_iff]
    exact ⟨p, hp, by simp [h9]⟩
  have hy := L.mate_in x y h1 h3
  have hdl : ¬ Delivered s.log y.rank ((cfg.mesh y.rank).side y.cell y.face) p.angle := by
    rw [delivered_iff]
    split at hc <;> omega
  have hn : Needs cfg mate y p.angle :=
    ⟨L.orient x y p.angle h1 h3 h7 h8, x, L.mate_symm x y h1 h3, Or.inl h6⟩
  refine ⟨x, y, h1, rfl, h3, rfl, h5, h7, h8, h9, h10, hn, hdl, ?_⟩
  intro hd
  have := (I.ri y.rank hy.1).done_open y.cell hy.2 p.angle h7 hd
  have hmem : y.face ∈ open_ cfg y.rank (Arr cfg mate s.log y.rank) y.cell p.angle := by
    simp only [open_, Finset.mem_filter, Finset.mem_univ, true_and]
    refine ⟨(counts_iff L hy).2 hn, ?_⟩
    rintro ⟨z, hz, -, (⟨hz1, -⟩ | ⟨-, hz2⟩)⟩
    · rw [show (⟨y.rank, y.cell, y.face⟩ : Loc) = y from rfl, L.mate_symm x y h1 h3] at hz
      simp at hz; subst hz
      exact h5 hz1
    · exact hdl hz2
  rw [this] at hmem
  simp at hmem

theorem Inv.transit_nil {q r : Nat} (hr : r < cfg.nRanks) (h0 : (s.rank r).remaining = 0) :
    transit cfg s q r = [] := by
  rw [List.eq_nil_iff_forall_not_mem]
  intro p hp
  obtain ⟨x, y, hx, -, hm, rfl, -, ha, -, -, -, -, -, hnd⟩ := I.waited L hp
  exact hnd (I.done_of_rem L hr h0 (L.mate_in x y hx hm).2 ha)

end inv

end Verif.Traverse
