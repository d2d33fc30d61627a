import Verif.Traverse.Examples

/-!
# What `traverse` tells `update` about the faces, and both directions

The statements here use only the queries of the mesh and the log; `adjCellsSides`, `bdryType`,
`inDir` and `outDir` of the model do not occur in them.
-/
namespace Verif.Traverse

variable {D B : Type}

/-- How a face of a cell is announced to `TraverseData::update` (src/GraphTraverser.hh:49-67): the
neighbour cell inside the rank, the side at a face shared with another rank, nothing at the boundary
of the mesh. Out and in are with respect to the angle, whichever way the graph is traversed (the
comment in the header says otherwise). -/
inductive Announced (m : RankMesh) (a c : Nat) (f : Face) : Option Nat → BoundaryType → Prop
  | outInt (n : Nat) : m.outgoing a c f = true → m.adjCell c f = some n → Announced m a c f (some n) .outInt
  | inInt (n : Nat) : m.outgoing a c f = false → m.adjCell c f = some n → Announced m a c f (some n) .inInt
  | outIntBdry (q : Nat) : m.outgoing a c f = true → m.adjCell c f = none → m.adjRank c f = some q →
      Announced m a c f (some (m.side c f)) .outIntBdry
  | inIntBdry (q : Nat) : m.outgoing a c f = false → m.adjCell c f = none → m.adjRank c f = some q →
      Announced m a c f (some (m.side c f)) .inIntBdry
  | outExtBdry : m.outgoing a c f = true → m.adjCell c f = none → m.adjRank c f = none →
      Announced m a c f none .outExtBdry
  | inExtBdry : m.outgoing a c f = false → m.adjCell c f = none → m.adjRank c f = none →
      Announced m a c f none .inExtBdry

/-- The effect of one logged call on the data object of rank `r`. -/
inductive Effect (cfg : Cfg D B) (r : Nat) (d : D) : Event B → D → Prop
  | upd (c a k : Nat) (sides : Face → Option Nat) (types : Face → BoundaryType) :
      (∀ f, Announced (cfg.mesh r) a c f (sides f) (types f)) →
      Effect cfg r d (.upd r c a k) ((cfg.data r).update c a sides types d)
  | side (s a : Nat) (b : B) : Effect cfg r d (.side r s a b) ((cfg.data r).setSideData s a b d)
  | updOther (r' c a k : Nat) : r' ≠ r → Effect cfg r d (.upd r' c a k) d
  | sideOther (r' s a : Nat) (b : B) : r' ≠ r → Effect cfg r d (.side r' s a b) d

/-- The data object of rank `r` after the calls of a log. -/
inductive Effects (cfg : Cfg D B) (r : Nat) : List (Event B) → D → Prop
  | nil : Effects cfg r [] (cfg.init r)
  | snoc {l : List (Event B)} {d d' : D} (e : Event B) : Effects cfg r l d → Effect cfg r d e d' →
      Effects cfg r (l ++ [e]) d'

/-- A face is announced in one way only. -/
theorem announced_unique {m : RankMesh} {a c : Nat} {f : Face} {x y : Option Nat} {t u : BoundaryType}
    (h : Announced m a c f x t) (h' : Announced m a c f y u) : x = y ∧ t = u := by
  cases h <;> cases h' <;> simp_all

theorem announced_model (m : RankMesh) (a c : Nat) (f : Face) :
    Announced m a c f (adjCellsSides m c f) (bdryType m a c f) := by
  rcases ho : m.outgoing a c f with _ | _ <;> rcases hc : m.adjCell c f with _ | n <;>
    rcases hq : m.adjRank c f with _ | q <;> simp only [adjCellsSides, bdryType, ho, hc, hq] <;> simp <;>
    first
    | exact .outInt _ ho hc
    | exact .inInt _ ho hc
    | exact .outIntBdry _ ho hc hq
    | exact .inIntBdry _ ho hc hq
    | exact .outExtBdry ho hc hq
    | exact .inExtBdry ho hc hq

theorem effect_model (cfg : Cfg D B) (r : Nat) (d : D) (e : Event B) : Effect cfg r d e (applyEvent cfg r d e) := by
  rcases e with ⟨r', c, a, k⟩ | ⟨r', s, a, b⟩
  · by_cases h : r' = r
    · subst h; simp only [applyEvent, if_true]; exact .upd _ _ _ _ _ fun f => announced_model _ _ _ _
    · simp only [applyEvent, if_neg h]; exact .updOther _ _ _ _ h
  · by_cases h : r' = r
    · subst h; simp only [applyEvent, if_true]; exact .side _ _ _
    · simp only [applyEvent, if_neg h]; exact .sideOther _ _ _ _ h

/-- C20: in any state of any execution the data object of a rank is the result of the calls logged for
it, in their order, each `update` being given the neighbour, side or boundary kind of every face. -/
theorem traverse_effects {cfg : Cfg D B} {mate : Loc → Option Loc} (L : Linked cfg mate) {s : State D B}
    (h : Reachable cfg s) {r : Nat} (hr : r < cfg.nRanks) : Effects cfg r s.log (s.rank r).data := by
  rw [(h.inv L).data r hr]
  generalize s.log = l
  induction l using List.reverseRecOn with
  | nil => exact .nil
  | append_singleton l e ih => rw [replay_snoc]; exact .snoc e ih (effect_model _ _ _ _)

/-- The result is determined by the log. -/
theorem effects_unique {cfg : Cfg D B} {r : Nat} {l : List (Event B)} {d d' : D} (h : Effects cfg r l d)
    (h' : Effects cfg r l d') : d = d' := by
  have key : ∀ {l l' : List (Event B)} {d d' : D}, Effects cfg r l d → Effects cfg r l' d' → l = l' → d = d' := by
    intro l l' d d' h
    induction h generalizing l' d' with
    | nil => intro h' hl; cases h' with
      | nil => rfl
      | snoc e _ _ => simp at hl
    | snoc e h he ih =>
      intro h' hl
      cases h' with
      | nil => simp at hl
      | snoc e' h' he' =>
        obtain ⟨h1, h2⟩ := List.append_inj' hl rfl
        have h2 : e = e' := by simpa using h2
        subst h2
        have := ih h' h1
        subst this
        cases he <;> cases he' <;> first | rfl | (exact absurd rfl ‹_›) | skip
        rename_i h1 _ _ h2
        have e1 := funext fun f => (announced_unique (h1 f) (h2 f)).1
        have e2 := funext fun f => (announced_unique (h1 f) (h2 f)).2
        rw [e1, e2]
  exact key h h' rfl

/-! ## Both directions -/

/-- `c` is upwind of `c'` for the angle: they share a face which is outgoing for `c` only. -/
def Upwind (cfg : Cfg D B) (mate : Loc → Option Loc) (a : Nat) (t t' : Nat × Nat) : Prop :=
  ∃ x y, cfg.In x ∧ mate x = some y ∧ (cfg.mesh x.rank).outgoing a x.cell x.face = true ∧
    (cfg.doComm = true ∨ y.rank = x.rank) ∧ t = (x.rank, x.cell) ∧ t' = (y.rank, y.cell)

/-- Every shared face is outgoing for exactly one of its cells. -/
def OneWay (cfg : Cfg D B) (mate : Loc → Option Loc) : Prop :=
  ∀ x y a, cfg.In x → mate x = some y → a < cfg.nAngles →
    ((cfg.mesh x.rank).outgoing a x.cell x.face = true ↔ (cfg.mesh y.rank).outgoing a y.cell y.face = false)

/-- The same traversal the other way. -/
def Cfg.turned (cfg : Cfg D B) (d : Direction) : Cfg D B := { cfg with direction := d }

theorem Linked.turned {cfg : Cfg D B} {mate : Loc → Option Loc} (L : Linked cfg mate) (W : OneWay cfg mate) (d : Direction) :
    Linked (cfg.turned d) mate where
  threads := L.threads
  size := L.size
  mate_in := L.mate_in
  mate_symm := L.mate_symm
  near := L.near
  far := L.far
  ext := L.ext
  side_eq := L.side_eq
  side_cell := L.side_cell
  side_inj := L.side_inj
  orient := by
    intro x y a hx hm ha
    have := W x y a hx hm ha
    cases d <;> rcases h1 : (cfg.mesh x.rank).outgoing a x.cell x.face <;>
      rcases h2 : (cfg.mesh y.rank).outgoing a y.cell y.face <;>
      simp_all [Cfg.outDir, Cfg.inDir, Cfg.turned]

theorem OneWay.crossed {cfg : Cfg D B} {mate : Loc → Option Loc} (W : OneWay cfg mate) (d : Direction) :
    Crossed (cfg.turned d) mate := by
  intro x y a hx hm ha
  have := W x y a hx hm ha
  cases d <;> rcases h1 : (cfg.mesh x.rank).outgoing a x.cell x.face <;>
    rcases h2 : (cfg.mesh y.rank).outgoing a y.cell y.face <;>
    simp_all [Cfg.outDir, Cfg.inDir, Cfg.turned]

theorem before_forward {cfg : Cfg D B} {mate : Loc → Option Loc} (L : Linked cfg mate) (W : OneWay cfg mate) {a : Nat}
    (ha : a < cfg.nAngles) {t t' : Nat × Nat} : Before (cfg.turned .forward) mate a t t' ↔ Upwind cfg mate a t t' := by
  constructor
  · rintro ⟨x, y, hx, hm, ⟨hi, z, hz, hc⟩, rfl, rfl⟩
    rw [hm] at hz; cases hz
    have hx : cfg.In x := hx
    have hi : (!(cfg.mesh x.rank).outgoing a x.cell x.face) = true := hi
    have hc : cfg.doComm = true ∨ y.rank = x.rank := hc
    refine ⟨y, x, L.mate_in _ _ hx hm, L.mate_symm _ _ hx hm, ?_, hc.imp_right Eq.symm, rfl, rfl⟩
    have := W x y a hx hm ha
    rcases h2 : (cfg.mesh y.rank).outgoing a y.cell y.face <;> simp_all
  · rintro ⟨x, y, hx, hm, ho, hc, rfl, rfl⟩
    refine ⟨y, x, L.mate_in _ _ hx hm, L.mate_symm _ _ hx hm, ⟨?_, x, L.mate_symm _ _ hx hm, ?_⟩, rfl, rfl⟩
    · have := (W x y a hx hm ha).1 ho
      simp [Cfg.inDir, Cfg.turned, this]
    · exact hc.imp_right Eq.symm

theorem before_backward {cfg : Cfg D B} {mate : Loc → Option Loc} {a : Nat} {t t' : Nat × Nat} :
    Before (cfg.turned .backward) mate a t t' ↔ Upwind cfg mate a t' t := by
  constructor
  · rintro ⟨x, y, hx, hm, ⟨hi, z, hz, hc⟩, rfl, rfl⟩
    rw [hm] at hz; cases hz
    exact ⟨x, y, hx, hm, hi, hc, rfl, rfl⟩
  · rintro ⟨x, y, hx, hm, ho, hc, rfl, rfl⟩
    exact ⟨x, y, hx, hm, ⟨ho, y, hm, hc⟩, rfl, rfl⟩

/-- C20, C21: on a mesh whose shared faces are crossed by every angle and without upwind cycles, the
traversal returns in either direction; every task is then computed exactly once; and forward a cell
comes after the cells upwind of it, backward after those downwind. -/
theorem traverse_directions {cfg : Cfg D B} {mate : Loc → Option Loc} (L : Linked cfg mate) (W : OneWay cfg mate)
    (hac : ∀ a < cfg.nAngles, ∀ t, ¬ Relation.TransGen (Upwind cfg mate a) t t) (hbatch : 0 < cfg.maxCompute)
    (hproto : cfg.doComm = true → cfg.protocol = .tycho) (d : Direction) :
    (∃ bound, ∀ n s, Run (cfg.turned d) n (initState (cfg.turned d)) s → n ≤ bound) ∧
    (∀ s, Reachable (cfg.turned d) s → (∀ s', ¬ Step (cfg.turned d) s s') →
      ∀ r < cfg.nRanks, (s.rank r).phase = .finished) ∧
    ∀ s, Reachable (cfg.turned d) s → (∀ r < cfg.nRanks, (s.rank r).phase = .finished) →
      (∀ r < cfg.nRanks, ∀ c < (cfg.mesh r).nCells, ∀ a < cfg.nAngles,
        s.log.countP (fun e => e.task = some (r, c, a)) = 1) ∧
      ∀ a < cfg.nAngles, ∀ t t', Upwind cfg mate a t t' → ∃ l1 l2 l3 k k',
        (d = .forward → s.log = l1 ++ .upd t.1 t.2 a k :: l2 ++ .upd t'.1 t'.2 a k' :: l3) ∧
        (d = .backward → s.log = l1 ++ .upd t'.1 t'.2 a k' :: l2 ++ .upd t.1 t.2 a k :: l3) := by
  have L' := L.turned W d
  have hx := W.crossed (cfg := cfg) d
  have hac' : Acyclic (cfg.turned d) mate := by
    intro a ha t h
    have ha : a < cfg.nAngles := ha
    cases d with
    | forward => exact hac a ha t (Relation.TransGen.mono (fun _ _ hb => (before_forward L W ha).1 hb) _ _ h)
    | backward =>
      exact hac a ha t (Relation.transGen_swap.1 (Relation.TransGen.mono (fun _ _ hb => before_backward.1 hb) _ _ h))
  refine ⟨⟨_, fun n s h => traverse_terminates L' hbatch hproto hx hac' h⟩, ?_, ?_⟩
  · intro s h hstop
    by_contra hno
    push Not at hno
    obtain ⟨s', hs⟩ := traverse_no_deadlock L' hproto h hno
    exact hstop s' hs
  · intro s h hf
    have hone : ∀ r < cfg.nRanks, ∀ c < (cfg.mesh r).nCells, ∀ a < cfg.nAngles,
        s.log.countP (fun e => e.task = some (r, c, a)) = 1 :=
      fun r hr c hc a ha => traverse_finished_once L' h hr (hf r hr) hc ha
    refine ⟨hone, ?_⟩
    -- the later of two tasks comes after the earlier
    have order : ∀ a < cfg.nAngles, ∀ u v, Before (cfg.turned d) mate a u v →
        ∃ l1 l2 l3 k k', s.log = l1 ++ .upd u.1 u.2 a k :: l2 ++ .upd v.1 v.2 a k' :: l3 := by
      rintro a ha u v ⟨x, y, hx, hm, hn, rfl, rfl⟩
      have hpos : 0 < s.log.countP (fun e => e.task = some (x.rank, x.cell, a)) := by
        rw [hone x.rank hx.1 x.cell hx.2 a ha]; exact Nat.one_pos
      obtain ⟨e, he, ht⟩ := List.countP_pos_iff.1 hpos
      obtain ⟨p, q, hpq⟩ := List.append_of_mem he
      rcases e with ⟨r', c', a', k'⟩ | ⟨r', s', a', b'⟩
      · simp only [Event.task, decide_eq_true_eq, Option.some.injEq, Prod.mk.injEq] at ht
        obtain ⟨rfl, rfl, rfl⟩ := ht
        have ho := (traverse_once_in_order L' h).2 p _ q hpq
        obtain ⟨k, hk⟩ := (ho.2.2.2.2 x.face y hm hn).1
        obtain ⟨l1, l2, hl⟩ := List.append_of_mem hk
        exact ⟨l1, l2, q, k, k', by rw [hpq, hl]⟩
      · simp [Event.task] at ht
    intro a ha t t' hu
    cases d with
    | forward =>
      obtain ⟨l1, l2, l3, k, k', hl⟩ := order a ha _ _ ((before_forward L W ha).2 hu)
      exact ⟨l1, l2, l3, k, k', fun _ => hl, fun h => by simp at h⟩
    | backward =>
      obtain ⟨l1, l2, l3, k, k', hl⟩ := order a ha _ _ (before_backward.2 hu)
      exact ⟨l1, l2, l3, k', k, fun h => by simp at h, fun _ => hl⟩

theorem ex_oneWay (proto : Protocol) (rv : Bool) : OneWay (exRun false proto rv).cfg exMate := by
  intro x y a _ h ha
  have ha : a < 2 := ha
  rcases exMate_some h with ⟨rfl, rfl⟩ | ⟨rfl, rfl⟩ <;> interval_cases a <;>
    cases proto <;> cases rv <;> decide +kernel

/-- The two ranks of the example traversed backward: for direction 0, which goes from rank 0 to rank 1,
rank 1 is computed first. -/
example : ∃ n s, Run ((exRun false .tycho true).cfg.turned .backward) n
    (initState ((exRun false .tycho true).cfg.turned .backward)) s ∧
    ∃ l1 l2 l3 k k', s.log = l1 ++ .upd 1 0 0 k' :: l2 ++ .upd 0 0 0 k :: l3 := by
  have L := ex_linked false .tycho true
  have W := ex_oneWay .tycho true
  have hac : ∀ a < (exRun false .tycho true).cfg.nAngles, ∀ t,
      ¬ Relation.TransGen (Upwind (exRun false .tycho true).cfg exMate a) t t := by
    intro a ha t h
    refine ex_acyclic .tycho true a ha t (Relation.TransGen.mono (fun _ _ hb => ?_) _ _ h)
    exact (before_forward L W ha).2 hb
  obtain ⟨n, s, h, hf⟩ := traverse_finishes (L.turned W .backward) (by decide) (fun _ => rfl) (W.crossed .backward) (by
    intro a ha t h
    exact hac a ha t (Relation.transGen_swap.1 (Relation.TransGen.mono (fun _ _ hb => before_backward.1 hb) _ _ h)))
  obtain ⟨l1, l2, l3, k, k', -, hl⟩ := ((traverse_directions L W hac (by decide) (fun _ => rfl) .backward).2.2 s (h.reachable .init) hf).2
    0 (by decide) (0, 0) (1, 0) ⟨⟨0, 0, 0⟩, ⟨1, 0, 0⟩, ⟨by decide, by decide⟩, rfl, by decide +kernel, Or.inl rfl, rfl, rfl⟩
  exact ⟨n, s, h, l1, l2, l3, k, k', hl rfl⟩

/-- The faces of the cell of rank 0 in direction 0: out to rank 1 through face 0, in from outside through face 1. -/
example : Announced ((exRun false .tycho true).cfg.mesh 0) 0 0 0 (some 0) .outIntBdry ∧
    Announced ((exRun false .tycho true).cfg.mesh 0) 0 0 1 none .inExtBdry :=
  ⟨.outIntBdry 1 (by decide +kernel) rfl rfl, .inExtBdry (by decide +kernel) rfl rfl⟩

end Verif.Traverse
