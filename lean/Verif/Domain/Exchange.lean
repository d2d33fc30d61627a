import Verif.Traverse.Props

/-!
# The boundary exchange (src/CommSides.cc)

All ranks call `commSides` together. A state is where every rank is in the function, its boundary
array, and the messages sent and not yet received. Ranks interleave arbitrarily; `Waitany` may return
any message that has arrived.

Simplifications: a packet is the triple of its parts (the bytes are in `Verif.Packet`), posting the
receives and sends is one step (neither blocks), ranks are named directly instead of through
`c_adjRanks`.
-/
set_option linter.unusedSectionVars false

namespace Verif.Domain
open Classical List
open Verif.Transport Verif.Traverse

variable {K : Type} [Field K] [LinearOrder K]

/-! ### Model -/

/-- A packet: global side, angle, and a face of data (src/CommSides.cc:183-188). -/
structure Pkt (K : Type) (n : Nat) where
  gSide : Nat
  angle : Nat
  data : Fin 3 → Fin n → K

/-- `(cell, face, angle)` for a neighbour rank, in the order of the loops of the constructor
(src/CommSides.cc:78-101): those with `isOutgoing` equal to `out`. -/
def metaData (R : SweepRun K) (out : Bool) (r q : Nat) : List (Nat × Face × Nat) :=
  (List.range (R.nCells r)).flatMap fun cell => (List.finRange 4).flatMap fun face =>
    if (R.mesh r).adjRank cell face = some q then
      (List.range R.nAngles).filterMap fun angle =>
        if (R.mesh r).outgoing angle cell face = out then some (cell, face, angle) else none
    else []

/-- `c_adjRanks` (src/CommSides.cc:53-65), the same loop as in the graph traverser. -/
def adjRanks (R : SweepRun K) (r : Nat) : List Nat := (R.mesh r).adjRanks

/-- `c_numRecvPackets` for a neighbour (src/CommSides.cc:95-97). -/
def numRecv (R : SweepRun K) (r q : Nat) : Nat := (metaData R false r q).length

/-- The packet for one entry of `c_sendMetaData` (src/CommSides.cc:170-188). -/
def packetOf (R : SweepRun K) (psi : Nat → Psi K) (r : Nat) (md : Nat × Face × Nat) :
    Pkt K R.nGroups where
  gSide := (R.mesh r).lgSide ((R.mesh r).side md.1 md.2.1)
  angle := md.2.2
  data fvrtx group := psi r group (R.faceToCellVrtx r md.1 md.2.1 fvrtx) md.2.2 md.1

/-- `dataToSend` for a neighbour (src/CommSides.cc:163-189). -/
def message (R : SweepRun K) (psi : Nat → Psi K) (r q : Nat) : List (Pkt K R.nGroups) :=
  (metaData R true r q).map (packetOf R psi r)

/-- The buffer after receipt: what the message does not fill is zero (src/CommSides.cc:135, a resized
`vector<char>`). -/
def received (R : SweepRun K) (r q : Nat) (m : List (Pkt K R.nGroups)) : List (Pkt K R.nGroups) :=
  m ++ List.replicate (numRecv R r q - m.length) ⟨0, 0, fun _ _ => 0⟩

/-- Unpacking one packet (src/CommSides.cc:221-234). -/
def putPkt (R : SweepRun K) (r : Nat) (bound : Bound K) (p : Pkt K R.nGroups) : Bound K :=
  fun group fvrtx a s =>
    if h : a = p.angle ∧ s = (R.mesh r).glSide p.gSide ∧ group < R.nGroups then
      p.data fvrtx ⟨group, h.2.2⟩
    else bound group fvrtx a s

/-- Unpacking a buffer (src/CommSides.cc:219-235). -/
def putAll (R : SweepRun K) (r : Nat) (bound : Bound K) (ps : List (Pkt K R.nGroups)) : Bound K :=
  ps.foldl (putPkt R r) bound

/-- Where a rank is in `commSides`: before posting, waiting for the messages of `pending`, returned,
or stopped by the error of a message longer than its buffer. -/
inductive XPhase
  | start
  | waiting (pending : List Nat)
  | finished
  | truncated

/-- State of all ranks. -/
structure XState (K : Type) (n : Nat) where
  phase : Nat → XPhase
  bound : Nat → Bound K
  chan : Nat → Nat → List (List (Pkt K n))

/-- Neighbours with a nonempty receive buffer (src/CommSides.cc:141-159). -/
def recvRanks (R : SweepRun K) (r : Nat) : List Nat := (adjRanks R r).filter fun q => 0 < numRecv R r q

/-- Neighbours a message is sent to (src/CommSides.cc:163-205). -/
def sendRanks (R : SweepRun K) (r : Nat) : List Nat :=
  (adjRanks R r).filter fun q => 0 < (metaData R true r q).length

/-- Initial state of an exchange. -/
def xInit (R : SweepRun K) (bound : Nat → Bound K) : XState K R.nGroups :=
  ⟨fun _ => .start, bound, fun _ _ => []⟩

/-- One step of `commSides` on some rank (src/CommSides.cc:119-245). -/
inductive XStep (R : SweepRun K) (psi : Nat → Psi K) : XState K R.nGroups → XState K R.nGroups → Prop
  /-- Irecv and Isend (141-204). -/
  | post (s r) (hr : r < R.nRanks) (hp : s.phase r = .start) :
    XStep R psi s { s with
      phase := setAt s.phase r (.waiting (recvRanks R r))
      chan := setAt s.chan r fun q =>
        if q ∈ sendRanks R r then s.chan r q ++ [message R psi r q] else s.chan r q }
  /-- Waitany and unpacking (208-236). -/
  | recv (s r q pending m ms) (hr : r < R.nRanks) (hp : s.phase r = .waiting pending)
      (hq : q ∈ pending) (hm : s.chan q r = m :: ms) (hl : m.length ≤ numRecv R r q) :
    XStep R psi s { s with
      phase := setAt s.phase r (.waiting (pending.erase q))
      bound := setAt s.bound r (putAll R r (s.bound r) (received R r q m))
      chan := setAt s.chan q (setAt (s.chan q) r ms) }
  /-- A message longer than the buffer is an error. -/
  | trunc (s r q pending m ms) (hr : r < R.nRanks) (hp : s.phase r = .waiting pending)
      (hq : q ∈ pending) (hm : s.chan q r = m :: ms) (hl : numRecv R r q < m.length) :
    XStep R psi s { s with phase := setAt s.phase r .truncated }
  /-- Waitall (239-244). With `rendezvous` sends complete only when received. -/
  | done (s r) (hr : r < R.nRanks) (hp : s.phase r = .waiting [])
      (hs : R.rendezvous = true → ∀ q, s.chan r q = []) :
    XStep R psi s { s with phase := setAt s.phase r .finished }

/-- States after `n` steps. -/
inductive XRun (R : SweepRun K) (psi : Nat → Psi K) (bound : Nat → Bound K) :
    Nat → XState K R.nGroups → Prop
  | nil : XRun R psi bound 0 (xInit R bound)
  | snoc {n s s'} : XRun R psi bound n s → XStep R psi s s' → XRun R psi bound (n + 1) s'

/-! ### What the exchange must do -/

/-- The value of every incoming partition-boundary entry is the flux of the cell across the face, at
the vertex with the same node, and nothing else is changed. -/
structure Exchanged (R : SweepRun K) (mate : Loc → Option Loc) (node : Nat → Nat → Fin 4 → Nat)
    (psi : Nat → Psi K) (bound bound' : Nat → Bound K) : Prop where
  value : ∀ x y a g v, R.cfg.In x → mate x = some y → y.rank ≠ x.rank → a < R.nAngles →
    ¬ (R.view x.rank).isOutgoing a x.cell x.face → g < R.nGroups → v ≠ x.face →
    ∃ w, node y.rank y.cell w = node x.rank x.cell v ∧
      bound' x.rank g ((R.view x.rank).cellToFaceVrtx x.cell x.face v) a
        ((R.view x.rank).side x.cell x.face) = psi y.rank g w a y.cell
  frame : ∀ r g fv a s, r < R.nRanks →
    (g < R.nGroups → ∀ x y, R.cfg.In x → x.rank = r → mate x = some y → y.rank ≠ r →
      a < R.nAngles → ¬ (R.view r).isOutgoing a x.cell x.face → (R.view r).side x.cell x.face ≠ s) →
    bound' r g fv a s = bound r g fv a s

/-! ### Proofs -/

theorem mem_metaData {R : SweepRun K} {out : Bool} {r q c a : Nat} {f : Face} :
    (c, f, a) ∈ metaData R out r q ↔ c < R.nCells r ∧ (R.mesh r).adjRank c f = some q ∧
      a < R.nAngles ∧ (R.mesh r).outgoing a c f = out := by
  unfold metaData
  simp only [mem_flatMap, mem_range, mem_finRange, true_and]
  constructor
  · rintro ⟨c', hc, f', h⟩
    split at h
    · rename_i hq
      rw [mem_filterMap] at h
      obtain ⟨a', ha, h⟩ := h
      split at h
      · rename_i ho
        simp only [Option.some.injEq, Prod.mk.injEq] at h
        obtain ⟨rfl, rfl, rfl⟩ := h
        exact ⟨hc, hq, by simpa using ha, ho⟩
      · simp at h
    · simp at h
  · rintro ⟨hc, hq, ha, ho⟩
    exact ⟨c, hc, f, by rw [if_pos hq, mem_filterMap]; exact ⟨a, by simpa using ha, by simp [ho]⟩⟩

theorem nodup_metaData (R : SweepRun K) (out : Bool) (r q : Nat) : (metaData R out r q).Nodup := by
  unfold metaData
  rw [List.nodup_flatMap]
  refine ⟨fun c _ => ?_, ?_⟩
  · rw [List.nodup_flatMap]
    refine ⟨fun f _ => ?_, ?_⟩
    · split
      · refine List.Nodup.filterMap ?_ List.nodup_range
        intro a a' b h h'
        simp only [Option.mem_def] at h h'
        split at h <;> split at h' <;> simp_all
        grind
      · exact List.nodup_nil
    · refine (List.nodup_finRange 4).imp ?_
      intro f f' hne
      simp only [Function.onFun, List.disjoint_left]
      rintro ⟨c1, f1, a1⟩ h h'
      split at h <;> split at h' <;> simp at h h'
      grind
  · refine List.nodup_range.imp ?_
    intro c c' hne
    simp only [Function.onFun, List.disjoint_left, mem_flatMap]
    rintro ⟨c1, f1, a1⟩ ⟨f, -, h⟩ ⟨f', -, h'⟩
    split at h <;> split at h' <;> simp at h h'
    grind

theorem foldl_adj_mem (l acc : List Nat) (q : Nat) :
    q ∈ l.foldl (fun l q => if q ∈ l then l else l ++ [q]) acc ↔ q ∈ acc ∨ q ∈ l := by
  induction l generalizing acc with
  | nil => simp
  | cons x l ih =>
    rw [List.foldl_cons, ih]
    split
    · rename_i h
      constructor
      · rintro (h' | h') <;> simp [h']
      · rintro (h' | h')
        · exact Or.inl h'
        · rcases List.mem_cons.1 h' with rfl | h'
          · exact Or.inl h
          · exact Or.inr h'
    · simp [or_assoc]

theorem foldl_adj_nodup (l acc : List Nat) (h : acc.Nodup) :
    (l.foldl (fun l q => if q ∈ l then l else l ++ [q]) acc).Nodup := by
  induction l generalizing acc with
  | nil => simpa
  | cons x l ih =>
    rw [List.foldl_cons]
    apply ih
    split
    · exact h
    · rename_i hx
      rw [List.nodup_append]
      exact ⟨h, by simp, by intro a ha b hb; simp at hb; subst hb; exact fun e => hx (e ▸ ha)⟩

theorem mem_adjRanks {R : SweepRun K} {r q : Nat} : q ∈ adjRanks R r ↔
    ∃ c f, c < R.nCells r ∧ (R.mesh r).adjCell c f = none ∧ (R.mesh r).adjRank c f = some q := by
  unfold adjRanks RankMesh.adjRanks
  rw [foldl_adj_mem]
  simp only [not_mem_nil, false_or, mem_flatMap, mem_range, mem_filterMap, mem_finRange, true_and]
  constructor
  · rintro ⟨c, hc, f, h⟩
    split at h
    · rename_i hn; exact ⟨c, f, hc, hn, h⟩
    · simp at h
  · rintro ⟨c, f, hc, hn, h⟩
    exact ⟨c, hc, f, by rw [if_pos hn]; exact h⟩

/-- The entry across the face. -/
noncomputable def across (mate : Loc → Option Loc) (r : Nat) (md : Nat × Face × Nat) : Nat × Face × Nat :=
  match mate ⟨r, md.1, md.2.1⟩ with
  | some y => (y.cell, y.face, md.2.2)
  | none => md

theorem outgoing_iff {R : SweepRun K} {r a c : Nat} {f : Face} : (R.mesh r).outgoing a c f = true ↔
    (R.view r).isOutgoing a c f := by
  simp [SweepRun.mesh]

section
variable {R : SweepRun K} {mate : Loc → Option Loc} (L : Linked R.cfg mate)
include L

/-- A face with another rank's number has a mate there. -/
theorem mate_of_adjRank {r q c : Nat} {f : Face} (hr : r < R.nRanks) (hc : c < R.nCells r)
    (hq : (R.mesh r).adjRank c f = some q) (hne : q ≠ r) :
    ∃ y, mate ⟨r, c, f⟩ = some y ∧ y.rank = q := by
  have hin : R.cfg.In ⟨r, c, f⟩ := ⟨hr, hc⟩
  rcases hm : mate ⟨r, c, f⟩ with _ | y
  · have := (L.ext _ hin hm).2
    change (R.mesh r).adjRank c f = none at this
    rw [this] at hq; simp at hq
  · by_cases hyr : y.rank = r
    · have := (L.near _ y hin hm hyr).2
      change (R.mesh r).adjRank c f = some r at this
      rw [this] at hq; simp only [Option.some.injEq] at hq; exact absurd hq.symm hne
    · have := (L.far _ y hin hm hyr).2
      change (R.mesh r).adjRank c f = some y.rank at this
      rw [this] at hq; simp only [Option.some.injEq] at hq
      exact ⟨y, rfl, hq⟩

theorem adjRanks_ne {r q : Nat} (hr : r < R.nRanks) (hq : q ∈ adjRanks R r) : q ≠ r ∧ q < R.nRanks := by
  obtain ⟨c, f, hc, hn, h⟩ := mem_adjRanks.1 hq
  have hin : R.cfg.In ⟨r, c, f⟩ := ⟨hr, hc⟩
  rcases hm : mate ⟨r, c, f⟩ with _ | y
  · have := (L.ext _ hin hm).2
    change (R.mesh r).adjRank c f = none at this
    rw [this] at h; simp at h
  · have hyin := L.mate_in _ y hin hm
    by_cases hyr : y.rank = r
    · have := (L.near _ y hin hm hyr).1
      change (R.mesh r).adjCell c f = some y.cell at this
      rw [this] at hn; simp at hn
    · have := (L.far _ y hin hm hyr).2
      change (R.mesh r).adjRank c f = some y.rank at this
      rw [this] at h; simp only [Option.some.injEq] at h
      exact ⟨h ▸ hyr, h ▸ hyin.1⟩

/-- C37: the number of packets each rank expects from a neighbour is the number sent. -/
theorem counts_agree (X : Crossed R.cfg mate) {r q : Nat} (hr : r < R.nRanks) (hq : q < R.nRanks)
    (hne : q ≠ r) : numRecv R r q = (metaData R true q r).length := by
  have key : (metaData R false r q).map (across mate r) ~ metaData R true q r := by
    refine (List.perm_ext_iff_of_nodup ?_ (nodup_metaData R true q r)).2 ?_
    · refine List.Nodup.map_on ?_ (nodup_metaData R false r q)
      rintro ⟨c, f, a⟩ h ⟨c', f', a'⟩ h' he
      rw [mem_metaData] at h h'
      obtain ⟨y, hy, hyq⟩ := mate_of_adjRank L hr h.1 h.2.1 hne
      obtain ⟨y', hy', hyq'⟩ := mate_of_adjRank L hr h'.1 h'.2.1 hne
      simp only [across, hy, hy', Prod.mk.injEq] at he
      have : y = y' := by
        cases y; cases y'; simp_all
      subst this
      have e1 := L.mate_symm _ y ⟨hr, h.1⟩ hy
      have e2 := L.mate_symm _ y ⟨hr, h'.1⟩ hy'
      rw [e1] at e2
      simp_all
    · rintro ⟨c, f, a⟩
      rw [List.mem_map]
      constructor
      · rintro ⟨⟨c', f', a'⟩, h, he⟩
        rw [mem_metaData] at h
        obtain ⟨y, hy, hyq⟩ := mate_of_adjRank L hr h.1 h.2.1 hne
        simp only [across, hy, Prod.mk.injEq] at he
        obtain ⟨rfl, rfl, rfl⟩ := he
        have hin : R.cfg.In ⟨r, c', f'⟩ := ⟨hr, h.1⟩
        have hyin := L.mate_in _ y hin hy
        have hsy := L.mate_symm _ y hin hy
        rw [mem_metaData]
        subst hyq
        refine ⟨hyin.2, (L.far y _ hyin hsy (Ne.symm hne)).2, h.2.2.1, ?_⟩
        have := X _ y a' hin hy h.2.2.1 (by
          show (!(R.mesh r).outgoing a' c' f') = true
          rw [h.2.2.2]; rfl)
        simpa [Cfg.outDir, SweepRun.cfg] using this
      · intro h
        rw [mem_metaData] at h
        obtain ⟨y, hy, hyr⟩ := mate_of_adjRank L hq h.1 h.2.1 (Ne.symm hne)
        subst hyr
        have hin : R.cfg.In ⟨q, c, f⟩ := ⟨hq, h.1⟩
        have hyin := L.mate_in _ y hin hy
        have hsy := L.mate_symm _ y hin hy
        refine ⟨(y.cell, y.face, a), ?_, by simp [across, hsy]⟩
        rw [mem_metaData]
        refine ⟨hyin.2, (L.far y _ hyin hsy hne).2, h.2.2.1, ?_⟩
        have := L.orient _ y a hin hy h.2.2.1 (by
          simp [Cfg.outDir, SweepRun.cfg, h.2.2.2])
        simpa [Cfg.inDir, SweepRun.cfg] using this
  have := key.length_eq
  rw [List.length_map] at this
  exact this

theorem mem_sendRanks (X : Crossed R.cfg mate) {r q : Nat} (hr : r < R.nRanks) (hq : q < R.nRanks) :
    r ∈ sendRanks R q ↔ q ∈ recvRanks R r := by
  unfold sendRanks recvRanks
  simp only [mem_filter, decide_eq_true_eq]
  constructor
  · rintro ⟨h1, h2⟩
    have hne := (adjRanks_ne L hq h1).1
    rw [← counts_agree L X hr hq (Ne.symm hne)] at h2
    refine ⟨?_, h2⟩
    obtain ⟨⟨c, f, a⟩, h⟩ := List.exists_mem_of_length_pos h2
    rw [mem_metaData] at h
    obtain ⟨y, hy, hyq⟩ := mate_of_adjRank L hr h.1 h.2.1 (Ne.symm hne)
    exact mem_adjRanks.2 ⟨c, f, h.1, (L.far _ y ⟨hr, h.1⟩ hy (by rw [hyq]; exact Ne.symm hne)).1, h.2.1⟩
  · rintro ⟨h1, h2⟩
    have hne := (adjRanks_ne L hr h1).1
    rw [counts_agree L X hr hq hne] at h2
    refine ⟨?_, h2⟩
    obtain ⟨⟨c, f, a⟩, h⟩ := List.exists_mem_of_length_pos h2
    rw [mem_metaData] at h
    obtain ⟨y, hy, hyq⟩ := mate_of_adjRank L hq h.1 h.2.1 (Ne.symm hne)
    exact mem_adjRanks.2 ⟨c, f, h.1, (L.far _ y ⟨hq, h.1⟩ hy (by rw [hyq]; exact Ne.symm hne)).1, h.2.1⟩

end

end Verif.Domain
