import Verif.Wire.Model
import Verif.Traverse.Props

/-! # The exchange call by call does what the exchange of whole messages does -/

set_option linter.unusedSectionVars false

namespace Verif.Wire

open Verif.Traverse

variable {D B : Type}

/-! ### Channels -/

theorem push_apply {α : Type} (chan : Nat → Nat → List α) (r q : Nat) (m : α) (r' q' : Nat) :
    push chan r q m r' q' = if r' = r ∧ q' = q then chan r' q' ++ [m] else chan r' q' := by
  unfold push setAt
  by_cases h1 : r' = r
  · subst h1
    by_cases h2 : q' = q
    · subst h2; simp
    · simp [h2]
  · simp [h1]

theorem put_apply {α : Type} (chan : Nat → Nat → List α) (r q : Nat) (l : List α) (r' q' : Nat) :
    put chan r q l r' q' = if r' = r ∧ q' = q then l else chan r' q' := by
  unfold put setAt
  by_cases h1 : r' = r
  · subst h1
    by_cases h2 : q' = q
    · subst h2; simp
    · simp [h2]
  · simp [h1]

/-! ### Bytes of packets -/

section bytes
variable {C : Codec B}

theorem bytesOf_append (ps qs : List (Packet B)) :
    bytesOf C (ps ++ qs) = bytesOf C ps ++ bytesOf C qs := by
  simp [bytesOf, Verif.Packet.appendAll_eq]

theorem bytesOf_length (hC : C.Ok) (ps : List (Packet B)) :
    (bytesOf C ps).length = Verif.Packet.packetSize C.size * ps.length := by
  unfold bytesOf
  rw [Verif.Packet.appendAll_eq, List.nil_append]
  induction ps with
  | nil => simp
  | cons p ps ih =>
    rw [List.map_cons, List.flatMap_cons, List.length_append, ih,
      Verif.Packet.createPacket_length, hC.len, List.length_cons, Verif.Packet.packetSize]
    ring

theorem packetSize_pos : 0 < Verif.Packet.packetSize C.size := by
  unfold Verif.Packet.packetSize; omega

theorem bytesOf_eq_nil (hC : C.Ok) {ps : List (Packet B)} (h : (bytesOf C ps).length = 0) : ps = [] := by
  rw [bytesOf_length hC] at h
  rcases Nat.mul_eq_zero.1 h with h | h
  · exact absurd h (Nat.pos_iff_ne_zero.1 packetSize_pos)
  · exact List.length_eq_zero_iff.1 h

theorem packetsOf_bytesOf (hC : C.Ok) {ps : List (Packet B)}
    (h : ∀ p ∈ ps, p.side < 2 ^ 64 ∧ p.angle < 2 ^ 64) : packetsOf C (bytesOf C ps) = ps := by
  unfold packetsOf bytesOf
  rw [Verif.Packet.unpack_pack]
  · rw [List.map_map]
    conv_rhs => rw [← List.map_id ps]
    refine List.map_congr_left fun p _ => ?_
    simp [hC.dec_enc]
  · intro p hp
    obtain ⟨p', hp', rfl⟩ := List.mem_map.1 hp
    exact ⟨(h p' hp').1, (h p' hp').2, hC.len _⟩

end bytes

/-! ### Phases -/

/-- The phase without the packets received. -/
def strip : Phase B → Phase B
  | .exchanging k ps _ => .exchanging k ps []
  | .computing st => .computing st
  | .closing => .closing
  | .finished => .finished

theorem strip_computing {ph : Phase B} {st : Nat → Nat} : strip ph = .computing st ↔ ph = .computing st := by
  cases ph <;> simp [strip]
theorem strip_closing {ph : Phase B} : strip ph = .closing ↔ ph = .closing := by
  cases ph <;> simp [strip]
theorem strip_finished {ph : Phase B} : strip ph = .finished ↔ ph = .finished := by
  cases ph <;> simp [strip]
theorem strip_exchanging {ph : Phase B} {k : Bool} {ps : List Nat} {got : List (Nat × Packet B)} :
    strip ph = .exchanging k ps got ↔ got = [] ∧ ∃ got', ph = .exchanging k ps got' := by
  cases ph <;> simp [strip]
  tauto
theorem strip_loopTest (cfg : Cfg D B) (n : Nat) : strip (loopTest (B := B) cfg n) = loopTest cfg n := by
  unfold loopTest
  split
  · rfl
  · split <;> rfl

theorem unpackOne_phase' (cfg : Cfg D B) (r : Nat) (st : RankState D B) (ph : Phase B) (p : Packet B) :
    unpackOne cfg r { st with phase := ph } p = { unpackOne cfg r st p with phase := ph } := by
  unfold unpackOne release
  dsimp only
  split <;> rfl

theorem unpackAll_phase' (cfg : Cfg D B) (r : Nat) (got : List (Nat × Packet B)) (st : RankState D B)
    (ph : Phase B) : unpackAll cfg r got { st with phase := ph } = unpackAll cfg r got st := by
  have key : ∀ (ps : List (Packet B)) (st : RankState D B),
      ps.foldl (unpackOne cfg r) { st with phase := ph } =
        { ps.foldl (unpackOne cfg r) st with phase := ph } := by
    intro ps
    induction ps with
    | nil => intro st; rfl
    | cons p ps ih => intro st; rw [List.foldl_cons, List.foldl_cons, unpackOne_phase', ih]
  unfold unpackAll
  rw [key]

/-! ### The relation -/

/-- Size announced for a message. -/
def msgSize (C : Codec B) : Msg B → Nat
  | .packets ps => (bytesOf C ps).length
  | .kill => uintMax

/-- Data messages of a message: one or none. -/
def msgData (C : Codec B) : Msg B → List (List UInt8)
  | .packets ps => if (bytesOf C ps).length > 0 then [bytesOf C ps] else []
  | .kill => []

def Op.sizes (r : Nat) : Op → List Nat
  | .size q n => if q = r then [n] else []
  | .data _ _ => []

def Op.datas (r : Nat) : Op → List (List UInt8)
  | .size _ _ => []
  | .data q b => if q = r then [b] else []

/-- Sizes and data still to be sent to `r`. -/
def opSizes (ops : List Op) (r : Nat) : List Nat := ops.flatMap (Op.sizes r)
def opDatas (ops : List Op) (r : Nat) : List (List UInt8) := ops.flatMap (Op.datas r)

/-- The size from `q` whose data `r` is waiting for. -/
def mid (waiting : Nat → Option (Nat × Nat)) (q r : Nat) : List Nat :=
  match waiting r with
  | some (q', n) => if q' = q then [n] else []
  | none => []

/-- The state `w` of the calls corresponds to the state `s` of whole messages. -/
structure Sim (C : Codec B) (w : State D B) (s : Traverse.State D B) : Prop where
  rank : ∀ r, w.rank r = { s.rank r with phase := strip (s.rank r).phase }
  log : w.log = s.log
  inbuf : ∀ r k ps got, (s.rank r).phase = .exchanging k ps got →
    w.inbuf r = bytesOf C (got.map Prod.snd)
  sizes : ∀ q r, mid w.waiting q r ++ (w.sizes q r ++ opSizes (w.ops q) r) =
    (s.chan q r).map (msgSize C)
  datas : ∀ q r, w.datas q r ++ opDatas (w.ops q) r = (s.chan q r).flatMap (msgData C)
  ops : ∀ r, w.ops r ≠ [] → w.waiting r = none ∧
    ∃ k ps got, (s.rank r).phase = .exchanging k ps got
  waiting : ∀ r q n, w.waiting r = some (q, n) → (n > 0 ∧ n ≠ uintMax) ∧
    ∃ k ps got, (s.rank r).phase = .exchanging k ps got ∧ q ∈ ps
  small : ∀ q r ps, Msg.packets ps ∈ s.chan q r → (bytesOf C ps).length < intMax

theorem Sim.init (cfg : Cfg D B) (C : Codec B) : Sim C (initState cfg) (Traverse.initState cfg) where
  rank := by
    intro r
    change initRank cfg r = { initRank cfg r with phase := strip (initRank cfg r).phase }
    have : strip (initRank cfg r).phase = (initRank cfg r).phase := strip_loopTest cfg _
    rw [this]
  log := rfl
  inbuf := by
    intro r k ps got h
    change loopTest (B := B) cfg _ = _ at h
    unfold loopTest at h
    split at h
    · simp at h
    · split at h <;> simp at h
  sizes := by intro q r; simp [initState, Traverse.initState, mid, opSizes]
  datas := by intro q r; simp [initState, Traverse.initState, opDatas]
  ops := by intro r h; exact absurd rfl h
  waiting := by intro r q n h; simp [initState] at h
  small := by intro q r ps h; simp [Traverse.initState] at h

section
variable {C : Codec B} {w : State D B} {s : Traverse.State D B}

theorem Sim.phase (S : Sim C w s) (r : Nat) : (w.rank r).phase = strip (s.rank r).phase := by
  rw [S.rank r]

/-- Where `s` is not exchanging no call is outstanding. -/
theorem Sim.quiet (S : Sim C w s) {r : Nat} (h : ∀ k ps got, (s.rank r).phase ≠ .exchanging k ps got) :
    w.ops r = [] ∧ w.waiting r = none := by
  constructor
  · by_contra hne
    obtain ⟨-, k, ps, got, he⟩ := S.ops r hne
    exact h _ _ _ he
  · cases hw : w.waiting r with
    | none => rfl
    | some p =>
      obtain ⟨-, k, ps, got, he, -⟩ := S.waiting r p.1 p.2 hw
      exact absurd he (h _ _ _)

theorem Sim.ops_nil (S : Sim C w s) {r q n : Nat} (h : w.waiting r = some (q, n)) : w.ops r = [] := by
  by_contra hne
  rw [(S.ops r hne).1] at h
  simp at h

/-- The rank `r` waits for data from `q`: the oldest message is that data. -/
theorem Sim.head (S : Sim C w s) {r q n : Nat} (h : w.waiting r = some (q, n)) :
    ∃ ps ms, s.chan q r = .packets ps :: ms ∧ (bytesOf C ps).length = n ∧ (bytesOf C ps).length > 0 := by
  obtain ⟨⟨h0, h1⟩, -⟩ := S.waiting r q n h
  have hs := S.sizes q r
  have hm : mid w.waiting q r = [n] := by simp [mid, h]
  rw [hm] at hs
  cases hc : s.chan q r with
  | nil => rw [hc] at hs; simp at hs
  | cons m ms =>
    rw [hc] at hs
    simp only [List.cons_append, List.nil_append, List.map_cons, List.cons.injEq] at hs
    cases m with
    | kill => exact absurd hs.1 h1
    | packets ps =>
      refine ⟨ps, ms, rfl, hs.1.symm, ?_⟩
      have := hs.1
      simp only [msgSize] at this
      omega

/-- `MPI_Waitall` of `r` can return only when every message has been received. -/
theorem Sim.sendsDone (S : Sim C w s) {cfg : Cfg D B} {r : Nat} (ho : w.ops r = [])
    (h : Wire.sendsDone cfg w r) : Traverse.sendsDone cfg s r := by
  intro hr q
  obtain ⟨h1, h2⟩ := h hr q
  have hs := S.sizes r q
  have hd := S.datas r q
  rw [h1, ho] at hs
  rw [h2, ho] at hd
  have hm : mid w.waiting r q = [] := by
    unfold mid
    cases hw : w.waiting q with
    | none => rfl
    | some p =>
      obtain ⟨q', n⟩ := p
      dsimp only
      by_cases hq : q' = r
      · subst hq
        obtain ⟨ps, ms, hc, -, hpos⟩ := S.head hw
        rw [hc] at hd
        simp [opDatas, msgData, hpos] at hd
      · simp [hq]
  rw [hm] at hs
  simpa [opSizes] using hs.symm

theorem Sim.sendsDone_iff (S : Sim C w s) {cfg : Cfg D B} {r : Nat}
    (h : Traverse.sendsDone cfg s r) : Wire.sendsDone cfg w r := by
  intro hr q
  have hc := h hr q
  have hs := S.sizes r q
  have hd := S.datas r q
  rw [hc] at hs hd
  simp only [List.map_nil, List.append_eq_nil_iff, List.flatMap_nil] at hs hd
  exact ⟨hs.2.1, hd.1⟩

theorem Sim.same (S : Sim C w s) {r : Nat} (h : strip (s.rank r).phase = (s.rank r).phase) :
    w.rank r = s.rank r := by
  rw [S.rank r, h]

end

end Verif.Wire
