import Verif.Bytes.Basic
import Mathlib.Tactic.Ring

/-!
# Sweep messages (C19)

Models `createPacket`, `splitPacket` (src/GraphTraverser.cc:91-118), the buffers they are appended to
(611-655) and the unpacking loop (696-716).
-/
namespace Verif.Packet

open Verif.Bytes

/-- `createPacket` (src/GraphTraverser.cc:107-118). -/
def createPacket (globalSide angle : Nat) (data : List UInt8) : List UInt8 :=
  enc64 globalSide ++ enc64 angle ++ data

/-- `splitPacket` (src/GraphTraverser.cc:91-98): `data` is a pointer to the rest of the buffer, of
which `dataSize` bytes are used by the callee (`setSideData`). -/
def splitPacket (dataSize : Nat) (packet : List UInt8) : Nat × Nat × List UInt8 :=
  (dec (packet.take 8), dec ((packet.drop 8).take 8), (packet.drop 16).take dataSize)

/-- Appending the packets of a batch to a send buffer (src/GraphTraverser.cc:638-640, 649-655). -/
def appendAll (buf : List UInt8) (ps : List (Nat × Nat × List UInt8)) : List UInt8 :=
  ps.foldl (fun b p => b ++ createPacket p.1 p.2.1 p.2.2) buf

/-- Size of a packet (src/GraphTraverser.cc:663). -/
def packetSize (dataSize : Nat) : Nat := 2 * 8 + dataSize

/-- Unpacking loop (src/GraphTraverser.cc:696-704): `numPackets` from the size of the buffer, the
`i`-th packet at offset `i * packetSizeInBytes`. -/
def unpack (dataSize : Nat) (dataPackets : List UInt8) : List (Nat × Nat × List UInt8) :=
  (List.range (dataPackets.length / packetSize dataSize)).map fun i =>
    splitPacket dataSize (dataPackets.drop (i * packetSize dataSize))

/-- A packet with 64-bit numbers and a data block of the agreed size. -/
def Valid (dataSize : Nat) (p : Nat × Nat × List UInt8) : Prop :=
  p.1 < 2 ^ 64 ∧ p.2.1 < 2 ^ 64 ∧ p.2.2.length = dataSize

theorem createPacket_length (g a : Nat) (d : List UInt8) : (createPacket g a d).length = 16 + d.length := by
  simp [createPacket]; omega

/-- C19: a packet splits into what it was made of, whatever follows it in the buffer. -/
theorem split_create (dataSize : Nat) (p : Nat × Nat × List UInt8) (hp : Valid dataSize p)
    (rest : List UInt8) :
    splitPacket dataSize (createPacket p.1 p.2.1 p.2.2 ++ rest) = p := by
  obtain ⟨g, a, d⟩ := p
  obtain ⟨h1, h2, h3⟩ := hp
  simp only at h1 h2 h3
  have e1 : (createPacket g a d ++ rest) = enc64 g ++ (enc64 a ++ (d ++ rest)) := by
    simp [createPacket]
  have e8 : (createPacket g a d ++ rest).drop 8 = enc64 a ++ (d ++ rest) := by
    rw [e1]; exact List.drop_left' (enc_length 8 g)
  have e16 : (createPacket g a d ++ rest).drop 16 = d ++ rest := by
    rw [show 16 = 8 + 8 from rfl, ← List.drop_drop, e8]; exact List.drop_left' (enc_length 8 a)
  unfold splitPacket
  simp only
  rw [e8, e16, e1, List.take_left' (enc_length 8 g), List.take_left' (enc_length 8 a),
    List.take_left' h3, dec_enc64 h1, dec_enc64 h2]

theorem appendAll_eq (buf : List UInt8) (ps : List (Nat × Nat × List UInt8)) :
    appendAll buf ps = buf ++ ps.flatMap fun p => createPacket p.1 p.2.1 p.2.2 := by
  unfold appendAll
  induction ps generalizing buf with
  | nil => simp
  | cons p ps ih => rw [List.foldl_cons, ih]; simp

/-- C19: the length of a buffer of packets is the packet size times their number. -/
theorem buffer_length (dataSize : Nat) (ps : List (Nat × Nat × List UInt8))
    (hp : ∀ p ∈ ps, Valid dataSize p) :
    (appendAll [] ps).length = packetSize dataSize * ps.length := by
  rw [appendAll_eq, List.nil_append]
  induction ps with
  | nil => simp
  | cons p ps ih =>
    rw [List.flatMap_cons, List.length_append, ih fun q hq => hp q (by simp [hq]),
      createPacket_length, (hp p (by simp)).2.2, List.length_cons, packetSize]
    ring

/-- C19: a buffer made of any packets unpacks to the same packets in the same order. -/
theorem unpack_pack (dataSize : Nat) (ps : List (Nat × Nat × List UInt8))
    (hp : ∀ p ∈ ps, Valid dataSize p) : unpack dataSize (appendAll [] ps) = ps := by
  have hpos : 0 < packetSize dataSize := by unfold packetSize; omega
  have hdrop : ∀ (ps : List (Nat × Nat × List UInt8)), (∀ p ∈ ps, Valid dataSize p) → ∀ i,
      (ps.flatMap fun p => createPacket p.1 p.2.1 p.2.2).drop (i * packetSize dataSize)
        = (ps.drop i).flatMap fun p => createPacket p.1 p.2.1 p.2.2 := by
    intro ps
    induction ps with
    | nil => intro _ i; simp
    | cons p ps ih =>
      intro hp i
      cases i with
      | zero => simp
      | succ i =>
        have hl : (createPacket p.1 p.2.1 p.2.2).length = packetSize dataSize := by
          rw [createPacket_length, (hp p (by simp)).2.2]; rfl
        rw [List.flatMap_cons, Nat.succ_mul, Nat.add_comm, ← List.drop_drop, List.drop_left' hl,
          ih (fun q hq => hp q (by simp [hq])), List.drop_succ_cons]
  unfold unpack
  rw [buffer_length dataSize ps hp, Nat.mul_div_cancel_left _ hpos, appendAll_eq, List.nil_append]
  refine List.ext_getElem (by simp) ?_
  intro i h1 h2
  simp only [List.getElem_map, List.getElem_range]
  rw [hdrop ps hp i, List.drop_eq_getElem_cons h2, List.flatMap_cons]
  exact split_create dataSize _ (hp _ (List.getElem_mem h2)) _

/-- Concatenating buffers (threads, messages) concatenates the packets. -/
theorem unpack_concat (dataSize : Nat) (bufs : List (List (Nat × Nat × List UInt8)))
    (hp : ∀ ps ∈ bufs, ∀ p ∈ ps, Valid dataSize p) :
    unpack dataSize (bufs.flatMap (appendAll [])) = bufs.flatten := by
  have : bufs.flatMap (appendAll []) = appendAll [] bufs.flatten := by
    rw [appendAll_eq, List.nil_append]
    induction bufs with
    | nil => rfl
    | cons b bs ih =>
      rw [List.flatMap_cons, ih fun ps hps => hp ps (by simp [hps]), appendAll_eq]; simp
  rw [this]
  refine unpack_pack dataSize _ ?_
  intro p hpm
  obtain ⟨ps, h1, h2⟩ := List.mem_flatten.1 hpm
  exact hp ps h1 p h2

/-- Two packets with 2 data bytes. -/
example : (∀ p ∈ [(7, 300, [1, 2]), (2 ^ 64 - 1, 0, [255, 0])], Valid 2 p) ∧
    (appendAll [] [(7, 300, [1, 2]), (2 ^ 64 - 1, 0, [255, 0])]).length = 36 := by
  constructor
  · intro p hp
    simp only [List.mem_cons, List.not_mem_nil, or_false] at hp
    rcases hp with rfl | rfl <;> simp [Valid]
  · decide

end Verif.Packet
