import Verif.Traverse.Model
import Verif.Packet.Props

/-!
# The exchange of sweep data, one MPI call at a time (src/GraphTraverser.cc:263-406)

`Verif.Traverse` treats what one rank sends to another in an exchange as one message holding packets.
Here `sendAndRecvData` is modelled call by call: a size (tag 0) and a block of bytes (tag 1) travel on
separate channels, the calls of `MPI_Isend` are made one after the other, sizes are waited for in any
order (`MPI_Waitany`), each followed by a blocking `MPI_Recv` of the announced number of bytes, and
`MPI_Waitall` returns at once or, with `rendezvous`, only when everything sent has been received. The
received bytes are split into packets as the code does.

The computation between two exchanges is `computeOne` of `Verif.Traverse.Model`; the packets it makes
become bytes when the buffers of the threads are put together (649-655), which gives the same bytes as
appending each packet at once (`Verif.Packet.unpack_concat`).

A receive for a size is posted before anything is sent (306-324) and is completed by the oldest size
message from that rank; since there is one such receive per rank and exchange, taking the message from
the channel at `MPI_Waitany` is the same.
-/
namespace Verif.Wire

open Verif.Traverse

variable {D B : Type}

/-- How a subclass of `TraverseData` stores a data block in `c_dataSizeInBytes` bytes
(`getData`, `setSideData`; src/GraphTraverser.hh:87-92). -/
structure Codec (B : Type) where
  size : Nat
  enc : B → List UInt8
  dec : List UInt8 → B

/-- `setSideData` reads back what `getData` wrote. -/
structure Codec.Ok (C : Codec B) : Prop where
  len : ∀ b, (C.enc b).length = C.size
  dec_enc : ∀ b, C.dec (C.enc b) = b

/-- `UINT64_MAX`. -/
def uintMax : Nat := 2 ^ 64 - 1
/-- `INT_MAX`. -/
def intMax : Nat := 2 ^ 31 - 1

/-- Bytes of a list of packets (src/GraphTraverser.cc:631-640, 649-655). -/
def bytesOf (C : Codec B) (ps : List (Packet B)) : List UInt8 :=
  Verif.Packet.appendAll [] (ps.map fun p => (p.side, p.angle, C.enc p.data))

/-- Packets of received bytes (src/GraphTraverser.cc:685-704). -/
def packetsOf (C : Codec B) (bytes : List UInt8) : List (Packet B) :=
  (Verif.Packet.unpack C.size bytes).map fun p => ⟨p.1, p.2.1, C.dec p.2.2⟩

/-- A call of `MPI_Isend`: a size with tag 0 or bytes with tag 1. -/
inductive Op
  | size (dest n : Nat)
  | data (dest : Nat) (bytes : List UInt8)

/-- The sends to one rank (src/GraphTraverser.cc:334-364). -/
def sendTo (kill : Bool) (buf : Nat → List UInt8) (q : Nat) : List Op :=
  let n := if kill then uintMax else (buf q).length
  .size q n :: if n > 0 ∧ n ≠ uintMax then [.data q (buf q)] else []

/-- The sends of an exchange, in order (src/GraphTraverser.cc:327-365). -/
def sendOps (kill : Bool) (targets : List Nat) (buf : Nat → List UInt8) : List Op :=
  targets.flatMap (sendTo kill buf)

/-- All ranks. `rank r`: the local variables of `traverse`, where the last argument of `exchanging` is
not used. `ops r`: sends of the exchange not yet called. `waiting r`: the rank is in `MPI_Recv` for
that many bytes from that rank. `inbuf r`: `dataPackets`. `sizes`, `datas`: messages with tag 0 and 1
from one rank to another not yet received, oldest first. -/
structure State (D B : Type) where
  rank : Nat → RankState D B
  ops : Nat → List Op
  waiting : Nat → Option (Nat × Nat)
  inbuf : Nat → List UInt8
  sizes : Nat → Nat → List Nat
  datas : Nat → Nat → List (List UInt8)
  log : List (Event B)

/-- All ranks at entry of the outer loop. -/
def initState (cfg : Cfg D B) : State D B where
  rank := initRank cfg
  ops := fun _ => []
  waiting := fun _ => none
  inbuf := fun _ => []
  sizes := fun _ _ => []
  datas := fun _ _ => []
  log := []

/-- Append to a channel. -/
def push {α : Type} (chan : Nat → Nat → List α) (r q : Nat) (m : α) : Nat → Nat → List α :=
  setAt chan r (setAt (chan r) q (chan r q ++ [m]))

/-- Replace the contents of a channel. -/
def put {α : Type} (chan : Nat → Nat → List α) (r q : Nat) (l : List α) : Nat → Nat → List α :=
  setAt chan r (setAt (chan r) q l)

/-- `MPI_Waitall` can return (src/GraphTraverser.cc:400-405). -/
def sendsDone (cfg : Cfg D B) (w : State D B) (r : Nat) : Prop :=
  cfg.rendezvous = true → ∀ q, w.sizes r q = [] ∧ w.datas r q = []

/-- The rank `r` begins an exchange (src/GraphTraverser.cc:291-332): `rest` is what else happens to
its variables. -/
def enter (cfg : Cfg D B) (C : Codec B) (w : State D B) (r : Nat) (kill : Bool)
    (rest : RankState D B → RankState D B) : State D B :=
  { w with
    rank := setAt w.rank r { rest (w.rank r) with
      phase := .exchanging kill (sources cfg r (w.rank r)) []
      round := (w.rank r).round + 1
      sent := fun q => if q ∈ targets cfg r (w.rank r) then (w.rank r).sent q + 1
        else (w.rank r).sent q }
    ops := setAt w.ops r (sendOps kill (targets cfg r (w.rank r))
      fun q => bytesOf C (outbox cfg (w.rank r) q))
    inbuf := setAt w.inbuf r [] }

/-- The receive of the rank `q` is complete on `r` (src/GraphTraverser.cc:394-396 when the size was
`UINT64_MAX`). -/
def heard (st : RankState D B) (q n : Nat) (kill : Bool) (pending : List Nat) : RankState D B :=
  { st with
    phase := .exchanging kill pending []
    dark := if n = uintMax then setAt st.dark q true else st.dark
    recvd := setAt st.recvd q (st.recvd q + 1) }

/-- The steps of the rank `r` outside of the parallel region, with the two-sided protocol. -/
inductive Call (cfg : Cfg D B) (C : Codec B) (r : Nat) (w : State D B) : State D B → Prop
  /-- The parallel region ends and an exchange begins (src/GraphTraverser.cc:645-667, 291-324). The
  buffers are cleared (682-691); their contents are in the sends to be made. -/
  | begin (steps : Nat → Nat)
      (hphase : (w.rank r).phase = .computing steps)
      (hdone : ∀ g < cfg.nThreads, (w.rank r).queue g = [] ∨ ¬ steps g < cfg.maxCompute) :
      Call cfg C r w (enter cfg C w r false fun st => { st with sendBuf := fun _ _ => [] })
  /-- The last exchange begins (src/GraphTraverser.cc:723-729). -/
  | beginKill
      (hphase : (w.rank r).phase = .closing) :
      Call cfg C r w (enter cfg C w r true id)
  /-- `MPI_Isend` of a size (src/GraphTraverser.cc:341-350). -/
  | isendSize (q n : Nat) (rest : List Op)
      (hops : w.ops r = .size q n :: rest) :
      Call cfg C r w { w with ops := setAt w.ops r rest, sizes := push w.sizes r q n }
  /-- `MPI_Isend` of the bytes, after the assertion on their number (src/GraphTraverser.cc:353-364). -/
  | isendData (q : Nat) (b : List UInt8) (rest : List Op)
      (hops : w.ops r = .data q b :: rest) (hlen : b.length < intMax) :
      Call cfg C r w { w with ops := setAt w.ops r rest, datas := push w.datas r q b }
  /-- `MPI_Waitany` returns a size announcing data (src/GraphTraverser.cc:371-387). -/
  | waitData (q n : Nat) (ns : List Nat) (kill : Bool) (p1 p2 : List Nat)
      (hphase : (w.rank r).phase = .exchanging kill (p1 ++ q :: p2) [])
      (hops : w.ops r = []) (hw : w.waiting r = none) (hs : w.sizes q r = n :: ns)
      (hn : n > 0 ∧ n ≠ uintMax) :
      Call cfg C r w
        { w with sizes := put w.sizes q r ns, waiting := setAt w.waiting r (some (q, n)) }
  /-- `MPI_Waitany` returns a size announcing nothing, or the end (src/GraphTraverser.cc:371-397). -/
  | waitNone (q n : Nat) (ns : List Nat) (kill : Bool) (p1 p2 : List Nat)
      (hphase : (w.rank r).phase = .exchanging kill (p1 ++ q :: p2) [])
      (hops : w.ops r = []) (hw : w.waiting r = none) (hs : w.sizes q r = n :: ns)
      (hn : ¬ (n > 0 ∧ n ≠ uintMax)) :
      Call cfg C r w
        { w with
          sizes := put w.sizes q r ns
          rank := setAt w.rank r (heard (w.rank r) q n kill (p1 ++ p2)) }
  /-- `MPI_Recv` of as many bytes as were announced (src/GraphTraverser.cc:382-391). -/
  | recvData (q n : Nat) (b : List UInt8) (bs : List (List UInt8)) (kill : Bool)
      (p1 p2 : List Nat)
      (hphase : (w.rank r).phase = .exchanging kill (p1 ++ q :: p2) [])
      (hw : w.waiting r = some (q, n)) (hs : w.datas q r = b :: bs) (hlen : b.length = n) :
      Call cfg C r w
        { w with
          datas := put w.datas q r bs
          waiting := setAt w.waiting r none
          inbuf := setAt w.inbuf r (w.inbuf r ++ b)
          rank := setAt w.rank r (heard (w.rank r) q n kill (p1 ++ p2)) }
  /-- All messages received and sends complete; the bytes are unpacked, after the assertion that they
  are whole packets; next pass of the outer loop (src/GraphTraverser.cc:400-405, 694-719). -/
  | unpack
      (hphase : (w.rank r).phase = .exchanging false [] [])
      (hops : w.ops r = []) (hw : w.waiting r = none) (hsends : sendsDone cfg w r)
      (hwhole : (w.inbuf r).length % Verif.Packet.packetSize C.size = 0) :
      Call cfg C r w
        { w with
          rank := setAt w.rank r
            (unpackAll cfg r ((packetsOf C (w.inbuf r)).map fun p => (0, p)) (w.rank r))
          log := w.log ++ unpackEvents cfg r ((packetsOf C (w.inbuf r)).map fun p => (0, p)) }
  /-- The last exchange ends (src/GraphTraverser.cc:726-731). -/
  | close
      (hphase : (w.rank r).phase = .exchanging true [] [])
      (hops : w.ops r = []) (hw : w.waiting r = none) (hsends : sendsDone cfg w r) :
      Call cfg C r w { w with rank := setAt w.rank r { w.rank r with phase := .finished } }

/-- The steps with the two-sided protocol. -/
inductive Step (cfg : Cfg D B) (C : Codec B) : State D B → State D B → Prop
  /-- A pass of the inner loop (src/GraphTraverser.cc:523-644). -/
  | compute (w : State D B) (r g : Nat) (steps : Nat → Nat) (l1 l2 : List Tuple) (t : Tuple)
      (hr : r < cfg.nRanks) (hg : g < cfg.nThreads)
      (hphase : (w.rank r).phase = .computing steps)
      (hq : (w.rank r).queue g = l1 ++ t :: l2)
      (htop : ∀ t' ∈ (w.rank r).queue g, t'.priority ≤ t.priority)
      (hsteps : steps g < cfg.maxCompute) :
      Step cfg C w
        { w with
          rank := setAt w.rank r { computeOne cfg r g t (l1 ++ l2) (w.rank r) with
            phase := .computing (setAt steps g (steps g + 1)) }
          log := w.log ++ [.upd r t.cell t.angle ((w.rank r).round + 1)] }
  /-- A step outside of the parallel region. -/
  | call {w w' : State D B} (r : Nat) (hr : r < cfg.nRanks) (h : Call cfg C r w w') : Step cfg C w w'

/-- Executions. -/
inductive Run (cfg : Cfg D B) (C : Codec B) : Nat → State D B → Prop
  | init : Run cfg C 0 (initState cfg)
  | step {n w w'} : Run cfg C n w → Step cfg C w w' → Run cfg C (n + 1) w'

/-- A rank is about to stop with an error: a message too long for MPI (the assertion at
src/GraphTraverser.cc:356), bytes that are more or fewer than announced (`MPI_ERR_TRUNCATE`, or a
receive that leaves part of `dataPackets` unset), or a rest that is not a packet (the assertion at
697). -/
inductive Fails (cfg : Cfg D B) (C : Codec B) (w : State D B) : Prop
  | tooLong (r q : Nat) (b : List UInt8) (rest : List Op) (hr : r < cfg.nRanks)
      (hops : w.ops r = .data q b :: rest) (hlen : ¬ b.length < intMax)
  | mismatch (r q n : Nat) (b : List UInt8) (bs : List (List UInt8)) (hr : r < cfg.nRanks)
      (hw : w.waiting r = some (q, n)) (hs : w.datas q r = b :: bs) (hlen : b.length ≠ n)
  | ragged (r : Nat) (hr : r < cfg.nRanks) (hphase : (w.rank r).phase = .exchanging false [] [])
      (hops : w.ops r = []) (hw : w.waiting r = none)
      (hrag : (w.inbuf r).length % Verif.Packet.packetSize C.size ≠ 0)

end Verif.Wire
