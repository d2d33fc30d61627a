import Verif.Partition.Model

/-!
# The graph traversal sweep (src/GraphTraverser.cc)

All ranks together: a state is the local variables of `traverse` on every rank, the messages between
ranks, and the history of calls into `TraverseData`. One step is one pass of a thread's inner `while`
loop, the start or end of the communication of one rank, or the receipt of one message; steps of
threads and ranks interleave arbitrarily.

Simplifications, all recorded in DESIGN.md:
* a pass of the inner loop is atomic. `Verif.Threads` has its statements one by one and shows that they
  refine this, without races;
* a message is the list of its packets; the size message (tag 0) and the data message (tag 1) of one
  exchange are one message; a size of `UINT64_MAX` is `Msg.kill`. `Verif.Wire` has the calls one by one
  with bytes and shows that they refine this;
* ranks are named directly instead of through `c_adjRankIndexToRank`;
* `BOUNDARY_FACE`, `BAD_RANK` are `none`.
-/
namespace Verif.Traverse

abbrev Face := Fin 4

/-- `Direction` (src/GraphTraverser.hh:70-74). -/
inductive Direction | forward | backward deriving DecidableEq
/-- `MPIType` (src/Global.hh:80-84). -/
inductive Protocol | tycho | capsaicin deriving DecidableEq
/-- `BoundaryType` (src/GraphTraverser.hh:56-67). -/
inductive BoundaryType | outIntBdry | outExtBdry | outInt | inIntBdry | inExtBdry | inInt
deriving DecidableEq

/-- The queries of `TychoMesh` used (src/TychoMesh.hh:70-116) on one rank. -/
structure RankMesh where
  nCells : Nat
  adjCell : Nat → Face → Option Nat
  adjRank : Nat → Face → Option Nat
  /-- `isOutgoing(angle, cell, face)`; `isIncoming` is its negation. -/
  outgoing : Nat → Nat → Face → Bool
  side : Nat → Face → Nat
  lgSide : Nat → Nat
  glSide : Nat → Nat
  sideCell : Nat → Nat

/-- The abstract class `TraverseData` (src/GraphTraverser.hh:82-95) with states `D` and data blocks
`B`. -/
structure TraverseData (D B : Type) where
  getData : Nat → Face → Nat → D → B
  setSideData : Nat → Nat → B → D → D
  getPriority : Nat → Nat → D → Nat
  update : Nat → Nat → (Face → Option Nat) → (Face → BoundaryType) → D → D

/-- A run: the globals, the mesh parts and the data object of every rank. `rendezvous`: sends
complete only when received (the least buffering MPI allows); otherwise they complete at once. -/
structure Cfg (D B : Type) where
  nRanks : Nat
  nAngles : Nat
  nThreads : Nat
  maxCompute : Nat
  direction : Direction
  doComm : Bool
  protocol : Protocol
  rendezvous : Bool
  mesh : Nat → RankMesh
  data : Nat → TraverseData D B
  init : Nat → D

/-- `Tuple` (src/GraphTraverser.cc:62-82). -/
structure Tuple where
  cell : Nat
  angle : Nat
  priority : Nat
deriving DecidableEq

/-- The parts of a packet (src/GraphTraverser.cc:91-118). -/
structure Packet (B : Type) where
  side : Nat
  angle : Nat
  data : B

/-- One exchange's message to one rank. -/
inductive Msg (B : Type)
  | packets (ps : List (Packet B))
  | kill

/-- Packets in a message. -/
def Msg.list {B : Type} : Msg B → List (Packet B)
  | .packets ps => ps
  | .kill => []

/-- Calls into `TraverseData`, the observable effects. The last argument of `upd` is the round of the
rank (a history variable). -/
inductive Event (B : Type)
  | upd (rank cell angle round : Nat)
  | side (rank side angle : Nat) (data : B)

/-- Where a rank is. `computing`: in the parallel region, with `stepsTaken` of each thread.
`exchanging kill pending got`: in the communication, messages still expected from `pending`, packets
received so far with their source. `closing`: after the loop, before the kill exchange. -/
inductive Phase (B : Type)
  | computing (stepsTaken : Nat → Nat)
  | exchanging (kill : Bool) (pending : List Nat) (got : List (Nat × Packet B))
  | closing
  | finished

/-- Local variables of `traverse` (src/GraphTraverser.cc:470-475). `round`, `sent`, `recvd` count the
exchanges begun and the messages sent to and received from each rank (history variables, never read
by a step). -/
structure RankState (D B : Type) where
  numDeps : Nat → Nat → Nat
  queue : Nat → List Tuple
  remaining : Nat
  data : D
  sendBuf : Nat → Nat → List (Packet B)
  dark : Nat → Bool
  phase : Phase B
  round : Nat
  sent : Nat → Nat
  recvd : Nat → Nat

/-- State of all ranks. `chan r q` are the messages from `r` to `q` not yet received, oldest first
(MPI does not let messages of the same pair and tag overtake). -/
structure State (D B : Type) where
  rank : Nat → RankState D B
  chan : Nat → Nat → List (Msg B)
  log : List (Event B)

variable {D B : Type}

/-- Assignment to one entry. -/
def setAt {α : Type} (f : Nat → α) (i : Nat) (v : α) : Nat → α := fun j => if j = i then v else f j

/-- `n--` on a `UINT`. -/
def dec (n : Nat) : Nat := if n = 0 then 2 ^ 64 - 1 else n - 1

/-- `angleGroupIndex` (src/GraphTraverser.cc:151-176), 0 after the failed assertion. -/
def Cfg.group (cfg : Cfg D B) (angle : Nat) : Nat :=
  (Verif.Partition.angleGroupIndex cfg.nAngles cfg.nThreads angle).getD 0

/-- `isIncoming` with the sweep direction (src/GraphTraverser.cc:128-138). -/
def Cfg.inDir (cfg : Cfg D B) (r angle cell : Nat) (face : Face) : Bool :=
  match cfg.direction with
  | .forward => !(cfg.mesh r).outgoing angle cell face
  | .backward => (cfg.mesh r).outgoing angle cell face

/-- `isOutgoingWrtDirection` (src/GraphTraverser.cc:569-574, 596-601). -/
def Cfg.outDir (cfg : Cfg D B) (r angle cell : Nat) (face : Face) : Bool :=
  if (cfg.mesh r).outgoing angle cell face then
    (if cfg.direction = .forward then true else false)
  else (if cfg.direction = .forward then false else true)

/-- `bdryType[face]` (src/GraphTraverser.cc:549-594). -/
def bdryType (m : RankMesh) (angle cell : Nat) (face : Face) : BoundaryType :=
  if m.outgoing angle cell face then
    if m.adjCell cell face = none ∧ m.adjRank cell face ≠ none then .outIntBdry
    else if m.adjCell cell face = none ∧ m.adjRank cell face = none then .outExtBdry
    else .outInt
  else
    if m.adjCell cell face = none ∧ m.adjRank cell face ≠ none then .inIntBdry
    else if m.adjCell cell face = none ∧ m.adjRank cell face = none then .inExtBdry
    else .inInt

/-- `adjCellsSides[face]` (src/GraphTraverser.cc:547, 555-556, 582-583). -/
def adjCellsSides (m : RankMesh) (cell : Nat) (face : Face) : Option Nat :=
  if m.adjCell cell face = none ∧ m.adjRank cell face ≠ none then some (m.side cell face)
  else m.adjCell cell face

/-- A dependency counted for a face (src/GraphTraverser.cc:445-455). -/
def Cfg.counts (cfg : Cfg D B) (r angle cell : Nat) (face : Face) : Bool :=
  (cfg.doComm && cfg.inDir r angle cell face && ((cfg.mesh r).adjRank cell face).isSome) ||
  (!cfg.doComm && cfg.inDir r angle cell face && ((cfg.mesh r).adjCell cell face).isSome)

/-- `c_initNumDependencies(angle, cell)` (src/GraphTraverser.cc:440-458). -/
def Cfg.initNumDeps (cfg : Cfg D B) (r angle cell : Nat) : Nat :=
  ((List.finRange 4).filter (cfg.counts r angle cell)).length

/-- Adjacent ranks in order of discovery (src/GraphTraverser.cc:422-436). -/
def RankMesh.adjRanks (m : RankMesh) : List Nat :=
  ((List.range m.nCells).flatMap fun c => (List.finRange 4).filterMap fun f =>
    if m.adjCell c f = none then m.adjRank c f else none).foldl
    (fun l q => if q ∈ l then l else l ++ [q]) []

/-- Decrement a counter and queue the pair when it reaches zero (src/GraphTraverser.cc:619-625 with
the thread's own group, 710-715 with the group of the angle). -/
def release (cfg : Cfg D B) (r g angle cell : Nat) (st : RankState D B) : RankState D B :=
  let n := dec (st.numDeps angle cell)
  let st1 := { st with numDeps := setAt st.numDeps angle (setAt (st.numDeps angle) cell n) }
  if n = 0 then
    { st1 with
      queue := setAt st.queue g
        (st.queue g ++ [⟨cell, angle, (cfg.data r).getPriority cell angle st.data⟩]) }
  else st1

/-- One face of "Update dependency for children" (src/GraphTraverser.cc:611-643). -/
def child (cfg : Cfg D B) (r g cell angle : Nat) (st : RankState D B) (face : Face) :
    RankState D B :=
  if cfg.outDir r angle cell face then
    match (cfg.mesh r).adjCell cell face with
    | some adjCell => release cfg r g angle adjCell st
    | none => match (cfg.mesh r).adjRank cell face with
      | some q =>
        if cfg.doComm then
          { st with
            sendBuf := setAt st.sendBuf g (setAt (st.sendBuf g) q (st.sendBuf g q ++
              [⟨(cfg.mesh r).lgSide ((cfg.mesh r).side cell face), angle,
              (cfg.data r).getData cell face angle st.data⟩])) }
        else st
      | none => st
  else st

/-- One pass of the inner loop of thread `g` on the tuple `t`, `rest` being the queue without it
(src/GraphTraverser.cc:529-643). -/
def computeOne (cfg : Cfg D B) (r g : Nat) (t : Tuple) (rest : List Tuple) (st : RankState D B) :
    RankState D B :=
  let m := cfg.mesh r
  let st1 := { st with
    queue := setAt st.queue g rest
    remaining := dec st.remaining
    data := (cfg.data r).update t.cell t.angle (adjCellsSides m t.cell) (bdryType m t.angle t.cell)
      st.data }
  (List.finRange 4).foldl (child cfg r g t.cell t.angle) st1

/-- `sendBuffers1[rankIndex]` (src/GraphTraverser.cc:649-655). -/
def outbox (cfg : Cfg D B) (st : RankState D B) (q : Nat) : List (Packet B) :=
  (List.range cfg.nThreads).flatMap fun g => st.sendBuf g q

/-- The test of the outer loop, and what follows it (src/GraphTraverser.cc:518, 723-731). -/
def loopTest (cfg : Cfg D B) (remaining : Nat) : Phase B :=
  if remaining > 0 then .computing fun _ => 0
  else if cfg.doComm = true ∧ cfg.protocol = .tycho then .closing
  else .finished

/-- Ranks a message is sent to: every rank not dark (src/GraphTraverser.cc:328-332), or those with
something to send (196-201). -/
def targets (cfg : Cfg D B) (r : Nat) (st : RankState D B) : List Nat :=
  match cfg.protocol with
  | .tycho => (cfg.mesh r).adjRanks.filter fun q => !st.dark q
  | .capsaicin => (cfg.mesh r).adjRanks.filter fun q => !(outbox cfg st q).isEmpty

/-- Ranks a message is expected from (src/GraphTraverser.cc:306-324), or probed (230-242). -/
def sources (cfg : Cfg D B) (r : Nat) (st : RankState D B) : List Nat :=
  match cfg.protocol with
  | .tycho => (cfg.mesh r).adjRanks.filter fun q => !st.dark q
  | .capsaicin => (cfg.mesh r).adjRanks

/-- One packet of the unpacking loop (src/GraphTraverser.cc:699-716). -/
def unpackOne (cfg : Cfg D B) (r : Nat) (st : RankState D B) (p : Packet B) : RankState D B :=
  let m := cfg.mesh r
  let localSide := m.glSide p.side
  release cfg r (cfg.group p.angle) p.angle (m.sideCell localSide)
    { st with data := (cfg.data r).setSideData localSide p.angle p.data st.data }

/-- The unpacking loop and the test of the outer loop. -/
def unpackAll (cfg : Cfg D B) (r : Nat) (got : List (Nat × Packet B)) (st : RankState D B) :
    RankState D B :=
  let st1 := (got.map Prod.snd).foldl (unpackOne cfg r) st
  { st1 with phase := loopTest cfg st1.remaining }

/-- The `setSideData` calls of the unpacking loop. -/
def unpackEvents (cfg : Cfg D B) (r : Nat) (got : List (Nat × Packet B)) : List (Event B) :=
  got.map fun p => .side r ((cfg.mesh r).glSide p.2.side) p.2.angle p.2.data

/-- State at entry of the outer loop (src/GraphTraverser.cc:489-510). -/
def initRank (cfg : Cfg D B) (r : Nat) : RankState D B where
  numDeps := fun a c => cfg.initNumDeps r a c
  queue := fun g => (List.range (cfg.mesh r).nCells).flatMap fun c =>
    ((List.range cfg.nAngles).filter fun a => cfg.initNumDeps r a c = 0 ∧ cfg.group a = g).map
      fun a => ⟨c, a, (cfg.data r).getPriority c a (cfg.init r)⟩
  remaining := cfg.nAngles * (cfg.mesh r).nCells
  data := cfg.init r
  sendBuf := fun _ _ => []
  dark := fun _ => false
  phase := loopTest cfg (cfg.nAngles * (cfg.mesh r).nCells)
  round := 0
  sent := fun _ => 0
  recvd := fun _ => 0

/-- All ranks at entry. -/
def initState (cfg : Cfg D B) : State D B where
  rank := initRank cfg
  chan := fun _ _ => []
  log := []

/-- Put messages to the ranks `qs` into the channels of `r`. -/
def post (chan : Nat → Nat → List (Msg B)) (r : Nat) (qs : List Nat) (msg : Nat → Msg B) :
    Nat → Nat → List (Msg B) :=
  setAt chan r fun q => if q ∈ qs then chan r q ++ [msg q] else chan r q

/-- All sends of `r` have completed: with rendezvous, when they have been received
(`MPI_Waitall`). -/
def sendsDone (cfg : Cfg D B) (s : State D B) (r : Nat) : Prop :=
  cfg.rendezvous = true → ∀ q, s.chan r q = []

/-- `commDark` after a message from `q` (src/GraphTraverser.cc:394-396). -/
def darken (dark : Nat → Bool) (q : Nat) : Msg B → Nat → Bool
  | .kill => setAt dark q true
  | .packets _ => dark

/-- The steps. -/
inductive Step (cfg : Cfg D B) : State D B → State D B → Prop
  /-- A pass of the inner loop: a tuple of highest priority is taken from the queue
  (`priority_queue::top`, ties arbitrary; src/GraphTraverser.cc:523-644). -/
  | compute (s : State D B) (r g : Nat) (steps : Nat → Nat) (l1 l2 : List Tuple) (t : Tuple)
      (hr : r < cfg.nRanks) (hg : g < cfg.nThreads)
      (hphase : (s.rank r).phase = .computing steps)
      (hq : (s.rank r).queue g = l1 ++ t :: l2)
      (htop : ∀ t' ∈ (s.rank r).queue g, t'.priority ≤ t.priority)
      (hsteps : steps g < cfg.maxCompute) :
      Step cfg s
        { s with
          rank := setAt s.rank r { computeOne cfg r g t (l1 ++ l2) (s.rank r) with
            phase := .computing (setAt steps g (steps g + 1)) }
          log := s.log ++ [.upd r t.cell t.angle ((s.rank r).round + 1)] }
  /-- End of the parallel region without communication (src/GraphTraverser.cc:645-660). -/
  | skip (s : State D B) (r : Nat) (steps : Nat → Nat)
      (hr : r < cfg.nRanks) (hphase : (s.rank r).phase = .computing steps)
      (hdone : ∀ g < cfg.nThreads, (s.rank r).queue g = [] ∨ ¬ steps g < cfg.maxCompute)
      (hcomm : cfg.doComm = false) :
      Step cfg s
        { s with rank := setAt s.rank r { s.rank r with
            phase := loopTest cfg (s.rank r).remaining
            round := (s.rank r).round + 1 } }
  /-- End of the parallel region, all messages sent, receives begun (src/GraphTraverser.cc:645-681,
  298-365; 184-217). -/
  | send (s : State D B) (r : Nat) (steps : Nat → Nat)
      (hr : r < cfg.nRanks) (hphase : (s.rank r).phase = .computing steps)
      (hdone : ∀ g < cfg.nThreads, (s.rank r).queue g = [] ∨ ¬ steps g < cfg.maxCompute)
      (hcomm : cfg.doComm = true) :
      Step cfg s
        { s with
          rank := setAt s.rank r { s.rank r with
            phase := .exchanging false (sources cfg r (s.rank r)) []
            sendBuf := fun _ _ => []
            round := (s.rank r).round + 1
            sent := fun q => if q ∈ targets cfg r (s.rank r) then (s.rank r).sent q + 1
              else (s.rank r).sent q }
          chan := post s.chan r (targets cfg r (s.rank r)) fun q => .packets (outbox cfg (s.rank r) q) }
  /-- The kill exchange begins (src/GraphTraverser.cc:723-731). -/
  | kill (s : State D B) (r : Nat)
      (hr : r < cfg.nRanks) (hphase : (s.rank r).phase = .closing) :
      Step cfg s
        { s with
          rank := setAt s.rank r { s.rank r with
            phase := .exchanging true (sources cfg r (s.rank r)) []
            round := (s.rank r).round + 1
            sent := fun q => if q ∈ targets cfg r (s.rank r) then (s.rank r).sent q + 1
              else (s.rank r).sent q }
          chan := post s.chan r (targets cfg r (s.rank r)) fun _ => .kill }
  /-- A message arrives (src/GraphTraverser.cc:369-397: `MPI_Waitany`, any order; 230-255: in the
  order of the ranks, and only after `MPI_Waitall`). -/
  | recv (s : State D B) (r q : Nat) (kill : Bool) (p1 p2 : List Nat) (got : List (Nat × Packet B))
      (m : Msg B) (ms : List (Msg B))
      (hr : r < cfg.nRanks) (hphase : (s.rank r).phase = .exchanging kill (p1 ++ q :: p2) got)
      (hchan : s.chan q r = m :: ms)
      (hcap : cfg.protocol = .capsaicin → p1 = [] ∧ sendsDone cfg s r) :
      Step cfg s
        { s with
          rank := setAt s.rank r { s.rank r with
            phase := .exchanging kill (p1 ++ p2) (got ++ m.list.map fun p => (q, p))
            dark := darken (s.rank r).dark q m
            recvd := setAt (s.rank r).recvd q ((s.rank r).recvd q + 1) }
          chan := setAt s.chan q (setAt (s.chan q) r ms) }
  /-- A probe finds nothing (src/GraphTraverser.cc:238-246). -/
  | miss (s : State D B) (r q : Nat) (kill : Bool) (ps : List Nat) (got : List (Nat × Packet B))
      (hr : r < cfg.nRanks) (hphase : (s.rank r).phase = .exchanging kill (q :: ps) got)
      (hcap : cfg.protocol = .capsaicin) (hsends : sendsDone cfg s r) :
      Step cfg s
        { s with rank := setAt s.rank r { s.rank r with phase := .exchanging kill ps got } }
  /-- All messages received and sends complete; packets unpacked; next pass of the outer loop
  (src/GraphTraverser.cc:400-405, 684-719). -/
  | unpack (s : State D B) (r : Nat) (got : List (Nat × Packet B))
      (hr : r < cfg.nRanks) (hphase : (s.rank r).phase = .exchanging false [] got)
      (hsends : sendsDone cfg s r) :
      Step cfg s
        { s with
          rank := setAt s.rank r (unpackAll cfg r got (s.rank r))
          log := s.log ++ unpackEvents cfg r got }
  /-- The kill exchange ends; what was received is dropped (src/GraphTraverser.cc:726-729). -/
  | close (s : State D B) (r : Nat) (got : List (Nat × Packet B))
      (hr : r < cfg.nRanks) (hphase : (s.rank r).phase = .exchanging true [] got)
      (hsends : sendsDone cfg s r) :
      Step cfg s
        { s with rank := setAt s.rank r { s.rank r with phase := .finished } }

/-- States reachable from the start. -/
inductive Reachable (cfg : Cfg D B) : State D B → Prop
  | init : Reachable cfg (initState cfg)
  | step {s s'} : Reachable cfg s → Step cfg s s' → Reachable cfg s'

end Verif.Traverse
