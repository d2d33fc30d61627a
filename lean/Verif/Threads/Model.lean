import Verif.Traverse.Model

/-!
# The threads of the traversal, statement by statement

`Verif.Traverse` makes a pass of the inner loop of a thread (src/GraphTraverser.cc:525-644) one step.
Here a pass is a sequence of statements, and between any two of them the other threads of the rank and
the other ranks may do theirs. The data object splits by angle (`Slices`), as `SweepData` does; its
scratch arrays (`c_localPsi[omp_get_thread_num()]` and the others, src/SweepData.hh:176-184) are modelled.

Simplifications: the operations of the standard library on the queue of a thread (`size`, `top`, `pop`
and the increment of the local `stepsTaken`, all private to the thread) are one statement, and so is
one `priority_queue::push` or `vector::insert`; memory is sequentially consistent, which C++ guarantees
where there are no data races (`threads_no_race`).
-/
namespace Verif.Threads

open Verif.Traverse

variable {D B E X : Type}

/-- Statements one after the other. -/
def runAll (l : List (E → X → E × X)) (p : E × X) : E × X := l.foldl (fun p f => f p.1 p.2) p

/-- How a data object splits: `E` is what it holds of one angle, `X` the scratch memory of one thread.
The statements of `update` and `getData` read and write only the values of their angle and the scratch
memory of their thread, and what comes out does not depend on what was in the scratch memory. -/
structure Slices (cfg : Cfg D B) (E X : Type) where
  get : D → Nat → E
  set : D → Nat → E → D
  get_set_same : ∀ d a e, get (set d a e) a = e
  get_set_ne : ∀ d a e a', a' ≠ a → get (set d a e) a' = get d a'
  ext : ∀ d d', (∀ a, get d a = get d' a) → d = d'
  /-- the statements of `update` (cell, angle) -/
  parts : Nat → Nat → Nat → List (E → X → E × X)
  update_eq : ∀ r c a d x, (cfg.data r).update c a (adjCellsSides (cfg.mesh r) c) (bdryType (cfg.mesh r) a c) d =
    set d a (runAll (parts r c a) (get d a, x)).1
  /-- the statements of `getData` (cell, face, angle) -/
  face : Nat → Nat → Face → Nat → List (E → X → E × X)
  /-- what the pointer returned by `getData` points to -/
  read : X → B
  face_eq : ∀ r c f a d x, (runAll (face r c f a) (get d a, x)).1 = get d a ∧
    read (runAll (face r c f a) (get d a, x)).2 = (cfg.data r).getData c f a d
  prio_eq : ∀ r c a d d', get d a = get d' a → (cfg.data r).getPriority c a d = (cfg.data r).getPriority c a d'
  /-- the scratch memory at first -/
  scratch : X

/-- A statement after the decrement of the counter (src/GraphTraverser.cc:606-643). -/
inductive Op (E X : Type)
  /-- a statement inside `update` or `getData` -/
  | work (angle : Nat) (f : E → X → E × X)
  /-- `numDependencies(angle, adjCell)--` (src/GraphTraverser.cc:619) -/
  | lower (angle cell : Nat)
  /-- the test for zero, and `push` (src/GraphTraverser.cc:620-625) -/
  | enqueue (angle cell : Nat)
  /-- `createPacket` and `insert` (src/GraphTraverser.cc:633-641) -/
  | pack (q side angle : Nat)

/-- The angle a statement is about. -/
def Op.angle : Op E X → Nat
  | .work a _ => a
  | .lower a _ => a
  | .enqueue a _ => a
  | .pack _ _ a => a

variable {cfg : Cfg D B}

/-- The effect of a statement of thread `g` on the variables of the rank and on its scratch memory. -/
def exec (S : Slices cfg E X) (r g : Nat) (p : RankState D B × X) : Op E X → RankState D B × X
  | .work a f =>
    let y := f (S.get p.1.data a) p.2
    ({ p.1 with data := S.set p.1.data a y.1 }, y.2)
  | .lower a c =>
    ({ p.1 with numDeps := setAt p.1.numDeps a (setAt (p.1.numDeps a) c (dec (p.1.numDeps a c))) }, p.2)
  | .enqueue a c =>
    if p.1.numDeps a c = 0 then
      ({ p.1 with
          queue := setAt p.1.queue g (p.1.queue g ++ [⟨c, a, (cfg.data r).getPriority c a p.1.data⟩]) }, p.2)
    else p
  | .pack q side a =>
    ({ p.1 with
        sendBuf := setAt p.1.sendBuf g (setAt (p.1.sendBuf g) q (p.1.sendBuf g q ++ [⟨side, a, S.read p.2⟩])) }, p.2)

/-- The statements for one face (src/GraphTraverser.cc:611-643). -/
def faceOps (S : Slices cfg E X) (r : Nat) (t : Tuple) (f : Face) : List (Op E X) :=
  if cfg.outDir r t.angle t.cell f then
    match (cfg.mesh r).adjCell t.cell f with
    | some c => [.lower t.angle c, .enqueue t.angle c]
    | none => match (cfg.mesh r).adjRank t.cell f with
      | some q =>
        if cfg.doComm then
          (S.face r t.cell f t.angle).map (.work t.angle) ++
            [.pack q ((cfg.mesh r).lgSide ((cfg.mesh r).side t.cell f)) t.angle]
        else []
      | none => []
  else []

/-- The statements of a pass after the decrement of the counter (src/GraphTraverser.cc:606-643). -/
def passOps (S : Slices cfg E X) (r : Nat) (t : Tuple) : List (Op E X) :=
  (S.parts r t.cell t.angle).map (.work t.angle) ++ (List.finRange 4).flatMap (faceOps S r t)

/-- Where a thread is. `popped`: it has taken `t`, which stood between `l1` and `l2`, from its queue and
not yet decremented the counter. `running`: the statements it still has to execute in its pass. -/
inductive Pc (E X : Type)
  | idle
  | popped (t : Tuple) (l1 l2 : List Tuple)
  | running (t : Tuple) (ops : List (Op E X))

/-- State of all ranks and their threads (rank, then thread). -/
structure State (D B E X : Type) where
  rank : Nat → RankState D B
  scratch : Nat → Nat → X
  pc : Nat → Nat → Pc E X
  chan : Nat → Nat → List (Msg B)
  log : List (Event B)

/-- All ranks at entry. -/
def initState (cfg : Cfg D B) (S : Slices cfg E X) : State D B E X where
  rank := initRank cfg
  scratch := fun _ _ => S.scratch
  pc := fun _ _ => .idle
  chan := fun _ _ => []
  log := []

/-- Assignment to one entry of a table. -/
def set2 {α : Type} (f : Nat → Nat → α) (i j : Nat) (v : α) : Nat → Nat → α := setAt f i (setAt (f i) j v)

/-- What the one thread outside of the parallel region does on rank `r`: the steps of
`Verif.Traverse.Step` other than `compute`, as a change of the variables of the rank and of the
channels, with the calls into `TraverseData` (src/GraphTraverser.cc:518, 645-731). -/
inductive Serial (cfg : Cfg D B) (r : Nat) (st : RankState D B) (chan : Nat → Nat → List (Msg B)) :
    RankState D B → (Nat → Nat → List (Msg B)) → List (Event B) → Prop
  | skip (steps : Nat → Nat) (hphase : st.phase = .computing steps)
      (hdone : ∀ g < cfg.nThreads, st.queue g = [] ∨ ¬ steps g < cfg.maxCompute)
      (hcomm : cfg.doComm = false) :
      Serial cfg r st chan { st with phase := loopTest cfg st.remaining, round := st.round + 1 } chan []
  | send (steps : Nat → Nat) (hphase : st.phase = .computing steps)
      (hdone : ∀ g < cfg.nThreads, st.queue g = [] ∨ ¬ steps g < cfg.maxCompute)
      (hcomm : cfg.doComm = true) :
      Serial cfg r st chan
        { st with
          phase := .exchanging false (sources cfg r st) []
          sendBuf := fun _ _ => []
          round := st.round + 1
          sent := fun q => if q ∈ targets cfg r st then st.sent q + 1 else st.sent q }
        (post chan r (targets cfg r st) fun q => .packets (outbox cfg st q)) []
  | kill (hphase : st.phase = .closing) :
      Serial cfg r st chan
        { st with
          phase := .exchanging true (sources cfg r st) []
          round := st.round + 1
          sent := fun q => if q ∈ targets cfg r st then st.sent q + 1 else st.sent q }
        (post chan r (targets cfg r st) fun _ => .kill) []
  | recv (q : Nat) (kill : Bool) (p1 p2 : List Nat) (got : List (Nat × Packet B)) (m : Msg B) (ms : List (Msg B))
      (hphase : st.phase = .exchanging kill (p1 ++ q :: p2) got) (hchan : chan q r = m :: ms)
      (hcap : cfg.protocol = .capsaicin → p1 = [] ∧ (cfg.rendezvous = true → ∀ q, chan r q = [])) :
      Serial cfg r st chan
        { st with
          phase := .exchanging kill (p1 ++ p2) (got ++ m.list.map fun p => (q, p))
          dark := darken st.dark q m
          recvd := setAt st.recvd q (st.recvd q + 1) }
        (setAt chan q (setAt (chan q) r ms)) []
  | miss (q : Nat) (kill : Bool) (ps : List Nat) (got : List (Nat × Packet B))
      (hphase : st.phase = .exchanging kill (q :: ps) got) (hcap : cfg.protocol = .capsaicin)
      (hsends : cfg.rendezvous = true → ∀ q, chan r q = []) :
      Serial cfg r st chan { st with phase := .exchanging kill ps got } chan []
  | unpack (got : List (Nat × Packet B)) (hphase : st.phase = .exchanging false [] got)
      (hsends : cfg.rendezvous = true → ∀ q, chan r q = []) :
      Serial cfg r st chan (unpackAll cfg r got st) chan (unpackEvents cfg r got)
  | close (got : List (Nat × Packet B)) (hphase : st.phase = .exchanging true [] got)
      (hsends : cfg.rendezvous = true → ∀ q, chan r q = []) :
      Serial cfg r st chan { st with phase := .finished } chan []

/-- The steps of a thread in the parallel region. -/
inductive Inner (cfg : Cfg D B) (S : Slices cfg E X) : State D B E X → State D B E X → Prop
  /-- The test of the inner loop, `top`, `pop`, `stepsTaken++` (src/GraphTraverser.cc:525-533). -/
  | pop (w : State D B E X) (r g : Nat) (steps : Nat → Nat) (l1 l2 : List Tuple) (t : Tuple)
      (hr : r < cfg.nRanks) (hg : g < cfg.nThreads) (hpc : w.pc r g = .idle)
      (hphase : (w.rank r).phase = .computing steps)
      (hq : (w.rank r).queue g = l1 ++ t :: l2)
      (htop : ∀ t' ∈ (w.rank r).queue g, t'.priority ≤ t.priority)
      (hsteps : steps g < cfg.maxCompute) :
      Inner cfg S w
        { w with
          rank := setAt w.rank r { w.rank r with
            queue := setAt (w.rank r).queue g (l1 ++ l2)
            phase := .computing (setAt steps g (steps g + 1)) }
          pc := set2 w.pc r g (.popped t l1 l2) }
  /-- `numCellAnglePairsToCalculate--`, atomic (src/GraphTraverser.cc:535-536). The call of `update` that
  follows is recorded here. -/
  | count (w : State D B E X) (r g : Nat) (t : Tuple) (l1 l2 : List Tuple)
      (hr : r < cfg.nRanks) (hg : g < cfg.nThreads) (hpc : w.pc r g = .popped t l1 l2) :
      Inner cfg S w
        { w with
          rank := setAt w.rank r { w.rank r with remaining := dec (w.rank r).remaining }
          pc := set2 w.pc r g (.running t (passOps S r t))
          log := w.log ++ [.upd r t.cell t.angle ((w.rank r).round + 1)] }
  /-- The next statement of a pass. -/
  | op (w : State D B E X) (r g : Nat) (t : Tuple) (o : Op E X) (ops : List (Op E X))
      (hr : r < cfg.nRanks) (hg : g < cfg.nThreads) (hpc : w.pc r g = .running t (o :: ops)) :
      Inner cfg S w
        { w with
          rank := setAt w.rank r (exec S r g (w.rank r, w.scratch r g) o).1
          scratch := set2 w.scratch r g (exec S r g (w.rank r, w.scratch r g) o).2
          pc := set2 w.pc r g (.running t ops) }
  /-- The end of a pass: back to the test of the inner loop. -/
  | done (w : State D B E X) (r g : Nat) (t : Tuple)
      (hr : r < cfg.nRanks) (hg : g < cfg.nThreads) (hpc : w.pc r g = .running t []) :
      Inner cfg S w { w with pc := set2 w.pc r g .idle }

/-- The steps. -/
inductive Step (cfg : Cfg D B) (S : Slices cfg E X) : State D B E X → State D B E X → Prop
  /-- A step of a thread. -/
  | inner {w w' : State D B E X} (h : Inner cfg S w w') : Step cfg S w w'
  /-- The part outside of the parallel region, which has a barrier at its end. -/
  | serial (w : State D B E X) (r : Nat) (st' : RankState D B) (chan' : Nat → Nat → List (Msg B))
      (evs : List (Event B)) (hr : r < cfg.nRanks) (hidle : ∀ g < cfg.nThreads, w.pc r g = .idle)
      (h : Serial cfg r (w.rank r) w.chan st' chan' evs) :
      Step cfg S w { w with rank := setAt w.rank r st', chan := chan', log := w.log ++ evs }

/-- Executions, with the number of steps. -/
inductive Run (cfg : Cfg D B) (S : Slices cfg E X) : Nat → State D B E X → Prop
  | init : Run cfg S 0 (initState cfg S)
  | step {n w w'} : Run cfg S n w → Step cfg S w w' → Run cfg S (n + 1) w'

/-! ## Memory -/

/-- The memory the threads of a rank share, by location. -/
inductive Mem
  /-- `numCellAnglePairsToCalculate` -/
  | counter
  /-- `canCompute[g]` -/
  | queue (g : Nat)
  /-- `numDependencies(angle, cell)` -/
  | deps (angle cell : Nat)
  /-- the values of the data object for an angle -/
  | slice (angle : Nat)
  /-- the scratch arrays of the data object for a thread -/
  | scratch (g : Nat)
  /-- `sendBuffers(g, rankIndex)` -/
  | buffer (g q : Nat)

/-- What a thread does next. -/
inductive Act (E X : Type)
  | pop
  | count
  | op (o : Op E X)

/-- The next action of a thread; `none` at the end of a pass. -/
def Pc.next : Pc E X → Option (Act E X)
  | .idle => some .pop
  | .popped .. => some .count
  | .running _ (o :: _) => some (.op o)
  | .running _ [] => none

/-- The locations a statement of thread `g` may read or write. -/
def Op.touches (g : Nat) : Op E X → Mem → Prop
  | .work a _, m => m = .slice a ∨ m = .scratch g
  | .lower a c, m => m = .deps a c
  | .enqueue a c, m => m = .deps a c ∨ m = .queue g ∨ m = .slice a
  | .pack q _ _, m => m = .buffer g q ∨ m = .scratch g

/-- The locations an action of thread `g` may read or write. -/
def Act.touches (g : Nat) : Act E X → Mem → Prop
  | .pop, m => m = .queue g
  | .count, m => m = .counter
  | .op o, m => o.touches g m

/-- A location holds the same in two memories (variables of the rank, scratch by thread). -/
def Mem.Same (S : Slices cfg E X) (p p' : RankState D B × (Nat → X)) : Mem → Prop
  | .counter => p.1.remaining = p'.1.remaining
  | .queue g => p.1.queue g = p'.1.queue g
  | .deps a c => p.1.numDeps a c = p'.1.numDeps a c
  | .slice a => S.get p.1.data a = S.get p'.1.data a
  | .scratch g => p.2 g = p'.2 g
  | .buffer g q => p.1.sendBuf g q = p'.1.sendBuf g q

/-- The memory after a statement. -/
def after (S : Slices cfg E X) (r g : Nat) (p : RankState D B × (Nat → X)) (o : Op E X) : RankState D B × (Nat → X) :=
  ((exec S r g (p.1, p.2 g) o).1, setAt p.2 g (exec S r g (p.1, p.2 g) o).2)

end Verif.Threads
