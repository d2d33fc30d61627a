import Verif.Schedule.Core
import Verif.Threads.Model

/-!
# The sweep along schedules, statement by statement and call by call (src/Sweeper.cc)

In `Verif.Schedule.Core` one pass over a work item, one `send`, and one pass of the loop of `recv` are
single steps. Here each of their statements is a step of its own, as is each call of MPI: the threads of
a rank interleave between any two statements, in the second variant also with the thread that is
communicating. The assignments of `setBoundData` to the shared boundary array, the
two lists of each send buffer, the three messages of each transfer, and the wait for `commNumber` are
all present.

Simplifications, recorded in DESIGN.md:
* a statement is an assignment to entries of one angle or to variables of the thread; statements are
  sequentially consistent;
* the contents of a message are those of the buffer at the call of `MPI_Isend`. The code lets one of
  the buffers die earlier: see `Verif.Lifetime`;
* the three values of a face and all groups are one block, and the second size counts blocks;
* a look at `commNumber` that finds another number changes nothing and is left out.
-/
set_option linter.unusedSectionVars false

namespace Verif.Fine
open Verif.Traverse Verif.Schedule

variable {D B E X : Type}

/-- How the data object splits by angle: `E` is what it holds of one angle, `X` the variables of a thread.
The statements of the solve with `updateBoundData`, of `getBoundData` and of `setBoundData` read and write
only entries of their angle and variables of their thread, and what comes out does not depend on what
those variables held before. -/
structure Slices (S : Core D B) (E X : Type) where
  get : D → Nat → E
  set : D → Nat → E → D
  get_set_same : ∀ d a e, get (set d a e) a = e
  get_set_ne : ∀ d a e a', a' ≠ a → get (set d a e) a' = get d a'
  ext : ∀ d d', (∀ a, get d a = get d' a) → d = d'
  /-- the statements from `localSource` to the end of `updateBoundData` (src/Sweeper.cc:284-305), by rank,
  cell and angle -/
  parts : Nat → Nat → Nat → List (E → X → E × X)
  parts_eq : ∀ r c a d x, S.compute r ⟨c, a⟩ d = set d a (Threads.runAll (parts r c a) (get d a, x)).1
  /-- the statements of `getBoundData` (src/Sweeper.cc:80-83), by side -/
  face : Nat → List (E → X → E × X)
  /-- `psiSide` -/
  read : X → B
  face_eq : ∀ side a d x, (Threads.runAll (face side) (get d a, x)).1 = get d a ∧
    read (Threads.runAll (face side) (get d a, x)).2 = S.getBoundData d side a
  /-- the statements of one pass of the loop of `setBoundData` (src/Sweeper.cc:98-103), by rank and side -/
  store : Nat → Nat → B → List (E → X → E × X)
  store_eq : ∀ r side a b d x, (S.cfg.data r).setSideData side a b d =
    set d a (Threads.runAll (store r side b) (get d a, x)).1
  /-- what the variables of a thread hold at first -/
  scratch : X

/-- A statement: an assignment to entries of angle `a` or to variables of the thread; the `insert` into
`commPsi` and the `push_back`s to `commSidesAngles` (src/Sweeper.cc:218-221); the three calls of
`MPI_Isend`, and `clear` (src/Sweeper.cc:129-141). -/
inductive Op (B E X : Type)
  | work (a : Nat) (f : E → X → E × X)
  | putPsi (q : Nat)
  | putSide (q side a : Nat)
  | sendSizes (q : Nat)
  | sendSides (q : Nat)
  | sendPsi (q : Nat)
  | clear (q : Nat)

/-- What the statements of one thread see: the entries by angle, its variables, the two lists of its send
buffers by rank, and its three kinds of messages on their way to each rank (tags 3g, 3g+1, 3g+2). -/
structure View (B E X : Type) where
  e : Nat → E
  x : X
  sides : Nat → List (Nat × Nat)
  psi : Nat → List B
  c0 : Nat → List (Nat × Nat)
  c1 : Nat → List (List (Nat × Nat))
  c2 : Nat → List (List B)

/-- The effect of a statement. `nSides > 0` guards two of the sends (src/Sweeper.cc:131). -/
def exec (read : X → B) (v : View B E X) : Op B E X → View B E X
  | .work a f => { v with e := setAt v.e a (f (v.e a) v.x).1, x := (f (v.e a) v.x).2 }
  | .putPsi q => { v with psi := setAt v.psi q (v.psi q ++ [read v.x]) }
  | .putSide q side a => { v with sides := setAt v.sides q (v.sides q ++ [(side, a)]) }
  | .sendSizes q => { v with c0 := setAt v.c0 q (v.c0 q ++ [((v.sides q).length, (v.psi q).length)]) }
  | .sendSides q => if (v.sides q).length = 0 then v else { v with c1 := setAt v.c1 q (v.c1 q ++ [v.sides q]) }
  | .sendPsi q => if (v.sides q).length = 0 then v else { v with c2 := setAt v.c2 q (v.c2 q ++ [v.psi q]) }
  | .clear q => { v with sides := setAt v.sides q [], psi := setAt v.psi q [] }

variable {S : Core D B} (Z : Slices S E X)

/-- The statements of `updateComm` for one face (src/Sweeper.cc:204-223). -/
def faceOps (r : Nat) (w : Work) (f : Face) : List (Op B E X) :=
  if S.leaves r w.angle w.cell f then
    match (S.cfg.mesh r).adjRank w.cell f with
    | some q => (Z.face ((S.cfg.mesh r).side w.cell f)).map (.work w.angle) ++
        [.putPsi q, .putSide q ((S.cfg.mesh r).lgSide ((S.cfg.mesh r).side w.cell f)) w.angle]
    | none => []
  else []

/-- The statements of one pass of the loop over `getWork(step)` (src/Sweeper.cc:279-307). -/
def workOps (r : Nat) (w : Work) : List (Op B E X) :=
  (Z.parts r w.cell w.angle).map (.work w.angle) ++ (List.finRange 4).flatMap (faceOps Z r w)

/-- The statements of `send` (src/Sweeper.cc:118-142). -/
def sendOps (l : List Nat) : List (Op B E X) :=
  l.flatMap fun q => [.sendSizes q, .sendSides q, .sendPsi q, .clear q]

/-- The statements of `setBoundData` (src/Sweeper.cc:96-104), from the received sides with angles and
the received blocks. -/
def storeOps (r : Nat) (l : List (Nat × Nat)) (b : List B) : List (Op B E X) :=
  (l.zip b).flatMap fun p => (Z.store r ((S.cfg.mesh r).glSide p.1.1) p.2).map (.work p.1.2)

/-- Where the thread of a group is, besides its place in the loops: the statements still to be executed
before it gets there; it has found its number in `commNumber` (src/Sweeper.cc:468); within `recv`
it has the sizes from rank `q`, or the sizes and the sides with angles (src/Sweeper.cc:163-173). -/
inductive Pc (B E X : Type)
  | ops (l : List (Op B E X))
  | granted
  | gotSizes (q : Nat) (n : Nat × Nat)
  | gotSides (q : Nat) (n : Nat × Nat) (l : List (Nat × Nat))

/-- The statements left. -/
def Pc.left : Pc B E X → List (Op B E X)
  | .ops l => l
  | _ => []

/-- Variables of `Sweeper::sweep` on one rank (src/Sweeper.cc:391-393, 445), `sides group proc` being
`commSidesAngles` by pairs and `psi group proc` being `commPsi` by blocks. -/
structure Rank (D B E X : Type) where
  data : D
  scratch : Nat → X
  sides : Nat → Nat → List (Nat × Nat)
  psi : Nat → Nat → List B
  pc : Nat → Pc B E X
  place : Nat → Place
  turn : Nat
  entered : Nat

/-- All ranks, the messages on their way by sender, group and receiver, and the history. -/
structure State (D B E X : Type) where
  rank : Nat → Rank D B E X
  c0 : Nat → Nat → Nat → List (Nat × Nat)
  c1 : Nat → Nat → Nat → List (List (Nat × Nat))
  c2 : Nat → Nat → Nat → List (List B)
  log : List (Event B)

variable {Z}

/-- Assignment to the variables of one rank. -/
def State.setRank (w : State D B E X) (r : Nat) (v : Rank D B E X) : State D B E X :=
  { w with rank := setAt w.rank r v }

/-- Assignment to the program counter of a thread. -/
def Rank.setPc (v : Rank D B E X) (g : Nat) (p : Pc B E X) : Rank D B E X := { v with pc := setAt v.pc g p }

/-- Assignment to the program counter and the place in the loops. -/
def Rank.goTo (v : Rank D B E X) (g : Nat) (p : Pc B E X) (pl : Place) : Rank D B E X :=
  { v with pc := setAt v.pc g p, place := setAt v.place g pl }

variable (Z) in
/-- What the thread of group `g` of rank `r` sees. -/
def State.view (w : State D B E X) (r g : Nat) : View B E X where
  e := Z.get (w.rank r).data
  x := (w.rank r).scratch g
  sides := (w.rank r).sides g
  psi := (w.rank r).psi g
  c0 := w.c0 r g
  c1 := w.c1 r g
  c2 := w.c2 r g

variable (Z) in
/-- The data object after a statement. -/
def storeData (d : D) (v : View B E X) : Op B E X → D
  | .work a _ => Z.set d a (v.e a)
  | _ => d

variable (Z) in
/-- The thread of group `g` of rank `r` executes the statement `o`, leaving `l`. -/
def State.exec (w : State D B E X) (r g : Nat) (o : Op B E X) (l : List (Op B E X)) : State D B E X :=
  let v := Fine.exec Z.read (w.view Z r g) o
  { w with
    rank := setAt w.rank r
      { w.rank r with
        data := storeData Z (w.rank r).data v o
        scratch := setAt (w.rank r).scratch g v.x
        sides := setAt (w.rank r).sides g v.sides
        psi := setAt (w.rank r).psi g v.psi
        pc := setAt (w.rank r).pc g (.ops l) }
    c0 := setAt w.c0 r (setAt (w.c0 r) g v.c0)
    c1 := setAt w.c1 r (setAt (w.c1 r) g v.c1)
    c2 := setAt w.c2 r (setAt (w.c2 r) g v.c2) }

/-- The thread has no statement left and is not within `recv`. -/
def Rank.idle (v : Rank D B E X) (g : Nat) : Prop := v.pc g = .ops []

variable (S) in
/-- All receives of the step are done. -/
def Rank.heard (v : Rank D B E X) (r g : Nat) : Prop :=
  v.idle g ∧ (v.place g).phase = .comm (S.recvAt g r (v.place g).step).length

variable (S) in
/-- `send` begins: in the first variant when all threads have left the parallel region and the calls of
`send` for the groups before have returned; in the second when the thread has found its number
(src/Sweeper.cc:410-427, 464-475). -/
def Rank.maySend (v : Rank D B E X) (r g : Nat) : Prop :=
  match S.variant with
  | .tycho1 => (∀ g' < S.nAngleGroups, v.idle g' ∧ ∀ i, (v.place g').phase = .compute i →
      (S.workAt g' r (v.place g').step).length ≤ i) ∧ ∀ g' < g, (v.place g').sent
  | .tycho2 => v.pc g = .granted

variable (S) in
/-- The next pass of the loop of `recv` begins: in the first variant when all calls of `send` and the
calls of `recv` for the groups before have returned (src/Sweeper.cc:429-431, 476). -/
def Rank.mayRecv (v : Rank D B E X) (r g : Nat) : Prop :=
  match S.variant with
  | .tycho1 => (∀ g' < S.nAngleGroups, v.idle g' ∧ (v.place g').sent) ∧ ∀ g' < g, v.heard S r g'
  | .tycho2 => v.idle g

variable (S) in
/-- `MPI_Waitall` returns (src/Sweeper.cc:433, 477-478): at once if MPI buffers, else when the messages
sent have been received. -/
def State.flushed (w : State D B E X) (r g : Nat) : Prop :=
  S.cfg.rendezvous = true → ∀ q, w.c0 r g q = [] ∧ w.c1 r g q = [] ∧ w.c2 r g q = []

variable (Z) in
/-- One statement or one call of one thread. A receive of a message of another length than its buffer
would be an error; `calls_match` shows that there is none. -/
inductive Step : State D B E X → State D B E X → Prop
  | work (w : State D B E X) (r g k i : Nat) (t : Work) : r < S.cfg.nRanks → g < S.nAngleGroups →
      (w.rank r).idle g → (w.rank r).place g = ⟨k, .compute i⟩ → (S.workAt g r k)[i]? = some t →
      Step w { w.setRank r ((w.rank r).goTo g (.ops (workOps Z r t)) ⟨k, .compute (i + 1)⟩) with
        log := w.log ++ [.upd r t.cell t.angle k] }
  | op (w : State D B E X) (r g : Nat) (o : Op B E X) (l : List (Op B E X)) : r < S.cfg.nRanks →
      g < S.nAngleGroups → (w.rank r).pc g = .ops (o :: l) → Step w (w.exec Z r g o l)
  | look (w : State D B E X) (r g k i : Nat) : S.variant = .tycho2 → r < S.cfg.nRanks → g < S.nAngleGroups →
      (w.rank r).idle g → (w.rank r).place g = ⟨k, .compute i⟩ → (S.workAt g r k).length ≤ i →
      k < S.maxSteps r → (w.rank r).turn = g → Step w (w.setRank r ((w.rank r).setPc g .granted))
  | send (w : State D B E X) (r g k i : Nat) : r < S.cfg.nRanks → g < S.nAngleGroups →
      (w.rank r).place g = ⟨k, .compute i⟩ → (S.workAt g r k).length ≤ i → k < S.maxSteps r →
      (w.rank r).maySend S r g →
      Step w (w.setRank r ((w.rank r).goTo g (.ops (sendOps (S.sendAt g r k))) ⟨k, .comm 0⟩))
  | recvNone (w : State D B E X) (r g k j q : Nat) (n : Nat) (ns : List (Nat × Nat)) : r < S.cfg.nRanks →
      g < S.nAngleGroups → (w.rank r).place g = ⟨k, .comm j⟩ → (S.recvAt g r k)[j]? = some q →
      (w.rank r).mayRecv S r g → w.c0 q g r = (0, n) :: ns →
      Step w { w.setRank r ((w.rank r).goTo g (.ops []) ⟨k, .comm (j + 1)⟩) with
        c0 := setAt w.c0 q (setAt (w.c0 q) g (setAt (w.c0 q g) r ns)) }
  | recvSizes (w : State D B E X) (r g k j q : Nat) (n : Nat × Nat) (ns : List (Nat × Nat)) : r < S.cfg.nRanks →
      g < S.nAngleGroups → (w.rank r).place g = ⟨k, .comm j⟩ → (S.recvAt g r k)[j]? = some q →
      (w.rank r).mayRecv S r g → w.c0 q g r = n :: ns → n.1 ≠ 0 →
      Step w { w.setRank r ((w.rank r).setPc g (.gotSizes q n)) with
        c0 := setAt w.c0 q (setAt (w.c0 q) g (setAt (w.c0 q g) r ns)) }
  | recvSides (w : State D B E X) (r g q : Nat) (n : Nat × Nat) (l : List (Nat × Nat))
      (ls : List (List (Nat × Nat))) : r < S.cfg.nRanks → g < S.nAngleGroups →
      (w.rank r).pc g = .gotSizes q n → w.c1 q g r = l :: ls → l.length = n.1 →
      Step w { w.setRank r ((w.rank r).setPc g (.gotSides q n l)) with
        c1 := setAt w.c1 q (setAt (w.c1 q) g (setAt (w.c1 q g) r ls)) }
  | recvPsi (w : State D B E X) (r g k j q : Nat) (n : Nat × Nat) (l : List (Nat × Nat)) (b : List B)
      (bs : List (List B)) : r < S.cfg.nRanks → g < S.nAngleGroups →
      (w.rank r).pc g = .gotSides q n l → (w.rank r).place g = ⟨k, .comm j⟩ → w.c2 q g r = b :: bs →
      b.length = n.2 →
      Step w { w.setRank r ((w.rank r).goTo g (.ops (storeOps Z r l b)) ⟨k, .comm (j + 1)⟩) with
        c2 := setAt w.c2 q (setAt (w.c2 q) g (setAt (w.c2 q g) r bs))
        log := w.log ++ (l.zip b).map fun p => .side r ((S.cfg.mesh r).glSide p.1.1) p.1.2 p.2 }
  | next (w : State D B E X) (r k : Nat) : S.variant = .tycho1 → r < S.cfg.nRanks →
      (∀ g < S.nAngleGroups, ((w.rank r).place g).step = k ∧ (w.rank r).heard S r g ∧ w.flushed S r g) →
      0 < S.nAngleGroups →
      Step w (w.setRank r { w.rank r with place := fun _ => ⟨k + 1, .compute 0⟩ })
  | enter (w : State D B E X) (r g k : Nat) : S.variant = .tycho2 → r < S.cfg.nRanks → g < S.nAngleGroups →
      ((w.rank r).place g).step = k → (w.rank r).heard S r g → w.flushed S r g →
      Step w (w.setRank r { (w.rank r).goTo g (.ops []) ⟨k, .barrier⟩ with entered := (w.rank r).entered + 1 })
  | leave (w : State D B E X) (r g k : Nat) : S.variant = .tycho2 → r < S.cfg.nRanks → g < S.nAngleGroups →
      (w.rank r).idle g → (w.rank r).place g = ⟨k, .barrier⟩ → (∀ q < S.cfg.nRanks, (w.rank r).entered ≤ (w.rank q).entered) →
      Step w (w.setRank r { (w.rank r).goTo g (.ops []) ⟨k + 1, .compute 0⟩ with
        turn := (g + 1) % S.nAngleGroups })

variable (Z) in
/-- Before the sweep (src/Sweeper.cc:391-393, 445). -/
def start : State D B E X where
  rank r := { data := S.cfg.init r, scratch := fun _ => Z.scratch, sides := fun _ _ => [], psi := fun _ _ => [],
              pc := fun _ => .ops [], place := fun _ => ⟨0, .compute 0⟩, turn := 0, entered := 0 }
  c0 _ _ _ := []
  c1 _ _ _ := []
  c2 _ _ _ := []
  log := []

variable (Z) in
/-- States an execution can reach. -/
inductive Run : State D B E X → Prop
  | start : Run (start Z)
  | step {w w' : State D B E X} : Run w → Step Z w w' → Run w'

variable (S) in
/-- The sweep has returned on all ranks. -/
def State.Over (w : State D B E X) : Prop :=
  ∀ r < S.cfg.nRanks, ∀ g < S.nAngleGroups,
    (w.rank r).idle g ∧ (w.rank r).place g = ⟨S.maxSteps r, .compute 0⟩

/-- A place in memory: the entries of an angle, the variables of a thread, a send buffer. -/
inductive Mem
  | slice (a : Nat)
  | scratch (g : Nat)
  | buffer (g q : Nat)

/-- What a statement of the thread of group `g` reads or writes. -/
def touches (g : Nat) : Op B E X → List Mem
  | .work a _ => [.slice a, .scratch g]
  | .putPsi q => [.scratch g, .buffer g q]
  | .putSide q _ _ | .sendSizes q | .sendSides q | .sendPsi q | .clear q => [.buffer g q]

end Verif.Fine
