import Verif.Threads.Sweep
import Verif.Wire.Props

/-!
# A traversal with both its threads and its MPI calls in single steps (src/GraphTraverser.cc:429-731)

`Verif.Threads` lets the threads of the parallel region interleave statement by statement and takes an
exchange as one message per rank; `Verif.Wire` makes the exchange call by call and takes a pass of the
inner loop as one step. Here both are in single steps: the threads of all ranks, and on each rank whose
threads are all at the barrier the calls of the one thread outside of the region, interleave freely.
-/
namespace Verif.Joint

open Verif.Traverse

variable {D B E X : Type}

/-- All ranks: variables, messages and calls as in `Verif.Wire`, scratch memory and place in the program
of each thread (rank, then thread) as in `Verif.Threads`. -/
structure State (D B E X : Type) where
  net : Wire.State D B
  scratch : Nat → Nat → X
  pc : Nat → Nat → Threads.Pc E X

/-- All ranks at entry of the outer loop. -/
def initState (cfg : Cfg D B) (S : Threads.Slices cfg E X) : State D B E X where
  net := Wire.initState cfg
  scratch := fun _ _ => S.scratch
  pc := fun _ _ => .idle

/-- What the threads see: no thread of the parallel region makes a call of MPI
(src/GraphTraverser.cc:521-644). -/
def State.view (w : State D B E X) : Threads.State D B E X :=
  ⟨w.net.rank, w.scratch, w.pc, fun _ _ => [], w.net.log⟩

/-- What the threads changed. -/
def State.put (w : State D B E X) (v : Threads.State D B E X) : State D B E X :=
  ⟨{ w.net with rank := v.rank, log := v.log }, v.scratch, v.pc⟩

/-- The steps. -/
inductive Step (cfg : Cfg D B) (S : Threads.Slices cfg E X) (C : Wire.Codec B) :
    State D B E X → State D B E X → Prop
  /-- A statement of a thread in the parallel region (src/GraphTraverser.cc:523-643). -/
  | inner {w : State D B E X} {v : Threads.State D B E X} (h : Threads.Inner cfg S w.view v) :
      Step cfg S C w (w.put v)
  /-- A call outside of it, when all threads of the rank are at the barrier
  (src/GraphTraverser.cc:644-731, 263-406). -/
  | call {w : State D B E X} (r : Nat) (net' : Wire.State D B) (hr : r < cfg.nRanks)
      (hidle : ∀ g < cfg.nThreads, w.pc r g = .idle) (h : Wire.Call cfg C r w.net net') :
      Step cfg S C w { w with net := net' }

/-- Executions, with the number of steps. -/
inductive Run (cfg : Cfg D B) (S : Threads.Slices cfg E X) (C : Wire.Codec B) : Nat → State D B E X → Prop
  | init : Run cfg S C 0 (initState cfg S)
  | step {n w w'} : Run cfg S C n w → Step cfg S C w w' → Run cfg S C (n + 1) w'

end Verif.Joint
