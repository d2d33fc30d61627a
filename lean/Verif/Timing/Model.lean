import Mathlib.Data.Real.Basic
import Mathlib.Data.Finset.Lattice.Fold
import Mathlib.Data.Fintype.Basic

/-!
# Timers and the times that are printed (src/Timer.hh)

`none` is an `Assert` that fires. The `i`-th call of `now()` by a thread returns `clock i`.
-/
namespace Verif.Timing

/-- `Timer` (src/Timer.hh:54-61). -/
structure Timer where
  begin : ℝ
  last : ℝ
  on : Bool
  sum : ℝ
  intervals : Nat

/-- The constructor (src/Timer.hh:66-70). A `time_point` is zero at first. -/
noncomputable def Timer.new : Timer := ⟨0, 0, false, 0, 0⟩

/-- `start` (src/Timer.hh:73-80). -/
def Timer.start (t : Timer) (now : ℝ) : Option Timer :=
  if t.on then none else some { t with on := true, intervals := t.intervals + 1, begin := now }

/-- `wall_clock` (src/Timer.hh:94-99). -/
noncomputable def Timer.wallClock (t : Timer) : Option ℝ := if t.on then none else some (t.last - t.begin)

/-- `stop` (src/Timer.hh:83-90). -/
noncomputable def Timer.stop (t : Timer) (now : ℝ) : Option Timer :=
  if t.on then
    let t := { t with last := now, on := false }
    t.wallClock.map fun w => { t with sum := t.sum + w }
  else none

/-- `sum_wall_clock` (src/Timer.hh:103-107). -/
def Timer.sumWallClock (t : Timer) : Option ℝ := if t.on then none else some t.sum

/-- `gmax` (src/Comm.cc:128-139) over `n + 1` ranks. -/
noncomputable def gmax {n : Nat} (x : Fin (n + 1) → ℝ) : ℝ := Finset.univ.sup' ⟨0, Finset.mem_univ 0⟩ x

/-! ### The traversal (src/GraphTraverser.cc:476-757) -/

/-- Its timers (src/GraphTraverser.cc:476-480). -/
inductive Which | total | setup | comm | send | recv
deriving DecidableEq

/-- A call of `start` (`true`) or `stop`. -/
abbrev Call := Bool × Which

/-- The calls run one after the other from the `i`-th reading of the clock. -/
noncomputable def run (clock : Nat → ℝ) : List Call → Nat → (Which → Timer) → Option (Which → Timer)
  | [], _, s => some s
  | (b, w) :: l, i, s => do
    let t ← if b then (s w).start (clock i) else (s w).stop (clock i)
    run clock l (i + 1) (Function.update s w t)

/-- The calls in one pass of the loop (src/GraphTraverser.cc:659-718); `two` is the communication type
`CapsaicinTwoSided`, else it is `TychoTwoSided`. -/
def pass (doComm two : Bool) : List Call :=
  [(true, .comm)] ++ (if doComm && two then [(true, .send), (false, .send), (true, .recv), (false, .recv)] else []) ++ [(false, .comm)]

/-- The calls of `traverse` with `n` passes (src/GraphTraverser.cc:484-485, 514, 518-719, 723-731, 735). -/
def traverse (doComm two : Bool) (n : Nat) : List Call :=
  [(true, .total), (true, .setup), (false, .setup)] ++ (List.replicate n (pass doComm two)).flatten ++
    (if two then [] else [(true, .comm), (false, .comm)]) ++ [(false, .total)]

/-- The times of one rank, before `gmax`. -/
structure Times where
  comm : ℝ
  send : ℝ
  recv : ℝ
  setup : ℝ
  total : ℝ

/-- The times of a call of `traverse` (src/GraphTraverser.cc:737-749). -/
noncomputable def traverseTimes (clock : Nat → ℝ) (doComm two : Bool) (n : Nat) : Option Times := do
  let s ← run clock (traverse doComm two n) 0 fun _ => .new
  let total ← (s .total).wallClock
  let setup ← (s .setup).wallClock
  let comm ← (s .comm).sumWallClock
  let send ← (s .send).sumWallClock
  let recv ← (s .recv).sumWallClock
  some ⟨comm, send, recv, setup, total⟩

/-! ### Source iteration (src/SourceIteration.cc:142-205) -/

/-- `k` iterations, each with a new timer (src/SourceIteration.cc:146-180), from the `i`-th reading. -/
noncomputable def iterations (clock : Nat → ℝ) : Nat → Nat → Option (List ℝ)
  | 0, _ => some []
  | k + 1, i => do
    let t ← Timer.new.start (clock i)
    let t ← t.stop (clock (i + 1))
    let w ← t.wallClock
    let l ← iterations clock k (i + 2)
    some (w :: l)

/-- The times of the iterations and of all of `fixedPoint` on a rank, before `gmax`
(src/SourceIteration.cc:142-195). -/
noncomputable def fixedPointTimes (clock : Nat → ℝ) (k : Nat) : Option (List ℝ × ℝ) := do
  let t ← Timer.new.start (clock 0)
  let l ← iterations clock k 1
  let t ← t.stop (clock (2 * k + 1))
  let w ← t.wallClock
  some (l, w)

/-! ### The sweep along schedules (src/Sweeper.cc:379-514) -/

/-- `computationTimes[angleGroup]` of a thread after `k` steps (src/Sweeper.cc:412-418, 455-460). -/
noncomputable def computationTime (clock : Nat → ℝ) : Nat → Nat → ℝ → Option ℝ
  | 0, _, acc => some acc
  | k + 1, i, acc => do
    let t ← Timer.new.start (clock i)
    let t ← t.stop (clock (i + 1))
    let w ← t.wallClock
    computationTime clock k (i + 2) (acc + w)

/-- The times of a rank: of each of `g + 1` threads for computation, and the total. `outer` are the two
readings of the total timer, `inner` those of the threads. -/
noncomputable def sweepTimes {g : Nat} (outer : Nat → ℝ) (inner : Fin (g + 1) → Nat → ℝ) (k : Nat) : Option ((Fin (g + 1) → ℝ) × ℝ) :=
  if ∀ j, (computationTime (inner j) k 0 0).isSome then do
    let t ← Timer.new.start (outer 0)
    let t ← t.stop (outer 1)
    let w ← t.wallClock
    some (fun j => (computationTime (inner j) k 0 0).getD 0, w)
  else none

/-- The three times printed (src/Sweeper.cc:499-513): computation, other, total. -/
noncomputable def printed {n g : Nat} (times : Fin (n + 1) → (Fin (g + 1) → ℝ) × ℝ) : ℝ × ℝ × ℝ :=
  let total := gmax fun r => (times r).2
  let computation := max 0 (Finset.univ.sup' ⟨0, Finset.mem_univ 0⟩ fun j => gmax fun r => (times r).1 j)
  (computation, total - computation, total)

end Verif.Timing
