import Verif.Storage.Lemmas

/-!
# The parallel loops of `Util` access by access

`psiToPhi`, `phiToPsi` and `calcTotalSource` (src/Util.cc:85-130) run their loop over the cells under
`#pragma omp parallel for`. Here every load and every store of a `double` is a step of its own, the threads take
steps in any order, and the arithmetic is that of any machine: `F` is a type on which nothing is assumed.

Simplified: memory is sequentially consistent, which is what the absence of data races gives (C++11 and OpenMP). An
assignment loads its operands from left to right; a compiler that keeps `phi` in a register over the angles performs
fewer of these steps.
-/
namespace Verif.Loops

open Verif.Storage

/-- A `double` in memory: the array it belongs to (its address, as a number) and its offset. -/
abbrev Place := Nat × Nat

/-- The contents of the memory. -/
abbrev Memory (F : Type) := Place → F

/-- An assignment of a loop body: the places loaded, the value computed of them, the place stored to. -/
structure Assign (F : Type) where
  target : Place
  loads : List Place
  value : List F → F

/-- A thread: the assignments it has yet to do, and what it has loaded for the first of them. -/
structure Thread (F : Type) where
  todo : List (Assign F)
  loaded : List F

/-- The threads and the memory they share. -/
structure State (F : Type) where
  memory : Memory F
  thread : Nat → Thread F

variable {F : Type}

/-- A store. -/
def Memory.put (m : Memory F) (p : Place) (x : F) : Memory F := fun q => if q = p then x else m q

/-- The next access of a thread: a load (`false`) or a store (`true`). -/
def Thread.next (t : Thread F) : Option (Place × Bool) :=
  match t.todo with
  | [] => none
  | s :: _ => match s.loads[t.loaded.length]? with
    | some p => some (p, false)
    | none => some (s.target, true)

/-- Thread `i` makes its next access. -/
def State.step (s : State F) (i : Nat) : State F :=
  match (s.thread i).todo with
  | [] => s
  | a :: rest => match a.loads[(s.thread i).loaded.length]? with
    | some p => ⟨s.memory, fun j => if j = i then ⟨a :: rest, (s.thread i).loaded ++ [s.memory p]⟩ else s.thread j⟩
    | none => ⟨s.memory.put a.target (a.value (s.thread i).loaded), fun j => if j = i then ⟨rest, []⟩ else s.thread j⟩

/-- `s` after `k` accesses, in any interleaving, from memory `m` when thread `i` has the assignments
`prog i`. -/
inductive Runs (prog : Nat → List (Assign F)) (m : Memory F) : Nat → State F → Prop
  | start : Runs prog m 0 ⟨m, fun i => ⟨prog i, []⟩⟩
  | step {k s} (i : Nat) (h : Runs prog m k s) (hi : (s.thread i).todo ≠ []) : Runs prog m (k + 1) (s.step i)

/-- All threads are at the end of the loop. -/
def State.Done (s : State F) : Prop := ∀ i, (s.thread i).todo = []

/-- Two threads are about to access the same place, at least one of them to store there. -/
def State.Race (s : State F) : Prop :=
  ∃ i j p b b', i ≠ j ∧ (s.thread i).next = some (p, b) ∧ (s.thread j).next = some (p, b') ∧ (b = true ∨ b' = true)

/-- `PsiData::index` (src/PsiData.hh:155-162), on 64-bit numbers. -/
def psiIndex (nG nA g v a c : Nat) : Nat := wadd (wmul (wadd (wmul (wadd (wmul c nA) a) 4) v) nG) g

/-- `PhiData::index` (src/PsiData.hh:363-370). -/
def phiIndex (nG g v c : Nat) : Nat := wadd (wmul (wadd (wmul c 4) v) nG) g

/-- The nest over angle, vertex and group inside the loop over the cells (src/Util.cc:91-93, 107-109,
123-125), of loop body `b`. -/
def nest (nA nG : Nat) (b : Nat → Nat → Nat → Nat → Assign F) (c : Nat) : List (Assign F) :=
  (List.range nA).flatMap fun a => (List.range 4).flatMap fun v => (List.range nG).map fun g => b g v a c

/-- What thread `i` does in `#pragma omp parallel for`: the cells `cells i` given to it, in order. -/
def loop (nA nG : Nat) (cells : Nat → List Nat) (b : Nat → Nat → Nat → Nat → Assign F) (i : Nat) : List (Assign F) :=
  (cells i).flatMap (nest nA nG b)

/-- Each cell is given to exactly one of `n` threads, once. -/
def Shared (n nCells : Nat) (cells : Nat → List Nat) : Prop :=
  ((List.range n).flatMap cells).Perm (List.range nCells) ∧ ∀ i, n ≤ i → cells i = []

/-- `phi(group, vertex, cell) += psi(group, vertex, angle, cell) * g_quadrature->getWt(angle)`
(src/Util.cc:94-95); `acc` are the multiplication and the addition, `wt` is `c_w` (src/Quadrature.cc:122-126). -/
def phiBody (acc : F → F → F → F) (dflt : F) (phi psi wt nA nG g v a c : Nat) : Assign F where
  target := (phi, phiIndex nG g v c)
  loads := [(phi, phiIndex nG g v c), (psi, psiIndex nG nA g v a c), (wt, a)]
  value l := acc (l.getD 0 dflt) (l.getD 1 dflt) (l.getD 2 dflt)

/-- `psi(group, vertex, angle, cell) = phi(group, vertex, cell)` (src/Util.cc:110). -/
def psiBody (dflt : F) (phi psi nA nG g v a c : Nat) : Assign F where
  target := (psi, psiIndex nG nA g v a c)
  loads := [(phi, phiIndex nG g v c)]
  value l := l.getD 0 dflt

/-- `totalSource(group, vertex, angle, cell) = source(group, vertex, angle, cell) + g_sigmaS[cell] / (4.0 * M_PI) *
phi(group, vertex, cell)` (src/Util.cc:126-128). -/
def totalBody (add : F → F → F → F) (dflt : F) (source phi sigmaS total nA nG g v a c : Nat) : Assign F where
  target := (total, psiIndex nG nA g v a c)
  loads := [(source, psiIndex nG nA g v a c), (sigmaS, c), (phi, phiIndex nG g v c)]
  value l := add (l.getD 0 dflt) (l.getD 1 dflt) (l.getD 2 dflt)

/-- `phi.setToValue(0.0)` (src/Util.cc:87, src/PsiData.hh:345-352) before the parallel region. -/
def setToValue (m : Memory F) (phi nG nCells : Nat) (x : F) : Memory F := fun p =>
  if p.1 = phi ∧ p.2 < nG * 4 * nCells then x else m p

end Verif.Loops
