/-!
# The buffer of the two sizes (src/Sweeper.cc:112-187)

`send` passes to `MPI_Isend` the elements of the local vector `nSidesData` (src/Sweeper.cc:124, 129), which
is destroyed at the end of the loop body. MPI may read a buffer until `MPI_Waitall` (src/Sweeper.cc:433, 477).
In between the memory is free, and whoever allocates next may get it.

Simplifications, recorded in DESIGN.md:
* the elements of a vector are one block, the heap a map from blocks to contents;
* what an MPI call reads, it reads at once;
* `commSidesAngles` and `commPsi` keep their memory when cleared, so their messages are those of
  `Verif.Fine`, and only the sizes are followed here.
-/
namespace Verif.Lifetime

/-- What may vary: MPI copies the message at the call; freed memory is not used again before the wait; the
program frees the vectors only after the wait. The code is the case without the last, and MPI and the
allocator promise neither of the others. -/
structure Policy where
  copied : Bool
  unused : Bool
  kept : Bool
deriving DecidableEq

/-- Where a rank is in `send`: at the head of the loop with these destinations (angle group and rank) left;
`nSidesData` has been made; it has been passed to `MPI_Isend`; past `MPI_Waitall`. -/
inductive Pc
  | loop (l : List (Nat × Nat))
  | made (b : Nat) (q : Nat × Nat) (l : List (Nat × Nat))
  | posted (b : Nat) (q : Nat × Nat) (l : List (Nat × Nat))
  | done
deriving DecidableEq

/-- The heap, which of its blocks belong to vectors, the requests MPI has not read yet, the messages. -/
structure State where
  pc : Pc
  heap : Nat → List Nat
  live : Nat → Bool
  pending : List (Nat × (Nat × Nat))
  sent : List ((Nat × Nat) × List Nat)

def setAt {α : Type} (f : Nat → α) (i : Nat) (x : α) : Nat → α := fun j => if j = i then x else f j

/-- May a block go to a new vector. -/
def State.usable (p : Policy) (s : State) (b : Nat) : Prop :=
  s.live b = false ∧ (p.unused = true → ∀ e ∈ s.pending, e.1 ≠ b)

/-- `size q` is what `nSides` and `nData` are for `q` (src/Sweeper.cc:122-123). -/
inductive Step (p : Policy) (size : Nat × Nat → List Nat) : State → State → Prop
  /-- `vector<UINT> nSidesData = {nSides, nData}` (src/Sweeper.cc:124) -/
  | make (s : State) (b : Nat) (q : Nat × Nat) (l : List (Nat × Nat)) : s.pc = .loop (q :: l) → s.usable p b →
      Step p size s { s with pc := .made b q l, heap := setAt s.heap b (size q), live := setAt s.live b true }
  /-- `Comm::iSendUIntVector(nSidesData, proc, tag0, mpiRequest)` (src/Sweeper.cc:129; src/Comm.cc:206-216) -/
  | post (s : State) (b : Nat) (q : Nat × Nat) (l : List (Nat × Nat)) : s.pc = .made b q l → p.copied = false →
      Step p size s { s with pc := .posted b q l, pending := s.pending ++ [(b, q)] }
  | copy (s : State) (b : Nat) (q : Nat × Nat) (l : List (Nat × Nat)) : s.pc = .made b q l → p.copied = true →
      Step p size s { s with pc := .posted b q l, sent := s.sent ++ [(q, s.heap b)] }
  /-- the end of the loop body (src/Sweeper.cc:142) -/
  | drop (s : State) (b : Nat) (q : Nat × Nat) (l : List (Nat × Nat)) : s.pc = .posted b q l → p.kept = false →
      Step p size s { s with pc := .loop l, live := setAt s.live b false }
  | keep (s : State) (b : Nat) (q : Nat × Nat) (l : List (Nat × Nat)) : s.pc = .posted b q l → p.kept = true →
      Step p size s { s with pc := .loop l }
  /-- free memory gets other contents: from the vectors of `recv` (src/Sweeper.cc:159-179), of another
  thread, or of the allocator itself -/
  | reuse (s : State) (b : Nat) (x : List Nat) : s.usable p b → Step p size s { s with heap := setAt s.heap b x }
  /-- MPI reads a buffer -/
  | read (s : State) (b : Nat) (q : Nat × Nat) (l l' : List (Nat × (Nat × Nat))) : s.pending = l ++ (b, q) :: l' →
      Step p size s { s with pending := l ++ l', sent := s.sent ++ [(q, s.heap b)] }
  /-- `MPI_Waitall` (src/Sweeper.cc:433, 477) -/
  | wait (s : State) : s.pc = .loop [] → s.pending = [] → Step p size s { s with pc := .done }

/-- Before `send`, with some blocks in use. -/
def start (l : List (Nat × Nat)) (heap : Nat → List Nat) (live : Nat → Bool) : State := ⟨.loop l, heap, live, [], []⟩

inductive Run (p : Policy) (size : Nat × Nat → List Nat) (s : State) : State → Prop
  | refl : Run p size s s
  | step {s' s'' : State} : Run p size s s' → Step p size s' s'' → Run p size s s''

/-- A blocking receive of a message into a vector of `n` elements (src/Comm.cc:262-285): a longer message is
an error, after a shorter one the rest keeps its initial value. -/
def received {α : Type} (zero : α) (n : Nat) (msg : List α) : Option (List α) :=
  if n < msg.length then none else some (msg ++ List.replicate (n - msg.length) zero)

/-- `recv` (src/Sweeper.cc:159-173) from the sizes it got and the two messages the sender has posted with them. -/
def recv {α : Type} (zero : α) (sizes : List Nat) (sides : List Nat) (psi : List α) : Option (List Nat × List α) :=
  if sizes.getD 0 0 = 0 then some ([], [])
  else do
    let a ← received 0 (2 * sizes.getD 0 0) sides
    let b ← received zero (sizes.getD 1 0) psi
    return (a, b)

end Verif.Lifetime
