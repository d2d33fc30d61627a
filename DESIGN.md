# Design

Subject: `lanl/tycho2` at the pinned commit in `/repo` (C++11, MPI + OpenMP).
A discrete-ordinates transport mini-app on partitioned tetrahedral meshes.
Properties are in `properties.jsonl` (C01, C02, ...); machine-checked status in
`MANIFEST.json`; mutation tests in `seeded/LOG.jsonl`.

## 1. Layout of the Lean development

`lean/Verif/<Topic>/Model.lean`  definitions that transcribe the C++ code, each citing file:lines
`lean/Verif/<Topic>/Spec.lean`   small independent specification (where it is not inline in Props)
`lean/Verif/<Topic>/Lemmas.lean` helper lemmas
`lean/Verif/<Topic>/Props.lean`  the property theorems and, beside each, a non-vacuity `example`

## 2. Trusted base

* Lean 4.33.0 kernel. No axioms of our own; theorems depend at most on
  `propext`, `Classical.choice`, `Quot.sound`. No `sorry`, `native_decide`, `bv_decide`.
* The reading of the C++ code: each model definition cites the lines it transcribes; the
  code is not executed.
* C++ language semantics relied on: `uint64_t` wraps mod 2^64, `vector` access in range is plain
  read/write, `std::map`/`std::set` iterate in key order, `std::sort` returns a sorted
  permutation, `std::priority_queue::top` returns a maximal element (ties arbitrary).
* MPI semantics relied on: messages between a pair of ranks with the same tag are
  non-overtaking, reliable; collective sums/maxima are exact. For termination of the one-sided
  protocol only: a message that is there is seen by one of infinitely many probes (`Fair.probe`),
  and no running rank is stopped for ever (`Fair.rank`).
* OpenMP: threads of a parallel region interleave statement by statement, `atomic` is atomic, there is a
  barrier at the end of the region, and a thread sees what was written before the region. That threads
  touch different entries is proved (C91), not assumed.

## 3. What is not modelled

* Floating-point rounding: numerical code is modelled over an abstract field / over the reals
  (geometry, transport, quadrature) or over uninterpreted 64-bit patterns (file I/O). Only C86, C87, C91 to C94, C96 to C100 and C102 to C107
  are about machine numbers: C86 holds for every arithmetic, C87 bounds the rounding of the geometry, C96 that of the solve in a
  cell, C97 that of a sweep, C98 that of source iteration, C99 that of its
  stopping test and C100 that of the Krylov solver.
* Printing, PETSc/Krylov internals, MOAB and Metis internals, memory exhaustion, wall-clock.
* `util/CreateRegularMesh.cc` (does not compile: missing semicolons, undeclared names; not in scope).
* Undefined behaviour is a distinct outcome (`none` / error) where the model can reach it;
  preconditions are explicit hypotheses.

## 4. Plan per property

| id | what is modelled | how it is proved |
|----|------------------|------------------|
| C01 | index functions of PsiData/PsiBoundData/PhiData with mod-2^64 arithmetic, arrays as lists with checked access | mixed-radix arithmetic: bound, injectivity, surjectivity, read-after-write |
| C02 | Mat1/2/3 | same |
| C03 | line parser over `List Char`, file as list of lines | induction on tokens and lines |
| C04 | same | characterise parseLine by an independent grammar; induction over lines |
| C05 | reader state machine | refinement to `Option (finite map)`; induction over operation lists |
| C06 | same | negation with witness; `_partial`: what does hold (stored pairs are the well-formed first occurrences) |
| C07 | readInput dispatch | decision tables; negation for the solver option |
| C08,C09 | bytes as `List UInt8`, little-endian words, writer and reader of SerialMesh | parser/printer round trip by induction; truncation via exact consumption |
| C10,C11 | ParallelMesh writer, whole-file reader, offset-based reader | round trip; offset sums |
| C12-C14 | createFromSerialMesh with sorted sets as sorted deduplicated lists | index-of/lookup lemmas |
| C15 | int truncation of indices | negation with witness index 2^31; the positive results assume < 2^31 |
| C16,C17 | splitIntoChunks, partitionMesh, with any sorted permutation as sort result | arithmetic, permutations |
| C18 | angleGroupIndex and Sweeper split | arithmetic |
| C19 | packet bytes | list append/take/drop |
| C20-C22 | traversal as a transition system over (task, rank) with queues, counters, in-flight messages; also the sequential per-rank loop | invariants by induction over steps; well-founded induction for progress; uniqueness of the upwind solution |
| C23 | instance of the model with a symmetric incoming face | non-termination witness |
| C24 | round protocol of sendAndRecvData as transition system | invariant |
| C66 | priorities of the schedule; the loop inside a rank sorts the subgraph of on-rank faces | the sorting lemmas of C25 applied to the subgraph; induction along the wind |
| C25,C26 | SweepSchedule loops as bulk-synchronous transition system over ranks | invariants by induction on steps |
| C27 | four solvers over a field, with explicit failure when dividing by zero | `field_simp`/`ring`, case analysis on pivots |
| C28 | assembled matrix | positive-definite symmetric part, leading minors nonzero |
| C29-C31 | Transport.cc assembly over a field | algebra; spec is the user guide system |
| C32,C33 | geometry over the reals | algebra, `nlinarith`, sqrt |
| C34-C36 | readTychoMesh on a partition | list lemmas, invariants of the numbering loops |
| C37 | CommSides send/receive plan and exchange | counting bijection, update lemmas |
| C38 | writes as positioned block writes to a byte array | disjointness, coverage, permutation-invariance |
| C39 | quadrature over reals with rational tables | whole-table kernel evaluation plus trigonometric sums |
| C40 | Util operators over a field | finite sums |
| C41-C44 | iteration drivers over abstract operators / upwind systems | induction, nilpotency along the acyclic order |
| C45,C46 | BLevelData, NeighborPriorityData updates in topological order | longest-path spec; wrap-around witness |
| C47-C49 | refineTet, refineMesh | algebra, invariants |
| C50-C52 | Problem.cc, adjacent-cell exchange | cases; witness |
| C67-C69 | the mesh converters, with the MOAB library as a database of entities with handles | invariant of the face-creating loop; positions in sorted lists |
| C70-C74 | set-up of a run (constructor of the mesh, cross sections, source), its sweep, result and printed numbers, against a problem stated on the serial mesh | the theorems on mesh parts, geometry, sweeps and solvers put together |
| C75 | the `main` of both partitioners and the start of a rank from a file | the file theorems and the partitioner theorems, put before those of C70-C74 |
| C76 | the bytes of util/cube-12.smesh; conditions on meshes as comparisons of integers | convex functions as potentials of the upwind relation; `decide +kernel` on the whole mesh, lifted by the checker's theorems |
| C77 | runs of C75 with any sweep type | C65 and C75 put together |
| C78 | source iteration and Krylov solver stopped by their tolerances | the energy inequality of C58 between iterates; norms bounded both ways by the energy |
| C79 | `main` from its arguments: `readInput`, the switch on the sweep type, printed error and output file | C64, C65, C72-C75 put together |
| C80 | `main` with the stopping rules of the deck, for the sweep types without inner iterations: what was printed and written, number of sweeps | C78 and C79 put together, explicit bound |
| C81 | `main` with the sweep types that decompose the domain, stopped by `DD_ErrMax` or at any vector | wrong boundary values as a source in the cells behind them; stale boundary values of PBJ by the contraction of C58 |
| C82 | `main` with PBJSI and PBJOuter: number of iterations | the energies of the changes sum up to no more than that of the start, so one of `k` of them is small |
| C83 | particle balance of the flux a run shows, and the defect of one that stopped | sum of the discrete equations over the vertices of a cell, telescoping over inner faces; C79 and C80 |
| C84 | a priori bound of the printed error, for exact, tolerance-stopped and decomposed runs | discrete energy stability by the source; defect of the interpolated hat function by second-order remainders; triangle inequalities; C79–C81 |
| C85 | `main` on a mesh and on the same mesh turned, reflected and renumbered, with other numbers of groups | all geometric quantities are invariant under orthogonal maps; the discrete equations are mapped to each other and have one solution (C79); the quadrature is invariant under `π/N` turns and reflections (C39) |
| C86 | sweeps, source iteration and output file over an arbitrary type of machine numbers with black-box numerical functions | the traversal theorems (C19–C24) do not look at the data; values by induction along the log of any execution; the serial mesh determines the arguments of every call |
| C87 | the geometry of `TychoMesh.cc` with every operation rounded; 53-bit rounding to nearest even | a calculus of relative errors of sums of products; the volume of the cell and the direction stand out from the rounding, so signs are exact; the exact order of the cells carries over |
| C88 | `Timer` and the calls of `start` and `stop` in traversal, source iteration and schedule sweep | induction over passes; a common time line of the ranks with the `gmax` after each iteration |
| C89 | the refined mesh of C48 as input of the solver | children that touch are children of one cell or lie in the common face of two; inside a cell a convex piecewise linear function on the eight children serves as potential, checked on the three tables of children; across faces the normals are those of the parents |
| C90 | `sendAndRecvData` call by call: sizes and bytes on separate channels, sends one after the other, sizes in any order, blocking receives | simulation: every call is matched by a step of the model with whole messages or by none; sizes and bytes in the channels together with those still to be sent or just read are those of the whole messages; a potential bounds the unmatched calls; the length of messages from the distinctness of packets under way and from the batch limit |
| C91 | the parallel region of `traverse` statement by statement, threads of all ranks interleaved; `SweepData::update` and `getData` assignment by assignment with the scratch arrays of the threads | simulation: a pass takes effect at its atomic decrement; what belongs to a thread (queue, buffers, entries of its angles) is untouched by the others, so the rest of a pass can be completed in advance; locations touched by the next statements of two threads are disjoint | `Verif.Threads` |
| C92 | C90 and C91 together: statements of threads and MPI calls of ranks interleaved; the values of a face as bytes of doubles | two simulations composed: the joint model refines that of C90, which refines whole messages |
| C93 | The sweeps along schedules on the arrays and the arithmetic of C86 | the model of the scheduled sweep takes any data object (Schedule/Core); invariant of C65, replayed log as in C86 |
| C94 | The sweeps along schedules with every assignment, append, send, receive and look at the turn counter as a step | simulation of whole steps: finishing the pending statements of all threads gives the coarse state; measure on pending statements for termination |
| C95 | The buffer of the two sizes on a heap where freed blocks may be used again | false for the code; invariant on pending requests for three repairs |
| C96 | `Transport.cc` with every operation rounded, elimination with exchanges | the exchanges are made beforehand; factors reproduce the matrix up to 22 roundings, multipliers stay below 1.01, pivots grow at most 8.25 times; a zero pivot would give a vector the coercive exact matrix nearly annihilates |
| C97 | geometry, solves and traversal of the sweep with every operation rounded | computed areas, normals and volumes are near the exact ones, so each cell satisfies the exact equations up to a residual; the residuals are written as a change of the source, and the energy identity of the upwind discretisation bounds the effect of that change, summed over the mesh without growth |
| C98 | the same with `psiToPhi`, `calcTotalSource` and `hatSource` rounded, iterated | the computed flux solves the exact equations with scattering for a source that differs by the last change and by rounding; the energy estimate with scattering ratio below one bounds the effect |
| C99 | the same with the stopping test of `fixedPoint` rounded | sums of nonnegative terms have a small relative error in any order; the test bounds the change of the scalar flux, which C98 turns into a distance |
| C100 | `krylov` and `lhsOperator` around rounded sweeps, with any vector from the library | the three rounded fluxes superpose up to an explicit error (C97's energy bound for their difference), so the returned flux nearly solves the problem with scattering; then as C98 |
| C101 | the reads at the end of `calcLevels`, the table in the order of memory | the table is empty exactly for a group without angles or a rank without cells; otherwise the maximum is that of C63 |
| C102 | `SweeperPBJ::sweep`, `sweepLocal` and `commSides` around black-box arithmetic | each local sweep solves its part for the boundary array it has, the exchange puts the neighbours' bits there, and one more crossing is right after each; the solution is the one of C86 |
| C103 | the parallel loops of `Util.cc` load by load and store by store on flat arrays | distinct cells have disjoint offsets, so each thread sees its own assignments only; the entries of a cell are written by one thread in the order of its loop |
| C104 | the loop of `SweeperPBJSI::solve` with the kernel as a black box | induction on iterations: a local sweep with the boundary arrays of the exchange solves the blocks for the iterate before; the upwind order makes block solutions unique |
| C105 | the loops of `SweeperPBJOuter::solve` and of `fixedPoint` with local sweeps, the kernel as a black box | as C104, with an inner induction over the source iterations of a block solve |
| C106 | as C104 and C105, the kernel that of C98 with every operation rounded | the rounded rows of a block solve miss those of the exact discretisation by roundings and by the change across the faces between parts, then the stability of the exact equations |
| C107 | the loop of `fixedPoint` as in C86 and those of C104 and C105; kernel and tests assumed to hand on bad values, which `nanMachine`, `nanTest` and `nanStop` do: rounded arithmetic with one value that is not a number, a division by zero gives it, comparisons with it fail | the sweep's rows carry a bad source to the flux and downwind, the sums carry it to the error |
| C108 | `packInt`, `unpackInt`: the loops of the Schur packing with an `int` index whose increment past 2^31 - 1 is undefined | packing and unpacking are defined and inverse to each other; the entries are counted by the entering faces |
| C109 | `waitSends`: the requests of the exchange of cell numbers, the reference to element 0 undefined when there is none | defined exactly on ranks that share a face with another; waits for exactly the shared faces |
| C110 | `waitStep`: the destinations of a step on the schedules of C25/C26, the reference to element 0 undefined when there is none | defined exactly in steps that send; the last step never does |
| C53,C54 | Transport per group; Metis CSR arrays | non-interference; counting |

Properties marked "(Violated ...)" in `properties.jsonl` are false of the code: the development
contains the negation with a concrete witness and a `_partial` theorem for what does hold.

## 5. Simplifications in the models, topic by topic

* **Storage**: arrays are lists with checked access; an access out of range is `none`.
* **Input**: a file is a list of lines of characters; `strtod`/`strtol` conversions follow the C
  library on the accepted prefix.
* **MeshFile, Partition**: input and output always succeed unless a file is too short (`none`);
  allocation fails only when the byte count overflows; the set loops are modelled per partition.
* **Packet, Traverse**: one pass of the inner loop is one atomic step (C91 justifies it); a packet is
  structured data (its byte layout is C19); the size message and the data message travel as one;
  ranks are named directly; `none` stands for `BOUNDARY_FACE` and `BAD_RANK`; `round`, `sent`, `recvd`
  are history variables that no step reads.
* **Geometry, Transport**: exact field arithmetic; a solve that would divide by zero is `none`.
* **TychoMesh**: coordinates in a linear order (no NaN); reading an array entry nobody wrote is `none`;
  the contents of an `MPI_Isend` buffer are taken at the call (`exchange`), or, as a second case, after
  the loop, when the code's local buffer holds its last value (`exchangeLate`).
* **Quadrature, Problem**: real arithmetic, decimal constants taken exactly; division by zero is `none`.
* **Domain**: posting a receive and a send is one step; one exchange is analysed with channels
  initially empty; ranks alternate in lockstep between local sweep and exchange (the collective `gmax` calls at the end of
  `traverse`, src/GraphTraverser.cc:735-757, which are made with `doComm == false` too, keep a rank from starting an
  exchange before the others have finished their local sweep); the linear solver of
  PETSc is any procedure returning a vector, and theorems speak of what its solutions are.
* **Source**: OpenMP loops run in any permutation of the loop nest; `M_PI` is a parameter; Krylov
  vectors are flux arrays; the computed error is a value, infinity or not-a-number.
* **Priorities**: `rand()` is a parameter; `std::sort` is an insertion sort with the given comparison;
  `setSideData` of the neighbour heuristics (`assert(false)`) is the identity and proved unreachable
  in effect because the traversal does not communicate.
* **Schedule**: one transition is one step of all ranks (a rank cannot pass the global test `allDone`
  before the others); blocking sends return because MPI buffers them; the count and the data message
  are one message; priorities are natural numbers, those compared by the queue; among equal priorities
  the queue may hand out any; `maxCellsPerStep` is taken modulo 2^32 where the code passes it as
  `unsigned`; `omega · n` is a value of an ordered group.
* **PsiFile**: a double is its bit pattern, little endian; the file is new; the single bytes of all
  concurrent writes arrive in any order.
* **Schedule/Seek** (the priorities of the schedule): `neighborPriorities` runs on one rank without
  communication; its queue priorities are all zero, so any pair may be taken next. `int` -1 handed to a
  `UINT` parameter is 2^64-1, table arithmetic is modulo 2^64. `toDouble` rounds to nearest, ties to even;
  storing a value of 2^64 or more is undefined (`storePriority`). `rand()` is a parameter.
* **Schedule/Core** (the sweep along the schedules, for any arrays; Schedule/Sweep has those of the solver): a transition is one work item of one angle group,
  one call of `send`, one received message or one end of step; the threads of a rank interleave freely
  within the parallel regions; message contents are taken at the call of `MPI_Isend` (the code's buffer
  dies early, see below); counting and probing are one step with the receive; timers are left out.
* **Refine**: exact field arithmetic; distances are compared squared; the `std::map`s keyed by points and
  by faces are lists in order of insertion, and a lookup is undefined (`none`) when the comparison is not
  a strict weak order on the keys; `DBL_MAX` as the start of a minimum is `none`; the bits of the output
  coordinates are a parameter.
* **Moab**: the library is a database of vertices, triangles and tetrahedra with handles; adjacency is
  containment of vertices; new handles are chosen by a parameter (unused, and for the exports increasing);
  ranges are in ascending order; a written mesh set has its tetrahedra and their vertices. Databases with
  duplicate triangles or with entities of other kinds are not covered. Loading and writing files, the
  menu, and file names are not modelled.
* **Program**: `val` is the real number of a bit pattern of a mesh file; geometry, source, sweep and solvers
  use real arithmetic, `M_PI` is π; `getOmega` is given by the quadrature tables of C39. A run starts from
  the parallel mesh in memory (C70-C74) or from the bytes of a file written by a partitioner (C75); the arrays
  a sweep finds are arbitrary. Metis is any function that answers with a part for each vertex; the width of its
  `idx_t` is not modelled. Runs with more than 2^30 ranks, and parts whose arrays have 2^31 bytes or more, are
  not covered by C75. For cube-12 `val` is the value of a finite IEEE double (`ieee`). In `diffBetweenGroups` a maximum
  with a not-a-number argument is not a number (MPI leaves it open). In the whole program (C79) the deck is text and the mesh
  bytes; a run that stops on the way or never returns has no outcome; the priorities of the traversal are arbitrary; the
  iterations converge exactly (C78 and C80 say what the tolerances promise). Timers, printed times, signal handlers, the start of MPI and
  PETSc and their taking arguments away are left out. In C80 the Krylov solver may stop at any vector; PETSc is trusted to
  print the 2-norm of the residual there. In C81 PBJ and Schur are covered with source iteration only (the Krylov solver
  over inexact sweeps is not), and `SchurOuter` with inner solves that converge exactly; PBJ needs a last call with two
  local sweeps less than `DD_IterMax`, which is how a run ended by its test shows. In C82 the inner solves of `PBJOuter` are
  exact and PBJ is left out; C83 sums up real numbers, so rounding is no part of the defect. C84 bounds the error
  of the discretization in exact arithmetic; it is of first order away from kink and tip of the hat, which need not be sharp. C85 is about
  converged iterations in exact arithmetic (C79).
* **Floating** (C86): a numerical function is a black box of its arguments, the same on all ranks (one executable, one
  rounding mode); the C++ scratch arrays it fills are not read before they are written. `MPI_Allreduce` is a function of the
  values of the ranks in order. The coordinates are read twice from the same bits, once by an order-preserving `val` (used by
  the search for coinciding sides at loading) and once as machine numbers. The data of a sweep are the whole flux array; all
  groups are solved by one call. The traversal is covered here, the sweeps along schedules by Floating/Planned, both with source iteration only.
* **Rounding** (C87): every operation returns the exact result times `1 + e`, `|e| ≤ u`; overflow, underflow and contraction
  to fused operations are left out (`binary64` has 53 bits and no bounds for the exponent). Only the geometry is rounded term by
  term, the other numerical functions are black boxes as in C86. The coordinates and directions are the machine numbers.
* **Timing** (C88): a reading of the clock is a real number that does not decrease along the program order of a thread
  (`high_resolution_clock` need not be steady; if it is set back the claims fail). Only the calls of the timers are modelled, in
  the order of the code, for every number of passes.
* **Refined** (C89): coordinates of the refined mesh are assumed to be stored exactly (the midpoints are computed in real arithmetic); transversality of directions on the refined mesh is a hypothesis of `refined_finishes`, as on any mesh.
* **Wire** (C90): a receive for a size takes the oldest size message when `MPI_Waitany` returns it (there is one such receive per neighbour and exchange); packets become bytes when the buffers of the threads are put together, not when each packet is made; data blocks have a fixed size and are read back as written (`Codec.Ok`), which holds for arrays of doubles copied byte by byte; assertions are on; with `rendezvous` all sends complete only when received, otherwise at once, which encloses everything in between (fewer completions for hanging, more for what can happen).
* **Threads** (C91): `size`, `top`, `pop` and `stepsTaken++` of one pass, all on variables of the thread alone, are one
  statement, as are one `push`, one `createPacket` with `insert`, one `Transport::solve` (which reads and writes scratch
  memory and constants only) and the clearing of `localPsiBound`; statements are sequentially consistent, which C++
  guarantees in the absence of data races; the call of `update` is recorded at the decrement of the counter before it;
  everything between `traverse`'s parallel regions is as in Traverse, and needs all threads of the rank at the barrier.
* **Joint** (C92): the steps are those of Threads (inside the parallel region) and Wire (outside of it); a `double` is any type whose values can be written to and read back from eight bytes.
* **Floating/Planned** (C93): the comparisons with `TOL` are two arbitrary functions of `omega · n`; `Transport::solve` is the same compiled function for both kinds of sweep.
* **Fine** (C94): refines Schedule/Core. A statement is one assignment to entries of one angle or to variables of the thread, and statements
  are sequentially consistent (justified by `calls_no_race`); a message is what its buffer held at the call (C95 is about the buffers);
  the values of one face for all groups are one block, and the second of the two sizes counts blocks; a look at `commNumber` that
  finds another number changes nothing and is no step.
* **Lifetime** (C95): the elements of a vector are one block of a heap; an MPI call reads a block at once, at any time before the wait; only the
  vector of the two sizes is followed (the other two buffers keep their memory when they are cleared).
* **Rounding/Solve** (C96): `calcSource`, `calcVolumeIntegrals`, `calcOutgoingFlux`, `calcIncomingFlux` and `gaussElim4` (option Original
  only) with a rounding after each operation, in the order of the text; a zero pivot is a distinct outcome. Entries are collected per
  entry instead of per face. Overflow, underflow, contraction and other orders of evaluation are not modelled; without rounding the
  functions are those of `Verif.Transport.Model` (`rsolve_id`).
* **Rounding/Machine, Rounding/Iterate, Rounding/Hat** (C97, C98): the machine functions of the traversal (`Kernel` of C86) are those of
  C87 and C96 (`Computes`, `Solves`), the sum over angles and the scattering source (`rphi`, `rtotal`) and the source of the problem
  (`rhat`), each operation rounded in the order of the text. The quadrature is taken as it is in the model (real numbers of length at
  most 1.01; the exact problem has the same directions and weights), as are the coordinates and cross sections. `Stout` bounds the
  cancellation in the cross products and determinants of the mesh; `Apart` keeps the vertices away from the centre of the ball, where the
  code divides by zero, and from its surface, where the source jumps. The bounds are in terms of the largest computed flux and source.
  GMRES, PBJ, Schur and the other solvers of a cell are not covered.

* **Rounding/Stop** (C99): the stopping test (src/SourceIteration.cc:166-175) in rounded arithmetic. Each rank adds in the order of its
  array; `Sums` lets `MPI_Allreduce` add the parts of the ranks in any order and with any brackets, each sum rounded. Of a quotient by
  zero nothing is said (in the code a NaN, which ends the loop, or an infinity), so the theorem asks for a computed scalar flux that is not
  identically zero. The example has one direction and no scattering, where the iteration provably ends.

* **Rounding/Krylov** (C100): `krylov` (src/SourceIteration.cc:216-285) in rounded arithmetic. PETSc is not modelled: `x` is any vector,
  and the theorem speaks about the residual `b - A x` of the program's own `b` and `A`. `lhsOperator` works in place on `b`; the model
  reads `x`, scatters, sweeps, sums and subtracts cell by cell, which is the same since every statement there is pointwise.
* **Floating/Jacobi** (C102): the sweep type PBJ in the setting of C86. The exchange is the unpacking of the packets of the
  adjacent ranks in any order of ranks; the MPI calls around it are modelled over fields in Domain/Exchange (C37).
* **Loops** (C103): memory is sequentially consistent, as the absence of races guarantees; which cells a thread gets is any
  assignment of every cell to one thread. Arrays are numbers (their addresses); that distinct objects do not overlap is
  part of the memory model.
* **Floating/Blocks, Floating/Outer** (C104, C105) and **Rounding/Blocks** (C106): the loops of `SweeperPBJSI` and `SweeperPBJOuter`
  with the kernel and the tests as black boxes; a run is the list of the fluxes after its iterations. `SweeperPBJOuter` with the
  Krylov solver inside is over the field only (C57, C79 to C82).
* **Floating/Poison, Rounding/Nan** (C107): `Option ℝ` with every operation rounded; `none` stands for NaN and for the infinities a
  division by zero gives. Geometry, cross sections and matrix of a cell are numbers; a pivot of zero gives `none` where the code
  stops. With arguments that are numbers the functions are those of C98 (`nsolve_nums`, `nphi_nums`, `ntotal_nums`, `nhat_iff`).
  That the sum over the ranks starts from zero does not matter for a rounding that keeps its own values.

## 6. Findings in the code

Proved in the model (theorem names in `MANIFEST.json`):

* `getAdjFace` returns a cell index (C35); the exchange that fills `adjCellFromSide` pairs
  values in different orders on the two ranks (C52).
* A face with ω·n = 0 is incoming for both of its cells, and the sweep then never terminates.
* `maxCellsPerStep = 0` makes no progress.
* The Capsaicin protocol waits for its sends before posting receives: deadlock when sends are
  synchronous; with buffered sends every fair execution returns (`capsaicin_finishes`). `CommSides` deadlocks when two cells of different ranks share a face twice.
* `Sweeper::send` passes `MPI_Isend` a vector that dies at the end of the loop body; if MPI reads it later a
  receiver can be told any sizes (C95).
* Integer truncation in `createFromSerialMesh` and in the parallel reader.
* `hatSource` evaluates 0/0 at the centre; `hatL2Error` is not a number for zero flux.
* `DD_IterMax = N` allows N-1 sweeps; an `errMax` of one or more means zero source iterations.
* Depth-first priorities wrap below zero (2^64-1 for cells documented as lowest); breadth-first
  priorities are all zero; the combined heuristic equals the depth-first one.
* `partialTopoSort` takes the step size as 32-bit `unsigned`: a multiple of 2^32 never returns.
* On a cyclic mesh the precomputed schedule silently omits cells.
* Within the tolerance 1e-10 the schedule may take a downwind cell before its upwind neighbour, and the
  sweep along it returns with a flux that does not solve the system (`tolerance_breaks_sweep`). On util/cube-12.smesh with the quadrature of order 2 every
  direction is within the tolerance of some interior face (`cube_within`).
* The depth-first options of the schedule give 2^64-1 to a cell just upwind of one without downwind
  neighbours (`dfds_wraps`); `PriorityWork` converts it to `double` and back to `UINT`, which is undefined
  (`dfds_undefined`; interleaved angles, or the first angle when they are prioritised globally). On a mesh with a cycle inside a rank the dependent-seeking options never return
  (`priorities_return_iff`).
* `update` is told the kind of a face with respect to the angle, not to the direction of the traversal as
  the comment in GraphTraverser.hh:50-55 has it (`traverse_effects`).
* `int dataSize` in `writeToFile` wraps: with 2^32 values per cell only the header is written
  (`psiFile_truncated`).
* Integer settings drop text after the digits, and negative ones wrap (`readInput_int_mangled`).
* `refineMesh` divides by zero for 1 to 999 cells (`refine_small`); nodes within 1e-14 of the largest
  extent are merged, which can leave a cell with two equal corners (`merge_witness`). The comparison with
  a tolerance is not a strict weak order in general. The header comment speaks of four children at the
  centroid; there are eight.
* `SerialMeshToMoab` and `ParallelMeshToMoab` create four new vertices for every cell: the exported mesh
  has no two cells with a common vertex (`export_disconnects`).
* `diffBetweenGroups` divides by the largest entry of the rank: the value depends on the partition
  (`groups_partition`), and is not a number when a rank has no cells or zero flux (`groups_not_number`).
* `hatSource` divides by the distance from (50, 50, 50): with a mesh vertex there it is not a number, and source iteration ends after
  one sweep as if it had converged (`nan_stops`, `nan_fixedPoint`); the block Jacobi sweepers make all their iterations (`blocks_bad`,
  `outer_bad`). No mesh in `util` has such a vertex (C107).
* `psiBoundToVec` and `vecToPsiBound` count in an `int` what `getPsiBoundSize` counts in 64 bits: with 2^31 entries or more on a rank
  the increment is undefined (`pack_overflow`, `pack_violated`). The other claims about the Schur solvers take the index unbounded;
  by `packInt_eq` they hold below that size (C108).
* `readTychoMesh` ends with `&mpiRequests[0]` of a vector that is empty on ranks without neighbour, so on every run with one rank
  (`wait_iff`, `wait_serial`). The other claims take loading as having got past it, as it does with the usual builds of the library (C109).
* `Sweeper::sweep` does the same after each step of a sweep along schedules; on an acyclic mesh the last step never sends anything,
  so every such sweep gets there (`last_silent`, `wait_last`; C110). The claims about these sweeps take the call as waiting for nothing.
* `calcLevels` starts from `cellLevels[0]`: with more threads than angles, or a rank without cells, OriginalTycho1
  and OriginalTycho2 stop while the schedules are built (`idle_group_witness`, `empty_rank_witness`). The theorems
  about sweeps along schedules (C65, C66, C77, C93, C94) take the schedules as built; by `sweeper_levels_iff` the
  constructor gets there exactly when each rank has a cell and there are no more threads than angles.

Observed while reading, not modelled: `order3Vertices` may leave `order` unset for NaN; `MPI_Get_count` is called on a status that may be undefined;
`SweeperPBJ`/`SweeperSchur` ignore
`zeroPsiBound`; the two documents disagree on the order of globally prioritised
angles (the user guide matches the code);
`main` asks for
`MPI_THREAD_SINGLE` although OriginalTycho2 calls MPI from several threads (one at a time: `calls_serial`).
