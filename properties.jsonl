{"id": "C01", "title": "Flux arrays: one storage slot per (group, vertex, angle, cell)", "statement": "For an angular-flux, boundary-flux or scalar-flux array, every in-range index tuple designates a slot inside the allocation, different tuples designate different slots, every slot is designated by some tuple, and writing through one tuple is read back through it and changes no other tuple. The products are 64-bit, so the claim holds whenever the number of entries is below 2^64.", "quantifier": "all array dimensions whose product is below 2^64, all index tuples, all contents, all written values", "why_tests_cant": "the dimensions are unbounded and each pair of tuples must be compared; a test samples a few shapes and cannot see an aliasing that appears for another shape or at the 64-bit wrap", "anchors": ["src/PsiData.hh: PsiData::operator(), PsiData::index, PsiBoundData::index, PhiData::index", "src/PsiData.hh:155-163,255-263,363-370"]}
{"id": "C02", "title": "Dense 1/2/3-index arrays: bijective addressing and write/read frame law", "statement": "The 1-, 2- and 3-index dense arrays address each in-range tuple to its own in-range slot; a write is read back and leaves every other entry alone; setAll makes every entry the value; a fresh or resized array is all zero.", "quantifier": "all lengths whose product is below 2^64, all in-range tuples, all contents", "why_tests_cant": "unbounded shapes and all pairs of tuples", "anchors": ["src/Mat.hh: Mat1, Mat2, Mat3", "src/Mat.hh:52-398"]}
{"id": "C03", "title": "Input deck: a rendered key/value list is read back exactly", "statement": "Take any list of (key, value) pairs with distinct keys in which each key and value is a non-empty token of the accepted characters; write one pair per line with any blanks between and around the tokens, any blank or comment lines in between, and any trailing comments. Reading the file succeeds and looking up each key yields exactly its value.", "quantifier": "all key/value lists, all token contents, all interleavings of blank and comment text", "why_tests_cant": "infinite set of decks and layouts", "anchors": ["src/KeyValueReader.cc: KeyValueReader::readFile, parseLine, popToken, getRidOfComments, deleteWhitespace, getString"]}
{"id": "C04", "title": "Input deck: a file is accepted exactly when every line is well formed and no key repeats", "statement": "Reading reports a parse error if and only if some line is neither blank, comment-only nor exactly two tokens, or some key occurs on two lines. Keys are compared case-sensitively or not exactly as the lookup compares them.", "quantifier": "all files (all lists of lines of arbitrary characters)", "why_tests_cant": "an 'if and only if' over all character sequences", "anchors": ["src/KeyValueReader.cc: readFile, parseLine, findKey", "src/KeyValueReader.cc:143-215,292-359"]}
{"id": "C05", "title": "Input deck reader protocol: one file per reader, lookups behave as a finite map", "statement": "Over any sequence of operations: a lookup before a successful open reports 'file not read'; a second read without reset reports 'already read' and leaves all stored pairs and the file name unchanged; lookups never change stored pairs; after reset the reader behaves as new. Every lookup result equals the lookup in the abstract finite map built from the lines of the one file read.", "quantifier": "all histories of readFile/getX/reset operations", "why_tests_cant": "histories are unbounded", "anchors": ["src/KeyValueReader.cc: readFile, getString, getInt, getBool, reset"]}
{"id": "C06", "title": "A deck that fails to parse is not silently usable", "statement": "After a reported parse error no lookup on that reader succeeds until it is reset. (The code violates this: a reader that reported a parse error is marked as read and answers lookups from the lines that did parse.)", "quantifier": "all files with at least one malformed or duplicated line", "why_tests_cant": "requires all malformed files and all later lookups", "anchors": ["src/KeyValueReader.cc:292-359"]}
{"id": "C07", "title": "Option words select exactly the documented variant, all others abort", "statement": "For each option key with an enumerated value (sweep type, MPI type, within-cell solver) every documented word selects its variant, and every other word stops the program with an error. (Violated for the within-cell solver: any unknown word is accepted and leaves the previous value.)", "quantifier": "all option strings", "why_tests_cant": "all strings over the token alphabet", "anchors": ["src/Main.cc: readInput", "src/Main.cc:133-176", "examples/input.deck.example"]}
{"id": "C08", "title": "Serial mesh files: write then read gives back the same mesh", "statement": "Writing any well-formed serial mesh and reading the resulting bytes gives a mesh with the same cells, faces, nodes, materials and coordinate bit patterns.", "quantifier": "all serial meshes with 64-bit counts and indices, all coordinate bit patterns (including NaNs)", "why_tests_cant": "infinitely many meshes; byte-level equality for every bit pattern", "anchors": ["src/SerialMesh.cc: SerialMesh::write, SerialMesh::read", "src/SerialMesh.hh:43-68"]}
{"id": "C09", "title": "Serial mesh files: layout size, and rejection of foreign or truncated files", "statement": "The file written has exactly 64 + 72*cells + 40*faces + 24*nodes bytes (header included); a file whose magic name or version differs is rejected; any proper prefix of a written file is rejected.", "quantifier": "all meshes, all byte strings, all truncation points", "why_tests_cant": "every truncation point of every mesh", "anchors": ["src/SerialMesh.cc:120-293"]}
{"id": "C10", "title": "Parallel mesh files: write then read gives back the same partitioned mesh", "statement": "Writing any well-formed parallel mesh and reading the resulting bytes reproduces every partition exactly.", "quantifier": "all parallel meshes (any number of partitions, any contents)", "why_tests_cant": "unbounded meshes", "anchors": ["src/ParallelMesh.cc: ParallelMesh::write, ParallelMesh::read", "src/ParallelMesh.hh:43-81"]}
{"id": "C11", "title": "Parallel mesh files: each rank reads exactly its own partition", "statement": "If a parallel mesh is built from a serial mesh and written, then for each rank the offset-table driven parallel read started on that rank returns partition number rank of the mesh, reads only bytes of that partition plus the header, and the partitions' byte ranges are disjoint and cover the rest of the file. A run with another number of ranks refuses the file (assertions on).", "quantifier": "all meshes, all partition counts, all ranks", "why_tests_cant": "offset arithmetic must be right for all partition sizes simultaneously", "anchors": ["src/ParallelMesh.cc: createFromSerialMesh (offsets 544-561), readInParallel 581-687"]}
{"id": "C12", "title": "Partitioning a mesh places every cell in exactly one partition", "statement": "For any partition vector with entries below the partition count, each serial cell occurs in exactly one partition, that named by the vector, exactly once; the local-to-global tables are strictly increasing; partition cell counts add up to the serial count.", "quantifier": "all serial meshes, all partition vectors", "why_tests_cant": "all meshes and vectors", "anchors": ["src/ParallelMesh.cc: ParallelMesh::createFromSerialMesh", "src/ParallelMesh.cc:397-494"]}
{"id": "C13", "title": "Partitioning preserves connectivity, materials and coordinates", "statement": "Reading any local cell's bounding nodes, bounding faces and material and any local face's bounding nodes, through the local-to-global tables, gives exactly the serial cell's and face's data in the same order; local nodes carry the serial coordinates; all local references are in range.", "quantifier": "all well-formed serial meshes with fewer than 2^31 faces and nodes, all partition vectors, all local entities", "why_tests_cant": "graph-wide statement for every mesh", "anchors": ["src/ParallelMesh.cc:397-539"]}
{"id": "C14", "title": "Partition boundaries are classified consistently on both sides", "statement": "A local face is a mesh boundary exactly if its serial face has one bounding cell, a partition boundary exactly if its two cells lie in different partitions, otherwise interior; the owners recorded are the partitions of the two cells; the two copies of a partition-boundary face record the same owners, the same global nodes in the same order, and each names the other's cell by the other partition's local number.", "quantifier": "all well-formed serial meshes and partition vectors, all faces", "why_tests_cant": "relates two independent partitions for all meshes", "anchors": ["src/ParallelMesh.cc:498-527"]}
{"id": "C15", "title": "Entity counts of 2^31 or more are handled", "statement": "Partitioning is correct for every mesh whose counts fit in the 64-bit file format. (Violated: face and node indices pass through a 32-bit signed int.)", "quantifier": "all index values below 2^64", "why_tests_cant": "no test can hold a mesh with 2^31 faces", "anchors": ["src/ParallelMesh.cc:422,428"]}
{"id": "C16", "title": "Column partitioning assigns every cell, evenly", "statement": "For positive partition counts in x and y the column partitioner gives every cell a partition number below nx*ny, every partition's size is the floor or ceiling given by the two-level split, and columns are ordered: all cells of an earlier x-column have centroid x not larger than those of a later one.", "quantifier": "all meshes, all positive nx, ny, any unstable sort order of equal centroids", "why_tests_cant": "unbounded mesh sizes and all sort outcomes", "anchors": ["util/PartitionColumns.cc: splitIntoChunks, partitionMesh"]}
{"id": "C17", "title": "Splitting N items into k chunks is a balanced contiguous partition", "statement": "The chunk boundaries start at 0, end at N, are monotone, and consecutive differences are ceil(N/k) for the first N mod k chunks and floor(N/k) for the others.", "quantifier": "all N and all k > 0", "why_tests_cant": "all pairs (N,k)", "anchors": ["util/PartitionColumns.cc:74-87"]}
{"id": "C18", "title": "Angle groups: each angle belongs to exactly one thread group and lookup agrees with the split", "statement": "The thread (angle group) an angle is routed to is always a valid group; the groups are contiguous, disjoint, cover all angles, their sizes differ by at most one; and the two independent places that compute the split agree.", "quantifier": "all angle counts, all thread counts > 0 (including more threads than angles)", "why_tests_cant": "all pairs of counts", "anchors": ["src/GraphTraverser.cc: angleGroupIndex 151-176", "src/Sweeper.cc: constructor 320-350"]}
{"id": "C19", "title": "Sweep messages: packing and unpacking are inverse", "statement": "A packet created from (side, angle, data) splits into the same triple; a buffer made of any number of packets unpacks to the same sequence; a buffer's length is the packet size times the number of packets.", "quantifier": "all sides/angles (64-bit), all data blocks, all packet sequences", "why_tests_cant": "unbounded sequences and byte contents", "anchors": ["src/GraphTraverser.cc: createPacket, splitPacket, traverse 696-716"]}
{"id": "C20", "title": "Graph sweep: every cell-angle pair is computed exactly once and only after all its upwind neighbours", "statement": "In every execution of a sweep - any number of ranks, any assignment of angles to threads, any priorities, any batch limit, any message timing - each (cell, angle) is updated at most once, never before the values of all its upwind neighbours (local or remote) are available, and when the sweep returns every pair has been updated exactly once.", "quantifier": "all meshes/dependency graphs, all priorities, all batch sizes, all thread and message schedules", "why_tests_cant": "schedules are unbounded and non-deterministic", "anchors": ["src/GraphTraverser.cc: GraphTraverser::traverse 467-759, constructor 416-459"]}
{"id": "C21", "title": "Graph sweep terminates on acyclic dependency graphs", "statement": "If for every angle the upwind relation among cells has no cycle and the batch limit is at least 1, every fair execution finishes: as long as pairs remain some rank can compute, and the number of computing steps is exactly the number of pairs.", "quantifier": "all acyclic dependency graphs, all schedules", "why_tests_cant": "liveness over all graphs and schedules", "anchors": ["src/GraphTraverser.cc: traverse"]}
{"id": "C22", "title": "Sweep result does not depend on scheduling", "statement": "Any two complete executions of a sweep from the same inputs (different priorities, threads, rank timing, batch limits) give the same flux for every cell, angle, vertex, group: the unique solution of the upwind system.", "quantifier": "all pairs of executions", "why_tests_cant": "confluence over all schedules", "anchors": ["src/GraphTraverser.cc: traverse", "src/SweepData.hh: update", "src/SweeperTraverse.cc"]}
{"id": "C23", "title": "A sweep on a mesh with a face exactly parallel to a direction", "statement": "The sweep terminates on every mesh, including meshes in which some interior face is exactly parallel to an ordinate direction. (Violated: such a face counts as incoming for both cells, and both wait for ever.)", "quantifier": "all meshes and directions", "why_tests_cant": "needs the exact-zero case and a statement about non-termination", "anchors": ["src/TychoMesh.hh: isOutgoing, isIncoming", "src/GraphTraverser.cc:416-459"]}
{"id": "C24", "title": "Distributed sweep rounds: no message is lost and all ranks leave the exchange loop together", "statement": "With the two-sided protocol every packet sent is received by the addressed rank exactly once before either rank finishes, no rank finishes while a neighbour still needs its data, every size message is matched by exactly one receive, and a rank that is done tells each neighbour exactly once and never exchanges with it again.", "quantifier": "all numbers of ranks, all neighbour graphs, all traffic patterns, all interleavings", "why_tests_cant": "distributed interleavings", "anchors": ["src/GraphTraverser.cc: sendAndRecvData 284-406, traverse 723-731"]}
{"id": "C25", "title": "Precomputed sweep schedule is a topological order, each pair exactly once, bounded steps", "statement": "When no cell is, in some direction, transitively upwind of itself (upwind meaning omega.n beyond the tolerance 1e-10), the precomputed schedule lists each local (cell, angle) pair exactly once, in at most maxCellsPerStep entries per step, and every pair after its upwind neighbours: earlier in the same or an earlier step for a local neighbour, a strictly earlier step for a remote one.", "quantifier": "all meshes without cyclic dependencies, all rank counts, all priorities, all maxCellsPerStep not a multiple of 2^32", "why_tests_cant": "all graphs and all priorities", "anchors": ["src/SweepSchedule.cc: calcOrdering 425-466, partialTopoSort 189-219, sendOrders, recvOrders"]}
{"id": "C26", "title": "Schedule communication plan matches between ranks", "statement": "In each step, rank p plans to send to rank q exactly when rank q plans to receive from rank p in that step.", "quantifier": "all meshes, ranks, steps", "why_tests_cant": "relates independently computed tables on different ranks", "anchors": ["src/SweepSchedule.cc: constructor 675-735", "src/Sweeper.cc: updateComm"]}
{"id": "C27", "title": "Within-cell solvers: all four return the exact solution of the 4x4 system", "statement": "For each of the four solver options, whenever its divisions are defined (no pivot / determinant used is zero) the returned vector x satisfies A x = b in exact arithmetic; hence where two options are both defined they agree. Partial pivoting and both Cramer variants are defined for every nonsingular matrix.", "quantifier": "all 4x4 matrices and right-hand sides over a field", "why_tests_cant": "infinitely many matrices", "anchors": ["src/Transport.cc: gaussElim4 278-677"]}
{"id": "C28", "title": "The within-cell transport system is always solvable, without pivoting", "statement": "For positive volume, positive total cross-section and the face areas of any closed tetrahedron, the assembled 4x4 matrix is nonsingular with all pivots of elimination without row exchanges nonzero, for every direction; so every solver option succeeds.", "quantifier": "all tetrahedra, all directions, all sigma_t > 0", "why_tests_cant": "needs a positivity argument, not samples", "anchors": ["src/Transport.cc: calcVolumeIntegrals 79-103, calcOutgoingFlux 110-168, gaussElim4"]}
{"id": "C29", "title": "The assembled within-cell system is the documented discontinuous Galerkin system", "statement": "For each cell, direction and group the matrix and right-hand side assembled are exactly those of the user guide's DG system with upwind flux: own values on outgoing faces, the neighbour's values on interior incoming faces, the boundary array on partition-boundary incoming faces, zero on vacuum boundaries.", "quantifier": "all cells, face orientations, neighbour kinds, values", "why_tests_cant": "16 orientations x neighbour kinds x all reals", "anchors": ["src/Transport.cc: calcSource, calcVolumeIntegrals, calcOutgoingFlux, calcIncomingFlux, solve", "doc/user_guide/user_guide.tex eq. dg_system"]}
{"id": "C30", "title": "Particle balance per cell and over the mesh", "statement": "After a solve, outflow minus inflow plus absorption equals the source in each cell (all integrals of the linear fluxes); summed over a mesh, interior face contributions cancel, so leakage + absorption = source.", "quantifier": "all tetrahedral meshes, directions, cross-sections, sources", "why_tests_cant": "exact identity over reals for all meshes", "anchors": ["src/Transport.cc: solve 687-733"]}
{"id": "C31", "title": "Constant flux is reproduced", "statement": "If the source is sigma_t times a constant and every incoming value equals that constant, the computed cell flux is that constant at all four vertices.", "quantifier": "all cells, directions, constants", "why_tests_cant": "all reals", "anchors": ["src/Transport.cc: solve"]}
{"id": "C32", "title": "Cell geometry: volume, outward unit normals, closed surface", "statement": "Cell volume is positive for non-degenerate cells and independent of vertex numbering; each face normal has unit length, is perpendicular to the face and points out of the cell; the area-weighted normals of a cell add to zero.", "quantifier": "all non-degenerate tetrahedra in any position and vertex order", "why_tests_cant": "all reals", "anchors": ["src/TychoMesh.cc: getTriangleArea, getTetVolume, getNormal 53-187"]}
{"id": "C33", "title": "The two cells sharing a face see exactly opposite normals", "statement": "For a face shared by two cells on opposite sides, the normals computed for the two cells are exactly negatives of each other, so unless the direction is parallel to the face one cell sees it incoming and the other outgoing.", "quantifier": "all pairs of adjacent tetrahedra", "why_tests_cant": "all coordinates", "anchors": ["src/TychoMesh.cc: getNormal, constructor", "src/TychoMesh.hh: isIncoming, isOutgoing"]}
{"id": "C34", "title": "Local mesh adjacency is symmetric and boundary sides are numbered without gaps", "statement": "On the mesh a rank loads: if cell b is adjacent to cell a across a face then a is adjacent to b across the same face and each reports the other's local face number; boundary sides are numbered 0..nSides-1, each belongs to exactly one (cell, face) and is looked up from it; global side numbers map back to local ones; shared global sides have the same number on both ranks.", "quantifier": "all partitioned meshes produced by the partitioner", "why_tests_cant": "graph-wide for all meshes", "anchors": ["src/TychoMeshIO.cc: readTychoMesh 153-333", "src/TychoMesh.hh: getAdjCell, getAdjFace, getSide, getGLSide"]}
{"id": "C35", "title": "The adjacent-face query returns the face number", "statement": "Asking a mesh for the face of the neighbouring cell across a face returns a face number 0..3 of that neighbour. (Violated: the accessor returns the neighbouring cell's number.)", "quantifier": "all meshes, cells, faces", "why_tests_cant": "needs all meshes; also never exercised by the tests", "anchors": ["src/TychoMesh.hh:80-81"]}
{"id": "C36", "title": "Face/vertex numbering matches across a shared face", "statement": "The k-th vertex of a face as seen from one cell and the k-th as seen from the neighbour (local or on another rank) are the same mesh node; converting a face vertex to a cell vertex and back is the identity.", "quantifier": "all meshes", "why_tests_cant": "all meshes and both sides of each face", "anchors": ["src/TychoMeshIO.cc: 271-295, order3Vertices", "src/TychoMesh.hh: getFaceToCellVrtx, getCellToFaceVrtx"]}
{"id": "C37", "title": "Boundary exchange delivers the neighbour's outgoing flux", "statement": "After a boundary exchange every incoming partition-boundary value (group, face vertex, angle, side) equals the neighbour's cell flux at the same node, for every rank, and nothing else in the boundary array is modified; the number of packets each rank expects from a neighbour equals the number that neighbour sends; the exchange cannot deadlock.", "quantifier": "all partitioned meshes in which no face between two partitions is exactly parallel to a direction, all rank counts, any message order and batch limit", "why_tests_cant": "distributed, all meshes", "anchors": ["src/CommSides.cc: CommSides::CommSides 50-102, commSides 119-245"]}
{"id": "C38", "title": "Output file: cell data land at the position of the global cell number, whatever the partitioning", "statement": "The output file is a 64-byte header followed by one block per global cell in global order, and nothing else; ranks write disjoint ranges covering the file; hence the file bytes do not depend on the number of ranks, the partition, or the order in which the bytes of the concurrent writes arrive. This holds while a cell has fewer than 2^31 values and the file fewer than 2^63 bytes. (Beyond, the int dataSize wraps: with 2^32 values per cell only the header is written and no error reported.)", "quantifier": "all partitions of all meshes, all write orders", "why_tests_cant": "all partitions and interleavings", "anchors": ["src/PsiData.cc: PsiData::writeToFile 62-106"]}
{"id": "C39", "title": "Angular quadrature: admissible orders, count, directions on the sphere, moments", "statement": "Exactly the even orders 2..30 are accepted; order N gives 2N^2 directions of unit length, symmetric under sign changes, with positive weights; total weight is 4*pi to table accuracy, first moments vanish, and the Legendre factor integrates polynomials of degree up to 2N-1 to table accuracy.", "quantifier": "all accepted orders, all angle indices, all polynomial degrees in range", "why_tests_cant": "exactness for every degree and every table, and all rejected orders", "anchors": ["src/Quadrature.cc: tables 49-78, constructor 150-244"]}
{"id": "C40", "title": "Scalar flux and scattering source are the documented linear operators", "statement": "The scalar flux is the weighted sum over angles; the isotropic source of a scalar flux is the same in all angles; the total source is fixed source plus sigma_s/(4 pi) times scalar flux; all are linear, act group by group, and do not depend on earlier contents of the output array.", "quantifier": "all flux arrays, cross-sections, group counts", "why_tests_cant": "all reals and sizes", "anchors": ["src/Util.cc: psiToPhi, phiToPsi, calcTotalSource, operatorS"]}
{"id": "C41", "title": "Source iteration: bounded, stops on tolerance, and a stationary result solves the equation", "statement": "Source iteration performs at most iterMax sweeps; it returns n < iterMax only if the last relative change is not above errMax; if the scalar flux did not change in the last sweep, the returned flux solves the full transport equation with scattering; the Krylov formulation has the same solutions.", "quantifier": "all sources, cross-sections, sweep operators", "why_tests_cant": "all operators and iteration counts", "anchors": ["src/SourceIteration.cc: fixedPoint, krylov, lhsOperator"]}
{"id": "C42", "title": "Block Jacobi: the limit is the full-sweep solution, reached exactly after finitely many iterations", "statement": "A boundary-consistent state of the block-Jacobi iteration (local sweeps with lagged partition-boundary data) is the solution of the global sweep; on an acyclic dependency graph it is reached exactly after at most as many iterations as the longest chain of partition crossings plus one, from any initial boundary data.", "quantifier": "all partitions, all acyclic graphs, all initial guesses", "why_tests_cant": "all graphs and initial data", "anchors": ["src/SweeperPBJ.cc", "src/Util.cc: sweepLocal"]}
{"id": "C43", "title": "Domain-decomposition iteration limit", "statement": "With an iteration limit of N the block-Jacobi solver performs at most N sweeps, and for N >= 1 at least one. (Violated: the counter starts at 1, so a limit of N allows N-1 sweeps and a limit of 1 performs none.)", "quantifier": "all limits", "why_tests_cant": "all limits and convergence histories", "anchors": ["src/SweeperPBJ.cc: while (iter < g_ddIterMax)"]}
{"id": "C44", "title": "Schur formulation: packing is faithful and solutions coincide with the full sweep", "statement": "The boundary unknowns are packed into a vector of exactly the announced size and unpacked to the same places; a vector solves the Schur system exactly when it is the packed boundary flux of the full-sweep solution, so the system has one solution, and the flux recovered from it is the full-sweep solution; the operator is linear.", "quantifier": "all meshes, partitions, sources", "why_tests_cant": "all meshes and reals", "anchors": ["src/SweeperSchur.cc: psiBoundToVec, vecToPsiBound, getPsiBoundSize, Schur, SweeperSchur::sweep"]}
{"id": "C45", "title": "Priority b-levels are longest-path lengths", "statement": "The level computed for each (cell, angle) is the length of the longest downwind chain inside the partition, where a last step out of the partition counts as one; it exceeds the level of each local downwind neighbour, and the maximum used by the heuristics is the largest level over all ranks, cells and angles. The user guide defines the level over the entire mesh; the graph-traversal sweeper only sees the local partition.", "quantifier": "all acyclic graphs, all schedules of the computing traversal", "why_tests_cant": "longest path over all graphs", "anchors": ["src/Priorities.cc: BLevelData::update, calcBLevels", "src/SweepSchedule.cc: calcLevels"]}
{"id": "C46", "title": "Depth-first priorities: cells without off-partition descendants get the lowest priority", "statement": "Under the depth-first heuristics a cell with no descendant on another partition has priority zero, as documented. (Violated: such a cell with a local child gets 2^64-1, the highest.)", "quantifier": "all graphs", "why_tests_cant": "needs unsigned wrap-around over all graphs", "anchors": ["src/Priorities.cc: NeighborPriorityData::update", "src/SweepSchedule.cc: neighborPriorities"]}
{"id": "C47", "title": "Mesh refinement: eight children of equal volume that tile the parent", "statement": "Refining a cell produces eight cells each of one eighth of the parent's volume whichever diagonal is chosen, with children contained in the parent and pairwise interior-disjoint; each parent face is split into the same four triangles seen from either side.", "quantifier": "all tetrahedra, all three diagonals", "why_tests_cant": "all reals", "anchors": ["util/RefineSerialMesh.cc: refineTet"]}
{"id": "C48", "title": "Mesh refinement: connectivity of the refined mesh", "statement": "The refined mesh has eight times the cells, keeps each parent's material, all references are in range, every face lists the cells that list it, and two corners get the same node number exactly when they are the same point. (Violated: points closer than 1e-14 of the mesh's largest extent are merged, which can leave a cell with two equal corners; proved when distinct points are farther apart than that.)", "quantifier": "all conforming meshes", "why_tests_cant": "graph-wide for all meshes", "anchors": ["util/RefineSerialMesh.cc: refineMesh, FaceNodes, NodeCoords"]}
{"id": "C49", "title": "Mesh refinement works on small meshes", "statement": "Refinement succeeds on every non-empty mesh. (Violated: meshes with fewer than 1000 cells divide by zero.)", "quantifier": "all cell counts", "why_tests_cant": "the failing set is characterised exactly", "anchors": ["util/RefineSerialMesh.cc:380"]}
{"id": "C50", "title": "The built-in source is defined everywhere", "statement": "The test-problem source is a defined real number at every mesh node. (Violated at the centre of the cube, where it evaluates 0/0.)", "quantifier": "all node coordinates", "why_tests_cant": "exact point in a continuum", "anchors": ["src/Problem.cc: hatSource 54-82"]}
{"id": "C51", "title": "Cross-sections are assigned by material, other materials abort", "statement": "Each cell gets the cross-section pair of its material 1 or 2; a mesh with any other material index aborts.", "quantifier": "all meshes and material vectors", "why_tests_cant": "all vectors", "anchors": ["src/Problem.cc: createCrossSections"]}
{"id": "C52", "title": "Neighbour cell numbers across partition boundaries are exchanged correctly", "statement": "After mesh loading, asking a boundary side for the neighbour's cell number gives the cell on the other rank that shares the face. (Violated in general: the k-th value sent in one rank's order is stored as the k-th in the other's order.)", "quantifier": "all partitioned meshes", "why_tests_cant": "relates the orders on two ranks for all meshes", "anchors": ["src/TychoMeshIO.cc:299-332"]}
{"id": "C53", "title": "Group independence", "statement": "Energy groups do not influence one another: the flux of a group depends only on the source and boundary data of that group, and identical group data give identical group fluxes.", "quantifier": "all group counts and data", "why_tests_cant": "non-interference over all inputs", "anchors": ["src/Transport.cc: solve", "src/Util.cc: diffBetweenGroups"]}
{"id": "C54", "title": "Metis adjacency graph is well formed", "statement": "The compressed adjacency lists given to the partitioning library are in bounds of their allocation, list for each cell exactly its face neighbours in face order, and are symmetric.", "quantifier": "all well-formed serial meshes", "why_tests_cant": "all meshes", "anchors": ["util/PartitionMetis.cc: partitionMesh 85-101"]}
{"id": "C55", "title": "The computed flux does not depend on how the mesh is partitioned", "statement": "Partition one serial mesh in two ways, load the parts, and sweep to the end: every cell of the mesh, found through its global number, gets the same flux in every direction, group and vertex, namely the only solution of the upwind discretisation on the serial mesh. If the directions have no cycles and no interior face is parallel to one, the sweep on any partition can run to the end.", "quantifier": "all serial meshes of tetrahedra, all assignments of cells to any number of ranks, all thread counts, batch limits, priorities and message orders", "why_tests_cant": "relates runs on all partitions of all meshes", "anchors": ["src/ParallelMesh.cc: createFromSerialMesh", "src/TychoMeshIO.cc: readTychoMesh", "src/GraphTraverser.cc: traverse", "src/SweepData.hh"]}
{"id": "C56", "title": "The built-in source is the one manufactured from the hat function, and the reported error measures the distance to it", "statement": "Away from the centre and the edge of the hat, the built-in source equals the streaming derivative of the hat function plus removal minus isotropic scattering, so the hat solves the transport equation with that source; the reported error is the discrete L2 distance of the cell averages to the hat relative to the computed flux, summed over all ranks, is zero only if every cell average equals the hat, and is not a number exactly when every computed cell average is zero.", "quantifier": "all points, directions, cross-sections, fluxes and numbers of ranks", "why_tests_cant": "a derivative identity on a continuum, all fluxes", "anchors": ["src/Problem.cc: hatSource 54-82, hatL2Error 91-134"]}
{"id": "C57", "title": "The choice of sweep type does not change the solution", "statement": "Whichever of the seven traversal-based values of SweepType the input deck names (TraverseGraph, PBJ, Schur, PBJOuter, PBJSI, SchurOuter, SchurKrylov), a run whose iterations have converged exactly returns a flux that solves the one global transport problem with scattering, and when the scattering ratio is below one any two of them return the same flux in every rank, cell, vertex, angle and group. The two Schur systems with scattering have exactly these fluxes as their solutions.", "quantifier": "all meshes, partitions, schedules of the local and global sweeps, sources, initial fluxes, cross-sections, and pairs of sweep types", "why_tests_cant": "compares seven algorithms on all problems and all interleavings; a test compares two of them on one mesh up to a tolerance", "anchors": ["src/Main.cc: sweeper dispatch 270-321", "src/SweeperTraverse.cc", "src/SweeperPBJ.cc", "src/SweeperSchur.cc", "src/SourceIteration.cc"]}
{"id": "C58", "title": "With a scattering ratio below one the problem is well posed and source iteration converges", "statement": "If in every cell the scattering cross-section is at most kappa < 1 times the total one and the quadrature weights are non-negative with total 4 pi, the discretised problem with scattering has exactly one solution (globally and for a sweep with fixed rank boundary values), the squared energy norm of the error of the scalar flux shrinks at least by kappa^2 at every source iteration, and the linear system handed to the Krylov solver has exactly one solution.", "quantifier": "all meshes, partitions, sources, starting fluxes, iteration counts and cross-sections with ratio below one", "why_tests_cant": "a norm estimate for every mesh and source and for the limit of infinitely many iterations", "anchors": ["src/SourceIteration.cc: fixedPoint, krylov", "src/Transport.cc", "src/Util.cc: calcTotalSource, psiToPhi"]}
{"id": "C59", "title": "Inter-angle priorities order the angles without disturbing the order inside an angle", "statement": "With interleaved angles the inter-angle step leaves the priorities alone. With globally prioritised angles every task of an angle with a larger index has a higher priority than every task of an angle with a smaller index, on every rank. With locally prioritised angles, on each rank every task of the angle with the larger highest priority comes before every task of the other. In both cases tasks of one angle keep their order; with b-levels an upwind cell keeps a higher priority than its local downwind neighbours.", "quantifier": "all meshes, partitions, numbers of angles and ranks, heuristics, and all intra-angle priorities below levels times cells", "why_tests_cant": "order of all pairs of tasks for all priority tables, with unsigned arithmetic modulo 2^64", "anchors": ["src/Priorities.cc: anglePriorities 343-387, calcPriorities 396-435"]}
{"id": "C60", "title": "The breadth-first and depth-first-with-levels heuristics use the level of the descendant in the other partition", "statement": "Under the breadth-first heuristic a cell's priority is the highest b-level of any descendant in another partition, and the combined heuristic adds it to the depth-first one, as documented. (Violated: the levels of the other partition are never communicated, so the breadth-first heuristic gives every task priority zero and the combined one is identical to the depth-first one.)", "quantifier": "all meshes, partitions, angles and schedules", "why_tests_cant": "an identity between two heuristics on all graphs and schedules", "anchors": ["src/Priorities.cc: NeighborPriorityData 182-275, calcBLevels 282-291, calcPriorities 396-435"]}
{"id": "C61", "title": "Computing priorities terminates and is reproducible", "statement": "On an acyclic mesh the computation of priorities returns for every choice of the two heuristics, and the priorities do not depend on the number of threads, the batch size, the protocol or the order in which tasks were taken from the queue.", "quantifier": "all acyclic meshes and partitions, all heuristics, all schedules of the traversals involved", "why_tests_cant": "all schedules of a parallel traversal", "anchors": ["src/Priorities.cc: calcBLevels, calcPriorities", "src/GraphTraverser.cc"]}
{"id": "C62", "title": "Schedule construction on arbitrary meshes: returns, and lists exactly the pairs without a cycle upwind", "statement": "On any mesh the construction of the schedule returns, except when maxCellsPerStep is a multiple of 2^32 and there is work; the schedule lists a (cell, angle) pair exactly when no infinite (cyclic) chain of dependencies leads into it, so on a cyclic mesh work is silently missing.", "quantifier": "all meshes, cyclic or not, all rank counts, priorities and step sizes", "why_tests_cant": "all graphs; non-termination", "anchors": ["src/SweepSchedule.cc: calcOrdering 425-466, allDone 165-182, partialTopoSort 189-219"]}
{"id": "C63", "title": "Levels of the schedule are longest downwind chains through the whole mesh", "statement": "On an acyclic mesh calcLevels gives every (cell, angle) the length of the longest chain of cells downwind of it, across all ranks; the level stored for a partition face is that of the cell on the other side; the number returned is the longest chain of the mesh. None of them depends on the order of the queue or the step size.", "quantifier": "all acyclic meshes of fewer than 2^64 cells, all partitions, all step sizes, all queue orders; for the number returned, groups with an angle and partitions with a cell on every rank (C101)", "why_tests_cant": "all graphs, partitions and schedules", "anchors": ["src/SweepSchedule.cc: calcLevels 473-508, updateLevels 242-260, sendLevels 267-301, recvLevels 308-338"]}
{"id": "C64", "title": "The settings used are those written in the deck", "statement": "When the input deck is accepted, every setting equals the value written for its own documented key; an integer setting is used as the number written. (Violated for integers in the code: text after the leading digits is dropped, so 8.9e3x reads as 8, and a negative number becomes a huge unsigned one; plain decimal numbers below 2^31 are used as written.)", "quantifier": "all input decks", "why_tests_cant": "all decks and values", "anchors": ["src/Main.cc: readInput 92-178", "src/KeyValueReader.cc: getInt 401-419"]}
{"id": "C65", "title": "The sweep along precomputed schedules computes the same flux as the graph traversal, and always returns", "statement": "On an acyclic mesh the sweep types OriginalTycho1 and OriginalTycho2 never deadlock and always return, for any number of ranks, angle groups (threads), step size, priorities, buffered or unbuffered messages and any interleaving, and the flux left is the solution of the upwind discretisation on the whole mesh, so the same as the graph traversal gives, with scattering the same as all other sweep types, and independent of the partition. (Violated in the code when some direction is within the schedule's tolerance 1e-10 of being parallel to an interior face: no message is planned across it, while the transport step still takes the face as incoming; then the flux is wrong.)", "quantifier": "all meshes and partitions, angle groups, step sizes, priorities, interleavings, sources and starting fluxes", "why_tests_cant": "all schedules of a parallel program on all meshes", "anchors": ["src/Sweeper.cc: Sweeper 320-350, sweep 373-515, send 114-144, recv 153-191, updateBoundData 233-254, doComputation 264-310", "src/SweepSchedule.cc"]}
{"id": "C66", "title": "The schedule's priorities follow the dependent-seeking heuristics, and the constructor returns", "statement": "Whatever the priority options, constructing the schedule of an acyclic mesh returns without undefined behaviour and the schedule is complete and in order. With breadth-first dependent seeking the priority of a task is the largest level of a cell on another rank fed by its descendants on the rank, zero if there is none; with the depth-first forms it is the largest level (times the number of levels in the strict form) plus the number of levels minus the distance, zero if there is none. Globally and locally prioritised angles order whole angles. (Violated in the code for the depth-first forms: next to a cell without downwind neighbours the value wraps to 2^64-1, the largest priority, and converting it through double to UINT is undefined. On a mesh with a cycle inside a rank the dependent-seeking options never return.)", "quantifier": "all meshes, partitions, angle groups, step sizes and options", "why_tests_cant": "all meshes and partitions; non-termination cannot be observed", "anchors": ["src/SweepSchedule.cc: PriorityWork 66-84, randomPriorities 514-523, levelPriorities 529-537, updatePriorities 543-563, neighborPriorities 570-616, anglePriorities 623-668, SweepSchedule 675-735"]}
{"id": "C67", "title": "MoabToSerialMesh converts a tetrahedral MOAB mesh to a valid serial mesh, or stops", "statement": "For a loaded database of tetrahedra with four different vertices, with or without some triangles already present, the utility writes a valid serial mesh: the vertices with their coordinates and the tetrahedra with their vertices, both numbered in order of their handles; every side of a cell is one face with one number; a face names exactly the one or two cells that contain it, and marks the boundary when there is one. Material 2 is given exactly to the cells whose centroid lies in the open box (25,75)^3 when nested materials are chosen, material 1 to all others. The conversion stops on an assertion exactly when some triangle belongs to no tetrahedron or some three tetrahedra have a common triangle.", "quantifier": "all databases without duplicate triangles, all handle numberings and all choices of new handles by the library", "why_tests_cant": "all meshes and all orders of handles", "anchors": ["util/MoabToSerialMesh.cc: getCoords 66-72, createSerialMesh 78-221, moabCreateAllFaces 228-245, main 300-313"]}
{"id": "C68", "title": "SerialMeshToMoab exports the mesh", "statement": "The database written for a valid serial mesh has the cells of the mesh in order, each with the coordinates of its nodes, and converting it back with MoabToSerialMesh gives the same mesh with the same connections between cells. (Violated in the code: four new vertices are created for every cell, so that the file has four times as many vertices as cells and, read back, no face lies between two cells.)", "quantifier": "all valid serial meshes, all choices of increasing handles", "why_tests_cant": "all meshes; viewers show both variants alike", "anchors": ["util/SerialMeshToMoab.cc: createMoabMesh 54-79", "util/MoabToSerialMesh.cc"]}
{"id": "C69", "title": "ParallelMeshToMoab shows every cell of the partitioned mesh exactly once", "statement": "For a parallel mesh made from a serial mesh, one file per partition is written. The file of a partition has exactly as many tetrahedra as the partition has cells, and every cell of the serial mesh is found in the file of its partition, at its position among the cells of the partition, at the coordinates of its nodes in the serial mesh.", "quantifier": "all serial meshes and partition vectors for which createFromSerialMesh succeeds, all choices of increasing handles", "why_tests_cant": "all meshes and partitions", "anchors": ["util/ParallelMeshToMoab.cc: createMoabMesh 56-84, main 147-165"]}
{"id": "C70", "title": "A run computes the flux of the problem its files describe", "statement": "Given a serial mesh of tetrahedra that fill space, materials 1 and 2, a quadrature and cross sections: every partition vector gives a program that starts on every rank, and every completed sweep of it leaves in every cell of every rank, at the index of the same cell in the serial mesh, the one solution of the upwind discretisation whose volumes, areas, outward normals, cross sections and source are those of the coordinates and materials of the serial mesh. Hence two runs with other partitions, numbers of ranks, threads, batch sizes, message protocols, priorities and initial array contents agree cell by cell, and write the same output file. If no direction is parallel to an interior face or has a cycle, the two-sided sweep comes to an end.", "quantifier": "all serial meshes, coordinates, partition vectors, ranks, threads, schedules of messages and threads, cross sections, directions", "why_tests_cant": "all meshes and partitions and interleavings at once", "anchors": ["src/TychoMesh.cc: constructor 193-223, 265-295", "src/Main.cc: 244-350", "src/Problem.cc", "src/SweeperTraverse.cc", "src/GraphTraverser.cc"]}
{"id": "C71", "title": "All solvers give the same flux on every partition", "statement": "For a problem with isotropic scattering stated on the serial mesh, with scattering ratio below one: there is exactly one solution, and an exactly converged result of every sweep type, on every partition of the mesh, holds its values cell by cell.", "quantifier": "all meshes, partitions, sweep types, cross sections with ratio below one, all k at least the number of cells", "why_tests_cant": "all meshes, partitions and solvers at once", "anchors": ["src/SweeperTraverse.cc", "src/SweeperPBJ.cc", "src/SweeperSchur.cc", "src/SourceIteration.cc", "src/Util.cc: 85-137"]}
{"id": "C72", "title": "The result of the program with scattering", "statement": "With the tables the program computes from mesh file and input settings, an exactly converged result of any sweep type on any partition is the one solution of the problem with scattering that the serial mesh, its materials and the input settings describe; two runs agree cell by cell. With the quadrature of the program the ratio condition holds as soon as each scattering cross section is at most c times the total one, c(1+1e-14) below one, and a result exists.", "quantifier": "all meshes, coordinates, partitions, ranks, sweep types, quadrature orders, cross sections with ratio below one", "why_tests_cant": "all meshes, partitions and solvers at once", "anchors": ["src/Main.cc: 244-330", "src/Util.cc: 85-137", "src/Quadrature.cc", "src/Problem.cc"]}
{"id": "C73", "title": "diffBetweenGroups tells whether the groups agree", "statement": "The printed difference between groups is zero exactly if the flux is the same in all groups, it bounds the difference of any group from group 0 relative to the largest entry, and it does not depend on how the mesh is partitioned; for the exactly converged result of the program, whose groups all have the same data, it is zero. (Violated in the code: each rank divides by its own largest entry, so that the value depends on the partition and is not a number when a rank has no cells or zero flux.)", "quantifier": "all fluxes, partitions, numbers of cells, angles and groups", "why_tests_cant": "all fluxes and partitions; a zero on one rank is not in the test meshes", "anchors": ["src/Util.cc: diffBetweenGroups 52-79", "src/Main.cc: 341-345"]}
{"id": "C74", "title": "The printed error is that of the serial problem", "statement": "The printed L2 error of a run is the relative distance of the cell averages of the flux from the hat function at the centres of the cells, as a sum over the cells of the serial mesh; it is not a number exactly if all cell averages are zero. Two runs with exactly converged results, on any partitions and by any methods, print the same number.", "quantifier": "all meshes, coordinates, partitions, fluxes, sweep types", "why_tests_cant": "all meshes and partitions at once", "anchors": ["src/Problem.cc: hatL2Error 91-134", "src/Main.cc: 340"]}
{"id": "C75", "title": "From one serial mesh file, every partitioner gives the same output", "statement": "If the serial mesh file holds a mesh of tetrahedra, then PartitionColumns for any number of columns and PartitionMetis for any number of parts both succeed, whatever partition Metis answers, and every rank of a run with that number of ranks starts from the file written. The sweeps of two such runs, from files of different partitioners and with different numbers of ranks, threads and sweep types, write the same output file byte by byte; with scattering the exactly converged results agree cell by cell.", "quantifier": "all mesh files, coordinates, partitioners, numbers of ranks (up to 2^30), executions", "why_tests_cant": "all files, partitions and message schedules at once; a test compares a few", "anchors": ["util/PartitionColumns.cc: main 180-223", "util/PartitionMetis.cc: partitionMesh 53-118, main 123-160", "src/Main.cc: 255-265", "src/ParallelMesh.cc", "src/TychoMesh.cc", "src/Util.cc"]}
{"id": "C76", "title": "Sweeps come to an end on Delaunay meshes, and on the mesh cube-12 that comes with the program", "statement": "On a mesh whose cells are the linear pieces of a convex function, in particular on a Delaunay mesh, no direction of any quadrature has a cycle of upwind cells; so if no direction is parallel to an interior face, every run of the graph-walking sweep can be completed, whatever partition, ranks, threads and batch size. The file util/cube-12.smesh is such a mesh (its cells are not degenerate, fill space, no node is at the centre of the source), and no direction of the quadrature of order 2 is parallel to a face: from its bytes both partitioners make files for any number of ranks, all ranks start, the sweeps can be completed, and all completed runs write the same output file.", "quantifier": "all meshes with such a function, all quadratures, coordinates, partitions, numbers of ranks, executions; for cube-12 all decks with order 2", "why_tests_cant": "a run on some meshes and quadratures says nothing of the others; the smallest products of direction and normal on cube-12 are below 1e-15, where floating point tests cannot tell the sign", "anchors": ["util/cube-12.smesh", "src/SerialMesh.cc: read", "src/GraphTraverser.cc", "src/Quadrature.cc: 150-244"]}
{"id": "C77", "title": "All sweep types write the same output", "statement": "From one serial mesh file without cycles, whatever the partitioners, numbers of ranks, threads, angle groups, step sizes, priorities: sweeps of any type (walking the graph, or along the schedules of OriginalTycho1 and OriginalTycho2) come to an end, leave the one solution of the described problem, and write the same output file byte by byte. (Violated in the code when a direction is within the schedule's tolerance 1e-10 of being parallel to an interior face; on util/cube-12.smesh with the quadrature of order 2 this is so for every direction.)", "quantifier": "all mesh files, partitioners, ranks, schedules, executions", "why_tests_cant": "all files, schedules and interleavings at once", "anchors": ["src/SweepSchedule.cc: TOL 57", "src/Sweeper.cc", "src/SweeperTraverse.cc", "src/Main.cc: 281-321", "util/cube-12.smesh"]}
{"id": "C78", "title": "The tolerance of a run bounds its distance from the solution", "statement": "Source iteration stops when the relative change of the scalar flux is at most errMax, the Krylov solver at some residual. If less than a fraction kappa < 1 of the collisions are scattering, a result that ended by the tolerance is, at every vertex and in every direction, within a stated multiple of errMax times the sum of its scalar flux of the one solution of the problem on the serial mesh, and the flux recovered from any vector of the Krylov solver within a stated multiple of its residual; so two runs on different partitions or with different sweepers differ at most by the sum of their bounds. A tolerance between 0 and 1 is reached: there is a number of sweeps that no run exceeds, whatever the limit.", "quantifier": "all meshes, partitions, numbers of ranks, executions, cross sections with ratio below one, tolerances, limits, vectors the Krylov solver may return", "why_tests_cant": "a small change between sweeps is not a small error; no finite number of runs gives a bound for all problems", "anchors": ["src/SourceIteration.cc: fixedPoint 127-207, krylov 216-285", "src/SweeperTraverse.cc: solve 65-74"]}
{"id": "C79", "title": "The whole program answers the problem that mesh file and input deck describe", "statement": "sweep.x started with a parallel mesh file (made by either partitioner from a serial mesh) and an input deck: with fewer than two arguments it prints its usage and does nothing else. Otherwise a run that ends, its iterations converged exactly, has printed the error of, and written in the documented format, the one solution of the transport problem given by the serial mesh and the keys snOrder, nGroups, sigmaT1, sigmaS1, sigmaT2, sigmaS2. All other keys (SweepType, MPIType, GaussElim, SourceIteration, iterMax, errMax, maxCellsPerStep, intraAngleP, interAngleP, DD_IterMax, DD_ErrMax), the order of the lines, ranks, threads and partitioner change neither the printed error nor a byte of the file; the file is written exactly if OutputFile is true, under OutputFilename. For OriginalTycho1 and OriginalTycho2 no direction may be within 1e-10 of parallel to an interior face. Runs with the Krylov solver that walk the graph (TychoTwoSided) or follow schedules do end.", "quantifier": "all argument lists, deck texts, serial meshes of tetrahedra and their files, partitions, machines, executions; scattering ratio below one, directions without cycles and parallel faces", "why_tests_cant": "decks, meshes, machines and interleavings are infinitely many; a test compares two runs, not all of them with the problem", "anchors": ["src/Main.cc: readInput 92-178, main 186-360", "src/Sweeper.cc: constructor 330-349, solve 356-365", "src/PsiData.cc: writeToFile 62-106"]}
{"id": "C80", "title": "What a run that stops by its tolerance has printed and written", "statement": "For the sweep types without inner iterations (OriginalTycho1, OriginalTycho2, TraverseGraph) the whole program with the stopping rules of the deck: with SourceIteration true and fewer than iterMax sweeps, printed error and output file are those of a flux whose every value is within sqrt(2B/b) k errMax S / (w (1-k)) of the one solution of the problem of mesh and deck (k the scattering ratio, b and B bounds of total cross section times volume, S the sum of the scalar flux of the result, w the sum of the weights). With the Krylov solver, wherever it stopped, the bound is sqrt(5B/b) k rho / (w (1-k)) with the printed residual norm rho. Two runs on any ranks, threads, partitions and of any of these sweep types differ by at most the sum of their bounds. Source iteration with 0 < errMax < 1 makes at most j+2 sweeps as soon as 8B((2+errMax)N)^2 k^(2j) <= b errMax^2, N the number of scalar flux entries; such runs end.", "quantifier": "all argument lists, deck texts, serial meshes of tetrahedra and their files, partitions, machines, executions; scattering ratio below one, directions without cycles and parallel faces", "why_tests_cant": "the true solution is not available to a test, and no finite set of meshes shows that the bound or the number of sweeps holds in general", "anchors": ["src/SourceIteration.cc: fixedPoint 127-207, krylov 216-285", "src/Main.cc: main 186-360", "src/Sweeper.cc: solve 356-365"]}
{"id": "C81", "title": "What a run with a decomposed domain has printed and written when its iterations stop", "statement": "The whole program with the sweep types that sweep every part of the mesh on its own: PBJ and Schur (with source iteration), PBJOuter, PBJSI, SchurOuter, SchurKrylov. Printed error and output file are those of a flux whose every value is within U + A (d/w + U N) of the one solution of the problem of mesh and deck, U = sqrt(20 n B/b) 10 a e, A = sqrt(2B/b) k/(1-k); n cells, N entries of the scalar flux, w sum of the weights, k scattering ratio, b and B bounds of total cross section times volume, a the largest ratio of inflow surface to total cross section times volume. Here e bounds the error of the boundary values: for Schur, SchurOuter and SchurKrylov the largest entry of the residual, for PBJOuter DD_ErrMax times the sum of the flux, for PBJSI the change of the angular flux in the last sweep (which the code does not test), for PBJ a multiple of DD_ErrMax that does not grow with the number of calls of the sweeper, although calls that pass the test in their first local sweep exchange nothing. And d bounds the change of the scalar flux: errMax times its sum, or the residual in the scalar flux. Two such runs on any ranks, threads, partitions and of any of these sweep types differ by at most the sum of their bounds.", "quantifier": "all argument lists, deck texts, serial meshes of tetrahedra and their files, partitions, machines, executions; scattering ratio below one, directions without cycles and parallel faces; PBJ with DD_IterMax above 2 and a last call ended by its test", "why_tests_cant": "the true solution is not available to a test, the number of calls without an exchange is unbounded, and no finite set of meshes and partitions shows the bound in general", "anchors": ["src/SweeperPBJ.cc: SweeperPBJOuter::solve 73-112, SweeperPBJ::sweep 168-219, SweeperPBJSI::solve 246-277", "src/SweeperSchur.cc: SweeperSchur::sweep 246-320, SweeperSchurOuter::solve 371-455, SweeperSchurKrylov::solve 532-616", "src/Main.cc: main 280-321"]}
{"id": "C82", "title": "How many iterations the block Jacobi sweep types PBJSI and PBJOuter make", "statement": "The whole program with PBJSI, and with PBJOuter when the problems on the parts of the mesh are solved exactly: both exchange the values on the seams between the parts once per iteration and so lag behind. Unless the solution is zero there is a number k, which depends on the problem and DD_ErrMax but not on ranks, threads or partition, such that every run with DD_IterMax above k makes at most k iterations and ends by its test, not by DD_IterMax; so the bound of C81 applies to what it has printed and written. Explicitly k+1 iterations are enough when 10 N (1+t)^2 (7a+1) B (w S)^2 < (k+1)(1-c) b (t F)^2 (PBJSI), 10 N' (1+t)^2 (7a+1) B w < (k+1)(1-c) b w0 t^2 (PBJOuter); t = DD_ErrMax, N and N' numbers of scalar and angular flux entries, S and F sums of the angular and scalar flux of the solution, w and w0 sum and smallest of the weights, c the scattering ratio, b and B bounds of total cross section times volume, a the largest ratio of inflow surface to total cross section times volume. PBJSI runs always end; PBJOuter runs that end by their tolerance exist.", "quantifier": "all argument lists, deck texts, serial meshes of tetrahedra and their files, partitions, machines, executions; scattering ratio below one, directions without cycles and parallel faces", "why_tests_cant": "a run with any number of ranks and partition has to stop, and a tolerance that some partition never reaches shows up as a run that takes all of DD_IterMax", "anchors": ["src/SweeperPBJ.cc: SweeperPBJOuter::solve 83-158, SweeperPBJSI::solve 225-284", "src/Main.cc: main 280-321"]}
{"id": "C83", "title": "What a run writes neither loses nor creates particles", "statement": "Over the whole mesh and in every energy group: what leaves through the surface (the integral over the faces without neighbor of flux times direction times normal, where positive, summed over the directions with their weights), plus what the material takes away (the integral of total cross section times scalar flux less what is scattered into the directions of the quadrature), is the integral of the source. This holds exactly for the flux that error and output file of a converged run show, with any sweep type, ranks and partition. For a run that stopped by errMax at most k B/4 errMax F is missing, for the Krylov solver, wherever it stopped, at most k B/4 sqrt(4n) rho; F the sum of the scalar flux, n the number of cells, rho the printed residual norm, k the scattering ratio, B a bound of total cross section times volume.", "quantifier": "all argument lists, deck texts, serial meshes of tetrahedra and their files, partitions, machines, executions; scattering ratio below one, directions without cycles and parallel faces; the inexact part for the sweep types without inner iterations", "why_tests_cant": "a test can sum up one flux up to rounding, but not show that no mesh, partition or stopping point loses particles on a seam between two ranks", "anchors": ["src/SourceIteration.cc: fixedPoint 127-207, krylov 216-285", "src/Transport.cc: solve", "src/SweepData.hh: getData 92-103, setSideData 111-119, update 139-", "src/Main.cc: main 186-360"]}
{"id": "C84", "title": "How far the printed error can be from zero", "statement": "The program solves for the source that is manufactured for the hat function u = max(0, 1 - |x - (50,50,50)|/30) and prints the relative distance of its cell averages from u at the centres of the cells. A priori, from the mesh and the deck alone: the distance of the flux that error and output file show from u at the centres is in the root mean square at most A = K T + I. K = sqrt(w B/(n w0 b))/(s (1-k)), T = sqrt(r (h/(5 y) + q)^2 + (h^2/(20 p y) + q)^2), I the root mean square of mean of u over the vertices less u at the centre; h the longest edge, y the shortest height of a cell, r the share of the cells that touch the kink |x - c| = 30 or come nearer than p to the tip of the hat, q = largest scattering cross section / (2e14) for the digits of the quadrature tables, s smallest total cross section, w sum, w0 smallest and n number of weights, k the scattering ratio, b and B bounds of total cross section times volume. If A is below the root mean square H of u at the centres then a number is printed and it is at most A/(H - A). A is at most sqrt(r) (K (h/y)/5 + h/40) + h (K (h/y)/(20 p) + 3 h/(320 p)) + 2 K q, so it goes to zero with r and h for cells of the same shape. For runs that stop by a tolerance or with a residual the bounds of C80 and C81 are added to A.", "quantifier": "all argument lists, deck texts, serial meshes of tetrahedra whose surface vertices are not inside of the ball and their files, partitions, machines, executions, sweep types; scattering ratio below one, total cross sections positive, directions without cycles and parallel faces", "why_tests_cant": "a test prints the error on one mesh; that no mesh, deck, partition or execution has a larger error than its cells allow is a statement on all of them", "anchors": ["src/Problem.cc: hatSource 54-86, hatL2Error 91-135, getSource 140-143", "src/Transport.cc: solve", "src/SourceIteration.cc: fixedPoint 127-207, krylov 216-285", "src/Main.cc: main 186-360"]}
{"id": "C85", "title": "Numbering, orientation and the number of groups do not matter", "statement": "Two mesh files that describe the same tetrahedra up to the numbers of cells, faces and nodes, the order of the vertices and faces in each cell and the order of the nodes in each face, one of them moved by an orthogonal map about the centre (50,50,50) of the cube that takes the directions of the quadrature to directions of it. Runs on the two with the same order and cross sections print the same error, and every value in one output file is in the other at the new numbers of cell, vertex and direction, in every group, even if the numbers of groups, sweep types, partitions, ranks, threads and all other settings differ. All turns about the vertical axis by multiples of pi/snOrder, among them quarter turns, with or without a reflection in a vertical plane and upside down, are such maps. In particular, all groups have the same flux, and the printed error does not depend on nGroups. The moved and renumbered mesh also meets all conditions of C79 if the first does: no degenerate cells, no cyclic directions, no faces parallel to a direction.", "quantifier": "all argument lists, deck texts, serial meshes of tetrahedra and their files, numberings, orthogonal maps, partitions, machines, executions; scattering ratio below one, directions without cycles and parallel faces, iterations converged exactly", "why_tests_cant": "a test compares a few numberings of a few meshes, and rounding hides small differences; that no numbering and no turn of any mesh matters is a statement on all of them", "anchors": ["src/Main.cc: main 186-360", "src/TychoMesh.cc: getTriangleArea 68-, getTetVolume 96-, getNormal 125-, TychoMesh 193-260", "src/Quadrature.cc: Quadrature", "src/Problem.cc: hatSource 54-86, hatL2Error 91-135", "src/Transport.cc: solve", "src/PsiData.cc: writeToFile"]}
{"id": "C86", "title": "Runs repeat to the last bit, on any partition and with any arithmetic", "statement": "Nothing is assumed about floating-point arithmetic: a double is an element of any set, and the straight-line numerical functions (volume, area, \u03a9\u00b7n, local solve, source, psiToPhi, calcTotalSource) are black boxes, the same in every process. If no interior face is outgoing from both of its cells (in the \u03a9\u00b7n the machine has computed), then after the same number of source iterations two runs on one mesh file hold the same bits for every cell, vertex, direction and group, and their output files are equal byte by byte, whatever the partitions, numbers of ranks and threads, batch sizes, priorities, communication protocols, buffering, message order, interleavings and previous contents of the arrays. After one sweep these bits are the ones obtained by applying the local solve to the cells in upwind order of the serial mesh. On one partition the printed errors and the number of iterations repeat too, the test against errMax included. If moreover each interior face is outgoing from exactly one side and no cell is upwind of itself then such sweeps run to the end, so the iteration returns.", "quantifier": "all sets of machine numbers and functions on them, meshes of tetrahedra, partitions, numbers of ranks and threads, schedules, interleavings, iteration counts", "why_tests_cant": "two equal files show only that two executions agreed; rounding depends on the data, the compiler and the order of operations, and a race shows up in few interleavings", "anchors": ["src/SweeperTraverse.cc:53-110", "src/SweepData.hh:85-174", "src/Transport.cc:740-776", "src/GraphTraverser.cc:284-620", "src/SourceIteration.cc:127-207", "src/TychoMesh.cc:190-223", "src/Util.cc:85-130", "src/Comm.cc:100-108"]}
{"id": "C87", "title": "Rounding does not change which faces are inflow and outflow, nor create cycles", "statement": "Let every floating-point operation of the geometry (differences, cross and dot products, norms, divisions in TychoMesh.cc) return the exact result with a relative error of at most u, as 53-bit round to nearest even does with u = 2^-53. Call a cell well shaped if its volume stands out from the rounding of the determinant: ((1+u)^9 - 1) times the sum of the absolute values of the terms is below the absolute value of the determinant; in double precision it is enough that six times the volume is a moderate multiple of 2^-53 times the cube of the largest coordinate difference of two vertices. In well shaped cells the computed volume is positive, no division by zero occurs in a normal, and the computed \u03a9\u00b7n has the exact sign whenever the direction stands out from the face in the same sense. If all cells are well shaped and all directions stand out from all interior faces, then in the computed numbers each interior face is outgoing from exactly one of its cells, with opposite values to the last bit on the two sides, and no cell is upwind of itself if none is in exact arithmetic. So on such Delaunay meshes the parallel sweeps in floating-point arithmetic return, on every partition and with any schedule, and C86 applies. The computed \u03a9\u00b7n is off by at most 2\u03b3\u03ba/(1-\u03b3\u03ba) times |\u03a9|, \u03b3 = (1+u)^8 - 1, \u03ba the condition of the cross product. The shape condition cannot be dropped: a tetrahedron of positive volume is given whose computed normal in double precision is 0/0.", "quantifier": "all odd rounding functions with relative error u < 1, all meshes of tetrahedra, directions, partitions, numbers of ranks and threads, schedules", "why_tests_cant": "rounding errors depend on every coordinate; a cycle or a face that is outgoing from both sides appears on rare meshes only, and then the program hangs or loses flux without a message", "anchors": ["src/TychoMesh.cc:53-187", "src/TychoMesh.cc:190-223", "src/SweepData.hh:85-174", "src/GraphTraverser.cc:284-620", "src/SourceIteration.cc:127-207"]}
{"id": "C88", "title": "The printed times are consistent", "statement": "No assertion of a Timer (started twice, stopped or read at the wrong moment) fires in a traversal, a source iteration or a sweep along schedules. On each rank of a traversal the times are not negative, send and recv together are at most comm, setup and comm together at most total, and send and recv are zero with TychoTwoSided. The printed values, each the largest of all ranks, satisfy send, recv <= comm <= total and setup <= total, but setup + comm can exceed total: two ranks are given that print 10 s, 10 s and 10 s. The iteration times printed by a source iteration add up to at most the total printed at its end, although each is the largest of all ranks, because the ranks wait for each other in gmax. In a sweep along schedules the printed time for computation is at most the total, so 'other' is never negative.", "quantifier": "all numbers of ranks, threads, passes, steps and iterations, all clocks that do not run backwards, with any offsets between ranks", "why_tests_cant": "times differ from run to run; a test sees only a few of them and cannot tell a violated order from noise", "anchors": ["src/Timer.hh:54-122", "src/GraphTraverser.cc:476-757", "src/SourceIteration.cc:142-205", "src/Sweeper.cc:379-514", "src/Comm.cc:128-139"]}
{"id": "C89", "title": "A refined mesh is again a mesh to run on", "statement": "Take a mesh of tetrahedra the solver can run on: references are in range, no triangle has two face numbers, no two cells have the same corners, cells are not flat and lie on different sides of the faces they share. Let its points and edge midpoints differ by more than the tolerance of RefineSerialMesh, with at least 1000 cells (C48, C49). Then the mesh RefineSerialMesh makes of it has all these properties again. Moreover each direction for which no cell of the coarse mesh is upwind of itself is such a direction for the refined mesh, although refinement adds new faces inside each cell and the shapes of the children can be worse than that of the parent. All this holds after any number of refinements. In particular the sweeps on a mesh refined any number of times from a Delaunay mesh come to an end for every quadrature with no direction in a face, on every partition; the refined mesh itself need not be a Delaunay mesh.", "quantifier": "all such meshes, all numbers of refinements, all directions, partitions, numbers of ranks and threads, schedules", "why_tests_cant": "a cycle of upwind cells depends on direction and mesh and hangs the solver; trying refined meshes one by one says nothing about the next level", "anchors": ["util/RefineSerialMesh.cc:60-345", "util/RefineSerialMesh.cc:350-491", "src/GraphTraverser.cc:284-620"]}
{"id": "C90", "title": "The exchange of sizes and bytes between ranks delivers every packet and cannot hang or misread", "statement": "In the two-sided exchange a rank posts receives for one size per neighbour, sends to each neighbour a size and, if there is something to send, that many bytes on another tag, waits for the sizes in whatever order they arrive and receives as many bytes as each announces, then waits for its own sends. Carried out call by call, by any number of ranks and interleaved in any way, with sends that complete at once or only when received: the bytes received after a size are exactly those sent with that size, never those of another exchange; the received buffer is a whole number of packets, and they are the packets sent; the size that marks the end of communication is never confused with a length; no rank hangs in a receive or wait; the calls into the sweep are those of an execution in which each exchange passes whole messages, so each cell and direction is computed once and in order; the number of calls is bounded; and when all ranks have returned nothing is left in any channel. The messages are short enough for MPI if one packet per direction and shared face, or four per task of a batch, stay below 2^31 - 1 bytes; beyond that the program stops at an assertion.", "quantifier": "all partitioned meshes, numbers of ranks, threads, directions and batch sizes, all data with a fixed size in bytes, all interleavings and orders of arrival, buffered and unbuffered sends", "why_tests_cant": "the order of arrival and the amount of buffering depend on machine and load; a mismatch of size and data would show only under rare timing", "anchors": ["src/GraphTraverser.cc:284-406", "src/GraphTraverser.cc:645-731", "src/GraphTraverser.cc:91-118"]}
{"id": "C91", "title": "The threads of a rank do not race, and any interleaving of their statements gives what whole passes give", "statement": "In the parallel region each thread takes tasks from its own queue, decrements a shared counter, calls the update of the sweep and then, face by face, lowers dependency counts, pushes tasks and appends packets. Carried out statement by statement (in the sweep: assignment by assignment), with the threads of all ranks interleaved in any way: two threads of a rank never have before them statements that touch the same location, apart from the atomic decrement of the counter; some execution in which every pass is uninterrupted makes the same calls in the same order, sends the same messages and leaves the same values; so each cell and direction is computed once and in order, no thread hangs, the number of statements is bounded, and a sweep leaves, to the last bit, the values determined by mesh, source and compiled functions, whatever the scratch arrays of the threads held before.", "quantifier": "all partitioned meshes, numbers of ranks, threads, directions and batch sizes, all priorities, all interleavings of statements, all data objects that keep their values apart by direction and their scratch memory apart by thread (as the sweep's does), both protocols for the refinement and the absence of races", "why_tests_cant": "races show only under rare timing, and a test that passes says nothing about the schedules it did not meet", "anchors": ["src/GraphTraverser.cc:518-645", "src/SweepData.hh:60-184", "src/Transport.cc:740-776"]}
{"id": "C92", "title": "A sweep with threads interleaved assignment by assignment and ranks interleaved call by call gives the same bits", "statement": "With both levels in single steps at once (every assignment of every thread in the parallel regions, and on ranks whose threads are at the barrier every MPI call of the exchange, interleaved in any way over all ranks): the calls into the sweep are those of an execution with whole passes and whole messages; two threads of a rank never have conflicting statements before them, and no thread of a rank is in a pass while the rank is between the calls of an exchange; no receive finds another number of bytes than announced; some thread or rank can always go on until all have returned, after a bounded number of statements and calls; then nothing is left in any channel; and the values left in the flux arrays, which travel between ranks as the bytes of three doubles per energy group, are to the last bit those determined by mesh, source and compiled functions, the same for every partition and every number of ranks and threads.", "quantifier": "all meshes, partitions, numbers of ranks, threads, groups, directions and batch sizes for which a message is below 2^31 - 1 bytes, all interleavings, buffered and unbuffered sends, all contents of the scratch arrays, all value types stored in eight bytes", "why_tests_cant": "the schedules of threads and messages multiply; a test meets a handful of them", "anchors": ["src/GraphTraverser.cc:429-731", "src/GraphTraverser.cc:263-406", "src/SweepData.hh:60-184", "src/Mat.hh:170-176"]}
{"id": "C93", "title": "The sweep types that follow precomputed schedules give the same bits as the traversal", "statement": "With any machine arithmetic, and when no direction is within the schedules' tolerance of being parallel to an interior face: a sweep of OriginalTycho1 or OriginalTycho2 leaves in the flux arrays, to the last bit, the values that the graph traversal leaves, and that either of them leaves on any other partition. So after equal numbers of source iterations the output files are equal byte by byte whichever sweep types were used, and on one partition the printed errors and the number of iterations are the same for all sweep types. The schedules can always be built, and the sweep along them neither deadlocks nor goes on for ever.", "quantifier": "all meshes whose cells can be ordered upwind to downwind in every direction in the machine's own comparisons, all partitions, numbers of ranks, angle groups and threads, step sizes, priorities, both variants, buffered and unbuffered sends, all interleavings, all arithmetic", "why_tests_cant": "comparing two sweep types on one mesh says nothing about other partitions, schedules or timings", "anchors": ["src/Sweeper.cc:60-490", "src/SweepSchedule.cc:57-124", "src/SweepData.hh:139-174"]}
{"id": "C94", "title": "Between any two statements or MPI calls, threads and ranks of a scheduled sweep may interleave without effect", "statement": "In the sweeps along schedules (OriginalTycho1, OriginalTycho2), with every assignment to a flux array, every append to a send buffer, every MPI send and receive, every look at and write of the turn counter being a step of its own, and a message holding what its buffer held at the call: the flux arrays are, when the sweep has returned, those of an execution in which solving a cell, sending and receiving are indivisible, hence the values of C93 to the last bit. Two threads never touch the same entry or buffer at once, at most one thread of a rank communicates at a time in the second variant, every message that arrives has the length of the buffer posted for it, no execution deadlocks and none goes on for ever.", "quantifier": "all schedules, numbers of ranks, angle groups and threads, step sizes, both variants, buffered and unbuffered sends, all interleavings of single statements and calls, all contents of the scratch arrays, all arithmetic", "why_tests_cant": "a race or a mismatched message shows only under particular timings", "anchors": ["src/Sweeper.cc:60-310", "src/Sweeper.cc:373-490", "src/Comm.cc:200-300"]}
{"id": "C95", "title": "A receiver learns the sizes of the transfer that is coming", "statement": "In the sweeps along schedules each transfer begins with a message holding the numbers of sides and of values that follow; the receiver makes its buffers accordingly. Whenever the sender has got past MPI_Waitall, each destination has been told its own sizes, once.", "quantifier": "all destinations, sizes and contents of the heap, all choices of the allocator, all times at which MPI reads a buffer", "why_tests_cant": "an MPI library that copies short messages at once hides that the buffer is freed before MPI has read it", "anchors": ["src/Sweeper.cc:112-144", "src/Sweeper.cc:152-189", "src/Sweeper.cc:433", "src/Sweeper.cc:477", "src/Comm.cc:206-216"]}
{"id": "C96", "title": "The solve in a cell is backward stable in machine arithmetic", "statement": "What Transport::solve computes for a cell, with every operation rounded, satisfies the four documented equations of the cell up to a residual of a few hundred roundings of their terms, whatever the pivots; and it divides by no zero in a cell whose absorption exceeds 2500 roundings of its coefficients plus what its rounded faces miss to close.", "quantifier": "all cells, directions, cross sections, sources and incoming fluxes; all roundings with relative error at most u <= 1/1000 per operation", "why_tests_cant": "a test compares with one answer for a few cells; the size of the elimination's multipliers and pivots depends on shape, direction and absorption", "anchors": ["src/Transport.cc:58-271", "src/Transport.cc:284-334", "src/Transport.cc:670-740"]}
{"id": "C97", "title": "A sweep in machine arithmetic stays close to the exact solution of the discretisation", "statement": "The angular flux that a sweep leaves on all ranks, with geometry and cell solves computed in rounded arithmetic, differs from the exact solution of the upwind discretisation for the same source, in the norm weighted with the total cross section, by a number of roundings of the size of the terms of the equations, however many cells a direction crosses. The number depends on the cancellation in the shapes of the cells, not on the size of the mesh.", "quantifier": "all tetrahedral meshes whose cells stand out from the rounding, all partitions, schedules, directions, cross sections and sources, with absorption above a few thousand roundings of the surface over volume; all roundings with relative error at most u <= 1/100000 per operation", "why_tests_cant": "a test can compare two computed results, not a computed result with the exact solution; the error could grow along the sweep and does so invisibly until the mesh is deep enough", "anchors": ["src/TychoMesh.cc:53-187", "src/Transport.cc:58-271", "src/Transport.cc:284-334", "src/Transport.cc:670-740", "src/SweeperTraverse.cc"]}
{"id": "C98", "title": "Source iteration in machine arithmetic stays close to the exact solution with scattering", "statement": "After any number of source iterations computed wholly in rounded arithmetic (geometry, fixed source, sum over angles, scattering source, solves), the distance of the flux to the exact solution with scattering is bounded by the change of the scalar flux in the last iteration plus a number of roundings, divided by one minus the scattering ratio.", "quantifier": "all tetrahedral meshes whose cells stand out from the rounding and whose vertices are not within rounding of the surface of the ball of the source, all partitions and schedules, numbers of iterations, quadratures and subcritical cross sections; all roundings with relative error at most u <= 1/100000 per operation", "why_tests_cant": "the tolerance reached in a run says nothing about the distance to the exact solution, which no run can produce; the effect of rounding in every operation over all iterations has to be bounded for all inputs", "anchors": ["src/SourceIteration.cc", "src/Util.cc:83-128", "src/Problem.cc:61-79", "src/Transport.cc:58-271", "src/TychoMesh.cc:53-187"]}
{"id": "C99", "title": "Ending by the tolerance in machine arithmetic means being close to the exact solution", "statement": "When fixedPoint, computed wholly in rounded arithmetic, ends because the printed error is not above the tolerance (and the computed scalar flux is not identically zero), the distance of the returned flux to the exact solution with scattering is bounded by the tolerance times the computed scalar flux plus a number of roundings, divided by one minus the scattering ratio. The relative change is itself computed with rounding: summed in the order of the array on each rank and over the ranks in any order that the reduction may choose.", "quantifier": "all tetrahedral meshes as in C98, all partitions and schedules, tolerances, iteration limits, orders of summation of the reduction over ranks, subcritical cross sections; all roundings with relative error at most u <= 1/100000 per operation and with the number of summed terms not beyond what u allows", "why_tests_cant": "a run shows the printed error only; whether that computed number bounds the true change and whether that bounds the distance to the exact solution concerns all inputs and all summation orders", "anchors": ["src/SourceIteration.cc:127-207", "src/Comm.cc:100-108", "src/Util.cc:83-128"]}
{"id": "C100", "title": "The Krylov solver in machine arithmetic: a small residual means a flux close to the exact solution", "statement": "Whatever vector the Krylov library hands back, if the right hand side and the operator that the program computes in rounded arithmetic agree on that vector up to Res at every cell, vertex and group, then the flux that krylov leaves is within an explicit distance of the exact solution with scattering: Res times the scattering cross section, plus a number of roundings, divided by one minus the scattering ratio. The three sweeps (for the right hand side, in the operator, and at the end) are computed separately in rounded arithmetic on all ranks, so their fluxes do not add up exactly; the bound accounts for that.", "quantifier": "all tetrahedral meshes as in C98, all partitions and schedules of each of the three sweeps, all vectors returned by the library, subcritical cross sections, all roundings with relative error at most u <= 1/100000 per operation", "why_tests_cant": "the solver prints a residual norm of the library only; what a residual of the computed operator says about the distance to the exact solution concerns all meshes, vectors and roundings", "anchors": ["src/SourceIteration.cc:76-114", "src/SourceIteration.cc:216-285", "src/Util.cc:83-159"]}
{"id": "C101", "title": "Building the schedules reads no table outside its bounds", "statement": "The constructor of the sweep types OriginalTycho1 and OriginalTycho2 takes the maximum of the levels of every angle group on every rank, and returns it, whatever the number of threads and the partition. (Violated in the code: calcLevels starts from cellLevels[0], so it returns exactly if there are at most as many threads as angles and every rank has a cell; otherwise the program ends by an assertion, or with assertions off reads memory that is not its own.)", "quantifier": "all numbers of angles and threads, all meshes, partitions, step sizes and tables", "why_tests_cant": "all thread and angle counts and partitions; a test with the usual settings has more angles than threads", "anchors": ["src/SweepSchedule.cc:473-508", "src/Sweeper.cc:320-350", "src/Mat.hh:200-209", "src/Main.cc:231-239"]}
{"id": "C102", "title": "Block Jacobi ends with the bits of the global sweep", "statement": "With any machine arithmetic: from any flux and any boundary arrays, local sweep number i + 1 of the sweep type PBJ has, to the last bit, the values of the graph traversal on any partition, in every cell from which one cannot go upwind across more than i faces between parts. So once it has made more local sweeps than an upwind chain can cross such faces (as many as the mesh has cells is always enough), or has made two in a row with the same bits, what it holds is what the traversal leaves; so too when a test that only passes if no entry changed ends it early, and a test that always passes then ends it at most one local sweep later; and source iteration whose inner loops all do so writes the same output file byte by byte. Every message of the exchange has the number of packets its receiver expects, and the loop comes to an end.", "quantifier": "all meshes whose cells can be ordered upwind to downwind in every direction in the machine's own comparisons, all partitions, numbers of ranks and threads, initial fluxes and boundary arrays, tests and limits, orders in which messages arrive, all arithmetic", "why_tests_cant": "all partitions, interleavings and rounding behaviours; a test compares a few runs up to a tolerance", "anchors": ["src/SweeperPBJ.cc:145-219", "src/CommSides.cc:49-245", "src/Util.cc:138-145", "src/SourceIteration.cc:127-207"]}
{"id": "C103", "title": "The parallel loops over the cells have no data race and give the same bits with any number of threads", "statement": "psiToPhi, phiToPsi and calcTotalSource (also with the source as its own output), whose loops over the cells run under '#pragma omp parallel for': with every load and store of a double a step of its own, whatever thread gets which cells and however the threads interleave, no two threads are ever about to access the same double with one of them storing; every access lies inside its array; all threads are done after exactly the accesses of the sequential loop; and then the arrays hold, with any machine arithmetic, the sum over the angles in their order, the copy, or the source with the scattering term, and nothing else has changed. These are the scalar flux and source that the claims about machine arithmetic start from.", "quantifier": "all numbers of cells, angles, groups and threads, all assignments of cells to threads, all interleavings, all contents of memory, all arithmetic; arrays of fewer than 2^64 entries", "why_tests_cant": "the interleavings cannot be enumerated, and a race need not show in the result of a run", "anchors": ["src/Util.cc:85-130", "src/PsiData.hh:155-162", "src/PsiData.hh:363-370", "src/SweeperSchur.cc:604"]}
{"id": "C104", "title": "The PBJ-SI sweeper computes the textbook block-Jacobi iterates bit for bit, and what it settles on is a solution of the whole mesh", "statement": "The flux after k iterations of SweeperPBJSI::solve is, with any machine arithmetic and to the last bit, iterate k of this on the serial mesh: start from zero; in each step solve all parts at once, with the scattering source of the iterate before and its flux flowing in across faces between parts. So two runs on the same partition agree bit for bit after equally many iterations whatever the threads, the order of messages and the order of cells in a part, make the same number of iterations, and end alike. An iterate that comes twice in a row is a fixed point, to the last bit, of source iteration with the parallel traversal on any partition; and conversely once an iterate is such a fixed point all later ones have its bits. The loop ends, after at most g_ddIterMax - 1 iterations, and before that only where the last two scalar fluxes met the test and no two before them did; with a test that passes exactly where no entry changed that is the first iteration which leaves the scalar flux as it was. Without scattering, if no chain of cells along the upwind direction crosses more than i faces between parts, all iterates from number i + 1 on have the same bits.", "quantifier": "all serial meshes of tetrahedra with an upwind order, partitions, numbers of ranks and threads, interleavings, orders of messages, machine arithmetic, tests and limits", "why_tests_cant": "the interleavings and the arithmetic cannot be enumerated, and a comparison with the serial code in a test holds for its meshes and its rounding only", "anchors": ["src/SweeperPBJ.cc:227-305", "src/CommSides.cc:119-245", "src/Util.cc:118-130", "src/Util.cc:134-160"]}
{"id": "C105", "title": "The PBJ-Outer sweeper with source iteration computes block Jacobi around source iteration bit for bit", "statement": "The flux SweeperPBJOuter::solve leaves with source iteration is, with any machine arithmetic and to the last bit, that of this on the serial mesh: start from zero; an outer step makes the same numbers of source iterations on all parts, starting from the flux of the step before, which also flows in across the faces between parts. So runs on the same partition with equal numbers of iterations agree bit for bit whatever the threads, the order of messages and the order of cells in a part; with the same tests and limits the numbers of outer and of inner iterations are the same too. Where the first local sweep of an outer step leaves the bits of the flux, it is a fixed point, to the last bit, of source iteration with the parallel traversal on any partition; and conversely from such a fixed point on no sweep changes a bit. There are at most g_ddIterMax - 1 outer steps of at most g_iterMax sweeps; with tests that pass exactly where no entry changed, the inner loops end at the first sweep that leaves the scalar flux, the outer loop at the first step that leaves the flux, and neither before, but for the limits. Without scattering the same holds for the fluxes after the outer steps, if each makes at least one sweep.", "quantifier": "all serial meshes of tetrahedra with an upwind order, partitions, numbers of ranks and threads, interleavings, orders of messages, machine arithmetic, tests and limits", "why_tests_cant": "the interleavings and the arithmetic cannot be enumerated, and the numbers of iterations depend on rounding", "anchors": ["src/SweeperPBJ.cc:51-139", "src/SourceIteration.cc:121-207", "src/CommSides.cc:119-245", "src/Util.cc:134-147"]}
{"id": "C106", "title": "Block Jacobi in rounded arithmetic is near the exact solution once it settles", "statement": "With every operation of the kernel rounded to relative error u, the flux PBJ-SI or PBJ-Outer with source iteration holds after an iteration is within a computed distance of the exact solution of the discrete equations with scattering on the serial mesh. The distance, in the norm weighted by volume, cross section and quadrature weight, is bounded through u, through the change of the scalar flux in the last sweep and through the change across the faces between parts since the values of the last exchange, divided by one minus the scattering ratio. Where the last sweep left the bits of the flux, and the values last exchanged are those bits too, only terms in u are left: the flux is then as near to the exact solution as a settled source iteration with the parallel traversal would be, whatever the partition, the threads and the order of the messages.", "quantifier": "all serial meshes of tetrahedra of bounded shape with an upwind order, partitions, numbers of ranks and threads, interleavings, scattering ratios below one, roundings of relative error u up to 1e-5 under the stated limits on sizes, and iterations", "why_tests_cant": "the exact solution is not at hand and the roundings cannot be enumerated", "anchors": ["src/SweeperPBJ.cc:51-139", "src/SweeperPBJ.cc:199-305", "src/SourceIteration.cc:121-207", "src/CommSides.cc:119-245", "src/Transport.cc:58-271", "src/Transport.cc:284-334", "src/Util.cc:83-128"]}
{"id": "C107", "title": "Source iteration that ends before its limit has met its tolerance", "statement": "When source iteration makes fewer sweeps than g_iterMax, it ends because the relative change it printed last is at most g_errMax. (Violated: the hat source divides by the distance from its centre, so with a mesh vertex at (50, 50, 50), and there only, it is 0/0. The value that is not a number goes from the source to the flux of the cell, from there to all cells downwind in each direction, to the scalar flux and to the error, the comparison with the tolerance fails, and the loop ends after one sweep, whatever the tolerance, the limit, the partition and the threads; the run goes on to write the flux. The block Jacobi sweepers, which test for an error below their tolerance, make all their iterations instead: PBJ-SI one less than the limit, PBJ-Outer as many of one sweep each.)", "quantifier": "all serial meshes of tetrahedra with an upwind order, partitions, numbers of ranks and threads, interleavings, machine arithmetic that hands on values that are not numbers, tolerances below one and limits", "why_tests_cant": "no mesh of the distribution has a vertex at the centre, and the partitions and interleavings cannot be enumerated", "anchors": ["src/SourceIteration.cc:127-207", "src/Problem.cc:55-86", "src/SweeperPBJ.cc:51-139", "src/SweeperPBJ.cc:199-305", "src/Transport.cc:58-72", "src/Transport.cc:284-334", "src/Util.cc:83-128"]}
{"id": "C108", "title": "The Schur solvers pack the boundary flux for any number of angles, groups and partition faces", "statement": "psiBoundToVec writes, for each angle, cell, group and incoming partition face, three values to the Krylov vector, as many as getPsiBoundSize counts, leaves the rest of the vector, and vecToPsiBound puts them back. The number of entries is three times the groups times the pairs of an angle and a partition face that is incoming for it. (Holds while a rank has fewer than 2^31 entries. Violated from 2^31 entries on: the size is counted in 64 bits, the index of the packing in an int of 32 bits, whose increment is then undefined.)", "quantifier": "all meshes, partitions, ranks, angles, groups, boundary data and vectors", "why_tests_cant": "a test would need more than 16 GB for one rank's vector, and the sizes below cannot be enumerated", "anchors": ["src/SweeperSchur.cc:78-104", "src/SweeperSchur.cc:109-134", "src/SweeperSchur.cc:140-168", "src/Global.hh:69"]}
{"id": "C109", "title": "Loading the mesh waits for its sends without touching an element that does not exist", "statement": "At the end of loading a mesh part, the rank waits for one send per face that it shares with another rank, and refers only to elements of the vector of requests. (Holds on ranks that share a face with another rank. Violated on every other: the vector is empty and mpiRequests[0] is undefined; in particular loading any mesh on one rank is undefined.)", "quantifier": "all meshes of tetrahedra, partitions and ranks", "why_tests_cant": "whether a reference to an element of an empty vector shows depends on the build, and meshes and partitions cannot be enumerated", "anchors": ["src/TychoMeshIO.cc:298-332"]}
{"id": "C110", "title": "The sweeps along schedules wait for their sends without touching an element that does not exist", "statement": "In every step of a sweep of OriginalTycho1 or OriginalTycho2, on every rank, the call of MPI_Waitall waits for exactly the sends planned for the step and refers only to elements of the vector of requests. (Holds in the steps in which something is sent. Violated in every sweep that has a step at all: on an acyclic mesh no rank sends anything in the last step, so that the vector is empty and mpiRequests[0] is undefined.)", "quantifier": "all meshes, partitions, priorities, step sizes, angle groups, ranks and steps", "why_tests_cant": "whether a reference to an element of an empty vector shows depends on the build; that the last step never sends is a statement about all schedules", "anchors": ["src/Sweeper.cc:112-144", "src/Sweeper.cc:384-387", "src/Sweeper.cc:423-433", "src/Sweeper.cc:474-478", "src/SweepSchedule.cc:345-466"]}
