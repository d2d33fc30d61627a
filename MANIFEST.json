{
 "claims": [
  {
   "property": "C01",
   "status": "proved",
   "theorems": [
    "Verif.Storage.psiData_new",
    "Verif.Storage.psiData_lawful",
    "Verif.Storage.psiData_linear",
    "Verif.Storage.psiData_setToValue",
    "Verif.Storage.psiData_overflow_witness",
    "Verif.Storage.psiBoundData_new",
    "Verif.Storage.psiBoundData_lawful",
    "Verif.Storage.psiBoundData_linear",
    "Verif.Storage.psiBoundData_setToValue",
    "Verif.Storage.phiData_new",
    "Verif.Storage.phiData_lawful",
    "Verif.Storage.phiData_linear",
    "Verif.Storage.phiData_setToValue"
   ],
   "note": "All sizes and indices; 64-bit wrap of the index arithmetic is in the model."
  },
  {
   "property": "C02",
   "status": "proved",
   "theorems": [
    "Verif.Storage.mat1_new",
    "Verif.Storage.mat1_lawful",
    "Verif.Storage.mat2_new",
    "Verif.Storage.mat2_lawful",
    "Verif.Storage.mat2_setAll",
    "Verif.Storage.mat2_setData",
    "Verif.Storage.mat3_new",
    "Verif.Storage.mat3_lawful",
    "Verif.Storage.mat2_linear",
    "Verif.Storage.mat3_linear"
   ],
   "note": "All sizes and indices."
  },
  {
   "property": "C03",
   "status": "proved",
   "theorems": [
    "Verif.Input.readFile_roundtrip",
    "Verif.Input.lines_exist_unique"
   ],
   "note": "Any number of pairs, any blanks and comments."
  },
  {
   "property": "C04",
   "status": "proved",
   "theorems": [
    "Verif.Input.readFile_accepts_iff",
    "Verif.Input.lines_exist_unique"
   ],
   "note": "Exact characterisation of the accepted files."
  },
  {
   "property": "C05",
   "status": "proved",
   "theorems": [
    "Verif.Input.reader_refines",
    "Verif.Input.answer_unique"
   ],
   "note": "Every history of public calls against an abstract machine whose state is the file read."
  },
  {
   "property": "C06",
   "status": "partial",
   "theorems": [
    "Verif.Input.failed_parse_usable",
    "Verif.Input.failed_parse_lookup_partial"
   ],
   "note": "Violated by the code: failed_parse_usable is the witness; the partial theorem says what lookups after a failed parse can answer."
  },
  {
   "property": "C07",
   "status": "partial",
   "theorems": [
    "Verif.Input.selectSweep_iff",
    "Verif.Input.selectMPI_iff",
    "Verif.Input.selectGauss_partial",
    "Verif.Input.selectGauss_unknown_accepted",
    "Verif.Input.readInput_unknown_solver_accepted",
    "Verif.Input.readInput_words"
   ],
   "note": "Proved for SweepType and MPIType; violated for GaussElim (unknown words are accepted), with an end-to-end witness."
  },
  {
   "property": "C08",
   "status": "proved",
   "theorems": [
    "Verif.MeshFile.serial_roundtrip",
    "Verif.MeshFile.serial_read_sound"
   ],
   "note": "any mesh that fits its format, any trailing bytes; and conversely whatever read accepts is a written mesh"
  },
  {
   "property": "C09",
   "status": "proved",
   "theorems": [
    "Verif.MeshFile.serial_size",
    "Verif.MeshFile.serial_rejects",
    "Verif.MeshFile.serial_truncated"
   ],
   "note": "size, magic and version, and rejection of every proper prefix"
  },
  {
   "property": "C10",
   "status": "proved",
   "theorems": [
    "Verif.MeshFile.parallel_roundtrip",
    "Verif.MeshFile.parallel_read_sound",
    "Verif.MeshFile.parallel_truncated"
   ],
   "note": "any number of partitions"
  },
  {
   "property": "C11",
   "status": "partial",
   "theorems": [
    "Verif.MeshFile.offsets_right",
    "Verif.MeshFile.readInParallel_partial",
    "Verif.MeshFile.checkHeader_iff",
    "Verif.MeshFile.readInParallel_ranks",
    "Verif.MeshFile.create_ok",
    "Verif.MeshFile.readMine_wrap",
    "Verif.MeshFile.readInParallel_large_wrong"
   ],
   "note": "the offset table is right for every mesh; parallel reading returns the own partition and looks only at header, offset entry and own range when each array has fewer than 2^31 bytes; violated beyond (32-bit byte counts): a well-formed mesh with 2^28 cells is read back wrong"
  },
  {
   "property": "C12",
   "status": "proved",
   "theorems": [
    "Verif.MeshFile.create_cells",
    "Verif.MeshFile.create_total"
   ],
   "note": "each cell in exactly the partition given, in increasing order, counts add up"
  },
  {
   "property": "C13",
   "status": "proved",
   "theorems": [
    "Verif.MeshFile.create_connectivity",
    "Verif.MeshFile.create_succeeds"
   ],
   "note": "local numbers lead to the global entities; faces and nodes of a partition are exactly those of its cells; success for up to 2^31 faces and nodes (beyond: C15)"
  },
  {
   "property": "C14",
   "status": "proved",
   "theorems": [
    "Verif.MeshFile.create_boundary",
    "Verif.MeshFile.create_copies"
   ],
   "note": "owners, local cell numbers, boundary type, agreement of the two copies"
  },
  {
   "property": "C15",
   "status": "partial",
   "theorems": [
    "Verif.MeshFile.create_large_fails",
    "Verif.MeshFile.create_large_witness",
    "Verif.MeshFile.create_small_partial",
    "Verif.MeshFile.create_succeeds"
   ],
   "note": "violated: face numbers from 2^31 on are lost; a sound mesh of 2^29+1 cells fails. Holds up to 2^31 faces and nodes (create_succeeds)"
  },
  {
   "property": "C16",
   "status": "proved",
   "theorems": [
    "Verif.Partition.partition_columns"
   ],
   "note": "Any sort functions; coordinates in any ordered field."
  },
  {
   "property": "C17",
   "status": "proved",
   "theorems": [
    "Verif.Partition.split_balanced"
   ],
   "note": "All N and all k > 0."
  },
  {
   "property": "C18",
   "status": "proved",
   "theorems": [
    "Verif.Partition.angleGroup_valid",
    "Verif.Partition.angleGroup_cover"
   ],
   "note": ""
  },
  {
   "property": "C19",
   "status": "proved",
   "theorems": [
    "Verif.Packet.split_create",
    "Verif.Packet.buffer_length",
    "Verif.Packet.unpack_pack",
    "Verif.Packet.unpack_concat"
   ],
   "note": ""
  },
  {
   "property": "C20",
   "status": "proved",
   "theorems": [
    "Verif.Traverse.traverse_once_in_order",
    "Verif.Traverse.traverse_finished_once",
    "Verif.Traverse.traverse_effects",
    "Verif.Traverse.effects_unique",
    "Verif.Traverse.announced_unique",
    "Verif.Traverse.traverse_directions"
   ],
   "note": "Both protocols, with or without communication, both directions; traverse_effects and traverse_directions are stated with mesh queries and the log only."
  },
  {
   "property": "C21",
   "status": "partial",
   "theorems": [
    "Verif.Traverse.traverse_terminates",
    "Verif.Traverse.traverse_no_deadlock",
    "Verif.Traverse.traverse_finishes",
    "Verif.Traverse.traverse_work",
    "Verif.Traverse.some_task_ready",
    "Verif.Traverse.traverse_returns_partial",
    "Verif.Traverse.capsaicin_finishes",
    "Verif.Traverse.capsaicin_no_fair_loop",
    "Verif.Traverse.capsaicin_no_deadlock",
    "Verif.Traverse.capsaicin_deadlock",
    "Verif.Traverse.zero_batch_never_finishes"
   ],
   "note": "Proved for the two-sided protocol and without communication, where every execution (fair or not) is bounded. For the one-sided protocol with buffered sends every fair execution returns on all ranks (capsaicin_finishes; fair: no rank is left alone for ever and a message that is probed for again and again is seen). Violated for the one-sided protocol with sends that complete only when received: capsaicin_deadlock is the witness."
  },
  {
   "property": "C22",
   "status": "proved",
   "theorems": [
    "Verif.Traverse.traverse_deterministic",
    "Verif.Traverse.sweep_solves",
    "Verif.Traverse.globalDG_unique_log",
    "Verif.Traverse.sweep_deterministic"
   ],
   "note": ""
  },
  {
   "property": "C23",
   "status": "partial",
   "theorems": [
    "Verif.Traverse.parallel_face_never_finishes",
    "Verif.Traverse.parallel_example"
   ],
   "note": "Violated: negation proved, with a concrete mesh; traverse_terminates is the property on meshes without parallel faces."
  },
  {
   "property": "C24",
   "status": "proved",
   "theorems": [
    "Verif.Traverse.delivered_once",
    "Verif.Traverse.finished_sent",
    "Verif.Traverse.all_matched",
    "Verif.Traverse.lockstep",
    "Verif.Traverse.finished_told",
    "Verif.Traverse.dark_frozen",
    "Verif.Traverse.killed_silent"
   ],
   "note": "Two-sided protocol."
  },
  {
   "property": "C25",
   "status": "proved",
   "theorems": [
    "Verif.Schedule.schedule_topological",
    "Verif.Schedule.tolerance_breaks_order"
   ],
   "note": "tolerance_breaks_order shows the tolerance is needed in the statement: within it the downwind cell may come first"
  },
  {
   "property": "C26",
   "status": "proved",
   "theorems": [
    "Verif.Schedule.plan_matches",
    "Verif.Schedule.outbox_iff"
   ],
   "note": ""
  },
  {
   "property": "C27",
   "status": "proved",
   "theorems": [
    "Verif.Transport.gaussElim4_sound",
    "Verif.Transport.gaussElim4_defined_iff",
    "Verif.Transport.noPivot_defined_iff",
    "Verif.Transport.gaussElim4_agree"
   ],
   "note": "Exact field arithmetic; a division by zero is a distinct outcome. Floating-point rounding is not modelled."
  },
  {
   "property": "C28",
   "status": "proved",
   "theorems": [
    "Verif.Transport.transport_solvable",
    "Verif.Transport.solveGroup_defined",
    "Verif.Transport.solve_defined",
    "Verif.Transport.transport_open_singular",
    "Verif.Geometry.geom_closed",
    "Verif.Geometry.tet_solve_defined"
   ],
   "note": "tet_solve_defined: every non-degenerate tetrahedron, direction, solver. transport_open_singular shows closedness is needed."
  },
  {
   "property": "C29",
   "status": "proved",
   "theorems": [
    "Verif.Transport.assembled_is_dg",
    "Verif.Transport.solveGroup_dg",
    "Verif.Transport.update_dg"
   ],
   "note": "Specification is the system printed in the user guide."
  },
  {
   "property": "C30",
   "status": "proved",
   "theorems": [
    "Verif.Transport.balance_cell",
    "Verif.Transport.flow_opposite",
    "Verif.Transport.balance_mesh",
    "Verif.Geometry.tet_areas_opposite"
   ],
   "note": "Exact arithmetic; any mesh, any face pairing."
  },
  {
   "property": "C31",
   "status": "proved",
   "theorems": [
    "Verif.Transport.constant_flux",
    "Verif.Geometry.tet_constant_flux"
   ],
   "note": "Exact arithmetic."
  },
  {
   "property": "C32",
   "status": "proved",
   "theorems": [
    "Verif.Geometry.volume_pos_iff",
    "Verif.Geometry.volume_perm",
    "Verif.Geometry.area_order",
    "Verif.Geometry.area_pos",
    "Verif.Geometry.normal_outward",
    "Verif.Geometry.outward_unique",
    "Verif.Geometry.volume_height",
    "Verif.Geometry.surface_closed",
    "Verif.Geometry.normal_degenerate"
   ],
   "note": "Real arithmetic."
  },
  {
   "property": "C33",
   "status": "proved",
   "theorems": [
    "Verif.Geometry.normals_opposite",
    "Verif.Geometry.area_shared",
    "Verif.Geometry.omega_opposite"
   ],
   "note": "Real arithmetic."
  },
  {
   "property": "C34",
   "status": "proved",
   "theorems": [
    "Verif.TychoMesh.load_succeeds",
    "Verif.TychoMesh.adjacency",
    "Verif.TychoMesh.sides",
    "Verif.TychoMesh.sides_onto",
    "Verif.TychoMesh.sides_shared",
    "Verif.TychoMesh.loaded_cells"
   ],
   "note": "for every mesh of tetrahedra partitioned by createFromSerialMesh (counts up to 2^31)"
  },
  {
   "property": "C35",
   "status": "partial",
   "theorems": [
    "Verif.TychoMesh.getAdjFace_is_cell",
    "Verif.TychoMesh.getAdjFace_wrong",
    "Verif.TychoMesh.adjFace_partial"
   ],
   "note": "violated: the query returns the cell number, for every mesh; a concrete mesh where this differs. The array c_adjFace is right"
  },
  {
   "property": "C36",
   "status": "proved",
   "theorems": [
    "Verif.TychoMesh.face_vertices",
    "Verif.TychoMesh.face_vertices_match",
    "Verif.TychoMesh.neighbor_vertices"
   ],
   "note": "coordinates in a linear order (no NaN)"
  },
  {
   "property": "C37",
   "status": "proved",
   "theorems": [
    "Verif.Domain.exchange_correct",
    "Verif.Domain.counts_agree",
    "Verif.Domain.exchange_no_truncation",
    "Verif.Domain.exchange_no_deadlock",
    "Verif.Domain.exchange_terminates",
    "Verif.Domain.exchange_finishes",
    "Verif.Domain.exchange_parallel_never_finishes"
   ],
   "note": "Crossed (no partition face parallel to a direction) is needed: exchange_parallel_never_finishes"
  },
  {
   "property": "C38",
   "status": "proved",
   "theorems": [
    "Verif.PsiFile.psiFile_returns",
    "Verif.PsiFile.psiFile_contents",
    "Verif.PsiFile.contents_unique",
    "Verif.PsiFile.psiFile_independent",
    "Verif.PsiFile.output_independent",
    "Verif.PsiFile.psiFile_truncated"
   ],
   "note": "output_independent combines the file with the sweep: equal bytes for any two runs of one problem"
  },
  {
   "property": "C39",
   "status": "proved",
   "theorems": [
    "Verif.Quadrature.orders",
    "Verif.Quadrature.count",
    "Verif.Quadrature.layout",
    "Verif.Quadrature.unit_positive",
    "Verif.Quadrature.reflections",
    "Verif.Quadrature.off_planes",
    "Verif.Quadrature.directions_distinct",
    "Verif.Quadrature.monomial_accurate",
    "Verif.Quadrature.total_weight",
    "Verif.Quadrature.first_moments",
    "Verif.Quadrature.polynomials_accurate",
    "Verif.Quadrature.legendre_accurate"
   ],
   "note": "real arithmetic; table constants as the printed decimals; every accepted order and every polynomial degree up to 2N-1; tolerance 1e-14"
  },
  {
   "property": "C40",
   "status": "proved",
   "theorems": [
    "Verif.Source.psiToPhi_sum",
    "Verif.Source.psiToPhi_frame",
    "Verif.Source.phiToPsi_value",
    "Verif.Source.calcTotalSource_value",
    "Verif.Source.calcTotalSource_inPlace",
    "Verif.Source.operatorS_value",
    "Verif.Source.operatorS_inPlace",
    "Verif.Source.psiToPhi_linear",
    "Verif.Source.phiToPsi_linear",
    "Verif.Source.calcTotalSource_linear",
    "Verif.Source.operatorS_linear",
    "Verif.Source.operators_groupwise",
    "Verif.Source.scattering_agree"
   ],
   "note": "exact field arithmetic; the threads may run the loop nest in any order"
  },
  {
   "property": "C41",
   "status": "proved",
   "theorems": [
    "Verif.Source.fixedPoint_count",
    "Verif.Source.fixedPoint_tolerance",
    "Verif.Source.fixedPoint_none",
    "Verif.Source.fixedPoint_solves",
    "Verif.Source.fixedPoint_stationary",
    "Verif.Source.fixedPoint_residual",
    "Verif.Source.fixedPoint_fixed",
    "Verif.Source.fixedPoint_returns",
    "Verif.Source.krylov_iff",
    "Verif.Source.krylov_solves",
    "Verif.Source.krylov_complete"
   ],
   "note": "exact field arithmetic; the Krylov solver itself is not modelled: the theorems say what any solution it returns is"
  },
  {
   "property": "C42",
   "status": "proved",
   "theorems": [
    "Verif.Domain.consistent_is_full",
    "Verif.Domain.full_is_local",
    "Verif.Domain.pbj_exact_after",
    "Verif.Domain.pbj_finite",
    "Verif.Domain.pbj_stationary",
    "Verif.Domain.pbj_returns",
    "Verif.Domain.local_sweep_solves",
    "Verif.Domain.local_sweep_deterministic"
   ],
   "note": "exact field arithmetic"
  },
  {
   "property": "C43",
   "status": "partial",
   "theorems": [
    "Verif.Domain.pbj_limit_partial",
    "Verif.Domain.pbj_limit_one_sweeps_nothing",
    "Verif.Domain.pbj_limit_exact",
    "Verif.Domain.pbj_limit_violated"
   ],
   "note": "violated: a limit of N allows N-1 sweeps, a limit of one returns the flux given; pbj_limit_violated is a run whose result does not solve the problem"
  },
  {
   "property": "C44",
   "status": "proved",
   "theorems": [
    "Verif.Domain.psiBoundSize_eq",
    "Verif.Domain.pack_get",
    "Verif.Domain.unpack_get",
    "Verif.Domain.pack_unpack",
    "Verif.Domain.unpack_pack",
    "Verif.Domain.schur_iff_consistent",
    "Verif.Domain.schur_gives_full",
    "Verif.Domain.schur_iff_packed",
    "Verif.Domain.schur_linear",
    "Verif.Domain.schur_returns"
   ],
   "note": "exact field arithmetic; the Krylov solver itself is not modelled: the theorems say what any solution it returns is"
  },
  {
   "property": "C45",
   "status": "proved",
   "theorems": [
    "Verif.Priorities.bLevels_longest",
    "Verif.Priorities.bLevels_decrease",
    "Verif.Priorities.maxBLevel_largest"
   ],
   "note": "partition-local, as the statement says; the schedule-based calcLevels is C63"
  },
  {
   "property": "C46",
   "status": "partial",
   "theorems": [
    "Verif.Priorities.dfds_documented_partial",
    "Verif.Priorities.dfds_deadEnd",
    "Verif.Priorities.dfds_wraps",
    "Verif.Priorities.dfds_violates_documentation"
   ],
   "note": "violated: a cell with a local child and no descendant outside gets a priority of at least 2^64-(d+1); the documented value is proved when every chain reaches another partition"
  },
  {
   "property": "C47",
   "status": "proved",
   "theorems": [
    "Verif.Refine.inner_diagonal",
    "Verif.Refine.minIndex_shortest",
    "Verif.Refine.index_inverse",
    "Verif.Refine.child_volume",
    "Verif.Refine.child_inside",
    "Verif.Refine.children_cover",
    "Verif.Refine.children_disjoint",
    "Verif.Refine.face_cut",
    "Verif.Refine.face_cut_agrees"
   ],
   "note": "Exact field arithmetic; all three diagonals; the inner children meet in a shortest one"
  },
  {
   "property": "C48",
   "status": "partial",
   "theorems": [
    "Verif.Refine.refine_correct_partial",
    "Verif.Refine.refine_numbers",
    "Verif.Refine.Conforming.of_tets",
    "Verif.Refine.diameter_spec",
    "Verif.Refine.merge_witness"
   ],
   "note": "proved for conforming meshes of at least 1000 cells whose points and edge midpoints differ by more than the tolerance; merge_witness is the witness against the full statement; refine_numbers says which corners share a number without the distance hypothesis"
  },
  {
   "property": "C49",
   "status": "partial",
   "theorems": [
    "Verif.Refine.refine_small",
    "Verif.Refine.refine_empty",
    "Verif.Refine.refine_fails_iff_partial"
   ],
   "note": "violated: refine_small is the witness for every mesh of 1 to 999 cells; refine_fails_iff_partial says these are the only failures (same distance hypothesis as C48)"
  },
  {
   "property": "C50",
   "status": "partial",
   "theorems": [
    "Verif.Problem.source_defined_partial",
    "Verif.Problem.source_undefined"
   ],
   "note": "violated at the centre of the cube, and only there"
  },
  {
   "property": "C51",
   "status": "proved",
   "theorems": [
    "Verif.Problem.cross_sections"
   ],
   "note": ""
  },
  {
   "property": "C52",
   "status": "partial",
   "theorems": [
    "Verif.TychoMesh.exchange_total",
    "Verif.TychoMesh.exchange_partial",
    "Verif.TychoMesh.exchange_single",
    "Verif.TychoMesh.exchange_wrong",
    "Verif.TychoMesh.exchange_late_wrong"
   ],
   "note": "violated: a mesh of four cells on two ranks, and wherever two faces are shared if MPI reads the dead send buffers late; right when both ranks visit their shared faces in the same order, in particular when they share one face"
  },
  {
   "property": "C53",
   "status": "proved",
   "theorems": [
    "Verif.Transport.solve_groupwise",
    "Verif.Transport.solve_noninterference",
    "Verif.Transport.solve_defined"
   ],
   "note": ""
  },
  {
   "property": "C54",
   "status": "proved",
   "theorems": [
    "Verif.Partition.metis_graph"
   ],
   "note": "Stated for any well-formed serial mesh (MeshOK)."
  },
  {
   "property": "C55",
   "status": "proved",
   "theorems": [
    "Verif.TychoMesh.run_linked",
    "Verif.TychoMesh.run_nodes",
    "Verif.TychoMesh.sweep_serial",
    "Verif.TychoMesh.partition_independent",
    "Verif.TychoMesh.partitioned_sweep_finishes"
   ],
   "note": "geometry given by serial cell; the finishing theorem is for the two-sided protocol"
  },
  {
   "property": "C56",
   "status": "proved",
   "theorems": [
    "Verif.Problem.hatSource_entry",
    "Verif.Problem.manufactured",
    "Verif.Problem.l2_error",
    "Verif.Problem.l2_zero",
    "Verif.Problem.l2_undefined"
   ],
   "note": "real arithmetic"
  },
  {
   "property": "C57",
   "status": "proved",
   "theorems": [
    "Verif.Source.result_scatters",
    "Verif.Source.sweep_types_agree",
    "Verif.Source.schurOuter_iff",
    "Verif.Source.schurKrylov_iff",
    "Verif.Source.OuterLoop.stationary",
    "Verif.Source.SIPBJLoop.stationary",
    "Verif.Source.fullSwept_solves",
    "Verif.Source.pbj_correct",
    "Verif.Source.schur_correct",
    "Verif.Source.traverse_result",
    "Verif.Source.schurOuter_result",
    "Verif.Source.schurKrylov_result"
   ],
   "note": "exactly converged: the last two iterates are equal, or the Krylov vector solves its system exactly; PBJSI needs the angular flux to be stationary, its own test looks at the scalar flux only"
  },
  {
   "property": "C58",
   "status": "proved",
   "theorems": [
    "Verif.Source.scatter_contracts",
    "Verif.Source.scatter_unique",
    "Verif.Source.scatter_exists",
    "Verif.Source.fixedPoint_converges",
    "Verif.Source.full_scatter_exists_unique",
    "Verif.Source.local_scatter_exists_unique",
    "Verif.Source.krylov_system"
   ],
   "note": "exact field arithmetic"
  },
  {
   "property": "C59",
   "status": "proved",
   "theorems": [
    "Verif.Priorities.interleaved",
    "Verif.Priorities.global_angles",
    "Verif.Priorities.local_angles",
    "Verif.Priorities.angle_keeps_order",
    "Verif.Priorities.angles_mixed",
    "Verif.Priorities.calcPriorities_order"
   ],
   "note": "user guide order; SweepSchedule.tex documents the reverse; angles_mixed shows that the bound on the priorities is sharp"
  },
  {
   "property": "C60",
   "status": "partial",
   "theorems": [
    "Verif.Priorities.bfds_all_zero",
    "Verif.Priorities.dfhds_eq_dfds",
    "Verif.Priorities.bfds_violates_documentation"
   ],
   "note": "violated for every mesh: the side levels stay zero"
  },
  {
   "property": "C61",
   "status": "proved",
   "theorems": [
    "Verif.Priorities.calcPriorities_deterministic",
    "Verif.Priorities.calcPriorities_returns",
    "Verif.Priorities.neighbor_rule",
    "Verif.Priorities.neighbor_congr"
   ],
   "note": ""
  },
  {
   "property": "C62",
   "status": "proved",
   "theorems": [
    "Verif.Schedule.schedule_lists",
    "Verif.Schedule.schedule_returns_iff",
    "Verif.Schedule.cyclic_schedule_incomplete",
    "Verif.Schedule.truncated_step_never_returns"
   ],
   "note": ""
  },
  {
   "property": "C63",
   "status": "proved",
   "theorems": [
    "Verif.Schedule.level_longest_chain",
    "Verif.Schedule.side_level",
    "Verif.Schedule.nLevels_longest",
    "Verif.Schedule.returned_longest",
    "Verif.Schedule.levels_return"
   ],
   "note": ""
  },
  {
   "property": "C64",
   "status": "partial",
   "theorems": [
    "Verif.Input.readInput_settings",
    "Verif.Input.readInput_int_partial",
    "Verif.Input.readInput_int_mangled",
    "Verif.Input.stoi_iff"
   ],
   "note": "every setting comes from its own key; integers are as written for plain decimal numbers below 2^31; readInput_int_mangled is the witness against the full statement"
  },
  {
   "property": "C65",
   "status": "partial",
   "theorems": [
    "Verif.Schedule.scheduled_sweep_returns_partial",
    "Verif.Schedule.scheduled_sweep_solves_partial",
    "Verif.Schedule.scheduled_sweep_eq_traversal_partial",
    "Verif.Schedule.scheduled_serial_partial",
    "Verif.Schedule.scheduled_partition_independent_partial",
    "Verif.Schedule.tolerance_breaks_sweep",
    "Verif.Source.scheduled_types_agree_partial"
   ],
   "note": "proved when |omega.n| exceeds the tolerance on interior faces; tolerance_breaks_sweep is the witness against the full statement; that the constructor gets past the read of cellLevels[0] (C101) is assumed, which asks for a cell on every rank and no more threads than angles"
  },
  {
   "property": "C66",
   "status": "partial",
   "theorems": [
    "Verif.Schedule.seek_returns_iff",
    "Verif.Schedule.seek_passes_le",
    "Verif.Schedule.seek_greatest",
    "Verif.Schedule.bfds_priority",
    "Verif.Schedule.dfds_priority_partial",
    "Verif.Schedule.dfds_wraps",
    "Verif.Schedule.dfds_witness",
    "Verif.Schedule.priorities_return_iff",
    "Verif.Schedule.constructor_returns_partial",
    "Verif.Schedule.constructed_topological",
    "Verif.Schedule.dfds_undefined",
    "Verif.Schedule.dfds_undefined_witness",
    "Verif.Schedule.cyclic_priorities_hang",
    "Verif.Schedule.schedule_global_angles",
    "Verif.Schedule.schedule_local_angles"
   ],
   "note": "breadth-first priorities proved; depth-first ones only on ranks where every cell has a downwind neighbour (dfds_priority_partial), dfds_witness and dfds_undefined_witness are the witnesses against the full statement; constructor_returns_partial covers the random, level and breadth-first options on meshes whose priorities stay below 2^53; the angle theorems need intra-angle priorities below levels times cells, which random numbers may exceed, and no overflow; that the constructor gets past the read of cellLevels[0] (C101) is assumed, which asks for a cell on every rank and no more threads than angles"
  },
  {
   "property": "C67",
   "status": "proved",
   "theorems": [
    "Verif.Moab.import_correct",
    "Verif.Moab.import_fails_iff"
   ],
   "note": "MOAB itself is an assumption (see Moab/Model.lean); exact arithmetic for the centroid"
  },
  {
   "property": "C68",
   "status": "partial",
   "theorems": [
    "Verif.Moab.export_cells",
    "Verif.Moab.export_roundtrip_partial",
    "Verif.Moab.export_disconnects",
    "Verif.Moab.export_disconnects_witness"
   ],
   "note": "cells and coordinates proved; the connections are lost: export_disconnects holds for every mesh and export_disconnects_witness is the concrete case"
  },
  {
   "property": "C69",
   "status": "proved",
   "theorems": [
    "Verif.Moab.export_parts"
   ],
   "note": "what write_mesh writes of a mesh set is an assumption (Db.subset)"
  },
  {
   "property": "C70",
   "status": "proved",
   "theorems": [
    "Verif.Program.program_sweep",
    "Verif.Program.program_independent",
    "Verif.Program.program_finishes",
    "Verif.Program.program_starts",
    "Verif.Program.program_output",
    "Verif.Program.quadrature_sensible",
    "Verif.Program.describes_exists",
    "Verif.Program.two_runs"
   ],
   "note": "real arithmetic; two_runs is the concrete case; termination for the two-sided protocol"
  },
  {
   "property": "C71",
   "status": "proved",
   "theorems": [
    "Verif.TychoMesh.result_serial",
    "Verif.TychoMesh.results_independent",
    "Verif.TychoMesh.scatter_serial_exists",
    "Verif.Program.two_results"
   ],
   "note": "exact field arithmetic; exactly converged results"
  },
  {
   "property": "C72",
   "status": "proved",
   "theorems": [
    "Verif.Program.program_result",
    "Verif.Program.program_results_agree",
    "Verif.Program.quadrature_subcritical",
    "Verif.Program.program_result_exists",
    "Verif.Program.two_results"
   ],
   "note": "real arithmetic; exactly converged results; two_results is the concrete case"
  },
  {
   "property": "C73",
   "status": "partial",
   "theorems": [
    "Verif.Program.groups_partial",
    "Verif.Program.groups_not_number",
    "Verif.Program.groups_partition",
    "Verif.Program.program_groups",
    "Verif.Program.program_diff"
   ],
   "note": "proved when every rank has a group 0 entry that is not zero; groups_not_number and groups_partition are the witnesses against the full statement"
  },
  {
   "property": "C74",
   "status": "proved",
   "theorems": [
    "Verif.Program.error_serial",
    "Verif.Program.error_undefined",
    "Verif.Program.error_independent",
    "Verif.Program.two_results"
   ],
   "note": "real arithmetic; exactly converged results"
  },
  {
   "property": "C75",
   "status": "proved",
   "theorems": [
    "Verif.Program.partition_succeeds",
    "Verif.Program.opened_ready",
    "Verif.Program.files_output",
    "Verif.Program.files_result",
    "Verif.Program.mesh_metis",
    "Verif.Program.file_length",
    "Verif.Program.two_files"
   ],
   "note": "real arithmetic; Metis is any function that answers with a part for each vertex; array sizes of a part below 2^31 bytes, as MPI counts them; two_files is the concrete case"
  },
  {
   "property": "C76",
   "status": "proved",
   "theorems": [
    "Verif.Program.regular_acyclic",
    "Verif.Program.Delaunay.regular",
    "Verif.Program.delaunay_finishes",
    "Verif.Program.two_delaunay",
    "Verif.Program.cube_read",
    "Verif.Program.cube_tets",
    "Verif.Program.cube_fits",
    "Verif.Program.cube_regular",
    "Verif.Program.cube_acyclic",
    "Verif.Program.cube_transversal",
    "Verif.Program.cube_runs",
    "Verif.Program.cube_output",
    "Verif.Program.cube_example"
   ],
   "note": "real arithmetic on the exact values of the doubles in the file; two_delaunay and cube_example are the concrete cases"
  },
  {
   "property": "C77",
   "status": "partial",
   "theorems": [
    "Verif.Program.completed_sweep_partial",
    "Verif.Program.schedule_finishes_partial",
    "Verif.Program.files_completed_partial",
    "Verif.Program.two_completed",
    "Verif.Program.cube_within",
    "Verif.Program.cube_not_away",
    "Verif.Schedule.tolerance_breaks_sweep"
   ],
   "note": "proved when no direction is within 1e-10 of being parallel to an interior face; tolerance_breaks_sweep is the witness against the full statement, cube_within shows that the condition fails on a mesh that comes with the program; that the constructor gets past the read of cellLevels[0] (C101) is assumed, which asks for a cell on every rank and no more threads than angles"
  },
  {
   "property": "C78",
   "status": "proved",
   "theorems": [
    "Verif.Source.sweep_error",
    "Verif.Source.fixedPoint_error",
    "Verif.Source.krylov_error",
    "Verif.Source.fixedPoint_reaches",
    "Verif.Source.fixedPoint_done",
    "Verif.Program.iterated_error",
    "Verif.Program.stopped_error",
    "Verif.Program.iterated_reaches",
    "Verif.Program.iterated_agree",
    "Verif.Program.between_exists",
    "Verif.Program.iterated_returns",
    "Verif.Program.two_iterated"
   ],
   "note": "real arithmetic; inner iterations of PBJ and Schur sweeps converged exactly; two_iterated is the concrete case"
  },
  {
   "property": "C79",
   "status": "proved",
   "theorems": [
    "Verif.Program.main_usage",
    "Verif.Program.main_output_name",
    "Verif.Program.main_result",
    "Verif.Program.main_independent",
    "Verif.Program.main_finishes",
    "Verif.Program.two_mains"
   ],
   "note": "real arithmetic, iterations converged exactly; for the two Original sweep types under the condition of C77; two_mains is the concrete case: two decks, two machines, two partitioners"
  },
  {
   "property": "C80",
   "status": "proved",
   "theorems": [
    "Verif.Program.main_tolerance",
    "Verif.Program.main_tolerance_agree",
    "Verif.Program.main_reaches",
    "Verif.Program.main_stops",
    "Verif.Program.two_stops",
    "Verif.Source.fixedPoint_number"
   ],
   "note": "real arithmetic; for the two Original sweep types under the condition of C77; two_stops is the concrete case, ended after at most 21 sweeps"
  },
  {
   "property": "C81",
   "status": "proved",
   "theorems": [
    "Verif.Program.main_apart",
    "Verif.Program.main_apart_agree",
    "Verif.Program.main_apart_stops",
    "Verif.Program.inflow_exists",
    "Verif.Program.two_apart",
    "Verif.Source.ended_near",
    "Verif.Source.ended_error",
    "Verif.Source.lagAll_le",
    "Verif.Source.pbj_absorber"
   ],
   "note": "real arithmetic; PBJ and Schur with source iteration; inner solves of SchurOuter exact; two_apart is the concrete case for the Schur types, pbj_absorber with its example for PBJ"
  },
  {
   "property": "C82",
   "status": "proved",
   "theorems": [
    "Verif.Program.main_si_reaches",
    "Verif.Program.main_si_ends",
    "Verif.Program.main_si_bound",
    "Verif.Program.main_outer_reaches",
    "Verif.Program.main_outer_ends",
    "Verif.Program.main_outer_bound",
    "Verif.Program.enoughSI_exists",
    "Verif.Program.enoughOuter_exists",
    "Verif.Program.two_jacobi",
    "Verif.Source.sipbj_stops",
    "Verif.Source.outer_stops",
    "Verif.Source.sipbj_returns"
   ],
   "note": "real arithmetic; inner solves of PBJOuter exact; two_jacobi is the concrete case with explicit k for both types"
  },
  {
   "property": "C83",
   "status": "proved",
   "theorems": [
    "Verif.Program.main_balance",
    "Verif.Program.main_imbalance",
    "Verif.Program.swept_balance",
    "Verif.TychoMesh.dg_balance",
    "Verif.TychoMesh.lagged_balance",
    "Verif.TychoMesh.scatter_balance"
   ],
   "note": "real arithmetic; examples on the runs of two_mains and two_stops"
  },
  {
   "property": "C84",
   "status": "proved",
   "theorems": [
    "Verif.Program.main_accuracy",
    "Verif.Program.main_accuracy_tolerance",
    "Verif.Program.main_accuracy_apart",
    "Verif.Program.serial_accuracy",
    "Verif.Program.accuracy_order",
    "Verif.Program.defect_le",
    "Verif.Program.star_main",
    "Verif.Source.load_energy",
    "Verif.TychoMesh.scatter_interp"
   ],
   "note": "real arithmetic; star_main is the concrete case, a complete run whose bound is below the size of the exact flux"
  },
  {
   "property": "C85",
   "status": "proved",
   "theorems": [
    "Verif.Program.main_moved",
    "Verif.Program.main_upright",
    "Verif.Program.main_groups",
    "Verif.Program.good_moved",
    "Verif.Program.upright_deck",
    "Verif.Program.upright_quarter",
    "Verif.Program.turn_same",
    "Verif.Program.turn_mains"
   ],
   "note": "real arithmetic, iterations converged exactly; turn_mains is the concrete case: two complete runs, on two cells and on the same cells after a quarter turn with other numbers and other numbers of groups"
  },
  {
   "property": "C86",
   "status": "proved",
   "theorems": [
    "Verif.Floating.sweep_bitwise",
    "Verif.Floating.iterated_bitwise",
    "Verif.Floating.output_bitwise",
    "Verif.Floating.fixedPoint_repeats",
    "Verif.Floating.sweep_returns",
    "Verif.Floating.fixedPoint_returns",
    "Verif.Floating.started_exists"
   ],
   "note": "any arithmetic; traversal sweep with source iteration; across partitions the number of sweeps is given, since the sum of the stopping test runs over the ranks; examples over a non-associative addition"
  },
  {
   "property": "C87",
   "status": "proved",
   "theorems": [
    "Verif.Rounding.rounded_normal",
    "Verif.Rounding.rounded_omega",
    "Verif.Rounding.rounded_volume",
    "Verif.Rounding.rounded_area",
    "Verif.Rounding.rounded_opposite",
    "Verif.Rounding.rounded_consistent",
    "Verif.Rounding.rounded_sign",
    "Verif.Rounding.rounded_sorted",
    "Verif.Rounding.rounded_started",
    "Verif.Rounding.rounded_accuracy",
    "Verif.Rounding.binary64_rounds",
    "Verif.Rounding.clear_double",
    "Verif.Rounding.needle_normal",
    "Verif.Rounding.opposed_of_fits",
    "Verif.Rounding.acyclic_of",
    "Verif.Rounding.machine_sorted",
    "Verif.Rounding.delaunay_machine"
   ],
   "note": "rounding with relative error u per operation, no overflow or underflow; examples with 53-bit rounding to nearest even on two cells and two ranks"
  },
  {
   "property": "C88",
   "status": "proved",
   "theorems": [
    "Verif.Timing.traverse_times",
    "Verif.Timing.traverse_printed",
    "Verif.Timing.parts_exceed_total",
    "Verif.Timing.iteration_printed",
    "Verif.Timing.sweep_printed"
   ],
   "note": "clocks that do not run backwards; parts_exceed_total is the witness that the printed parts need not add up to the total"
  },
  {
   "property": "C89",
   "status": "proved",
   "theorems": [
    "Verif.Program.refined_runs",
    "Verif.Program.refined_exists",
    "Verif.Program.refined_finishes",
    "Verif.Program.Halved.fits",
    "Verif.Program.Halved.noCycle",
    "Verif.Program.Halved.cells",
    "Verif.Program.Halved.shared",
    "Verif.Program.halved_of",
    "Verif.Program.regular_noCycle",
    "Verif.Program.acyclic_iff",
    "Verif.Program.pair_refined",
    "Verif.Program.pair_tets",
    "Verif.Program.pair_fits",
    "Verif.Program.pair_delaunay"
   ],
   "note": "real arithmetic, coordinates stored exactly; the concrete case is a mesh of 1000 cells, refined to 8000 and swept on two ranks"
  },
  {
   "property": "C90",
   "status": "proved",
   "theorems": [
    "Verif.Wire.wire_refines",
    "Verif.Wire.wire_once_in_order",
    "Verif.Wire.wire_no_error",
    "Verif.Wire.wire_no_deadlock",
    "Verif.Wire.wire_terminates",
    "Verif.Wire.wire_finishes",
    "Verif.Wire.wire_quiet",
    "Verif.Wire.long_message_stops"
   ],
   "note": "two-sided protocol; wire_terminates and wire_finishes need a batch of at least one task, no face parallel to a direction and no cycle of cells, as in C21"
  },
  {
   "property": "C91",
   "status": "proved",
   "theorems": [
    "Verif.Threads.threads_refine",
    "Verif.Threads.threads_input",
    "Verif.Threads.threads_once_in_order",
    "Verif.Threads.threads_no_race",
    "Verif.Threads.touches_sound",
    "Verif.Threads.threads_no_deadlock",
    "Verif.Threads.threads_terminate",
    "Verif.Threads.threads_finish",
    "Verif.Threads.fine_swept",
    "Verif.Threads.fine_bitwise",
    "Verif.Threads.fine_returns",
    "Verif.Threads.sweep_pass_length"
   ],
   "note": "refinement and absence of races for both protocols; threads_no_deadlock, threads_terminate and threads_finish for the two-sided one or without communication, the last two with a batch of at least one task, no face parallel to a direction and no cycle of cells (each shown necessary under C21); statements are sequentially consistent, as C++ guarantees without data races"
  },
  {
   "property": "C92",
   "status": "proved",
   "theorems": [
    "Verif.Joint.joint_refines",
    "Verif.Joint.joint_once_in_order",
    "Verif.Joint.joint_no_error",
    "Verif.Joint.joint_no_race",
    "Verif.Joint.joint_calls_alone",
    "Verif.Joint.joint_no_deadlock",
    "Verif.Joint.joint_terminates",
    "Verif.Joint.joint_finishes",
    "Verif.Joint.joint_quiet",
    "Verif.Joint.joint_swept",
    "Verif.Joint.joint_bitwise",
    "Verif.Joint.joint_returns",
    "Verif.Joint.block_ok",
    "Verif.Joint.cfg_fits"
   ],
   "note": "two-sided protocol; Verif.Threads and Verif.Wire combined, steps of the same two models"
  },
  {
   "property": "C93",
   "status": "proved",
   "theorems": [
    "Verif.Floating.planned_bitwise",
    "Verif.Floating.any_iterated_bitwise",
    "Verif.Floating.any_output_bitwise",
    "Verif.Floating.any_fixedPoint_repeats",
    "Verif.Floating.planned_returns",
    "Verif.Floating.planned_iterated_exists"
   ],
   "note": "any arithmetic; the conditions on the tolerance and on cycles are those under which C65 holds, where their need is shown; Krylov iteration is not included; that the constructor gets past the read of cellLevels[0] (C101) is assumed, which asks for a cell on every rank and no more threads than angles"
  },
  {
   "property": "C94",
   "status": "proved",
   "theorems": [
    "Verif.Fine.calls_refine",
    "Verif.Fine.calls_match",
    "Verif.Fine.calls_no_race",
    "Verif.Fine.calls_serial",
    "Verif.Fine.calls_no_deadlock",
    "Verif.Fine.calls_terminate",
    "Verif.Fine.calls_finish",
    "Verif.Fine.planRun_swept",
    "Verif.Fine.planRun_bitwise",
    "Verif.Fine.planRun_returns"
   ],
   "note": "statements are sequentially consistent, as C++ guarantees without data races; a message holds what its buffer held at the call (the lifetime of the buffers is the subject of C95); that the constructor gets past the read of cellLevels[0] (C101) is assumed, which asks for a cell on every rank and no more threads than angles"
  },
  {
   "property": "C95",
   "status": "partial",
   "theorems": [
    "Verif.Lifetime.sizes_right_partial",
    "Verif.Lifetime.sizes_any",
    "Verif.Lifetime.sizes_swapped",
    "Verif.Lifetime.sizes_fail",
    "Verif.Lifetime.recv_right",
    "Verif.Lifetime.recv_fails",
    "Verif.Lifetime.recv_invents",
    "Verif.Lifetime.sizes_progress"
   ],
   "note": "false for the code: nSidesData dies at the end of the loop body while MPI may still read it (sizes_any, sizes_swapped, sizes_fail are witnesses); sizes_right_partial holds if MPI copies at the call, or freed memory is not used before the wait, or the vectors are kept until then"
  },
  {
   "property": "C96",
   "status": "proved",
   "theorems": [
    "Verif.Rounding.cell_residual",
    "Verif.Rounding.rsolve_some",
    "Verif.Rounding.rgauss_residual",
    "Verif.Rounding.none_singular",
    "Verif.Rounding.rowDefect_zero",
    "Verif.Rounding.rsolve_id"
   ],
   "note": "GaussElim_Original; relative error u per operation, no overflow, underflow or contraction; the areas are the signed ones the machine has (C97 compares with the exact ones)"
  },
  {
   "property": "C97",
   "status": "proved",
   "theorems": [
    "Verif.Rounding.machine_near",
    "Verif.Rounding.machine_error",
    "Verif.Rounding.machine_sweep",
    "Verif.Rounding.cell_near",
    "Verif.Rounding.cell_machine",
    "Verif.Rounding.near_solves",
    "Verif.Rounding.near_error",
    "Verif.TychoMesh.dg_energy",
    "Verif.TychoMesh.dg_bound"
   ],
   "note": "energy norm weighted with the total cross section; relative error u per operation, no overflow, underflow or contraction; bound in terms of the largest computed flux and source"
  },
  {
   "property": "C98",
   "status": "proved",
   "theorems": [
    "Verif.Rounding.machine_iterated",
    "Verif.Rounding.machine_program",
    "Verif.Rounding.source_near",
    "Verif.Rounding.rphi_near",
    "Verif.Rounding.rtotal_near",
    "Verif.Rounding.rhat_near",
    "Verif.Rounding.hat_fixed",
    "Verif.Rounding.near_scatter",
    "Verif.TychoMesh.scatter_bound"
   ],
   "note": "source iteration with the traversal; the change of the scalar flux is the exact sum over angles of the computed fluxes; quadrature, coordinates and cross sections taken as given"
  },
  {
   "property": "C99",
   "status": "proved",
   "theorems": [
    "Verif.Rounding.machine_stops",
    "Verif.Rounding.test_ends",
    "Verif.Rounding.total_near",
    "Verif.Rounding.Sums.near",
    "Verif.Rounding.fold_near"
   ],
   "note": "source iteration with the traversal; a computed scalar flux that is zero everywhere is excluded (the code then divides zero by zero)"
  },
  {
   "property": "C100",
   "status": "proved",
   "theorems": [
    "Verif.Rounding.machine_krylov",
    "Verif.Rounding.near_superposed",
    "Verif.Rounding.sources_of",
    "Verif.Rounding.rscatter_size"
   ],
   "note": "krylov with the traversal; the library is any function that returns a vector, and Res is the largest entry of the residual as the program would compute it before the last subtraction"
  },
  {
   "property": "C101",
   "status": "partial",
   "theorems": [
    "Verif.Schedule.levels_read_partial",
    "Verif.Schedule.levels_read_iff",
    "Verif.Schedule.sweeper_levels_iff",
    "Verif.Schedule.groups_have_angles",
    "Verif.Schedule.idle_group_witness",
    "Verif.Schedule.empty_rank_witness"
   ],
   "note": "levels_read_partial holds when the group has an angle and every rank a cell; sweeper_levels_iff says that these are the conditions; idle_group_witness and empty_rank_witness are the witnesses against the full statement"
  },
  {
   "property": "C102",
   "status": "proved",
   "theorems": [
    "Verif.Floating.jacobi_cells",
    "Verif.Floating.jacobi_bitwise",
    "Verif.Floating.jacobi_enough",
    "Verif.Floating.jacobi_stationary",
    "Verif.Floating.jacobi_strict",
    "Verif.Floating.jacobi_ends",
    "Verif.Floating.jacobi_iterated",
    "Verif.Floating.jacobi_output",
    "Verif.Floating.crossings_lt",
    "Verif.Floating.exchange_value",
    "Verif.Floating.packet_counts",
    "Verif.Floating.jacobi_returns",
    "Verif.Floating.jacobi_length"
   ],
   "note": "the exchange is taken as its effect, messages being unpacked in any order; its calls are C37. That every inner loop makes enough local sweeps holds with a tolerance that is never met (jacobi_length: a limit of N makes N - 1)"
  },
  {
   "property": "C103",
   "status": "proved",
   "theorems": [
    "Verif.Loops.loops_race_free",
    "Verif.Loops.loops_in_bounds",
    "Verif.Loops.loops_end",
    "Verif.Loops.loops_go_on",
    "Verif.Loops.psiToPhi_any",
    "Verif.Loops.phiToPsi_any",
    "Verif.Loops.calcTotalSource_any",
    "Verif.Loops.psiToPhi_kernel",
    "Verif.Loops.totalSource_kernel"
   ],
   "note": "an assignment loads its operands from left to right and stores; a compiler that keeps an entry in a register makes fewer accesses"
  },
  {
   "property": "C104",
   "status": "proved",
   "theorems": [
    "Verif.Floating.blocks_iterates",
    "Verif.Floating.iterates_unique",
    "Verif.Floating.blocks_repeat",
    "Verif.Floating.blocks_deterministic",
    "Verif.Floating.blocks_fixed",
    "Verif.Floating.blocks_stay",
    "Verif.Floating.blocks_last",
    "Verif.Floating.blocks_length",
    "Verif.Floating.blocks_tested",
    "Verif.Floating.blocks_strict",
    "Verif.Floating.blocks_ends",
    "Verif.Floating.blocks_returns",
    "Verif.Floating.blocks_settle"
   ],
   "note": "in blocks_deterministic both runs load the same files; the lists of messages may arrive in any order"
  },
  {
   "property": "C105",
   "status": "proved",
   "theorems": [
    "Verif.Floating.outer_iterates",
    "Verif.Floating.outer_unique",
    "Verif.Floating.outer_repeat",
    "Verif.Floating.outer_deterministic",
    "Verif.Floating.outer_fixed",
    "Verif.Floating.outer_stay",
    "Verif.Floating.outer_length",
    "Verif.Floating.outer_strict",
    "Verif.Floating.outer_ends",
    "Verif.Floating.inner_strict",
    "Verif.Floating.inner_ends",
    "Verif.Floating.outer_returns",
    "Verif.Floating.outer_settle"
   ],
   "note": "source iteration only; the Krylov solver inside PBJ-Outer is not covered here; in outer_deterministic both runs load the same files"
  },
  {
   "property": "C106",
   "status": "proved",
   "theorems": [
    "Verif.Rounding.machine_blocks",
    "Verif.Rounding.machine_outer",
    "Verif.Rounding.machine_settled",
    "Verif.Rounding.machine_settled_outer"
   ],
   "note": "source iteration only; relative error u per operation, no overflow, underflow or contraction; shapes and sizes limited as in C98"
  },
  {
   "property": "C107",
   "status": "partial",
   "theorems": [
    "Verif.Floating.stops_within_partial",
    "Verif.Floating.fixedPoint_bad",
    "Verif.Floating.downwind_bad",
    "Verif.Floating.blocks_bad",
    "Verif.Floating.outer_bad",
    "Verif.Rounding.nan_stops",
    "Verif.Rounding.nan_fixedPoint",
    "Verif.Rounding.nan_spreads",
    "Verif.Rounding.nan_flows",
    "Verif.Rounding.nanTest_spreads",
    "Verif.Rounding.nanStop_spreads",
    "Verif.Rounding.nhat_iff",
    "Verif.Rounding.nsolve_nums",
    "Verif.Rounding.nphi_nums",
    "Verif.Rounding.ntotal_nums"
   ],
   "note": "holds where the last error is a number; the code violates it where the source is not one (nan_stops); infinities are not told apart from values that are not numbers"
  },
  {
   "property": "C108",
   "status": "partial",
   "theorems": [
    "Verif.Domain.pack_defined_partial",
    "Verif.Domain.pack_overflow",
    "Verif.Domain.pack_violated",
    "Verif.Domain.size_entering"
   ],
   "note": "holds for ranks with fewer than 2^31 entries; the code violates it from there on (pack_violated)"
  },
  {
   "property": "C109",
   "status": "partial",
   "theorems": [
    "Verif.TychoMesh.wait_partial",
    "Verif.TychoMesh.wait_iff",
    "Verif.TychoMesh.wait_serial",
    "Verif.TychoMesh.wait_violated",
    "Verif.TychoMesh.mem_sends"
   ],
   "note": "holds on ranks with a neighbour; on any other rank, so on every run with one rank, the code refers to an element of an empty vector (wait_serial, wait_violated)"
  },
  {
   "property": "C110",
   "status": "partial",
   "theorems": [
    "Verif.Schedule.waitStep_partial",
    "Verif.Schedule.waitStep_iff",
    "Verif.Schedule.last_silent",
    "Verif.Schedule.wait_last",
    "Verif.Schedule.waitStep_violated"
   ],
   "note": "holds in steps that send; the last step of every sweep along schedules of an acyclic mesh sends nothing, and there the code refers to an element of an empty vector (wait_last, waitStep_violated)"
  }
 ]
}