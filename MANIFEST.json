{
 "claims": [
  {
   "property": "C01",
   "status": "proved",
   "theorems": [
    "Verif.C01_downSet",
    "Verif.C01_downSet_nodup",
    "Verif.C01_downSet_length"
   ],
   "note": "Exact membership, ascending order and count of getDownSet for every level vector."
  },
  {
   "property": "C02",
   "status": "proved",
   "theorems": [
    "Verif.C02_truncated_mem",
    "Verif.C02_truncated_sorted",
    "Verif.C02_truncated_below_diagonal",
    "Verif.C02_truncated_down_closed"
   ],
   "note": "Membership characterised both by the excess formula and by lying below a grid on the finest diagonal; sorted; down closed."
  },
  {
   "property": "C03",
   "status": "proved",
   "theorems": [
    "Verif.C03_classical_consistent",
    "Verif.C03_classical_grids",
    "Verif.C03_classical_diagonals",
    "Verif.C03_classical_consistent_fixed"
   ],
   "note": "Any dimension; whenever the coefficient loop terminates (C05)."
  },
  {
   "property": "C04",
   "status": "partial",
   "theorems": [
    "Verif.C04_fixed_dims_violated",
    "Verif.C04_fixed_dims_partial",
    "Verif.C04_insertOk_prefix"
   ],
   "note": "Violated: re-insertion uses lmax[i] instead of lmax[dummyDims[i]]. Holds when the fixed dimensions come first."
  },
  {
   "property": "C05",
   "status": "partial",
   "theorems": [
    "Verif.C05_coefficients_terminate_violated",
    "Verif.C05_coefficients_terminate_partial"
   ],
   "note": "Violated for >= 256 grids (8-bit loop counter); proved below."
  },
  {
   "property": "C06",
   "status": "proved",
   "theorems": [
    "Verif.C06_adaptive_coefficients",
    "Verif.C06_adaptive_consistent",
    "Verif.C06_createAdaptive_consistent_set",
    "Verif.C06_createAdaptive_consistent"
   ],
   "note": ""
  },
  {
   "property": "C07",
   "status": "partial",
   "theorems": [
    "Verif.C07_makeFaultTolerant_neutral",
    "Verif.C07_extra_new_partial",
    "Verif.C07_adaptive_duplicates_violated"
   ],
   "note": "Combined value unchanged always; 'only new grids' violated for anisotropic adaptive schemes, proved for classical schemes."
  },
  {
   "property": "C08",
   "status": "proved",
   "theorems": [
    "Verif.C08_assigned",
    "Verif.C08_round_robin",
    "Verif.C08_round_robin_unique",
    "Verif.C08_load_balanced_unique",
    "Verif.C08_load_balanced_bound"
   ],
   "note": "Any number of grids and groups; the load bound holds for any sort order."
  },
  {
   "property": "C09",
   "status": "partial",
   "theorems": [
    "Verif.C09_decomposition_partial",
    "Verif.C09_createThirdLevelScheme_partial",
    "Verif.C09_accepted_partial",
    "Verif.C09_decomposition_tolerance_violated"
   ],
   "note": "Exact arithmetic. Proved for fractions that add up to one, and up to 500 grids for all fractions that pass the check; violated from 501 grids on by fractions within the tolerance of the check."
  },
  {
   "property": "C10",
   "status": "partial",
   "theorems": [
    "Verif.C10_hypercube_partial",
    "Verif.C10_hypercube_violated"
   ],
   "note": "Holds exactly for corners that are isotropic or have an entry smaller than the first; for all other corners the generator provably never returns the corner (isFinished compares with entry 0)."
  },
  {
   "property": "C100",
   "status": "partial",
   "theorems": [
    "Verif.C100_manager_partial",
    "Verif.C100_unchanged_partial",
    "Verif.C100_singleFile_partial",
    "Verif.C100_perGrid_partial",
    "Verif.C100_noCoordinates_violated",
    "Verif.C100_noPrefix_violated",
    "Verif.C100_lastGroup_violated",
    "Verif.C100_history_violated"
   ],
   "note": "Values proved for all layouts; files of tasks do not keep earlier steps (violated), and empty prefixes, empty coordinate lists and a last group without tasks are violations. Exact arithmetic, one grid per task, without the right end of periodic dimensions (C56)."
  },
  {
   "property": "C101",
   "status": "partial",
   "theorems": [
    "Verif.SchemeFile.C101_read",
    "Verif.SchemeFile.C101_accepted",
    "Verif.SchemeFile.C101_assigned_partial",
    "Verif.SchemeFile.C101_balanced",
    "Verif.SchemeFile.C101_generated",
    "Verif.SchemeFile.C101_counted",
    "Verif.SchemeFile.C101_script",
    "Verif.SchemeFile.C101_moreGroups_violated",
    "Verif.SchemeFile.C101_noGrid_violated"
   ],
   "note": "Every grid is run by exactly one group if the group numbers of the file are those of the groups that run; a file for more groups loses grids (violation proved). The text of the JSON file is not modelled."
  },
  {
   "property": "C102",
   "status": "partial",
   "theorems": [
    "Verif.C102_same_as_one_system_partial",
    "Verif.C102_samples_unchanged_partial",
    "Verif.C102_combine_twice_partial",
    "Verif.C102_violated"
   ],
   "note": "Proved for the variants and exchanges in which C85-C87 hold (ExchangeUsable); the outgroup variant over the third-level manager violates it (C102_violated)."
  },
  {
   "property": "C103",
   "status": "partial",
   "theorems": [
    "Verif.C103_history_partial",
    "Verif.C103_exact_partial"
   ],
   "note": "Two systems over the third-level manager in all interleavings; variant sparseGridReduce only (C86_violated, C102_violated show why), sums of sizes in the range of int, one grid per task, no moves of tasks."
  },
  {
   "property": "C104",
   "status": "partial",
   "theorems": [
    "Verif.FaultMessages.C104_schedule_partial",
    "Verif.FaultMessages.C104_order_partial",
    "Verif.FaultMessages.C104_violated_probe",
    "Verif.FaultMessages.C104_violated_plain_send",
    "Verif.FaultMessages.C104_violated_killed",
    "Verif.FaultMessages.C104_violated_collective"
   ],
   "note": "Proved for one communicator that is not revoked, without MPI_ANY_SOURCE, processes killed between calls, and blocking calls towards killed processes. Violated by Probe, by Wait on collective requests, by Wait for messages sent without the fault simulator (as the process manager does with ENABLE_FT), and by processes killed after posting a receive."
  },
  {
   "property": "C105",
   "status": "partial",
   "theorems": [
    "Verif.FaultHistory.C105_history_partial",
    "Verif.FaultHistory.C105_ignored",
    "Verif.FaultHistory.C105_recomputed",
    "Verif.FaultHistory.C105_redistributed",
    "Verif.FaultHistory.C105_violated",
    "Verif.FaultHistory.C105_violated_refill",
    "Verif.FaultHistory.C105_violated_first_run"
   ],
   "note": "Holds for every history of faults as long as no coefficient changes (reduction of the whole sparse grid, no reduced levels). New coefficients are sent but never used by the combination; faults in the first run are not handled."
  },
  {
   "property": "C106",
   "status": "partial",
   "theorems": [
    "Verif.Threads.C106_extract",
    "Verif.Threads.C106_add",
    "Verif.Threads.C106_poles",
    "Verif.Threads.C106_hierarchize",
    "Verif.Threads.C106_dehierarchize",
    "Verif.Threads.C106_blocks",
    "Verif.Threads.C106_order_violated",
    "Verif.Threads.C106_register_partial",
    "Verif.Threads.C106_register_violated",
    "Verif.Threads.C106_maxReduce_violated"
   ],
   "note": "All loops but the registration: proved for every number of threads and every interleaving, adding and extracting for threads whose subspaces ascend (counterexample otherwise). The first registration is a data race, as is maxReduceSubspaceSizes. Missing: reductions of counters and norms, the loops of the interpolation."
  },
  {
   "property": "C107",
   "status": "proved",
   "theorems": [
    "Verif.ThreadReduce.C107_reduce",
    "Verif.ThreadReduce.C107_combination",
    "Verif.ThreadReduce.C107_order_violated"
   ],
   "note": "For schedules that hand out the communicators in order, as the statement says; other orders, which OpenMP 5.0 allows, can deadlock (C107_order_violated). Exact arithmetic, MPI_Allreduce as in C34."
  },
  {
   "property": "C108",
   "status": "partial",
   "theorems": [
    "Verif.C108_sizes",
    "Verif.C108_all_systems_partial",
    "Verif.C108_combined_partial",
    "Verif.C108_same_file",
    "Verif.C108_four_systems_violated",
    "Verif.C108_assertion_violated"
   ],
   "note": "partial: as C85, groups of a system share subspaces and two systems share a subspace with points on the process; violated for four systems (tool reads three schemes) and, with assertions, if the output group holds fewer points than the file."
  },
  {
   "property": "C109",
   "status": "partial",
   "theorems": [
    "Verif.Advection.C109_time_steps",
    "Verif.Advection.C109_initial",
    "Verif.Advection.C109_mass",
    "Verif.Advection.C109_maximum_principle",
    "Verif.Advection.C109_tasks_partial",
    "Verif.Advection.C109_removed_violated",
    "Verif.Advection.C109_moved_time_violated"
   ],
   "note": "Time steps, initial values, conservation and bounds hold for every decomposition in which every process has points. Running a task after another one was removed is undefined, and the time of moved tasks is lost."
  },
  {
   "property": "C11",
   "status": "proved",
   "theorems": [
    "Verif.C11_bijection",
    "Verif.C11_column_major",
    "Verif.C11_size"
   ],
   "note": "index arithmetic in N; overflow of int32 not modelled"
  },
  {
   "property": "C110",
   "status": "partial",
   "theorems": [
    "Verif.VtkFile.C110_values",
    "Verif.VtkFile.C110_files",
    "Verif.VtkFile.C110_coords_partial",
    "Verif.VtkFile.C110_coords_iff",
    "Verif.VtkFile.C110_coords_violated",
    "Verif.VtkFile.C110_dimensions_violated"
   ],
   "note": "Values, extents and file names are right in one to three dimensions with non-empty parts; the coordinates only for two boundary points in every dimension, and nothing is written for four dimensions or other types than double (code violates)."
  },
  {
   "property": "C111",
   "status": "partial",
   "theorems": [
    "Verif.C111_mass_partial",
    "Verif.C111_systems_partial",
    "Verif.C111_hat_violated",
    "Verif.C111_lmin_violated",
    "Verif.C111_not_hierarchized_violated"
   ],
   "note": "Exact arithmetic; levels up to 28; layouts, variants and exchanges for which C92 and C102 hold. The violated theorems show that the conditions on bases, minimum levels and dimensions that are not hierarchized are needed."
  },
  {
   "property": "C112",
   "status": "proved",
   "theorems": [
    "Verif.C112_hierarchize",
    "Verif.C112_roundtrip",
    "Verif.C112_exact"
   ],
   "note": "Hat functions on one process; every addition and subtraction rounded with relative error at most u, no over- or underflow. Mass-conserving bases are outside the statement; distributed dimensions are in C113."
  },
  {
   "property": "C113",
   "status": "proved",
   "theorems": [
    "Verif.C113_hierarchize",
    "Verif.C113_dehierarchize",
    "Verif.C113_same_on_all_distributions",
    "Verif.C113_exact",
    "Verif.C113_rounding_error",
    "Verif.C113_roundtrip_error"
   ],
   "note": "Conditions as in C91: decompositions with non-empty parts; hat functions up to level 29, the other bases up to level 28. Arithmetic: every expression of a kernel is a function of its operands, the same at all points; no NaNs or infinities."
  },
  {
   "property": "C114",
   "status": "partial",
   "theorems": [
    "Verif.C114_combine_partial",
    "Verif.C114_exact"
   ],
   "note": "Variant sparseGridReduce with hat functions; dimensions that are not hierarchized have the same level in all tasks, and the minimum level does not exceed the levels of the tasks. Missing: the other variants, mass-conserving bases, complex numbers, underflow."
  },
  {
   "property": "C115",
   "status": "partial",
   "theorems": [
    "Verif.Advection.C115_values_partial",
    "Verif.Advection.C115_mass_partial",
    "Verif.Advection.C115_hat_violated",
    "Verif.Advection.C115_time_violated"
   ],
   "note": "Values and mass proved for all lengths of the simulation, without empty parts and with sizes in the range of int. Mass needs bases that conserve mass (violated with hat functions). The printed time is violated in the loop and right at the end."
  },
  {
   "property": "C116",
   "status": "partial",
   "theorems": [
    "Verif.Selalib.C116_parameters",
    "Verif.Selalib.C116_template",
    "Verif.Selalib.C116_manager",
    "Verif.Selalib.C116_workers",
    "Verif.Selalib.C116_restart",
    "Verif.Selalib.C116_restart_missing",
    "Verif.Selalib.C116_restart_workers_partial",
    "Verif.Selalib.C116_restart_violated",
    "Verif.Selalib.C116_fullgrid_partial",
    "Verif.Selalib.C116_resolution_violated",
    "Verif.Selalib.C116_dt_partial",
    "Verif.Selalib.C116_dt_violated",
    "Verif.Selalib.C116_diagnostics_partial",
    "Verif.Selalib.C116_time_partial",
    "Verif.Selalib.C116_header_violated",
    "Verif.Selalib.C116_lines_violated",
    "Verif.Selalib.C116_diagnostics_missing",
    "Verif.Selalib.C116_prefix_violated"
   ],
   "note": "Parameter files and tasks of both programs proved. Violated: restart without manager and with several groups, full grid with given resolution, step sizes with more than six decimals, diagnostics with lines without numbers or files of different length. Selalib itself and the other files are not modelled."
  },
  {
   "property": "C12",
   "status": "proved",
   "theorems": [
    "Verif.C12_unique_owner",
    "Verif.C12_neighbor_lookup",
    "Verif.C12_partition_coords",
    "Verif.C12_sizes_add_up",
    "Verif.C12_degrees_of_freedom",
    "Verif.C12_default_decomposition",
    "Verif.C12_ranks"
   ],
   "note": ""
  },
  {
   "property": "C13",
   "status": "partial",
   "theorems": [
    "Verif.C13_local_to_global",
    "Verif.C13_global_to_local_violated",
    "Verif.C13_global_to_local_partial",
    "Verif.C13_one_distributed_dim"
   ],
   "note": "the forward map is proved; the backward map is violated by the code, proved for the cases where it is right"
  },
  {
   "property": "C14",
   "status": "proved",
   "theorems": [
    "Verif.C14_level",
    "Verif.C14_level_pos",
    "Verif.C14_indices",
    "Verif.C14_counts"
   ],
   "note": ""
  },
  {
   "property": "C15",
   "status": "proved",
   "theorems": [
    "Verif.C15_left_predecessor",
    "Verif.C15_right_predecessor"
   ],
   "note": ""
  },
  {
   "property": "C16",
   "status": "proved",
   "theorems": [
    "Verif.C16_downsample",
    "Verif.C16_refIndex_same_point"
   ],
   "note": ""
  },
  {
   "property": "C17",
   "status": "partial",
   "theorems": [
    "Verif.C17_tiling_partial",
    "Verif.C17_offset_overflow_violated"
   ],
   "note": "total size below 2^32 needed: the running offset is a uint32 and wraps"
  },
  {
   "property": "C18",
   "status": "partial",
   "theorems": [
    "Verif.C18_combine_partial"
   ],
   "note": "Total size below 2^32. Points of subspaces that the sparse grid does not have stay unchanged; the first subspace of the sparse grid must not come after those of the grids (look-ups with iterators as positions, C20)."
  },
  {
   "property": "C19",
   "status": "proved",
   "theorems": [
    "Verif.C19_enumeration",
    "Verif.C19_partition",
    "Verif.C19_consistent"
   ],
   "note": ""
  },
  {
   "property": "C20",
   "status": "partial",
   "theorems": [
    "Verif.C20_fresh_search",
    "Verif.C20_hint_partial",
    "Verif.C20_hint_after_miss_violated",
    "Verif.C20_positions_partial"
   ],
   "note": "Formally violated: after a miss the next search starts one before the beginning. With iterators as positions, as in the common standard libraries, all ascending look-ups are right, provided no query comes before the first subspace."
  },
  {
   "property": "C21",
   "status": "partial",
   "theorems": [
    "Verif.C21_minimum",
    "Verif.C21_maximum_partial",
    "Verif.C21_maximum_violated"
   ],
   "note": "maximum starts from the smallest positive double, wrong when all values are below it"
  },
  {
   "property": "C22",
   "status": "proved",
   "theorems": [
    "Verif.C22_same_calls",
    "Verif.C22_communicators",
    "Verif.C22_too_many_ranks"
   ],
   "note": ""
  },
  {
   "property": "C23",
   "status": "proved",
   "theorems": [
    "Verif.C23_hat_invertible"
   ],
   "note": "one pole held by one process, exact arithmetic, levels up to 29 (the constructor limit); distributed poles are covered by C28"
  },
  {
   "property": "C24",
   "status": "proved",
   "theorems": [
    "Verif.C24_hat_surplus",
    "Verif.C24_linear"
   ],
   "note": "exact arithmetic"
  },
  {
   "property": "C25",
   "status": "partial",
   "theorems": [
    "Verif.C25_mass_invertible_partial",
    "Verif.C25_level29_violated",
    "Verif.C25_one_sided_violated"
   ],
   "note": "holds for levels <= 28 with both boundary points or a periodic basis; violated at level 29 (power-of-two table entry is 0) and for non-periodic bases with a one-sided boundary"
  },
  {
   "property": "C26",
   "status": "partial",
   "theorems": [
    "Verif.C26_mass_conserved_partial",
    "Verif.C26_truncation_partial",
    "Verif.C26_one_sided_violated"
   ],
   "note": "holds for levels <= 28 with both boundary points or a periodic basis; violated for non-periodic bases with one-sided boundary"
  },
  {
   "property": "C27",
   "status": "partial",
   "theorems": [
    "Verif.C27_violated",
    "Verif.C27_dispatch_partial"
   ],
   "note": "violated: BiorthogonalBasisFunction dispatches to the full weighting kernels; proved for all other bases"
  },
  {
   "property": "C28",
   "status": "proved",
   "theorems": [
    "Verif.C28_hierarchize_hat",
    "Verif.C28_dehierarchize_hat",
    "Verif.C28_mass_conserving",
    "Verif.C28_no_boundary_lmin_violated"
   ],
   "note": "Hat functions for all boundary flags, levels up to 29 and decompositions including empty parts; also the other bases up to level 28. On grids without boundary lmin = 0 is needed, which the code asserts; without it the result depends on stale data (witness)."
  },
  {
   "property": "C29",
   "status": "proved",
   "theorems": [
    "Verif.C29_hierarchization_matched",
    "Verif.C29_dehierarchization_matched",
    "Verif.C29_all_matched"
   ],
   "note": "All three exchange functions, every level up to 29, boundary flag, minimum level and decomposition. Equality of the index sets gives equal sizes. exchangeAllData1d enters empty partitions as partners with an empty set (undefined behaviour in sendAndReceiveIndicesBlock), see the example."
  },
  {
   "property": "C30",
   "status": "proved",
   "theorems": [
    "Verif.C30_order_independent",
    "Verif.C30_same_order_restores",
    "Verif.C30_hierarchize_any_order",
    "Verif.C30_roundtrip"
   ],
   "note": "For arbitrary linear transforms of the poles and, as a corollary, for the modelled kernels; round trip for invertible dimensions (C23, C25)."
  },
  {
   "property": "C31",
   "status": "proved",
   "theorems": [
    "Verif.C31_calls",
    "Verif.C31_allreduce",
    "Verif.C31_reduce"
   ],
   "note": "Chunked in-place reductions of any chunk size tile the raw data: same sum as one unchunked call; on the root only for reduce."
  },
  {
   "property": "C32",
   "status": "partial",
   "theorems": [
    "Verif.C32_chunk_size_partial",
    "Verif.C32_no_limit_partial",
    "Verif.C32_violated",
    "Verif.C32_violated_values"
   ],
   "note": "Violated by the code: the product is computed in size_t and converted to int, so chunk sizes of 2^31 elements and more wrap. Proved exact below that; negation with concrete witnesses."
  },
  {
   "property": "C33",
   "status": "partial",
   "theorems": [
    "Verif.C33_chunks_partial",
    "Verif.C33_same_chunks",
    "Verif.C33_chunks_stable",
    "Verif.C33_violated"
   ],
   "note": "For subspace sizes below 2^31 and limits up to 2^31: chunks partition the subspaces in order, each below the limit or a single subspace. Violated without that: sizes wrap in 32 bits."
  },
  {
   "property": "C34",
   "status": "partial",
   "theorems": [
    "Verif.C34_variants_agree_partial",
    "Verif.C34_outgroup_partial",
    "Verif.C34_subspaceReduce",
    "Verif.C34_sparseGridReduce",
    "Verif.C34_violated"
   ],
   "note": "All four variants (from registration over communicator setup to extraction) give the combination formula at every point, for any chunk sizes; hypotheses: sizes in int range, and for the outgroup variants that all or no groups share subspaces on the process. Negation without the latter: the collective calls do not match."
  },
  {
   "property": "C35",
   "status": "partial",
   "theorems": [
    "Verif.C35_round_trip_partial",
    "Verif.C35_error",
    "Verif.C35_data_partial",
    "Verif.C35_violated"
   ],
   "note": "Round trip and error for every order of writing; needs fewer than 2^31 values per process and no longer file of the same name that is not replaced (refuted otherwise)."
  },
  {
   "property": "C36",
   "status": "partial",
   "theorems": [
    "Verif.C36_partial",
    "Verif.C36_two_files_partial",
    "Verif.C36_written_partial",
    "Verif.C36_ok_iff",
    "Verif.C36_error",
    "Verif.C36_multiple_error",
    "Verif.C36_violated"
   ],
   "note": "Each value combined exactly once; the processes finish exactly if all need the same number of passes, otherwise the collective reads do not match. Bad files and negative buffer sizes are errors."
  },
  {
   "property": "C37",
   "status": "partial",
   "theorems": [
    "Verif.C37_other_parts_partial",
    "Verif.C37_same_digits_partial",
    "Verif.C37_removes",
    "Verif.C37_violated"
   ],
   "note": "Refuted: part 1 deletes the files of part 10. Holds if the decimal part number is not a prefix of the other one."
  },
  {
   "property": "C38",
   "status": "partial",
   "theorems": [
    "Verif.C38_output_group",
    "Verif.C38_file_parts_partial",
    "Verif.C38_violated"
   ],
   "note": "Output group proved in full; even split into file parts only if the number of parts divides the number of processes, refuted otherwise."
  },
  {
   "property": "C39",
   "status": "proved",
   "theorems": [
    "Verif.C39_communicators",
    "Verif.C39_masters",
    "Verif.C39_third_level"
   ],
   "note": "Local, reduce, master and third-level communicators for all sizes."
  },
  {
   "property": "C40",
   "status": "partial",
   "theorems": [
    "Verif.GroupStatus.C40_wait_means_idle_partial",
    "Verif.GroupStatus.C40_guarded_functions_partial",
    "Verif.GroupStatus.C40_checked_functions_partial",
    "Verif.GroupStatus.C40_status_arrives",
    "Verif.GroupStatus.C40_diagnostics_violated",
    "Verif.GroupStatus.C40_run_after_diagnostics_violated",
    "Verif.GroupStatus.C40_interpolate_twice_violated",
    "Verif.GroupStatus.C40_write_twice_violated"
   ],
   "note": "Holds for all functions except the diagnostics; with NDEBUG the calls whose waiting is inside an assertion are excluded. Violations are proved with witnesses."
  },
  {
   "property": "C41",
   "status": "partial",
   "theorems": [
    "Verif.TaskLists.C41_tasks_kept_partial",
    "Verif.TaskLists.C41_runfirst",
    "Verif.TaskLists.C41_exactly_one",
    "Verif.TaskLists.C41_reschedule_total",
    "Verif.TaskLists.C41_reschedule_failed_violated"
   ],
   "note": "Holds for every history of runs, reschedules without failed groups, and recoveries. Rescheduling to a failed group loses the task."
  },
  {
   "property": "C42",
   "status": "partial",
   "theorems": [
    "Verif.Reschedule.C42_moves_partial",
    "Verif.Reschedule.C42_no_failure",
    "Verif.Reschedule.C42_own_group_violated",
    "Verif.Reschedule.C42_idle_group_ignored",
    "Verif.Reschedule.C42_zero_average_violated"
   ],
   "note": "Rational numbers instead of floating point. A task may be moved to its own group, proved with a witness."
  },
  {
   "property": "C43",
   "status": "partial",
   "theorems": [
    "Verif.C43_partial",
    "Verif.C43_only_leftToRight",
    "Verif.C43_violated",
    "Verif.C43_synchronous_deadlock"
   ],
   "note": "Right for left-to-right evaluation of the arguments, and for all orders with one file name; with several different names right only from left to right. Violated for the reverse order."
  },
  {
   "property": "C44",
   "status": "partial",
   "theorems": [
    "Verif.C44_messages_partial",
    "Verif.C44_violated"
   ],
   "note": "All segmentations and message contents; messages of 2^31 bytes and more are rejected by std::stoi."
  },
  {
   "property": "C45",
   "status": "partial",
   "theorems": [
    "Verif.C45_store_partial",
    "Verif.C45_reduce_partial",
    "Verif.C45_violated"
   ],
   "note": "Holds if no segment is shorter than sizeof-1 bytes; refuted for segments of 3 and 2 bytes and 8-byte elements."
  },
  {
   "property": "C46",
   "status": "partial",
   "theorems": [
    "Verif.C46_undefined",
    "Verif.C46_violated"
   ],
   "note": "Refuted for every value: the byte behind the value is read."
  },
  {
   "property": "C47",
   "status": "proved",
   "theorems": [
    "Verif.C47_forward",
    "Verif.C47_early_end"
   ],
   "note": "All chunk sizes, segmentations and streams."
  },
  {
   "property": "C48",
   "status": "partial",
   "theorems": [
    "Verif.C48_partial",
    "Verif.C48_violated",
    "Verif.C48_violated_empty"
   ],
   "note": "All interleavings, arrival orders and channel capacities, any sequence of operations; one grid per task. More grids and empty grids fail in the code (proved)."
  },
  {
   "property": "C49",
   "status": "partial",
   "theorems": [
    "Verif.C49_partial",
    "Verif.C49_violated",
    "Verif.C49_files_two",
    "Verif.C49_files_three",
    "Verif.C49_files_violated"
   ],
   "note": "Socket and file variants. Sums of 2^31 and more make the code throw (proved)."
  },
  {
   "property": "C50",
   "status": "partial",
   "theorems": [
    "Verif.C50_received_partial",
    "Verif.C50_agree_partial",
    "Verif.C50_setCoeff_value",
    "Verif.C50_violated_worker",
    "Verif.C50_violated_same_level",
    "Verif.C50_violated_new_level"
   ],
   "note": "Everything but the two maps with levels as keys arrives; lookups by number and level agree on the manager after any updates that keep levels distinct and fixed. Violated on workers, for equal levels, for changed levels."
  },
  {
   "property": "C51",
   "status": "partial",
   "theorems": [
    "Verif.Faults.C51_reproduces",
    "Verif.Faults.C51_dictionary",
    "Verif.Faults.C51_failed_zero",
    "Verif.Faults.C51_consistent",
    "Verif.Faults.C51_gap",
    "Verif.Faults.C51_violated"
   ],
   "note": "All weights, all schemes between lmin and lmax. Failed grids below the two highest diagonals have no constraint (they are recomputed, C53). Without makeFaultTolerant needed levels are dropped."
  },
  {
   "property": "C52",
   "status": "proved",
   "theorems": [
    "Verif.Faults.C52_mindex",
    "Verif.Faults.C52_downset",
    "Verif.Faults.C52_downset_values",
    "Verif.Faults.C52_level_zero"
   ],
   "note": "lmin >= 1 as asserted by the constructor of the scheme; C52_level_zero shows what happens otherwise."
  },
  {
   "property": "C53",
   "status": "partial",
   "theorems": [
    "Verif.Faults.C53_partition_partial",
    "Verif.Faults.C53_violated"
   ],
   "note": "Holds if some fault is on the two highest diagonals, for every right solver; otherwise nothing happens to the faults."
  },
  {
   "property": "C54",
   "status": "proved",
   "theorems": [
    "Verif.C54_failNow",
    "Verif.C54_short_list"
   ],
   "note": "The configuration is a list of pairs, split into its components; lists of different lengths are read out of bounds."
  },
  {
   "property": "C55",
   "status": "proved",
   "theorems": [
    "Verif.C55_roundtrip",
    "Verif.C55_too_many_dims"
   ],
   "note": "Dimension between 1 and 255 (uint8_t)."
  },
  {
   "property": "C56",
   "status": "partial",
   "theorems": [
    "Verif.Interpolation.C56_interpolation_partial",
    "Verif.Interpolation.C56_grid_point",
    "Verif.Interpolation.C56_constant",
    "Verif.Interpolation.C56_interp_grid_point",
    "Verif.Interpolation.C56_interp_constant",
    "Verif.Interpolation.C56_violated"
   ],
   "note": "sum over all ranks equals the multilinear interpolant for every grid, decomposition and coordinate in [0,1] ([0,1) in periodic dimensions); at coordinate 1 of a periodic dimension the result is zero; rounding is not modelled"
  },
  {
   "property": "C57",
   "status": "proved",
   "theorems": [
    "Verif.C57_each_once",
    "Verif.C57_at_most_once"
   ],
   "note": "Every arrival schedule; termination if all tokens appear."
  },
  {
   "property": "C58",
   "status": "partial",
   "theorems": [
    "Verif.PartitionDOF.C58_sum_partial",
    "Verif.PartitionDOF.C58_sgDOF",
    "Verif.PartitionDOF.C58_violated"
   ],
   "note": "All level sets and decompositions, with two boundary points per dimension, which is the only case the code counts correctly."
  },
  {
   "property": "C59",
   "status": "partial",
   "theorems": [
    "Verif.C59_partial",
    "Verif.C59_accepts",
    "Verif.C59_violated"
   ],
   "note": "Levels up to 28. Violated at level 29, which the constructor accepts."
  },
  {
   "property": "C60",
   "status": "partial",
   "theorems": [
    "Verif.C60_partial",
    "Verif.C60_exactly_once",
    "Verif.C60_violated",
    "Verif.C60_violated_nested"
   ],
   "note": "Holds for clocks whose reading at a stop is later than at the end of the write before, with the assertion of stopEvent. Violated otherwise."
  },
  {
   "property": "C61",
   "status": "partial",
   "theorems": [
    "Verif.C61_concatenated_partial",
    "Verif.C61_consecutive_partial",
    "Verif.C61_violated"
   ],
   "note": "Rank order proved for both ways of writing; totals of 2^31 bytes overflow an int."
  },
  {
   "property": "C62",
   "status": "partial",
   "theorems": [
    "Verif.C62_adaptive_bounds",
    "Verif.C62_adaptive_reaches_lmax_violated",
    "Verif.C62_adaptive_reaches_lmax_partial",
    "Verif.C62_level_iff",
    "Verif.C62_empty_iff",
    "Verif.C62_empty_violated",
    "Verif.C62_reaches_iff",
    "Verif.C62_same_as_uniform"
   ],
   "note": "Bounds proved; exact description of the grids for all lmin, lmax: lmax is reached if and only if all differences are equal; violated otherwise, down to schemes without any grid."
  },
  {
   "property": "C63",
   "status": "partial",
   "theorems": [
    "Verif.C63_single_grid_violated",
    "Verif.C63_one_coefficient_per_grid_partial"
   ],
   "note": "Violated for lmin = lmax."
  },
  {
   "property": "C64",
   "status": "proved",
   "theorems": [
    "Verif.C64_createDownSet_complete"
   ],
   "note": "Adaptive schemes."
  },
  {
   "property": "C65",
   "status": "partial",
   "theorems": [
    "Verif.C65_kahan_memset_partial",
    "Verif.C65_kahan_memset_float_violated",
    "Verif.C65_kahan_memset_complex_violated"
   ],
   "note": "pointer size used instead of element size"
  },
  {
   "property": "C66",
   "status": "partial",
   "theorems": [
    "Verif.C66_outgroup_partial",
    "Verif.C66_sizes_agree",
    "Verif.C66_outgroup_violated"
   ],
   "note": "violated if a rank holds no shared subspace"
  },
  {
   "property": "C67",
   "status": "proved",
   "theorems": [
    "Verif.C67_monteCarlo"
   ],
   "note": "All interleavings and arrival orders; coordinates taken as one serialized list."
  },
  {
   "property": "C68",
   "status": "partial",
   "theorems": [
    "Verif.C68_partial",
    "Verif.C68_violated"
   ],
   "note": "Holds if every level of the scheme belongs to a task; otherwise task 0 gets a wrong coefficient."
  },
  {
   "property": "C69",
   "status": "partial",
   "theorems": [
    "Verif.PartitionDOF.C69_points_partial",
    "Verif.PartitionDOF.C69_violated"
   ],
   "note": "Holds unless a partition begins at the middle or the last point of the reference grid; then the code is wrong."
  },
  {
   "property": "C70",
   "status": "partial",
   "theorems": [
    "Verif.Serial.C70_same_as_distributed_partial",
    "Verif.Serial.C70_roundtrip_partial",
    "Verif.Serial.C70_twice",
    "Verif.Serial.C70_surplus_boundary",
    "Verif.Serial.C70_surplus_no_boundary",
    "Verif.Serial.C70_onesided_violated",
    "Verif.Serial.C70_onesided_2d_violated"
   ],
   "note": "Proved for dimensions with no or two boundary points and level >= 1; false for dimensions with one boundary point, with witnesses."
  },
  {
   "property": "C71",
   "status": "partial",
   "theorems": [
    "Verif.FullGridEval.C71_eval_partial",
    "Verif.FullGridEval.C71_hat_partial",
    "Verif.FullGridEval.C71_grid_point",
    "Verif.FullGridEval.C71_outside",
    "Verif.FullGridEval.C71_add_partial",
    "Verif.FullGridEval.C71_single_point_violated",
    "Verif.FullGridEval.C71_no_boundary_violated",
    "Verif.FullGridEval.C71_periodic_violated",
    "Verif.FullGridEval.C71_hierarchized"
   ],
   "note": "Proved unless a dimension with a single point that is not the last one has a coordinate right of the middle, where the code is wrong (witness); exact arithmetic instead of double."
  },
  {
   "property": "C72",
   "status": "proved",
   "theorems": [
    "Verif.FullGridEval.C72_level_index",
    "Verif.FullGridEval.C72_injective"
   ],
   "note": "For levels up to 28 (the table of powers of two) and boundary flags 0 to 2."
  },
  {
   "property": "C73",
   "status": "proved",
   "theorems": [
    "Verif.C73_agreeing_unchanged",
    "Verif.C73_idempotent",
    "Verif.C73_inconsistent_changes",
    "Verif.C73_classical",
    "Verif.C73_adaptive",
    "Verif.C73_combine_twice",
    "Verif.C73_samples_unchanged"
   ],
   "note": "Variants with one outgroup communicator need all or none of the groups to share subspaces, as in C34. Complete combinations with one process per group here; any layout in C92."
  },
  {
   "property": "C74",
   "status": "partial",
   "theorems": [
    "Verif.Interpolation.C74_interpolateValues_partial",
    "Verif.Interpolation.C74_exact_partial",
    "Verif.Interpolation.C74_classical_partial",
    "Verif.Interpolation.C74_violated"
   ],
   "note": "Missing: the right end of periodic dimensions, where the code gives zero (as in C56). Exact arithmetic; points on the first process of each dimension."
  },
  {
   "property": "C75",
   "status": "partial",
   "theorems": [
    "Verif.LoadModels.C75_average_partial",
    "Verif.LoadModels.C75_sum_violated",
    "Verif.LoadModels.C75_zero_violated",
    "Verif.LoadModels.C75_no_history_violated"
   ],
   "note": "Holds for n > 0 and sums below 2^31 microseconds; the code violates the claim otherwise (int accumulator, n = 0, evalSpecificUOT without history)."
  },
  {
   "property": "C76",
   "status": "proved",
   "theorems": [
    "Verif.LoadModels.C76_eval",
    "Verif.LoadModels.C76_files",
    "Verif.LoadModels.C76_restart"
   ],
   "note": "Files are lists of lines; file operations succeed."
  },
  {
   "property": "C77",
   "status": "partial",
   "theorems": [
    "Verif.GroupGrid.C77_gather",
    "Verif.GroupGrid.C77_plot_values",
    "Verif.GroupGrid.C77_corners",
    "Verif.GroupGrid.C77_empty_violated",
    "Verif.GroupGrid.C77_header_violated",
    "Verif.GroupGrid.C77_raw_slice_violated",
    "Verif.GroupGrid.C77_offset"
   ],
   "note": "Gathered values, file values and corners proved for all decompositions without empty parts; the header and the slice tool violate the last part of the claim, empty parts are erroneous MPI calls."
  },
  {
   "property": "C78",
   "status": "proved",
   "theorems": [
    "Verif.GroupGrid.C78_lower_to_upper",
    "Verif.GroupGrid.C78_ghost_layer",
    "Verif.GroupGrid.C78_ghost_layer_periodic"
   ],
   "note": "Sendrecv matched on all processes; two points in the dimension are needed for the copy (otherwise send and receive buffer overlap)."
  },
  {
   "property": "C79",
   "status": "partial",
   "theorems": [
    "Verif.GroupGrid.C79_max_norm",
    "Verif.GroupGrid.C79_l1_norm",
    "Verif.GroupGrid.C79_constant",
    "Verif.GroupGrid.C79_l2_violated",
    "Verif.GroupGrid.C79_combined_violated",
    "Verif.GroupGrid.C79_manager"
   ],
   "note": "p = 0 and p = 1 proved for every decomposition; p = 2 and the manager's claim are violated with witnesses, what the manager computes is proved."
  },
  {
   "property": "C80",
   "status": "partial",
   "theorems": [
    "Verif.Recovery.C80_init",
    "Verif.Recovery.C80_recover",
    "Verif.Recovery.C80_groups",
    "Verif.Recovery.C80_dead_spare_violated"
   ],
   "note": "Holds for deaths of processes in groups, any number, any order of messages, over any number of recoveries. Violated if a process in reserve dies (the manager waits forever). Deaths during the recovery are not modelled."
  },
  {
   "property": "C81",
   "status": "partial",
   "theorems": [
    "Verif.Compression.C81_written",
    "Verif.Compression.C81_no_wrong_data",
    "Verif.Compression.C81_round_trip_partial",
    "Verif.Compression.C81_empty_violated",
    "Verif.Compression.C81_reduce_partial",
    "Verif.Compression.C81_reduce_violated"
   ],
   "note": "Never wrong data from a written file; round trip if every process has values and LZ4 decompresses in one call; reduce right if the values fit into the buffer or the value size divides the buffer size. Violated for processes without values and for 16-byte values beyond the buffer."
  },
  {
   "property": "C82",
   "status": "partial",
   "theorems": [
    "Verif.FaultLayer.C82_tree",
    "Verif.FaultLayer.C82_broadcast",
    "Verif.FaultLayer.C82_reduce",
    "Verif.FaultLayer.C82_sync_partial",
    "Verif.FaultLayer.C82_started",
    "Verif.FaultLayer.C82_other_root_violated",
    "Verif.FaultLayer.C82_revoked_violated",
    "Verif.FaultLayer.C82_agree_violated"
   ],
   "note": "Proved for root 0 (the default), any size, any number of successors, any dead processes. Violated for other roots, for processes that synchronise while the communicator is revoked, and for MPI_Comm_agree."
  },
  {
   "property": "C83",
   "status": "partial",
   "theorems": [
    "Verif.SchemeGenerator.C83_uniform",
    "Verif.SchemeGenerator.C83_general_partial",
    "Verif.SchemeGenerator.C83_active",
    "Verif.SchemeGenerator.C83_order",
    "Verif.SchemeGenerator.C83_assign",
    "Verif.SchemeGenerator.C83_balanced",
    "Verif.SchemeGenerator.C83_not_uniform_violated",
    "Verif.SchemeGenerator.C83_no_grids_violated"
   ],
   "note": "Proved for equal level differences and for all level differences smaller than the dimension in the first component; the script violates it otherwise (C83_not_uniform_violated), and does not end if lmax is smaller than lmin somewhere (C83_no_grids_violated)."
  },
  {
   "property": "C84",
   "status": "proved",
   "theorems": [
    "Verif.C84_summation",
    "Verif.C84_combine",
    "Verif.C84_norm",
    "Verif.C84_interpolation"
   ],
   "note": "Rounding is modelled as an arbitrary relative error per operation, without overflow and underflow; the MPI reductions are not included."
  },
  {
   "property": "C85",
   "status": "partial",
   "theorems": [
    "Verif.C85_files_partial",
    "Verif.C85_violated"
   ],
   "note": "two or three systems, chunked variant; groups share subspaces and systems have common points on the process; C85_violated shows the exception otherwise"
  },
  {
   "property": "C86",
   "status": "partial",
   "theorems": [
    "Verif.C86_manager_partial",
    "Verif.C86_files_partial",
    "Verif.C86_violated"
   ],
   "note": "sparseGridReduce, two systems over the manager or two or three through files; C86_violated shows that outgroupSparseGridReduce over the manager leaves subspaces uncombined"
  },
  {
   "property": "C87",
   "status": "partial",
   "theorems": [
    "Verif.C87_files_partial"
   ],
   "note": "two or three systems; groups share subspaces and systems have common points on the process, as in C85"
  },
  {
   "property": "C88",
   "status": "partial",
   "theorems": [
    "Verif.C88_history_partial",
    "Verif.C88_violated",
    "Verif.C88_run_violated",
    "Verif.combineVariant_eq_setUp"
   ],
   "note": "Moving tasks is right only with sparseGridReduce, before the next run and if the sparse grid has all subspaces of the task (C97); the other cases are violated with concrete histories."
  },
  {
   "property": "C89",
   "status": "partial",
   "theorems": [
    "Verif.FaultSchedule.C89_configured_partial",
    "Verif.FaultSchedule.C89_random_partial",
    "Verif.FaultSchedule.C89_stay_partial",
    "Verif.FaultSchedule.C89_init",
    "Verif.FaultSchedule.C89_violated",
    "Verif.FaultSchedule.C89_random_violated"
   ],
   "note": "Proved for what the code does (age of a task on the process; no sampled time). The full claim is violated: the step counter is not sent with the task, and the random failure time is never drawn."
  },
  {
   "property": "C90",
   "status": "partial",
   "theorems": [
    "Verif.IndexRange.C90_tensor_partial",
    "Verif.IndexRange.C90_grid_partial",
    "Verif.IndexRange.C90_levels_partial",
    "Verif.IndexRange.C90_assertion_violated",
    "Verif.IndexRange.C90_levels_violated"
   ],
   "note": "Proved for grids of fewer than 2^31 - 1 points. The criteria in the sources (assertion, level sum below 30) admit larger grids, for which the arithmetic overflows."
  },
  {
   "property": "C91",
   "status": "proved",
   "theorems": [
    "Verif.C91_hierarchize",
    "Verif.C91_dehierarchize",
    "Verif.C91_roundtrip",
    "Verif.C91_empty_part_violated"
   ],
   "note": "Any number of dimensions, process layouts and valid decompositions with non-empty parts; hat functions up to level 29 (minimum level 0 without boundary, as asserted), the other bases with boundary up to level 28. Steps of the processes in lockstep: an exchange reads the data all processes had before it (the code waits for all requests before it changes local data)."
  },
  {
   "property": "C92",
   "status": "proved",
   "theorems": [
    "Verif.C92_same_as_one_process",
    "Verif.C92_layout_independent",
    "Verif.C92_combine_twice",
    "Verif.C92_samples_unchanged"
   ],
   "note": "Exact arithmetic. Non-empty parts as in C91, usable variants as in C34 at every position. The three steps are modelled one after the other on all processes."
  },
  {
   "property": "C93",
   "status": "partial",
   "theorems": [
    "Verif.C93_every_process_has_points",
    "Verif.C93_too_many_processes",
    "Verif.C93_nonEmptyParts",
    "Verif.C93_line_up_partial",
    "Verif.C93_line_up_violated",
    "Verif.C93_one_sided_forward",
    "Verif.C93_combination_violated",
    "Verif.C93_standard_decomposition",
    "Verif.C93_standard_violated"
   ],
   "note": "Points on every process: all numbers of processes. Lining up without a given decomposition: powers of two; violated for every other number of processes on grids with boundary points."
  },
  {
   "property": "C94",
   "status": "partial",
   "theorems": [
    "Verif.C94_plot_partial",
    "Verif.C94_like_task_partial",
    "Verif.C94_file_names_partial",
    "Verif.C94_search_after_miss",
    "Verif.C94_variant_violated",
    "Verif.C94_grids_violated",
    "Verif.C94_file_names_violated"
   ],
   "note": "Proved for sparseGridReduce, hat functions and one grid per task (all bases on the levels of tasks), and sparse grids with all subspaces of the tasks (C97). Violated by the other variants and by several grids per task."
  },
  {
   "property": "C95",
   "status": "partial",
   "theorems": [
    "Verif.C95_history_partial",
    "Verif.C95_layout_independent_partial",
    "Verif.C95_exact_partial",
    "Verif.C95_violated",
    "Verif.C95_run_violated"
   ],
   "note": "Moves are allowed only between a combination and the next run and only with sparseGridReduce, where all groups have the whole sparse grid, and if the sparse grid has all subspaces of the task; violations otherwise. Sizes in the range of int, at most 256 groups, every process has points of every component grid."
  },
  {
   "property": "C96",
   "status": "partial",
   "theorems": [
    "Verif.Conjoint.C96_counted_once",
    "Verif.Conjoint.C96_partitioned_partial",
    "Verif.Conjoint.C96_complete_partial",
    "Verif.Conjoint.C96_classical_complete_partial",
    "Verif.Conjoint.C96_classical_needed_partial",
    "Verif.Conjoint.C96_complete_violated",
    "Verif.Conjoint.C96_needed_violated"
   ],
   "note": "No duplicates and downward closed for all schemes. Complete for subspaces below grids with coefficient 1 of this part; nothing superfluous for parts of equally refined classical schemes. False for grids with negative coefficients and for dimensions without refinement."
  },
  {
   "property": "C97",
   "status": "partial",
   "theorems": [
    "Verif.C97_missing_alone",
    "Verif.C97_system",
    "Verif.C97_systems",
    "Verif.C97_combine_partial",
    "Verif.C97_uneven_violated",
    "Verif.C97_move_violated",
    "Verif.C97_plot_violated"
   ],
   "note": "Classical schemes without fixed dimensions and the reductions described in the statement. Violated for other reductions, and moving and plotting need complete sparse grids."
  },
  {
   "property": "C98",
   "status": "partial",
   "theorems": [
    "Verif.C98_grids_partial",
    "Verif.C98_unselected",
    "Verif.C98_samples_unchanged",
    "Verif.C98_violated",
    "Verif.C98_chunked_violated"
   ],
   "note": "The code does not hierarchize the second and further grids of a task, so the claim is proved for the first grids, and for all grids if no dimension is hierarchized; C98_violated refutes it for the others. Not modelled: moves, restarts and several systems for tasks with several grids."
  },
  {
   "property": "C99",
   "status": "partial",
   "theorems": [
    "Verif.C99_unchanged_partial",
    "Verif.C99_not_hierarchized_violated",
    "Verif.C99_lmin_violated",
    "Verif.C99_fullWeighting_violated",
    "Verif.C99_biorthogonal_violated"
   ],
   "note": "Proved for hat functions and the periodic biorthogonal basis with consistent coefficients, component grids not below the minimum level and with equal levels in dimensions that are not hierarchized; the claim is violated without these conditions (full weighting, non-periodic biorthogonal, dimensions not hierarchized, minimum level). Exact arithmetic."
  },
  {
   "property": "C117",
   "status": "partial",
   "theorems": [
    "Verif.Evaluation.C117_reference",
    "Verif.Evaluation.C117_solutions",
    "Verif.Evaluation.C117_choice",
    "Verif.Evaluation.C117_example",
    "Verif.Evaluation.C117_square_violated",
    "Verif.Evaluation.C117_fewValues",
    "Verif.Evaluation.C117_variance",
    "Verif.Evaluation.C117_norms",
    "Verif.Evaluation.C117_errors",
    "Verif.Evaluation.C117_missing",
    "Verif.Evaluation.C117_order2_violated",
    "Verif.Evaluation.C117_relative_violated",
    "Verif.Evaluation.C117_same",
    "Verif.Evaluation.C117_absolute_violated",
    "Verif.Evaluation.C117_reduce",
    "Verif.Evaluation.C117_reduce_order",
    "Verif.Evaluation.C117_reduce_checked",
    "Verif.Evaluation.C117_single_violated",
    "Verif.Evaluation.C117_systems_partial",
    "Verif.Evaluation.C117_run_partial"
   ],
   "note": "Printed errors, norms and sums proved, also from the component grids of several systems on. Violated: the norm of order 2 of the script, the root of the absolute error of the example, --relative without a solution, one file from the working directory. Without rounding."
  },
  {
   "property": "C118",
   "status": "partial",
   "theorems": [
    "Verif.GenePreparation.C118_arbitrary",
    "Verif.GenePreparation.C118_order",
    "Verif.GenePreparation.C118_empty_violated",
    "Verif.GenePreparation.C118_scheme",
    "Verif.GenePreparation.C118_diagonals",
    "Verif.GenePreparation.C118_faultTolerant",
    "Verif.GenePreparation.C118_extra_uniform",
    "Verif.GenePreparation.C118_noExtra_violated",
    "Verif.GenePreparation.C118_single_violated",
    "Verif.GenePreparation.C118_classical",
    "Verif.GenePreparation.C118_template",
    "Verif.GenePreparation.C118_rerun_violated",
    "Verif.GenePreparation.C118_dims_violated",
    "Verif.GenePreparation.C118_no_file_violated",
    "Verif.GenePreparation.C118_run"
   ],
   "note": "Scheme, files and their reading proved end to end for new folders and six dimensions. Violated: no extra grids for different lmin, exceptions for lmin = lmax with faults and for less than six dimensions, old parameter files on a second run, read behind the end of a vector without spaces.dat."
  },
  {
   "property": "C119",
   "status": "partial",
   "theorems": [
    "Verif.GeneTask.C119_import",
    "Verif.GeneTask.C119_import_global",
    "Verif.GeneTask.C119_roundtrip",
    "Verif.GeneTask.C119_zero_required",
    "Verif.GeneTask.C119_second_violated",
    "Verif.GeneTask.C119_flag",
    "Verif.GeneTask.C119_flag_violated",
    "Verif.GeneTask.C119_flag_set",
    "Verif.GeneTask.C119_nonlinear_violated",
    "Verif.GeneTask.C119_y_violated",
    "Verif.GeneTask.C119_mode_violated"
   ],
   "note": "setDFG, the boundary condition in z and getDFG of the GENE example for all sizes, values and process grids (flux-tube linear runs; global runs whose y is not divided). The statement fails for a y that is divided, at mode nkx/2, for a second setDFG in a flux-tube run, and for nonlinear flux-tube runs (violated theorems)."
  },
  {
   "property": "C120",
   "status": "partial",
   "theorems": [
    "Verif.AnisotropyLoad.C120_positive",
    "Verif.AnisotropyLoad.C120_scaled",
    "Verif.AnisotropyLoad.C120_others",
    "Verif.AnisotropyLoad.C120_dims_violated",
    "Verif.AnisotropyLoad.C120_monotone_violated"
   ],
   "note": "Positive load for all level vectors with at least four dimensions and a positive level. With less than four dimensions the code is undefined (C120_dims_violated)."
  },
  {
   "property": "C121",
   "status": "partial",
   "theorems": [
    "Verif.SelalibPhi.C121_sum_partial",
    "Verif.SelalibPhi.C121_consistent_partial",
    "Verif.SelalibPhi.C121_dropped_violated",
    "Verif.SelalibPhi.C121_one_grid_violated"
   ],
   "note": "Proved if the smallest difference of levels occurs in the first three dimensions; otherwise surpluses are dropped, and a single grid is not read at all (violations proved)."
  },
  {
   "property": "C122",
   "status": "partial",
   "theorems": [
    "Verif.BitFlips.C122_exact",
    "Verif.BitFlips.C122_uniform",
    "Verif.BitFlips.C122_large_violated"
   ],
   "note": "Proved for arrays with less than 2^31 bits; larger ones overflow (proved). The binomial distribution of the number of flips is not modelled."
  },
  {
   "property": "C123",
   "status": "partial",
   "theorems": [
    "Verif.GeneError.C123_save",
    "Verif.GeneError.C123_plot",
    "Verif.GeneError.C123_compare",
    "Verif.GeneError.C123_convert_violated",
    "Verif.GeneError.C123_mode_violated",
    "Verif.GeneError.C123_range",
    "Verif.GeneError.C123_zero",
    "Verif.GeneError.C123_phase_violated",
    "Verif.GeneError.C123_zero_violated"
   ],
   "note": "Proved for the model of saveCheckpoint and errorCalcNew: what is read, which points are compared, the range of the error and when it is zero. Violated: converted checkpoints do not fit plot files, the documented mode letter is refused, phases are ignored, a zero solution gives no number."
  },
  {
   "property": "C124",
   "status": "partial",
   "theorems": [
    "Verif.RawTransfer.C124_int",
    "Verif.RawTransfer.C124_transfer",
    "Verif.RawTransfer.C124_pretend",
    "Verif.RawTransfer.C124_short_violated",
    "Verif.RawTransfer.C124_empty_violated",
    "Verif.RawTransfer.C124_grids_violated"
   ],
   "note": "Proved for all sizes; a shorter message than expected is not noticed by the receive itself, and empty grids make the manager throw, and two grids of different sizes on a worker can not be exchanged (proved)."
  },
  {
   "property": "C125",
   "status": "partial",
   "theorems": [
    "Verif.Broadcast.C125_container",
    "Verif.Broadcast.C125_class",
    "Verif.Broadcast.C125_file",
    "Verif.Broadcast.C125_missing_violated",
    "Verif.Broadcast.C125_large_violated",
    "Verif.Broadcast.C125_huge_violated",
    "Verif.Broadcast.C125_coordinates",
    "Verif.Broadcast.C125_overflow_violated"
   ],
   "note": "Proved for less than 2^31 elements; larger containers throw or are cut off, and a missing file is like an empty one (proved)."
  },
  {
   "property": "C126",
   "status": "partial",
   "theorems": [
    "Verif.TaskDirs.C126_selalib",
    "Verif.TaskDirs.C126_nested_violated",
    "Verif.TaskDirs.C126_second_violated",
    "Verif.TaskDirs.C126_gene"
   ],
   "note": "Proved for names without slashes; with a slash Selalib's tasks do not come back to the old directory and the next task is not found (proved)."
  },
  {
   "property": "C127",
   "status": "partial",
   "theorems": [
    "Verif.MemoryUsage.C127_process_partial",
    "Verif.MemoryUsage.C127_sum_partial",
    "Verif.MemoryUsage.C127_difference_partial",
    "Verif.MemoryUsage.C127_success",
    "Verif.MemoryUsage.C127_name_violated",
    "Verif.MemoryUsage.C127_long_violated",
    "Verif.MemoryUsage.C127_one_fails_violated",
    "Verif.MemoryUsage.C127_print_violated"
   ],
   "note": "Proved for status files with fewer than 8192 characters in which the names of the fields occur once; violations proved for names of programs, long files, and failures on some or all processes."
  },
  {
   "property": "C128",
   "status": "partial",
   "theorems": [
    "Verif.PlotAdvection.C128_solution",
    "Verif.PlotAdvection.C128_square_partial",
    "Verif.PlotAdvection.C128_max_partial",
    "Verif.PlotAdvection.C128_sign_violated",
    "Verif.PlotAdvection.C128_time_violated",
    "Verif.PlotAdvection.C128_shape_violated"
   ],
   "note": "Proved for square grids at time 1 and the largest difference with sign; violations proved for other grids, other times and the sign of the maximum."
  },
  {
   "property": "C129",
   "status": "partial",
   "theorems": [
    "Verif.ErrorTable.C129_points_partial",
    "Verif.ErrorTable.C129_parameters",
    "Verif.ErrorTable.C129_table_partial",
    "Verif.ErrorTable.C129_empty_violated",
    "Verif.ErrorTable.C129_one_dim_violated",
    "Verif.ErrorTable.C129_message_violated"
   ],
   "note": "Proved for outputs that are not empty, two or more dimensions and no other lines that begin with a bracket; violations proved for these three."
  },
  {
   "property": "C130",
   "status": "partial",
   "theorems": [
    "Verif.ExperimentList.C130_names_partial",
    "Verif.ExperimentList.C130_combinations_partial",
    "Verif.ExperimentList.C130_line",
    "Verif.ExperimentList.C130_short",
    "Verif.ExperimentList.C130_dirs_partial",
    "Verif.ExperimentList.C130_digits_violated",
    "Verif.ExperimentList.C130_time_step_violated"
   ],
   "note": "Proved for levels with one digit and experiments that differ in name, levels or numbers of steps. The code violates the rest: levels with two digits collide, and the time step is not in the name (C130_digits_violated, C130_time_step_violated)."
  },
  {
   "property": "C131",
   "status": "partial",
   "theorems": [
    "Verif.ErrorNorms.C131_zero",
    "Verif.ErrorNorms.C131_units",
    "Verif.ErrorNorms.C131_relative_partial",
    "Verif.ErrorNorms.C131_l1_relative_violated",
    "Verif.ErrorNorms.C131_l1_axes_violated",
    "Verif.ErrorNorms.C131_average_partial",
    "Verif.ErrorNorms.C131_l2_average_violated",
    "Verif.ErrorNorms.C131_gene_boundary",
    "Verif.ErrorNorms.C131_gene_average",
    "Verif.ErrorNorms.C131_gene_zero",
    "Verif.ErrorNorms.C131_l2_gene_partial",
    "Verif.ErrorNorms.C131_l2_gene_violated",
    "Verif.ErrorNorms.C131_l2_modes_violated"
   ],
   "note": "Zero exactly for equal arrays, independence of units and of points of the boundary are proved. The code violates the rest for the relative L1 error, the average L2 error with several axes, and the L2 error for GENE (theorems with _violated)."
  },
  {
   "property": "C132",
   "status": "partial",
   "theorems": [
    "Verif.BoundaryCheck.C132_messages_partial",
    "Verif.BoundaryCheck.C132_sign_violated",
    "Verif.BoundaryCheck.C132_silent_violated"
   ],
   "note": "Which points are named is proved. The code violates the claim: the factor -1 of the boundary condition is missing in the check (C132_sign_violated, C132_silent_violated)."
  }
 ]
}