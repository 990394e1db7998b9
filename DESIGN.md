# DisCoTec formal model: design

The model lives in `lean/Verif`. It is written in Lean 4 (Mathlib only for
general mathematics) and describes the C++ code in `/repo/src` and
`/repo/third_level_manager` function by function. Each definition cites the
file and lines it models and states its simplifications.

## Layout

Each topic has a model file (definitions only, close to the code), where needed
a lemma file, and the property theorems in `Verif/Props/*.lean`, which state the
claims against small independent specifications. Every property theorem is
followed by `example`s that instantiate its hypotheses with a concrete
non-trivial case. If the code violates a property, the negation is proved with a
concrete witness (theorem name contains `_violated`) and the part that does hold
is kept as a theorem with suffix `_partial`.

## Trusted base

* Lean's kernel. Axioms used: at most `propext`, `Classical.choice`,
  `Quot.sound` (checked with `#print axioms`). No axioms added, no `sorry`, no
  `native_decide`, no `bv_decide`.
* The correspondence between the C++ text and the Lean definitions (by reading;
  every definition cites lines). Nothing was compiled or run.
* Semantics assumed for the environment: MPI point-to-point messages of one
  (source, destination, tag) do not overtake; collectives compute what the MPI
  standard says when all members make matching calls; TCP is a reliable byte
  stream with arbitrary segmentation; files are byte arrays.
* Floating point is modelled by exact arithmetic in a field of characteristic 0
  (or the rationals). Rounding error is not modelled except in C84, where Kahan
  summation has arbitrary relative rounding errors; elsewhere Kahan compensation
  is modelled and neutral.
* Machine integers are modelled as unbounded naturals/integers except where
  overflow is the point of the property (C05, C32, C33, C59).

## Not modelled

OpenMP parallel loops are sequential in all models but `Model/Threads`; C106 proves for the main ones that this
is right. Not modelled at all: the MPI fault simulator except its synchronisation (C82) and messages between two processes (C104), HDF5/VTK output, boost serialization of classes
(only the list of serialised members), LZ4 itself (a parameter with its documented contract in C81), GLPK itself, the actual PDE
solvers (tasks), GENE interfaces, timing.

## Properties: what is modelled and how it is proved

| id | model | proof |
|----|-------|-------|
| C01 | recursion `getDownSetRecursively` on lists | induction on the dimension; membership, `Pairwise` lexicographic |
| C02 | recursion with pruning incl. all subset-sum checks | characterisation by excess over `rlmin`; a subset sum violates iff the set of positive excesses does; induction on the dimension |
| C03 | list of grids by diagonal, coefficient (-1)^p C(d-1,p) | counting compositions + alternating binomial identity |
| C04 | dummy-dimension insertion with the code's index | violated: witness; partial: all fixed dimensions form a prefix (index = position) |
| C05 | `uint8` loop counter | violated: for >= 256 grids the counter never reaches the bound (invariant over all iterations); partial below 256 |
| C06 | in-place loop with overwriting of zero-coefficient entries | loop invariant over the sorted list; Moebius inversion on down-closed sets |
| C07 | append loop | invariant |
| C08 | round robin by index, greedy min-load | permutation invariant; list-scheduling bound |
| C09 | prefix split | partition of the list if the scan is monotone and ends at 1 |
| C10 | generator state machine | violated for anisotropic corners; partial isotropic |
| C11 | offsets, inner product, div/mod loop | induction on the dimension |
| C12 | lower/upper bounds from decomposition, owner search; reported degrees of freedom of a component grid | ascending list lemma; product over dimensions |
| C13 | both translations | forward correct; violated backward; partial |
| C14 | `getLevel` loop, stride/start arithmetic | 2-adic valuation |
| C15 | predecessor formulas | 2-adic valuation |
| C16 | downsampling formulas | ceil/floor arithmetic |
| C17 | running offset | induction over the selection |
| C18 | add/extract through the point lists; look-ups may miss | linearity, induction over grids and subspaces |
| C19 | recursive enumeration with offsets | product of 1-d enumerations |
| C20 | `lower_bound` with hint, miss = -1; two models: by the standard (a start before the beginning is undefined) and with iterators as positions (only reading there is undefined; used by all models that register, add or extract) | violated after a miss by the standard; `C20_positions_partial` with positions |
| C21 | min/max fold with its initial values | violated for all-negative; partial nonnegative maximum |
| C22 | bit votes, map from vote to subspace list | equality of maps on all ranks |
| C23-C26 | kernels as in-place updates of a function `Nat -> K` | induction over levels; each level step is inverted by the corresponding inverse step |
| C27 | dispatch table | violated |
| C28 | exchange index sets + local kernel on a scratch array with arbitrary contents | the kernel reads only owned or received indices |
| C29 | send/receive sets | symmetry lemma |
| C30 | transforms along axes of functions on index tuples | operators on different axes commute |
| C31 | loop on offsets | induction |
| C32 | `uint32`/`int` conversions | violated for large settings; partial bound |
| C33 | greedy chunk loop (with and without 32-bit wrap) | induction |
| C34 | all four combination variants for one process per group, from registering the grids over the communicators to the extraction (`combineVariant`) | every variant yields the combination formula at every point, stated without subspaces or chunks; the two outgroup variants violated if only some groups share subspaces on a process |
| C35-C36 | file as bytes with a codec for values, writes in any order, size check, the buffer loop with stale buffer contents (`Model/FileIO`) | disjoint intervals of the exclusive scan; loop invariant; collective count violated, exact condition `C36_ok_iff` |
| C37 | names as character lists, substring match on directory entries (`Model/ExchangeFiles`) | violated; partial when the part number is not a prefix of the other one |
| C38 | loops with early return, split of the output group (`Model/MPISystem`) | closed form k -> (k mod ngroup) * nprocs + k; parts violated if not dividing |
| C39 | `MPI_Comm_split` as sorting by key and rank, `MPI_Comm_create` (`Model/MPISystem`) | div/mod |
| C40 | manager, channel and worker of one group as transition system (`Model/GroupStatus`) | invariant; violated for diagnostics and with `NDEBUG` |
| C41 | manager's lists and signals sent to each group (`Model/TaskLists`) | invariant over histories of events |
| C42 | evaluation loop over ordered maps and rational numbers (`Model/Rescheduler`) | loop invariants |
| C43 | argument messages with tags, evaluation order as a permutation, buffered or synchronous sends (`Model/CommandArguments`) | right for all orders iff the names are evaluated left to right; violated for the reverse order |
| C44-C47 | byte streams with arbitrary segmentation on both sides, the loops of the code with receive buffer and signed/unsigned arithmetic (`Model/Network`) | induction over segmentations; C45 violated for short segments; C46 out-of-bounds read |
| C48, C49, C67 | two systems and the manager as communicating processes with bounded channels, any interleaving, free choice where the manager polls; programs with several operations (`Model/ThirdLevel`) | all runs end well (`Inevitable`); steps of different processes commute, so one schedule per choice suffices; C48 violated for more than one grid and for empty grids, C49 for sums of 2^31 |
| C50, C68 | ordered maps, token archive with the serialised members (`Model/OrderedMap`, `Model/Parameters`) | round trip of the archive; invariant over updates; violated for the maps by level on workers, for equal and for changed levels; C68 violated for levels without a task |
| C51-C53 | level enumeration, Moebius matrix, constraint rows, dictionaries, `recomputeOptimumCoefficients`; the solver of the linear program is a parameter that is assumed to be right (`Model/FaultTolerance`) | Moebius inversion over level sets without gaps; odometer induction |
| C54 | find loop (`Model/StaticFaults`) | induction |
| C55 | flatten / take-drop (`Model/Coordinates`) | induction |
| C56 | local evaluation over the lower and upper neighbours, with early returns and assertions (`Model/Interpolation`); coordinates in an ordered field, no rounding; the reduction is the sum over all ranks | bits of the loop counter, product of hat functions, sum over decompositions |
| C57 | polling loop with arbitrary arrival schedule (`Model/ExchangeFiles`) | permutation invariant, bound on the number of passes |
| C58, C69 | highest index below a nodal index, extents per dimension and process (`Model/PartitionDOF`); doubles are exact there | telescoping sums, product of sums over linear indices |
| C59 | tables with 29 initialisers for 30 entries, 32-bit products (`Model/GridCtor`) | violated at 29; partial below |
| C60 | event lists, files, clock readings (`Model/Stats`) | invariant over histories; violated for equal clock readings and for nested events without assertions |
| C61 | gatherv with exclusive scan | induction |
| C62 | as C06 | bounds: induction; reaching lmax violated for unequal level differences, partial for equal ones |
| C63 | as C03 | violated for lmin = lmax (grid list stays empty); partial otherwise |
| C64 | `createDownSet` over coefficient-1 grids | a maximal grid has inclusion-exclusion coefficient 1 |
| C65 | `memset` with byte counts (`kahanMemset`) | violated for float (writes past the end) and complex (half not cleared); partial for 8-byte elements |
| C66 | `setOutgroupCommunicator` for all ranks at once | violated if one rank holds no shared subspace while others do; partial otherwise |
| C70 | the two kernels in both directions, the loop over the poles of a dimension, the loop over the dimensions, the grid's flag (`Model/SerialHierarchization`); the OpenMP loops are sequential, `int` shifts unbounded; level 0 (negative shift) is excluded | simulation of the strided kernel by the kernel on a pole, then linearity of the pole transform and C30 |
| C71 | the two loops of `eval` with cell index and weights per dimension, the loop over corners and bits, `getCoords`, `add` (`Model/FullGridEval`); coordinates in an ordered field, no rounding; `gridEval` does not compile and is left out, as is `addGENE` | mirroring of single-point dimensions, sum over the bits of the corner number, interpolant from the last dimension; comparison with the hat functions of C56 |
| C72 | modulo loop and halving loop of `getLI` (`Model/FullGridEval`) | induction on dimensions and on the fuel, which suffices |
| C73 | `combineAtOnce` (`Model/CombineAtOnce`) from the existing models of hierarchization (C30) and of the combination variants (C34), one process per group; the combination alone for any layout | values at the same place are replaced by their weighted sum (C34), the weights of the grids that contain a level add up to one (C03, C06); a hat surplus is a difference of values at three places, so it does not depend on the component grid; the pole transforms are matrices with inverses |
| C74 | Kahan loop over tasks and coordinates and the two reductions of `interpolateValues` (`Model/InterpolateValues`) on top of `evalLocal` (C56) | sums over ranks, tasks and groups exchanged; a hat function is affine in the cells of every finer grid and vanishes at the points of coarser ones, so each term is counted with the sum of the coefficients above its level, which is one (C03) |
| C75 | `AverageOfLastNLoadModel` as a table of deques; the `int` accumulator of `std::accumulate` modulo 2^32 (`Model/LoadModels`) | the deque is the last n durations of the history of that level; the sum is exact if it is below 2^31. Violated: sum of 2^31 µs and more wraps, n = 0, `evalSpecificUOT` without history |
| C76 | `AveragingLoadModel`: file names from level vectors as character lists, files as lists of lines, `stoul`, deques, map of averages. Not modelled: failing file operations, the columns after the duration (any characters), signs and white space in `stoul` | decimal numbers are determined by their characters up to the first non-digit, so file names are injective and the first column can be read back; invariant: file ++ deque = earlier lines ++ history, deque length (c-1) mod 50 + 1 |
| C77 | `MPI_Type_create_subarray`, pack and receive at positions of the array; gather, plot file view, plot header bytes, corners with the sum over all processes (`Model/GroupGrid`) | positions of subarrays are distinct and are the linear indices of the points of the part; every point has one owner (C12). Violated: header (reader cannot read it), raw slice tool (order of indices), empty parts (illegal MPI subarray) |
| C78 | `MPI_Cart_shift`, `MPI_Sendrecv` with matching on all processes, the subarrays of the first and last layer, the assertions (`Model/GroupGrid`) | layers as subarrays with extent 1; the process at the other end or below is the same except for one coordinate, so extents agree |
| C79 | maximum, local sums with the half weights on the boundary, reduction over processes, the manager's map and compensated summation (`Model/GroupGrid`); `p`-th power instead of the root | local indices of all processes are the points, each once; trapezoidal sum per dimension by telescoping. Violated: `p = 2` (constant 1), combination of norms is no norm of the combination |
| C80 | the state of all processes together: shrink, signals, ranks received from any source, split by key, lists of reserve ranks, the manager's groups (`Model/Recovery`); not the fault simulator, not deaths during the recovery | invariant `Ok` between recoveries; the new world is the one list ordered by the keys. Violated: death of a process in reserve |
| C81 | frames, header frame with the sizes, positions, the decompression loops with rounds, assertions and buffer remainder (`Model/Compression`) on top of the files of C35; LZ4 is a parameter with its documented contract | what each process reads is its frame; invariant of the reduce loop. Violated: processes without values, values of 16 bytes beyond the buffer |
| C82 | `Model/FaultLayer`: `convertId`, `successors`, `predecessor`, the broadcast along the tree (`reached`), the vector of the reduction (`customReduceOp`, `initVec`, `reduceAt` with an arbitrary order of arrival), the messages of dead processes, the vector of the root and what the processes do with it (`sync`), the lists of non-blocking collectives, `MPI_Comm_agree` | `C82_tree`: for every root the successors are a tree on the ranks; `C82_broadcast`: with the root 0 everyone waits for its parent, by induction on the rank; `C82_reduce`: the fold over the subtree (`desc`, without duplicates because parents are smaller) counts every dead process once; `C82_sync_partial`: all living processes get the same answer; `C82_started`: serialisation and missing collectives |
| C83 | `Model/SchemeGenerator`: the Python dictionaries (`Dict`: keys in order of insertion, values), `ClassicDiagonalActiveSet`, `getDownSet`, both branches of `updateDict` (the binomial formula, the correction loop with fuel), the assignment to groups | `C83_uniform`: the binomial branch via the identity of the classical scheme (`classical_core`); `C83_general_partial`: the loop keeps counts = sum of the coefficients above, and each round settles one more level sum from the top; `C83_order`: coefficients are determined by the counts; `C83_assign`, `C83_balanced`: the grids are dealt along one list, counts of residues in an interval |
| C84 | `Model/Kahan` (`kahanStep` over any addition and subtraction), `addDistributedFullGridWith` in `Model/Storage`, `localValuesWith` in `Model/InterpolateValues`, `getLpNorm`; the models without rounding are instances. Values are real numbers; rounding is an arbitrary relative error (`Rounds`), without overflow and underflow, and without the compiler reordering the operations (no `-ffast-math` in the build files); the reductions between processes are not included | `C84_summation`: invariant with the compensated sum `s - c`, whose error grows by `2u` times the summand plus `O(u^2)`; `C84_combine`: the storage lemmas of C18 for any addition (`combineWith_eq`, from which C18 follows); `C84_norm`, `C84_interpolation` |
| C85 | `Model/WideCombine`: sizes (`wideSizes`, `wideStart` with the two exchanges between groups and `reduceExtraSubspaceSizes` of C49), `collectReduceDistributeKeep`, adding of files, `distributeChunkedBroadcasts`, for the processes with the same position in all groups of all systems, which read and write the same part of the files (C35-C37, C57). Not modelled: hierarchization (C01-C04, C69), tokens, removal of files, several grids per task, the variants without chunks | `C85_files_partial`: sizes as tables of which group has which subspace; the extra sparse grid has the subspaces of two systems; groups that hold such a subspace share it with the output group; induction over chunks for the reduction, the copies and the broadcasts; then from subspaces to places as in C34. `C85_violated`: no common points on a process |
| C86 | `Model/SystemCombine`: sizes within the system and between systems (`linkStart` over the manager, in two parts `linkSizes` and `linkResize`, and `linkStartFiles`), `reduceLocalAndGlobal` with and without a root, copies to and from the extra sparse grid, the exchange of whole buffers over the manager (C48), files, broadcasts, for the processes with the same position in all groups. Not modelled: hierarchization, tokens, several grids per task | `C86_manager_partial`, `C86_files_partial` for sparseGridReduce: sizes as tables; the sum over the groups at the third-level group; copy, exchange, copy back; from subspaces to places as in C34 and C85. `C86_violated`: outgroupSparseGridReduce over the manager, evaluated. outgroupSparseGridReduce through files is C87 |
| C87 | `Model/SystemCombine` with the variant outgroupSparseGridReduce: `subspaceReduceTo` (one `MPI_Reduce` per datatype), `bcastOutgroup` (one broadcast with a derived datatype), the exchange of sizes and communicators of C85 | `C87_files_partial`: the reduction to one group by induction over chunks with disjoint positions (`chunks_reduceTo_eq`); one datatype for the broadcast; subspaces outside the communicator are held by one group of the system and, on groups other than the output group, by no other system |
| C88 | `Model/History`: `setUp` (once), `Setup.combine`, `Setup.run` with arbitrary new values, `Setup.move` (`RESCHEDULE_REMOVE_TASK`, `RESCHEDULE_ADD_TASK`, `fillDFGFromDSGU`), `history`; values are hierarchical coefficients; one process per group | `C88_history_partial`: refinement of `specStep` on component grids by induction over the steps (`steps_inv`); the theorems of C34 were generalised to sparse grids in any reusable state (`CanZero`, `Holding`); `combineVariant_eq_setUp` connects the setup with C34. `C88_violated`, `C88_run_violated`: concrete histories with moves that lose values |
| C89 | `Model/FaultSchedule`: `WeibullFaults` with what is sent of it, both criteria, `decideToKill`, the tasks of a process under receive / run / remove / reset events, `life`; clock readings are arbitrary rationals | `C89_configured_partial`, `C89_random_partial`: the event in which a process dies is the first run whose task has an `age` (runs since it arrived) that satisfies the criterion, by induction over the events; `C89_stay_partial`: without moved tasks the age is the combination step; `C89_init`: the criterion after `init`. `C89_violated`, `C89_random_violated` |
| C90 | `Model/IndexRange`: constructor of `TensorIndexer`, `size` (accumulated in `unsigned`), `sequentialIndex` (accumulated in `int`), `getVectorIndex`, constructor of the distributed grid and local to global indices, each signed operation checked for overflow, assertions included | `C90_tensor_partial`, `C90_grid_partial`: the checked functions succeed and equal the unbounded ones of `Model/FullGrid`; `accumulated_eq`: the size is taken modulo 2^32; `C90_levels_partial`; `C90_assertion_violated`, `C90_levels_violated` |
| C91 | `Model/DistributedGrid`: `sendAndReceiveIndicesBlock` with subarray types in Fortran order, displacements, messages with tags, received slices; loop over the poles with the values of the slices; loop over the dimensions on all processes in lockstep (an exchange completes before local data are changed). Undefined behaviour and unmatched messages are `none` | `C91_hierarchize`, `C91_dehierarchize`: the local data are parts of the result of `hierarchizeGrid` (C30) on the whole grid, from C28 for one pole, C29 for the messages and a decomposition of linear indices at the dimension; `C91_roundtrip`; `C91_empty_part_violated` |
| C92 | `Model/DistributedCombine`: `combineAtOnce` on all processes of all groups: `hierarchize` of C91 per task, for every position in the groups the combination of C34 among the processes at this position, `dehierarchize`; the steps one after the other on all processes | `C92_same_as_one_process`: local data are parts of the result of `combineAtOnce` of C73 with one process per group, from C91, the formula of C34 at every position, and a bijection between the local points at a place and the points of the whole grids; `C92_layout_independent`, `C92_combine_twice`, `C92_samples_unchanged` |
| C93 | `Model/DefaultDecomposition`: choice of the decomposition of a component grid (downsampled or default), `getStandardDecomposition`; `getDefaultDecomposition`, `downsampleDecomposition` from `Model/FullGrid` | `C93_every_process_has_points` (a coarse point between any two bounds), `C93_too_many_processes` (pigeonhole, the bound is sharp), `C93_nonEmptyParts` (precondition of C92), `C93_line_up_partial` (powers of two), `C93_line_up_violated` (every other number, from remainders of powers of two), `C93_combination_violated`, `C93_standard_decomposition` |
| C94 | `Model/Plot`: `fillDFGFromDSGU`, the loop of `interpolateAndPlotOnLevel`, file names, `parallelEvalUniform` after `distributedCombineAtOnce`. Not modelled: the format of the files (C77 for the values in the file) | `C94_plot_partial` (surpluses of an interpolant vanish at finer points, `Lemmas/PlotInterp`; linearity of the transformations; exactness of the look-ups after misses, `Lemmas/Storage`; the sparse grid has all subspaces of the tasks), `C94_like_task_partial` (all bases), `C94_file_names_partial`, `C94_search_after_miss`, `C94_variant_violated`, `C94_grids_violated`, `C94_file_names_violated` |
| C95 | `Model/DistributedHistory`: sparse grids and communicators per position, set up once (C88), hierarchization and dehierarchization by the processes of a group (C91), runs with any solver on the parts, moves with filling and dehierarchizing on all processes of the new group. Not modelled: tasks with several grids, steps of different groups at the same time (C40) | `C95_history_partial` (invariant: the nodal values are parts of whole grids, and at each position C88's invariant holds for the hierarchical values; solvers are related to whole grids by `Solves`), `C95_layout_independent_partial`, `C95_exact_partial` (hat functions, consistent coefficients), `C95_violated`, `C95_run_violated` |
| C96 | `Model/Conjoint`: the map of counts over the downward poles of grids with coefficient 1, the loop over the map, degrees of freedom (C58). Coefficients are rational | `C96_counted_once`, `C96_partitioned_partial` (levels up to 28, grids with boundary), `C96_complete_partial` (any antichain of grids with coefficient 1; descent from one grid to the other along subspaces counted in all dimensions), `C96_classical_complete_partial` (any part of a classical scheme, finest grids), `C96_classical_needed_partial` (equal refinement), `C96_complete_violated`, `C96_needed_violated` |
| C97 | `Model/ReduceLmax`: the reduced maximum level and the levels of the sparse grid. Registering, adding and extracting with look-ups that miss (`getIndexFlat` in `Model/Storage`: iterators as positions) are part of the models of C18, C34, C85-C88, C92, C95, whose precondition (`ValidSystem`, `ValidSystems`) allows missing subspaces that one grid of coefficient one has | `C97_missing_alone` (a subspace with the largest excess over `lmax - m` determines its grid), `C97_system`, `C97_systems` (preconditions of C34, C73, C84, C92 and of C85-C87), `C97_combine_partial` (classical schemes without fixed dimensions); `C97_uneven_violated`, `C97_move_violated`, `C97_plot_violated` |
| C98 | `Model/SeveralGrids`: the sparse grids with all numbers, their sizes and communicators, the loops over tasks and grids (local reduction, global reduction per number, extraction), `hierarchizeFullGrids` and `dehierarchizeFullGrids` with the number of grids that `TaskWorker` uses; `chunkedOutgroupSparseGridReduce` only for one grid (assertion). Not modelled: moves, restarts and several systems with several grids | `C98_grids_partial` (the combination goes through; the first grids are combined as if they were the only ones, the others by the formula for values that are not hierarchized), `C98_unselected` (all grids, if no dimension is hierarchized), `C98_samples_unchanged`; `C98_violated` (the claim fails for the second grids), `C98_chunked_violated` |
| C99 | `Model/CombinedValues`: `interpolateValues` on the tasks which a complete combination (`Model/DistributedCombine`) leaves on the groups | `C99_unchanged_partial` (hat functions and periodic biorthogonal bases, consistent coefficients, no grid below the minimum level, same level of all grids in dimensions that are not hierarchized); `C99_not_hierarchized_violated`, `C99_lmin_violated`, `C99_fullWeighting_violated`, `C99_biorthogonal_violated` show that the conditions are needed |
| C100 | `Model/InterpolationOutput`: commands of the manager, coordinates received by the groups, `interpolateValues`, the files written by every process, HDF5 files as groups of data sets | `C100_manager_partial`, `C100_unchanged_partial` (with C99), `C100_singleFile_partial`, `C100_perGrid_partial`; `C100_history_violated`: the files of the tasks are overwritten in every step; `C100_noPrefix_violated`, `C100_noCoordinates_violated`, `C100_lastGroup_violated` for the special cases |
| C101 | `Model/SchemeFile`: the property tree of a scheme file, the constructor of `CombiMinMaxSchemeFromFile` entry by entry with its assertions, `getAssignedLevels`, `getLoadBalancedLevels`, the start of a worker, and the list which the script writes; the JSON text is left out, numbers are texts | `C101_read`, `C101_accepted` by induction over entries and components; `C101_assigned_partial`, `C101_balanced` (with C08: a group with load 0 is chosen before any other, so every group gets a grid); `C101_generated`, `C101_counted`, `C101_script` (with C83) from the script to the groups |
| C102 | `Model/SystemAtOnce`: hierarchization, combination over the third-level manager or by files, and dehierarchization on all processes of all groups of all systems, from `Model/DistributedCombine`, `Model/WideCombine` and `Model/SystemCombine`; the steps run one after the other on all processes | `C102_same_as_one_system_partial` (C85-C87 on every position, then the formula of C92/C95 with the sum over all systems; a sum over systems and groups depends only on the multiset of grids), `C102_samples_unchanged_partial`, `C102_combine_twice_partial` for the variants in which C85-C87 hold |
| C103 | `Model/ThirdLevelHistory`: the programs of two process managers (continuations over `Model/ThirdLevel`: sending and receiving with the third-level manager) whose steps between messages are those of all processes of all groups (`Model/SystemCombine`, `Model/DistributedCombine`, `Model/DistributedHistory`). Sizes are set up once and the sparse grids, communicators and extra sparse grids are used again in every combination. Not modelled: moves of tasks, several grids per task, pretended combinations, concurrency inside a system | `C103_history_partial`, `C103_exact_partial` for sparseGridReduce: an invariant between the steps (`LinkInv`: sizes, states and tasks at all positions), the exchange by `tl_unify`, `tl_combine`, `tl_finish` of C48/C49, one position by C86, the formula by C102. That the systems share a subspace on every process is derived from both having a task |
| C104 | `Model/FaultMessages`: the calls Send, Recv, Isend, Irecv, Wait (with Test), Probe of the fault simulator and plain MPI_Send/MPI_Recv, step by step, with the status messages on the second communicator and the answers of killed processes. Every process owns the logs of what it sent; `Event`, `program`, `verdicts` describe schedules and what the calls should return. Not modelled: revoked communicators, `MPI_ANY_SOURCE`, processes killed inside a call, deaths learnt from collective operations | `C104_schedule_partial`: a schedule can be carried out event by event (`schedule_runs`), and steps of different processes commute since logs only grow (`moves_commute`), so all orders end alike (`Inevitable`); `C104_order_partial`: the same for arbitrary calls |
| C105 | `Model/FaultHistory`: the signals of the workers in a simulation with faults (run, combine, erase or restore groups, ADD_TASK, RECOMPUTE, new parameters), on top of the combination of C88 with reduction of the whole sparse grid. Assumed: a process from the reserve was at the same place in another group before; `setZero` zeroes; no reduced levels. The manager side is C41, C53, C68, C80 | `C105_history_partial`: refinement of steps on the component grids alone (`specStep`), if the coefficients that are sent are those the tasks have; `C105_ignored`: the coefficients that are sent never have an effect; `C105_recomputed`, `C105_redistributed`: what the specification means for lost tasks; `C105_violated`, `C105_violated_refill`, `C105_violated_first_run` |
| C106 | `Model/Threads`: threads with shared memory, private variables, single read and write accesses; the loops of `registerDistributedFullGrid`, `addDistributedFullGrid`, `extractFromUniformSG`, the loop over the poles, `addIndexedElements` as iterations. Sequentially consistent, which C++ guarantees without data races. Not modelled: counters and norms with `reduction` clauses, the loops in the interpolation | `Within`/`parts_run`: iterations whose reads and writes do not overlap commute in every interleaving; `HintOk` per thread for the private `sIndex`; equality with the sequential models (`Model/Storage` of C18 and C84, C91). `C106_extract` and `C106_add` need each thread's subspaces in ascending order, `C106_order_violated` shows what happens otherwise; `C106_register_partial` is for subspaces that were registered before, `C106_register_violated` the race otherwise |
| C107 | `Model/ThreadReduce`: per process the communicators that are left and its threads (communicator, number of the datatype); a collective call returns when all members have called it; datatypes and the reduction are those of `Model/Combine`. `MPI_Allreduce` returns on all members at once | `C107_reduce`: the smallest communicator in the common order (C22) that is not finished can always go on (`step_exists`); reductions on different elements commute (`op_comm`), so every order of completion gives the state of one thread per process. `C107_combination` adds that subspaces of different communicators and chunks are stored apart (`separate_of`) and the result of C34. `C107_order_violated` for other orders |
| C108 | `Model/SubspaceWriter`: registration of the grids of scheme files, the loop over subspaces with its assertion, the choice of scheme files, the name of the file, `reduceExtraSubspaceSizes` with `overwrite` and its assertions; then the exchange of `Model/WideCombine` (`wideExchange`). Not modelled: reading of parameter and scheme files (C83), the part of the file that a process reads (C35) | `C108_sizes` (the loop counts the systems that have a subspace), `C108_all_systems_partial` for any number of systems if the file is made from all schemes, `C108_combined_partial` for the tool with two or three systems (`wideExchange_eq`, shared with C85), `C108_same_file`; `C108_four_systems_violated`, `C108_assertion_violated` |
| C109 | `Model/Advection`: `init` (check of the time step, initial values with `getCoordsLocal`), `run` with both versions of its loops and all their assertions, on top of the ghost layers of `Model/GroupGrid`; adding, running and removing tasks with the static vector `phi_`. Exact arithmetic, any initial function; iterations of a parallel loop in order | `C109_time_steps` (splitting of indices around one dimension, `Around`), `C109_initial`, `C109_mass`, `C109_maximum_principle`, `C109_tasks_partial`; `C109_removed_violated`, `C109_moved_time_violated` |
| C110 | `Model/VtkFile`: extent, spacing, order of the values and name of a piece file; the files of all processes of all groups; how VTK finds value and coordinates of an index. Exact arithmetic, infinite spacing as `none`; no master file (not written by the code) | `C110_values`, `C110_files`, `C110_coords_partial` (two boundary points), `C110_coords_iff`; `C110_coords_violated`, `C110_dimensions_violated` |
| C111 | The models of C92, C102 and C26; `mass` (in `Lemmas/CombinedMass`) is the integral of the piecewise linear interpolant of a component grid, as iterated trapezoidal rule | `C111_mass_partial` (one system), `C111_systems_partial` (several systems; conditions of C102); needed conditions: `C111_hat_violated`, `C111_lmin_violated`, `C111_not_hierarchized_violated`. No condition on the coefficients is needed for the masses of the grids |
| C112 | `Model/RoundedKernels`: the loops of C01 and C26 (`hierHatWith`, `dehierHatWith`, `hierNoBoundaryWith`, `dehierNoBoundaryWith`, of which the exact kernels are instances) with an `Adder` for every addition; multiplications with ±0.5 are taken as exact (no underflow) | `C112_hierarchize` (error of the coefficients), `C112_roundtrip` (error of the restored values), `C112_exact` (with the exact adder the model is the one of C01/C26). One process, hat functions only: distributed grids are covered by C113, the mass-conserving bases are not |
| C113 | `Model/MachineKernels`: the kernels of C01, C26, C27 and the distributed loops of C91 with an arbitrary function for every expression (`Arith`; `Arith.machine` rounds every addition in the order of the code). Numbers are elements of a field (no NaNs or infinities); an expression is evaluated in the same way at all points of a loop (no contraction or vectorization of a part of the iterations); the functions get the exact products with the constants ±0.5, ±0.25, 2, which they may round | `C113_hierarchize`, `C113_dehierarchize` (every process gets its part of the numbers of one process), `C113_same_on_all_distributions` (both steps, two groups), `C113_exact` (exact arithmetic gives the model of C91), `C113_rounding_error`, `C113_roundtrip_error` (the bounds of C112 on distributed grids). Parts must not be empty, levels at most 29 for hat functions and 28 for the other bases, as in C91 |
| C114 | `Model/RoundedCombine`: the complete combination of C68 (variant `sparseGridReduce`) with the kernels of C113, the compensated sums of C25 with rounded operations and products, and `MPI_Allreduce` with `MPI_SUM` in any order and bracketing for every element and process (`SumOrder`). Numbers are real, without underflow, NaNs and infinities | `C114_combine_partial` (hat functions; same level of all tasks in dimensions that are not hierarchized; minimum level at most the levels of the tasks), with the constant `2^D (4 (D + n) + 39)` times the product of the numbers of levels plus one (`D` hierarchized dimensions, `n` groups), as long as this times `u` is at most one and groups have at most `1/(8u)` tasks; `C114_exact` (without rounding the model is the one of C68, C94) |
| C115 | `Model/AdvectionExample`: the main loop of the example, with the solver of C109 on the grids of the combination and the simulation of C95 (every step is finished on all processes before the next one begins, tasks stay in their groups) | `C115_values_partial`, `C115_mass_partial` (no empty parts, sizes in the range of `int`; the factor for coefficients that do not sum to one is given); `C115_hat_violated` (masses change with hat functions); `C115_time_violated` (printed times) |
| C116 | `Model/Selalib`: `replaceFirstOccurrence`, `adaptParameterFile`, `createTaskFolders`, `setCheckpointRestart`, the setup of both programs, `combine_selalib_diagnostics.cpp` (texts are lists of characters, folders are numbers with the contents of `param.nml`; not modelled: Selalib, the other files, the diagnostics task) | `C116_parameters`, `C116_template` (the file in the repository), `C116_manager`, `C116_workers`, `C116_restart`, `C116_restart_missing`, `C116_diagnostics_missing`; `C116_restart_workers_partial` (one group), `C116_restart_violated`; `C116_fullgrid_partial`, `C116_resolution_violated`; `C116_dt_partial`, `C116_dt_violated`; `C116_diagnostics_partial`, `C116_time_partial`, `C116_header_violated`, `C116_lines_violated`; `C116_prefix_violated` |
| C117 | `Model/Evaluation`: `managerMonteCarlo`, `TestFn`, `get_mc_variance.cpp`, `hdf5_reduce_datasets.py`, `hdf5_interpolation_norms.py`, on the files of `Model/InterpolationOutput` (real numbers without rounding; data sets of numbers with one dimension; exceptions of Python are `error`; quotients with divisor 0 are `none`; two names of one file are not considered) | `C117_reference`, `C117_solutions`, `C117_choice`, `C117_example`, `C117_fewValues`, `C117_variance`, `C117_norms`, `C117_errors`, `C117_missing`, `C117_same`, `C117_reduce`, `C117_reduce_order`, `C117_reduce_checked`; with C100 `C117_systems_partial`, `C117_run_partial`; `C117_square_violated`, `C117_order2_violated`, `C117_absolute_violated`, `C117_relative_violated`, `C117_single_violated` |
| C118 | `Model/GenePreparation`: `combinationSchemeArbitrary.updateDict`, `ClassicDiagonalActiveSet` (with C83), `getExtraGrids`, `preproc.py` for both GENE examples, the reading of `spaces.dat` in `manager.cpp` (texts are lists of characters; numbers fit into their types; the text of `2**n * kymin` is a parameter; the base folder, the start script and processes are not modelled; coefficients are read as integers) | `C118_arbitrary`, `C118_order`, `C118_scheme`, `C118_diagonals`, `C118_classical` (with C03 and C63), `C118_faultTolerant`, `C118_extra_uniform`, `C118_template`, `C118_run`; `C118_empty_violated`, `C118_noExtra_violated`, `C118_single_violated`, `C118_rerun_violated`, `C118_dims_violated`, `C118_no_file_violated` |
| C62 (exact) | as C06 (`Props/AdaptiveExact`) | the set of grids is determined exactly: `C62_level_iff`, `C62_reaches_iff`, `C62_empty_iff`, `C62_same_as_uniform`, `C62_empty_violated` |
| C119 | `Model/GeneTask`: `writeLocalCheckpoint` (its checks and the flag), `setDFG`, `adaptBoundaryZ`, `adaptBoundaryZKernel`, `getOffsetAndFactor`, `adaptBoundaryZglobal`, `getDFG` (values in a commutative ring; arrays are functions of the point; the messages of adaptBoundaryZglobal are the z = 0 values of the first process in z, in the order of the species; asserts are checked; the rounded number of modes and the factors of the profile are parameters; GENE itself is not modelled) | `C119_import`, `C119_import_global`, `C119_roundtrip`, `C119_zero_required`, `C119_flag`, `C119_flag_set`; `C119_second_violated`, `C119_y_violated`, `C119_mode_violated`, `C119_flag_violated`, `C119_nonlinear_violated` |
| C120 | `Model/AnisotropyLoad`: `AnisotropyLoadModel::eval` (exact real numbers; `levelSum` does not overflow; all levels zero, where the code computes 0/0, is an error) | `C120_positive`, `C120_scaled`, `C120_others`; `C120_dims_violated`, `C120_monotone_violated` |
| C121 | `Model/SelalibPhi`: `combine_selalib_phi.cpp` on the level of subspaces (one value per subspace; exact sums; no files; storage and transforms as in C18 and C94) | `C121_sum_partial`, `C121_consistent_partial` (the smallest difference of levels occurs in the first three dimensions); `C121_dropped_violated`, `C121_one_grid_violated` |
| C122 | `Model/BitFlips`: `Sim_FT_Manipulate_bits`, `flipBit` (the random numbers are an argument; the number of flips, drawn by `getAmountOfFlips`, is its length) | `C122_exact`, `C122_uniform` (arrays with less than 2^31 bits); `C122_large_violated` |
| C123 | `Model/GeneError`: `saveCheckpoint`, `readCheckpoint`, `readPlotFile`, `l2Norm`, `main` of `errorCalcNew.cpp` (exact complex numbers) | `C123_save`, `C123_plot`, `C123_compare`, `C123_range`, `C123_zero`; `C123_convert_violated`, `C123_mode_violated`, `C123_phase_violated`, `C123_zero_violated` |
| C124 | `Model/RawTransfer`: `sendDsgData`, `recvDsgData`, `recvDsguFromWorker`, `sendDsguToWorker`, `pretendCombineThirdLevelForWorkers` (messages as lists; sending does not block) | `C124_int`, `C124_transfer`, `C124_pretend`; `C124_short_violated`, `C124_empty_violated`, `C124_grids_violated` |
| C125 | `Model/Broadcast`: `broadcastContainer`, `broadcastClass`, `getFileContentsFromRankZero`, `getCoordinatesFromRankZero` (archives as two functions; parsing of INI and JSON is not modelled) | `C125_container`, `C125_class`, `C125_file`, `C125_coordinates` (less than 2^31 elements); `C125_missing_violated`, `C125_large_violated`, `C125_huge_violated`, `C125_overflow_violated` |
| C126 | `Model/TaskDirs`: `changeDir`, `run`, `init`, `doDiagnostics` of `SelalibTask`; `run`, `changeDir` of `GeneTask`; the paths of tasks; `chdir` without symbolic links | `C126_selalib`, `C126_gene` (names without slashes); `C126_nested_violated`, `C126_second_violated` |
| C127 | `Model/MemoryUsage`: `get_memory_usage_kb` with `strtok`, `strstr` and `sscanf`, `get_all_memory_usage_kb`, `print_memory_usage_comm_minus_ref`; opening the file is not modelled | `C127_success`; `C127_process_partial`, `C127_sum_partial`, `C127_difference_partial` (files below 8192 characters, names of fields nowhere else); `C127_name_violated`, `C127_long_violated`, `C127_one_fails_violated`, `C127_print_violated` |
| C128 | `Model/PlotAdvection`: `plot_error_advection.py` (reading of arrays, solution, difference, maximum) on the files of `writePlotFile` in two dimensions; the text of the header is not modelled, neither is matplotlib | `C128_solution`; `C128_square_partial`, `C128_max_partial` (square grids at time 1, largest difference with sign); `C128_sign_violated`, `C128_time_violated`, `C128_shape_violated` |
| C129 | `Model/ErrorTable`: the loops of `output_to_error_csv.py`, names of folders, printed levels; how numbers are read is a parameter, the order of rows and the file format are not modelled | `C129_parameters`; `C129_points_partial`, `C129_table_partial` (two or more dimensions, no empty files, no other lines with a bracket at the beginning); `C129_empty_violated`, `C129_one_dim_violated`, `C129_message_violated` |
| C130 | `Model/ExperimentList`: columns of a line, names of directories and what is in `ctparam` at the end in `run_list.py`; names without slashes, the time step as text, copies and runs are not modelled | `C130_line`, `C130_short`; `C130_names_partial`, `C130_combinations_partial`, `C130_dirs_partial` (levels with one digit; names, levels or numbers of steps differ); `C130_digits_violated`, `C130_time_step_violated` |
| C131 | `Model/ErrorNorms`: the functions of `ErrorNorms.py` on arrays of any shape with complex values without rounding; `species_index`, `L1AverageRelativeError`, `L2AverageErrorGeneField` are not modelled; division by zero is an error | `C131_zero`, `C131_units`, `C131_gene_boundary`, `C131_gene_average`, `C131_gene_zero`; `C131_relative_partial` (not L1), `C131_average_partial` (L2 with one axis), `C131_l2_gene_partial` (a sum over the last two axes, without the ends of axis 4); `C131_l1_relative_violated`, `C131_l1_axes_violated`, `C131_l2_average_violated`, `C131_l2_gene_violated`, `C131_l2_modes_violated` |
| C132 | `Model/BoundaryCheck`: the loops of `testBoundaryZ.cpp` on complex values without rounding; the boundary condition is taken from `Model/GeneTask` (`getOffsetAndFactor`); reading the file and the text of messages are not modelled | `C132_messages_partial` (which points are named); `C132_sign_violated`, `C132_silent_violated` |

## Disagreements between code and properties

Each item names the theorem with the witness. The `_partial` theorem beside it states what does hold.

| id | finding |
|---|---|
| C04 | fixed dimensions: see `C04_*_violated` |
| C05 | an 8-bit loop counter never reaches its bound for differences of 256 and more |
| C13, C17 | values outside the 32-bit range wrap (`offset` in `createSubspaceData` is `uint32_t`) |
| C20 | after a miss (-1) the next search starts from an invalid hint, one before the beginning: undefined by the standard, harmless with the usual libraries unless the first subspace is searched next |
| C21 | the maximum starts at `numeric_limits::min()`, the smallest positive number |
| C25, C26 | one-sided boundary with a non-periodic mass-conserving basis is not rejected and not invertible |
| C27 | the dispatch accepts combinations it does not handle |
| C28 | no boundary together with `lmin > 0` is only guarded by an assertion (`C28_no_boundary_lmin_violated`) |
| C32 | the chunk size is converted to `int` and wraps (`C32_violated`) |
| C33 | chunk sizes are summed up in 32 bits (`C33_violated`) |
| C34, C66 | if only some groups share subspaces on a process the collective calls do not match (`C34_violated`, `C66_outgroup_violated`) |
| C35 | a longer existing file that is not replaced keeps its end (`C35_violated`) |
| C36 | processes with different numbers of buffers make different numbers of collective reads (`C36_violated`) |
| C37 | part 1 deletes the files of part 10 (`C37_violated`) |
| C38 | a number of file parts that does not divide the number of processes (`C38_violated`) |
| C44 | lengths are read with `std::stoi` (`C44_violated`) |
| C45 | segments shorter than the rest of an element (`C45_violated`) |
| C46 | `reverseEndianness` reads behind the value (`C46_undefined`, `C46_violated`) |
| C48 | the size exchanged for one grid is divided by the number of grids (`C48_violated`); a process without values raises an exception (`C48_violated_empty`) |
| C49 | sums of sizes are formed in `int`; a unified grid of 2^31 values raises an exception (`C49_violated`); the 32-bit sum in the rule for three systems wraps (`C49_files_violated`) |
| C40 | diagnostics leave the status BUSY or are started without waiting; with `NDEBUG` the waiting in `assert(waitStatus() == ...)` vanishes (`C40_*_violated`) |
| C41 | a task rescheduled to a failed group is lost (`C41_reschedule_failed_violated`) |
| C42 | a task can be moved to its own group (`C42_own_group_violated`); a group without tasks never gets any (`C42_idle_group_ignored`); division by an average of zero (`C42_zero_average_violated`) |
| C43 | the file name arguments are received in the order in which the compiler evaluates them (`C43_violated`) |
| C50 | `levelsToIDs_` and `combiDictionary_` are not serialised; two tasks may have the same level (`C50_violated_*`) |
| C51 | without `makeFaultTolerant` levels that need a coefficient are dropped and the assertion on the sum fails (`C51_violated`); level sets with gaps (`C51_gap`, cannot come from `set_entire_downset_dict`) |
| C53 | faults that are all below the two highest diagonals are neither recombined nor recomputed (`C53_violated`) |
| C56 | at the right end of a periodic dimension the result is zero (`C56_violated`) |
| C58 | level-1 subspaces are counted with three points for all boundaries (`C58_violated`) |
| C69 | the middle and the last point are counted for the partition before if a partition begins there (`C69_violated`) |
| C59 | level 29 is accepted, its spacing is 0 (`C59_violated`) |
| C60 | an event stopped at the reading of the last write is lost (`C60_violated`); nested events of one name (`C60_violated_nested`) |
| C61 | sizes are summed up as `int` (`C61_violated`) |
| C62, C63 | unequal level differences; `lmin = lmax` |
| C68 | `getID` answers 0 for unknown levels; task 0 gets a wrong coefficient (`C68_violated`) |
| C65 | `memset` with the size of a pointer |
| C70 | dimensions with one boundary point are treated as having two: one-dimensional grids are left unchanged but marked as hierarchized (`C70_onesided_violated`), others are read out of bounds (`C70_onesided_2d_violated`) |
| C71 | in a dimension with one point that is not the last one, coordinates right of the middle give wrong values: `baseVal * 1.0 - coords[jj]` lacks parentheses (`C71_single_point_violated`); next to a missing boundary `eval` extrapolates, so it neither vanishes at the boundary (`C71_no_boundary_violated`) nor wraps around (`C71_periodic_violated`), unlike the interpolation on distributed grids |
| C74 | Interpolated values at the right end of a periodic dimension are zero (follows from C56) |
| C75 | `std::accumulate(…, 0)` adds in `int`: durations that sum up to 2^31 µs (36 minutes) give a wrong, possibly negative prediction; `lastN = 0` pops an empty deque; `evalSpecificUOT` without history divides zero by zero although the documentation promises zero |
| C77 | The header of a plot file has the dimension as one byte (not an int), always six sizes read from a vector with `dim` entries, and the values begin at (1 + dim) · 4; `tools/errorCalc.cpp` reads ints. `tools/plot_raw_slice.py` takes the last index as the fastest, the files have the first as the fastest. Gather and plot with a process without points call `MPI_Type_create_subarray` with a subsize 0, which is erroneous |
| C79 | `getLpNorm(2)`, the default, scales with the cell volume to the power `p` instead of 1 and ignores mixed terms: the constant 1 on level 1 has the norm √(1/2) (there is a TODO in the code). `ProcessManager::getLpNorm`, documented as the norm of the combined solution, combines the norms of the grids: it is 0 for a solution that is 1 at a point of all grids |
| C80 | a process that dies while it waits in reserve stays in `reusableRanks_`; in the next recovery `getReusableRanksSpare` waits for its message forever (there is a toDO in the code) |
| C81 | `decompressLZ4FrameToBuffer` throws unless there are exactly two rounds; with no values there is one round, so a file can be written but not read if a process has no values. `decompressNextBlocks` passes the beginning of the frame in every call and advances the output pointer by bytes times the size of a value; it is right only if LZ4 does everything in the first call. `decompressNextBlock` tells LZ4 that the whole buffer is free while a remainder of an incomplete value is kept at its beginning: for `complex<double>` and more than 8.4 MB per process LZ4 writes 8 bytes past the end of the buffer. Errors of LZ4 are looked for in the size instead of the return value |
| C82 | The root must be 0 (the default, never changed in `src`): `Bcast_Get_Predecessor` lacks the final `ConvertId`, so with the last of eight or more processes as root process 6 waits for the process `n`, which does not exist (`C82_other_root_violated`). The answer to a process that began a synchronisation when the communicator was revoked consists of one entry, and the process reads the second one (`C82_revoked_violated`). `MPI_Comm_agree` returns "true" if the root says so, whatever the others say, since `customReduceOp` changes the wrong vector, and living processes read `Last_Send_Vector[0]` of an empty vector (`C82_agree_violated`). |
| C83 | `uniformLevelDifference` is a nonempty list and hence always true: with different level differences and a first difference of at least the dimension the script uses the binomial formula where it does not hold, e.g. lmin = (1,1), lmax = (n+1,2): the subspace (1,1) is counted 0 times (`C83_not_uniform_violated`). If lmax is smaller than lmin in one dimension the loop never ends (`C83_no_grids_violated`). |
| C85 | If the subspaces that systems have in common have no points on a process, `copyFromPartialDsgToExtraDSG` throws "Extra DSG is not initialized" (`C85_violated`). With one group per system there is no outgroup communicator, and `waitForThirdLevelCombiResult` waits for an uninitialised `MPI_Request` (not modelled). Without chunks, `asyncBcastOutgroupDsgData` broadcasts only the first datatype if the data reach 2^31 elements (an assertion only). |
| C86 | With outgroupSparseGridReduce over the third-level manager the exchange covers only the subspaces that the third-level group has or shares with another group. A subspace that only another group of the system and the other system have is not combined between the systems, with and without extra sparse grid and without an error (`C86_violated`: 10 instead of 16). The file-based path makes the output group take part in these subspaces; the path over the manager does not. |
| C88 | Sizes and communicators are not exchanged again when a task is moved to another group. With `subspaceReduce` and `outgroupSparseGridReduce` the new group lacks subspaces of the task: `fillDFGFromDSGU` leaves the values of these subspaces zero (`C88_violated`: 0, 7, 0 instead of 1, 7, 3). With `chunkedOutgroupSparseGridReduce` the data has been deleted and `extractFromUniformSG` reads what is not there. Only `sparseGridReduce` supports rescheduling; nothing checks this. |
| C88 | A task that is moved after it has run gets the values of the last combination, and what it has computed since is lost (`C88_run_violated`); `reschedule` must be called between a combination and the next run. |
| C89 | `combiStep_` of `TaskExample` is not sent with the task. After a recovery or a reassignment it restarts at 0, so a fault configured for step `s` is missed and happens `s` steps after the tasks came back (`C89_violated`). A fault configured for step 0 never happens. |
| C89 | Nothing calls `WeibullFaults::init`, and neither the failure time nor the start time is sent to the workers. Every process that may fail is killed in combination step 1, whatever shape and scale are chosen, unless there are exactly two combinations (`C89_random_violated`). |
| C90 | `TensorIndexer::size` starts `std::accumulate` with `1U`: the product is reduced modulo 2^32 before the assertion that it fits into `IndexType` is checked. Level 1 in 21 dimensions with boundary has more than 2^33 points and passes (`C90_assertion_violated`). |
| C90 | `Types.hpp` admits all grids with boundary whose levels sum up to less than 30. Level 1 in 20 dimensions has 3^20 > 2^31 points (`C90_levels_violated`); the level sum plus the number of dimensions must be at most 30 (`C90_levels_partial`). |
| C91 | A process without points divides by zero in `hierarchizeWithBoundary` and its siblings (`getNrLocalElements() / jump`). The assertions of `setDecomposition` do not notice an empty last part: lower bounds 0, 7 at level 3 with one-sided boundary become 0, 2 at level 1, which has two points (`C91_empty_part_violated`). |
| C93 | Without a given decomposition component grids line up only for powers of two: for every other number of processes there are levels (with boundary points, arbitrarily high) on which a point belongs to different processes (`C93_line_up_violated`). Nothing checks this; on three processes the combination of grids of levels 2 and 3 silently leaves out a value (`C93_combination_violated`). One-sided boundary with `forwardDecomposition` would always line up but is excluded by an assertion (`C93_one_sided_forward`). `getStandardDecomposition` is not the default decomposition for three processes (`C93_standard_violated`), although a comment in the tests says so. |
| C94 | With all variants but `sparseGridReduce`, a group plots only the subspaces of its own tasks: values of the other groups are missing, without any error (`C94_variant_violated`); with the chunked variant the values are gone and are read nevertheless. For tasks with several grids the plotted grid is not reset between grids: subspaces which the sparse grid does not have keep the nodal values of the previous grid and are dehierarchized again (`C94_grids_violated`); for names ending in `.vtk` or without a dot all grids go to the same file (`C94_file_names_violated`). Plotting on a level with subspaces that the sparse grid does not have starts searches one before the begin of a vector, formally undefined, harmless with the usual libraries (`C94_search_after_miss`). `parallelEval` receives file name and level as two arguments of one call, whose order of evaluation is unspecified. |
| C95 | On groups with several processes the violations of C88 show in the nodal values: with variants other than `sparseGridReduce`, a task that is moved gets interpolated values at the points of subspaces which its new group did not have at the initialisation (`C95_violated`), and a task that is moved after a run goes back to the last combination (`C95_run_violated`). |
| C96 | Grids with negative coefficient do not count. For the parts `createThirdLevelScheme` makes of the classical scheme from level 1 to 3 in two dimensions, the subspace (2,1) is below grids of both parts but in neither conjoint set (`C96_complete_violated`). With a dimension that is not refined the set contains subspaces that no other system has (`C96_needed_violated`; a comment in the code mentions this). |
| C97 | If the level is reduced in several dimensions, but in none of those with the smallest difference of `lmax` and `lmin`, subspaces of several grids are missing: for (1,1,1) to (2,3,3) and reduction (0,1,1) the subspace (1,2,2), which all four grids have, is not combined (`C97_uneven_violated`). With reduced sparse grids, tasks that are moved to other groups lose what they have in the missing subspaces (`C97_move_violated`), and plots of the combined solution lack them (`C97_plot_violated`); nothing checks this. `reduceCombinationDimsLmin` is read from the parameters but never used. |
| C98 | `TaskWorker::numGridsPerTask_` is 1 and never set, so only the first grid of each task is hierarchized before and dehierarchized after a combination, while `SparseGridWorker` combines all `combiParameters_.getNumGrids()` of them: the other grids are combined by their values at common points only, without interpolation (`C98_violated`). With values of one function nothing changes (`C98_samples_unchanged`), so such tests cannot see it. `chunkedOutgroupSparseGridReduce` fails with more than one grid (`C98_chunked_violated`). |
| C99 | With the full weighting bases a combination changes the combined solution (`C99_fullWeighting_violated`), also if the biorthogonal basis is chosen for a dimension that is not periodic (`C99_biorthogonal_violated`), as it does if component grids differ in a dimension that is not hierarchized (`C99_not_hierarchized_violated`) or are coarser than the minimum level (`C99_lmin_violated`); none of this is reported. |
| C100 | `writeInterpolatedValuesPerGrid` names its data sets after the step, but opens the file of a task with `Overwrite`, so only the last step is kept (`C100_history_violated`). `writeInterpolatedValuesSingleFile` writes nothing for an empty prefix (`C100_noPrefix_violated`) and reads the time of a task that does not exist if the last group has none (`C100_lastGroup_violated`); no coordinates are undefined behaviour (`C100_noCoordinates_violated`). |
| C101 | `getAssignedLevels` computes the largest group number of the file, but does not compare it with the number of groups: if the file was made for more groups than run, all groups start without an error and some grids are run by nobody (`C101_moreGroups_violated`). A group without a grid in the file fails an assertion (`C101_noGrid_violated`). |
| C102 | With the outgroup variant over the third-level manager, a complete combination of two systems goes through and changes component grids that are all constant one to `3/4` and `1/2`, though the coefficients are consistent (`C102_violated`): the loss of shared subspaces in C86 seen in nodal values. |
| C104 | With the fault simulator switched on (`ENABLE_FT`) the process manager receives the status of a group with `Sim_FT_MPI_Irecv` and `Sim_FT_MPI_Wait` (src/manager/ProcessGroupManager.cpp l.757-767, ProcessGroupManager.hpp l.404-425), but the groups send it with plain `MPI_Send` (src/manager/ProcessGroupWorker.cpp l.425-430): the data arrive, the status message of the fault simulator does not, and Wait never returns (`C104_violated_plain_send`). `Sim_FT_MPI_Probe` never returns, because it sends its request with the tag of the data, where `Sim_FT_MPI_Send` does not look (`C104_violated_probe`). `Sim_FT_MPI_Wait` on a collective operation never returns, because the type of such a request is never set (`C104_violated_collective`). A process that was killed after it posted a receive counts as alive for the next process that sends to it (`C104_violated_killed`). |
| C105 | After a fault, new coefficients are computed (C51, C53) and sent to the workers, but the combination multiplies by `Task::getCoefficient()` (src/manager/SparseGridWorker.hpp l.403, l.435, l.1012), which is fixed when the task is constructed and which nothing assigns. The parameters on the workers are replaced without effect (`C105_ignored`), so a lost grid is counted with its old coefficient and zeros: for the grids (2,1), (1,2), (1,1) with coefficients 1, 1, -1 and a function that all of them represent, losing (2,1) turns the solution into zero instead of keeping it (`C105_violated`). Only if all lost tasks are computed again the solution is right (`C105_recomputed`). A fault in the first run is never handled: `runfirst` calls `initDsgus`, which polls for ever until the failed group waits (`C105_violated_first_run`), and before the first combination there is no solution to compute a task again from (`C105_violated_refill`). |
| C106 | The first registration of a full grid is a data race: `registerDistributedFullGrid` calls `setDataSize` for different subspaces from several threads, and each call writes all elements of `subspaces_` and `kahanDataBegin_` through `deleteSubspaceData` (`C106_register_violated`). All threads write null pointers, so in practice nothing goes wrong. `maxReduceSubspaceSizes` has the same race (`C106_maxReduce_violated`). |
| C106 | `firstprivate(sIndex)` is a lower bound only while a thread's iterations ascend. `schedule(guided)` without the modifier `monotonic` permits any order since OpenMP 5.0; then subspaces are silently skipped (`C106_order_violated`). |
| C107 | The loop over the communicators relies on the runtime handing out its iterations in ascending order, but `schedule(dynamic)` without `monotonic` does not promise this since OpenMP 5.0. With another order on one process, two groups wait for each other for ever in `MPI_Allreduce` on different communicators (`C107_order_violated`). |
| C108 | subspace_writer reads at most three scheme files, also if there are more systems: subspaces that only a later system shares are not combined (`C108_four_systems_violated`). With assertions, `reduceExtraSubspaceSizes` stops if the output group holds fewer points than the file, which happens for valid systems whose shared subspaces are on other groups (`C108_assertion_violated`). |
| C109 | The destructor of `TaskAdvection` deletes the static vector that all tasks of a process share and sets it to null, so after a task is removed from a group (`RESCHEDULE_REMOVE_TASK`), `run` of the other tasks dereferences a null pointer (`C109_removed_violated`). `stepsTotal_` is not serialized, so the current time of a task that is moved to another group is 0 (`C109_moved_time_violated`). |
| C110 | `setSpacing` is 1/(n-1) with origin 0, whatever the number of boundary points. With one boundary point the points are shown stretched to the whole interval, without boundary points they are also moved (the first point is shown at 0); a single point gives an infinite spacing. The coordinates are right only for two boundary points in every dimension (`C110_coords_iff`, `C110_coords_violated`). With more than three dimensions or elements that are not `double`, an assertion fails (`C110_dimensions_violated`). |
| C111 | Not a defect, but easily overlooked: with hat functions, with a minimum level above the level of a component grid, or with different levels in a dimension that is not hierarchized, the component grids have different masses after a combination (`C111_hat_violated`, `C111_lmin_violated`, `C111_not_hierarchized_violated`); no part of the code checks the last two. |
* C115: `advection_example.cpp` l.229 prints `i * dt` as the time of the norms after combination `i`, but `i * nsteps` time steps were done (`C115_time_violated`). The time in l.246, after the last combination, is right.
* C116: `setCheckpointRestart` (`SelalibFileTools.hpp` l.37) numbers the folders from 0 to the number of the given levels. `selalib_distributed_workers_only.cpp` l.166 calls it with the levels of one group, so with more than one group the folder of the last grid is never switched to restart and its task starts from the initial condition, without an error (`C116_restart_violated`); `createTaskFolders` gets the task numbers.
* C116: with `ct.resolution`, `lmin` and `lmax` have to be equal; the classical scheme then has no grid (C63), and `assert(levels.size() == 1)` fails (`C116_resolution_violated`), so `ctparam_fullgrid` cannot be run with assertions.
* C116: the step size is written with `std::to_string`, with six decimals; below 5e-7 the file says 0 (`C116_dt_violated`).
* C116: `combine_selalib_diagnostics.cpp` counts lines without numbers, so a header shifts the lines of the second and all further files by one (`C116_header_violated`); files of different length are combined without an error, with wrong last lines (`C116_lines_violated`).
* C117: `hdf5_interpolation_norms.py` l.136-137 and l.146-147 divide the norm of order 2 by the number of samples, not by its root. The printed norm is too small by the root of the number of samples and tends to 0 with more samples, for the constant 1 as well (`C117_order2_violated`). Relative errors are right.
* C117: `advection_example.cpp` l.82 prints the absolute error of order 2 without a root (`C117_square_violated`), so that the example and the script print different numbers under the same name for the same values (`C117_absolute_violated`).
* C117: `hdf5_interpolation_norms.py` l.74 asks whether the options are known to the parser, not whether they are given; `--relative` without `--solution` is accepted and prints absolute norms (`C117_relative_violated`).
* C117: `hdf5_reduce_datasets.py` with one file from the working directory would give the result the name of the file, which is still open (`C117_single_violated`).
* C118: `getExtraGrids` subtracts the largest lmin from the largest lmax, also if they belong to different dimensions; for different lmin there may be no extra grid, and the scheme cannot replace a failed grid (`C118_noExtra_violated`). With `lmin = lmax` and faults the script stops with an exception (`C118_single_violated`).
* C118: `preproc.py` l.173 copies the template with `cp -r`, which copies into a folder that already exists; a second run with other levels keeps the parameter files of the first run, while `spaces.dat` has the new grids (`C118_rerun_violated`).
* C118: without `spaces.dat` (`readspaces = 0`) `fileTaskIDs` stays empty, and `manager.cpp` l.333 reads behind its end for every scheme (`C118_no_file_violated`). Less than six dimensions stop the script (`C118_dims_violated`).
* C62: a difference `lmax_i - lmin_i` smaller than the largest one `m` does not limit its own dimension: `createAdaptiveCombischeme` makes the scheme between `lmin` and `lmin + c`, where `c` is `m` without all that is missing to `m` in any dimension (`C62_same_as_uniform`); `lmax` is reached if and only if all differences are equal (`C62_reaches_iff`), and there is no grid at all, without a message, if more than `m` is missing (`C62_empty_iff`), for example in three dimensions if only one is refined (`C62_empty_violated`).
* C119: with assertions, a flux-tube run cannot fill its grids twice: the first `setDFG` writes minus mode 1 to mode 0 of the upper boundary in z, and the check `GeneTask.cpp` l.614-625 of the next `setDFG` asks for zero there, before the boundary is made again (`C119_second_violated`). The check also asks the mode 0 of GENE to be zero (`C119_zero_required`).
* C119: in radially global runs the factor of the boundary condition is computed from the local index in y (l.761), so the result is wrong if y is divided among processes (`C119_y_violated`).
* C119: at the mode `nkx/2` of the upper boundary in z (l.754), and at the upper boundaries in w, v and x, the grid keeps its old contents (`C119_import`, `C119_mode_violated`).
* C119: `geneXBoundariesIncluded_` is not initialised, and the test `sizes[4] % 1 == 1` (l.200), which is made for y instead of x, is never true (`C119_flag`, `C119_flag_violated`); were the flag set, linear flux-tube runs with at least four modes would stop (`C119_flag_set`).
* C119: nonlinear flux-tube runs stop at an assertion: the constructor asks for a boundary in y, `getOffsetAndFactor` for none (`C119_nonlinear_violated`).
* C120: `AnisotropyLoadModel::eval` reads `s[2]` and `s[3]` and is undefined for less than four dimensions (`C120_dims_violated`). It is not monotone: level (2,1,1,1,1,1) has a smaller load than (1,1,1,1,1,1) (`C120_monotone_violated`).
* C121: `combine_selalib_phi` builds the sparse grid in three dimensions from the first three entries of `lmin` and `lmax`. If the smallest difference of levels only occurs in the velocities, it lacks subspaces of the component grids, and their surpluses are dropped without a message (`C121_dropped_violated`). For `lmin = lmax`, as in `ctparam_fullgrid`, the classical scheme has no grids, nothing is read, and the combined potential is zero (`C121_one_grid_violated`).
* C122: `BitAmount` is an `int` and overflows for arrays of 2^26 integers (256 MiB) and more (`C122_large_violated`). The program never calls `Sim_FT_Manipulate_bits`.
* C123: the plot file of a grid can not be compared with the checkpoint converted from the same grid: `saveCheckpoint` leaves the last point in x out, but `readPlotFile` keeps it (`C123_convert_violated`). The letter `c` that the comment in `errorCalcNew.cpp` documents for checkpoints is refused; the code expects `g` (`C123_mode_violated`). The error only compares absolute values, so that different phases are not seen (`C123_phase_violated`), and is not a number if a solution is zero (`C123_zero_violated`).
* C124: `recvDsgData` and `recvDsguFromWorker` do not look at the number of elements received; a larger buffer keeps old values at its end (`C124_short_violated`). In the exchange with the manager this is noticed, since what is sent back is too long (`C124_pretend`). A worker with an empty sparse grid makes the manager throw (`C124_empty_violated`). Two sparse grids of different sizes on a worker can not be exchanged, since the manager divides the sum of the sizes by their number (`C124_grids_violated`). The assertion in `ProcessGroupWorker.cpp` l.751 forbids grids for which more than one message is needed.
* C125: a parameter file that does not exist is broadcast as an empty one (`C125_missing_violated`). The size of a container is converted to `int`: from 2^31 elements on all processes throw (`C125_large_violated`), from 2^32 elements on only the beginning is left, also on the root (`C125_huge_violated`). The number of values of the coordinates overflows (`C125_overflow_violated`).
* C126: `SelalibTask::changeDir` goes back with `chdir("..")`, which is only right if the path of the task has one part. With a `basename` like `runs/t` the process stays in `runs` after a run (`C126_nested_violated`), and the next task is not found (`C126_second_violated`).
* C127: `get_memory_usage_kb` looks for the names of the fields anywhere in a line, so that a program called `7 VmRSS:` is said to use 7 kB (`C127_name_violated`). A status file of 8192 characters or more, for example of a user in many groups, is read beyond the end of the buffer if the field does not come earlier (`C127_long_violated`). If one process does not find the fields, the others wait for it in `MPI_Allreduce` (`C127_one_fails_violated`); if none does, the print functions print variables that were never assigned (`C127_print_violated`).
* C128: `plot_error_advection.py` reads the file with the last index as the fastest one, but `writePlotFile` writes the first one as the fastest. For square grids this only transposes the plot, because the solution is symmetric; for others the error of the exact solution is not zero (`C128_shape_violated`). A time on the command line stays a text and stops the script (`C128_time_violated`). The reported maximum is taken with sign: if all values are too large by one, -1 is reported (`C128_sign_violated`).
* C129: in `output_to_error_csv.py` the variable `line` keeps its value from the file before if a file is empty, as it is when a job has just been started. The table then has a row for this run with the errors of another one and no degrees of freedom (`C129_empty_violated`). In one dimension the level is not converted to a number and the script stops (`C129_one_dim_violated`); so it does at messages that begin with a bracket, like those of Open MPI (`C129_message_violated`).
* C130: in the directory names of `run_list.py` nothing separates the entries of a level. With entries of two digits different levels have the same name, for example (11, 1, ...) and (1, 11, ...); the second experiment replaces the parameters of the first (`C130_digits_violated`). The time step is not in the name, so a study of different time steps uses one directory for all (`C130_time_step_violated`).
* C131: in `ErrorNorms.py` `L1RelativeError` divides by the number of entries once too often, so that the approximation 0 has the relative error 1/n (`C131_l1_relative_violated`), and takes the norm of the reference without flattening it, which is an exception for three and more axes (`C131_l1_axes_violated`). `L2AverageError` divides only by the root of the first number of entries (`C131_l2_average_violated`). `L2AverageErrorGene` leaves out the first and the last entry of axis 4 (y), unlike `L1AverageErrorGene`: an error there is not seen (`C131_l2_modes_violated`), and with one or two entries there is an exception (`C131_l2_gene_violated`).
* C132: `testBoundaryZ.cpp` compares the values at the two ends in z without a factor, but `GeneTask` sets them with the factor -1 (one mode in y, offset 1). So the check names all points of correct grids where the value is not tiny, apart from the mode in the middle (`C132_sign_violated`), and a grid without messages violates the boundary condition (`C132_silent_violated`).

Further observations that are outside the model:

- `MPI_BOR` is applied to the bytes of `boost` 256-bit integers (C22, C66). The model takes the bitwise
  or of the numbers. The limb count stored in these integers is or-ed as well, which is only harmless
  as long as all ranks store the same count.
- `MPI_CHAR` is used with `MPI_BOR`; the standard defines that for integer and byte types only.
- The last iteration of the `dehierarchize_hat` kernel shifts by -1; the value is not used.
- Tags in the halo exchange are one-dimensional indices and may exceed `MPI_TAG_UB`.
- `exchangeAllData1d` with an empty partition divides by zero.
- `getReductionDatatypes` converts displacements to `int`; C34 assumes totals below 2^31 for the
  variants that allocate everything.
- `addIndexedElements` relies on MPI handing out buffers with the layout of the datatype.
- The assertion `getRawDataSize() <= chunkSize` fails for one subspace larger than the chunk.
- `getChunkedSubspaces` returns a reference to a `static thread_local` vector. The nested call in
  `collectReduceDistribute` is only safe because it is another template instantiation.
- The Kahan buffer made in `initCombinedUniDSGVector` is deleted again before it is used.
- The arrays for the constraint matrix in `set_constr_matrix` are `reserve`d, not resized, and then written.
- `get_results` reads `glp_get_col_prim`, the solution of the relaxed problem, after the integer problem
  was solved. C51 holds for all weights, so this does not matter for it.
- `LP_OPT_INTERP` for `lmin = lmax` (all dimensions are ignored) accesses empty vectors.
