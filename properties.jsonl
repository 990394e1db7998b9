{"id": "C01", "title": "Down set is exactly the box below a level", "statement": "getDownSet(l) returns every level vector k with 1 <= k <= l (componentwise) exactly once, in ascending lexicographic order, and nothing else.", "quantifier": "every dimension and every level vector", "why_tests_cant": "tests compare a few small boxes; completeness and absence of duplicates for all dimensions needs induction", "anchors": ["src/utils/LevelSetUtils.cpp: getDownSet, getDownSetRecursively"]}
{"id": "C02", "title": "Truncated sparse grid level set is exact", "statement": "createTruncatedHierarchicalLevels(lmax, lmin) produces, without duplicates and in ascending lexicographic order, exactly the level vectors k >= 1 that lie below some component grid of the truncated combination technique, i.e. those with sum_i max(k_i - (lmax_i - m), 0) <= m where m = min_i(lmax_i - lmin_i); the set is closed under taking smaller levels, so binary search on it is valid.", "quantifier": "every dimension, every lmin <= lmax", "why_tests_cant": "the recursion prunes with subset-sum checks; only a proof shows the pruning neither loses nor adds levels for all dimensions", "anchors": ["src/utils/LevelSetUtils.cpp: createTruncatedHierarchicalLevels, createTruncatedHierarchicalLevelsRec", "src/sparsegrid/DistributedSparseGridUniform.hpp: createLevels"]}
{"id": "C03", "title": "Classical combination is consistent", "statement": "For a classical scheme without fixed dimensions, the coefficients of all component grids that contain a given hierarchical level add up to exactly 1 for every level contained in some component grid (so every hierarchical contribution is counted exactly once).", "quantifier": "every dimension d, every lmin and every difference lmax - lmin = c*(1,..,1), every hierarchical level", "why_tests_cant": "the identity is a statement about alternating binomial sums in all dimensions; tests only check sum of all coefficients for small schemes", "anchors": ["src/combischeme/CombiMinMaxScheme.cpp: createClassicalCombischeme, computeCombiCoeffsClassical"]}
{"id": "C04", "title": "Component grids respect lmin/lmax in fixed dimensions", "statement": "If lmin_i == lmax_i for some dimension (the user asks not to refine it), every component grid of the classical scheme has level lmax_i in that dimension, and all grids lie between lmin and lmax.", "quantifier": "every dimension, every lmin <= lmax with any pattern of fixed dimensions", "why_tests_cant": "depends on the pattern of fixed dimensions and of their level values; tests use equal levels in fixed dimensions", "anchors": ["src/combischeme/CombiMinMaxScheme.cpp: createClassicalCombischeme l.28-53"]}
{"id": "C05", "title": "Coefficient computation terminates and covers all grids", "statement": "Computing the classical coefficients terminates and yields one coefficient per component grid, for every number of component grids.", "quantifier": "every number of component grids", "why_tests_cant": "the failing case needs at least 256 grids; no test has that many in the classical constructor", "anchors": ["src/combischeme/CombiMinMaxScheme.cpp: computeCombiCoeffsClassical l.140-148"]}
{"id": "C06", "title": "Adaptive combination coefficients are the inclusion-exclusion coefficients", "statement": "The adaptive scheme assigns to every kept grid l the coefficient sum_{z in {0,1}^d, l+z in set} (-1)^|z|, drops exactly the grids with coefficient zero, and for every level k of a downward closed set the coefficients of grids above k sum to 1.", "quantifier": "every dimension, every finite duplicate-free lexicographically sorted set of levels; consistency for every downward closed one", "why_tests_cant": "the in-place loop overwrites entries while later iterations still read the list; correctness depends on iteration order for all sets", "anchors": ["src/combischeme/CombiMinMaxScheme.cpp: computeCombiCoeffsAdaptive l.118-138, createAdaptiveCombischeme l.75-97"]}
{"id": "C07", "title": "Fault tolerance preparation does not change the combination", "statement": "makeFaultTolerant only appends grids with coefficient 0 that were not yet in the scheme and are >= lmin: the combined solution (sum of coefficient times grid function) is unchanged, existing grids keep position and coefficient.", "quantifier": "every scheme and every assignment of values to grids", "why_tests_cant": "invariance over all value assignments", "anchors": ["src/combischeme/CombiMinMaxScheme.cpp: makeFaultTolerant l.103-116"]}
{"id": "C08", "title": "Work distribution assigns every component grid to exactly one group", "statement": "Round-robin and load-balanced assignment of a scheme's grids to process groups give every (level, coefficient, task id) to exactly one group, and load balancing leaves no group with more than (total/number of groups + largest grid) degrees of freedom.", "quantifier": "every list of grids, every number of groups >= 1", "why_tests_cant": "quantifies over all schemes and group counts; the load bound is a worst-case statement", "anchors": ["src/combischeme/CombiMinMaxScheme.hpp: getRoundRobinLevels l.524-545, getLoadBalancedLevels l.547-591, getAssignedLevels l.492-522"]}
{"id": "C09", "title": "Splitting a scheme across systems is a partition", "statement": "createThirdLevelScheme/decomposeScheme hands every component grid, with its coefficient, to exactly one system, in order, whatever the requested fractions.", "quantifier": "every scheme, every number of systems, every fraction vector summing to 1", "why_tests_cant": "depends on rounding of scanned fractions for all sizes", "anchors": ["src/combischeme/CombiThirdLevelScheme.cpp: decomposeScheme l.31-66, createThirdLevelScheme l.7-29"]}
{"id": "C10", "title": "The hypercube down-set generator enumerates the whole box", "statement": "Repeatedly asking the generator for the next level until it reports finished yields every level of the box exactly once.", "quantifier": "every dimension and every upper corner", "why_tests_cant": "tests use isotropic boxes only", "anchors": ["src/utils/LevelSetUtils.hpp: HypercubeDownSetGenerator l.92-139"]}
{"id": "C11", "title": "Linear index and vector index are inverse bijections", "statement": "For a tensor of given extents, mapping a vector index to its linear index and back is the identity, every linear index below the size is hit exactly once, and the order is column-major.", "quantifier": "every dimension and all positive extents", "why_tests_cant": "a bijection over all extents", "anchors": ["src/fullgrid/Tensor.hpp: TensorIndexer::sequentialIndex, getVectorIndex, setExtents l.17-94"]}
{"id": "C12", "title": "Every grid point is owned by exactly one process", "statement": "For every valid decomposition, every global index vector lies between the lower and upper bounds of exactly one rank of the process grid, the neighbour lookup by axis index finds that rank, and the local sizes of all ranks multiply/sum to the number of points, which is the number of degrees of freedom reported for the grid.", "quantifier": "every process grid, every decomposition starting at 0 and ascending, every point", "why_tests_cant": "combinatorial over process grids; off-by-one at partition borders", "anchors": ["src/fullgrid/DistributedFullGrid.hpp: getLowerBounds, getUpperBounds, getNeighbor1dFromAxisIndex, setDecomposition", "src/utils/DecompositionUtils.hpp: getDefaultDecomposition"]}
{"id": "C13", "title": "Local and global linear indices translate back and forth", "statement": "On every process, converting a local linear index to the global one and back with the public accessors is the identity, and the global index denotes the same grid point.", "quantifier": "every grid, every decomposition, every local point", "why_tests_cant": "tests only exercise decompositions for which the faulty direction happens to be right", "anchors": ["src/fullgrid/DistributedFullGrid.hpp: getGlobalLinearIndex l.784-797, getLocalLinearIndex l.806-820"]}
{"id": "C14", "title": "Each 1-d grid point has exactly one hierarchical level", "statement": "The hierarchical level of a 1-d index is unique, between 0/1 and the grid's level, and per level the enumerated local indices of all processes together are exactly the points of that level, each once, in ascending order; their number per level is the hierarchical subspace size.", "quantifier": "every level, every boundary flag, every decomposition", "why_tests_cant": "all levels and all decompositions; stride/offset arithmetic", "anchors": ["src/fullgrid/DistributedFullGrid.hpp: getLevel l.984-1016, get1dIndicesLocal l.1343-1363, getLocalStartForThisLevel l.1820-1855, getStrideForThisLevel, getNumPointsOnThisPartition", "src/utils/LevelSetUtils.hpp: getNumDofHierarchical"]}
{"id": "C15", "title": "Hierarchical predecessors are the neighbouring coarser points", "statement": "The left and right hierarchical predecessor of a point are the closest points to the left/right with strictly smaller level, and are reported missing exactly when no such point exists.", "quantifier": "every level, boundary flag and index", "why_tests_cant": "quantifies over all levels and indices", "anchors": ["src/fullgrid/DistributedFullGrid.hpp: getLeftPredecessor l.1019, getRightPredecessor l.1032-1051"]}
{"id": "C16", "title": "Downsampled decompositions keep points on the same process", "statement": "When the decomposition of the finest grid is downsampled to a coarser component grid, every coarse grid point is owned by the process that owns the same spatial point on the finest grid (so subspaces of different grids line up across groups).", "quantifier": "every pair of levels, boundary flag, decomposition and point", "why_tests_cant": "needed for all component grids simultaneously", "anchors": ["src/utils/DecompositionUtils.hpp: downsampleDecomposition l.65-91"]}
{"id": "C17", "title": "Sparse grid storage: subspaces tile the data buffer", "statement": "After allocation, the subspaces selected for allocation occupy consecutive, pairwise disjoint intervals of the buffer that cover it completely, so writing one subspace never changes another; unselected ones have no storage.", "quantifier": "every list of subspace sizes and every selection", "why_tests_cant": "aliasing freedom for all size vectors", "anchors": ["src/sparsegrid/DistributedSparseGridUniform.hpp: createSubspaceData l.46-74, getData, getAllocatedDataSize"]}
{"id": "C18", "title": "Gather-scatter to the sparse grid combines linearly", "statement": "Adding component grids with coefficients c_g into a zeroed sparse grid and extracting again gives, at every hierarchical point contained in the sparse grid, the sum of c_g times the value at the same point over the grids containing it, and leaves points outside untouched (exact arithmetic).", "quantifier": "every set of component grids whose levels' subspaces have consistent sizes, every coefficient and data", "why_tests_cant": "holds for all data and all collections of grids", "anchors": ["src/sparsegrid/DistributedSparseGridUniform.hpp: addDistributedFullGrid l.814-866, registerDistributedFullGrid l.774-803", "src/fullgrid/DistributedFullGrid.hpp: extractFromUniformSG l.1308-1340, getFGPointsOfSubspace l.1282-1304"]}
{"id": "C19", "title": "Points of a subspace are enumerated exactly once and consistently", "statement": "For every hierarchical subspace, the list of local points contains exactly the local grid points whose level is that subspace's level, each once; the lists of all subspaces of a grid partition its local points, and two grids of a process group that share the subspace list the same spatial points in the same order.", "quantifier": "every grid, subspace and decomposition", "why_tests_cant": "the ordering consistency over all pairs of component grids is what makes summing raw buffers meaningful", "anchors": ["src/fullgrid/DistributedFullGrid.hpp: getFGPointsOfSubspace l.1282-1304, getFGPointsOfSubspaceRecursive l.1791-1808"]}
{"id": "C20", "title": "Subspace search with a hint finds the subspace or reports absence", "statement": "Looking up a subspace with the position hint returned by the previous look-up gives the same answer as a fresh search; in particular after a failed look-up the next one still works.", "quantifier": "every sorted list of levels, every ascending sequence of queries", "why_tests_cant": "requires a query sequence with a miss; code paths in tests always hit", "anchors": ["src/sparsegrid/DistributedSparseGridUniform.hpp: getIndexInRange l.575-591, registerDistributedFullGrid, addDistributedFullGrid"]}
{"id": "C21", "title": "Subspace minimum/maximum statistics are correct", "statement": "The reported minimum and maximum coefficient of a subspace are the minimum and maximum of its data.", "quantifier": "all data", "why_tests_cant": "fails only for all-negative data", "anchors": ["src/sparsegrid/DistributedSparseGridUniform.hpp: accumulateMinMaxCoefficients l.732-762"]}
{"id": "C22", "title": "Subspace communicators agree on all processes", "statement": "After the subspace vote, two groups that both hold a subspace put it in the same communicator; every subspace shared by a set of groups is reduced in exactly one communicator, whose members are exactly the groups holding it, and all members list its subspaces in the same order.", "quantifier": "every number of groups up to the supported 256 and every assignment of subspaces to groups", "why_tests_cant": "all subsets of groups; mismatch leads to deadlock at run time", "anchors": ["src/sparsegrid/AnyDistributedSparseGrid.cpp: getSubspaceVote l.125-152, setSubspaceCommunicators l.221-275, setOutgroupCommunicator l.154-219"]}
{"id": "C23", "title": "Hierarchization with hat functions is invertible", "statement": "Dehierarchizing a hierarchized pole returns the original values (exact arithmetic), for grids with, without and with one-sided boundary, for any minimum level.", "quantifier": "every level, minimum level, boundary type, all data", "why_tests_cant": "all levels and data", "anchors": ["src/hierarchization/DistributedHierarchization.hpp: hierarchize_hat_boundary_kernel l.641-670, dehierarchize_hat_boundary_kernel l.775-803, hierarchizeNoBoundary l.968-1044, dehierarchizeNoBoundary l.1050-1123"]}
{"id": "C24", "title": "Hat surplus is the value minus the mean of the hierarchical neighbours", "statement": "After hat hierarchization every point of level above the minimum holds original value minus half the sum of the original values at its two hierarchical predecessors (0 for a missing one without boundary); coarser points keep their values. Piecewise linear functions therefore have zero surplus.", "quantifier": "every level, boundary type, all data", "why_tests_cant": "closed form for all levels", "anchors": ["src/hierarchization/DistributedHierarchization.hpp: hierarchize_hat_boundary_kernel, hierarchizeNoBoundary"]}
{"id": "C25", "title": "Full weighting and biorthogonal transforms are invertible", "statement": "Dehierarchizing with the full-weighting or biorthogonal basis after hierarchizing returns the original values; in the periodic variants this holds for periodic data.", "quantifier": "every level, minimum level, all data", "why_tests_cant": "all levels and data", "anchors": ["src/hierarchization/DistributedHierarchization.hpp: hierarchize_full_weighting_boundary_kernel l.684-718, hierarchize_biorthogonal_boundary_kernel l.731-772, dehierarchize_* l.809-887"]}
{"id": "C26", "title": "Mass-conserving transforms conserve the integral", "statement": "For the full-weighting and biorthogonal bases, the trapezoidal integral of the coarse-level values equals the integral of the fine data at every step of the hierarchization, so truncating fine surpluses conserves mass.", "quantifier": "every level, all data", "why_tests_cant": "invariant over all levels", "anchors": ["src/hierarchization/DistributedHierarchization.hpp: hierarchize_full_weighting_boundary_kernel, hierarchize_biorthogonal_boundary_kernel"]}
{"id": "C27", "title": "Selecting a basis applies that basis", "statement": "Asking for the (non-periodic) biorthogonal basis hierarchizes with the biorthogonal transform.", "quantifier": "every basis choice", "why_tests_cant": "round-trip tests cannot notice, since the two directions are wrong consistently", "anchors": ["src/hierarchization/DistributedHierarchization.hpp: hierarchize l.1129-1187, dehierarchize l.1212-1270"]}
{"id": "C28", "title": "Distributed hierarchization equals serial hierarchization", "statement": "For the hat basis, each process ends with the same values as if the whole pole was hierarchized on one process, whatever the decomposition and whatever stale data is in the scratch buffer.", "quantifier": "every level, decomposition, data and scratch contents", "why_tests_cant": "all decompositions; stale scratch contents are schedule dependent", "anchors": ["src/hierarchization/DistributedHierarchization.hpp: exchangeData1d l.324-412, checkLeftSuccesors, checkRightSuccesors, checkPredecessors, hierarchizeWithBoundary l.894-962"]}
{"id": "C29", "title": "Halo exchange is matched", "statement": "In the 1-d exchange every index a process expects from another is sent by that other process and vice versa, with equal message sizes, so the exchange cannot deadlock or deliver wrong points.", "quantifier": "every level, boundary flag and decomposition", "why_tests_cant": "deadlock freedom for all decompositions", "anchors": ["src/hierarchization/DistributedHierarchization.hpp: exchangeData1d l.324-412, exchangeData1dDehierarchization l.423-448, sendAndReceiveIndicesBlock l.92-244"]}
{"id": "C30", "title": "Multi-dimensional hierarchization is independent of dimension order", "statement": "Applying the 1-d transforms dimension by dimension gives the same result in every order of dimensions; dehierarchizing in the same order as hierarchizing restores the data.", "quantifier": "every number of dimensions, all 1-d linear transforms per dimension, all data", "why_tests_cant": "all permutations and data", "anchors": ["src/hierarchization/DistributedHierarchization.hpp: hierarchize l.1129-1187, dehierarchize l.1212-1270"]}
{"id": "C31", "title": "Chunked reduction equals whole reduction", "statement": "The chunked global reduction communicates every element exactly once, in order, each call at most the chunk size, and its result equals reducing the whole buffer at once; all groups make the same sequence of calls.", "quantifier": "every buffer size, chunk size >= 1, number of groups, data", "why_tests_cant": "all sizes around multiples of the chunk size", "anchors": ["src/combicom/CombiCom.hpp: distributedGlobalSparseGridReduce l.116-165"]}
{"id": "C32", "title": "The chunk size in elements is positive for every configured size", "statement": "Converting the user's chunk size in MiB to a number of elements gives a positive number at least one and at most the configured size, for every 32-bit setting.", "quantifier": "every uint32 chunk size and thread count", "why_tests_cant": "fails only for huge settings", "anchors": ["src/combicom/CombiCom.hpp: getGlobalReduceChunkSize l.86-98"]}
{"id": "C33", "title": "Subspace chunking is a partition in order with bounded chunks", "statement": "Splitting the subspaces of a communicator into chunks puts every subspace in exactly one chunk, keeps the order, never produces an empty chunk, and a chunk exceeds the size limit only if it is a single subspace; processes with the same sizes make the same chunks.", "quantifier": "every list of sizes and every limit", "why_tests_cant": "greedy loop over all size sequences, 32-bit overflow", "anchors": ["src/combicom/CombiCom.hpp: getChunkedSubspaces l.232-257, getReductionDatatypes l.275-311"]}
{"id": "C34", "title": "Chunked combination equals full combination", "statement": "Combining chunk by chunk (allocate a chunk, add all grids, reduce, extract, free) yields the same component-grid values as combining with the whole sparse grid allocated at once.", "quantifier": "every set of grids, coefficients, data, chunking", "why_tests_cant": "all chunkings and data", "anchors": ["src/manager/SparseGridWorker.hpp: collectReduceDistribute l.365-452", "src/combicom/CombiCom.hpp: distributedGlobalSubspaceReduce l.334-397"]}
{"id": "C35", "title": "Sparse grid file round trip", "statement": "Writing the sparse grid data of all processes to one file and reading it back with the same distribution restores every process's data; if the sizes do not match, reading fails with an error rather than returning wrong data.", "quantifier": "every number of processes, every distribution of values, every data, any previous file content", "why_tests_cant": "all distributions and histories of the file", "anchors": ["src/io/MPIInputOutput.hpp: writeValuesConsecutive, readValuesConsecutive, checkFileSizeConsecutive l.195-212, getFileToWrite l.67-112"]}
{"id": "C36", "title": "Read-and-reduce adds each value exactly once", "statement": "Reading a file and reducing it into the local data combines each local value with the corresponding file value exactly once, for every buffer size, and all processes take part in the same number of collective reads.", "quantifier": "every buffer size, number of values per process, data", "why_tests_cant": "depends on relation between buffer size and the sizes on other ranks", "anchors": ["src/io/MPIInputOutput.hpp: readReduceValuesConsecutive l.240-267, readMultipleReduceValuesConsecutive l.278-321"]}
{"id": "C37", "title": "Removing the files of one part keeps the files of other parts", "statement": "Cleaning up the files of output part n never deletes files belonging to a different part.", "quantifier": "every part number and directory contents", "why_tests_cant": "needs at least 10 parts", "anchors": ["src/manager/SparseGridWorker.hpp: removeReadingFiles l.1057-1083"]}
{"id": "C38", "title": "Output ranks: one process per in-group position", "statement": "The output group contains exactly one process for each position inside a process group, in order of position, taken from the groups in turn; file parts split it evenly into the requested number of parts.", "quantifier": "every number of groups, processes per group and file parts", "why_tests_cant": "all combinations of sizes", "anchors": ["src/mpi/MPISystem.cpp: getDiagonalRanks l.424-437, initOutputGroupComm l.439-474"]}
{"id": "C39", "title": "Communicators form a grid", "statement": "Each worker belongs to exactly one local and one reduce communicator, any local and reduce communicator share exactly one process, and a process's rank in its reduce communicator is its group number; the manager is in neither.", "quantifier": "every number of groups and processes per group", "why_tests_cant": "all process counts", "anchors": ["src/mpi/MPISystem.cpp: initLocalComm l.251-260, initGlobalReduceCommm l.403-421, initGlobalComm l.303-361"]}
{"id": "C40", "title": "The manager considers a group idle only when it is idle", "statement": "Whenever the manager sees status WAIT for a group, that group has finished every command sent to it, for every interleaving of manager and worker.", "quantifier": "every command sequence and every interleaving", "why_tests_cant": "schedule dependent", "anchors": ["src/manager/ProcessGroupManager.cpp: sendSignalAndReceive l.56, doDiagnostics l.625-639", "src/manager/ProcessGroupManager.hpp: getStatus l.369, waitStatus l.404", "src/manager/ProcessGroupWorker.cpp: wait l.141-440"]}
{"id": "C41", "title": "Tasks are never lost or duplicated", "statement": "At any time after the first run, across runs, reschedules and redistributions, each component grid task is held by exactly one group, and the manager's list for each group is the same (same order) as the list on the group's workers.", "quantifier": "every sequence of manager operations", "why_tests_cant": "history dependent", "anchors": ["src/manager/ProcessManager.cpp: runfirst l.29-59, redistribute l.182, reschedule l.583-613", "src/manager/ProcessGroupManager.cpp: storeTaskReferenceAndSend l.23, rescheduleRemoveTask l.784-807", "src/manager/ProcessGroupWorker.cpp: wait (RUN_FIRST, RESCHEDULE_ADD_TASK, RESCHEDULE_REMOVE_TASK)"]}
{"id": "C42", "title": "Rescheduling moves are sane", "statement": "The rebalancing rescheduler returns at most max_iterations moves, moves each task at most once, only to groups that exist, never to the group that already has it, and only when the move is predicted to help.", "quantifier": "every assignment of levels to groups, durations and load model", "why_tests_cant": "all load distributions", "anchors": ["src/rescheduler/RebalancingTaskRescheduler.cpp: eval l.9-122"]}
{"id": "C43", "title": "File names reach the right parameter", "statement": "When the manager asks a group to write or read sparse grid files with several name strings, the worker uses each string for the parameter the manager meant.", "quantifier": "every evaluation order of function arguments allowed by the C++ standard", "why_tests_cant": "compiler dependent", "anchors": ["src/manager/ProcessGroupWorker.cpp: wait l.206-225", "src/manager/ProcessGroupManager.cpp: combineThirdLevelFileBased, writeDSGsToDisk, readDSGsFromDisk"]}
{"id": "C44", "title": "Text messages survive any segmentation", "statement": "A sequence of length-prefixed messages sent over a stream socket is received as the same sequence of messages however the network segments the byte stream, also when messages contain the delimiter.", "quantifier": "every sequence of nonempty messages and every segmentation", "why_tests_cant": "segmentation is decided by the network", "anchors": ["src/third_level/NetworkUtils.cpp: sendallPrefixed l.76-91, recvLength l.172-198, recvallPrefixed l.200-218, recvall l.149-170"]}
{"id": "C45", "title": "Binary data survives any segmentation", "statement": "Binary values received over a stream socket (stored or added in place) equal the values sent however recv() splits the stream.", "quantifier": "every element size, data and segmentation", "why_tests_cant": "segmentation is decided by the network", "anchors": ["src/third_level/NetworkUtils.hpp: recvallBinaryAndCorrectInPlace l.186-274, recvallBinaryAndReduceInPlace l.295-394"]}
{"id": "C46", "title": "Endianness conversion is an involution", "statement": "Converting the byte order of a value reads exactly the value's bytes, and converting twice gives the value back.", "quantifier": "every value and size", "why_tests_cant": "needs two machines with different endianness", "anchors": ["src/third_level/NetworkUtils.hpp: reverseEndianness l.157-169"]}
{"id": "C47", "title": "The third-level manager forwards data unchanged", "statement": "Forwarding size bytes from one system to the other delivers exactly the first size bytes of the stream in order, leaves later bytes unread, for every chunk size and segmentation.", "quantifier": "every chunk size >= 1, size, stream, segmentation", "why_tests_cant": "segmentation is decided by the network", "anchors": ["src/third_level/NetworkUtils.cpp: forward l.373-408", "third_level_manager/thirdLevelManager.cpp: forwardData l.281-293"]}
{"id": "C48", "title": "Third-level combination terminates with the same sum on both systems", "statement": "When two systems combine through the third-level manager, for every order in which their requests arrive, the exchange runs to completion without deadlock and both systems end with the sum of both data sets for every grid.", "quantifier": "every request order, number of grids, data and interleaving", "why_tests_cant": "three concurrent parties", "anchors": ["third_level_manager/thirdLevelManager.cpp: processCombination l.146-176, runtimeLoop l.104-123", "src/manager/ProcessManager.hpp: combineThirdLevel l.505", "src/manager/ProcessGroupManager.cpp: exchangeDsgus l.386-421"]}
{"id": "C49", "title": "Size unification gives both systems the same sizes", "statement": "After unifying subspace sizes both systems have the same size list: the elementwise minimum for the conjoint grid (subspaces both have) and the elementwise maximum otherwise.", "quantifier": "every pair of size lists", "why_tests_cant": "all size lists", "anchors": ["src/manager/ProcessGroupManager.cpp: reduceLocalAndRemoteSubspaceSizes l.253-327", "src/manager/SparseGridWorker.hpp: reduceExtraSubspaceSizes l.917-996"]}
{"id": "C50", "title": "Broadcast parameters are complete", "statement": "Combination parameters received by a worker behave as the ones of the manager for every accessor; the coefficient looked up by task id and by level always agree, also after updates.", "quantifier": "every parameter set and sequence of coefficient updates", "why_tests_cant": "all histories of updates; a missing field only shows for accessors tests do not call", "anchors": ["src/manager/CombiParameters.hpp: setLevelsCoeffs l.279-305, setCoeff l.270-274, getCoeff, getID l.323, serialize l.547-569"]}
{"id": "C51", "title": "Fault recovery coefficients are consistent and avoid failed grids", "statement": "For every choice of hierarchical weights the recomputed coefficients c reproduce them (the coefficients of the grids above a level sum to that level's weight), and whenever the optimisation constraint holds the coefficient of each failed grid is zero.", "quantifier": "every finite set of levels, every weight vector", "why_tests_cant": "matrix identity in all dimensions", "anchors": ["src/fault_tolerance/FTUtils.cpp: get_inv_M l.83-117, create_aux_entire_dict l.169, select_coeff_downset l.403, create_out_dict l.229", "src/fault_tolerance/LPOptimizationInterpolation.cpp: set_constr_matrix l.172-193, get_results l.203-337"]}
{"id": "C52", "title": "The fault-recovery level set is complete", "statement": "The multi-index enumeration lists every level in the cube up to the largest level with sum at most |lmax| exactly once, and the recovery down set consists of exactly the levels between lmin and some grid with positive coefficient.", "quantifier": "every dimension, lmin, lmax and scheme", "why_tests_cant": "odometer loop in all dimensions", "anchors": ["src/fault_tolerance/FTUtils.cpp: mindex l.287-317, set_entire_downset_dict l.119-167"]}
{"id": "C53", "title": "Faults are partitioned into recombined and recomputed", "statement": "Every failed grid is either handled by new coefficients (and has coefficient zero) or scheduled for recomputation, never both.", "quantifier": "every set of faults", "why_tests_cant": "all fault sets", "anchors": ["src/manager/ProcessManager.hpp: recomputeOptimumCoefficients l.727-789", "src/fault_tolerance/LPOptimizationInterpolation.cpp: LP_OPT_INTERP l.6-59", "src/fault_tolerance/FTUtils.cpp: filter_faults l.206-227"]}
{"id": "C54", "title": "Static fault injection fires exactly as configured", "statement": "A process fails in a combination step exactly if the configured list contains the pair (step, rank).", "quantifier": "every configured list, step, rank", "why_tests_cant": "all lists, with repeated steps", "anchors": ["src/fault_tolerance/StaticFaults.cpp: failNow l.10-27"]}
{"id": "C55", "title": "Interpolation coordinates survive serialization", "statement": "Serializing a nonempty list of coordinates of equal dimension and deserializing with that dimension returns the list.", "quantifier": "every nonempty list, dimension >= 1", "why_tests_cant": "all lists", "anchors": ["src/utils/MonteCarlo.cpp: serializeInterpolationCoords l.12-21, deserializeInterpolationCoords l.23-39"]}
{"id": "C56", "title": "Distributed interpolation equals multilinear interpolation", "statement": "The sum over all processes of their local evaluation at a coordinate equals the multilinear interpolant of the whole grid; at a grid point it is the value there, and constant functions are reproduced on grids with boundary.", "quantifier": "every grid, decomposition, coordinate in the domain, data", "why_tests_cant": "all coordinates, including points on partition borders", "anchors": ["src/fullgrid/DistributedFullGrid.hpp: evalLocal l.1174-1212, evalIndexAndAllUpperNeighbors l.1102-1165, getInterpolatedValues l.1215"]}
{"id": "C57", "title": "Waiting for exchange files reads every file exactly once", "statement": "When several systems exchange files, the reader reduces each of the other systems' files exactly once, for every order in which the token files appear.", "quantifier": "every arrival schedule and number of systems", "why_tests_cant": "schedule dependent", "anchors": ["src/manager/SparseGridWorker.hpp: readReduce l.859-914"]}
{"id": "C58", "title": "Level counts for partitions add up", "statement": "The number of degrees of freedom computed per partition adds up over all partitions to the number of degrees of freedom of the sparse grid.", "quantifier": "every sparse grid level set, boundary, decomposition", "why_tests_cant": "all decompositions", "anchors": ["src/combischeme/CombiMinMaxScheme.hpp: getPartitionedNumDOFSG l.327-404, getSGDegreesOfFreedomFromDownSet l.252, getHighestIndexInHierarchicalSubspaceLowerThanNodalIndexOnLref l.289-325"]}
{"id": "C59", "title": "Powers of two are correct for every admitted level", "statement": "For every level accepted by the grid constructors, the number of points and the grid spacing computed from the level are those of a grid with 2^level cells.", "quantifier": "every admitted level", "why_tests_cant": "only the largest admitted level fails", "anchors": ["src/utils/PowerOfTwo.hpp: powerOfTwo, oneOverPowOfTwo", "src/fullgrid/DistributedFullGrid.hpp: DistributedFullGrid l.615-658"]}
{"id": "C60", "title": "Timing events are written exactly once", "statement": "Over any sequence of started and stopped events and partial writes, each finished event of nonzero duration that stopped before the last write is written exactly once.", "quantifier": "every history of events and writes", "why_tests_cant": "history dependent", "anchors": ["src/utils/Stats.hpp: writePartial l.204-278, stopEvent l.289"]}
{"id": "C61", "title": "Concatenated output preserves rank order", "statement": "The file written from per-process pieces is the concatenation of the pieces in rank order.", "quantifier": "every number of processes and pieces", "why_tests_cant": "all sizes", "anchors": ["src/io/FileInputOutput.cpp: writeConcatenatedFileRootOnly l.11-49", "src/io/MPIInputOutput.hpp: getPositionFromNumValues l.47"]}
{"id": "C62", "title": "Adaptive scheme reaches lmax and stays within the bounds", "statement": "The component grids created between lmin and lmax by the adaptive scheme constructor all have positive levels not above lmax, and in every dimension some grid reaches the requested maximum level.", "quantifier": "every pair lmin <= lmax of positive level vectors, any dimension", "why_tests_cant": "the defect needs level differences of unequal size; all pairs of vectors", "anchors": ["src/combischeme/CombiMinMaxScheme.cpp: createAdaptiveCombischeme l.75-97, getFurthestCorner l.66-73"]}
{"id": "C63", "title": "One coefficient per component grid, also without refinement", "statement": "A classical scheme has as many coefficients as component grids, the grids are pairwise distinct, and for lmin = lmax there is a single grid with coefficient 1.", "quantifier": "every pair lmin <= lmax", "why_tests_cant": "all pairs of vectors; the degenerate case lmin = lmax is not reached by regular schemes", "anchors": ["src/combischeme/CombiMinMaxScheme.cpp: createClassicalCombischeme l.5-64"]}
{"id": "C64", "title": "The sparse grid's subspaces are those of all component grids", "statement": "The set of hierarchical subspaces computed from a scheme (from the grids with coefficient 1) equals the set of subspaces contained in any of its component grids.", "quantifier": "every adaptive scheme, every subspace level", "why_tests_cant": "all schemes; relies on every maximal grid having coefficient 1", "anchors": ["src/combischeme/CombiMinMaxScheme.hpp: createDownSet l.117-128"]}
{"id": "C65", "title": "The Kahan buffer is cleared exactly", "statement": "Creating the Kahan summation buffer zeroes every byte of that buffer and no byte outside it.", "quantifier": "every element type and every set of subspace sizes", "why_tests_cant": "the element size is a template parameter; the tests use double, for which pointer and element size coincide", "anchors": ["src/sparsegrid/DistributedSparseGridUniform.hpp: createKahanBuffer l.77-98"]}
{"id": "C66", "title": "Members of the outgroup communicator agree", "statement": "All ranks that join the communicator for subspaces shared with other groups use the same subspace list and sizes, and a rank joins iff it holds such a subspace.", "quantifier": "every assignment of subspaces to ranks", "why_tests_cant": "all assignments; only a debug assertion guards it", "anchors": ["src/sparsegrid/AnyDistributedSparseGrid.cpp: setOutgroupCommunicator l.154-219"]}
{"id": "C67", "title": "Monte-Carlo comparison across systems agrees", "statement": "When two systems interpolate at random points through the third-level manager, the exchange completes for every arrival order and both systems end with the same points, those drawn by one of them, and the same values, the sums of both systems' interpolations at these points.", "quantifier": "every arrival order and interleaving, every set of points, debug and release builds", "why_tests_cant": "interleavings; the protocol differs between debug and release builds", "anchors": ["src/manager/ProcessManager.cpp: monteCarloThirdLevel l.514-575", "third_level_manager/thirdLevelManager.cpp: processAnyData l.235-268"]}
{"id": "C68", "title": "Restoring the scheme restores the coefficients", "statement": "After restoreCombischeme, every task whose level is in the newly created scheme has the coefficient the scheme gives to this level, by number and by level; other tasks keep theirs.", "quantifier": "every parameter set, history of updates and scheme", "why_tests_cant": "tests restore a scheme whose levels all belong to tasks; lookups of unknown levels silently give task 0", "anchors": ["src/manager/ProcessManager.cpp: restoreCombischeme l.342-356", "src/manager/CombiParameters.hpp: getID l.323, setCoeff l.270-274"]}
{"id": "C69", "title": "Degrees of freedom per partition are those stored there", "statement": "The number of degrees of freedom computed for each partition equals the number of points of the sparse grid's subspaces that the distributed grid stores on this partition.", "quantifier": "every sparse grid level set, reference level and decomposition", "why_tests_cant": "all decompositions, in particular partitions that begin at special points", "anchors": ["src/combischeme/CombiMinMaxScheme.hpp: getPartitionedNumDOFSG l.327-404, getHighestIndexInHierarchicalSubspaceLowerThanNodalIndexOnLref l.289-325"]}
{"id": "C70", "title": "Serial and distributed hierarchization agree", "statement": "Hierarchizing a full grid that is not distributed gives the hierarchical surpluses of its hat function interpolant, the same values as the hierarchization of distributed grids, and dehierarchizing restores the nodal values.", "quantifier": "every dimension, level vector, boundary flags and data", "why_tests_cant": "all levels, flags and data; tests compare finitely many grids", "anchors": ["src/hierarchization/Hierarchization.hpp"]}
{"id": "C71", "title": "Evaluating a full grid interpolates its values", "statement": "Evaluating a full grid at a point of the unit cube gives the value of the multilinear interpolant of the stored values (their extrapolation from the next cell where a boundary is missing), in particular the stored value at a grid point; adding a grid on other levels adds its interpolant at every point.", "quantifier": "every dimension, level vector, boundary flags, values and coordinates", "why_tests_cant": "all levels, flags, points and orders of dimensions", "anchors": ["src/fullgrid/FullGrid.hpp: eval l.411-513, getCoords l.518-529, add l.725-756"]}
{"id": "C72", "title": "Level and index of a point determine it", "statement": "For every point of a full grid getLI gives levels not above the grid's and odd indices (zero at the left boundary) whose quotient index / 2^level is the coordinate; different points have different levels and indices.", "quantifier": "every dimension, level vector, boundary flags and point", "why_tests_cant": "all grids and points", "anchors": ["src/fullgrid/FullGrid.hpp: getLI l.533-566"]}
{"id": "C73", "title": "Combining grids that agree changes nothing", "statement": "With coefficients from the classical or adaptive schemes, combining component grids that agree with each other leaves every value as it was, and combining a second time gives the same as combining once. For complete combinations (hierarchize, combine, dehierarchize) the same holds for nodal values: twice is once for all invertible bases, and with hat functions grids that hold the values of one function are not changed.", "quantifier": "every set of component grids, distribution to groups, variant and chunk size in the scope of C34, every values; hierarchical values on every process layout, complete combinations with one process per group", "why_tests_cant": "all functions, grids and group layouts; tests compare a few sample functions up to a tolerance", "anchors": ["src/manager/ProcessGroupWorker.cpp: combineAtOnce l.537-564", "src/manager/TaskWorker.hpp: hierarchizeFullGrids l.86-107, dehierarchizeFullGrids l.29-48"]}
{"id": "C74", "title": "Interpolated values are the combination of the component interpolants", "statement": "interpolateValues leaves on every process of every group, for every coordinate, the sum over all component grids on all groups of coefficient times multilinear interpolant; functions of the sparse grid space (sums of hat functions of levels that the scheme contains) are reproduced exactly at every coordinate of the domain.", "quantifier": "every distribution of tasks to groups, process grid, decomposition, list of coordinates, boundary flags, classical scheme, function of the sparse grid space", "why_tests_cant": "all coordinates and functions; each process computes a part of each interpolant, tests compare sums for a few layouts up to a tolerance", "anchors": ["src/manager/InterpolationWorker.hpp: interpolateValues l.10-50", "src/fullgrid/DistributedFullGrid.hpp: evalLocal l.1174-1212"]}
{"id": "C75", "title": "The average-of-last-n load model averages the last n durations", "statement": "After any sequence of addDurationInformation, the prediction of AverageOfLastNLoadModel for a task is the average of its last min(n, number received) durations, in whole microseconds; durations of other tasks do not change it; without durations it is the prediction of the fallback model (eval) or zero (evalSpecificUOT).", "quantifier": "every n, every set of tasks, every sequence of durations of any tasks, every level vector", "why_tests_cant": "all histories and durations; the sum overflows only for durations of more than half an hour", "anchors": ["src/loadmodel/AverageOfLastNLoadModel.cpp: l.7-43", "src/loadmodel/AverageOfLastNLoadModel.hpp: documentation of evalSpecificUOT"]}
{"id": "C76", "title": "The averaging load model records every duration once and learns from it", "statement": "Every duration given to AveragingLoadModel is in the file of its level after destruction exactly once and in order, behind what earlier runs wrote, and no other file changes; the internal bound of 50 entries is never exceeded; the prediction is the average of the durations since the last write to the file, else the average of all recorded durations of earlier runs, else the linear model 2^|l|; a restarted model predicts the average of everything recorded so far.", "quantifier": "every set of levels, every content of files of earlier runs, every sequence of durations of any tasks (sums below 2^64), every order of the map", "why_tests_cant": "all histories over several runs; file names of different levels must differ for all level vectors", "anchors": ["src/loadmodel/AveragingLoadModel.hpp: l.17-19, l.33-127", "src/loadmodel/AveragingLoadModel.cpp: l.13-49", "src/utils/LevelVector.cpp: toString l.4-11"]}
{"id": "C77", "title": "A gathered grid, a plot file and the corner values hold the values of the distributed grid", "statement": "gatherFullGrid, the values in a plot file and getCornersValues give the value of every grid point (resp. every corner) as it is on the process that owns it, each at the place of its global linear index, and a tool that reads the file gets the sizes and values that were written.", "quantifier": "every dimension, every grid, every cartesian decomposition without empty parts, every order of the processes, all values", "why_tests_cant": "all decompositions and dimensions; the tools that read the files are not part of the tests", "anchors": ["src/fullgrid/DistributedFullGrid.hpp: gatherFullGrid l.1230-1279, writePlotFile l.1406-1469, getCornersValues l.1680-1726", "tools/errorCalc.cpp: readPlotFile l.119-126", "tools/plot_raw_slice.py: l.11-31"]}
{"id": "C78", "title": "Boundary copies and ghost layers carry the right layer", "statement": "After writeLowerBoundaryToUpperBoundary(d) every point at the upper end in dimension d has the value of its partner at the lower end and nothing else has changed; exchangeGhostLayerUpward(d) gives every process the layer directly below its own part (nothing at the lower end; the last layer of the grid if the dimension is periodic). No assertion fails and every send is matched by a receive.", "quantifier": "every dimension d of every grid, every cartesian decomposition without empty parts (one process included), all values", "why_tests_cant": "all decompositions and dimensions; message matching over all processes", "anchors": ["src/fullgrid/DistributedFullGrid.hpp: l.1544-1651, l.1875-1899, l.1913-1938"]}
{"id": "C79", "title": "The norms are what they are called", "statement": "getLpNorm(0) is the largest absolute value at a grid point, getLpNorm(p) is the L^p norm of the piecewise multilinear function with the (absolute) values at the grid points, for every decomposition; the manager returns the norm of the combined solution.", "quantifier": "every grid with every combination of boundary flags, every cartesian decomposition (empty parts included), all values, every distribution of tasks to groups", "why_tests_cant": "all decompositions, levels and values; the tests only use norms relative to each other", "anchors": ["src/fullgrid/DistributedFullGrid.hpp: getLpNorm l.1365-1404, l.1654-1678", "src/manager/ProcessGroupManager.cpp: getLpNorms l.655-680", "src/manager/ProcessManager.cpp: l.423-449", "src/manager/TaskWorker.hpp: l.66-74"]}
{"id": "C80", "title": "Recovering the communicators keeps the groups", "statement": "After processes have died, recoverCommunicators ends on all processes; if enough processes wait in reserve each dead one is replaced on its rank, otherwise exactly the groups with dead processes leave and their living processes join the reserve; in both cases the world communicator consists of whole groups of nprocs processes in the old order with the manager last, every process knows its new rank, the manager's list of the reserve is right, and the master ranks of the groups in the manager's list are right.", "quantifier": "any number and size of groups, any set of dead processes, any reserve, any order of arrival of the messages, any number of recoveries", "why_tests_cant": "all sets of dead processes over several recoveries and all orders of messages; the tests kill one or two processes with a simulator", "anchors": ["src/mpi/MPISystem.cpp: recoverCommunicators, waitForReuse and the signals l.483-878", "src/manager/ProcessManager.cpp: recoverCommunicators l.300-338"]}
{"id": "C81", "title": "Compressed files hold the values of all processes", "statement": "Writing the values of all processes to a compressed file and reading it with as many processes gives each process its values back, or fails with an error; reading and reducing combines each value exactly once.", "quantifier": "any number of processes, any number of values per process (also none), any value type, any compression that keeps LZ4's contract, any splitting of LZ4's output", "why_tests_cant": "depends on the numbers of values, the size of the value type relative to the buffer, and how LZ4 splits its output; the test uses one million doubles per process", "anchors": ["src/io/MPICompression.hpp"]}
{"id": "C82", "title": "The fault layer tells every living process about every failure", "statement": "Before a collective call the processes of a communicator, living and dead, count the dead ones along a tree; the root waits for the messages of all of them and broadcasts their ranks. Every living process then gets the same return value, an error if and only if a process is dead, and the same list with the rank of every dead process once; acknowledged failures are reset exactly if the list has changed; the dead processes learn the operation that the living ones are about to do. The successors and predecessors form a tree on all ranks, so that every message is received. A process that has missed non-blocking collectives starts exactly these.", "quantifier": "all communicator sizes, numbers of successors, sets of dead processes (the root too), orders of arrival of the messages, earlier knowledge of the processes, roots of the tree", "why_tests_cant": "The layer is only compiled in with a special flag, and tests kill one process of a small communicator; the tree with six successors has only two levels there.", "anchors": ["src/mpi_fault_simulator/MPI-FT.cpp:37-185", "src/mpi_fault_simulator/MPI-FT.cpp:1183-1432", "src/mpi_fault_simulator/MPI-FT.cpp:1478-1512", "src/mpi_fault_simulator/MPI-FT_ULFM.cpp:55-78"]}
{"id": "C83", "title": "The scheme generator counts every subspace once and deals the grids evenly", "statement": "The script that writes the scheme file computes coefficients such that every subspace of an active component grid (level sum on the diagonal between lmin and lmax) is counted exactly once; its correction loop ends; the grids lie between lmin and lmax and none has coefficient 0; the result does not depend on the order in which the set of active grids is traversed. Each grid is written for exactly one process group with its coefficient, and of the grids of each level sum (and of all grids) no group gets two more than another.", "quantifier": "all dimensions, all lmin and lmax, all diagonal indices, all orders of the active set, all numbers of groups", "why_tests_cant": "The script has no tests; the levels are constants in its text that every user edits.", "anchors": ["tools/generate_combischeme_json.py:1-177"]}
{"id": "C84", "title": "The rounding error of the combination does not grow with the number of grids", "statement": "If every addition, subtraction and multiplication has a relative rounding error of at most u, then after adding n component grids (n u at most 1/8) to the sparse grid and extracting, every combined value differs from the exact combination of the values at this place by at most 8 u + 17 n u^2 times the sum of the absolute values of the terms. The same holds for the combined norms, and with 6 u + 16 n u^2 for sums of interpolated values. (Every subspace of the grids is in the sparse grid and the total size is below 2^32, as in C18; no overflow or underflow.)", "quantifier": "all roundings with relative error at most u <= 1/16, all numbers of grids, grids, decompositions, coefficients and values", "why_tests_cant": "Tests compare with tolerances that plain summation of a few grids also meets; a wrong sign of the compensation is invisible in exact arithmetic and for few grids.", "anchors": ["src/sparsegrid/DistributedSparseGridUniform.hpp:814-866", "src/manager/InterpolationWorker.hpp:13-33", "src/manager/ProcessManager.cpp:433-447"]}
{"id": "C85", "title": "Several systems that combine through files get the combination of all their grids", "statement": "If two or three systems, each with its own groups and component grids, exchange the sizes of their sparse grids and then combine once through files (chunked outgroup reduction, extra sparse grid on the output group of each system), then every value of every component grid of every system becomes the sum over all component grids of all groups of all systems, weighted with the coefficients, of the values at the same place; in whatever order the files of the other systems are read. (All groups of a system with several groups share subspaces with other groups on the process, some subspace with points on the process is held by two systems, subspaces have less than 2^30 points on a process.)", "quantifier": "all dimensions, decompositions, numbers of groups, output groups, distributions of component grids to systems and groups, coefficients, values, chunk sizes and orders of files", "why_tests_cant": "Tests run two systems with one or two groups and one level vector; which subspaces are shared within a system, between systems, or only held by the output group because another system needs them depends on the distribution of grids.", "anchors": ["src/manager/ProcessGroupWorker.cpp:492-527", "src/manager/ProcessGroupWorker.cpp:848-930", "src/manager/ProcessGroupWorker.cpp:974-1010", "src/manager/SparseGridWorker.hpp:364-613", "src/manager/SparseGridWorker.hpp:784-996", "src/sparsegrid/DistributedSparseGridUniform.hpp:474-490", "src/combicom/CombiCom.hpp:590-640"]}
{"id": "C86", "title": "Several systems whose groups keep whole sparse grids get the combination of all their grids", "statement": "If the groups of each system keep sparse grids with all subspaces of the system (variant sparseGridReduce), then a combination of two systems over the third-level manager, with or without an extra sparse grid and whichever system is first, and a combination of two or three systems through files, in whatever order the files are read, give every value of every component grid of every system the sum over all component grids of all groups of all systems, weighted with the coefficients, of the values at the same place. (Some subspace with points on the process is held by two systems; the points on a process are fewer than 2^31 - 1.) The same is expected of the other variants that the code allows with several systems.", "quantifier": "all dimensions, decompositions, numbers of groups, third-level groups, distributions of component grids to systems and groups, coefficients, values, chunk sizes and orders of files", "why_tests_cant": "Tests run two systems with symmetric component grids; the sizes of the subspaces of the system, the extra grid and the group that communicates differ only for asymmetric distributions.", "anchors": ["src/manager/ProcessGroupWorker.cpp:475-527", "src/manager/ProcessGroupWorker.cpp:725-788", "src/manager/ProcessGroupWorker.cpp:908-936", "src/manager/ProcessGroupWorker.cpp:974-1034", "src/manager/SparseGridWorker.hpp:785-996", "src/manager/SparseGridWorker.hpp:1034-1160", "src/manager/ProcessManager.hpp:652-697", "src/sparsegrid/DistributedSparseGridUniform.hpp:458-475"]}
{"id": "C87", "title": "Several systems that combine through files and reduce only shared subspaces get the combination of all their grids", "statement": "If the groups of each system keep their sparse grids allocated and reduce only the subspaces that several groups have (variant outgroupSparseGridReduce), then a combination of two or three systems through files gives every value of every component grid of every system the sum over all component grids of all groups of all systems, weighted with the coefficients, of the values at the same place, in whatever order the files are read. (All groups of a system with several groups share subspaces with other groups on the process; some subspace with points on the process is held by two systems; fewer than 2^31 - 1 points on a process.)", "quantifier": "all dimensions, decompositions, numbers of groups up to 256, output groups, distributions of component grids to systems and groups, coefficients, values, chunk sizes and orders of files", "why_tests_cant": "Only the output group gets the sums of the shared subspaces, and the other groups keep their own; whether the broadcast afterwards reaches all that is needed depends on which group, and which system, holds which subspace.", "anchors": ["src/manager/SparseGridWorker.hpp:831-996", "src/manager/SparseGridWorker.hpp:998-1055", "src/manager/SparseGridWorker.hpp:1114-1160", "src/combicom/CombiCom.hpp:334-397", "src/combicom/CombiCom.hpp:611-640", "src/manager/ProcessGroupWorker.cpp:492-527", "src/manager/ProcessGroupWorker.cpp:848-930"]}
{"id": "C88", "title": "A whole simulation with many combinations and moved tasks follows the combination formula", "statement": "Sparse grids and communicators are set up once; then tasks run and are combined any number of times, with any variant of the combination, and between a combination and the next run tasks are moved to other groups (rescheduling). At the end every component grid has the values that follow from the runs and the combination formula alone: each combination replaces every value by the weighted sum of the values at the same place, and a task that is moved keeps its coefficient and its values. (Tasks are moved only with the variant sparseGridReduce, and only before they run again; with the outgroup variants all or no groups share subspaces; fewer than 2^31 points on a process.)", "quantifier": "all dimensions, decompositions, numbers of groups up to 256, distributions of component grids, coefficients, values after every run, chunk sizes, and all sequences of steps", "why_tests_cant": "The sparse grids are reused: what an earlier combination or move has left in data, residuals, pointers and selections must not influence a later one. Tests run short sequences on few grids.", "anchors": ["src/manager/ProcessGroupWorker.cpp:368-411", "src/manager/ProcessGroupWorker.cpp:466-472", "src/manager/ProcessGroupWorker.cpp:528-564", "src/manager/ProcessManager.cpp:583-613", "src/manager/SparseGridWorker.hpp:614-656", "src/manager/SparseGridWorker.hpp:998-1055", "src/manager/SparseGridWorker.hpp:1202-1210"]}
{"id": "C89", "title": "Simulated faults happen in the configured combination steps, or at the sampled times", "statement": "With configured faults a process is killed in the first combination step that the parameter file lists for its rank, and in no other. With random faults a process is killed when the time drawn from the Weibull distribution has passed since the start, never in the last combination, and a master only if masters may fail. (Code: the step is counted per task since the task arrived on the process; time and start are never set.)", "quantifier": "all ranks, lists of faults, numbers and orders of tasks, sequences of receive/run/remove/reset events, times, shapes and scales", "why_tests_cant": "The fault tests use one or two configured faults in short runs, and no test uses random faults; whether the step counter survives a recovery shows only in runs with several faults in one group.", "anchors": ["src/fault_tolerance/WeibullFaults.cpp:7-62", "src/fault_tolerance/WeibullFaults.hpp:33-40", "src/fault_tolerance/StaticFaults.cpp:10-27", "src/task/Task.hpp:376-386", "examples/combi_example_faults/TaskExample.hpp:109-131", "examples/combi_example_faults/TaskExample.hpp:209-248"]}
{"id": "C90", "title": "Index arithmetic stays within its integer type", "statement": "Numbers of points, offsets, linear indices and the translation of local into global indices never overflow the 32-bit index type: for all grids that the sources admit (level sum with boundary below 30) and for all grids for which the assertions hold, every intermediate result fits and the exact index is computed. (Proved for grids of fewer than 2^31 - 1 points; both criteria of the sources are too weak.)", "quantifier": "all dimensions, numbers of points, decompositions, processes with points, and indices", "why_tests_cant": "Overflow needs grids with billions of points; tests use grids with a few thousand.", "anchors": ["src/utils/Types.hpp:33-36", "src/fullgrid/Tensor.hpp:20-30", "src/fullgrid/Tensor.hpp:55-82", "src/fullgrid/DistributedFullGrid.hpp:629-658", "src/fullgrid/DistributedFullGrid.hpp:784-797"]}
{"id": "C91", "title": "Hierarchizing a grid on a process group gives what one process would compute", "statement": "If every process of a group stores its part of a grid and the group hierarchizes (or dehierarchizes) any of the dimensions, all exchanges of slices match, nobody gets stuck, and in the end every process stores its part of the grid which a single process would compute from the whole grid; hierarchizing and dehierarchizing restores the data of every process. Precondition: every process has at least one point (the code divides by the number of points of a part).", "quantifier": "every number of dimensions, process layout, valid decomposition with non-empty parts, boundary flag, basis, level up to the size of the tables, set of dimensions, values and contents of the scratch buffers", "why_tests_cant": "Tests run a few layouts with a few levels; which slices are exchanged depends on the decomposition in every dimension.", "anchors": ["src/hierarchization/DistributedHierarchization.hpp:92-244", "src/hierarchization/DistributedHierarchization.hpp:894-1123", "src/hierarchization/DistributedHierarchization.hpp:1129-1187", "src/hierarchization/DistributedHierarchization.hpp:1212-1270"]}
{"id": "C92", "title": "A complete combination does not depend on how many processes a group has", "statement": "If every process of every group stores its part of the component grids, a complete combination (hierarchize, combine, dehierarchize) goes through on all processes, and afterwards every process stores its part of the grids that the same combination produces with one process per group. So two layouts of the groups give the same grids, combining twice is combining once, and with hat functions grids that hold the values of one function are not changed. Preconditions: every process has at least one point of every component grid (as in C91), and the variant is usable at every position (as in C34).", "quantifier": "every number of dimensions, groups (up to 256) and processes per group, every valid decomposition with non-empty parts, set of component grids, distribution to groups, usable variant and chunk size, basis that can be undone, values and contents of scratch buffers", "why_tests_cant": "Layouts, decompositions and schemes combine to far more cases than any test run; tests compare with an analytical function up to a tolerance.", "anchors": ["src/manager/ProcessGroupWorker.cpp:528-564", "src/manager/TaskWorker.hpp:29-48", "src/manager/TaskWorker.hpp:86-107", "src/hierarchization/DistributedHierarchization.hpp:1129-1270"]}
{"id": "C93", "title": "Default decompositions give every process points and line up", "statement": "If in every dimension there are at most as many processes as the coarsest component grid has points (the check of the examples), the default decomposition of the finest grid gives every process at least one point of every component grid. If no decomposition is given, the default decompositions which the component grids choose for themselves agree with each other: the same point in space belongs to the same process on all of them.", "quantifier": "every level of the finest and of the component grid, boundary flag, number of processes, forwardDecomposition", "why_tests_cant": "Tests use two or four processes; numbers of processes that are no powers of two behave differently on different pairs of levels.", "anchors": ["src/utils/DecompositionUtils.hpp:14-66", "src/manager/ProcessGroupWorker.cpp:666-673", "src/fullgrid/DistributedFullGrid.hpp:637-650"]}
{"id": "C94", "title": "Plotting the combined solution on a level shows the combination of the component interpolants", "statement": "After a complete combination, `parallelEval` on any level not finer than the reference grid writes, at every point of the plotted grid and on every process, the sum over all component grids of coefficient times the multilinear interpolant of the values before the combination, whether or not the plotted grid has subspaces which the sparse grid does not have. Plotted on the level of a task, it writes the values of that task. Different grids of a task go to different files and do not influence each other.", "quantifier": "every layout of the process group, boundary flags, numbers of groups and tasks, levels of tasks and plot, values", "why_tests_cant": "Tests plot on one level and look at the file by eye or compare norms; equality at all points for all levels and layouts needs the link between surpluses and interpolants.", "anchors": ["src/manager/SparseGridWorker.hpp:627-645", "src/manager/SparseGridWorker.hpp:751-783", "src/manager/ProcessGroupWorker.cpp:566-582", "src/fullgrid/DistributedFullGrid.hpp:1308-1340", "src/sparsegrid/DistributedSparseGridUniform.hpp:573-591"]}
{"id": "C95", "title": "A whole simulation on process groups of any size", "statement": "A simulation of any length - runs of all tasks, complete combinations with the sparse grids that were set up once, and tasks moved to other groups - on process groups with any number of processes per dimension ends with every process storing its part of the grids that follow from the solvers and the combination formula alone. It does not depend on the layout of the groups. If the solvers evolve a function exactly, all processes store values of the evolved function at the end.", "quantifier": "every layout, number of steps, groups and tasks, boundary flags, bases, solvers, values, sizes of messages and contents of scratch buffers", "why_tests_cant": "Tests run a few combinations on one or two layouts and compare with tolerances; the state that is kept between steps (sizes, communicators, old values in the sparse grids) can go wrong only in some sequence of steps.", "anchors": ["src/manager/ProcessGroupWorker.cpp:160-167", "src/manager/ProcessGroupWorker.cpp:368-411", "src/manager/ProcessGroupWorker.cpp:537-564", "src/manager/ProcessManager.cpp:583-613", "src/manager/SparseGridWorker.hpp:627-656", "src/manager/TaskWorker.hpp:129-141"]}
{"id": "C96", "title": "The subspaces to be exchanged with other systems are exactly the shared ones", "statement": "For a part of a combination scheme, getConjointSet returns a downward closed set without duplicates (so that getNumDOFSGConjoint counts each subspace once), containing every subspace that is below a grid of this part and a grid of another part, and nothing else; the degrees of freedom per process add up to the total.", "quantifier": "every dimension, scheme, part, minimum level, decomposition", "why_tests_cant": "No test calls it, and a wrong set only shows as a wrong amount of data for particular partitions of a scheme.", "anchors": ["src/combischeme/CombiMinMaxScheme.hpp:430-490", "src/combischeme/CombiThirdLevelScheme.cpp:7-66"]}
{"id": "C97", "title": "Leaving out the highest subspaces does not change the combination", "statement": "With reduceCombinationDimsLmax = (1, ..., 1) the sparse grids lack the highest subspaces of the component grids. For every classical combination scheme, each subspace that is left out belongs to a single component grid, whose coefficient is one, so that after the combination all component grids (of all groups and systems) have the same values as with complete sparse grids. The same holds for vectors with entries 0 and 1 that have at most one entry 1, or an entry 1 in a dimension with the smallest difference of lmax and lmin.", "quantifier": "every dimension, lmin < lmax, such vector, distribution of the tasks to groups and systems, layout, values, combination variant", "why_tests_cant": "Tests cover a few schemes; that each missing subspace has one owner with coefficient one is a statement about all schemes and reductions, and errors show only at single points.", "anchors": ["src/manager/SparseGridWorker.hpp:704-749", "src/manager/CombiParameters.hpp:521-532", "src/sparsegrid/DistributedSparseGridUniform.hpp:541-551"]}
{"id": "C98", "title": "Tasks with several grids: every grid is combined as if it were the only one", "statement": "If the tasks have several grids (species), a complete combination (hierarchize, combine, dehierarchize) treats the grids with each number exactly as it would if they were the only grids of the tasks, for every layout of the groups and every combination variant.", "quantifier": "every number of grids, groups, tasks, layout, values, boundary flags, bases and combination variant", "why_tests_cant": "All tests use one grid per task. With several grids, values that belong to one function are unchanged even if some grids are not hierarchized, so a test with exact values cannot see a difference.", "anchors": ["src/manager/TaskWorker.hpp:29-48", "src/manager/TaskWorker.hpp:86-107", "src/manager/TaskWorker.hpp:145", "src/manager/SparseGridWorker.hpp:998-1055", "src/manager/SparseGridWorker.hpp:614-625", "src/manager/ProcessGroupWorker.cpp:537-564"]}
{"id": "C99", "title": "A combination does not change the combined solution", "statement": "The values that interpolateValues yields for the combined solution at any points are the same before and after a complete combination (hierarchize, combine, dehierarchize), for every layout of the groups and every combination variant.", "quantifier": "every number of groups and tasks, layout, set of levels with consistent coefficients, values on the component grids, interpolation coordinates", "why_tests_cant": "Tests interpolate after a combination of samples of one smooth function, compare with tolerances and use a few points; the values before and after are different on every component grid, only their weighted sum stays the same.", "anchors": ["src/manager/InterpolationWorker.hpp:10-50", "src/manager/ProcessGroupWorker.cpp:617-623", "src/fullgrid/DistributedFullGrid.hpp:265-410", "src/manager/SparseGridWorker.hpp:998-1055", "src/hierarchization/DistributedHierarchization.hpp:1127-1210"]}
{"id": "C100", "title": "Interpolated values reach the manager and the files", "statement": "ProcessManager::interpolateValues returns the combined solution at every coordinate in the given order, whatever the number of groups; writeInterpolatedValuesSingleFile (with or without a manager) writes exactly one file from which the same values are read, and writeInterpolatedValuesPerGrid writes every task exactly once, to a file from which the interpolant of its component grid is read. Files of earlier steps stay readable.", "quantifier": "every number of groups and processes, layout, distribution of tasks, list of coordinates, file name prefix, step, order in which the processes write", "why_tests_cant": "Tests interpolate on a few layouts and compare with tolerances; which group answers, which rank writes which task and what is overwritten depends on all numbers of groups, ranks and tasks.", "anchors": ["src/manager/ProcessManager.cpp:459-508", "src/manager/ProcessGroupManager.cpp:704-757", "src/manager/ProcessGroupWorker.cpp:82-128", "src/manager/ProcessGroupWorker.cpp:334-367", "src/manager/InterpolationWorker.hpp:10-92", "src/io/H5InputOutput.hpp:15-62"]}
{"id": "C101", "title": "A scheme in a file is read as written, and every group gets its grids", "statement": "CombiMinMaxSchemeFromFile reads the levels, coefficients and group numbers of a scheme file in their order, whatever the order of the entries of a grid, and accepts only schemes whose levels lie between lmin and lmax with one coefficient each and group numbers for all grids or none. Every grid of the file is run by exactly one group, with its level and its coefficient: the one whose number is in the file, or without numbers the one chosen by the load balancing, which leaves no group without a grid. With the file of the generator script, every subspace of an active grid is counted exactly once over all groups.", "quantifier": "every file, dimension, lmin and lmax, number of groups, order after sorting", "why_tests_cant": "The test reads one fixed file for one number of groups; that no grid is lost or run twice is a statement about all files and all numbers of groups.", "anchors": ["src/combischeme/CombiMinMaxScheme.hpp:176-221", "src/combischeme/CombiMinMaxScheme.hpp:492-522", "src/combischeme/CombiMinMaxScheme.hpp:547-591", "tools/generate_combischeme_json.py:158-180", "examples/combi_workers_only/combi_example_worker_only.cpp:86-107"]}
{"id": "C102", "title": "Combining several systems is the same as combining in one large system", "statement": "A complete combination (hierarchization, combination, dehierarchization) of several systems, over the third-level manager or by files, gives every component grid the same values as a complete combination of all the component grids in a single system, whatever the layout of the process groups, the distribution of the grids to groups and the variant are. With hat functions and consistent coefficients of all systems together it changes nothing if the grids are samples of one function, and a second complete combination changes nothing.", "quantifier": "every layout of the groups, number of systems and groups, basis and boundary type per dimension, variant, exchange, component grids and their values", "why_tests_cant": "The third-level tests run two systems with one fixed scheme and compare with an analytical value; agreement with a single system is a statement about all distributions of grids to systems and all layouts.", "anchors": ["src/manager/ProcessGroupWorker.cpp:475-534", "src/manager/ProcessGroupWorker.cpp:725-788", "src/manager/ProcessGroupWorker.cpp:841-893", "src/manager/ProcessGroupWorker.cpp:1003-1021", "src/manager/TaskWorker.hpp:29-48", "src/manager/TaskWorker.hpp:86-107"]}
{"id": "C103", "title": "A whole simulation of two systems over the third-level manager ends, and all processes hold the grids that the combination formula over both systems describes", "statement": "Two systems with process managers and process groups of any size set up their sparse grids, agree on the sizes of subspaces over the third-level manager, with or without extra sparse grids, then run their tasks and combine with each other any number of times and log off. In every order in which the systems and the third-level manager take their steps, all of them finish, no message is left over, and every process of both systems stores its part of the component grids that follow from the solvers and the combination formula over both systems alone. If the grids are samples of one function whenever the systems combine, combinations change nothing.", "quantifier": "every layout of the groups, number of groups per system, third-level group, component grids and their values, solvers, number and order of runs and combinations, numbers of runs of the systems between combinations, capacity of the channels, and interleaving of the three programs", "why_tests_cant": "The third-level tests run two systems for a fixed scheme and few combinations, with whatever interleaving the machine produces; deadlocks, swapped messages and sizes or sparse grids left over from an earlier combination depend on orders and histories that no finite set of runs covers.", "anchors": ["src/manager/ProcessManager.hpp:505-529", "src/manager/ProcessManager.hpp:652-697", "src/manager/ProcessGroupManager.cpp:215-494", "src/manager/ProcessGroupWorker.cpp:475-491", "src/manager/ProcessGroupWorker.cpp:725-788", "src/manager/ProcessGroupWorker.cpp:908-936", "src/manager/ProcessGroupWorker.cpp:1013-1034", "third_level_manager/thirdLevelManager.cpp"]}
{"id": "C104", "title": "Messages between two processes through the fault simulator arrive or report the killed partner, in every order of the steps", "statement": "Processes exchange messages with Sim_FT_MPI_Send, Recv, Isend, Irecv and Wait, and some of them are killed in between. In every order in which the processes take their steps, and whichever messages MPI buffers, all calls of processes that were not killed return: with success and the data of the sender if both partners were alive at that point, otherwise with MPI_ERR_PROC_FAILED. No status message and no data are left over. Moreover, the result of any calls does not depend on the order of the steps.", "quantifier": "every number of processes, every schedule of messages and failures, all tags and data, blocking and non-blocking calls on either side, every choice of buffered messages, every interleaving", "why_tests_cant": "The fault tolerance tests kill chosen processes of one run in whatever interleaving the machine produces; status messages left over by an earlier call, or a partner that is killed at another time, show only in particular orders.", "anchors": ["src/mpi_fault_simulator/Sim_FT_send.cpp:6-78", "src/mpi_fault_simulator/Sim_FT_recv.cpp:6-97", "src/mpi_fault_simulator/Sim_FT_isend.cpp:4-26", "src/mpi_fault_simulator/Sim_FT_irecv.cpp:6-33", "src/mpi_fault_simulator/Sim_FT_test.cpp:5-127", "src/mpi_fault_simulator/Sim_FT_wait.cpp:5-19", "src/mpi_fault_simulator/Sim_FT_probe.cpp:6-39", "src/mpi_fault_simulator/MPI-FT.cpp:404-421", "src/manager/ProcessGroupManager.cpp:757-767"]}
{"id": "C105", "title": "A simulation goes on after faults with the combination of the grids that are left", "statement": "Process groups fail during runs. The failed groups are erased or restored, lost tasks are given to groups with zeros or computed again from the last combined solution, and new combination coefficients are sent to the workers. After the next combination all component grids, also those that were lost, have the values that follow from the combination formula with the coefficients that were sent, over the grids that are left or were computed again; tasks with zeros contribute nothing; if all lost tasks are computed again, the solution is the one without faults.", "quantifier": "every system of component grids, every number of groups, every sequence of runs, combinations, faults, recoveries and changes of coefficients, any solver", "why_tests_cant": "The fault tolerance test compares one simulation with an analytical solution up to a tolerance; wrong coefficients after a fault, values of the wrong combination in a task that is computed again, or sparse grids that do not fit the new groups show only for particular histories.", "anchors": ["src/manager/ProcessGroupWorker.cpp:149-292", "src/manager/ProcessGroupWorker.cpp:676-723", "src/manager/ProcessManager.cpp:29-59", "src/manager/ProcessManager.cpp:123-147", "src/manager/ProcessManager.cpp:182-338", "src/manager/SparseGridWorker.hpp:1003-1016", "src/manager/SparseGridWorker.hpp:627-656", "src/task/Task.hpp:212", "examples/combi_example_faults/combi_example_faults.cpp:125-191"]}
{"id": "C106", "title": "Loops that are run by several threads give the result of one thread, without data races", "statement": "The loops with OpenMP directives that register a full grid in a sparse grid, add its values to it, extract them again, hierarchize and dehierarchize the poles of a dimension, and add the subspaces in the reduction operation: for every number of threads, every distribution of the iterations over them and every order of their memory accesses, all threads finish, no two of them access the same element while one writes it, and the result is the one of a single thread.", "quantifier": "every number of threads, every distribution of the iterations, every interleaving, every full and sparse grid, every contents of the threads' scratch buffers", "why_tests_cant": "A data race or a private variable that must not be carried over from one iteration to the next shows only in some interleavings and schedules; the tests run with the schedule the compiler's runtime happens to choose.", "anchors": ["src/sparsegrid/DistributedSparseGridUniform.hpp:774-866", "src/sparsegrid/DistributedSparseGridUniform.hpp:446-457", "src/sparsegrid/DistributedSparseGridUniform.hpp:651-690", "src/fullgrid/DistributedFullGrid.hpp:1308-1342", "src/hierarchization/DistributedHierarchization.hpp:894-963", "src/combicom/CombiCom.hpp:179-216"]}
{"id": "C107", "title": "Threads that reduce subspaces on different communicators do not block each other", "statement": "In the subspace reduction every process hands out its communicators to its OpenMP threads, and each thread calls blocking collective reductions. For every number of threads on every process and every schedule that hands out the communicators in their order, no set of threads waits for each other for ever; all reach the end of the loop, the sparse grids are those of a run with one thread per process, and the component grids extracted afterwards are the combined ones.", "quantifier": "every number of groups up to 256, every number of threads on each process, every order in which threads proceed, every distribution of subspaces over the groups", "why_tests_cant": "A deadlock between collective calls on different communicators needs a particular order of threads on several processes at once.", "anchors": ["src/combicom/CombiCom.hpp:334-397", "src/combicom/CombiCom.hpp:274-311", "src/sparsegrid/AnyDistributedSparseGrid.cpp:221-275", "src/manager/SparseGridWorker.hpp:998-1031"]}
{"id": "C108", "title": "Systems that combine through files with sizes written ahead get the combination of all their grids", "statement": "The tool subspace_writer computes from the scheme files of all systems, for each process, the sizes of the subspaces that more than one system has. A simulation that reads this file instead of exchanging sizes with the other systems combines correctly: every value of every component grid of every system becomes the sum over all grids of all systems, weighted with the coefficients, at the same place; and all systems read the file that the tool writes.", "quantifier": "every number of systems and groups, every distribution of component grids over systems and groups, every order of grids in the scheme files, every chunk size, with and without assertions", "why_tests_cant": "The tool and the simulation are separate programs with separate lists of grids; no test runs the tool and then several systems with its output.", "anchors": ["tools/subspace_writer/subspace_writer.cpp:18-55", "tools/subspace_writer/subspace_writer.cpp:123-190", "examples/distributed_third_level/combi_example_worker_only.cpp:185-198", "src/manager/SparseGridWorker.hpp:917-996", "src/manager/ProcessGroupWorker.cpp:951-958"]}
{"id": "C109", "title": "The advection solver does the upwind steps of the whole grid, on any process group and next to any other tasks", "statement": "A time step of the advection task of the examples, done by a process group with any decomposition, is the upwind step u - dt * sum_d (u - u_below_d) / h_d on the whole periodic grid. Therefore the sum of all values does not change, and under the condition that init checks the values stay between the bounds of the initial values. Each task of a group is advanced by its own number of steps, whatever other tasks are added, run or removed, and its current time is the time it was advanced to.", "quantifier": "every dimension, level, decomposition, number of processes, time step, number of steps, initial function, and every sequence of adding, running and removing tasks", "why_tests_cant": "The examples are not part of the unit tests; the loops use index arithmetic on strides with corrections of wrongly computed layers, and the work vector is a static member that all tasks share.", "anchors": ["examples/distributed_third_level/TaskAdvection.hpp:50-83", "examples/distributed_third_level/TaskAdvection.hpp:90-229", "examples/distributed_third_level/TaskAdvection.hpp:245-252", "examples/distributed_advection/TaskAdvection.hpp:89-176", "src/fullgrid/DistributedFullGrid.hpp:671-699", "src/fullgrid/DistributedFullGrid.hpp:1585-1644"]}
{"id": "C110", "title": "VTK plot files show every grid value at the coordinates of its point", "statement": "After writeVTKPlotFilesOfAllTasks on all groups there is one file for every task, grid and process. The files of a grid are valid images that together show the value of every grid point exactly once, at the index of the point, and nothing else; the coordinates that origin and spacing give to the index are those of the grid point.", "quantifier": "every dimension, level, number of boundary points, decomposition, and every distribution of tasks with different levels to groups", "why_tests_cant": "There is no test of the VTK output; a wrong order of dimensions, a wrong extent or a wrong spacing gives files that open without error.", "anchors": ["src/vtk/DFGPlotFileWriter.hpp:83-121", "src/vtk/DFGPlotFileWriter.hpp:130-190", "src/vtk/DFGPlotFileWriter.hpp:260-326", "src/manager/InterpolationWorker.hpp:91-106"]}
{"id": "C111", "title": "A combination with mass-conserving bases gives every component grid the combined mass", "statement": "If the basis functions of all hierarchized dimensions are full weighting or biorthogonal ones (periodic ones with one boundary point, the others with two), then after a complete combination the integral of every component grid, of all groups and all systems, is the sum of the integrals of all component grids before, weighted with their coefficients. With coefficients whose sum is one the combined mass is thus unchanged.", "quantifier": "every dimension, level and decomposition, minimum level that no component grid is below, number of groups and systems, coefficients (consistent or not), values, variant of the combination and exchange", "why_tests_cant": "Tests of mass conservation hierarchize single grids of a few levels with chosen values; that the combination of distributed grids of different levels keeps the mass depends on all of hierarchization, transfer, reduction and exchange, for all schemes and values.", "anchors": ["src/manager/ProcessGroupWorker.cpp:528-564", "src/manager/TaskWorker.hpp:29-107", "src/hierarchization/DistributedHierarchization.hpp:684-892", "src/hierarchization/DistributedHierarchization.hpp:1091-1330"]}
{"id": "C112", "title": "Hierarchization with hat functions in rounded arithmetic changes the values by a small multiple of the unit roundoff only", "statement": "With n dimensions, values of absolute value at most M and every addition and subtraction rounded with relative error at most u, the hierarchical coefficients computed on one process with hat functions differ from the exact ones by at most ((2+4u)^n - 2^n) M. If values are hierarchized and dehierarchized again, every value differs from the original one by at most L 2^n (4n+6) u M, where L is the product over the dimensions of the number of hierarchized levels plus one, provided that L 2^n (4n+6) u is at most one; in particular the error grows with the levels, not with the number of grid points.", "quantifier": "every number of dimensions, levels, minimum level, kind of boundary per dimension (none, one periodic point, two points), values and every way of rounding with relative error at most u (no overflow or underflow)", "why_tests_cant": "Tests compare results with fixed tolerances for a few levels and values; the worst case over all values and roundings, and how it grows with levels and dimensions, is not visible in them.", "anchors": ["src/hierarchization/DistributedHierarchization.hpp:641-670", "src/hierarchization/DistributedHierarchization.hpp:775-803", "src/hierarchization/DistributedHierarchization.hpp:968-1123", "src/hierarchization/DistributedHierarchization.hpp:1129-1187", "src/hierarchization/DistributedHierarchization.hpp:1212-1270"]}
{"id": "C113", "title": "The distribution of a grid over processes does not change the rounding of hierarchization and dehierarchization", "statement": "Hierarchizing a distributed grid and dehierarchizing it gives, at every grid point, exactly the number that one process computes with the same floating-point arithmetic from the whole grid, so the results do not depend on the number of processes or the decomposition in any bit; in particular the bounds of C112 for the rounding errors of hat functions hold for distributed grids.", "quantifier": "every basis per dimension, number of dimensions, levels up to the limit of C29, decompositions without empty parts, values, order of the dimensions, and every arithmetic in which an expression of the kernels is a function of its operands", "why_tests_cant": "Tests compare with tolerances, on few decompositions; that no decomposition changes the operands or the order of any operation cannot be seen from them.", "anchors": ["src/hierarchization/DistributedHierarchization.hpp:92-244", "src/hierarchization/DistributedHierarchization.hpp:641-887", "src/hierarchization/DistributedHierarchization.hpp:894-1123", "src/hierarchization/DistributedHierarchization.hpp:1129-1187", "src/hierarchization/DistributedHierarchization.hpp:1212-1270"]}
{"id": "C114", "title": "A complete combination in rounded arithmetic is the combination of the component interpolants up to a small multiple of the unit roundoff", "statement": "After one combination, the value at every grid point of every process differs from the sum over all component grids of coefficient times interpolated value before the combination by at most c*u times the sum of the absolute values of the coefficients times the largest absolute value, where u is the unit roundoff of the additions, subtractions and multiplications, and c depends only on the number of hierarchized dimensions, the number of levels in each of them, and the number of process groups, not on the number of grid points, of component grids or of processes per group, nor on the order in which MPI adds.", "quantifier": "every layout of the process groups and distribution of the tasks, coefficients, levels, values, order of the additions in MPI_SUM (different for every element and process), and every arithmetic with relative errors of at most u", "why_tests_cant": "Tests compare combined values with fixed tolerances for a few small schemes; they cannot show that errors of hierarchization, the compensated local sums, the reduction and dehierarchization do not build up with the number of points or grids.", "anchors": ["src/manager/ProcessGroupWorker.cpp:528-564", "src/manager/SparseGridWorker.hpp:998-1031", "src/combicom/CombiCom.hpp:116-165", "src/sparsegrid/DistributedSparseGridUniform.hpp:814-866", "src/hierarchization/DistributedHierarchization.hpp:92-244", "src/manager/TaskWorker.hpp:29-107"]}
{"id": "C115", "title": "The advection example computes the combined upwind solution and conserves its mass over the whole simulation", "statement": "In the advection example, after any number of combinations with any number of time steps between them, every process stores its part of the grids that follow from the initial function by the upwind scheme on whole grids and the combination formula. With bases that conserve mass and coefficients that sum to one, every component grid then has the same mass, namely the sum over all component grids of coefficient times mean of the initial function over the grid points, after every combination. The time that is printed with the norms is the time of the solution.", "quantifier": "every initial function, time step that passes the CFL check, number of time steps and combinations, layout of the process groups and distribution of the tasks, coefficients, levels, mass-conserving bases, combination variant, and both versions of the solver", "why_tests_cant": "Tests run a few combinations of one scheme and compare with tolerances; that no number of time steps and combinations moves the mass, on any layout, cannot be observed in them.", "anchors": ["examples/distributed_advection/advection_example.cpp:170-251", "examples/distributed_advection/TaskAdvection.hpp:40-172", "examples/distributed_third_level/TaskAdvection.hpp:40-229", "src/manager/ProcessGroupWorker.cpp:149-167", "src/manager/ProcessGroupWorker.cpp:528-564", "src/manager/TaskWorker.hpp:110-141"]}
{"id": "C116", "title": "The Selalib example gives every task the parameter file of its grid, restarts every task from its checkpoint, and combines the diagnostics", "statement": "Every component grid gets a folder of its own, whose parameter file is the template with the resolution of this grid, the processes per dimension, the number of steps, the step size and the settings of the diagnostics; its task runs in this folder with the coefficient of the grid. With checkpoints, the parameter files of all tasks that run are switched to restart. A full grid with given resolution gets a file with this resolution. The combined diagnostics are the diagnostics of the grids added up with the coefficients.", "quantifier": "every combination scheme, settings, template in which the placeholders occur once, number of process groups, order of the grids, contents of the folders before, and diagnostics files, with rounded arithmetic for the diagnostics", "why_tests_cant": "The example has no tests and needs Selalib to run; a task that starts from the wrong parameter file runs without an error.", "anchors": ["examples/selalib_distributed/src/SelalibFileTools.hpp:30-135", "examples/selalib_distributed/src/selalib_distributed.cpp:148-209", "examples/selalib_distributed/src/selalib_distributed_workers_only.cpp:118-206", "examples/selalib_distributed/postprocessing/combine_selalib_diagnostics.cpp:44-99", "examples/selalib_distributed/template/param.nml:1-64"]}
{"id": "C117", "title": "The printed errors and the scripts for HDF5 files give the norms of the error and the sums over systems", "statement": "The advection example prints the errors of the interpolated values in the norms of the maximum, order 1 and order 2, absolute and relative to the reference solution, which is the transported bump. `hdf5_interpolation_norms.py` prints the same numbers from the files that the run writes, and the norms of the values without a solution; a request for relative norms without a solution is refused. `hdf5_reduce_datasets.py` adds up the files of several systems: if the component grids are spread over the systems in any way, the result contains the values of the whole combination, and files that do not belong together are refused.", "quantifier": "All coordinates, values and times; all numbers of files; all numbers of systems, groups and processes and all distributions of the component grids.", "why_tests_cant": "The scripts and the examples are not tested at all, a wrong factor in a norm is only visible against the definition, and the distributions over systems are unbounded.", "anchors": ["examples/distributed_advection/advection_example.cpp:49-92", "examples/distributed_advection/TaskAdvection.hpp:9-27", "examples/distributed_advection/get_mc_variance.cpp:62-93", "tools/hdf5_reduce_datasets.py:13-76", "tools/hdf5_interpolation_norms.py:12-148", "src/io/H5InputOutput.hpp:15-43"]}
{"id": "C118", "title": "The preparation of the GENE examples gives the manager a consistent scheme and every grid its parameters", "statement": "`preproc.py` makes a combination scheme between lmin and lmax: the loop over the coefficients ends, every subspace is counted exactly once, the result does not depend on the order of a Python set, and for equal differences it is the scheme of createClassicalCombischeme. With faults it adds new grids with coefficient zero and leaves everything else as it is. It writes the grids to spaces.dat and a parameter file per grid; the manager reads the same grids with their coefficients and folders, and the folder of a grid contains the template with the numbers of points of that grid and the settings.", "quantifier": "All lmin <= lmax (different differences, dimensions that are not refined), all active sets, all orders of Python sets, all numbers of faults, all templates and settings.", "why_tests_cant": "The scripts are not tested at all; the termination of the coefficient loop and the consistency concern all level vectors; an error in the template replacement gives a grid the resolution of another one without a message.", "anchors": ["examples/gene_distributed/preproc.py l.37-225", "examples/gene_distributed/gene_python_interface/ActiveSetFactory.py l.98-157", "examples/gene_distributed/gene_python_interface/combinationScheme.py l.82-117, l.212-225", "examples/gene_distributed/src/manager.cpp l.276-358"]}
{"id": "C119", "title": "The grids of the GENE example hold what GENE computed, and GENE gets back what they hold", "statement": "After `GeneTask::setDFG` the distributed full grid of every species has the values of the local GENE checkpoint at all points of GENE, and the upper boundary in z is made from the lower one by the boundary condition of the run (flux-tube: minus the next mode; radially global: times the factor of the safety factor profile). This does not depend on how the dimensions are divided among processes, in particular on whether the boundary values are sent between processes. `getDFG` after `setDFG` gives back the checkpoint unchanged.", "quantifier": "All sizes, all divisions of the dimensions among processes, all numbers of species, all values and old contents of the grids, linear and nonlinear, flux-tube and global runs.", "why_tests_cant": "The GENE examples are not built or tested here; the claim concerns all process grids and values, and a wrong boundary value changes the solution without a message.", "anchors": ["examples/gene_distributed/src/GeneTask.cpp l.175-204, l.540-978"]}
{"id": "C120", "title": "The load model for anisotropic grids gives every grid a positive load", "statement": "`AnisotropyLoadModel::eval` gives a positive load for every level vector with at least four dimensions, so that grids can be ordered and distributed by it; multiplying all levels by the same number makes the load larger; the load depends on the first, third and fourth level and on the sum only.", "quantifier": "All level vectors of any dimension.", "why_tests_cant": "The model has no test; the sign of the quadratic polynomial with negative coefficients over all shares is not visible from samples.", "anchors": ["src/loadmodel/AnisotropyLoadModel.hpp l.22-70"]}
{"id": "C121", "title": "The potentials of a six-dimensional run are combined correctly in three dimensions", "statement": "`combine_selalib_phi` adds the potentials of the component grids with the coefficients of the scheme in six dimensions: at every subspace in three dimensions the combined potential has the sum, over the component grids with this subspace, of coefficient times surplus. If all grids hold the same potential, the combined one is this potential on all subspaces of the component grids.", "quantifier": "All minimum and maximum levels in six dimensions, all surpluses of the potentials.", "why_tests_cant": "The program is not tested, and dropped subspaces give a plausible potential; that coefficients in six dimensions add up in three dimensions needs an argument over all level vectors.", "anchors": ["examples/selalib_distributed/postprocessing/combine_selalib_phi.cpp l.29-148", "src/sparsegrid/DistributedSparseGridUniform.hpp l.542-552, 814-866"]}
{"id": "C122", "title": "The fault simulator flips the number of bits asked for, and all choices of bits are alike", "statement": "`Sim_FT_Manipulate_bits` flips exactly as many different bits as were drawn, whatever the random numbers are, and changes nothing else; for every array that differs from the old one in this number of bits there is the same number of sequences of random numbers which lead to it, so that all choices of bits are equally likely if the random numbers are.", "quantifier": "All arrays, all numbers of flips, all sequences of random numbers.", "why_tests_cant": "The results are random; that no bit is flipped back and that no choice is preferred is a statement on all sequences of random numbers.", "anchors": ["src/mpi_fault_simulator/MPI-FT_bitflips.cpp l.10-72"]}
{"id": "C123", "title": "The error between two files of GENE is a meaningful number", "statement": "A checkpoint converted from a full grid contains its values without the periodic points, in the right order; `errorCalcNew` compares the values at the same points of two files; its error is between 0 and the square root of 2, and it is zero exactly if the absolute values agree up to one positive factor.", "quantifier": "All levels, all resolutions, all values.", "why_tests_cant": "The tool needs files of GENE and is not part of the test suite; which pairs of files have error zero is a statement on all values.", "anchors": ["examples/gene_distributed/src/GeneTask.cpp l.388-473", "examples/gene_distributed/tools/errorCalcNew.cpp l.31-274"]}
{"id": "C124", "title": "The raw data of sparse grids is transferred completely between workers and manager", "statement": "The data of a sparse grid, split into messages whose sizes are of type int, arrives completely and in order, and no message is left over; if the manager only pretends to combine, every worker has its old values afterwards, and the program fails if a size that the manager computed is not the size of the worker's sparse grid.", "quantifier": "All sizes (also more than 2^31 elements), all data, all contents of the buffers.", "why_tests_cant": "More than one message needs grids with 2^31 elements, which tests do not have.", "anchors": ["src/combicom/CombiCom.hpp l.530-564", "src/manager/ProcessGroupManager.cpp l.180-246"]}
{"id": "C125", "title": "All processes get the parameters, objects and coordinates that the root has", "statement": "After a broadcast of a container, a class, the contents of a file or coordinates, all processes of the communicator have what the root had or read, whatever they had before.", "quantifier": "All contents, all numbers of processes, all roots.", "why_tests_cant": "The sizes are converted to int; what happens to containers with 2^31 elements or more is not tested.", "anchors": ["src/mpi/MPIUtils.hpp l.57-107", "src/io/BroadcastParameters.cpp l.17-78"]}
{"id": "C126", "title": "Tasks of Selalib and GENE are computed in their directories", "statement": "Whatever a process group does with its tasks, the solver is always called in the directory of the task at hand; with Selalib the process is in the directory where it was started afterwards.", "quantifier": "All names of tasks, all sequences of operations on tasks, all file systems without symbolic links.", "why_tests_cant": "The working directory is a state of the process that all tasks share; the solvers are not part of the test suite.", "anchors": ["examples/selalib_distributed/src/SelalibTask.hpp l.92-167, l.233-242", "examples/selalib_distributed/src/selalib_distributed.cpp l.200-206", "examples/gene_distributed/src/GeneTask.cpp l.98-136", "examples/gene_distributed/src/manager.cpp l.331-334"]}
{"id": "C127", "title": "The memory usage that is reported is that of the processes", "statement": "The memory usage of a communicator is the sum over its processes of the resident and of the virtual size that the kernel reports in /proc/self/status, and differences to reference values are printed exactly, also negative ones.", "quantifier": "All status files, all numbers of processes, all sizes and reference values below 2^63.", "why_tests_cant": "The contents of the status file depend on the system, the user and the program; the test prints values without anything to compare to.", "anchors": ["src/mpi/MPIMemory.cpp l.18-68, l.103-110"]}
{"id": "C128", "title": "The plot of the error of the advection example shows the error", "statement": "Every entry of the array that plot_error_advection.py plots is the difference of the exact solution and the value of the file at one point of the grid, every point occurs, and the number that is reported is the largest error.", "quantifier": "All numbers of points per dimension of periodic grids in two dimensions, all values in the file, all times on the command line.", "why_tests_cant": "The script is not tested; for a symmetric solution on a square grid a wrong order of the dimensions cannot be seen.", "anchors": ["examples/distributed_advection/plot_error_advection.py", "examples/distributed_advection/TaskAdvection.hpp l.9-27", "src/fullgrid/DistributedFullGrid.hpp l.1406-1469"]}
{"id": "C129", "title": "The table of errors has the errors and the numbers of points of the runs", "statement": "Every run of the advection example that has come to time 1 gives exactly one row of the table, with the basis, dimension and levels of its folder, the errors of the last line of its output, and the number of points of all its component grids; other runs give none.", "quantifier": "All numbers of runs, all bases, dimensions and levels, all outputs.", "why_tests_cant": "The script is not tested, and what is in the output files depends on the system and on which runs are finished.", "anchors": ["examples/distributed_advection/output_to_error_csv.py", "examples/distributed_advection/generate_test_folders_and_submit.sh l.20, l.55", "examples/distributed_advection/advection_example.cpp l.80-92, l.172"]}
{"id": "C130", "title": "Every experiment of a list has a directory with its parameters", "statement": "After run_list.py has gone through a list of different experiments, there is for each of them a directory with exactly its parameters; no experiment replaces the parameters of another one, and other directories are as before.", "quantifier": "All lists of experiments with any names, levels, numbers of steps and time steps, empty lines included, and all directories that exist before.", "why_tests_cant": "The script is not tested; whether names collide depends on all pairs of experiments.", "anchors": ["examples/gene_distributed/run_list.py l.16-81", "examples/gene_distributed/run_list.py l.84-123"]}
{"id": "C131", "title": "The error norms of the Python interface to GENE are what their names say", "statement": "An error is 0 exactly if the arrays agree. Relative errors do not change if all values are multiplied with a number, and the approximation 0 has the relative error 1. If all values deviate by e, the average error is |e|. The norms for GENE depend on all inner points and on no other point.", "quantifier": "All arrays of all shapes with any complex values.", "why_tests_cant": "The script is not tested, and wrong factors depend on the number of axes and points.", "anchors": ["examples/gene_distributed/gene_python_interface/ErrorNorms.py l.10-54"]}
{"id": "C132", "title": "The check of the boundary in z names the points that violate the boundary condition", "statement": "testBoundaryZ names exactly the points of a combined grid where the boundary condition in z, which GeneTask sets before the combination, is violated by more than the tolerance.", "quantifier": "All grids of all shapes with any complex values and any number of species.", "why_tests_cant": "The tool only prints messages and always returns 0; it is run by hand.", "anchors": ["examples/gene_distributed/tools/testBoundaryZ.cpp l.22-58", "examples/gene_distributed/src/GeneTask.cpp l.694-782", "examples/gene_distributed/src/GeneTask.cpp l.791-828"]}
