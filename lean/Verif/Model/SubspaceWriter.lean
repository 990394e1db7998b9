import Verif.Model.WideCombine

/-!
# Sizes written ahead of a simulation

The tool `/repo/tools/subspace_writer/subspace_writer.cpp`, which writes the sizes of the subspaces that
several systems have in common to a file, and the start of a system that reads them
(`/repo/examples/distributed_third_level/combi_example_worker_only.cpp` l.185-198,
`/repo/src/manager/ProcessGroupWorker.cpp` l.951-958 and `reduceExtraSubspaceSizes` with `overwrite` in
`/repo/src/manager/SparseGridWorker.hpp` l.917-996).

As in `Verif.Model.WideCombine`, one process of each group is modelled; the tool runs with as many processes
as a group has, of which the one with the same position writes the part of the file that is read (C35).
`none` stands for exceptions and failed assertions.
-/

namespace Verif

variable {K : Type}

/-- `schemeFileToSparseGridAndSizesFile`, l.18-55: the sizes of a sparse grid in which all grids of a scheme
are registered. The file with the sizes of a single scheme is not used. -/
def schemeSizes [Zero K] (levels : List (List ℕ)) (grids : List (Dfg K)) : Option (List ℕ) := do
  let d ← grids.foldlM registerDistributedFullGrid (Dsg.empty levels)
  return d.sizes

/-- One sparse grid in the loop l.169-176, where `s` is `size` and `numUniDSGsWithSubspaceSet`. -/
def conjointStep (s : ℕ × ℕ) (this : ℕ) : Option (ℕ × ℕ) :=
  if this = 0 ∨ s.1 = 0 ∨ this = s.1 then some (if 0 < this then (this, s.2 + 1) else s) else none

/-- The size of one subspace in the conjoint sparse grid, l.167-179. -/
def conjointSize (sizes : List ℕ) : Option ℕ := do
  let s ← sizes.foldlM conjointStep (0, 0)
  return if 1 < s.2 then s.1 else 0

/-- The loop over all subspaces, l.166-180. -/
def conjointSizes (numSubspaces : ℕ) (sizes : List (List ℕ)) : Option (List ℕ) :=
  (List.range numSubspaces).mapM fun i => do
    let s ← sizes.mapM fun u => u[i]?
    conjointSize s

/-- The sizes in the file for the given schemes, l.128-188. -/
def conjointOf [Zero K] (levels : List (List ℕ)) (schemes : List (List (Dfg K))) : Option (List ℕ) := do
  let sizes ← schemes.mapM (schemeSizes levels)
  conjointSizes levels.length sizes

/-- `main`, with the schemes of all systems, of which those of the first two are read, and that of the third if
`numSystems > 2` (l.148-157). -/
def subspaceWriter [Zero K] (levels : List (List ℕ)) (numSystems : ℕ) (schemes : List (List (Dfg K))) :
    Option (List ℕ) :=
  let needed := if 2 < numSystems then 3 else 2
  if needed ≤ schemes.length then conjointOf levels (schemes.take needed) else none

/-- The name of the file, from the name of the scheme's file, l.123-126 and `combi_example_worker_only.cpp`
l.193-196: `substr` with the length less that of "_part0_00008groups.json", in unsigned numbers. -/
def conjointFileName (ctscheme : List Char) : List Char :=
  (if ctscheme.length < "_part0_00008groups.json".length then ctscheme
    else ctscheme.take (ctscheme.length - "_part0_00008groups.json".length)) ++ "conjoint.sizes".toList

/-- The assertions in `reduceExtraSubspaceSizes`, l.948-949 and l.984-989, for the sizes of the output group
and those in the file. Simplification: the sums of the sizes do not overflow an `int`. -/
def sizesValid (own conj : List ℕ) : Bool :=
  ((own.zip conj).all fun p => decide (p.2 = 0 ∨ p.1 = 0 ∨ p.2 = p.1)) && decide (conj.sum ≤ own.sum)

/-- `initCombinedUniDSGVector`, then `reduceExtraSubspaceSizes` with `overwrite`: the extra sparse grid of the
output group gets the sizes in the file, whose part for this process has to have the length of the sparse
grid, and the output group's sparse grid becomes as large. `debug`: assertions are compiled. -/
def wideStartAhead [Zero K] (debug : Bool) (levels : List (List ℕ)) (sys : WideSystem K) (conj : List ℕ) :
    Option (WideState K) := do
  let dsgs ← initDsgs .chunkedOutgroupSparseGridReduce levels sys.n sys.tasks
  let ex ← exchangeOutgroup levels.length (dsgs.map (·.sizes))
  let own ← ex.1[sys.o]?
  if conj.length = levels.length ∧ (debug = true → sizesValid own conj = true) then do
    let ex ← exchangeOutgroup levels.length (ex.1.set sys.o (List.zipWith max own conj))
    let extra ← extraGrid levels conj
    return ⟨fun g => afterSizes (dsgs.getD g (Dsg.empty levels)) (ex.1.getD g []) (sys.tasks g),
      fun g => ex.2.getD g none, extra⟩
  else none

/-- Sizes read from the file, and one combination of `k` systems. -/
def wideCombineAhead [Ring K] (debug : Bool) (maxChunk : ℕ) (levels : List (List ℕ)) (k : ℕ)
    (sys : ℕ → WideSystem K) (order : ℕ → List ℕ) (conj : List ℕ) : Option (List (ℕ → Group K)) := do
  let states ← (List.range k).mapM fun s => wideStartAhead debug levels (sys s) conj
  wideExchange maxChunk k sys order states

end Verif
