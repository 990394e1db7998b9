import Verif.Model.Parameters
import Mathlib.Data.Rat.Floor
import Mathlib.Algebra.Order.Round
import Mathlib.Data.List.Sort

/-!
# New coefficients after faults

`/repo/src/fault_tolerance/FTUtils.cpp`, `/repo/src/fault_tolerance/LPOptimizationInterpolation.cpp`
and `ProcessManager::recomputeOptimumCoefficients` (`/repo/src/manager/ProcessManager.hpp` l.727-789).

Simplifications: level vectors consist of integers, coefficients and weights are rational numbers (the
code uses `int32_t` and `double`). The solver (GLPK) is a parameter that returns weights or fails. The
arrays of the constraint matrix are reserved, not resized, before they are written (l.49-51, l.181-192);
the model takes the memory as usable. Output to the console is left out.
-/

namespace Verif.Faults

/-- `CombigridDict`, `FTUtils.hpp` l.14. -/
abbrev Dict := OMap (List ℤ) ℚ

/-- `insert` of a map: an existing entry is kept. -/
def insertNew {K V : Type} [LinearOrder K] (m : OMap K V) (k : K) (v : V) : OMap K V :=
  match m.find k with
  | some _ => m
  | none => m.set k v

/-! ### `FTUtils.cpp` -/

/-- `l1_norm`, l.266-274. -/
def l1Norm (u : List ℤ) : ℤ := (u.map fun x => |x|).sum

/-- `test_greater`, l.276-285: `b ≥ a` in every component. The code reads `a.size()` components of both;
the model demands equal lengths. -/
def testGreater : List ℤ → List ℤ → Bool
  | [], [] => true
  | b :: bs, a :: as => decide (a ≤ b) && testGreater bs as
  | _, _ => false

/-- The inner loop of `mindex`, l.306-311, from the last component to the first: the new vector, and
whether the loop ended without `break` (`j < 0`). -/
def odoStep (upper : ℤ) : List ℤ → List ℤ × Bool
  | [] => ([], true)
  | a :: rest =>
    if (odoStep upper rest).2 then
      if a + 1 ≤ upper then ((a + 1) :: (odoStep upper rest).1, false)
      else (1 :: (odoStep upper rest).1, true)
    else (a :: (odoStep upper rest).1, false)

/-- The loop of `mindex`, l.299-314. `none`: it has not ended after `fuel` rounds. -/
def mindexLoop (upper sum : ℤ) : ℕ → List ℤ → Option (List (List ℤ))
  | 0, _ => none
  | fuel + 1, temp =>
    if (odoStep upper temp).2 then some (if l1Norm temp ≤ sum then [temp] else [])
    else (mindexLoop upper sum fuel (odoStep upper temp).1).map
      ((if l1Norm temp ≤ sum then [temp] else []) ++ ·)

/-- `std::max_element` as a value; for an empty vector it is not read. -/
def maxLevel : List ℤ → ℤ
  | [] => 0
  | a :: l => l.foldl max a

/-- `mindex`, l.287-317. -/
def mindex (fuel dim : ℕ) (levelMax : List ℤ) : Option (List (List ℤ)) :=
  mindexLoop (maxLevel levelMax) levelMax.sum fuel (List.replicate dim 1)

/-- `set_entire_downset_dict`, l.119-167. `all` is the result of `mindex` (l.134), `levelMin` the first
of `levels`. -/
def setEntireDownset (all : List (List ℤ)) (levelMin : List ℤ) (received : Dict) : Dict :=
  let active := received.filter fun p => decide (0 < p.2)
  let feasible := active.flatMap fun p =>
    all.filter fun v => testGreater p.1 v && testGreater v levelMin
  feasible.foldl (fun out v => insertNew out v ((received.find v).getD 0)) []

/-- `create_aux_entire_dict`, l.169-188: the numbers of the levels in the order of the map. -/
def createAux (entire : Dict) : OMap (List ℤ) ℕ :=
  (entire.map Prod.fst).zipIdx

/-- A matrix of numbers, zero where nothing was written. -/
abbrev Mat := ℕ → ℕ → ℚ

def Mat.write (M : Mat) (i j : ℕ) (x : ℚ) : Mat :=
  fun i' j' => if i' = i ∧ j' = j then x else M i' j'

/-- The condition of l.108-109 for `diff = c - w`. The first part, `sum > 0 || sum <= dim`, is always
true for `dim ≥ 0`. -/
def invCond (c w : List ℤ) : Bool :=
  let diff : List ℤ := List.zipWith (· - ·) c w
  (decide (0 < diff.sum) || decide (diff.sum ≤ w.length)) &&
    (diff.all (fun x => decide (x ≤ 1)) && diff.all fun x => decide (0 ≤ x))

/-- The inner loop, l.100-113. -/
def invRow (w : List ℤ) (i : ℕ) (M : Mat) : List (List ℤ × ℕ) → Mat
  | [] => M
  | (c, j) :: rest =>
    invRow w i
      (if invCond c w then M.write i j ((-1) ^ (List.zipWith (· - ·) c w).sum.toNat) else M) rest

/-- `get_inv_M`, l.83-117: the inner loop starts at the position of the outer one. -/
def invLoop (M : Mat) : List (List ℤ × ℕ) → Mat
  | [] => M
  | (w, i) :: rest => invLoop (invRow w i M ((w, i) :: rest)) rest

def getInvM (aux : OMap (List ℤ) ℕ) : Mat := invLoop (fun _ _ => 0) aux

/-- `filter_faults`, l.206-227. -/
def filterFaults (faults : List (List ℤ)) (lmax : ℤ) (received : Dict) : List (List ℤ) :=
  faults.filter fun f =>
    (received.find f).isSome && (decide (f.sum = lmax) || decide (f.sum = lmax - 1))

/-- `select_coeff_downset`, l.403-417. `all_c.at` raises an exception. -/
def selectCoeffs (allC : List ℚ) (given : Dict) : OMap (List ℤ) ℕ → Outcome (List ℚ)
  | [] => .ok []
  | (l, i) :: rest =>
    if (given.find l).isSome then
      match allC[i]? with
      | none => .error
      | some c => (selectCoeffs allC given rest).bind fun cs => .ok (c :: cs)
    else selectCoeffs allC given rest

/-- `create_out_dict`, l.229-249. `stuck`: `new_c[i]` is read behind its end. -/
def createOutLoop (newC : List ℚ) : ℕ → List (List ℤ × ℚ) → Dict → Outcome Dict
  | _, [], out => .ok out
  | i, (l, _) :: rest, out =>
    match newC[i]? with
    | none => .stuck
    | some c => createOutLoop newC (i + 1) rest (insertNew out l c)

def createOut (given : Dict) (newC : List ℚ) : Outcome Dict := createOutLoop newC 0 given []

/-- `check_dimensionality`, l.319-341: the dimensions with `l_max = l_min`. -/
def ignoredDims : ℕ → List ℤ → List ℤ → List ℕ
  | i, a :: lmin, b :: lmax =>
    if b = a then i :: ignoredDims (i + 1) lmin lmax else ignoredDims (i + 1) lmin lmax
  | _, _, _ => []

/-- The components that are not ignored: `check_dimensionality` l.328-335, `check_faults` l.347-358,
`set_new_given_dict` l.371-376. -/
def dropIgnored (ign : List ℕ) : ℕ → List ℤ → List ℤ
  | _, [] => []
  | i, a :: l => if i ∈ ign then dropIgnored ign (i + 1) l else a :: dropIgnored ign (i + 1) l

/-- `set_new_given_dict`, l.363-383. -/
def setNewGiven (ign : List ℕ) (given : Dict) : Dict :=
  given.foldl (fun out p => insertNew out (dropIgnored ign 0 p.1) p.2) []

/-! ### `LP_OPT_INTERP` -/

/-- The members of `LP_OPT_INTERP` that are used later (`LPOptimizationInterpolation.hpp` l.12-74). -/
structure LP where
  ign : List ℕ
  given : Dict
  newGiven : Dict
  entire : Dict
  inputFaults : List (List ℤ)
  valid : List (List ℤ)
  recompute : List (List ℤ)

/-- `l_max`, l.26-29; `stuck`: all dimensions are ignored. -/
def diagonal (newMin newMax : List ℤ) : Outcome ℤ :=
  match newMax with
  | [] => .stuck
  | b :: _ => .ok (b + (newMin.drop 1).sum)

/-- The constructor, l.6-59. `fuel` is for `mindex`. -/
def LP.create (fuel : ℕ) (lmin lmax : List ℤ) (given : Dict) (faults : List (List ℤ)) : Outcome LP :=
  let ign := ignoredDims 0 lmin lmax
  let newMin := dropIgnored ign 0 lmin
  let newMax := dropIgnored ign 0 lmax
  let newFaults := faults.map (dropIgnored ign 0)
  let newGiven := setNewGiven ign given
  match mindex fuel newMin.length newMax with
  | none => .stuck
  | some all =>
    (diagonal newMin newMax).bind fun n =>
      let valid := filterFaults newFaults n newGiven
      .ok ⟨ign, given, newGiven, setEntireDownset all newMin newGiven, faults, valid,
        newFaults.filter fun f => !(valid.contains f)⟩

/-- `getNumFaults`, l.339. -/
def LP.numFaults (lp : LP) : ℕ := lp.valid.length

def LP.aux (lp : LP) : OMap (List ℤ) ℕ := createAux lp.entire

/-- `set_constr_matrix`, l.172-193: the row for a fault is its row of the matrix. `stuck`: the fault is
not in the down set and the row remains uninitialised. -/
def LP.constraints (lp : LP) : List (List ℤ) → Outcome (List (List ℚ))
  | [] => .ok []
  | f :: rest =>
    match lp.aux.find f with
    | none => .stuck
    | some i => (lp.constraints rest).bind fun rows =>
        .ok ((List.range lp.entire.length).map (fun j => getInvM lp.aux i j) :: rows)

/-- The objective, l.159-163: `4 ^ -|l|`. -/
def LP.objective (lp : LP) : List ℚ := lp.entire.map fun p => (4 : ℚ) ^ (-(l1Norm p.1))

/-- All coefficients, l.222-228. -/
def LP.allC (lp : LP) (w : List ℚ) : List ℚ :=
  (List.range lp.entire.length).map fun i =>
    ((List.range lp.entire.length).map fun j => getInvM lp.aux i j * w.getD j 0).sum

/-- The complete fault, l.304-315: the ignored components are those of the first fault. -/
def complete (ign : List ℕ) : ℕ → List ℤ → List ℤ → List ℤ
  | _, [], _ => []
  | i, a :: f0, fault =>
    if i ∈ ign then a :: complete ign (i + 1) f0 fault
    else fault.headD 0 :: complete ign (i + 1) f0 fault.tail

/-- The faults that are recomputed, l.303-320: those that are not handled by the optimisation and have a
coefficient. (`output[...]` inserts 0 for unknown levels; `input_faults[0]` exists if there is a fault.) -/
def LP.recompFaults (lp : LP) (output : Dict) : List (List ℤ) :=
  (lp.recompute.map (complete lp.ign 0 (lp.inputFaults.headD []))).filter fun f =>
    decide ((output.find f).getD 0 ≠ 0)

/-- `get_results`, l.203-337, for the weights `w` (l.217-220 read one for each level of the down set):
the new dictionary and the levels to recompute. -/
def LP.getResults (lp : LP) (w : List ℚ) : Outcome (Dict × List (List ℤ)) :=
  (selectCoeffs (lp.allC w) lp.newGiven lp.aux).bind fun newC =>
    (createOut lp.given newC).bind fun output => .ok (output, lp.recompFaults output)

/-! ### `recomputeOptimumCoefficients` -/

/-- What the solver is asked (`init_opti_prob`, l.143-170; `solve_opti_problem`, l.197-201): rows that
have to be zero, and an objective to maximise with weights in `[0, 1]`. The answer is read by
`glp_get_col_prim` (l.218), which is the solution of the problem without integrality. -/
abbrev Solver := List (List ℚ) → List ℚ → Option (List ℚ)

/-- The scalar product. -/
def dot (r w : List ℚ) : ℚ := (List.zipWith (· * ·) r w).sum

/-- `w` is admissible: as many weights as unknowns, in `[0, 1]`, and all rows are zero. -/
def Feasible (rows : List (List ℚ)) (obj w : List ℚ) : Prop :=
  w.length = obj.length ∧ (∀ x ∈ w, 0 ≤ x ∧ x ≤ 1) ∧ ∀ r ∈ rows, dot r w = 0

/-- The solver is right: its answers are admissible and optimal. -/
def Solves (solve : Solver) : Prop :=
  ∀ rows obj w, solve rows obj = some w →
    Feasible rows obj w ∧ ∀ w', Feasible rows obj w' → dot obj w' ≤ dot obj w

/-- `std::set_difference` of sorted ranges. -/
def setDiff : List ℕ → List ℕ → List ℕ
  | [], _ => []
  | a :: as, [] => a :: as
  | a :: as, b :: bs =>
    if a < b then a :: setDiff as (b :: bs)
    else if b < a then setDiff (a :: as) bs
    else setDiff as bs
  termination_by as bs => as.length + bs.length

/-- The result of `recomputeOptimumCoefficients`. -/
structure Recomputed where
  params : CombiParams ℚ
  redistribute : List ℕ
  recompute : List ℕ

/-- The coefficients for the levels with the numbers `0, …, numLevels - 1`, l.757-764. -/
def newCoeffs (p : CombiParams ℚ) (d : Dict) : List (List ℤ) × List ℚ :=
  let levels := (List.range p.getNumLevels).map p.getLevel
  (levels, levels.map fun l => (d.find l).getD 0)

/-- L.750-788, for a problem with faults. `stuck`: no solution (the program ends, `get_results` l.331-334),
or the coefficients do not sum up to 1 (assertion, l.776). `IDsToLevels[id]` and `LevelsToIDs[l]` are
`operator[]` of copies of maps, which answer the empty vector and 0 for unknown keys. -/
def applyResults (solve : Solver) (p : CombiParams ℚ) (faultsID : List ℕ) (lp : LP) :
    Outcome Recomputed :=
  (lp.constraints lp.valid).bind fun rows =>
    match solve rows lp.objective with
    | none => .stuck
    | some w => (lp.getResults w).bind fun r =>
      let nc := newCoeffs p r.1
      if round nc.2.sum ≠ 1 then .stuck
      else (p.setLevelsCoeffs (List.range p.getNumLevels) nc.1 nc.2).bind fun q =>
        let recomp := (r.2.map fun l => (q.levelsToIDs.find l).getD 0).insertionSort (· ≤ ·)
        .ok ⟨q, setDiff (faultsID.insertionSort (· ≤ ·)) recomp, recomp⟩

/-- `recomputeOptimumCoefficients`, l.727-789; nothing happens if no fault is on the two highest
diagonals. The lists are empty at the beginning. -/
def recomputeOptimum (fuel : ℕ) (solve : Solver) (p : CombiParams ℚ) (faultsID : List ℕ) :
    Outcome Recomputed :=
  (LP.create fuel p.lmin p.lmax p.combiDictionary (faultsID.map p.getLevel)).bind fun lp =>
    if lp.numFaults = 0 then .ok ⟨p, [], []⟩ else applyResults solve p faultsID lp

end Verif.Faults
