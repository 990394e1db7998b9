import Verif.Model.CommandArguments
import Mathlib.Data.List.Perm.Basic
import Mathlib.Data.List.Nodup
import Mathlib.Data.List.Permutation

/-!
# File names reach the right parameter (C43)
-/

namespace Verif

variable {α : Type}

/-- What the manager means: the value for each parameter of the worker's function, by the names of the
parameters (`ProcessGroupWorker.hpp` l.125-138, l.189-190, l.234-237, l.265-268). -/
def meantArgs : FileCommand α → List α
  | .combineWrite w t => [w, t]
  | .combineRead r t => [r, t]
  | .combineFile w wt r rt => [w, wt, r, rt]
  | .writeToDisk p => [p]
  | .readFromDisk p => [p]
  | .writeMinMax f => [f]
  | .interpolateSingleFile c f => [c, f]
  | .interpolatePerGrid c f => [c, f]
  | .parallelEval f l => [f, l]

/-- An order in which the arguments of the command may be evaluated. -/
def EvalOrder (order : List ℕ) (cmd : FileCommand α) : Prop :=
  order.Perm (List.range (meantArgs cmd).length)

/-- The command has several file names. -/
def SeveralNames : FileCommand α → Prop
  | .combineWrite .. | .combineRead .. | .combineFile .. => True
  | _ => False

private lemma perm_one {order : List ℕ} (h : order.Perm (List.range 1)) : order = [0] := by
  simpa using h

private lemma perm_two {order : List ℕ} (h : order.Perm (List.range 2)) :
    order = [0, 1] ∨ order = [1, 0] := by
  have := (List.mem_permutations (s := order) (t := [0, 1])).mpr h
  simpa [List.permutations, List.permutationsAux, List.permutationsAux.rec] using this

/-- **C43 (partial).** With left-to-right evaluation, each value reaches the parameter the manager
meant, for every command. If the command has one file name only, this holds for every order of
evaluation. Missing: the other orders for the commands with several file names, see
`C43_violated`. -/
theorem C43_partial (cmd : FileCommand α) :
    workerArgs takeTag (List.range (meantArgs cmd).length) cmd = .ok ((meantArgs cmd).map some) ∧
    (¬ SeveralNames cmd → ∀ order, EvalOrder order cmd →
      workerArgs takeTag order cmd = .ok ((meantArgs cmd).map some)) := by
  constructor
  · cases cmd <;>
      simp [workerArgs, workerParams, managerSends, meantArgs, evalArgs, takeTag, Outcome.bind,
        List.range_succ, argOf]
  · intro hs order ho
    cases cmd with
    | combineWrite => exact absurd trivial hs
    | combineRead => exact absurd trivial hs
    | combineFile => exact absurd trivial hs
    | writeToDisk p =>
      rw [perm_one ho]
      simp [workerArgs, workerParams, managerSends, meantArgs, evalArgs, takeTag, Outcome.bind,
        List.range_succ, argOf]
    | readFromDisk p =>
      rw [perm_one ho]
      simp [workerArgs, workerParams, managerSends, meantArgs, evalArgs, takeTag, Outcome.bind,
        List.range_succ, argOf]
    | writeMinMax f =>
      rw [perm_one ho]
      simp [workerArgs, workerParams, managerSends, meantArgs, evalArgs, takeTag, Outcome.bind,
        List.range_succ, argOf]
    | interpolateSingleFile c f =>
      rcases perm_two ho with rfl | rfl <;>
      simp [workerArgs, workerParams, managerSends, meantArgs, evalArgs, takeTag, Outcome.bind,
        List.range_succ, argOf]
    | interpolatePerGrid c f =>
      rcases perm_two ho with rfl | rfl <;>
      simp [workerArgs, workerParams, managerSends, meantArgs, evalArgs, takeTag, Outcome.bind,
        List.range_succ, argOf]
    | parallelEval f l =>
      rcases perm_two ho with rfl | rfl <;>
      simp [workerArgs, workerParams, managerSends, meantArgs, evalArgs, takeTag, Outcome.bind,
        List.range_succ, argOf]

example : EvalOrder [1, 0] (FileCommand.interpolatePerGrid "coords" "file") ∧
    ¬ SeveralNames (FileCommand.interpolatePerGrid "coords" "file") := by
  refine ⟨?_, fun h => h⟩
  unfold EvalOrder
  decide

/-! ### The commands with several names -/

private lemma evalArgs_strings (n : ℕ) (take : ArgTag → List (ArgTag × α) → Option (α × List (ArgTag × α)))
    (htake : ∀ v rest, take .cls ((.cls, v) :: rest) = some (v, rest)) :
    ∀ (order : List ℕ) (vals : List α), (∀ i ∈ order, i < n) → order.length = vals.length →
      evalArgs take (List.replicate n .cls) order (vals.map fun v => (.cls, v)) =
        .ok (order.zip vals) := by
  intro order
  induction order with
  | nil => intro vals _ _; simp [evalArgs]
  | cons i is ih =>
    intro vals hi hl
    cases vals with
    | nil => simp at hl
    | cons v vs =>
      have h1 : (List.replicate n ArgTag.cls)[i]? = some .cls := by
        simp [hi i (by simp)]
      simp only [evalArgs, h1, List.map_cons, htake]
      rw [ih vs (fun j hj => hi j (by simp [hj])) (by simpa using hl)]
      simp [Outcome.bind]

private lemma argOf_zip : ∀ (order : List ℕ) (vals : List α) (k i : ℕ) (v : α), order.Nodup →
    order[k]? = some i → vals[k]? = some v → argOf (order.zip vals) i = some v := by
  intro order
  induction order with
  | nil => intro vals k i v _ h; simp at h
  | cons j js ih =>
    intro vals k i v hn h hv
    cases vals with
    | nil => simp at hv
    | cons w ws =>
      cases k with
      | zero =>
        simp only [List.getElem?_cons_zero, Option.some.injEq] at h hv
        subst h hv
        simp [argOf]
      | succ k =>
        simp only [List.getElem?_cons_succ] at h hv
        have hne : j ≠ i := by
          rintro rfl
          exact (List.nodup_cons.mp hn).1 (List.mem_of_getElem? h)
        have := ih ws k i v (List.nodup_cons.mp hn).2 h hv
        unfold argOf at this ⊢
        rw [List.zip_cons_cons, List.find?_cons_of_neg (by simpa using hne)]
        exact this

private lemma severalNames_form (cmd : FileCommand α) (hs : SeveralNames cmd) :
    managerSends cmd = (meantArgs cmd).map (fun v => (ArgTag.cls, v)) ∧
    workerParams cmd = List.replicate (meantArgs cmd).length .cls := by
  cases cmd <;> first | exact absurd hs (fun h => h) | exact ⟨rfl, rfl⟩

/-- **C43 for the commands with several names.** If the names are different, the worker gets what the
manager meant only if the arguments are evaluated from left to right; in every other order two names
are exchanged. Also with synchronous sends. -/
theorem C43_only_leftToRight (cmd : FileCommand α) (hs : SeveralNames cmd)
    (hn : (meantArgs cmd).Nodup) (order : List ℕ) (ho : EvalOrder order cmd)
    (take : ArgTag → List (ArgTag × α) → Option (α × List (ArgTag × α)))
    (htake : take = takeTag ∨ take = takeTagSync) :
    workerArgs take order cmd = .ok ((meantArgs cmd).map some) ↔
      order = List.range (meantArgs cmd).length := by
  have htake' : ∀ v rest, take .cls ((.cls, v) :: rest) = some (v, rest) := by
    rcases htake with rfl | rfl <;> simp [takeTag, takeTagSync]
  obtain ⟨h1, h2⟩ := severalNames_form cmd hs
  have hlen : order.length = (meantArgs cmd).length := by simpa using ho.length_eq
  have hlt : ∀ i ∈ order, i < (meantArgs cmd).length := fun i hi => by
    simpa using ho.mem_iff.mp hi
  have hnd : order.Nodup := ho.nodup_iff.mpr List.nodup_range
  have heval := evalArgs_strings (meantArgs cmd).length take htake' order (meantArgs cmd) hlt hlen
  have hargs : workerArgs take order cmd = .ok ((List.range (meantArgs cmd).length).map
      (argOf (order.zip (meantArgs cmd)))) := by
    unfold workerArgs
    rw [h1, h2, heval]
    simp [Outcome.bind]
  rw [hargs]
  simp only [Outcome.ok.injEq]
  constructor
  · intro h
    apply List.ext_getElem (by simpa using hlen)
    intro k hk1 hk2
    simp only [List.getElem_range]
    have hk : k < (meantArgs cmd).length := by omega
    have hi := hlt (order[k]) (List.getElem_mem hk1)
    have ha := argOf_zip order (meantArgs cmd) k order[k] (meantArgs cmd)[k] hnd
      (List.getElem?_eq_getElem hk1) (List.getElem?_eq_getElem hk)
    have hb : ((List.range (meantArgs cmd).length).map (argOf (order.zip (meantArgs cmd))))[order[k]]? =
        ((meantArgs cmd).map some)[order[k]]? := by rw [h]
    simp only [List.getElem?_map, List.getElem?_range hi, Option.map_some, ha,
      List.getElem?_eq_getElem hi, Option.some.injEq] at hb
    exact ((List.Nodup.getElem_inj_iff hn).mp hb).symm
  · intro h
    apply List.ext_getElem (by simp)
    intro k hk1 hk2
    have hk : k < (meantArgs cmd).length := by simpa using hk2
    have hk' : k < order.length := by omega
    have hok : order[k]? = some k := by rw [h]; simp [hk]
    have ha := argOf_zip order (meantArgs cmd) k k (meantArgs cmd)[k] hnd hok
      (List.getElem?_eq_getElem hk)
    simp [ha]

example : SeveralNames (FileCommand.combineFile "a" "b" "c" "d") ∧
    (meantArgs (FileCommand.combineFile "a" "b" "c" "d")).Nodup ∧
    EvalOrder [0, 2, 1, 3] (FileCommand.combineFile "a" "b" "c" "d") := by
  refine ⟨trivial, by decide, ?_⟩
  unfold EvalOrder
  decide

/-- **C43 is violated.** An order of evaluation allowed by the standard (the usual one of GCC, from
right to left) makes the worker write the sparse grid to the file of the token, and the token to the
file of the sparse grid. -/
theorem C43_violated :
    EvalOrder [1, 0] (FileCommand.combineWrite "dsg" "token") ∧
    workerArgs takeTag [1, 0] (FileCommand.combineWrite "dsg" "token") =
      .ok [some "token", some "dsg"] := by
  refine ⟨?_, by decide⟩
  unfold EvalOrder
  decide

/-- The other commands depend on the order as well if sends are synchronous: the manager sends the
file name first, a worker that evaluates from left to right first waits for the coordinates. -/
theorem C43_synchronous_deadlock (coords file : α) :
    workerArgs takeTagSync [0, 1] (.interpolatePerGrid coords file) = .stuck ∧
    workerArgs takeTagSync [0, 1] (.interpolateSingleFile coords file) = .stuck ∧
    workerArgs takeTagSync [0, 1] (.parallelEval file coords) = .stuck ∧
    workerArgs takeTagSync [1, 0] (.interpolatePerGrid coords file) = .ok [some coords, some file] := by
  simp [workerArgs, workerParams, managerSends, evalArgs, takeTagSync, Outcome.bind, argOf,
    List.range_succ]

end Verif
