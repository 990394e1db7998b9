import Verif.Model.FileIO

/-!
# Static fault injection

`/repo/src/fault_tolerance/StaticFaults.cpp`.
-/

namespace Verif

/-- The `while` loop of `failNow`, `StaticFaults.cpp` l.15-25, over the entries of
`iterationFaults_` from position `idx` on. `std::find` skips the entries that differ from `ncombi`,
so the loop body runs exactly for the equal ones; each step here is one entry. Reading `rF[idx]`
behind the end of `globalRankFaults_` is undefined behaviour. -/
def failNowFrom (ncombi globalRank : ℤ) (rF : List ℤ) : (iF : List ℤ) → (idx : ℕ) → Outcome Bool
  | [], _ => .ok false
  | f :: fs, idx =>
    if f = ncombi then
      match rF[idx]? with
      | none => .stuck
      | some r => if globalRank = r then .ok true else failNowFrom ncombi globalRank rF fs (idx + 1)
    else failNowFrom ncombi globalRank rF fs (idx + 1)

/-- `StaticFaults::failNow`, `StaticFaults.cpp` l.10-27. `t_iter` is not used by the code. -/
def failNow (iterationFaults globalRankFaults : List ℤ) (ncombi globalRank : ℤ) : Outcome Bool :=
  failNowFrom ncombi globalRank globalRankFaults iterationFaults 0

end Verif
