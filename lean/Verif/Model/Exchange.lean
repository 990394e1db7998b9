import Verif.Model.Kernels
import Mathlib.Data.Finset.Dedup

/-!
# Data exchange along one dimension

`/repo/src/hierarchization/DistributedHierarchization.hpp` l.246-603: which 1-d indices a process
sends to and receives from the other processes of its pole.

Processes of a pole are identified with their partition coordinate in this dimension
(`getNeighbor1dFromPartitionIndex` maps these injectively to ranks). The `std::map`s from ranks to
sets of indices are modelled as lists of pairs (process, index); as in a set, order and repetitions
are not significant.
-/

namespace Verif

/-- `getLevel` (`DistributedFullGrid.hpp` l.984-1016) for signed indices: the number of trailing
zero bits of a negative number in two's complement is that of its absolute value. -/
def getLevelZ (lmax b : ℕ) (idx : ℤ) : ℤ :=
  let i := if b = 0 then idx + 1 else idx
  if i = 0 then 0 else (lmax : ℤ) - ctz i.natAbs

/-- `powerOfTwo[l]` as an index; all uses have `l < 30`. -/
def tableShift (l : ℤ) : ℤ := ((powerOfTwo? l.toNat).getD 0 : ℕ)

/-- What a process knows about one dimension of its grid. -/
structure Pole where
  /-- level -/
  lmax : ℕ
  /-- boundary flag -/
  b : ℕ
  /-- minimum level -/
  lmin : ℕ
  /-- decomposition: first index of every process -/
  dec : List ℕ
  /-- coordinate of this process -/
  c : ℕ
deriving Repr

namespace Pole

/-- `globalNumPointsInDimension`, `getGlobalSizes`. -/
def n (P : Pole) : ℤ := poleLength P.lmax P.b

/-- `getFirstGlobal1dIndex`, `DistributedFullGrid.hpp` l.885-887. -/
def idxMin (P : Pole) : ℤ := ((lowerBound1d P.dec P.c).getD 0 : ℕ)

/-- `getLastGlobal1dIndex`, `DistributedFullGrid.hpp` l.889-891. -/
def idxMax (P : Pole) : ℤ := ((upperBound1d P.dec (poleLength P.lmax P.b) P.c).getD 0 : ℕ) - 1

/-- `getNeighbor1dFromAxisIndex`; `none` for the result -1. -/
def owner (P : Pole) (idx : ℤ) : Option ℤ :=
  getNeighborPartition1d P.dec (poleLength P.lmax P.b) idx

def level (P : Pole) (idx : ℤ) : ℤ := getLevelZ P.lmax P.b idx

/-- `if (r >= 0) …[r].insert(i)` -/
def insertFor (P : Pole) (idx i : ℤ) : List (ℤ × ℤ) := (P.owner idx).toList.map fun r => (r, i)

/-- `getNextIndex1d`, l.608-624. -/
def nextIndex (P : Pole) (idx : ℤ) : ℤ :=
  let lold := P.level idx
  (((List.range (P.idxMax - idx).toNat).map fun (k : ℕ) => idx + 1 + (k : ℤ)).find? fun i =>
    P.level i == (P.lmax : ℤ) || P.level i == lold + 1).getD (idx + 1)

/-- The levels `l = lidx + 1, …, lmax`. -/
def levelsAbove (P : Pole) (lidx : ℤ) : List ℤ :=
  (List.range ((P.lmax : ℤ) - lidx).toNat).map fun (k : ℕ) => lidx + 1 + (k : ℤ)

/-! ### Hierarchization, `exchangeData1d` -/

/-- Body of the loop of `exchangeData1d`, l.343-372: what index `idx` is sent to. -/
def hierSends (P : Pole) (idx : ℤ) : List (ℤ × ℤ) :=
  (P.levelsAbove (P.level idx)).flatMap fun (l : ℤ) =>
    if l > P.lmin then
      [(-1 : ℤ), 1].flatMap fun shift =>
        let sIdx := idx + shift * tableShift (P.lmax - l)
        (if (shift < 0 ∧ sIdx ≥ 0 ∧ sIdx < P.idxMin) ∨ (shift > 0 ∧ sIdx > P.idxMax ∧ sIdx < P.n)
          then P.insertFor sIdx idx else []) ++
        (if P.b = 1 ∧ idx = 0 ∧ sIdx < 0 then
          (if P.n + sIdx > P.idxMax then P.insertFor (P.n + sIdx) idx else []) else [])
    else []

/-- Body of the loop of `exchangeData1d`, l.373-398: what is received for index `idx`. -/
def hierRecvs (P : Pole) (idx : ℤ) : List (ℤ × ℤ) :=
  let lidx := P.level idx
  if lidx > P.lmin then
    [(-1 : ℤ), 1].flatMap fun shift =>
      let pIdx := idx + shift * tableShift (P.lmax - lidx)
      (if lidx > 0 ∧ ((shift < 0 ∧ pIdx ≥ 0 ∧ pIdx < P.idxMin) ∨
          (shift > 0 ∧ pIdx > P.idxMax ∧ pIdx < P.n)) then P.insertFor pIdx pIdx else []) ++
      (if P.b = 1 ∧ shift > 0 ∧ pIdx = P.n then
        (P.owner 0).toList.flatMap fun (r : ℤ) => if r ≠ P.c then [(r, 0)] else [] else [])
  else []

/-- Next index of the loop of `exchangeData1d`, l.399-408. -/
def hierNext (P : Pole) (idx : ℤ) : ℤ :=
  let lidx := P.level idx
  let pIdx := idx + tableShift (P.lmax - lidx)
  if lidx = 0 ∨ pIdx > P.idxMax then P.nextIndex idx else pIdx

/-- `while (idx <= idxMax)`: the indices visited; `none` if `fuel` is not enough. -/
def visit (P : Pole) (next : ℤ → ℤ) : ℕ → ℤ → Option (List ℤ)
  | 0, idx => if idx ≤ P.idxMax then none else some []
  | fuel + 1, idx =>
    if idx ≤ P.idxMax then (P.visit next fuel (next idx)).map (idx :: ·) else some []

/-- Enough iterations for any loop that advances. -/
def fuel (P : Pole) : ℕ := (P.idxMax + 1 - P.idxMin).toNat

/-- `exchangeData1d`, l.324-412: the indices to send and to receive. -/
def exchangeHier (P : Pole) : Option (List (ℤ × ℤ) × List (ℤ × ℤ)) := do
  let vs ← P.visit P.hierNext P.fuel P.idxMin
  some (vs.flatMap P.hierSends, vs.flatMap P.hierRecvs)

/-! ### Dehierarchization, `exchangeData1dDehierarchization` -/

/-- `checkLeftSuccesors`, l.451-487; the recursion depth is bounded by `fuel`. -/
def checkLeft (P : Pole) (root : ℤ) : ℕ → ℤ → Option (List (ℤ × ℤ))
  | 0, _ => none
  | fuel + 1, check => do
    let ls ← (P.levelsAbove (P.level check)).mapM fun (l : ℤ) =>
      let s := check - tableShift (P.lmax - l)
      let sl := P.level s
      if check = root ∧ sl ≤ P.lmin then some []
      else
        let here := if s ≥ 0 ∧ s < P.idxMin then
          (if sl > P.lmin then P.insertFor s root else []) else []
        if s ≥ 0 then (P.checkLeft root fuel s).map (here ++ ·) else some here
    some ls.flatten

/-- `checkRightSuccesors`, l.490-536. -/
def checkRight (P : Pole) (root : ℤ) : ℕ → ℤ → Option (List (ℤ × ℤ))
  | 0, _ => none
  | fuel + 1, check => do
    let ls ← (P.levelsAbove (P.level check)).mapM fun (l : ℤ) =>
      let s := check + tableShift (P.lmax - l)
      let sl := P.level s
      if check = root ∧ sl ≤ P.lmin then some []
      else
        let here := if sl > P.lmin then
          (if s < P.n ∧ s > P.idxMax then P.insertFor s root else []) ++
          (if root = 0 ∧ P.b = 1 then
            (if P.n - s > P.idxMax then P.insertFor (P.n - s) root else []) else [])
          else []
        if s < P.n then (P.checkRight root fuel s).map (here ++ ·) else some here
    some ls.flatten

/-- `getLeftPredecessor` for a non-negative index. -/
def leftPred (P : Pole) (idx : ℤ) : ℤ := getLeftPredecessor P.lmax P.b idx.toNat

/-- `getRightPredecessor` for a non-negative index. -/
def rightPred (P : Pole) (idx : ℤ) : ℤ :=
  getRightPredecessor P.lmax P.b (poleLength P.lmax P.b) idx.toNat

/-- `recvOneDIndices[r].insert(i)` without a test of `r`. -/
def insertRaw (P : Pole) (idx i : ℤ) : List (ℤ × ℤ) := [((P.owner idx).getD (-1), i)]

/-- `checkPredecessors`, l.539-603: the indices to receive and the next index. -/
def checkPreds (P : Pole) : ℕ → ℤ → Option (List (ℤ × ℤ) × ℤ)
  | 0, _ => none
  | fuel + 1, idx =>
    if P.level idx ≤ P.lmin ∨ idx < 0 then some ([], P.nextIndex idx)
    else
      let lp := P.leftPred idx
      let r1 := if lp ≥ 0 ∧ lp < P.idxMin then P.insertRaw lp lp else []
      (ite (lp ≥ 0 ∧ P.level lp ≥ P.lmin) ((P.checkPreds fuel lp).map Prod.fst) (some [])).bind fun r2 =>
      let rp := P.rightPred idx
      if rp < 0 then some (r1 ++ r2, P.nextIndex idx)
      else if rp > P.idxMax then
        if P.b = 1 ∧ rp = P.n then
          some (r1 ++ r2 ++ (if P.idxMin > 0 then
            (if (P.owner 0).getD (-1) ≠ P.c then P.insertRaw 0 0 else []) else []), P.nextIndex idx)
        else
          (ite (P.level rp ≥ P.lmin) ((P.checkPreds fuel rp).map Prod.fst) (some [])).bind fun r3 =>
          some (r1 ++ r2 ++ P.insertRaw rp rp ++ r3, P.nextIndex idx)
      else some (r1 ++ r2, rp)

/-- The loop of `exchangeData1dDehierarchization`, l.439-445; the first argument bounds the number
of iterations. -/
def dehierLoop (P : Pole) : ℕ → ℤ → Option (List (ℤ × ℤ) × List (ℤ × ℤ))
  | 0, idx => if idx ≤ P.idxMax then none else some ([], [])
  | fuel + 1, idx =>
    if idx ≤ P.idxMax then do
      let sl ← P.checkLeft idx (P.lmax + 1) idx
      let sr ← P.checkRight idx (P.lmax + 1) idx
      let (rs, next) ← P.checkPreds (P.lmax + 1) idx
      let (ss', rs') ← P.dehierLoop fuel next
      some (sl ++ sr ++ ss', rs ++ rs')
    else some ([], [])

/-- `exchangeData1dDehierarchization`, l.423-448. -/
def exchangeDehier (P : Pole) : Option (List (ℤ × ℤ) × List (ℤ × ℤ)) :=
  P.dehierLoop P.fuel P.idxMin

/-! ### All data, `exchangeAllData1d` -/

/-- `exchangeAllData1d`, l.254-313. All other processes are pole neighbours. -/
def exchangeAll (P : Pole) : List (ℤ × ℤ) × List (ℤ × ℤ) :=
  let mine := (List.range P.fuel).map fun (k : ℕ) => P.idxMin + (k : ℤ)
  let neighbours := (List.range P.dec.length).filter (· ≠ P.c)
  (neighbours.flatMap fun (r : ℕ) => mine.map fun i => ((r : ℤ), i),
    ((List.range P.n.toNat).map fun (k : ℕ) => (k : ℤ)).flatMap fun i =>
      if i < P.idxMin ∨ i > P.idxMax then P.insertFor i i else [])

end Pole

/-! ### The exchanged data -/

variable {K : Type}

/-- The part of a pole that process `r` stores. -/
def slicePole (dec : List ℕ) (v : Buf K) (r : ℕ) : Buf K :=
  let lo := (lowerBound1d dec r).getD 0
  ⟨(upperBound1d dec v.len r).getD 0 - lo, fun i => v.val (lo + i)⟩

/-- The remote data of a pole after `sendAndReceiveIndicesBlock` (l.92-244), given what is received:
the index and the value at this index in the local data of its sender; `none` if the sender does not
store it. The agreement of the sent and received indices is the subject of C29. -/
def remoteData (dec : List ℕ) (v : Buf K) (recv : List (ℤ × ℤ)) : Option (List (ℕ × K)) :=
  recv.mapM fun (r, i) =>
    let lo : ℤ := ((lowerBound1d dec r.toNat).getD 0 : ℕ)
    if 0 ≤ r ∧ r < dec.length ∧ lo ≤ i then
      ((slicePole dec v r.toNat).get? (i - lo).toNat).map fun x => (i.toNat, x)
    else none

/-- The message for process `r`: `std::set` of indices. -/
def message (l : List (ℤ × ℤ)) (r : ℤ) : Finset ℤ :=
  ((l.filter fun p => p.1 = r).map Prod.snd).toFinset

def Basis.isHat : Basis → Bool
  | .hat => true
  | .hatPeriodic => true
  | _ => false

variable [Field K]

/-- `hierarchize` (l.1129-1187) on process `c` for one pole with the values `v` in one dimension. -/
def distHierPole (basis : Basis) (b lmax lmin : ℕ) (dec : List ℕ) (c : ℕ) (junk : ℕ → K)
    (v : Buf K) : Option (Buf K) :=
  let P : Pole := ⟨lmax, b, lmin, dec, c⟩
  if lmin ≥ lmax then some (slicePole dec v c)
  else do
    let (_, recv) ← if basis.isHat then P.exchangeHier else some P.exchangeAll
    let remote ← remoteData dec v recv
    hierPole basis b lmax lmin ((lowerBound1d dec c).getD 0) remote junk (slicePole dec v c)

/-- `dehierarchize` (l.1212-1270) on process `c` for one pole. -/
def distDehierPole (basis : Basis) (b lmax lmin : ℕ) (dec : List ℕ) (c : ℕ) (junk : ℕ → K)
    (v : Buf K) : Option (Buf K) :=
  let P : Pole := ⟨lmax, b, lmin, dec, c⟩
  if lmin ≥ lmax then some (slicePole dec v c)
  else do
    let (_, recv) ← if basis.isHat then P.exchangeDehier else some P.exchangeAll
    let remote ← remoteData dec v recv
    dehierPole basis b lmax lmin ((lowerBound1d dec c).getD 0) remote junk (slicePole dec v c)

end Verif
