import Verif.Model.Exchange
import Verif.Model.PoleLoop
import Mathlib.Data.Finset.Sort

/-!
# Hierarchization of distributed grids

`/repo/src/hierarchization/DistributedHierarchization.hpp` l.92-244 (`sendAndReceiveIndicesBlock`),
l.894-1123 (loops over the poles) and l.1129-1187, l.1212-1270 (`hierarchize`, `dehierarchize`), on all
processes of a process group.

A process is identified with its cartesian coordinates (C14); a state of the group is a function from
coordinates to local data. The processes wait for each other in every exchange (`MPI_Waitall`), and an
exchange reads the local data only, so the loop over the dimensions is modelled in lockstep. `none` is
undefined behaviour (index out of bounds, division by zero), an exchange that does not match, or an
exception, on any process.
-/

namespace Verif

variable {K : Type}

/-- One dimension of a distributed grid: what `hierarchize` is told about it and its decomposition. -/
structure DistDim where
  dim : GridDim
  dec : List ℕ

namespace DistDim

/-- Decomposition and number of points. -/
def toDim1 (s : DistDim) : Dim1 := ⟨s.dec, poleLength s.dim.lmax s.dim.b⟩

/-- What the process with coordinate `a` in this dimension knows about it. -/
def pole (s : DistDim) (a : ℕ) : Pole := ⟨s.dim.lmax, s.dim.b, s.dim.lmin, s.dec, a⟩

/-- `getLowerBounds()[dim]` of the process with coordinate `a`. -/
def lower (s : DistDim) (a : ℕ) : ℕ := (lowerBound1d s.dec a).getD 0

end DistDim

/-- `getLocalSizes()` of the process with coordinates `c`. -/
def partSizes (g : List DistDim) (c : List ℕ) : List ℕ := localSizes (g.map (·.toDim1)) c

/-- The type map of the subarray of l.103-117 in `MPI_ORDER_FORTRAN`: the positions of the elements
with index 0 in dimension `k`. -/
def subarray (sizes : List ℕ) (k : ℕ) : Option (List ℕ) :=
  (sizes[k]?).bind fun n => ((tensorOffsets sizes)[k]?).map fun stride =>
    (List.range (sizes.drop (k + 1)).prod).flatMap fun hi =>
      (List.range stride).map fun lo => hi * (stride * n) + lo

/-- The elements which are sent for the index `i` of dimension `k`, l.142-162: the subarray displaced by
`(i - lowerBound) * localOffsets[k]`. -/
def sendSlice (sizes : List ℕ) (k lower : ℕ) (B : Buf K) (i : ℤ) : Option (List K) :=
  (subarray sizes k).bind fun ps => ((tensorOffsets sizes)[k]?).bind fun stride =>
    if (lower : ℤ) ≤ i then ps.mapM fun p => B.get? ((i - lower).toNat * stride + p) else none

/-- The slices of a message of which the indices `keys` are expected, l.189-206, l.214-224:
`size = getNrLocalElements() / getLocalSizes()[dim]` elements for every index. Messages of another
length are `none` (a longer one is an error of MPI, a shorter one leaves elements of the slices
uninitialised). -/
def recvSlices (size : ℕ) (keys : List ℤ) (data : List K) : Option (List (ℤ × List K)) :=
  if data.length = keys.length * size then
    some (keys.zipIdx.map fun x => (x.1, (data.drop (x.2 * size)).take size))
  else none

/-- `sendAndReceiveIndicesBlock`, l.92-244, for the process `c` in dimension `k`; `ex` are the indices
to send and to receive (`exchangeData1d` etc.). Partners have to be other processes of the pole. A
message and its receive operation match if both exist and their tags, the first indices, are equal. -/
def exchangeSlices (ex : Pole → Option (List (ℤ × ℤ) × List (ℤ × ℤ))) (g : List DistDim) (k : ℕ)
    (S : List ℕ → Buf K) (c : List ℕ) : Option (List (ℤ × List K)) :=
  (g[k]?).bind fun s => (c[k]?).bind fun a => ((partSizes g c)[k]?).bind fun n =>
    (ex (s.pole a)).bind fun e =>
      if (e.1 ++ e.2).all fun p => decide (0 ≤ p.1 ∧ p.1 < s.dec.length ∧ p.1 ≠ a) then
        ((List.range s.dec.length).mapM fun (r : ℕ) =>
          if r = a then some []
          else (ex (s.pole r)).bind fun e' =>
            let sent := (message e'.1 a).sort
            let keys := (message e.2 r).sort
            if sent.head? = keys.head? then
              if keys = [] then some []
              else if n = 0 then none
              else (sent.mapM (sendSlice (partSizes g (c.set k r)) k (s.lower r)
                (S (c.set k r)))).bind fun slices =>
                  recvSlices ((partSizes g c).prod / n) keys slices.flatten
            else none).map List.flatten
      else none

/-- The values of the received slices for one pole, l.928-930: `tmp[keyIndex] = slice[poleNumber]`. -/
def remoteOfPole (slices : List (ℤ × List K)) (p : ℕ) : Option (List (ℕ × K)) :=
  slices.mapM fun x => if 0 ≤ x.1 then (x.2[p]?).map fun v => (x.1.toNat, v) else none

/-- Body of the loop over the dimensions, l.1137-1184, l.1219-1267, on the process `c`: exchange and
loop over the poles. `pole` is `hierPole` or `dehierPole` and `junk p` the contents of the scratch
buffer before pole `p`. -/
def distributedDim (ex : Basis → Pole → Option (List (ℤ × ℤ) × List (ℤ × ℤ)))
    (pole : Basis → ℕ → ℕ → ℕ → ℕ → List (ℕ × K) → (ℕ → K) → Buf K → Option (Buf K))
    (g : List DistDim) (junk : ℕ → ℕ → K) (k : ℕ) (S : List ℕ → Buf K) (c : List ℕ) :
    Option (Buf K) :=
  (g[k]?).bind fun s => (c[k]?).bind fun a =>
    if s.dim.lmin ≥ s.dim.lmax then some (S c)
    else (exchangeSlices (ex s.dim.basis) g k S c).bind fun slices =>
      mapPoles (partSizes g c) (fun p loc => (remoteOfPole slices p).bind fun remote =>
        pole s.dim.basis s.dim.b s.dim.lmax s.dim.lmin (s.lower a) remote (junk p) loc) (S c) k

/-- All processes of the group. -/
def processes (g : List DistDim) : List (List ℕ) :=
  (List.range (g.map fun s => s.dec.length).prod).map (getVectorIndex (g.map fun s => s.dec.length))

/-- One step on all processes. -/
def onProcesses (procs : List (List ℕ)) (f : (List ℕ → Buf K) → List ℕ → Option (Buf K))
    (S : List ℕ → Buf K) : Option (List ℕ → Buf K) :=
  if procs.all fun c => (f S c).isSome then
    some fun c => if c ∈ procs then (f S c).getD (S c) else S c
  else none

/-- The loop over the dimensions on all processes. -/
def distributedTransform (ex : Basis → Pole → Option (List (ℤ × ℤ) × List (ℤ × ℤ)))
    (pole : Basis → ℕ → ℕ → ℕ → ℕ → List (ℕ × K) → (ℕ → K) → Buf K → Option (Buf K))
    (g : List DistDim) (junk : List ℕ → ℕ → ℕ → ℕ → K) (dims : List ℕ) (S : List ℕ → Buf K) :
    Option (List ℕ → Buf K) :=
  dims.foldlM (fun S k => onProcesses (processes g) (fun S c =>
    distributedDim ex pole g (junk c k) k S c) S) S

/-- The exchange selected in `hierarchize`, l.1141-1147. -/
def hierExchange (β : Basis) (P : Pole) : Option (List (ℤ × ℤ) × List (ℤ × ℤ)) :=
  if β.isHat then P.exchangeHier else some P.exchangeAll

/-- The exchange selected in `dehierarchize`, l.1223-1229. -/
def dehierExchange (β : Basis) (P : Pole) : Option (List (ℤ × ℤ) × List (ℤ × ℤ)) :=
  if β.isHat then P.exchangeDehier else some P.exchangeAll

variable [Field K]

/-- `hierarchize`, l.1129-1187, on all processes for the dimensions `dims`; `junk c k p` are the
contents of the scratch buffer of process `c` before pole `p` of dimension `k`. -/
def distributedHierarchize (g : List DistDim) (junk : List ℕ → ℕ → ℕ → ℕ → K) (dims : List ℕ)
    (S : List ℕ → Buf K) : Option (List ℕ → Buf K) :=
  distributedTransform hierExchange hierPole g junk dims S

/-- `dehierarchize`, l.1212-1270, on all processes. -/
def distributedDehierarchize (g : List DistDim) (junk : List ℕ → ℕ → ℕ → ℕ → K) (dims : List ℕ)
    (S : List ℕ → Buf K) : Option (List ℕ → Buf K) :=
  distributedTransform dehierExchange dehierPole g junk dims S

end Verif
