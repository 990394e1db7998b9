import Verif.Model.FileIO
import Verif.Model.Coordinates

/-!
# Broadcasting files, classes and coordinates

`/repo/src/mpi/MPIUtils.hpp` l.57-107 and `/repo/src/io/BroadcastParameters.cpp`. Lists over the processes of
a communicator stand for what each of them has. `error`: an exception; `stuck`: undefined behaviour or an
assertion that fails. Converting a size to `int` keeps the lowest 32 bits. The archives of Boost are given by two
functions.
-/

namespace Verif.Broadcast

/-- `static_cast<int>` of a `size_t`. -/
def toInt (n : ℕ) : ℤ :=
  if n % 2 ^ 32 < 2 ^ 31 then ((n % 2 ^ 32 : ℕ) : ℤ) else ((n % 2 ^ 32 : ℕ) : ℤ) - 2 ^ 32

/-- `resize` to a size of type `int`: a negative one is converted to a `size_t` that is too large, and
`std::length_error` is thrown. -/
def resize {α : Type} (fill : α) (v : List α) (n : ℤ) : Outcome (List α) :=
  if n < 0 then .error else .ok (v.take n.toNat ++ List.replicate (n.toNat - v.length) fill)

/-- A step of all processes, one after the other. -/
def onAll {β γ : Type} (f : β → Outcome γ) : List β → Outcome (List γ)
  | [] => .ok []
  | x :: xs => (f x).bind fun y => (onAll f xs).bind fun ys => .ok (y :: ys)

/-- `MPI_Bcast` of `count` elements: the first `count` elements of all buffers are those of the root. -/
def bcast {α : Type} (count : ℕ) (root : ℕ) (bufs : List (List α)) : Outcome (List (List α)) :=
  match bufs[root]? with
  | none => .stuck
  | some b => .ok (bufs.map fun v => b.take count ++ v.drop count)

/-- `broadcastContainer`, `MPIUtils.hpp` l.57-70. -/
def broadcastContainer {α : Type} (fill : α) (root : ℕ) (vs : List (List α)) : Outcome (List (List α)) :=
  match vs[root]? with
  | none => .stuck
  | some v =>
    let bsize := toInt v.length
    (onAll (fun w => resize fill w bsize) vs).bind fun vs => bcast bsize.toNat root vs

/-- `broadcastClass`, l.72-104: `save` writes an archive, `load` reads one (`none`: an exception). The root keeps
its object. -/
def broadcastClass {T : Type} (save : T → List Char) (load : List Char → Option T) (root : ℕ) (ts : List T) :
    Outcome (List T) :=
  match ts[root]? with
  | none => .stuck
  | some t =>
    (broadcastContainer (Char.ofNat 0) root
        ((List.range ts.length).map fun r => if r = root then save t else [])).bind fun ss =>
      onAll (fun x => if x.1 = root then .ok t else
        match load x.2 with
        | some t' => .ok t'
        | none => .error) ((List.range ts.length).zip ss)

/-- `getFileContentsFromRankZero`, `BroadcastParameters.cpp` l.17-27, on `n` processes; `none`: the file can not be
opened, nothing is read from the stream then. -/
def getFileContents (file : Option (List Char)) (n : ℕ) : Outcome (List (List Char)) :=
  broadcastContainer (Char.ofNat 0) 0
    ((List.range n).map fun r => if r = 0 then file.getD [] else [])

/-- What rank zero computes in `getCoordinatesFromRankZero`, l.56-64: the two sizes and the coordinates in one
vector. -/
def prepareCoordinates {R : Type} (coords : List (List R)) : Outcome ((ℤ × ℤ) × List R) :=
  match coords with
  | [] => .stuck
  | c :: _ =>
    let s0 := toInt coords.length
    let s1 := toInt c.length
    if 0 < s0 ∧ 0 < s1 then
      (serializeCoords coords).bind fun serial =>
        if s0 * s1 < 2147483648 ∧ (serial.length : ℤ) = s0 * s1 then .ok ((s0, s1), serial) else .stuck
    else .stuck

/-- `getCoordinatesFromRankZero`, l.50-78, on `n` processes; `coords` is what rank zero reads. -/
def getCoordinates {R : Type} (fill : R) (coords : List (List R)) (n : ℕ) : Outcome (List (List (List R))) :=
  (prepareCoordinates coords).bind fun p =>
    let size := p.1.1 * p.1.2
    (onAll (fun v => resize fill v size) ((List.range n).map fun r => if r = 0 then p.2 else [])).bind fun vs =>
      (bcast size.toNat 0 vs).bind fun vs =>
        onAll (fun v => deserializeCoords v p.1.2.toNat) vs

end Verif.Broadcast
