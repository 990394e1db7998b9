import Verif.Model.FullGrid
import Verif.Model.Storage
import Verif.Model.Kernels

/-!
# Hierarchization of grids: the loops over dimensions and poles

`/repo/src/hierarchization/DistributedHierarchization.hpp` l.894-1123 (loops over the poles of one
dimension) and l.1129-1187, l.1212-1270 (loops over the dimensions).

The grid is stored on one process; that a process which only stores a part of the pole computes its
part of the same result is C28. What happens to one pole is a parameter: a function of the number of
the pole (the scratch buffer has different contents for every pole) and of the values of the pole.
-/

namespace Verif

variable {K : Type}

/-- Body of the loop over the poles, `hierarchizeWithBoundary` l.915-960, `hierarchizeNoBoundary`
l.985-1043: the elements `start + i * stride` are read, transformed, and written back. What is read
is also written, so that reading out of bounds implies the outcome `none` of writing out of bounds. -/
def poleStep (stride n : ℕ) (T : ℕ → Buf K → Option (Buf K)) (d : Buf K) (p : ℕ × ℕ) :
    Option (Buf K) :=
  let jump := stride * n
  let start := p.1 * jump + p.2
  (T (p.2 + p.1 * stride) ⟨n, fun i => d.val (start + i * stride)⟩).bind fun m =>
    (List.range n).foldlM (fun (d : Buf K) i => (m.get? i).bind (d.set? (start + i * stride))) d

/-- The loops over the poles of dimension `dim`: `hierarchizeWithBoundary` l.899-911 with the loops
over `nHigher` and `nLower`. (`hierarchizeNoBoundary` has one loop over `nn` with the same poles in
the same order, `nn = nLower + nHigher * stride`.) The number of poles is a division by `jump`, which
is undefined for `jump = 0`. -/
def mapPoles (sizes : List ℕ) (T : ℕ → Buf K → Option (Buf K)) (d : Buf K) (dim : ℕ) :
    Option (Buf K) :=
  (sizes[dim]?).bind fun n => ((tensorOffsets sizes)[dim]?).bind fun stride =>
    let jump := stride * n
    if jump = 0 then none
    else ((List.range (d.len / jump)).flatMap fun hi =>
      (List.range stride).map fun lo => (hi, lo)).foldlM (poleStep stride n T) d

/-- The loop over the dimensions in `hierarchize` and `dehierarchize`, for a list of dimensions in
any order; the code runs through the selected dimensions in ascending order. -/
def transformGrid (sizes : List ℕ) (T : ℕ → ℕ → Buf K → Option (Buf K)) (dims : List ℕ)
    (d : Buf K) : Option (Buf K) :=
  dims.foldlM (fun d k => mapPoles sizes (T k) d k) d

/-- What `hierarchize` is told about a dimension: basis, boundary flag, level and minimum level. -/
structure GridDim where
  basis : Basis
  b : ℕ
  lmax : ℕ
  lmin : ℕ

/-- `hierarchize`, l.1129-1187, on one process for the dimensions `dims`; `junk k p` are the contents
of the scratch buffer before pole `p` of dimension `k`. -/
def hierarchizeGrid [Field K] (g : List GridDim) (junk : ℕ → ℕ → ℕ → K) (dims : List ℕ) (d : Buf K) :
    Option (Buf K) :=
  transformGrid (g.map fun s => poleLength s.lmax s.b) (fun k p loc => (g[k]?).bind fun s =>
    hierPole s.basis s.b s.lmax s.lmin 0 [] (junk k p) loc) dims d

/-- `dehierarchize`, l.1212-1270, on one process for the dimensions `dims`. -/
def dehierarchizeGrid [Field K] (g : List GridDim) (junk : ℕ → ℕ → ℕ → K) (dims : List ℕ)
    (d : Buf K) : Option (Buf K) :=
  transformGrid (g.map fun s => poleLength s.lmax s.b) (fun k p loc => (g[k]?).bind fun s =>
    dehierPole s.basis s.b s.lmax s.lmin 0 [] (junk k p) loc) dims d

end Verif
