import Mathlib.Algebra.Ring.Defs

/-!
# Kahan's summation

`/repo/src/sparsegrid/DistributedSparseGridUniform.hpp` l.851-862,
`/repo/src/manager/InterpolationWorker.hpp` l.26-32, `/repo/src/manager/ProcessManager.cpp` l.437-446.
-/

namespace Verif

/-- The addition and subtraction of the machine. -/
structure Adder (V : Type) where
  add : V → V → V
  sub : V → V → V

/-- Addition and subtraction without rounding. -/
def Adder.exact (V : Type) [AddGroup V] : Adder V := ⟨fun a b => a + b, fun a b => a - b⟩

/-- One addition of Kahan's summation; `s`: the value and the trailing term. -/
def kahanStep {V : Type} (A : Adder V) (s : V × V) (summand : V) : V × V :=
  let y := A.sub summand s.2
  let t := A.add s.1 y
  (t, A.sub (A.sub t s.1) y)

/-- `ProcessManager::getLpNorm`, `/repo/src/manager/ProcessManager.cpp` l.433-447: the norms of the grids in
the order of their numbers, with the coefficients. `mul`: the multiplication of the machine. Simplification:
the grids have coefficients (`getCoeff` throws otherwise). -/
def getLpNorm {K : Type} [Zero K] (A : Adder K) (mul : K → K → K) (norms : List (K × K)) : K :=
  (norms.foldl (fun s p => kahanStep A s (mul p.2 p.1)) (0, 0)).1

end Verif
