import Mathlib.Order.Defs.LinearOrder
import Mathlib.Data.List.Basic

/-!
# Ordered maps

`std::map<K, V>` as the list of its pairs in the order of iteration, that is with increasing keys.
-/

namespace Verif

/-- A `std::map`, its pairs in the order of iteration. -/
abbrev OMap (K V : Type) := List (K × V)

namespace OMap

variable {K V : Type}

/-- `m[k] = v`. -/
def set [LinearOrder K] (m : OMap K V) (k : K) (v : V) : OMap K V :=
  match m with
  | [] => [(k, v)]
  | (a, w) :: rest =>
    if k < a then (k, v) :: (a, w) :: rest
    else if k = a then (k, v) :: rest
    else (a, w) :: set rest k v

/-- `m.find(k)`. -/
def find [LinearOrder K] (m : OMap K V) (k : K) : Option V :=
  match m with
  | [] => none
  | (a, w) :: rest => if k = a then some w else find rest k

/-- The keys increase. -/
def Sorted [LT K] (m : OMap K V) : Prop := m.Pairwise fun a b => a.1 < b.1

end OMap

end Verif
