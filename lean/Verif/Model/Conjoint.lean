import Verif.Model.LevelSets
import Verif.Model.OrderedMap
import Verif.Model.PartitionDOF
import Mathlib.Data.List.Lex
import Mathlib.Algebra.Order.Ring.Rat
import Mathlib.Algebra.Order.Group.Unbundled.Abs

/-!
# Subspaces a system shares with other systems

`/repo/src/combischeme/CombiMinMaxScheme.hpp` l.430-490: the subspaces of a part of a combination scheme
that have to be exchanged with the systems that have the other parts.

Levels are non-negative and in the range of their type. Coefficients of type `real` are rational numbers.
`none` stands for an access outside of a vector.
-/

namespace Verif.Conjoint

/-- "only check the active front of the scheme -- those grids with coefficient 1", l.442-443. -/
def isActive (c : ℚ) : Bool := decide (|c - 1| < 1 / 10 ^ 9)

/-- `subspaces[subspace] += 1`, l.451; a new entry of the map starts with 0. -/
def increment (m : OMap (List ℕ) ℕ) (s : List ℕ) : OMap (List ℕ) ℕ :=
  m.set s ((m.find s).getD 0 + 1)

/-- The subspaces visited by the loop over the downward pole in dimension `d`, l.448-452: the level in this
dimension runs from `first` up to below `last`. -/
def poleSubspaces (level : List ℕ) (d first last : ℕ) : List (List ℕ) :=
  (List.range' first (last - first)).map fun l => level.set d l

/-- One iteration of the loop over the dimensions, l.446-453. -/
def dimStep (lmin level : List ℕ) (m : OMap (List ℕ) ℕ) (d : ℕ) : Option (OMap (List ℕ) ℕ) := do
  let first ← lmin[d]?
  let last ← level[d]?
  return (poleSubspaces level d first last).foldl increment m

/-- One iteration of the loop over the grids, l.441-455. -/
def gridStep (dim : ℕ) (lmin : List ℕ) (m : OMap (List ℕ) ℕ) (g : List ℕ × ℚ) :
    Option (OMap (List ℕ) ℕ) :=
  if isActive g.2 then (List.range dim).foldlM (dimStep lmin g.1) m else some m

/-- The map `subspaces` after the loop, l.437-455. The scheme consists of pairs of a level and a
coefficient. -/
def countSubspaces (scheme : List (List ℕ × ℚ)) (lmin : List ℕ) : Option (ℕ × OMap (List ℕ) ℕ) :=
  match scheme with
  | [] => none
  | g :: _ => (scheme.foldlM (gridStep g.1.length lmin) []).map fun m => (g.1.length, m)

/-- Append a subspace that is not found in the vector, l.465-467. -/
def pushMissing (set : List (List ℕ)) (s : List ℕ) : List (List ℕ) :=
  if s ∈ set then set else set ++ [s]

/-- One iteration of the loop over the map, l.459-470. -/
def conjointStep (dim : ℕ) (set : List (List ℕ)) (item : List ℕ × ℕ) : List (List ℕ) :=
  if item.2 < dim then (getDownSet item.1).foldl pushMissing (set ++ [item.1]) else set

/-- `getConjointSet`, l.430-473. -/
def getConjointSet (scheme : List (List ℕ × ℚ)) (lmin : List ℕ) : Option (List (List ℕ)) :=
  (countSubspaces scheme lmin).map fun r => r.2.foldl (conjointStep r.1) []

/-- `getNumDOFSGConjoint`, l.477-481; `stuck` also stands for an access outside of a vector. -/
def getNumDOFSGConjoint (scheme : List (List ℕ × ℚ)) (lmin : List ℕ) : Outcome ℤ :=
  match getConjointSet scheme lmin with
  | none => .stuck
  | some set => PartitionDOF.sgDOF set 0

/-- `getPartitionedNumDOFSGConjoint`, l.485-490. -/
def getPartitionedNumDOFSGConjoint (scheme : List (List ℕ × ℚ)) (lmin ref : List ℕ)
    (dec : List (List ℕ)) : Outcome (List ℤ) :=
  match getConjointSet scheme lmin with
  | none => .stuck
  | some set => PartitionDOF.partitionedNumDOF set ref dec

end Verif.Conjoint
