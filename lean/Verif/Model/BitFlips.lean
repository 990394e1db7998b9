/-!
# Flipping bits at random

`/repo/src/mpi_fault_simulator/MPI-FT_bitflips.cpp`. `int` has 32 bits. Simplifications: the random numbers are
an argument, one for every bit to be flipped; `std::uniform_int_distribution<> dis(i, BitAmount - 1)` gives
numbers between its bounds. The number of bits to be flipped, `getAmountOfFlips` l.56-61, is the length of this
list; for a binomial distribution it does not exceed the number of bits.
-/

namespace Verif.BitFlips

/-- `flipBit`, l.63-72: the first bit of a word is the highest one; `none`: a word behind the end. -/
def flipBit (a : List (BitVec 32)) (pos : Nat) : Option (List (BitVec 32)) :=
  (a[pos / (8 * 4)]?).map fun w => a.set (pos / (8 * 4)) (w ^^^ (1#32 <<< ((8 * 4 - 1) - pos % (8 * 4))))

/-- The loop l.36-52: `rs` are the random numbers from step `i` on, `bits` is `Bits`. `none`: an access behind
the end. -/
def flipLoop : (i : Nat) → (bits : List Nat) → (rs : List Nat) → (a : List (BitVec 32)) →
    Option (List (BitVec 32))
  | _, _, [], a => some a
  | i, bits, r :: rs, a => do
    let temp ← bits[r]?
    let y ← bits[i]?
    let bits := (bits.set r y).set i temp
    let p ← bits[i]?
    let a ← flipBit a p
    flipLoop (i + 1) bits rs a

/-- `Sim_FT_Manipulate_bits`, l.10-54; `none` also if `BitAmount` overflows. -/
def manipulateBits (rs : List Nat) (a : List (BitVec 32)) : Option (List (BitVec 32)) :=
  let bitAmount := 4 * a.length * 8
  if 2 ^ 31 ≤ bitAmount then none
  else if 0 < rs.length then flipLoop 0 (List.range bitAmount) rs a
  else some a

end Verif.BitFlips
