import Mathlib.Data.Int.Init

/-!
# Specification: signed digits of an integer
-/

namespace Zerocaf

/-- The digit that a number contributes: zero if it is even, its signed residue modulo `2^w` otherwise. -/
def digitOf (w : Nat) (v : Int) : Int := if v % 2 = 1 then Int.bmod v (2 ^ w) else 0

/-- What is left of a number after `j` digits. -/
def rest (w : Nat) (v : Int) : Nat → Int
  | 0 => v
  | j + 1 => rest w ((v - digitOf w v) / 2) j

/-- The size of a number as far as the comparison with one shows it: zero, one, or the leading limb. -/
def sizeClass (v : Int) : Nat := ([1, 2, 2 ^ 52, 2 ^ 104, 2 ^ 156, 2 ^ 208].filter fun t : Int => decide (t ≤ v)).length

end Zerocaf
