import Verif.Spec.Digits
import Verif.Spec.Basic
import Mathlib.Algebra.BigOperators.Group.Finset.Basic

/-!
# Specification: signed digits with a modulus in the way

The library removes a negative digit by subtracting its residue modulo `L`. If the number is `L` or more after the digit has
been removed, `L` goes as well, and the halving that follows rounds down.
-/

namespace Zerocaf

/-- The digit is negative and removing it gives `L` or more. -/
def Lost (w : ℕ) (v : ℤ) : Prop := digitOf w v < 0 ∧ (ell : ℤ) ≤ v - digitOf w v

instance (w : ℕ) (v : ℤ) : Decidable (Lost w v) := by unfold Lost; infer_instance

/-- What is left of a number after `j` digits, if `L + 1` is lost whenever `Lost` holds. -/
def cutRest (w : ℕ) (v : ℤ) : ℕ → ℤ
  | 0 => v
  | j + 1 => cutRest w ((v - digitOf w v - if Lost w v then (ell : ℤ) + 1 else 0) / 2) j

/-- The places, among the first `n`, at which `L + 1` is lost, as the sum of their weights. -/
def lostSum (w : ℕ) (v : ℤ) (n : ℕ) : ℤ := ∑ j ∈ Finset.range n, if Lost w (cutRest w v j) then 2 ^ j else 0

end Zerocaf
