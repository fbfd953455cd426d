import Verif.Spec.Ristretto

/-!
# Specification of the Elligator map

The function MAP of RFC 9496, section 4.3.4, with the parameters of this curve.
-/

namespace Zerocaf

/-- `A` is the image of `t` under the map, where `i` is the chosen root of `-1` and `q` the chosen root of
`-d - 1`. A quotient by zero is zero, as in the RFC. -/
def RfcMap (i q t : Fp) (A : E) : Prop :=
  ∃ r u v s c N : Fp,
    r = i * t ^ 2 ∧ u = (r + 1) * (1 - dZ ^ 2) ∧ v = (-1 - r * dZ) * (r + dZ) ∧
    ((v ≠ 0 ∧ IsSquare (u / v) ∧ s ^ 2 = u / v ∧ s.val ≤ (p - 1) / 2 ∧ c = -1) ∨
     ((v = 0 ∨ ¬ IsSquare (u / v)) ∧ s ^ 2 = r * (u / v) ∧ (s = 0 ∨ (p - 1) / 2 < s.val) ∧ c = r)) ∧
    N = c * (r - 1) * (dZ - 1) ^ 2 - v ∧
    N * q ≠ 0 ∧ 1 + s ^ 2 ≠ 0 ∧
    A.x = 2 * s * v / (N * q) ∧ A.y = (1 - s ^ 2) / (1 + s ^ 2)

end Zerocaf
