import Verif.Spec.Points

/-!
# Specification of the Ristretto group

The Ristretto group is the group of the doubles of curve points modulo the points whose order divides 4.
-/

namespace Zerocaf

/-- `A` is the double of a curve point. -/
def InEven (A : E) : Prop := ∃ B : E, A = B + B

/-- `A` and `B` differ by a point whose order divides 4. -/
def SameClass (A B : E) : Prop := 4 • (A - B) = 0

end Zerocaf
