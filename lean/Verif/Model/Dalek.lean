import Verif.Model.External

/-!
# External contract: arithmetic of `curve25519_dalek::scalar::Scalar`

Not part of this repository. The operators of the scalar type of `curve25519-dalek` by their documented contracts:
arithmetic modulo the modulus with reduced results, and equality of bytes.
-/

namespace Zerocaf
namespace External

/-- `Scalar::zero` (external contract). -/
def dzero : DalekScalar := leBytes 0

/-- `Scalar::one` (external contract). -/
def done : DalekScalar := leBytes 1

/-- `Add for Scalar` (external contract). -/
def dadd (a b : DalekScalar) : DalekScalar := leBytes ((bytesVal a + bytesVal b) % p)

/-- `Sub for Scalar` (external contract). -/
def dsub (a b : DalekScalar) : DalekScalar := leBytes ((bytesVal a + (p - bytesVal b % p)) % p)

/-- `Neg for Scalar` (external contract). -/
def dneg (a : DalekScalar) : DalekScalar := leBytes ((p - bytesVal a % p) % p)

/-- `Mul for Scalar` (external contract). -/
def dmul (a b : DalekScalar) : DalekScalar := leBytes (bytesVal a * bytesVal b % p)

end External
end Zerocaf
