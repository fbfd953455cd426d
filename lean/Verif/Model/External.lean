import Verif.Model.Field
import Verif.Spec.Basic

/-!
# External contract: `curve25519_dalek::scalar::Scalar`

Not part of this repository. `Ristretto255Scalar` (`src/scalar.rs:113`) is the scalar type of
`curve25519-dalek`, whose modulus is the `p` of this library. A dalek scalar is modelled by its byte
string. The two constructors used by the library are given by their documented contracts.
-/

namespace Zerocaf
namespace External

/-- A dalek scalar, by its 32 bytes. -/
abbrev DalekScalar := Bytes32

/-- `Scalar::from_canonical_bytes` (external contract): accepts exactly the values below the modulus. -/
def fromCanonicalBytes (b : Bytes32) : Option DalekScalar := if bytesVal b < p then some b else none

/-- Little-endian bytes of an integer below `2^256`. -/
def leBytes (n : Nat) : Bytes32 := Vector.ofFn fun i : Fin 32 => UInt8.ofNat (n / 256 ^ i.val)

/-- `Scalar::from_bytes_mod_order` (external contract): reduces modulo the modulus. -/
def fromBytesModOrder (b : Bytes32) : DalekScalar := leBytes (bytesVal b % p)

/-- `From<&Ristretto255Scalar> for FieldElement`, `src/backend/u64/field.rs:151-159`. -/
def toField (s : DalekScalar) : FE := Field.fromBytes s

/-- `Into<Ristretto255Scalar> for FieldElement`, `src/backend/u64/field.rs:161-168`. -/
def intoDalek (a : FE) : Res DalekScalar := unwrap (fromCanonicalBytes (Field.toBytes a))

/-- `Into<Scalar> for &FieldElement`, `src/field.rs:120-124`. -/
def refIntoDalek (a : FE) : DalekScalar := fromBytesModOrder (Field.toBytes a)

end External
end Zerocaf
