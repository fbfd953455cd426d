import Verif.Model.LeakRoots
import Verif.Model.LeakDigits

/-!
# Leakage model: ordering, decoding of scalars, random generation and Montgomery forms

`from_bytes` of field elements, `to_bytes`, `into_bits`, `is_even`, `half_without_mod` and the shifts consist of bit
operations in loops with constant bounds and leave no record.
-/

namespace Zerocaf
namespace Leak

namespace Scalar

open Zerocaf.Scalar

/-- `Scalar::from_bytes`, `scalar.rs:445-467`: the words and limbs are put together by shifts, then the result is
compared with `L - 1` and the comparison is asserted. -/
def fromBytes (b : Bytes32) : LM Sc := do
  let s := unpack b
  let l ← le s minusOne
  rassert l
  return s

/-- `Scalar::random`, `src/scalar.rs:100-110`. -/
def random (b : Bytes32) : LM Sc := fromBytes (b.set 31 (b[31] &&& 0b00000001))

/-- `Scalar::from_bytes_wide`, `scalar.rs:470-474`. -/
def fromBytesWide (_b : Bytes64) : LM Sc := ⟨[], .panic⟩

/-- `to_montgomery`, `scalar.rs:662-664`. -/
def toMontgomery (c : Cfg) (a : Sc) : LM Sc := montgomeryMul c a RR

/-- `from_montgomery`, `scalar.rs:668-674`: the limbs are copied in a loop. -/
def fromMontgomery (c : Cfg) (a : Sc) : LM Sc :=
  montgomeryReduce c ⟨a.l0, a.l1, a.l2, a.l3, a.l4, 0, 0, 0, 0⟩

end Scalar

namespace Field

open Zerocaf.Field

/-- `FieldElement::random`, `src/field.rs:131-141`: no branch. -/
def random (b : Bytes32) : LM FE := pure (Zerocaf.Field.random b)

/-- `to_montgomery`, `field.rs:824-826`. -/
def toMontgomery (c : Cfg) (a : FE) : LM FE := montgomeryMul c a RR_FIELD

/-- `from_montgomery`, `field.rs:830-836`. -/
def fromMontgomery (c : Cfg) (a : FE) : LM FE :=
  montgomeryReduce c ⟨a.l0, a.l1, a.l2, a.l3, a.l4, 0, 0, 0, 0⟩

end Field

end Leak
end Zerocaf
