import Verif.Model.Ristretto

/-!
# Model: the texts of `Debug` and `Display`, access to limbs

The text of a value printed with `{:?}` or `{}` is a list of characters. Only these two formats are modelled; the
alternate format `{:#?}`, widths and precisions are not.
-/

namespace Zerocaf
namespace Text

/-- `{:?}` of an unsigned integer, from the standard library: decimal digits without leading zeros. -/
def num (n : Nat) : List Char := Nat.toDigits 10 n

/-- What follows the opening bracket in `{:?}` of a slice or array of integers, from the standard library. -/
def items : List Nat → List Char
  | [] => [']']
  | [x] => num x ++ [']']
  | x :: y :: r => num x ++ [',', ' '] ++ items (y :: r)

/-- `{:?}` of a slice or array of integers. -/
def slice (l : List Nat) : List Char := '[' :: items l

/-- The limbs in order. -/
def limbs (a : L5) : List Nat := [a.l0, a.l1, a.l2, a.l3, a.l4]

/-- The bytes in order. -/
def bytes (b : Bytes32) : List Nat := b.toList.map UInt8.toNat

/-- `Debug for FieldElement`, `field.rs:34-38`, and `Display for FieldElement`, `field.rs:40-44`. -/
def field (a : FE) : List Char := "FieldElement(".toList ++ (slice (limbs a) ++ ")".toList)

/-- `Debug for Scalar`, `scalar.rs:29-33`. -/
def scalar (a : Sc) : List Char := "Scalar: ".toList ++ slice (limbs a)

/-- `Debug for CompressedEdwardsY`, `edwards.rs:240-244`. -/
def compressedEdwards (b : Bytes32) : List Char := "CompressedEdwardsY: ".toList ++ slice (bytes b)

/-- `derive(Debug)` of `CompressedRistretto`, `ristretto.rs:44-45`. -/
def compressedRistretto (b : Bytes32) : List Char :=
  "CompressedRistretto(".toList ++ (slice (bytes b) ++ ")".toList)

/-- `derive(Debug)` of `MontgomeryPoint`, `montgomery.rs:15-16`. -/
def montgomery (b : Bytes32) : List Char := "MontgomeryPoint(".toList ++ (slice (bytes b) ++ ")".toList)

/-- The lines with the entries in `{:#?}` of an array inside a tuple structure, from the standard library: one entry per
line, indented twice by four spaces, each with a comma. -/
def altItems : List Nat → List Char
  | [] => []
  | n :: l => "        ".toList ++ (num n ++ (",\n".toList ++ altItems l))

/-- `{:#?}` of a derived tuple structure with one nonempty array, from the standard library. The handwritten `Debug`
implementations call `write!` with their own `{:?}`, so the alternate flag changes nothing for them. -/
def altTuple (name : List Char) (l : List Nat) : List Char :=
  name ++ ("(\n    [\n".toList ++ (altItems l ++ "    ],\n)".toList))

/-- `derive(Debug)` of `CompressedRistretto`, `ristretto.rs:44-45`, alternate form `{:#?}`. -/
def compressedRistrettoAlt (b : Bytes32) : List Char := altTuple "CompressedRistretto".toList (bytes b)

/-- `derive(Debug)` of `MontgomeryPoint`, `montgomery.rs:15-16`, alternate form `{:#?}`. -/
def montgomeryAlt (b : Bytes32) : List Char := altTuple "MontgomeryPoint".toList (bytes b)

/-- `Debug for EdwardsPoint`, `edwards.rs:344-358`. -/
def edwards (P : EdPoint) : List Char :=
  "
        EdwardsPoint {
            X: ".toList ++ (field P.X ++ (",
            Y: ".toList ++ (field P.Y ++ (",
            Z: ".toList ++ (field P.Z ++ (",
            T: ".toList ++ (field P.T ++ "
        };".toList)))))))

/-- `Debug for ProjectivePoint`, `edwards.rs:686-699`. -/
def projective (P : ProjPoint) : List Char :=
  "
        ProjectivePoint {
            X: ".toList ++ (field P.X ++ (",
            Y: ".toList ++ (field P.Y ++ (",
            Z: ".toList ++ (field P.Z ++ "
        };".toList)))))

/-- `Debug for AffinePoint`, `edwards.rs:1013-1025`. -/
def affine (P : AffPoint) : List Char :=
  "
        AffinePoint {
            X: ".toList ++ (field P.X ++ (",
            Y: ".toList ++ (field P.Y ++ "
        };".toList)))

/-- `Debug for RistrettoPoint`, `ristretto.rs:160-164`: the text of the Edwards point inside. -/
def ristretto (P : EdPoint) : List Char := edwards P

end Text

/-- `Index<usize>` for `FieldElement`, `field.rs:46-51`, and for `Scalar`, `scalar.rs:35-40`: arrays panic out of
bounds. -/
def limbAt (a : L5) (i : Nat) : Res Nat := unwrap (Text.limbs a)[i]?

/-- Assignment through `IndexMut<usize>` for `FieldElement`, `field.rs:53-57`, and for `Scalar`, `scalar.rs:42-46`. -/
def setLimb (a : L5) (i v : Nat) : Res L5 :=
  match i with
  | 0 => .ok { a with l0 := v }
  | 1 => .ok { a with l1 := v }
  | 2 => .ok { a with l2 := v }
  | 3 => .ok { a with l3 := v }
  | 4 => .ok { a with l4 := v }
  | _ => .panic

end Zerocaf
