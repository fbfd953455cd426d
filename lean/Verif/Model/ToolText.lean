import Verif.Model.Tools
import Verif.Model.Text

/-!
# Model: the texts that the number tools read and print

The functions of `tools/src/main.rs` from text to text. `BigUint` is a natural number. Its parser, from the crate
`num-bigint` (version 0.2), is not in the repository: `parseBig` is written down from the source of that crate. Printed
texts are lists of characters; `println!` adds a newline.
-/

namespace Zerocaf
namespace ToolText

/-- The value of a digit in `BigUint::from_str_radix` of `num-bigint`: `u8::MAX` for any other byte. Characters beyond
ASCII are several bytes there, none of them a digit. -/
def digitVal (b : Char) : Nat :=
  if 48 ≤ b.toNat ∧ b.toNat ≤ 57 then b.toNat - 48
  else if 97 ≤ b.toNat ∧ b.toNat ≤ 122 then b.toNat - 97 + 10
  else if 65 ≤ b.toNat ∧ b.toNat ≤ 90 then b.toNat - 65 + 10
  else 255

/-- The loop of `BigUint::from_str_radix` over the bytes: underscores are skipped. -/
def digitLoop (radix : Nat) : List Char → Option (List Nat)
  | [] => some []
  | b :: s =>
    if b = '_' then digitLoop radix s
    else if digitVal b < radix then (digitLoop radix s).map (digitVal b :: ·) else none

/-- The start of `BigUint::from_str_radix`: one plus sign is dropped, unless another one follows. -/
def strip (s : List Char) : List Char := if s.head? = some '+' ∧ s.tail.head? ≠ some '+' then s.tail else s

/-- `BigUint::from_str_radix` of `num-bigint`, for radix 2 to 36; `none` for an error. -/
def parseBig (radix : Nat) (s : List Char) : Option Nat :=
  if strip s = [] then none
  else if (strip s).head? = some '_' then none
  else (digitLoop radix (strip s)).map (fun v => v.foldl (fun a d => a * radix + d) 0)

/-- `BigUint::from_str_radix` with its assertion on the radix. -/
def fromStrRadix (s : List Char) (radix : Nat) : Res (Option Nat) :=
  if 2 ≤ radix ∧ radix ≤ 36 then .ok (parseBig radix s) else .panic

/-- `BigUint::from_str(s).unwrap()`. -/
def readBig (s : List Char) : Res Nat := fromStrRadix s 10 >>= unwrap

/-- The loop of `u64::from_str` of the standard library: `checked_mul`, `checked_add`. -/
def u64Loop : List Char → Nat → Option Nat
  | [], a => some a
  | b :: s, a =>
    if 48 ≤ b.toNat ∧ b.toNat ≤ 57 ∧ a * 10 + (b.toNat - 48) < 2 ^ 64 then u64Loop s (a * 10 + (b.toNat - 48)) else none

/-- `u64::from_str` of the standard library. -/
def parseU64 (s : List Char) : Option Nat :=
  match s with
  | [] => none
  | ['+'] => none
  | '+' :: t => u64Loop t 0
  | _ => u64Loop s 0

/-- `u64::from_str(&x.to_str_radix(10u32)).unwrap()`, `tools/src/main.rs:80` and `97`. -/
def limb (x : Nat) : Res Nat := unwrap (parseU64 (Text.num x))

/-- The conversion of the five digits to limbs, `tools/src/main.rs:80-82` and `97-99`. -/
def limbs (a : L5) : Res L5 := do
  let l0 ← limb a.l0
  let l1 ← limb a.l1
  let l2 ← limb a.l2
  let l3 ← limb a.l3
  let l4 ← limb a.l4
  return ⟨l0, l1, l2, l3, l4⟩

/-- The loop that divides five times by `b`, `tools/src/main.rs:75-78` and `92-95`. -/
def split5 (n b : Nat) : L5 := ⟨n % b, n / b % b, n / b / b % b, n / b / b / b % b, n / b / b / b / b % b⟩

/-- `to_field_elem_51`, `tools/src/main.rs:69-83`. -/
def toFieldElem51 (s : List Char) : Res L5 := do
  let b ← readBig "2251799813685248".toList
  let n ← readBig s
  limbs (split5 n b)

/-- `to_scalar_base_52`, `tools/src/main.rs:86-100`. -/
def toScalarBase52 (s : List Char) : Res L5 := do
  let b ← readBig "4503599627370496".toList
  let n ← readBig s
  limbs (split5 n b)

/-- `println!("{}", n)` of a `BigUint`. -/
def line (n : Nat) : List Char := Text.num n ++ ['\n']

/-- `from_scalar_base_52`, `tools/src/main.rs:103-110`. -/
def fromScalarBase52 (a : L5) : Res (List Char) := do
  let b ← readBig "4503599627370496".toList
  return line (0 + b ^ 0 * a.l0 + b ^ 1 * a.l1 + b ^ 2 * a.l2 + b ^ 3 * a.l3 + b ^ 4 * a.l4)

/-- `from_field_elem_base_51`, `tools/src/main.rs:113-120`. -/
def fromFieldElem51 (a : L5) : Res (List Char) := do
  let b ← readBig "2251799813685248".toList
  return line (0 + b ^ 0 * a.l0 + b ^ 1 * a.l1 + b ^ 2 * a.l2 + b ^ 3 * a.l3 + b ^ 4 * a.l4)

/-- Bytes, least significant first, until nothing is left; the first argument bounds the number of bytes. -/
def bytesLoop : Nat → Nat → List Nat
  | 0, _ => []
  | f + 1, n => if n = 0 then [] else n % 256 :: bytesLoop f (n / 256)

/-- `BigUint::to_bytes_le` of `num-bigint`: one zero byte for zero, otherwise no leading zero. -/
def toBytesLe (n : Nat) : List Nat := if n = 0 then [0] else bytesLoop (Misc.bits n) n

/-- What follows the opening bracket in `{:x?}` of a vector of bytes: small hexadecimal digits without padding. -/
def hexItems : List Nat → List Char
  | [] => [']']
  | [x] => Nat.toDigits 16 x ++ [']']
  | x :: y :: r => Nat.toDigits 16 x ++ [',', ' '] ++ hexItems (y :: r)

/-- `hex_bytes_le`, `tools/src/main.rs:52-56`. -/
def hexBytesLe (s : List Char) : Res (List Char) := do
  let n ← readBig s
  return "Encoding result -> ".toList ++ ('[' :: hexItems (toBytesLe n)) ++ ['\n']

/-- `num_from_bytes_le`, `tools/src/main.rs:59-61`. -/
def numFromBytesLe (l : List UInt8) : List Char := line (l.foldr (fun b a => b.toNat + 256 * a) 0)

/-- `from_radix_to_radix_10`, `tools/src/main.rs:64-66`. -/
def fromRadixToRadix10 (s : List Char) (radix : Nat) : Res (List Char) := do
  let n ← fromStrRadix s radix >>= unwrap
  return line n

/-- `EdwardsPoint::new`, `tools/src/main.rs:262-276`. -/
def newPoint (x y z t : List Char) : Res EdPoint := do
  let X ← toScalarBase52 x
  let Y ← toScalarBase52 y
  let Z ← toScalarBase52 z
  let T ← toScalarBase52 t
  return ⟨X, Y, Z, T⟩

/-- `Debug for EdwardsPoint` of the tool, `tools/src/main.rs:247-257`. -/
def pointText (P : EdPoint) : List Char :=
  "
        EdwardsPoint {
            X: FieldElement(".toList ++ (Text.slice (Text.limbs P.X) ++ ("),
            Y: FieldElement(".toList ++ (Text.slice (Text.limbs P.Y) ++ ("),
            Z: FieldElement(".toList ++ (Text.slice (Text.limbs P.Z) ++ ("),
            T: FieldElement(".toList ++ (Text.slice (Text.limbs P.T) ++ ")
        };".toList)))))))

/-- `println!("{name}{n}\n")` of a `BigUint`: the line and an empty one. -/
def entry (name : String) (n : Nat) : List Char := name.toList ++ (Text.num n ++ ['\n', '\n'])

/-- `reduction`, `tools/src/main.rs:157-184`: the printed text. `Montgomery::new` gives an error for even moduli, which
`unwrap` turns into a panic. `modpow` of `num-bigint` is the power reduced. -/
def reduction (m x1 x2 : Nat) : Res (List Char) := do
  let mont ← unwrap (Misc.Mont.new m)
  let t1 := x1 * mont.rrm
  let t2 := x2 * mont.rrm
  let r1 := mont.reduce t1
  let r2 := mont.reduce t2
  let r := 1 <<< mont.n
  return entry "b = " 2 ++ entry "n = " mont.n ++ entry "r = " r ++ entry "m = " m ++ entry "t1 = " t1 ++
    entry "t2 = " t2 ++ entry "r1 = " r1 ++ entry "r2 = " r2 ++ entry "Original x1: " x1 ++
    entry "Recovered from r1: " (mont.reduce r1) ++ entry "Original x2: " x2 ++
    entry "Recovered from r2: " (mont.reduce r2) ++
    "Montgomery computation of x1 ^ x2 mod m :\n".toList ++ entry "" (x1 ^ x2 % mont.m)

/-- `println!("{:?}", a)` of an array of limbs. -/
def limbLine (a : L5) : List Char := Text.slice (Text.limbs a) ++ ['\n']

/-- `main`, `tools/src/main.rs:43-48`; the rest of the function is a comment. -/
def main : Res (List Char) := do
  let a ← toScalarBase52 "452312848583266388373324160190187140059081152887999797648174285421238281266".toList
  let b ← toScalarBase52 "452312848583266388373324160190187140051835877600158453279131187530910662656".toList
  return limbLine a ++ limbLine b

/-- `{:?}` of `to_scalar_base_52(&n.to_str_radix(10))`, as in `tools/src/main.rs:231`. -/
def limbText (n : Nat) : Res (List Char) := do
  let a ← toScalarBase52 (Text.num n)
  return Text.slice (Text.limbs a)

/-- The text that `phase1` prints after a round, `tools/src/main.rs:231`. -/
def roundText (q : Tools.KState) : Res (List Char) := do
  let r ← limbText q.r
  let s ← limbText q.s
  let v ← limbText q.v
  let u ← limbText q.u
  return "Values on iteration: ".toList ++ Text.num q.k ++ ": \nr = ".toList ++ r ++ "\ns = ".toList ++ s ++
    "\nv = ".toList ++ v ++ "\nu = ".toList ++ u ++ ['\n']

/-- The loop of `phase1` with its text, `tools/src/main.rs:194-232`. The counter `k` cannot overflow in fewer than
`2 ^ 64` rounds. -/
def phase1Loop : Nat → Tools.KState → Res (List Char × Tools.KState)
  | 0, _ => .diverge
  | n + 1, q =>
    if q.v > 0 then do
      let t ← roundText (Tools.kStep q)
      let (t', q') ← phase1Loop n (Tools.kStep q)
      return (t ++ t', q')
    else .ok ([], q)

/-- The end of `phase1` with its text, `tools/src/main.rs:233-236`: the text and the new `r`. -/
def phase1Reduce (p r : Nat) : Res (List Char × Nat) :=
  if r ≥ p then limbText (r - p) >>= fun d => .ok ("Inside if: ".toList ++ d ++ ['\n'], r - p) else .ok ([], r)

/-- `phase1` with its text, `tools/src/main.rs:186-239`. `BigUint` subtraction panics below zero. -/
def phase1 (fuel x : Nat) : Res (List Char × Nat) := do
  let p ← readBig "7237005577332262213973186563042994240832148273380272487819684194273658967345".toList
  let (t, q) ← phase1Loop fuel ⟨p, x, 0, 1, 0⟩
  let (t', r) ← phase1Reduce p q.r
  if r ≤ p then .ok (t ++ t' ++ ("Outside if: ".toList ++ line (p - r)), p - r) else .panic

end ToolText
end Zerocaf
