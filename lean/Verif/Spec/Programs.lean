import Verif.Spec.Elligator
import Verif.Spec.Digits
import Verif.Proof.Encode
import Verif.Proof.EllMap
import Verif.Proof.Classes

/-!
# Specification: what programs written against the library mean

A small language of programs: the operations of the library, host functions on ordinary data (hash functions,
control, formatting and so on), pairs, options, lists, branching, loops over lists and counted loops. Each
program is given a meaning in which field elements are residues modulo `p`, scalars residues modulo `L`,
Edwards points points of the curve in whatever coordinates, and Ristretto points elements of the group of order
`L`, written as their logarithm to the base point. No function of the model is mentioned.
-/

set_option exponentiation.threshold 600

namespace Zerocaf
namespace Programs

/-- Types of values. `obs T` is ordinary data: numbers, booleans, byte strings, transcripts. -/
inductive Ty : Type 1 where
  | obs (T : Type)
  | field
  | scalar
  | ext
  | proj
  | aff
  | ris
  | prod (s t : Ty)
  | opt (t : Ty)
  | list (t : Ty)

/-- Mathematical values of a type. -/
def Den : Ty → Type
  | .obs T => T
  | .field => Fp
  | .scalar => ZMod ell
  | .ext => E
  | .proj => E
  | .aff => E
  | .ris => ZMod ell
  | .prod s t => Den s × Den t
  | .opt t => Option (Den t)
  | .list t => List (Den t)

/-- What a program does: return a value, panic, or leave the part of the interface this specification
covers. -/
inductive Outcome (α : Type) where
  | val (a : α)
  | panic
  | unspecified

namespace Outcome

/-- Sequencing. -/
def bind {α β : Type} (x : Outcome α) (f : α → Outcome β) : Outcome β :=
  match x with
  | val a => f a
  | panic => panic
  | unspecified => unspecified

end Outcome

abbrev Byte32 := Vector UInt8 32
abbrev Byte64 := Vector UInt8 64
abbrev U8 := {n : ℕ // n < 2 ^ 8}
abbrev U64 := {n : ℕ // n < 2 ^ 64}
abbrev U128 := {n : ℕ // n < 2 ^ 128}

/-- Signed bytes without `-128`, exponents of the residues, and widths of windows for which the function of the library is
right (C35, C36, C33). -/
abbrev I8 := {x : ℤ // -127 ≤ x ∧ x ≤ 127}
abbrev Exp8 := {k : ℕ // k ≤ 8}
abbrev Mod := {w : ℕ // 2 ≤ w ∧ w ≤ 6}
abbrev Width := {w : ℕ // 2 ≤ w ∧ w ≤ 5}

/-! ### The mathematics the operations compute -/

/-- The 32 bytes of an integer, least significant first. -/
def leBytes (n : ℕ) : Byte32 := Vector.ofFn fun i => UInt8.ofNat (n / 256 ^ i.val)

/-- The square root the library chooses: with `p - 1 = 4 q`, the root `a^((q+1)/2)` if `a^q = 1` and that root
times `6^q`, a square root of `-1`, otherwise; negated for the choice 1. -/
noncomputable def modRoot (a : Fp) (sign : Bool) : Option Fp :=
  open Classical in
  let q := (p - 1) / 4
  let r := if a ^ q = 1 then a ^ ((q + 1) / 2) else a ^ ((q + 1) / 2) * 6 ^ q
  if IsSquare a then some (if sign then -r else r) else none

/-- `u / v` square: its root in `[0, (p-1)/2]`; otherwise that of `i u / v`. -/
noncomputable def ratioRoot (u v : Fp) : Bool × Fp :=
  open Classical in
  if u = 0 then (true, 0) else if v = 0 then (false, 0)
  else if IsSquare (u / v) then (true, psqrt (u / v)) else (false, psqrt (Field.iZ * (u / v)))

/-- The curve point with a given `y`, if there is one: `x` is the root chosen by the library. -/
noncomputable def fromY (y : Fp) (sign : Bool) : Option E :=
  open Classical in
  if h : ∃ A : E, A.y = y ∧ some A.x = modRoot ((y ^ 2 - 1) / (1 + dZ * y ^ 2)) sign then some h.choose else none

/-- The compressed form of a curve point: `y`, and the top bit set unless `x` is the root chosen for the
choice 0. -/
noncomputable def edEncode (A : E) : Byte32 :=
  open Classical in
  leBytes (A.y.val + 2 ^ 255 *
    if modRoot ((A.y ^ 2 - 1) / (1 + dZ * A.y ^ 2)) false = some A.x then 0 else 1)

/-- Decompression: the low 252 bits are `y`, the top bit the choice of the root. -/
noncomputable def edDecode (b : Byte32) : Option E :=
  fromY ((bytesVal b % 2 ^ 252 : ℕ) : Fp) (decide (bytesVal b / 2 ^ 255 = 1))

/-- The element of the Ristretto group of order `L` a doubled point stands for. -/
def HasLog (A : E) (k : ZMod ell) : Prop := SameClass A (k.val • Bpt)

/-- `s` is the number that encodes `k`: both `s` and the coordinates and their product of the representative
used are at most `(p-1)/2`, and `y = (1 - s²) / (1 + s²)`. -/
def RisCode (k : ZMod ell) (s : Fp) : Prop :=
  ∃ A : E, InEven A ∧ HasLog A k ∧ 2 * A.x.val ≤ p - 1 ∧ 2 * (A.x * A.y).val ≤ p - 1 ∧ A.y ≠ 0 ∧ 1 + A.y ≠ 0 ∧
    2 * s.val ≤ p - 1 ∧ s ^ 2 * (1 + A.y) = 1 - A.y

/-- The encoding of a group element. -/
noncomputable def risEncode (k : ZMod ell) : Byte32 := leBytes (Classical.epsilon (RisCode k)).val

/-- Decoding inverts encoding and rejects every other string. -/
noncomputable def risDecode (b : Byte32) : Option (ZMod ell) :=
  open Classical in if h : ∃ k, risEncode k = b then some h.choose else none

/-- The group element of the image of `t` under the map of RFC 9496. -/
noncomputable def risMap (t : Fp) : ZMod ell :=
  Classical.epsilon fun k => ∃ A : E, RfcMap Field.iZ qZ t A ∧ HasLog A k

/-- The group element 64 bytes hash to. -/
noncomputable def risHash (b : Byte64) : ZMod ell :=
  risMap ((bytesVal (Vector.ofFn fun i : Fin 32 => b[i.val]) : ℕ) : Fp) +
    risMap ((bytesVal (Vector.ofFn fun i : Fin 32 => b[32 + i.val]) : ℕ) : Fp)

/-! ### Operations -/

/-- The operations of the library, with the type they take and the type they return. Those with no argument
take the empty tuple. -/
inductive Prim : Ty → Ty → Type 1 where
  -- field elements
  | fZero : Prim (.obs Unit) .field
  | fOne : Prim (.obs Unit) .field
  | fMinusOne : Prim (.obs Unit) .field
  | fFrom : Prim (.obs U128) .field
  | fTwoPow : Prim (.obs U64) .field
  | fNeg : Prim .field .field
  | fSquare : Prim .field .field
  | fHalf : Prim .field .field
  | fHalfFloor : Prim .field .field
  | fInverse : Prim .field .field
  | fAdd : Prim (.prod .field .field) .field
  | fSub : Prim (.prod .field .field) .field
  | fMul : Prim (.prod .field .field) .field
  | fDiv : Prim (.prod .field .field) .field
  | fPow : Prim (.prod .field .field) .field
  | fLegendre : Prim .field (.obs Bool)
  | fModSqrt : Prim (.prod .field (.obs Bool)) (.opt .field)
  | fSqrtRatio : Prim (.prod .field .field) (.prod (.obs Bool) .field)
  | fInvSqrt : Prim .field (.prod (.obs Bool) .field)
  | fIsEven : Prim .field (.obs Bool)
  | fIsPositive : Prim .field (.obs Bool)
  | fEq : Prim (.prod .field .field) (.obs Bool)
  | fCmp : Prim (.prod .field .field) (.obs Ordering)
  | fToBytes : Prim .field (.obs Byte32)
  | fFromBytes : Prim (.obs Byte32) .field
  | fSelect : Prim (.prod (.prod .field .field) (.obs Bool)) .field
  | fNegIf : Prim (.prod .field (.obs Bool)) .field
  | fRandom : Prim (.obs Byte32) .field
  -- scalars
  | sZero : Prim (.obs Unit) .scalar
  | sOne : Prim (.obs Unit) .scalar
  | sMinusOne : Prim (.obs Unit) .scalar
  | sFrom : Prim (.obs U128) .scalar
  | sTwoPow : Prim (.obs U64) .scalar
  | sNeg : Prim .scalar .scalar
  | sSquare : Prim .scalar .scalar
  | sHalf : Prim .scalar .scalar
  | sHalfFloor : Prim .scalar .scalar
  | sShr : Prim (.prod .scalar (.obs U8)) .scalar
  | sAdd : Prim (.prod .scalar .scalar) .scalar
  | sSub : Prim (.prod .scalar .scalar) .scalar
  | sMul : Prim (.prod .scalar .scalar) .scalar
  | sPow : Prim (.prod .scalar .scalar) .scalar
  | sIsEven : Prim .scalar (.obs Bool)
  | sEq : Prim (.prod .scalar .scalar) (.obs Bool)
  | sCmp : Prim (.prod .scalar .scalar) (.obs Ordering)
  | sToBytes : Prim .scalar (.obs Byte32)
  | sFromBytes : Prim (.obs Byte32) .scalar
  | sFromI8 : Prim (.obs I8) .scalar
  | sRandom : Prim (.obs Byte32) .scalar
  | sBits : Prim .scalar (.obs (Vector UInt8 256))
  | sMod : Prim (.prod .scalar (.obs Exp8)) (.obs ℕ)
  | sMods : Prim (.prod .scalar (.obs Mod)) (.obs ℤ)
  | sNaf : Prim .scalar (.obs (Vector ℤ 256))
  | sWindowNaf : Prim (.prod .scalar (.obs Width)) (.obs (Vector ℤ 256))
  -- points in extended coordinates
  | eZero : Prim (.obs Unit) .ext
  | eBase : Prim (.obs Unit) .ext
  | eNeg : Prim .ext .ext
  | eDouble : Prim .ext .ext
  | eAdd : Prim (.prod .ext .ext) .ext
  | eSub : Prim (.prod .ext .ext) .ext
  | eMul : Prim (.prod .ext .scalar) .ext
  | eLtrMul : Prim (.prod .ext .scalar) .ext
  | eNafMul : Prim (.prod .ext .scalar) .ext
  | eCofactor : Prim .ext .ext
  | eMulPow2 : Prim (.prod .ext (.obs U64)) .ext
  | eEq : Prim (.prod .ext .ext) (.obs Bool)
  | eIsValid : Prim .ext (.obs Bool)
  | eFromY : Prim (.prod .field (.obs Bool)) (.opt .ext)
  | eCompress : Prim .ext (.obs Byte32)
  | eDecompress : Prim (.obs Byte32) (.opt .ext)
  | eNegCompressed : Prim (.obs Byte32) (.obs Byte32)
  | eOfProj : Prim .proj .ext
  | eOfAff : Prim .aff .ext
  -- points in projective coordinates
  | pZero : Prim (.obs Unit) .proj
  | pNeg : Prim .proj .proj
  | pDouble : Prim .proj .proj
  | pAdd : Prim (.prod .proj .proj) .proj
  | pSub : Prim (.prod .proj .proj) .proj
  | pMul : Prim (.prod .proj .scalar) .proj
  | pLtrMul : Prim (.prod .proj .scalar) .proj
  | pNafMul : Prim (.prod .proj .scalar) .proj
  | pCofactor : Prim .proj .proj
  | pMulPow2 : Prim (.prod .proj (.obs U64)) .proj
  | pEq : Prim (.prod .proj .proj) (.obs Bool)
  | pIsValid : Prim .proj (.obs Bool)
  | pFromY : Prim (.prod .field (.obs Bool)) (.opt .proj)
  | pOfExt : Prim .ext .proj
  | pOfAff : Prim .aff .proj
  -- points in affine coordinates
  | aZero : Prim (.obs Unit) .aff
  | aNeg : Prim .aff .aff
  | aEq : Prim (.prod .aff .aff) (.obs Bool)
  | aIsValid : Prim .aff (.obs Bool)
  | aOfExt : Prim .ext .aff
  | aOfProj : Prim .proj .aff
  -- Ristretto points
  | rZero : Prim (.obs Unit) .ris
  | rBase : Prim (.obs Unit) .ris
  | rNeg : Prim .ris .ris
  | rDouble : Prim .ris .ris
  | rAdd : Prim (.prod .ris .ris) .ris
  | rSub : Prim (.prod .ris .ris) .ris
  | rMul : Prim (.prod .ris .scalar) .ris
  | rLtrMul : Prim (.prod .ris .scalar) .ris
  | rNafMul : Prim (.prod .ris .scalar) .ris
  | rBaseMul : Prim .scalar .ris
  | rCofactor : Prim .ris .ris
  | rMulPow2 : Prim (.prod .ris (.obs U64)) .ris
  | rEq : Prim (.prod .ris .ris) (.obs Bool)
  | rCompress : Prim .ris (.obs Byte32)
  | rDecompress : Prim (.obs Byte32) (.opt .ris)
  | rElligator : Prim .field .ris
  | rFromUniform : Prim (.obs Byte64) .ris

open Classical in
/-- The meaning of the operations. -/
noncomputable def Prim.den : {s t : Ty} → Prim s t → Den s → Outcome (Den t)
  | _, _, .fZero, _ => .val (0 : Fp)
  | _, _, .fOne, _ => .val (1 : Fp)
  | _, _, .fMinusOne, _ => .val (-1 : Fp)
  | _, _, .fFrom, n => .val ((n : {n : ℕ // n < 2 ^ 128}).1 : Fp)
  | _, _, .fTwoPow, (k : {n : ℕ // n < 2 ^ 64}) => if k.1 ≤ 252 then .val (2 ^ k.1 : Fp) else .panic
  | _, _, .fNeg, (x : Fp) => .val (-x)
  | _, _, .fSquare, (x : Fp) => .val (x ^ 2)
  | _, _, .fHalf, (x : Fp) => .val (x / 2)
  | _, _, .fHalfFloor, (x : Fp) => .val ((x.val / 2 : ℕ) : Fp)
  | _, _, .fInverse, (x : Fp) => if x = 0 then .panic else .val (x⁻¹ : Fp)
  | _, _, .fAdd, ((x, y) : Fp × Fp) => .val (x + y)
  | _, _, .fSub, ((x, y) : Fp × Fp) => .val (x - y)
  | _, _, .fMul, ((x, y) : Fp × Fp) => .val (x * y)
  | _, _, .fDiv, ((x, y) : Fp × Fp) => if y = 0 then .panic else .val (x / y)
  | _, _, .fPow, ((x, y) : Fp × Fp) => .val (x ^ y.val)
  | _, _, .fLegendre, (x : Fp) => .val (decide (IsSquare x))
  | _, _, .fModSqrt, ((x, b) : Fp × Bool) => .val (modRoot x b)
  | _, _, .fSqrtRatio, ((x, y) : Fp × Fp) => .val (ratioRoot x y)
  | _, _, .fInvSqrt, (x : Fp) => .val (ratioRoot 1 x)
  | _, _, .fIsEven, (x : Fp) => .val (decide (x.val % 2 = 0))
  | _, _, .fIsPositive, (x : Fp) => .val (decide (2 * x.val ≤ p - 1))
  | _, _, .fEq, ((x, y) : Fp × Fp) => .val (decide (x = y))
  | _, _, .fCmp, ((x, y) : Fp × Fp) => .val (compare x.val y.val)
  | _, _, .fToBytes, (x : Fp) => .val (leBytes x.val)
  | _, _, .fFromBytes, (b : Byte32) => if bytesVal b < p then .val ((bytesVal b : ℕ) : Fp) else .unspecified
  | _, _, .fSelect, (((x, y), b) : (Fp × Fp) × Bool) => .val (if b then y else x)
  | _, _, .fNegIf, ((x, b) : Fp × Bool) => .val (if b then -x else x)
  | _, _, .fRandom, (b : Byte32) => .val ((bytesVal b % 2 ^ 251 : ℕ) : Fp)
  | _, _, .sZero, _ => .val (0 : ZMod ell)
  | _, _, .sOne, _ => .val (1 : ZMod ell)
  | _, _, .sMinusOne, _ => .val (-1 : ZMod ell)
  | _, _, .sFrom, n => .val ((n : {n : ℕ // n < 2 ^ 128}).1 : ZMod ell)
  | _, _, .sTwoPow, (k : {n : ℕ // n < 2 ^ 64}) => if k.1 ≤ 249 then .val (2 ^ k.1 : ZMod ell) else .panic
  | _, _, .sNeg, (x : ZMod ell) => .val (-x)
  | _, _, .sSquare, (x : ZMod ell) => .val (x ^ 2)
  | _, _, .sHalf, (x : ZMod ell) => .val (x * (2 : ZMod ell)⁻¹)
  | _, _, .sHalfFloor, (x : ZMod ell) => .val ((x.val / 2 : ℕ) : ZMod ell)
  | _, _, .sShr, ((x, n) : ZMod ell × U8) => .val ((x.val / 2 ^ n.1 : ℕ) : ZMod ell)
  | _, _, .sAdd, ((x, y) : ZMod ell × ZMod ell) => .val (x + y)
  | _, _, .sSub, ((x, y) : ZMod ell × ZMod ell) => .val (x - y)
  | _, _, .sMul, ((x, y) : ZMod ell × ZMod ell) => .val (x * y)
  | _, _, .sPow, ((x, y) : ZMod ell × ZMod ell) => .val (x ^ y.val)
  | _, _, .sIsEven, (x : ZMod ell) => .val (decide (x.val % 2 = 0))
  | _, _, .sEq, ((x, y) : ZMod ell × ZMod ell) => .val (decide (x = y))
  | _, _, .sCmp, ((x, y) : ZMod ell × ZMod ell) => .val (compare x.val y.val)
  | _, _, .sToBytes, (x : ZMod ell) => .val (leBytes x.val)
  | _, _, .sFromBytes, (b : Byte32) => if bytesVal b < ell then .val ((bytesVal b : ℕ) : ZMod ell) else .panic
  | _, _, .sFromI8, (x : I8) => .val ((x.1 : ℤ) : ZMod ell)
  | _, _, .sRandom, (b : Byte32) => .val ((bytesVal b % 2 ^ 249 : ℕ) : ZMod ell)
  | _, _, .sBits, (x : ZMod ell) => .val (Vector.ofFn fun i => if x.val.testBit i.val then 1 else 0)
  | _, _, .sMod, ((x, k) : ZMod ell × Exp8) => .val (x.val % 2 ^ k.1 : ℕ)
  | _, _, .sMods, ((x, w) : ZMod ell × Mod) => .val (Int.bmod x.val (2 ^ w.1) : ℤ)
  | _, _, .sNaf, (x : ZMod ell) => .val (Vector.ofFn fun i => digitOf 2 (rest 2 x.val i.val))
  | _, _, .sWindowNaf, ((x, w) : ZMod ell × Width) => .val (Vector.ofFn fun i => digitOf w.1 (rest w.1 x.val i.val))
  | _, _, .eZero, _ => .val (0 : E)
  | _, _, .eBase, _ => .val Bpt
  | _, _, .eNeg, (A : E) => .val (-A)
  | _, _, .eDouble, (A : E) => .val (2 • A)
  | _, _, .eAdd, ((A, B) : E × E) => .val (A + B)
  | _, _, .eSub, ((A, B) : E × E) => .val (A - B)
  | _, _, .eMul, ((A, n) : E × ZMod ell) => .val (n.val • A)
  | _, _, .eLtrMul, ((A, n) : E × ZMod ell) => .val ((n.val % 2 ^ 249) • A)
  | _, _, .eNafMul, ((A, n) : E × ZMod ell) => .val (n.val • A)
  | _, _, .eCofactor, (A : E) => .val (8 • A)
  | _, _, .eMulPow2, ((A, k) : E × U64) => if k.1 ≤ 249 then .val (2 ^ k.1 • A) else .panic
  | _, _, .eEq, ((A, B) : E × E) => .val (decide (A = B))
  | _, _, .eIsValid, _ => .val true
  | _, _, .eFromY, ((y, b) : Fp × Bool) => .val (fromY y b)
  | _, _, .eCompress, (A : E) => .val (edEncode A)
  | _, _, .eDecompress, (b : Byte32) => .val (edDecode b)
  | _, _, .eNegCompressed, (b : Byte32) =>
      match edDecode b with
      | some A => .val (edEncode (-A))
      | none => .panic
  | _, _, .eOfProj, (A : E) => .val A
  | _, _, .eOfAff, (A : E) => .val A
  | _, _, .pZero, _ => .val (0 : E)
  | _, _, .pNeg, (A : E) => .val (-A)
  | _, _, .pDouble, (A : E) => .val (2 • A)
  | _, _, .pAdd, ((A, B) : E × E) => .val (A + B)
  | _, _, .pSub, ((A, B) : E × E) => .val (A - B)
  | _, _, .pMul, ((A, n) : E × ZMod ell) => .val (n.val • A)
  | _, _, .pLtrMul, ((A, n) : E × ZMod ell) => .val ((n.val % 2 ^ 249) • A)
  | _, _, .pNafMul, ((A, n) : E × ZMod ell) => .val (n.val • A)
  | _, _, .pCofactor, (A : E) => .val (8 • A)
  | _, _, .pMulPow2, ((A, k) : E × U64) => if k.1 ≤ 249 then .val (2 ^ k.1 • A) else .panic
  | _, _, .pEq, ((A, B) : E × E) => .val (decide (A = B))
  | _, _, .pIsValid, _ => .val true
  | _, _, .pFromY, ((y, b) : Fp × Bool) => .val (fromY y b)
  | _, _, .pOfExt, (A : E) => .val A
  | _, _, .pOfAff, (A : E) => .val A
  | _, _, .aZero, _ => .val (0 : E)
  | _, _, .aNeg, (A : E) => .val (-A)
  | _, _, .aEq, ((A, B) : E × E) => .val (decide (A = B))
  | _, _, .aIsValid, _ => .val true
  | _, _, .aOfExt, (A : E) => .val A
  | _, _, .aOfProj, (A : E) => .val A
  | _, _, .rZero, _ => .val (0 : ZMod ell)
  | _, _, .rBase, _ => .val (1 : ZMod ell)
  | _, _, .rNeg, (x : ZMod ell) => .val (-x)
  | _, _, .rDouble, (x : ZMod ell) => .val (2 * x)
  | _, _, .rAdd, ((x, y) : ZMod ell × ZMod ell) => .val (x + y)
  | _, _, .rSub, ((x, y) : ZMod ell × ZMod ell) => .val (x - y)
  | _, _, .rMul, ((x, n) : ZMod ell × ZMod ell) => .val (n * x)
  | _, _, .rLtrMul, ((x, n) : ZMod ell × ZMod ell) => .val (((n.val % 2 ^ 249 : ℕ) : ZMod ell) * x)
  | _, _, .rNafMul, ((x, n) : ZMod ell × ZMod ell) => .val (n * x)
  | _, _, .rBaseMul, (n : ZMod ell) => .val n
  | _, _, .rCofactor, (x : ZMod ell) => .val (8 * x)
  | _, _, .rMulPow2, ((x, k) : ZMod ell × U64) => if k.1 ≤ 249 then .val (2 ^ k.1 * x) else .panic
  | _, _, .rEq, ((x, y) : ZMod ell × ZMod ell) => .val (decide (x = y))
  | _, _, .rCompress, (x : ZMod ell) => .val (risEncode x)
  | _, _, .rDecompress, (b : Byte32) => .val (risDecode b)
  | _, _, .rElligator, (t : Fp) => .val (risMap t)
  | _, _, .rFromUniform, (b : Byte64) => .val (risHash b)

/-! ### Programs -/

/-- Programs from an input to an output. -/
inductive Prog : Ty → Ty → Type 1 where
  /-- call a function of the library -/
  | call {s t : Ty} (f : Prim s t) : Prog s t
  /-- any computation on ordinary data -/
  | host {S T : Type} (f : S → T) : Prog (.obs S) (.obs T)
  /-- a computation on ordinary data that may panic -/
  | hostPanic {S T : Type} (f : S → Option T) : Prog (.obs S) (.obs T)
  /-- a constant -/
  | lit {s : Ty} {T : Type} (x : T) : Prog s (.obs T)
  | skip {t : Ty} : Prog t t
  | seq {s t u : Ty} (f : Prog s t) (g : Prog t u) : Prog s u
  | pair {s t u : Ty} (f : Prog s t) (g : Prog s u) : Prog s (.prod t u)
  | fst {s t : Ty} : Prog (.prod s t) s
  | snd {s t : Ty} : Prog (.prod s t) t
  /-- two pieces of data are a piece of data -/
  | join {S T : Type} : Prog (.prod (.obs S) (.obs T)) (.obs (S × T))
  | ite {s t : Ty} (b : Prog s (.obs Bool)) (f g : Prog s t) : Prog s t
  | some {t : Ty} : Prog t (.opt t)
  | none {s t : Ty} : Prog s (.opt t)
  | matchOpt {s t u : Ty} (o : Prog s (.opt t)) (f : Prog (.prod s t) u) (g : Prog s u) : Prog s u
  | nil {s t : Ty} : Prog s (.list t)
  | cons {t : Ty} : Prog (.prod t (.list t)) (.list t)
  /-- `for x in list { state = f(state, x) }` -/
  | fold {s t : Ty} (f : Prog (.prod s t) s) : Prog (.prod s (.list t)) s
  /-- `for _ in 0..n { state = f(state) }` with `n` computed from the first state -/
  | iter {s : Ty} (n : Prog s (.obs ℕ)) (f : Prog s s) : Prog s s
  | panic {s t : Ty} : Prog s t

/-- `n`-fold iteration. -/
def iterOut {α : Type} (f : α → Outcome α) : ℕ → α → Outcome α
  | 0, a => .val a
  | n + 1, a => (f a).bind (iterOut f n)

/-- Iteration over a list. -/
def foldOut {α β : Type} (f : α → β → Outcome α) : α → List β → Outcome α
  | a, [] => .val a
  | a, x :: l => (f a x).bind fun a' => foldOut f a' l

/-- The meaning of a program. -/
noncomputable def Prog.den : {s t : Ty} → Prog s t → Den s → Outcome (Den t)
  | _, _, .call f, x => f.den x
  | _, _, .host f, x => .val (f x)
  | _, _, .hostPanic f, x =>
      match f x with
      | Option.some y => .val y
      | Option.none => .panic
  | _, _, .lit y, _ => .val y
  | _, _, .skip, x => .val x
  | _, _, .seq f g, x => (f.den x).bind g.den
  | _, _, .pair f g, x => (f.den x).bind fun y => (g.den x).bind fun z => .val (y, z)
  | _, _, .fst, (x, _) => .val x
  | _, _, .snd, (_, x) => .val x
  | _, _, .join, x => .val x
  | _, _, .ite b f g, x => (b.den x).bind fun (t : Bool) => if t then f.den x else g.den x
  | _, _, .some, x => .val (Option.some x)
  | _, _, .none, _ => .val (Option.none (α := Den _))
  | _, _, .matchOpt o f g, x => (o.den x).bind fun (y : Option (Den _)) =>
      match y with
      | Option.some y => f.den (x, y)
      | Option.none => g.den x
  | _, _, .nil, _ => .val ([] : List (Den _))
  | _, _, .cons, (x, l) => .val (List.cons (α := Den _) x l)
  | _, _, .fold f, (x, l) => foldOut (fun a y => f.den (a, y)) x l
  | _, _, .iter n f, x => (n.den x).bind fun k => iterOut f.den k x
  | _, _, .panic, _ => .panic

/-- The one operation whose result need not be reduced: `FieldElement::from_bytes`. -/
def Prim.raw : {s t : Ty} → Prim s t → Bool
  | _, _, .fFromBytes => true
  | _, _, _ => false

/-- A program does not call `FieldElement::from_bytes`. -/
def Prog.NoRaw : {s t : Ty} → Prog s t → Prop
  | _, _, .call f => f.raw = false
  | _, _, .seq f g => Prog.NoRaw f ∧ Prog.NoRaw g
  | _, _, .pair f g => Prog.NoRaw f ∧ Prog.NoRaw g
  | _, _, .ite b f g => Prog.NoRaw b ∧ Prog.NoRaw f ∧ Prog.NoRaw g
  | _, _, .matchOpt o f g => Prog.NoRaw o ∧ Prog.NoRaw f ∧ Prog.NoRaw g
  | _, _, .fold f => Prog.NoRaw f
  | _, _, .iter n f => Prog.NoRaw n ∧ Prog.NoRaw f
  | _, _, _ => True

end Programs
end Zerocaf
