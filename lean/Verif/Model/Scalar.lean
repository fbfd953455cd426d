import Verif.Machine

/-!
# Model of `src/backend/u64/scalar.rs` and `src/scalar.rs`

Line numbers without a path refer to `src/backend/u64/scalar.rs`.
-/

namespace Zerocaf

/-- `Scalar`, `src/backend/u64/scalar.rs:27`. -/
abbrev Sc := L5

namespace Scalar

/-! ### Constants (`src/backend/u64/constants.rs`) -/

/-- `L`, `constants.rs:9`. -/
def L : Sc := ⟨1129677152307299, 1363544697812651, 714439, 0, 2199023255552⟩

/-- `LFACTOR`, `constants.rs:18`. -/
def LFACTOR : Nat := 1331240223835829

/-- `RR`, `constants.rs:21-27`. -/
def RR : Sc :=
  ⟨137682194168839, 3209056245311277, 1480926248458276, 2533620989757837, 1314911199310⟩

/-- `SCALAR_INVERSE_MOD_TWO`, `constants.rs:48`. -/
def INVERSE_MOD_TWO : Sc := ⟨2816638389838898, 2933572162591573, 357219, 0, 1099511627776⟩

/-! ### Constructors and comparison -/

/-- `Scalar::zero`, `scalar.rs:331-333`. -/
def zero : Sc := ⟨0, 0, 0, 0, 0⟩
/-- `Scalar::one`, `scalar.rs:336-338`; also `Identity::identity`, `scalar.rs:157-163`. -/
def one : Sc := ⟨1, 0, 0, 0, 0⟩
/-- `Scalar::minus_one`, `scalar.rs:341-343`. -/
def minusOne : Sc := ⟨1129677152307298, 1363544697812651, 714439, 0, 2199023255552⟩

/-- `Ord::cmp`, `scalar.rs:54-65`. -/
def cmp (a b : Sc) : Ordering :=
  if a.l4 > b.l4 then .gt else if a.l4 < b.l4 then .lt else
  if a.l3 > b.l3 then .gt else if a.l3 < b.l3 then .lt else
  if a.l2 > b.l2 then .gt else if a.l2 < b.l2 then .lt else
  if a.l1 > b.l1 then .gt else if a.l1 < b.l1 then .lt else
  if a.l0 > b.l0 then .gt else if a.l0 < b.l0 then .lt else .eq

/-- `a > b`. -/
def gt (a b : Sc) : Bool := cmp a b == .gt
/-- `a >= b`. -/
def ge (a b : Sc) : Bool := cmp a b != .lt
/-- `a <= b`. -/
def le (a b : Sc) : Bool := cmp a b != .gt

/-- `Scalar::is_even`, `scalar.rs:346-348` (`num::Integer::is_even` on `u64`). -/
def isEven (a : Sc) : Bool := a.l0 % 2 == 0

/-- `From<u8>`, `From<u16>`, `From<u32>`, `scalar.rs:85-110`. -/
def fromU32 (n : Nat) : Sc := ⟨n, 0, 0, 0, 0⟩
/-- `From<u64>`, `scalar.rs:112-121`. -/
def fromU64 (n : Nat) : Sc := ⟨n &&& mask52, n >>> 52, 0, 0, 0⟩
/-- `From<u128>`, `scalar.rs:123-137`. -/
def fromU128 (n : Nat) : Sc :=
  ⟨lo64 (n &&& mask52), lo64 ((n >>> 52) &&& mask52), lo64 (n >>> 104), 0, 0⟩

/-! ### Bytes -/

/-- `Scalar::to_bytes`, `scalar.rs:477-516`. -/
def toBytes (a : Sc) : Bytes32 :=
  #v[.ofNat (a.l0 >>> 0), .ofNat (a.l0 >>> 8), .ofNat (a.l0 >>> 16), .ofNat (a.l0 >>> 24),
     .ofNat (a.l0 >>> 32), .ofNat (a.l0 >>> 40), .ofNat ((a.l0 >>> 48) ||| shl64 a.l1 4),
     .ofNat (a.l1 >>> 4), .ofNat (a.l1 >>> 12), .ofNat (a.l1 >>> 20), .ofNat (a.l1 >>> 28),
     .ofNat (a.l1 >>> 36), .ofNat (a.l1 >>> 44),
     .ofNat (a.l2 >>> 0), .ofNat (a.l2 >>> 8), .ofNat (a.l2 >>> 16), .ofNat (a.l2 >>> 24),
     .ofNat (a.l2 >>> 32), .ofNat (a.l2 >>> 40), .ofNat ((a.l2 >>> 48) ||| shl64 a.l3 4),
     .ofNat (a.l3 >>> 4), .ofNat (a.l3 >>> 12), .ofNat (a.l3 >>> 20), .ofNat (a.l3 >>> 28),
     .ofNat (a.l3 >>> 36), .ofNat (a.l3 >>> 44),
     .ofNat (a.l4 >>> 0), .ofNat (a.l4 >>> 8), .ofNat (a.l4 >>> 16), .ofNat (a.l4 >>> 24),
     .ofNat (a.l4 >>> 32), .ofNat (a.l4 >>> 40)]

/-- `PartialEq::eq` and `ConstantTimeEq::ct_eq`, `src/scalar.rs:78-91`. -/
def ctEq (a b : Sc) : Bool := toBytes a == toBytes b

/-- One word of `from_bytes`, `scalar.rs:447-451`: the inner loop `words[i] |= byte << (j * 8)`. -/
def loadWord (b0 b1 b2 b3 b4 b5 b6 b7 : UInt8) : Nat :=
  0 ||| (b0.toNat <<< 0) ||| (b1.toNat <<< 8) ||| (b2.toNat <<< 16) ||| (b3.toNat <<< 24) |||
    (b4.toNat <<< 32) ||| (b5.toNat <<< 40) ||| (b6.toNat <<< 48) ||| (b7.toNat <<< 56)

/-- The limb packing of `from_bytes`, `scalar.rs:446-463`, without the final assertion. -/
def unpack (b : Bytes32) : Sc :=
  let w0 := loadWord b[0] b[1] b[2] b[3] b[4] b[5] b[6] b[7]
  let w1 := loadWord b[8] b[9] b[10] b[11] b[12] b[13] b[14] b[15]
  let w2 := loadWord b[16] b[17] b[18] b[19] b[20] b[21] b[22] b[23]
  let w3 := loadWord b[24] b[25] b[26] b[27] b[28] b[29] b[30] b[31]
  let topMask := 2 ^ 48 - 1
  ⟨w0 &&& mask52,
   ((w0 >>> 52) ||| shl64 w1 12) &&& mask52,
   ((w1 >>> 40) ||| shl64 w2 24) &&& mask52,
   ((w2 >>> 28) ||| shl64 w3 36) &&& mask52,
   (w3 >>> 16) &&& topMask⟩

/-- `Scalar::from_bytes`, `scalar.rs:445-467`. -/
def fromBytes (b : Bytes32) : Res Sc := do
  let s := unpack b
  rassert (le s minusOne)
  return s

/-- `Scalar::from_bytes_wide`, `scalar.rs:470-474`: `unimplemented!()`. -/
def fromBytesWide (_b : Bytes64) : Res Sc := .panic

/-- `Scalar::random`, `src/scalar.rs:100-110`. The argument is what the generator wrote. -/
def random (b : Bytes32) : Res Sc := fromBytes (b.set 31 (b[31] &&& 0b00000001))

/-! ### Addition and subtraction -/

/-- One limb of the borrow loop, `scalar.rs:221-225`. -/
def subStep (c : Cfg) (a b sub : Nat) : Res Nat := do
  let t ← chk64 c (b + (sub >>> 63))
  return wsub64 a t

/-- One limb of the conditional addition, `scalar.rs:231-234`. -/
def subFixStep (c : Cfg) (carry d l um : Nat) : Res Nat :=
  chk64 c ((carry >>> 52) + d + (l &&& um))

/-- `Sub`, `scalar.rs:210-237`. -/
def sub (c : Cfg) (a b : Sc) : Res Sc := do
  let s0 ← subStep c a.l0 b.l0 0
  let s1 ← subStep c a.l1 b.l1 s0
  let s2 ← subStep c a.l2 b.l2 s1
  let s3 ← subStep c a.l3 b.l3 s2
  let s4 ← subStep c a.l4 b.l4 s3
  let um := wsub64 ((s4 >>> 63) ^^^ 1) 1
  let c0 ← subFixStep c 0 (s0 &&& mask52) L.l0 um
  let c1 ← subFixStep c c0 (s1 &&& mask52) L.l1 um
  let c2 ← subFixStep c c1 (s2 &&& mask52) L.l2 um
  let c3 ← subFixStep c c2 (s3 &&& mask52) L.l3 um
  let c4 ← subFixStep c c3 (s4 &&& mask52) L.l4 um
  return ⟨c0 &&& mask52, c1 &&& mask52, c2 &&& mask52, c3 &&& mask52, c4 &&& mask52⟩

/-- `Add`, `scalar.rs:184-200`. -/
def add (c : Cfg) (a b : Sc) : Res Sc := do
  let c0 ← chk64 c (a.l0 + b.l0 + (0 >>> 52))
  let c1 ← chk64 c (a.l1 + b.l1 + (c0 >>> 52))
  let c2 ← chk64 c (a.l2 + b.l2 + (c1 >>> 52))
  let c3 ← chk64 c (a.l3 + b.l3 + (c2 >>> 52))
  let c4 ← chk64 c (a.l4 + b.l4 + (c3 >>> 52))
  sub c ⟨c0 &&& mask52, c1 &&& mask52, c2 &&& mask52, c3 &&& mask52, c4 &&& mask52⟩ L

/-- `Neg`, `scalar.rs:139-155`. -/
def neg (c : Cfg) (a : Sc) : Res Sc := sub c zero a

/-- `From<i8>`, `scalar.rs:68-84`. The argument is in `[-128, 127]`. `abs` overflows for `-128`;
the cast of the (possibly wrapped) result to `u64` sign-extends. -/
def fromI8 (c : Cfg) (x : Int) : Res Sc :=
  if 0 ≤ x then .ok ⟨x.toNat, 0, 0, 0, 0⟩
  else do
    let a ← chkI8 c (-x)
    neg c ⟨(a % 2 ^ 64).toNat, 0, 0, 0, 0⟩

/-! ### Multiplication -/

/-- `m`, `scalar.rs:325-327`. -/
def m (x y : Nat) : Nat := x * y

/-- `mul_internal`, `scalar.rs:580-594`. -/
def mulInternal (c : Cfg) (a b : Sc) : Res W9 := do
  let w0 ← chk128 c (m a.l0 b.l0)
  let w1 ← chk128 c (m a.l0 b.l1 + m a.l1 b.l0)
  let w2 ← chk128 c (m a.l0 b.l2 + m a.l1 b.l1 + m a.l2 b.l0)
  let w3 ← chk128 c (m a.l0 b.l3 + m a.l1 b.l2 + m a.l2 b.l1 + m a.l3 b.l0)
  let w4 ← chk128 c (m a.l0 b.l4 + m a.l1 b.l3 + m a.l2 b.l2 + m a.l3 b.l1 + m a.l4 b.l0)
  let w5 ← chk128 c (m a.l1 b.l4 + m a.l2 b.l3 + m a.l3 b.l2 + m a.l4 b.l1)
  let w6 ← chk128 c (m a.l2 b.l4 + m a.l3 b.l3 + m a.l4 b.l2)
  let w7 ← chk128 c (m a.l3 b.l4 + m a.l4 b.l3)
  let w8 ← chk128 c (m a.l4 b.l4)
  return ⟨w0, w1, w2, w3, w4, w5, w6, w7, w8⟩

/-- `square_internal`, `scalar.rs:600-614`. -/
def squareInternal (c : Cfg) (a : Sc) : Res W9 := do
  let d0 ← chk64 c (a.l0 * 2)
  let d1 ← chk64 c (a.l1 * 2)
  let d2 ← chk64 c (a.l2 * 2)
  let d3 ← chk64 c (a.l3 * 2)
  let w0 ← chk128 c (m a.l0 a.l0)
  let w1 ← chk128 c (m d0 a.l1)
  let w2 ← chk128 c (m d0 a.l2 + m a.l1 a.l1)
  let w3 ← chk128 c (m d0 a.l3 + m d1 a.l2)
  let w4 ← chk128 c (m d0 a.l4 + m d1 a.l3 + m a.l2 a.l2)
  let w5 ← chk128 c (m d1 a.l4 + m d2 a.l3)
  let w6 ← chk128 c (m d2 a.l4 + m a.l3 a.l3)
  let w7 ← chk128 c (m d3 a.l4)
  let w8 ← chk128 c (m a.l4 a.l4)
  return ⟨w0, w1, w2, w3, w4, w5, w6, w7, w8⟩

/-- `adjustment_fact`, `scalar.rs:619-622`. -/
def adjustmentFact (c : Cfg) (sum : Nat) : Res (Nat × Nat) := do
  let p := wmul64 (lo64 sum) LFACTOR &&& mask52
  let t ← chk128 c (sum + m p L.l0)
  return (t >>> 52, p)

/-- `montg_red_res`, `scalar.rs:625-628`. -/
def montgRedRes (sum : Nat) : Nat × Nat := (sum >>> 52, lo64 sum &&& mask52)

/-- `montgomery_reduce`, `scalar.rs:617-652`. -/
def montgomeryReduce (c : Cfg) (w : W9) : Res Sc := do
  let l := L
  let (k0, n0) ← adjustmentFact c w.w0
  let t1 ← chk128 c (k0 + w.w1 + m n0 l.l1)
  let (k1, n1) ← adjustmentFact c t1
  let t2 ← chk128 c (k1 + w.w2 + m n0 l.l2 + m n1 l.l1)
  let (k2, n2) ← adjustmentFact c t2
  let t3 ← chk128 c (k2 + w.w3 + m n0 l.l3 + m n1 l.l2 + m n2 l.l1)
  let (k3, n3) ← adjustmentFact c t3
  let t4 ← chk128 c (k3 + w.w4 + m n0 l.l4 + m n1 l.l3 + m n2 l.l2 + m n3 l.l1)
  let (k4, n4) ← adjustmentFact c t4
  let t5 ← chk128 c (k4 + w.w5 + m n1 l.l4 + m n2 l.l3 + m n3 l.l2 + m n4 l.l1)
  let (k5, r0) := montgRedRes t5
  let t6 ← chk128 c (k5 + w.w6 + m n2 l.l4 + m n3 l.l3 + m n4 l.l2)
  let (k6, r1) := montgRedRes t6
  let t7 ← chk128 c (k6 + w.w7 + m n3 l.l4 + m n4 l.l3)
  let (k7, r2) := montgRedRes t7
  let t8 ← chk128 c (k7 + w.w8 + m n4 l.l4)
  let (k8, r3) := montgRedRes t8
  let r4 := lo64 k8
  sub c ⟨r0, r1, r2, r3, r4⟩ l

/-- `montgomery_mul`, `scalar.rs:656-658`. -/
def montgomeryMul (c : Cfg) (a b : Sc) : Res Sc := do
  let w ← mulInternal c a b
  montgomeryReduce c w

/-- `to_montgomery`, `scalar.rs:662-664`. -/
def toMontgomery (c : Cfg) (a : Sc) : Res Sc := montgomeryMul c a RR

/-- `from_montgomery`, `scalar.rs:668-674`. -/
def fromMontgomery (c : Cfg) (a : Sc) : Res Sc :=
  montgomeryReduce c ⟨a.l0, a.l1, a.l2, a.l3, a.l4, 0, 0, 0, 0⟩

/-- `Mul`, `scalar.rs:247-258`. -/
def mul (c : Cfg) (a b : Sc) : Res Sc := do
  let w ← mulInternal c a b
  let ab ← montgomeryReduce c w
  let w' ← mulInternal c ab RR
  montgomeryReduce c w'

/-- `Square`, `scalar.rs:272-283`. -/
def square (c : Cfg) (a : Sc) : Res Sc := do
  let w ← squareInternal c a
  let aa ← montgomeryReduce c w
  let w' ← mulInternal c aa RR
  montgomeryReduce c w'

/-- `Half`, `scalar.rs:285-291`. -/
def half (c : Cfg) (a : Sc) : Res Sc := mul c a INVERSE_MOD_TWO

/-- One limb of the shift loop, `scalar.rs:172-177` and `scalar.rs:567-572`. -/
def halfStep (l carry : Nat) : Nat × Nat :=
  let x := l ||| carry
  (x >>> 1, shl64 (x &&& 1) 52)

/-- `half_without_mod`, `scalar.rs:562-574`. -/
def halfWithoutMod (a : Sc) : Sc :=
  let (r4, c4) := halfStep a.l4 0
  let (r3, c3) := halfStep a.l3 c4
  let (r2, c2) := halfStep a.l2 c3
  let (r1, c1) := halfStep a.l1 c2
  let (r0, _) := halfStep a.l0 c1
  ⟨r0, r1, r2, r3, r4⟩

/-- `Shr<u8>`, `scalar.rs:165-182`: the outer loop runs `n` times over the same limb shift. -/
def shr (a : Sc) : Nat → Sc
  | 0 => a
  | n + 1 =>
    let res := shr a n
    let (r4, c4) := halfStep res.l4 0
    let (r3, c3) := halfStep res.l3 c4
    let (r2, c2) := halfStep res.l2 c3
    let (r1, c1) := halfStep res.l1 c2
    let (r0, _) := halfStep res.l0 c1
    ⟨r0, r1, r2, r3, r4⟩

/-- `Scalar::two_pow_k`, `scalar.rs:525-552`. -/
def twoPowK (e : Nat) : Res Sc := do
  rassert (e < 250)
  return (
    if e ≤ 51 then ⟨shl64 1 e, 0, 0, 0, 0⟩
    else if e ≤ 103 then ⟨0, shl64 1 (e - 52), 0, 0, 0⟩
    else if e ≤ 155 then ⟨0, 0, shl64 1 (e - 104), 0, 0⟩
    else if e ≤ 207 then ⟨0, 0, 0, shl64 1 (e - 156), 0⟩
    else ⟨0, 0, 0, 0, shl64 1 (e - 208)⟩)

/-- The `while` loop of `Pow`, `scalar.rs:308-319`. The odd branch halves with `half` (modular). -/
def powLoop (c : Cfg) : Nat → Sc → Sc → Sc → Res Sc
  | 0, _, _, _ => .diverge
  | fuel + 1, base, res, expon =>
    if gt expon zero then
      if isEven expon then do
        let expon' := halfWithoutMod expon
        let base' ← square c base
        powLoop c fuel base' res expon'
      else do
        let e1 ← sub c expon one
        let res' ← mul c res base
        let expon' ← half c e1
        let base' ← square c base
        powLoop c fuel base' res' expon'
    else .ok res

/-- `Pow::pow`, `scalar.rs:300-322`. -/
def pow (c : Cfg) (a e : Sc) : Res Sc := powLoop c c.fuel a one e

/-! ### Digit expansions -/

/-- `Scalar::into_bits`, `scalar.rs:352-366`: entry `8 * k + i` is bit `i` of byte `k`
(`!bit.is_even() as u8` for `bit = byte >> i`). -/
def intoBits (a : Sc) : Vector UInt8 256 :=
  let bytes := toBytes a
  Vector.ofFn fun j : Fin 256 =>
    let byte : UInt8 := bytes[j.val / 8]'(by omega)
    if (byte.toNat >>> (j.val % 8)) % 2 == 0 then 0 else 1

/-- `Scalar::mod_2_pow_k`, `scalar.rs:423-425`: `(self.0[0] & ((1 << k) - 1)) as u8`.
The shift is a `u64` shift: a shift amount of 64 or more panics (debug) or is masked (release). -/
def mod2PowK (c : Cfg) (a : Sc) (k : Nat) : Res Nat := do
  let k' ← if k < 64 then .ok k else if c.debug then .panic else .ok (k % 64)
  return (a.l0 &&& (shl64 1 k' - 1)) % 256

/-- `1i8 << k`: a shift amount of 8 or more panics (debug) or is masked (release). -/
def shlI8 (c : Cfg) (k : Nat) : Res Int := do
  let k' ← if k < 8 then .ok k else if c.debug then .panic else .ok (k % 8)
  return u8AsI8 (2 ^ k' % 256)

/-- `1u8 << k`: a shift amount of 8 or more panics (debug) or is masked (release). -/
def shlU8 (c : Cfg) (k : Nat) : Res Nat := do
  let k' ← if k < 8 then .ok k else if c.debug then .panic else .ok (k % 8)
  return 2 ^ k' % 256

/-- `w - 1` on `u8`. -/
def predU8 (c : Cfg) (w : Nat) : Res Nat :=
  if 1 ≤ w then .ok (w - 1) else if c.debug then .panic else .ok 255

/-- `Scalar::mods_2_pow_k`, `scalar.rs:433-442`. -/
def mods2PowK (c : Cfg) (a : Sc) (w : Nat) : Res Int := do
  rassert (w < 32)
  let md ← mod2PowK c a w
  let modulus := u8AsI8 md
  let w1 ← predU8 c w
  let t ← shlI8 c w1
  if modulus ≥ t then do
    let x ← shlU8 c w
    chkI8 c (modulus - u8AsI8 x)
  else return modulus

/-- `res[i] = x` on a `[i8; 256]`: panics out of bounds. -/
def setDigit (v : Vector Int 256) (i : Nat) (x : Int) : Res (Vector Int 256) :=
  if h : i < 256 then .ok (v.set i x) else .panic

/-- The `while` loop of `compute_NAF`, `scalar.rs:376-387`. -/
def nafLoop (c : Cfg) : Nat → Sc → Nat → Vector Int 256 → Res (Vector Int 256)
  | 0, _, _, _ => .diverge
  | fuel + 1, k, i, res =>
    if ge k one then do
      if !isEven k then do
        let md ← mod2PowK c k 2
        let ki ← chkI8 c (2 - u8AsI8 md)
        let res' ← setDigit res i ki
        let s ← fromI8 c ki
        let k' ← sub c k s
        nafLoop c fuel (halfWithoutMod k') (i + 1) res'
      else do
        let res' ← setDigit res i 0
        nafLoop c fuel (halfWithoutMod k) (i + 1) res'
    else .ok res

/-- `Scalar::compute_NAF`, `scalar.rs:370-389`. -/
def computeNAF (c : Cfg) (a : Sc) : Res (Vector Int 256) :=
  nafLoop c c.fuel a 0 (Vector.replicate 256 0)

/-- The `while` loop of `compute_window_NAF`, `scalar.rs:402-413`. -/
def wnafLoop (c : Cfg) (width : Nat) : Nat → Sc → Nat → Vector Int 256 → Res (Vector Int 256)
  | 0, _, _, _ => .diverge
  | fuel + 1, k, i, res =>
    if ge k one then do
      if !isEven k then do
        let ki ← mods2PowK c k width
        let res' ← setDigit res i ki
        let s ← fromI8 c ki
        let k' ← sub c k s
        wnafLoop c width fuel (halfWithoutMod k') (i + 1) res'
      else do
        let res' ← setDigit res i 0
        wnafLoop c width fuel (halfWithoutMod k) (i + 1) res'
    else .ok res

/-- `Scalar::compute_window_NAF`, `scalar.rs:396-415`. -/
def computeWindowNAF (c : Cfg) (a : Sc) (width : Nat) : Res (Vector Int 256) :=
  wnafLoop c width c.fuel a 0 (Vector.replicate 256 0)

end Scalar
end Zerocaf
