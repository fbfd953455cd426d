import Verif.Machine

/-!
# Model of `src/backend/u64/field.rs` and `src/field.rs`

The constants come from `src/backend/u64/constants.rs`. Every definition cites its source lines.
-/

namespace Zerocaf

/-- `FieldElement`, `src/backend/u64/field.rs:32`. -/
abbrev FE := L5

namespace Field

/-! ### Constants -/

/-- `FIELD_L`, `constants.rs:30-36`. -/
def FIELD_L : FE := ⟨671914833335277, 3916664325105025, 1367801, 0, 17592186044416⟩

/-- `RR_FIELD`, `constants.rs:39-45`. -/
def RR_FIELD : FE :=
  ⟨2764609938444603, 3768881411696287, 1616719297148420, 1087343033131391, 10175238647962⟩

/-- `POS_RANGE`, `constants.rs:12-13`. -/
def POS_RANGE : FE := ⟨2587757230352886, 4210131976237760, 683900, 0, 8796093022208⟩

/-- `INVERSE_MOD_TWO`, `constants.rs:51`. -/
def INVERSE_MOD_TWO : FE := ⟨2587757230352887, 4210131976237760, 683900, 0, 8796093022208⟩

/-- `MINUS_ONE_HALF`, `constants.rs:54`. -/
def MINUS_ONE_HALF : FE := ⟨2587757230352886, 4210131976237760, 683900, 0, 8796093022208⟩

/-- `LFACTOR_FIELD`, `constants.rs:59`. -/
def LFACTOR_FIELD : Nat := 1439961107955227

/-- `SQRT_MINUS_ONE`, `constants.rs:96-102`. -/
def SQRT_MINUS_ONE : FE :=
  ⟨3075585030474777, 2451921961843096, 1194333869305507, 2218299809671669, 7376823328646⟩

/-! ### Constructors -/

/-- `FieldElement::zero`, `field.rs:513-515`. -/
def zero : FE := ⟨0, 0, 0, 0, 0⟩

/-- `FieldElement::one`, `field.rs:518-520`; also `Identity::identity`, `field.rs:84-86`. -/
def one : FE := ⟨1, 0, 0, 0, 0⟩

/-- `FieldElement::minus_one`, `field.rs:523-531`. -/
def minusOne : FE := ⟨671914833335276, 3916664325105025, 1367801, 0, 17592186044416⟩

/-- `From<u8>`, `From<u16>`, `From<u32>`, `field.rs:97-122`. The argument is below `2^8`, `2^16`, `2^32`. -/
def fromU32 (n : Nat) : FE := ⟨n, 0, 0, 0, 0⟩

/-- `From<u64>`, `field.rs:124-133`. -/
def fromU64 (n : Nat) : FE := ⟨n &&& mask52, n >>> 52, 0, 0, 0⟩

/-- `From<u128>`, `field.rs:135-149`. -/
def fromU128 (n : Nat) : FE :=
  ⟨lo64 (n &&& mask52), lo64 ((n >>> 52) &&& mask52), lo64 (n >>> 104), 0, 0⟩

/-! ### Comparison -/

/-- `Ord::cmp`, `field.rs:65-76`. The loop runs from the most significant limb down. -/
def cmp (a b : FE) : Ordering :=
  if a.l4 > b.l4 then .gt else if a.l4 < b.l4 then .lt else
  if a.l3 > b.l3 then .gt else if a.l3 < b.l3 then .lt else
  if a.l2 > b.l2 then .gt else if a.l2 < b.l2 then .lt else
  if a.l1 > b.l1 then .gt else if a.l1 < b.l1 then .lt else
  if a.l0 > b.l0 then .gt else if a.l0 < b.l0 then .lt else .eq

/-- `a > b`, from `PartialOrd`, `field.rs:59-63`. -/
def gt (a b : FE) : Bool := cmp a b == .gt
/-- `a < b`. -/
def lt (a b : FE) : Bool := cmp a b == .lt
/-- `a >= b`. -/
def ge (a b : FE) : Bool := cmp a b != .lt
/-- `a <= b`. -/
def le (a b : FE) : Bool := cmp a b != .gt

/-- `FieldElement::is_even`, `field.rs:534-539`. -/
def isEven (a : FE) : Bool := a.l0 &&& 1 == 0

/-- `FieldElement::is_positive`, `field.rs:552-557`. `Choice` is `Bool`. -/
def isPositive (a : FE) : Bool := ge a zero && le a POS_RANGE

/-! ### Bytes -/

/-- The closure `load8`, `field.rs:564-573`: little-endian load of eight bytes. -/
def load8 (b0 b1 b2 b3 b4 b5 b6 b7 : UInt8) : Nat :=
  b0.toNat ||| (b1.toNat <<< 8) ||| (b2.toNat <<< 16) ||| (b3.toNat <<< 24) |||
    (b4.toNat <<< 32) ||| (b5.toNat <<< 40) ||| (b6.toNat <<< 48) ||| (b7.toNat <<< 56)

/-- `FieldElement::from_bytes`, `field.rs:563-587`. -/
def fromBytes (b : Bytes32) : FE :=
  ⟨load8 b[0] b[1] b[2] b[3] b[4] b[5] b[6] b[7] &&& mask52,
   (load8 b[6] b[7] b[8] b[9] b[10] b[11] b[12] b[13] >>> 4) &&& mask52,
   (load8 b[12] b[13] b[14] b[15] b[16] b[17] b[18] b[19] >>> 8) &&& mask52,
   (load8 b[19] b[20] b[21] b[22] b[23] b[24] b[25] b[26] >>> 4) &&& mask52,
   (load8 b[24] b[25] b[26] b[27] b[28] b[29] b[30] b[31] >>> 16) &&& mask52⟩

/-- `FieldElement::to_bytes`, `field.rs:591-631`. `as u8` is `UInt8.ofNat`. -/
def toBytes (a : FE) : Bytes32 :=
  #v[.ofNat (a.l0 >>> 0), .ofNat (a.l0 >>> 8), .ofNat (a.l0 >>> 16), .ofNat (a.l0 >>> 24),
     .ofNat (a.l0 >>> 32), .ofNat (a.l0 >>> 40), .ofNat ((a.l0 >>> 48) ||| shl64 a.l1 4),
     .ofNat (a.l1 >>> 4), .ofNat (a.l1 >>> 12), .ofNat (a.l1 >>> 20), .ofNat (a.l1 >>> 28),
     .ofNat (a.l1 >>> 36), .ofNat (a.l1 >>> 44),
     .ofNat (a.l2 >>> 0), .ofNat (a.l2 >>> 8), .ofNat (a.l2 >>> 16), .ofNat (a.l2 >>> 24),
     .ofNat (a.l2 >>> 32), .ofNat (a.l2 >>> 40), .ofNat ((a.l2 >>> 48) ||| shl64 a.l3 4),
     .ofNat (a.l3 >>> 4), .ofNat (a.l3 >>> 12), .ofNat (a.l3 >>> 20), .ofNat (a.l3 >>> 28),
     .ofNat (a.l3 >>> 36), .ofNat (a.l3 >>> 44),
     .ofNat (a.l4 >>> 0), .ofNat (a.l4 >>> 8), .ofNat (a.l4 >>> 16), .ofNat (a.l4 >>> 24),
     .ofNat (a.l4 >>> 32), .ofNat (a.l4 >>> 40)]

/-- `ConstantTimeEq::ct_eq` and `PartialEq::eq`, `src/field.rs:93-106`: compare the byte encodings. -/
def ctEq (a b : FE) : Bool := toBytes a == toBytes b

/-- `ConditionallySelectable::conditional_select`, `src/field.rs:108-118`: limbwise selection. -/
def condSelect (a b : FE) (choice : Bool) : FE :=
  ⟨if choice then b.l0 else a.l0, if choice then b.l1 else a.l1, if choice then b.l2 else a.l2,
   if choice then b.l3 else a.l3, if choice then b.l4 else a.l4⟩

/-! ### Addition and subtraction -/

/-- One limb of the borrow loop, `field.rs:225-228`: `self[i].wrapping_sub(b[i] + (sub >> 63))`. -/
def subStep (c : Cfg) (a b sub : Nat) : Res Nat := do
  let t ← chk64 c (b + (sub >>> 63))
  return wsub64 a t

/-- One limb of the conditional addition, `field.rs:234-237`:
`(carry >> 52) + difference[i] + (FIELD_L[i] & underflow_mask)`. -/
def subFixStep (c : Cfg) (carry d l um : Nat) : Res Nat :=
  chk64 c ((carry >>> 52) + d + (l &&& um))

/-- `Sub`, `field.rs:217-240`. -/
def sub (c : Cfg) (a b : FE) : Res FE := do
  let s0 ← subStep c a.l0 b.l0 0
  let s1 ← subStep c a.l1 b.l1 s0
  let s2 ← subStep c a.l2 b.l2 s1
  let s3 ← subStep c a.l3 b.l3 s2
  let s4 ← subStep c a.l4 b.l4 s3
  let um := wsub64 ((s4 >>> 63) ^^^ 1) 1
  let c0 ← subFixStep c 0 (s0 &&& mask52) FIELD_L.l0 um
  let c1 ← subFixStep c c0 (s1 &&& mask52) FIELD_L.l1 um
  let c2 ← subFixStep c c1 (s2 &&& mask52) FIELD_L.l2 um
  let c3 ← subFixStep c c2 (s3 &&& mask52) FIELD_L.l3 um
  let c4 ← subFixStep c c3 (s4 &&& mask52) FIELD_L.l4 um
  return ⟨c0 &&& mask52, c1 &&& mask52, c2 &&& mask52, c3 &&& mask52, c4 &&& mask52⟩

/-- `Add`, `field.rs:191-207`. -/
def add (c : Cfg) (a b : FE) : Res FE := do
  let c0 ← chk64 c (a.l0 + b.l0 + (0 >>> 52))
  let c1 ← chk64 c (a.l1 + b.l1 + (c0 >>> 52))
  let c2 ← chk64 c (a.l2 + b.l2 + (c1 >>> 52))
  let c3 ← chk64 c (a.l3 + b.l3 + (c2 >>> 52))
  let c4 ← chk64 c (a.l4 + b.l4 + (c3 >>> 52))
  sub c ⟨c0 &&& mask52, c1 &&& mask52, c2 &&& mask52, c3 &&& mask52, c4 &&& mask52⟩ FIELD_L

/-- `Neg`, `field.rs:170-189`. -/
def neg (c : Cfg) (a : FE) : Res FE := sub c zero a

/-- `ConditionallyNegatable::conditional_negate` of `subtle`: negate, then select. -/
def condNegate (c : Cfg) (a : FE) (choice : Bool) : Res FE := do
  let n ← neg c a
  return condSelect a n choice

/-! ### Multiplication -/

/-- `m`, `field.rs:506-508`. The product of two `u64` always fits in a `u128`. -/
def m (x y : Nat) : Nat := x * y

/-- `mul_internal`, `field.rs:741-757`. Each sum is range-checked on its total. -/
def mulInternal (c : Cfg) (a b : FE) : Res W9 := do
  let w0 ← chk128 c (m a.l0 b.l0)
  let w1 ← chk128 c (m a.l0 b.l1 + m a.l1 b.l0)
  let w2 ← chk128 c (m a.l0 b.l2 + m a.l1 b.l1 + m a.l2 b.l0)
  let w3 ← chk128 c (m a.l0 b.l3 + m a.l1 b.l2 + m a.l2 b.l1 + m a.l3 b.l0)
  let w4 ← chk128 c (m a.l0 b.l4 + m a.l1 b.l3 + m a.l2 b.l2 + m a.l3 b.l1 + m a.l4 b.l0)
  let w5 ← chk128 c (m a.l1 b.l4 + m a.l2 b.l3 + m a.l3 b.l2 + m a.l4 b.l1)
  let w6 ← chk128 c (m a.l2 b.l4 + m a.l3 b.l3 + m a.l4 b.l2)
  let w7 ← chk128 c (m a.l3 b.l4 + m a.l4 b.l3)
  let w8 ← chk128 c (m a.l4 b.l4)
  return ⟨w0, w1, w2, w3, w4, w5, w6, w7, w8⟩

/-- `square_internal`, `field.rs:763-777`. -/
def squareInternal (c : Cfg) (a : FE) : Res W9 := do
  let d0 ← chk64 c (a.l0 * 2)
  let d1 ← chk64 c (a.l1 * 2)
  let d2 ← chk64 c (a.l2 * 2)
  let d3 ← chk64 c (a.l3 * 2)
  let w0 ← chk128 c (m a.l0 a.l0)
  let w1 ← chk128 c (m d0 a.l1)
  let w2 ← chk128 c (m d0 a.l2 + m a.l1 a.l1)
  let w3 ← chk128 c (m d0 a.l3 + m d1 a.l2)
  let w4 ← chk128 c (m d0 a.l4 + m d1 a.l3 + m a.l2 a.l2)
  let w5 ← chk128 c (m d1 a.l4 + m d2 a.l3)
  let w6 ← chk128 c (m d2 a.l4 + m a.l3 a.l3)
  let w7 ← chk128 c (m d3 a.l4)
  let w8 ← chk128 c (m a.l4 a.l4)
  return ⟨w0, w1, w2, w3, w4, w5, w6, w7, w8⟩

/-- `adjustment_fact`, `field.rs:782-785`. The argument sum is range-checked by the caller expression. -/
def adjustmentFact (c : Cfg) (sum : Nat) : Res (Nat × Nat) := do
  let p := wmul64 (lo64 sum) LFACTOR_FIELD &&& mask52
  let t ← chk128 c (sum + m p FIELD_L.l0)
  return (t >>> 52, p)

/-- `montg_red_res`, `field.rs:788-791`. -/
def montgRedRes (sum : Nat) : Nat × Nat := (sum >>> 52, lo64 sum &&& mask52)

/-- `montgomery_reduce`, `field.rs:780-813`. `FIELD_L[3] = 0` products are skipped as in the source. -/
def montgomeryReduce (c : Cfg) (w : W9) : Res FE := do
  let l := FIELD_L
  let (k0, n0) ← adjustmentFact c w.w0
  let t1 ← chk128 c (k0 + w.w1 + m n0 l.l1)
  let (k1, n1) ← adjustmentFact c t1
  let t2 ← chk128 c (k1 + w.w2 + m n0 l.l2 + m n1 l.l1)
  let (k2, n2) ← adjustmentFact c t2
  let t3 ← chk128 c (k2 + w.w3 + m n1 l.l2 + m n2 l.l1)
  let (k3, n3) ← adjustmentFact c t3
  let t4 ← chk128 c (k3 + w.w4 + m n0 l.l4 + m n2 l.l2 + m n3 l.l1)
  let (k4, n4) ← adjustmentFact c t4
  let t5 ← chk128 c (k4 + w.w5 + m n1 l.l4 + m n3 l.l2 + m n4 l.l1)
  let (k5, r0) := montgRedRes t5
  let t6 ← chk128 c (k5 + w.w6 + m n2 l.l4 + m n4 l.l2)
  let (k6, r1) := montgRedRes t6
  let t7 ← chk128 c (k6 + w.w7 + m n3 l.l4)
  let (k7, r2) := montgRedRes t7
  let t8 ← chk128 c (k7 + w.w8 + m n4 l.l4)
  let (k8, r3) := montgRedRes t8
  let r4 := lo64 k8
  sub c ⟨r0, r1, r2, r3, r4⟩ l

/-- `montgomery_mul`, `field.rs:818-820`. -/
def montgomeryMul (c : Cfg) (a b : FE) : Res FE := do
  let w ← mulInternal c a b
  montgomeryReduce c w

/-- `to_montgomery`, `field.rs:824-826`. -/
def toMontgomery (c : Cfg) (a : FE) : Res FE := montgomeryMul c a RR_FIELD

/-- `from_montgomery`, `field.rs:830-836`. -/
def fromMontgomery (c : Cfg) (a : FE) : Res FE :=
  montgomeryReduce c ⟨a.l0, a.l1, a.l2, a.l3, a.l4, 0, 0, 0, 0⟩

/-- `Mul`, `field.rs:250-262`. -/
def mul (c : Cfg) (a b : FE) : Res FE := do
  let w ← mulInternal c a b
  let prod ← montgomeryReduce c w
  let w' ← mulInternal c prod RR_FIELD
  montgomeryReduce c w'

/-- `Square`, `field.rs:302-315`. -/
def square (c : Cfg) (a : FE) : Res FE := do
  let w ← squareInternal c a
  let aa ← montgomeryReduce c w
  let w' ← mulInternal c aa RR_FIELD
  montgomeryReduce c w'

/-- `Half`, `field.rs:317-323`. -/
def half (c : Cfg) (a : FE) : Res FE := mul c a INVERSE_MOD_TWO

/-- One limb of `half_without_mod`, `field.rs:682-685`: new limb and carry to the next lower limb. -/
def halfStep (l carry : Nat) : Nat × Nat :=
  let x := l ||| carry
  (x >>> 1, shl64 (x &&& 1) 52)

/-- `half_without_mod`, `field.rs:676-688`. -/
def halfWithoutMod (a : FE) : FE :=
  let (r4, c4) := halfStep a.l4 0
  let (r3, c3) := halfStep a.l3 c4
  let (r2, c2) := halfStep a.l2 c3
  let (r1, c1) := halfStep a.l1 c2
  let (r0, _) := halfStep a.l0 c1
  ⟨r0, r1, r2, r3, r4⟩

/-! ### Powers of two -/

/-- The `match exp` shared by `two_pow_k` (`field.rs:648-664`) and `inner_two_pow_k` (`field.rs:720-736`). -/
def twoPowLimbs (e : Nat) : FE :=
  if e ≤ 51 then ⟨shl64 1 e, 0, 0, 0, 0⟩
  else if e ≤ 103 then ⟨0, shl64 1 (e - 52), 0, 0, 0⟩
  else if e ≤ 155 then ⟨0, 0, shl64 1 (e - 104), 0, 0⟩
  else if e ≤ 207 then ⟨0, 0, 0, shl64 1 (e - 156), 0⟩
  else ⟨0, 0, 0, 0, shl64 1 (e - 208)⟩

/-- `FieldElement::two_pow_k`, `field.rs:640-666`. -/
def twoPowK (e : Nat) : Res FE := do
  rassert (e < 253)
  return twoPowLimbs e

/-- `inner_two_pow_k`, `field.rs:715-738`. -/
def innerTwoPowK (e : Nat) : Res FE := do
  rassert (e < 260)
  return twoPowLimbs e

/-! ### Exponentiation -/

/-- The `while` loop of `Pow`, `field.rs:340-351`. -/
def powLoop (c : Cfg) : Nat → FE → FE → FE → Res FE
  | 0, _, _, _ => .diverge
  | fuel + 1, base, res, expon =>
    if gt expon zero then
      if isEven expon then do
        let expon' := halfWithoutMod expon
        let base' ← mul c base base
        powLoop c fuel base' res expon'
      else do
        let e1 ← sub c expon one
        let res' ← mul c res base
        let expon' := halfWithoutMod e1
        let base' ← mul c base base
        powLoop c fuel base' res' expon'
    else .ok res

/-- `Pow::pow`, `field.rs:325-355`. -/
def pow (c : Cfg) (a e : FE) : Res FE := powLoop c c.fuel a one e

/-- `legendre_symbol`, `field.rs:703-706`. -/
def legendre (c : Cfg) (a : FE) : Res Bool := do
  let res ← pow c a MINUS_ONE_HALF
  return (ctEq res minusOne) ^^ true

/-! ### Inversion -/

/-- The `while` loop of `phase1`, `field.rs:881-911`. State `(u, v, r, s, k)`; returns the final `r, k`. -/
def phase1Loop (c : Cfg) : Nat → FE → FE → FE → FE → Nat → Res (FE × Nat)
  | 0, _, _, _, _, _ => .diverge
  | fuel + 1, u, v, r, s, k =>
    if gt v zero then
      if isEven u then do
        let u' := halfWithoutMod u
        let s' ← mul c s ⟨2, 0, 0, 0, 0⟩
        let k' ← chk64 c (k + 1)
        phase1Loop c fuel u' v r s' k'
      else if isEven v then do
        let v' := halfWithoutMod v
        let r' ← mul c r ⟨2, 0, 0, 0, 0⟩
        let k' ← chk64 c (k + 1)
        phase1Loop c fuel u v' r' s k'
      else if gt u v then do
        let u1 ← sub c u v
        let u' := halfWithoutMod u1
        let r' ← add c r s
        let s' ← mul c s ⟨2, 0, 0, 0, 0⟩
        let k' ← chk64 c (k + 1)
        phase1Loop c fuel u' v r' s' k'
      else if ge v u then do
        let v1 ← sub c v u
        let v' := halfWithoutMod v1
        let s' ← add c r s
        let r' ← mul c r ⟨2, 0, 0, 0, 0⟩
        let k' ← chk64 c (k + 1)
        phase1Loop c fuel u v' r' s' k'
      else .panic
    else .ok (r, k)

/-- `phase1`, `field.rs:863-916`. -/
def phase1 (c : Cfg) (a : FE) : Res (FE × Nat) := do
  rassert (!ctEq a zero)
  let p : FE := ⟨671914833335277, 3916664325105025, 1367801, 0, 17592186044416⟩
  let (r, k) ← phase1Loop c c.fuel p a zero one 0
  let r ← if gt r p then sub c r p else .ok r
  let pr ← sub c p r
  return (pr, k)

/-- `inverse`, `field.rs:854-925`. -/
def inverse (c : Cfg) (a : FE) : Res FE := do
  let (r, z) ← phase1 c a
  if z > 260 then do
    let r ← montgomeryMul c r one
    let z ← csub64 c z 260
    let e ← csub64 c 260 z
    let fact ← innerTwoPowK e
    montgomeryMul c r fact
  else do
    let e ← csub64 c 260 z
    let fact ← innerTwoPowK e
    montgomeryMul c r fact

/-- `Div<&FieldElement> for &FieldElement`, `field.rs:277-288`. -/
def divRef (c : Cfg) (a b : FE) : Res FE := do
  rassert (!ctEq b zero)
  let i ← inverse c b
  mul c a i

/-- `Div<FieldElement> for FieldElement`, `field.rs:290-300`. -/
def div (c : Cfg) (a b : FE) : Res FE := do
  let i ← inverse c b
  mul c a i

/-! ### Square roots -/

/-- `while q.is_even()`, `field.rs:400-403`: factor `p - 1 = q * 2^s`. -/
def factorLoop (c : Cfg) : Nat → FE → FE → Res (FE × FE)
  | 0, _, _ => .diverge
  | fuel + 1, s, q =>
    if isEven q then do
      let s' ← add c s one
      factorLoop c fuel s' (halfWithoutMod q)
    else .ok (s, q)

/-- `while i < m`, `field.rs:419-425`: lowest `i` with `t^(2^i) = 1`. -/
def findILoop (c : Cfg) (t mm : FE) : Nat → FE → FE → Res FE
  | 0, _, _ => .diverge
  | fuel + 1, i, e =>
    if lt i mm then do
      let i' ← add c i one
      let te ← pow c t e
      if ctEq te one then .ok i'
      else do
        let e' ← mul c e ⟨2, 0, 0, 0, 0⟩
        findILoop c t mm fuel i' e'
    else .ok i

/-- `while t != one`, `field.rs:414-433`. State `(c, x, t, m)`; `cc` is the source variable `c`. -/
def tonelliLoop (c : Cfg) : Nat → FE → FE → FE → FE → Res FE
  | 0, _, _, _, _ => .diverge
  | fuel + 1, cc, x, t, mm =>
    if !ctEq t one then do
      let i ← findILoop c t mm c.fuel zero (fromU32 2)
      let mi ← sub c mm i
      let mi1 ← sub c mi one
      let e ← pow c ⟨2, 0, 0, 0, 0⟩ mi1
      let b ← pow c cc e
      let x' ← mul c x b
      let b2 ← square c b
      let t' ← mul c t b2
      let cc' ← square c b
      tonelliLoop c fuel cc' x' t' i
    else .ok x

/-- `ModSqrt::mod_sqrt`, `field.rs:357-441`. -/
def modSqrt (c : Cfg) (a : FE) (sign : Bool) : Res (Option FE) := do
  if ctEq a zero then return some zero
  let ls ← legendre c a
  if ls == false then return none
  let (s, q) ← factorLoop c c.fuel zero minusOne
  let cc ← pow c ⟨6, 0, 0, 0, 0⟩ q
  let q1 ← add c q one
  let x ← pow c a (halfWithoutMod q1)
  let t ← pow c a q
  let x ← tonelliLoop c c.fuel cc x t s
  let nx ← sub c FIELD_L x
  return some (condSelect x nx sign)

/-- `SqrtRatioI::sqrt_ratio_i`, `field.rs:462-503`. -/
def sqrtRatioI (c : Cfg) (u v : FE) : Res (Bool × FE) := do
  if ctEq u zero then return (true, zero)
  if ctEq v zero then return (false, zero)
  let q ← divRef c u v
  let ls ← legendre c q
  if ls == false then do
    let q' ← divRef c u v
    let iq ← mul c SQRT_MINUS_ONE q'
    let o ← modSqrt c iq true
    let res ← unwrap o
    let res ← condNegate c res (!isPositive res)
    return (false, res)
  else do
    let q' ← divRef c u v
    let o ← modSqrt c q' true
    let res ← unwrap o
    let res ← condNegate c res (!isPositive res)
    return (true, res)

/-- `InvSqrt::inv_sqrt`, `field.rs:443-460`. -/
def invSqrt (c : Cfg) (v : FE) : Res (Bool × FE) := sqrtRatioI c one v

/-! ### Random elements and conversions -/

/-- `FieldElement::random`, `src/field.rs:131-141`. The argument is what the generator wrote. -/
def random (b : Bytes32) : FE := fromBytes (b.set 31 (b[31] &&& 0b00000111))

end Field
end Zerocaf
