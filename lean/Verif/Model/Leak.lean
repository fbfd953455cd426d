import Verif.Model.Ristretto

/-!
# Leakage model

The functions of the library once more, with a record of what an observer of the control flow sees: which
arithmetic statements run and the outcome of every conditional branch. The text of the straight-line functions
is that of the model with `LM` in place of `Res`; `Proof/Leak.lean` proves that forgetting the record gives back
the model. Overflow checks of debug builds are branches. Bit operations, copies and table-free byte packing cannot
branch and are not recorded. Array indices are loop counters, so memory addresses do not depend on data, except for
the table of `window_naf_mul` (`Model/LeakDigits.lean`), whose indices are recorded. The selection and comparison
primitives of `subtle` are branch-free by contract.
Instruction timing, caches and the compiler are outside the model.
-/

namespace Zerocaf
namespace Leak

/-- Places of conditional branches. -/
inductive Site where
  /-- overflow check of a debug build -/
  | ovf
  /-- `if self[i] > other[i]`, `field.rs:68`, `scalar.rs:57` -/
  | cmpGt
  /-- `if self[i] < other[i]`, `field.rs:70`, `scalar.rs:59` -/
  | cmpLt
  /-- `while expon > zero`, `field.rs:340` -/
  | powWhile
  /-- `if expon.is_even()`, `field.rs:341` -/
  | powEven
  /-- `while n != Scalar::zero()`, `edwards.rs:111` -/
  | daaWhile
  /-- `if !n.is_even()`, `edwards.rs:112` -/
  | daaOdd
  /-- `if bits[i] == 1`, `edwards.rs:131` -/
  | ltrBit
  /-- `while v > zero`, `field.rs:881` -/
  | kWhile
  /-- `u.is_even()`, `field.rs:882-909` -/
  | kU
  /-- `v.is_even()`, `field.rs:882-909` -/
  | kV
  /-- `u > v`, `field.rs:882-909` -/
  | kGt
  /-- `v >= u`, `field.rs:882-909` -/
  | kGe
  /-- `if r > p`, `field.rs:911` -/
  | kFinal
  /-- `if z > 260`, `field.rs:918` -/
  | invBig
  /-- the arms of `match exp`, `field.rs:720-736` and `scalar.rs:534-550` -/
  | twoPow
  /-- `assert!` -/
  | assert
  /-- the length comparison of slices in `subtle` -/
  | sliceLen
  /-- `while k >= one`, `scalar.rs:376` and `scalar.rs:402` -/
  | digWhile
  /-- `if !k.is_even()`, `scalar.rs:377` and `scalar.rs:403` -/
  | digOdd
  /-- bounds check of an array access -/
  | bound
  /-- `match _inp >= 0`, `scalar.rs:73` -/
  | sign
  /-- `match modulus >= two_pow_w_minus_one`, `scalar.rs:438` -/
  | modsGe
  /-- `while expon > Scalar::zero()`, `scalar.rs:308` -/
  | spowWhile
  /-- `if expon.is_even()`, `scalar.rs:309` -/
  | spowEven
  /-- the arm `1i16` of `match k_naf[i]`, `edwards.rs:147` -/
  | nafOne
  /-- the arm `-1_i16` of `match k_naf[i]`, `edwards.rs:148` -/
  | nafMinus
  /-- `ki == 0i8`, `edwards.rs:164` -/
  | winZero
  /-- `ki > 0i8`, `edwards.rs:164` -/
  | winPos
  /-- the first operand of `&&`, `field.rs:553` -/
  | posGe
  /-- the second operand of `&&`, `field.rs:553` -/
  | posLe
  /-- `if self.ct_eq(&FieldElement::zero())…`, `field.rs:381` -/
  | sqrtZero
  /-- `if self.legendre_symbol()…`, `field.rs:387` and `field.rs:484` -/
  | residue
  /-- `while q.is_even()`, `field.rs:400` -/
  | factorWhile
  /-- `while i < m`, `field.rs:419` -/
  | findWhile
  /-- `if t.pow(&e).ct_eq(&one)`, `field.rs:421` -/
  | findOne
  /-- `while t != one`, `field.rs:414` -/
  | tsWhile
  /-- `self == zero` in `sqrt_ratio_i`, `field.rs:477` -/
  | ratioU
  /-- `v == zero` in `sqrt_ratio_i`, `field.rs:477` -/
  | ratioV
  /-- `Option::unwrap` -/
  | unwrap
  /-- `if res != point.X`, `edwards.rs:621` -/
  | compSign
  /-- `s_is_positive.unwrap_u8() == 0u8`, `ristretto.rs:112` -/
  | decPos
  /-- `s_correct_enc.unwrap_u8() == 0u8`, `ristretto.rs:112` -/
  | decEnc
  /-- `if ok.unwrap_u8() == 0`, `ristretto.rs:128` -/
  | decOk
  /-- `t.is_positive().unwrap_u8() == 0u8`, `ristretto.rs:144` -/
  | decT
  /-- `y == FieldElement::zero()`, `ristretto.rs:144` -/
  | decY
  /-- `if (self.0.T * Zinv).is_positive().unwrap_u8() == 0u8`, `ristretto.rs:407` -/
  | encRot
  /-- `match xx.mod_sqrt(sign)`, `edwards.rs:968` -/
  | newRoot
  /-- `match ProjectivePoint::new_from_y_coord(&y, sign)`, `edwards.rs:649` -/
  | newEd
  /-- `match ProjectivePoint::new_from_y_coord(&y, sign)`, `edwards.rs:993` -/
  | newDraw
deriving DecidableEq, Repr

/-- What is observed. -/
inductive Ev where
  /-- an arithmetic statement -/
  | stm
  /-- a branch and its outcome -/
  | br (s : Site) (b : Bool)
  /-- an access to a table and its index -/
  | idx (n : Nat)
deriving DecidableEq, Repr

/-- A computation with its trace. -/
structure LM (α : Type) where
  tr : List Ev
  val : Res α

/-- Sequencing: the trace stops at a panic. -/
protected def LM.bind {α β : Type} (m : LM α) (f : α → LM β) : LM β :=
  match m.val with
  | .ok a => ⟨m.tr ++ (f a).tr, (f a).val⟩
  | .panic => ⟨m.tr, .panic⟩
  | .diverge => ⟨m.tr, .diverge⟩

instance : Monad LM where
  pure a := ⟨[], .ok a⟩
  bind := LM.bind

/-- A conditional branch on `b`. -/
def br (s : Site) (b : Bool) : LM Bool := ⟨[.br s b], .ok b⟩

/-- `chk64` of the machine model; in debug builds a branch on the overflow flag. -/
def chk64 (c : Cfg) (n : Nat) : LM Nat :=
  ⟨if c.debug then [.stm, .br .ovf (decide (n < 2 ^ 64))] else [.stm], Zerocaf.chk64 c n⟩

/-- `chk128` of the machine model. -/
def chk128 (c : Cfg) (n : Nat) : LM Nat :=
  ⟨if c.debug then [.stm, .br .ovf (decide (n < 2 ^ 128))] else [.stm], Zerocaf.chk128 c n⟩

/-- `csub64` of the machine model. -/
def csub64 (c : Cfg) (a b : Nat) : LM Nat :=
  ⟨if c.debug then [.stm, .br .ovf (decide (b ≤ a))] else [.stm], Zerocaf.csub64 c a b⟩

/-- `assert!(b)`. -/
def rassert (b : Bool) : LM Unit := ⟨[.br .assert b], Zerocaf.rassert b⟩

/-- The loop of `[u8]::ct_eq` of `subtle`: one statement for each byte. -/
def sliceEqLoop : List UInt8 → List UInt8 → Bool → LM Bool
  | x :: xs, y :: ys, acc => do
    let acc ← (⟨[.stm], .ok (acc && x == y)⟩ : LM Bool)
    sliceEqLoop xs ys acc
  | _, _, acc => pure acc

/-- `[u8]::ct_eq` of `subtle`: the lengths are compared first. -/
def sliceEq (a b : Bytes32) : LM Bool := do
  let _ ← br .sliceLen true
  sliceEqLoop a.toList b.toList true

/-- `Ord::cmp`, `field.rs:65-76` and `scalar.rs:54-65`: from the most significant limb down, leaving at the first
difference. -/
def cmpLimbs : List (Nat × Nat) → LM Ordering
  | [] => pure .eq
  | (x, y) :: rest => do
    let g ← br .cmpGt (decide (x > y))
    if g then pure .gt else do
    let l ← br .cmpLt (decide (x < y))
    if l then pure .lt else cmpLimbs rest

/-- `Ord::cmp`, `field.rs:65-76` and `scalar.rs:54-65`. -/
def cmp (a b : L5) : LM Ordering :=
  cmpLimbs [(a.l4, b.l4), (a.l3, b.l3), (a.l2, b.l2), (a.l1, b.l1), (a.l0, b.l0)]

/-- `a > b`. -/
def gt (a b : L5) : LM Bool := do
  let o ← cmp a b
  pure (o == .gt)

/-- `a >= b`. -/
def ge (a b : L5) : LM Bool := do
  let o ← cmp a b
  pure (o != .lt)

namespace Field

open Zerocaf.Field

/-- One limb of the borrow loop, `field.rs:225-228`: `self[i].wrapping_sub(b[i] + (sub >> 63))`. -/
def subStep (c : Cfg) (a b sub : Nat) : LM Nat := do
  let t ← chk64 c (b + (sub >>> 63))
  return wsub64 a t

/-- One limb of the conditional addition, `field.rs:234-237`:
`(carry >> 52) + difference[i] + (FIELD_L[i] & underflow_mask)`. -/
def subFixStep (c : Cfg) (carry d l um : Nat) : LM Nat :=
  chk64 c ((carry >>> 52) + d + (l &&& um))

/-- `Sub`, `field.rs:217-240`. -/
def sub (c : Cfg) (a b : FE) : LM FE := do
  let s0 ← subStep c a.l0 b.l0 0
  let s1 ← subStep c a.l1 b.l1 s0
  let s2 ← subStep c a.l2 b.l2 s1
  let s3 ← subStep c a.l3 b.l3 s2
  let s4 ← subStep c a.l4 b.l4 s3
  let um := wsub64 ((s4 >>> 63) ^^^ 1) 1
  let c0 ← subFixStep c 0 (s0 &&& mask52) FIELD_L.l0 um
  let c1 ← subFixStep c c0 (s1 &&& mask52) FIELD_L.l1 um
  let c2 ← subFixStep c c1 (s2 &&& mask52) FIELD_L.l2 um
  let c3 ← subFixStep c c2 (s3 &&& mask52) FIELD_L.l3 um
  let c4 ← subFixStep c c3 (s4 &&& mask52) FIELD_L.l4 um
  return ⟨c0 &&& mask52, c1 &&& mask52, c2 &&& mask52, c3 &&& mask52, c4 &&& mask52⟩

/-- `Add`, `field.rs:191-207`. -/
def add (c : Cfg) (a b : FE) : LM FE := do
  let c0 ← chk64 c (a.l0 + b.l0 + (0 >>> 52))
  let c1 ← chk64 c (a.l1 + b.l1 + (c0 >>> 52))
  let c2 ← chk64 c (a.l2 + b.l2 + (c1 >>> 52))
  let c3 ← chk64 c (a.l3 + b.l3 + (c2 >>> 52))
  let c4 ← chk64 c (a.l4 + b.l4 + (c3 >>> 52))
  sub c ⟨c0 &&& mask52, c1 &&& mask52, c2 &&& mask52, c3 &&& mask52, c4 &&& mask52⟩ FIELD_L

/-- `Neg`, `field.rs:170-189`. -/
def neg (c : Cfg) (a : FE) : LM FE := sub c zero a

/-- `mul_internal`, `field.rs:741-757`. Each sum is range-checked on its total. -/
def mulInternal (c : Cfg) (a b : FE) : LM W9 := do
  let w0 ← chk128 c (m a.l0 b.l0)
  let w1 ← chk128 c (m a.l0 b.l1 + m a.l1 b.l0)
  let w2 ← chk128 c (m a.l0 b.l2 + m a.l1 b.l1 + m a.l2 b.l0)
  let w3 ← chk128 c (m a.l0 b.l3 + m a.l1 b.l2 + m a.l2 b.l1 + m a.l3 b.l0)
  let w4 ← chk128 c (m a.l0 b.l4 + m a.l1 b.l3 + m a.l2 b.l2 + m a.l3 b.l1 + m a.l4 b.l0)
  let w5 ← chk128 c (m a.l1 b.l4 + m a.l2 b.l3 + m a.l3 b.l2 + m a.l4 b.l1)
  let w6 ← chk128 c (m a.l2 b.l4 + m a.l3 b.l3 + m a.l4 b.l2)
  let w7 ← chk128 c (m a.l3 b.l4 + m a.l4 b.l3)
  let w8 ← chk128 c (m a.l4 b.l4)
  return ⟨w0, w1, w2, w3, w4, w5, w6, w7, w8⟩

/-- `square_internal`, `field.rs:763-777`. -/
def squareInternal (c : Cfg) (a : FE) : LM W9 := do
  let d0 ← chk64 c (a.l0 * 2)
  let d1 ← chk64 c (a.l1 * 2)
  let d2 ← chk64 c (a.l2 * 2)
  let d3 ← chk64 c (a.l3 * 2)
  let w0 ← chk128 c (m a.l0 a.l0)
  let w1 ← chk128 c (m d0 a.l1)
  let w2 ← chk128 c (m d0 a.l2 + m a.l1 a.l1)
  let w3 ← chk128 c (m d0 a.l3 + m d1 a.l2)
  let w4 ← chk128 c (m d0 a.l4 + m d1 a.l3 + m a.l2 a.l2)
  let w5 ← chk128 c (m d1 a.l4 + m d2 a.l3)
  let w6 ← chk128 c (m d2 a.l4 + m a.l3 a.l3)
  let w7 ← chk128 c (m d3 a.l4)
  let w8 ← chk128 c (m a.l4 a.l4)
  return ⟨w0, w1, w2, w3, w4, w5, w6, w7, w8⟩

/-- `adjustment_fact`, `field.rs:782-785`. The argument sum is range-checked by the caller expression. -/
def adjustmentFact (c : Cfg) (sum : Nat) : LM (Nat × Nat) := do
  let p := wmul64 (lo64 sum) LFACTOR_FIELD &&& mask52
  let t ← chk128 c (sum + m p FIELD_L.l0)
  return (t >>> 52, p)

/-- `montgomery_reduce`, `field.rs:780-813`. `FIELD_L[3] = 0` products are skipped as in the source. -/
def montgomeryReduce (c : Cfg) (w : W9) : LM FE := do
  let x0 ← adjustmentFact c w.w0
  let t1 ← chk128 c (x0.1 + w.w1 + m x0.2 FIELD_L.l1)
  let x1 ← adjustmentFact c t1
  let t2 ← chk128 c (x1.1 + w.w2 + m x0.2 FIELD_L.l2 + m x1.2 FIELD_L.l1)
  let x2 ← adjustmentFact c t2
  let t3 ← chk128 c (x2.1 + w.w3 + m x1.2 FIELD_L.l2 + m x2.2 FIELD_L.l1)
  let x3 ← adjustmentFact c t3
  let t4 ← chk128 c (x3.1 + w.w4 + m x0.2 FIELD_L.l4 + m x2.2 FIELD_L.l2 + m x3.2 FIELD_L.l1)
  let x4 ← adjustmentFact c t4
  let t5 ← chk128 c (x4.1 + w.w5 + m x1.2 FIELD_L.l4 + m x3.2 FIELD_L.l2 + m x4.2 FIELD_L.l1)
  let t6 ← chk128 c ((montgRedRes t5).1 + w.w6 + m x2.2 FIELD_L.l4 + m x4.2 FIELD_L.l2)
  let t7 ← chk128 c ((montgRedRes t6).1 + w.w7 + m x3.2 FIELD_L.l4)
  let t8 ← chk128 c ((montgRedRes t7).1 + w.w8 + m x4.2 FIELD_L.l4)
  sub c ⟨(montgRedRes t5).2, (montgRedRes t6).2, (montgRedRes t7).2, (montgRedRes t8).2, lo64 (montgRedRes t8).1⟩ FIELD_L

/-- `montgomery_mul`, `field.rs:818-820`. -/
def montgomeryMul (c : Cfg) (a b : FE) : LM FE := do
  let w ← mulInternal c a b
  montgomeryReduce c w

/-- `Mul`, `field.rs:250-262`. -/
def mul (c : Cfg) (a b : FE) : LM FE := do
  let w ← mulInternal c a b
  let prod ← montgomeryReduce c w
  let w' ← mulInternal c prod RR_FIELD
  montgomeryReduce c w'

/-- `Square`, `field.rs:302-315`. -/
def square (c : Cfg) (a : FE) : LM FE := do
  let w ← squareInternal c a
  let aa ← montgomeryReduce c w
  let w' ← mulInternal c aa RR_FIELD
  montgomeryReduce c w'

/-- `Half`, `field.rs:317-323`. -/
def half (c : Cfg) (a : FE) : LM FE := mul c a INVERSE_MOD_TWO

/-- `ConstantTimeEq::ct_eq`, `src/field.rs:93-106`: the byte encodings are compared. -/
def ctEq (a b : L5) : LM Bool := sliceEq (toBytes a) (toBytes b)

/-- `ConditionallyNegatable::conditional_negate` of `subtle`: negate, then select without branch. -/
def condNegate (c : Cfg) (a : FE) (choice : Bool) : LM FE := do
  let n ← neg c a
  return condSelect a n choice

/-- The `while` loop of `Pow`, `field.rs:340-351`. -/
def powLoop (c : Cfg) : Nat → FE → FE → FE → LM FE
  | 0, _, _, _ => ⟨[], .diverge⟩
  | fuel + 1, base, res, expon => do
    let g ← gt expon zero
    let w ← br .powWhile g
    if w then do
      let e ← br .powEven (isEven expon)
      if e then do
        let base' ← mul c base base
        powLoop c fuel base' res (halfWithoutMod expon)
      else do
        let e1 ← sub c expon one
        let res' ← mul c res base
        let base' ← mul c base base
        powLoop c fuel base' res' (halfWithoutMod e1)
    else pure res

/-- `Pow::pow`, `field.rs:325-355`. -/
def pow (c : Cfg) (a e : FE) : LM FE := powLoop c c.fuel a one e

/-- `legendre_symbol`, `field.rs:703-706`. -/
def legendre (c : Cfg) (a : FE) : LM Bool := do
  let res ← pow c a MINUS_ONE_HALF
  let e ← ctEq res minusOne
  pure (e ^^ true)

/-- The `while` loop of `phase1`, `field.rs:881-911`. The four conditions are evaluated first and matched in
order. -/
def phase1Loop (c : Cfg) : Nat → FE → FE → FE → FE → Nat → LM (FE × Nat)
  | 0, _, _, _, _, _ => ⟨[], .diverge⟩
  | fuel + 1, u, v, r, s, k => do
    let g ← gt v zero
    let w ← br .kWhile g
    if w then do
      let cg ← gt u v
      let cl ← ge v u
      let ue ← br .kU (isEven u)
      if ue then do
        let s' ← mul c s ⟨2, 0, 0, 0, 0⟩
        let k' ← chk64 c (k + 1)
        phase1Loop c fuel (halfWithoutMod u) v r s' k'
      else do
      let ve ← br .kV (isEven v)
      if ve then do
        let r' ← mul c r ⟨2, 0, 0, 0, 0⟩
        let k' ← chk64 c (k + 1)
        phase1Loop c fuel u (halfWithoutMod v) r' s k'
      else do
      let big ← br .kGt cg
      if big then do
        let u1 ← sub c u v
        let r' ← add c r s
        let s' ← mul c s ⟨2, 0, 0, 0, 0⟩
        let k' ← chk64 c (k + 1)
        phase1Loop c fuel (halfWithoutMod u1) v r' s' k'
      else do
      let small ← br .kGe cl
      if small then do
        let v1 ← sub c v u
        let s' ← add c r s
        let r' ← mul c r ⟨2, 0, 0, 0, 0⟩
        let k' ← chk64 c (k + 1)
        phase1Loop c fuel u (halfWithoutMod v1) r' s' k'
      else ⟨[], .panic⟩
    else pure (r, k)

/-- `phase1`, `field.rs:863-916`. -/
def phase1 (c : Cfg) (a : FE) : LM (FE × Nat) := do
  let z ← ctEq a zero
  rassert (!z)
  let p : FE := ⟨671914833335277, 3916664325105025, 1367801, 0, 17592186044416⟩
  let (r, k) ← phase1Loop c c.fuel p a zero one 0
  let g ← gt r p
  let f ← br .kFinal g
  let r ← if f then sub c r p else pure r
  let pr ← sub c p r
  return (pr, k)

/-- `inner_two_pow_k`, `field.rs:715-738`: an assertion and one of five arms, recorded as four branches. -/
def innerTwoPowK (e : Nat) : LM FE := do
  rassert (e < 260)
  let _ ← br .twoPow (decide (e ≤ 51))
  let _ ← br .twoPow (decide (e ≤ 103))
  let _ ← br .twoPow (decide (e ≤ 155))
  let _ ← br .twoPow (decide (e ≤ 207))
  return twoPowLimbs e

/-- `inverse`, `field.rs:854-925`. -/
def inverse (c : Cfg) (a : FE) : LM FE := do
  let (r, z) ← phase1 c a
  let b ← br .invBig (decide (z > 260))
  if b then do
    let r ← montgomeryMul c r one
    let z ← csub64 c z 260
    let e ← csub64 c 260 z
    let fact ← innerTwoPowK e
    montgomeryMul c r fact
  else do
    let e ← csub64 c 260 z
    let fact ← innerTwoPowK e
    montgomeryMul c r fact

end Field

namespace Scalar

open Zerocaf.Scalar

/-- One limb of the borrow loop, `scalar.rs:221-225`. -/
def subStep (c : Cfg) (a b sub : Nat) : LM Nat := do
  let t ← chk64 c (b + (sub >>> 63))
  return wsub64 a t

/-- One limb of the conditional addition, `scalar.rs:231-234`. -/
def subFixStep (c : Cfg) (carry d l um : Nat) : LM Nat :=
  chk64 c ((carry >>> 52) + d + (l &&& um))

/-- `Sub`, `scalar.rs:210-237`. -/
def sub (c : Cfg) (a b : Sc) : LM Sc := do
  let s0 ← subStep c a.l0 b.l0 0
  let s1 ← subStep c a.l1 b.l1 s0
  let s2 ← subStep c a.l2 b.l2 s1
  let s3 ← subStep c a.l3 b.l3 s2
  let s4 ← subStep c a.l4 b.l4 s3
  let um := wsub64 ((s4 >>> 63) ^^^ 1) 1
  let c0 ← subFixStep c 0 (s0 &&& mask52) L.l0 um
  let c1 ← subFixStep c c0 (s1 &&& mask52) L.l1 um
  let c2 ← subFixStep c c1 (s2 &&& mask52) L.l2 um
  let c3 ← subFixStep c c2 (s3 &&& mask52) L.l3 um
  let c4 ← subFixStep c c3 (s4 &&& mask52) L.l4 um
  return ⟨c0 &&& mask52, c1 &&& mask52, c2 &&& mask52, c3 &&& mask52, c4 &&& mask52⟩

/-- `Add`, `scalar.rs:184-200`. -/
def add (c : Cfg) (a b : Sc) : LM Sc := do
  let c0 ← chk64 c (a.l0 + b.l0 + (0 >>> 52))
  let c1 ← chk64 c (a.l1 + b.l1 + (c0 >>> 52))
  let c2 ← chk64 c (a.l2 + b.l2 + (c1 >>> 52))
  let c3 ← chk64 c (a.l3 + b.l3 + (c2 >>> 52))
  let c4 ← chk64 c (a.l4 + b.l4 + (c3 >>> 52))
  sub c ⟨c0 &&& mask52, c1 &&& mask52, c2 &&& mask52, c3 &&& mask52, c4 &&& mask52⟩ L

/-- `Neg`, `scalar.rs:139-155`. -/
def neg (c : Cfg) (a : Sc) : LM Sc := sub c zero a

/-- `mul_internal`, `scalar.rs:580-594`. -/
def mulInternal (c : Cfg) (a b : Sc) : LM W9 := do
  let w0 ← chk128 c (m a.l0 b.l0)
  let w1 ← chk128 c (m a.l0 b.l1 + m a.l1 b.l0)
  let w2 ← chk128 c (m a.l0 b.l2 + m a.l1 b.l1 + m a.l2 b.l0)
  let w3 ← chk128 c (m a.l0 b.l3 + m a.l1 b.l2 + m a.l2 b.l1 + m a.l3 b.l0)
  let w4 ← chk128 c (m a.l0 b.l4 + m a.l1 b.l3 + m a.l2 b.l2 + m a.l3 b.l1 + m a.l4 b.l0)
  let w5 ← chk128 c (m a.l1 b.l4 + m a.l2 b.l3 + m a.l3 b.l2 + m a.l4 b.l1)
  let w6 ← chk128 c (m a.l2 b.l4 + m a.l3 b.l3 + m a.l4 b.l2)
  let w7 ← chk128 c (m a.l3 b.l4 + m a.l4 b.l3)
  let w8 ← chk128 c (m a.l4 b.l4)
  return ⟨w0, w1, w2, w3, w4, w5, w6, w7, w8⟩

/-- `square_internal`, `scalar.rs:600-614`. -/
def squareInternal (c : Cfg) (a : Sc) : LM W9 := do
  let d0 ← chk64 c (a.l0 * 2)
  let d1 ← chk64 c (a.l1 * 2)
  let d2 ← chk64 c (a.l2 * 2)
  let d3 ← chk64 c (a.l3 * 2)
  let w0 ← chk128 c (m a.l0 a.l0)
  let w1 ← chk128 c (m d0 a.l1)
  let w2 ← chk128 c (m d0 a.l2 + m a.l1 a.l1)
  let w3 ← chk128 c (m d0 a.l3 + m d1 a.l2)
  let w4 ← chk128 c (m d0 a.l4 + m d1 a.l3 + m a.l2 a.l2)
  let w5 ← chk128 c (m d1 a.l4 + m d2 a.l3)
  let w6 ← chk128 c (m d2 a.l4 + m a.l3 a.l3)
  let w7 ← chk128 c (m d3 a.l4)
  let w8 ← chk128 c (m a.l4 a.l4)
  return ⟨w0, w1, w2, w3, w4, w5, w6, w7, w8⟩

/-- `adjustment_fact`, `scalar.rs:619-622`. -/
def adjustmentFact (c : Cfg) (sum : Nat) : LM (Nat × Nat) := do
  let p := wmul64 (lo64 sum) LFACTOR &&& mask52
  let t ← chk128 c (sum + m p L.l0)
  return (t >>> 52, p)

/-- `montgomery_reduce`, `scalar.rs:617-652`. -/
def montgomeryReduce (c : Cfg) (w : W9) : LM Sc := do
  let x0 ← adjustmentFact c w.w0
  let t1 ← chk128 c (x0.1 + w.w1 + m x0.2 L.l1)
  let x1 ← adjustmentFact c t1
  let t2 ← chk128 c (x1.1 + w.w2 + m x0.2 L.l2 + m x1.2 L.l1)
  let x2 ← adjustmentFact c t2
  let t3 ← chk128 c (x2.1 + w.w3 + m x0.2 L.l3 + m x1.2 L.l2 + m x2.2 L.l1)
  let x3 ← adjustmentFact c t3
  let t4 ← chk128 c (x3.1 + w.w4 + m x0.2 L.l4 + m x1.2 L.l3 + m x2.2 L.l2 + m x3.2 L.l1)
  let x4 ← adjustmentFact c t4
  let t5 ← chk128 c (x4.1 + w.w5 + m x1.2 L.l4 + m x2.2 L.l3 + m x3.2 L.l2 + m x4.2 L.l1)
  let t6 ← chk128 c ((montgRedRes t5).1 + w.w6 + m x2.2 L.l4 + m x3.2 L.l3 + m x4.2 L.l2)
  let t7 ← chk128 c ((montgRedRes t6).1 + w.w7 + m x3.2 L.l4 + m x4.2 L.l3)
  let t8 ← chk128 c ((montgRedRes t7).1 + w.w8 + m x4.2 L.l4)
  sub c ⟨(montgRedRes t5).2, (montgRedRes t6).2, (montgRedRes t7).2, (montgRedRes t8).2, lo64 (montgRedRes t8).1⟩ L

/-- `montgomery_mul`, `scalar.rs:656-658`. -/
def montgomeryMul (c : Cfg) (a b : Sc) : LM Sc := do
  let w ← mulInternal c a b
  montgomeryReduce c w

/-- `Mul`, `scalar.rs:247-258`. -/
def mul (c : Cfg) (a b : Sc) : LM Sc := do
  let w ← mulInternal c a b
  let ab ← montgomeryReduce c w
  let w' ← mulInternal c ab RR
  montgomeryReduce c w'

/-- `Square`, `scalar.rs:272-283`. -/
def square (c : Cfg) (a : Sc) : LM Sc := do
  let w ← squareInternal c a
  let aa ← montgomeryReduce c w
  let w' ← mulInternal c aa RR
  montgomeryReduce c w'

/-- `Half`, `scalar.rs:285-291`. -/
def half (c : Cfg) (a : Sc) : LM Sc := mul c a INVERSE_MOD_TWO

/-- `ConstantTimeEq::ct_eq`, `src/scalar.rs:78-91`: the byte encodings are compared. -/
def ctEq (a b : L5) : LM Bool := sliceEq (toBytes a) (toBytes b)

end Scalar

namespace Proj

/-- `Neg`, `edwards.rs:787-807`. -/
def neg (c : Cfg) (p : ProjPoint) : LM ProjPoint := do
  let x ← Field.neg c p.X
  return ⟨x, p.Y, p.Z⟩

/-- `Add`, `edwards.rs:809-835`. -/
def add (c : Cfg) (p q : ProjPoint) : LM ProjPoint := do
  let A ← Field.mul c p.Z q.Z
  let B ← Field.square c A
  let C ← Field.mul c p.X q.X
  let D ← Field.mul c p.Y q.Y
  let dC ← Field.mul c EDWARDS_D C
  let E ← Field.mul c dC D
  let F ← Field.sub c B E
  let G ← Field.add c B E
  let s1 ← Field.add c p.X p.Y
  let s2 ← Field.add c q.X q.Y
  let s12 ← Field.mul c s1 s2
  let h1 ← Field.sub c s12 C
  let h2 ← Field.sub c h1 D
  let Fh ← Field.mul c F h2
  let X ← Field.mul c A Fh
  let AG ← Field.mul c A G
  let DC ← Field.add c D C
  let Y ← Field.mul c AG DC
  let Z ← Field.mul c F G
  return ⟨X, Y, Z⟩

/-- `Sub`, `edwards.rs:851-865`. -/
def sub (c : Cfg) (p q : ProjPoint) : LM ProjPoint := do
  let nq ← neg c q
  add c p nq

/-- `Double`, `edwards.rs:915-942`. -/
def double (c : Cfg) (p : ProjPoint) : LM ProjPoint := do
  let xy ← Field.add c p.X p.Y
  let B ← Field.square c xy
  let C ← Field.square c p.X
  let D ← Field.square c p.Y
  let E ← Field.mul c EDWARDS_A C
  let F ← Field.add c E D
  let H ← Field.square c p.Z
  let H2 ← Field.mul c (Field.fromU32 2) H
  let J ← Field.sub c F H2
  let BC ← Field.sub c B C
  let BCD ← Field.sub c BC D
  let X ← Field.mul c BCD J
  let ED ← Field.sub c E D
  let Y ← Field.mul c F ED
  let Z ← Field.mul c F J
  return ⟨X, Y, Z⟩

end Proj

namespace Aff

/-- `ConstantTimeEq::ct_eq`, `edwards.rs:1044-1048`. -/
def ctEq (p q : AffPoint) : LM Bool := do
  let x ← Field.ctEq p.X q.X
  let y ← Field.ctEq p.Y q.Y
  pure (x && y)

/-- `Neg`, `edwards.rs:1112-1133`. -/
def neg (c : Cfg) (p : AffPoint) : LM AffPoint := do
  let x ← Field.neg c p.X
  return ⟨x, p.Y⟩

/-- `From<EdwardsPoint>`, `edwards.rs:1085-1098`. -/
def ofEd (c : Cfg) (p : EdPoint) : LM AffPoint := do
  let zinv ← Field.inverse c p.Z
  let x ← Field.mul c p.X zinv
  let y ← Field.mul c p.Y zinv
  return ⟨x, y⟩

/-- `From<ProjectivePoint>`, `edwards.rs:1100-1110`. -/
def ofProj (c : Cfg) (p : ProjPoint) : LM AffPoint := do
  let zinv ← Field.inverse c p.Z
  let x ← Field.mul c p.X zinv
  let y ← Field.mul c p.Y zinv
  return ⟨x, y⟩

end Aff

namespace Ed

/-- `Neg`, `edwards.rs:440-463`. -/
def neg (c : Cfg) (p : EdPoint) : LM EdPoint := do
  let x ← Field.neg c p.X
  let t ← Field.neg c p.T
  return ⟨x, p.Y, p.Z, t⟩

/-- `Add`, `edwards.rs:465-489`. -/
def add (c : Cfg) (p q : EdPoint) : LM EdPoint := do
  let A ← Field.mul c p.X q.X
  let B ← Field.mul c p.Y q.Y
  let dT ← Field.mul c EDWARDS_D p.T
  let C ← Field.mul c dT q.T
  let D ← Field.mul c p.Z q.Z
  let s1 ← Field.add c p.X p.Y
  let s2 ← Field.add c q.X q.Y
  let s12 ← Field.mul c s1 s2
  let e1 ← Field.sub c s12 A
  let E ← Field.sub c e1 B
  let F ← Field.sub c D C
  let G ← Field.add c D C
  let H ← Field.add c B A
  let X ← Field.mul c E F
  let Y ← Field.mul c G H
  let Z ← Field.mul c F G
  let T ← Field.mul c E H
  return ⟨X, Y, Z, T⟩

/-- `Sub`, `edwards.rs:503-531`. -/
def sub (c : Cfg) (p q : EdPoint) : LM EdPoint := do
  let nq ← neg c q
  let A ← Field.mul c p.X nq.X
  let B ← Field.mul c p.Y nq.Y
  let dT ← Field.mul c EDWARDS_D p.T
  let C ← Field.mul c dT nq.T
  let D ← Field.mul c p.Z nq.Z
  let s1 ← Field.add c p.X p.Y
  let s2 ← Field.add c nq.X nq.Y
  let s12 ← Field.mul c s1 s2
  let e1 ← Field.sub c s12 A
  let E ← Field.sub c e1 B
  let F ← Field.sub c D C
  let G ← Field.add c D C
  let aA ← Field.mul c EDWARDS_A A
  let H ← Field.sub c B aA
  let X ← Field.mul c E F
  let Y ← Field.mul c G H
  let Z ← Field.mul c F G
  let T ← Field.mul c E H
  return ⟨X, Y, Z, T⟩

/-- `Double`, `edwards.rs:579-592`. -/
def double (c : Cfg) (p : EdPoint) : LM EdPoint := add c p p

/-- `ConstantTimeEq::ct_eq`, `edwards.rs:359-363`. -/
def ctEq (c : Cfg) (p q : EdPoint) : LM Bool := do
  let p' ← Aff.ofEd c p
  let q' ← Aff.ofEd c q
  Aff.ctEq p' q'

end Ed

namespace Ristretto

/-- `ConstantTimeEq::ct_eq`, `ristretto.rs:166-176`. -/
def ctEq (c : Cfg) (p q : EdPoint) : LM Bool := do
  let xy ← Field.mul c p.X q.Y
  let yx ← Field.mul c p.Y q.X
  let xx ← Field.mul c p.X q.X
  let yy ← Field.mul c p.Y q.Y
  let a ← Field.ctEq xy yx
  let b ← Field.ctEq xx yy
  pure (a || b)

end Ristretto

/-- The operations of a point type, with traces. -/
structure PointOps (T : Type) where
  identity : T
  add : Cfg → T → T → LM T
  sub : Cfg → T → T → LM T
  double : Cfg → T → LM T

/-- Forgetting the traces. -/
def PointOps.erase {T : Type} (O : PointOps T) : Zerocaf.PointOps T where
  identity := O.identity
  add c a b := (O.add c a b).val
  sub c a b := (O.sub c a b).val
  double c a := (O.double c a).val

/-- The operations of `EdwardsPoint` and of `RistrettoPoint`. -/
def Ed.ops : PointOps EdPoint := ⟨Zerocaf.Ed.identity, Ed.add, Ed.sub, Ed.double⟩

/-- The operations of `ProjectivePoint`. -/
def Proj.ops : PointOps ProjPoint := ⟨Zerocaf.Proj.identity, Proj.add, Proj.sub, Proj.double⟩

/-- The `while` loop of `double_and_add`, `edwards.rs:111-118`. -/
def doubleAndAddLoop {T : Type} (O : PointOps T) (c : Cfg) : Nat → T → Sc → T → LM T
  | 0, _, _, _ => ⟨[], .diverge⟩
  | fuel + 1, N, n, Q => do
    let z ← Scalar.ctEq n Zerocaf.Scalar.zero
    let w ← br .daaWhile (!z)
    if w then do
      let o ← br .daaOdd (!Zerocaf.Scalar.isEven n)
      let Q' ← if o then O.add c Q N else pure Q
      let N' ← O.double c N
      doubleAndAddLoop O c fuel N' (Zerocaf.Scalar.halfWithoutMod n) Q'
    else pure Q

/-- `double_and_add`, `edwards.rs:102-120`. -/
def doubleAndAdd {T : Type} (O : PointOps T) (c : Cfg) (point : T) (scalar : Sc) : LM T :=
  doubleAndAddLoop O c c.fuel point scalar O.identity

/-- The loop of `ltr_bin_mul`, `edwards.rs:129-132`. -/
def ltrLoop {T : Type} (O : PointOps T) (c : Cfg) (point : T) (bits : Vector UInt8 256) :
    (n : Nat) → n ≤ 256 → T → LM T
  | 0, _, Q => pure Q
  | i + 1, h, Q => do
    let Q ← O.double c Q
    let b ← br .ltrBit (bits[i] == 1)
    let Q ← if b then O.add c Q point else pure Q
    ltrLoop O c point bits i (by omega) Q

/-- `ltr_bin_mul`, `edwards.rs:122-134`. -/
def ltrBinMul {T : Type} (O : PointOps T) (c : Cfg) (point : T) (scalar : Sc) : LM T :=
  ltrLoop O c point (Zerocaf.Scalar.intoBits scalar) 249 (by omega) O.identity

end Leak
end Zerocaf
