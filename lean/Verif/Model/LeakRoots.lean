import Verif.Model.Leak

/-!
# Leakage model of square roots and encodings

Division, the sign test, square roots and the functions built on them: the encodings of points and the Elligator
map, with the record of `Model/Leak.lean`. A match on the outcome of a boolean expression is one branch for each
outcome that is looked at; operands of `&&` and `||` are evaluated from left to right as far as needed.
-/

namespace Zerocaf
namespace Leak

/-- `a < b`. -/
def lt (a b : L5) : LM Bool := do
  let o ← cmp a b
  pure (o == .lt)

/-- `a <= b`. -/
def le (a b : L5) : LM Bool := do
  let o ← cmp a b
  pure (o != .gt)

/-- `Option::unwrap`. -/
def unwrap {α : Type} (o : Option α) : LM α := ⟨[.br .unwrap o.isSome], Zerocaf.unwrap o⟩

namespace Field

open Zerocaf.Field

/-- `FieldElement::is_positive`, `field.rs:552-557`. -/
def isPositive (a : FE) : LM Bool := do
  let g ← ge a zero
  let g ← br .posGe g
  if g then do
    let l ← le a POS_RANGE
    br .posLe l
  else pure false

/-- `Div<&FieldElement> for &FieldElement`, `field.rs:277-288`. -/
def divRef (c : Cfg) (a b : FE) : LM FE := do
  let z ← ctEq b zero
  rassert (!z)
  let i ← inverse c b
  mul c a i

/-- `Div<FieldElement> for FieldElement`, `field.rs:290-300`. -/
def div (c : Cfg) (a b : FE) : LM FE := do
  let i ← inverse c b
  mul c a i

/-- `while q.is_even()`, `field.rs:400-403`. -/
def factorLoop (c : Cfg) : Nat → FE → FE → LM (FE × FE)
  | 0, _, _ => ⟨[], .diverge⟩
  | fuel + 1, s, q => do
    let e ← br .factorWhile (isEven q)
    if e then do
      let s' ← add c s one
      factorLoop c fuel s' (halfWithoutMod q)
    else pure (s, q)

/-- `while i < m`, `field.rs:419-425`. -/
def findILoop (c : Cfg) (t mm : FE) : Nat → FE → FE → LM FE
  | 0, _, _ => ⟨[], .diverge⟩
  | fuel + 1, i, e => do
    let l ← lt i mm
    let w ← br .findWhile l
    if w then do
      let i' ← add c i one
      let te ← pow c t e
      let z ← ctEq te one
      let o ← br .findOne z
      if o then pure i'
      else do
        let e' ← mul c e ⟨2, 0, 0, 0, 0⟩
        findILoop c t mm fuel i' e'
    else pure i

/-- `while t != one`, `field.rs:414-433`. -/
def tonelliLoop (c : Cfg) : Nat → FE → FE → FE → FE → LM FE
  | 0, _, _, _, _ => ⟨[], .diverge⟩
  | fuel + 1, cc, x, t, mm => do
    let z ← ctEq t one
    let w ← br .tsWhile (!z)
    if w then do
      let i ← findILoop c t mm c.fuel zero (fromU32 2)
      let mi ← sub c mm i
      let mi1 ← sub c mi one
      let e ← pow c ⟨2, 0, 0, 0, 0⟩ mi1
      let b ← pow c cc e
      let x' ← mul c x b
      let b2 ← square c b
      let t' ← mul c t b2
      let cc' ← square c b
      tonelliLoop c fuel cc' x' t' i
    else pure x

/-- `ModSqrt::mod_sqrt`, `field.rs:360-440`. -/
def modSqrt (c : Cfg) (a : FE) (sign : Bool) : LM (Option FE) := do
  let z ← ctEq a zero
  let z ← br .sqrtZero z
  if z then return some zero else
  let ls ← legendre c a
  let n ← br .residue ls
  if n == false then return none else
  let sq ← factorLoop c c.fuel zero minusOne
  let cc ← pow c ⟨6, 0, 0, 0, 0⟩ sq.2
  let q1 ← add c sq.2 one
  let x ← pow c a (halfWithoutMod q1)
  let t ← pow c a sq.2
  let x ← tonelliLoop c c.fuel cc x t sq.1
  let nx ← sub c FIELD_L x
  return some (condSelect x nx sign)

/-- `SqrtRatioI::sqrt_ratio_i`, `field.rs:462-503`. -/
def sqrtRatioI (c : Cfg) (u v : FE) : LM (Bool × FE) := do
  let uz ← ctEq u zero
  let vz ← ctEq v zero
  let uz ← br .ratioU uz
  if uz then return (true, zero) else
  let vz ← br .ratioV vz
  if vz then return (false, zero) else
  let q ← divRef c u v
  let ls ← legendre c q
  let ls ← br .residue ls
  if ls == false then do
    let q' ← divRef c u v
    let iq ← mul c SQRT_MINUS_ONE q'
    let o ← modSqrt c iq true
    let res ← unwrap o
    let pos ← isPositive res
    let res ← condNegate c res (!pos)
    return (false, res)
  else do
    let q' ← divRef c u v
    let o ← modSqrt c q' true
    let res ← unwrap o
    let pos ← isPositive res
    let res ← condNegate c res (!pos)
    return (true, res)

/-- `InvSqrt::inv_sqrt`, `field.rs:443-460`. -/
def invSqrt (c : Cfg) (v : FE) : LM (Bool × FE) := sqrtRatioI c one v

end Field

/-- `find_xx`, `edwards.rs:201-206`. -/
def findXX (c : Cfg) (y : FE) : LM FE := do
  let yy ← Field.square c y
  let a ← Field.sub c yy Zerocaf.Field.one
  let yy' ← Field.square c y
  let dyy ← Field.mul c EDWARDS_D yy'
  let b ← Field.sub c dyy EDWARDS_A
  Field.div c a b

namespace Ed

/-- `EdwardsPoint::compress`, `edwards.rs:613-629`. -/
def compress (c : Cfg) (p : EdPoint) : LM Bytes32 := do
  let point ← Aff.ofEd c p
  let xx ← findXX c point.Y
  let o ← Field.modSqrt c xx false
  let res ← unwrap o
  let e ← Field.ctEq res point.X
  let sign ← br .compSign (!e)
  let compr := Zerocaf.Field.toBytes point.Y
  return compr.set 31 (compr[31] ||| ((if sign then 1 else 0 : UInt8) <<< 7))

end Ed

namespace Ristretto

open Zerocaf.Ristretto

/-- `CompressedRistretto::decompress`, `ristretto.rs:96-154`. -/
def decompress (c : Cfg) (b : Bytes32) : LM (Option EdPoint) := do
  let s := Zerocaf.Field.fromBytes b
  let sCorrect ← sliceEq (Zerocaf.Field.toBytes s) b
  let sPos ← Field.isPositive s
  let neg ← br .decPos (sPos == false)
  if neg then return none else
  let bad ← br .decEnc (sCorrect == false)
  if bad then return none else
  let one := Zerocaf.Field.one
  let ss ← Field.square c s
  let u1 ← Field.sub c one ss
  let ss' ← Field.square c s
  let u2 ← Field.add c one ss'
  let u2_sq ← Field.square c u2
  let u1_sq ← Field.square c u1
  let du1 ← Field.mul c EDWARDS_D u1_sq
  let ndu1 ← Field.neg c du1
  let v ← Field.sub c ndu1 u2_sq
  let vu ← Field.mul c v u2_sq
  let okI ← Field.invSqrt c vu
  let no ← br .decOk (okI.1 == false)
  if no then return none else
  let Dx ← Field.mul c okI.2 u2
  let IDx ← Field.mul c okI.2 Dx
  let Dy ← Field.mul c IDx v
  let s2 ← Field.add c s s
  let x ← Field.mul c s2 Dx
  let xPos ← Field.isPositive x
  let x ← Field.condNegate c x (!xPos)
  let y ← Field.mul c u1 Dy
  let t ← Field.mul c x y
  let tPos ← Field.isPositive t
  let tNeg ← br .decT (tPos == false)
  if tNeg then return none else
  let y0 ← Field.ctEq y Zerocaf.Field.zero
  let y0 ← br .decY y0
  if y0 then return none else
  return some ⟨x, y, one, t⟩

/-- `RistrettoPoint::compress`, `ristretto.rs:398-425`. -/
def compress (c : Cfg) (p : EdPoint) : LM Bytes32 := do
  let zy ← Field.add c p.Z p.Y
  let zmy ← Field.sub c p.Z p.Y
  let u1 ← Field.mul c zy zmy
  let u2 ← Field.mul c p.X p.Y
  let u2_sq ← Field.square c u2
  let u1u2 ← Field.mul c u1 u2_sq
  let okI ← Field.invSqrt c u1u2
  let D1 ← Field.mul c u1 okI.2
  let D2 ← Field.mul c u2 okI.2
  let D12 ← Field.mul c D1 D2
  let Zinv ← Field.mul c D12 p.T
  let tz ← Field.mul c p.T Zinv
  let tPos ← Field.isPositive tz
  let rot ← br .encRot (tPos == false)
  let xyD ← (
    if rot then do
      let x ← Field.mul c Zerocaf.Field.SQRT_MINUS_ONE p.Y
      let y ← Field.mul c Zerocaf.Field.SQRT_MINUS_ONE p.X
      let D ← Field.mul c D1 INV_SQRT_A_MINUS_D
      pure (x, y, D)
    else pure (p.X, p.Y, D2) : LM (FE × FE × FE))
  let xz ← Field.mul c xyD.1 Zinv
  let xPos ← Field.isPositive xz
  let y ← Field.condNegate c xyD.2.1 (!xPos)
  let zy' ← Field.sub c p.Z y
  let s ← Field.mul c zy' xyD.2.2
  let sPos ← Field.isPositive s
  let s ← Field.condNegate c s (!sPos)
  return Zerocaf.Field.toBytes s

/-- `elligator_ristretto_flavor`, `ristretto.rs:430-471`. -/
def elligator (c : Cfg) (r0 : FE) : LM EdPoint := do
  let d := EDWARDS_D
  let one := Zerocaf.Field.one
  let cc ← Field.neg c one
  let dsq ← Field.square c d
  let one_minus_d_sq ← Field.sub c one dsq
  let r0sq ← Field.square c r0
  let r ← Field.mul c Zerocaf.Field.SQRT_MINUS_ONE r0sq
  let r1 ← Field.add c r one
  let N_s ← Field.mul c r1 one_minus_d_sq
  let dr ← Field.mul c d r
  let cdr ← Field.sub c cc dr
  let rd ← Field.add c r d
  let D ← Field.mul c cdr rd
  let sqs ← Field.sqrtRatioI c N_s D
  let s_prim ← Field.mul c sqs.2 r0
  let pos ← Field.isPositive s_prim
  let s_prim ← Field.condNegate c s_prim pos
  let s := Zerocaf.Field.condSelect sqs.2 s_prim (!sqs.1)
  let cc := Zerocaf.Field.condSelect cc r (!sqs.1)
  let rm1 ← Field.sub c r one
  let crm1 ← Field.mul c cc rm1
  let dm1 ← Field.sub c d one
  let dm1sq ← Field.square c dm1
  let nt ← Field.mul c crm1 dm1sq
  let N_t ← Field.sub c nt D
  let s_square ← Field.square c s
  let ss ← Field.add c s s
  let W0 ← Field.mul c ss D
  let W1 ← Field.mul c N_t SQRT_AD_MINUS_ONE
  let W2 ← Field.sub c one s_square
  let W3 ← Field.add c one s_square
  let X ← Field.mul c W0 W3
  let Y ← Field.mul c W2 W1
  let Z ← Field.mul c W1 W3
  let T ← Field.mul c W0 W2
  return ⟨X, Y, Z, T⟩

/-- `from_uniform_bytes`, `ristretto.rs:493-507`. -/
def fromUniformBytes (c : Cfg) (b : Bytes64) : LM EdPoint := do
  let lo : Bytes32 := Vector.ofFn fun i : Fin 32 => b[i.val]'(by omega)
  let R1 ← elligator c (Zerocaf.Field.fromBytes lo)
  let hi : Bytes32 := Vector.ofFn fun i : Fin 32 => b[32 + i.val]'(by omega)
  let R2 ← elligator c (Zerocaf.Field.fromBytes hi)
  Ed.add c R1 R2

end Ristretto

end Leak
end Zerocaf
