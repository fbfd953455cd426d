import Verif.Model.Count
import Verif.Model.Ristretto

/-!
# Counting field operations: powers, roots, encodings, hashing, windowed multiplication

Continues `Model/Count.lean` for the functions that compute powers and square roots and for those that use them. The
text is that of the model with `CM` in place of `Res`; `Props/CountRoots.lean` proves that forgetting the count gives
back the model. The exponents of powers are field elements too, so subtracting one from an exponent counts as an
addition. Multiplications by `sqrt(-1)` and by the other square root constants count as multiplications by constants.
The operations inside an inversion are not counted.
-/

namespace Zerocaf
namespace Count

namespace Field

open Zerocaf.Field (one zero minusOne gt lt isEven halfWithoutMod ctEq condSelect isPositive fromU32 FIELD_L
  MINUS_ONE_HALF SQRT_MINUS_ONE)

/-- `ConditionallyNegatable::conditional_negate` of `subtle`: always negates. -/
def condNegate (c : Cfg) (a : FE) (choice : Bool) : CM FE := do
  let n ← neg c a
  return condSelect a n choice

/-- The `while` loop of `Pow`, `field.rs:340-351`. -/
def powLoop (c : Cfg) : Nat → FE → FE → FE → CM FE
  | 0, _, _, _ => free .diverge
  | fuel + 1, base, res, expon =>
    if gt expon zero then
      if isEven expon then do
        let expon' := halfWithoutMod expon
        let base' ← mul c base base
        powLoop c fuel base' res expon'
      else do
        let e1 ← sub c expon one
        let res' ← mul c res base
        let expon' := halfWithoutMod e1
        let base' ← mul c base base
        powLoop c fuel base' res' expon'
    else pure res

/-- `Pow::pow`, `field.rs:325-355`. -/
def pow (c : Cfg) (a e : FE) : CM FE := powLoop c c.fuel a one e

/-- `legendre_symbol`, `field.rs:703-706`. -/
def legendre (c : Cfg) (a : FE) : CM Bool := do
  let res ← pow c a MINUS_ONE_HALF
  return (ctEq res minusOne) ^^ true

/-- `Div<&FieldElement> for &FieldElement`, `field.rs:277-288`. -/
def divRef (c : Cfg) (a b : FE) : CM FE := do
  free (rassert (!ctEq b zero))
  let i ← inverse c b
  mul c a i

/-- `Div<FieldElement> for FieldElement`, `field.rs:290-300`. -/
def div (c : Cfg) (a b : FE) : CM FE := do
  let i ← inverse c b
  mul c a i

/-- `while q.is_even()`, `field.rs:400-403`. -/
def factorLoop (c : Cfg) : Nat → FE → FE → CM (FE × FE)
  | 0, _, _ => free .diverge
  | fuel + 1, s, q =>
    if isEven q then do
      let s' ← add c s one
      factorLoop c fuel s' (halfWithoutMod q)
    else pure (s, q)

/-- `while i < m`, `field.rs:419-425`. -/
def findILoop (c : Cfg) (t mm : FE) : Nat → FE → FE → CM FE
  | 0, _, _ => free .diverge
  | fuel + 1, i, e =>
    if lt i mm then do
      let i' ← add c i one
      let te ← pow c t e
      if ctEq te one then pure i'
      else do
        let e' ← cmul c e ⟨2, 0, 0, 0, 0⟩
        findILoop c t mm fuel i' e'
    else pure i

/-- `while t != one`, `field.rs:414-433`. -/
def tonelliLoop (c : Cfg) : Nat → FE → FE → FE → FE → CM FE
  | 0, _, _, _, _ => free .diverge
  | fuel + 1, cc, x, t, mm =>
    if !ctEq t one then do
      let i ← findILoop c t mm c.fuel zero (fromU32 2)
      let mi ← sub c mm i
      let mi1 ← sub c mi one
      let e ← pow c ⟨2, 0, 0, 0, 0⟩ mi1
      let b ← pow c cc e
      let x' ← mul c x b
      let b2 ← square c b
      let t' ← mul c t b2
      let cc' ← square c b
      tonelliLoop c fuel cc' x' t' i
    else pure x

/-- `ModSqrt::mod_sqrt`, `field.rs:357-441`. -/
def modSqrt (c : Cfg) (a : FE) (sign : Bool) : CM (Option FE) :=
  if ctEq a zero then pure (some zero) else do
  let ls ← legendre c a
  if ls == false then return none else
  let sq ← factorLoop c c.fuel zero minusOne
  let cc ← pow c ⟨6, 0, 0, 0, 0⟩ sq.2
  let q1 ← add c sq.2 one
  let x ← pow c a (halfWithoutMod q1)
  let t ← pow c a sq.2
  let x ← tonelliLoop c c.fuel cc x t sq.1
  let nx ← sub c FIELD_L x
  return some (condSelect x nx sign)

/-- `SqrtRatioI::sqrt_ratio_i`, `field.rs:462-503`. -/
def sqrtRatioI (c : Cfg) (u v : FE) : CM (Bool × FE) :=
  if ctEq u zero then pure (true, zero) else
  if ctEq v zero then pure (false, zero) else do
  let q ← divRef c u v
  let ls ← legendre c q
  if ls == false then do
    let q' ← divRef c u v
    let iq ← cmul c SQRT_MINUS_ONE q'
    let o ← modSqrt c iq true
    let res ← free (unwrap o)
    let res ← condNegate c res (!isPositive res)
    return (false, res)
  else do
    let q' ← divRef c u v
    let o ← modSqrt c q' true
    let res ← free (unwrap o)
    let res ← condNegate c res (!isPositive res)
    return (true, res)

/-- `InvSqrt::inv_sqrt`, `field.rs:443-460`. -/
def invSqrt (c : Cfg) (v : FE) : CM (Bool × FE) := sqrtRatioI c one v

end Field

/-- `find_xx`, `edwards.rs:200-204`. -/
def findXX (c : Cfg) (y : FE) : CM FE := do
  let yy ← Field.square c y
  let a ← Field.sub c yy Zerocaf.Field.one
  let yy' ← Field.square c y
  let dyy ← Field.cmul c EDWARDS_D yy'
  let b ← Field.sub c dyy EDWARDS_A
  Field.div c a b

namespace Aff

/-- `is_valid`, `edwards.rs:1058-1069`. -/
def isValid (c : Cfg) (p : AffPoint) : CM Bool := do
  let x_sq ← Field.square c p.X
  let y_sq ← Field.square c p.Y
  let ax ← Field.cmul c Zerocaf.Field.minusOne x_sq
  let left ← Field.add c ax y_sq
  let dx ← Field.cmul c EDWARDS_D x_sq
  let dxy ← Field.mul c dx y_sq
  let right ← Field.add c Zerocaf.Field.one dxy
  return Zerocaf.Field.ctEq left right

end Aff

namespace Proj

/-- `ConstantTimeEq::ct_eq`, `edwards.rs:700-704`. -/
def ctEq (c : Cfg) (p q : ProjPoint) : CM Bool := do
  let p' ← Aff.ofProj c p
  let q' ← Aff.ofProj c q
  return Zerocaf.Aff.ctEq p' q'

/-- `is_valid`, `edwards.rs:733-748`. -/
def isValid (c : Cfg) (p : ProjPoint) : CM Bool := do
  let x_sq ← Field.square c p.X
  let y_sq ← Field.square c p.Y
  let z_sq ← Field.square c p.Z
  let ax ← Field.cmul c EDWARDS_A x_sq
  let axy ← Field.add c ax y_sq
  let left ← Field.mul c axy z_sq
  let z4 ← Field.square c z_sq
  let dx ← Field.cmul c EDWARDS_D x_sq
  let dxy ← Field.mul c dx y_sq
  let right ← Field.add c z4 dxy
  return Zerocaf.Field.ctEq left right

/-- `ProjectivePoint::new_from_y_coord`, `edwards.rs:962-979`. -/
def newFromY (c : Cfg) (y : FE) (sign : Bool) : CM (Option ProjPoint) := do
  let yy ← Field.square c y
  let num ← Field.sub c yy Zerocaf.Field.one
  let yy' ← Field.square c y
  let dyy ← Field.cmul c EDWARDS_D yy'
  let den ← Field.sub c dyy EDWARDS_A
  let xx ← Field.div c num den
  let o ← Field.modSqrt c xx sign
  return o.map fun x => ⟨x, y, Zerocaf.Field.one⟩

end Proj

namespace Ed

/-- `ConstantTimeEq::ct_eq`, `edwards.rs:359-363`. -/
def ctEq (c : Cfg) (p q : EdPoint) : CM Bool := do
  let p' ← Aff.ofEd c p
  let q' ← Aff.ofEd c q
  return Zerocaf.Aff.ctEq p' q'

/-- `is_valid`, `edwards.rs:393-400`. -/
def isValid (c : Cfg) (p : EdPoint) : CM Bool := Proj.isValid c (Zerocaf.Proj.ofEd p)

/-- `EdwardsPoint::new_from_y_coord`, `edwards.rs:648-653`. -/
def newFromY (c : Cfg) (y : FE) (sign : Bool) : CM (Option EdPoint) := do
  let o ← Proj.newFromY c y sign
  match o with
  | none => return none
  | some p => do
    let e ← ofProj c p
    return some e

/-- `CompressedEdwardsY::decompress`, `edwards.rs:313-327`. -/
def decompress (c : Cfg) (b : Bytes32) : CM (Option EdPoint) :=
  newFromY c (Zerocaf.Field.fromBytes (b.set 31 (b[31] &&& 0b00001111))) ((b[31] >>> 7) == 1)

/-- `EdwardsPoint::compress`, `edwards.rs:613-629`. -/
def compress (c : Cfg) (p : EdPoint) : CM Bytes32 := do
  let point ← Aff.ofEd c p
  let xx ← findXX c point.Y
  let o ← Field.modSqrt c xx false
  let res ← free (unwrap o)
  let sign : Bool := if !Zerocaf.Field.ctEq res point.X then true else false
  let compr := Zerocaf.Field.toBytes point.Y
  return compr.set 31 (compr[31] ||| ((if sign then 1 else 0 : UInt8) <<< 7))

end Ed

namespace Ristretto

open Zerocaf.Ristretto (SQRT_AD_MINUS_ONE INV_SQRT_A_MINUS_D tableAt)

/-- `ConstantTimeEq::ct_eq`, `ristretto.rs:166-176`. -/
def ctEq (c : Cfg) (p q : EdPoint) : CM Bool := do
  let xy ← Field.mul c p.X q.Y
  let yx ← Field.mul c p.Y q.X
  let xx ← Field.mul c p.X q.X
  let yy ← Field.mul c p.Y q.Y
  return Zerocaf.Field.ctEq xy yx || Zerocaf.Field.ctEq xx yy

/-- `is_valid`, `ristretto.rs:205-222`. -/
def isValid (c : Cfg) (p : EdPoint) : CM Bool := do
  let lp ← doubleAndAdd Ed.ops c p Scalar.L
  let hasOrderL ← Ed.ctEq c lp Zerocaf.Ed.identity
  let v ← Ed.isValid c p
  return hasOrderL && v

/-- `Sub`, `ristretto.rs:278-295`. -/
def sub (c : Cfg) (p q : EdPoint) : CM EdPoint := do
  let nq ← Ed.neg c q
  Ed.add c p nq

/-- `CompressedRistretto::decompress`, `ristretto.rs:96-154`. -/
def decompress (c : Cfg) (b : Bytes32) : CM (Option EdPoint) :=
  let s := Zerocaf.Field.fromBytes b
  if Zerocaf.Field.isPositive s == false || (Zerocaf.Field.toBytes s == b) == false then pure none else do
  let one := Zerocaf.Field.one
  let ss ← Field.square c s
  let u1 ← Field.sub c one ss
  let ss' ← Field.square c s
  let u2 ← Field.add c one ss'
  let u2_sq ← Field.square c u2
  let u1_sq ← Field.square c u1
  let du1 ← Field.cmul c EDWARDS_D u1_sq
  let ndu1 ← Field.neg c du1
  let v ← Field.sub c ndu1 u2_sq
  let vu ← Field.mul c v u2_sq
  let okI ← Field.invSqrt c vu
  if okI.1 == false then return none else
  let Dx ← Field.mul c okI.2 u2
  let IDx ← Field.mul c okI.2 Dx
  let Dy ← Field.mul c IDx v
  let s2 ← Field.add c s s
  let x ← Field.mul c s2 Dx
  let x ← Field.condNegate c x (!Zerocaf.Field.isPositive x)
  let y ← Field.mul c u1 Dy
  let t ← Field.mul c x y
  if Zerocaf.Field.isPositive t == false || Zerocaf.Field.ctEq y Zerocaf.Field.zero then return none else
  return some ⟨x, y, one, t⟩

/-- `RistrettoPoint::compress`, `ristretto.rs:398-425`. -/
def compress (c : Cfg) (p : EdPoint) : CM Bytes32 := do
  let zy ← Field.add c p.Z p.Y
  let zmy ← Field.sub c p.Z p.Y
  let u1 ← Field.mul c zy zmy
  let u2 ← Field.mul c p.X p.Y
  let u2_sq ← Field.square c u2
  let u1u2 ← Field.mul c u1 u2_sq
  let okI ← Field.invSqrt c u1u2
  let D1 ← Field.mul c u1 okI.2
  let D2 ← Field.mul c u2 okI.2
  let D12 ← Field.mul c D1 D2
  let Zinv ← Field.mul c D12 p.T
  let tz ← Field.mul c p.T Zinv
  let xyD ← (
    if Zerocaf.Field.isPositive tz == false then do
      let x ← Field.cmul c Zerocaf.Field.SQRT_MINUS_ONE p.Y
      let y ← Field.cmul c Zerocaf.Field.SQRT_MINUS_ONE p.X
      let D ← Field.cmul c D1 INV_SQRT_A_MINUS_D
      pure (x, y, D)
    else pure (p.X, p.Y, D2) : CM (FE × FE × FE))
  let xz ← Field.mul c xyD.1 Zinv
  let y ← Field.condNegate c xyD.2.1 (!Zerocaf.Field.isPositive xz)
  let zy' ← Field.sub c p.Z y
  let s ← Field.mul c zy' xyD.2.2
  let s ← Field.condNegate c s (!Zerocaf.Field.isPositive s)
  return Zerocaf.Field.toBytes s

/-- `elligator_ristretto_flavor`, `ristretto.rs:430-471`. -/
def elligator (c : Cfg) (r0 : FE) : CM EdPoint := do
  let d := EDWARDS_D
  let one := Zerocaf.Field.one
  let cc ← Field.neg c one
  let dsq ← Field.square c d
  let one_minus_d_sq ← Field.sub c one dsq
  let r0sq ← Field.square c r0
  let r ← Field.cmul c Zerocaf.Field.SQRT_MINUS_ONE r0sq
  let r1 ← Field.add c r one
  let N_s ← Field.mul c r1 one_minus_d_sq
  let dr ← Field.cmul c d r
  let cdr ← Field.sub c cc dr
  let rd ← Field.add c r d
  let D ← Field.mul c cdr rd
  let sqs ← Field.sqrtRatioI c N_s D
  let s_prim ← Field.mul c sqs.2 r0
  let s_prim ← Field.condNegate c s_prim (Zerocaf.Field.isPositive s_prim)
  let s := Zerocaf.Field.condSelect sqs.2 s_prim (!sqs.1)
  let cc := Zerocaf.Field.condSelect cc r (!sqs.1)
  let rm1 ← Field.sub c r one
  let crm1 ← Field.mul c cc rm1
  let dm1 ← Field.sub c d one
  let dm1sq ← Field.square c dm1
  let nt ← Field.mul c crm1 dm1sq
  let N_t ← Field.sub c nt D
  let s_square ← Field.square c s
  let ss ← Field.add c s s
  let W0 ← Field.mul c ss D
  let W1 ← Field.cmul c N_t SQRT_AD_MINUS_ONE
  let W2 ← Field.sub c one s_square
  let W3 ← Field.add c one s_square
  let X ← Field.mul c W0 W3
  let Y ← Field.mul c W2 W1
  let Z ← Field.mul c W1 W3
  let T ← Field.mul c W0 W2
  return ⟨X, Y, Z, T⟩

/-- `from_uniform_bytes`, `ristretto.rs:493-507`. -/
def fromUniformBytes (c : Cfg) (b : Bytes64) : CM EdPoint := do
  let lo : Bytes32 := Vector.ofFn fun i : Fin 32 => b[i.val]'(by omega)
  let R1 ← elligator c (Zerocaf.Field.fromBytes lo)
  let hi : Bytes32 := Vector.ofFn fun i : Fin 32 => b[32 + i.val]'(by omega)
  let R2 ← elligator c (Zerocaf.Field.fromBytes hi)
  Ed.add c R1 R2

/-- The loop of `window_naf_mul`, `edwards.rs:160-169`. -/
def wnafMulLoop (c : Cfg) (wnaf : Vector Int 256) : (n : Nat) → n ≤ 256 → EdPoint → CM EdPoint
  | 0, _, Q => pure Q
  | i + 1, h, Q => do
    let Q ← Ed.double c Q
    let Q ←
      if wnaf[i] = 0 then pure Q
      else if wnaf[i] > 0 then do
        let t ← free (tableAt wnaf[i].toNat)
        Ed.add c Q t
      else do
        let a ← free (chkI8 c (-wnaf[i]))
        let t ← free (tableAt (a % 2 ^ 64).toNat)
        sub c Q t
    wnafMulLoop c wnaf i (by omega) Q

/-- `window_naf_mul`, `edwards.rs:155-171`. -/
def windowNafMul (c : Cfg) (scalar : Sc) (width : Nat) : CM EdPoint := do
  let wnaf ← free (Scalar.computeWindowNAF c scalar width)
  wnafMulLoop c wnaf 250 (by omega) Zerocaf.Ristretto.identity

end Ristretto

end Count
end Zerocaf
