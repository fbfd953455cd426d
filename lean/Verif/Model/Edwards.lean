import Verif.Model.Field
import Verif.Model.Scalar

/-!
# Model of `src/edwards.rs`

Line numbers without a path refer to `src/edwards.rs`. Constants are from
`src/backend/u64/constants.rs`.
-/

namespace Zerocaf

/-! ### Constants -/

/-- `EDWARDS_A`, `constants.rs:75-81`. -/
def EDWARDS_A : FE := ⟨671914833335276, 3916664325105025, 1367801, 0, 17592186044416⟩

/-- `EDWARDS_D`, `constants.rs:86-92`. -/
def EDWARDS_D : FE :=
  ⟨3304133203739795, 2446467598308289, 1534112949566882, 2032729967918914, 2313225441931⟩

/-! ### Point types -/

/-- `EdwardsPoint`, `edwards.rs:337-342`: extended twisted Edwards coordinates. -/
@[ext] structure EdPoint where
  X : FE
  Y : FE
  Z : FE
  T : FE
deriving DecidableEq, Repr

/-- `ProjectivePoint`, `edwards.rs:680-684`. -/
@[ext] structure ProjPoint where
  X : FE
  Y : FE
  Z : FE
deriving DecidableEq, Repr

/-- `AffinePoint`, `edwards.rs:1008-1011`. -/
@[ext] structure AffPoint where
  X : FE
  Y : FE
deriving DecidableEq, Repr

/-- The operations the generic multiplication functions require of a point type
(trait bounds at `edwards.rs:103-105`, `:124-125`, `:138-139`). -/
structure PointOps (T : Type) where
  identity : T
  add : Cfg → T → T → Res T
  sub : Cfg → T → T → Res T
  double : Cfg → T → Res T

/-! ### Generic scalar multiplication -/

/-- The `while` loop of `double_and_add`, `edwards.rs:111-118`. -/
def doubleAndAddLoop {T : Type} (O : PointOps T) (c : Cfg) : Nat → T → Sc → T → Res T
  | 0, _, _, _ => .diverge
  | fuel + 1, N, n, Q =>
    if !Scalar.ctEq n Scalar.zero then do
      let Q' ← if !Scalar.isEven n then O.add c Q N else .ok Q
      let N' ← O.double c N
      doubleAndAddLoop O c fuel N' (Scalar.halfWithoutMod n) Q'
    else .ok Q

/-- `double_and_add`, `edwards.rs:102-120`. -/
def doubleAndAdd {T : Type} (O : PointOps T) (c : Cfg) (point : T) (scalar : Sc) : Res T :=
  doubleAndAddLoop O c c.fuel point scalar O.identity

/-- The loop `for i in (0..249).rev()` of `ltr_bin_mul`, `edwards.rs:129-132`; `n` positions remain. -/
def ltrLoop {T : Type} (O : PointOps T) (c : Cfg) (point : T) (bits : Vector UInt8 256) :
    (n : Nat) → n ≤ 256 → T → Res T
  | 0, _, Q => .ok Q
  | i + 1, h, Q => do
    let Q ← O.double c Q
    let Q ← if bits[i] == 1 then O.add c Q point else .ok Q
    ltrLoop O c point bits i (by omega) Q

/-- `ltr_bin_mul`, `edwards.rs:122-134`. -/
def ltrBinMul {T : Type} (O : PointOps T) (c : Cfg) (point : T) (scalar : Sc) : Res T :=
  ltrLoop O c point (Scalar.intoBits scalar) 249 (by omega) O.identity

/-- The loop `for i in (0..250).rev()` of `binary_naf_mul`, `edwards.rs:144-151`. -/
def nafMulLoop {T : Type} (O : PointOps T) (c : Cfg) (point : T) (naf : Vector Int 256) :
    (n : Nat) → n ≤ 256 → T → Res T
  | 0, _, Q => .ok Q
  | i + 1, h, Q => do
    let Q ← O.double c Q
    let Q ← if naf[i] = 1 then O.add c Q point
            else if naf[i] = -1 then O.sub c Q point
            else .ok Q
    nafMulLoop O c point naf i (by omega) Q

/-- `binary_naf_mul`, `edwards.rs:136-153`. -/
def binaryNafMul {T : Type} (O : PointOps T) (c : Cfg) (point : T) (scalar : Sc) : Res T := do
  let naf ← Scalar.computeNAF c scalar
  nafMulLoop O c point naf 250 (by omega) O.identity

/-- `mul_by_cofactor`, `edwards.rs:174-179`; the `Mul<&Scalar>` of every point type is `double_and_add`. -/
def mulByCofactor {T : Type} (O : PointOps T) (c : Cfg) (point : T) : Res T :=
  doubleAndAdd O c point (Scalar.fromU32 8)

/-- `mul_by_pow_2`, `edwards.rs:186-191`. -/
def mulByPow2 {T : Type} (O : PointOps T) (c : Cfg) (point : T) (k : Nat) : Res T := do
  let s ← Scalar.twoPowK k
  doubleAndAdd O c point s

/-- `find_xx`, `edwards.rs:200-204`. -/
def findXX (c : Cfg) (y : FE) : Res FE := do
  let yy ← Field.square c y
  let a ← Field.sub c yy Field.one
  let yy' ← Field.square c y
  let dyy ← Field.mul c EDWARDS_D yy'
  let b ← Field.sub c dyy EDWARDS_A
  Field.div c a b

/-! ### Affine points -/

namespace Aff

/-- `Identity::identity`, `edwards.rs:1036-1041`. -/
def identity : AffPoint := ⟨Field.zero, Field.one⟩

/-- `ConstantTimeEq::ct_eq`, `edwards.rs:1044-1048`. -/
def ctEq (p q : AffPoint) : Bool := Field.ctEq p.X q.X && Field.ctEq p.Y q.Y

/-- `is_valid`, `edwards.rs:1058-1069`. -/
def isValid (c : Cfg) (p : AffPoint) : Res Bool := do
  let x_sq ← Field.square c p.X
  let y_sq ← Field.square c p.Y
  let ax ← Field.mul c Field.minusOne x_sq
  let left ← Field.add c ax y_sq
  let dx ← Field.mul c EDWARDS_D x_sq
  let dxy ← Field.mul c dx y_sq
  let right ← Field.add c Field.one dxy
  return Field.ctEq left right

/-- `Neg`, `edwards.rs:1112-1133`. -/
def neg (c : Cfg) (p : AffPoint) : Res AffPoint := do
  let x ← Field.neg c p.X
  return ⟨x, p.Y⟩

/-- `From<EdwardsPoint>`, `edwards.rs:1085-1098`. -/
def ofEd (c : Cfg) (p : EdPoint) : Res AffPoint := do
  let zinv ← Field.inverse c p.Z
  let x ← Field.mul c p.X zinv
  let y ← Field.mul c p.Y zinv
  return ⟨x, y⟩

/-- `From<ProjectivePoint>`, `edwards.rs:1100-1110`. -/
def ofProj (c : Cfg) (p : ProjPoint) : Res AffPoint := do
  let zinv ← Field.inverse c p.Z
  let x ← Field.mul c p.X zinv
  let y ← Field.mul c p.Y zinv
  return ⟨x, y⟩

end Aff

/-! ### Projective points -/

namespace Proj

/-- `Identity::identity`, `edwards.rs:722-731`. -/
def identity : ProjPoint := ⟨Field.zero, Field.one, Field.one⟩

/-- `ConstantTimeEq::ct_eq`, `edwards.rs:700-704`. -/
def ctEq (c : Cfg) (p q : ProjPoint) : Res Bool := do
  let p' ← Aff.ofProj c p
  let q' ← Aff.ofProj c q
  return Aff.ctEq p' q'

/-- `is_valid`, `edwards.rs:733-748`. -/
def isValid (c : Cfg) (p : ProjPoint) : Res Bool := do
  let x_sq ← Field.square c p.X
  let y_sq ← Field.square c p.Y
  let z_sq ← Field.square c p.Z
  let ax ← Field.mul c EDWARDS_A x_sq
  let axy ← Field.add c ax y_sq
  let left ← Field.mul c axy z_sq
  let z4 ← Field.square c z_sq
  let dx ← Field.mul c EDWARDS_D x_sq
  let dxy ← Field.mul c dx y_sq
  let right ← Field.add c z4 dxy
  return Field.ctEq left right

/-- `From<EdwardsPoint>`, `edwards.rs:750-765`. -/
def ofEd (p : EdPoint) : ProjPoint := ⟨p.X, p.Y, p.Z⟩

/-- `From<AffinePoint>`, `edwards.rs:767-785`. -/
def ofAff (p : AffPoint) : ProjPoint := ⟨p.X, p.Y, Field.one⟩

/-- `Neg`, `edwards.rs:787-807`. -/
def neg (c : Cfg) (p : ProjPoint) : Res ProjPoint := do
  let x ← Field.neg c p.X
  return ⟨x, p.Y, p.Z⟩

/-- `Add`, `edwards.rs:809-835`. -/
def add (c : Cfg) (p q : ProjPoint) : Res ProjPoint := do
  let A ← Field.mul c p.Z q.Z
  let B ← Field.square c A
  let C ← Field.mul c p.X q.X
  let D ← Field.mul c p.Y q.Y
  let dC ← Field.mul c EDWARDS_D C
  let E ← Field.mul c dC D
  let F ← Field.sub c B E
  let G ← Field.add c B E
  let s1 ← Field.add c p.X p.Y
  let s2 ← Field.add c q.X q.Y
  let s12 ← Field.mul c s1 s2
  let h1 ← Field.sub c s12 C
  let h2 ← Field.sub c h1 D
  let Fh ← Field.mul c F h2
  let X ← Field.mul c A Fh
  let AG ← Field.mul c A G
  let DC ← Field.add c D C
  let Y ← Field.mul c AG DC
  let Z ← Field.mul c F G
  return ⟨X, Y, Z⟩

/-- `Sub`, `edwards.rs:851-865`. -/
def sub (c : Cfg) (p q : ProjPoint) : Res ProjPoint := do
  let nq ← neg c q
  add c p nq

/-- `Double`, `edwards.rs:915-942`. -/
def double (c : Cfg) (p : ProjPoint) : Res ProjPoint := do
  let xy ← Field.add c p.X p.Y
  let B ← Field.square c xy
  let C ← Field.square c p.X
  let D ← Field.square c p.Y
  let E ← Field.mul c EDWARDS_A C
  let F ← Field.add c E D
  let H ← Field.square c p.Z
  let H2 ← Field.mul c (Field.fromU32 2) H
  let J ← Field.sub c F H2
  let BC ← Field.sub c B C
  let BCD ← Field.sub c BC D
  let X ← Field.mul c BCD J
  let ED ← Field.sub c E D
  let Y ← Field.mul c F ED
  let Z ← Field.mul c F J
  return ⟨X, Y, Z⟩

/-- The operations of `ProjectivePoint` used by generic multiplication. -/
def ops : PointOps ProjPoint := ⟨identity, add, sub, double⟩

/-- `Mul<&Scalar>`, `edwards.rs:881-895`. -/
def mul (c : Cfg) (p : ProjPoint) (n : Sc) : Res ProjPoint := doubleAndAdd ops c p n

/-- `ProjectivePoint::new_from_y_coord`, `edwards.rs:962-979`. -/
def newFromY (c : Cfg) (y : FE) (sign : Bool) : Res (Option ProjPoint) := do
  let yy ← Field.square c y
  let num ← Field.sub c yy Field.one
  let yy' ← Field.square c y
  let dyy ← Field.mul c EDWARDS_D yy'
  let den ← Field.sub c dyy EDWARDS_A
  let xx ← Field.div c num den
  let o ← Field.modSqrt c xx sign
  match o with
  | none => return none
  | some x => return some ⟨x, y, Field.one⟩

/-- `ProjectivePoint::new_random_point`, `edwards.rs:984-997`. The generator is the sequence of blocks it
writes. `rand.gen_range(0u8, 1u8)` of rand 0.7 samples the half-open range and is always 0. -/
def newRandomLoop (c : Cfg) (rng : Nat → Bytes32) : Nat → Nat → Res ProjPoint
  | 0, _ => .diverge
  | fuel + 1, i => do
    let y := Field.random (rng i)
    let o ← newFromY c y false
    match o with
    | none => newRandomLoop c rng fuel (i + 1)
    | some p => return p

/-- `ProjectivePoint::new_random_point`, `edwards.rs:984-997`. -/
def newRandom (c : Cfg) (rng : Nat → Bytes32) : Res ProjPoint := newRandomLoop c rng c.fuel 0

end Proj

/-! ### Extended points -/

namespace Ed

/-- `Identity::identity`, `edwards.rs:381-391`. -/
def identity : EdPoint := ⟨Field.zero, Field.one, Field.one, Field.zero⟩

/-- `ConstantTimeEq::ct_eq`, `edwards.rs:359-363`. -/
def ctEq (c : Cfg) (p q : EdPoint) : Res Bool := do
  let p' ← Aff.ofEd c p
  let q' ← Aff.ofEd c q
  return Aff.ctEq p' q'

/-- `is_valid`, `edwards.rs:393-400`. -/
def isValid (c : Cfg) (p : EdPoint) : Res Bool := Proj.isValid c (Proj.ofEd p)

/-- `From<ProjectivePoint>`, `edwards.rs:402-417`. -/
def ofProj (c : Cfg) (p : ProjPoint) : Res EdPoint := do
  let X ← Field.mul c p.X p.Z
  let Y ← Field.mul c p.Y p.Z
  let Z ← Field.square c p.Z
  let T ← Field.mul c p.X p.Y
  return ⟨X, Y, Z, T⟩

/-- `From<AffinePoint>`, `edwards.rs:419-438`. -/
def ofAff (c : Cfg) (p : AffPoint) : Res EdPoint := do
  let T ← Field.mul c p.X p.Y
  return ⟨p.X, p.Y, Field.one, T⟩

/-- `Neg`, `edwards.rs:440-463`. -/
def neg (c : Cfg) (p : EdPoint) : Res EdPoint := do
  let x ← Field.neg c p.X
  let t ← Field.neg c p.T
  return ⟨x, p.Y, p.Z, t⟩

/-- `Add`, `edwards.rs:465-489`. -/
def add (c : Cfg) (p q : EdPoint) : Res EdPoint := do
  let A ← Field.mul c p.X q.X
  let B ← Field.mul c p.Y q.Y
  let dT ← Field.mul c EDWARDS_D p.T
  let C ← Field.mul c dT q.T
  let D ← Field.mul c p.Z q.Z
  let s1 ← Field.add c p.X p.Y
  let s2 ← Field.add c q.X q.Y
  let s12 ← Field.mul c s1 s2
  let e1 ← Field.sub c s12 A
  let E ← Field.sub c e1 B
  let F ← Field.sub c D C
  let G ← Field.add c D C
  let H ← Field.add c B A
  let X ← Field.mul c E F
  let Y ← Field.mul c G H
  let Z ← Field.mul c F G
  let T ← Field.mul c E H
  return ⟨X, Y, Z, T⟩

/-- `Sub`, `edwards.rs:503-531`. -/
def sub (c : Cfg) (p q : EdPoint) : Res EdPoint := do
  let nq ← neg c q
  let A ← Field.mul c p.X nq.X
  let B ← Field.mul c p.Y nq.Y
  let dT ← Field.mul c EDWARDS_D p.T
  let C ← Field.mul c dT nq.T
  let D ← Field.mul c p.Z nq.Z
  let s1 ← Field.add c p.X p.Y
  let s2 ← Field.add c nq.X nq.Y
  let s12 ← Field.mul c s1 s2
  let e1 ← Field.sub c s12 A
  let E ← Field.sub c e1 B
  let F ← Field.sub c D C
  let G ← Field.add c D C
  let aA ← Field.mul c EDWARDS_A A
  let H ← Field.sub c B aA
  let X ← Field.mul c E F
  let Y ← Field.mul c G H
  let Z ← Field.mul c F G
  let T ← Field.mul c E H
  return ⟨X, Y, Z, T⟩

/-- `Double`, `edwards.rs:579-592`. -/
def double (c : Cfg) (p : EdPoint) : Res EdPoint := add c p p

/-- The operations of `EdwardsPoint` used by generic multiplication. -/
def ops : PointOps EdPoint := ⟨identity, add, sub, double⟩

/-- `Mul<&Scalar>`, `edwards.rs:547-561`. -/
def mul (c : Cfg) (p : EdPoint) (n : Sc) : Res EdPoint := doubleAndAdd ops c p n

/-- `EdwardsPoint::to_montgomery`, `edwards.rs:597-599`: `unimplemented!()`. -/
def toMontgomery (_p : EdPoint) : Res Bytes32 := .panic

/-- `FOUR_COSET_GROUP[0]`, `constants.rs:141-146`. -/
def COSET0 : EdPoint := ⟨⟨1, 0, 0, 0, 0⟩, ⟨0, 0, 0, 0, 0⟩, ⟨1, 0, 0, 0, 0⟩, ⟨0, 0, 0, 0, 0⟩⟩

/-- `FOUR_COSET_GROUP[1]`, `constants.rs:147-158`. -/
def COSET1 : EdPoint :=
  ⟨⟨2099929430230996, 1464742363261928, 3309265759432790, 2285299817698826, 10215362715769⟩,
   ⟨0, 0, 0, 0, 0⟩, ⟨1, 0, 0, 0, 0⟩, ⟨0, 0, 0, 0, 0⟩⟩

/-- `FOUR_COSET_GROUP[2]`, `constants.rs:159-170`. -/
def COSET2 : EdPoint :=
  ⟨⟨0, 0, 0, 0, 0⟩,
   ⟨671914833335276, 3916664325105025, 1367801, 0, 17592186044416⟩,
   ⟨1, 0, 0, 0, 0⟩, ⟨0, 0, 0, 0, 0⟩⟩

/-- `FOUR_COSET_GROUP[3]`, `constants.rs:171-183` (never used by `coset4`). -/
def COSET3 : EdPoint :=
  ⟨⟨3075585030474777, 2451921961843096, 1194333869305507, 2218299809671669, 7376823328646⟩,
   ⟨0, 0, 0, 0, 0⟩, ⟨1, 0, 0, 0, 0⟩, ⟨0, 0, 0, 0, 0⟩⟩

/-- `EdwardsPoint::coset4`, `edwards.rs:603-610`. -/
def coset4 (c : Cfg) (p : EdPoint) : Res (EdPoint × EdPoint × EdPoint × EdPoint) := do
  let q1 ← add c p COSET0
  let q2 ← add c p COSET1
  let q3 ← add c p COSET2
  return (p, q1, q2, q3)

/-- `EdwardsPoint::new_from_y_coord`, `edwards.rs:648-653`. -/
def newFromY (c : Cfg) (y : FE) (sign : Bool) : Res (Option EdPoint) := do
  let o ← Proj.newFromY c y sign
  match o with
  | none => return none
  | some p => do
    let e ← ofProj c p
    return some e

/-- `EdwardsPoint::new_random_point`, `edwards.rs:658-663`. -/
def newRandom (c : Cfg) (rng : Nat → Bytes32) : Res EdPoint := do
  let p ← Proj.newRandom c rng
  ofProj c p

/-- `EdwardsPoint::compress`, `edwards.rs:613-629`. -/
def compress (c : Cfg) (p : EdPoint) : Res Bytes32 := do
  let point ← Aff.ofEd c p
  let xx ← findXX c point.Y
  let o ← Field.modSqrt c xx false
  let res ← unwrap o
  let sign : Bool := if !Field.ctEq res point.X then true else false
  let compr := Field.toBytes point.Y
  return compr.set 31 (compr[31] ||| ((if sign then 1 else 0 : UInt8) <<< 7))

/-- `CompressedEdwardsY::decompress`, `edwards.rs:313-327`. -/
def decompress (c : Cfg) (b : Bytes32) : Res (Option EdPoint) :=
  let sign : Bool := (b[31] >>> 7) == 1
  let y := b.set 31 (b[31] &&& 0b00001111)
  newFromY c (Field.fromBytes y) sign

/-- `Neg for CompressedEdwardsY`, `edwards.rs:253-271`. -/
def negCompressed (c : Cfg) (b : Bytes32) : Res Bytes32 := do
  let o ← decompress c b
  let p ← unwrap o
  let np ← neg c p
  compress c np

/-- `CompressedEdwardsY::identity`, `edwards.rs:277-282`. -/
def compressedIdentity : Bytes32 := (Vector.replicate 32 0).set 0 1

/-- `BASEPOINT`, `constants.rs:188-211`. -/
def BASEPOINT : EdPoint :=
  ⟨⟨276718085098056, 1646536057461434, 2704687245600312, 2630386667454967, 13476148227069⟩,
   ⟨1303868825475266, 3250718520537114, 2702159777242978, 2702159776422297, 10555311626649⟩,
   ⟨1, 0, 0, 0, 0⟩,
   ⟨3634527586288175, 2006028620404053, 3424252198034825, 2478951925947079, 4567251727358⟩⟩

/-- `BASEPOINT_COMPRESSED`, `src/constants.rs:13-16`. -/
def BASEPOINT_COMPRESSED : Bytes32 :=
  #v[194, 24, 45, 158, 220, 161, 164, 1, 231, 42, 46, 200, 184, 98, 31, 166, 153, 153, 153, 153,
     153, 153, 153, 153, 153, 153, 153, 153, 153, 153, 153, 9]

end Ed

/-! ### `src/montgomery.rs` -/

namespace Montgomery

/-- `ConstantTimeEq::ct_eq`, `src/montgomery.rs:19-26`. -/
def ctEq (a b : Bytes32) : Bool := Field.ctEq (Field.fromBytes a) (Field.fromBytes b)

/-- `to_edwards`, `src/montgomery.rs:55-57`: `unimplemented!()`. -/
def toEdwards (_a : Bytes32) (_sign : UInt8) : Res (Option EdPoint) := .panic

end Montgomery

end Zerocaf
