import Verif.Model.LeakRoots

/-!
# Leakage model of the remaining functions on points

Validity checks, conversions, cosets, the two special multiplications, the functions that find a point from its
`y`-coordinate and the functions on encodings of Edwards points, with the record of `Model/Leak.lean`. A `match` on an
`Option` is a branch on whether there is a value.
-/

namespace Zerocaf
namespace Leak

namespace Scalar

/-- `two_pow_k`, `scalar.rs:525-552`: an assertion and one of five arms, recorded as four branches. The value is that
of the model. -/
def twoPowK (e : Nat) : LM Sc := do
  rassert (e < 250)
  let _ ← br .twoPow (decide (e ≤ 51))
  let _ ← br .twoPow (decide (e ≤ 103))
  let _ ← br .twoPow (decide (e ≤ 155))
  let _ ← br .twoPow (decide (e ≤ 207))
  return (
    if e ≤ 51 then ⟨shl64 1 e, 0, 0, 0, 0⟩
    else if e ≤ 103 then ⟨0, shl64 1 (e - 52), 0, 0, 0⟩
    else if e ≤ 155 then ⟨0, 0, shl64 1 (e - 104), 0, 0⟩
    else if e ≤ 207 then ⟨0, 0, 0, shl64 1 (e - 156), 0⟩
    else ⟨0, 0, 0, 0, shl64 1 (e - 208)⟩)

end Scalar

/-- `mul_by_cofactor`, `edwards.rs:174-179`. -/
def mulByCofactor {T : Type} (O : PointOps T) (c : Cfg) (point : T) : LM T :=
  doubleAndAdd O c point (Zerocaf.Scalar.fromU32 8)

/-- `mul_by_pow_2`, `edwards.rs:186-191`. -/
def mulByPow2 {T : Type} (O : PointOps T) (c : Cfg) (point : T) (k : Nat) : LM T := do
  let s ← Scalar.twoPowK k
  doubleAndAdd O c point s

namespace Aff

/-- `is_valid`, `edwards.rs:1058-1069`. -/
def isValid (c : Cfg) (p : AffPoint) : LM Bool := do
  let x_sq ← Field.square c p.X
  let y_sq ← Field.square c p.Y
  let ax ← Field.mul c Zerocaf.Field.minusOne x_sq
  let left ← Field.add c ax y_sq
  let dx ← Field.mul c EDWARDS_D x_sq
  let dxy ← Field.mul c dx y_sq
  let right ← Field.add c Zerocaf.Field.one dxy
  Field.ctEq left right

end Aff

namespace Proj

/-- `ConstantTimeEq::ct_eq`, `edwards.rs:700-704`. -/
def ctEq (c : Cfg) (p q : ProjPoint) : LM Bool := do
  let p' ← Aff.ofProj c p
  let q' ← Aff.ofProj c q
  Aff.ctEq p' q'

/-- `is_valid`, `edwards.rs:733-748`. -/
def isValid (c : Cfg) (p : ProjPoint) : LM Bool := do
  let x_sq ← Field.square c p.X
  let y_sq ← Field.square c p.Y
  let z_sq ← Field.square c p.Z
  let ax ← Field.mul c EDWARDS_A x_sq
  let axy ← Field.add c ax y_sq
  let left ← Field.mul c axy z_sq
  let z4 ← Field.square c z_sq
  let dx ← Field.mul c EDWARDS_D x_sq
  let dxy ← Field.mul c dx y_sq
  let right ← Field.add c z4 dxy
  Field.ctEq left right

/-- `ProjectivePoint::new_from_y_coord`, `edwards.rs:962-979`. -/
def newFromY (c : Cfg) (y : FE) (sign : Bool) : LM (Option ProjPoint) := do
  let yy ← Field.square c y
  let num ← Field.sub c yy Zerocaf.Field.one
  let yy' ← Field.square c y
  let dyy ← Field.mul c EDWARDS_D yy'
  let den ← Field.sub c dyy EDWARDS_A
  let xx ← Field.div c num den
  let o ← Field.modSqrt c xx sign
  let _ ← br .newRoot o.isSome
  return o.map fun x => ⟨x, y, Zerocaf.Field.one⟩

/-- `ProjectivePoint::new_random_point`, `edwards.rs:984-997`, as in the model. -/
def newRandomLoop (c : Cfg) (rng : Nat → Bytes32) : Nat → Nat → LM ProjPoint
  | 0, _ => ⟨[], .diverge⟩
  | fuel + 1, i => do
    let y := Zerocaf.Field.random (rng i)
    let o ← newFromY c y false
    let _ ← br .newDraw o.isSome
    match o with
    | none => newRandomLoop c rng fuel (i + 1)
    | some p => return p

/-- `ProjectivePoint::new_random_point`, `edwards.rs:984-997`. -/
def newRandom (c : Cfg) (rng : Nat → Bytes32) : LM ProjPoint := newRandomLoop c rng c.fuel 0

end Proj

namespace Ed

/-- `is_valid`, `edwards.rs:393-400`. -/
def isValid (c : Cfg) (p : EdPoint) : LM Bool := Proj.isValid c (Zerocaf.Proj.ofEd p)

/-- `From<ProjectivePoint>`, `edwards.rs:402-417`. -/
def ofProj (c : Cfg) (p : ProjPoint) : LM EdPoint := do
  let X ← Field.mul c p.X p.Z
  let Y ← Field.mul c p.Y p.Z
  let Z ← Field.square c p.Z
  let T ← Field.mul c p.X p.Y
  return ⟨X, Y, Z, T⟩

/-- `From<AffinePoint>`, `edwards.rs:419-438`. -/
def ofAff (c : Cfg) (p : AffPoint) : LM EdPoint := do
  let T ← Field.mul c p.X p.Y
  return ⟨p.X, p.Y, Zerocaf.Field.one, T⟩

/-- `EdwardsPoint::coset4`, `edwards.rs:603-610`. -/
def coset4 (c : Cfg) (p : EdPoint) : LM (EdPoint × EdPoint × EdPoint × EdPoint) := do
  let q1 ← add c p Zerocaf.Ed.COSET0
  let q2 ← add c p Zerocaf.Ed.COSET1
  let q3 ← add c p Zerocaf.Ed.COSET2
  return (p, q1, q2, q3)

/-- `EdwardsPoint::new_from_y_coord`, `edwards.rs:648-653`. -/
def newFromY (c : Cfg) (y : FE) (sign : Bool) : LM (Option EdPoint) := do
  let o ← Proj.newFromY c y sign
  let _ ← br .newEd o.isSome
  match o with
  | none => return none
  | some p => do
    let e ← ofProj c p
    return some e

/-- `EdwardsPoint::new_random_point`, `edwards.rs:658-663`. -/
def newRandom (c : Cfg) (rng : Nat → Bytes32) : LM EdPoint := do
  let p ← Proj.newRandom c rng
  ofProj c p

/-- `CompressedEdwardsY::decompress`, `edwards.rs:313-327`. -/
def decompress (c : Cfg) (b : Bytes32) : LM (Option EdPoint) :=
  let sign : Bool := (b[31] >>> 7) == 1
  let y := b.set 31 (b[31] &&& 0b00001111)
  newFromY c (Zerocaf.Field.fromBytes y) sign

/-- `Neg for CompressedEdwardsY`, `edwards.rs:253-271`. -/
def negCompressed (c : Cfg) (b : Bytes32) : LM Bytes32 := do
  let o ← decompress c b
  let p ← unwrap o
  let np ← neg c p
  compress c np

end Ed

namespace Ristretto

/-- `is_valid`, `ristretto.rs:205-222`. -/
def isValid (c : Cfg) (p : EdPoint) : LM Bool := do
  let lp ← doubleAndAdd Ed.ops c p Zerocaf.Scalar.L
  let hasOrderL ← Ed.ctEq c lp Zerocaf.Ed.identity
  let v ← Ed.isValid c p
  pure (hasOrderL && v)

end Ristretto

end Leak
end Zerocaf
