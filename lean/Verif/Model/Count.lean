import Verif.Model.Edwards

/-!
# Counting field operations

The point functions once more, with a count of the field operations they perform. The text is that of the model with
`CM` in place of `Res`; `Props/Count.lean` proves that forgetting the count gives back the model. Multiplications by
the constants `d`, `a` and 2 are counted apart from the others, although the code performs them with the same function.
Negations count as additions. Operations on scalars are not counted.
-/

namespace Zerocaf
namespace Count

/-- Numbers of field operations: multiplications, multiplications by constants, squarings, additions (with
subtractions and negations), inversions. -/
structure Ops where
  m : Nat
  d : Nat
  s : Nat
  a : Nat
  i : Nat
deriving DecidableEq, Repr

instance : Add Ops where
  add x y := ⟨x.m + y.m, x.d + y.d, x.s + y.s, x.a + y.a, x.i + y.i⟩

instance : Zero Ops where
  zero := ⟨0, 0, 0, 0, 0⟩

/-- A computation with the number of its field operations. -/
structure CM (α : Type) where
  n : Ops
  val : Res α

/-- Sequencing: what follows a panic is not counted. -/
protected def CM.bind {α β : Type} (x : CM α) (f : α → CM β) : CM β :=
  match x.val with
  | .ok a => ⟨x.n + (f a).n, (f a).val⟩
  | .panic => ⟨x.n, .panic⟩
  | .diverge => ⟨x.n, .diverge⟩

instance : Monad CM where
  pure a := ⟨0, .ok a⟩
  bind := CM.bind

/-- A computation without field operations. -/
def free {α : Type} (r : Res α) : CM α := ⟨0, r⟩

namespace Field

/-- `Mul`, one multiplication. -/
def mul (c : Cfg) (a b : FE) : CM FE := ⟨⟨1, 0, 0, 0, 0⟩, Zerocaf.Field.mul c a b⟩

/-- `Mul` with a constant as first factor. -/
def cmul (c : Cfg) (k b : FE) : CM FE := ⟨⟨0, 1, 0, 0, 0⟩, Zerocaf.Field.mul c k b⟩

/-- `Square`. -/
def square (c : Cfg) (a : FE) : CM FE := ⟨⟨0, 0, 1, 0, 0⟩, Zerocaf.Field.square c a⟩

/-- `Add`. -/
def add (c : Cfg) (a b : FE) : CM FE := ⟨⟨0, 0, 0, 1, 0⟩, Zerocaf.Field.add c a b⟩

/-- `Sub`. -/
def sub (c : Cfg) (a b : FE) : CM FE := ⟨⟨0, 0, 0, 1, 0⟩, Zerocaf.Field.sub c a b⟩

/-- `Neg`. -/
def neg (c : Cfg) (a : FE) : CM FE := ⟨⟨0, 0, 0, 1, 0⟩, Zerocaf.Field.neg c a⟩

/-- `inverse`. -/
def inverse (c : Cfg) (a : FE) : CM FE := ⟨⟨0, 0, 0, 0, 1⟩, Zerocaf.Field.inverse c a⟩

end Field

namespace Proj

/-- `Neg`, `edwards.rs:787-807`. -/
def neg (c : Cfg) (p : ProjPoint) : CM ProjPoint := do
  let x ← Field.neg c p.X
  return ⟨x, p.Y, p.Z⟩

/-- `Add`, `edwards.rs:809-835`. -/
def add (c : Cfg) (p q : ProjPoint) : CM ProjPoint := do
  let A ← Field.mul c p.Z q.Z
  let B ← Field.square c A
  let C ← Field.mul c p.X q.X
  let D ← Field.mul c p.Y q.Y
  let dC ← Field.cmul c EDWARDS_D C
  let E ← Field.mul c dC D
  let F ← Field.sub c B E
  let G ← Field.add c B E
  let s1 ← Field.add c p.X p.Y
  let s2 ← Field.add c q.X q.Y
  let s12 ← Field.mul c s1 s2
  let h1 ← Field.sub c s12 C
  let h2 ← Field.sub c h1 D
  let Fh ← Field.mul c F h2
  let X ← Field.mul c A Fh
  let AG ← Field.mul c A G
  let DC ← Field.add c D C
  let Y ← Field.mul c AG DC
  let Z ← Field.mul c F G
  return ⟨X, Y, Z⟩

/-- `Sub`, `edwards.rs:851-865`. -/
def sub (c : Cfg) (p q : ProjPoint) : CM ProjPoint := do
  let nq ← neg c q
  add c p nq

/-- `Double`, `edwards.rs:915-942`. -/
def double (c : Cfg) (p : ProjPoint) : CM ProjPoint := do
  let xy ← Field.add c p.X p.Y
  let B ← Field.square c xy
  let C ← Field.square c p.X
  let D ← Field.square c p.Y
  let E ← Field.cmul c EDWARDS_A C
  let F ← Field.add c E D
  let H ← Field.square c p.Z
  let H2 ← Field.cmul c (Zerocaf.Field.fromU32 2) H
  let J ← Field.sub c F H2
  let BC ← Field.sub c B C
  let BCD ← Field.sub c BC D
  let X ← Field.mul c BCD J
  let ED ← Field.sub c E D
  let Y ← Field.mul c F ED
  let Z ← Field.mul c F J
  return ⟨X, Y, Z⟩

end Proj

namespace Aff

/-- `Neg`, `edwards.rs:1112-1133`. -/
def neg (c : Cfg) (p : AffPoint) : CM AffPoint := do
  let x ← Field.neg c p.X
  return ⟨x, p.Y⟩

/-- `From<EdwardsPoint>`, `edwards.rs:1085-1098`. -/
def ofEd (c : Cfg) (p : EdPoint) : CM AffPoint := do
  let zinv ← Field.inverse c p.Z
  let x ← Field.mul c p.X zinv
  let y ← Field.mul c p.Y zinv
  return ⟨x, y⟩

/-- `From<ProjectivePoint>`, `edwards.rs:1100-1110`. -/
def ofProj (c : Cfg) (p : ProjPoint) : CM AffPoint := do
  let zinv ← Field.inverse c p.Z
  let x ← Field.mul c p.X zinv
  let y ← Field.mul c p.Y zinv
  return ⟨x, y⟩

end Aff

namespace Ed

/-- `Neg`, `edwards.rs:440-463`. -/
def neg (c : Cfg) (p : EdPoint) : CM EdPoint := do
  let x ← Field.neg c p.X
  let t ← Field.neg c p.T
  return ⟨x, p.Y, p.Z, t⟩

/-- `Add`, `edwards.rs:465-489`. -/
def add (c : Cfg) (p q : EdPoint) : CM EdPoint := do
  let A ← Field.mul c p.X q.X
  let B ← Field.mul c p.Y q.Y
  let dT ← Field.cmul c EDWARDS_D p.T
  let C ← Field.mul c dT q.T
  let D ← Field.mul c p.Z q.Z
  let s1 ← Field.add c p.X p.Y
  let s2 ← Field.add c q.X q.Y
  let s12 ← Field.mul c s1 s2
  let e1 ← Field.sub c s12 A
  let E ← Field.sub c e1 B
  let F ← Field.sub c D C
  let G ← Field.add c D C
  let H ← Field.add c B A
  let X ← Field.mul c E F
  let Y ← Field.mul c G H
  let Z ← Field.mul c F G
  let T ← Field.mul c E H
  return ⟨X, Y, Z, T⟩

/-- `Sub`, `edwards.rs:503-531`. -/
def sub (c : Cfg) (p q : EdPoint) : CM EdPoint := do
  let nq ← neg c q
  let A ← Field.mul c p.X nq.X
  let B ← Field.mul c p.Y nq.Y
  let dT ← Field.cmul c EDWARDS_D p.T
  let C ← Field.mul c dT nq.T
  let D ← Field.mul c p.Z nq.Z
  let s1 ← Field.add c p.X p.Y
  let s2 ← Field.add c nq.X nq.Y
  let s12 ← Field.mul c s1 s2
  let e1 ← Field.sub c s12 A
  let E ← Field.sub c e1 B
  let F ← Field.sub c D C
  let G ← Field.add c D C
  let aA ← Field.cmul c EDWARDS_A A
  let H ← Field.sub c B aA
  let X ← Field.mul c E F
  let Y ← Field.mul c G H
  let Z ← Field.mul c F G
  let T ← Field.mul c E H
  return ⟨X, Y, Z, T⟩

/-- `Double`, `edwards.rs:579-592`. -/
def double (c : Cfg) (p : EdPoint) : CM EdPoint := add c p p

/-- `From<ProjectivePoint>`, `edwards.rs:402-417`. -/
def ofProj (c : Cfg) (p : ProjPoint) : CM EdPoint := do
  let X ← Field.mul c p.X p.Z
  let Y ← Field.mul c p.Y p.Z
  let Z ← Field.square c p.Z
  let T ← Field.mul c p.X p.Y
  return ⟨X, Y, Z, T⟩

end Ed

/-- The operations of a point type, with counts. -/
structure PointOps (T : Type) where
  identity : T
  add : Cfg → T → T → CM T
  sub : Cfg → T → T → CM T
  double : Cfg → T → CM T

/-- Forgetting the counts. -/
def PointOps.erase {T : Type} (O : PointOps T) : Zerocaf.PointOps T where
  identity := O.identity
  add c a b := (O.add c a b).val
  sub c a b := (O.sub c a b).val
  double c a := (O.double c a).val

/-- The operations of `EdwardsPoint` and of `RistrettoPoint`. -/
def Ed.ops : PointOps EdPoint := ⟨Zerocaf.Ed.identity, Ed.add, Ed.sub, Ed.double⟩

/-- The operations of `ProjectivePoint`. -/
def Proj.ops : PointOps ProjPoint := ⟨Zerocaf.Proj.identity, Proj.add, Proj.sub, Proj.double⟩

/-- The `while` loop of `double_and_add`, `edwards.rs:111-118`. -/
def doubleAndAddLoop {T : Type} (O : PointOps T) (c : Cfg) : Nat → T → Sc → T → CM T
  | 0, _, _, _ => free .diverge
  | fuel + 1, N, n, Q =>
    if !Scalar.ctEq n Scalar.zero then do
      let Q' ← if !Scalar.isEven n then O.add c Q N else pure Q
      let N' ← O.double c N
      doubleAndAddLoop O c fuel N' (Scalar.halfWithoutMod n) Q'
    else pure Q

/-- `double_and_add`, `edwards.rs:102-120`. -/
def doubleAndAdd {T : Type} (O : PointOps T) (c : Cfg) (point : T) (scalar : Sc) : CM T :=
  doubleAndAddLoop O c c.fuel point scalar O.identity

/-- The loop of `ltr_bin_mul`, `edwards.rs:129-132`. -/
def ltrLoop {T : Type} (O : PointOps T) (c : Cfg) (point : T) (bits : Vector UInt8 256) :
    (n : Nat) → n ≤ 256 → T → CM T
  | 0, _, Q => pure Q
  | i + 1, h, Q => do
    let Q ← O.double c Q
    let Q ← if bits[i] == 1 then O.add c Q point else pure Q
    ltrLoop O c point bits i (by omega) Q

/-- `ltr_bin_mul`, `edwards.rs:122-134`. -/
def ltrBinMul {T : Type} (O : PointOps T) (c : Cfg) (point : T) (scalar : Sc) : CM T :=
  ltrLoop O c point (Scalar.intoBits scalar) 249 (by omega) O.identity

/-- The loop of `binary_naf_mul`, `edwards.rs:144-151`. -/
def nafMulLoop {T : Type} (O : PointOps T) (c : Cfg) (point : T) (naf : Vector Int 256) :
    (n : Nat) → n ≤ 256 → T → CM T
  | 0, _, Q => pure Q
  | i + 1, h, Q => do
    let Q ← O.double c Q
    let Q ← if naf[i] = 1 then O.add c Q point
            else if naf[i] = -1 then O.sub c Q point
            else pure Q
    nafMulLoop O c point naf i (by omega) Q

/-- `binary_naf_mul`, `edwards.rs:136-153`. -/
def binaryNafMul {T : Type} (O : PointOps T) (c : Cfg) (point : T) (scalar : Sc) : CM T := do
  let naf ← free (Scalar.computeNAF c scalar)
  nafMulLoop O c point naf 250 (by omega) O.identity

end Count
end Zerocaf
