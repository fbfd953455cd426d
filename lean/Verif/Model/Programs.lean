import Verif.Spec.Programs
import Verif.Model.Ristretto

/-!
# Running programs written against the library

The programs of `Verif.Spec.Programs` run on the values and functions of the model. Each operation is the
model of the function of the library named beside it; the file and the lines in `/repo` are at the model of
that function.
-/

namespace Zerocaf
namespace Programs

/-- The values of the library of each type: `FieldElement`, `Scalar`, `EdwardsPoint`, `ProjectivePoint`,
`AffinePoint` and `RistrettoPoint` (`backend/u64/field.rs:32`, `backend/u64/scalar.rs:27`, `edwards.rs:337`,
`edwards.rs:680`, `edwards.rs:1008` and `ristretto.rs:158`), and host data. -/
def Val : Ty → Type
  | .obs T => T
  | .field => FE
  | .scalar => Sc
  | .ext => EdPoint
  | .proj => ProjPoint
  | .aff => AffPoint
  | .ris => EdPoint
  | .prod s t => Val s × Val t
  | .opt t => Option (Val t)
  | .list t => List (Val t)

/-- The function of the library an operation calls. `fDiv` is the operator by reference. -/
def Prim.run (c : Cfg) : {s t : Ty} → Prim s t → Val s → Res (Val t)
  | _, _, .fZero, _ => .ok Field.zero
  | _, _, .fOne, _ => .ok Field.one
  | _, _, .fMinusOne, _ => .ok Field.minusOne
  | _, _, .fFrom, (n : U128) => .ok (Field.fromU128 n.1)
  | _, _, .fTwoPow, (k : U64) => Field.twoPowK k.1
  | _, _, .fNeg, (x : FE) => Field.neg c x
  | _, _, .fSquare, (x : FE) => Field.square c x
  | _, _, .fHalf, (x : FE) => Field.half c x
  | _, _, .fHalfFloor, (x : FE) => .ok (Field.halfWithoutMod x)
  | _, _, .fInverse, (x : FE) => Field.inverse c x
  | _, _, .fAdd, ((x, y) : FE × FE) => Field.add c x y
  | _, _, .fSub, ((x, y) : FE × FE) => Field.sub c x y
  | _, _, .fMul, ((x, y) : FE × FE) => Field.mul c x y
  | _, _, .fDiv, ((x, y) : FE × FE) => Field.divRef c x y
  | _, _, .fPow, ((x, y) : FE × FE) => Field.pow c x y
  | _, _, .fLegendre, (x : FE) => Field.legendre c x
  | _, _, .fModSqrt, ((x, b) : FE × Bool) => Field.modSqrt c x b
  | _, _, .fSqrtRatio, ((x, y) : FE × FE) => Field.sqrtRatioI c x y
  | _, _, .fInvSqrt, (x : FE) => Field.invSqrt c x
  | _, _, .fIsEven, (x : FE) => .ok (Field.isEven x)
  | _, _, .fIsPositive, (x : FE) => .ok (Field.isPositive x)
  | _, _, .fEq, ((x, y) : FE × FE) => .ok (Field.ctEq x y)
  | _, _, .fCmp, ((x, y) : FE × FE) => .ok (Field.cmp x y)
  | _, _, .fToBytes, (x : FE) => .ok (Field.toBytes x)
  | _, _, .fFromBytes, (b : Byte32) => .ok (Field.fromBytes b)
  | _, _, .fSelect, (((x, y), b) : (FE × FE) × Bool) => .ok (Field.condSelect x y b)
  | _, _, .fNegIf, ((x, b) : FE × Bool) => Field.condNegate c x b
  | _, _, .fRandom, (b : Byte32) => .ok (Field.random b)
  | _, _, .sZero, _ => .ok Scalar.zero
  | _, _, .sOne, _ => .ok Scalar.one
  | _, _, .sMinusOne, _ => .ok Scalar.minusOne
  | _, _, .sFrom, (n : U128) => .ok (Scalar.fromU128 n.1)
  | _, _, .sTwoPow, (k : U64) => Scalar.twoPowK k.1
  | _, _, .sNeg, (x : Sc) => Scalar.neg c x
  | _, _, .sSquare, (x : Sc) => Scalar.square c x
  | _, _, .sHalf, (x : Sc) => Scalar.half c x
  | _, _, .sHalfFloor, (x : Sc) => .ok (Scalar.halfWithoutMod x)
  | _, _, .sShr, ((x, n) : Sc × U8) => .ok (Scalar.shr x n.1)
  | _, _, .sAdd, ((x, y) : Sc × Sc) => Scalar.add c x y
  | _, _, .sSub, ((x, y) : Sc × Sc) => Scalar.sub c x y
  | _, _, .sMul, ((x, y) : Sc × Sc) => Scalar.mul c x y
  | _, _, .sPow, ((x, y) : Sc × Sc) => Scalar.pow c x y
  | _, _, .sIsEven, (x : Sc) => .ok (Scalar.isEven x)
  | _, _, .sEq, ((x, y) : Sc × Sc) => .ok (Scalar.ctEq x y)
  | _, _, .sCmp, ((x, y) : Sc × Sc) => .ok (Scalar.cmp x y)
  | _, _, .sToBytes, (x : Sc) => .ok (Scalar.toBytes x)
  | _, _, .sFromBytes, (b : Byte32) => Scalar.fromBytes b
  | _, _, .sFromI8, (x : I8) => Scalar.fromI8 c x.1
  | _, _, .sRandom, (b : Byte32) => Scalar.random b
  | _, _, .sBits, (x : Sc) => .ok (Scalar.intoBits x)
  | _, _, .sMod, ((x, k) : Sc × Exp8) => Scalar.mod2PowK c x k.1
  | _, _, .sMods, ((x, w) : Sc × Mod) => Scalar.mods2PowK c x w.1
  | _, _, .sNaf, (x : Sc) => Scalar.computeNAF c x
  | _, _, .sWindowNaf, ((x, w) : Sc × Width) => Scalar.computeWindowNAF c x w.1
  | _, _, .eZero, _ => .ok Ed.identity
  | _, _, .eBase, _ => .ok Ed.BASEPOINT
  | _, _, .eNeg, (P : EdPoint) => Ed.neg c P
  | _, _, .eDouble, (P : EdPoint) => Ed.double c P
  | _, _, .eAdd, ((P, Q) : EdPoint × EdPoint) => Ed.add c P Q
  | _, _, .eSub, ((P, Q) : EdPoint × EdPoint) => Ed.sub c P Q
  | _, _, .eMul, ((P, n) : EdPoint × Sc) => Ed.mul c P n
  | _, _, .eLtrMul, ((P, n) : EdPoint × Sc) => ltrBinMul Ed.ops c P n
  | _, _, .eNafMul, ((P, n) : EdPoint × Sc) => binaryNafMul Ed.ops c P n
  | _, _, .eCofactor, (P : EdPoint) => mulByCofactor Ed.ops c P
  | _, _, .eMulPow2, ((P, k) : EdPoint × U64) => mulByPow2 Ed.ops c P k.1
  | _, _, .eEq, ((P, Q) : EdPoint × EdPoint) => Ed.ctEq c P Q
  | _, _, .eIsValid, (P : EdPoint) => Ed.isValid c P
  | _, _, .eFromY, ((y, b) : FE × Bool) => Ed.newFromY c y b
  | _, _, .eCompress, (P : EdPoint) => Ed.compress c P
  | _, _, .eDecompress, (b : Byte32) => Ed.decompress c b
  | _, _, .eNegCompressed, (b : Byte32) => Ed.negCompressed c b
  | _, _, .eOfProj, (P : ProjPoint) => Ed.ofProj c P
  | _, _, .eOfAff, (P : AffPoint) => Ed.ofAff c P
  | _, _, .pZero, _ => .ok Proj.identity
  | _, _, .pNeg, (P : ProjPoint) => Proj.neg c P
  | _, _, .pDouble, (P : ProjPoint) => Proj.double c P
  | _, _, .pAdd, ((P, Q) : ProjPoint × ProjPoint) => Proj.add c P Q
  | _, _, .pSub, ((P, Q) : ProjPoint × ProjPoint) => Proj.sub c P Q
  | _, _, .pMul, ((P, n) : ProjPoint × Sc) => Proj.mul c P n
  | _, _, .pLtrMul, ((P, n) : ProjPoint × Sc) => ltrBinMul Proj.ops c P n
  | _, _, .pNafMul, ((P, n) : ProjPoint × Sc) => binaryNafMul Proj.ops c P n
  | _, _, .pCofactor, (P : ProjPoint) => mulByCofactor Proj.ops c P
  | _, _, .pMulPow2, ((P, k) : ProjPoint × U64) => mulByPow2 Proj.ops c P k.1
  | _, _, .pEq, ((P, Q) : ProjPoint × ProjPoint) => Proj.ctEq c P Q
  | _, _, .pIsValid, (P : ProjPoint) => Proj.isValid c P
  | _, _, .pFromY, ((y, b) : FE × Bool) => Proj.newFromY c y b
  | _, _, .pOfExt, (P : EdPoint) => .ok (Proj.ofEd P)
  | _, _, .pOfAff, (P : AffPoint) => .ok (Proj.ofAff P)
  | _, _, .aZero, _ => .ok Aff.identity
  | _, _, .aNeg, (P : AffPoint) => Aff.neg c P
  | _, _, .aEq, ((P, Q) : AffPoint × AffPoint) => .ok (Aff.ctEq P Q)
  | _, _, .aIsValid, (P : AffPoint) => Aff.isValid c P
  | _, _, .aOfExt, (P : EdPoint) => Aff.ofEd c P
  | _, _, .aOfProj, (P : ProjPoint) => Aff.ofProj c P
  | _, _, .rZero, _ => .ok Ristretto.identity
  | _, _, .rBase, _ => .ok Ed.BASEPOINT
  | _, _, .rNeg, (P : EdPoint) => Ristretto.neg c P
  | _, _, .rDouble, (P : EdPoint) => Ristretto.double c P
  | _, _, .rAdd, ((P, Q) : EdPoint × EdPoint) => Ristretto.add c P Q
  | _, _, .rSub, ((P, Q) : EdPoint × EdPoint) => Ristretto.sub c P Q
  | _, _, .rMul, ((P, n) : EdPoint × Sc) => Ristretto.mul c P n
  | _, _, .rLtrMul, ((P, n) : EdPoint × Sc) => ltrBinMul Ristretto.ops c P n
  | _, _, .rNafMul, ((P, n) : EdPoint × Sc) => binaryNafMul Ristretto.ops c P n
  | _, _, .rBaseMul, (n : Sc) => Ristretto.windowNafMul c n 2
  | _, _, .rCofactor, (P : EdPoint) => mulByCofactor Ristretto.ops c P
  | _, _, .rMulPow2, ((P, k) : EdPoint × U64) => mulByPow2 Ristretto.ops c P k.1
  | _, _, .rEq, ((P, Q) : EdPoint × EdPoint) => Ristretto.ctEq c P Q
  | _, _, .rCompress, (P : EdPoint) => Ristretto.compress c P
  | _, _, .rDecompress, (b : Byte32) => Ristretto.decompress c b
  | _, _, .rElligator, (t : FE) => Ristretto.elligator c t
  | _, _, .rFromUniform, (b : Byte64) => Ristretto.fromUniformBytes c b

/-- `n`-fold iteration. -/
def iterRes {α : Type} (f : α → Res α) : ℕ → α → Res α
  | 0, a => .ok a
  | n + 1, a => f a >>= iterRes f n

/-- Iteration over a list. -/
def foldRes {α β : Type} (f : α → β → Res α) : α → List β → Res α
  | a, [] => .ok a
  | a, x :: l => f a x >>= fun a' => foldRes f a' l

/-- Run a program in a build. -/
def Prog.run (c : Cfg) : {s t : Ty} → Prog s t → Val s → Res (Val t)
  | _, _, .call f, x => f.run c x
  | _, _, .host f, x => .ok (f x)
  | _, _, .hostPanic f, x =>
      match f x with
      | Option.some y => .ok y
      | Option.none => .panic
  | _, _, .lit y, _ => .ok y
  | _, _, .skip, x => .ok x
  | _, _, .seq f g, x => f.run c x >>= g.run c
  | _, _, .pair f g, x => f.run c x >>= fun y => g.run c x >>= fun z => .ok (y, z)
  | _, _, .fst, (x, _) => .ok x
  | _, _, .snd, (_, x) => .ok x
  | _, _, .join, x => .ok x
  | _, _, .ite b f g, x => b.run c x >>= fun (t : Bool) => if t then f.run c x else g.run c x
  | _, _, .some, x => .ok (Option.some x)
  | _, _, .none, _ => .ok (Option.none (α := Val _))
  | _, _, .matchOpt o f g, x => o.run c x >>= fun (y : Option (Val _)) =>
      match y with
      | Option.some y => f.run c (x, y)
      | Option.none => g.run c x
  | _, _, .nil, _ => .ok ([] : List (Val _))
  | _, _, .cons, (x, l) => .ok (List.cons (α := Val _) x l)
  | _, _, .fold f, (x, l) => foldRes (fun a y => f.run c (a, y)) x l
  | _, _, .iter n f, x => n.run c x >>= fun k => iterRes (f.run c) k x
  | _, _, .panic, _ => .panic

end Programs
end Zerocaf
