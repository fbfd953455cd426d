import Verif.Model.LeakPoints
import Verif.Model.LeakDigits
import Verif.Spec.Basic

/-!
# Programs over secret values, with the record of their control flow

A small language for programs that hold secrets: they call the functions of the library below on secret values, compute
with public data as they like, branch and loop on public data only, and may reveal values. Running a program leaves a
record: the record of `Model/Leak.lean` for each call of the library, the outcome of each branch and loop test of the
program, and the revealed values. The functions of the library are those of the recorded model; the file and the
lines in `/repo` are at the definitions used here. The language itself is not in `/repo`: it stands for the programs of
users of the library.
-/

namespace Zerocaf
namespace Quiet

open Leak (LM Ev)

/-- Types. `pub α` is public data; the others hold secrets: `FieldElement`, `Scalar`, `EdwardsPoint` (and
`RistrettoPoint`, which wraps it), `ProjectivePoint`, `AffinePoint`, `Choice` of `subtle` and byte strings
(`backend/u64/field.rs:32`, `backend/u64/scalar.rs:27`, `edwards.rs:337`, `ristretto.rs:158`, `edwards.rs:680`,
`edwards.rs:1008`). The length of a list is public. -/
inductive STy : Type 1 where
  | pub (α : Type)
  | field
  | scalar
  | ext
  | proj
  | aff
  | choice
  | bytes
  | prod (s t : STy)
  | list (s : STy)

/-- Values of each type. -/
def Val : STy → Type
  | .pub α => α
  | .field => FE
  | .scalar => Sc
  | .ext => EdPoint
  | .proj => ProjPoint
  | .aff => AffPoint
  | .choice => Bool
  | .bytes => Bytes32
  | .prod s t => Val s × Val t
  | .list s => List (Val s)

/-- Values whose coordinates and limbs are reduced, as the constructors and operations of the library leave them. Points
need not lie on the curve. -/
def Good : (s : STy) → Val s → Prop
  | .pub _, _ => True
  | .field, (a : FE) => a.Canon
  | .scalar, (a : Sc) => a.SCanon
  | .ext, (P : EdPoint) => P.X.Canon ∧ P.Y.Canon ∧ P.Z.Canon ∧ P.T.Canon
  | .proj, (P : ProjPoint) => P.X.Canon ∧ P.Y.Canon ∧ P.Z.Canon
  | .aff, (P : AffPoint) => P.X.Canon ∧ P.Y.Canon
  | .choice, _ => True
  | .bytes, _ => True
  | .prod s t, (v : Val s × Val t) => Good s v.1 ∧ Good t v.2
  | .list s, (l : List (Val s)) => ∀ v ∈ l, Good s v

/-- Calls of the library on secret values. The exponents of powers and the scalars of multiplications are public. -/
inductive Op : STy → STy → Type 1 where
  | fAdd : Op (.prod .field .field) .field
  | fSub : Op (.prod .field .field) .field
  | fMul : Op (.prod .field .field) .field
  | fNeg : Op .field .field
  | fSquare : Op .field .field
  | fHalf : Op .field .field
  | fEq : Op (.prod .field .field) .choice
  | fSelect : Op (.prod (.prod .field .field) .choice) .field
  | fCondNeg : Op (.prod .field .choice) .field
  | fPow : Op (.prod .field (.pub FE)) .field
  | fLegendre : Op .field .choice
  | fIsEven : Op .field .choice
  | fToBytes : Op .field .bytes
  | fRandom : Op .bytes .field
  | sAdd : Op (.prod .scalar .scalar) .scalar
  | sSub : Op (.prod .scalar .scalar) .scalar
  | sMul : Op (.prod .scalar .scalar) .scalar
  | sNeg : Op .scalar .scalar
  | sSquare : Op .scalar .scalar
  | sHalf : Op .scalar .scalar
  | sEq : Op (.prod .scalar .scalar) .choice
  | sPow : Op (.prod .scalar (.pub Sc)) .scalar
  | sIsEven : Op .scalar .choice
  | sToBytes : Op .scalar .bytes
  | eAdd : Op (.prod .ext .ext) .ext
  | eSub : Op (.prod .ext .ext) .ext
  | eNeg : Op .ext .ext
  | eDouble : Op .ext .ext
  | eValid : Op .ext .choice
  | eOfProj : Op .proj .ext
  | eOfAff : Op .aff .ext
  | eCoset4 : Op .ext (.prod .ext (.prod .ext (.prod .ext .ext)))
  | eMul : Op (.prod .ext (.pub Sc)) .ext
  | eLtr : Op (.prod .ext (.pub Sc)) .ext
  | eNaf : Op (.prod .ext (.pub Sc)) .ext
  | eCofactor : Op .ext .ext
  | ePow2 : Op (.prod .ext (.pub Nat)) .ext
  | pAdd : Op (.prod .proj .proj) .proj
  | pSub : Op (.prod .proj .proj) .proj
  | pNeg : Op .proj .proj
  | pDouble : Op .proj .proj
  | pValid : Op .proj .choice
  | pOfExt : Op .ext .proj
  | pMul : Op (.prod .proj (.pub Sc)) .proj
  | pLtr : Op (.prod .proj (.pub Sc)) .proj
  | pNaf : Op (.prod .proj (.pub Sc)) .proj
  | pCofactor : Op .proj .proj
  | pPow2 : Op (.prod .proj (.pub Nat)) .proj
  | aNeg : Op .aff .aff
  | aEq : Op (.prod .aff .aff) .choice
  | aValid : Op .aff .choice
  | rSub : Op (.prod .ext .ext) .ext
  | rEq : Op (.prod .ext .ext) .choice
  | rMul : Op (.prod .ext (.pub Sc)) .ext
  | rLtr : Op (.prod .ext (.pub Sc)) .ext
  | rNaf : Op (.prod .ext (.pub Sc)) .ext
  | rCofactor : Op .ext .ext
  | rPow2 : Op (.prod .ext (.pub Nat)) .ext
  | cNot : Op .choice .choice
  | cAnd : Op (.prod .choice .choice) .choice
  | cOr : Op (.prod .choice .choice) .choice

/-- The recorded operations of `RistrettoPoint` used by generic multiplication: addition and doubling are those of the
wrapped point (`ristretto.rs:248-328`), subtraction negates and adds. -/
def risOps : Leak.PointOps EdPoint := ⟨Ristretto.identity, Leak.Ed.add, Leak.Ristretto.sub, Leak.Ed.double⟩

/-- The recorded function each call runs. Selection, packing of bytes, the lowest bit and the operators of `Choice` do
not branch and leave no record (`Model/Leak.lean`). -/
def Op.run (c : Cfg) : {s t : STy} → Op s t → Val s → LM (Val t)
  | _, _, .fAdd, ((a, b) : FE × FE) => Leak.Field.add c a b
  | _, _, .fSub, ((a, b) : FE × FE) => Leak.Field.sub c a b
  | _, _, .fMul, ((a, b) : FE × FE) => Leak.Field.mul c a b
  | _, _, .fNeg, (a : FE) => Leak.Field.neg c a
  | _, _, .fSquare, (a : FE) => Leak.Field.square c a
  | _, _, .fHalf, (a : FE) => Leak.Field.half c a
  | _, _, .fEq, ((a, b) : FE × FE) => Leak.Field.ctEq a b
  | _, _, .fSelect, (((a, b), d) : (FE × FE) × Bool) => (pure (Field.condSelect a b d) : LM FE)
  | _, _, .fCondNeg, ((a, d) : FE × Bool) => Leak.Field.condNegate c a d
  | _, _, .fPow, ((a, e) : FE × FE) => Leak.Field.pow c a e
  | _, _, .fLegendre, (a : FE) => Leak.Field.legendre c a
  | _, _, .fIsEven, (a : FE) => (pure (Field.isEven a) : LM Bool)
  | _, _, .fToBytes, (a : FE) => (pure (Field.toBytes a) : LM Bytes32)
  | _, _, .fRandom, (b : Bytes32) => (pure (Field.random b) : LM FE)
  | _, _, .sAdd, ((a, b) : Sc × Sc) => Leak.Scalar.add c a b
  | _, _, .sSub, ((a, b) : Sc × Sc) => Leak.Scalar.sub c a b
  | _, _, .sMul, ((a, b) : Sc × Sc) => Leak.Scalar.mul c a b
  | _, _, .sNeg, (a : Sc) => Leak.Scalar.neg c a
  | _, _, .sSquare, (a : Sc) => Leak.Scalar.square c a
  | _, _, .sHalf, (a : Sc) => Leak.Scalar.half c a
  | _, _, .sEq, ((a, b) : Sc × Sc) => Leak.Scalar.ctEq a b
  | _, _, .sPow, ((a, e) : Sc × Sc) => Leak.Scalar.pow c a e
  | _, _, .sIsEven, (a : Sc) => (pure (Scalar.isEven a) : LM Bool)
  | _, _, .sToBytes, (a : Sc) => (pure (Scalar.toBytes a) : LM Bytes32)
  | _, _, .eAdd, ((P, Q) : EdPoint × EdPoint) => Leak.Ed.add c P Q
  | _, _, .eSub, ((P, Q) : EdPoint × EdPoint) => Leak.Ed.sub c P Q
  | _, _, .eNeg, (P : EdPoint) => Leak.Ed.neg c P
  | _, _, .eDouble, (P : EdPoint) => Leak.Ed.double c P
  | _, _, .eValid, (P : EdPoint) => Leak.Ed.isValid c P
  | _, _, .eOfProj, (P : ProjPoint) => Leak.Ed.ofProj c P
  | _, _, .eOfAff, (P : AffPoint) => Leak.Ed.ofAff c P
  | _, _, .eCoset4, (P : EdPoint) => Leak.Ed.coset4 c P
  | _, _, .eMul, ((P, n) : EdPoint × Sc) => Leak.doubleAndAdd Leak.Ed.ops c P n
  | _, _, .eLtr, ((P, n) : EdPoint × Sc) => Leak.ltrBinMul Leak.Ed.ops c P n
  | _, _, .eNaf, ((P, n) : EdPoint × Sc) => Leak.binaryNafMul Leak.Ed.ops c P n
  | _, _, .eCofactor, (P : EdPoint) => Leak.mulByCofactor Leak.Ed.ops c P
  | _, _, .ePow2, ((P, k) : EdPoint × Nat) => Leak.mulByPow2 Leak.Ed.ops c P k
  | _, _, .pAdd, ((P, Q) : ProjPoint × ProjPoint) => Leak.Proj.add c P Q
  | _, _, .pSub, ((P, Q) : ProjPoint × ProjPoint) => Leak.Proj.sub c P Q
  | _, _, .pNeg, (P : ProjPoint) => Leak.Proj.neg c P
  | _, _, .pDouble, (P : ProjPoint) => Leak.Proj.double c P
  | _, _, .pValid, (P : ProjPoint) => Leak.Proj.isValid c P
  | _, _, .pOfExt, (P : EdPoint) => (pure (Proj.ofEd P) : LM ProjPoint)
  | _, _, .pMul, ((P, n) : ProjPoint × Sc) => Leak.doubleAndAdd Leak.Proj.ops c P n
  | _, _, .pLtr, ((P, n) : ProjPoint × Sc) => Leak.ltrBinMul Leak.Proj.ops c P n
  | _, _, .pNaf, ((P, n) : ProjPoint × Sc) => Leak.binaryNafMul Leak.Proj.ops c P n
  | _, _, .pCofactor, (P : ProjPoint) => Leak.mulByCofactor Leak.Proj.ops c P
  | _, _, .pPow2, ((P, k) : ProjPoint × Nat) => Leak.mulByPow2 Leak.Proj.ops c P k
  | _, _, .aNeg, (P : AffPoint) => Leak.Aff.neg c P
  | _, _, .aEq, ((P, Q) : AffPoint × AffPoint) => Leak.Aff.ctEq P Q
  | _, _, .aValid, (P : AffPoint) => Leak.Aff.isValid c P
  | _, _, .rSub, ((P, Q) : EdPoint × EdPoint) => Leak.Ristretto.sub c P Q
  | _, _, .rEq, ((P, Q) : EdPoint × EdPoint) => Leak.Ristretto.ctEq c P Q
  | _, _, .rMul, ((P, n) : EdPoint × Sc) => Leak.doubleAndAdd risOps c P n
  | _, _, .rLtr, ((P, n) : EdPoint × Sc) => Leak.ltrBinMul risOps c P n
  | _, _, .rNaf, ((P, n) : EdPoint × Sc) => Leak.binaryNafMul risOps c P n
  | _, _, .rCofactor, (P : EdPoint) => Leak.mulByCofactor risOps c P
  | _, _, .rPow2, ((P, k) : EdPoint × Nat) => Leak.mulByPow2 risOps c P k
  | _, _, .cNot, (a : Bool) => (pure (!a) : LM Bool)
  | _, _, .cAnd, ((a, b) : Bool × Bool) => (pure (a && b) : LM Bool)
  | _, _, .cOr, ((a, b) : Bool × Bool) => (pure (a || b) : LM Bool)

/-- The function of the model, without the record, each call stands for. -/
def Op.plain (c : Cfg) : {s t : STy} → Op s t → Val s → Res (Val t)
  | _, _, .fAdd, ((a, b) : FE × FE) => Field.add c a b
  | _, _, .fSub, ((a, b) : FE × FE) => Field.sub c a b
  | _, _, .fMul, ((a, b) : FE × FE) => Field.mul c a b
  | _, _, .fNeg, (a : FE) => Field.neg c a
  | _, _, .fSquare, (a : FE) => Field.square c a
  | _, _, .fHalf, (a : FE) => Field.half c a
  | _, _, .fEq, ((a, b) : FE × FE) => .ok (Field.ctEq a b)
  | _, _, .fSelect, (((a, b), d) : (FE × FE) × Bool) => .ok (Field.condSelect a b d)
  | _, _, .fCondNeg, ((a, d) : FE × Bool) => Field.condNegate c a d
  | _, _, .fPow, ((a, e) : FE × FE) => Field.pow c a e
  | _, _, .fLegendre, (a : FE) => Field.legendre c a
  | _, _, .fIsEven, (a : FE) => .ok (Field.isEven a)
  | _, _, .fToBytes, (a : FE) => .ok (Field.toBytes a)
  | _, _, .fRandom, (b : Bytes32) => .ok (Field.random b)
  | _, _, .sAdd, ((a, b) : Sc × Sc) => Scalar.add c a b
  | _, _, .sSub, ((a, b) : Sc × Sc) => Scalar.sub c a b
  | _, _, .sMul, ((a, b) : Sc × Sc) => Scalar.mul c a b
  | _, _, .sNeg, (a : Sc) => Scalar.neg c a
  | _, _, .sSquare, (a : Sc) => Scalar.square c a
  | _, _, .sHalf, (a : Sc) => Scalar.half c a
  | _, _, .sEq, ((a, b) : Sc × Sc) => .ok (Scalar.ctEq a b)
  | _, _, .sPow, ((a, e) : Sc × Sc) => Scalar.pow c a e
  | _, _, .sIsEven, (a : Sc) => .ok (Scalar.isEven a)
  | _, _, .sToBytes, (a : Sc) => .ok (Scalar.toBytes a)
  | _, _, .eAdd, ((P, Q) : EdPoint × EdPoint) => Ed.add c P Q
  | _, _, .eSub, ((P, Q) : EdPoint × EdPoint) => Ed.sub c P Q
  | _, _, .eNeg, (P : EdPoint) => Ed.neg c P
  | _, _, .eDouble, (P : EdPoint) => Ed.double c P
  | _, _, .eValid, (P : EdPoint) => Ed.isValid c P
  | _, _, .eOfProj, (P : ProjPoint) => Ed.ofProj c P
  | _, _, .eOfAff, (P : AffPoint) => Ed.ofAff c P
  | _, _, .eCoset4, (P : EdPoint) => Ed.coset4 c P
  | _, _, .eMul, ((P, n) : EdPoint × Sc) => Ed.mul c P n
  | _, _, .eLtr, ((P, n) : EdPoint × Sc) => ltrBinMul Ed.ops c P n
  | _, _, .eNaf, ((P, n) : EdPoint × Sc) => binaryNafMul Ed.ops c P n
  | _, _, .eCofactor, (P : EdPoint) => mulByCofactor Ed.ops c P
  | _, _, .ePow2, ((P, k) : EdPoint × Nat) => mulByPow2 Ed.ops c P k
  | _, _, .pAdd, ((P, Q) : ProjPoint × ProjPoint) => Proj.add c P Q
  | _, _, .pSub, ((P, Q) : ProjPoint × ProjPoint) => Proj.sub c P Q
  | _, _, .pNeg, (P : ProjPoint) => Proj.neg c P
  | _, _, .pDouble, (P : ProjPoint) => Proj.double c P
  | _, _, .pValid, (P : ProjPoint) => Proj.isValid c P
  | _, _, .pOfExt, (P : EdPoint) => .ok (Proj.ofEd P)
  | _, _, .pMul, ((P, n) : ProjPoint × Sc) => Proj.mul c P n
  | _, _, .pLtr, ((P, n) : ProjPoint × Sc) => ltrBinMul Proj.ops c P n
  | _, _, .pNaf, ((P, n) : ProjPoint × Sc) => binaryNafMul Proj.ops c P n
  | _, _, .pCofactor, (P : ProjPoint) => mulByCofactor Proj.ops c P
  | _, _, .pPow2, ((P, k) : ProjPoint × Nat) => mulByPow2 Proj.ops c P k
  | _, _, .aNeg, (P : AffPoint) => Aff.neg c P
  | _, _, .aEq, ((P, Q) : AffPoint × AffPoint) => .ok (Aff.ctEq P Q)
  | _, _, .aValid, (P : AffPoint) => Aff.isValid c P
  | _, _, .rSub, ((P, Q) : EdPoint × EdPoint) => Ristretto.sub c P Q
  | _, _, .rEq, ((P, Q) : EdPoint × EdPoint) => Ristretto.ctEq c P Q
  | _, _, .rMul, ((P, n) : EdPoint × Sc) => Ristretto.mul c P n
  | _, _, .rLtr, ((P, n) : EdPoint × Sc) => ltrBinMul Ristretto.ops c P n
  | _, _, .rNaf, ((P, n) : EdPoint × Sc) => binaryNafMul Ristretto.ops c P n
  | _, _, .rCofactor, (P : EdPoint) => mulByCofactor Ristretto.ops c P
  | _, _, .rPow2, ((P, k) : EdPoint × Nat) => mulByPow2 Ristretto.ops c P k
  | _, _, .cNot, (a : Bool) => .ok (!a)
  | _, _, .cAnd, ((a, b) : Bool × Bool) => .ok (a && b)
  | _, _, .cOr, ((a, b) : Bool × Bool) => .ok (a || b)

/-- Programs. -/
inductive Prog : STy → STy → Type 1 where
  /-- a call of the library on secrets -/
  | op {s t : STy} (o : Op s t) : Prog s t
  /-- a computation on public data -/
  | host {α β : Type} (f : α → β) : Prog (.pub α) (.pub β)
  /-- a call of any recorded function on public data -/
  | call {α β : Type} (f : Cfg → α → LM β) : Prog (.pub α) (.pub β)
  /-- a public constant or value used where a secret is expected -/
  | conceal {s : STy} : Prog (.pub {v : Val s // Good s v}) s
  /-- a secret made public -/
  | reveal {s : STy} : Prog s (.pub (Val s))
  | skip {s : STy} : Prog s s
  | drop {s : STy} : Prog s (.pub Unit)
  | seq {s t u : STy} (f : Prog s t) (g : Prog t u) : Prog s u
  | pair {s t u : STy} (f : Prog s t) (g : Prog s u) : Prog s (.prod t u)
  | fst {s t : STy} : Prog (.prod s t) s
  | snd {s t : STy} : Prog (.prod s t) t
  /-- two pieces of public data as one -/
  | join {α β : Type} : Prog (.prod (.pub α) (.pub β)) (.pub (α × β))
  | nil {s t : STy} : Prog s (.list t)
  | cons {s : STy} : Prog (.prod s (.list s)) (.list s)
  | length {s : STy} : Prog (.list s) (.pub Nat)
  /-- a branch on public data -/
  | ite {s t : STy} (f g : Prog s t) : Prog (.prod (.pub Bool) s) t
  /-- a match on a public option -/
  | matchOpt {α : Type} {s t : STy} (f : Prog (.prod (.pub α) s) t) (g : Prog s t) : Prog (.prod (.pub (Option α)) s) t
  /-- a loop with a public number of rounds -/
  | loop {s : STy} (f : Prog s s) : Prog (.prod (.pub Nat) s) s
  /-- a loop over public data -/
  | each {α : Type} {s : STy} (f : Prog (.prod (.pub α) s) s) : Prog (.prod (.pub (List α)) s) s
  /-- a loop over a list of secrets -/
  | fold {s t : STy} (f : Prog (.prod s t) t) : Prog (.prod (.list s) t) t

/-- What is observed of a program. -/
inductive Obs : Type 1 where
  /-- an event of the library -/
  | lib (e : Ev)
  /-- a branch or loop test of the program -/
  | br (b : Bool)
  /-- a revealed value -/
  | shown (s : STy) (v : Val s)

/-- A run with its record. -/
structure QM (α : Type) : Type 1 where
  obs : List Obs
  val : Res α

/-- Sequencing: the record stops at a panic. -/
def QM.bind {α β : Type} (m : QM α) (f : α → QM β) : QM β :=
  match m.val with
  | .ok a => ⟨m.obs ++ (f a).obs, (f a).val⟩
  | .panic => ⟨m.obs, .panic⟩
  | .diverge => ⟨m.obs, .diverge⟩

/-- A result without a record. -/
def QM.pure {α : Type} (a : α) : QM α := ⟨[], .ok a⟩

/-- A result after one event. -/
def QM.emit {α : Type} (o : Obs) (a : α) : QM α := ⟨[o], .ok a⟩

/-- A recorded function of the library. -/
def QM.lib {α : Type} (m : LM α) : QM α := ⟨m.tr.map .lib, m.val⟩

/-- `n` rounds. -/
def loopQ {α : Type} (f : α → QM α) : Nat → α → QM α
  | 0, a => .emit (.br false) a
  | n + 1, a => (QM.emit (.br true) a).bind fun a => (f a).bind fun b => loopQ f n b

/-- One round for each element. -/
def foldQ {α β : Type} (f : α → β → QM β) : List α → β → QM β
  | [], b => .emit (.br false) b
  | a :: l, b => (QM.emit (.br true) b).bind fun b => (f a b).bind fun d => foldQ f l d

/-- The run of a program with its record. -/
def Prog.run (c : Cfg) : {s t : STy} → Prog s t → Val s → QM (Val t)
  | _, _, .op o, v => .lib (o.run c v)
  | _, _, .host f, v => .pure (f v)
  | _, _, .call f, v => .lib (f c v)
  | _, _, .conceal, v => .pure (Subtype.val v)
  | s, _, .reveal, v => .emit (.shown s v) v
  | _, _, .skip, v => .pure v
  | _, _, .drop, _ => .pure ()
  | _, _, .seq f g, v => (f.run c v).bind fun w => g.run c w
  | _, _, .pair (t := t) (u := u) f g, v =>
    (f.run c v).bind fun a => (g.run c v).bind fun b => .pure ((a, b) : Val t × Val u)
  | _, _, .fst (s := s) (t := t), v => .pure (v : Val s × Val t).1
  | _, _, .snd (s := s) (t := t), v => .pure (v : Val s × Val t).2
  | _, _, .join (α := α) (β := β), v => .pure (v : α × β)
  | _, _, .nil (t := t), _ => .pure ([] : List (Val t))
  | _, _, .cons (s := s), v => .pure ((v : Val s × List (Val s)).1 :: (v : Val s × List (Val s)).2)
  | _, _, .length (s := s), v => .pure (v : List (Val s)).length
  | _, _, .ite (s := s) f g, v =>
    (QM.emit (.br (v : Bool × Val s).1) (v : Bool × Val s)).bind fun v => bif v.1 then f.run c v.2 else g.run c v.2
  | _, _, .matchOpt (α := α) (s := s) f g, v =>
    (QM.emit (.br (v : Option α × Val s).1.isSome) (v : Option α × Val s)).bind fun v =>
      match v.1 with
      | some a => f.run c ((a, v.2) : α × Val s)
      | none => g.run c v.2
  | _, _, .loop (s := s) f, v => loopQ (fun a => f.run c a) (v : Nat × Val s).1 (v : Nat × Val s).2
  | _, _, .each (α := α) (s := s) f, v =>
    foldQ (fun a b => f.run c ((a, b) : α × Val s)) (v : List α × Val s).1 (v : List α × Val s).2
  | _, _, .fold (s := s) (t := t) f, v =>
    foldQ (fun a b => f.run c ((a, b) : Val s × Val t)) (v : List (Val s) × Val t).1 (v : List (Val s) × Val t).2

/-- `n` rounds, without a record. -/
def loopR {α : Type} (f : α → Res α) : Nat → α → Res α
  | 0, a => .ok a
  | n + 1, a => f a >>= loopR f n

/-- One round for each element, without a record. -/
def foldR {α β : Type} (f : α → β → Res β) : List α → β → Res β
  | [], b => .ok b
  | a :: l, b => f a b >>= foldR f l

/-- What a program computes with the functions of the model. -/
def Prog.plain (c : Cfg) : {s t : STy} → Prog s t → Val s → Res (Val t)
  | _, _, .op o, v => o.plain c v
  | _, _, .host f, v => .ok (f v)
  | _, _, .call f, v => (f c v).val
  | _, _, .conceal, v => .ok (Subtype.val v)
  | _, _, .reveal, v => .ok v
  | _, _, .skip, v => .ok v
  | _, _, .drop, _ => .ok ()
  | _, _, .seq f g, v => f.plain c v >>= fun w => g.plain c w
  | _, _, .pair (t := t) (u := u) f g, v => do
    let a ← f.plain c v
    let b ← g.plain c v
    .ok ((a, b) : Val t × Val u)
  | _, _, .fst (s := s) (t := t), v => .ok (v : Val s × Val t).1
  | _, _, .snd (s := s) (t := t), v => .ok (v : Val s × Val t).2
  | _, _, .join (α := α) (β := β), v => .ok (v : α × β)
  | _, _, .nil (t := t), _ => .ok ([] : List (Val t))
  | _, _, .cons (s := s), v => .ok ((v : Val s × List (Val s)).1 :: (v : Val s × List (Val s)).2)
  | _, _, .length (s := s), v => .ok (v : List (Val s)).length
  | _, _, .ite (s := s) f g, v => bif (v : Bool × Val s).1 then f.plain c v.2 else g.plain c v.2
  | _, _, .matchOpt (α := α) (s := s) f g, v =>
    match (v : Option α × Val s).1 with
    | some a => f.plain c ((a, v.2) : α × Val s)
    | none => g.plain c v.2
  | _, _, .loop (s := s) f, v => loopR (fun a => f.plain c a) (v : Nat × Val s).1 (v : Nat × Val s).2
  | _, _, .each (α := α) (s := s) f, v =>
    foldR (fun a b => f.plain c ((a, b) : α × Val s)) (v : List α × Val s).1 (v : List α × Val s).2
  | _, _, .fold (s := s) (t := t) f, v =>
    foldR (fun a b => f.plain c ((a, b) : Val s × Val t)) (v : List (Val s) × Val t).1 (v : List (Val s) × Val t).2

end Quiet
end Zerocaf
