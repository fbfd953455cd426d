import Verif.Model.Table

/-!
# Model of `src/ristretto.rs`

Line numbers without a path refer to `src/ristretto.rs`. A `RistrettoPoint` is a wrapper around an
`EdwardsPoint` (`ristretto.rs:157-158`) and is modelled by the wrapped point.
-/

namespace Zerocaf.Ristretto

/-- `INV_SQRT_A_MINUS_D`, `constants.rs:123-129`. -/
def INV_SQRT_A_MINUS_D : FE :=
  ⟨550050132044477, 3953042081665262, 2971403105229349, 212915494370164, 1172367057772⟩

/-- `SQRT_AD_MINUS_ONE`, `constants.rs:132-138`. -/
def SQRT_AD_MINUS_ONE : FE :=
  ⟨3601277882726560, 1817821323014817, 1726005090908779, 2111284621343800, 648674458156⟩

/-- `CompressedRistretto::identity`, `ristretto.rs:68-74`. -/
def compressedIdentity : Bytes32 := Vector.replicate 32 0

/-- `RISTRETTO_BASEPOINT_COMPRESSED`, `src/constants.rs:19-21`. -/
def BASEPOINT_COMPRESSED : Bytes32 := (Vector.replicate 32 0).set 0 2

/-- `CompressedRistretto::decompress`, `ristretto.rs:96-154`. -/
def decompress (c : Cfg) (b : Bytes32) : Res (Option EdPoint) := do
  let s := Field.fromBytes b
  let sCheck := Field.toBytes s
  let sCorrect : Bool := sCheck == b
  let sPos := Field.isPositive s
  if sPos == false || sCorrect == false then return none
  let one := Field.one
  let ss ← Field.square c s
  let u1 ← Field.sub c one ss
  let ss' ← Field.square c s
  let u2 ← Field.add c one ss'
  let u2_sq ← Field.square c u2
  let u1_sq ← Field.square c u1
  let du1 ← Field.mul c EDWARDS_D u1_sq
  let ndu1 ← Field.neg c du1
  let v ← Field.sub c ndu1 u2_sq
  let vu ← Field.mul c v u2_sq
  let (ok, I) ← Field.invSqrt c vu
  if ok == false then return none
  let Dx ← Field.mul c I u2
  let IDx ← Field.mul c I Dx
  let Dy ← Field.mul c IDx v
  let s2 ← Field.add c s s
  let x ← Field.mul c s2 Dx
  let xPos := Field.isPositive x
  let x ← Field.condNegate c x (!xPos)
  let y ← Field.mul c u1 Dy
  let t ← Field.mul c x y
  if Field.isPositive t == false || Field.ctEq y Field.zero then return none
  return some ⟨x, y, one, t⟩

/-- `ConstantTimeEq::ct_eq`, `ristretto.rs:166-176`. -/
def ctEq (c : Cfg) (p q : EdPoint) : Res Bool := do
  let xy ← Field.mul c p.X q.Y
  let yx ← Field.mul c p.Y q.X
  let xx ← Field.mul c p.X q.X
  let yy ← Field.mul c p.Y q.Y
  return Field.ctEq xy yx || Field.ctEq xx yy

/-- `Identity::identity`, `ristretto.rs:186-193`. -/
def identity : EdPoint := Ed.identity

/-- `Neg`, `ristretto.rs:224-246`. -/
def neg (c : Cfg) (p : EdPoint) : Res EdPoint := Ed.neg c p

/-- `Add`, `ristretto.rs:248-262`. -/
def add (c : Cfg) (p q : EdPoint) : Res EdPoint := Ed.add c p q

/-- `Sub`, `ristretto.rs:278-295`. -/
def sub (c : Cfg) (p q : EdPoint) : Res EdPoint := do
  let nq ← neg c q
  add c p nq

/-- `Double`, `ristretto.rs:314-328`. -/
def double (c : Cfg) (p : EdPoint) : Res EdPoint := Ed.double c p

/-- The operations of `RistrettoPoint` used by generic multiplication. -/
def ops : PointOps EdPoint := ⟨identity, add, sub, double⟩

/-- `Mul`, all four operand orders, `ristretto.rs:330-392`. -/
def mul (c : Cfg) (p : EdPoint) (n : Sc) : Res EdPoint := doubleAndAdd ops c p n

/-- `is_valid`, `ristretto.rs:205-222`. -/
def isValid (c : Cfg) (p : EdPoint) : Res Bool := do
  let lp ← Ed.mul c p Scalar.L
  let hasOrderL ← Ed.ctEq c lp Ed.identity
  let v ← Ed.isValid c p
  return hasOrderL && v

/-- `RistrettoPoint::compress`, `ristretto.rs:398-425`. -/
def compress (c : Cfg) (p : EdPoint) : Res Bytes32 := do
  let zy ← Field.add c p.Z p.Y
  let zmy ← Field.sub c p.Z p.Y
  let u1 ← Field.mul c zy zmy
  let u2 ← Field.mul c p.X p.Y
  let u2_sq ← Field.square c u2
  let u1u2 ← Field.mul c u1 u2_sq
  let (_, I) ← Field.invSqrt c u1u2
  let D1 ← Field.mul c u1 I
  let D2 ← Field.mul c u2 I
  let D12 ← Field.mul c D1 D2
  let Zinv ← Field.mul c D12 p.T
  let tz ← Field.mul c p.T Zinv
  let (x, y, D) ← (
    if Field.isPositive tz == false then do
      let x ← Field.mul c Field.SQRT_MINUS_ONE p.Y
      let y ← Field.mul c Field.SQRT_MINUS_ONE p.X
      let D ← Field.mul c D1 INV_SQRT_A_MINUS_D
      pure (x, y, D)
    else pure (p.X, p.Y, D2) : Res (FE × FE × FE))
  let xz ← Field.mul c x Zinv
  let y ← Field.condNegate c y (!Field.isPositive xz)
  let zy' ← Field.sub c p.Z y
  let s ← Field.mul c zy' D
  let s ← Field.condNegate c s (!Field.isPositive s)
  return Field.toBytes s

/-- `elligator_ristretto_flavor`, `ristretto.rs:430-471`.
`conditional_assign` of `subtle` is `*self = conditional_select(self, other, choice)`. -/
def elligator (c : Cfg) (r0 : FE) : Res EdPoint := do
  let d := EDWARDS_D
  let one := Field.one
  let cc ← Field.neg c one
  let dsq ← Field.square c d
  let one_minus_d_sq ← Field.sub c one dsq
  let r0sq ← Field.square c r0
  let r ← Field.mul c Field.SQRT_MINUS_ONE r0sq
  let r1 ← Field.add c r one
  let N_s ← Field.mul c r1 one_minus_d_sq
  let dr ← Field.mul c d r
  let cdr ← Field.sub c cc dr
  let rd ← Field.add c r d
  let D ← Field.mul c cdr rd
  let (isSq, s) ← Field.sqrtRatioI c N_s D
  let s_prim ← Field.mul c s r0
  let s_prim ← Field.condNegate c s_prim (Field.isPositive s_prim)
  let s := Field.condSelect s s_prim (!isSq)
  let cc := Field.condSelect cc r (!isSq)
  let rm1 ← Field.sub c r one
  let crm1 ← Field.mul c cc rm1
  let dm1 ← Field.sub c d one
  let dm1sq ← Field.square c dm1
  let nt ← Field.mul c crm1 dm1sq
  let N_t ← Field.sub c nt D
  let s_square ← Field.square c s
  let ss ← Field.add c s s
  let W0 ← Field.mul c ss D
  let W1 ← Field.mul c N_t SQRT_AD_MINUS_ONE
  let W2 ← Field.sub c one s_square
  let W3 ← Field.add c one s_square
  let X ← Field.mul c W0 W3
  let Y ← Field.mul c W2 W1
  let Z ← Field.mul c W1 W3
  let T ← Field.mul c W0 W2
  return ⟨X, Y, Z, T⟩

/-- `from_uniform_bytes`, `ristretto.rs:493-507`. -/
def fromUniformBytes (c : Cfg) (b : Bytes64) : Res EdPoint := do
  let lo : Bytes32 := Vector.ofFn fun i : Fin 32 => b[i.val]'(by omega)
  let r1 := Field.fromBytes lo
  let R1 ← elligator c r1
  let hi : Bytes32 := Vector.ofFn fun i : Fin 32 => b[32 + i.val]'(by omega)
  let r2 := Field.fromBytes hi
  let R2 ← elligator c r2
  add c R1 R2

/-- `RistrettoPoint::new_random_point`, `ristretto.rs:519-523`. The argument is what the generator wrote;
`try_fill` of an infallible generator. -/
def newRandom (c : Cfg) (b : Bytes64) : Res EdPoint := fromUniformBytes c b

/-- Table lookup `BASEPOINT_ODD_MULTIPLES_TABLE[i]`, panicking out of bounds. -/
def tableAt (i : Nat) : Res EdPoint := unwrap ODD_MULTIPLES[i]?

/-- The loop of `window_naf_mul`, `edwards.rs:160-169`. -/
def wnafMulLoop (c : Cfg) (wnaf : Vector Int 256) : (n : Nat) → n ≤ 256 → EdPoint → Res EdPoint
  | 0, _, Q => .ok Q
  | i + 1, h, Q => do
    let Q ← double c Q
    let ki := wnaf[i]
    let Q ←
      if ki = 0 then .ok Q
      else if ki > 0 then do
        let t ← tableAt ki.toNat
        add c Q t
      else do
        let a ← chkI8 c (-ki)
        let t ← tableAt (a % 2 ^ 64).toNat
        sub c Q t
    wnafMulLoop c wnaf i (by omega) Q

/-- `window_naf_mul`, `edwards.rs:155-171`. -/
def windowNafMul (c : Cfg) (scalar : Sc) (width : Nat) : Res EdPoint := do
  let wnaf ← Scalar.computeWindowNAF c scalar width
  wnafMulLoop c wnaf 250 (by omega) identity

/-- `coset4`, `ristretto.rs:475-477`. -/
def coset4 (c : Cfg) (p : EdPoint) : Res (EdPoint × EdPoint × EdPoint × EdPoint) := Ed.coset4 c p

end Zerocaf.Ristretto
