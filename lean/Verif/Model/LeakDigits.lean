import Verif.Model.Leak

/-!
# Leakage model of digit expansions and powers

The functions of `scalar.rs` and `edwards.rs` that work with signed digits, and `Scalar::pow`, with the record of
`Model/Leak.lean`. Accesses to the table of `window_naf_mul` are recorded with their index.
-/

namespace Zerocaf
namespace Leak

/-- A statement without a branch on data. -/
def stm {α : Type} (r : Res α) : LM α := ⟨[.stm], r⟩

/-- `chkI8` of the machine model; in debug builds a branch on the overflow flag. -/
def chkI8 (c : Cfg) (x : Int) : LM Int :=
  ⟨if c.debug then [.stm, .br .ovf (decide (-128 ≤ x ∧ x ≤ 127))] else [.stm], Zerocaf.chkI8 c x⟩

namespace Scalar

/-- `res[i] = x` on a `[i8; 256]`, with its bounds check. -/
def setDigit (v : Vector Int 256) (i : Nat) (x : Int) : LM (Vector Int 256) :=
  ⟨[.br .bound (decide (i < 256))], Zerocaf.Scalar.setDigit v i x⟩

/-- `From<i8>`, `scalar.rs:68-84`. -/
def fromI8 (c : Cfg) (x : Int) : LM Sc := do
  let b ← br .sign (decide (0 ≤ x))
  if b then pure ⟨x.toNat, 0, 0, 0, 0⟩
  else do
    let a ← chkI8 c (-x)
    neg c ⟨(a % 2 ^ 64).toNat, 0, 0, 0, 0⟩

/-- `Scalar::mods_2_pow_k`, `scalar.rs:433-442`. The shifts depend on the width only. -/
def mods2PowK (c : Cfg) (a : Sc) (w : Nat) : LM Int := do
  rassert (w < 32)
  let md ← stm (Zerocaf.Scalar.mod2PowK c a w)
  let w1 ← stm (Zerocaf.Scalar.predU8 c w)
  let t ← stm (Zerocaf.Scalar.shlI8 c w1)
  let g ← br .modsGe (decide (u8AsI8 md ≥ t))
  if g then do
    let x ← stm (Zerocaf.Scalar.shlU8 c w)
    chkI8 c (u8AsI8 md - u8AsI8 x)
  else pure (u8AsI8 md)

/-- The digit of `compute_NAF`, `scalar.rs:378`. -/
def nafDigit (c : Cfg) (k : Sc) : LM Int := do
  let md ← stm (Zerocaf.Scalar.mod2PowK c k 2)
  chkI8 c (2 - u8AsI8 md)

/-- The `while` loops of `compute_NAF`, `scalar.rs:376-387`, and of `compute_window_NAF`, `scalar.rs:402-413`, which
differ in the statement `digit` only. -/
def digitLoop (digit : Sc → LM Int) (c : Cfg) : Nat → Sc → Nat → Vector Int 256 → LM (Vector Int 256)
  | 0, _, _, _ => ⟨[], .diverge⟩
  | fuel + 1, k, i, res => do
    let g ← ge k Zerocaf.Scalar.one
    let w ← br .digWhile g
    if w then do
      let o ← br .digOdd (!Zerocaf.Scalar.isEven k)
      if o then do
        let ki ← digit k
        let res' ← setDigit res i ki
        let s ← fromI8 c ki
        let k' ← sub c k s
        digitLoop digit c fuel (Zerocaf.Scalar.halfWithoutMod k') (i + 1) res'
      else do
        let res' ← setDigit res i 0
        digitLoop digit c fuel (Zerocaf.Scalar.halfWithoutMod k) (i + 1) res'
    else pure res

/-- `Scalar::compute_NAF`, `scalar.rs:370-389`. -/
def computeNAF (c : Cfg) (a : Sc) : LM (Vector Int 256) :=
  digitLoop (nafDigit c) c c.fuel a 0 (Vector.replicate 256 0)

/-- `Scalar::compute_window_NAF`, `scalar.rs:396-415`. -/
def computeWindowNAF (c : Cfg) (a : Sc) (width : Nat) : LM (Vector Int 256) :=
  digitLoop (fun k => mods2PowK c k width) c c.fuel a 0 (Vector.replicate 256 0)

/-- The `while` loop of `Pow`, `scalar.rs:308-319`. -/
def powLoop (c : Cfg) : Nat → Sc → Sc → Sc → LM Sc
  | 0, _, _, _ => ⟨[], .diverge⟩
  | fuel + 1, base, res, expon => do
    let g ← gt expon Zerocaf.Scalar.zero
    let w ← br .spowWhile g
    if w then do
      let e ← br .spowEven (Zerocaf.Scalar.isEven expon)
      if e then do
        let expon' := Zerocaf.Scalar.halfWithoutMod expon
        let base' ← square c base
        powLoop c fuel base' res expon'
      else do
        let e1 ← sub c expon Zerocaf.Scalar.one
        let res' ← mul c res base
        let expon' ← half c e1
        let base' ← square c base
        powLoop c fuel base' res' expon'
    else pure res

/-- `Pow::pow`, `scalar.rs:300-322`. -/
def pow (c : Cfg) (a e : Sc) : LM Sc := powLoop c c.fuel a Zerocaf.Scalar.one e

end Scalar

/-- The loop of `binary_naf_mul`, `edwards.rs:144-151`. -/
def nafMulLoop {T : Type} (O : PointOps T) (c : Cfg) (point : T) (naf : Vector Int 256) :
    (n : Nat) → n ≤ 256 → T → LM T
  | 0, _, Q => pure Q
  | i + 1, h, Q => do
    let Q ← O.double c Q
    let b ← br .nafOne (decide (naf[i] = 1))
    let Q ← if b then O.add c Q point
            else do
              let b ← br .nafMinus (decide (naf[i] = -1))
              if b then O.sub c Q point else pure Q
    nafMulLoop O c point naf i (by omega) Q

/-- `binary_naf_mul`, `edwards.rs:136-153`. -/
def binaryNafMul {T : Type} (O : PointOps T) (c : Cfg) (point : T) (scalar : Sc) : LM T := do
  let naf ← Scalar.computeNAF c scalar
  nafMulLoop O c point naf 250 (by omega) O.identity

namespace Ristretto

/-- `Sub`, `ristretto.rs:278-295`. -/
def sub (c : Cfg) (p q : EdPoint) : LM EdPoint := do
  let nq ← Ed.neg c q
  Ed.add c p nq

/-- `BASEPOINT_ODD_MULTIPLES_TABLE[i]`: the bounds check and the address are observed. -/
def tableAt (i : Nat) : LM EdPoint :=
  ⟨[.br .bound (decide (i < Zerocaf.Ristretto.ODD_MULTIPLES.length)), .idx i], Zerocaf.Ristretto.tableAt i⟩

/-- The loop of `window_naf_mul`, `edwards.rs:160-169`. -/
def wnafMulLoop (c : Cfg) (wnaf : Vector Int 256) : (n : Nat) → n ≤ 256 → EdPoint → LM EdPoint
  | 0, _, Q => pure Q
  | i + 1, h, Q => do
    let Q ← Ed.double c Q
    let z ← br .winZero (decide (wnaf[i] = 0))
    let Q ← if z then pure Q
            else do
              let b ← br .winPos (decide (wnaf[i] > 0))
              if b then do
                let t ← tableAt (wnaf[i]).toNat
                Ed.add c Q t
              else do
                let a ← chkI8 c (-wnaf[i])
                let t ← tableAt (a % 2 ^ 64).toNat
                sub c Q t
    wnafMulLoop c wnaf i (by omega) Q

/-- `window_naf_mul`, `edwards.rs:155-171`. -/
def windowNafMul (c : Cfg) (scalar : Sc) (width : Nat) : LM EdPoint := do
  let wnaf ← Scalar.computeWindowNAF c scalar width
  wnafMulLoop c wnaf 250 (by omega) Zerocaf.Ristretto.identity

end Ristretto
end Leak
end Zerocaf
