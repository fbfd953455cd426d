import Mathlib.AlgebraicGeometry.EllipticCurve.Affine.Point
import Mathlib.Analysis.SpecialFunctions.Log.Base
import Mathlib.NumberTheory.Padics.PadicVal.Defs
import Mathlib.FieldTheory.Finite.Basic
import Verif.Model.Tools

/-!
# The safe curve script

`verify`, `/repo/sage_codes/Safe Curve code:52-379`, the driver of the SafeCurves checks. Lines 160, 215, 251 and 252 have
lost their indentation in the file; they are taken as in the published script, as part of the loop or condition above them.

Simplifications. The files the script reads are the fields of `Input`; an unknown shape does not occur. Of the files it
writes, those with statuses and numbers are the fields of `Report`; hexadecimal and power-of-two forms (`expand2` is in
`Model/Sage.lean`), equations and proof pages are left out. `Integer.is_prime` is a parameter `sage`. `GF(p)` is the field
of integers modulo `p` and raises an exception if `p` is not prime; prime powers are not considered. Logarithms and square
roots are those of real numbers. Exceptions outside `try` are `panic`; loops carry fuel and answer `diverge` when it runs
out. `%` and `/` on integers with positive divisor round down, as in Python.
-/

namespace Zerocaf
namespace SafeCurve

/-- The three shapes, with the coefficients read for them, lines 264, 274, 289. -/
inductive Shape where
  | edwards (d : ℤ)
  | montgomery (A B : ℤ)
  | shortw (a b : ℤ)

/-- What the script reads, lines 53-63. -/
structure Input where
  p : ℕ
  l : ℕ
  x0 : ℤ
  y0 : ℤ
  x1 : ℤ
  y1 : ℤ
  shape : Shape
  primes : List ℕ
  rigid : String

/-! ### Primes, lines 77-109 -/

open Classical in
/-- The loop over the verified primes, lines 91-98: the product of the prime powers found. -/
noncomputable def factored (n b : ℕ) : List ℕ → ℕ → ℕ
  | [], f => f
  | v :: vs, f => factored n b vs
      (if f ^ 2 ≤ n ∧ n % v = 1 ∧ IsUnit ((b : ZMod n) ^ ((n - 1) / v) - 1) then f * v ^ padicValNat v (n - 1) else f)

/-- The base `b` proves `n` prime, lines 85-100. -/
def Proves (V : List ℕ) (n b : ℕ) : Prop :=
  (b : ZMod n) ^ (n - 1) = 1 ∧ n < factored n b V.reverse 1 ^ 2 ∧ n % factored n b V.reverse 1 = 1

open Classical in
/-- One line of the file of primes, lines 79-107. -/
noncomputable def addPrime (sage : ℕ → Bool) (V : List ℕ) (n : ℕ) : List ℕ :=
  if sage n = false then V
  else if n = 2 then if n ∈ V then V else V ++ [n]
  else if ∃ b, b.Prime ∧ b < 10000 ∧ Proves V n b then if n ∈ V then V else V ++ [n]
  else V

/-- The verified primes, lines 77-107. -/
noncomputable def verified (sage : ℕ → Bool) (s : List ℕ) : List ℕ := s.foldl (addPrime sage) []

/-! ### Numbers -/

/-- `while d % v == 0: d /= v`. -/
def strip (v : ℤ) : ℕ → ℤ → Res ℤ
  | 0, _ => .diverge
  | n + 1, d => if d % v = 0 then strip v n (d / v) else .ok d

/-- That loop for every verified prime, or for its square. -/
def stripAll (fuel : ℕ) (g : ℕ → ℤ) : List ℕ → ℤ → Res ℤ
  | [], d => .ok d
  | v :: vs, d => do
    let d ← strip (g v) fuel d
    stripAll fuel g vs d

/-- `while d % v == 0: d //= v; f *= factor(v)`: what is left and the factors. -/
def collect (v : ℕ) : ℕ → ℤ → List ℕ → Res (ℤ × List ℕ)
  | 0, _, _ => .diverge
  | n + 1, d, f => if d % v = 0 then collect v n (d / v) (f ++ [v]) else .ok (d, f)

/-- That loop for every verified prime, lines 155-160 and 210-215. -/
def collectAll (fuel : ℕ) : List ℕ → ℤ → List ℕ → Res (List ℕ)
  | [], _, f => .ok f
  | v :: vs, d, f => do
    let (d, f) ← collect v fuel d f
    collectAll fuel vs d f

/-- `while d % v == 0: if u^(d/v) != 1: break; d /= v`, lines 146-148. -/
def lower {m : ℕ} (u : ZMod m) (v : ℕ) : ℕ → ℕ → Res ℕ
  | 0, _ => .diverge
  | n + 1, d => if d % v = 0 then if u ^ (d / v) ≠ 1 then .ok d else lower u v n (d / v) else .ok d

/-- That loop for every verified prime, lines 145-148. -/
def lowerAll {m : ℕ} (fuel : ℕ) (u : ZMod m) : List ℕ → ℕ → Res ℕ
  | [], d => .ok d
  | v :: vs, d => do
    let d ← lower u v fuel d
    lowerAll fuel u vs d

/-- The embedding degree, lines 138-150 and 222-234; `none` is `Unverified`. -/
def embedding (sage : ℕ → Bool) (fuel : ℕ) (V : List ℕ) (p l : ℕ) : Res (Option ℕ) :=
  if Nat.gcd l p = 1 ∧ sage l = true then do
    let d ← stripAll fuel (fun v => v) V ((l : ℤ) - 1)
    if d = 1 then do
      let e ← lowerAll fuel (p : ZMod l) V (l - 1)
      .ok (some e)
    else .ok none
  else .ok none

/-- `(l-1)/d <= 100` where the embedding degree `d` is known, lines 149 and 233. Otherwise nothing is required. -/
def movSafe (l : ℕ) : Option ℕ → Bool
  | none => true
  | some d => decide (l - 1 ≤ 100 * d)

/-- `p+1-l*round((p+1)/l)`, line 152. Halves are rounded up. -/
def trace (p l : ℕ) : ℤ := (p : ℤ) + 1 - l * (((2 * (p + 1) + l) / (2 * l) : ℕ) : ℤ)

/-- The discriminant, lines 166-177; `none` is `Unverified`. -/
def disc (fuel : ℕ) (V : List ℕ) (p : ℕ) (t : ℤ) : Res (Option ℤ) := do
  let D ← stripAll fuel (fun v => (v : ℤ) ^ 2) V (t ^ 2 - 4 * p)
  if (((V.filter fun v : ℕ => decide (D % v = 0)).prod : ℕ) : ℤ) ≠ -D then .ok none
  else .ok (some (if D % 4 ≠ 1 then D * 4 else D))

/-- `D < -2^100` where the discriminant is known, lines 169-180. -/
def discBig : Option ℤ → Bool
  | none => false
  | some D => decide (D < -2 ^ 100)

/-- Line 182. -/
noncomputable def pi4 : ℝ := 0.78539816339744830961566084581987572105

open Classical in
/-- `log(pi4*l)/log(4) >= 100`, lines 183-185 and 236-238. -/
noncomputable def rhoOk (l : ℕ) : Bool := decide (100 ≤ Real.log (pi4 * l) / Real.log 4)

/-- `if twistl == 'Unverified' or v > twistl: twistl = v`, line 195. -/
def larger (v : ℕ) : Option ℕ → ℕ
  | none => v
  | some w => if v > w then v else w

/-- The loop of lines 193-195. -/
def largest (d : ℤ) : List ℕ → Option ℕ → Option ℕ
  | [], r => r
  | v :: vs, r => largest d vs (if d % v = 0 then some (larger v r) else r)

/-- The large prime factor of the order of the twist, lines 187-195. -/
def twistL (fuel : ℕ) (V : List ℕ) (m : ℤ) : Res (Option ℕ) := do
  let d ← stripAll fuel (fun v => v) V m
  if d = 1 then .ok (largest m V none) else .ok none

open Classical in
/-- The loop over the powers of one prime, lines 245-252: the cost so far and the order that is left. -/
noncomputable def jointLoop (v : ℕ) : ℕ → ℤ → ℤ → ℕ → ℝ → Res (ℕ × ℝ)
  | 0, _, _, _, _ => .diverge
  | n + 1, d1, d2, pre, j =>
    if d1 % v = 0 ∨ d2 % v = 0 then
      let d1' := if d1 % v = 0 then d1 / v else d1
      let d2' := if d2 % v = 0 then d2 / v else d2
      if v + √(pi4 * j / v) < √(pi4 * j) then jointLoop v n d1' d2' (pre + v) (j / v)
      else jointLoop v n d1' d2' pre j
    else .ok (pre, j)

/-- The loop over the verified primes, lines 240-252. -/
noncomputable def jointAll (fuel : ℕ) (d1 d2 : ℤ) : List ℕ → ℕ → ℝ → Res (ℕ × ℝ)
  | [], pre, j => .ok (pre, j)
  | v :: vs, pre, j => do
    let (pre, j) ← jointLoop v fuel d1 d2 pre j
    jointAll fuel d1 d2 vs pre j

open Classical in
/-- `log(precomp + sqrt(pi4 * joint))/log(2) >= 100`, lines 254-256. -/
noncomputable def jointOk (pre : ℕ) (j : ℝ) : Bool := decide (100 ≤ Real.log (pre + √(pi4 * j)) / Real.log 2)

/-- What is written about the twist, lines 207-256. -/
structure Twist where
  l : ℕ
  cofactor : List ℕ
  gcd1 : Bool
  embedding : Option ℕ
  rho : Bool
  joint : Bool

/-- Lines 207-256. -/
noncomputable def twist (sage : ℕ → Bool) (fuel : ℕ) (V : List ℕ) (p l : ℕ) (t : ℤ) (tl : ℕ) : Res Twist := do
  let f ← collectAll fuel V ((p + 1 + t) / tl) []
  let e ← embedding sage fuel V p tl
  let (pre, j) ← jointAll fuel (p + 1 - t) (p + 1 + t) V 0 l
  .ok ⟨tl, f, decide (Nat.gcd tl p = 1), e, rhoOk tl, jointOk pre j⟩

/-- The conditions on the twist together, `safetwist`. -/
def Twist.safe (T : Twist) : Bool := T.gcd1 && movSafe T.l T.embedding && T.rho && T.joint

/-- `safetwist`, which line 206 sets to `False` where no large prime factor is known. -/
def twistSafe : Option Twist → Bool
  | none => false
  | some T => T.safe

/-! ### The curve -/

section curve
variable {p : ℕ} [Fact p.Prime]

/-- Division in `GF(p)`. -/
def divk (x y : ZMod p) : Res (ZMod p) := if y = 0 then .panic else .ok (x / y)

/-- The checks of the equation, lines 301-304, and the short Weierstrass form with its two points, lines 306-318. -/
structure Short (p : ℕ) where
  elliptic : Bool
  on0 : Bool
  on1 : Bool
  a : ZMod p
  b : ZMod p
  x0 : ZMod p
  y0 : ZMod p
  x1 : ZMod p
  y1 : ZMod p

/-- From Montgomery to short Weierstrass form, lines 313-318. -/
def ofMontgomery (e o0 o1 : Bool) (A B x0 y0 x1 y1 : ZMod p) : Res (Short p) := do
  let a ← divk (3 - A ^ 2) (3 * B ^ 2)
  let b ← divk (2 * A ^ 3 - 9 * A) (27 * B ^ 3)
  let r ← divk A 3
  let x0 ← divk (x0 + r) B
  let y0 ← divk y0 B
  let x1 ← divk (x1 + r) B
  let y1 ← divk y1 B
  .ok ⟨e, o0, o1, a, b, x0, y0, x1, y1⟩

/-- Lines 259-318. -/
def short (shape : Shape) (x0 y0 x1 y1 : ZMod p) : Res (Short p) :=
  match shape with
  | .edwards d0 => do
    let d : ZMod p := d0
    let A ← divk (2 * (1 + d)) (1 - d)
    let B ← divk 4 (1 - d)
    let u0 ← divk (1 + y0) (1 - y0)
    let v0 ← divk u0 x0
    let u1 ← divk (1 + y1) (1 - y1)
    let v1 ← divk u1 x1
    ofMontgomery (decide (d * (1 - d) ≠ 0)) (decide (x0 ^ 2 + y0 ^ 2 - 1 - d * x0 ^ 2 * y0 ^ 2 = 0))
      (decide (x1 ^ 2 + y1 ^ 2 - 1 - d * x1 ^ 2 * y1 ^ 2 = 0)) A B u0 v0 u1 v1
  | .montgomery A0 B0 =>
    let A : ZMod p := A0
    let B : ZMod p := B0
    ofMontgomery (decide (B * (A ^ 2 - 4) ≠ 0)) (decide (B * y0 ^ 2 - x0 ^ 3 - A * x0 ^ 2 - x0 = 0))
      (decide (B * y1 ^ 2 - x1 ^ 3 - A * x1 ^ 2 - x1 = 0)) A B x0 y0 x1 y1
  | .shortw a0 b0 =>
    let a : ZMod p := a0
    let b : ZMod p := b0
    .ok ⟨decide (4 * a ^ 3 + 27 * b ^ 2 ≠ 0), decide (y0 ^ 2 - x0 ^ 3 - a * x0 - b = 0),
      decide (y1 ^ 2 - x1 ^ 3 - a * x1 - b = 0), a, b, x0, y0, x1, y1⟩

/-- The curve `EllipticCurve([a,b])`, line 321. -/
def Short.curve (s : Short p) : WeierstrassCurve.Affine (ZMod p) := ⟨0, 0, 0, s.a, s.b⟩

/-- What is written about the group, lines 329-342. -/
structure Group where
  numorder2 : ℕ
  numorder4 : ℕ
  lTimesBase : Bool
  cofactorBase : Bool

open Classical in
/-- The part under `try`, lines 320-348; `none` is the exception that a singular curve or a point off the curve raises. -/
noncomputable def group (s : Short p) (l : ℕ) (cof : ℤ) : Option Group :=
  if s.curve.Δ = 0 then none
  else if h1 : s.curve.Nonsingular s.x1 s.y1 then
    if h0 : s.curve.Nonsingular s.x0 s.y0 then
      some ⟨Nat.card {P : s.curve.Point // P ≠ 0 ∧ 2 • P = 0}, Nat.card {P : s.curve.Point // 2 • P ≠ 0 ∧ 4 • P = 0},
        decide (l • WeierstrassCurve.Affine.Point.some s.x1 s.y1 h1 = 0),
        decide (cof • WeierstrassCurve.Affine.Point.some s.x0 s.y0 h0 = .some s.x1 s.y1 h1)⟩
    else none
  else none

/-- `safecomplete`, lines 331-348. -/
def completeOk : Option Group → Bool
  | none => false
  | some g => decide (g.numorder4 = 2) && decide (g.numorder2 = 1) && g.lTimesBase

open Classical in
/-- `montladder`, lines 350-354. -/
noncomputable def ladder (s : Short p) : Bool :=
  decide (∃ r : ZMod p, r ^ 3 + s.a * r + s.b = 0 ∧ IsSquare (3 * r ^ 2 + s.a))

end curve

/-! ### The report -/

/-- What the script writes. -/
structure Report where
  verified : List ℕ
  embedding : Option ℕ
  trace : Option ℤ
  cofactor : Option (List ℕ)
  disc : Option ℤ
  twist : Option Twist
  group : Option Group
  safefield : Bool
  safeeq : Bool
  safebase : Bool
  saferho : Bool
  safetransfer : Bool
  safedisc : Bool
  saferigid : Bool
  safeladder : Bool
  safetwist : Bool
  safecomplete : Bool
  safeind : Bool
  safecurve : Bool

/-- `verify`, lines 52-379. -/
noncomputable def verify (sage : ℕ → Bool) (fuel : ℕ) (i : Input) : Res Report :=
  if hp : i.p.Prime then do
    have : Fact i.p.Prime := ⟨hp⟩
    let V := verified sage i.primes
    let e ← embedding sage fuel V i.p i.l
    if i.l = 0 then .panic else
    let t := trace i.p i.l
    let cof ← (if 16 * i.p < i.l ^ 2 then do
        let f ← collectAll fuel V ((i.p + 1 - t) / i.l) []
        .ok (some f)
      else .ok none : Res (Option (List ℕ)))
    let D ← disc fuel V i.p t
    let tl ← twistL fuel V (i.p + 1 + t)
    let tw ← (match tl with
      | none => .ok none
      | some q => do
        let T ← twist sage fuel V i.p i.l t q
        .ok (some T) : Res (Option Twist))
    let s ← short (p := i.p) i.shape i.x0 i.y0 i.x1 i.y1
    let g := group s i.l ((i.p + 1 - t) / i.l)
    let safefield := decide (i.p ∈ V)
    let safebase := decide (i.l ∈ V) && s.on0 && s.on1
    let safetransfer := decide (Nat.gcd i.l i.p = 1) && movSafe i.l e
    let saferigid := i.rigid == "fully rigid" || i.rigid == "somewhat rigid"
    let safetwist := twistSafe tw
    let safeind := decide ((i.p + 1 - t) % 2 = 0) && decide (s.b ≠ 0)
    .ok ⟨V, e, if 16 * i.p < i.l ^ 2 then some t else none, cof, D, tw, g, safefield, s.elliptic, safebase, rhoOk i.l,
      safetransfer, discBig D, saferigid, ladder s, safetwist, completeOk g, safeind,
      safefield && s.elliptic && safebase && rhoOk i.l && safetransfer && discBig D && saferigid && ladder s &&
        safetwist && completeOk g && safeind⟩
  else .panic

end SafeCurve
end Zerocaf
