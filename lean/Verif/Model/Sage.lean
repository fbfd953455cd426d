import Verif.Model.Tools

/-!
# The functions of the Sage scripts

`/repo/sage_codes`: sessions and scripts the parameters of the curve were computed with. The files are transcripts, in
part damaged; line numbers are those of the files. Python integers are `Int`; `%` and `//` round down (`Int.fmod`,
`Int.fdiv`). Loops and recursions carry fuel and answer `diverge` when it runs out.
-/

namespace Zerocaf
namespace Sage

/-- `egcd`, `sage_weierstrass_code:1-6`. -/
def egcd : Nat → Int → Int → Res (Int × Int × Int)
  | 0, _, _ => .diverge
  | n + 1, a, b =>
    if a = 0 then .ok (b, 0, 1)
    else do
      let (g, y, x) ← egcd n (b.fmod a) a
      .ok (g, x - b.fdiv a * y, y)

/-- `modinv`, `sage_weierstrass_code:8-13`. The exception is a panic. -/
def modinv (fuel : Nat) (a m : Int) : Res Int := do
  let (g, x, _) ← egcd fuel a m
  if g ≠ 1 then .panic else .ok (x.fmod m)

/-- The loop `for m in xrange(r): if t == 1: break; t = pow(t, 2, p)` of `modular_sqrt`,
`sage_weierstrass_code:54-59`: the value of `m` after it. -/
def findM (p : Nat) : Nat → List Nat → Nat → Nat
  | _, [], last => last
  | t, m :: ms, _ => if t = 1 then m else findM p (t ^ 2 % p) ms m

/-- The loop `while True` of `modular_sqrt`, `sage_weierstrass_code:53-68`. The exponent `r - m - 1` is never
negative. -/
def shanksLoop (p : Nat) : Nat → Nat → Nat → Nat → Nat → Res Nat
  | 0, _, _, _, _ => .diverge
  | n + 1, x, b, g, r =>
    let m := findM p b (List.range r) 0
    if m = 0 then .ok x
    else
      let gs := g ^ (2 ^ (r - m - 1)) % p
      let g' := gs * gs % p
      shanksLoop p n (x * gs % p) (b * g' % p) g' m

/-- `modular_sqrt`, `sage_weierstrass_code:15-68`. The head of the function is missing in the file; what is there
starts with the case `pow(a, (p + 1) / 4, p)`, taken here for `p % 4 == 3`. The value `a` is below `p`. -/
def modularSqrt (fuel a p : Nat) : Res Nat :=
  if p % 4 = 3 then .ok (a ^ ((p + 1) / 4) % p)
  else do
    let (s, e) ← Tools.splitLoop fuel (p - 1) 0
    let n ← Tools.nonResLoop p fuel 2
    shanksLoop p fuel (a ^ ((s + 1) / 2) % p) (a ^ s % p) (n ^ s % p) e

/-- `mult`, `Point computation:199-205`, for the points of any group. -/
def mult {G : Type} [Zero G] [Add G] : Nat → G → Int → Res G
  | 0, _, _ => .diverge
  | n + 1, P, k =>
    if k = 0 then .ok 0
    else if k.fmod 2 = 1 then do
      let Q ← mult n (P + P) (k.fdiv 2)
      .ok (P + Q)
    else mult n (P + P) (k.fdiv 2)

/-- `j = 16; while 2**j < abs(n): j += 1`, `Safe Curve code:27-28`. -/
def widthLoop : Nat → Nat → Nat → Res Nat
  | 0, _, _ => .diverge
  | n + 1, a, j => if 2 ^ j < a then widthLoop n a (j + 1) else .ok j

/-- A term `expand2` writes: a power of two or a number, with its sign. -/
inductive Term where
  | pow (neg : Bool) (j : Nat)
  | num (neg : Bool) (k : Nat)
deriving DecidableEq, Repr

/-- `expand2`, `Safe Curve code:23-46`, with the terms it writes in order. -/
def expand2 : Nat → Int → Res (List Term)
  | 0, _ => .diverge
  | fuel + 1, n =>
    if n = 0 then .ok []
    else do
      let j ← widthLoop (fuel + 1) n.natAbs 16
      let j := if (2 : Int) ^ j - n.natAbs > n.natAbs - (2 : Int) ^ (j - 1) then j - 1 else j
      if ((n.natAbs : Int) - 2 ^ j).natAbs > 2 ^ (j - 10) then
        .ok [.num (decide (n < 0)) n.natAbs]
      else if n > 0 then do
        let l ← expand2 fuel (n - 2 ^ j)
        .ok (.pow false j :: l)
      else do
        let l ← expand2 fuel (n + 2 ^ j)
        .ok (.pow true j :: l)

/-- The text `expand2` returns: a term after the first is preceded by ` + `, a negative term by ` - `. -/
def render : List Term → String → String
  | [], s => s
  | .pow false j :: l, s => render l ((if s ≠ "" then s ++ " + " else s) ++ "2^" ++ toString j)
  | .pow true j :: l, s => render l (s ++ " - 2^" ++ toString j)
  | .num false k :: l, s => render l ((if s ≠ "" then s ++ " + " else s) ++ toString k)
  | .num true k :: l, s => render l (s ++ " - " ++ toString k)

/-- The coefficients of the Weierstrass form, `sage_weierstrass_code:86-95` and again `:122-132`, for a Montgomery
curve with coefficients `A`, `B`. -/
def weierstrass (fuel : Nat) (p A B : Int) : Res (Int × Int) := do
  let da ← modinv fuel (3 * B ^ 2) p
  let db ← modinv fuel (27 * B ^ 3) p
  .ok (((3 - A ^ 2) * da).fmod p, ((2 * A ^ 3 - 9 * A) * db).fmod p)

/-- The first coordinate of the point, `sage_weierstrass_code:96-97` and `:134-135`. -/
def weierstrassX (fuel : Nat) (p A u : Int) : Res Int := do
  let t ← modinv fuel 3 p
  .ok ((u + A * t).fmod p)

/-- The right-hand side of the equation, `sage_weierstrass_code:98-99` and `:136-137`. -/
def weierstrassY2 (p aw bw x : Int) : Int := (x ^ 3 + aw * x + bw).fmod p

/-- `get_A`, `curve_derivation:8-9`. -/
def getA (n : Nat) : Nat := n * 4 + 2

/-- The candidates the search skips: `if ((A^2) - 4).is_square() && legendre_symbol(A+2, q) == 1: continue`,
`curve_derivation:19-20`. `sq` is `is_square` of the field. -/
def skipped (sq : Nat → Bool) (i : Nat) : Bool := sq (getA i ^ 2 - 4) && sq (getA i + 2)

/-- The first `u` for which `findBasepoint` enters its `if`, as written: `for uInt in range(1, 1e3): … if not
v2.is_square()`, `Point computation:7-15` and `Safe Curve code:408-416`. -/
def firstTaken (sq : Nat → Bool) (A : Nat) : Option Nat :=
  (List.range' 1 999).find? fun u => !sq (u ^ 3 + A * u ^ 2 + u)

end Sage
end Zerocaf
