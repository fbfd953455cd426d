import Verif.Model.Misc

/-!
# Model: the number tools beside the library

* `tools/src/main.rs`: base-51 conversions, `phase1`, `EdwardsPoint::new`.
* `tools/kalinski_inv.py`: `AlmostMontInv`, `phase2`, `fieldElement`.
* `tools/tonelli.py`: `legendre_symbol`, `prime_mod_sqrt`.

The Python scripts are Python 2 (they use `xrange`), so `/` on integers rounds down. Loops take fuel and give
`diverge` when it runs out. Printing is left out.
-/

namespace Zerocaf
namespace Tools

/-- The limbs of `to_field_elem_51`, `tools/src/main.rs:69-83`. The decimal string is modelled by the number. -/
def toBase51 (n : Nat) : L5 :=
  let r0 := n % 2251799813685248
  let n := n / 2251799813685248
  let r1 := n % 2251799813685248
  let n := n / 2251799813685248
  let r2 := n % 2251799813685248
  let n := n / 2251799813685248
  let r3 := n % 2251799813685248
  let n := n / 2251799813685248
  ⟨r0, r1, r2, r3, n % 2251799813685248⟩

/-- The number printed by `from_field_elem_base_51`, `tools/src/main.rs:113-120`. -/
def fromBase51 (a : L5) : Nat :=
  0 + 2251799813685248 ^ 0 * a.l0 + 2251799813685248 ^ 1 * a.l1 + 2251799813685248 ^ 2 * a.l2 +
    2251799813685248 ^ 3 * a.l3 + 2251799813685248 ^ 4 * a.l4

/-- `EdwardsPoint::new`, `tools/src/main.rs:262-276`: four decimal numbers to limbs. -/
def newPoint (x y z t : Nat) : EdPoint := ⟨Misc.toBase52 x, Misc.toBase52 y, Misc.toBase52 z, Misc.toBase52 t⟩

/-- The variables of the almost inverse loop. -/
structure KState where
  u : Nat
  v : Nat
  r : Nat
  s : Nat
  k : Nat
deriving DecidableEq, Repr

/-- One round of the loop of `AlmostMontInv`, `kalinski_inv.py:34-47`, and of `phase1`,
`tools/src/main.rs:195-230` (its fifth arm is unreachable: `u > v` or `v ≥ u`). -/
def kStep (q : KState) : KState :=
  if q.u % 2 = 0 then ⟨q.u >>> 1, q.v, q.r, q.s <<< 1, q.k + 1⟩
  else if q.v % 2 = 0 then ⟨q.u, q.v >>> 1, q.r <<< 1, q.s, q.k + 1⟩
  else if q.u > q.v then ⟨(q.u - q.v) >>> 1, q.v, q.r + q.s, q.s <<< 1, q.k + 1⟩
  else ⟨q.u, (q.v - q.u) >>> 1, q.r <<< 1, q.r + q.s, q.k + 1⟩

/-- The loop `while v > 0`, `kalinski_inv.py:33-47`. -/
def kLoop : Nat → KState → Res KState
  | 0, _ => .diverge
  | n + 1, q => if q.v > 0 then kLoop n (kStep q) else .ok q

/-- `AlmostMontInv`, `kalinski_inv.py:27-58`. Python integers: the difference may be negative. -/
def almostMontInv (fuel x p : Nat) : Res (Int × Nat) := do
  let q ← kLoop fuel ⟨p, x, 0, 1, 0⟩
  let r : Int := if q.r > p then (q.r : Int) - p else q.r
  return ((p : Int) - r, q.k)

/-- The loop of `phase2`, `kalinski_inv.py:62-66`, on non-negative numbers. -/
def phase2Loop (p : Nat) : Nat → Nat → Nat
  | 0, r => r
  | n + 1, r => phase2Loop p n (if r % 2 = 0 then (r >>> 1) % p else (r + p) >>> 1)

/-- `phase2`, `kalinski_inv.py:61-69`: `k - 253` rounds, none if that is negative. -/
def phase2 (p r k : Nat) : Nat := phase2Loop p (k - 253) r

/-- The modulus written in `phase1`, `tools/src/main.rs:187`. -/
def phase1Modulus : Nat := 7237005577332262213973186563042994240832148273380272487819684194273658967345

/-- `phase1`, `tools/src/main.rs:186-239`. `BigUint` subtraction panics below zero. -/
def phase1 (fuel x : Nat) : Res Nat := do
  let q ← kLoop fuel ⟨phase1Modulus, x, 0, 1, 0⟩
  let r := if q.r ≥ phase1Modulus then q.r - phase1Modulus else q.r
  if r ≤ phase1Modulus then .ok (phase1Modulus - r) else .panic

/-- `legendre_symbol`, `tonelli.py:1-10`. Python's three-argument `pow` is the power reduced. -/
def legendre (a p : Nat) : Int :=
  let ls := a ^ ((p - 1) / 2) % p
  if ls = p - 1 then -1 else ls

/-- `q, s = p - 1, 0; while q % 2 == 0: s += 1; q //= 2`, `tonelli.py:39-42`. -/
def splitLoop : Nat → Nat → Nat → Res (Nat × Nat)
  | 0, _, _ => .diverge
  | n + 1, q, s => if q % 2 = 0 then splitLoop n (q / 2) (s + 1) else .ok (q, s)

/-- `z = 1; while legendre_symbol(z, p) != -1: z += 1`, `tonelli.py:45-47`. -/
def nonResLoop (p : Nat) : Nat → Nat → Res Nat
  | 0, _ => .diverge
  | n + 1, z => if legendre z p ≠ -1 then nonResLoop p n (z + 1) else .ok z

/-- `for i in xrange(1, m): if pow(t, e, p) == 1: break; e *= 2`, `tonelli.py:56-60`: the value of `i` after the
loop. -/
def findI (p t : Nat) : List Nat → Nat → Nat → Nat
  | [], last, _ => last
  | i :: is, _, e => if t ^ e % p = 1 then i else findI p t is i (e * 2)

/-- `while t != 1`, `tonelli.py:54-67`. The exponent `m - i - 1` is never negative where the loop is entered. -/
def sqrtLoop (p : Nat) : Nat → Nat → Nat → Nat → Nat → Res Nat
  | 0, _, _, _, _ => .diverge
  | n + 1, x, t, c, m =>
    if t ≠ 1 then
      let i := findI p t (List.range' 1 (m - 1)) 0 2
      let b := c ^ (2 ^ (m - i - 1)) % p
      sqrtLoop p n (x * b % p) (t * b * b % p) (b * b % p) i
    else .ok x

/-- `prime_mod_sqrt`, `tonelli.py:13-69`. -/
def primeModSqrt (fuel : Nat) (a : Int) (p : Nat) : Res (List Nat) :=
  let a := (a % p).toNat
  if a = 0 then .ok [0]
  else if p = 2 then .ok [a]
  else if legendre a p ≠ 1 then .ok []
  else if p % 4 = 3 then
    let x := a ^ ((p + 1) / 4) % p
    .ok [x, p - x]
  else do
    let (q, s) ← splitLoop fuel (p - 1) 0
    let z ← nonResLoop p fuel 1
    let x ← sqrtLoop p fuel (a ^ ((q + 1) / 2) % p) (a ^ q % p) (z ^ q % p) s
    .ok [x, p - x]

end Tools
end Zerocaf
