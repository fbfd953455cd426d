import Verif.Model.Tools
import Verif.Model.Text

/-!
# Model: what the Python scripts print

`tools/kalinski_inv.py` and `tools/tonelli.py`, in Python 2: `tonelli.py` calls `xrange`, and both divide integers with
`/`, which Python 3 does in floating point. Facts about Python 2 used here, none of them in the repository: `str` of an
integer is its decimal numeral; `repr` of a long integer, which `print` uses inside tuples and lists, ends in `L`;
integers computed from a long one are long; `print` adds a newline.
-/

namespace Zerocaf
namespace PyText

/-- `fieldElement`, `kalinski_inv.py:13-24`, for the non-negative numbers it is called with. -/
def fieldElement (a : Nat) : List Char :=
  let f0 := a % 2 ^ 52
  let a := a / 2 ^ 52
  let f1 := a % 2 ^ 52
  let a := a / 2 ^ 52
  let f2 := a % 2 ^ 52
  let a := a / 2 ^ 52
  let f3 := a % 2 ^ 52
  let a := a / 2 ^ 52
  let f4 := a % 2 ^ 52
  '[' :: (Text.num f0 ++ (", ".toList ++ (Text.num f1 ++ (", ".toList ++ (Text.num f2 ++ (", ".toList ++
    (Text.num f3 ++ (", ".toList ++ (Text.num f4 ++ "]".toList)))))))))

/-- The line printed in round `i`, `kalinski_inv.py:68`. -/
def phase2Line (i r : Nat) : List Char :=
  "iter: ".toList ++ Text.num i ++ ": FieldElement(".toList ++ fieldElement r ++ [')', '\n']

/-- One round, `kalinski_inv.py:63-66`. -/
def phase2Step (p r : Nat) : Nat := if r % 2 = 0 then (r >>> 1) % p else (r + p) >>> 1

/-- The loop of `phase2` with its text, `kalinski_inv.py:62-68`, from round `i` on. -/
def phase2Loop (p : Nat) : Nat → Nat → Nat → List Char × Nat
  | 0, _, r => ([], r)
  | n + 1, i, r =>
    (phase2Line i (phase2Step p r) ++ (phase2Loop p n (i + 1) (phase2Step p r)).1,
      (phase2Loop p n (i + 1) (phase2Step p r)).2)

/-- The modulus of both scripts, `kalinski_inv.py:73` and `tonelli.py:72`. -/
def modulus : Nat := 7237005577332262213973186563042994240857116359379907606001950938285454250989

/-- The script `kalinski_inv.py:73-86` with its text, for any value in place of the number in line 76, which is an
"Input to change". The result of `AlmostMontInv` is positive. -/
def inverseScript (fuel a : Nat) : Res (List Char) := do
  let (ainv, k) ← Tools.almostMontInv fuel a modulus
  let ainv := ainv.toNat
  let (t, z) := phase2Loop modulus (k - 253) 0 ainv
  return "r:FieldElement".toList ++ fieldElement ainv ++ ['\n'] ++
    "r:FieldElement".toList ++ Text.num ainv ++ ['\n'] ++
    "k:".toList ++ Text.num k ++ ['\n'] ++
    "p:".toList ++ fieldElement modulus ++ ['\n'] ++
    t ++
    ['('] ++ Text.num z ++ ['L', ',', ' '] ++ Text.num k ++ [')', '\n'] ++
    "ainv:FieldElement".toList ++ fieldElement z ++ ['\n']

/-- The number in `kalinski_inv.py:76`. -/
def inverseInput : Nat := 904625697166532776746648320197686575422163851717637391703244652875051672039

/-- `repr` of a list of long integers. -/
def longs : List Nat → List Char
  | [] => [']']
  | [x] => Text.num x ++ ['L', ']']
  | x :: y :: r => Text.num x ++ ['L', ',', ' '] ++ longs (y :: r)

/-- The script `tonelli.py:71-74` with its text, for any value in place of the number in line 71. The zero that
`prime_mod_sqrt` returns for multiples of the modulus is not a long integer. -/
def rootScript (fuel : Nat) (y : Int) : Res (List Char) := do
  let l ← Tools.primeModSqrt fuel y modulus
  return (if y % modulus = 0 then "[0]".toList else '[' :: longs l) ++ ['\n']

/-- The number in `tonelli.py:71`. -/
def rootInput : Nat := 39450438318983875225554878125429420291626370862048309987484807859947766635845

end PyText
end Zerocaf
