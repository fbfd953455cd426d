import Mathlib.Data.Nat.Digits.Defs

/-!
# Specification: numerals

What a text has to look like to stand for a number in some base, and how a list is printed. Nothing here refers to the
model.
-/

namespace Zerocaf
namespace Numerals

/-- The digits in order of their values, with small letters. -/
def smallDigits : List Char := "0123456789abcdefghijklmnopqrstuvwxyz".toList

/-- The digits in order of their values, with capital letters. -/
def capitalDigits : List Char := "0123456789ABCDEFGHIJKLMNOPQRSTUVWXYZ".toList

/-- The character `c` is a digit of value `d`. -/
def IsDigit (c : Char) (d : ℕ) : Prop := smallDigits[d]? = some c ∨ capitalDigits[d]? = some c

/-- The text `s` is a numeral for `n` in base `r`: perhaps a plus sign, then digits below `r`, most significant first,
with underscores anywhere but in front. -/
def Numeral (r : ℕ) (s : List Char) (n : ℕ) : Prop :=
  ∃ (body : List Char) (ds : List ℕ), (s = body ∨ s = '+' :: body) ∧ body.head? ≠ some '_' ∧ ds ≠ [] ∧
    List.Forall₂ IsDigit (body.filter (· ≠ '_')) ds ∧ (∀ d ∈ ds, d < r) ∧ n = Nat.ofDigits r ds.reverse

/-- A list in square brackets, separated by commas and blanks. -/
def bracketed (l : List (List Char)) : List Char := '[' :: ([',', ' '].intercalate l ++ [']'])

end Numerals
end Zerocaf
