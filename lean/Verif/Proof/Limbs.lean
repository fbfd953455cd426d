import Verif.Model.Field
import Verif.Model.Scalar
import Verif.Spec.Basic

/-!
# Limb-level lemmas shared by the field and scalar models
-/

namespace Zerocaf

theorem mask52_and (n : Nat) : n &&& mask52 = n % 2 ^ 52 := by
  unfold mask52; exact Nat.and_two_pow_sub_one_eq_mod n 52

theorem chk64_ok (c : Cfg) {n : Nat} (h : n < 2 ^ 64) : chk64 c n = .ok n := by
  simp only [chk64, if_pos h]

theorem chk128_ok (c : Cfg) {n : Nat} (h : n < 2 ^ 128) : chk128 c n = .ok n := by
  simp only [chk128, if_pos h]

theorem shr_eq (n k : Nat) : n >>> k = n / 2 ^ k := Nat.shiftRight_eq_div_pow n k

/-- One borrow step: with `cin` the incoming borrow bit, the step yields the new limb and borrow. -/
theorem subStep_spec (c : Cfg) (a b s : Nat) (ha : a < 2 ^ 63) (hb : b < 2 ^ 52) (hs : s < 2 ^ 64) :
    ∃ t, Field.subStep c a b s = .ok t ∧ t < 2 ^ 64 ∧
      ((b + s / 2 ^ 63 ≤ a ∧ t / 2 ^ 63 = 0 ∧ t = a - (b + s / 2 ^ 63)) ∨
       (a < b + s / 2 ^ 63 ∧ t / 2 ^ 63 = 1 ∧ t % 2 ^ 52 + (b + s / 2 ^ 63) = a % 2 ^ 52 + 2 ^ 52)) := by
  refine ⟨wsub64 a (b + s / 2 ^ 63), ?_, ?_, ?_⟩
  · unfold Field.subStep
    rw [shr_eq, chk64_ok c (by omega)]
    rfl
  · unfold wsub64; omega
  · unfold wsub64
    by_cases h : b + s / 2 ^ 63 ≤ a
    · left; omega
    · right
      have h1 : a < 2 ^ 52 + 1 := by omega
      omega

/-- The mask `((s >> 63) ^ 1).wrapping_sub(1)` is zero or all ones. -/
theorem underflowMask (s : Nat) (hs : s < 2 ^ 64) :
    (s / 2 ^ 63 = 0 ∧ wsub64 ((s >>> 63) ^^^ 1) 1 = 0) ∨
    (s / 2 ^ 63 = 1 ∧ wsub64 ((s >>> 63) ^^^ 1) 1 = 2 ^ 64 - 1) := by
  rw [shr_eq]
  have : s / 2 ^ 63 = 0 ∨ s / 2 ^ 63 = 1 := by omega
  rcases this with h | h <;> rw [h]
  · left; exact ⟨rfl, by decide⟩
  · right; exact ⟨rfl, by decide⟩

theorem and_zero_mask (l : Nat) : l &&& 0 = 0 := Nat.and_zero l

theorem and_full_mask (l : Nat) (h : l < 2 ^ 64) : l &&& (2 ^ 64 - 1) = l := by
  rw [Nat.and_two_pow_sub_one_eq_mod]; omega

end Zerocaf
