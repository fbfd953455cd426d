import Verif.Props.Scalar
import Mathlib.Tactic.Ring
import Mathlib.Tactic.LinearCombination

/-!
# Signed digit expansions: uniqueness of the windowed non-adjacent form, minimal weight

Digits are functions on the natural numbers; only finitely many are looked at.
-/

namespace Zerocaf
namespace NafU

/-- The integer the first `n` digits denote. -/
def val (f : ℕ → ℤ) (n : ℕ) : ℤ := ∑ j ∈ Finset.range n, f j * 2 ^ j

theorem val_zero (f : ℕ → ℤ) : val f 0 = 0 := rfl

theorem val_succ (f : ℕ → ℤ) (n : ℕ) : val f (n + 1) = f 0 + 2 * val (fun j => f (j + 1)) n := by
  unfold val
  rw [Finset.sum_range_succ', Finset.mul_sum, add_comm, pow_zero, mul_one]
  congr 1
  exact Finset.sum_congr rfl fun j _ => by rw [pow_succ]; ring

/-- The conditions on the digits. -/
structure Ok (w : ℕ) (f : ℕ → ℤ) (n : ℕ) : Prop where
  dig : ∀ j < n, f j = 0 ∨ (f j % 2 = 1 ∧ |f j| < 2 ^ (w - 1))
  sparse : ∀ j k, j < k → k < n → k < j + w → f j = 0 ∨ f k = 0

theorem Ok.tail {w n : ℕ} {f : ℕ → ℤ} (h : Ok w f (n + 1)) : Ok w (fun j => f (j + 1)) n :=
  ⟨fun j hj => h.dig (j + 1) (by omega),
    fun j k hjk hk hw => h.sparse (j + 1) (k + 1) (by omega) (by omega) (by omega)⟩

/-- If the first `m` digits are zero the integer is a multiple of `2^m`. -/
theorem dvd_val : ∀ (m n : ℕ) (f : ℕ → ℤ), (∀ j, j < m → j < n → f j = 0) → (2 : ℤ) ^ m ∣ val f n := by
  intro m
  induction m with
  | zero => intro n f _; rw [pow_zero]; exact one_dvd _
  | succ m ih =>
    intro n f h
    cases n with
    | zero => rw [val_zero]; exact dvd_zero _
    | succ n =>
      rw [val_succ, h 0 (by omega) (by omega), zero_add, pow_succ, mul_comm]
      exact mul_dvd_mul_left 2 (ih n _ fun j h1 h2 => h (j + 1) (by omega) (by omega))

theorem parity {f : ℕ → ℤ} {n : ℕ} : val f (n + 1) % 2 = f 0 % 2 := by
  rw [val_succ]; omega

/-- An odd first digit is the residue of least absolute value. -/
theorem first_congr {w n : ℕ} (hw : 1 ≤ w) {f : ℕ → ℤ} (h : Ok w f (n + 1)) (h0 : f 0 ≠ 0) :
    (2 : ℤ) ^ w ∣ val f (n + 1) - f 0 := by
  rw [val_succ, add_sub_cancel_left]
  obtain ⟨v, rfl⟩ : ∃ v, w = v + 1 := ⟨w - 1, by omega⟩
  rw [pow_succ, mul_comm]
  refine mul_dvd_mul_left 2 (dvd_val v n _ fun j h1 h2 => ?_)
  exact (h.sparse 0 (j + 1) (by omega) (by omega) (by omega)).resolve_left h0

theorem abs_unique {w : ℕ} (hw : 1 ≤ w) {a b : ℤ} (ha : |a| < 2 ^ (w - 1)) (hb : |b| < 2 ^ (w - 1))
    (h : (2 : ℤ) ^ w ∣ a - b) : a = b := by
  obtain ⟨v, rfl⟩ : ∃ v, w = v + 1 := ⟨w - 1, by omega⟩
  rw [Nat.add_sub_cancel] at ha hb
  rw [pow_succ] at h
  rw [abs_lt] at ha hb
  have := Int.eq_zero_of_abs_lt_dvd h (by rw [abs_lt]; omega)
  omega

theorem unique {w : ℕ} (hw : 1 ≤ w) : ∀ (n : ℕ) (f g : ℕ → ℤ), Ok w f n → Ok w g n → val f n = val g n →
    ∀ j < n, f j = g j := by
  intro n
  induction n with
  | zero => intro f g _ _ _ j hj; omega
  | succ n ih =>
    intro f g hf hg h
    have p1 := @parity f n
    have p2 := @parity g n
    have e0 : f 0 = g 0 := by
      rcases hf.dig 0 (by omega) with a | ⟨a, a'⟩ <;> rcases hg.dig 0 (by omega) with b | ⟨b, b'⟩
      · rw [a, b]
      · rw [h] at p1; omega
      · rw [h] at p1; omega
      · have c1 := first_congr hw hf (by intro e; rw [e] at a; omega)
        have c2 := first_congr hw hg (by intro e; rw [e] at b; omega)
        rw [h] at c1
        exact abs_unique hw a' b' (by
          have := dvd_sub c2 c1
          rwa [show val g (n + 1) - g 0 - (val g (n + 1) - f 0) = f 0 - g 0 by ring] at this)
    have e1 : val (fun j => f (j + 1)) n = val (fun j => g (j + 1)) n := by
      rw [val_succ, val_succ, e0] at h
      omega
    intro j hj
    cases j with
    | zero => exact e0
    | succ j => exact ih _ _ hf.tail hg.tail e1 j (by omega)

/-! ### Weight -/

/-- The number of nonzero digits of the non-adjacent form of an integer. -/
def nw (k : ℤ) : ℕ :=
  if k = 0 then 0
  else if k % 2 = 0 then nw (k / 2)
  else if k % 4 = 1 then nw ((k - 1) / 4) + 1
  else nw ((k + 1) / 4) + 1
termination_by k.natAbs
decreasing_by all_goals omega

theorem nw_zero : nw 0 = 0 := by rw [nw]; rfl

theorem nw_even (k : ℤ) : nw (2 * k) = nw k := by
  by_cases h : k = 0
  · rw [h]; rfl
  · rw [nw, if_neg (by omega), if_pos (by omega), show 2 * k / 2 = k by omega]

theorem nw_one (k : ℤ) : nw (4 * k + 1) = nw k + 1 := by
  rw [nw, if_neg (by omega), if_neg (by omega), if_pos (by omega), show (4 * k + 1 - 1) / 4 = k by omega]

theorem nw_neg_one (k : ℤ) : nw (4 * k - 1) = nw k + 1 := by
  rw [nw, if_neg (by omega), if_neg (by omega), if_neg (by omega), show (4 * k - 1 + 1) / 4 = k by omega]

/-- A step by one costs at most one digit. -/
theorem nw_step : ∀ (m : ℕ) (k : ℤ), k.natAbs ≤ m → nw (k + 1) ≤ nw k + 1 ∧ nw (k - 1) ≤ nw k + 1 := by
  intro m
  induction m using Nat.strong_induction_on with
  | _ m ih =>
  intro k hk
  by_cases h0 : k = 0
  · subst h0
    have e1 := nw_one 0
    have e2 := nw_neg_one 0
    rw [nw_zero] at *
    norm_num at e1 e2
    norm_num [e1, e2]
  have hm : k.natAbs - 1 < m := by omega
  -- `k` modulo 4
  obtain ⟨j, hj⟩ : ∃ j, k = 4 * j ∨ k = 4 * j + 1 ∨ k = 4 * j + 2 ∨ k = 4 * j - 1 :=
    ⟨(k + 1) / 4, by omega⟩
  rcases hj with rfl | rfl | rfl | rfl
  · rw [nw_one, nw_neg_one, show 4 * j = 2 * (2 * j) by ring, nw_even, nw_even]
    exact ⟨le_rfl, le_rfl⟩
  · have i := (ih (j.natAbs * 2) (by omega) (2 * j) (by omega)).1
    rw [nw_even] at i
    rw [show 4 * j + 1 + 1 = 2 * (2 * j + 1) by ring, nw_even, show 4 * j + 1 - 1 = 2 * (2 * j) by ring,
      nw_even, nw_even, nw_one]
    omega
  · -- neighbours are `4 (j + 1) - 1` and `4 j + 1`
    rw [show 4 * j + 2 + 1 = 4 * (j + 1) - 1 by ring, show 4 * j + 2 - 1 = 4 * j + 1 by ring, nw_neg_one,
      nw_one, show 4 * j + 2 = 2 * (2 * j + 1) by ring, nw_even]
    obtain ⟨i, hi⟩ : ∃ i, j = 2 * i ∨ j = 2 * i - 1 := ⟨(j + 1) / 2, by omega⟩
    rcases hi with rfl | rfl
    · have s := (ih (m - 1) (by omega) (2 * i) (by omega)).1
      rw [show 2 * (2 * i) + 1 = 4 * i + 1 by ring, nw_one, nw_even] at *
      omega
    · have s := (ih (m - 1) (by omega) (2 * i) (by omega)).2
      rw [show 2 * (2 * i - 1) + 1 = 4 * i - 1 by ring, nw_neg_one, show 2 * i - 1 + 1 = 2 * i by ring,
        nw_even] at *
      omega
  · have i := (ih (m - 1) (by omega) (2 * j) (by omega)).2
    rw [nw_even] at i
    rw [show 4 * j - 1 + 1 = 2 * (2 * j) by ring, nw_even, nw_even,
      show 4 * j - 1 - 1 = 2 * (2 * j - 1) by ring, nw_even, nw_neg_one]
    omega

/-- The number of nonzero digits among the first `n`. -/
def wt (f : ℕ → ℤ) (n : ℕ) : ℕ := ((Finset.range n).filter fun j => f j ≠ 0).card

theorem wt_succ (f : ℕ → ℤ) (n : ℕ) :
    wt f (n + 1) = (if f 0 ≠ 0 then 1 else 0) + wt (fun j => f (j + 1)) n := by
  unfold wt
  rw [Finset.card_filter, Finset.card_filter, Finset.sum_range_succ', add_comm]

theorem nw_le_wt : ∀ (n : ℕ) (f : ℕ → ℤ), (∀ j < n, f j = -1 ∨ f j = 0 ∨ f j = 1) → nw (val f n) ≤ wt f n := by
  intro n
  induction n with
  | zero => intro f _; rw [val_zero, nw_zero]; exact Nat.zero_le _
  | succ n ih =>
    intro f h
    have i := ih (fun j => f (j + 1)) (fun j hj => h (j + 1) (by omega))
    rw [val_succ, wt_succ]
    generalize val (fun j => f (j + 1)) n = k at *
    have s := nw_step _ (2 * k) le_rfl
    rw [nw_even] at s
    rcases h 0 (by omega) with e | e | e <;> rw [e]
    · rw [if_pos (by decide), show -1 + 2 * k = 2 * k - 1 by ring]; omega
    · rw [if_neg (by decide), zero_add, nw_even]; omega
    · rw [if_pos (by decide), add_comm 1 (2 * k)]; omega

theorem nw_naf : ∀ (n : ℕ) (f : ℕ → ℤ), Ok 2 f n → nw (val f n) = wt f n := by
  intro n
  induction n using Nat.strong_induction_on with
  | _ n ih =>
  intro f h
  cases n with
  | zero => rw [val_zero, nw_zero]; rfl
  | succ n =>
    rw [val_succ, wt_succ]
    by_cases h0 : f 0 = 0
    · rw [h0, if_neg (by simp), zero_add, zero_add, nw_even]
      exact ih n (by omega) _ h.tail
    · rw [if_pos h0]
      have hd : f 0 = 1 ∨ f 0 = -1 := by
        rcases h.dig 0 (by omega) with a | ⟨a, b⟩
        · exact absurd a h0
        · rw [abs_lt] at b; norm_num at b; omega
      cases n with
      | zero =>
        rw [val_zero]
        have : wt (fun j => f (j + 1)) 0 = 0 := rfl
        rw [this]
        have e1 := nw_one 0
        have e2 := nw_neg_one 0
        rw [nw_zero] at e1 e2
        norm_num at e1 e2
        rcases hd with e | e <;> rw [e]
        · simpa using e1
        · simpa using e2
      | succ n =>
        have z : f 1 = 0 := (h.sparse 0 1 (by omega) (by omega) (by omega)).resolve_left h0
        have i := ih n (by omega) _ h.tail.tail
        rw [val_succ, wt_succ]
        rw [zero_add, z, if_neg (by simp), zero_add, zero_add, ← i]
        generalize val (fun j => f (j + 1 + 1)) n = k
        rcases hd with e | e <;> rw [e]
        · rw [show 1 + 2 * (2 * k) = 4 * k + 1 by ring, nw_one, add_comm]
        · rw [show -1 + 2 * (2 * k) = 4 * k - 1 by ring, nw_neg_one, add_comm]

end NafU
end Zerocaf
