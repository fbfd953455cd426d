import Verif.Model.Sage
import Verif.Props.Tools
import Verif.Props.Curve
import Mathlib.Algebra.Group.Basic
import Mathlib.Data.Int.GCD
import Mathlib.Tactic.LinearCombination
import Mathlib.Tactic.FieldSimp

/-!
# C117: the functions of the Sage scripts

Extended Euclid and modular inverse, the square root, multiplication of points, the expansion in powers of two and the
change to Weierstrass form, for all inputs, including those on which the scripts fail.
-/

namespace Zerocaf
namespace Props

open Sage Tools

/-! ### Extended Euclid -/

theorem fmod_neg_bound (a b : ℤ) (h : a < 0) : a < b.fmod a ∧ b.fmod a ≤ 0 := by
  have e : (-b).fmod (-a) = -b.fmod a := Int.neg_fmod_neg b a
  have h1 := Int.fmod_nonneg_of_pos (-b) (show 0 < -a by omega)
  have h2 := Int.fmod_lt_of_pos (-b) (show 0 < -a by omega)
  omega

theorem fmod_bound (a b : ℤ) (ha : a ≠ 0) : (b.fmod a).natAbs < a.natAbs := by
  rcases lt_or_gt_of_ne ha with h | h
  · have := fmod_neg_bound a b h
    omega
  · have h1 := Int.fmod_nonneg_of_pos b h
    have h2 := Int.fmod_lt_of_pos b h
    omega

/-- C117: extended Euclid ends on all integers, with a linear combination that divides both. Its sign is that of the
first argument, or of the second if the first is zero. -/
theorem C117_egcd : ∀ (fuel : ℕ) (a b : ℤ), a.natAbs < fuel → ∃ g x y, egcd fuel a b = .ok (g, x, y) ∧
    a * x + b * y = g ∧ g.natAbs = Int.gcd a b ∧ (0 < a → 0 < g) ∧ (a < 0 → g < 0) ∧ (a = 0 → g = b) := by
  intro fuel
  induction fuel with
  | zero => intro a b h; omega
  | succ n ih =>
    intro a b h
    rw [egcd]
    split_ifs with h0
    · subst h0
      refine ⟨b, 0, 1, rfl, by ring, by rw [Int.gcd_zero_left], by omega, by omega, fun _ => rfl⟩
    · have hb := fmod_bound a b h0
      obtain ⟨g, y, x, e, e1, e2, e3, e4, e5⟩ := ih (b.fmod a) a (by omega)
      have hd : b.fmod a = b - a * b.fdiv a := by
        have := Int.mul_fdiv_add_fmod b a
        linarith
      rw [e]
      refine ⟨g, x - b.fdiv a * y, y, rfl, ?_, ?_, ?_, ?_, fun k => absurd k h0⟩
      · rw [← e1, hd]; ring
      · rw [e2, hd, Int.gcd_comm, Int.gcd_sub_mul_left_right]
      · intro k
        rcases eq_or_ne (b.fmod a) 0 with hz | hz
        · rw [e5 hz]; exact k
        · exact e3 (lt_of_le_of_ne (Int.fmod_nonneg_of_pos b k) (Ne.symm hz))
      · intro k
        rcases eq_or_ne (b.fmod a) 0 with hz | hz
        · rw [e5 hz]; exact k
        · exact e4 (lt_of_le_of_ne (fmod_neg_bound a b k).2 hz)

/-- C117: for positive arguments the inverse is found exactly if it exists, and is the reduced inverse. -/
theorem C117_modinv (fuel : ℕ) (a m : ℤ) (ha : 0 < a) (hm : 1 < m) (hf : a.natAbs < fuel) :
    (Int.gcd a m = 1 → ∃ x, modinv fuel a m = .ok x ∧ 0 ≤ x ∧ x < m ∧ m ∣ a * x - 1) ∧
    (Int.gcd a m ≠ 1 → modinv fuel a m = .panic) := by
  obtain ⟨g, x, y, e, e1, e2, e3, -, -⟩ := C117_egcd fuel a m hf
  have hg := e3 ha
  have hu : modinv fuel a m = if g ≠ 1 then .panic else .ok (x.fmod m) := by
    unfold modinv
    rw [e]; rfl
  rw [hu]
  constructor
  · intro h
    have : g = 1 := by omega
    rw [if_neg (not_not.2 this)]
    refine ⟨_, rfl, Int.fmod_nonneg_of_pos x (by omega), Int.fmod_lt_of_pos x (by omega), ?_⟩
    have hd := Int.mul_fdiv_add_fmod x m
    refine ⟨-(y + a * x.fdiv m), ?_⟩
    rw [this] at e1
    linear_combination e1 + a * hd
  · intro h
    rw [if_pos (by omega)]

/-- C117: for negative arguments the script always reports that there is no inverse, even when there is one. -/
theorem C117_modinv_negative (fuel : ℕ) (a m : ℤ) (ha : a < 0) (hf : a.natAbs < fuel) :
    modinv fuel a m = .panic := by
  obtain ⟨g, x, y, e, -, -, -, e4, -⟩ := C117_egcd fuel a m hf
  unfold modinv
  rw [e]
  show (if g ≠ 1 then Res.panic else _) = _
  rw [if_pos (by have := e4 ha; omega)]

example : modinv 10 3 7 = .ok 5 ∧ modinv 10 (-3) 7 = .panic ∧ (7 : ℤ) ∣ -3 * 2 - 1 ∧ modinv 10 6 9 = .panic := by
  decide +kernel

/-! ### Square roots -/

section
variable {P : ℕ} [hP : Fact P.Prime]

theorem findM_spec (n : ℕ) : ∀ (b j last t : ℕ), t < P → (t : ZMod P) = (b : ZMod P) ^ 2 ^ j →
    (∀ i < j, (b : ZMod P) ^ 2 ^ i ≠ 1) → ∃ m, findM P t (List.range' j n) last = m ∧
      (n = 0 ∧ m = last ∨ 0 < n ∧ j ≤ m ∧ m < j + n ∧ (∀ i < m, (b : ZMod P) ^ 2 ^ i ≠ 1) ∧
        ((b : ZMod P) ^ 2 ^ m = 1 ∨ m = j + n - 1)) := by
  induction n with
  | zero => intro b j last t _ _ _; exact ⟨_, rfl, .inl ⟨rfl, rfl⟩⟩
  | succ n ih =>
    intro b j last t ht e h
    have h1P : 1 < P := hP.out.one_lt
    rw [List.range'_succ, findM]
    have h1 : t = 1 ↔ (b : ZMod P) ^ 2 ^ j = 1 := by
      rw [← e, ← pow_one (t : ZMod P), ← pow_mod_eq_one, pow_one, Nat.mod_eq_of_lt ht]
    split_ifs with k
    · exact ⟨j, rfl, .inr ⟨by omega, le_rfl, by omega, h, .inl (h1.1 k)⟩⟩
    · have h' : ∀ i < j + 1, (b : ZMod P) ^ 2 ^ i ≠ 1 := by
        intro i hi
        rcases Nat.lt_succ_iff_lt_or_eq.1 hi with hi | rfl
        · exact h i hi
        · exact fun k' => k (h1.2 k')
      obtain ⟨m, e1, e2⟩ := ih b (j + 1) j (t ^ 2 % P) (Nat.mod_lt _ (by omega))
        (by rw [cast_pow_mod, e, ← pow_mul, ← pow_succ]) h'
      refine ⟨m, e1, .inr ⟨by omega, ?_⟩⟩
      rcases e2 with ⟨rfl, rfl⟩ | ⟨a1, a2, a3, a4, a5⟩
      · exact ⟨le_rfl, by omega, h, .inr (by omega)⟩
      · exact ⟨by omega, by omega, a4, a5.imp id fun _ => by omega⟩

/-- The loop ends, with a number below `P`; if the invariant of a square holds, with a root. -/
theorem shanksLoop_spec (a : ZMod P) (n : ℕ) : ∀ (x b g r : ℕ), r < n → x < P → b < P →
    ∃ y, shanksLoop P n x b g r = .ok y ∧ y < P ∧ (x = 0 → y = 0) ∧
      (0 < r → (x : ZMod P) ^ 2 = a * b → (b : ZMod P) ^ (2 ^ (r - 1)) = 1 → (g : ZMod P) ^ (2 ^ (r - 1)) = -1 →
        (y : ZMod P) ^ 2 = a) := by
  have h1P : 1 < P := hP.out.one_lt
  induction n with
  | zero => intro x b g r h; omega
  | succ n ih =>
    intro x b g r hr hx hb
    obtain ⟨m, em, hm⟩ := findM_spec (P := P) r b 0 0 b hb (by rw [pow_zero, pow_one]) (by intro i hi; omega)
    rw [← List.range_eq_range'] at em
    rw [shanksLoop]
    simp only [em]
    split_ifs with h0
    · refine ⟨x, rfl, hx, id, ?_⟩
      intro r0 hxb h1 hg
      rcases hm with ⟨h, -⟩ | ⟨-, -, -, -, h⟩
      · omega
      · have : (b : ZMod P) = 1 := by
          rcases h with h | h
          · rwa [h0, pow_zero, pow_one] at h
          · rwa [show r - 1 = 0 by omega, pow_zero, pow_one] at h1
        rw [hxb, this, mul_one]
    · have hmr : m < r := by omega
      obtain ⟨y, e, hy, hz, h⟩ := ih (x * (g ^ (2 ^ (r - m - 1)) % P) % P)
        (b * ((g ^ (2 ^ (r - m - 1)) % P) * (g ^ (2 ^ (r - m - 1)) % P) % P) % P)
        ((g ^ (2 ^ (r - m - 1)) % P) * (g ^ (2 ^ (r - m - 1)) % P) % P) m (by omega) (Nat.mod_lt _ (by omega))
        (Nat.mod_lt _ (by omega))
      refine ⟨y, e, hy, fun k => hz (by rw [k, Nat.zero_mul, Nat.zero_mod]), ?_⟩
      intro r0 hxb h1 hg
      rcases hm with ⟨h, -⟩ | ⟨-, -, -, hne, hend⟩
      · omega
      have hbm : (b : ZMod P) ^ 2 ^ m = 1 := by
        rcases hend with h | h
        · exact h
        · rw [show m = r - 1 by omega]; exact h1
      have hbm1 : (b : ZMod P) ^ 2 ^ (m - 1) = -1 := by
        have : ((b : ZMod P) ^ (2 ^ (m - 1))) ^ 2 = 1 := by
          rw [← pow_mul, ← pow_succ, show m - 1 + 1 = m by omega]; exact hbm
        rcases (sq_eq_sq_iff_eq_or_eq_neg.1 (this.trans (one_pow 2).symm)) with h | h
        · exact absurd h (hne _ (by omega))
        · exact h
      have hg2 : (((g : ZMod P) ^ (2 ^ (r - m - 1))) ^ 2) ^ (2 ^ (m - 1)) = -1 := by
        rw [← pow_mul, ← pow_mul, ← hg]
        congr 1
        rw [← pow_succ' 2 (m - 1), ← pow_add]
        congr 1
        omega
      refine h (by omega) ?_ ?_ ?_
      · rw [ZMod.natCast_mod, ZMod.natCast_mod, Nat.cast_mul, Nat.cast_mul b, ZMod.natCast_mod (_ * _), Nat.cast_mul,
          cast_pow_mod]
        linear_combination ((g : ZMod P) ^ (2 ^ (r - m - 1))) ^ 2 * hxb
      · rw [ZMod.natCast_mod, Nat.cast_mul b, ZMod.natCast_mod, Nat.cast_mul, cast_pow_mod, ← pow_two, mul_pow, hbm1, hg2]
        ring
      · rw [ZMod.natCast_mod, Nat.cast_mul, cast_pow_mod, ← pow_two, hg2]

end

/-- C117: for every odd prime `P` and every `a` below it the square root function of the script ends; if `a` is a square
the result is a root of `a`, and below `P`. -/
theorem C117_modular_sqrt (P a fuel : ℕ) (hP : P.Prime) (h2 : P ≠ 2) (ha : a < P) (hf : P ≤ fuel) :
    ∃ x, modularSqrt fuel a P = .ok x ∧ x < P ∧ (IsSquare (a : ZMod P) → x ^ 2 % P = a) := by
  have : Fact P.Prime := ⟨hP⟩
  have h3 : 2 < P := lt_of_le_of_ne hP.two_le (Ne.symm h2)
  have ho : P % 2 = 1 := hP.eq_two_or_odd.resolve_left h2
  have fin : ∀ x : ℕ, (x : ZMod P) ^ 2 = a → x ^ 2 % P = a := by
    intro x h
    rw [← Nat.cast_pow, ZMod.natCast_eq_natCast_iff', Nat.mod_eq_of_lt ha] at h
    exact h
  unfold modularSqrt
  split_ifs with h4
  · refine ⟨_, rfl, Nat.mod_lt _ (by omega), fun hs => fin _ ?_⟩
    by_cases h0 : (a : ZMod P) = 0
    · rw [cast_pow_mod, h0, zero_pow (by omega), zero_pow (by omega)]
    · have hE := (ZMod.euler_criterion P h0).1 hs
      rw [cast_pow_mod, ← pow_mul, show (P + 1) / 4 * 2 = P / 2 + 1 by omega, pow_succ, hE, one_mul]
  · obtain ⟨q, s, e1, q1, -, q2⟩ := splitLoop_spec fuel (P - 1) 0 (by omega) (by omega)
    rw [Nat.sub_zero] at q2
    obtain ⟨w, w1, w2, w3⟩ := exists_nonres (P := P) h2
    have w4 : 2 ≤ w := by
      rcases Nat.lt_or_ge w 2 with h | h
      · obtain rfl : w = 1 := by omega
        rw [legendre_neg _ h2, Nat.cast_one, one_pow] at w3
        have : Fact (2 < P) := ⟨h3⟩
        exact absurd w3.symm ZMod.neg_one_ne_one
      · exact h
    obtain ⟨z, e2, hz⟩ := nonResLoop_spec w w3 fuel 2 w4 (by omega)
    rw [legendre_neg _ h2] at hz
    have hs0 : 0 < s := by
      rcases Nat.eq_zero_or_pos s with h | h
      · rw [h, pow_zero, mul_one] at q2; omega
      · exact h
    have hq : q * 2 ^ (s - 1) = P / 2 := by
      have : q * 2 ^ (s - 1) * 2 = P - 1 := by
        rw [mul_assoc, ← pow_succ, show s - 1 + 1 = s by omega, q2]
      omega
    have hsP : s < fuel := by
      have h1 : s < 2 ^ s := Nat.lt_two_pow_self
      have h2 : 2 ^ s ≤ q * 2 ^ s := Nat.le_mul_of_pos_left _ (by omega)
      omega
    obtain ⟨x, e3, x1, x0, x2⟩ := shanksLoop_spec (a : ZMod P) fuel (a ^ ((q + 1) / 2) % P) (a ^ q % P) (z ^ q % P) s hsP
      (Nat.mod_lt _ (by omega)) (Nat.mod_lt _ (by omega))
    rw [e1, Res.ok_bind]
    simp only
    rw [e2, Res.ok_bind, e3]
    refine ⟨x, rfl, x1, fun hs => fin x ?_⟩
    by_cases h0 : (a : ZMod P) = 0
    · rw [ZMod.natCast_eq_zero_iff] at h0
      have ha0 : a = 0 := Nat.eq_zero_of_dvd_of_lt h0 ha
      rw [x0 (by rw [ha0, zero_pow (by omega), Nat.zero_mod]), ha0, Nat.cast_zero, zero_pow two_ne_zero]
    · have hE := (ZMod.euler_criterion P h0).1 hs
      exact x2 hs0
        (by rw [cast_pow_mod, cast_pow_mod, ← pow_mul, show (q + 1) / 2 * 2 = q + 1 by omega, pow_succ, mul_comm])
        (by rw [cast_pow_mod, ← pow_mul, hq, hE]) (by rw [cast_pow_mod, ← pow_mul, hq, hz])

example : modularSqrt 100 70 73 = .ok 17 ∧ 17 ^ 2 % 73 = 70 ∧ modularSqrt 100 0 73 = .ok 0 := by decide +kernel

/-- C117: the square root function never reports that there is no root: on a non-square it returns a number below `P`
like any other, which is not a root, and for `P` three modulo four is a root of `-a`. -/
theorem C117_modular_sqrt_nonsquare (P a fuel : ℕ) (hP : P.Prime) (h2 : P ≠ 2) (ha : a < P) (hf : P ≤ fuel)
    (hs : ¬ IsSquare (a : ZMod P)) :
    ∃ x, modularSqrt fuel a P = .ok x ∧ x < P ∧ x ^ 2 % P ≠ a ∧ (P % 4 = 3 → x ^ 2 % P = P - a) := by
  have : Fact P.Prime := ⟨hP⟩
  obtain ⟨x, e, hx, -⟩ := C117_modular_sqrt P a fuel hP h2 ha hf
  refine ⟨x, e, hx, fun h => hs ⟨(x : ZMod P), ?_⟩, fun h4 => ?_⟩
  · rw [← pow_two, ← Nat.cast_pow, ZMod.natCast_eq_natCast_iff', h, Nat.mod_eq_of_lt ha]
  · have h0 : (a : ZMod P) ≠ 0 := fun h => hs (h ▸ ⟨0, by ring⟩)
    have ha0 : 0 < a := Nat.pos_of_ne_zero fun h => h0 (by rw [h, Nat.cast_zero])
    have hE : (a : ZMod P) ^ (P / 2) = -1 :=
      (ZMod.pow_div_two_eq_neg_one_or_one P h0).resolve_left fun h => hs ((ZMod.euler_criterion P h0).2 h)
    unfold modularSqrt at e
    rw [if_pos h4] at e
    have hxe : a ^ ((P + 1) / 4) % P = x := by injection e
    have : ((x ^ 2 : ℕ) : ZMod P) = ((P - a : ℕ) : ZMod P) := by
      rw [Nat.cast_sub ha.le, ZMod.natCast_self, Nat.cast_pow, ← hxe, cast_pow_mod, ← pow_mul,
        show (P + 1) / 4 * 2 = P / 2 + 1 by omega, pow_succ, hE]
      ring
    rw [ZMod.natCast_eq_natCast_iff', Nat.mod_eq_of_lt (show P - a < P by omega)] at this
    exact this

example : modularSqrt 100 5 7 = .ok 4 ∧ 4 ^ 2 % 7 = 7 - 5 ∧ ¬ IsSquare (5 : ZMod 7) := by decide +kernel

/-! ### Multiplication -/

/-- C117: in every commutative group the multiplication of the script ends on natural numbers and gives the multiple. -/
theorem C117_mult {G : Type} [AddCommGroup G] : ∀ (fuel : ℕ) (P : G) (k : ℕ), k < 2 ^ fuel →
    mult (fuel + 1) P (k : ℤ) = .ok (k • P) := by
  intro fuel
  induction fuel with
  | zero =>
    intro P k h
    obtain rfl : k = 0 := by omega
    rw [mult, if_pos Nat.cast_zero, zero_smul]
  | succ n ih =>
    intro P k h
    rw [mult]
    rw [pow_succ] at h
    have e1 : (k : ℤ).fdiv 2 = ((k / 2 : ℕ) : ℤ) := by
      rw [Int.fdiv_eq_ediv_of_nonneg _ (by decide)]; norm_cast
    have e2 : (k : ℤ).fmod 2 = ((k % 2 : ℕ) : ℤ) := by
      rw [Int.fmod_eq_emod_of_nonneg _ (by decide)]; norm_cast
    have hk : k • P = (k % 2) • P + (k / 2) • (P + P) := by
      conv_lhs => rw [← Nat.mod_add_div k 2]
      rw [add_smul, mul_comm, mul_smul, two_smul]
    rw [e1, e2, ih _ _ (by omega)]
    split_ifs with h0 h1
    · obtain rfl : k = 0 := by exact_mod_cast h0
      rw [zero_smul]
    · have h1' : k % 2 = 1 := by exact_mod_cast h1
      show Res.ok _ = _
      rw [hk, h1', one_smul]
    · have h1' : k % 2 = 0 := by
        have : k % 2 ≠ 1 := fun h => h1 (by rw [h]; rfl)
        omega
      rw [hk, h1', zero_smul, zero_add]

/-- C117: on negative numbers it never ends. -/
theorem C117_mult_negative {G : Type} [AddCommGroup G] : ∀ (fuel : ℕ) (P : G) (k : ℤ), k < 0 →
    mult fuel P k = .diverge := by
  intro fuel
  induction fuel with
  | zero => intro P k _; rfl
  | succ n ih =>
    intro P k h
    have h2 : k.fdiv 2 < 0 := by
      rw [Int.fdiv_eq_ediv_of_nonneg _ (by decide)]; omega
    rw [mult, ih _ _ h2, if_neg (by omega)]
    split_ifs <;> rfl

example : mult 5 (3 : ℤ) 13 = .ok 39 := by decide +kernel

/-! ### Expansion in powers of two -/

/-- The number a term stands for. -/
def _root_.Zerocaf.Sage.Term.value : Term → ℤ
  | .pow s j => if s then -2 ^ j else 2 ^ j
  | .num s k => if s then -k else k

theorem widthLoop_spec (n : ℕ) : ∀ a j, a ≤ 2 ^ (j + n) →
    ∃ J, widthLoop (n + 1) a j = .ok J ∧ j ≤ J ∧ a ≤ 2 ^ J ∧ (J = j ∨ 2 ^ (J - 1) < a) := by
  induction n with
  | zero =>
    intro a j h
    rw [widthLoop, if_neg (by simpa using h)]
    exact ⟨j, rfl, le_rfl, h, .inl rfl⟩
  | succ n ih =>
    intro a j h
    rw [widthLoop]
    split_ifs with k
    · obtain ⟨J, e, h1, h2, h3⟩ := ih a (j + 1) (by rwa [show j + 1 + n = j + (n + 1) by omega])
      refine ⟨J, e, by omega, h2, .inr ?_⟩
      rcases h3 with rfl | h3
      · exact k
      · exact h3
    · exact ⟨j, rfl, le_rfl, by omega, .inl rfl⟩

/-- C117: the expansion ends on every integer, its terms add up to the number, and a term that is not a power of two is
the last. -/
theorem C117_expand2 : ∀ (fuel : ℕ) (n : ℤ), n.natAbs < 2 ^ fuel → ∃ l, expand2 (fuel + 1) n = .ok l ∧
    (l.map Term.value).sum = n ∧ ∀ l₁ s k l₂, l = l₁ ++ .num s k :: l₂ → l₂ = [] := by
  intro fuel
  induction fuel with
  | zero =>
    intro n h
    obtain rfl : n = 0 := by omega
    refine ⟨[], rfl, rfl, ?_⟩
    intro l₁ s k l₂ e
    cases l₁ <;> cases e
  | succ f ih =>
    intro n h
    rw [expand2]
    by_cases h0 : n = 0
    · rw [if_pos h0]
      refine ⟨[], rfl, h0.symm, ?_⟩
      intro l₁ s k l₂ e
      cases l₁ <;> cases e
    · rw [if_neg h0]
      obtain ⟨J, e, hJ, -, -⟩ := widthLoop_spec (f + 1) n.natAbs 16
        (h.le.trans (Nat.pow_le_pow_right (by decide) (by omega)))
      rw [e, Res.ok_bind]
      simp only
      generalize hj : (if (2 : ℤ) ^ J - n.natAbs > n.natAbs - (2 : ℤ) ^ (J - 1) then J - 1 else J) = j
      have hj15 : 15 ≤ j := by
        rw [← hj]; split_ifs <;> omega
      have hq : (2 : ℤ) ^ j = 1024 * ((2 ^ (j - 10) : ℕ) : ℤ) := by
        push_cast
        rw [show (1024 : ℤ) = 2 ^ 10 by norm_num, ← pow_add]
        congr 1
        omega
      rw [pow_succ] at h
      split_ifs with h1 h2
      · refine ⟨_, rfl, ?_, ?_⟩
        · rw [List.map_singleton, List.sum_singleton]
          by_cases k : n < 0
          · simp only [Term.value, k, decide_true, if_true]; omega
          · simp only [Term.value, k, decide_false]
            simp
            omega
        · intro l₁ s k l₂ e
          cases l₁ with
          | nil => exact (List.cons.inj e).2.symm
          | cons x l => exact absurd (List.cons.inj e).2 (by simp)
      · obtain ⟨l, e, e1, e2⟩ := ih (n - 2 ^ j) (by rw [hq] at h1 ⊢; omega)
        rw [e]
        refine ⟨_, rfl, ?_, ?_⟩
        · rw [List.map_cons, List.sum_cons, e1]
          simp [Term.value]
        · intro l₁ s k l₂ e
          cases l₁ with
          | nil => cases e
          | cons x l' => exact e2 l' s k l₂ (List.cons.inj e).2
      · obtain ⟨l, e, e1, e2⟩ := ih (n + 2 ^ j) (by rw [hq] at h1 ⊢; omega)
        rw [e]
        refine ⟨_, rfl, ?_, ?_⟩
        · rw [List.map_cons, List.sum_cons, e1]
          simp [Term.value]
        · intro l₁ s k l₂ e
          cases l₁ with
          | nil => cases e
          | cons x l' => exact e2 l' s k l₂ (List.cons.inj e).2

/-- C117: what it writes for `p` and `L`. -/
theorem C117_expand2_moduli :
    expand2 260 p = .ok [.pow false 252, .num false 27742317777372353535851937790883648493] ∧
    expand2 260 ell = .ok [.pow false 249, .num false 14490550575682688738086195780655237219] ∧
    render [.pow false 252, .num false 27742317777372353535851937790883648493] "" =
      "2^252 + 27742317777372353535851937790883648493" ∧
    render [.pow true 20, .num true 5] "" = " - 2^20 - 5" := by
  refine ⟨by decide +kernel, by decide +kernel, by decide +kernel, by decide +kernel⟩

/-! ### Weierstrass form -/

theorem zmod_fmod (P : ℕ) (a : ℤ) : ((a.fmod P : ℤ) : ZMod P) = (a : ZMod P) := by
  rw [Int.fmod_eq_emod_of_nonneg _ (by omega), ZMod.intCast_mod]

/-- C117: for every prime above three the coefficients and the coordinate the script computes from a Montgomery curve
`v² = u³ + A u² + u` belong to the same curve: the right-hand sides are equal for all `u`. -/
theorem C117_weierstrass (P fuel : ℕ) (hP : P.Prime) (h3 : 3 < P) (hf : 27 < fuel) (A : ℤ) :
    ∃ a b, weierstrass fuel P A 1 = .ok (a, b) ∧ 0 ≤ a ∧ a < P ∧ 0 ≤ b ∧ b < P ∧
      ∀ u : ℤ, ∃ x, weierstrassX fuel P A u = .ok x ∧ weierstrassY2 P a b x = (u ^ 3 + A * u ^ 2 + u) % P := by
  have : Fact P.Prime := ⟨hP⟩
  have hP1 : (1 : ℤ) < P := by omega
  have hc3 : Nat.Coprime 3 P := (Nat.coprime_primes Nat.prime_three hP).2 (by omega)
  have hc27 : Nat.Coprime 27 P := by
    have := Nat.Coprime.pow_left 3 hc3
    exact this
  obtain ⟨da, e1, -, -, d1⟩ := (C117_modinv fuel 3 P (by decide) hP1 (by simpa using by omega)).1 hc3
  obtain ⟨db, e2, -, -, d2⟩ := (C117_modinv fuel 27 P (by decide) hP1 (by simpa using by omega)).1 hc27
  have k1 : (3 : ZMod P) * (da : ZMod P) = 1 := by
    have := (ZMod.intCast_zmod_eq_zero_iff_dvd _ P).2 d1
    push_cast at this
    linear_combination this
  have k2 : (27 : ZMod P) * (db : ZMod P) = 1 := by
    have := (ZMod.intCast_zmod_eq_zero_iff_dvd _ P).2 d2
    push_cast at this
    linear_combination this
  have k3 : (db : ZMod P) = (da : ZMod P) ^ 3 := by
    have h27 : (27 : ZMod P) ≠ 0 := fun h => by rw [h, zero_mul] at k2; exact zero_ne_one k2
    apply mul_left_cancel₀ h27
    rw [k2]
    linear_combination -(9 * (da : ZMod P) ^ 2 + 3 * (da : ZMod P) + 1) * k1
  refine ⟨((3 - A ^ 2) * da).fmod P, ((2 * A ^ 3 - 9 * A) * db).fmod P, ?_, ?_, ?_, ?_, ?_, ?_⟩
  · unfold weierstrass
    rw [show (3 : ℤ) * 1 ^ 2 = 3 by norm_num, show (27 : ℤ) * 1 ^ 3 = 27 by norm_num, e1, Res.ok_bind, e2, Res.ok_bind]
  · exact Int.fmod_nonneg_of_pos _ (by omega)
  · exact Int.fmod_lt_of_pos _ (by omega)
  · exact Int.fmod_nonneg_of_pos _ (by omega)
  · exact Int.fmod_lt_of_pos _ (by omega)
  · intro u
    refine ⟨(u + A * da).fmod P, ?_, ?_⟩
    · unfold weierstrassX
      rw [e1, Res.ok_bind]
    · unfold weierstrassY2
      rw [Int.fmod_eq_emod_of_nonneg _ (by omega)]
      apply (ZMod.intCast_eq_intCast_iff' _ _ P).1
      push_cast
      rw [zmod_fmod, zmod_fmod, zmod_fmod]
      push_cast
      rw [k3]
      linear_combination ((A : ZMod P) * u ^ 2 + u * A ^ 2 * da + u + A ^ 3 * da ^ 2 - 3 * A * da ^ 2) * k1

/-- C117: the numbers printed in the script, for Curve25519 and for the curve with `A = 346598`. The printed `y` is a
square root, as `modular_sqrt` returns it. -/
theorem C117_weierstrass_printed :
    (weierstrass 100 (2 ^ 255 - 19) 486662 1 =
      .ok (19298681539552699237261830834781317975544997444273427339909597334573241639236,
        55751746669818908907645289078257140818241103727901012315294400837956729358436) ∧
      weierstrassX 100 (2 ^ 255 - 19) 486662 9 =
        .ok 19298681539552699237261830834781317975544997444273427339909597334652188435546 ∧
      weierstrassY2 (2 ^ 255 - 19) 19298681539552699237261830834781317975544997444273427339909597334573241639236
        55751746669818908907645289078257140818241103727901012315294400837956729358436
        19298681539552699237261830834781317975544997444273427339909597334652188435546 =
        14781619447589544791020593568409986887264606134616475288964881837755586237401 ^ 2 % (2 ^ 255 - 19)) ∧
    (weierstrass 100 p 346598 1 =
      .ok (2412335192444087404657728854347664746952372119793302535333983646055108025796,
        1340186218024493002587627141304258192751317844329612519629993998710484804961) ∧
      weierstrassX 100 p 346598 17 =
        .ok 2412335192444087404657728854347664746952372119793302535333983646095151532546 ∧
      weierstrassY2 p 2412335192444087404657728854347664746952372119793302535333983646055108025796
        1340186218024493002587627141304258192751317844329612519629993998710484804961
        2412335192444087404657728854347664746952372119793302535333983646095151532546 =
        6222320563903764848551041754877036140234555813488015858364752483591799173948 ^ 2 % p) := by
  decide +kernel

/-! ### The searches -/

/-- C117: the search for the curve, as written, does not skip all candidates with `A² - 4` a square, contrary to its
comment: it keeps `A = 26`. The published `A = 505186` is one it keeps, and there `A² - 4` is not a square and `A + 2`
is one. -/
theorem C117_derivation (sq : ℕ → Bool) (h : ∀ n, sq n = true ↔ IsSquare (n : Fp)) :
    (getA 6 = 26 ∧ sq (getA 6 ^ 2 - 4) = true ∧ skipped sq 6 = false) ∧
    (getA 126296 = 505186 ∧ sq (getA 126296 ^ 2 - 4) = false ∧ sq (getA 126296 + 2) = true ∧
      skipped sq 126296 = false) := by
  have no : ∀ n, Primality.powMod 260 p n (p / 2) = p - 1 → sq n = false := fun n hn => by
    rw [Bool.eq_false_iff, Ne, h]; exact nonsquare_of n hn
  have yes : ∀ n r : ℕ, r * r % p = n % p → sq n = true := fun n r hr =>
    (h n).2 ⟨(r : Fp), by rw [← Nat.cast_mul]; exact ((ZMod.natCast_eq_natCast_iff' _ _ p).2 hr).symm⟩
  have a1 := yes (getA 6 ^ 2 - 4) 5728043518630087605397150049810261943661186930927047874446336930853591869732
    (by decide +kernel)
  have a2 := no (getA 6 + 2) (by decide +kernel)
  have b1 := no (getA 126296 ^ 2 - 4) (by decide +kernel)
  have b2 := yes (getA 126296 + 2) 4346222069673420781002290428256339322716153214567632635421902601568591288973 (by decide +kernel)
  refine ⟨⟨rfl, a1, ?_⟩, rfl, b1, b2, ?_⟩
  · rw [skipped, a1, a2]; rfl
  · rw [skipped, b1]; rfl

/-- C117: the search for the base point, as written, enters its test for the first time at `u = 3`, where there is no
point to take. -/
theorem C117_find_basepoint (sq : ℕ → Bool) (h : ∀ n, sq n = true ↔ IsSquare (n : Fp)) :
    firstTaken sq 505186 = some 3 ∧ ∀ v : Fp, ¬ montW.Equation 3 v := by
  have no : ∀ n, Primality.powMod 260 p n (p / 2) = p - 1 → sq n = false := fun n hn => by
    rw [Bool.eq_false_iff, Ne, h]; exact nonsquare_of n hn
  have yes : ∀ n r : ℕ, r * r % p = n % p → sq n = true := fun n r hr =>
    (h n).2 ⟨(r : Fp), by rw [← Nat.cast_mul]; exact ((ZMod.natCast_eq_natCast_iff' _ _ p).2 hr).symm⟩
  constructor
  · unfold firstTaken
    rw [show (999 : ℕ) = 996 + 1 + 1 + 1 from rfl, List.range'_succ, List.range'_succ, List.range'_succ,
      List.find?_cons_of_neg, List.find?_cons_of_neg, List.find?_cons_of_pos]
    · rw [no (3 ^ 3 + 505186 * 3 ^ 2 + 3) (by decide +kernel)]; rfl
    · rw [yes (2 ^ 3 + 505186 * 2 ^ 2 + 2) 7107104002761152137756180340655542446098915189822648077640018100673760222465 (by decide +kernel)]; decide
    · rw [yes (1 ^ 3 + 505186 * 1 ^ 2 + 1) 4346222069673420781002290428256339322716153214567632635421902601568591288973 (by decide +kernel)]; decide
  · intro v hv
    rw [WeierstrassCurve.Affine.equation_iff] at hv
    simp only [montW] at hv
    refine nonsquare_of 4546704 (by decide +kernel) ⟨v, ?_⟩
    push_cast
    linear_combination -hv

/-- Such a test exists. -/
example : ∃ sq : ℕ → Bool, ∀ n, sq n = true ↔ IsSquare (n : Fp) := by
  classical
  exact ⟨fun n => decide (IsSquare (n : Fp)), fun n => decide_eq_true_iff⟩

example : Nat.Prime 13 ∧ weierstrass 100 13 2 1 = .ok (4, 11) := ⟨by norm_num, by decide +kernel⟩

end Props
end Zerocaf
