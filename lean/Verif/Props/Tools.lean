import Verif.Model.Tools
import Verif.Proof.Primality
import Mathlib.NumberTheory.LegendreSymbol.Basic
import Mathlib.Tactic.LinearCombination

/-!
# Properties of the number tools: almost inverse (C96), square roots (C97), base 51 (C98)
-/

set_option exponentiation.threshold 600

namespace Zerocaf
namespace Props

open Tools

/-! ### C96: almost inverse -/

/-- The invariant of the loop, for start values `p` and `x`. -/
structure KInv (p x : ℕ) (q : KState) : Prop where
  upos : 0 < q.u
  spos : 0 < q.s
  odd : q.u % 2 = 1 ∨ q.v % 2 = 1
  gcd : Nat.gcd q.u q.v = Nat.gcd p x
  sum : q.u * q.s + q.v * q.r = p
  rx : (p : ℤ) ∣ (q.r : ℤ) * x + q.u * 2 ^ q.k
  sx : (p : ℤ) ∣ (q.s : ℤ) * x - q.v * 2 ^ q.k
  low : p + x ≤ (q.u + q.v) * 2 ^ q.k
  high : q.u * q.v * 2 ^ q.k ≤ p * x

theorem gcd_half (u v : ℕ) (h : v % 2 = 1) : Nat.gcd (2 * u) v = Nat.gcd u v := by
  have : Nat.Coprime 2 v := by
    rw [Nat.coprime_two_left]
    exact Nat.odd_iff.2 h
  exact Nat.Coprime.gcd_mul_left_cancel u this

theorem kInv_step {p x : ℕ} {q : KState} (h : KInv p x q) (hv : 0 < q.v) : KInv p x (kStep q) := by
  obtain ⟨u, v, r, s, k⟩ := q
  obtain ⟨h1, h2, h3, h4, h5, ⟨a, ha⟩, ⟨b, hb⟩, h8, h9⟩ := h
  dsimp only at *
  unfold kStep
  dsimp only
  simp only [Nat.shiftRight_eq_div_pow, Nat.shiftLeft_eq, pow_one]
  by_cases hu : u % 2 = 0
  · rw [if_pos hu]
    obtain ⟨w, rfl⟩ : ∃ w, u = 2 * w := ⟨u / 2, by omega⟩
    have hvo : v % 2 = 1 := by omega
    rw [show 2 * w / 2 = w by omega]
    refine ⟨by dsimp only; omega, by dsimp only; omega, Or.inr hvo, ?_, ?_, ⟨a, ?_⟩, ⟨2 * b, ?_⟩, ?_, ?_⟩ <;> dsimp only
    · rw [← h4, gcd_half _ _ hvo]
    · rw [← h5]; ring
    · push_cast at ha ⊢; rw [pow_succ]; linear_combination ha
    · push_cast at hb ⊢; rw [pow_succ]; linear_combination 2 * hb
    · rw [pow_succ]
      refine h8.trans ?_
      calc (2 * w + v) * 2 ^ k ≤ (2 * (w + v)) * 2 ^ k := Nat.mul_le_mul_right _ (by omega)
        _ = _ := by ring
    · rw [pow_succ]
      refine le_trans (le_of_eq ?_) h9
      ring
  rw [if_neg hu]
  by_cases hve : v % 2 = 0
  · rw [if_pos hve]
    obtain ⟨w, rfl⟩ : ∃ w, v = 2 * w := ⟨v / 2, by omega⟩
    have huo : u % 2 = 1 := by omega
    rw [show 2 * w / 2 = w by omega]
    refine ⟨h1, h2, Or.inl huo, ?_, ?_, ⟨2 * a, ?_⟩, ⟨b, ?_⟩, ?_, ?_⟩ <;> dsimp only
    · rw [← h4, Nat.gcd_comm u, Nat.gcd_comm u, gcd_half _ _ huo]
    · rw [← h5]; ring
    · push_cast at ha ⊢; rw [pow_succ]; linear_combination 2 * ha
    · push_cast at hb ⊢; rw [pow_succ]; linear_combination hb
    · rw [pow_succ]
      refine h8.trans ?_
      calc (u + 2 * w) * 2 ^ k ≤ (2 * (u + w)) * 2 ^ k := Nat.mul_le_mul_right _ (by omega)
        _ = _ := by ring
    · rw [pow_succ]
      refine le_trans (le_of_eq ?_) h9
      ring
  rw [if_neg hve]
  have huo : u % 2 = 1 := by omega
  have hvo : v % 2 = 1 := by omega
  by_cases hgt : u > v
  · rw [if_pos hgt]
    obtain ⟨w, rfl⟩ : ∃ w, u = v + 2 * w := ⟨(u - v) / 2, by omega⟩
    rw [show (v + 2 * w - v) / 2 = w by omega]
    refine ⟨by dsimp only; omega, by dsimp only; omega, Or.inr hvo, ?_, ?_, ⟨a + b, ?_⟩, ⟨2 * b, ?_⟩, ?_, ?_⟩ <;>
      dsimp only
    · rw [← h4, ← gcd_half w v hvo, Nat.gcd_comm (v + 2 * w), Nat.gcd_comm (2 * w), Nat.gcd_self_add_right]
    · rw [← h5]; ring
    · push_cast at ha hb ⊢; rw [pow_succ]; linear_combination ha + hb
    · push_cast at hb ⊢; rw [pow_succ]; linear_combination 2 * hb
    · rw [pow_succ]
      refine h8.trans (le_of_eq ?_)
      ring
    · rw [pow_succ]
      refine le_trans ?_ h9
      calc w * v * (2 ^ k * 2) = 2 * w * v * 2 ^ k := by ring
        _ ≤ (v + 2 * w) * v * 2 ^ k := Nat.mul_le_mul_right _ (Nat.mul_le_mul_right _ (by omega))
  · rw [if_neg hgt]
    obtain ⟨w, rfl⟩ : ∃ w, v = u + 2 * w := ⟨(v - u) / 2, by omega⟩
    rw [show (u + 2 * w - u) / 2 = w by omega]
    refine ⟨h1, by dsimp only; omega, Or.inl huo, ?_, ?_, ⟨2 * a, ?_⟩, ⟨a + b, ?_⟩, ?_, ?_⟩ <;> dsimp only
    · rw [← h4, Nat.gcd_self_add_right, Nat.gcd_comm u (2 * w), gcd_half w u huo, Nat.gcd_comm]
    · rw [← h5]; ring
    · push_cast at ha ⊢; rw [pow_succ]; linear_combination 2 * ha
    · push_cast at ha hb ⊢; rw [pow_succ]; linear_combination ha + hb
    · rw [pow_succ]
      refine h8.trans (le_of_eq ?_)
      ring
    · rw [pow_succ]
      refine le_trans ?_ h9
      calc u * w * (2 ^ k * 2) = u * (2 * w) * 2 ^ k := by ring
        _ ≤ u * (u + 2 * w) * 2 ^ k := Nat.mul_le_mul_right _ (Nat.mul_le_mul_left _ (by omega))

/-- The loop ends with `v = 0`; just before there is a state with `u = v`. -/
theorem kLoop_ends {p x : ℕ} (n : ℕ) : ∀ (q : KState), KInv p x q → 0 < q.v → q.u * q.v < 2 ^ n →
    ∃ q₀ q₁ : KState, kLoop (n + 1) q = .ok q₁ ∧ KInv p x q₀ ∧ 0 < q₀.v ∧ q₁ = kStep q₀ ∧ q₁.v = 0 ∧ KInv p x q₁ := by
  induction n with
  | zero =>
    intro q h hv hlt
    have := Nat.mul_pos h.upos hv
    omega
  | succ n ih =>
    intro q h hv hlt
    rw [kLoop, if_pos hv]
    have hs := kInv_step h hv
    rcases Nat.eq_zero_or_pos (kStep q).v with h0 | h0
    · exact ⟨q, kStep q, by rw [kLoop, if_neg (by omega)], h, hv, rfl, h0, hs⟩
    · refine ih _ hs h0 ?_
      have : 2 * ((kStep q).u * (kStep q).v) ≤ q.u * q.v := by
        obtain ⟨u, v, r, s, k⟩ := q
        dsimp only at *
        unfold kStep
        dsimp only
        simp only [Nat.shiftRight_eq_div_pow, Nat.shiftLeft_eq, pow_one]
        split_ifs with a1 a2 a3
        · calc 2 * (u / 2 * v) = (2 * (u / 2)) * v := by ring
            _ ≤ u * v := Nat.mul_le_mul_right _ (by omega)
        · calc 2 * (u * (v / 2)) = u * (2 * (v / 2)) := by ring
            _ ≤ u * v := Nat.mul_le_mul_left _ (by omega)
        · calc 2 * ((u - v) / 2 * v) = (2 * ((u - v) / 2)) * v := by ring
            _ ≤ u * v := Nat.mul_le_mul_right _ (by omega)
        · calc 2 * (u * ((v - u) / 2)) = u * (2 * ((v - u) / 2)) := by ring
            _ ≤ u * v := Nat.mul_le_mul_left _ (by omega)
      rw [pow_succ] at hlt
      omega

theorem kLoop_mono (n m : ℕ) : ∀ (q q' : KState), kLoop n q = .ok q' → n ≤ m → kLoop m q = .ok q' := by
  induction n generalizing m with
  | zero => intro q q' h; exact absurd h (by simp [kLoop])
  | succ n ih =>
    intro q q' h hm
    obtain ⟨m, rfl⟩ : ∃ m', m = m' + 1 := ⟨m - 1, by omega⟩
    rw [kLoop] at h ⊢
    split_ifs at h ⊢ with hv
    · exact ih _ _ _ h (by omega)
    · exact h

/-- What the loop computes from `p` odd and `x > 0`: with `g = gcd(p, x)`, `r` is even, below `2p/g`, and
`r x ≡ -g 2^k` modulo `p`. -/
theorem kLoop_result (p x fuel : ℕ) (hp : p % 2 = 1) (hx : 0 < x) (hf : p.log2 + x.log2 + 3 ≤ fuel) :
    ∃ q : KState, kLoop fuel ⟨p, x, 0, 1, 0⟩ = .ok q ∧ q.r % 2 = 0 ∧ q.r * Nat.gcd p x < 2 * p ∧
      (p : ℤ) ∣ (q.r : ℤ) * x + Nat.gcd p x * 2 ^ q.k ∧ p + x ≤ Nat.gcd p x * 2 ^ q.k ∧
      Nat.gcd p x * Nat.gcd p x * 2 ^ q.k ≤ 2 * (p * x) := by
  have hinit : KInv p x ⟨p, x, 0, 1, 0⟩ := by
    refine ⟨by dsimp only; omega, by dsimp only; omega, Or.inl hp, rfl, ?_, ⟨1, ?_⟩, ⟨0, ?_⟩, ?_, ?_⟩ <;> dsimp only
    · ring
    · push_cast; ring
    · push_cast; ring
    · rw [pow_zero, mul_one]
    · rw [pow_zero, mul_one]
  have hlt : p * x < 2 ^ (p.log2 + x.log2 + 2) := by
    have h1 : p < 2 ^ (p.log2 + 1) := Nat.lt_log2_self
    have h2 : x < 2 ^ (x.log2 + 1) := Nat.lt_log2_self
    calc p * x < 2 ^ (p.log2 + 1) * 2 ^ (x.log2 + 1) := Nat.mul_lt_mul'' h1 h2
      _ = _ := by rw [← pow_add]; congr 1; omega
  obtain ⟨q₀, q₁, e, i0, v0, rfl, v1, i1⟩ := kLoop_ends _ _ hinit hx hlt
  have e' := kLoop_mono _ fuel _ _ e (by omega)
  have hu1 : (kStep q₀).u = Nat.gcd p x := by rw [← i1.gcd, v1, Nat.gcd_zero_right]
  have key : q₀.u = q₀.v ∧ (kStep q₀).u = q₀.u ∧ (kStep q₀).r = 2 * q₀.r ∧ (kStep q₀).k = q₀.k + 1 := by
    have ho := i0.odd
    clear e e' hinit i0 i1 hu1
    obtain ⟨u, v, r, s, k⟩ := q₀
    dsimp only at *
    unfold kStep at v1 ⊢
    dsimp only at v1 ⊢
    simp only [Nat.shiftRight_eq_div_pow, Nat.shiftLeft_eq, pow_one] at v1 ⊢
    split_ifs at v1 ⊢ with a1 a2 a3
    · dsimp only at v1; omega
    · dsimp only at v1; omega
    · dsimp only at v1; omega
    · dsimp only at v1 ⊢
      exact ⟨by omega, rfl, by ring, rfl⟩
  obtain ⟨k1, k2, k3, k4⟩ := key
  refine ⟨_, e', by omega, ?_, ?_, ?_, ?_⟩
  · rw [k3, ← hu1, k2]
    have := i0.sum
    rw [← k1] at this
    have h3 := Nat.mul_pos i0.upos i0.spos
    calc 2 * q₀.r * q₀.u = 2 * (q₀.u * q₀.r) := by ring
      _ < 2 * p := by omega
  · have := i1.rx
    rwa [hu1] at this
  · have := i1.low
    rwa [hu1, v1, add_zero] at this
  · have := i0.high
    rw [← k1, ← k2, hu1] at this
    rw [k4, pow_succ]
    calc Nat.gcd p x * Nat.gcd p x * (2 ^ q₀.k * 2) = 2 * (Nat.gcd p x * Nat.gcd p x * 2 ^ q₀.k) := by ring
      _ ≤ _ := Nat.mul_le_mul_left _ this

/-- C96: for every odd modulus `p` and every `x > 0` the tool's almost inverse ends, after at most
`bits(p) + bits(x)` rounds, and returns `y` and `k` with `0 < y ≤ p` and `x y ≡ gcd(p, x) 2^k` modulo `p`. -/
theorem C96_almost_inverse (p x fuel : ℕ) (hp : p % 2 = 1) (hx : 0 < x) (hf : p.log2 + x.log2 + 3 ≤ fuel) :
    ∃ y k : ℕ, almostMontInv fuel x p = .ok ((y : ℤ), k) ∧ 0 < y ∧ y ≤ p ∧
      (x * y) % p = Nat.gcd p x * 2 ^ k % p ∧ p + x ≤ Nat.gcd p x * 2 ^ k ∧
      Nat.gcd p x * Nat.gcd p x * 2 ^ k ≤ 2 * (p * x) := by
  obtain ⟨q, e, h1, h2, ⟨t, h3⟩, h4, h5⟩ := kLoop_result p x fuel hp hx hf
  have hg : 0 < Nat.gcd p x := Nat.gcd_pos_of_pos_right _ hx
  have hr : q.r < 2 * p := lt_of_le_of_lt (Nat.le_mul_of_pos_right _ hg) h2
  unfold almostMontInv
  rw [e, Res.ok_bind]
  by_cases hgt : q.r > p
  · refine ⟨2 * p - q.r, q.k, ?_, by omega, by omega, ?_, h4, h5⟩
    · simp only [if_pos hgt, Res.pure_eq, Res.ok_inj, Prod.mk.injEq, and_true]
      omega
    · refine (Nat.modEq_iff_dvd.2 ⟨t - 2 * x, ?_⟩ : x * (2 * p - q.r) ≡ _ [MOD p])
      push_cast [Nat.cast_sub hr.le]
      linear_combination h3
  · refine ⟨p - q.r, q.k, ?_, by omega, by omega, ?_, h4, h5⟩
    · simp only [if_neg hgt, Res.pure_eq, Res.ok_inj, Prod.mk.injEq, and_true]
      omega
    · refine (Nat.modEq_iff_dvd.2 ⟨t - x, ?_⟩ : x * (p - q.r) ≡ _ [MOD p])
      push_cast [Nat.cast_sub (show q.r ≤ p by omega)]
      linear_combination h3

/-- C96: if `x` is invertible the result is the reduced inverse times `2^k`. -/
theorem C96_coprime (p x fuel : ℕ) (hp : p % 2 = 1) (h1 : 1 < p) (hx : Nat.Coprime p x)
    (hf : p.log2 + x.log2 + 3 ≤ fuel) :
    ∃ y k : ℕ, almostMontInv fuel x p = .ok ((y : ℤ), k) ∧ 0 < y ∧ y < p ∧ (x * y) % p = 2 ^ k % p ∧
      p + x ≤ 2 ^ k ∧ 2 ^ k ≤ 2 * (p * x) := by
  have hx0 : 0 < x := by
    rcases Nat.eq_zero_or_pos x with h | h
    · rw [h, Nat.coprime_zero_right] at hx; omega
    · exact h
  obtain ⟨y, k, e, a1, a2, a3, a4, a5⟩ := C96_almost_inverse p x fuel hp hx0 hf
  rw [Nat.Coprime.gcd_eq_one hx, one_mul] at a3 a4 a5
  rw [one_mul] at a5
  refine ⟨y, k, e, a1, ?_, a3, a4, a5⟩
  rcases Nat.lt_or_eq_of_le a2 with h | h
  · exact h
  · exfalso
    rw [h, Nat.mul_mod_left] at a3
    have hd : p ∣ 2 ^ k := Nat.dvd_of_mod_eq_zero a3.symm
    have hc : Nat.Coprime p (2 ^ k) := Nat.Coprime.pow_right k (by
      rw [Nat.coprime_two_right]; exact Nat.odd_iff.2 hp)
    have := Nat.Coprime.eq_one_of_dvd hc hd
    omega

/-- C96: zero is not rejected; the result is the modulus itself. -/
theorem C96_zero (p fuel : ℕ) (hf : 0 < fuel) : almostMontInv fuel 0 p = .ok ((p : ℤ), 0) := by
  obtain ⟨n, rfl⟩ : ∃ n, fuel = n + 1 := ⟨fuel - 1, by omega⟩
  unfold almostMontInv
  rw [kLoop, if_neg (lt_irrefl 0), Res.ok_bind]
  simp

theorem phase2Loop_spec (p : ℕ) (hp : p % 2 = 1) (n : ℕ) : ∀ r, r < p →
    phase2Loop p n r < p ∧ (phase2Loop p n r * 2 ^ n) % p = r % p := by
  induction n with
  | zero => intro r h; exact ⟨h, by rw [phase2Loop, pow_zero, mul_one]⟩
  | succ n ih =>
    intro r h
    rw [phase2Loop, Nat.shiftRight_eq_div_pow, Nat.shiftRight_eq_div_pow, pow_one]
    split_ifs with he
    · have hlt : r / 2 < p := by omega
      rw [Nat.mod_eq_of_lt hlt]
      obtain ⟨i1, i2⟩ := ih _ hlt
      refine ⟨i1, ?_⟩
      rw [pow_succ, ← mul_assoc, Nat.mul_mod, i2, ← Nat.mul_mod]
      congr 1; omega
    · have hlt : (r + p) / 2 < p := by omega
      obtain ⟨i1, i2⟩ := ih _ hlt
      refine ⟨i1, ?_⟩
      rw [pow_succ, ← mul_assoc, Nat.mul_mod, i2, ← Nat.mul_mod, show (r + p) / 2 * 2 = r + p by omega,
        Nat.add_mod_right]

theorem log2_p : p.log2 = 252 := by decide +kernel

/-- C96: on the field, for every `0 < x < p`: between 253 and 506 rounds, and the second phase gives the reduced
`z` with `x z ≡ 2^253`. -/
theorem C96_script (x fuel : ℕ) (hx : 0 < x) (hlt : x < p) (hf : 507 ≤ fuel) :
    ∃ y k : ℕ, almostMontInv fuel x p = .ok ((y : ℤ), k) ∧ 253 ≤ k ∧ k ≤ 506 ∧ phase2 p y k < p ∧
      (x * phase2 p y k) % p = 2 ^ 253 % p := by
  have hpp : p.Prime := p_prime
  have hodd : p % 2 = 1 := by decide
  have hc : Nat.Coprime p x := (Nat.Prime.coprime_iff_not_dvd hpp).2 fun h => by
    have := Nat.le_of_dvd hx h; omega
  have hl : x.log2 ≤ 252 := by
    rw [← log2_p, Nat.le_log2 (by decide)]
    exact le_trans (Nat.log2_self_le (by omega)) hlt.le
  obtain ⟨y, k, e, a1, a2, a3, a4, a5⟩ := C96_coprime p x fuel hodd (by decide) hc (by rw [log2_p]; omega)
  have hk1 : 253 ≤ k := by
    by_contra hcon
    have : 2 ^ k ≤ 2 ^ 252 := Nat.pow_le_pow_right (by decide) (by omega)
    have h2 : 2 ^ 252 < p := by decide
    omega
  have hk2 : k ≤ 506 := by
    by_contra hcon
    have h1 : 2 ^ 507 ≤ 2 ^ k := Nat.pow_le_pow_right (by decide) (by omega)
    have h2 : p * x ≤ p * p := Nat.mul_le_mul_left _ hlt.le
    have h3 : 2 * (p * p) < 2 ^ 507 := by decide
    omega
  refine ⟨y, k, e, hk1, hk2, ?_⟩
  obtain ⟨b1, b2⟩ := phase2Loop_spec p hodd (k - 253) y a2
  refine ⟨b1, ?_⟩
  have hcp : Nat.Coprime p (2 ^ (k - 253)) := Nat.Coprime.pow_right _ (by
    rw [Nat.coprime_two_right]; exact Nat.odd_iff.2 hodd)
  refine Nat.ModEq.cancel_right_of_coprime (c := 2 ^ (k - 253)) hcp ?_
  have h1 : x * phase2 p y k * 2 ^ (k - 253) = x * (phase2Loop p (k - 253) y * 2 ^ (k - 253)) := by
    rw [phase2, mul_assoc]
  rw [h1, ← pow_add, show 253 + (k - 253) = k by omega]
  exact (Nat.ModEq.mul_left x b2).trans a3

/-- C96: so what the script prints as the inverse is the inverse for no `x`. -/
theorem C96_script_not_inverse (x fuel : ℕ) (hx : 0 < x) (hlt : x < p) (hf : 507 ≤ fuel) :
    ∃ y k : ℕ, almostMontInv fuel x p = .ok ((y : ℤ), k) ∧ (x * phase2 p y k) % p ≠ 1 := by
  obtain ⟨y, k, e, _, _, _, h⟩ := C96_script x fuel hx hlt hf
  refine ⟨y, k, e, ?_⟩
  rw [h]
  decide

/-- C96: the other tool works modulo a number that is not the field prime and is divisible by 5. For every `x > 0` it
ends without panic with `x y ≡ gcd(q, x) 2^k` modulo that number `q`. -/
theorem C96_phase1 (x fuel : ℕ) (hx : 0 < x) (hf : x.log2 + 255 ≤ fuel) :
    ∃ y k : ℕ, phase1 fuel x = .ok y ∧ 0 < y ∧ y ≤ phase1Modulus ∧
      (x * y) % phase1Modulus = Nat.gcd phase1Modulus x * 2 ^ k % phase1Modulus := by
  have hl : phase1Modulus.log2 = 252 := by decide +kernel
  have ho : phase1Modulus % 2 = 1 := by decide
  obtain ⟨q, e, h1, h2, ⟨t, h3⟩, -, -⟩ := kLoop_result phase1Modulus x fuel ho hx (by rw [hl]; omega)
  have hg : 0 < Nat.gcd phase1Modulus x := Nat.gcd_pos_of_pos_right _ hx
  have hr : q.r < 2 * phase1Modulus := lt_of_le_of_lt (Nat.le_mul_of_pos_right _ hg) h2
  unfold phase1
  rw [e, Res.ok_bind]
  generalize phase1Modulus = m at *
  by_cases hgt : q.r ≥ m
  · refine ⟨2 * m - q.r, q.k, ?_, by omega, by omega, ?_⟩
    · simp only [if_pos hgt]
      rw [if_pos (by omega), Res.ok_inj]
      omega
    · refine (Nat.modEq_iff_dvd.2 ⟨t - 2 * x, ?_⟩ : x * (2 * m - q.r) ≡ _ [MOD m])
      push_cast [Nat.cast_sub hr.le]
      linear_combination h3
  · refine ⟨m - q.r, q.k, ?_, by omega, by omega, ?_⟩
    · simp only [if_neg hgt]
      rw [if_pos (by omega)]
    · refine (Nat.modEq_iff_dvd.2 ⟨t - x, ?_⟩ : x * (m - q.r) ≡ _ [MOD m])
      push_cast [Nat.cast_sub (show q.r ≤ m by omega)]
      linear_combination h3

/-- C96: its modulus is wrong, and already for `x = 1` the result is no power of two (up to the possible exponents)
modulo the field prime, as it has to be. -/
theorem C96_phase1_wrong : phase1Modulus ≠ p ∧ 5 ∣ phase1Modulus ∧
    ∃ y, phase1 600 1 = .ok y ∧ ∀ k ≤ 600, (1 * y) % p ≠ 2 ^ k % p := by
  refine ⟨by decide, by decide, 7237005577332262213973186563042994240826599809824798017112513806715482237647, ?_, ?_⟩
  · decide +kernel
  · decide +kernel

example : p % 2 = 1 ∧ 1 < p ∧ Nat.Coprime p 12 ∧ p.log2 + (12).log2 + 3 ≤ 600 := by decide +kernel
example : almostMontInv 20 4 9 = .ok (7, 6) ∧ 4 * 7 % 9 = 2 ^ 6 % 9 ∧ almostMontInv 20 3 9 = .ok (7, 2) := by
  decide

/-! ### C97: square roots -/

section Sqrt

variable {P : ℕ} [hP : Fact P.Prime]

theorem cast_pow_mod (a e : ℕ) : ((a ^ e % P : ℕ) : ZMod P) = (a : ZMod P) ^ e := by
  rw [ZMod.natCast_mod, Nat.cast_pow]

theorem pow_mod_eq_one (t e : ℕ) : t ^ e % P = 1 ↔ (t : ZMod P) ^ e = 1 := by
  have h2 : 1 < P := hP.out.one_lt
  rw [← cast_pow_mod]
  constructor
  · intro h; rw [h, Nat.cast_one]
  · intro h
    have := congrArg ZMod.val h
    rwa [ZMod.val_natCast, Nat.mod_mod, ZMod.val_one] at this

theorem legendre_one (a : ℕ) (h2 : P ≠ 2) : legendre a P = 1 ↔ (a : ZMod P) ≠ 0 ∧ IsSquare (a : ZMod P) := by
  have h3 : 2 < P := lt_of_le_of_ne hP.out.two_le (Ne.symm h2)
  have ho : P % 2 = 1 := hP.out.eq_two_or_odd.resolve_left h2
  have hh : (P - 1) / 2 = P / 2 := by omega
  have hval : legendre a P = 1 ↔ a ^ (P / 2) % P = 1 := by
    unfold legendre
    simp only [hh]
    split_ifs with h
    · rw [h]; constructor
      · intro h; exact absurd h (by decide)
      · intro h; omega
    · norm_cast
  rw [hval, pow_mod_eq_one]
  constructor
  · intro h
    have h0 : (a : ZMod P) ≠ 0 := by
      intro h0
      rw [h0, zero_pow (by omega)] at h
      exact zero_ne_one h
    exact ⟨h0, (ZMod.euler_criterion P h0).2 h⟩
  · rintro ⟨h0, h⟩
    exact (ZMod.euler_criterion P h0).1 h

theorem legendre_neg (a : ℕ) (h2 : P ≠ 2) : legendre a P = -1 ↔ (a : ZMod P) ^ (P / 2) = -1 := by
  have h3 : 2 < P := lt_of_le_of_ne hP.out.two_le (Ne.symm h2)
  have ho : P % 2 = 1 := hP.out.eq_two_or_odd.resolve_left h2
  have hh : (P - 1) / 2 = P / 2 := by omega
  have hm1 : ((P - 1 : ℕ) : ZMod P) = -1 := by
    rw [Nat.cast_sub (by omega), ZMod.natCast_self, Nat.cast_one, zero_sub]
  rw [← cast_pow_mod]
  unfold legendre
  simp only [hh]
  constructor
  · intro h
    split_ifs at h with h'
    rw [h', hm1]
  · intro h
    have : a ^ (P / 2) % P = P - 1 := by
      rw [← hm1] at h
      have := congrArg ZMod.val h
      rwa [ZMod.val_natCast, Nat.mod_mod, ZMod.val_natCast, Nat.mod_eq_of_lt (show P - 1 < P by omega)] at this
    rw [if_pos this]

theorem splitLoop_spec (n : ℕ) : ∀ q s, 0 < q → q < n →
    ∃ q' s', splitLoop n q s = .ok (q', s') ∧ q' % 2 = 1 ∧ s ≤ s' ∧ q' * 2 ^ (s' - s) = q := by
  induction n with
  | zero => intro q s _ h; omega
  | succ n ih =>
    intro q s h0 h
    rw [splitLoop]
    split_ifs with he
    · obtain ⟨q', s', e, h1, h2, h3⟩ := ih (q / 2) (s + 1) (by omega) (by omega)
      refine ⟨q', s', e, h1, by omega, ?_⟩
      rw [show s' - s = (s' - (s + 1)) + 1 by omega, pow_succ, ← mul_assoc, h3]
      omega
    · exact ⟨q, s, rfl, by omega, le_rfl, by rw [Nat.sub_self, pow_zero, mul_one]⟩

omit hP in
theorem nonResLoop_spec (w : ℕ) (hw : legendre w P = -1) (n : ℕ) : ∀ z, z ≤ w → w < z + n →
    ∃ z', nonResLoop P n z = .ok z' ∧ legendre z' P = -1 := by
  induction n with
  | zero => intro z h1 h; omega
  | succ n ih =>
    intro z h1 h
    rw [nonResLoop]
    split_ifs with hz
    · have : z ≠ w := fun e => hz (e ▸ hw)
      exact ih (z + 1) (by omega) (by omega)
    · exact ⟨z, rfl, not_not.1 hz⟩

theorem findI_spec (t : ℕ) (n : ℕ) : ∀ (j last : ℕ), (t : ZMod P) ^ (2 ^ j) ≠ 1 →
    (t : ZMod P) ^ (2 ^ (j + n)) = 1 → 0 < n →
    ∃ i, findI P t (List.range' (j + 1) n) last (2 ^ (j + 1)) = i + 1 ∧ j ≤ i ∧ i + 1 ≤ j + n ∧
      (t : ZMod P) ^ (2 ^ i) ≠ 1 ∧ (t : ZMod P) ^ (2 ^ (i + 1)) = 1 := by
  induction n with
  | zero => intro j last _ _ h; omega
  | succ n ih =>
    intro j last h1 h2 _
    rw [List.range'_succ, findI]
    split_ifs with h
    · exact ⟨j, rfl, le_rfl, by omega, h1, (pow_mod_eq_one _ _).1 h⟩
    · rw [pow_mod_eq_one] at h
      rcases Nat.eq_zero_or_pos n with h0 | h0
      · subst h0
        exact absurd h2 h
      · obtain ⟨i, e, a1, a2, a3, a4⟩ := ih (j + 1) (j + 1) h (by rw [← h2]; congr 2; omega) h0
        refine ⟨i, ?_, by omega, by omega, a3, a4⟩
        rw [← e, pow_succ 2 (j + 1)]

theorem sqrtLoop_spec (a : ZMod P) (n : ℕ) : ∀ (x t c m : ℕ), 0 < m → m ≤ n → x < P → t < P →
    (x : ZMod P) ^ 2 = a * t → (t : ZMod P) ^ (2 ^ (m - 1)) = 1 → (c : ZMod P) ^ (2 ^ (m - 1)) = -1 →
    ∃ y, sqrtLoop P n x t c m = .ok y ∧ y < P ∧ (y : ZMod P) ^ 2 = a := by
  have h1P : 1 < P := hP.out.one_lt
  induction n with
  | zero => intro x t c m h0 h; omega
  | succ n ih =>
    intro x t c m h0 hm hx ht hxt h1 hc
    rw [sqrtLoop]
    by_cases hne : t ≠ 1
    · rw [if_pos hne]
      have hne' : (t : ZMod P) ≠ 1 := by
        intro h
        have := (pow_mod_eq_one (P := P) t 1).2 (by rw [pow_one, h])
        rw [pow_one, Nat.mod_eq_of_lt ht] at this
        exact hne this
      have hm2 : 0 < m - 1 := by
        rcases Nat.eq_zero_or_pos (m - 1) with h | h
        · rw [h, pow_zero, pow_one] at h1
          exact absurd h1 hne'
        · exact h
      obtain ⟨i, e, -, a2, a3, a4⟩ := findI_spec (P := P) t (m - 1) 0 0 (by rwa [pow_zero, pow_one])
        (by rwa [Nat.zero_add]) hm2
      rw [Nat.zero_add, pow_one] at e
      rw [e]
      simp only
      have htm : (t : ZMod P) ^ (2 ^ i) = -1 := by
        have : ((t : ZMod P) ^ (2 ^ i)) ^ 2 = 1 := by rw [← pow_mul, ← pow_succ]; exact a4
        rcases (sq_eq_sq_iff_eq_or_eq_neg.1 (this.trans (one_pow 2).symm)) with h | h
        · exact absurd h a3
        · exact h
      have hb2 : (((c : ZMod P) ^ (2 ^ (m - (i + 1) - 1))) ^ 2) ^ (2 ^ i) = -1 := by
        rw [← pow_mul, ← pow_mul, ← hc]
        congr 1
        rw [← pow_succ' 2 i, ← pow_add]
        congr 1
        omega
      refine ih _ _ _ _ (by omega) (by omega) (Nat.mod_lt _ (by omega)) (Nat.mod_lt _ (by omega)) ?_ ?_ ?_
      · rw [ZMod.natCast_mod, ZMod.natCast_mod]
        push_cast
        rw [cast_pow_mod]
        linear_combination ((c : ZMod P) ^ (2 ^ (m - (i + 1) - 1))) ^ 2 * hxt
      · rw [ZMod.natCast_mod, Nat.add_sub_cancel]
        push_cast
        rw [cast_pow_mod, mul_assoc, ← pow_two, mul_pow, htm, hb2]
        ring
      · rw [ZMod.natCast_mod, Nat.add_sub_cancel]
        push_cast
        rw [cast_pow_mod, ← pow_two, hb2]
    · rw [if_neg hne]
      rw [not_not] at hne
      refine ⟨x, rfl, hx, ?_⟩
      rw [hxt, hne, Nat.cast_one, mul_one]

/-- From one root, all roots. -/
theorem roots_list (h2 : P ≠ 2) (a x : ℕ) (ha : (a : ZMod P) ≠ 0) (hx : x < P) (hxa : (x : ZMod P) ^ 2 = a) :
    [x, P - x].Nodup ∧ ∀ y : ℕ, y ∈ [x, P - x] ↔ y < P ∧ (y : ZMod P) ^ 2 = a := by
  have ho : P % 2 = 1 := hP.out.eq_two_or_odd.resolve_left h2
  have hx0 : x ≠ 0 := by
    rintro rfl
    rw [Nat.cast_zero, zero_pow two_ne_zero] at hxa
    exact ha hxa.symm
  refine ⟨?_, fun y => ?_⟩
  · simp only [List.nodup_cons, List.mem_singleton, List.not_mem_nil, not_false_eq_true, List.nodup_nil, and_true]
    omega
  · rw [List.mem_cons, List.mem_singleton]
    constructor
    · rintro (rfl | rfl)
      · exact ⟨hx, hxa⟩
      · refine ⟨by omega, ?_⟩
        rw [Nat.cast_sub hx.le, ZMod.natCast_self, zero_sub, neg_sq, hxa]
    · rintro ⟨hy, hya⟩
      rw [← hxa, sq_eq_sq_iff_eq_or_eq_neg] at hya
      rcases hya with h | h
      · left
        have := congrArg ZMod.val h
        rwa [ZMod.val_natCast, ZMod.val_natCast, Nat.mod_eq_of_lt hy, Nat.mod_eq_of_lt hx] at this
      · right
        have h' : (y : ZMod P) = ((P - x : ℕ) : ZMod P) := by
          rw [h, Nat.cast_sub hx.le, ZMod.natCast_self, zero_sub]
        have := congrArg ZMod.val h'
        rwa [ZMod.val_natCast, ZMod.val_natCast, Nat.mod_eq_of_lt hy, Nat.mod_eq_of_lt (by omega)] at this

theorem exists_nonres (h2 : P ≠ 2) : ∃ w, 1 ≤ w ∧ w < P ∧ legendre w P = -1 := by
  obtain ⟨b, hb⟩ := FiniteField.exists_nonsquare (F := ZMod P) (by rw [ZMod.ringChar_zmod_n]; exact h2)
  have hb0 : b ≠ 0 := by
    rintro rfl
    exact hb ⟨0, by rw [mul_zero]⟩
  refine ⟨b.val, ?_, ZMod.val_lt b, ?_⟩
  · exact Nat.one_le_iff_ne_zero.2 fun h => hb0 ((ZMod.val_eq_zero b).1 h)
  · rw [legendre_neg _ h2, ZMod.natCast_zmod_val]
    rcases ZMod.pow_div_two_eq_neg_one_or_one P hb0 with h | h
    · exact absurd ((ZMod.euler_criterion P hb0).2 h) hb
    · exact h

theorem primeModSqrt_nat (a fuel : ℕ) (h2 : P ≠ 2) (ha0 : (a : ZMod P) ≠ 0) (hsq : legendre a P = 1)
    (hf : P ≤ fuel) :
    (P % 4 = 3 → a ^ ((P + 1) / 4) % P < P ∧ ((a ^ ((P + 1) / 4) % P : ℕ) : ZMod P) ^ 2 = a) ∧
    ∃ x q s z, splitLoop fuel (P - 1) 0 = .ok (q, s) ∧ nonResLoop P fuel 1 = .ok z ∧
      sqrtLoop P fuel (a ^ ((q + 1) / 2) % P) (a ^ q % P) (z ^ q % P) s = .ok x ∧ x < P ∧ (x : ZMod P) ^ 2 = a := by
  have h3 : 2 < P := lt_of_le_of_ne hP.out.two_le (Ne.symm h2)
  have ho : P % 2 = 1 := hP.out.eq_two_or_odd.resolve_left h2
  have hE : (a : ZMod P) ^ (P / 2) = 1 := (ZMod.euler_criterion P ha0).1 ((legendre_one a h2).1 hsq).2
  constructor
  · intro h4
    refine ⟨Nat.mod_lt _ (by omega), ?_⟩
    rw [cast_pow_mod, ← pow_mul, show (P + 1) / 4 * 2 = P / 2 + 1 by omega, pow_succ, hE, one_mul]
  · obtain ⟨q, s, e1, q1, -, q2⟩ := splitLoop_spec fuel (P - 1) 0 (by omega) (by omega)
    rw [Nat.sub_zero] at q2
    obtain ⟨w, w1, w2, w3⟩ := exists_nonres (P := P) h2
    obtain ⟨z, e2, hz⟩ := nonResLoop_spec w w3 fuel 1 w1 (by omega)
    rw [legendre_neg _ h2] at hz
    have hs0 : 0 < s := by
      rcases Nat.eq_zero_or_pos s with h | h
      · rw [h, pow_zero, mul_one] at q2; omega
      · exact h
    have hq : q * 2 ^ (s - 1) = P / 2 := by
      have : q * 2 ^ (s - 1) * 2 = P - 1 := by
        rw [mul_assoc, ← pow_succ, show s - 1 + 1 = s by omega, q2]
      omega
    have hsP : s ≤ fuel := by
      have h1 : s < 2 ^ s := Nat.lt_two_pow_self
      have h2 : 2 ^ s ≤ q * 2 ^ s := Nat.le_mul_of_pos_left _ (by omega)
      omega
    obtain ⟨x, e3, x1, x2⟩ := sqrtLoop_spec (a : ZMod P) fuel (a ^ ((q + 1) / 2) % P) (a ^ q % P) (z ^ q % P) s hs0 hsP
      (Nat.mod_lt _ (by omega)) (Nat.mod_lt _ (by omega))
      (by rw [cast_pow_mod, cast_pow_mod, ← pow_mul, show (q + 1) / 2 * 2 = q + 1 by omega, pow_succ, mul_comm])
      (by rw [cast_pow_mod, ← pow_mul, hq, hE])
      (by rw [cast_pow_mod, ← pow_mul, hq, hz])
    exact ⟨x, q, s, z, e1, e2, e3, x1, x2⟩

end Sqrt

/-- C97: for every prime `P` and every integer `a` the square root tool ends and returns the list, without
repetitions, of exactly the solutions of `y² ≡ a` below `P`. -/
theorem C97_all_roots (a : ℤ) (P fuel : ℕ) (hP : P.Prime) (hf : P ≤ fuel) :
    ∃ l, primeModSqrt fuel a P = .ok l ∧ l.Nodup ∧ ∀ y : ℕ, y ∈ l ↔ y < P ∧ (P : ℤ) ∣ (y : ℤ) ^ 2 - a := by
  haveI : Fact P.Prime := ⟨hP⟩
  have hP0 : (P : ℤ) ≠ 0 := by exact_mod_cast hP.ne_zero
  have hlt : (a % P).toNat < P := by
    have h1 := Int.emod_nonneg a hP0
    have h2 := Int.emod_lt_of_pos a (show (0 : ℤ) < P by exact_mod_cast hP.pos)
    omega
  have hcast : (((a % P).toNat : ℕ) : ZMod P) = (a : ZMod P) := by
    have h1 : (((a % P).toNat : ℕ) : ℤ) = a % P := Int.toNat_of_nonneg (Int.emod_nonneg a hP0)
    rw [← Int.cast_natCast, h1, ZMod.intCast_mod]
  have hspec : ∀ y : ℕ, (P : ℤ) ∣ (y : ℤ) ^ 2 - a ↔ (y : ZMod P) ^ 2 = (((a % P).toNat : ℕ) : ZMod P) := by
    intro y
    rw [hcast, ← ZMod.intCast_zmod_eq_zero_iff_dvd]
    push_cast
    exact sub_eq_zero
  simp only [hspec]
  unfold primeModSqrt
  simp only
  generalize (a % P).toNat = b at *
  clear hcast hspec
  by_cases h0 : b = 0
  · rw [if_pos h0, h0]
    refine ⟨_, rfl, List.nodup_singleton _, fun y => ?_⟩
    rw [List.mem_singleton, Nat.cast_zero]
    constructor
    · rintro rfl
      exact ⟨hP.pos, by rw [Nat.cast_zero, zero_pow two_ne_zero]⟩
    · rintro ⟨h1, h2⟩
      have h3 := pow_eq_zero_iff two_ne_zero |>.1 h2
      rw [ZMod.natCast_eq_zero_iff] at h3
      exact Nat.eq_zero_of_dvd_of_lt h3 h1
  rw [if_neg h0]
  have hb0 : (b : ZMod P) ≠ 0 := by
    rw [Ne, ZMod.natCast_eq_zero_iff]
    intro h
    exact h0 (Nat.eq_zero_of_dvd_of_lt h hlt)
  by_cases h2 : P = 2
  · rw [if_pos h2]
    refine ⟨_, rfl, List.nodup_singleton _, fun y => ?_⟩
    subst h2
    have hb : b = 1 := by omega
    subst hb
    rw [List.mem_singleton]
    constructor
    · rintro rfl
      exact ⟨by omega, by rw [Nat.cast_one, one_pow]⟩
    · rintro ⟨h1, h2⟩
      rcases (show y = 0 ∨ y = 1 by omega) with h | h
      · rw [h] at h2
        rw [Nat.cast_zero, Nat.cast_one, zero_pow two_ne_zero] at h2
        exact absurd h2 zero_ne_one
      · exact h
  rw [if_neg h2]
  by_cases hl : legendre b P = 1
  · rw [if_neg (not_not.2 hl)]
    obtain ⟨hA, x, q, s, z, e1, e2, e3, x1, x2⟩ := primeModSqrt_nat b fuel h2 hb0 hl hf
    by_cases h4 : P % 4 = 3
    · rw [if_pos h4]
      obtain ⟨y1, y2⟩ := hA h4
      exact ⟨_, rfl, roots_list h2 b _ hb0 y1 y2⟩
    · rw [if_neg h4, e1, Res.ok_bind]
      simp only
      rw [e2, Res.ok_bind, e3, Res.ok_bind]
      exact ⟨_, rfl, roots_list h2 b _ hb0 x1 x2⟩
  · rw [if_pos hl]
    refine ⟨_, rfl, List.nodup_nil, fun y => ?_⟩
    simp only [List.not_mem_nil, false_iff, not_and]
    intro _ h
    exact hl ((legendre_one b h2).2 ⟨hb0, ⟨(y : ZMod P), by rw [← h, sq]⟩⟩)

example : Nat.Prime 73 ∧ primeModSqrt 100 (-3) 73 = .ok [17, 56] ∧ primeModSqrt 100 5 73 = .ok [] ∧
    primeModSqrt 100 12 11 = .ok [1, 10] := by
  refine ⟨by norm_num, by decide +kernel, by decide +kernel, by decide +kernel⟩

/-! ### C98: base 51 -/

/-- C98: the base-51 tools keep exactly the numbers below `2^255`. -/
theorem C98_round_trip (n : ℕ) : fromBase51 (toBase51 n) = n % 2 ^ 255 := by
  unfold fromBase51 toBase51
  dsimp only
  omega

/-- C98: the limbs of the base-51 tool, used as limbs of the library, give another number as soon as the number needs
a second limb. -/
theorem C98_not_library_limbs (n : ℕ) (h1 : 2 ^ 51 ≤ n) (h2 : n < 2 ^ 255) : (toBase51 n).WF ∧ n < (toBase51 n).val := by
  unfold toBase51 L5.WF L5.val
  dsimp only
  omega

/-- C98: numbers below `2^51` have the same limbs in both. -/
theorem C98_small (n : ℕ) (h : n < 2 ^ 51) : toBase51 n = Misc.toBase52 n ∧ (toBase51 n).val = n := by
  unfold toBase51 Misc.toBase52 L5.val
  dsimp only
  refine ⟨?_, by omega⟩
  rw [L5.mk.injEq]
  omega

/-- C98: the point constructor of the tool keeps coordinates below `2^260`. -/
theorem C98_point (x y z t : ℕ) (hx : x < 2 ^ 260) (hy : y < 2 ^ 260) (hz : z < 2 ^ 260) (ht : t < 2 ^ 260) :
    (newPoint x y z t).X.val = x ∧ (newPoint x y z t).Y.val = y ∧ (newPoint x y z t).Z.val = z ∧
      (newPoint x y z t).T.val = t := by
  have key : ∀ n < 2 ^ 260, (Misc.toBase52 n).val = n := by
    intro n h
    unfold Misc.toBase52 L5.val
    dsimp only
    omega
  exact ⟨key x hx, key y hy, key z hz, key t ht⟩

example : fromBase51 (toBase51 (2 ^ 200 + 5)) = 2 ^ 200 + 5 ∧ (toBase51 (2 ^ 51)).val = 2 ^ 52 := by decide
example : (2 : ℕ) ^ 51 ≤ 2 ^ 200 ∧ 2 ^ 200 < 2 ^ 255 := by decide

end Props
end Zerocaf
