import Verif.Proof.Enc
import Mathlib.NumberTheory.LegendreSymbol.Basic
import Mathlib.Algebra.Field.ZMod

/-!
# Exponentiation, quadratic residues, inversion
-/

set_option exponentiation.threshold 600

namespace Zerocaf
namespace Field

/-! ### Exponentiation -/

theorem powLoop_spec (c : Cfg) : ∀ (n fuel : Nat) (base : FE) (r : Fp) (e : FE),
    base.WF → e.WF → e.val < 2 ^ n → n < fuel →
    powLoop c fuel base (enc r) e = .ok (enc (r * base.toZ ^ e.val)) := by
  intro n
  induction n with
  | zero =>
    intro fuel base r e hb he hn hf
    obtain ⟨f, rfl⟩ : ∃ f, fuel = f + 1 := ⟨fuel - 1, by omega⟩
    have h0 : e.val = 0 := by simpa using hn
    have hg : gt e zero = false := by
      rw [gt_spec e zero he zero_canon.1, zero_val, h0]; rfl
    rw [powLoop, hg, h0, pow_zero, mul_one]
    rfl
  | succ n ih =>
    intro fuel base r e hb he hn hf
    obtain ⟨f, rfl⟩ : ∃ f, fuel = f + 1 := ⟨fuel - 1, by omega⟩
    have hn' : e.val < 2 * 2 ^ n := by rw [pow_succ] at hn; omega
    rw [powLoop, gt_spec e zero he zero_canon.1, zero_val, isEven_spec]
    by_cases h0 : e.val = 0
    · rw [h0, pow_zero, mul_one]; simp
    · rw [decide_eq_true (show 0 < e.val by omega)]
      obtain ⟨wh, vh⟩ := halfWithoutMod_spec e he
      by_cases h2 : e.val % 2 = 0
      · simp only [h2, decide_true, if_true]
        rw [mul_wf c base base hb hb, Res.ok_bind,
          ih f _ r _ (enc_WF _) wh (by rw [vh]; omega) (by omega), enc_toZ, vh, ← pow_two,
          ← pow_mul, show 2 * (e.val / 2) = e.val by omega]
      · simp only [h2, decide_false, if_true, Bool.false_eq_true, if_false]
        obtain ⟨e1, ee, we, ve⟩ := sub_exact c e one he one_canon.1 (by rw [one_val]; omega)
        rw [one_val] at ve
        obtain ⟨wh, vh⟩ := halfWithoutMod_spec e1 we
        rw [ee, Res.ok_bind, mul_wf c _ base (enc_WF _) hb, Res.ok_bind, mul_wf c base base hb hb,
          Res.ok_bind, ih f _ _ _ (enc_WF _) wh (by rw [vh, ve]; omega) (by omega), enc_toZ, enc_toZ,
          vh, ve, ← pow_two, ← pow_mul, mul_assoc, ← pow_succ',
          show 2 * ((e.val - 1) / 2) + 1 = e.val by omega]

theorem pow_wf (c : Cfg) (hc : c.Enough) (a e : FE) (ha : a.WF) (he : e.WF) :
    pow c a e = .ok (enc (a.toZ ^ e.val)) := by
  unfold pow
  unfold Cfg.Enough at hc
  rw [one_enc, powLoop_spec c 260 c.fuel a 1 e ha he he.val_lt (by omega), one_mul]

theorem pow_enc (c : Cfg) (hc : c.Enough) (x : Fp) (e : FE) (he : e.WF) :
    pow c (enc x) e = .ok (enc (x ^ e.val)) := by
  rw [pow_wf c hc _ _ (enc_WF x) he, enc_toZ]

/-! ### Legendre symbol -/

theorem MINUS_ONE_HALF_spec : MINUS_ONE_HALF.WF ∧ MINUS_ONE_HALF.val = p / 2 := by decide

theorem one_ne_neg_one : (1 : Fp) ≠ -1 := by
  have : Fact (2 < p) := ⟨by decide⟩
  exact fun h => ZMod.neg_one_ne_one h.symm

theorem two_ne_zero' : (2 : Fp) ≠ 0 := fun h => one_ne_neg_one (by
  have : (1 : Fp) + 1 = 0 := by rw [← h]; norm_num
  exact eq_neg_of_add_eq_zero_left this)

theorem pow_half_ne_neg_one (x : Fp) : x ^ (p / 2) ≠ -1 ↔ IsSquare x := by
  by_cases hx : x = 0
  · subst hx
    rw [zero_pow (by decide)]
    exact iff_of_true (fun h => by simp [eq_comm] at h) ⟨0, by simp⟩
  · rw [ZMod.euler_criterion p hx]
    have h := ZMod.pow_div_two_eq_neg_one_or_one p hx
    constructor
    · intro h'; exact h.resolve_right h'
    · intro h'; rw [h']; exact one_ne_neg_one

open Classical in
theorem legendre_wf (c : Cfg) (hc : c.Enough) (a : FE) (ha : a.WF) :
    legendre c a = .ok (decide (IsSquare a.toZ)) := by
  unfold legendre
  rw [pow_wf c hc a _ ha MINUS_ONE_HALF_spec.1, Res.ok_bind, MINUS_ONE_HALF_spec.2, minusOne_enc,
    ctEq_enc, Res.pure_eq, Res.ok_inj, Bool.eq_iff_iff]
  simp only [Bool.bne_true, Bool.not_eq_true', decide_eq_false_iff_not, decide_eq_true_eq]
  exact pow_half_ne_neg_one _

open Classical in
theorem legendre_enc (c : Cfg) (hc : c.Enough) (x : Fp) :
    legendre c (enc x) = .ok (decide (IsSquare x)) := by
  rw [legendre_wf c hc _ (enc_WF x), enc_toZ]

/-! ### Inversion -/

theorem two_enc : (⟨2, 0, 0, 0, 0⟩ : FE) = enc 2 := by
  have h : (⟨2, 0, 0, 0, 0⟩ : FE).Canon := by decide
  exact h.eq_enc (by unfold L5.toZ; rfl)

theorem mul_two (c : Cfg) (x : Fp) : mul c (enc x) ⟨2, 0, 0, 0, 0⟩ = .ok (enc (2 * x)) := by
  rw [two_enc, mul_enc, mul_comm]

theorem gcd_half {u v : Nat} (hu : u % 2 = 0) (hg : Nat.gcd u v % 2 = 1) :
    Nat.gcd (u / 2) v = Nat.gcd u v := by
  have hv : Nat.Coprime 2 v := by
    rw [Nat.coprime_two_left, Nat.odd_iff]
    by_contra h
    have h2 : 2 ∣ Nat.gcd u v := Nat.dvd_gcd (by omega) (by omega)
    omega
  conv_rhs => rw [show u = 2 * (u / 2) by omega]
  exact (Nat.Coprime.gcd_mul_left_cancel (u / 2) hv).symm

theorem gcd_sub_half {u v : Nat} (h : v ≤ u) (hu : (u - v) % 2 = 0)
    (hg : Nat.gcd u v % 2 = 1) : Nat.gcd ((u - v) / 2) v = Nat.gcd u v := by
  have : Nat.gcd (u - v) v = Nat.gcd u v := Nat.gcd_sub_self_left h
  rw [gcd_half hu (by rw [this]; exact hg), this]

/-- The loop of `phase1`: with `u * v < 2^n` it makes at most `n` iterations and keeps
`A * R = -u * 2^k`, `A * S = v * 2^k` and `gcd u v` (odd). -/
theorem phase1Loop_spec (c : Cfg) (A : Fp) : ∀ (n fuel : Nat) (u v : FE) (R S : Fp) (k : Nat),
    u.WF → v.WF → 0 < u.val → u.val * v.val < 2 ^ n → n < fuel → k + n < 2 ^ 64 →
    Nat.gcd u.val v.val % 2 = 1 → A * R = -(u.val : Fp) * 2 ^ k → A * S = (v.val : Fp) * 2 ^ k →
    ∃ (R' : Fp) (k' : Nat), phase1Loop c fuel u v (enc R) (enc S) k = .ok (enc R', k') ∧
      k ≤ k' ∧ k' ≤ k + n ∧ (0 < v.val → k < k') ∧
      A * R' = -((Nat.gcd u.val v.val : Nat) : Fp) * 2 ^ k' := by
  intro n
  induction n with
  | zero =>
    intro fuel u v R S k hu hv hu0 hn hf hk hg hR hS
    obtain ⟨f, rfl⟩ : ∃ f, fuel = f + 1 := ⟨fuel - 1, by omega⟩
    have h0 : v.val = 0 := by
      rcases Nat.eq_zero_or_pos v.val with h | h
      · exact h
      · have := Nat.mul_pos hu0 h; omega
    have hgt : gt v zero = false := by
      rw [gt_spec v zero hv zero_canon.1, zero_val, h0]; rfl
    refine ⟨R, k, ?_, le_refl _, by omega, by omega, ?_⟩
    · rw [phase1Loop, hgt]; rfl
    · rw [h0, Nat.gcd_zero_right]; exact hR
  | succ n ih =>
    intro fuel u v R S k hu hv hu0 hn hf hk hg hR hS
    obtain ⟨f, rfl⟩ : ∃ f, fuel = f + 1 := ⟨fuel - 1, by omega⟩
    have hn' : u.val * v.val < 2 * 2 ^ n := by rw [pow_succ] at hn; omega
    have ck := chk64_ok c (n := k + 1) (by omega)
    rw [phase1Loop, gt_spec v zero hv zero_canon.1, zero_val, isEven_spec, isEven_spec]
    rcases Nat.eq_zero_or_pos v.val with h0 | h0
    · refine ⟨R, k, ?_, le_refl _, by omega, by omega, ?_⟩
      · rw [h0]; simp
      · rw [h0, Nat.gcd_zero_right]; exact hR
    rw [decide_eq_true h0, if_pos rfl]
    by_cases hue : u.val % 2 = 0
    · -- `u` even
      rw [decide_eq_true hue, if_pos rfl, mul_two, Res.ok_bind, ck, Res.ok_bind]
      obtain ⟨wh, vh⟩ := halfWithoutMod_spec u hu
      have hq : u.val = 2 * (u.val / 2) := by omega
      obtain ⟨R', k', e, h1, h2, h3, h4⟩ := ih f _ v R (2 * S) (k + 1) wh hv (by rw [vh]; omega)
        (by
          rw [vh]
          have : 2 * (u.val / 2 * v.val) = u.val * v.val := by rw [← Nat.mul_assoc, ← hq]
          omega) (by omega) (by omega) (by rw [vh, gcd_half hue hg]; exact hg)
        (by
          rw [hR, vh, pow_succ]
          conv_lhs => rw [hq]
          push_cast; ring)
        (by rw [pow_succ]; linear_combination 2 * hS)
      rw [vh, gcd_half hue hg] at h4
      exact ⟨R', k', e, by omega, by omega, by omega, h4⟩
    rw [decide_eq_false hue]
    by_cases hve : v.val % 2 = 0
    · rw [decide_eq_true hve]
      simp only [Bool.false_eq_true, if_false, if_true]
      rw [mul_two, Res.ok_bind, ck, Res.ok_bind]
      obtain ⟨wh, vh⟩ := halfWithoutMod_spec v hv
      have hq : v.val = 2 * (v.val / 2) := by omega
      have hgc : Nat.gcd u.val (v.val / 2) = Nat.gcd u.val v.val := by
        rw [Nat.gcd_comm, gcd_half hve (by rw [Nat.gcd_comm]; exact hg), Nat.gcd_comm]
      obtain ⟨R', k', e, h1, h2, h3, h4⟩ := ih f u _ (2 * R) S (k + 1) hu wh hu0
        (by
          rw [vh]
          have : 2 * (u.val * (v.val / 2)) = u.val * v.val := by
            rw [Nat.mul_left_comm, ← hq]
          omega) (by omega) (by omega) (by rw [vh, hgc]; exact hg)
        (by rw [pow_succ]; linear_combination 2 * hR)
        (by
          rw [hS, vh, pow_succ]
          conv_lhs => rw [hq]
          push_cast; ring)
      rw [vh, hgc] at h4
      exact ⟨R', k', e, by omega, by omega, by omega, h4⟩
    rw [decide_eq_false hve, gt_spec u v hu hv, ge_spec v u hv hu]
    simp only [Bool.false_eq_true, if_false]
    by_cases hlt : v.val < u.val
    · rw [decide_eq_true hlt, if_pos rfl]
      obtain ⟨u1, e1, w1, v1⟩ := sub_exact c u v hu hv hlt.le
      obtain ⟨wh, vh⟩ := halfWithoutMod_spec u1 w1
      rw [v1] at vh
      have hsub : (u.val - v.val) % 2 = 0 := by omega
      have hq : u.val = 2 * ((u.val - v.val) / 2) + v.val := by omega
      have hgc := gcd_sub_half hlt.le hsub hg
      rw [e1, Res.ok_bind, add_enc, Res.ok_bind, mul_two, Res.ok_bind, ck, Res.ok_bind]
      obtain ⟨R', k', e, h1, h2, h3, h4⟩ := ih f _ v (R + S) (2 * S) (k + 1) wh hv (by rw [vh]; omega)
        (by
          rw [vh]
          have h5 : 2 * ((u.val - v.val) / 2 * v.val) ≤ u.val * v.val := by
            rw [← Nat.mul_assoc]; exact Nat.mul_le_mul_right _ (by omega)
          omega) (by omega) (by omega) (by rw [vh, hgc]; exact hg)
        (by
          have hcast : (u.val : Fp) = 2 * (((u.val - v.val) / 2 : ℕ) : Fp) + (v.val : Fp) := by
            exact_mod_cast congrArg (Nat.cast : ℕ → Fp) hq
          rw [vh, pow_succ]
          linear_combination hR + hS - 2 ^ k * hcast)
        (by rw [pow_succ]; linear_combination 2 * hS)
      rw [vh, hgc] at h4
      exact ⟨R', k', e, by omega, by omega, by omega, h4⟩
    · have hle : u.val ≤ v.val := by omega
      rw [decide_eq_false hlt, decide_eq_true hle]
      simp only [Bool.false_eq_true, if_false, if_true]
      obtain ⟨u1, e1, w1, v1⟩ := sub_exact c v u hv hu hle
      obtain ⟨wh, vh⟩ := halfWithoutMod_spec u1 w1
      rw [v1] at vh
      have hsub : (v.val - u.val) % 2 = 0 := by omega
      have hq : v.val = 2 * ((v.val - u.val) / 2) + u.val := by omega
      have hgc : Nat.gcd u.val ((v.val - u.val) / 2) = Nat.gcd u.val v.val := by
        rw [Nat.gcd_comm, gcd_sub_half hle hsub (by rw [Nat.gcd_comm]; exact hg), Nat.gcd_comm]
      rw [e1, Res.ok_bind, add_enc, Res.ok_bind, mul_two, Res.ok_bind, ck, Res.ok_bind]
      obtain ⟨R', k', e, h1, h2, h3, h4⟩ := ih f u _ (2 * R) (R + S) (k + 1) hu wh hu0
        (by
          rw [vh]
          have h5 : 2 * (u.val * ((v.val - u.val) / 2)) ≤ u.val * v.val := by
            rw [Nat.mul_left_comm]; exact Nat.mul_le_mul_left _ (by omega)
          omega) (by omega) (by omega) (by rw [vh, hgc]; exact hg)
        (by rw [pow_succ]; linear_combination 2 * hR)
        (by
          have hcast : (v.val : Fp) = 2 * (((v.val - u.val) / 2 : ℕ) : Fp) + (u.val : Fp) := by
            exact_mod_cast congrArg (Nat.cast : ℕ → Fp) hq
          rw [vh, pow_succ]
          linear_combination hR + hS + 2 ^ k * hcast)
      rw [vh, hgc] at h4
      exact ⟨R', k', e, by omega, by omega, by omega, h4⟩

theorem csub64_ok (c : Cfg) {a b : Nat} (h : b ≤ a) : csub64 c a b = .ok (a - b) := by
  unfold csub64; rw [if_pos h]

theorem two_pow_ne (k : Nat) : (2 : Fp) ^ k ≠ 0 := pow_ne_zero _ two_ne_zero'

/-- `phase1` returns `A⁻¹ * 2^k` with `1 ≤ k ≤ 513`. -/
theorem phase1_spec (c : Cfg) (hc : c.Enough) (a : FE) (ha : a.WF) (ha2 : a.val < 2 ^ 256)
    (h0 : a.toZ ≠ 0) :
    ∃ k, phase1 c a = .ok (enc (a.toZ⁻¹ * 2 ^ k), k) ∧ 1 ≤ k ∧ k ≤ 513 := by
  have hav : a.val ≠ 0 := fun h => h0 (by unfold L5.toZ; rw [h, Nat.cast_zero])
  have hgcd : Nat.gcd FIELD_L.val a.val = 1 := by
    rw [FIELD_L_val]
    refine (Nat.Prime.coprime_iff_not_dvd p_prime).2 (fun hd => h0 ?_)
    unfold L5.toZ
    exact (ZMod.natCast_eq_zero_iff _ _).2 hd
  unfold Cfg.Enough at hc
  obtain ⟨R, k, e, _, h2, h3, h4⟩ := phase1Loop_spec c a.toZ 513 c.fuel FIELD_L a 0 1 0 FIELD_L_WF ha
    (by decide)
    (by
      calc FIELD_L.val * a.val < 2 ^ 253 * 2 ^ 260 :=
            Nat.mul_lt_mul'' (by rw [FIELD_L_val]; exact p_lt) ha.val_lt
        _ = 2 ^ 513 := by norm_num) (by omega) (by norm_num) (by rw [hgcd])
    (by rw [FIELD_L_val, ZMod.natCast_self]; ring) (by unfold L5.toZ; ring)
  rw [hgcd, Nat.cast_one] at h4
  have hR0 : R ≠ 0 := fun h => by
    rw [h, mul_zero] at h4
    have := two_pow_ne k
    apply this
    linear_combination h4
  refine ⟨k, ?_, h3 (by omega), by omega⟩
  have hct : ctEq a zero = false := by
    rw [ctEq_spec a zero ha zero_canon.1 ha2 (by decide), zero_val]
    exact decide_eq_false hav
  unfold phase1
  rw [hct]
  simp only [Bool.not_false, rassert, if_true, Res.ok_bind]
  have e' : phase1Loop c c.fuel ⟨671914833335277, 3916664325105025, 1367801, 0, 17592186044416⟩ a
    zero one 0 = .ok (enc R, k) := by rw [zero_enc, one_enc]; exact e
  rw [e', Res.ok_bind]
  have hgt : gt (enc R) ⟨671914833335277, 3916664325105025, 1367801, 0, 17592186044416⟩ = false := by
    rw [show (⟨671914833335277, 3916664325105025, 1367801, 0, 17592186044416⟩ : FE) = FIELD_L from rfl,
      gt_spec _ _ (enc_WF R) FIELD_L_WF, FIELD_L_val]
    exact decide_eq_false (by have := (enc_canon R).2; omega)
  simp only [hgt, Bool.false_eq_true, if_false]
  have hpos : 0 < (enc R).val := by
    rw [enc_val]; rcases Nat.eq_zero_or_pos R.val with h | h
    · exact absurd ((ZMod.val_eq_zero R).1 h) hR0
    · exact h
  obtain ⟨pr, e2, w2, v2⟩ := sub_gen c FIELD_L (enc R) FIELD_L_WF (enc_WF R)
    (by rw [FIELD_L_val]; have := p_gt; omega) (enc_canon R).2.le (by rw [FIELD_L_val]; omega)
  rw [show (⟨671914833335277, 3916664325105025, 1367801, 0, 17592186044416⟩ : FE) = FIELD_L from rfl,
    e2, Res.ok_bind, Res.pure_eq]
  have hpr : pr = enc (-R) := w2.eq_enc (by
    unfold L5.toZ
    have := (enc_canon R).2.le
    rw [v2, FIELD_L_val, ZMod.natCast_mod, Nat.add_sub_assoc this, Nat.cast_add, Nat.cast_sub this,
      ZMod.natCast_self, enc_val, ZMod.natCast_zmod_val]
    ring)
  have hval : -R = a.toZ⁻¹ * 2 ^ k := by
    rw [eq_inv_mul_iff_mul_eq₀ h0]; linear_combination -h4
  rw [hpr, hval]

/-- Montgomery multiplication on residues, when the product is below `2^260 * p`. -/
theorem montgomeryMul_enc (c : Cfg) (x : Fp) (b : FE) (hb : b.WF) :
    montgomeryMul c (enc x) b = .ok (enc (x * b.toZ / 2 ^ 260)) := by
  obtain ⟨r, e, w, m, l⟩ := montgomeryMul_spec c (enc x) b (enc_WF x) hb
  have hlt : (enc x).val * b.val < 2 ^ 260 * p := by
    rw [Nat.mul_comm]; exact Nat.mul_lt_mul'' hb.val_lt (enc_canon x).2
  have hr : r.Canon := ⟨w, l hlt⟩
  rw [e, hr.eq_enc]
  rw [eq_div_iff (two_pow_ne 260)]
  have := (ZMod.natCast_eq_natCast_iff _ _ p).2 m
  rw [Nat.cast_mul, Nat.cast_mul, Nat.cast_pow, Nat.cast_ofNat] at this
  unfold L5.toZ
  rw [this, enc_val, ZMod.natCast_zmod_val]

theorem inverse_wf (c : Cfg) (hc : c.Enough) (a : FE) (ha : a.WF) (ha2 : a.val < 2 ^ 256)
    (h0 : a.toZ ≠ 0) : inverse c a = .ok (enc a.toZ⁻¹) := by
  obtain ⟨k, e, h1, h2⟩ := phase1_spec c hc a ha ha2 h0
  have n260 := two_pow_ne 260
  unfold inverse
  rw [e, Res.ok_bind]
  dsimp only
  by_cases hk : k > 260
  · rw [if_pos hk, montgomeryMul_enc c _ one one_canon.1, Res.ok_bind, csub64_ok c (by omega),
      Res.ok_bind, csub64_ok c (by omega), Res.ok_bind]
    obtain ⟨r, er, wr, vr⟩ := innerTwoPowK_ok (260 - (k - 260)) (by omega)
    rw [er, Res.ok_bind, montgomeryMul_enc c _ r wr, Res.ok_inj, enc_inj]
    have hr : r.toZ = 2 ^ (260 - (k - 260)) := by unfold L5.toZ; rw [vr]; push_cast; rfl
    have ho : one.toZ = 1 := by rw [one_enc, enc_toZ]
    rw [hr, ho, mul_one, div_mul_eq_mul_div, div_div, div_eq_iff (mul_ne_zero n260 n260), mul_assoc,
      ← pow_add, ← pow_add, show k + (260 - (k - 260)) = 260 + 260 by omega]
  · rw [if_neg hk, csub64_ok c (by omega), Res.ok_bind]
    obtain ⟨r, er, wr, vr⟩ := innerTwoPowK_ok (260 - k) (by omega)
    rw [er, Res.ok_bind, montgomeryMul_enc c _ r wr, Res.ok_inj, enc_inj]
    have hr : r.toZ = 2 ^ (260 - k) := by unfold L5.toZ; rw [vr]; push_cast; rfl
    rw [hr, div_eq_iff n260, mul_assoc, ← pow_add, show k + (260 - k) = 260 by omega]

theorem inverse_enc (c : Cfg) (hc : c.Enough) (x : Fp) (h0 : x ≠ 0) :
    inverse c (enc x) = .ok (enc x⁻¹) := by
  rw [inverse_wf c hc _ (enc_WF x) (canon_lt256 (enc_canon x)) (by rwa [enc_toZ]), enc_toZ]

theorem inverse_zero (c : Cfg) : inverse c (enc 0) = .panic := by
  unfold inverse phase1
  rw [zero_enc, ctEq_enc]
  simp [rassert]

theorem divRef_enc (c : Cfg) (hc : c.Enough) (x y : Fp) (h0 : y ≠ 0) :
    divRef c (enc x) (enc y) = .ok (enc (x / y)) := by
  unfold divRef
  rw [zero_enc, ctEq_enc, decide_eq_false h0, inverse_enc c hc y h0]
  simp [rassert, div_eq_mul_inv]

theorem div_enc (c : Cfg) (hc : c.Enough) (x y : Fp) (h0 : y ≠ 0) :
    div c (enc x) (enc y) = .ok (enc (x / y)) := by
  unfold div
  rw [inverse_enc c hc y h0]
  simp [div_eq_mul_inv]

theorem divRef_zero (c : Cfg) (a : FE) : divRef c a (enc 0) = .panic := by
  unfold divRef
  rw [zero_enc, ctEq_enc]
  simp [rassert]

theorem div_zero (c : Cfg) (a : FE) : div c a (enc 0) = .panic := by
  unfold div
  rw [inverse_zero]; rfl

end Field
end Zerocaf
