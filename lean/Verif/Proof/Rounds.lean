import Verif.Proof.Sqrt
import Verif.Proof.ScalarMul
import Verif.Proof.ScalarPow
import Verif.Proof.Naf
import Mathlib.Data.Nat.Size

/-!
# How many rounds the loops make

`fuel` bounds the rounds of each loop in the model, and a loop that needs more gives `diverge`. So the number of rounds
can be read off from the fuel that suffices.
-/

set_option exponentiation.threshold 600

namespace Zerocaf

/-! ### Exponentiation and multiplication by bits -/

namespace Field

theorem powLoop_diverge (c : Cfg) : ∀ (fuel : Nat) (base r e : FE),
    base.WF → r.WF → e.WF → 2 ^ fuel ≤ 2 * e.val + 1 → powLoop c fuel base r e = .diverge := by
  intro fuel
  induction fuel with
  | zero => intros; rfl
  | succ f ih =>
    intro base r e hb hr he hv
    rw [pow_succ] at hv
    have h0 : 0 < e.val := by have := Nat.one_le_two_pow (n := f); omega
    rw [powLoop, gt_spec e zero he zero_canon.1, zero_val, isEven_spec, decide_eq_true h0, if_pos rfl]
    by_cases h2 : e.val % 2 = 0
    · obtain ⟨wh, vh⟩ := halfWithoutMod_spec e he
      rw [decide_eq_true h2, if_pos rfl, mul_wf c base base hb hb, Res.ok_bind]
      exact ih _ _ _ (enc_WF _) hr wh (by rw [vh]; omega)
    · rw [decide_eq_false h2, if_neg (by simp)]
      obtain ⟨e1, ee, we, ve⟩ := sub_exact c e one he one_canon.1 (by rw [one_val]; omega)
      rw [one_val] at ve
      obtain ⟨wh, vh⟩ := halfWithoutMod_spec e1 we
      rw [ee, Res.ok_bind, mul_wf c _ base hr hb, Res.ok_bind, mul_wf c base base hb hb, Res.ok_bind]
      exact ih _ _ _ (enc_WF _) (enc_WF _) wh (by rw [vh, ve]; omega)

end Field

theorem fuel_le_size {f n : Nat} (h : f ≤ Nat.size n) : 2 ^ f ≤ 2 * n + 1 := by
  rcases f with _ | f
  · simp
  · have := Nat.lt_size.1 h
    rw [pow_succ]; omega

namespace Field

theorem pow_rounds (c : Cfg) (a e : FE) (ha : a.WF) (he : e.WF) :
    pow c a e = if Nat.size e.val < c.fuel then .ok (enc (a.toZ ^ e.val)) else .diverge := by
  unfold pow
  split
  · rename_i h
    rw [one_enc, powLoop_spec c _ c.fuel a 1 e ha he (Nat.lt_size_self _) h, one_mul]
  · rename_i h
    exact powLoop_diverge c _ _ _ _ ha one_canon.1 he (fuel_le_size (by omega))

end Field

namespace Scalar

theorem powLoop_diverge (c : Cfg) : ∀ (fuel : Nat) (base r e : Sc),
    base.WF → r.WF → e.SCanon → 2 ^ fuel ≤ 2 * e.val + 1 → powLoop c fuel base r e = .diverge := by
  intro fuel
  induction fuel with
  | zero => intros; rfl
  | succ f ih =>
    intro base r e hb hr he hv
    rw [pow_succ] at hv
    have h0 : 0 < e.val := by have := Nat.one_le_two_pow (n := f); omega
    rw [powLoop, gt_spec e zero he.1 zero_canon.1, zero_val, isEven_spec, decide_eq_true h0, if_pos rfl]
    obtain ⟨b', eb, cb, vb⟩ := square_spec c base hb
    by_cases h2 : e.val % 2 = 0
    · obtain ⟨wh, vh⟩ := halfWithoutMod_spec e he.1
      rw [decide_eq_true h2, if_pos rfl, eb, Res.ok_bind]
      have hv2 : (halfWithoutMod e).val = e.val / 2 := vh
      exact ih _ _ _ cb.1 hr ⟨wh, by rw [hv2]; have := he.2; omega⟩ (by rw [hv2]; omega)
    · rw [decide_eq_false h2, if_neg (by simp)]
      obtain ⟨e1, ee, ce, ve⟩ := sub_one c e he (by omega)
      obtain ⟨r', er, cr, vr⟩ := mul_spec c r base hr hb
      obtain ⟨e2, ee2, ce2, ve2⟩ := half_even c e1 ce (by omega)
      rw [ee, Res.ok_bind, er, Res.ok_bind, ee2, Res.ok_bind, eb, Res.ok_bind]
      exact ih _ _ _ cb.1 cr.1 ce2 (by omega)

theorem pow_rounds (c : Cfg) (a e : Sc) (ha : a.WF) (he : e.SCanon) :
    (c.fuel ≤ Nat.size e.val → pow c a e = .diverge) ∧
    (Nat.size e.val < c.fuel → ∃ s, pow c a e = .ok s ∧ s.SCanon ∧ s.val = a.val ^ e.val % ell) := by
  unfold pow
  constructor
  · exact fun h => powLoop_diverge c _ _ _ _ ha one_canon.1 he (fuel_le_size h)
  · intro h
    obtain ⟨s, es, cs, vs⟩ := powLoop_spec c _ c.fuel a one e ha one_canon he (Nat.lt_size_self _) h
    exact ⟨s, es, cs, by rw [vs, one_val, Nat.one_mul]⟩

end Scalar

theorem doubleAndAddLoop_diverge {T : Type} {O : PointOps T} {R : T → E → Prop} (hO : OpsSpec O R) (c : Cfg) :
    ∀ (fuel : Nat) (N : T) (A : E) (n : Sc) (Q : T) (B : E), R N A → R Q B → n.WF → n.val < 2 ^ 256 →
      2 ^ fuel ≤ 2 * n.val + 1 → doubleAndAddLoop O c fuel N n Q = .diverge := by
  intro fuel
  induction fuel with
  | zero => intros; rfl
  | succ f ih =>
    intro N A n Q B hN hQ wn hn hv
    rw [pow_succ] at hv
    have h0 : n.val ≠ 0 := by have := Nat.one_le_two_pow (n := f); omega
    rw [doubleAndAddLoop, sctEq_zero n wn hn, Scalar.isEven_spec]
    obtain ⟨wh, vh⟩ := halfWithoutMod_spec n wn
    have vh : (Scalar.halfWithoutMod n).val = n.val / 2 := vh
    obtain ⟨N', eN, hN'⟩ := hO.double c hN
    simp only [h0, decide_false, Bool.not_false, if_true, eN, Res.ok_bind]
    by_cases he : n.val % 2 = 0
    · simp only [he, decide_true, Bool.not_true, Bool.false_eq_true, if_false]
      exact ih N' (A + A) _ Q B hN' hQ wh (by omega) (by omega)
    · obtain ⟨Q', eQ, hQ'⟩ := hO.add c hQ hN
      simp only [he, decide_false, Bool.not_false, if_true, eQ, Res.ok_bind]
      exact ih N' (A + A) _ Q' (B + A) hN' hQ' wh (by omega) (by omega)

theorem doubleAndAdd_rounds {T : Type} {O : PointOps T} {R : T → E → Prop} (hO : OpsSpec O R) (c : Cfg) {P : T} {A : E}
    (hP : R P A) (n : Sc) (wn : n.WF) (hn : n.val < 2 ^ 256) :
    (c.fuel ≤ Nat.size n.val → doubleAndAdd O c P n = .diverge) ∧
    (Nat.size n.val < c.fuel → ∃ S, doubleAndAdd O c P n = .ok S ∧ R S (n.val • A)) := by
  constructor
  · exact fun h => doubleAndAddLoop_diverge hO c _ _ _ _ _ _ hP hO.identity wn hn (fuel_le_size h)
  · intro h
    obtain ⟨S, eS, hS⟩ := doubleAndAddLoop_rep hO c (Nat.size n.val) c.fuel P A n O.identity 0 hP hO.identity wn
      (Nat.lt_size_self _) (Nat.size_le.2 hn) h
    exact ⟨S, eS, by rw [zero_add] at hS; exact hS⟩

/-! ### Inversion -/

namespace Field

/-- The loop of `phase1` makes `k` rounds whatever the build, with `u + v ≤ 2^k * gcd` and `2^k * gcd^2 ≤ 2 * u * v`. -/
theorem phase1Loop_rounds (A : Fp) : ∀ (n : Nat) (u v : FE) (R S : Fp) (j : Nat),
    u.WF → v.WF → 0 < u.val → u.val * v.val < 2 ^ n → j + n < 2 ^ 64 →
    Nat.gcd u.val v.val % 2 = 1 → A * R = -(u.val : Fp) * 2 ^ j → A * S = (v.val : Fp) * 2 ^ j →
    ∃ (R' : Fp) (k : Nat), (u.val + v.val ≤ 2 ^ k * Nat.gcd u.val v.val) ∧
      (if v.val = 0 then k = 0 else 1 ≤ k ∧ 2 ^ k * Nat.gcd u.val v.val ^ 2 ≤ 2 * (u.val * v.val)) ∧
      A * R' = -((Nat.gcd u.val v.val : Nat) : Fp) * 2 ^ (j + k) ∧
      ∀ (c : Cfg) (fuel : Nat), phase1Loop c fuel u v (enc R) (enc S) j =
        if k < fuel then .ok (enc R', j + k) else .diverge := by
  intro n
  have zero_case : ∀ (u v : FE) (R S : Fp) (j : Nat), u.WF → v.WF → v.val = 0 → A * R = -(u.val : Fp) * 2 ^ j →
    ∃ (R' : Fp) (k : Nat), (u.val + v.val ≤ 2 ^ k * Nat.gcd u.val v.val) ∧
      (if v.val = 0 then k = 0 else 1 ≤ k ∧ 2 ^ k * Nat.gcd u.val v.val ^ 2 ≤ 2 * (u.val * v.val)) ∧
      A * R' = -((Nat.gcd u.val v.val : Nat) : Fp) * 2 ^ (j + k) ∧
      ∀ (c : Cfg) (fuel : Nat), phase1Loop c fuel u v (enc R) (enc S) j =
        if k < fuel then .ok (enc R', j + k) else .diverge := by
    intro u v R S j hu hv h0 hR
    refine ⟨R, 0, ?_, ?_, ?_, ?_⟩
    · rw [h0, Nat.gcd_zero_right]; omega
    · rw [if_pos h0]
    · rw [h0, Nat.gcd_zero_right]; exact hR
    · intro c fuel
      rcases fuel with _ | f
      · rfl
      · have hgt : gt v zero = false := by
          rw [gt_spec v zero hv zero_canon.1, zero_val, h0]; rfl
        rw [phase1Loop, hgt, if_neg (by simp), if_pos (Nat.succ_pos _), Nat.add_zero]
  induction n with
  | zero =>
    intro u v R S j hu hv hu0 hn hk hg hR hS
    refine zero_case u v R S j hu hv ?_ hR
    rcases Nat.eq_zero_or_pos v.val with h | h
    · exact h
    · have := Nat.mul_pos hu0 h; omega
  | succ n ih =>
    intro u v R S j hu hv hu0 hn hk hg hR hS
    rcases Nat.eq_zero_or_pos v.val with h0 | h0
    · exact zero_case u v R S j hu hv h0 hR
    have hn' : u.val * v.val < 2 * 2 ^ n := by rw [pow_succ] at hn; omega
    have ck := fun c => chk64_ok c (n := j + 1) (by omega)
    -- one round, then the rest
    have fin : ∀ (u' v' : FE) (R1 S1 : Fp), 0 < u'.val →
        (∃ (R' : Fp) (k : Nat), (u'.val + v'.val ≤ 2 ^ k * Nat.gcd u'.val v'.val) ∧
          (if v'.val = 0 then k = 0 else 1 ≤ k ∧ 2 ^ k * Nat.gcd u'.val v'.val ^ 2 ≤ 2 * (u'.val * v'.val)) ∧
          A * R' = -((Nat.gcd u'.val v'.val : Nat) : Fp) * 2 ^ (j + 1 + k) ∧
          ∀ (c : Cfg) (fuel : Nat), phase1Loop c fuel u' v' (enc R1) (enc S1) (j + 1) =
            if k < fuel then .ok (enc R', j + 1 + k) else .diverge) →
        Nat.gcd u'.val v'.val = Nat.gcd u.val v.val → u.val + v.val ≤ 2 * (u'.val + v'.val) →
        2 * (u'.val * v'.val) ≤ u.val * v.val →
        (∀ (c : Cfg) (f : Nat), phase1Loop c (f + 1) u v (enc R) (enc S) j =
          phase1Loop c f u' v' (enc R1) (enc S1) (j + 1)) →
        ∃ (R' : Fp) (k : Nat), (u.val + v.val ≤ 2 ^ k * Nat.gcd u.val v.val) ∧
          (if v.val = 0 then k = 0 else 1 ≤ k ∧ 2 ^ k * Nat.gcd u.val v.val ^ 2 ≤ 2 * (u.val * v.val)) ∧
          A * R' = -((Nat.gcd u.val v.val : Nat) : Fp) * 2 ^ (j + k) ∧
          ∀ (c : Cfg) (fuel : Nat), phase1Loop c fuel u v (enc R) (enc S) j =
            if k < fuel then .ok (enc R', j + k) else .diverge := by
      rintro u' v' R1 S1 hu' ⟨R', k, b1, b2, b3, b4⟩ eg es ep el
      rw [eg] at b1 b2 b3
      refine ⟨R', k + 1, ?_, ?_, by rw [b3]; congr 2; omega, ?_⟩
      · rw [pow_succ]; nlinarith
      · rw [if_neg (by omega)]
        refine ⟨by omega, ?_⟩
        split at b2
        · subst b2
          have h1 : Nat.gcd u.val v.val ∣ u.val := Nat.gcd_dvd_left _ _
          have h2 : Nat.gcd u.val v.val ∣ v.val := Nat.gcd_dvd_right _ _
          have := Nat.mul_le_mul (Nat.le_of_dvd hu0 h1) (Nat.le_of_dvd h0 h2)
          rw [zero_add, pow_one, pow_two]; omega
        · rw [pow_succ]; nlinarith
      · intro c fuel
        rcases fuel with _ | f
        · rfl
        rw [el, b4]
        by_cases h : k < f
        · rw [if_pos h, if_pos (by omega), Nat.add_assoc, Nat.add_comm 1 k]
        · rw [if_neg h, if_neg (by omega)]
    by_cases hue : u.val % 2 = 0
    · obtain ⟨wh, vh⟩ := halfWithoutMod_spec u hu
      have hq : u.val = 2 * (u.val / 2) := by omega
      have hm : 2 * (u.val / 2 * v.val) = u.val * v.val := by rw [← Nat.mul_assoc, ← hq]
      refine fin (halfWithoutMod u) v R (2 * S) (by rw [vh]; omega)
        (ih _ v R (2 * S) (j + 1) wh hv (by rw [vh]; omega) (by rw [vh]; omega) (by omega)
          (by rw [vh, gcd_half hue hg]; exact hg) ?_ (by rw [pow_succ]; linear_combination 2 * hS))
        (by rw [vh, gcd_half hue hg]) (by rw [vh]; omega) (by rw [vh]; omega) ?_
      · rw [hR, vh, pow_succ]
        conv_lhs => rw [hq]
        push_cast; ring
      · intro c f
        rw [phase1Loop, gt_spec v zero hv zero_canon.1, zero_val, isEven_spec, isEven_spec, decide_eq_true h0, if_pos rfl,
          decide_eq_true hue, if_pos rfl, mul_two, Res.ok_bind, ck, Res.ok_bind]
    by_cases hve : v.val % 2 = 0
    · obtain ⟨wh, vh⟩ := halfWithoutMod_spec v hv
      have hq : v.val = 2 * (v.val / 2) := by omega
      have hm : 2 * (u.val * (v.val / 2)) = u.val * v.val := by rw [Nat.mul_left_comm, ← hq]
      have hgc : Nat.gcd u.val (v.val / 2) = Nat.gcd u.val v.val := by
        rw [Nat.gcd_comm, gcd_half hve (by rw [Nat.gcd_comm]; exact hg), Nat.gcd_comm]
      refine fin u (halfWithoutMod v) (2 * R) S hu0
        (ih u _ (2 * R) S (j + 1) hu wh hu0 (by rw [vh]; omega) (by omega)
          (by rw [vh, hgc]; exact hg) (by rw [pow_succ]; linear_combination 2 * hR) ?_)
        (by rw [vh, hgc]) (by rw [vh]; omega) (by rw [vh]; omega) ?_
      · rw [hS, vh, pow_succ]
        conv_lhs => rw [hq]
        push_cast; ring
      · intro c f
        rw [phase1Loop, gt_spec v zero hv zero_canon.1, zero_val, isEven_spec, isEven_spec, decide_eq_true h0, if_pos rfl,
          decide_eq_false hue, decide_eq_true hve]
        simp only [Bool.false_eq_true, if_false, if_true]
        rw [mul_two, Res.ok_bind, ck, Res.ok_bind]
    by_cases hlt : v.val < u.val
    · have hsub : (u.val - v.val) % 2 = 0 := by omega
      have hq : u.val = 2 * ((u.val - v.val) / 2) + v.val := by omega
      have hgc := gcd_sub_half hlt.le hsub hg
      obtain ⟨u1, w1, v1, e1⟩ : ∃ u1 : FE, u1.WF ∧ u1.val = u.val - v.val ∧ ∀ c, sub c u v = .ok u1 := by
        obtain ⟨u1, e1, w1, v1⟩ := sub_exact ⟨false, 0⟩ u v hu hv hlt.le
        refine ⟨u1, w1, v1, fun c => ?_⟩
        obtain ⟨u2, e2, w2, v2⟩ := sub_exact c u v hu hv hlt.le
        rw [e2, w1.ext w2 (v1.trans v2.symm)]
      obtain ⟨wh, vh⟩ := halfWithoutMod_spec u1 w1
      rw [v1] at vh
      have h5 : 2 * ((u.val - v.val) / 2 * v.val) ≤ u.val * v.val := by
        rw [← Nat.mul_assoc]; exact Nat.mul_le_mul_right _ (by omega)
      refine fin (halfWithoutMod u1) v (R + S) (2 * S) (by rw [vh]; omega)
        (ih _ v (R + S) (2 * S) (j + 1) wh hv (by rw [vh]; omega) (by rw [vh]; omega) (by omega)
          (by rw [vh, hgc]; exact hg) ?_ (by rw [pow_succ]; linear_combination 2 * hS))
        (by rw [vh, hgc]) (by rw [vh]; omega) (by rw [vh]; exact h5) ?_
      · have hcast : (u.val : Fp) = 2 * (((u.val - v.val) / 2 : ℕ) : Fp) + (v.val : Fp) := by
          exact_mod_cast congrArg (Nat.cast : ℕ → Fp) hq
        rw [vh, pow_succ]
        linear_combination hR + hS - 2 ^ j * hcast
      · intro c f
        rw [phase1Loop, gt_spec v zero hv zero_canon.1, zero_val, isEven_spec, isEven_spec, decide_eq_true h0, if_pos rfl,
          decide_eq_false hue, decide_eq_false hve, gt_spec u v hu hv, decide_eq_true hlt]
        simp only [Bool.false_eq_true, if_false, if_true]
        rw [e1, Res.ok_bind, add_enc, Res.ok_bind, mul_two, Res.ok_bind, ck, Res.ok_bind]
    · have hle : u.val ≤ v.val := by omega
      have hsub : (v.val - u.val) % 2 = 0 := by omega
      have hq : v.val = 2 * ((v.val - u.val) / 2) + u.val := by omega
      have hgc : Nat.gcd u.val ((v.val - u.val) / 2) = Nat.gcd u.val v.val := by
        rw [Nat.gcd_comm, gcd_sub_half hle hsub (by rw [Nat.gcd_comm]; exact hg), Nat.gcd_comm]
      obtain ⟨u1, w1, v1, e1⟩ : ∃ u1 : FE, u1.WF ∧ u1.val = v.val - u.val ∧ ∀ c, sub c v u = .ok u1 := by
        obtain ⟨u1, e1, w1, v1⟩ := sub_exact ⟨false, 0⟩ v u hv hu hle
        refine ⟨u1, w1, v1, fun c => ?_⟩
        obtain ⟨u2, e2, w2, v2⟩ := sub_exact c v u hv hu hle
        rw [e2, w1.ext w2 (v1.trans v2.symm)]
      obtain ⟨wh, vh⟩ := halfWithoutMod_spec u1 w1
      rw [v1] at vh
      have h5 : 2 * (u.val * ((v.val - u.val) / 2)) ≤ u.val * v.val := by
        rw [Nat.mul_left_comm]; exact Nat.mul_le_mul_left _ (by omega)
      refine fin u (halfWithoutMod u1) (2 * R) (R + S) hu0
        (ih u _ (2 * R) (R + S) (j + 1) hu wh hu0 (by rw [vh]; omega) (by omega)
          (by rw [vh, hgc]; exact hg) (by rw [pow_succ]; linear_combination 2 * hR) ?_)
        (by rw [vh, hgc]) (by rw [vh]; omega) (by rw [vh]; exact h5) ?_
      · have hcast : (v.val : Fp) = 2 * (((v.val - u.val) / 2 : ℕ) : Fp) + (u.val : Fp) := by
          exact_mod_cast congrArg (Nat.cast : ℕ → Fp) hq
        rw [vh, pow_succ]
        linear_combination hR + hS + 2 ^ j * hcast
      · intro c f
        rw [phase1Loop, gt_spec v zero hv zero_canon.1, zero_val, isEven_spec, isEven_spec, decide_eq_true h0, if_pos rfl,
          decide_eq_false hue, decide_eq_false hve, gt_spec u v hu hv, ge_spec v u hv hu, decide_eq_false hlt,
          decide_eq_true hle]
        simp only [Bool.false_eq_true, if_false, if_true]
        rw [e1, Res.ok_bind, add_enc, Res.ok_bind, mul_two, Res.ok_bind, ck, Res.ok_bind]

theorem phase1_rounds (a : FE) (ha : a.WF) (ha2 : a.val < 2 ^ 256) (h0 : a.toZ ≠ 0) :
    ∃ k, p + a.val ≤ 2 ^ k ∧ 2 ^ k ≤ 2 * (p * a.val) ∧ ∀ c : Cfg, phase1 c a =
      if k < c.fuel then .ok (enc (a.toZ⁻¹ * 2 ^ k), k) else .diverge := by
  have hav : a.val ≠ 0 := fun h => h0 (by unfold L5.toZ; rw [h, Nat.cast_zero])
  have hgcd : Nat.gcd FIELD_L.val a.val = 1 := by
    rw [FIELD_L_val]
    refine (Nat.Prime.coprime_iff_not_dvd p_prime).2 (fun hd => h0 ?_)
    unfold L5.toZ
    exact (ZMod.natCast_eq_zero_iff _ _).2 hd
  obtain ⟨R, k, b1, b2, h4, e⟩ := phase1Loop_rounds a.toZ 513 FIELD_L a 0 1 0 FIELD_L_WF ha
    (by decide)
    (by
      calc FIELD_L.val * a.val < 2 ^ 253 * 2 ^ 260 :=
            Nat.mul_lt_mul'' (by rw [FIELD_L_val]; exact p_lt) ha.val_lt
        _ = 2 ^ 513 := by norm_num) (by norm_num) (by rw [hgcd])
    (by rw [FIELD_L_val, ZMod.natCast_self]; ring) (by unfold L5.toZ; ring)
  rw [if_neg hav] at b2
  rw [hgcd, FIELD_L_val] at b1 b2
  rw [hgcd, Nat.cast_one, zero_add] at h4
  rw [mul_one] at b1
  rw [one_pow, mul_one] at b2
  have hR0 : R ≠ 0 := fun h => by
    rw [h, mul_zero] at h4
    have := two_pow_ne k
    apply this
    linear_combination h4
  refine ⟨k, b1, b2.2, fun c => ?_⟩
  have hct : ctEq a zero = false := by
    rw [ctEq_spec a zero ha zero_canon.1 ha2 (by decide), zero_val]
    exact decide_eq_false hav
  unfold phase1
  rw [hct]
  simp only [Bool.not_false, rassert, if_true, Res.ok_bind]
  have e' : phase1Loop c c.fuel ⟨671914833335277, 3916664325105025, 1367801, 0, 17592186044416⟩ a
    zero one 0 = if k < c.fuel then .ok (enc R, k) else .diverge := by
      have := e c c.fuel
      rw [zero_add] at this
      rw [zero_enc, one_enc]; exact this
  rw [e']
  split
  swap
  · rfl
  rw [Res.ok_bind]
  have hgt : gt (enc R) ⟨671914833335277, 3916664325105025, 1367801, 0, 17592186044416⟩ = false := by
    rw [show (⟨671914833335277, 3916664325105025, 1367801, 0, 17592186044416⟩ : FE) = FIELD_L from rfl,
      gt_spec _ _ (enc_WF R) FIELD_L_WF, FIELD_L_val]
    exact decide_eq_false (by have := (enc_canon R).2; omega)
  simp only [hgt, Bool.false_eq_true, if_false]
  have hpos : 0 < (enc R).val := by
    rw [enc_val]; rcases Nat.eq_zero_or_pos R.val with h | h
    · exact absurd ((ZMod.val_eq_zero R).1 h) hR0
    · exact h
  obtain ⟨pr, e2, w2, v2⟩ := sub_gen c FIELD_L (enc R) FIELD_L_WF (enc_WF R)
    (by rw [FIELD_L_val]; have := p_gt; omega) (enc_canon R).2.le (by rw [FIELD_L_val]; omega)
  rw [show (⟨671914833335277, 3916664325105025, 1367801, 0, 17592186044416⟩ : FE) = FIELD_L from rfl,
    e2, Res.ok_bind, Res.pure_eq]
  have hpr : pr = enc (-R) := w2.eq_enc (by
    unfold L5.toZ
    have := (enc_canon R).2.le
    rw [v2, FIELD_L_val, ZMod.natCast_mod, Nat.add_sub_assoc this, Nat.cast_add, Nat.cast_sub this,
      ZMod.natCast_self, enc_val, ZMod.natCast_zmod_val]
    ring)
  have hval : -R = a.toZ⁻¹ * 2 ^ k := by
    rw [eq_inv_mul_iff_mul_eq₀ h0]; linear_combination -h4
  rw [hpr, hval]

theorem inverse_rounds (a : FE) (ha : a.WF) (ha2 : a.val < 2 ^ 256) (h0 : a.toZ ≠ 0) :
    ∃ k, p + a.val ≤ 2 ^ k ∧ 2 ^ k ≤ 2 * (p * a.val) ∧ ∀ c : Cfg, inverse c a =
      if k < c.fuel then .ok (enc a.toZ⁻¹) else .diverge := by
  obtain ⟨k, b1, b2, e⟩ := phase1_rounds a ha ha2 h0
  refine ⟨k, b1, b2, fun c => ?_⟩
  have h1 : 1 ≤ k := by
    by_contra h
    rw [show k = 0 by omega] at b1
    have := p_gt
    omega
  have h2 : k ≤ 510 := by
    by_contra h
    have := Nat.pow_le_pow_right (n := 2) (by decide) (show 511 ≤ k by omega)
    have h3 : p * a.val < 2 ^ 253 * 2 ^ 256 := Nat.mul_lt_mul'' p_lt ha2
    omega
  have n260 := two_pow_ne 260
  unfold inverse
  rw [e]
  split
  swap
  · rfl
  rw [Res.ok_bind]
  dsimp only
  by_cases hk : k > 260
  · rw [if_pos hk, montgomeryMul_enc c _ one one_canon.1, Res.ok_bind, csub64_ok c (by omega),
      Res.ok_bind, csub64_ok c (by omega), Res.ok_bind]
    obtain ⟨r, er, wr, vr⟩ := innerTwoPowK_ok (260 - (k - 260)) (by omega)
    rw [er, Res.ok_bind, montgomeryMul_enc c _ r wr, Res.ok_inj, enc_inj]
    have hr : r.toZ = 2 ^ (260 - (k - 260)) := by unfold L5.toZ; rw [vr]; push_cast; rfl
    have ho : one.toZ = 1 := by rw [one_enc, enc_toZ]
    rw [hr, ho, mul_one, div_mul_eq_mul_div, div_div, div_eq_iff (mul_ne_zero n260 n260), mul_assoc,
      ← pow_add, ← pow_add, show k + (260 - (k - 260)) = 260 + 260 by omega]
  · rw [if_neg hk, csub64_ok c (by omega), Res.ok_bind]
    obtain ⟨r, er, wr, vr⟩ := innerTwoPowK_ok (260 - k) (by omega)
    rw [er, Res.ok_bind, montgomeryMul_enc c _ r wr, Res.ok_inj, enc_inj]
    have hr : r.toZ = 2 ^ (260 - k) := by unfold L5.toZ; rw [vr]; push_cast; rfl
    rw [hr, div_eq_iff n260, mul_assoc, ← pow_add, show k + (260 - k) = 260 by omega]

/-! ### Square roots -/

theorem pow_lt (c : Cfg) (hc : 252 < c.fuel) (x : Fp) (e : FE) (he : e.WF) (hv : e.val < 2 ^ 252) :
    pow c (enc x) e = .ok (enc (x ^ e.val)) := by
  rw [pow_rounds c _ _ (enc_WF x) he, if_pos (lt_of_le_of_lt (Nat.size_le.2 hv) hc), enc_toZ]

theorem legendre_rounds (c : Cfg) (x : Fp) :
    legendre c (enc x) = if 252 < c.fuel then legendre ⟨c.debug, 1000⟩ (enc x) else .diverge := by
  have hs : Nat.size MINUS_ONE_HALF.val = 252 :=
    le_antisymm (Nat.size_le.2 (by decide)) (Nat.lt_size.2 (by decide))
  have hw : MINUS_ONE_HALF.WF := by decide
  unfold legendre
  rw [pow_rounds c _ _ (enc_WF x) hw, pow_rounds ⟨c.debug, 1000⟩ _ _ (enc_WF x) hw, hs, if_pos (show 252 < 1000 by decide)]
  split <;> rfl

theorem modSqrt_rounds (c : Cfg) (a : Fp) (h0 : a ≠ 0) (sign : Bool) :
    modSqrt c (enc a) sign = if 252 < c.fuel then modSqrt ⟨c.debug, 1000⟩ (enc a) sign else .diverge := by
  classical
  have hE : (⟨c.debug, 1000⟩ : Cfg).Enough := by unfold Cfg.Enough; exact le_refl _
  by_cases hc : 252 < c.fuel
  swap
  · rw [if_neg hc]
    unfold modSqrt
    rw [zero_enc, ctEq_enc, decide_eq_false h0, legendre_rounds, if_neg hc]
    rfl
  rw [if_pos hc]
  by_cases hs : IsSquare a
  swap
  · rw [modSqrt_nonsquare _ hE _ _ hs]
    unfold modSqrt
    rw [zero_enc, ctEq_enc, decide_eq_false h0, legendre_rounds, if_pos hc, legendre_enc _ hE, decide_eq_false hs]
    rfl
  rw [modSqrt_tsRoot a h0 hs _ _ hE]
  have hr := (tsRoot_spec a h0 hs).1
  have hr0 : tsRoot a ≠ 0 := fun h => h0 (by rw [← hr, h, mul_zero])
  obtain ⟨q, wq, vq, eq⟩ : ∃ q : FE, q.WF ∧ q.val = Q ∧ factorLoop c c.fuel zero minusOne = .ok (enc 2, q) := by
    obtain ⟨f, hf⟩ : ∃ f, c.fuel = f + 3 := ⟨c.fuel - 3, by omega⟩
    obtain ⟨w1, v1⟩ := halfWithoutMod_spec minusOne minusOne_canon.1
    obtain ⟨w2, v2⟩ := halfWithoutMod_spec _ w1
    rw [v1, minusOne_val] at v2
    rw [minusOne_val] at v1
    refine ⟨_, w2, by rw [v2]; decide, ?_⟩
    have d0 : decide (minusOne.val % 2 = 0) = true := by decide
    have d1 : decide ((halfWithoutMod minusOne).val % 2 = 0) = true := by rw [v1]; decide
    have d2 : decide ((halfWithoutMod (halfWithoutMod minusOne)).val % 2 = 0) = false := by
      rw [v2]; decide
    rw [hf, factorLoop, isEven_spec, d0, if_pos rfl, zero_enc, one_enc, add_enc, Res.ok_bind, factorLoop,
      isEven_spec, d1, if_pos rfl, one_enc, add_enc, Res.ok_bind, factorLoop, isEven_spec, d2]
    norm_num
  have hQ : Q < 2 ^ 252 := by decide
  obtain ⟨q1, eq1, wq1, vq1⟩ : ∃ q1, add c q one = .ok q1 ∧ q1.Canon ∧ q1.val = Q + 1 := by
    obtain ⟨q1, e, w, v⟩ := add_spec c q one ⟨wq, by rw [vq]; decide⟩ one_canon
    exact ⟨q1, e, w, by rw [v, vq, one_val]; decide⟩
  obtain ⟨wh, vh⟩ := halfWithoutMod_spec q1 wq1.1
  have six : (⟨6, 0, 0, 0, 0⟩ : FE) = enc 6 := by
    have h : (⟨6, 0, 0, 0, 0⟩ : FE).Canon := by decide
    exact h.eq_enc (by unfold L5.toZ; rfl)
  have tl : tonelliLoop c c.fuel (enc (6 ^ Q)) (enc (a ^ ((Q + 1) / 2))) (enc (a ^ Q)) (enc 2)
      = .ok (enc (tsRoot a)) := by
    have h6 : (6 : Fp) ^ Q * 6 ^ Q = -1 := by
      rw [← pow_add, ← two_mul]; exact six_pow
    obtain ⟨f, hf⟩ : ∃ f, c.fuel = f + 2 := ⟨c.fuel - 2, by omega⟩
    have h1 : (-1 : Fp) ≠ 1 := fun h => one_ne_neg_one h.symm
    have ht : a ^ Q = 1 ∨ a ^ Q = -1 := by
      have h1 := (ZMod.euler_criterion p h0).1 hs
      have : p / 2 = Q * 2 := by decide
      rw [this, pow_mul, pow_two] at h1
      exact sq_eq_cases (by rw [h1, one_mul])
    unfold tsRoot
    rcases ht with ht | ht
    · rw [if_pos ht, ht, hf, tonelliLoop, one_enc, ctEq_enc]
      simp
    · have fi : findILoop c (enc (-1)) (enc 2) c.fuel zero (fromU32 2) = .ok (enc 1) := by
        rw [hf, findILoop, zero_enc, lt_enc_zero_two, if_pos rfl, one_enc, add_enc, Res.ok_bind,
          pow_lt c hc _ _ (fromU32_spec 2 (by decide)).1.1 (by rw [(fromU32_spec 2 (by decide)).2]; decide),
          (fromU32_spec 2 (by decide)).2, Res.ok_bind]
        simp
      rw [if_neg (by rw [ht]; exact h1), ht]
      conv_lhs => rw [hf]
      rw [tonelliLoop, one_enc, ctEq_enc, decide_eq_false h1, Bool.not_false, if_pos rfl, fi, Res.ok_bind, sub_enc,
        Res.ok_bind, sub_enc, Res.ok_bind, show (2 : Fp) - 1 - 1 = 0 by ring, two_enc,
        pow_lt c hc _ _ (enc_WF 0) (by rw [zero_val']; decide), Res.ok_bind, zero_val',
        pow_zero, pow_lt c hc _ _ (enc_WF 1) (by rw [one_val']; decide), one_val', pow_one, Res.ok_bind, mul_enc,
        Res.ok_bind, square_enc, Res.ok_bind, mul_enc, Res.ok_bind, Res.ok_bind, h6]
      rw [show (-1 : Fp) * -1 = 1 by ring, tonelliLoop, one_enc, ctEq_enc]
      simp
  unfold modSqrt
  rw [zero_enc, ctEq_enc, decide_eq_false h0]
  simp only [Bool.false_eq_true, if_false]
  rw [legendre_rounds, if_pos hc, legendre_enc _ hE, Res.ok_bind, decide_eq_true hs]
  simp only [Bool.true_eq_false, beq_iff_eq, if_false]
  rw [← zero_enc, eq, Res.ok_bind]
  dsimp only
  rw [six, pow_lt c hc _ _ wq (by rw [vq]; exact hQ), vq, Res.ok_bind, eq1, Res.ok_bind,
    pow_lt c hc _ _ wh (by rw [vh, vq1]; decide), vh, vq1,
    Res.ok_bind, pow_lt c hc _ _ wq (by rw [vq]; exact hQ), vq, Res.ok_bind, tl, Res.ok_bind, sub_p_enc c hr0,
    Res.ok_bind, condSelect_enc, Res.pure_eq]

end Field

/-! ### Signed digits -/

namespace Scalar

/-- The loop of `compute_window_NAF` makes as many rounds as the position of the last nonzero digit says. -/
theorem wnafLoop_top (c : Cfg) (w : Nat) (h1 : 2 ≤ w) (h2 : w ≤ 6) :
    ∀ (F : Nat) (k : Sc) (i : Nat) (res out : Vector Int 256), k.SCanon → wnafLoop c w F k i res = .ok out →
      (∀ j, i ≤ j → dig res j = 0) →
      (∀ j, j < i → dig out j = dig res j) ∧ (k.val ≠ 0 → ∃ j, i ≤ j ∧ dig out j ≠ 0) ∧
      ∀ f, ((f = 0 ∨ ∃ j, i ≤ j ∧ dig out j ≠ 0 ∧ f ≤ j + 1 - i) → wnafLoop c w f k i res = .diverge) ∧
        (¬(f = 0 ∨ ∃ j, i ≤ j ∧ dig out j ≠ 0 ∧ f ≤ j + 1 - i) → wnafLoop c w f k i res = .ok out) := by
  intro F
  induction F with
  | zero => intro k i res out _ h; cases h
  | succ F ih =>
    intro k i res out hk h hz
    by_cases h0 : k.val = 0
    · have st : ∀ f, wnafLoop c w (f + 1) k i res = .ok res := fun f => by
        rw [wnafLoop, ge_spec k one hk.1 one_canon.1, h0]; rfl
      rw [st, Res.ok_inj] at h
      subst h
      refine ⟨fun _ _ => rfl, fun h => absurd h0 h, fun f => ⟨?_, ?_⟩⟩
      · rintro (rfl | ⟨j, hj, hd, _⟩)
        · rfl
        · exact absurd (hz j hj) hd
      · intro hf
        obtain ⟨f, rfl⟩ : ∃ g, f = g + 1 := ⟨f - 1, by have : f ≠ 0 := fun e => hf (.inl e); omega⟩
        exact st f
    have hi : i < 256 := by
      by_contra hi
      have hs : ∀ x, setDigit res i x = .panic := fun x => by unfold setDigit; rw [dif_neg hi]
      rw [wnafLoop, ge_spec k one hk.1 one_canon.1, one_val, decide_eq_true (show 1 ≤ k.val by omega), if_pos rfl] at h
      split at h
      · rw [mods2PowK_spec c k w h1 h2, Res.ok_bind, hs, Res.panic_bind] at h; cases h
      · rw [hs, Res.panic_bind] at h; cases h
    obtain ⟨k', d, hk', hd, st⟩ : ∃ (k' : Sc) (d : Int), k'.SCanon ∧ (k'.val ≠ 0 ∨ d ≠ 0) ∧
        ∀ f, wnafLoop c w (f + 1) k i res = wnafLoop c w f k' (i + 1) (res.set i d) := by
      by_cases he : k.val % 2 = 0
      · obtain ⟨wh, vh⟩ := halfWithoutMod_spec k hk.1
        have vh : (halfWithoutMod k).val = k.val / 2 := vh
        refine ⟨halfWithoutMod k, 0, ⟨wh, by rw [vh]; have := hk.2; omega⟩, .inl (by rw [vh]; omega), fun f => ?_⟩
        rw [wnafLoop, ge_spec k one hk.1 one_canon.1, one_val, isEven_spec,
          decide_eq_true (show 1 ≤ k.val by omega)]
        simp only [he, decide_true, Bool.not_true, Bool.false_eq_true, if_false, if_true]
        rw [setDigit_ok _ _ _ hi, Res.ok_bind]
      · obtain ⟨b1, b2, _⟩ := smod_bounds k.val w (by omega)
        have hw : (2 : Int) ^ (w - 1) ≤ 2 ^ 5 := pow_le_pow_right₀ (by norm_num) (by omega)
        obtain ⟨s, es, cs, _⟩ := fromI8_spec c (smod k.val w) (by omega) (by omega)
        obtain ⟨r, er, cr, _⟩ := sub_spec c k s hk cs
        obtain ⟨wh, vh⟩ := halfWithoutMod_spec r cr.1
        have vh : (halfWithoutMod r).val = r.val / 2 := vh
        have hso := smod_odd k.val w (by omega) (by omega)
        refine ⟨halfWithoutMod r, smod k.val w, ⟨wh, by rw [vh]; have := cr.2; omega⟩, .inr (by omega), fun f => ?_⟩
        rw [wnafLoop, ge_spec k one hk.1 one_canon.1, one_val, isEven_spec,
          decide_eq_true (show 1 ≤ k.val by omega)]
        simp only [he, decide_false, Bool.not_false, if_true]
        rw [mods2PowK_spec c k w h1 h2, Res.ok_bind, setDigit_ok _ _ _ hi, Res.ok_bind, es, Res.ok_bind, er,
          Res.ok_bind]
    rw [st] at h
    obtain ⟨a1, a2, a3⟩ := ih k' (i + 1) _ out hk' h
      (fun j hj => by rw [dig_set _ _ _ _ hi, if_neg (by omega)]; exact hz j (by omega))
    have top : ∃ j, i ≤ j ∧ dig out j ≠ 0 := by
      rcases hd with hd | hd
      · obtain ⟨j, hj, hn⟩ := a2 hd
        exact ⟨j, by omega, hn⟩
      · exact ⟨i, le_refl _, by rw [a1 i (by omega), dig_set _ _ _ _ hi, if_pos rfl]; exact hd⟩
    refine ⟨fun j hj => ?_, fun _ => top, fun f => ?_⟩
    · rw [a1 j (by omega), dig_set _ _ _ _ hi, if_neg (by omega)]
    · rcases f with _ | f
      · exact ⟨fun _ => rfl, fun hf => absurd (.inl rfl) hf⟩
      have key : (f + 1 = 0 ∨ ∃ j, i ≤ j ∧ dig out j ≠ 0 ∧ f + 1 ≤ j + 1 - i) ↔
          (f = 0 ∨ ∃ j, i + 1 ≤ j ∧ dig out j ≠ 0 ∧ f ≤ j + 1 - (i + 1)) := by
        constructor
        · rintro (h | ⟨j, hj, hn, hf⟩)
          · omega
          · rcases Nat.eq_zero_or_pos f with e | e
            · exact .inl e
            · exact .inr ⟨j, by omega, hn, by omega⟩
        · rintro (h | ⟨j, hj, hn, hf⟩)
          · obtain ⟨j, hj, hn⟩ := top
            exact .inr ⟨j, hj, hn, by omega⟩
          · exact .inr ⟨j, by omega, hn, by omega⟩
      rw [key, st]
      exact a3 f

end Scalar

end Zerocaf
