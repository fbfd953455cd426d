import Verif.Proof.Sqrt

/-!
# Field operations on elements that are not reduced modulo `p`

`from_bytes` returns elements up to `2^256 - 1`.
-/

set_option exponentiation.threshold 600

namespace Zerocaf
namespace Field

theorem add_exact (c : Cfg) (a b : FE) (ha : a.WF) (hb : b.WF) (ha2 : a.val < 2 ^ 256)
    (hb2 : b.val < 2 ^ 256) :
    ∃ r, add c a b = .ok r ∧ r.WF ∧ r.val = if a.val + b.val < p then a.val + b.val else a.val + b.val - p := by
  obtain ⟨s, es, ws, vs⟩ := addChain c a b (fun s => sub c s FIELD_L) ha hb
  have vs' : s.val = a.val + b.val := by rw [vs]; exact Nat.mod_eq_of_lt (by omega)
  obtain ⟨r, er, wr, v1, v2⟩ := subWith_spec FIELD_L c s FIELD_L FIELD_L_WF ws.1 ws.2.1 ws.2.2.1
    ws.2.2.2.1 (lt_trans ws.2.2.2.2 (by decide)) FIELD_L_WF
  rw [FIELD_L_val] at v1 v2
  have hp := p_lt
  refine ⟨r, ?_, wr, ?_⟩
  · unfold add; rw [es]; exact er
  · split_ifs with h
    · rw [v2 (by omega)]; omega
    · rw [v1 (by omega)]; omega

theorem sub_cases (c : Cfg) (a b : FE) (ha : a.WF) (hb : b.WF) (ha2 : a.val < 2 ^ 256)
    (hb2 : b.val < 2 ^ 256) :
    ∃ r, sub c a b = .ok r ∧ r.WF ∧
      r.val = if b.val ≤ a.val then a.val - b.val
        else if b.val ≤ a.val + p then a.val + p - b.val else a.val + p + 2 ^ 260 - b.val := by
  obtain ⟨r, er, wr, v1, v2⟩ := subWith_spec FIELD_L c a b FIELD_L_WF ha.1 ha.2.1 ha.2.2.1
    ha.2.2.2.1 (lt_trans ha.2.2.2.2 (by decide)) hb
  rw [FIELD_L_val] at v2
  have hp := p_lt
  refine ⟨r, er, wr, ?_⟩
  split_ifs with h h'
  · rw [v1 h]; omega
  · rw [v2 (by omega)]; omega
  · rw [v2 (by omega)]; omega

theorem toZ_eq_zero_iff (a : FE) : a.toZ = 0 ↔ p ∣ a.val := by
  unfold L5.toZ
  exact ZMod.natCast_eq_zero_iff _ _

theorem ctEq_wf (a : FE) (ha : a.WF) (ha2 : a.val < 2 ^ 256) (h : a.toZ ≠ 0) : ctEq a zero = false := by
  rw [ctEq_spec a zero ha zero_canon.1 ha2 (by decide), zero_val]
  refine decide_eq_false (fun h0 => h ?_)
  rw [toZ_eq_zero_iff, h0]
  exact dvd_zero _

theorem divRef_wf (c : Cfg) (hc : c.Enough) (a b : FE) (ha : a.WF) (hb : b.WF) (hb2 : b.val < 2 ^ 256)
    (h : b.toZ ≠ 0) : divRef c a b = .ok (enc (a.toZ / b.toZ)) := by
  unfold divRef
  rw [ctEq_wf b hb hb2 h, inverse_wf c hc b hb hb2 h]
  simp only [Bool.not_false, rassert, if_true, Res.ok_bind]
  rw [mul_wf c _ _ ha (enc_WF _), enc_toZ, div_eq_mul_inv]

theorem modSqrt_wf (c : Cfg) (hc : c.Enough) (a : FE) (ha : a.WF) (ha2 : a.val < 2 ^ 256)
    (h : a.toZ ≠ 0) (sign : Bool) : modSqrt c a sign = modSqrt c (enc a.toZ) sign := by
  have e1 : ∀ e : FE, e.WF → pow c a e = pow c (enc a.toZ) e := fun e he => by
    rw [pow_wf c hc a e ha he, pow_enc c hc _ _ he]
  obtain ⟨q, wq, vq, eq⟩ := factorLoop_spec c hc
  obtain ⟨q1, eq1, wq1, vq1⟩ : ∃ q1, add c q one = .ok q1 ∧ q1.Canon ∧ q1.val = Q + 1 := by
    obtain ⟨q1, e, w, v⟩ := add_spec c q one ⟨wq, by rw [vq]; decide⟩ one_canon
    exact ⟨q1, e, w, by rw [v, vq, one_val]; decide⟩
  obtain ⟨wh, vh⟩ := halfWithoutMod_spec q1 wq1.1
  unfold modSqrt
  rw [ctEq_wf a ha ha2 h, ctEq_wf (enc a.toZ) (enc_WF _) (canon_lt256 (enc_canon _))
    (by rw [enc_toZ]; exact h), legendre_wf c hc a ha, legendre_enc c hc, eq, Res.ok_bind, Res.ok_bind]
  dsimp only
  simp only [eq1, Res.ok_bind, e1 q wq, e1 _ wh]

theorem sqrtRatioI_wf (c : Cfg) (hc : c.Enough) (u v : FE) (hu : u.WF) (hv : v.WF) (hu2 : u.val < 2 ^ 256)
    (hv2 : v.val < 2 ^ 256) (hu0 : u.toZ ≠ 0) (hv0 : v.toZ ≠ 0) :
    sqrtRatioI c u v = sqrtRatioI c (enc u.toZ) (enc v.toZ) := by
  have e1 : divRef c u v = divRef c (enc u.toZ) (enc v.toZ) := by
    rw [divRef_wf c hc u v hu hv hv2 hv0, divRef_enc c hc _ _ hv0]
  have hz : ∀ x : Fp, x ≠ 0 → ctEq (enc x) zero = false := fun x hx =>
    ctEq_wf (enc x) (enc_WF _) (canon_lt256 (enc_canon _)) (by rw [enc_toZ]; exact hx)
  unfold sqrtRatioI
  rw [ctEq_wf u hu hu2 hu0, ctEq_wf v hv hv2 hv0, hz _ hu0, hz _ hv0, e1]

/-! ### Multiples of `p` -/

/-- With `u = p` and `v` a multiple of `p`, the first phase leaves `r` at zero. -/
theorem phase1Loop_multiple (c : Cfg) (s : FE) : ∀ (n fuel : Nat) (v : FE) (k j : Nat),
    v.WF → v.val = p * j → j < 2 ^ n → n < fuel → k + n < 2 ^ 64 →
    s = enc 1 →
    ∃ k', phase1Loop c fuel FIELD_L v (enc 0) s k = .ok (enc 0, k') ∧ k' ≤ k + n ∧
      (j ≠ 0 → k < k') ∧ k ≤ k' := by
  have heL : isEven FIELD_L = false := by decide
  have hp0 : p % 2 = 1 := by decide
  have hpg := p_gt
  intro n
  induction n with
  | zero =>
    intro fuel v k j hv hj hn hf hk hs
    obtain ⟨f, rfl⟩ : ∃ f, fuel = f + 1 := ⟨fuel - 1, by omega⟩
    have hj0 : j = 0 := by simpa using hn
    rw [hj0, Nat.mul_zero] at hj
    refine ⟨k, ?_, by omega, by omega, by omega⟩
    rw [phase1Loop, gt_spec v zero hv zero_canon.1, zero_val, hj]; rfl
  | succ n ih =>
    intro fuel v k j hv hj hn hf hk hs
    obtain ⟨f, rfl⟩ : ∃ f, fuel = f + 1 := ⟨fuel - 1, by omega⟩
    rw [pow_succ] at hn
    by_cases hj0 : j = 0
    · rw [hj0, Nat.mul_zero] at hj
      refine ⟨k, ?_, by omega, by omega, by omega⟩
      rw [phase1Loop, gt_spec v zero hv zero_canon.1, zero_val, hj]; rfl
    have hvp : p ≤ v.val := by rw [hj]; exact Nat.le_mul_of_pos_right p (by omega)
    have h2 : (⟨2, 0, 0, 0, 0⟩ : FE) = enc 2 := two_enc
    rw [phase1Loop, gt_spec v zero hv zero_canon.1, zero_val, heL, isEven_spec,
      decide_eq_true (show 0 < v.val by omega)]
    simp only [if_true, Bool.false_eq_true, if_false]
    by_cases he : v.val % 2 = 0
    · obtain ⟨wh, vh⟩ := halfWithoutMod_spec v hv
      have hje : j % 2 = 0 := by
        rw [hj, Nat.mul_mod, hp0] at he
        omega
      obtain ⟨k', e, hk', _, _⟩ := ih f (halfWithoutMod v) (k + 1) (j / 2) wh
        (by
          rw [vh, hj]
          exact Nat.mul_div_assoc p (Nat.dvd_of_mod_eq_zero hje)) (by omega) (by omega)
        (by omega) hs
      refine ⟨k', ?_, by omega, by omega, by omega⟩
      simp only [he, decide_true, if_true, h2, mul_enc, zero_mul, Res.ok_bind]
      rw [chk64_ok c (by omega), Res.ok_bind, e]
    · have hgt : gt FIELD_L v = false := by
        rw [gt_spec _ _ FIELD_L_WF hv, FIELD_L_val]
        exact decide_eq_false (by omega)
      have hge : ge v FIELD_L = true := by
        rw [ge_spec _ _ hv FIELD_L_WF, FIELD_L_val]
        exact decide_eq_true hvp
      obtain ⟨v1, e1, w1, x1⟩ := sub_exact c v FIELD_L hv FIELD_L_WF (by rw [FIELD_L_val]; exact hvp)
      obtain ⟨wh, vh⟩ := halfWithoutMod_spec v1 w1
      have hjo : j % 2 = 1 := by
        rw [hj, Nat.mul_mod, hp0] at he
        omega
      obtain ⟨i, rfl⟩ : ∃ i, j = 2 * i + 1 := ⟨j / 2, by omega⟩
      obtain ⟨k', e, hk', _, _⟩ := ih f (halfWithoutMod v1) (k + 1) i wh
        (by
          rw [vh, x1, FIELD_L_val, hj, show p * (2 * i + 1) = p * i * 2 + p by ring,
            Nat.add_sub_cancel, Nat.mul_div_cancel _ (by omega)]) (by omega) (by omega)
        (by omega) hs
      refine ⟨k', ?_, by omega, by omega, by omega⟩
      simp only [he, decide_false, Bool.false_eq_true, if_false, hgt, hge, if_true, e1, Res.ok_bind, hs,
        add_enc, zero_add, h2, mul_enc, zero_mul]
      rw [chk64_ok c (by omega), Res.ok_bind, ← hs, e]

/-- The inverse of a nonzero multiple of `p` is reported to be zero. -/
theorem inverse_multiple (c : Cfg) (hc : c.Enough) (a : FE) (ha : a.WF) (ha2 : a.val < 2 ^ 256)
    (h : p ∣ a.val) (h0 : a.val ≠ 0) : inverse c a = .ok (enc 0) := by
  unfold Cfg.Enough at hc
  obtain ⟨j, hj⟩ := h
  have hpg := p_gt
  have hj16 : j < 2 ^ 4 := by
    by_contra hcon
    have : p * 2 ^ 4 ≤ p * j := Nat.mul_le_mul_left _ (by omega)
    omega
  obtain ⟨k, e, hk, hk1, _⟩ := phase1Loop_multiple c (enc 1) 4 c.fuel a 0 j ha hj hj16 (by omega) (by omega) rfl
  have e' : phase1Loop c c.fuel ⟨671914833335277, 3916664325105025, 1367801, 0, 17592186044416⟩ a
    zero one 0 = .ok (enc 0, k) := by rw [zero_enc, one_enc]; exact e
  have hct : ctEq a zero = false := by
    rw [ctEq_spec a zero ha zero_canon.1 ha2 (by decide), zero_val]
    exact decide_eq_false h0
  have hgt : gt (enc 0) ⟨671914833335277, 3916664325105025, 1367801, 0, 17592186044416⟩ = false := by
    rw [← zero_enc]; decide
  obtain ⟨pr, e2, w2, v2⟩ := sub_exact c FIELD_L (enc 0) FIELD_L_WF (enc_WF 0)
    (by rw [zero_val']; exact Nat.zero_le _)
  rw [zero_val', Nat.sub_zero, FIELD_L_val] at v2
  have e3 : phase1 c a = .ok (pr, k) := by
    unfold phase1
    rw [hct]
    simp only [Bool.not_false, rassert, if_true, Res.ok_bind]
    rw [e', Res.ok_bind]
    simp only [hgt, Bool.false_eq_true, if_false]
    rw [show (⟨671914833335277, 3916664325105025, 1367801, 0, 17592186044416⟩ : FE) = FIELD_L from rfl,
      e2, Res.ok_bind, Res.pure_eq]
  have hk1 := hk1 (fun h => h0 (by rw [hj, h, Nat.mul_zero]))
  unfold inverse
  rw [e3, Res.ok_bind]
  dsimp only
  rw [if_neg (show ¬ k > 260 by omega), csub64_ok c (by omega), Res.ok_bind]
  obtain ⟨r, er, wr, vr⟩ := innerTwoPowK_ok (260 - k) (by omega)
  rw [er, Res.ok_bind]
  obtain ⟨x, ex, wx, mx, lx⟩ := montgomeryMul_spec c pr r w2 wr
  have hx : x.Canon := ⟨wx, lx (by
    rw [v2, Nat.mul_comm]
    exact Nat.mul_lt_mul_of_pos_right wr.val_lt (by omega))⟩
  rw [ex, hx.eq_enc]
  have := (ZMod.natCast_eq_natCast_iff _ _ p).2 mx
  rw [Nat.cast_mul, Nat.cast_mul, Nat.cast_pow, Nat.cast_ofNat, v2, ZMod.natCast_self, zero_mul] at this
  rcases mul_eq_zero.1 this with h | h
  · exact h
  · exact absurd h (two_pow_ne 260)

theorem findI_zero (c : Cfg) (hc : c.Enough) :
    findILoop c (enc 0) (enc 2) c.fuel zero (fromU32 2) = .ok (enc 2) := by
  have hc' := hc
  unfold Cfg.Enough at hc
  obtain ⟨f, hf⟩ : ∃ f, c.fuel = f + 3 := ⟨c.fuel - 3, by omega⟩
  have h2 : fromU32 2 = enc 2 := two_enc
  have hv2 : (enc 2).val = 2 := two_val
  have h4 : (enc (2 * 2)).val = 4 := by
    rw [enc_val]
    rfl
  have h01 : (0 : Fp) ≠ 1 := zero_ne_one
  have l1 : lt (enc 1) (enc 2) = true := by
    rw [lt_spec _ _ (enc_WF 1) (enc_WF 2), hv2, one_val']; rfl
  have l2 : lt (enc 2) (enc 2) = false := by
    rw [lt_spec _ _ (enc_WF 2) (enc_WF 2)]; exact decide_eq_false (by omega)
  rw [hf, h2, findILoop, zero_enc, lt_enc_zero_two, if_pos rfl, one_enc, add_enc, Res.ok_bind,
    pow_enc c hc' _ _ (enc_WF _), hv2, Res.ok_bind, zero_pow (by decide), ctEq_enc, decide_eq_false h01]
  simp only [Bool.false_eq_true, if_false, two_enc, mul_enc, Res.ok_bind, zero_add]
  rw [findILoop, l1, if_pos rfl, one_enc, add_enc, Res.ok_bind,
    pow_enc c hc' _ _ (enc_WF _), h4, Res.ok_bind, zero_pow (by decide), ctEq_enc, decide_eq_false h01]
  simp only [Bool.false_eq_true, if_false]
  rw [two_enc, mul_enc, Res.ok_bind, show (1 : Fp) + 1 = 2 by norm_num, findILoop, l2]
  rfl

theorem tonelli_zero (c : Cfg) (hc : c.Enough) : ∀ (fuel : Nat) (cc : Fp),
    tonelliLoop c fuel (enc cc) (enc 0) (enc 0) (enc 2) = .diverge := by
  have h01 : (0 : Fp) ≠ 1 := zero_ne_one
  have hm1 : (enc (-1)).val = p - 1 := by rw [← minusOne_enc]; exact minusOne_val
  have hf : (2 : Fp) ^ (p - 1) = 1 := ZMod.pow_card_sub_one_eq_one two_ne_zero'
  intro fuel
  induction fuel with
  | zero => intro cc; rfl
  | succ f ih =>
    intro cc
    rw [tonelliLoop, one_enc, ctEq_enc, decide_eq_false h01, Bool.not_false, if_pos rfl,
      findI_zero c hc, Res.ok_bind, sub_enc, Res.ok_bind, sub_enc, Res.ok_bind,
      show (2 : Fp) - 2 - 1 = -1 by ring, two_enc, pow_enc c hc _ _ (enc_WF _), hm1, hf, Res.ok_bind,
      pow_enc c hc _ _ (enc_WF _), one_val', pow_one, Res.ok_bind, mul_enc, zero_mul, Res.ok_bind,
      square_enc, Res.ok_bind, mul_enc, zero_mul, Res.ok_bind, Res.ok_bind]
    exact ih _

/-- The modular square root of a nonzero multiple of `p` does not terminate. -/
theorem modSqrt_multiple (c : Cfg) (hc : c.Enough) (a : FE) (ha : a.WF) (ha2 : a.val < 2 ^ 256)
    (h : p ∣ a.val) (h0 : a.val ≠ 0) (sign : Bool) : modSqrt c a sign = .diverge := by
  have hz : a.toZ = 0 := (toZ_eq_zero_iff a).2 h
  have hct : ctEq a zero = false := by
    rw [ctEq_spec a zero ha zero_canon.1 ha2 (by decide), zero_val]
    exact decide_eq_false h0
  obtain ⟨q, wq, vq, eq⟩ := factorLoop_spec c hc
  obtain ⟨q1, eq1, wq1, vq1⟩ : ∃ q1, add c q one = .ok q1 ∧ q1.Canon ∧ q1.val = Q + 1 := by
    obtain ⟨q1, e, w, v⟩ := add_spec c q one ⟨wq, by rw [vq]; decide⟩ one_canon
    exact ⟨q1, e, w, by rw [v, vq, one_val]; decide⟩
  obtain ⟨wh, vh⟩ := halfWithoutMod_spec q1 wq1.1
  have six : (⟨6, 0, 0, 0, 0⟩ : FE) = enc 6 := by
    have h : (⟨6, 0, 0, 0, 0⟩ : FE).Canon := by decide
    exact h.eq_enc (by unfold L5.toZ; rfl)
  have hs : IsSquare (0 : Fp) := ⟨0, by rw [mul_zero]⟩
  have hQ : Q ≠ 0 := by decide
  have hQ2 : (Q + 1) / 2 ≠ 0 := by decide
  unfold modSqrt
  rw [hct]
  simp only [Bool.false_eq_true, if_false]
  rw [legendre_wf c hc a ha, hz, Res.ok_bind, decide_eq_true hs]
  simp only [Bool.true_eq_false, beq_iff_eq, if_false]
  rw [eq, Res.ok_bind]
  dsimp only
  rw [six, pow_enc c hc _ _ wq, Res.ok_bind, eq1, Res.ok_bind, pow_wf c hc a _ ha wh, vh, vq1, hz,
    zero_pow hQ2, Res.ok_bind, pow_wf c hc a _ ha wq, vq, hz, zero_pow hQ, Res.ok_bind,
    tonelli_zero c hc, Res.diverge_bind]

/-- A ratio whose denominator is a nonzero multiple of `p`. -/
theorem sqrtRatioI_multiple (c : Cfg) (hc : c.Enough) (u v : FE) (hu : u.WF) (hv : v.WF)
    (hv2 : v.val < 2 ^ 256) (h : p ∣ v.val) (h0 : v.val ≠ 0) :
    sqrtRatioI c u v = .ok (true, enc 0) := by
  have hct : ctEq v zero = false := by
    rw [ctEq_spec v zero hv zero_canon.1 hv2 (by decide), zero_val]
    exact decide_eq_false h0
  have hd : divRef c u v = .ok (enc 0) := by
    unfold divRef
    rw [hct, inverse_multiple c hc v hv hv2 h h0]
    simp only [Bool.not_false, rassert, if_true, Res.ok_bind]
    rw [mul_wf c _ _ hu (enc_WF _), enc_toZ, mul_zero]
  have hs : IsSquare (0 : Fp) := ⟨0, by rw [mul_zero]⟩
  have hneg : condNegate c (enc 0) (!isPositive (enc 0)) = .ok (enc 0) := by
    have : isPositive (enc 0) = true := by rw [← zero_enc]; decide
    rw [this, condNegate_enc]; simp
  unfold sqrtRatioI
  by_cases hu0 : ctEq u zero = true
  · rw [hu0]; simp [zero_enc]
  · rw [Bool.not_eq_true] at hu0
    rw [hu0, hct, hd, Res.ok_bind, legendre_enc c hc, decide_eq_true hs]
    simp only [Bool.false_eq_true, if_false, Res.ok_bind, Bool.true_eq_false, beq_iff_eq, modSqrt_zero,
      unwrap, hneg, Res.pure_eq]

end Field
end Zerocaf
