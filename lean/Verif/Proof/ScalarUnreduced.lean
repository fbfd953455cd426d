import Verif.Proof.Naf2

/-!
# Scalars that are not below `L`
-/

set_option exponentiation.threshold 600

namespace Zerocaf
namespace Scalar

theorem L_WF : Scalar.L.WF := by decide
theorem L_val : Scalar.L.val = ell := by decide
theorem ell_odd : ell % 2 = 1 := by decide
theorem two_ell_lt : 3 * (2 * ell) < 2 ^ 252 := by decide
theorem ell_lt_tight : 12 * ell < 7 * 2 ^ 250 := by decide

theorem sub_cases (c : Cfg) (a b : Sc) (ha : a.WF) (hb : b.WF) :
    ∃ r, sub c a b = .ok r ∧ r.WF ∧
      r.val = if b.val ≤ a.val then a.val - b.val
        else if b.val ≤ a.val + ell then a.val + ell - b.val else a.val + ell + 2 ^ 260 - b.val := by
  obtain ⟨r, er, wr, v1, v2⟩ := subWith_spec Scalar.L c a b L_WF ha.1 ha.2.1 ha.2.2.1
    ha.2.2.2.1 (lt_trans ha.2.2.2.2 (by decide)) hb
  rw [L_val] at v2
  have hp := ell_lt
  have h1 := ha.val_lt
  have h2 := hb.val_lt
  refine ⟨r, er, wr, ?_⟩
  split_ifs with h h'
  · rw [v1 h]; omega
  · rw [v2 (by omega)]; omega
  · rw [v2 (by omega)]; omega

theorem add_exact (c : Cfg) (a b : Sc) (ha : a.WF) (hb : b.WF) (h : a.val + b.val < 2 ^ 260) :
    ∃ r, add c a b = .ok r ∧ r.WF ∧
      r.val = if a.val + b.val < ell then a.val + b.val else a.val + b.val - ell := by
  obtain ⟨s, es, ws, vs⟩ := addChain c a b (fun s => sub c s Scalar.L) ha hb
  have vs' : s.val = a.val + b.val := by rw [vs]; exact Nat.mod_eq_of_lt h
  obtain ⟨r, er, wr, v1, v2⟩ := subWith_spec Scalar.L c s Scalar.L L_WF ws.1 ws.2.1 ws.2.2.1
    ws.2.2.2.1 (lt_trans ws.2.2.2.2 (by decide)) L_WF
  rw [L_val] at v1 v2
  have hp := ell_lt
  refine ⟨r, ?_, wr, ?_⟩
  · unfold add; rw [es]; exact er
  · split_ifs with h
    · rw [v2 (by omega)]; omega
    · rw [v1 (by omega)]; omega

/-! ### Exponentiation -/

theorem powLoop_any (c : Cfg) (m : Nat) (hm : m % 2 = 1) : ∀ (t fuel : Nat) (base r e : Sc),
    base.WF → r.SCanon → e.WF → e.val = 2 ^ t * m → t + 251 < fuel →
    ∃ s, powLoop c fuel base r e = .ok s ∧ s.SCanon ∧
      s.val = r.val * base.val ^ (2 ^ t * (1 + 2 * ((m - 1) / 2 % ell))) % ell := by
  intro t
  induction t with
  | zero =>
    intro fuel base r e hb hr he hv hf
    obtain ⟨f, rfl⟩ : ∃ f, fuel = f + 1 := ⟨fuel - 1, by omega⟩
    rw [pow_zero, Nat.one_mul] at hv
    rw [powLoop, gt_spec e zero he zero_canon.1, zero_val, isEven_spec,
      decide_eq_true (show 0 < e.val by omega)]
    obtain ⟨b', eb, cb, vb⟩ := square_spec c base hb
    simp only [hv, hm, one_ne_zero, decide_false, if_true, Bool.false_eq_true, if_false]
    obtain ⟨e1, ee, we, ve⟩ := sub_cases c e one he one_canon.1
    rw [one_val, if_pos (by omega)] at ve
    obtain ⟨r', er, cr, vr⟩ := mul_spec c r base hr.1 hb
    obtain ⟨e2, ee2, ce2, ve2⟩ := half_spec c e1 we
    have hv2 : e2.val = (m - 1) / 2 % ell := by
      have h1 : 2 * e2.val ≡ 2 * ((m - 1) / 2) [MOD ell] := by
        unfold Nat.ModEq
        rw [ve2, ve, hv, show 2 * ((m - 1) / 2) = m - 1 by omega]
      have h2 : e2.val ≡ (m - 1) / 2 [MOD ell] :=
        Nat.ModEq.cancel_left_of_coprime (by decide +kernel) h1
      have h3 : e2.val % ell = (m - 1) / 2 % ell := h2
      rwa [Nat.mod_eq_of_lt ce2.2] at h3
    rw [ee, Res.ok_bind, er, Res.ok_bind, ee2, Res.ok_bind, eb, Res.ok_bind]
    obtain ⟨s, es, cs, vs⟩ := powLoop_spec c 250 f b' r' e2 cb.1 cr ce2 (lt_trans ce2.2 ell_lt) (by omega)
    refine ⟨s, es, cs, ?_⟩
    rw [vs, hv2, vb, vr, pow_zero, Nat.one_mul, pow_add, pow_one, pow_mul, ← mul_assoc, pow_two]
    exact Nat.ModEq.mul (Nat.mod_modEq _ _) ((Nat.mod_modEq _ _).pow _)
  | succ t ih =>
    intro fuel base r e hb hr he hv hf
    obtain ⟨f, rfl⟩ : ∃ f, fuel = f + 1 := ⟨fuel - 1, by omega⟩
    have h1 : 1 ≤ 2 ^ t * m := Nat.mul_pos (by positivity) (by omega)
    have hv' : e.val = 2 * (2 ^ t * m) := by rw [hv, pow_succ]; ring
    rw [powLoop, gt_spec e zero he zero_canon.1, zero_val, isEven_spec,
      decide_eq_true (show 0 < e.val by omega)]
    obtain ⟨b', eb, cb, vb⟩ := square_spec c base hb
    have h2 : e.val % 2 = 0 := by omega
    simp only [h2, decide_true, if_true]
    obtain ⟨wh, vh⟩ := halfWithoutMod_spec e he
    rw [eb, Res.ok_bind]
    obtain ⟨s, es, cs, vs⟩ := ih f b' r (halfWithoutMod e) cb.1 hr wh
      (by show (Field.halfWithoutMod e).val = _; rw [vh]; omega) (by omega)
    refine ⟨s, es, cs, ?_⟩
    rw [vs, vb]
    have : base.val ^ (2 ^ (t + 1) * (1 + 2 * ((m - 1) / 2 % ell))) =
        (base.val * base.val) ^ (2 ^ t * (1 + 2 * ((m - 1) / 2 % ell))) := by
      rw [← pow_two, ← pow_mul]; congr 1; rw [pow_succ]; ring
    rw [this]
    exact Nat.ModEq.mul_left _ ((Nat.mod_modEq _ _).pow _)

theorem pow_any (c : Cfg) (hc : c.Enough) (a e : Sc) (ha : a.WF) (he : e.WF) (t m : Nat) (hm : m % 2 = 1)
    (hv : e.val = 2 ^ t * m) :
    ∃ s, pow c a e = .ok s ∧ s.SCanon ∧ s.val = a.val ^ (2 ^ t * (1 + 2 * ((m - 1) / 2 % ell))) % ell := by
  unfold Cfg.Enough at hc
  have ht : t < 260 := by
    by_contra h
    have h1 : 2 ^ 260 ≤ 2 ^ t := Nat.pow_le_pow_right (by decide) (by omega)
    have h2 := he.val_lt
    have h3 : 2 ^ t * 1 ≤ 2 ^ t * m := Nat.mul_le_mul_left _ (by omega)
    omega
  obtain ⟨s, es, cs, vs⟩ := powLoop_any c m hm t c.fuel a one e ha one_canon he hv (by omega)
  exact ⟨s, es, cs, by rw [vs, one_val, Nat.one_mul]⟩

theorem pow_zero_exp (c : Cfg) (hc : c.Enough) (a e : Sc) (he : e.WF) (hv : e.val = 0) :
    pow c a e = .ok one := by
  unfold Cfg.Enough at hc
  obtain ⟨f, hf⟩ : ∃ f, c.fuel = f + 1 := ⟨c.fuel - 1, by omega⟩
  unfold pow
  have hg : gt e zero = false := by
    rw [gt_spec e zero he zero_canon.1, zero_val, hv]; rfl
  rw [hf, powLoop, hg]
  rfl

/-! ### Signed digits -/

/-- One more doubling than for canonical scalars. The first digit must not be negative. -/
theorem wnafLoop_double (c : Cfg) (w : Nat) (h1 : 2 ≤ w) (h2 : w ≤ 5) (B : Nat → Nat → Prop)
    (hB0 : ∀ k, B 0 k → k = 0) (hBe : ∀ n k, B (n + 1) k → k % 2 = 0 → B n (k / 2))
    (hBo : ∀ (n k k' : Nat), B (n + 1) k → k % 2 = 1 → 2 * (k' : Int) = k - smod k w → B n k')
    (n fuel : Nat) (k : Sc) (i : Nat) (res : Vector Int 256) (hn : n + 1 < fuel) (hk : k.WF)
    (hk2 : k.val < 2 * ell) (hpos : k.val % 2 = 1 → 0 ≤ smod k.val w) (hb : B (n + 1) k.val)
    (hi : i + (n + 1) ≤ 256) (hz : ∀ j, i ≤ j → dig res j = 0) :
    ∃ out, wnafLoop c w fuel k i res = .ok out ∧ Expands w (n + 1) i k.val res out := by
  have hm := fun k : Sc => mods2PowK_spec c k w h1 (show w ≤ 6 by omega)
  have rest := wnafLoop_spec c w h1 (by omega) B hm (fun _ k _ hk ho => smod_lt_ell k w h1 h2 hk ho) hB0 hBe hBo
  obtain ⟨f, rfl⟩ : ∃ f, fuel = f + 1 := ⟨fuel - 1, by omega⟩
  by_cases h0 : k.val = 0
  · refine ⟨res, ?_, by rw [h0]; exact Expands.of_zero w _ i res hz⟩
    rw [wnafLoop, ge_spec k one hk one_canon.1, h0]; rfl
  rw [wnafLoop, ge_spec k one hk one_canon.1, one_val, isEven_spec,
    decide_eq_true (show 1 ≤ k.val by omega)]
  by_cases he : k.val % 2 = 0
  · obtain ⟨wh, vh⟩ := halfWithoutMod_spec k hk
    have hh : (halfWithoutMod k).SCanon :=
      ⟨wh, by show (Field.halfWithoutMod k).val < ell; rw [vh]; omega⟩
    obtain ⟨out, eo, ho⟩ := rest n f (halfWithoutMod k) (i + 1) (res.set i 0) (by omega) hh
      (by show B n (Field.halfWithoutMod k).val; rw [vh]; exact hBe n _ hb he) (by omega)
      (fun j hj => by rw [dig_set _ _ _ _ (by omega), if_neg (by omega)]; exact hz j (by omega))
    refine ⟨out, ?_, ?_⟩
    · simp only [he, decide_true, Bool.not_true, Bool.false_eq_true, if_false, if_true]
      rw [setDigit_ok _ _ _ (by omega), Res.ok_bind, eo]
    · rw [show (halfWithoutMod k).val = k.val / 2 from vh] at ho
      exact ho.even (by omega) he
  · have hp := hpos (by omega)
    obtain ⟨b1, b2⟩ := smod_ge k.val w (by omega) (by omega)
    obtain ⟨s, es, cs, vs⟩ := fromI8_spec c (smod k.val w) (by omega) (by omega)
    have hl := ell_big
    rw [Int.emod_eq_of_lt hp (by omega)] at vs
    have hle := smod_le k.val w
    obtain ⟨r, er, wr, vr⟩ := sub_cases c k s hk cs.1
    rw [if_pos (by omega)] at vr
    obtain ⟨wh, vh⟩ := halfWithoutMod_spec r wr
    have hh : (halfWithoutMod r).SCanon :=
      ⟨wh, by show (Field.halfWithoutMod r).val < ell; rw [vh]; omega⟩
    have hv : 2 * ((halfWithoutMod r).val : Int) = k.val - smod k.val w := by
      show 2 * ((Field.halfWithoutMod r).val : Int) = _
      have hso := smod_odd k.val w (by omega) (by omega)
      rw [vh]
      omega
    obtain ⟨out, eo, ho⟩ := rest n f (halfWithoutMod r) (i + 1) (res.set i (smod k.val w)) (by omega) hh
      (hBo n _ _ hb (by omega) hv) (by omega)
      (fun j hj => by rw [dig_set _ _ _ _ (by omega), if_neg (by omega)]; exact hz j (by omega))
    refine ⟨out, ?_, ?_⟩
    · simp only [he, decide_false, Bool.not_false, if_true]
      rw [hm k, Res.ok_bind, setDigit_ok _ _ _ (by omega), Res.ok_bind,
        es, Res.ok_bind, er, Res.ok_bind, eo]
    · exact ho.odd h1 (by omega) (by omega) hv

/-- The other case: `L` is subtracted along with the digit and halving rounds down. -/
theorem wnafLoop_double_over (c : Cfg) (w : Nat) (h1 : 2 ≤ w) (h2 : w ≤ 5) (B : Nat → Nat → Prop)
    (hB0 : ∀ k, B 0 k → k = 0) (hBe : ∀ n k, B (n + 1) k → k % 2 = 0 → B n (k / 2))
    (hBo : ∀ (n k k' : Nat), B (n + 1) k → k % 2 = 1 → 2 * (k' : Int) = k - smod k w → B n k')
    (n fuel : Nat) (k : Sc) (i : Nat) (res : Vector Int 256) (hn : n + 1 < fuel) (hk : k.WF)
    (hk2 : k.val < 2 * ell) (ho : k.val % 2 = 1) (hneg : smod k.val w < 0) (k' : Nat)
    (hk' : 2 * (k' : Int) + 1 = k.val - smod k.val w - ell) (hb : B n k')
    (hi : i + (n + 1) ≤ 256) (hz : ∀ j, i ≤ j → dig res j = 0) :
    ∃ out, wnafLoop c w fuel k i res = .ok out ∧
      Expands w n (i + 1) k' (res.set i (smod k.val w)) out := by
  have hm := fun k : Sc => mods2PowK_spec c k w h1 (show w ≤ 6 by omega)
  have rest := wnafLoop_spec c w h1 (by omega) B hm (fun _ k _ hk ho => smod_lt_ell k w h1 h2 hk ho) hB0 hBe hBo
  obtain ⟨f, rfl⟩ : ∃ f, fuel = f + 1 := ⟨fuel - 1, by omega⟩
  obtain ⟨b1, b2⟩ := smod_ge k.val w (by omega) (by omega)
  obtain ⟨s, es, cs, vs⟩ := fromI8_spec c (smod k.val w) (by omega) (by omega)
  have hl := ell_big
  rw [← Int.add_emod_right, Int.emod_eq_of_lt (by omega) (by omega)] at vs
  obtain ⟨r, er, wr, vr⟩ := sub_cases c k s hk cs.1
  rw [if_pos (by omega)] at vr
  obtain ⟨wh, vh⟩ := halfWithoutMod_spec r wr
  have hv : (halfWithoutMod r).val = k' := by
    show (Field.halfWithoutMod r).val = k'
    rw [vh]
    omega
  have hh : (halfWithoutMod r).SCanon := ⟨wh, by rw [hv]; omega⟩
  obtain ⟨out, eo, hE⟩ := rest n f (halfWithoutMod r) (i + 1) (res.set i (smod k.val w)) (by omega) hh
    (by rw [hv]; exact hb) (by omega)
    (fun j hj => by rw [dig_set _ _ _ _ (by omega), if_neg (by omega)]; exact hz j (by omega))
  refine ⟨out, ?_, by rw [hv] at hE; exact hE⟩
  rw [wnafLoop, ge_spec k one hk one_canon.1, one_val, isEven_spec,
    decide_eq_true (show 1 ≤ k.val by omega)]
  simp only [ho, one_ne_zero, decide_false, Bool.not_false, if_true]
  rw [hm k, Res.ok_bind, setDigit_ok _ _ _ (by omega), Res.ok_bind,
    es, Res.ok_bind, er, Res.ok_bind, eo]

theorem Bd_zero (k : Nat) (h : Bd 0 k) : k = 0 := by
  rcases h with h | h
  · exact h
  · omega

theorem over_half (k w : Nat) (h1 : 2 ≤ w) (hk : ell ≤ k) (ho : k % 2 = 1) (hneg : smod k w < 0) :
    ∃ k' : Nat, 2 * (k' : Int) + 1 = k - smod k w - ell := by
  have := smod_odd k w (by omega) ho
  have := ell_odd
  exact ⟨((k : Int) - smod k w - ell).toNat / 2, by omega⟩

theorem computeWindowNAF_double (c : Cfg) (hc : c.Enough) (w : Nat) (h1 : 2 ≤ w) (h2 : w ≤ 5) (a : Sc)
    (ha : a.WF) (hl : a.val < 2 * ell) (hpos : a.val % 2 = 1 → 0 ≤ smod a.val w) :
    ∃ out, computeWindowNAF c a w = .ok out ∧ Expands w 252 0 a.val (Vector.replicate 256 0) out := by
  unfold Cfg.Enough at hc
  have := ell_lt
  exact wnafLoop_double c w h1 h2 Bd Bd_zero Bd_even (Bd_odd w h1) 251 c.fuel a 0 _ (by omega) ha hl hpos
    (Or.inr ⟨by omega, by omega⟩) (by omega) (fun j _ => dig_replicate j)

theorem computeWindowNAF_double_over (c : Cfg) (hc : c.Enough) (w : Nat) (h1 : 2 ≤ w) (h2 : w ≤ 5) (a : Sc)
    (ha : a.WF) (hl1 : ell ≤ a.val) (hl2 : a.val < 2 * ell) (ho : a.val % 2 = 1) (hneg : smod a.val w < 0) :
    ∃ (out : Vector Int 256) (k' : Nat), computeWindowNAF c a w = .ok out ∧ 2 * (k' : Int) + 1 = a.val - smod a.val w - ell ∧
      Expands w 250 1 k' ((Vector.replicate 256 0).set 0 (smod a.val w)) out := by
  unfold Cfg.Enough at hc
  have := ell_lt_tight
  have := ell_big
  obtain ⟨b1, b2⟩ := smod_ge a.val w (by omega) (by omega)
  obtain ⟨k', hk'⟩ := over_half a.val w h1 hl1 ho hneg
  obtain ⟨out, e, hE⟩ := wnafLoop_double_over c w h1 h2 Bd Bd_zero Bd_even (Bd_odd w h1) 250 c.fuel a 0 _
    (by omega) ha hl2 ho hneg k' hk' (Or.inr ⟨by omega, by omega⟩) (by omega) (fun j _ => dig_replicate j)
  exact ⟨out, k', e, hk', hE⟩

theorem computeNAF_double (c : Cfg) (hc : c.Enough) (a : Sc) (ha : a.WF) (hl : a.val < 2 * ell)
    (hpos : a.val % 2 = 1 → 0 ≤ smod a.val 2) (n : Nat) (hn : n ≤ 250) (h3 : 3 * a.val < 2 ^ (n + 1 + 1)) :
    ∃ out, computeNAF c a = .ok out ∧ Expands 2 (n + 1) 0 a.val (Vector.replicate 256 0) out := by
  unfold Cfg.Enough at hc
  unfold computeNAF
  rw [nafLoop_eq]
  exact wnafLoop_double c 2 (by omega) (by omega) (fun n k => 3 * k < 2 ^ (n + 1))
    (fun k h => by simp at h; omega) B2_even B2_odd n c.fuel a 0 _ (by omega) ha hl hpos
    h3 (by omega) (fun j _ => dig_replicate j)

theorem computeNAF_double_over (c : Cfg) (hc : c.Enough) (a : Sc)
    (ha : a.WF) (hl1 : ell ≤ a.val) (hl2 : a.val < 2 * ell) (ho : a.val % 2 = 1) (hneg : smod a.val 2 < 0) :
    ∃ (out : Vector Int 256) (k' : Nat), computeNAF c a = .ok out ∧ 2 * (k' : Int) + 1 = a.val - smod a.val 2 - ell ∧
      Expands 2 249 1 k' ((Vector.replicate 256 0).set 0 (smod a.val 2)) out := by
  unfold Cfg.Enough at hc
  have h5 := ell_lt_tight
  have h6 := ell_big
  obtain ⟨b1, b2⟩ := smod_ge a.val 2 (by omega) (by omega)
  obtain ⟨k', hk'⟩ := over_half a.val 2 (by omega) hl1 ho hneg
  unfold computeNAF
  rw [nafLoop_eq]
  obtain ⟨out, e, hE⟩ := wnafLoop_double_over c 2 (by omega) (by omega) (fun n k => 3 * k < 2 ^ (n + 1))
    (fun k h => by simp at h; omega) B2_even B2_odd 249 c.fuel a 0 _ (by omega) ha hl2 ho hneg k' hk'
    (by omega) (by omega) (fun j _ => dig_replicate j)
  exact ⟨out, k', e, hk', hE⟩

end Scalar
end Zerocaf
