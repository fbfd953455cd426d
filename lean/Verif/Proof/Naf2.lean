import Verif.Proof.Naf

/-!
# Signed digit expansions of width 6 and more
-/

set_option exponentiation.threshold 600

namespace Zerocaf
namespace Scalar

/-- In wrapping builds the signed residue is right for width 7 too. -/
theorem mods2PowK_seven (c : Cfg) (hd : c.debug = false) (a : Sc) :
    mods2PowK c a 7 = .ok (smod a.val 7) := by
  unfold mods2PowK
  rw [mod2PowK_spec c a 7 (by omega)]
  have hm : a.val % 2 ^ 7 < 2 ^ 7 := Nat.mod_lt _ (by positivity)
  unfold smod
  generalize a.val % 2 ^ 7 = m at *
  simp only [rassert, Res.ok_bind, predU8, shlI8, shlU8, u8AsI8, chkI8, hd]
  norm_num at hm ⊢
  split_ifs <;> first | omega | (simp; done) | (simp; omega)

/-- In overflow-checking builds a negative signed residue of width 7 panics. -/
theorem mods2PowK_seven_debug (c : Cfg) (hd : c.debug = true) (a : Sc) :
    mods2PowK c a 7 = if 0 ≤ smod a.val 7 then .ok (smod a.val 7) else .panic := by
  unfold mods2PowK
  rw [mod2PowK_spec c a 7 (by omega)]
  have hm : a.val % 2 ^ 7 < 2 ^ 7 := Nat.mod_lt _ (by positivity)
  unfold smod
  generalize a.val % 2 ^ 7 = m at *
  simp only [rassert, Res.ok_bind, predU8, shlI8, shlU8, u8AsI8, chkI8, hd]
  norm_num at hm ⊢
  split_ifs <;> first | omega | (simp; done) | (simp; omega)

/-- Loop invariant for widths 6 and 7. -/
def Bw (w n k : Nat) : Prop :=
  Bd n k ∧ k < ell ∧ (k % 2 = 1 → (k : Int) - smod k w < ell)

theorem ell_big : 1000 < ell := by decide

theorem smod_ge (k w : Nat) (h1 : 1 ≤ w) (h2 : w ≤ 7) : -64 ≤ smod k w ∧ smod k w ≤ 64 := by
  obtain ⟨b1, b2, _⟩ := smod_bounds k w h1
  have hp : (2 ^ (w - 1) : ℤ) ≤ 2 ^ 6 := pow_le_pow_right₀ (by norm_num) (by omega)
  omega

theorem Bw_half (w n k' : Nat) (h1 : 1 ≤ w) (h2 : w ≤ 7) (hb : Bd n k')
    (hk : 2 * (k' : Int) < ell) : Bw w n k' := by
  have := smod_ge k' w h1 h2
  have := ell_big
  exact ⟨hb, by omega, fun _ => by omega⟩

theorem wnafLoop_wide (c : Cfg) (w : Nat) (h1 : 2 ≤ w) (h2 : w ≤ 7)
    (hm : ∀ k : Sc, mods2PowK c k w = .ok (smod k.val w)) :
    ∀ (n fuel : Nat) (k : Sc) (i : Nat) (res : Vector Int 256), n < fuel → k.SCanon → Bw w n k.val →
      i + n ≤ 256 → (∀ j, i ≤ j → dig res j = 0) →
      ∃ out, wnafLoop c w fuel k i res = .ok out ∧ Expands w n i k.val res out := by
  refine wnafLoop_spec c w h1 h2 (Bw w) hm (fun n k hb _ ho => hb.2.2 ho) (fun k h => ?_)
    (fun n k hb he => ?_) (fun n k k' hb ho hk => ?_)
  · rcases h.1 with h | h
    · exact h
    · omega
  · have := hb.2.1
    exact Bw_half w n _ (by omega) h2 (Bd_even n k hb.1 he) (by omega)
  · have := hb.2.2 ho
    exact Bw_half w n _ (by omega) h2 (Bd_odd w h1 n k k' hb.1 ho hk) (by omega)

theorem computeWindowNAF_wide (c : Cfg) (hc : c.Enough) (w : Nat) (h1 : 2 ≤ w) (h2 : w ≤ 7)
    (hm : ∀ k : Sc, mods2PowK c k w = .ok (smod k.val w)) (a : Sc) (ha : a.SCanon)
    (hl : a.val % 2 = 1 → (a.val : Int) - smod a.val w < ell) :
    ∃ out, computeWindowNAF c a w = .ok out ∧
      Expands w 251 0 a.val (Vector.replicate 256 0) out := by
  unfold Cfg.Enough at hc
  refine wnafLoop_wide c w h1 h2 hm 251 c.fuel a 0 _ (by omega) ha ⟨?_, ha.2, hl⟩ (by omega)
    (fun j _ => dig_replicate j)
  right
  have := ha.2
  have := ell_lt
  exact ⟨by omega, by omega⟩

/-- When removing the signed residue of width 6 or 7 from an odd canonical scalar overflows `L`, what is left is 29. -/
theorem smod_over (k w : Nat) (hw : w = 6 ∨ w = 7) (hk : k < ell) (ho : k % 2 = 1)
    (h : ¬ (k : Int) - smod k w < ell) : (k : Int) - smod k w = ell + 29 := by
  have e : ell % 128 = 99 := by decide
  unfold smod at *
  generalize ell = l at *
  rcases hw with rfl | rfl <;> norm_num at h ⊢ <;> split_ifs at h ⊢ <;> omega

theorem smod_over_iff (k : Nat) (hk : k < ell) (ho : k % 2 = 1) :
    (¬ (k : Int) - smod k 6 < ell ↔ k = ell - 2) ∧ (¬ (k : Int) - smod k 7 < ell ↔ ell - 34 ≤ k) := by
  have e : ell % 128 = 99 := by decide
  have := ell_big
  unfold smod
  generalize ell = l at *
  constructor <;> norm_num <;> split_ifs <;> omega

theorem sub_digit_over (c : Cfg) (k : Sc) (w : Nat) (hw : w = 6 ∨ w = 7) (hk : k.SCanon)
    (ho : k.val % 2 = 1) (hl : ¬ (k.val : Int) - smod k.val w < ell) :
    ∃ s r, fromI8 c (smod k.val w) = .ok s ∧ sub c k s = .ok r ∧ r.SCanon ∧ r.val = 29 := by
  have h29 := smod_over k.val w hw hk.2 ho hl
  obtain ⟨b1, b2⟩ := smod_ge k.val w (by omega) (by omega)
  obtain ⟨s, es, cs, vs⟩ := fromI8_spec c (smod k.val w) (by omega) (by omega)
  obtain ⟨r, er, cr, vr⟩ := sub_spec c k s hk cs
  refine ⟨s, r, es, er, cr, ?_⟩
  have hs := cs.2
  have hk2 := hk.2
  have hb := ell_big
  have hneg : smod k.val w < 0 := by omega
  have e1 : smod k.val w % (ell : ℤ) = smod k.val w + ell := by
    rw [← Int.add_emod_right, Int.emod_eq_of_lt (by omega) (by omega)]
  rw [e1] at vs
  rw [vr, show k.val + ell - s.val = 29 + ell by omega, Nat.add_mod_right, Nat.mod_eq_of_lt (by omega)]

/-- The overflowing case: the digits denote `k - L - 1`. -/
theorem computeWindowNAF_over (c : Cfg) (hc : c.Enough) (w : Nat) (hw : w = 6 ∨ w = 7)
    (hm : ∀ k : Sc, mods2PowK c k w = .ok (smod k.val w)) (a : Sc) (ha : a.SCanon)
    (ho : a.val % 2 = 1) (hl : ¬ (a.val : Int) - smod a.val w < ell) :
    ∃ out, computeWindowNAF c a w = .ok out ∧
      dig out 0 = (a.val : Int) - ell - 29 ∧
      Expands w 250 1 14 ((Vector.replicate 256 0).set 0 (smod a.val w)) out := by
  unfold Cfg.Enough at hc
  obtain ⟨f, hf⟩ : ∃ f, c.fuel = f + 1 := ⟨c.fuel - 1, by omega⟩
  obtain ⟨s, r, es, er, cr, vr⟩ := sub_digit_over c a w hw ha ho hl
  obtain ⟨wh, vh⟩ := halfWithoutMod_spec r cr.1
  have v14 : (halfWithoutMod r).val = 14 := by
    show (Field.halfWithoutMod r).val = 14
    rw [vh, vr]
  have hb := ell_big
  have hh : (halfWithoutMod r).SCanon := ⟨wh, by rw [v14]; omega⟩
  obtain ⟨out, eo, hE⟩ := wnafLoop_wide c w (by omega) (by omega) hm 250 f (halfWithoutMod r) 1
    ((Vector.replicate 256 0).set 0 (smod a.val w)) (by omega) hh
    (by
      rw [v14]
      refine Bw_half w 250 14 (by omega) (by omega) ?_ (by omega)
      right; exact ⟨by omega, by decide⟩)
    (by omega)
    (fun j hj => by rw [dig_set _ _ _ _ (by omega), if_neg (by omega)]; exact dig_replicate j)
  rw [v14] at hE
  refine ⟨out, ?_, ?_, hE⟩
  · unfold computeWindowNAF
    rw [hf, wnafLoop, ge_spec a one ha.1 one_canon.1, one_val, isEven_spec,
      decide_eq_true (show 1 ≤ a.val by omega)]
    simp only [ho, one_ne_zero, decide_false, Bool.not_false, if_true]
    rw [hm a, Res.ok_bind, setDigit_ok _ _ _ (by omega), Res.ok_bind,
      es, Res.ok_bind, er, Res.ok_bind, eo]
  · rw [hE.low 0 (by omega), dig_set _ _ _ _ (by omega), if_pos rfl]
    have := smod_over a.val w hw ha.2 ho hl
    omega

/-- The loop leaves earlier digits alone. -/
theorem wnafLoop_low (c : Cfg) (w : Nat) : ∀ (fuel : Nat) (k : Sc) (i : Nat) (res out : Vector Int 256),
    wnafLoop c w fuel k i res = .ok out → ∀ j < i, dig out j = dig res j := by
  have hset : ∀ (res r' : Vector Int 256) (i : Nat) (x : Int), setDigit res i x = .ok r' →
      ∀ j, j ≠ i → dig r' j = dig res j := by
    intro res r' i x h j hj
    unfold setDigit at h
    split at h
    · rename_i hi
      cases h
      rw [dig_set _ _ _ _ hi, if_neg hj]
    · cases h
  intro fuel
  induction fuel with
  | zero => intro k i res out h; cases h
  | succ f ih =>
    intro k i res out h j hj
    rw [wnafLoop] at h
    by_cases hg : ge k one
    · rw [if_pos hg] at h
      by_cases he : isEven k = true
      · rw [he] at h
        simp only [Bool.not_true, Bool.false_eq_true, if_false] at h
        cases hs : setDigit res i 0 with
        | ok r' =>
          rw [hs, Res.ok_bind] at h
          rw [ih _ _ _ _ h j (by omega), hset _ _ _ _ hs j (by omega)]
        | panic => rw [hs] at h; cases h
        | diverge => rw [hs] at h; cases h
      · rw [Bool.not_eq_true] at he
        rw [he] at h
        simp only [Bool.not_false, if_true] at h
        cases hmd : mods2PowK c k w with
        | ok ki =>
          rw [hmd, Res.ok_bind] at h
          cases hs : setDigit res i ki with
          | ok r' =>
            rw [hs, Res.ok_bind] at h
            cases hf : fromI8 c ki with
            | ok s =>
              rw [hf, Res.ok_bind] at h
              cases hsub : sub c k s with
              | ok k' =>
                rw [hsub, Res.ok_bind] at h
                rw [ih _ _ _ _ h j (by omega), hset _ _ _ _ hs j (by omega)]
              | panic => rw [hsub] at h; cases h
              | diverge => rw [hsub] at h; cases h
            | panic => rw [hf] at h; cases h
            | diverge => rw [hf] at h; cases h
          | panic => rw [hs] at h; cases h
          | diverge => rw [hs] at h; cases h
        | panic => rw [hmd] at h; cases h
        | diverge => rw [hmd] at h; cases h
    · rw [if_neg hg] at h; cases h; rfl

open Classical in
/-- The width-7 loop in an overflow-checking build against the wrapping build. -/
theorem wnafLoop_debug_seven (c d : Cfg) (hd : d.debug = true) (hr : c.debug = false) :
    ∀ (fuel : Nat) (k : Sc) (i : Nat) (res out : Vector Int 256), k.SCanon →
      (∀ j, i ≤ j → dig res j = 0) → wnafLoop c 7 fuel k i res = .ok out →
      wnafLoop d 7 fuel k i res = if ∀ j, i ≤ j → 0 ≤ dig out j then .ok out else .panic := by
  intro fuel
  induction fuel with
  | zero => intro k i res out _ _ h; cases h
  | succ f ih =>
    intro k i res out hk hz h
    have hlow := wnafLoop_low c 7 _ _ _ _ _ h
    rw [wnafLoop] at h ⊢
    have split : ∀ (P : Nat → Prop), (∀ j, i ≤ j → P j) ↔ (P i ∧ ∀ j, i + 1 ≤ j → P j) := by
      intro P
      refine ⟨fun H => ⟨H i (by omega), fun j hj => H j (by omega)⟩, fun H j hj => ?_⟩
      rcases Nat.eq_or_lt_of_le hj with e | e
      · subst e; exact H.1
      · exact H.2 j e
    by_cases hg : ge k one
    · rw [if_pos hg] at h ⊢
      by_cases hi : i < 256
      · by_cases he : k.val % 2 = 0
        · obtain ⟨wh, vh⟩ := halfWithoutMod_spec k hk.1
          have hh : (halfWithoutMod k).SCanon :=
            ⟨wh, by have h5 := hk.2; show (Field.halfWithoutMod k).val < ell; rw [vh]; omega⟩
          simp only [isEven_spec, he, decide_true, Bool.not_true, Bool.false_eq_true, if_false,
            if_true, setDigit_ok _ _ _ hi, Res.ok_bind] at h ⊢
          have h0 := wnafLoop_low c 7 _ _ _ _ _ h i (by omega)
          rw [dig_set _ _ _ _ hi, if_pos rfl] at h0
          rw [ih _ _ _ _ hh (fun j hj => by
            rw [dig_set _ _ _ _ hi, if_neg (by omega)]; exact hz j (by omega)) h]
          simp only [split (fun j => 0 ≤ dig out j), h0, le_refl, true_and]
        · obtain ⟨b1, b2⟩ := smod_ge k.val 7 (by omega) (by omega)
          obtain ⟨s, es, cs, vs⟩ := fromI8_spec c (smod k.val 7) (by omega) (by omega)
          obtain ⟨s', es', cs', vs'⟩ := fromI8_spec d (smod k.val 7) (by omega) (by omega)
          have e1 : s' = s := cs'.1.ext cs.1 (by omega)
          subst e1
          obtain ⟨r, er, cr, vr⟩ := sub_spec c k s' hk cs
          obtain ⟨r', er', cr', vr'⟩ := sub_spec d k s' hk cs
          have e2 : r' = r := cr'.1.ext cr.1 (by omega)
          subst e2
          obtain ⟨wh, vh⟩ := halfWithoutMod_spec r' cr.1
          have hh : (halfWithoutMod r').SCanon :=
            ⟨wh, by have h5 := cr.2; show (Field.halfWithoutMod r').val < ell; rw [vh]; omega⟩
          simp only [isEven_spec, he, decide_false, Bool.not_false, if_true,
            mods2PowK_seven c hr, mods2PowK_seven_debug d hd,
            setDigit_ok _ _ _ hi, Res.ok_bind, es, er] at h ⊢
          have h0 := wnafLoop_low c 7 _ _ _ _ _ h i (by omega)
          rw [dig_set _ _ _ _ hi, if_pos rfl] at h0
          simp only [split (fun j => 0 ≤ dig out j), h0]
          by_cases hn : 0 ≤ smod k.val 7
          · simp only [hn, if_true, true_and, Res.ok_bind, setDigit_ok _ _ _ hi, es', er']
            exact ih _ _ _ _ hh (fun j hj => by
              rw [dig_set _ _ _ _ hi, if_neg (by omega)]; exact hz j (by omega)) h
          · simp only [hn, if_false, false_and, Res.panic_bind]
      · exfalso
        have hs : ∀ x, setDigit res i x = .panic := by
          intro x; unfold setDigit; rw [dif_neg hi]
        by_cases he : k.val % 2 = 0
        · simp only [isEven_spec, he, decide_true, Bool.not_true, Bool.false_eq_true, if_false,
            hs, Res.panic_bind] at h
          cases h
        · simp only [isEven_spec, he, decide_false, Bool.not_false, if_true,
            mods2PowK_seven c hr, hs, Res.panic_bind, Res.ok_bind] at h
          cases h
    · rw [if_neg hg] at h ⊢
      cases h
      rw [if_pos (fun j hj => by rw [hz j hj])]

/-- When the signed residue panics, the expansion of every nonzero canonical scalar panics. -/
theorem computeWindowNAF_panic (c : Cfg) (hc : c.Enough) (w : Nat)
    (hm : ∀ k : Sc, mods2PowK c k w = .panic) (a : Sc) (ha : a.SCanon) (h0 : a.val ≠ 0) :
    computeWindowNAF c a w = .panic := by
  have key : ∀ n fuel (k : Sc) (i : Nat) res, i + n ≤ 256 → n < fuel → k.SCanon → 1 ≤ k.val →
      k.val < 2 ^ n → wnafLoop c w fuel k i res = .panic := by
    intro n
    induction n with
    | zero => intro fuel k i res hi hf hk h1 h2; simp at h2; omega
    | succ n ih =>
      intro fuel k i res hi hf hk h1 h2
      obtain ⟨f, rfl⟩ : ∃ f, fuel = f + 1 := ⟨fuel - 1, by omega⟩
      rw [pow_succ] at h2
      rw [wnafLoop, ge_spec k one hk.1 one_canon.1, one_val, decide_eq_true h1]
      by_cases he : k.val % 2 = 0
      · obtain ⟨wh, vh⟩ := halfWithoutMod_spec k hk.1
        simp only [isEven_spec, he, decide_true, Bool.not_true, Bool.false_eq_true, if_false,
          if_true, setDigit_ok _ _ _ (show i < 256 by omega), Res.ok_bind]
        have h5 := hk.2
        exact ih f _ _ _ (by omega) (by omega)
          ⟨wh, by show (Field.halfWithoutMod k).val < ell; rw [vh]; omega⟩
          (by show 1 ≤ (Field.halfWithoutMod k).val; rw [vh]; omega)
          (by show (Field.halfWithoutMod k).val < _; rw [vh]; omega)
      · simp only [isEven_spec, he, decide_false, Bool.not_false, if_true, hm, Res.panic_bind]
  unfold Cfg.Enough at hc
  have := ha.2
  have := ell_lt
  exact key 250 c.fuel a 0 _ (by omega) (by omega) ha (by omega) (by omega)

/-- Widths 8 to 31 panic in overflow-checking builds. -/
theorem mods2PowK_wide_debug (c : Cfg) (hd : c.debug = true) (a : Sc) (w : Nat) (h1 : 9 ≤ w) :
    mods2PowK c a w = .panic := by
  unfold mods2PowK
  by_cases h2 : w < 32
  · unfold mod2PowK
    rw [if_pos (show w < 64 by omega)]
    simp only [rassert, h2, decide_true, if_true, Res.ok_bind, Res.pure_eq, predU8,
      show 1 ≤ w by omega, shlI8, show ¬ w - 1 < 8 by omega, if_false, hd, Res.panic_bind]
  · simp [rassert, h2]

/-- Width 32 and more panic in all builds. -/
theorem mods2PowK_assert (c : Cfg) (a : Sc) (w : Nat) (h1 : 32 ≤ w) : mods2PowK c a w = .panic := by
  unfold mods2PowK
  simp [rassert, show ¬ w < 32 by omega]

/-- Width 8 in overflow-checking builds: `1i8 << 7` is `-128`, every residue is at least that, and the second shift is out of range. -/
theorem mods2PowK_eight_debug (c : Cfg) (hd : c.debug = true) (a : Sc) : mods2PowK c a 8 = .panic := by
  unfold mods2PowK
  rw [mod2PowK_spec c a 8 (by omega)]
  have hm : a.val % 2 ^ 8 < 2 ^ 8 := Nat.mod_lt _ (by positivity)
  generalize a.val % 2 ^ 8 = m at *
  simp only [rassert, Res.ok_bind, predU8, shlI8, shlU8, u8AsI8, chkI8, hd]
  norm_num at hm ⊢
  intro h
  split_ifs at h <;> omega

end Scalar
end Zerocaf
