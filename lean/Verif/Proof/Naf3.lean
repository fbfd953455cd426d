import Verif.Proof.Naf2

/-!
# Signed digit expansions of widths 8 to 31 in wrapping builds

The residue is cut to a byte and the shifts of bytes take the width modulo 8.
-/

set_option exponentiation.threshold 600

namespace Zerocaf
namespace Scalar

/-- The signed residue modulo 256. -/
def sres (k : Nat) : Int := if 128 ≤ k % 256 then ((k % 256 : ℕ) : Int) - 256 else ((k % 256 : ℕ) : Int)

/-- The digit taken from an odd number when the width is `r` modulo 8. -/
def wdig (r k : Nat) : Int := if 2 ^ (r - 1) ≤ sres k then sres k - 2 ^ r else sres k

theorem mod2PowK_byte (c : Cfg) (a : Sc) (w : Nat) (h1 : 8 ≤ w) (h2 : w < 32) :
    mod2PowK c a w = .ok (a.val % 256) := by
  unfold mod2PowK
  rw [if_pos (by omega), Res.ok_bind]
  beta_reduce
  rw [Res.pure_eq, Res.ok_inj]
  have e1 : shl64 1 w = 2 ^ w := by
    unfold shl64
    rw [Nat.shiftLeft_eq, Nat.one_mul, Nat.mod_eq_of_lt (Nat.pow_lt_pow_right (by decide) (by omega))]
  rw [e1, Nat.and_two_pow_sub_one_eq_mod, show (256 : ℕ) = 2 ^ 8 from rfl, Nat.mod_mod_of_dvd _ (pow_dvd_pow 2 h1)]
  unfold L5.val
  omega

theorem mods2PowK_wrapped (c : Cfg) (hd : c.debug = false) (a : Sc) (w : Nat) (h1 : 9 ≤ w) (h2 : w < 32)
    (h3 : w % 8 ≠ 0) : mods2PowK c a w = .ok (wdig (w % 8) a.val) := by
  unfold mods2PowK
  rw [mod2PowK_byte c a w (by omega) h2]
  have hm : a.val % 256 < 256 := Nat.mod_lt _ (by positivity)
  unfold wdig sres
  generalize a.val % 256 = m at *
  interval_cases w <;> first | (exfalso; revert h3; decide) | skip
  all_goals simp only [rassert, Res.ok_bind, predU8, shlI8, shlU8, u8AsI8, chkI8, hd]
  all_goals norm_num
  all_goals split_ifs <;> first | omega | (simp; done) | (simp; omega)

theorem mods2PowK_eighth (c : Cfg) (hd : c.debug = false) (a : Sc) (w : Nat) (h2 : w < 32) (h1 : 8 ≤ w)
    (h3 : w % 8 = 0) (ho : a.val % 2 = 1) : mods2PowK c a w = .ok (sres a.val - 1) := by
  unfold mods2PowK
  rw [mod2PowK_byte c a w h1 h2]
  have hm : a.val % 256 < 256 := Nat.mod_lt _ (by positivity)
  have ho : a.val % 256 % 2 = 1 := by omega
  unfold sres
  generalize a.val % 256 = m at *
  interval_cases w <;> first | (exfalso; revert h3; decide) | skip
  all_goals simp only [rassert, Res.ok_bind, predU8, shlI8, shlU8, u8AsI8, chkI8, hd]
  all_goals norm_num
  all_goals split_ifs <;> first | omega | simp

theorem sres_bounds (k : Nat) (ho : k % 2 = 1) :
    -127 ≤ sres k ∧ sres k ≤ 127 ∧ sres k % 2 = 1 ∧ sres k ≤ k ∧ (256 : ℤ) ∣ (k : Int) - sres k := by
  unfold sres
  split_ifs <;> omega

theorem wdig_bounds (r k : Nat) (h1 : 1 ≤ r) (h2 : r ≤ 7) (ho : k % 2 = 1) :
    -127 ≤ wdig r k ∧ wdig r k ≤ 127 ∧ wdig r k % 2 = 1 ∧ wdig r k ≤ k ∧ (2 ^ r : ℤ) ∣ (k : Int) - wdig r k := by
  obtain ⟨b1, b2, b3, b4, b5⟩ := sres_bounds k ho
  unfold wdig
  interval_cases r <;> norm_num <;> split_ifs <;> omega

theorem sub_small (c : Cfg) (k : Sc) (d : Int) (hk : k.SCanon) (h1 : -127 ≤ d) (h2 : d ≤ 127) (h3 : d ≤ k.val) :
    ∃ s r, fromI8 c d = .ok s ∧ sub c k s = .ok r ∧ r.SCanon ∧
      (r.val : Int) = if (k.val : Int) - d < ell then (k.val : Int) - d else (k.val : Int) - d - ell := by
  obtain ⟨s, es, cs, vs⟩ := fromI8_spec c d (by omega) (by omega)
  obtain ⟨r, er, cr, vr⟩ := sub_spec c k s hk cs
  refine ⟨s, r, es, er, cr, ?_⟩
  have hs := cs.2
  have hk2 := hk.2
  have hb := ell_big
  by_cases hn : d < 0
  · have e1 : d % (ell : ℤ) = d + ell := by
      rw [← Int.add_emod_right, Int.emod_eq_of_lt (by omega) (by omega)]
    rw [e1] at vs
    split_ifs with h
    · rw [vr, Nat.mod_eq_of_lt (by omega)]; omega
    · rw [vr, show k.val + ell - s.val = (k.val - s.val) + ell by omega, Nat.add_mod_right, Nat.mod_eq_of_lt (by omega)]
      omega
  · rw [Int.emod_eq_of_lt (by omega) (by omega)] at vs
    rw [if_pos (by omega), vr, show k.val + ell - s.val = (k.val - s.val) + ell by omega, Nat.add_mod_right,
      Nat.mod_eq_of_lt (by omega)]
    omega

/-- Outcome of the loop from position `i` on with at most `n` digits. -/
structure Spread (r n i : Nat) (k : Nat) (res out : Vector Int 256) : Prop where
  low : ∀ j < i, dig out j = dig res j
  high : ∀ j, i + n ≤ j → dig out j = 0
  sum : ∑ j ∈ Finset.range n, dig out (i + j) * 2 ^ j = (k : Int)
  digits : ∀ j, i ≤ j → dig out j = 0 ∨ (dig out j % 2 = 1 ∧ -128 < dig out j ∧ dig out j < 128)
  sparse : ∀ j, i ≤ j → dig out j ≠ 0 → ∀ t, 0 < t → t < r → dig out (j + t) = 0
  zeros : ∀ t, 2 ^ t ∣ k → ∀ j < t, dig out (i + j) = 0

theorem Spread.of_zero (r n i : Nat) (res : Vector Int 256) (h : ∀ j, i ≤ j → dig res j = 0) :
    Spread r n i 0 res res where
  low := fun _ _ => rfl
  high := fun j hj => h j (by omega)
  sum := by
    rw [Finset.sum_eq_zero]; · rfl
    intro j _; rw [h (i + j) (by omega), zero_mul]
  digits := fun j hj => Or.inl (h j hj)
  sparse := fun j hj h0 => absurd (h j hj) h0
  zeros := fun t _ j _ => h _ (by omega)

theorem spread_sum {n i : Nat} {x k : Int} {out : Vector Int 256} (h0 : dig out i = x)
    (hs : ∑ j ∈ Finset.range n, dig out (i + 1 + j) * 2 ^ j = k) :
    ∑ j ∈ Finset.range (n + 1), dig out (i + j) * 2 ^ j = x + 2 * k := by
  rw [Finset.sum_range_succ', Nat.add_zero, h0, pow_zero, mul_one]
  have : ∀ j ∈ Finset.range n, dig out (i + (j + 1)) * 2 ^ (j + 1) = 2 * (dig out (i + 1 + j) * 2 ^ j) := by
    intro j _; rw [show i + (j + 1) = i + 1 + j by omega, pow_succ]; ring
  rw [Finset.sum_congr rfl this, ← Finset.mul_sum, hs]; ring

theorem Spread.even {r n i k : Nat} {res out : Vector Int 256} (hi : i < 256) (hk : k % 2 = 0)
    (h : Spread r n (i + 1) (k / 2) (res.set i 0) out) : Spread r (n + 1) i k res out := by
  have h0 : dig out i = 0 := by rw [h.low i (by omega), dig_set _ _ _ _ hi, if_pos rfl]
  refine ⟨fun j hj => ?_, fun j hj => h.high j (by omega), ?_, fun j hj => ?_, fun j hj hn => ?_, fun t ht j hj => ?_⟩
  · rw [h.low j (by omega), dig_set _ _ _ _ hi, if_neg (by omega)]
  · rw [spread_sum h0 h.sum]; omega
  · rcases Nat.lt_or_ge i j with h' | h'
    · exact h.digits j h'
    · exact Or.inl ((show j = i by omega) ▸ h0)
  · rcases Nat.lt_or_ge i j with h' | h'
    · exact h.sparse j h' hn
    · exact absurd ((show j = i by omega) ▸ h0) hn
  · rcases j with _ | j
    · exact h0
    · obtain ⟨t, rfl⟩ : ∃ s, t = s + 1 := ⟨t - 1, by omega⟩
      rw [show i + (j + 1) = i + 1 + j by omega]
      refine h.zeros t ?_ j (by omega)
      rw [pow_succ'] at ht
      exact (Nat.dvd_div_iff_mul_dvd (Nat.dvd_of_mod_eq_zero hk)).2 ht

theorem Spread.odd {r n i k k' : Nat} {res out : Vector Int 256} (h1 : 1 ≤ r) (h2 : r ≤ 7) (hi : i < 256)
    (hk : k % 2 = 1) (hk' : 2 * (k' : Int) = k - wdig r k)
    (h : Spread r n (i + 1) k' (res.set i (wdig r k)) out) : Spread r (n + 1) i k res out := by
  have h0 : dig out i = wdig r k := by rw [h.low i (by omega), dig_set _ _ _ _ hi, if_pos rfl]
  obtain ⟨b1, b2, b3, b4, hd⟩ := wdig_bounds r k h1 h2 hk
  refine ⟨fun j hj => ?_, fun j hj => h.high j (by omega), ?_, fun j hj => ?_, fun j hj hn t t1 t2 => ?_,
    fun t ht j hj => ?_⟩
  · rw [h.low j (by omega), dig_set _ _ _ _ hi, if_neg (by omega)]
  · rw [spread_sum h0 h.sum]; omega
  · rcases Nat.lt_or_ge i j with h' | h'
    · exact h.digits j h'
    · rw [show j = i by omega, h0]; exact Or.inr ⟨b3, by omega, by omega⟩
  · rcases Nat.lt_or_ge i j with h' | h'
    · exact h.sparse j h' hn t t1 t2
    · rw [show j + t = i + 1 + (t - 1) by omega]
      refine h.zeros (r - 1) ?_ (t - 1) (by omega)
      rw [← hk'] at hd
      have e : (2 : ℤ) ^ r = 2 * 2 ^ (r - 1) := by rw [← pow_succ']; congr 1; omega
      rw [e] at hd
      have := Int.dvd_of_mul_dvd_mul_left (by norm_num) hd
      exact_mod_cast this
  · exfalso
    have h2 : 2 ∣ 2 ^ t := dvd_pow_self 2 (by omega)
    have := h2.trans ht
    omega

theorem Bd_wdig (r n k k' : Nat) (h1 : 2 ≤ r) (h2 : r ≤ 7) (h : Bd (n + 1) k) (ho : k % 2 = 1)
    (hk : 2 * (k' : Int) = k - wdig r k) : Bd n k' := by
  rcases h with h | ⟨_, h⟩
  · omega
  rw [Nat.add_sub_cancel] at h
  obtain ⟨b1, b2, b3, b4, hd⟩ := wdig_bounds r k (by omega) h2 ho
  by_cases hn : 8 ≤ n
  · right
    refine ⟨by omega, ?_⟩
    obtain ⟨q, eq⟩ : ∃ q, 2 ^ (n - 1) = 128 * q := by
      refine ⟨2 ^ (n - 8), ?_⟩
      rw [show n - 1 = 7 + (n - 8) by omega, pow_add]; norm_num
    have en : 2 ^ n = 256 * q := by
      rw [show n = (n - 1) + 1 by omega, pow_succ, eq]; ring
    rw [en] at h
    rw [eq]
    unfold wdig sres at hk
    interval_cases r <;> norm_num at hk <;> split_ifs at hk <;> omega
  · have hn : n ≤ 7 := by omega
    unfold Bd
    unfold wdig sres at hk
    interval_cases n <;> interval_cases r <;> norm_num at hk h ⊢ <;> split_ifs at hk <;> omega

/-- Loop invariant. -/
def Bs (r n k : Nat) : Prop := Bd n k ∧ k < ell ∧ (k % 2 = 1 → (k : Int) - wdig r k < ell)

theorem Bs_half (r n k' : Nat) (h1 : 1 ≤ r) (h2 : r ≤ 7) (hb : Bd n k') (hk : 2 * (k' : Int) < ell) : Bs r n k' := by
  have := ell_big
  refine ⟨hb, by omega, fun ho => ?_⟩
  obtain ⟨b1, b2, _⟩ := wdig_bounds r k' h1 h2 ho
  omega

theorem wrapLoop (c : Cfg) (w : Nat) (hd : c.debug = false) (h1 : 9 ≤ w) (h2 : w < 32) (h3 : 2 ≤ w % 8) :
    ∀ (n fuel : Nat) (k : Sc) (i : Nat) (res : Vector Int 256), n < fuel → k.SCanon → Bs (w % 8) n k.val →
      i + n ≤ 256 → (∀ j, i ≤ j → dig res j = 0) →
      ∃ out, wnafLoop c w fuel k i res = .ok out ∧ Spread (w % 8) n i k.val res out := by
  intro n
  have h4 : w % 8 ≤ 7 := by omega
  induction n with
  | zero =>
    intro fuel k i res hf hk hb hi hz
    obtain ⟨f, rfl⟩ : ∃ f, fuel = f + 1 := ⟨fuel - 1, by omega⟩
    have h0 : k.val = 0 := by
      rcases hb.1 with h | h
      · exact h
      · omega
    refine ⟨res, ?_, by rw [h0]; exact Spread.of_zero _ 0 i res hz⟩
    rw [wnafLoop, ge_spec k one hk.1 one_canon.1, h0]; rfl
  | succ n ih =>
    intro fuel k i res hf hk hb hi hz
    obtain ⟨f, rfl⟩ : ∃ f, fuel = f + 1 := ⟨fuel - 1, by omega⟩
    by_cases h0 : k.val = 0
    · refine ⟨res, ?_, by rw [h0]; exact Spread.of_zero _ _ i res hz⟩
      rw [wnafLoop, ge_spec k one hk.1 one_canon.1, h0]; rfl
    rw [wnafLoop, ge_spec k one hk.1 one_canon.1, one_val, isEven_spec,
      decide_eq_true (show 1 ≤ k.val by omega)]
    by_cases he : k.val % 2 = 0
    · obtain ⟨wh, vh⟩ := halfWithoutMod_spec k hk.1
      have vh : (halfWithoutMod k).val = k.val / 2 := vh
      have h5 := hk.2
      obtain ⟨out, eo, ho⟩ := ih f (halfWithoutMod k) (i + 1) (res.set i 0) (by omega) ⟨wh, by omega⟩
        (by rw [vh]; exact Bs_half _ n _ (by omega) h4 (Bd_even n _ hb.1 he) (by omega)) (by omega)
        (fun j hj => by rw [dig_set _ _ _ _ (by omega), if_neg (by omega)]; exact hz j (by omega))
      refine ⟨out, ?_, ?_⟩
      · simp only [he, decide_true, Bool.not_true, Bool.false_eq_true, if_false, if_true]
        rw [setDigit_ok _ _ _ (by omega), Res.ok_bind, eo]
      · rw [vh] at ho
        exact ho.even (by omega) he
    · have ho : k.val % 2 = 1 := by omega
      obtain ⟨b1, b2, b3, b4, _⟩ := wdig_bounds (w % 8) k.val (by omega) h4 ho
      obtain ⟨s, r, es, er, cr, vr⟩ := sub_small c k _ hk b1 b2 b4
      have hl := hb.2.2 ho
      rw [if_pos hl] at vr
      obtain ⟨wh, vh⟩ := halfWithoutMod_spec r cr.1
      have vh : (halfWithoutMod r).val = r.val / 2 := vh
      have h5 := cr.2
      have hv : 2 * ((halfWithoutMod r).val : Int) = k.val - wdig (w % 8) k.val := by omega
      obtain ⟨out, eo, hs⟩ := ih f (halfWithoutMod r) (i + 1) (res.set i (wdig (w % 8) k.val)) (by omega)
        ⟨wh, by omega⟩ (Bs_half _ n _ (by omega) h4 (Bd_wdig _ n _ _ h3 h4 hb.1 ho hv) (by omega)) (by omega)
        (fun j hj => by rw [dig_set _ _ _ _ (by omega), if_neg (by omega)]; exact hz j (by omega))
      refine ⟨out, ?_, hs.odd (by omega) h4 (by omega) ho hv⟩
      simp only [he, decide_false, Bool.not_false, if_true]
      rw [mods2PowK_wrapped c hd k w h1 h2 (by omega), Res.ok_bind, setDigit_ok _ _ _ (by omega), Res.ok_bind,
        es, Res.ok_bind, er, Res.ok_bind, eo]

/-- The digits denote the scalar, unless the first subtraction wraps; then they denote it less `L + 1`. -/
theorem computeWindowNAF_wrapped (c : Cfg) (hc : c.Enough) (w : Nat) (hd : c.debug = false) (h1 : 9 ≤ w) (h2 : w < 32)
    (h3 : 2 ≤ w % 8) (a : Sc) (ha : a.SCanon) :
    (¬ (a.val % 2 = 1 ∧ (ell : Int) ≤ a.val - wdig (w % 8) a.val) →
      ∃ out, computeWindowNAF c a w = .ok out ∧ Spread (w % 8) 251 0 a.val (Vector.replicate 256 0) out) ∧
    ((a.val % 2 = 1 ∧ (ell : Int) ≤ a.val - wdig (w % 8) a.val) →
      ∃ out, computeWindowNAF c a w = .ok out ∧ (∀ j, 251 ≤ j → dig out j = 0) ∧
        ∑ j ∈ Finset.range 251, dig out (0 + j) * 2 ^ j = (a.val : Int) - ell - 1) := by
  have h4 : w % 8 ≤ 7 := by omega
  have hl := ha.2
  have hel := ell_lt
  have hb := ell_big
  unfold Cfg.Enough at hc
  refine ⟨fun h => ?_, fun ⟨ho, h⟩ => ?_⟩
  · exact wrapLoop c w hd h1 h2 h3 251 c.fuel a 0 _ (by omega) ha
      ⟨Or.inr ⟨by omega, by omega⟩, hl, fun ho => by by_contra hn; exact h ⟨ho, by omega⟩⟩ (by omega)
      (fun j _ => dig_replicate j)
  · obtain ⟨f, hf⟩ : ∃ f, c.fuel = f + 1 := ⟨c.fuel - 1, by omega⟩
    obtain ⟨b1, b2, b3, b4, _⟩ := wdig_bounds (w % 8) a.val (by omega) h4 ho
    obtain ⟨s, r, es, er, cr, vr⟩ := sub_small c a _ ha b1 b2 b4
    rw [if_neg (by omega)] at vr
    obtain ⟨wh, vh⟩ := halfWithoutMod_spec r cr.1
    have vh : (halfWithoutMod r).val = r.val / 2 := vh
    have h5 := cr.2
    have hodd : ell % 2 = 1 := by decide
    obtain ⟨out, eo, hs⟩ := wrapLoop c w hd h1 h2 h3 250 f (halfWithoutMod r) 1
      ((Vector.replicate 256 0).set 0 (wdig (w % 8) a.val)) (by omega) ⟨wh, by omega⟩
      (Bs_half _ _ _ (by omega) h4 (Or.inr ⟨by omega, (show (halfWithoutMod r).val ≤ 128 by omega).trans (by decide)⟩)
        (by omega)) (by omega)
      (fun j hj => by rw [dig_set _ _ _ _ (by omega), if_neg (by omega)]; exact dig_replicate j)
    refine ⟨out, ?_, fun j hj => hs.high j (by omega), ?_⟩
    · unfold computeWindowNAF
      rw [hf, wnafLoop, ge_spec a one ha.1 one_canon.1, one_val, isEven_spec,
        decide_eq_true (show 1 ≤ a.val by omega)]
      simp only [ho, one_ne_zero, decide_false, Bool.not_false, if_true]
      rw [mods2PowK_wrapped c hd a w h1 h2 (by omega), Res.ok_bind, setDigit_ok _ _ _ (by omega), Res.ok_bind,
        es, Res.ok_bind, er, Res.ok_bind, eo]
    · have h0 : dig out 0 = wdig (w % 8) a.val := by
        rw [hs.low 0 (by omega), dig_set _ _ _ _ (by omega), if_pos rfl]
      rw [spread_sum h0 hs.sum]
      omega

theorem wdig_over (r k : Nat) (h1 : 2 ≤ r) (h2 : r ≤ 7) (hk : k < ell) :
    (k % 2 = 1 ∧ (ell : Int) ≤ k - wdig r k) ↔ (r = 7 ∧ k % 2 = 1 ∧ ell - 34 ≤ k) := by
  have e : ell % 256 = 99 := by decide
  have := ell_big
  unfold wdig sres
  generalize ell = l at *
  interval_cases r <;> norm_num <;> split_ifs <;> omega

/-- A width whose digits leave a positive number positive panics. -/
theorem wnaf_positive (c : Cfg) (hc : c.Enough) (w : Nat) (D : Nat → Int)
    (hw : ∀ k : Sc, k.val % 2 = 1 → mods2PowK c k w = .ok (D k.val))
    (hD : ∀ k : Nat, k % 2 = 1 → -127 ≤ D k ∧ D k ≤ 127 ∧ D k + 2 ≤ k)
    (hL : ∀ k : Nat, k % 2 = 1 → k < ell → (k : Int) - D k < ell ∨ (ell : Int) + 2 ≤ k - D k) (a : Sc) (ha : a.SCanon)
    (h0 : a.val ≠ 0) : computeWindowNAF c a w = .panic := by
  have key : ∀ n fuel (k : Sc) (i : Nat) res, i + n = 256 → n < fuel → k.SCanon → 1 ≤ k.val →
      wnafLoop c w fuel k i res = .panic := by
    intro n
    induction n with
    | zero =>
      intro fuel k i res hi hf hk h1
      obtain ⟨f, rfl⟩ : ∃ f, fuel = f + 1 := ⟨fuel - 1, by omega⟩
      rw [wnafLoop, ge_spec k one hk.1 one_canon.1, one_val, decide_eq_true h1]
      have hs : ∀ x, setDigit res i x = .panic := by
        intro x; unfold setDigit; rw [dif_neg (by omega)]
      by_cases he : k.val % 2 = 0
      · simp only [isEven_spec, he, decide_true, Bool.not_true, Bool.false_eq_true, if_false,
          if_true, hs, Res.panic_bind]
      · simp only [isEven_spec, he, decide_false, Bool.not_false, if_true, hs, Res.panic_bind,
          hw k (by omega), Res.ok_bind]
    | succ n ih =>
      intro fuel k i res hi hf hk h1
      obtain ⟨f, rfl⟩ : ∃ f, fuel = f + 1 := ⟨fuel - 1, by omega⟩
      rw [wnafLoop, ge_spec k one hk.1 one_canon.1, one_val, decide_eq_true h1]
      by_cases he : k.val % 2 = 0
      · obtain ⟨wh, vh⟩ := halfWithoutMod_spec k hk.1
        have vh : (halfWithoutMod k).val = k.val / 2 := vh
        simp only [isEven_spec, he, decide_true, Bool.not_true, Bool.false_eq_true, if_false,
          if_true, setDigit_ok _ _ _ (show i < 256 by omega), Res.ok_bind]
        have h5 := hk.2
        exact ih f _ _ _ (by omega) (by omega) ⟨wh, by omega⟩ (by omega)
      · have ho : k.val % 2 = 1 := by omega
        obtain ⟨b1, b2, b3⟩ := hD k.val ho
        obtain ⟨s, r, es, er, cr, vr⟩ := sub_small c k _ hk b1 b2 (by omega)
        have hl := hL k.val ho hk.2
        obtain ⟨wh, vh⟩ := halfWithoutMod_spec r cr.1
        have vh : (halfWithoutMod r).val = r.val / 2 := vh
        simp only [isEven_spec, he, decide_false, Bool.not_false, if_true,
          setDigit_ok _ _ _ (show i < 256 by omega), Res.ok_bind, hw k ho, es, er]
        have h5 := cr.2
        have hr : 2 ≤ r.val := by
          split_ifs at vr with h
          · omega
          · omega
        exact ih f _ _ _ (by omega) (by omega) ⟨wh, by omega⟩ (by omega)
  unfold Cfg.Enough at hc
  exact key 256 c.fuel a 0 _ (by omega) (by omega) ha (by omega)

/-! ### Widths divisible by 8 -/

/-- Bound on what the digits miss. -/
def missBd (n : Nat) : Nat := if n ≤ 8 then 2 ^ (n - 1) else 2 ^ (n + 1) - 257

/-- Outcome of the loop when the width is a multiple of 8: even digits, whose sum misses `e`. -/
structure Misses (n i k e : Nat) (res out : Vector Int 256) : Prop where
  low : ∀ j < i, dig out j = dig res j
  high : ∀ j, i + n ≤ j → dig out j = 0
  sum : ∑ j ∈ Finset.range n, dig out (i + j) * 2 ^ j = (k : Int) - e
  even : ∀ j, i ≤ j → dig out j % 2 = 0
  dvd : ∀ t, 2 ^ t ∣ k → 2 ^ t ∣ e
  form : k ≠ 0 → ∃ t u, e = 2 ^ t * u ∧ u % 256 = 1
  le : e ≤ missBd n

theorem Misses.of_zero (n i : Nat) (res : Vector Int 256) (h : ∀ j, i ≤ j → dig res j = 0) :
    Misses n i 0 0 res res where
  low := fun _ _ => rfl
  high := fun j hj => h j (by omega)
  sum := by
    rw [Finset.sum_eq_zero]; · rfl
    intro j _; rw [h (i + j) (by omega), zero_mul]
  even := fun j hj => by rw [h j hj]; rfl
  dvd := fun t _ => dvd_zero _
  form := fun h => absurd rfl h
  le := Nat.zero_le _

theorem missBd_double (n : Nat) (h : 1 ≤ n) : 2 * missBd n ≤ missBd (n + 1) := by
  unfold missBd
  by_cases h8 : n ≤ 7
  · rw [if_pos (by omega), if_pos (by omega)]; interval_cases n <;> norm_num
  · by_cases h9 : n = 8
    · subst h9; norm_num
    · rw [if_neg (by omega), if_neg (by omega)]
      have : 2 ^ (n + 1 + 1) = 2 * 2 ^ (n + 1) := pow_succ' 2 (n + 1)
      omega

theorem missBd_step (n : Nat) (h : 8 ≤ n) : 257 + 2 * missBd n ≤ missBd (n + 1) := by
  unfold missBd
  by_cases h9 : n = 8
  · subst h9; norm_num
  · rw [if_neg (by omega), if_neg (by omega)]
    have : 2 ^ (n + 1 + 1) = 2 * 2 ^ (n + 1) := pow_succ' 2 (n + 1)
    have : 2 ^ 10 ≤ 2 ^ (n + 1) := Nat.pow_le_pow_right (by decide) (by omega)
    omega

/-- What is left after an odd number. -/
def enext (k : Nat) : Nat := if k % 256 = 129 then (k - 129) / 2 else (((k : Int) - sres k) / 2).toNat

theorem enext_facts (k : Nat) (ho : k % 2 = 1) : 128 ∣ enext k ∧ (k ≤ 128 → enext k = 0) ∧
    ((k % 256 = 129 ∧ k = 129 + 2 * enext k) ∨ (k % 256 ≠ 129 ∧ (k : Int) = sres k + 2 * enext k)) := by
  unfold enext sres
  split_ifs <;> omega

theorem Bd_enext (n k : Nat) (h : Bd (n + 1) k) (ho : k % 2 = 1) : Bd n (enext k) := by
  obtain ⟨⟨q, hq⟩, h0, h1⟩ := enext_facts k ho
  rcases h with h | ⟨_, h⟩
  · omega
  rw [Nat.add_sub_cancel] at h
  by_cases hn : 8 ≤ n
  · right
    refine ⟨by omega, ?_⟩
    obtain ⟨p, ep⟩ : ∃ p, 2 ^ (n - 1) = 128 * p := by
      refine ⟨2 ^ (n - 8), ?_⟩
      rw [show n - 1 = 7 + (n - 8) by omega, pow_add]; norm_num
    have en : 2 ^ n = 256 * p := by
      rw [show n = (n - 1) + 1 by omega, pow_succ, ep]; ring
    rw [en] at h
    rw [ep]
    unfold sres at h1
    rcases h1 with h1 | h1
    · omega
    · have := h1.2
      split_ifs at this <;> omega
  · left
    refine h0 (h.trans ?_)
    have hn : n ≤ 7 := by omega
    calc 2 ^ n ≤ 2 ^ 7 := Nat.pow_le_pow_right (by decide) hn
      _ = 128 := by norm_num

theorem fromI8_minus_128 (c : Cfg) (hd : c.debug = false) : ∃ r, fromI8 c (-128) = .ok r ∧ r.SCanon ∧ r.val = 128 := by
  obtain ⟨d, f⟩ := c
  subst hd
  have h : ∀ x : Sc, neg ⟨false, f⟩ x = neg ⟨false, 0⟩ x := fun x => rfl
  have h2 : fromI8 ⟨false, f⟩ (-128) = neg ⟨false, 0⟩ ⟨18446744073709551488, 0, 0, 0, 0⟩ := by
    rw [← h]; simp [fromI8, chkI8]
  have h3 : neg ⟨false, 0⟩ ⟨18446744073709551488, 0, 0, 0, 0⟩ = .ok ⟨128, 0, 0, 0, 0⟩ := by decide +kernel
  exact ⟨_, h2.trans h3, by decide, by decide⟩

theorem eighth_step (c : Cfg) (hd : c.debug = false) (k : Sc) (hk : k.SCanon) (ho : k.val % 2 = 1) :
    ∃ s r, fromI8 c (sres k.val - 1) = .ok s ∧ sub c k s = .ok r ∧ r.SCanon ∧ r.val / 2 = enext k.val := by
  have hl := hk.2
  have hb := ell_big
  have e : ell % 256 = 99 := by decide
  obtain ⟨_, _, h1⟩ := enext_facts k.val ho
  by_cases h : k.val % 256 = 129
  · obtain ⟨s, es, cs, vs⟩ := fromI8_minus_128 c hd
    obtain ⟨r, er, cr, vr⟩ := sub_spec c k s hk cs
    have : sres k.val - 1 = -128 := by unfold sres; rw [if_pos (by omega), h]; norm_num
    refine ⟨s, r, by rw [this]; exact es, er, cr, ?_⟩
    rw [vr, vs, show k.val + ell - 128 = (k.val - 128) + ell by omega, Nat.add_mod_right, Nat.mod_eq_of_lt (by omega)]
    omega
  · have hlt : (k.val : Int) - (sres k.val - 1) < ell := by
      unfold sres
      generalize ell = l at *
      split_ifs <;> omega
    have hs : -127 ≤ sres k.val - 1 := by unfold sres; split_ifs <;> omega
    obtain ⟨b1, b2, b3, b4, _⟩ := sres_bounds k.val ho
    obtain ⟨s, r, es, er, cr, vr⟩ := sub_small c k _ hk hs (by omega) (by omega)
    rw [if_pos hlt] at vr
    exact ⟨s, r, es, er, cr, by omega⟩

theorem eighthLoop (c : Cfg) (w : Nat) (hd : c.debug = false) (h1 : 8 ≤ w) (h2 : w < 32) (h3 : w % 8 = 0) :
    ∀ (n fuel : Nat) (k : Sc) (i : Nat) (res : Vector Int 256), n < fuel → k.SCanon → Bd n k.val →
      i + n ≤ 256 → (∀ j, i ≤ j → dig res j = 0) →
      ∃ out e, wnafLoop c w fuel k i res = .ok out ∧ Misses n i k.val e res out := by
  intro n
  induction n with
  | zero =>
    intro fuel k i res hf hk hb hi hz
    obtain ⟨f, rfl⟩ : ∃ f, fuel = f + 1 := ⟨fuel - 1, by omega⟩
    have h0 : k.val = 0 := by
      rcases hb with h | h
      · exact h
      · omega
    refine ⟨res, 0, ?_, by rw [h0]; exact Misses.of_zero 0 i res hz⟩
    rw [wnafLoop, ge_spec k one hk.1 one_canon.1, h0]; rfl
  | succ n ih =>
    intro fuel k i res hf hk hb hi hz
    obtain ⟨f, rfl⟩ : ∃ f, fuel = f + 1 := ⟨fuel - 1, by omega⟩
    have hi' : i < 256 := by omega
    by_cases h0 : k.val = 0
    · refine ⟨res, 0, ?_, by rw [h0]; exact Misses.of_zero _ i res hz⟩
      rw [wnafLoop, ge_spec k one hk.1 one_canon.1, h0]; rfl
    rw [wnafLoop, ge_spec k one hk.1 one_canon.1, one_val, isEven_spec,
      decide_eq_true (show 1 ≤ k.val by omega)]
    by_cases he : k.val % 2 = 0
    · obtain ⟨wh, vh⟩ := halfWithoutMod_spec k hk.1
      have vh : (halfWithoutMod k).val = k.val / 2 := vh
      have h5 := hk.2
      have hb' := Bd_even n _ hb he
      obtain ⟨out, e, eo, ho⟩ := ih f (halfWithoutMod k) (i + 1) (res.set i 0) (by omega) ⟨wh, by omega⟩
        (by rw [vh]; exact hb') (by omega)
        (fun j hj => by rw [dig_set _ _ _ _ (by omega), if_neg (by omega)]; exact hz j (by omega))
      rw [vh] at ho
      have hi0 : dig out i = 0 := by rw [ho.low i (by omega), dig_set _ _ _ _ hi', if_pos rfl]
      refine ⟨out, 2 * e, ?_, ⟨fun j hj => ?_, fun j hj => ho.high j (by omega), ?_, fun j hj => ?_, fun t ht => ?_,
        fun _ => ?_, ?_⟩⟩
      · simp only [he, decide_true, Bool.not_true, Bool.false_eq_true, if_false, if_true]
        rw [setDigit_ok _ _ _ (by omega), Res.ok_bind, eo]
      · rw [ho.low j (by omega), dig_set _ _ _ _ hi', if_neg (by omega)]
      · rw [spread_sum hi0 ho.sum]; push_cast; omega
      · rcases Nat.lt_or_ge i j with h' | h'
        · exact ho.even j h'
        · rw [show j = i by omega, hi0]; rfl
      · rcases t with _ | t
        · simp
        · rw [pow_succ'] at ht ⊢
          exact Nat.mul_dvd_mul_left 2 (ho.dvd t ((Nat.dvd_div_iff_mul_dvd (Nat.dvd_of_mod_eq_zero he)).2 ht))
      · obtain ⟨t, u, e1, e2⟩ := ho.form (by omega)
        exact ⟨t + 1, u, by rw [e1, pow_succ]; ring, e2⟩
      · rcases hb' with h | h
        · omega
        · have := missBd_double n h.1
          have := ho.le
          omega
    · have hodd : k.val % 2 = 1 := by omega
      obtain ⟨b1, b2, b3, b4, _⟩ := sres_bounds k.val hodd
      obtain ⟨s, r, es, er, cr, vr⟩ := eighth_step c hd k hk hodd
      obtain ⟨hdv, hsm, hca⟩ := enext_facts k.val hodd
      obtain ⟨wh, vh⟩ := halfWithoutMod_spec r cr.1
      have vh : (halfWithoutMod r).val = enext k.val := by rw [← vr]; exact vh
      have h5 := cr.2
      obtain ⟨out, e, eo, ho⟩ := ih f (halfWithoutMod r) (i + 1) (res.set i (sres k.val - 1)) (by omega)
        ⟨wh, by omega⟩ (by rw [vh]; exact Bd_enext n _ hb hodd) (by omega)
        (fun j hj => by rw [dig_set _ _ _ _ (by omega), if_neg (by omega)]; exact hz j (by omega))
      rw [vh] at ho
      have hi0 : dig out i = sres k.val - 1 := by rw [ho.low i (by omega), dig_set _ _ _ _ hi', if_pos rfl]
      have h128 : 128 ∣ e := by
        have := ho.dvd 7 (by simpa using hdv)
        simpa using this
      refine ⟨out, (if k.val % 256 = 129 then 257 else 1) + 2 * e, ?_, ⟨fun j hj => ?_, fun j hj => ho.high j (by omega),
        ?_, fun j hj => ?_, fun t ht => ?_, fun _ => ?_, ?_⟩⟩
      · simp only [he, decide_false, Bool.not_false, if_true]
        rw [mods2PowK_eighth c hd k w h2 h1 h3 hodd, Res.ok_bind, setDigit_ok _ _ _ (by omega), Res.ok_bind,
          es, Res.ok_bind, er, Res.ok_bind, eo]
      · rw [ho.low j (by omega), dig_set _ _ _ _ hi', if_neg (by omega)]
      · rw [spread_sum hi0 ho.sum]
        rcases hca with ⟨h, h'⟩ | ⟨h, h'⟩
        · have : sres k.val = -127 := by unfold sres; rw [if_pos (by omega), h]; norm_num
          rw [if_pos h, this]; push_cast; omega
        · rw [if_neg h]; push_cast; omega
      · rcases Nat.lt_or_ge i j with h' | h'
        · exact ho.even j h'
        · rw [show j = i by omega, hi0]; omega
      · rcases t with _ | t
        · simp
        · exfalso
          have h2 : 2 ∣ 2 ^ (t + 1) := dvd_pow_self 2 (by omega)
          have := h2.trans ht
          omega
      · exact ⟨0, _, (one_mul _).symm, by split_ifs <;> omega⟩
      · by_cases h8 : 8 ≤ n
        · have := missBd_step n h8
          have := ho.le
          split_ifs <;> omega
        · have hk8 : k.val ≤ 128 := by
            rcases hb with h | h
            · omega
            · rw [Nat.add_sub_cancel] at h
              have : 2 ^ n ≤ 2 ^ 7 := Nat.pow_le_pow_right (by decide) (by omega)
              omega
          rw [if_neg (by omega)]
          have e0 : e = 0 := by
            have h := ho.dvd (e + 1) (by rw [hsm hk8]; exact dvd_zero _)
            by_contra hne
            have := Nat.le_of_dvd (by omega) h
            have := Nat.lt_two_pow_self (n := e + 1)
            omega
          subst e0
          unfold missBd
          rw [if_pos (by omega)]
          have : 1 ≤ 2 ^ (n + 1 - 1) := Nat.one_le_two_pow
          omega

theorem not_multiple (e t u m : Nat) (h1 : e = 2 ^ t * u) (h2 : u % 256 = 1) (hm : e = ell * m) (hle : m ≤ 8) : False := by
  have e99 : ell % 256 = 99 := by decide
  generalize ell = l at *
  subst h1
  rcases Nat.lt_or_ge t 4 with ht | ht
  · interval_cases t <;> interval_cases m <;> omega
  · obtain ⟨q, hq⟩ : 2 ^ 4 ∣ 2 ^ t := pow_dvd_pow 2 ht
    have hpos : 0 < 2 ^ t := by positivity
    have hu : 0 < u := by omega
    have : 0 < 2 ^ t * u := Nat.mul_pos hpos hu
    rw [hq, Nat.mul_assoc] at hm this
    generalize q * u = z at *
    interval_cases m <;> omega

/-- Widths divisible by 8: the digits never denote the scalar, not even modulo `L`. -/
theorem computeWindowNAF_eighth (c : Cfg) (hc : c.Enough) (w : Nat) (hd : c.debug = false) (h1 : 8 ≤ w) (h2 : w < 32)
    (h3 : w % 8 = 0) (a : Sc) (ha : a.SCanon) (h0 : a.val ≠ 0) :
    ∃ out, computeWindowNAF c a w = .ok out ∧ (∀ j, 251 ≤ j → dig out j = 0) ∧ (∀ j, dig out j % 2 = 0) ∧
      ¬ (ell : Int) ∣ ∑ j ∈ Finset.range 251, dig out (0 + j) * 2 ^ j - a.val := by
  have hl := ha.2
  have hel := ell_lt
  unfold Cfg.Enough at hc
  obtain ⟨out, e, eo, h⟩ := eighthLoop c w hd h1 h2 h3 251 c.fuel a 0 (Vector.replicate 256 0) (by omega) ha
    (Or.inr ⟨by omega, by omega⟩) (by omega) (fun j _ => dig_replicate j)
  refine ⟨out, eo, fun j hj => h.high j (by omega), fun j => h.even j (by omega), fun hdv => ?_⟩
  rw [h.sum, show (a.val : Int) - e - a.val = -(e : Int) by ring, dvd_neg] at hdv
  obtain ⟨m, hm⟩ : ell ∣ e := by exact_mod_cast hdv
  obtain ⟨t, u, e1, e2⟩ := h.form h0
  have hle := h.le
  have hB : missBd 251 < ell * 9 := by decide
  refine not_multiple e t u m e1 e2 hm ?_
  have : ell * m < ell * 9 := by omega
  have := Nat.lt_of_mul_lt_mul_left this
  omega

end Scalar
end Zerocaf
