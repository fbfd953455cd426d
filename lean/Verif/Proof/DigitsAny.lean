import Verif.Spec.LostDigits
import Verif.Proof.ScalarUnreduced
import Verif.Proof.LeakDigits

/-!
# Signed digits of every scalar with 52-bit limbs
-/

set_option exponentiation.threshold 600

namespace Zerocaf
namespace Scalar

open Leak (digitOf_even digitOf_odd)

theorem digitOf_zero (w : ℕ) : digitOf w 0 = 0 := by unfold digitOf; rw [if_neg (by decide)]

theorem not_lost_zero (w : ℕ) : ¬ Lost w 0 := by unfold Lost; rw [digitOf_zero]; exact fun h => absurd h.1 (by decide)

theorem cutRest_zero (w : ℕ) : ∀ j, cutRest w 0 j = 0
  | 0 => rfl
  | j + 1 => by
    rw [cutRest, digitOf_zero, if_neg (not_lost_zero w), show ((0 : ℤ) - 0 - 0) / 2 = 0 by decide]
    exact cutRest_zero w j

/-- What one digit leaves. -/
def cutNext (w : ℕ) (v : ℤ) : ℤ := (v - digitOf w v - if Lost w v then (ell : ℤ) + 1 else 0) / 2

theorem cutRest_succ (w : ℕ) (v : ℤ) (j : ℕ) : cutRest w v (j + 1) = cutRest w (cutNext w v) j := Eq.refl _

theorem cutRest_succ' (w : ℕ) : ∀ (j : ℕ) (v : ℤ), cutRest w v (j + 1) = cutNext w (cutRest w v j) := by
  intro j
  induction j with
  | zero => intro v; exact Eq.refl _
  | succ j ih => intro v; rw [cutRest_succ, ih, ← cutRest_succ]

/-- One round of the loop. -/
theorem round (c : Cfg) (w : ℕ) (h1 : 2 ≤ w) (h2 : w ≤ 6) (k : Sc) (hk : k.WF) (ho : k.val % 2 = 1) :
    ∃ s r, mods2PowK c k w = .ok (digitOf w k.val) ∧ fromI8 c (digitOf w k.val) = .ok s ∧ sub c k s = .ok r ∧
      (halfWithoutMod r).WF ∧ ((halfWithoutMod r).val : ℤ) = cutNext w k.val := by
  have hd := digitOf_odd w (by omega) k.val ho
  have hm := mods2PowK_spec c k w h1 h2
  obtain ⟨b1, b2⟩ := smod_ge k.val w (by omega) (by omega)
  have hso := smod_odd k.val w (by omega) ho
  have hle := smod_le k.val w
  rw [← hd] at hm b1 b2 hso hle
  obtain ⟨s, es, cs, vs⟩ := fromI8_spec c (digitOf w k.val) (by omega) (by omega)
  have hl := ell_big
  have hodd := ell_odd
  obtain ⟨r, er, wr, vr⟩ := sub_cases c k s hk cs.1
  obtain ⟨wh, vh⟩ := halfWithoutMod_spec r wr
  refine ⟨s, r, hm, es, er, wh, ?_⟩
  show ((Field.halfWithoutMod r).val : ℤ) = _
  rw [vh]
  unfold cutNext
  by_cases hn : digitOf w k.val < 0
  · rw [← Int.add_emod_right, Int.emod_eq_of_lt (by omega) (by omega)] at vs
    by_cases hc : (ell : ℤ) ≤ k.val - digitOf w k.val
    · rw [if_pos (by omega)] at vr
      rw [if_pos (show Lost w k.val from ⟨hn, hc⟩)]
      omega
    · rw [if_neg (by omega), if_pos (by omega)] at vr
      rw [if_neg (show ¬ Lost w k.val from fun h => hc h.2)]
      omega
  · rw [Int.emod_eq_of_lt (by omega) (by omega)] at vs
    rw [if_pos (by omega)] at vr
    rw [if_neg (show ¬ Lost w k.val from fun h => hn h.1)]
    omega

theorem cutNext_even (w : ℕ) (k : ℕ) (he : k % 2 = 0) : cutNext w k = ((k / 2 : ℕ) : ℤ) := by
  have hd := digitOf_even w k he
  have hl : ¬ Lost w k := fun h => by have := h.1; omega
  unfold cutNext
  rw [hd, if_neg hl]
  omega

theorem setDigit_panic (v : Vector Int 256) (x : Int) : setDigit v 256 x = .panic := by
  unfold setDigit; rw [dif_neg (by decide)]

theorem wnafLoop_any (c : Cfg) (w : ℕ) (h1 : 2 ≤ w) (h2 : w ≤ 6) : ∀ (n fuel : ℕ) (k : Sc) (i : ℕ)
    (res : Vector Int 256), n < fuel → k.WF → i + n = 256 → (∀ j, i ≤ j → dig res j = 0) →
    (cutRest w k.val n = 0 → ∃ out, wnafLoop c w fuel k i res = .ok out ∧
      ∀ j, j < 256 → dig out j = if j < i then dig res j else digitOf w (cutRest w k.val (j - i))) ∧
    (cutRest w k.val n ≠ 0 → wnafLoop c w fuel k i res = .panic) := by
  intro n
  induction n with
  | zero =>
    intro fuel k i res hf hk hi hz
    obtain ⟨f, rfl⟩ : ∃ f, fuel = f + 1 := ⟨fuel - 1, by omega⟩
    have hi' : i = 256 := by omega
    subst hi'
    show ((k.val : ℤ) = 0 → _) ∧ ((k.val : ℤ) ≠ 0 → _)
    rw [wnafLoop, ge_spec k one hk one_canon.1, one_val, isEven_spec]
    refine ⟨fun h0 => ⟨res, ?_, fun j hj => by rw [if_pos hj]⟩, fun h0 => ?_⟩
    · rw [decide_eq_false (by omega)]; rfl
    · rw [decide_eq_true (by omega)]
      by_cases he : k.val % 2 = 0
      · simp only [he, decide_true, Bool.not_true, Bool.false_eq_true, if_false, if_true]
        rw [setDigit_panic, Res.panic_bind]
      · obtain ⟨s, r, em, _⟩ := round c w h1 h2 k hk (by omega)
        simp only [he, decide_false, Bool.not_false, if_true]
        rw [em, Res.ok_bind, setDigit_panic, Res.panic_bind]
  | succ n ih =>
    intro fuel k i res hf hk hi hz
    obtain ⟨f, rfl⟩ : ∃ f, fuel = f + 1 := ⟨fuel - 1, by omega⟩
    have hlt : i < 256 := by omega
    rw [wnafLoop, ge_spec k one hk one_canon.1, one_val, isEven_spec]
    by_cases h0 : k.val = 0
    · rw [h0, Nat.cast_zero, decide_eq_false (by omega)]
      refine ⟨fun _ => ⟨res, rfl, fun j hj => ?_⟩, fun h => absurd (cutRest_zero w _) h⟩
      split_ifs with hji
      · rfl
      · rw [cutRest_zero, digitOf_zero]; exact hz j (by omega)
    rw [decide_eq_true (show 1 ≤ k.val by omega)]
    have step : ∀ (k' : Sc) (d : ℤ), k'.WF → (k'.val : ℤ) = cutNext w k.val → d = digitOf w k.val →
        (cutRest w k.val (n + 1) = 0 → ∃ out, wnafLoop c w f k' (i + 1) (res.set i d) = .ok out ∧
          ∀ j, j < 256 → dig out j = if j < i then dig res j else digitOf w (cutRest w k.val (j - i))) ∧
        (cutRest w k.val (n + 1) ≠ 0 → wnafLoop c w f k' (i + 1) (res.set i d) = .panic) := by
      intro k' d wk vk hd
      obtain ⟨a1, a2⟩ := ih f k' (i + 1) (res.set i d) (by omega) wk (by omega)
        (fun j hj => by rw [dig_set _ _ _ _ hlt, if_neg (by omega)]; exact hz j (by omega))
      rw [cutRest_succ, ← vk]
      refine ⟨fun h => ?_, a2⟩
      obtain ⟨out, eo, ho⟩ := a1 h
      refine ⟨out, eo, fun j hj => ?_⟩
      rw [ho j hj, dig_set _ _ _ _ hlt]
      rcases Nat.lt_trichotomy j i with hji | hji | hji
      · rw [if_pos (by omega), if_neg (by omega), if_pos hji]
      · subst hji
        rw [if_pos (by omega), if_pos rfl, if_neg (by omega), Nat.sub_self]
        exact hd
      · rw [if_neg (by omega), if_neg (by omega), show j - i = (j - (i + 1)) + 1 by omega, cutRest_succ, ← vk]
    by_cases he : k.val % 2 = 0
    · simp only [he, decide_true, Bool.not_true, Bool.false_eq_true, if_false, if_true]
      rw [setDigit_ok _ _ _ hlt, Res.ok_bind]
      obtain ⟨wh, vh⟩ := halfWithoutMod_spec k hk
      exact step (halfWithoutMod k) 0 wh (by rw [cutNext_even w _ he]; exact congrArg _ vh)
        (digitOf_even w _ he).symm
    · obtain ⟨s, r, em, es, er, wh, vh⟩ := round c w h1 h2 k hk (by omega)
      simp only [he, decide_false, Bool.not_false, if_true]
      rw [em, Res.ok_bind, setDigit_ok _ _ _ hlt, Res.ok_bind, es, Res.ok_bind, er, Res.ok_bind]
      exact step (halfWithoutMod r) _ wh vh rfl

/-- The expansion of any scalar. -/
theorem computeWindowNAF_any (c : Cfg) (hc : c.Enough) (w : ℕ) (h1 : 2 ≤ w) (h2 : w ≤ 6) (a : Sc) (ha : a.WF) :
    computeWindowNAF c a w = if cutRest w a.val 256 = 0 then
      .ok (Vector.ofFn fun j : Fin 256 => digitOf w (cutRest w a.val j.val)) else .panic := by
  unfold Cfg.Enough at hc
  obtain ⟨a1, a2⟩ := wnafLoop_any c w h1 h2 256 c.fuel a 0 (Vector.replicate 256 0) (by omega) ha (by omega)
    (fun j _ => dig_replicate j)
  unfold computeWindowNAF
  split_ifs with h
  · obtain ⟨out, eo, ho⟩ := a1 h
    rw [eo, Res.ok_inj]
    refine Vector.ext fun j hj => ?_
    have := ho j hj
    rw [if_neg (by omega), Nat.sub_zero] at this
    rw [Vector.getElem_ofFn, ← this]
    unfold dig
    rw [dif_pos hj]
  · exact a2 h

theorem computeNAF_any (c : Cfg) (a : Sc) : computeNAF c a = computeWindowNAF c a 2 := by
  unfold computeNAF computeWindowNAF
  rw [nafLoop_eq]

/-! ### The number the digits denote -/

theorem digitOf_parity (w : ℕ) (h1 : 1 ≤ w) (v : ℤ) : digitOf w v % 2 = v % 2 := by
  unfold digitOf
  by_cases hv : v % 2 = 1
  · rw [if_pos hv]
    have h : (2 : ℤ) ∣ ((2 ^ w : ℕ) : ℤ) := by
      rw [Nat.cast_pow]; exact dvd_pow_self _ (by omega)
    have h' : ((2 ^ w : ℕ) : ℤ) ∣ Int.bmod v (2 ^ w) - v := Int.dvd_bmod_sub_self
    have := h.trans h'
    omega
  · rw [if_neg hv]; omega

theorem digitOf_abs (w : ℕ) (h2 : w ≤ 6) (v : ℤ) : -32 ≤ digitOf w v ∧ digitOf w v ≤ 32 := by
  unfold digitOf
  have hw : (0 : ℕ) < 2 ^ w := by positivity
  have hp : ((2 ^ w : ℕ) : ℤ) ≤ 64 := by
    have : 2 ^ w ≤ 2 ^ 6 := Nat.pow_le_pow_right (by decide) h2
    omega
  split_ifs
  · have a1 := Int.le_bmod (x := v) hw
    have a2 := Int.bmod_lt (x := v) hw
    omega
  · omega

/-- Halving is exact. -/
theorem two_cutNext (w : ℕ) (h1 : 1 ≤ w) (v : ℤ) :
    2 * cutNext w v = v - digitOf w v - if Lost w v then (ell : ℤ) + 1 else 0 := by
  have hp := digitOf_parity w h1 v
  have ho := ell_odd
  unfold cutNext
  split_ifs <;> omega

theorem cut_identity (w : ℕ) (h1 : 1 ≤ w) (v : ℤ) : ∀ n : ℕ,
    v = ∑ j ∈ Finset.range n, digitOf w (cutRest w v j) * 2 ^ j + ((ell : ℤ) + 1) * lostSum w v n +
      2 ^ n * cutRest w v n := by
  intro n
  induction n with
  | zero =>
    unfold lostSum
    rw [Finset.range_zero, Finset.sum_empty, Finset.sum_empty, mul_zero, pow_zero, one_mul, zero_add, zero_add]
    exact Eq.refl _
  | succ n ih =>
    have h2 := two_cutNext w h1 (cutRest w v n)
    unfold lostSum at ih ⊢
    rw [Finset.sum_range_succ, Finset.sum_range_succ, cutRest_succ', pow_succ]
    have e : (2 : ℤ) ^ n * 2 * cutNext w (cutRest w v n) = 2 ^ n * (cutRest w v n - digitOf w (cutRest w v n) -
        if Lost w (cutRest w v n) then (ell : ℤ) + 1 else 0) := by rw [← h2]; ring
    rw [e]
    conv_lhs => rw [ih]
    split_ifs <;> ring

theorem cut_bound (w : ℕ) (h1 : 1 ≤ w) (h2 : w ≤ 6) (v : ℤ) : ∀ n : ℕ, 2 ^ n * (cutRest w v n - 32) ≤ v - 32 := by
  intro n
  induction n with
  | zero => rw [pow_zero, one_mul]; exact le_refl _
  | succ n ih =>
    obtain ⟨b1, b2⟩ := digitOf_abs w h2 (cutRest w v n)
    have e := two_cutNext w h1 (cutRest w v n)
    have hl := ell_big
    have h3 : 2 * (cutNext w (cutRest w v n) - 32) ≤ cutRest w v n - 32 := by
      split_ifs at e <;> omega
    rw [cutRest_succ', pow_succ, mul_assoc]
    exact le_trans (mul_le_mul_of_nonneg_left h3 (by positivity)) ih

theorem ell_big11 : 2 ^ 260 < 2 ^ 11 * (ell - 64) := by decide

/-- Only the first eleven digits can lose anything. -/
theorem lost_lt (w : ℕ) (h1 : 1 ≤ w) (h2 : w ≤ 6) (v : ℤ) (hv : v < 2 ^ 260) (n : ℕ) (h : Lost w (cutRest w v n)) :
    n < 11 := by
  by_contra hn
  have hb := cut_bound w h1 h2 v n
  obtain ⟨b1, b2⟩ := digitOf_abs w h2 (cutRest w v n)
  have hl := ell_big
  have h3 : ((ell - 64 : ℕ) : ℤ) ≤ cutRest w v n - 32 := by have := h.2; omega
  have h4 : (2 : ℤ) ^ 11 * ((ell - 64 : ℕ) : ℤ) ≤ 2 ^ n * (cutRest w v n - 32) :=
    mul_le_mul (pow_le_pow_right₀ (by norm_num) (by omega)) h3 (by positivity) (by positivity)
  have h5 := ell_big11
  have h6 : ((2 ^ 11 * (ell - 64) : ℕ) : ℤ) = 2 ^ 11 * ((ell - 64 : ℕ) : ℤ) := by push_cast; rfl
  have h7 : ((2 ^ 260 : ℕ) : ℤ) = 2 ^ 260 := by push_cast
  omega

theorem lostSum_eq (w : ℕ) (h1 : 1 ≤ w) (h2 : w ≤ 6) (v : ℤ) (hv : v < 2 ^ 260) (n : ℕ) (hn : 11 ≤ n) :
    lostSum w v n = lostSum w v 11 := by
  unfold lostSum
  refine (Finset.sum_subset (Finset.range_mono hn) fun j _ hj => ?_).symm
  rw [if_neg]
  intro h
  exact hj (Finset.mem_range.2 (lost_lt w h1 h2 v hv j h))

theorem lostSum_range (w : ℕ) (v : ℤ) : 0 ≤ lostSum w v 11 ∧ lostSum w v 11 < 2 ^ 11 := by
  unfold lostSum
  constructor
  · exact Finset.sum_nonneg fun j _ => by split_ifs <;> positivity
  · have : ∑ j ∈ Finset.range 11, (if Lost w (cutRest w v j) then (2 : ℤ) ^ j else 0) ≤ ∑ j ∈ Finset.range 11, (2 : ℤ) ^ j :=
      Finset.sum_le_sum fun j _ => by
        split_ifs
        · exact le_refl _
        · positivity
    refine lt_of_le_of_lt this ?_
    decide

theorem lostSum_zero (w : ℕ) (v : ℤ) (n : ℕ) : lostSum w v n = 0 ↔ ∀ j < n, ¬ Lost w (cutRest w v j) := by
  unfold lostSum
  rw [Finset.sum_eq_zero_iff_of_nonneg fun j _ => by split_ifs <;> positivity]
  constructor
  · intro h j hj hl
    have := h j (Finset.mem_range.2 hj)
    rw [if_pos hl] at this
    exact absurd this (by positivity)
  · intro h j hj
    rw [if_neg (h j (Finset.mem_range.1 hj))]

/-- What is left is never negative. -/
theorem cutNext_nonneg (w : ℕ) (h1 : 1 ≤ w) (v : ℕ) : 0 ≤ cutNext w v := by
  have e := two_cutNext w h1 v
  have hd : digitOf w v ≤ v := by
    by_cases hv : v % 2 = 0
    · rw [digitOf_even w v hv]; omega
    · rw [digitOf_odd w h1 v (by omega)]; exact smod_le v w
  have ho := ell_odd
  have hp := digitOf_parity w h1 v
  by_cases hl : Lost w v
  · rw [if_pos hl] at e
    have := hl.2
    omega
  · rw [if_neg hl] at e
    omega

theorem cutRest_nonneg (w : ℕ) (h1 : 1 ≤ w) (v : ℕ) : ∀ n, 0 ≤ cutRest w v n := by
  intro n
  induction n with
  | zero => exact Int.natCast_nonneg v
  | succ n ih =>
    rw [cutRest_succ']
    obtain ⟨m, hm⟩ := Int.eq_ofNat_of_zero_le ih
    rw [hm]
    exact cutNext_nonneg w h1 m

/-- A bound on the number of digits. Losing only makes numbers smaller. -/
theorem cut_small (w : ℕ) (h1 : 2 ≤ w) (h2 : w ≤ 6) : ∀ (n v : ℕ), Bd n v → cutRest w v n = 0 := by
  intro n
  induction n with
  | zero =>
    intro v h
    rcases h with h | ⟨h, _⟩
    · subst h; exact cutRest_zero w 0
    · omega
  | succ n ih =>
    intro v h
    rw [cutRest_succ]
    obtain ⟨m, hm⟩ := Int.eq_ofNat_of_zero_le (cutNext_nonneg w (by omega) v)
    rw [hm]
    refine ih m ?_
    by_cases hv : v % 2 = 0
    · rw [cutNext_even w v hv] at hm
      have := Bd_even n v h hv
      rwa [show v / 2 = m by exact_mod_cast hm] at this
    · have hd := digitOf_odd w (by omega) v (by omega)
      have e := two_cutNext w (by omega) v
      rw [hm, hd] at e
      by_cases hl : Lost w v
      · rw [if_pos hl] at e
        have ho := smod_odd v w (by omega) (by omega)
        have hel := ell_odd
        have hc := hl.2
        rw [hd] at hc
        obtain ⟨k', hk'⟩ : ∃ k' : ℕ, 2 * (k' : ℤ) = v - smod v w :=
          ⟨((v - smod v w) / 2).toNat, by omega⟩
        have hb := Bd_odd w h1 n v k' h (by omega) hk'
        have hle : m ≤ k' := by omega
        rcases hb with hb | ⟨hb1, hb2⟩
        · left; omega
        · exact Or.inr ⟨hb1, le_trans hle hb2⟩
      · rw [if_neg hl] at e
        exact Bd_odd w h1 n v m h (by omega) (by omega)

/-- The sharper bound for width 2. -/
theorem cut_small2 : ∀ (n v : ℕ), 3 * v < 2 ^ (n + 1) → cutRest 2 v n = 0 := by
  intro n
  induction n with
  | zero =>
    intro v h
    have : v = 0 := by omega
    subst this; exact cutRest_zero 2 0
  | succ n ih =>
    intro v h
    rw [cutRest_succ]
    obtain ⟨m, hm⟩ := Int.eq_ofNat_of_zero_le (cutNext_nonneg 2 (by omega) v)
    rw [hm]
    refine ih m ?_
    by_cases hv : v % 2 = 0
    · rw [cutNext_even 2 v hv] at hm
      have := B2_even n v h hv
      rwa [show v / 2 = m by exact_mod_cast hm] at this
    · have hd := digitOf_odd 2 (by omega) v (by omega)
      have e := two_cutNext 2 (by omega) v
      rw [hm, hd] at e
      by_cases hl : Lost 2 v
      · rw [if_pos hl] at e
        have ho := smod_odd v 2 (by omega) (by omega)
        have hel := ell_odd
        have hc := hl.2
        rw [hd] at hc
        obtain ⟨k', hk'⟩ : ∃ k' : ℕ, 2 * (k' : ℤ) = v - smod v 2 :=
          ⟨((v - smod v 2) / 2).toNat, by omega⟩
        have hb := B2_odd n v k' h (by omega) hk'
        omega
      · rw [if_neg hl] at e
        exact B2_odd n v m h (by omega) (by omega)

/-- Where nothing is lost the bound is exact. -/
theorem cut_big2 : ∀ (n v : ℕ), 2 ^ (n + 1) ≤ 3 * v → (∀ j < n, ¬ Lost 2 (cutRest 2 v j)) → cutRest 2 v n ≠ 0 := by
  intro n
  induction n with
  | zero =>
    intro v h _
    show (v : ℤ) ≠ 0
    omega
  | succ n ih =>
    intro v h hl
    rw [cutRest_succ]
    obtain ⟨m, hm⟩ := Int.eq_ofNat_of_zero_le (cutNext_nonneg 2 (by omega) v)
    have hl0 : ¬ Lost 2 v := hl 0 (by omega)
    have e := two_cutNext 2 (by omega) v
    rw [if_neg hl0, hm] at e
    have hl' : ∀ j < n, ¬ Lost 2 (cutRest 2 (m : ℤ) j) := fun j hj => by
      have := hl (j + 1) (by omega)
      rwa [cutRest_succ, hm] at this
    rw [hm]
    refine ih m ?_ hl'
    have e4 : 2 ^ (n + 1 + 1) = 4 * 2 ^ n := by rw [pow_succ, pow_succ]; ring
    have e2 : 2 ^ (n + 1) = 2 * 2 ^ n := pow_succ' 2 n
    by_cases hv : v % 2 = 0
    · rw [digitOf_even 2 v hv] at e
      omega
    · rw [digitOf_odd 2 (by omega) v (by omega)] at e
      unfold smod at e
      norm_num at e
      split_ifs at e <;> omega

/-- Doubling a number puts a zero in front. -/
theorem cutRest_shift (w : ℕ) (v : ℕ) : ∀ n : ℕ, cutRest w ((2 ^ n * v : ℕ) : ℤ) n = v := by
  intro n
  induction n with
  | zero => rw [pow_zero, one_mul]; exact Eq.refl _
  | succ n ih =>
    rw [cutRest_succ, cutNext_even w _ (by rw [pow_succ', mul_assoc]; exact Nat.mul_mod_right 2 _),
      show 2 ^ (n + 1) * v / 2 = 2 ^ n * v by rw [pow_succ', mul_assoc]; exact Nat.mul_div_cancel_left _ (by decide)]
    exact ih

end Scalar
end Zerocaf
