import Verif.Proof.NafUnique
import Verif.Props.Edwards

/-!
# C50: exactly which scalars the windowed multiplication gets right
-/

set_option exponentiation.threshold 600

namespace Zerocaf
namespace NafU

/-- Replacing every digit of a windowed expansion by its sign moves the value by less than itself. -/
theorem sign_bounds {w : ℕ} (hw : 2 ≤ w) : ∀ (n : ℕ) (f : ℕ → ℤ), Ok w f n → 0 ≤ val f n →
    0 ≤ val (fun j => (f j).sign) n ∧ val (fun j => (f j).sign) n ≤ 2 * val f n ∧
    (0 < val f n → 1 ≤ val (fun j => (f j).sign) n ∧ val (fun j => (f j).sign) n ≤ 2 * val f n - 1) := by
  intro n
  induction n with
  | zero => intro f _ _; simp [val_zero]
  | succ n ih =>
    intro f hf h0
    rw [val_succ f] at h0 ⊢
    rw [val_succ (fun j => (f j).sign)]
    have ht := ih _ hf.tail
    have hz : f 0 ≠ 0 → (2 : ℤ) ^ (w - 1) ∣ val (fun j => f (j + 1)) n ∧
        (2 : ℤ) ^ (w - 1) ∣ val (fun j => (f (j + 1)).sign) n := by
      intro hne
      have hzero : ∀ j, j < w - 1 → j < n → f (j + 1) = 0 := fun j h1 h2 =>
        (hf.sparse 0 (j + 1) (by omega) (by omega) (by omega)).resolve_left hne
      exact ⟨dvd_val _ _ _ hzero, dvd_val _ _ _ fun j h1 h2 => by rw [hzero j h1 h2]; rfl⟩
    generalize val (fun j => f (j + 1)) n = m at *
    generalize val (fun j => (f (j + 1)).sign) n = s at *
    rcases hf.dig 0 (by omega) with e | ⟨e, hb⟩
    · rw [e] at h0 ⊢
      obtain ⟨h1, h2, h3⟩ := ht (by omega)
      simp only [Int.sign_zero]
      refine ⟨by omega, by omega, fun hp => ?_⟩
      obtain ⟨h4, h5⟩ := h3 (by omega)
      omega
    · have hne : f 0 ≠ 0 := by intro h; rw [h] at e; omega
      obtain ⟨⟨a, ha⟩, ⟨b, hb'⟩⟩ := hz hne
      have h2w : (2 : ℤ) ≤ 2 ^ (w - 1) := by
        calc (2 : ℤ) = 2 ^ 1 := by norm_num
          _ ≤ 2 ^ (w - 1) := pow_le_pow_right₀ (by norm_num) (by omega)
      rw [abs_lt] at hb
      have hm : 0 ≤ m := by
        by_contra hneg
        have : a ≤ -1 := by
          by_contra h
          have : 0 ≤ a := by omega
          exact hneg (by rw [ha]; positivity)
        have : m ≤ -2 ^ (w - 1) := by rw [ha]; nlinarith
        omega
      obtain ⟨h1, h2, h3⟩ := ht hm
      rcases lt_or_gt_of_ne hne with hlt | hgt
      · have hmp : 0 < m := by omega
        obtain ⟨h4, h5⟩ := h3 hmp
        rw [Int.sign_eq_neg_one_of_neg hlt]
        have h6 : s ≤ 2 * m - 2 ^ (w - 1) := by
          rw [ha, hb'] at h5 ⊢
          have : b < 2 * a := by nlinarith
          nlinarith
        refine ⟨by omega, by omega, fun _ => ⟨by omega, by omega⟩⟩
      · rw [Int.sign_eq_one_of_pos hgt]
        rcases hm.eq_or_lt with h | h
        · refine ⟨by omega, by omega, fun _ => ⟨by omega, by omega⟩⟩
        · obtain ⟨h4, h5⟩ := h3 h
          refine ⟨by omega, by omega, fun _ => ⟨by omega, by omega⟩⟩

theorem sign_eq {w : ℕ} (hw : 2 ≤ w) : ∀ (n : ℕ) (f : ℕ → ℤ), Ok w f n → val f n = val (fun j => (f j).sign) n →
    ∀ j < n, f j = (f j).sign := by
  intro n
  induction n with
  | zero => intro f _ _ j hj; omega
  | succ n ih =>
    intro f hf h
    have e0 : f 0 = (f 0).sign := by
      rcases hf.dig 0 (by omega) with e | ⟨e, hb⟩
      · rw [e]; rfl
      · have hne : f 0 ≠ 0 := by intro h; rw [h] at e; omega
        have hzero : ∀ j, j < w - 1 → j < n → f (j + 1) = 0 := fun j h1 h2 =>
          (hf.sparse 0 (j + 1) (by omega) (by omega) (by omega)).resolve_left hne
        have d1 : (2 : ℤ) ^ (w - 1) ∣ val (fun j => f (j + 1)) n := dvd_val _ _ _ hzero
        have d2 : (2 : ℤ) ^ (w - 1) ∣ val (fun j => (f (j + 1)).sign) n :=
          dvd_val _ _ _ fun j h1 h2 => by rw [hzero j h1 h2]; rfl
        rw [val_succ, val_succ] at h
        have d3 := dvd_sub d2 d1
        have hd : f 0 - (f 0).sign = 2 * (val (fun j => (f (j + 1)).sign) n - val (fun j => f (j + 1)) n) := by
          linear_combination h
        have d4 : (2 : ℤ) ^ (w - 1) ∣ f 0 - (f 0).sign := hd ▸ Dvd.dvd.mul_left d3 2
        rw [abs_lt] at hb
        have : f 0 - (f 0).sign = 0 := by
          refine Int.eq_zero_of_abs_lt_dvd d4 ?_
          rcases lt_or_gt_of_ne hne with hlt | hgt
          · rw [Int.sign_eq_neg_one_of_neg hlt, abs_lt]; omega
          · rw [Int.sign_eq_one_of_pos hgt, abs_lt]; omega
        omega
    have e1 : val (fun j => f (j + 1)) n = val (fun j => (f (j + 1)).sign) n := by
      rw [val_succ, val_succ] at h
      omega
    intro j hj
    cases j with
    | zero => exact e0
    | succ j => exact ih _ hf.tail e1 j (by omega)

theorem val_top (f : ℕ → ℤ) (n : ℕ) : val f (n + 1) = val f n + f n * 2 ^ n := Finset.sum_range_succ _ _

/-- Dropping zero digits at the top. -/
theorem val_drop (f : ℕ → ℤ) (m : ℕ) : ∀ k, (∀ j, m ≤ j → j < m + k → f j = 0) → val f (m + k) = val f m := by
  intro k
  induction k with
  | zero => intro _; rfl
  | succ k ih =>
    intro h
    rw [← Nat.add_assoc, val_top, h (m + k) (by omega) (by omega), zero_mul, add_zero]
    exact ih fun j h1 h2 => h j h1 (by omega)

/-- The absolute value of a windowed expansion with `m` digits. -/
theorem abs_val {w : ℕ} (hw : 1 ≤ w) {f : ℕ → ℤ} {N : ℕ} (hf : Ok w f N) : ∀ m ≤ N,
    (2 ^ w - 1) * (2 * |val f m|) ≤ (2 ^ (w - 1) - 1) * 2 ^ (m + w) := by
  intro m
  induction m using Nat.strong_induction_on with
  | _ m ih =>
  intro hm
  have p1 : (1 : ℤ) ≤ 2 ^ (w - 1) := one_le_pow₀ (by norm_num)
  have p2 : (1 : ℤ) ≤ 2 ^ w := one_le_pow₀ (by norm_num)
  cases m with
  | zero =>
    rw [val_zero, abs_zero, mul_zero, mul_zero]
    exact mul_nonneg (by omega) (by positivity)
  | succ m =>
    rcases hf.dig m (by omega) with e | ⟨e, hb⟩
    · rw [val_top, e, zero_mul, add_zero]
      refine (ih m (by omega) (by omega)).trans ?_
      refine mul_le_mul_of_nonneg_left ?_ (by omega)
      exact pow_le_pow_right₀ (by norm_num) (by omega)
    · have hne : f m ≠ 0 := by intro h; rw [h] at e; omega
      have hrest : (2 ^ w - 1) * (2 * |val f m|) ≤ (2 ^ (w - 1) - 1) * 2 ^ (m + 1) := by
        by_cases hmw : w - 1 ≤ m
        · have hd : val f m = val f (m - (w - 1)) := by
            have := val_drop f (m - (w - 1)) (w - 1) fun j h1 h2 =>
              (hf.sparse j m (by omega) (by omega) (by omega)).resolve_right hne
            rwa [show m - (w - 1) + (w - 1) = m by omega] at this
          rw [hd]
          have := ih (m - (w - 1)) (by omega) (by omega)
          rwa [show m - (w - 1) + w = m + 1 by omega] at this
        · have hd : val f m = 0 := by
            have := val_drop f 0 m fun j h1 h2 =>
              (hf.sparse j m (by omega) (by omega) (by omega)).resolve_right hne
            rwa [Nat.zero_add, val_zero] at this
          rw [hd, abs_zero, mul_zero, mul_zero]
          exact mul_nonneg (by omega) (by positivity)
      have h1 : |val f (m + 1)| ≤ |val f m| + (2 ^ (w - 1) - 1) * 2 ^ m := by
        rw [val_top]
        refine (abs_add_le _ _).trans ?_
        rw [abs_mul, abs_of_pos (by positivity : (0 : ℤ) < 2 ^ m)]
        have : |f m| ≤ 2 ^ (w - 1) - 1 := by omega
        have := mul_le_mul_of_nonneg_right this (by positivity : (0 : ℤ) ≤ 2 ^ m)
        omega
      calc (2 ^ w - 1) * (2 * |val f (m + 1)|) ≤ (2 ^ w - 1) * (2 * (|val f m| + (2 ^ (w - 1) - 1) * 2 ^ m)) :=
            mul_le_mul_of_nonneg_left (by omega) (by omega)
        _ = (2 ^ w - 1) * (2 * |val f m|) + (2 ^ w - 1) * (2 ^ (w - 1) - 1) * 2 ^ (m + 1) := by
            rw [pow_succ (2 : ℤ) m]; ring
        _ ≤ (2 ^ (w - 1) - 1) * 2 ^ (m + 1) + (2 ^ w - 1) * (2 ^ (w - 1) - 1) * 2 ^ (m + 1) :=
            add_le_add hrest le_rfl
        _ = (2 ^ (w - 1) - 1) * 2 ^ (m + 1 + w) := by
            rw [pow_add (2 : ℤ) (m + 1) w]; ring

/-- The digit of weight `2^250` of a number below `L` is zero. -/
theorem digit_250 {w : ℕ} (h1 : 2 ≤ w) (h2 : w ≤ 5) {f : ℕ → ℤ} (hf : Ok w f 251) (h0 : 0 ≤ val f 251)
    (hL : val f 251 < ell) : f 250 = 0 := by
  by_contra hne
  have hd : val f 250 = val f (251 - w) := by
    have := val_drop f (251 - w) (w - 1) fun j h3 h4 =>
      (hf.sparse j 250 (by omega) (by omega) (by omega)).resolve_right hne
    rwa [show 251 - w + (w - 1) = 250 by omega] at this
  have hb := abs_val (by omega) hf (251 - w) (by omega)
  rw [← hd, show 251 - w + w = 251 by omega] at hb
  have ht := val_top f 250
  norm_num only at ht
  rw [ht] at h0 hL
  have hl : (ell : ℤ) < 2 ^ 249 + 2 ^ 240 := by decide +kernel
  obtain ⟨a1, a2⟩ := abs_le.1 (le_refl |val f 250|)
  generalize |val f 250| = y at *
  generalize val f 250 = x at *
  have hf1 : f 250 ≤ -1 ∨ 1 ≤ f 250 := by omega
  generalize f 250 = d at *
  norm_num only at hl h0 hL
  interval_cases w <;> norm_num only at hb <;> rcases hf1 with h | h <;> omega

end NafU

namespace Props

theorem tableCoeff_eq (k : Int) : tableCoeff k = 2 * k - k.sign := by
  unfold tableCoeff
  rcases lt_trichotomy k 0 with h | h | h
  · rw [if_neg (by omega), if_neg (by omega), Int.sign_eq_neg_one_of_neg h]; ring
  · rw [if_pos h, h]; rfl
  · rw [if_neg (by omega), if_pos h, Int.sign_eq_one_of_pos h]

/-- C50: for widths 2 to 5 the result is `n B` exactly for the scalars whose width-`w` expansion has no digit other
than `-1`, `0` and `1`. -/
theorem C50_exact (c : Cfg) (hc : c.Enough) (w : Nat) (h1 : 2 ≤ w) (h2 : w ≤ 5) (n : Sc) (hn : n.SCanon) :
    ∃ v S, Scalar.computeWindowNAF c n w = .ok v ∧ IsNAF w v ∧ digitSum v = n.val ∧
      Ristretto.windowNafMul c n w = .ok S ∧ S.Valid ∧
      (S.Rep (n.val • Bpt) ↔ ∀ j : Fin 256, v[j] = -1 ∨ v[j] = 0 ∨ v[j] = 1) := by
  obtain ⟨v, ev, hv⟩ := Scalar.computeWindowNAF_spec c hc w h1 h2 n hn
  obtain ⟨v', S, ev', hs, eS, hS⟩ := C50_all_widths c hc w h1 h2 n hn
  obtain rfl : v = v' := Res.ok.inj (ev.symm.trans ev')
  obtain ⟨hN, _, hhigh⟩ := expands_naf (by omega) hv
  refine ⟨v, S, ev, hN, hs, eS, ⟨_, hS⟩, ?_⟩
  have hOk1 : NafU.Ok w (Scalar.dig v) 251 := by
    refine ⟨fun j hj => ?_, fun j k hjk hk hw => ?_⟩
    · rcases hv.digits j (by omega) with h | ⟨h, h', h''⟩
      · exact Or.inl h
      · exact Or.inr ⟨h, abs_lt.2 ⟨h', h''⟩⟩
    · by_cases h : Scalar.dig v j = 0
      · exact Or.inl h
      · right
        have := hv.sparse j (by omega) h (k - j) (by omega) (by omega)
        rwa [show j + (k - j) = k by omega] at this
  have hOk : NafU.Ok w (Scalar.dig v) 250 :=
    ⟨fun j hj => hOk1.dig j (by omega), fun j k h3 h4 h5 => hOk1.sparse j k h3 (by omega) h5⟩
  have hval1 : NafU.val (Scalar.dig v) 251 = n.val := by
    have := hv.sum
    simp only [Nat.zero_add] at this
    exact this
  have h250 := NafU.digit_250 h1 h2 hOk1 (by rw [hval1]; exact Int.natCast_nonneg _)
    (by rw [hval1]; exact_mod_cast hn.2)
  have hval : NafU.val (Scalar.dig v) 250 = n.val := by
    rw [← hval1, NafU.val_top _ 250, h250, zero_mul, add_zero]
  obtain ⟨b1, b2, b3⟩ := NafU.sign_bounds h1 250 _ hOk (by rw [hval]; positivity)
  have hsum : (∑ j ∈ Finset.range 250, tableCoeff (Scalar.dig v j) * 2 ^ j) =
      2 * NafU.val (Scalar.dig v) 250 - NafU.val (fun j => (Scalar.dig v j).sign) 250 := by
    unfold NafU.val
    rw [Finset.mul_sum, ← Finset.sum_sub_distrib]
    exact Finset.sum_congr rfl fun j _ => by rw [tableCoeff_eq]; ring
  rw [hsum] at hS
  have hdig : (∀ j : Fin 256, v[j] = -1 ∨ v[j] = 0 ∨ v[j] = 1) ↔
      NafU.val (Scalar.dig v) 250 = NafU.val (fun j => (Scalar.dig v j).sign) 250 := by
    constructor
    · intro h
      unfold NafU.val
      refine Finset.sum_congr rfl fun j hj => ?_
      have hj' : j < 256 := by have := Finset.mem_range.1 hj; omega
      have := h ⟨j, hj'⟩
      rw [← dig_fin] at this
      dsimp only at this ⊢
      rcases this with e | e | e <;> rw [e] <;> rfl
    · intro h j
      rw [← dig_fin]
      by_cases hj : j.val < 250
      · have := NafU.sign_eq h1 250 _ hOk h j.val hj
        rcases Int.sign_trichotomy (Scalar.dig v j.val) with e | e | e <;> rw [e] at this <;> simp [this]
      · by_cases hj2 : j.val = 250
        · rw [hj2]; exact Or.inr (Or.inl h250)
        · exact Or.inr (Or.inl (hv.high j.val (by omega)))
  rw [hdig]
  rw [hval] at hS b2 b3 ⊢
  generalize NafU.val (fun j => (Scalar.dig v j).sign) 250 = s at *
  constructor
  · intro h
    have e := hS.unique h
    have e2 : ((n.val : ℤ) - s) • Bpt = 0 := by
      rw [← natCast_zsmul] at e
      rw [show (n.val : ℤ) - s = (2 * n.val - s) - n.val by ring, sub_zsmul, e, ← sub_eq_add_neg, sub_self]
    rw [← addOrderOf_dvd_iff_zsmul_eq_zero, Bpt_order] at e2
    have hlt : |(n.val : ℤ) - s| < ell := by
      have := hn.2
      rw [abs_lt]
      constructor
      · by_cases h0 : n.val = 0
        · rw [h0] at b2 ⊢
          have : (0 : ℤ) < ell := by decide
          push_cast at b2 ⊢
          omega
        · have := (b3 (by omega)).2
          omega
      · omega
    have := Int.eq_zero_of_abs_lt_dvd e2 hlt
    omega
  · intro h
    rw [← h, show (2 * (n.val : ℤ) - n.val) = n.val by ring, natCast_zsmul] at hS
    exact hS

/-- C50: for widths 3 to 5 every scalar that is 3 or 5 modulo 8 comes out wrong. -/
theorem C50_wrong_class (c : Cfg) (hc : c.Enough) (w : Nat) (h1 : 3 ≤ w) (h2 : w ≤ 5) (n : Sc) (hn : n.SCanon)
    (h : n.val % 8 = 3 ∨ n.val % 8 = 5) :
    ∃ S, Ristretto.windowNafMul c n w = .ok S ∧ ¬ S.Rep (n.val • Bpt) := by
  obtain ⟨v, S, ev, hN, hs, eS, _, hiff⟩ := C50_exact c hc w (by omega) h2 n hn
  refine ⟨S, eS, fun hS => ?_⟩
  have hd := hiff.1 hS
  have hv8 : ∀ f : Fin 256 → ℤ, (∀ j : Fin 256, 0 < j.val → j.val < 3 → f j = 0) →
      (8 : ℤ) ∣ (∑ j : Fin 256, f j * 2 ^ j.val) - f 0 := by
    intro f hf
    rw [Fin.sum_univ_succ]
    simp only [Fin.val_zero, pow_zero, mul_one, add_sub_cancel_left]
    refine Finset.dvd_sum fun j _ => ?_
    by_cases hj : (Fin.succ j).val < 3
    · rw [hf _ (by simp) hj, zero_mul]; exact dvd_zero _
    · exact Dvd.dvd.mul_left (by
        rw [show (8 : ℤ) = 2 ^ 3 by norm_num]
        exact pow_dvd_pow 2 (by omega)) _
  have h0 : v[(0 : Fin 256)] ≠ 0 → (8 : ℤ) ∣ n.val - v[(0 : Fin 256)] := by
    intro hne
    rw [← hs]
    refine hv8 (fun j => v[j]) fun j hj hj3 => ?_
    exact (hN.2 0 j hj (by simp only [Fin.val_zero]; omega)).resolve_left hne
  have hodd : v[(0 : Fin 256)] % 2 = 1 := by
    have h2' : (2 : ℤ) ∣ (∑ j : Fin 256, v[j] * 2 ^ j.val) - v[(0 : Fin 256)] := by
      rw [Fin.sum_univ_succ]
      simp only [Fin.val_zero, pow_zero, mul_one, add_sub_cancel_left]
      exact Finset.dvd_sum fun j _ => Dvd.dvd.mul_left (dvd_pow_self 2 (by simp)) _
    unfold digitSum at hs
    rw [hs] at h2'
    omega
  have := h0 (by intro e; rw [e] at hodd; omega)
  rcases hd 0 with e | e | e <;> rw [e] at this hodd <;> omega

/-- Scalars meeting the hypotheses, and one beyond the witness for which a wide window is right. -/
example : (⟨11, 0, 0, 0, 0⟩ : Sc).SCanon ∧ (⟨11, 0, 0, 0, 0⟩ : Sc).val % 8 = 3 ∧
    firstDigits 8 (Scalar.computeWindowNAF dbg ⟨127, 0, 0, 0, 0⟩ 4) = [-1, 0, 0, 0, 0, 0, 0, 1] := by
  refine ⟨by decide, by decide, by decide +kernel⟩

end Props
end Zerocaf
