import Verif.Proof.ScalarPow

/-!
# Signed digit expansions
-/

set_option exponentiation.threshold 600

namespace Zerocaf
namespace Scalar

/-- Digit `j` of an expansion, zero out of range. -/
def dig (v : Vector Int 256) (j : Nat) : Int := if h : j < 256 then v[j] else 0

theorem dig_set (v : Vector Int 256) (i j : Nat) (x : Int) (h : i < 256) :
    dig (v.set i x) j = if j = i then x else dig v j := by
  unfold dig
  by_cases hj : j < 256
  · rw [dif_pos hj, dif_pos hj, Vector.getElem_set]
    by_cases e : i = j
    · rw [if_pos e, if_pos e.symm]
    · rw [if_neg e, if_neg (Ne.symm e)]
  · rw [dif_neg hj, dif_neg hj, if_neg (by omega)]

theorem setDigit_ok (v : Vector Int 256) (i : Nat) (x : Int) (h : i < 256) :
    setDigit v i x = .ok (v.set i x) := by
  unfold setDigit; rw [dif_pos h]

/-- The signed residue modulo `2^w`. -/
def smod (k w : Nat) : Int :=
  if 2 ^ (w - 1) ≤ k % 2 ^ w then ((k % 2 ^ w : ℕ) : Int) - 2 ^ w else ((k % 2 ^ w : ℕ) : Int)

theorem mod2PowK_spec (c : Cfg) (a : Sc) (k : Nat) (hk : k ≤ 8) :
    mod2PowK c a k = .ok (a.val % 2 ^ k) := by
  unfold mod2PowK
  rw [if_pos (by omega), Res.ok_bind]
  beta_reduce
  rw [Res.pure_eq, Res.ok_inj]
  have h1 : shl64 1 k = 2 ^ k := by
    unfold shl64
    rw [Nat.shiftLeft_eq, Nat.one_mul, Nat.mod_eq_of_lt (Nat.pow_lt_pow_right (by decide) (by omega))]
  rw [h1, Nat.and_two_pow_sub_one_eq_mod]
  have h2 : a.val % 2 ^ k = a.l0 % 2 ^ k := by
    unfold L5.val
    have hd : ∀ n m : Nat, k ≤ n → 2 ^ k ∣ 2 ^ n * m :=
      fun n m h => Dvd.dvd.mul_right (pow_dvd_pow 2 h) m
    obtain ⟨q1, e1⟩ := hd 52 a.l1 (by omega)
    obtain ⟨q2, e2⟩ := hd 104 a.l2 (by omega)
    obtain ⟨q3, e3⟩ := hd 156 a.l3 (by omega)
    obtain ⟨q4, e4⟩ := hd 208 a.l4 (by omega)
    rw [e1, e2, e3, e4, Nat.add_mul_mod_self_left, Nat.add_mul_mod_self_left,
      Nat.add_mul_mod_self_left, Nat.add_mul_mod_self_left]
  rw [h2]
  apply Nat.mod_eq_of_lt
  calc a.l0 % 2 ^ k < 2 ^ k := Nat.mod_lt _ (by positivity)
    _ ≤ 2 ^ 8 := Nat.pow_le_pow_right (by decide) hk

theorem mods2PowK_spec (c : Cfg) (a : Sc) (w : Nat) (h1 : 2 ≤ w) (h2 : w ≤ 6) :
    mods2PowK c a w = .ok (smod a.val w) := by
  unfold mods2PowK
  rw [mod2PowK_spec c a w (by omega)]
  have hm : a.val % 2 ^ w < 2 ^ w := Nat.mod_lt _ (by positivity)
  unfold smod
  generalize a.val % 2 ^ w = m at *
  interval_cases w <;>
  · simp only [rassert, Res.ok_bind, predU8, shlI8, shlU8, u8AsI8, chkI8]
    norm_num at hm ⊢
    split_ifs <;> first | omega | (simp; done) | (simp; omega)

theorem smod_bounds (k w : Nat) (h1 : 1 ≤ w) :
    -(2 ^ (w - 1) : Int) ≤ smod k w ∧ smod k w < 2 ^ (w - 1) ∧ (2 ^ w : Int) ∣ (k : Int) - smod k w := by
  have hm : k % 2 ^ w < 2 ^ w := Nat.mod_lt _ (by positivity)
  have hd : (2 ^ w : Int) ∣ (k : Int) - ((k % 2 ^ w : ℕ) : Int) := by
    rw [Int.natCast_mod, Nat.cast_pow, Nat.cast_ofNat]
    exact Int.dvd_self_sub_emod
  obtain ⟨v, rfl⟩ : ∃ v, w = v + 1 := ⟨w - 1, by omega⟩
  rw [Nat.add_sub_cancel]
  unfold smod
  rw [Nat.add_sub_cancel]
  have e : (2 : ℕ) ^ (v + 1) = 2 * 2 ^ v := pow_succ' 2 v
  have e' : (2 : ℤ) ^ (v + 1) = 2 * 2 ^ v := pow_succ' 2 v
  have hc : ((2 ^ v : ℕ) : ℤ) = 2 ^ v := by push_cast; rfl
  split_ifs with h
  · refine ⟨?_, ?_, ?_⟩
    · rw [e'] ; rw [← hc]; omega
    · rw [e'] ; rw [← hc]; omega
    · have : (k : ℤ) - (((k % 2 ^ (v + 1) : ℕ) : ℤ) - 2 ^ (v + 1)) =
        ((k : ℤ) - ((k % 2 ^ (v + 1) : ℕ) : ℤ)) + 2 ^ (v + 1) := by ring
      rw [this]
      exact dvd_add hd (dvd_refl _)
  · refine ⟨?_, ?_, hd⟩
    · rw [← hc]; omega
    · rw [← hc]; omega

theorem smod_odd (k w : Nat) (h1 : 1 ≤ w) (hk : k % 2 = 1) : smod k w % 2 = 1 := by
  obtain ⟨_, _, h⟩ := smod_bounds k w h1
  have h2 : (2 : ℤ) ∣ 2 ^ w := dvd_pow_self 2 (by omega)
  have := h2.trans h
  omega

/-- The quotient after removing the signed residue. -/
def snext (k w : Nat) : Nat := ((k : Int) - smod k w).toNat / 2

theorem smod_le (k w : Nat) : smod k w ≤ k := by
  have := Nat.mod_le k (2 ^ w)
  have hm : k % 2 ^ w < 2 ^ w := Nat.mod_lt _ (by positivity)
  have hc : ((2 ^ w : ℕ) : ℤ) = 2 ^ w := by push_cast; rfl
  unfold smod
  split_ifs
  · rw [← hc]; omega
  · omega

/-- For widths 2 to 5 removing the signed residue of a canonical odd scalar stays below `L`. -/
theorem smod_lt_ell (k w : Nat) (h1 : 2 ≤ w) (h2 : w ≤ 5) (hk : k < ell) (ho : k % 2 = 1) :
    (k : Int) - smod k w < ell := by
  have e : ell % 32 = 3 := by decide
  unfold smod
  generalize ell = l at *
  interval_cases w <;> norm_num <;> split_ifs <;> omega

theorem sub_digit (c : Cfg) (k : Sc) (w : Nat) (h1 : 2 ≤ w) (h2 : w ≤ 7) (hk : k.SCanon)
    (hl : (k.val : Int) - smod k.val w < ell) :
    ∃ s r, fromI8 c (smod k.val w) = .ok s ∧ sub c k s = .ok r ∧ r.SCanon ∧
      (r.val : Int) = k.val - smod k.val w := by
  obtain ⟨b1, b2, _⟩ := smod_bounds k.val w (by omega)
  have hp : (2 ^ (w - 1) : ℤ) ≤ 2 ^ 6 := pow_le_pow_right₀ (by norm_num) (by omega)
  obtain ⟨s, es, cs, vs⟩ := fromI8_spec c (smod k.val w) (by omega) (by omega)
  obtain ⟨r, er, cr, vr⟩ := sub_spec c k s hk cs
  refine ⟨s, r, es, er, cr, ?_⟩
  have hle := smod_le k.val w
  have hs := cs.2
  have hk2 := hk.2
  rw [vr]
  have : ((k.val + ell - s.val : ℕ) : ℤ) = k.val + ell - s.val := by omega
  rw [Int.natCast_mod, this, vs]
  have e : ((k.val : ℤ) + ell - smod k.val w % ell) % ell = ((k.val : ℤ) - smod k.val w) % ell := by
    apply Int.ModEq.symm
    rw [Int.modEq_iff_dvd]
    refine ⟨1 + smod k.val w / ell, ?_⟩
    have := Int.mul_ediv_add_emod (smod k.val w) ell
    linear_combination -this
  rw [e, Int.emod_eq_of_lt (by omega) hl]

/-- Outcome of the digit loop from position `i` on with at most `n` digits for the value `k`. -/
structure Expands (w n i k : Nat) (res out : Vector Int 256) : Prop where
  low : ∀ j < i, dig out j = dig res j
  high : ∀ j, i + n ≤ j → dig out j = 0
  sum : ∑ j ∈ Finset.range n, dig out (i + j) * 2 ^ j = k
  digits : ∀ j, i ≤ j → dig out j = 0 ∨
    (dig out j % 2 = 1 ∧ -(2 ^ (w - 1) : Int) < dig out j ∧ dig out j < 2 ^ (w - 1))
  sparse : ∀ j, i ≤ j → dig out j ≠ 0 → ∀ t, 0 < t → t < w → dig out (j + t) = 0
  zeros : ∀ t, 2 ^ t ∣ k → ∀ j < t, dig out (i + j) = 0

theorem Expands.of_zero (w n i : Nat) (res : Vector Int 256) (h : ∀ j, i ≤ j → dig res j = 0) :
    Expands w n i 0 res res where
  low := fun _ _ => rfl
  high := fun j hj => h j (by omega)
  sum := by
    rw [Finset.sum_eq_zero]; · rfl
    intro j _; rw [h (i + j) (by omega), zero_mul]
  digits := fun j hj => Or.inl (h j hj)
  sparse := fun j hj h0 => absurd (h j hj) h0
  zeros := fun t _ j _ => h _ (by omega)

theorem Expands.even {w n i k : Nat} {res out : Vector Int 256} (hi : i < 256) (hk : k % 2 = 0)
    (h : Expands w n (i + 1) (k / 2) (res.set i 0) out) : Expands w (n + 1) i k res out where
  low := fun j hj => by rw [h.low j (by omega), dig_set _ _ _ _ hi, if_neg (by omega)]
  high := fun j hj => h.high j (by omega)
  sum := by
    have h0 : dig out i = 0 := by rw [h.low i (by omega), dig_set _ _ _ _ hi, if_pos rfl]
    rw [Finset.sum_range_succ', Nat.add_zero, h0, zero_mul, add_zero]
    have : ∀ j ∈ Finset.range n, dig out (i + (j + 1)) * 2 ^ (j + 1) =
        2 * (dig out (i + 1 + j) * 2 ^ j) := by
      intro j _; rw [show i + (j + 1) = i + 1 + j by omega, pow_succ]; ring
    rw [Finset.sum_congr rfl this, ← Finset.mul_sum, h.sum]; omega
  digits := fun j hj => by
    rcases Nat.lt_or_ge i j with h' | h'
    · exact h.digits j h'
    · have : j = i := by omega
      subst this
      left; rw [h.low j (by omega), dig_set _ _ _ _ hi, if_pos rfl]
  sparse := fun j hj h0 => by
    rcases Nat.lt_or_ge i j with h' | h'
    · exact h.sparse j h' h0
    · have : j = i := by omega
      subst this
      exact absurd (by rw [h.low j (by omega), dig_set _ _ _ _ hi, if_pos rfl]) h0
  zeros := fun t ht j hj => by
    rcases j with _ | j
    · rw [Nat.add_zero, h.low i (by omega), dig_set _ _ _ _ hi, if_pos rfl]
    · obtain ⟨t, rfl⟩ : ∃ s, t = s + 1 := ⟨t - 1, by omega⟩
      rw [show i + (j + 1) = i + 1 + j by omega]
      refine h.zeros t ?_ j (by omega)
      rw [pow_succ'] at ht
      exact (Nat.dvd_div_iff_mul_dvd (Nat.dvd_of_mod_eq_zero hk)).2 ht

theorem Expands.odd {w n i k k' : Nat} {res out : Vector Int 256} (hw : 2 ≤ w) (hi : i < 256)
    (hk : k % 2 = 1) (hk' : 2 * (k' : Int) = k - smod k w)
    (h : Expands w n (i + 1) k' (res.set i (smod k w)) out) : Expands w (n + 1) i k res out := by
  have h0 : dig out i = smod k w := by rw [h.low i (by omega), dig_set _ _ _ _ hi, if_pos rfl]
  have hodd := smod_odd k w (by omega) hk
  obtain ⟨b1, b2, hd⟩ := smod_bounds k w (by omega)
  refine ⟨?_, ?_, ?_, ?_, ?_, ?_⟩
  · intro j hj; rw [h.low j (by omega), dig_set _ _ _ _ hi, if_neg (by omega)]
  · intro j hj; exact h.high j (by omega)
  · rw [Finset.sum_range_succ', Nat.add_zero, h0, pow_zero, mul_one]
    have : ∀ j ∈ Finset.range n, dig out (i + (j + 1)) * 2 ^ (j + 1) =
        2 * (dig out (i + 1 + j) * 2 ^ j) := by
      intro j _; rw [show i + (j + 1) = i + 1 + j by omega, pow_succ]; ring
    rw [Finset.sum_congr rfl this, ← Finset.mul_sum, h.sum, hk']; ring
  · intro j hj
    rcases Nat.lt_or_ge i j with h' | h'
    · exact h.digits j h'
    · have : j = i := by omega
      subst this
      right
      rw [h0]
      refine ⟨hodd, ?_, b2⟩
      refine lt_of_le_of_ne b1 (fun e => ?_)
      have : (2 : ℤ) ∣ 2 ^ (w - 1) := dvd_pow_self 2 (by omega)
      omega
  · intro j hj hne t ht1 ht2
    rcases Nat.lt_or_ge i j with h' | h'
    · exact h.sparse j h' hne t ht1 ht2
    · have : j = i := by omega
      subst this
      rw [show j + t = j + 1 + (t - 1) by omega]
      refine h.zeros (w - 1) ?_ (t - 1) (by omega)
      rw [← hk'] at hd
      have e : (2 : ℤ) ^ w = 2 * 2 ^ (w - 1) := by rw [← pow_succ']; congr 1; omega
      rw [e] at hd
      have := Int.dvd_of_mul_dvd_mul_left (by norm_num) hd
      exact_mod_cast this
  · intro t ht j hj
    exfalso
    have h2 : 2 ∣ 2 ^ t := dvd_pow_self 2 (by omega)
    have := h2.trans ht
    omega

theorem wnafLoop_spec (c : Cfg) (w : Nat) (h1 : 2 ≤ w) (h2 : w ≤ 7) (B : Nat → Nat → Prop)
    (hm : ∀ k : Sc, mods2PowK c k w = .ok (smod k.val w))
    (hl : ∀ n k : Nat, B (n + 1) k → k < ell → k % 2 = 1 → (k : Int) - smod k w < ell)
    (hB0 : ∀ k, B 0 k → k = 0) (hBe : ∀ n k, B (n + 1) k → k % 2 = 0 → B n (k / 2))
    (hBo : ∀ (n k k' : Nat), B (n + 1) k → k % 2 = 1 → 2 * (k' : Int) = k - smod k w → B n k') :
    ∀ (n fuel : Nat) (k : Sc) (i : Nat) (res : Vector Int 256), n < fuel → k.SCanon → B n k.val →
      i + n ≤ 256 → (∀ j, i ≤ j → dig res j = 0) →
      ∃ out, wnafLoop c w fuel k i res = .ok out ∧ Expands w n i k.val res out := by
  intro n
  induction n with
  | zero =>
    intro fuel k i res hf hk hb hi hz
    obtain ⟨f, rfl⟩ : ∃ f, fuel = f + 1 := ⟨fuel - 1, by omega⟩
    have h0 := hB0 _ hb
    refine ⟨res, ?_, by rw [h0]; exact Expands.of_zero w 0 i res hz⟩
    rw [wnafLoop, ge_spec k one hk.1 one_canon.1, h0]; rfl
  | succ n ih =>
    intro fuel k i res hf hk hb hi hz
    obtain ⟨f, rfl⟩ : ∃ f, fuel = f + 1 := ⟨fuel - 1, by omega⟩
    by_cases h0 : k.val = 0
    · refine ⟨res, ?_, by rw [h0]; exact Expands.of_zero w _ i res hz⟩
      rw [wnafLoop, ge_spec k one hk.1 one_canon.1, h0]; rfl
    rw [wnafLoop, ge_spec k one hk.1 one_canon.1, one_val, isEven_spec,
      decide_eq_true (show 1 ≤ k.val by omega)]
    by_cases he : k.val % 2 = 0
    · obtain ⟨wh, vh⟩ := halfWithoutMod_spec k hk.1
      have hh : (halfWithoutMod k).SCanon :=
        ⟨wh, by have h5 := hk.2; show (Field.halfWithoutMod k).val < ell; rw [vh]; omega⟩
      obtain ⟨out, eo, ho⟩ := ih f (halfWithoutMod k) (i + 1) (res.set i 0) (by omega) hh
        (by show B n (Field.halfWithoutMod k).val; rw [vh]; exact hBe n _ hb he) (by omega)
        (fun j hj => by rw [dig_set _ _ _ _ (by omega), if_neg (by omega)]; exact hz j (by omega))
      refine ⟨out, ?_, ?_⟩
      · simp only [he, decide_true, Bool.not_true, Bool.false_eq_true, if_false, if_true]
        rw [setDigit_ok _ _ _ (by omega), Res.ok_bind, eo]
      · rw [show (halfWithoutMod k).val = k.val / 2 from vh] at ho
        exact ho.even (by omega) he
    · obtain ⟨s, r, es, er, cr, vr⟩ := sub_digit c k w h1 h2 hk (hl n _ hb hk.2 (by omega))
      obtain ⟨wh, vh⟩ := halfWithoutMod_spec r cr.1
      have hh : (halfWithoutMod r).SCanon :=
        ⟨wh, by have h5 := cr.2; show (Field.halfWithoutMod r).val < ell; rw [vh]; omega⟩
      have hv : 2 * ((halfWithoutMod r).val : Int) = k.val - smod k.val w := by
        show 2 * ((Field.halfWithoutMod r).val : Int) = _
        have hso := smod_odd k.val w (by omega) (by omega)
        rw [vh]
        omega
      obtain ⟨out, eo, ho⟩ := ih f (halfWithoutMod r) (i + 1) (res.set i (smod k.val w)) (by omega) hh
        (hBo n _ _ hb (by omega) hv) (by omega)
        (fun j hj => by rw [dig_set _ _ _ _ (by omega), if_neg (by omega)]; exact hz j (by omega))
      refine ⟨out, ?_, ?_⟩
      · simp only [he, decide_false, Bool.not_false, if_true]
        rw [hm k, Res.ok_bind, setDigit_ok _ _ _ (by omega), Res.ok_bind,
          es, Res.ok_bind, er, Res.ok_bind, eo]
      · exact ho.odd h1 (by omega) (by omega) hv

theorem nafLoop_eq (c : Cfg) : ∀ (fuel : Nat) (k : Sc) (i : Nat) (res : Vector Int 256),
    nafLoop c fuel k i res = wnafLoop c 2 fuel k i res := by
  intro fuel
  induction fuel with
  | zero => intros; rfl
  | succ f ih =>
    intro k i res
    rw [nafLoop, wnafLoop]
    simp only [ih]
    by_cases hg : ge k one
    · rw [if_pos hg, if_pos hg]
      by_cases he : isEven k = true
      · rw [he]; simp only [Bool.not_true, Bool.false_eq_true, if_false]
      · rw [isEven_spec, decide_eq_true_eq] at he
        rw [isEven_spec, decide_eq_false he]
        simp only [Bool.not_false, if_true]
        have : (do let md ← mod2PowK c k 2; chkI8 c (2 - u8AsI8 md)) = mods2PowK c k 2 := by
          rw [mods2PowK_spec c k 2 (by decide) (by decide), mod2PowK_spec c k 2 (by decide), Res.ok_bind]
          have hm : k.val % 2 ^ 2 = 1 ∨ k.val % 2 ^ 2 = 3 := by omega
          unfold smod
          rcases hm with h | h <;> rw [h] <;> rfl
        rw [← this]
        cases hmd : mod2PowK c k 2 <;> simp only [Res.ok_bind, Res.panic_bind, Res.diverge_bind]
    · rw [if_neg hg, if_neg hg]

theorem dig_replicate (j : Nat) : dig (Vector.replicate 256 0) j = 0 := by
  unfold dig; split <;> simp

/-- General bound: `k ≤ 2^(n-1)` needs at most `n` digits. -/
def Bd (n k : Nat) : Prop := k = 0 ∨ (1 ≤ n ∧ k ≤ 2 ^ (n - 1))

theorem Bd_even (n k : Nat) (h : Bd (n + 1) k) (he : k % 2 = 0) : Bd n (k / 2) := by
  rcases h with h | ⟨_, h⟩
  · left; omega
  · rw [Nat.add_sub_cancel] at h
    rcases n with _ | n
    · left; omega
    · right
      rw [Nat.add_sub_cancel]
      rw [pow_succ] at h; omega

theorem Bd_odd (w : Nat) (h1 : 2 ≤ w) (n k k' : Nat) (h : Bd (n + 1) k) (ho : k % 2 = 1)
    (hk : 2 * (k' : Int) = k - smod k w) : Bd n k' := by
  rcases h with h | ⟨_, h⟩
  · omega
  rw [Nat.add_sub_cancel] at h
  have hm : k % 2 ^ w < 2 ^ w := Nat.mod_lt _ (by positivity)
  have ew : 2 ^ w = 2 * 2 ^ (w - 1) := by rw [← pow_succ']; congr 1; omega
  have hc : ((2 ^ w : ℕ) : ℤ) = 2 ^ w := by push_cast; rfl
  have hmd := Nat.mod_add_div k (2 ^ w)
  unfold smod at hk
  by_cases hs : 2 ^ (w - 1) ≤ k % 2 ^ w
  · rw [if_pos hs, ← hc] at hk
    have hkl := Nat.mod_le k (2 ^ w)
    -- the rounded value is at most `2^n`
    have hn : w ≤ n := by
      by_contra hlt
      have hle : 2 ^ n ≤ 2 ^ (w - 1) := Nat.pow_le_pow_right (by decide) (by omega)
      have he : (2 : ℕ) ∣ 2 ^ (w - 1) := dvd_pow_self 2 (by omega)
      omega
    obtain ⟨q, eq⟩ : 2 ^ w ∣ 2 ^ n := pow_dvd_pow 2 hn
    have hq : k / 2 ^ w < q := by
      rw [Nat.div_lt_iff_lt_mul (by positivity), Nat.mul_comm, ← eq]
      have he : (2 : ℕ) ∣ 2 ^ n := dvd_pow_self 2 (by omega)
      omega
    have h3 : 2 ^ w * (k / 2 ^ w) + 2 ^ w ≤ 2 ^ n := by
      rw [eq, ← Nat.mul_succ]; exact Nat.mul_le_mul_left _ hq
    right
    refine ⟨by omega, ?_⟩
    have en : 2 ^ n = 2 * 2 ^ (n - 1) := by rw [← pow_succ']; congr 1; omega
    omega
  · rw [if_neg hs] at hk
    have : 2 * k' = 2 ^ w * (k / 2 ^ w) := by omega
    rcases n with _ | n
    · left
      have : k = 1 := by
        have : k ≤ 1 := by simpa using h
        omega
      subst this
      have : 1 / 2 ^ w = 0 := Nat.div_eq_of_lt (Nat.one_lt_two_pow (by omega))
      omega
    · right
      rw [Nat.add_sub_cancel]
      rw [pow_succ] at h
      exact ⟨by omega, by omega⟩

/-- Sharper bound for width 2. -/
theorem B2_even (n k : Nat) (h : 3 * k < 2 ^ (n + 1 + 1)) (he : k % 2 = 0) :
    3 * (k / 2) < 2 ^ (n + 1) := by rw [pow_succ] at h; omega

theorem B2_odd (n k k' : Nat) (h : 3 * k < 2 ^ (n + 1 + 1)) (ho : k % 2 = 1)
    (hk : 2 * (k' : Int) = k - smod k 2) : 3 * k' < 2 ^ (n + 1) := by
  rw [pow_succ] at h
  have h3 : ∀ m : Nat, 2 ^ m % 3 ≠ 0 := by
    intro m
    induction m with
    | zero => decide
    | succ m ih => rw [pow_succ]; omega
  have := h3 n
  have e : 2 ^ (n + 1) = 2 * 2 ^ n := pow_succ' 2 n
  unfold smod at hk
  norm_num at hk
  split_ifs at hk <;> omega

theorem computeWindowNAF_spec (c : Cfg) (hc : c.Enough) (w : Nat) (h1 : 2 ≤ w) (h2 : w ≤ 5) (a : Sc)
    (ha : a.SCanon) :
    ∃ out, computeWindowNAF c a w = .ok out ∧
      Expands w 251 0 a.val (Vector.replicate 256 0) out := by
  unfold Cfg.Enough at hc
  refine wnafLoop_spec c w h1 (by omega) Bd (fun k => mods2PowK_spec c k w h1 (by omega))
    (fun _ k _ hk ho => smod_lt_ell k w h1 h2 hk ho) (fun k h => ?_) Bd_even (Bd_odd w h1) 251 c.fuel a 0 _ (by omega)
    ha ?_ (by omega) (fun j _ => dig_replicate j)
  · rcases h with h | h
    · exact h
    · omega
  · right
    have := ha.2
    have := ell_lt
    exact ⟨by omega, by omega⟩

theorem computeNAF_spec (c : Cfg) (hc : c.Enough) (a : Sc) (ha : a.SCanon) :
    ∃ out, computeNAF c a = .ok out ∧ Expands 2 250 0 a.val (Vector.replicate 256 0) out := by
  unfold Cfg.Enough at hc
  unfold computeNAF
  rw [nafLoop_eq]
  refine wnafLoop_spec c 2 (by omega) (by omega) (fun n k => 3 * k < 2 ^ (n + 1))
    (fun k => mods2PowK_spec c k 2 (by omega) (by omega))
    (fun _ k _ hk ho => smod_lt_ell k 2 (by omega) (by omega) hk ho) (fun k h => ?_)
    B2_even B2_odd 250 c.fuel a 0 _ (by omega) ha ?_ (by omega) (fun j _ => dig_replicate j)
  · simp at h; omega
  · have := ha.2
    have : 3 * ell < 2 ^ (250 + 1) := by decide
    show 3 * a.val < 2 ^ (250 + 1)
    omega

end Scalar
end Zerocaf
