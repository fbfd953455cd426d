import Verif.Proof.ScalarUnreduced
import Verif.Props.Edwards
import Verif.Props.NafUnique

/-!
# Property C105: scalars that are not below `L`

The limbs of a scalar are public, and the group order itself is a public constant of scalar type.
-/

set_option exponentiation.threshold 600

namespace Zerocaf
namespace Props

open Scalar

/-! ### Addition, subtraction and negation -/

/-- C105: addition subtracts `L` at most once; up to `2^260` the result is right modulo `L`. -/
theorem C105_add (c : Cfg) (a b : Sc) (ha : a.WF) (hb : b.WF) (h : a.val + b.val < 2 ^ 260) :
    ∃ r, Scalar.add c a b = .ok r ∧ r.WF ∧ r.val % ell = (a.val + b.val) % ell ∧
      (r.SCanon ↔ a.val + b.val < 2 * ell) := by
  obtain ⟨r, e, w, v⟩ := Scalar.add_exact c a b ha hb h
  refine ⟨r, e, w, ?_, ?_⟩
  · rw [v]
    split_ifs with h'
    · rfl
    · rw [← Nat.mod_eq_sub_mod (by omega)]
  · unfold L5.SCanon
    rw [v]
    split_ifs with h'
    · exact ⟨fun _ => by omega, fun _ => ⟨w, h'⟩⟩
    · exact ⟨fun h => by omega, fun _ => ⟨w, by omega⟩⟩

example : Scalar.L.WF ∧ Scalar.L.val = ell ∧ Scalar.L.val + Scalar.L.val < 2 ^ 260 ∧
    Scalar.add dbg Scalar.L Scalar.L = .ok Scalar.L := by decide

theorem pow260_mod : 2 ^ 260 % ell ≠ 0 := by decide

/-- C105: subtraction is right modulo `L` exactly if the subtrahend is not above the minuend by more than `L`. -/
theorem C105_sub (c : Cfg) (a b : Sc) (ha : a.WF) (hb : b.WF) :
    ∃ r, Scalar.sub c a b = .ok r ∧ r.WF ∧ ((r.val : ℤ) ≡ a.val - b.val [ZMOD ell] ↔ b.val ≤ a.val + ell) ∧
      (b.val ≤ a.val → r.val = a.val - b.val) := by
  obtain ⟨r, e, w, v⟩ := Scalar.sub_cases c a b ha hb
  have hb2 := hb.val_lt
  refine ⟨r, e, w, ?_, fun h => by rw [v, if_pos h]⟩
  rw [v]
  split_ifs with h h'
  · refine iff_of_true ?_ (by omega)
    rw [Nat.cast_sub h]
  · refine iff_of_true ?_ h'
    rw [Nat.cast_sub h', Nat.cast_add, Int.modEq_iff_dvd]
    exact ⟨-1, by ring⟩
  · refine iff_of_false (fun hm => ?_) h'
    rw [Nat.cast_sub (by omega), Nat.cast_add, Nat.cast_add, Int.modEq_iff_dvd] at hm
    obtain ⟨q, hq⟩ := hm
    have h2 : (ell : ℤ) ∣ ((2 ^ 260 : ℕ) : ℤ) := ⟨-q - 1, by linear_combination -hq⟩
    exact pow260_mod (Nat.mod_eq_zero_of_dvd (Int.natCast_dvd_natCast.1 h2))

/-- C105: negation is right modulo `L` exactly for scalars up to `L`. -/
theorem C105_neg (c : Cfg) (a : Sc) (ha : a.WF) :
    ∃ r, Scalar.neg c a = .ok r ∧ r.WF ∧ ((r.val : ℤ) ≡ -a.val [ZMOD ell] ↔ a.val ≤ ell) := by
  obtain ⟨r, e, w, v, _⟩ := C105_sub c Scalar.zero a zero_canon.1 ha
  refine ⟨r, e, w, ?_⟩
  rwa [Scalar.zero_val, Nat.cast_zero, zero_sub, Nat.zero_add] at v

/-- `L + 1` as raw limbs. -/
def lPlusOne : Sc := ⟨Scalar.L.l0 + 1, Scalar.L.l1, Scalar.L.l2, Scalar.L.l3, Scalar.L.l4⟩

example : lPlusOne.WF ∧ lPlusOne.val = ell + 1 ∧ ¬ lPlusOne.val ≤ ell ∧
    (∀ r, Scalar.neg dbg lPlusOne = .ok r → r.val % ell ≠ ell - 1) := by
  refine ⟨by decide, by decide, by decide, fun r hr => ?_⟩
  obtain ⟨s, es, _, v⟩ := Scalar.sub_cases dbg Scalar.zero lPlusOne zero_canon.1 (by decide)
  rw [if_neg (by decide), if_neg (by decide)] at v
  have : r = s := Res.ok.inj (hr.symm.trans es)
  rw [this, v]
  decide

/-! ### Exponentiation -/

/-- C105: after the factors two of the exponent are used up, the odd part `m` counts as
`1 + 2 * ((m - 1) / 2 mod L)`. -/
theorem C105_pow (c : Cfg) (hc : c.Enough) (a e : Sc) (ha : a.WF) (he : e.WF) :
    (e.val = 0 → Scalar.pow c a e = .ok Scalar.one) ∧
    ∀ t m, m % 2 = 1 → e.val = 2 ^ t * m →
      ∃ r, Scalar.pow c a e = .ok r ∧ r.SCanon ∧
        r.val = a.val ^ (2 ^ t * (1 + 2 * ((m - 1) / 2 % ell))) % ell :=
  ⟨pow_zero_exp c hc a e he, fun t m hm hv => pow_any c hc a e ha he t m hm hv⟩

/-- C105: so exponentiation is right if the odd part of the exponent is at most `2L`; this includes all exponents
up to `2L`. -/
theorem C105_pow_right (c : Cfg) (hc : c.Enough) (a e : Sc) (ha : a.WF) (he : e.WF) (t m : Nat)
    (hv : e.val = 2 ^ t * m) (hm : m ≤ 2 * ell) :
    ∃ r, Scalar.pow c a e = .ok r ∧ r.SCanon ∧ r.val = a.val ^ e.val % ell := by
  have key : ∀ t m : Nat, m % 2 = 1 → e.val = 2 ^ t * m → m ≤ 2 * ell →
      ∃ r, Scalar.pow c a e = .ok r ∧ r.SCanon ∧ r.val = a.val ^ e.val % ell := by
    intro t m ho hv hm
    obtain ⟨r, er, cr, vr⟩ := pow_any c hc a e ha he t m ho hv
    refine ⟨r, er, cr, ?_⟩
    rw [vr, Nat.mod_eq_of_lt (show (m - 1) / 2 < ell by omega), show 1 + 2 * ((m - 1) / 2) = m by omega, hv]
  rcases Nat.eq_zero_or_pos m with h0 | h0
  · rw [h0, Nat.mul_zero] at hv
    refine ⟨_, pow_zero_exp c hc a e he hv, one_canon, ?_⟩
    rw [hv, pow_zero, Scalar.one_val, Nat.mod_eq_of_lt (by decide)]
  · obtain ⟨s, q, hq, rfl⟩ := Nat.exists_eq_two_pow_mul_odd (by omega : m ≠ 0)
    refine key (t + s) q (Nat.odd_iff.1 hq) (by rw [hv, pow_add, Nat.mul_assoc]) ?_
    exact le_trans (Nat.le_mul_of_pos_left q (by positivity)) hm

/-- `2L + 1` as raw limbs. -/
def twoLPlusOne : Sc :=
  ⟨2 * ell % 2 ^ 52 + 1, 2 * ell / 2 ^ 52 % 2 ^ 52, 2 * ell / 2 ^ 104 % 2 ^ 52, 2 * ell / 2 ^ 156 % 2 ^ 52,
    2 * ell / 2 ^ 208⟩

/-- C105: the bound is sharp. The exponent `2L + 1` acts like the exponent 1. -/
theorem C105_pow_wrong (c : Cfg) (hc : c.Enough) (a : Sc) (ha : a.WF) :
    twoLPlusOne.WF ∧ twoLPlusOne.val = 2 * ell + 1 ∧
    ∃ r, Scalar.pow c a twoLPlusOne = .ok r ∧ r.SCanon ∧ r.val = a.val % ell := by
  have hw : twoLPlusOne.WF := by decide
  have hv : twoLPlusOne.val = 2 * ell + 1 := by decide
  refine ⟨hw, hv, ?_⟩
  obtain ⟨r, er, cr, vr⟩ := pow_any c hc a twoLPlusOne ha hw 0 (2 * ell + 1) (by omega)
    (by rw [hv, pow_zero, Nat.one_mul])
  refine ⟨r, er, cr, ?_⟩
  rw [vr, Nat.add_sub_cancel, Nat.mul_div_cancel_left _ (by decide), Nat.mod_self, pow_zero, Nat.one_mul,
    Nat.mul_zero, Nat.add_zero, pow_one]

/-- By Fermat the exponent `2L + 1` must act like 3: the result for the base 2 should be 8, not 2. -/
theorem C105_pow_wrong_two : 2 ^ (2 * ell + 1) % ell = 8 := by
  have : Fact ell.Prime := ⟨ell_prime⟩
  have h : ((2 : ZMod ell)) ^ (2 * ell + 1) = 8 := by
    rw [pow_succ, pow_mul', ZMod.pow_card]
    norm_num
  have h2 : ((2 ^ (2 * ell + 1) : ℕ) : ZMod ell) = ((8 : ℕ) : ZMod ell) := by
    rw [Nat.cast_pow]
    exact_mod_cast h
  have h3 := (ZMod.natCast_eq_natCast_iff' _ _ _).1 h2
  rw [h3]
  decide

/-! ### Signed digits -/

theorem smod_nonneg (k w : Nat) (h : k % 2 ^ w < 2 ^ (w - 1)) : 0 ≤ smod k w := by
  unfold smod
  rw [if_neg (by omega)]
  omega

theorem smod_neg (k w : Nat) (h : 2 ^ (w - 1) ≤ k % 2 ^ w) : smod k w < 0 := by
  have hm : k % 2 ^ w < 2 ^ w := Nat.mod_lt _ (by positivity)
  unfold smod
  rw [if_pos h, sub_neg]
  exact_mod_cast hm

/-- C105: expansions of widths 2 to 5 of scalars below `2L` are right for even scalars and for those whose
residue modulo `2^w` is below `2^(w-1)`. -/
theorem C105_window (c : Cfg) (hc : c.Enough) (w : Nat) (h1 : 2 ≤ w) (h2 : w ≤ 5) (a : Sc) (ha : a.WF)
    (hl : a.val < 2 * ell) (h : a.val % 2 = 0 ∨ a.val % 2 ^ w < 2 ^ (w - 1)) :
    ∃ v, Scalar.computeWindowNAF c a w = .ok v ∧ IsNAF w v ∧ digitSum v = a.val := by
  obtain ⟨v, e, hE⟩ := computeWindowNAF_double c hc w h1 h2 a ha hl
    (fun ho => smod_nonneg _ _ (h.resolve_left (by omega)))
  obtain ⟨i1, i2, _⟩ := expands_naf (by omega) hE
  exact ⟨v, e, i1, i2⟩

theorem over_digits {w n k : Nat} {x : Int} {res out : Vector Int 256} (hn : n ≤ 255)
    (hE : Expands w n 1 k (res.set 0 x) out) :
    digitSum out = x + 2 * k ∧ ∑ j ∈ Finset.range (n + 1), dig out j * 2 ^ j = x + 2 * k := by
  have hs := hE.sum
  have h0 : dig out 0 = x := by rw [hE.low 0 (by omega), dig_set _ _ _ _ (by omega), if_pos rfl]
  have e2 : ∑ j ∈ Finset.range (n + 1), dig out j * 2 ^ j = x + 2 * k := by
    rw [Finset.sum_range_succ', h0, pow_zero, mul_one]
    have : ∀ j ∈ Finset.range n, dig out (j + 1) * 2 ^ (j + 1) = 2 * (dig out (1 + j) * 2 ^ j) := by
      intro j _; rw [show j + 1 = 1 + j by omega, pow_add]; ring
    rw [Finset.sum_congr rfl this, ← Finset.mul_sum, hs, add_comm]
  refine ⟨?_, e2⟩
  rw [← e2]
  unfold digitSum
  rw [Finset.sum_congr rfl (fun (j : Fin 256) _ => by rw [← dig_fin]),
    Fin.sum_univ_eq_sum_range (fun j => dig out j * 2 ^ j) 256]
  symm
  apply Finset.sum_subset (Finset.range_subset_range.2 (by omega))
  intro j _ hj
  rw [Finset.mem_range] at hj
  rw [hE.high j (by omega), zero_mul]

/-- C105: for all other scalars from `L` up to `2L` the digits denote `a - L - 1`. -/
theorem C105_window_wrong (c : Cfg) (hc : c.Enough) (w : Nat) (h1 : 2 ≤ w) (h2 : w ≤ 5) (a : Sc) (ha : a.WF)
    (hl1 : ell ≤ a.val) (hl2 : a.val < 2 * ell) (ho : a.val % 2 = 1) (h : 2 ^ (w - 1) ≤ a.val % 2 ^ w) :
    ∃ v, Scalar.computeWindowNAF c a w = .ok v ∧ digitSum v = (a.val : ℤ) - ell - 1 := by
  obtain ⟨v, k, e, hk, hE⟩ := computeWindowNAF_double_over c hc w h1 h2 a ha hl1 hl2 ho (smod_neg _ _ h)
  exact ⟨v, e, by rw [(over_digits (by omega) hE).1]; omega⟩

/-- `L` itself, `L + 1`: residues 3 and 4 modulo 32. The digits of `L` are right for widths 3 to 5 and wrong for
width 2. -/
example : Scalar.L.WF ∧ Scalar.L.val = ell ∧ Scalar.L.val % 2 = 1 ∧
    (∀ w, 3 ≤ w → w ≤ 5 → Scalar.L.val % 2 ^ w < 2 ^ (w - 1)) ∧ 2 ^ (2 - 1) ≤ Scalar.L.val % 2 ^ 2 := by
  refine ⟨by decide, by decide, by decide, fun w h1 h2 => ?_, by decide⟩
  interval_cases w <;> decide

/-- C105: the non-adjacent form of a scalar from `L` up to `2L` denotes the scalar exactly if it is not 3
modulo 4. -/
theorem C105_naf (c : Cfg) (hc : c.Enough) (a : Sc) (ha : a.WF) (hl1 : ell ≤ a.val) (hl2 : a.val < 2 * ell) :
    (a.val % 4 ≠ 3 → ∃ v, Scalar.computeNAF c a = .ok v ∧ IsNAF 2 v ∧ digitSum v = a.val) ∧
    (a.val % 4 = 3 → ∃ v, Scalar.computeNAF c a = .ok v ∧ digitSum v = (a.val : ℤ) - ell - 1) := by
  refine ⟨fun h => ?_, fun h => ?_⟩
  · obtain ⟨v, e, hE⟩ := computeNAF_double c hc a ha hl2
      (fun ho => smod_nonneg _ _ (by norm_num; omega)) 250 (by omega) (lt_trans (by omega) two_ell_lt)
    obtain ⟨i1, i2, _⟩ := expands_naf (by omega) hE
    exact ⟨v, e, i1, i2⟩
  · obtain ⟨v, k, e, hk, hE⟩ := computeNAF_double_over c hc a ha hl1 hl2 (by omega)
      (smod_neg _ _ (by norm_num; omega))
    exact ⟨v, e, by rw [(over_digits (by omega) hE).1]; omega⟩

/-! ### Points -/

/-- The integer denoted by `n` digits in non-adjacent form is below `2^(n+1) / 3` in absolute value. -/
theorem naf_bound : ∀ (n : ℕ) (f : ℕ → ℤ), NafU.Ok 2 f n → 3 * |NafU.val f n| < 2 ^ (n + 1) := by
  intro n
  induction n using Nat.strong_induction_on with
  | _ n ih =>
  intro f h
  match n, ih, h with
  | 0, _, _ => rw [NafU.val_zero]; norm_num
  | 1, _, h =>
    rw [NafU.val_succ, NafU.val_zero, mul_zero, add_zero]
    have := h.dig 0 (by omega)
    norm_num at this ⊢
    rcases this with h | h
    · rw [h]; norm_num
    · omega
  | n + 2, ih, h =>
    by_cases h0 : f 0 = 0
    · have i := ih (n + 1) (by omega) _ h.tail
      rw [NafU.val_succ, h0, zero_add, abs_mul, abs_two, pow_succ]
      rw [show n + 1 + 1 = n + 2 from rfl] at i
      linarith
    · have h1 : f 1 = 0 := (h.sparse 0 1 (by omega) (by omega) (by omega)).resolve_left h0
      have i := ih n (by omega) _ h.tail.tail
      have hd := h.dig 0 (by omega)
      norm_num at hd
      have hd1 : |f 0| ≤ 1 := by
        rcases hd with h | h
        · exact absurd h h0
        · omega
      rw [NafU.val_succ, NafU.val_succ, h1, zero_add, ← mul_assoc]
      have := abs_add_le (f 0) (2 * 2 * NafU.val (fun j => f (j + 1 + 1)) n)
      rw [abs_mul, show |(2 * 2 : ℤ)| = 4 by norm_num] at this
      rw [pow_succ, pow_succ]
      omega

section generic
variable {T : Type} {O : PointOps T} {R : T → E → Prop}

/-- The points of `binary_naf_mul` for scalars below `2L`. -/
theorem nafMul_double (hO : OpsSpec O R) (c : Cfg) (hc : c.Enough) {P : T} {A : E} (hP : R P A) (a : Sc)
    (ha : a.WF) (hl1 : ell ≤ a.val) (hl2 : a.val < 2 * ell) :
    (a.val % 4 ≠ 3 → 3 * a.val < 2 ^ 251 → ∃ S, binaryNafMul O c P a = .ok S ∧ R S (a.val • A)) ∧
    (a.val % 4 ≠ 3 → 2 ^ 251 ≤ 3 * a.val →
      ∃ S, binaryNafMul O c P a = .ok S ∧ R S (((a.val : ℤ) - 2 ^ 250) • A)) ∧
    (a.val % 4 = 3 → ∃ S, binaryNafMul O c P a = .ok S ∧ R S (((a.val : ℤ) - ell - 1) • A)) := by
  have run : ∀ (v : Vector Int 256), Scalar.computeNAF c a = .ok v →
      (∀ j, dig v j = 0 ∨ (dig v j % 2 = 1 ∧ -(2 ^ (2 - 1) : Int) < dig v j ∧ dig v j < 2 ^ (2 - 1))) →
      ∃ S, binaryNafMul O c P a = .ok S ∧ R S ((∑ j ∈ Finset.range 250, dig v j * 2 ^ j) • A) := by
    intro v ev hdig
    have hd : ∀ j (hj : j < 256), v[j] = -1 ∨ v[j] = 0 ∨ v[j] = 1 := by
      intro j hj
      have e : dig v j = v[j] := by unfold dig; rw [dif_pos hj]
      have := hdig j
      rw [e] at this
      norm_num at this
      omega
    obtain ⟨S, eS, hS⟩ := nafMulLoop_rep hO c hP v hd 250 (by omega) O.identity 0
      (by rw [zero_zsmul]; exact hO.identity)
    refine ⟨S, by unfold binaryNafMul; rw [ev, Res.ok_bind, eS], ?_⟩
    rwa [zero_mul, zero_add] at hS
  refine ⟨fun h h3 => ?_, fun h h3 => ?_, fun h => ?_⟩
  · obtain ⟨v, e, hE⟩ := computeNAF_double c hc a ha hl2
      (fun ho => smod_nonneg _ _ (by norm_num; omega)) 249 (by omega) h3
    obtain ⟨S, eS, hS⟩ := run v e (fun j => hE.digits j (by omega))
    have hs := hE.sum
    simp only [Nat.zero_add] at hs
    rw [hs, natCast_zsmul] at hS
    exact ⟨S, eS, hS⟩
  · obtain ⟨v, e, hE⟩ := computeNAF_double c hc a ha hl2
      (fun ho => smod_nonneg _ _ (by norm_num; omega)) 250 (by omega) (lt_trans (by omega) two_ell_lt)
    obtain ⟨S, eS, hS⟩ := run v e (fun j => hE.digits j (by omega))
    obtain ⟨i1, _, _⟩ := expands_naf (by omega) hE
    have hok := isNAF_ok i1
    have hb := naf_bound 250 (dig v) ⟨fun j hj => hok.dig j (by omega),
      fun j k h1 h2 h3 => hok.sparse j k h1 (by omega) h3⟩
    unfold NafU.val at hb
    have hs := hE.sum
    simp only [Nat.zero_add] at hs
    rw [Finset.sum_range_succ] at hs
    have hdig := hE.digits 250 (by omega)
    norm_num at hdig
    have hd : dig v 250 = 0 ∨ dig v 250 = 1 ∨ dig v 250 = -1 := by omega
    generalize hx : ∑ j ∈ Finset.range 250, dig v j * 2 ^ j = x at *
    have hb2 := abs_lt.1 (show |x| < 2 ^ 250 by omega)
    have hb3 := le_abs_self x
    refine ⟨S, eS, ?_⟩
    have : x = (a.val : ℤ) - 2 ^ 250 := by
      rcases hd with hd | hd | hd <;> rw [hd] at hs <;> omega
    rwa [this] at hS
  · obtain ⟨v, k, e, hk, hE⟩ := computeNAF_double_over c hc a ha hl1 hl2 (by omega)
      (smod_neg _ _ (by norm_num; omega))
    have h0 : dig v 0 = smod a.val 2 := by
      rw [hE.low 0 (by omega), dig_set _ _ _ _ (by omega), if_pos rfl]
    obtain ⟨S, eS, hS⟩ := run v e (fun j => by
      rcases Nat.eq_zero_or_pos j with rfl | hj
      · right
        rw [h0]
        have := smod_odd a.val 2 (by omega) (by omega)
        have := smod_bounds a.val 2 (by omega)
        norm_num at this ⊢
        omega
      · exact hE.digits j hj)
    rw [(over_digits (by omega) hE).2, show smod a.val 2 + 2 * (k : ℤ) = (a.val : ℤ) - ell - 1 by omega] at hS
    exact ⟨S, eS, hS⟩

end generic

/-- C105: multiplication with the non-adjacent form, for scalars from `L` up to `2L`. It looks at 250 digits. It is
right for scalars that are not 3 modulo 4 and below `2^251 / 3`. -/
theorem C105_naf_mul (c : Cfg) (hc : c.Enough) {P : EdPoint} {Q : ProjPoint} {A B : E} (hP : P.Rep A)
    (hQ : Q.Rep B) (a : Sc) (ha : a.WF) (hl1 : ell ≤ a.val) (hl2 : a.val < 2 * ell) :
    ∃ z : ℤ, (z = if a.val % 4 = 3 then (a.val : ℤ) - ell - 1 else if 3 * a.val < 2 ^ 251 then (a.val : ℤ)
      else (a.val : ℤ) - 2 ^ 250) ∧
    (∃ S, binaryNafMul Ed.ops c P a = .ok S ∧ S.Rep (z • A)) ∧
    (∃ S, binaryNafMul Proj.ops c Q a = .ok S ∧ S.Rep (z • B)) ∧
    (∃ S, binaryNafMul Ristretto.ops c P a = .ok S ∧ S.Rep (z • A)) := by
  obtain ⟨e1, e2, e3⟩ := nafMul_double Ed.opsSpec c hc hP a ha hl1 hl2
  obtain ⟨p1, p2, p3⟩ := nafMul_double Proj.opsSpec c hc hQ a ha hl1 hl2
  obtain ⟨r1, r2, r3⟩ := nafMul_double Ristretto.opsSpec c hc hP a ha hl1 hl2
  refine ⟨_, rfl, ?_⟩
  split_ifs with h h'
  · exact ⟨e3 h, p3 h, r3 h⟩
  · rw [natCast_zsmul, natCast_zsmul]
    exact ⟨e1 h h', p1 h h', r1 h h'⟩
  · exact ⟨e2 h (by omega), p2 h (by omega), r2 h (by omega)⟩

/-- C105: multiplying by the public constant `L` with the operator gives the identity for every point of the
subgroup; with the non-adjacent form it gives the negative of the point. -/
theorem C105_order (c : Cfg) (hc : c.Enough) {P : EdPoint} {A : E} (hP : P.Rep A) :
    (∃ S, binaryNafMul Ed.ops c P Scalar.L = .ok S ∧ S.Rep (-A)) ∧
    (∃ S, Ed.mul c P Scalar.L = .ok S ∧ S.Rep (ell • A)) := by
  obtain ⟨z, hz, h, _, _⟩ := C105_naf_mul c hc hP (Proj.ofEd_rep hP) Scalar.L L_WF (by rw [L_val])
    (by rw [L_val]; have := ell_big; omega)
  rw [if_pos (by decide), L_val] at hz
  rw [show z = -1 by omega, neg_one_zsmul] at h
  refine ⟨h, ?_⟩
  have := C45_extended c hc hP Scalar.L L_WF (by decide)
  rwa [L_val] at this

/-- C105: on the base point the two multiplications agree exactly for scalars that are not 3 modulo 4 and below
`2^251 / 3`. -/
theorem C105_agree (c : Cfg) (hc : c.Enough) (a : Sc) (ha : a.WF) (hl1 : ell ≤ a.val) (hl2 : a.val < 2 * ell) :
    (do
      let x ← binaryNafMul Ed.ops c Ed.BASEPOINT a
      let y ← Ed.mul c Ed.BASEPOINT a
      Ed.ctEq c x y) = .ok (decide (a.val % 4 ≠ 3 ∧ 3 * a.val < 2 ^ 251)) := by
  obtain ⟨z, hz, ⟨x, ex, hx⟩, _, _⟩ := C105_naf_mul c hc BASEPOINT_rep (Proj.ofEd_rep BASEPOINT_rep) a ha hl1 hl2
  have h6 := ell_lt_tight
  obtain ⟨y, ey, hy⟩ := C45_extended c hc BASEPOINT_rep a ha (by omega)
  obtain ⟨t, et, ht⟩ := Ed_ctEq_iff c hc hx hy
  rw [ex, Res.ok_bind, ey, Res.ok_bind, et, Res.ok_inj, Bool.eq_iff_iff, ht, decide_eq_true_eq]
  have hsub : z • Bpt = a.val • Bpt ↔ (ell : ℤ) ∣ z - a.val := by
    rw [← natCast_zsmul, ← sub_eq_zero, ← sub_smul, ← addOrderOf_dvd_iff_zsmul_eq_zero, Bpt_order]
  rw [hsub, hz]
  split_ifs with h h'
  · refine iff_of_false (fun hd => ?_) (fun h2 => h2.1 h)
    have : (ell : ℤ) ∣ 1 := by
      have e : (1 : ℤ) = -((a.val : ℤ) - ell - 1 - a.val) - ell := by ring
      rw [e]
      exact dvd_sub (dvd_neg.2 hd) (dvd_refl _)
    have := Int.natCast_dvd_natCast.1 (show (ell : ℤ) ∣ ((1 : ℕ) : ℤ) from this)
    exact absurd (Nat.le_of_dvd one_pos this) (by decide)
  · exact iff_of_true (by rw [sub_self]; exact dvd_zero _) ⟨h, h'⟩
  · refine iff_of_false (fun hd => ?_) (fun h2 => h' h2.2)
    have h8 : (ell : ℤ) ∣ ((2 ^ 250 : ℕ) : ℤ) := by
      have e : ((2 ^ 250 : ℕ) : ℤ) = -((a.val : ℤ) - 2 ^ 250 - a.val) := by push_cast; ring
      rw [e]
      exact dvd_neg.2 hd
    have h9 := Int.natCast_dvd_natCast.1 h8
    exact absurd (Nat.mod_eq_zero_of_dvd h9) (by decide)

/-- `L + 1` is right, `L` and `2L - 2` are not. -/
example : (lPlusOne.val % 4 ≠ 3 ∧ 3 * lPlusOne.val < 2 ^ 251) ∧ Scalar.L.val % 4 = 3 ∧
    ell ≤ 2 * ell - 2 ∧ ¬ 3 * (2 * ell - 2) < 2 ^ 251 := by decide

end Props
end Zerocaf
