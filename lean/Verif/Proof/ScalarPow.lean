import Verif.Proof.Ops
import Verif.Proof.Bytes
import Verif.Proof.Primality

/-!
# Scalar exponentiation, small conversions and bits
-/

set_option exponentiation.threshold 600

namespace Zerocaf
namespace Scalar

theorem half_even (c : Cfg) (a : Sc) (ha : a.SCanon) (h2 : a.val % 2 = 0) :
    ∃ r, half c a = .ok r ∧ r.SCanon ∧ r.val = a.val / 2 := by
  obtain ⟨r, e, hr, v⟩ := half_spec c a ha.1
  refine ⟨r, e, hr, ?_⟩
  have h1 := hr.2
  have h3 := ha.2
  rw [Nat.mod_eq_of_lt h3] at v
  have ho : ell % 2 = 1 := by decide
  generalize ell = l at *
  rcases lt_or_ge (2 * r.val) l with h | h
  · rw [Nat.mod_eq_of_lt h] at v; omega
  · rw [Nat.mod_eq_sub_mod h, Nat.mod_eq_of_lt (by omega)] at v; omega

theorem sub_one (c : Cfg) (a : Sc) (ha : a.SCanon) (h : 1 ≤ a.val) :
    ∃ r, sub c a one = .ok r ∧ r.SCanon ∧ r.val = a.val - 1 := by
  obtain ⟨r, e, hr, v⟩ := sub_spec c a one ha one_canon
  refine ⟨r, e, hr, ?_⟩
  rw [v, one_val]
  have := ha.2
  generalize ell = l at *
  rw [Nat.mod_eq_sub_mod (by omega), Nat.mod_eq_of_lt (by omega)]; omega

theorem powLoop_spec (c : Cfg) : ∀ (n fuel : Nat) (base r e : Sc),
    base.WF → r.SCanon → e.SCanon → e.val < 2 ^ n → n < fuel →
    ∃ s, powLoop c fuel base r e = .ok s ∧ s.SCanon ∧ s.val = r.val * base.val ^ e.val % ell := by
  intro n
  induction n with
  | zero =>
    intro fuel base r e hb hr he hn hf
    obtain ⟨f, rfl⟩ : ∃ f, fuel = f + 1 := ⟨fuel - 1, by omega⟩
    have h0 : e.val = 0 := by simpa using hn
    have hg : gt e zero = false := by
      rw [gt_spec e zero he.1 zero_canon.1, zero_val, h0]; rfl
    rw [powLoop, hg, h0, pow_zero, mul_one]
    exact ⟨r, rfl, hr, (Nat.mod_eq_of_lt hr.2).symm⟩
  | succ n ih =>
    intro fuel base r e hb hr he hn hf
    obtain ⟨f, rfl⟩ : ∃ f, fuel = f + 1 := ⟨fuel - 1, by omega⟩
    have hn' : e.val < 2 * 2 ^ n := by rw [pow_succ] at hn; omega
    rw [powLoop, gt_spec e zero he.1 zero_canon.1, zero_val, isEven_spec]
    by_cases h0 : e.val = 0
    · rw [h0, pow_zero, mul_one]
      exact ⟨r, rfl, hr, (Nat.mod_eq_of_lt hr.2).symm⟩
    · rw [decide_eq_true (show 0 < e.val by omega)]
      obtain ⟨b', eb, cb, vb⟩ := square_spec c base hb
      by_cases h2 : e.val % 2 = 0
      · simp only [h2, decide_true, if_true]
        obtain ⟨wh, vh⟩ := halfWithoutMod_spec e he.1
        rw [eb, Res.ok_bind]
        obtain ⟨s, es, cs, vs⟩ := ih f b' r (halfWithoutMod e) cb.1 hr
          ⟨wh, by have h5 := he.2; show (Field.halfWithoutMod e).val < ell; rw [vh]; omega⟩
          (by show (Field.halfWithoutMod e).val < _; rw [vh]; omega) (by omega)
        refine ⟨s, es, cs, ?_⟩
        rw [vs, show (halfWithoutMod e).val = e.val / 2 from vh, vb]
        have : base.val ^ e.val = (base.val * base.val) ^ (e.val / 2) := by
          rw [← pow_two, ← pow_mul, show 2 * (e.val / 2) = e.val by omega]
        rw [this]
        exact Nat.ModEq.mul_left _ ((Nat.mod_modEq _ _).pow _)
      · simp only [h2, decide_false, if_true, Bool.false_eq_true, if_false]
        obtain ⟨e1, ee, ce, ve⟩ := sub_one c e he (by omega)
        obtain ⟨r', er, cr, vr⟩ := mul_spec c r base hr.1 hb
        obtain ⟨e2, ee2, ce2, ve2⟩ := half_even c e1 ce (by omega)
        rw [ee, Res.ok_bind, er, Res.ok_bind, ee2, Res.ok_bind, eb, Res.ok_bind]
        obtain ⟨s, es, cs, vs⟩ := ih f b' r' e2 cb.1 cr ce2 (by omega) (by omega)
        refine ⟨s, es, cs, ?_⟩
        rw [vs, ve2, ve, vb, vr]
        have : r.val * base.val ^ e.val = (r.val * base.val) * (base.val * base.val) ^ ((e.val - 1) / 2) := by
          rw [← pow_two, ← pow_mul, mul_assoc, ← pow_succ',
            show 2 * ((e.val - 1) / 2) + 1 = e.val by omega]
        rw [this]
        exact Nat.ModEq.mul (Nat.mod_modEq _ _) ((Nat.mod_modEq _ _).pow _)

theorem pow_spec (c : Cfg) (hc : c.Enough) (a e : Sc) (ha : a.WF) (he : e.SCanon) :
    ∃ s, pow c a e = .ok s ∧ s.SCanon ∧ s.val = a.val ^ e.val % ell := by
  unfold Cfg.Enough at hc
  obtain ⟨s, es, cs, vs⟩ := powLoop_spec c 250 c.fuel a one e ha one_canon he
    (lt_trans he.2 ell_lt) (by omega)
  exact ⟨s, es, cs, by rw [vs, one_val, Nat.one_mul]⟩

/-! ### `From<i8>` -/

theorem small_canon (n : Nat) (h : n < 256) : (⟨n, 0, 0, 0, 0⟩ : Sc).SCanon := by
  unfold L5.SCanon L5.WF L5.val ell
  refine ⟨?_, ?_⟩ <;> dsimp only <;> omega

theorem fromI8_spec (c : Cfg) (x : Int) (h1 : -127 ≤ x) (h2 : x ≤ 127) :
    ∃ r, fromI8 c x = .ok r ∧ r.SCanon ∧ (r.val : Int) = x % ell := by
  unfold fromI8
  by_cases h : 0 ≤ x
  · rw [if_pos h]
    refine ⟨_, rfl, small_canon _ (by omega), ?_⟩
    have : (⟨x.toNat, 0, 0, 0, 0⟩ : Sc).val = x.toNat := by simp [L5.val]
    rw [this, Int.emod_eq_of_lt h (lt_of_le_of_lt h2 (by decide))]; omega
  · rw [if_neg h]
    have e : chkI8 c (-x) = .ok (-x) := by
      unfold chkI8; rw [if_pos (by omega)]
    rw [e, Res.ok_bind]
    have hx : (-x % 2 ^ 64).toNat = (-x).toNat := by omega
    rw [hx]
    obtain ⟨r, er, cr, vr⟩ := neg_spec c ⟨(-x).toNat, 0, 0, 0, 0⟩ (small_canon _ (by omega))
    refine ⟨r, er, cr, ?_⟩
    have : (⟨(-x).toNat, 0, 0, 0, 0⟩ : Sc).val = (-x).toNat := by simp [L5.val]
    rw [vr, this]
    have hl : (256 : ℕ) < ell := by decide
    generalize ell = l at *
    rw [Nat.mod_eq_of_lt (by omega), ← Int.add_emod_right, Int.emod_eq_of_lt (by omega) (by omega)]
    omega

/-! ### Bits -/

theorem leNat_digit : ∀ (l : List UInt8) (k : Nat) (h : k < l.length),
    leNat l / 256 ^ k % 256 = l[k].toNat
  | [], k, h => by simp at h
  | b :: bs, 0, h => by
    have := u8_lt b
    simp only [leNat, pow_zero, Nat.div_one, List.getElem_cons_zero]; omega
  | b :: bs, k + 1, h => by
    have := u8_lt b
    simp only [leNat, List.getElem_cons_succ]
    rw [← leNat_digit bs k (by simpa using h), pow_succ', ← Nat.div_div_eq_div_mul,
      show (b.toNat + 256 * leNat bs) / 256 = leNat bs by omega]

theorem bits_sum (v n : Nat) : ∑ j ∈ Finset.range n, v / 2 ^ j % 2 * 2 ^ j = v % 2 ^ n := by
  induction n with
  | zero => simp [Nat.mod_one]
  | succ n ih => rw [Finset.sum_range_succ, ih, Nat.mod_pow_succ, Nat.mul_comm (2 ^ n)]

theorem intoBits_getElem (a : Sc) (j : Nat) (h : j < 256) :
    (intoBits a)[j].toNat = bytesVal (toBytes a) / 2 ^ j % 2 := by
  unfold intoBits
  simp only [Vector.getElem_ofFn]
  have hd := leNat_digit (toBytes a).toList (j / 8) (by simp; omega)
  rw [Vector.getElem_toList] at hd
  rw [← hd, Nat.shiftRight_eq_div_pow]
  have e : leNat (toBytes a).toList / 256 ^ (j / 8) % 256 / 2 ^ (j % 8) % 2 =
      bytesVal (toBytes a) / 2 ^ j % 2 := by
    unfold bytesVal
    generalize leNat (toBytes a).toList = v
    have e1 : 256 ^ (j / 8) * 2 ^ (j % 8) = 2 ^ j := by
      rw [show 256 = 2 ^ 8 from rfl, ← pow_mul, ← pow_add, Nat.div_add_mod]
    rw [← e1, ← Nat.div_div_eq_div_mul]
    generalize v / 256 ^ (j / 8) = u
    have h8 : j % 8 < 8 := Nat.mod_lt _ (by decide)
    have e2 : (256 : ℕ) = 2 ^ (j % 8) * 2 ^ (8 - j % 8) := by
      rw [← pow_add, Nat.add_sub_cancel' h8.le]; rfl
    rw [e2, Nat.mod_mul_right_div_self, Nat.mod_mod_of_dvd]
    exact dvd_pow_self 2 (by omega)
  rw [e]
  have := Nat.mod_two_eq_zero_or_one (bytesVal (toBytes a) / 2 ^ j)
  rcases this with h | h <;> rw [h] <;> rfl

theorem intoBits_spec (a : Sc) (ha : a.WF) (h : a.val < 2 ^ 256) :
    (∀ j (hj : j < 256), (intoBits a)[j].toNat = a.val / 2 ^ j % 2) ∧
    ∑ j : Fin 256, (intoBits a)[j].toNat * 2 ^ j.val = a.val := by
  have e : ∀ j (hj : j < 256), (intoBits a)[j].toNat = a.val / 2 ^ j % 2 := by
    intro j hj
    rw [intoBits_getElem, toBytes_eq, Field.toBytes_spec a ha h]
  refine ⟨e, ?_⟩
  have : ∀ j : Fin 256, (intoBits a)[j].toNat * 2 ^ j.val = a.val / 2 ^ j.val % 2 * 2 ^ j.val := by
    intro j
    have := e j.val j.isLt
    rw [← this]; rfl
  rw [Finset.sum_congr rfl (fun j _ => this j),
    Fin.sum_univ_eq_sum_range (fun j => a.val / 2 ^ j % 2 * 2 ^ j) 256, bits_sum, Nat.mod_eq_of_lt h]

end Scalar
end Zerocaf
