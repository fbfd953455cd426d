import Verif.Proof.Naf
import Verif.Proof.Pow
import Verif.Props.Field

/-!
# Properties C24-C36: scalars
-/

set_option exponentiation.threshold 600

namespace Zerocaf
namespace Props

open Zerocaf.Scalar

/-! ### C24 -/

/-- Both computations succeed with the same value. -/
def Agree {α : Type} (x y : Res α) : Prop := ∃ r, x = .ok r ∧ y = .ok r

/-- C24: field operations on canonical inputs never panic and do not depend on the build profile. -/
theorem C24_field (c c' : Cfg) (a b : FE) (ha : a.Canon) (hb : b.Canon) :
    Agree (Field.add c a b) (Field.add c' a b) ∧ Agree (Field.sub c a b) (Field.sub c' a b) ∧
    Agree (Field.neg c a) (Field.neg c' a) ∧ Agree (Field.mul c a b) (Field.mul c' a b) ∧
    Agree (Field.square c a) (Field.square c' a) ∧ Agree (Field.half c a) (Field.half c' a) := by
  rw [← ha.enc, ← hb.enc]
  have w := enc_WF a.toZ
  exact ⟨⟨_, Field.add_enc _ _ _, Field.add_enc _ _ _⟩, ⟨_, Field.sub_enc _ _ _, Field.sub_enc _ _ _⟩,
    ⟨_, Field.neg_enc _ _, Field.neg_enc _ _⟩, ⟨_, Field.mul_enc _ _ _, Field.mul_enc _ _ _⟩,
    ⟨_, Field.square_enc _ _, Field.square_enc _ _⟩, ⟨_, Field.half_wf _ _ w, Field.half_wf _ _ w⟩⟩

/-- C24: field exponentiation and inversion (of a nonzero element) likewise. -/
theorem C24_field_loops (c c' : Cfg) (hc : c.Enough) (hc' : c'.Enough) (a b : FE) (ha : a.Canon)
    (hb : b.Canon) : Agree (Field.pow c a b) (Field.pow c' a b) ∧
    (a.val ≠ 0 → Agree (Field.inverse c a) (Field.inverse c' a)) := by
  refine ⟨⟨_, Field.pow_wf c hc a b ha.1 hb.1, Field.pow_wf c' hc' a b ha.1 hb.1⟩, fun h0 => ?_⟩
  have hz : a.toZ ≠ 0 := fun h => h0 (by
    have := toZ_val a
    rw [h, ZMod.val_zero, Nat.mod_eq_of_lt ha.2] at this
    exact this.symm)
  exact ⟨_, Field.inverse_wf c hc a ha.1 (Field.canon_lt256 ha) hz,
    Field.inverse_wf c' hc' a ha.1 (Field.canon_lt256 ha) hz⟩

theorem agree_of {x y : Res Sc} {n : Nat} (hx : ∃ r, x = .ok r ∧ r.SCanon ∧ r.val = n)
    (hy : ∃ r, y = .ok r ∧ r.SCanon ∧ r.val = n) : Agree x y := by
  obtain ⟨r, er, cr, vr⟩ := hx
  obtain ⟨s, es, cs, vs⟩ := hy
  exact ⟨r, er, by rw [es, cs.1.ext cr.1 (by rw [vr, vs])]⟩

/-- C24: scalar operations on canonical inputs never panic and do not depend on the build profile. -/
theorem C24_scalar (c c' : Cfg) (a b : Sc) (ha : a.SCanon) (hb : b.SCanon) :
    Agree (Scalar.add c a b) (Scalar.add c' a b) ∧ Agree (Scalar.sub c a b) (Scalar.sub c' a b) ∧
    Agree (Scalar.neg c a) (Scalar.neg c' a) ∧ Agree (Scalar.mul c a b) (Scalar.mul c' a b) ∧
    Agree (Scalar.square c a) (Scalar.square c' a) ∧ Agree (Scalar.half c a) (Scalar.half c' a) :=
  ⟨agree_of (Scalar.add_spec c a b ha hb) (Scalar.add_spec c' a b ha hb),
    agree_of (Scalar.sub_spec c a b ha hb) (Scalar.sub_spec c' a b ha hb),
    agree_of (Scalar.neg_spec c a ha) (Scalar.neg_spec c' a ha),
    agree_of (Scalar.mul_spec c a b ha.1 hb.1) (Scalar.mul_spec c' a b ha.1 hb.1),
    agree_of (Scalar.square_spec c a ha.1) (Scalar.square_spec c' a ha.1),
    agree_of (Scalar.mul_spec c a _ ha.1 Scalar.INVERSE_MOD_TWO_spec.1)
      (Scalar.mul_spec c' a _ ha.1 Scalar.INVERSE_MOD_TWO_spec.1)⟩

/-- C24: scalar exponentiation likewise. -/
theorem C24_scalar_pow (c c' : Cfg) (hc : c.Enough) (hc' : c'.Enough) (a b : Sc) (ha : a.SCanon)
    (hb : b.SCanon) : Agree (Scalar.pow c a b) (Scalar.pow c' a b) :=
  agree_of (Scalar.pow_spec c hc a b ha.1 hb) (Scalar.pow_spec c' hc' a b ha.1 hb)

example : dbg.debug ≠ rel.debug ∧ Field.minusOne.Canon ∧ Scalar.minusOne.SCanon ∧
    Field.add dbg Field.minusOne Field.minusOne = Field.add rel Field.minusOne Field.minusOne := by decide

/-! ### C25 -/

/-- C25: scalar addition is addition modulo `L`. -/
theorem C25_add (c : Cfg) (a b : Sc) (ha : a.SCanon) (hb : b.SCanon) :
    ∃ r, Scalar.add c a b = .ok r ∧ r.SCanon ∧ r.val = (a.val + b.val) % ell := Scalar.add_spec c a b ha hb

example : Scalar.minusOne.SCanon ∧ (⟨5, 0, 0, 0, 0⟩ : Sc).SCanon ∧
    Scalar.add dbg Scalar.minusOne ⟨5, 0, 0, 0, 0⟩ = .ok ⟨4, 0, 0, 0, 0⟩ := by decide

/-! ### C26 -/

/-- C26: scalar subtraction is subtraction modulo `L`. -/
theorem C26_sub (c : Cfg) (a b : Sc) (ha : a.SCanon) (hb : b.SCanon) :
    ∃ r, Scalar.sub c a b = .ok r ∧ r.SCanon ∧ (r.val : ℤ) = ((a.val : ℤ) - b.val) % ell := by
  obtain ⟨r, e, h, v⟩ := Scalar.sub_spec c a b ha hb
  refine ⟨r, e, h, ?_⟩
  have hb' := hb.2
  rw [v, ← Int.add_emod_right]
  have : ((a.val : ℤ) - b.val + ell) = ((a.val + ell - b.val : ℕ) : ℤ) := by omega
  rw [this]
  exact Int.natCast_mod _ _

/-- C26: scalar negation is negation modulo `L`. -/
theorem C26_neg (c : Cfg) (a : Sc) (ha : a.SCanon) :
    ∃ r, Scalar.neg c a = .ok r ∧ r.SCanon ∧ (r.val : ℤ) = (-(a.val : ℤ)) % ell := by
  obtain ⟨r, e, h, v⟩ := Scalar.neg_spec c a ha
  refine ⟨r, e, h, ?_⟩
  have ha' := ha.2
  rw [v, ← Int.add_emod_right]
  have : (-(a.val : ℤ) + ell) = ((ell - a.val : ℕ) : ℤ) := by omega
  rw [this]
  exact Int.natCast_mod _ _

example : (⟨1, 0, 0, 0, 0⟩ : Sc).SCanon ∧ (⟨2, 0, 0, 0, 0⟩ : Sc).SCanon ∧
    Scalar.sub dbg ⟨1, 0, 0, 0, 0⟩ ⟨2, 0, 0, 0, 0⟩ = .ok Scalar.minusOne ∧
    Scalar.neg dbg Scalar.zero = .ok Scalar.zero := by decide

/-! ### C27 -/

/-- C27: scalar multiplication is multiplication modulo `L` for all inputs with 52-bit limbs. -/
theorem C27_mul (c : Cfg) (a b : Sc) (ha : a.WF) (hb : b.WF) :
    ∃ r, Scalar.mul c a b = .ok r ∧ r.SCanon ∧ r.val = a.val * b.val % ell := Scalar.mul_spec c a b ha hb

/-- C27: squaring returns exactly what multiplication returns. -/
theorem C27_square (c : Cfg) (a : Sc) (ha : a.WF) :
    Scalar.square c a = Scalar.mul c a a ∧
    ∃ r, Scalar.square c a = .ok r ∧ r.SCanon ∧ r.val = a.val ^ 2 % ell := by
  obtain ⟨r, er, cr, vr⟩ := Scalar.square_spec c a ha
  obtain ⟨s, es, cs, vs⟩ := Scalar.mul_spec c a a ha ha
  refine ⟨?_, r, er, cr, by rw [vr, pow_two]⟩
  rw [er, es, cr.1.ext cs.1 (by rw [vr, vs])]

example : (⟨2 ^ 52 - 1, 2 ^ 52 - 1, 2 ^ 52 - 1, 2 ^ 52 - 1, 2 ^ 52 - 1⟩ : Sc).WF ∧
    ¬ (⟨2 ^ 52 - 1, 2 ^ 52 - 1, 2 ^ 52 - 1, 2 ^ 52 - 1, 2 ^ 52 - 1⟩ : Sc).SCanon ∧
    Scalar.mul dbg Scalar.minusOne Scalar.minusOne = .ok Scalar.one := by decide +kernel

/-! ### C28 -/

/-- C28: modular halving. -/
theorem C28_half (c : Cfg) (a : Sc) (ha : a.WF) :
    ∃ r, Scalar.half c a = .ok r ∧ r.SCanon ∧ 2 * r.val % ell = a.val % ell := Scalar.half_spec c a ha

/-- C28: plain halving. -/
theorem C28_half_without_mod (a : Sc) (ha : a.WF) :
    (Scalar.halfWithoutMod a).WF ∧ (Scalar.halfWithoutMod a).val = a.val / 2 := halfWithoutMod_spec a ha

/-- C28: right shift by any amount. -/
theorem C28_shr (a : Sc) (n : Nat) (ha : a.WF) :
    (Scalar.shr a n).WF ∧ (Scalar.shr a n).val = a.val / 2 ^ n := Scalar.shr_spec a n ha

example : Scalar.minusOne.WF ∧ Scalar.shr Scalar.minusOne 249 = Scalar.one := by decide +kernel

/-! ### C29 -/

/-- C29: scalar exponentiation. -/
theorem C29_pow (c : Cfg) (hc : c.Enough) (a e : Sc) (ha : a.WF) (he : e.SCanon) :
    ∃ r, Scalar.pow c a e = .ok r ∧ r.SCanon ∧ r.val = a.val ^ e.val % ell := Scalar.pow_spec c hc a e ha he

example : dbg.Enough ∧ (⟨3, 0, 0, 0, 0⟩ : Sc).WF ∧ (⟨4, 0, 0, 0, 0⟩ : Sc).SCanon ∧
    Scalar.pow dbg ⟨3, 0, 0, 0, 0⟩ ⟨4, 0, 0, 0, 0⟩ = .ok ⟨81, 0, 0, 0, 0⟩ := by decide +kernel

/-! ### C30 -/

/-- C30: decoding accepts exactly the integers below `L`. -/
theorem C30_from_bytes (b : Bytes32) :
    (bytesVal b < ell → ∃ r, Scalar.fromBytes b = .ok r ∧ r.SCanon ∧ r.val = bytesVal b) ∧
    (ell ≤ bytesVal b → Scalar.fromBytes b = .panic) := ⟨Scalar.fromBytes_ok b, Scalar.fromBytes_panic b⟩

/-- C30: encoding is the little-endian value and decoding inverts it. -/
theorem C30_to_bytes (a : Sc) (ha : a.SCanon) :
    bytesVal (Scalar.toBytes a) = a.val ∧ Scalar.fromBytes (Scalar.toBytes a) = .ok a :=
  ⟨Scalar.toBytes_spec a ha, Scalar.fromBytes_toBytes a ha⟩

/-- C30: accepted byte strings are reproduced. -/
theorem C30_roundtrip (b : Bytes32) (r : Sc) (h : Scalar.fromBytes b = .ok r) : Scalar.toBytes r = b := by
  rcases Nat.lt_or_ge (bytesVal b) ell with hl | hl
  · obtain ⟨r', e, cr, v⟩ := Scalar.fromBytes_ok b hl
    rw [e, Res.ok_inj] at h
    subst h
    exact bytesVal_inj (by rw [Scalar.toBytes_spec _ cr, v])
  · rw [Scalar.fromBytes_panic b hl] at h; cases h

example : Scalar.minusOne.SCanon ∧ bytesVal (Scalar.toBytes Scalar.L) = ell ∧
    Scalar.fromBytes (Scalar.toBytes Scalar.L) = .panic := by decide +kernel

/-! ### C31 -/

/-- C31: the bits of a scalar below `2^256`. -/
theorem C31_into_bits (a : Sc) (ha : a.WF) (h : a.val < 2 ^ 256) :
    (∀ j : Fin 256, (Scalar.intoBits a)[j] = 0 ∨ (Scalar.intoBits a)[j] = 1) ∧
    ∑ j : Fin 256, (Scalar.intoBits a)[j].toNat * 2 ^ j.val = a.val := by
  obtain ⟨h1, h2⟩ := Scalar.intoBits_spec a ha h
  refine ⟨fun j => ?_, h2⟩
  have e : (Scalar.intoBits a)[j].toNat = a.val / 2 ^ j.val % 2 := h1 j.val j.isLt
  rcases Nat.mod_two_eq_zero_or_one (a.val / 2 ^ j.val) with h | h
  · left; exact UInt8.toNat_inj.1 (by rw [e, h]; rfl)
  · right; exact UInt8.toNat_inj.1 (by rw [e, h]; rfl)

example : Scalar.minusOne.WF ∧ Scalar.minusOne.val < 2 ^ 256 := by decide

/-! ### C32, C33 -/

/-- The integer a signed digit vector denotes. -/
def digitSum (v : Vector Int 256) : Int := ∑ j : Fin 256, v[j] * 2 ^ j.val

/-- `v` is a width-`w` non-adjacent form: digits are zero or odd and below `2^(w-1)` in absolute value,
and among any `w` consecutive digits at most one is nonzero. -/
def IsNAF (w : Nat) (v : Vector Int 256) : Prop :=
  (∀ j : Fin 256, v[j] = 0 ∨ (v[j] % 2 = 1 ∧ |v[j]| < 2 ^ (w - 1))) ∧
  (∀ j k : Fin 256, j < k → k.val < j.val + w → v[j] = 0 ∨ v[k] = 0)

theorem dig_fin (v : Vector Int 256) (j : Fin 256) : dig v j.val = v[j] := by
  unfold dig; rw [dif_pos j.isLt]; rfl

theorem expands_naf {w n k : Nat} {out : Vector Int 256} (hn : n ≤ 256)
    (h : Expands w n 0 k (Vector.replicate 256 0) out) :
    IsNAF w out ∧ digitSum out = k ∧ ∀ j : Fin 256, n ≤ j.val → out[j] = 0 := by
  have hs := h.sum
  refine ⟨⟨fun j => ?_, fun j k hjk hk => ?_⟩, ?_, fun j hj => ?_⟩
  · rw [← dig_fin]
    rcases h.digits j.val (by omega) with h0 | ⟨h1, h2, h3⟩
    · exact Or.inl h0
    · exact Or.inr ⟨h1, abs_lt.2 ⟨h2, h3⟩⟩
  · rw [← dig_fin, ← dig_fin]
    by_cases h0 : dig out j.val = 0
    · exact Or.inl h0
    · right
      have hjk' : j.val < k.val := hjk
      have := h.sparse j.val (by omega) h0 (k.val - j.val) (by omega) (by omega)
      rwa [show j.val + (k.val - j.val) = k.val by omega] at this
  · unfold digitSum
    rw [← hs, Finset.sum_congr rfl (fun (j : Fin 256) _ => by rw [← dig_fin]),
      Fin.sum_univ_eq_sum_range (fun j => dig out j * 2 ^ j) 256]
    simp only [Nat.zero_add]
    symm
    apply Finset.sum_subset (Finset.range_subset_range.2 hn)
    intro j _ hj
    rw [Finset.mem_range] at hj
    rw [h.high j (by omega), zero_mul]
  · rw [← dig_fin]; exact h.high j.val (by omega)

/-- C32: the non-adjacent form. Width 2 digits lie in `{-1, 0, 1}`. -/
theorem C32_naf (c : Cfg) (hc : c.Enough) (a : Sc) (ha : a.SCanon) :
    ∃ v, Scalar.computeNAF c a = .ok v ∧ digitSum v = a.val ∧
      (∀ j : Fin 256, v[j] = -1 ∨ v[j] = 0 ∨ v[j] = 1) ∧
      (∀ j k : Fin 256, k.val = j.val + 1 → v[j] = 0 ∨ v[k] = 0) ∧
      (∀ j : Fin 256, 250 ≤ j.val → v[j] = 0) := by
  obtain ⟨v, e, h⟩ := Scalar.computeNAF_spec c hc a ha
  obtain ⟨⟨h1, h2⟩, h3, h4⟩ := expands_naf (by omega) h
  refine ⟨v, e, h3, fun j => ?_, fun j k hk => ?_, h4⟩
  · rcases h1 j with h0 | ⟨ho, hb⟩
    · exact Or.inr (Or.inl h0)
    · generalize v[j] = x at *
      have := abs_lt.1 hb
      norm_num at this
      omega
  · exact h2 j k (Fin.lt_def.2 (by omega)) (by omega)

/-- The first digits of an expansion (for the examples). -/
def firstDigits (n : Nat) : Res (Vector Int 256) → List Int
  | .ok v => v.toList.take n
  | _ => []

example : Scalar.minusOne.SCanon ∧
    firstDigits 5 (Scalar.computeNAF dbg ⟨7, 0, 0, 0, 0⟩) = [-1, 0, 0, 1, 0] := by decide +kernel

/-- C33: the windowed non-adjacent form for widths 2 to 5. -/
theorem C33_window_naf (c : Cfg) (hc : c.Enough) (w : Nat) (h1 : 2 ≤ w) (h2 : w ≤ 5) (a : Sc)
    (ha : a.SCanon) :
    ∃ v, Scalar.computeWindowNAF c a w = .ok v ∧ IsNAF w v ∧ digitSum v = a.val := by
  obtain ⟨v, e, h⟩ := Scalar.computeWindowNAF_spec c hc w h1 h2 a ha
  obtain ⟨h1, h2, _⟩ := expands_naf (by omega) h
  exact ⟨v, e, h1, h2⟩

example : firstDigits 8 (Scalar.computeWindowNAF dbg ⟨39, 0, 0, 0, 0⟩ 4) = [7, 0, 0, 0, 0, 1, 0, 0] := by
  decide +kernel

/-- The scalar `L - 2`. -/
def lMinusTwo : Sc := ⟨Scalar.L.l0 - 2, Scalar.L.l1, Scalar.L.l2, Scalar.L.l3, Scalar.L.l4⟩

example : lMinusTwo.SCanon ∧ lMinusTwo.val = ell - 2 := by decide

theorem sixDigits_sum :
    digitSum ((((Vector.replicate 256 0).set 0 (-31)).set 1 0).set 2 7) = -3 := by decide +kernel

/-- C33: width 6 is wrong: the digits computed for `L - 2` denote `-3`. -/
theorem C33_width_six_wrong (c : Cfg) (hc : c.Enough) :
    ∃ v, Scalar.computeWindowNAF c lMinusTwo 6 = .ok v ∧ digitSum v = -3 ∧
      digitSum v ≠ lMinusTwo.val := by
  have hf : ∃ f, c.fuel = f + 1 + 1 + 1 + 1 := ⟨c.fuel - 4, by unfold Cfg.Enough at hc; omega⟩
  obtain ⟨f, hf⟩ := hf
  have c1 : lMinusTwo.SCanon := by decide
  have o1 : isEven lMinusTwo = false := by decide
  have g1 : ge lMinusTwo Scalar.one = true := by decide
  have d1 : smod lMinusTwo.val 6 = -31 := by decide
  obtain ⟨s, es, cs, vs⟩ := fromI8_spec c (-31) (by omega) (by omega)
  have vs' : s.val = ell - 31 := by
    have : (-31 : ℤ) % ell = ell - 31 := by decide
    rw [this] at vs
    have : 31 < ell := by decide
    omega
  obtain ⟨r, er, cr, vr⟩ := Scalar.sub_spec c lMinusTwo s c1 cs
  have vr' : r.val = 29 := by rw [vr, vs']; decide
  have h1 : Scalar.halfWithoutMod r = ⟨14, 0, 0, 0, 0⟩ := by
    obtain ⟨wh, vh⟩ := halfWithoutMod_spec r cr.1
    exact wh.ext (by decide) (by rw [vh, vr']; rfl)
  have o2 : isEven ⟨14, 0, 0, 0, 0⟩ = true := by decide
  have g2 : ge ⟨14, 0, 0, 0, 0⟩ Scalar.one = true := by decide
  have h2 : Scalar.halfWithoutMod ⟨14, 0, 0, 0, 0⟩ = ⟨7, 0, 0, 0, 0⟩ := by decide
  have o3 : isEven ⟨7, 0, 0, 0, 0⟩ = false := by decide
  have g3 : ge ⟨7, 0, 0, 0, 0⟩ Scalar.one = true := by decide
  have d3 : smod (⟨7, 0, 0, 0, 0⟩ : Sc).val 6 = 7 := by decide
  obtain ⟨s3, es3, cs3, vs3⟩ := fromI8_spec c 7 (by omega) (by omega)
  have vs3' : s3.val = 7 := by
    have : (7 : ℤ) % ell = 7 := by decide
    rw [this] at vs3; omega
  obtain ⟨r3, er3, cr3, vr3⟩ := Scalar.sub_spec c ⟨7, 0, 0, 0, 0⟩ s3 (by decide) cs3
  have vr3' : r3.val = 0 := by rw [vr3, vs3']; decide
  have h3 : Scalar.halfWithoutMod r3 = ⟨0, 0, 0, 0, 0⟩ := by
    obtain ⟨wh, vh⟩ := halfWithoutMod_spec r3 cr3.1
    exact wh.ext (by decide) (by rw [vh, vr3']; rfl)
  have g4 : ge ⟨0, 0, 0, 0, 0⟩ Scalar.one = false := by decide
  have e : Scalar.computeWindowNAF c lMinusTwo 6 =
      .ok ((((Vector.replicate 256 0).set 0 (-31)).set 1 0).set 2 7) := by
    unfold Scalar.computeWindowNAF
    rw [hf, wnafLoop, g1, o1, mods2PowK_spec c _ 6 (by omega) (by omega), d1]
    simp only [if_true, Bool.not_false, Res.ok_bind, es, er, h1,
      setDigit_ok _ 0 _ (show 0 < 256 by omega)]
    rw [wnafLoop, g2, o2]
    simp only [if_true, Bool.not_true, Bool.false_eq_true, if_false, Res.ok_bind, h2,
      setDigit_ok _ (0 + 1) _ (show 0 + 1 < 256 by omega)]
    rw [wnafLoop, g3, o3, mods2PowK_spec c _ 6 (by omega) (by omega), d3]
    simp only [if_true, Bool.not_false, Res.ok_bind, es3, er3, h3,
      setDigit_ok _ (0 + 1 + 1) _ (show 0 + 1 + 1 < 256 by omega)]
    rw [wnafLoop, g4]
    rfl
  have v1 : digitSum ((((Vector.replicate 256 0).set 0 (-31)).set 1 0).set 2 7) = -3 := sixDigits_sum
  refine ⟨_, e, v1, fun h => ?_⟩
  rw [v1] at h
  exact absurd h (by omega)

/-! ### C34 -/

/-- A width for which the digit of every odd number is `-1` never gets rid of the last carry. -/
theorem wnaf_minus_one (c : Cfg) (hc : c.Enough) (w : Nat)
    (hw : ∀ k : Sc, k.val % 2 = 1 → mods2PowK c k w = .ok (-1)) (a : Sc) (ha : a.SCanon) (h0 : a.val ≠ 0) :
    Scalar.computeWindowNAF c a w = .panic := by
  have key : ∀ n fuel (k : Sc) (i : Nat) res, i + n = 256 → n < fuel → k.SCanon → 1 ≤ k.val →
      wnafLoop c w fuel k i res = .panic := by
    intro n
    induction n with
    | zero =>
      intro fuel k i res hi hf hk h1
      obtain ⟨f, rfl⟩ : ∃ f, fuel = f + 1 := ⟨fuel - 1, by omega⟩
      rw [wnafLoop, Scalar.ge_spec k Scalar.one hk.1 Scalar.one_canon.1, Scalar.one_val,
        decide_eq_true h1]
      have hs : ∀ x, setDigit res i x = .panic := by
        intro x; unfold setDigit; rw [dif_neg (by omega)]
      by_cases he : k.val % 2 = 0
      · simp only [Scalar.isEven_spec, he, decide_true, Bool.not_true, Bool.false_eq_true, if_false,
          if_true, hs, Res.panic_bind]
      · have hm : mods2PowK c k w = .ok (-1) := hw k (by omega)
        simp only [Scalar.isEven_spec, he, decide_false, Bool.not_false, if_true, hs, Res.panic_bind,
          hm, Res.ok_bind]
    | succ n ih =>
      intro fuel k i res hi hf hk h1
      obtain ⟨f, rfl⟩ : ∃ f, fuel = f + 1 := ⟨fuel - 1, by omega⟩
      rw [wnafLoop, Scalar.ge_spec k Scalar.one hk.1 Scalar.one_canon.1, Scalar.one_val,
        decide_eq_true h1]
      by_cases he : k.val % 2 = 0
      · obtain ⟨wh, vh⟩ := halfWithoutMod_spec k hk.1
        simp only [Scalar.isEven_spec, he, decide_true, Bool.not_true, Bool.false_eq_true, if_false,
          if_true, setDigit_ok _ _ _ (show i < 256 by omega), Res.ok_bind]
        have h5 := hk.2
        exact ih f _ _ _ (by omega) (by omega)
          ⟨wh, by show (Field.halfWithoutMod k).val < ell; rw [vh]; omega⟩
          (by show 1 ≤ (Field.halfWithoutMod k).val; rw [vh]; omega)
      · have hm : mods2PowK c k w = .ok (-1) := hw k (by omega)
        obtain ⟨s, es, cs, vs⟩ := fromI8_spec c (-1) (by omega) (by omega)
        have vs' : s.val = ell - 1 := by
          have : (-1 : ℤ) % ell = ell - 1 := by decide
          rw [this] at vs
          have : 1 < ell := by decide
          omega
        obtain ⟨r, er, cr, vr⟩ := Scalar.sub_spec c k s hk cs
        have hk2 := hk.2
        have ho : ell % 2 = 1 := by decide
        have vr' : r.val = k.val + 1 := by
          rw [vr, vs']
          have : 1 < ell := by decide
          generalize ell = l at *
          rw [show k.val + l - (l - 1) = k.val + 1 by omega, Nat.mod_eq_of_lt (by omega)]
        obtain ⟨wh, vh⟩ := halfWithoutMod_spec r cr.1
        simp only [Scalar.isEven_spec, he, decide_false, Bool.not_false, if_true,
          setDigit_ok _ _ _ (show i < 256 by omega), Res.ok_bind, hm, es, er]
        have h5 := cr.2
        exact ih f _ _ _ (by omega) (by omega)
          ⟨wh, by show (Field.halfWithoutMod r).val < ell; rw [vh]; omega⟩
          (by show 1 ≤ (Field.halfWithoutMod r).val; rw [vh]; omega)
  unfold Cfg.Enough at hc
  exact key 256 c.fuel a 0 _ (by omega) (by omega) ha (by omega)

/-- C34: width 1 panics for every nonzero scalar. -/
theorem C34_width_one (c : Cfg) (hc : c.Enough) (a : Sc) (ha : a.SCanon) (h0 : a.val ≠ 0) :
    Scalar.computeWindowNAF c a 1 = .panic := by
  refine wnaf_minus_one c hc 1 (fun k hk => ?_) a ha h0
  unfold mods2PowK
  rw [mod2PowK_spec c k 1 (by omega), show k.val % 2 ^ 1 = 1 by omega]; rfl

theorem width_zero_debug (c : Cfg) (hc : c.Enough) (hd : c.debug = true) (a : Sc) (ha : a.SCanon)
    (h0 : a.val ≠ 0) : Scalar.computeWindowNAF c a 0 = .panic := by
  have key : ∀ n fuel (k : Sc) (i : Nat) res, i + n ≤ 256 → n < fuel → k.SCanon → 1 ≤ k.val →
      k.val < 2 ^ n → wnafLoop c 0 fuel k i res = .panic := by
    intro n
    induction n with
    | zero => intro fuel k i res hi hf hk h1 h2; simp at h2; omega
    | succ n ih =>
      intro fuel k i res hi hf hk h1 h2
      obtain ⟨f, rfl⟩ : ∃ f, fuel = f + 1 := ⟨fuel - 1, by omega⟩
      rw [pow_succ] at h2
      rw [wnafLoop, Scalar.ge_spec k Scalar.one hk.1 Scalar.one_canon.1, Scalar.one_val,
        decide_eq_true h1]
      by_cases he : k.val % 2 = 0
      · obtain ⟨wh, vh⟩ := halfWithoutMod_spec k hk.1
        simp only [Scalar.isEven_spec, he, decide_true, Bool.not_true, Bool.false_eq_true, if_false,
          if_true, setDigit_ok _ _ _ (show i < 256 by omega), Res.ok_bind]
        have h5 := hk.2
        exact ih f _ _ _ (by omega) (by omega)
          ⟨wh, by show (Field.halfWithoutMod k).val < ell; rw [vh]; omega⟩
          (by show 1 ≤ (Field.halfWithoutMod k).val; rw [vh]; omega)
          (by show (Field.halfWithoutMod k).val < _; rw [vh]; omega)
      · have hm : mods2PowK c k 0 = .panic := by
          unfold mods2PowK
          rw [mod2PowK_spec c k 0 (by omega)]
          simp [rassert, predU8, hd]
        simp only [Scalar.isEven_spec, he, decide_false, Bool.not_false, if_true, hm, Res.panic_bind]
  unfold Cfg.Enough at hc
  have := ha.2
  have := ell_lt
  exact key 250 c.fuel a 0 _ (by omega) (by omega) ha (by omega) (by omega)

/-- C34: width 0 panics for every nonzero scalar, in overflow-checking builds by an overflow and in wrapping builds
by writing a digit out of bounds. -/
theorem C34_width_zero (c : Cfg) (hc : c.Enough) (a : Sc) (ha : a.SCanon) (h0 : a.val ≠ 0) :
    Scalar.computeWindowNAF c a 0 = .panic := by
  rcases hd : c.debug with _ | _
  · refine wnaf_minus_one c hc 0 (fun k hk => ?_) a ha h0
    unfold mods2PowK
    rw [mod2PowK_spec c k 0 (by omega), pow_zero, Nat.mod_one]
    simp [rassert, predU8, shlI8, shlU8, hd, u8AsI8, chkI8]
  · exact width_zero_debug c hc hd a ha h0

example : Scalar.one.SCanon ∧ Scalar.one.val ≠ 0 ∧ dbg.debug = true := by decide

/-! ### C35 -/

/-- C35: conversion from `i8`, except for `-128`. -/
theorem C35_from_i8 (c : Cfg) (x : Int) (h1 : -127 ≤ x) (h2 : x ≤ 127) :
    ∃ r, Scalar.fromI8 c x = .ok r ∧ r.SCanon ∧ (r.val : Int) = x % ell := fromI8_spec c x h1 h2

/-- C35: `-128` panics in overflow-checking builds. -/
theorem C35_minus_128_debug (c : Cfg) (hd : c.debug = true) : Scalar.fromI8 c (-128) = .panic := by
  simp [Scalar.fromI8, chkI8, hd]

/-- C35: `-128` becomes `+128` in wrapping builds. -/
theorem C35_minus_128_release (c : Cfg) (hd : c.debug = false) :
    ∃ r, Scalar.fromI8 c (-128) = .ok r ∧ r.val = 128 := by
  obtain ⟨d, f⟩ := c
  subst hd
  have h : ∀ x : Sc, Scalar.neg ⟨false, f⟩ x = Scalar.neg ⟨false, 0⟩ x := fun x => rfl
  have h2 : Scalar.fromI8 ⟨false, f⟩ (-128) = Scalar.neg ⟨false, 0⟩ ⟨18446744073709551488, 0, 0, 0, 0⟩ := by
    rw [← h]; simp [Scalar.fromI8, chkI8]
  have h3 : Scalar.neg ⟨false, 0⟩ ⟨18446744073709551488, 0, 0, 0, 0⟩ = .ok ⟨128, 0, 0, 0, 0⟩ := by
    decide +kernel
  exact ⟨_, h2.trans h3, by decide⟩

example : Scalar.fromI8 dbg (-1) = .ok Scalar.minusOne := by decide

/-! ### C36 -/

/-- C36: residues modulo `2^k` up to `k = 8`. -/
theorem C36_mod_2_pow_k (c : Cfg) (a : Sc) (k : Nat) (hk : k ≤ 8) :
    Scalar.mod2PowK c a k = .ok (a.val % 2 ^ k) := mod2PowK_spec c a k hk

/-- C36: for `8 ≤ k < 64` the result is the residue modulo `2^8` whatever `k` is. -/
theorem C36_truncates (c : Cfg) (a : Sc) (k : Nat) (h1 : 8 ≤ k) (h2 : k < 64) :
    Scalar.mod2PowK c a k = .ok (a.val % 2 ^ 8) := by
  rw [← mod2PowK_spec c a 8 (by omega)]
  unfold Scalar.mod2PowK
  rw [if_pos h2, if_pos (by omega), Res.ok_bind, Res.ok_bind]
  beta_reduce
  rw [Res.pure_eq, Res.pure_eq, Res.ok_inj]
  have hs : ∀ j < 64, shl64 1 j = 2 ^ j := by
    intro j hj
    unfold shl64
    rw [Nat.shiftLeft_eq, Nat.one_mul, Nat.mod_eq_of_lt (Nat.pow_lt_pow_right (by decide) (by omega))]
  rw [hs k h2, hs 8 (by omega), Nat.and_two_pow_sub_one_eq_mod, Nat.and_two_pow_sub_one_eq_mod,
    show 256 = 2 ^ 8 from rfl, Nat.mod_mod_of_dvd _ (pow_dvd_pow 2 h1), Nat.mod_mod]

example : Scalar.mod2PowK dbg ⟨511, 0, 0, 0, 0⟩ 9 = .ok 255 ∧ 511 % 2 ^ 9 ≠ 255 := by decide

/-- C36: for `k ≥ 64` a checked build panics. -/
theorem C36_wide_debug (c : Cfg) (a : Sc) (k : Nat) (hd : c.debug = true) (hk : 64 ≤ k) :
    Scalar.mod2PowK c a k = .panic := by
  unfold Scalar.mod2PowK
  rw [if_neg (by omega), if_pos hd, Res.panic_bind]

/-- C36: for `k ≥ 64` an unchecked build gives the residue modulo `2^j` with `j` the smaller of 8 and `k mod 64`. -/
theorem C36_wide_release (c : Cfg) (a : Sc) (k : Nat) (hd : c.debug = false) (hk : 64 ≤ k) :
    Scalar.mod2PowK c a k = .ok (a.val % 2 ^ min 8 (k % 64)) := by
  have h : Scalar.mod2PowK c a k = Scalar.mod2PowK c a (k % 64) := by
    unfold Scalar.mod2PowK
    rw [if_neg (by omega), hd, if_neg (by decide), if_pos (Nat.mod_lt _ (by decide)), Res.ok_bind]
  have hlt : k % 64 < 64 := Nat.mod_lt _ (by decide)
  rw [h]
  rcases Nat.lt_or_ge (k % 64) 8 with h8 | h8
  · rw [Nat.min_eq_right (by omega)]
    exact mod2PowK_spec c a _ (by omega)
  · rw [Nat.min_eq_left h8]
    exact C36_truncates c a _ h8 hlt

example : Scalar.mod2PowK dbg ⟨511, 0, 0, 0, 0⟩ 64 = .panic ∧ Scalar.mod2PowK rel ⟨511, 0, 0, 0, 0⟩ 68 = .ok 15 := by
  decide

end Props
end Zerocaf
