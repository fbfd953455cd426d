import Verif.Proof.Loose
import Verif.Props.NonCanon

/-!
# Limbs beyond 52 bits (C100) and Montgomery form (C101)

`FieldElement(pub [u64; 5])` and `Scalar(pub [u64; 5])` let callers choose the limbs freely.
-/

set_option exponentiation.threshold 600

namespace Zerocaf
namespace Props

/-! ### C100 -/

/-- Limbs below `2^62` that stand for a number below `2^260`. -/
def Loose (a : L5) : Prop := a.Wide ∧ a.val < 2 ^ 260

instance (a : L5) : Decidable (Loose a) := inferInstanceAs (Decidable (_ ∧ _))

theorem loose_mul_lt {a b : L5} (ha : Loose a) (hb : Loose b) : a.val * b.val < 2 ^ 520 := by
  calc a.val * b.val < 2 ^ 260 * 2 ^ 260 := Nat.mul_lt_mul'' ha.2 hb.2
    _ = 2 ^ 520 := by norm_num

/-- C100: field products and squares are right and reduced for limbs up to 62 bits, as long as the number is below
`2^260`. -/
theorem C100_field_mul (c : Cfg) (a b : FE) (ha : Loose a) (hb : Loose b) :
    (∃ r, Field.mul c a b = .ok r ∧ r.Canon ∧ r.val = a.val * b.val % p) ∧
    ∃ r, Field.square c a = .ok r ∧ r.Canon ∧ r.val = a.val * a.val % p := by
  have key : ∀ a b : FE, Loose a → Loose b →
      ∃ r, Field.mul c a b = .ok r ∧ r.Canon ∧ r.val = a.val * b.val % p := by
    intro a b ha hb
    obtain ⟨w, ew, sw, vw⟩ := mulInternal_loose c a b ha.1 hb.1
    have h := mul_loose Field.FIELD_L Field.LFACTOR_FIELD Field.RR_FIELD c w FIELD_L_WF Field.FACT Field.RR_WF
      Field.RR_lt Field.RR_mod Field.COPRIME sw (by rw [vw]; exact loose_mul_lt ha hb)
    obtain ⟨r, er, wr, lr, vr⟩ := h
    rw [FIELD_L_val] at lr vr
    refine ⟨r, ?_, ⟨wr, lr⟩, by rw [vr, vw]⟩
    unfold Field.mul
    rw [ew, Res.ok_bind]
    simp only [Field.montgomeryReduce_eq]
    exact er
  refine ⟨key a b ha hb, ?_⟩
  obtain ⟨r, er, h⟩ := key a a ha ha
  refine ⟨r, ?_, h⟩
  rw [← er]
  unfold Field.square Field.mul
  rw [squareInternal_loose c a ha.1]

/-- C100: the same for scalars. -/
theorem C100_scalar_mul (c : Cfg) (a b : Sc) (ha : Loose a) (hb : Loose b) :
    (∃ r, Scalar.mul c a b = .ok r ∧ r.SCanon ∧ r.val = a.val * b.val % ell) ∧
    ∃ r, Scalar.square c a = .ok r ∧ r.SCanon ∧ r.val = a.val * a.val % ell := by
  have key : ∀ a b : Sc, Loose a → Loose b →
      ∃ r, Scalar.mul c a b = .ok r ∧ r.SCanon ∧ r.val = a.val * b.val % ell := by
    intro a b ha hb
    obtain ⟨w, ew, sw, vw⟩ := mulInternal_loose c a b ha.1 hb.1
    have h := mul_loose Scalar.L Scalar.LFACTOR Scalar.RR c w SCALAR_L_WF Scalar.FACT Scalar.RR_WF
      Scalar.RR_lt Scalar.RR_mod Scalar.COPRIME sw (by rw [vw]; exact loose_mul_lt ha hb)
    obtain ⟨r, er, wr, lr, vr⟩ := h
    rw [SCALAR_L_val] at lr vr
    refine ⟨r, ?_, ⟨wr, lr⟩, by rw [vr, vw]⟩
    unfold Scalar.mul
    simp only [Scalar.mulInternal_eq, Scalar.montgomeryReduce_eq]
    rw [ew, Res.ok_bind]
    exact er
  refine ⟨key a b ha hb, ?_⟩
  obtain ⟨r, er, h⟩ := key a a ha ha
  refine ⟨r, ?_, h⟩
  rw [← er]
  unfold Scalar.square Scalar.mul
  rw [Scalar.squareInternal_eq, Scalar.mulInternal_eq, squareInternal_loose c a ha.1]

/-- C100: sums of limbs up to 62 bits have their carries resolved, and the modulus is subtracted at most once. -/
theorem C100_add (c : Cfg) (a b : L5) (ha : Loose a) (hb : Loose b) (hs : a.val + b.val < 2 ^ 260) :
    (∃ r, Field.add c a b = .ok r ∧ r.WF ∧
      r.val = if a.val + b.val < p then a.val + b.val else a.val + b.val - p) ∧
    ∃ r, Scalar.add c a b = .ok r ∧ r.WF ∧
      r.val = if a.val + b.val < ell then a.val + b.val else a.val + b.val - ell := by
  have hp := p_lt
  have hl := ell_lt
  constructor
  · obtain ⟨s, es, ws, vs⟩ := addChain_loose c a b (fun s => Field.sub c s Field.FIELD_L) ha.1 hb.1
    rw [Nat.mod_eq_of_lt hs] at vs
    obtain ⟨r, er, wr, v1, v2⟩ := subWith_spec Field.FIELD_L c s Field.FIELD_L FIELD_L_WF ws.1 ws.2.1 ws.2.2.1
      ws.2.2.2.1 (lt_trans ws.2.2.2.2 (by decide)) FIELD_L_WF
    rw [FIELD_L_val] at v1 v2
    refine ⟨r, by unfold Field.add; rw [es]; exact er, wr, ?_⟩
    split_ifs with h
    · rw [v2 (by omega)]; omega
    · rw [v1 (by omega)]; omega
  · obtain ⟨s, es, ws, vs⟩ := addChain_loose c a b (fun s => Scalar.sub c s Scalar.L) ha.1 hb.1
    rw [Nat.mod_eq_of_lt hs] at vs
    obtain ⟨r, er, wr, v1, v2⟩ := subWith_spec Scalar.L c s Scalar.L SCALAR_L_WF ws.1 ws.2.1 ws.2.2.1
      ws.2.2.2.1 (lt_trans ws.2.2.2.2 (by decide)) SCALAR_L_WF
    rw [SCALAR_L_val] at v1 v2
    refine ⟨r, by unfold Scalar.add; rw [es]; exact er, wr, ?_⟩
    split_ifs with h
    · rw [v2 (by omega)]; omega
    · rw [v1 (by omega)]; omega

/-- C100: multiplying by one brings such an element to its one reduced form; comparing these forms compares the numbers
modulo `p`. -/
theorem C100_normalise (c : Cfg) (a b : FE) (ha : Loose a) (hb : Loose b) :
    ∃ a' b', Field.mul c a Field.one = .ok a' ∧ Field.mul c b Field.one = .ok b' ∧
      Field.ctEq a' b' = decide (a.val % p = b.val % p) := by
  have h1 : Loose Field.one := by decide
  obtain ⟨a', ea, ca, va⟩ := (C100_field_mul c a _ ha h1).1
  obtain ⟨b', eb, cb, vb⟩ := (C100_field_mul c b _ hb h1).1
  refine ⟨a', b', ea, eb, ?_⟩
  have l1 := ca.2
  have l2 := cb.2
  have hp := p_lt
  rw [Field.ctEq_spec a' b' ca.1 cb.1 (by omega) (by omega), va, vb, Field.one_val, Nat.mul_one, Nat.mul_one]

theorem subStep_zero (c : Cfg) (a s : Nat) (ha : a < 2 ^ 63) (hs : s < 2 ^ 63) :
    Field.subStep c a 0 s = .ok a := by
  unfold Field.subStep
  rw [shr_eq, show s / 2 ^ 63 = 0 by omega, chk64_ok c (by omega), Res.ok_bind, Res.pure_eq, Res.ok_inj]
  unfold wsub64
  omega

/-- C100: subtracting zero cuts every limb to 52 bits instead of carrying the excess. -/
theorem C100_sub_zero (c : Cfg) (a : FE) (ha : a.Wide) :
    ∃ r, Field.sub c a Field.zero = .ok r ∧
      r = ⟨a.l0 % 2 ^ 52, a.l1 % 2 ^ 52, a.l2 % 2 ^ 52, a.l3 % 2 ^ 52, a.l4 % 2 ^ 52⟩ := by
  obtain ⟨h0, h1, h2, h3, h4⟩ := ha
  obtain ⟨r, er, wr, vr⟩ := fixChain c ⟨a.l0 % 2 ^ 52, a.l1 % 2 ^ 52, a.l2 % 2 ^ 52, a.l3 % 2 ^ 52, a.l4 % 2 ^ 52⟩
    Field.FIELD_L 0 (by refine ⟨?_, ?_, ?_, ?_, ?_⟩ <;> exact Nat.mod_lt _ (by decide)) (by simp) (by simp) (by simp)
    (by simp) (by simp)
  refine ⟨r, ?_, wr.ext (by refine ⟨?_, ?_, ?_, ?_, ?_⟩ <;> exact Nat.mod_lt _ (by decide)) ?_⟩
  · rw [Field.sub_eq]
    unfold subWith Field.zero
    have m0 : wsub64 ((a.l4 >>> 63) ^^^ 1) 1 = 0 := by
      rw [shr_eq, show a.l4 / 2 ^ 63 = 0 by omega]; rfl
    rw [subStep_zero c _ _ (by omega) (by omega), Res.ok_bind, subStep_zero c _ _ (by omega) (by omega), Res.ok_bind,
      subStep_zero c _ _ (by omega) (by omega), Res.ok_bind, subStep_zero c _ _ (by omega) (by omega), Res.ok_bind,
      subStep_zero c _ _ (by omega) (by omega), Res.ok_bind]
    simp only [m0, mask52_and]
    simp only [mask52_and] at er
    exact er
  · rw [vr]
    simp only [Nat.and_zero]
    rw [zero_val, Nat.add_zero, Nat.mod_eq_of_lt]
    exact L5.WF.val_lt (by refine ⟨?_, ?_, ?_, ?_, ?_⟩ <;> exact Nat.mod_lt _ (by decide))

theorem ofNat_congr (x y : Nat) (h : x % 256 = y % 256) : UInt8.ofNat x = UInt8.ofNat y := by
  rw [← UInt8.toNat_inj, UInt8.toNat_ofNat', UInt8.toNat_ofNat']
  exact h

theorem or_mod256 (x y : Nat) : (x ||| y) % 256 = (x % 256 ||| y % 256) := by
  have := Nat.or_mod_two_pow (a := x) (b := y) (n := 8)
  simpa using this

theorem byte_congr (a b k n : Nat) (h : a % 2 ^ n = b % 2 ^ n) (hk : k + 8 ≤ n) :
    UInt8.ofNat (a >>> k) = UInt8.ofNat (b >>> k) := by
  apply ofNat_congr
  rw [Nat.shiftRight_eq_div_pow, Nat.shiftRight_eq_div_pow, ← Nat.mod_mul_right_div_self, ← Nat.mod_mul_right_div_self b]
  have hd : 2 ^ k * 256 ∣ 2 ^ n := by
    rw [show 2 ^ k * 256 = 2 ^ (k + 8) by rw [Nat.pow_add]]
    exact Nat.pow_dvd_pow 2 hk
  rw [← Nat.mod_mod_of_dvd a hd, h, Nat.mod_mod_of_dvd b hd]

theorem v32_congr {
    x0 x1 x2 x3 x4 x5 x6 x7 x8 x9 x10 x11 x12 x13 x14 x15 x16 x17 x18 x19 x20 x21 x22 x23 x24 x25 x26 x27 x28
    x29 x30 x31 y0 y1 y2 y3 y4 y5 y6 y7 y8 y9 y10 y11 y12 y13 y14 y15 y16 y17 y18 y19 y20 y21 y22 y23 y24 y25
    y26 y27 y28 y29 y30 y31 : UInt8}
    (h0 : x0 = y0) (h1 : x1 = y1) (h2 : x2 = y2) (h3 : x3 = y3) (h4 : x4 = y4) (h5 : x5 = y5) (h6 : x6 = y6)
    (h7 : x7 = y7) (h8 : x8 = y8) (h9 : x9 = y9) (h10 : x10 = y10) (h11 : x11 = y11) (h12 : x12 = y12)
    (h13 : x13 = y13) (h14 : x14 = y14) (h15 : x15 = y15) (h16 : x16 = y16) (h17 : x17 = y17) (h18 : x18 = y18)
    (h19 : x19 = y19) (h20 : x20 = y20) (h21 : x21 = y21) (h22 : x22 = y22) (h23 : x23 = y23) (h24 : x24 = y24)
    (h25 : x25 = y25) (h26 : x26 = y26) (h27 : x27 = y27) (h28 : x28 = y28) (h29 : x29 = y29) (h30 : x30 = y30)
    (h31 : x31 = y31) :
    (#v[
    x0, x1, x2, x3, x4, x5, x6, x7, x8, x9, x10, x11, x12, x13, x14, x15, x16, x17, x18, x19, x20, x21, x22,
    x23, x24, x25, x26, x27, x28, x29, x30, x31] : Bytes32) = #v[
    y0, y1, y2, y3, y4, y5, y6, y7, y8, y9, y10, y11, y12, y13, y14, y15, y16, y17, y18, y19, y20, y21, y22,
    y23, y24, y25, y26, y27, y28, y29, y30, y31] := by
  subst h0 h1 h2 h3 h4 h5 h6 h7 h8 h9 h10 h11 h12 h13 h14 h15 h16 h17 h18 h19 h20 h21 h22 h23 h24 h25 h26 h27 h28
    h29 h30 h31
  rfl

/-- C100: the encoding, and with it equality, ignores the bits of a limb above bit 51, 55 or 47. -/
theorem C100_eq_ignores (a b : FE) (h0 : a.l0 % 2 ^ 56 = b.l0 % 2 ^ 56) (h1 : a.l1 % 2 ^ 52 = b.l1 % 2 ^ 52)
    (h2 : a.l2 % 2 ^ 56 = b.l2 % 2 ^ 56) (h3 : a.l3 % 2 ^ 52 = b.l3 % 2 ^ 52) (h4 : a.l4 % 2 ^ 48 = b.l4 % 2 ^ 48) :
    Field.toBytes a = Field.toBytes b ∧ Field.ctEq a b = true := by
  have e : Field.toBytes a = Field.toBytes b := by
    have s6 : UInt8.ofNat ((a.l0 >>> 48) ||| shl64 a.l1 4) = UInt8.ofNat ((b.l0 >>> 48) ||| shl64 b.l1 4) := by
      apply ofNat_congr
      rw [or_mod256, or_mod256 (b.l0 >>> 48)]
      unfold shl64
      simp only [Nat.shiftRight_eq_div_pow, Nat.shiftLeft_eq]
      rw [show a.l0 / 2 ^ 48 % 256 = b.l0 / 2 ^ 48 % 256 by omega,
        show a.l1 * 2 ^ 4 % 2 ^ 64 % 256 = b.l1 * 2 ^ 4 % 2 ^ 64 % 256 by omega]
    have s19 : UInt8.ofNat ((a.l2 >>> 48) ||| shl64 a.l3 4) = UInt8.ofNat ((b.l2 >>> 48) ||| shl64 b.l3 4) := by
      apply ofNat_congr
      rw [or_mod256, or_mod256 (b.l2 >>> 48)]
      unfold shl64
      simp only [Nat.shiftRight_eq_div_pow, Nat.shiftLeft_eq]
      rw [show a.l2 / 2 ^ 48 % 256 = b.l2 / 2 ^ 48 % 256 by omega,
        show a.l3 * 2 ^ 4 % 2 ^ 64 % 256 = b.l3 * 2 ^ 4 % 2 ^ 64 % 256 by omega]
    have q0 : ∀ k ≤ 48, UInt8.ofNat (a.l0 >>> k) = UInt8.ofNat (b.l0 >>> k) :=
      fun k hk => byte_congr _ _ k _ h0 (by omega)
    have q1 : ∀ k ≤ 44, UInt8.ofNat (a.l1 >>> k) = UInt8.ofNat (b.l1 >>> k) :=
      fun k hk => byte_congr _ _ k _ h1 (by omega)
    have q2 : ∀ k ≤ 48, UInt8.ofNat (a.l2 >>> k) = UInt8.ofNat (b.l2 >>> k) :=
      fun k hk => byte_congr _ _ k _ h2 (by omega)
    have q3 : ∀ k ≤ 44, UInt8.ofNat (a.l3 >>> k) = UInt8.ofNat (b.l3 >>> k) :=
      fun k hk => byte_congr _ _ k _ h3 (by omega)
    have q4 : ∀ k ≤ 40, UInt8.ofNat (a.l4 >>> k) = UInt8.ofNat (b.l4 >>> k) :=
      fun k hk => byte_congr _ _ k _ h4 (by omega)
    unfold Field.toBytes
    exact v32_congr
      (q0 0 (by omega)) (q0 8 (by omega)) (q0 16 (by omega)) (q0 24 (by omega)) (q0 32 (by omega))
      (q0 40 (by omega)) s6 (q1 4 (by omega)) (q1 12 (by omega)) (q1 20 (by omega)) (q1 28 (by omega))
      (q1 36 (by omega)) (q1 44 (by omega)) (q2 0 (by omega)) (q2 8 (by omega)) (q2 16 (by omega))
      (q2 24 (by omega)) (q2 32 (by omega)) (q2 40 (by omega)) s19 (q3 4 (by omega)) (q3 12 (by omega))
      (q3 20 (by omega)) (q3 28 (by omega)) (q3 36 (by omega)) (q3 44 (by omega)) (q4 0 (by omega))
      (q4 8 (by omega)) (q4 16 (by omega)) (q4 24 (by omega)) (q4 32 (by omega)) (q4 40 (by omega))
  refine ⟨e, ?_⟩
  unfold Field.ctEq
  rw [e]
  exact beq_self_eq_true _

/-- C100: witnesses of what goes wrong. Equality identifies `2^56` with zero, and separates two forms of `2^53`; ordering
separates two forms of `2^52`; subtracting zero from `2^52` gives zero; negating `2^53` gives another number; a product
of numbers above `2^260` is silently wrong in both builds; larger limbs panic in debug builds and give wrong results
in release builds. -/
theorem C100_wrong :
    Field.ctEq ⟨2 ^ 56, 0, 0, 0, 0⟩ Field.zero = true ∧
    Field.ctEq ⟨2 ^ 52, 1, 0, 0, 0⟩ ⟨0, 2, 0, 0, 0⟩ = false ∧
    Field.lt ⟨2 ^ 52, 0, 0, 0, 0⟩ ⟨0, 1, 0, 0, 0⟩ = true ∧
    (∀ c ∈ [dbg, rel], Field.sub c ⟨2 ^ 52, 0, 0, 0, 0⟩ Field.zero = .ok Field.zero) ∧
    (∀ c ∈ [dbg, rel], ∃ r, Field.neg c ⟨2 ^ 53, 0, 0, 0, 0⟩ = .ok r ∧ (r.val + 2 ^ 53) % p ≠ 0) ∧
    (∀ c ∈ [dbg, rel], ∃ r, Field.mul c ⟨0, 0, 0, 0, 2 ^ 53⟩ ⟨0, 0, 0, 0, 2 ^ 53⟩ = .ok r ∧ r.val ≠ 2 ^ 522 % p) ∧
    Field.add dbg ⟨2 ^ 63, 0, 0, 0, 0⟩ ⟨2 ^ 63, 0, 0, 0, 0⟩ = .panic ∧
    Field.add rel ⟨2 ^ 63, 0, 0, 0, 0⟩ ⟨2 ^ 63, 0, 0, 0, 0⟩ = .ok Field.zero ∧
    Field.mul dbg ⟨2 ^ 64 - 1, 2 ^ 64 - 1, 0, 0, 0⟩ ⟨2 ^ 64 - 1, 2 ^ 64 - 1, 0, 0, 0⟩ = .panic ∧
    ∃ r, Field.mul rel ⟨2 ^ 64 - 1, 2 ^ 64 - 1, 0, 0, 0⟩ ⟨2 ^ 64 - 1, 2 ^ 64 - 1, 0, 0, 0⟩ = .ok r ∧
      r.val ≠ ((2 ^ 64 - 1) * (2 ^ 52 + 1)) ^ 2 % p := by
  refine ⟨by decide +kernel, by decide +kernel, by decide +kernel, ?_, ?_, ?_, by decide +kernel, by decide +kernel,
    by decide +kernel, ?_⟩
  · decide +kernel
  · intro c hc
    refine ⟨⟨671914833335277, 3916664325105024, 1367801, 0, 17592186044416⟩, ?_, by decide +kernel⟩
    revert c
    decide +kernel
  · intro c hc
    refine ⟨Field.RR_FIELD, ?_, by decide +kernel⟩
    revert c
    decide +kernel
  · exact ⟨⟨671914833335278, 3916664325096835, 1351418, 4503599627362304, 17592186044415⟩, by decide +kernel,
      by decide +kernel⟩

example : Loose ⟨2 ^ 62 - 1, 2 ^ 62 - 1, 2 ^ 62 - 1, 2 ^ 62 - 1, 2 ^ 51⟩ := by decide

/-! ### C101 -/

/-- C101: entering Montgomery form multiplies by `2^260` and leaving it divides by `2^260`, modulo `p`, with reduced
results; leaving undoes entering, for every byte-decoded or larger element. -/
theorem C101_field (c : Cfg) (a : FE) (ha : a.WF) :
    ∃ m r s, Field.toMontgomery c a = .ok m ∧ m.Canon ∧ m.val = a.val * 2 ^ 260 % p ∧
      Field.fromMontgomery c m = .ok r ∧ r.Canon ∧ r.val = a.val % p ∧
      Field.fromMontgomery c a = .ok s ∧ s.Canon ∧ s.val * 2 ^ 260 % p = a.val % p := by
  have hp := p_lt
  have from_spec : ∀ x : FE, x.WF → ∃ s, Field.fromMontgomery c x = .ok s ∧ s.Canon ∧
      s.val * 2 ^ 260 ≡ x.val [MOD p] := by
    intro x hx
    have hv : (⟨x.l0, x.l1, x.l2, x.l3, x.l4, 0, 0, 0, 0⟩ : W9).val = x.val := by
      simp only [W9.val, L5.val]; omega
    obtain ⟨h0, h1, h2, h3, h4⟩ := id hx
    have hlt := hx.val_lt
    obtain ⟨s, es, ws, ms, ls⟩ := Field.montgomeryReduce_spec c ⟨x.l0, x.l1, x.l2, x.l3, x.l4, 0, 0, 0, 0⟩
      (by refine ⟨?_, ?_, ?_, ?_, ?_, ?_, ?_, ?_, ?_⟩ <;> dsimp only <;> omega)
      (by rw [hv]; exact lt_trans hlt (by norm_num))
    rw [hv] at ms ls
    refine ⟨s, es, ⟨ws, ls ?_⟩, ms⟩
    have : 0 < p := by decide
    have := Nat.le_mul_of_pos_right (2 ^ 260) this
    omega
  have hco : Nat.gcd p (2 ^ 260) = 1 := by rw [← FIELD_L_val]; exact Field.COPRIME
  have hRR : Field.RR_FIELD.val ≡ 2 ^ 260 * 2 ^ 260 [MOD p] := by rw [← FIELD_L_val]; exact Field.RR_mod
  have hRl : Field.RR_FIELD.val < p := by rw [← FIELD_L_val]; exact Field.RR_lt
  obtain ⟨m, em, wm, mm, lm⟩ := Field.montgomeryMul_spec c a Field.RR_FIELD ha Field.RR_WF
  have lm := lm (Nat.mul_lt_mul'' ha.val_lt hRl)
  have vm : m.val = a.val * 2 ^ 260 % p := by
    have h1 : m.val * 2 ^ 260 ≡ a.val * 2 ^ 260 * 2 ^ 260 [MOD p] := by
      rw [Nat.mul_assoc]
      exact mm.trans (Nat.ModEq.mul_left _ hRR)
    have h2 := Nat.ModEq.cancel_right_of_coprime hco h1
    rw [← h2, Nat.mod_eq_of_lt lm]
  obtain ⟨r, er, cr, mr⟩ := from_spec m wm
  obtain ⟨s, es, cs, ms⟩ := from_spec a ha
  refine ⟨m, r, s, em, ⟨wm, lm⟩, vm, er, cr, ?_, es, cs, ms⟩
  have h1 : r.val * 2 ^ 260 ≡ a.val * 2 ^ 260 [MOD p] := by
    refine mr.trans ?_
    rw [vm]
    exact Nat.mod_modEq _ _
  have h2 := Nat.ModEq.cancel_right_of_coprime hco h1
  rw [← h2, Nat.mod_eq_of_lt cr.2]

/-- C101: the same for scalars. -/
theorem C101_scalar (c : Cfg) (a : Sc) (ha : a.WF) :
    ∃ m r s, Scalar.toMontgomery c a = .ok m ∧ m.SCanon ∧ m.val = a.val * 2 ^ 260 % ell ∧
      Scalar.fromMontgomery c m = .ok r ∧ r.SCanon ∧ r.val = a.val % ell ∧
      Scalar.fromMontgomery c a = .ok s ∧ s.SCanon ∧ s.val * 2 ^ 260 % ell = a.val % ell := by
  have hp := ell_lt
  have red : ∀ (w : W9), w.Small → w.val < 2 ^ 520 → ∃ r, Scalar.montgomeryReduce c w = .ok r ∧ r.WF ∧
      r.val * 2 ^ 260 ≡ w.val [MOD ell] ∧ (w.val < 2 ^ 260 * ell → r.val < ell) := by
    intro w hw hv
    have h := redWith_mod Scalar.L Scalar.LFACTOR c w SCALAR_L_WF Scalar.FACT hw hv
    rw [← Scalar.montgomeryReduce_eq, SCALAR_L_val] at h
    exact h
  have from_spec : ∀ x : Sc, x.WF → ∃ s, Scalar.fromMontgomery c x = .ok s ∧ s.SCanon ∧
      s.val * 2 ^ 260 ≡ x.val [MOD ell] := by
    intro x hx
    have hv : (⟨x.l0, x.l1, x.l2, x.l3, x.l4, 0, 0, 0, 0⟩ : W9).val = x.val := by
      simp only [W9.val, L5.val]; omega
    obtain ⟨h0, h1, h2, h3, h4⟩ := id hx
    have hlt := hx.val_lt
    obtain ⟨s, es, ws, ms, ls⟩ := red ⟨x.l0, x.l1, x.l2, x.l3, x.l4, 0, 0, 0, 0⟩
      (by refine ⟨?_, ?_, ?_, ?_, ?_, ?_, ?_, ?_, ?_⟩ <;> dsimp only <;> omega)
      (by rw [hv]; exact lt_trans hlt (by norm_num))
    rw [hv] at ms ls
    refine ⟨s, es, ⟨ws, ls ?_⟩, ms⟩
    have : 0 < ell := by decide
    have := Nat.le_mul_of_pos_right (2 ^ 260) this
    omega
  have hco : Nat.gcd ell (2 ^ 260) = 1 := by rw [← SCALAR_L_val]; exact Scalar.COPRIME
  have hRR : Scalar.RR.val ≡ 2 ^ 260 * 2 ^ 260 [MOD ell] := by rw [← SCALAR_L_val]; exact Scalar.RR_mod
  have hRl : Scalar.RR.val < ell := by rw [← SCALAR_L_val]; exact Scalar.RR_lt
  obtain ⟨w, ew, sw, vw⟩ := mulInternal_spec c a Scalar.RR ha Scalar.RR_WF
  obtain ⟨m, em, wm, mm, lm⟩ := red w sw (by rw [vw]; exact Field.wf_mul_lt ha Scalar.RR_WF)
  rw [vw] at mm lm
  have lm := lm (Nat.mul_lt_mul'' ha.val_lt hRl)
  have vm : m.val = a.val * 2 ^ 260 % ell := by
    have h1 : m.val * 2 ^ 260 ≡ a.val * 2 ^ 260 * 2 ^ 260 [MOD ell] := by
      rw [Nat.mul_assoc]
      exact mm.trans (Nat.ModEq.mul_left _ hRR)
    have h2 := Nat.ModEq.cancel_right_of_coprime hco h1
    rw [← h2, Nat.mod_eq_of_lt lm]
  obtain ⟨r, er, cr, mr⟩ := from_spec m wm
  obtain ⟨s, es, cs, ms⟩ := from_spec a ha
  refine ⟨m, r, s, ?_, ⟨wm, lm⟩, vm, er, cr, ?_, es, cs, ms⟩
  · unfold Scalar.toMontgomery Scalar.montgomeryMul
    rw [Scalar.mulInternal_eq, ew, Res.ok_bind, em]
  have h1 : r.val * 2 ^ 260 ≡ a.val * 2 ^ 260 [MOD ell] := by
    refine mr.trans ?_
    rw [vm]
    exact Nat.mod_modEq _ _
  have h2 := Nat.ModEq.cancel_right_of_coprime hco h1
  rw [← h2, Nat.mod_eq_of_lt cr.2]

example : allOnes.WF := by decide

end Props
end Zerocaf
