import Lean.Elab.Tactic
import Verif.Model.Tests
import Verif.Props.DigitsAny
import Verif.Props.Curve

/-!
# Property C124, first part: the tests of the field and of the scalars pass

Tests without loops are evaluated by the kernel, for both builds and any loop budget at once. The others are
settled with the theorems about inversion, powers, roots and digit expansions.
-/

set_option exponentiation.threshold 600
set_option maxRecDepth 100000

namespace Zerocaf
namespace Tests

open Props

open Lean Elab Tactic Meta in
/-- Closes `a = b` by `Eq.refl b`, leaving the evaluation of `a` to the kernel. -/
elab "keval" : tactic => do
  let g ← getMainGoal
  let some (α, _, b) := (← instantiateMVars (← g.getType)).eq? | throwError "not an equation"
  g.assign (mkApp2 (.const ``Eq.refl [1]) α b)

/-! ### Tests without loops -/

theorem Fld.addition_with_modulo_ok (c : Cfg) : Fld.addition_with_modulo c = .ok () := by obtain ⟨_ | _, n⟩ := c <;> keval
theorem Fld.addition_without_modulo_ok (c : Cfg) : Fld.addition_without_modulo c = .ok () := by obtain ⟨_ | _, n⟩ := c <;> keval
theorem Fld.addition_mod_0_ok (c : Cfg) : Fld.addition_mod_0 c = .ok () := by obtain ⟨_ | _, n⟩ := c <;> keval
theorem Fld.add_field_l_ok (c : Cfg) : Fld.add_field_l c = .ok () := by obtain ⟨_ | _, n⟩ := c <;> keval
theorem Fld.subtraction_with_mod_ok (c : Cfg) : Fld.subtraction_with_mod c = .ok () := by obtain ⟨_ | _, n⟩ := c <;> keval
theorem Fld.subtraction_without_mod_ok (c : Cfg) : Fld.subtraction_without_mod c = .ok () := by obtain ⟨_ | _, n⟩ := c <;> keval
theorem Fld.subtract_equals_ok (c : Cfg) : Fld.subtract_equals c = .ok () := by obtain ⟨_ | _, n⟩ := c <;> keval
theorem Fld.subtract_field_l_ok (c : Cfg) : Fld.subtract_field_l c = .ok () := by obtain ⟨_ | _, n⟩ := c <;> keval
theorem Fld.mul_with_modulo_ok (c : Cfg) : Fld.mul_with_modulo c = .ok () := by obtain ⟨_ | _, n⟩ := c <;> keval
theorem Fld.mul_without_modulo_ok (c : Cfg) : Fld.mul_without_modulo c = .ok () := by obtain ⟨_ | _, n⟩ := c <;> keval
theorem Fld.square_test_ok (c : Cfg) : Fld.square_test c = .ok () := by obtain ⟨_ | _, n⟩ := c <;> keval
theorem Fld.square_zero_and_identity_ok (c : Cfg) : Fld.square_zero_and_identity c = .ok () := by obtain ⟨_ | _, n⟩ := c <;> keval
theorem Fld.from_bytes_conversion_ok (c : Cfg) : Fld.from_bytes_conversion c = .ok () := by obtain ⟨_ | _, n⟩ := c <;> keval
theorem Fld.to_bytes_conversion_ok (c : Cfg) : Fld.to_bytes_conversion c = .ok () := by obtain ⟨_ | _, n⟩ := c <;> keval
theorem Fld.from_u8_ok (c : Cfg) : Fld.from_u8 c = .ok () := by obtain ⟨_ | _, n⟩ := c <;> keval
theorem Fld.from_u16_ok (c : Cfg) : Fld.from_u16 c = .ok () := by obtain ⟨_ | _, n⟩ := c <;> keval
theorem Fld.from_u32_ok (c : Cfg) : Fld.from_u32 c = .ok () := by obtain ⟨_ | _, n⟩ := c <;> keval
theorem Fld.from_u64_ok (c : Cfg) : Fld.from_u64 c = .ok () := by obtain ⟨_ | _, n⟩ := c <;> keval
theorem Fld.from_u128_ok (c : Cfg) : Fld.from_u128 c = .ok () := by obtain ⟨_ | _, n⟩ := c <;> keval
theorem Fld.from_ristretto255scalar_ok (c : Cfg) : Fld.from_ristretto255scalar c = .ok () := by obtain ⟨_ | _, n⟩ := c <;> keval
theorem Fld.into_ristretto255scalar_ok (c : Cfg) : Fld.into_ristretto255scalar c = .ok () := by obtain ⟨_ | _, n⟩ := c <;> keval
theorem Fld.two_pow_k_ok (c : Cfg) : Fld.two_pow_k c = .ok () := by obtain ⟨_ | _, n⟩ := c <;> keval
theorem Fld.ord_impl_ok (c : Cfg) : Fld.ord_impl c = .ok () := by obtain ⟨_ | _, n⟩ := c <;> keval
theorem Fld.half_test_ok (c : Cfg) : Fld.half_test c = .ok () := by obtain ⟨_ | _, n⟩ := c <;> keval
theorem Fld.to_montgomery_conv_ok (c : Cfg) : Fld.to_montgomery_conv c = .ok () := by obtain ⟨_ | _, n⟩ := c <;> keval
theorem Fld.from_montgomery_conv_ok (c : Cfg) : Fld.from_montgomery_conv c = .ok () := by obtain ⟨_ | _, n⟩ := c <;> keval
theorem Fld.negation_ok (c : Cfg) : Fld.negation c = .ok () := by obtain ⟨_ | _, n⟩ := c <;> keval
theorem Fld.negate_one_ok (c : Cfg) : Fld.negate_one c = .ok () := by obtain ⟨_ | _, n⟩ := c <;> keval
theorem Fld.negate_zero_ok (c : Cfg) : Fld.negate_zero c = .ok () := by obtain ⟨_ | _, n⟩ := c <;> keval
theorem Fld.l_field_high_bit_ok (c : Cfg) : Fld.l_field_high_bit c = .ok () := by obtain ⟨_ | _, n⟩ := c <;> keval
theorem Fld.evenness_ok (c : Cfg) : Fld.evenness c = .ok () := by obtain ⟨_ | _, n⟩ := c <;> keval
theorem Scl.partial_ord_and_eq_ok (c : Cfg) : Scl.partial_ord_and_eq c = .ok () := by obtain ⟨_ | _, n⟩ := c <;> keval
theorem Scl.add_with_modulo_ok (c : Cfg) : Scl.add_with_modulo c = .ok () := by obtain ⟨_ | _, n⟩ := c <;> keval
theorem Scl.add_without_modulo_ok (c : Cfg) : Scl.add_without_modulo c = .ok () := by obtain ⟨_ | _, n⟩ := c <;> keval
theorem Scl.sub_with_modulo_ok (c : Cfg) : Scl.sub_with_modulo c = .ok () := by obtain ⟨_ | _, n⟩ := c <;> keval
theorem Scl.sub_without_modulo_ok (c : Cfg) : Scl.sub_without_modulo c = .ok () := by obtain ⟨_ | _, n⟩ := c <;> keval
theorem Scl.square_internal_ok (c : Cfg) : Scl.square_internal c = .ok () := by obtain ⟨_ | _, n⟩ := c <;> keval
theorem Scl.to_montgomery_conversion_ok (c : Cfg) : Scl.to_montgomery_conversion c = .ok () := by obtain ⟨_ | _, n⟩ := c <;> keval
theorem Scl.from_montgomery_conversion_ok (c : Cfg) : Scl.from_montgomery_conversion c = .ok () := by obtain ⟨_ | _, n⟩ := c <;> keval
theorem Scl.scalar_mul_ok (c : Cfg) : Scl.scalar_mul c = .ok () := by obtain ⟨_ | _, n⟩ := c <;> keval
theorem Scl.mul_by_identity_ok (c : Cfg) : Scl.mul_by_identity c = .ok () := by obtain ⟨_ | _, n⟩ := c <;> keval
theorem Scl.mul_by_zero_ok (c : Cfg) : Scl.mul_by_zero c = .ok () := by obtain ⟨_ | _, n⟩ := c <;> keval
theorem Scl.montgomery_mul_ok (c : Cfg) : Scl.montgomery_mul c = .ok () := by obtain ⟨_ | _, n⟩ := c <;> keval
theorem Scl.square_test_ok (c : Cfg) : Scl.square_test c = .ok () := by obtain ⟨_ | _, n⟩ := c <;> keval
theorem Scl.square_zero_and_identity_ok (c : Cfg) : Scl.square_zero_and_identity c = .ok () := by obtain ⟨_ | _, n⟩ := c <;> keval
theorem Scl.half_test_ok (c : Cfg) : Scl.half_test c = .ok () := by obtain ⟨_ | _, n⟩ := c <;> keval
theorem Scl.even_scalar_ok (c : Cfg) : Scl.even_scalar c = .ok () := by obtain ⟨_ | _, n⟩ := c <;> keval
theorem Scl.ct_eq_ok (c : Cfg) : Scl.ct_eq c = .ok () := by obtain ⟨_ | _, n⟩ := c <;> keval
theorem Scl.two_pow_k_ok (c : Cfg) : Scl.two_pow_k c = .ok () := by obtain ⟨_ | _, n⟩ := c <;> keval
theorem Scl.shr_test_ok (c : Cfg) : Scl.shr_test c = .ok () := by obtain ⟨_ | _, n⟩ := c <;> keval
theorem Scl.mod_four_ok (c : Cfg) : Scl.mod_four c = .ok () := by obtain ⟨_ | _, n⟩ := c <;> keval

/-! ### Tests with loops -/

theorem rassert_true {b : Bool} (h : b = true) : rassert b = .ok () := by rw [h]; rfl

theorem same_of {α : Type} [DecidableEq α] {a b : α} (h : a = b) : same a b = .ok () :=
  rassert_true (decide_eq_true h)

theorem ctEq_self (a : FE) : Field.ctEq a a = true := by
  unfold Field.ctEq; exact beq_self_eq_true _

/-- A canonical vector is the encoding of a number with the same residue. -/
theorem is_enc {a : FE} (h : a.Canon) {n : ℕ} (hn : a.val % p = n % p) : a = enc (n : Fp) := h.eq_enc (toZ_eq_iff.2 hn)

theorem fp_eq {a b : ℕ} (h : a % p = b % p) : (a : Fp) = b := (ZMod.natCast_eq_natCast_iff' a b p).2 h

/-- The root `mod_sqrt` computes, on numbers. -/
def tsNat (n : ℕ) : ℕ :=
  if Primality.powMod 260 p n Field.Q % p = 1 then Primality.powMod 260 p n ((Field.Q + 1) / 2)
  else Primality.powMod 260 p n ((Field.Q + 1) / 2) * Primality.powMod 260 p 6 Field.Q

theorem tsRoot_nat (n : ℕ) : Field.tsRoot (n : Fp) = (tsNat n : Fp) := by
  have h1 : (n : Fp) ^ Field.Q = (Primality.powMod 260 p n Field.Q : Fp) := Field.pow_facts n _ (by decide)
  have h2 : (n : Fp) ^ ((Field.Q + 1) / 2) = (Primality.powMod 260 p n ((Field.Q + 1) / 2) : Fp) :=
    Field.pow_facts n _ (by decide)
  have h3 : (6 : Fp) ^ Field.Q = (Primality.powMod 260 p 6 Field.Q : Fp) := by
    exact_mod_cast Field.pow_facts 6 Field.Q (by decide)
  unfold Field.tsRoot tsNat
  rw [h1, h2, h3]
  by_cases h : Primality.powMod 260 p n Field.Q % p = 1
  · have : (Primality.powMod 260 p n Field.Q : Fp) = 1 := by
      have := fp_eq (a := Primality.powMod 260 p n Field.Q) (b := 1) (by rw [h]; decide +kernel)
      exact_mod_cast this
    rw [if_pos this, if_pos h]
  · have : ¬ (Primality.powMod 260 p n Field.Q : Fp) = 1 := fun e => h (by
      have e' : ((Primality.powMod 260 p n Field.Q : ℕ) : Fp) = ((1 : ℕ) : Fp) := by rw [e, Nat.cast_one]
      have := (ZMod.natCast_eq_natCast_iff' _ _ p).1 e'
      rw [this]; decide +kernel)
    rw [if_neg this, if_neg h, Nat.cast_mul]

/-- `mod_sqrt` of a number, from a computation with numbers. -/
theorem modSqrt_is (c : Cfg) (hc : c.Enough) {a r s : FE} (ha : a.Canon) (hr : r.Canon) (hs : s.Canon) (h0 : a.val % p ≠ 0)
    (h1 : r.val * r.val % p = a.val % p) (h2 : tsNat a.val % p = r.val % p) (h3 : (r.val + s.val) % p = 0 % p) :
    Field.modSqrt c a false = .ok (some r) ∧ Field.modSqrt c a true = .ok (some s) := by
  have ea := is_enc ha (n := a.val) rfl
  have n0 : ((a.val : ℕ) : Fp) ≠ 0 := by
    have := nat_ne (a := a.val) (b := 0) (by rwa [Nat.zero_mod])
    rwa [Nat.cast_zero] at this
  have sq : IsSquare ((a.val : ℕ) : Fp) := ⟨r.val, by
    have := fp_eq h1
    rw [Nat.cast_mul] at this; exact this.symm⟩
  have er : Field.tsRoot ((a.val : ℕ) : Fp) = (r.val : Fp) := by rw [tsRoot_nat]; exact fp_eq h2
  have es : -(r.val : Fp) = (s.val : Fp) := by
    have := fp_eq h3
    rw [Nat.cast_add, Nat.cast_zero] at this
    linear_combination -this
  constructor
  · have := Field.modSqrt_tsRoot _ n0 sq c false hc
    rw [if_neg Bool.false_ne_true, er, ← ea, ← is_enc hr rfl] at this
    exact this
  · have := Field.modSqrt_tsRoot _ n0 sq c true hc
    rw [if_pos rfl, er, es, ← ea, ← is_enc hs rfl] at this
    exact this

theorem modSqrt_none (c : Cfg) (hc : c.Enough) {a : FE} (ha : a.Canon)
    (h : Primality.powMod 260 p a.val (p / 2) = p - 1) (sign : Bool) : Field.modSqrt c a sign = .ok none := by
  have := Field.modSqrt_nonsquare c hc ((a.val : ℕ) : Fp) sign (nonsquare_of _ h)
  rwa [← is_enc ha rfl] at this

/-- Inversion of a number, from a product of numbers. -/
theorem inverse_is (c : Cfg) (hc : c.Enough) {a r : FE} (ha : a.Canon) (hr : r.Canon)
    (h : a.val * r.val % p = 1 % p) : Field.inverse c a = .ok r := by
  have e := fp_eq h
  rw [Nat.cast_mul, Nat.cast_one] at e
  have h0 : ((a.val : ℕ) : Fp) ≠ 0 := fun h0 => by rw [h0, zero_mul] at e; exact zero_ne_one e
  have := Field.inverse_enc c hc _ h0
  rw [← is_enc ha rfl, ← eq_inv_of_mul_eq_one_right e, ← is_enc hr rfl] at this
  exact this

theorem div_is (c : Cfg) (hc : c.Enough) {a b r : FE} (ha : a.Canon) (hb : b.Canon) (hr : r.Canon)
    (h0 : b.val % p ≠ 0) (h : r.val * b.val % p = a.val % p) : Field.div c a b = .ok r := by
  have e := fp_eq h
  rw [Nat.cast_mul] at e
  have n0 : ((b.val : ℕ) : Fp) ≠ 0 := by
    have := nat_ne (a := b.val) (b := 0) (by rwa [Nat.zero_mod])
    rwa [Nat.cast_zero] at this
  have := Field.div_enc c hc ((a.val : ℕ) : Fp) _ n0
  rw [← is_enc ha rfl, ← is_enc hb rfl, ← e, mul_div_cancel_right₀ _ n0, ← is_enc hr rfl] at this
  exact this

theorem pow_is (c : Cfg) (hc : c.Enough) {a e r : FE} (ha : a.Canon) (he : e.Canon) (hr : r.Canon)
    (h : Primality.powMod 260 p a.val e.val % p = r.val % p) : Field.pow c a e = .ok r := by
  have := Field.pow_enc c hc ((a.val : ℕ) : Fp) e he.1
  rw [Field.pow_facts _ _ (lt_trans he.2 (by decide)), fp_eq h, ← is_enc ha rfl, ← is_enc hr rfl] at this
  exact this

theorem legendre_is (c : Cfg) (hc : c.Enough) {a : FE} (ha : a.Canon) :
    (Primality.powMod 260 p a.val (p / 2) = p - 1 → Field.legendre c a = .ok false) ∧
    (∀ r : ℕ, r * r % p = a.val % p → Field.legendre c a = .ok true) := by
  have := Field.legendre_enc c hc ((a.val : ℕ) : Fp)
  rw [← is_enc ha rfl] at this
  constructor
  · intro h
    rw [this, decide_eq_false (nonsquare_of _ h)]
  · intro r h
    have e := fp_eq h
    rw [Nat.cast_mul] at e
    rw [this, decide_eq_true ⟨_, e.symm⟩]

theorem Fld.division_ok (c : Cfg) (hc : c.Enough) : Fld.division c = .ok () := by
  unfold Fld.division
  have e1 : Field.neg c ⟨86649, 0, 0, 0, 0⟩ =
      .ok ⟨671914833248628, 3916664325105025, 1367801, 0, 17592186044416⟩ := by
    obtain ⟨_ | _, n⟩ := c <;> keval
  dsimp only
  rw [e1, Res.ok_bind, div_is c hc (r := ⟨939392471225133, 587442007554368, 4497154776428662, 4184267646867733,
    2921744366591⟩) (by decide) (by decide) (by decide) (by decide +kernel) (by decide +kernel), Res.ok_bind]
  exact rassert_true (ctEq_self _)

theorem Fld.a_pow_b_ok (c : Cfg) (hc : c.Enough) : Fld.a_pow_b c = .ok () := by
  unfold Fld.a_pow_b
  rw [pow_is c hc (r := Fld.A_POW_C) (by decide) (by decide) (by decide) (by decide +kernel), Res.ok_bind,
    pow_is c hc (r := Fld.A_POW_B) (by decide) (by decide) (by decide) (by decide +kernel), Res.ok_bind,
    rassert_true (ctEq_self _), Res.ok_bind]
  exact rassert_true (ctEq_self _)

theorem Fld.legendre_symbol_ok (c : Cfg) (hc : c.Enough) : Fld.legendre_symbol c = .ok () := by
  unfold Fld.legendre_symbol
  have e : ∃ r, Field.half c Field.minusOne = .ok r := by
    obtain ⟨r, e, _⟩ := C06_half c Field.minusOne (by decide)
    exact ⟨r, e⟩
  obtain ⟨r, e⟩ := e
  rw [e, Res.ok_bind, (legendre_is c hc (by decide)).1 (by decide +kernel), Res.ok_bind,
    (legendre_is c hc (by decide)).2 Fld.SQRT1_27_NEG.val (by decide +kernel), Res.ok_bind]
  rfl

theorem Fld.mod_sqrt_tonelli_shanks_ok (c : Cfg) (hc : c.Enough) : Fld.mod_sqrt_tonelli_shanks c = .ok () := by
  unfold Fld.mod_sqrt_tonelli_shanks
  obtain ⟨e1, e2⟩ := modSqrt_is c hc (a := Field.fromU32 17) (r := Fld.SQRT1_27_NEG) (s := Fld.SQRT1_27_POS) (by decide)
    (by decide) (by decide) (by decide +kernel) (by decide +kernel) (by decide +kernel) (by decide +kernel)
  have z : ∀ s, Field.modSqrt c Field.zero s = .ok (some Field.zero) := fun s => by
    rw [Field.zero_enc]; exact Field.modSqrt_zero c s
  dsimp only
  rw [e1, Res.ok_bind, e2, z, z]
  simp only [unwrap, Res.ok_bind, rassert_true (ctEq_self _)]

theorem Fld.inv_sqrt_ok (c : Cfg) (hc : c.Enough) : Fld.inv_sqrt c = .ok () := by
  unfold Fld.inv_sqrt
  obtain ⟨ok, r, e, hr, hp, _, hn⟩ := C15_inv_sqrt c hc (Field.fromU32 27) (by decide)
  obtain ⟨hs, h1, _⟩ := hn (by decide)
  have hok : ok = true := hs.2 ⟨Fld.INV_SQRT_27.val * 27, by decide +kernel⟩
  have h := h1 hok
  have en : Field.neg c r = .ok Fld.INV_SQRT_27 := by
    have hz := Field.neg_enc c ((r.val : ℕ) : Fp)
    rw [← is_enc hr rfl] at hz
    rw [hz, Res.ok_inj]
    have hI : Fld.INV_SQRT_27.Canon := by decide
    rw [is_enc hI rfl, enc_inj]
    have q1 : (r.val : Fp) * r.val * 27 = 1 := by
      have := fp_eq (a := r.val * r.val * 27) (b := 1) (h.trans (by decide +kernel))
      push_cast at this; exact this
    have q2 : (Fld.INV_SQRT_27.val : Fp) * Fld.INV_SQRT_27.val * 27 = 1 := by
      have := fp_eq (a := Fld.INV_SQRT_27.val * Fld.INV_SQRT_27.val * 27) (b := 1) (by decide +kernel)
      rw [Nat.cast_mul, Nat.cast_mul, Nat.cast_one] at this; exact_mod_cast this
    have n27 : (27 : Fp) ≠ 0 := fun h0 => by rw [h0, mul_zero] at q1; exact zero_ne_one q1
    have h2 : ((Fld.INV_SQRT_27.val : Fp) - r.val) * ((Fld.INV_SQRT_27.val : Fp) + r.val) = 0 := by
      apply mul_right_cancel₀ n27
      linear_combination q2 - q1
    rcases mul_eq_zero.1 h2 with h3 | h3
    · exfalso
      have h4 : ((Fld.INV_SQRT_27.val : ℕ) : Fp) = ((r.val : ℕ) : Fp) := sub_eq_zero.1 h3
      have h5 := (ZMod.natCast_eq_natCast_iff' _ _ p).1 h4
      rw [Nat.mod_eq_of_lt hI.2, Nat.mod_eq_of_lt hr.2] at h5
      rw [← h5] at hp
      revert hp; decide
    · linear_combination -h3
  rw [e, Res.ok_bind]
  dsimp only
  rw [en, Res.ok_bind]
  exact rassert_true (ctEq_self _)

theorem Fld.non_QRmod_sqrt_tonelli_shanks_ok (c : Cfg) (hc : c.Enough) :
    Fld.non_QRmod_sqrt_tonelli_shanks c = .ok () := by
  unfold Fld.non_QRmod_sqrt_tonelli_shanks
  rw [modSqrt_none c hc (by decide) (by decide +kernel), modSqrt_none c hc (by decide) (by decide +kernel)]
  rfl

theorem Fld.savas_koc_inverse_ok (c : Cfg) (hc : c.Enough) : Fld.savas_koc_inverse c = .ok () := by
  unfold Fld.savas_koc_inverse
  rw [inverse_is c hc (r := Fld.INV_MOD_A) (by decide) (by decide) (by decide +kernel), Res.ok_bind, same_of rfl,
    Res.ok_bind, inverse_is c hc (r := Fld.INV_MOD_B) (by decide) (by decide) (by decide +kernel), Res.ok_bind,
    same_of rfl, Res.ok_bind, inverse_is c hc (r := Fld.INV_MOD_C) (by decide) (by decide) (by decide +kernel),
    Res.ok_bind, same_of rfl]

theorem Scl.mod_pow_ok (c : Cfg) (hc : c.Enough) : Scl.mod_pow c = .ok () := by
  unfold Scl.mod_pow
  obtain ⟨r, e, hr, hv⟩ := C29_pow c hc Scl.A Scl.B (by decide) (by decide)
  have h : Scl.A.val ^ Scl.B.val % ell = Scl.A_POW_B.val := by
    have h1 := Primality.powMod_spec 260 ell Scl.A.val Scl.B.val (by decide)
    rw [← Nat.cast_pow] at h1
    rw [← (ZMod.natCast_eq_natCast_iff' _ _ ell).1 h1]
    decide +kernel
  have hA : Scl.A_POW_B.SCanon := by decide
  have : r = Scl.A_POW_B := hr.1.ext hA.1 (hv.trans h)
  rw [e, Res.ok_bind, this]
  exact rassert_true (by unfold Scalar.ctEq; exact beq_self_eq_true _)

/-- The first digits of a windowed expansion, from a computation with integers. -/
theorem window_is (c : Cfg) (hc : c.Enough) (w k : ℕ) (h1 : 2 ≤ w) (h2 : w ≤ 6) (a : Sc) (ha : a.WF) (hl : a.val ≤ 2 ^ 255)
    (l : List ℤ) (h : ((Vector.ofFn fun j : Fin 256 => digitOf w (cutRest w a.val j.val)).toList.take k) = l) :
    ∃ u, Scalar.computeWindowNAF c a w = .ok u ∧ u.toList.take k = l := by
  refine ⟨_, ?_, h⟩
  rw [(C122_digits c hc w h1 h2 a ha).1]
  obtain ⟨v, e⟩ := C122_no_panic c hc w h1 h2 a ha hl
  rw [(C122_digits c hc w h1 h2 a ha).1] at e
  by_cases hz : cutRest w a.val 256 = 0
  · rw [if_pos hz]
  · rw [if_neg hz] at e; exact absurd e (by simp)

theorem Scl.naf_ok (c : Cfg) (hc : c.Enough) : Scl.naf c = .ok () := by
  unfold Scl.naf
  obtain ⟨u, e, h⟩ := window_is c hc 2 4 (by omega) (by omega) (Scalar.fromU32 7) (by decide) (by decide)
    [-1, 0, 0, 1] (by decide +kernel)
  rw [(C91_naf c c hc hc (Scalar.fromU32 7) (by decide) u).2, e, Res.ok_bind]
  exact same_of h

theorem Scl.window_naf_ok (c : Cfg) (hc : c.Enough) : Scl.window_naf c = .ok () := by
  unfold Scl.window_naf
  obtain ⟨u2, e2, h2⟩ := window_is c hc 2 31 (by omega) (by omega) (Scalar.fromU64 1122334455) (by decide) (by decide)
    [-1, 0, 0, -1, 0, 0, 0, 0, -1, 0, 0, -1, 0, 0, 0, -1, 0, -1, 0, 1, 0, -1, 0, 0, -1, 0, 1, 0, 0, 0, 1] (by decide +kernel)
  obtain ⟨u3, e3, h3⟩ := window_is c hc 3 31 (by omega) (by omega) (Scalar.fromU64 1122334455) (by decide) (by decide)
    [-1, 0, 0, -1, 0, 0, 0, 0, -1, 0, 0, -1, 0, 0, 0, 3, 0, 0, 1, 0, 0, -1, 0, 0, 3, 0, 0, 0, 0, 0, 1] (by decide +kernel)
  obtain ⟨u4, e4, h4⟩ := window_is c hc 4 31 (by omega) (by omega) (Scalar.fromU64 1122334455) (by decide) (by decide)
    [7, 0, 0, 0, -1, 0, 0, 0, 7, 0, 0, 0, 7, 0, 0, 0, 5, 0, 0, 0, 0, 7, 0, 0, 0, 1, 0, 0, 0, 0, 1] (by decide +kernel)
  obtain ⟨u5, e5, h5⟩ := window_is c hc 5 32 (by omega) (by omega) (Scalar.fromU64 1122334455) (by decide) (by decide)
    [-9, 0, 0, 0, 0, 0, 0, 0, -9, 0, 0, 0, 0, 0, 0, 11, 0, 0, 0, 0, 0, -9, 0, 0, 0, 0, -15, 0, 0, 0, 0, 1] (by decide +kernel)
  obtain ⟨u6, e6, h6⟩ := window_is c hc 6 31 (by omega) (by omega) (Scalar.fromU64 1122334455) (by decide) (by decide)
    [-9, 0, 0, 0, 0, 0, 0, 0, -9, 0, 0, 0, 0, 0, 0, 11, 0, 0, 0, 0, 0, 23, 0, 0, 0, 0, 0, 0, 0, 0, 1] (by decide +kernel)
  dsimp only
  rw [e2, Res.ok_bind, same_of h2.symm, Res.ok_bind, e3, Res.ok_bind, same_of h3.symm, Res.ok_bind, e4, Res.ok_bind,
    same_of h4.symm, Res.ok_bind, e5, Res.ok_bind, same_of h5.symm, Res.ok_bind, e6, Res.ok_bind, same_of h6.symm]

theorem Scl.into_bits_ok (c : Cfg) : Scl.into_bits c = .ok () := by
  unfold Scl.into_bits
  have e0 : (Scalar.intoBits Scalar.zero).toList = (Vector.replicate 256 0 : Vector UInt8 256).toList := by decide +kernel
  have e1 : (Scalar.intoBits Scalar.one).toList = ((Vector.replicate 256 0).set 0 1 : Vector UInt8 256).toList := by
    decide +kernel
  have e9 : (Scalar.intoBits (Scalar.fromU32 9)).toList =
      (((Vector.replicate 256 0).set 0 1).set 3 1 : Vector UInt8 256).toList := by decide +kernel
  have ep : (Scalar.intoBits ⟨0, 0, 0, 0, 2 ^ 41⟩).toList = ((Vector.replicate 256 0).set 249 1 : Vector UInt8 256).toList := by
    decide +kernel
  have em : (Scalar.intoBits Scalar.minusOne).toList = Scl.MINUS_ONE_BITS := by decide +kernel
  have et : Scalar.twoPowK 249 = .ok ⟨0, 0, 0, 0, 2 ^ 41⟩ := by decide
  dsimp only
  rw [same_of e0, Res.ok_bind, same_of e1, Res.ok_bind, same_of e9, Res.ok_bind, et, Res.ok_bind, same_of ep, Res.ok_bind,
    same_of em]

end Tests
end Zerocaf
