import Verif.Proof.Sqrt
import Verif.Model.External

/-!
# Properties C01-C24: the base field

All statements speak about integer values of limb vectors (`L5.val`) and hold for every build
configuration `c`, so for overflow-checking and wrapping builds alike. Statements about loops assume
`c.Enough`: at least 1000 loop iterations may be spent, and conclude that the loop terminates.
-/

set_option exponentiation.threshold 600

namespace Zerocaf
namespace Props

open Zerocaf.Field

/-- An overflow-checking build with a sufficient loop budget (for the examples). -/
def dbg : Cfg := ⟨true, 1000⟩
/-- A wrapping build with a sufficient loop budget (for the examples). -/
def rel : Cfg := ⟨false, 1000⟩

example : dbg.Enough ∧ rel.Enough := by decide

/-! ### C01 -/

/-- C01: field addition is addition modulo `p`. -/
theorem C01_add (c : Cfg) (a b : FE) (ha : a.Canon) (hb : b.Canon) :
    ∃ r, add c a b = .ok r ∧ r.Canon ∧ r.val = (a.val + b.val) % p := add_spec c a b ha hb

example : minusOne.Canon ∧ (⟨5, 0, 0, 0, 0⟩ : FE).Canon ∧
    add dbg minusOne ⟨5, 0, 0, 0, 0⟩ = .ok ⟨4, 0, 0, 0, 0⟩ := by decide

/-! ### C02 -/

/-- C02: field subtraction is subtraction modulo `p`. -/
theorem C02_sub (c : Cfg) (a b : FE) (ha : a.Canon) (hb : b.Canon) :
    ∃ r, sub c a b = .ok r ∧ r.Canon ∧ (r.val : ℤ) = ((a.val : ℤ) - b.val) % p := by
  obtain ⟨r, e, h, v⟩ := sub_spec c a b ha hb
  refine ⟨r, e, h, ?_⟩
  have hb' := hb.2
  have e2 : ((a.val : ℤ) - b.val) % p = ((a.val : ℤ) - b.val + p) % p := by
    rw [Int.add_emod_right]
  rw [v, e2]
  have : ((a.val : ℤ) - b.val + p) = ((a.val + p - b.val : ℕ) : ℤ) := by omega
  rw [this]
  exact Int.natCast_mod _ _

example : (⟨1, 0, 0, 0, 0⟩ : FE).Canon ∧ (⟨2, 0, 0, 0, 0⟩ : FE).Canon ∧
    sub dbg ⟨1, 0, 0, 0, 0⟩ ⟨2, 0, 0, 0, 0⟩ = .ok minusOne := by decide

/-! ### C03 -/

/-- C03: negation is the additive inverse; negating zero gives canonical zero. -/
theorem C03_neg (c : Cfg) (a : FE) (ha : a.Canon) :
    ∃ r, neg c a = .ok r ∧ r.Canon ∧ add c a r = .ok ⟨0, 0, 0, 0, 0⟩ ∧ (a.val = 0 → r.val = 0) := by
  have e := neg_enc c a.toZ
  rw [ha.enc] at e
  refine ⟨enc (-a.toZ), e, enc_canon _, ?_, ?_⟩
  · conv_lhs => rw [← ha.enc]
    rw [enc_toZ, add_enc, add_neg_cancel, ← zero_enc]; rfl
  · intro h0
    rw [enc_val]
    have : a.toZ = 0 := by unfold L5.toZ; rw [h0, Nat.cast_zero]
    rw [this, neg_zero, ZMod.val_zero]

example : minusOne.Canon ∧ neg dbg minusOne = .ok one ∧ neg dbg zero = .ok zero := by decide

/-! ### C04 -/

/-- C04: multiplication of any elements with 52-bit limbs is multiplication modulo `p`. -/
theorem C04_mul (c : Cfg) (a b : FE) (ha : a.WF) (hb : b.WF) :
    ∃ r, mul c a b = .ok r ∧ r.Canon ∧ r.val = a.val * b.val % p := mul_spec c a b ha hb

/-- A non-canonical input: the value of `from_bytes` on 32 bytes `0xff`. -/
example : (fromBytes (Vector.replicate 32 255)).WF ∧ ¬ (fromBytes (Vector.replicate 32 255)).Canon ∧
    minusOne.WF ∧ mul dbg minusOne minusOne = .ok one := by decide +kernel

/-! ### C05 -/

/-- C05: squaring agrees with multiplication. -/
theorem C05_square (c : Cfg) (a : FE) (ha : a.WF) :
    square c a = mul c a a ∧ ∃ r, square c a = .ok r ∧ r.Canon ∧ r.val = a.val ^ 2 % p := by
  rw [square_wf c a ha, mul_wf c a a ha ha]
  refine ⟨rfl, _, rfl, enc_canon _, ?_⟩
  rw [enc_val, pow_two]
  unfold L5.toZ
  rw [← Nat.cast_mul, ZMod.val_natCast]

example : minusOne.WF ∧ square dbg minusOne = .ok one := by decide +kernel

/-! ### C06 -/

/-- C06: modular halving. -/
theorem C06_half (c : Cfg) (a : FE) (ha : a.WF) :
    ∃ r, half c a = .ok r ∧ r.Canon ∧ 2 * r.val % p = a.val % p := half_spec c a ha

example : one.WF ∧ half dbg one = .ok ⟨2587757230352887, 4210131976237760, 683900, 0, 8796093022208⟩ := by
  decide +kernel

/-! ### C07 -/

/-- C07: plain halving is the floor of half the value, for even and odd inputs. -/
theorem C07_half_without_mod (a : FE) (ha : a.WF) :
    (halfWithoutMod a).WF ∧ (halfWithoutMod a).val = a.val / 2 := halfWithoutMod_spec a ha

/-- C07: on odd inputs the result doubled is not the input (there is no panic in the model). -/
theorem C07_odd_is_rounded (a : FE) (ha : a.WF) (hodd : a.val % 2 = 1) :
    2 * (halfWithoutMod a).val = a.val - 1 ∧ 2 * (halfWithoutMod a).val ≠ a.val := by
  rw [(halfWithoutMod_spec a ha).2]; omega

example : minusOne.WF ∧ (⟨3, 0, 0, 0, 1⟩ : FE).WF ∧ (⟨3, 0, 0, 0, 1⟩ : FE).val % 2 = 1 ∧
    halfWithoutMod ⟨3, 0, 0, 0, 1⟩ = ⟨1, 0, 0, 2 ^ 51, 0⟩ := by decide

/-! ### C08 -/

/-- C08: exponentiation by any exponent with 52-bit limbs, read as a plain integer. -/
theorem C08_pow (c : Cfg) (hc : c.Enough) (a e : FE) (ha : a.WF) (he : e.WF) :
    ∃ r, pow c a e = .ok r ∧ r.Canon ∧ r.val = a.val ^ e.val % p := by
  refine ⟨_, pow_wf c hc a e ha he, enc_canon _, ?_⟩
  rw [enc_val]
  unfold L5.toZ
  rw [← Nat.cast_pow, ZMod.val_natCast]

example : dbg.Enough ∧ (⟨3, 0, 0, 0, 0⟩ : FE).WF ∧
    pow dbg ⟨3, 0, 0, 0, 0⟩ ⟨4, 0, 0, 0, 0⟩ = .ok ⟨81, 0, 0, 0, 0⟩ ∧ pow dbg zero zero = .ok one := by
  decide +kernel

/-! ### C09 -/

/-- C09: inversion, for every element with 52-bit limbs below `2^256` (so for every value `from_bytes`
returns) that is not a multiple of `p`. -/
theorem C09_inverse (c : Cfg) (hc : c.Enough) (a : FE) (ha : a.WF) (ha2 : a.val < 2 ^ 256)
    (h0 : a.val % p ≠ 0) :
    ∃ r, inverse c a = .ok r ∧ r.Canon ∧ a.val * r.val % p = 1 := by
  have hz : a.toZ ≠ 0 := fun h => h0 (by
    have := toZ_val a
    rw [h, ZMod.val_zero] at this
    exact this.symm)
  refine ⟨_, inverse_wf c hc a ha ha2 hz, enc_canon _, ?_⟩
  have h : ((a.val * (enc a.toZ⁻¹).val : ℕ) : Fp) = ((1 : ℕ) : Fp) := by
    rw [Nat.cast_mul, enc_val, ZMod.natCast_zmod_val, Nat.cast_one]
    exact mul_inv_cancel₀ hz
  have := (ZMod.natCast_eq_natCast_iff' _ _ p).1 h
  rw [this]; decide

/-- C09: inverting zero panics. -/
theorem C09_inverse_zero (c : Cfg) : inverse c ⟨0, 0, 0, 0, 0⟩ = .panic := by
  have := inverse_zero c
  rw [← zero_enc] at this
  exact this

example : (⟨2, 0, 0, 0, 0⟩ : FE).WF ∧ (⟨2, 0, 0, 0, 0⟩ : FE).val < 2 ^ 256 ∧
    (⟨2, 0, 0, 0, 0⟩ : FE).val % p ≠ 0 := by decide

/-! ### C10 -/

/-- C10: division by a nonzero element, by reference and by value. -/
theorem C10_div (c : Cfg) (hc : c.Enough) (a b : FE) (ha : a.Canon) (hb : b.Canon) (h0 : b.val ≠ 0) :
    ∃ r, divRef c a b = .ok r ∧ div c a b = .ok r ∧ r.Canon ∧ mul c r b = .ok a := by
  have hz : b.toZ ≠ 0 := fun h => h0 (by
    have := toZ_val b
    rw [h, ZMod.val_zero, Nat.mod_eq_of_lt hb.2] at this
    exact this.symm)
  refine ⟨enc (a.toZ / b.toZ), ?_, ?_, enc_canon _, ?_⟩
  · have := divRef_enc c hc a.toZ b.toZ hz
    rwa [ha.enc, hb.enc] at this
  · have := div_enc c hc a.toZ b.toZ hz
    rwa [ha.enc, hb.enc] at this
  · have := mul_enc c (a.toZ / b.toZ) b.toZ
    rwa [div_mul_cancel₀ _ hz, ha.enc, hb.enc] at this

/-- C10: division by zero panics, by reference and by value. -/
theorem C10_div_zero (c : Cfg) (a : FE) :
    divRef c a ⟨0, 0, 0, 0, 0⟩ = .panic ∧ div c a ⟨0, 0, 0, 0, 0⟩ = .panic := by
  have h1 := divRef_zero c a
  have h2 := div_zero c a
  rw [← zero_enc] at h1 h2
  exact ⟨h1, h2⟩

example : minusOne.Canon ∧ (⟨2, 0, 0, 0, 0⟩ : FE).Canon ∧ (⟨2, 0, 0, 0, 0⟩ : FE).val ≠ 0 := by decide

/-! ### C11 -/

/-- `n` is a square modulo `p`. -/
def SquareMod (n : Nat) : Prop := ∃ m : Nat, m * m % p = n % p

theorem squareMod_iff (n : Nat) : SquareMod n ↔ IsSquare (n : Fp) := by
  constructor
  · rintro ⟨m, h⟩
    refine ⟨(m : Fp), ?_⟩
    have := (ZMod.natCast_eq_natCast_iff' _ _ p).2 h
    rw [← this, Nat.cast_mul]
  · rintro ⟨r, h⟩
    refine ⟨r.val, ?_⟩
    apply (ZMod.natCast_eq_natCast_iff' _ _ p).1
    rw [Nat.cast_mul, ZMod.natCast_zmod_val, h]

/-- C11: `legendre_symbol` answers 1 exactly for squares (zero included). -/
theorem C11_legendre (c : Cfg) (hc : c.Enough) (a : FE) (ha : a.WF) :
    ∃ b, legendre c a = .ok b ∧ (b = true ↔ SquareMod a.val) := by
  classical
  refine ⟨_, legendre_wf c hc a ha, ?_⟩
  rw [decide_eq_true_eq, squareMod_iff]; rfl

/-- C11: the answer for zero is 1, where the documentation promises 0. -/
theorem C11_zero (c : Cfg) (hc : c.Enough) : legendre c ⟨0, 0, 0, 0, 0⟩ = .ok true := by
  classical
  have h := legendre_wf c hc zero zero_canon.1
  have : IsSquare zero.toZ := ⟨0, by rw [zero_enc, enc_toZ, mul_zero]⟩
  rw [decide_eq_true this] at h
  exact h

/-- Both answers occur: 4 is a square, 6 is not. -/
example : SquareMod 4 ∧ ¬ SquareMod 6 := by
  refine ⟨⟨2, rfl⟩, ?_⟩
  rw [squareMod_iff]
  intro h
  have h6 : ((6 : ℕ) : Fp) ≠ 0 := by
    rw [Ne, ZMod.natCast_eq_zero_iff]; exact Nat.not_dvd_of_pos_of_lt (by decide) (by decide)
  have := (ZMod.euler_criterion p h6).1 h
  rw [show p / 2 = 2 * Q by decide] at this
  have h2 := six_pow
  push_cast at this
  rw [this] at h2
  exact one_ne_neg_one h2

/-! ### C12 -/

/-- C12: `mod_sqrt` terminates, returns `None` exactly for non-squares, and otherwise a root. -/
theorem C12_mod_sqrt (c : Cfg) (hc : c.Enough) (a : FE) (ha : a.Canon) (sign : Bool) :
    (SquareMod a.val → ∃ r, modSqrt c a sign = .ok (some r) ∧ r.Canon ∧ r.val * r.val % p = a.val) ∧
    (¬ SquareMod a.val → modSqrt c a sign = .ok none) := by
  rw [squareMod_iff]
  have key : ∀ x : Fp, x * x = a.toZ → (enc x).val * (enc x).val % p = a.val := by
    intro x hx
    have : (((enc x).val * (enc x).val : ℕ) : Fp) = ((a.val : ℕ) : Fp) := by
      rw [Nat.cast_mul, enc_val, ZMod.natCast_zmod_val, hx]; rfl
    have := (ZMod.natCast_eq_natCast_iff' _ _ p).1 this
    rw [this, Nat.mod_eq_of_lt ha.2]
  constructor
  · intro hs
    by_cases h0 : a.toZ = 0
    · have h := modSqrt_zero c sign
      rw [← h0, ha.enc] at h
      refine ⟨a, h, ha, ?_⟩
      have := key a.toZ (by rw [h0, mul_zero])
      rwa [ha.enc] at this
    · obtain ⟨r, hr, hm⟩ := modSqrt_square a.toZ h0 hs
      have h := hm c sign hc
      rw [ha.enc] at h
      exact ⟨_, h, enc_canon _, key _ (by cases sign <;> simp [hr])⟩
  · intro hs
    have := modSqrt_nonsquare c hc a.toZ sign hs
    rwa [ha.enc] at this

example : (⟨9, 0, 0, 0, 0⟩ : FE).Canon ∧ SquareMod (⟨9, 0, 0, 0, 0⟩ : FE).val :=
  ⟨by decide, 3, rfl⟩

/-! ### C13 -/

/-- C13: the two sign choices return negatives of each other (and nonzero squares have two roots). -/
theorem C13_signs_opposite (c : Cfg) (hc : c.Enough) (a : FE) (ha : a.Canon) (h : SquareMod a.val) :
    ∃ r s, modSqrt c a true = .ok (some r) ∧ modSqrt c a false = .ok (some s) ∧
      (r.val + s.val) % p = 0 := by
  rw [squareMod_iff] at h
  by_cases h0 : a.toZ = 0
  · have h1 := modSqrt_zero c true
    have h2 := modSqrt_zero c false
    rw [← h0, ha.enc] at h1 h2
    refine ⟨a, a, h1, h2, ?_⟩
    have : a.val = 0 := by
      have := toZ_val a
      rw [h0, ZMod.val_zero, Nat.mod_eq_of_lt ha.2] at this
      exact this.symm
    rw [this]; rfl
  · obtain ⟨r, hr, hm⟩ := modSqrt_square a.toZ h0 h
    have h1 := hm c true hc
    have h2 := hm c false hc
    rw [ha.enc] at h1 h2
    refine ⟨_, _, h1, h2, ?_⟩
    have : (((enc (-r)).val + (enc r).val : ℕ) : Fp) = ((0 : ℕ) : Fp) := by
      rw [Nat.cast_add, enc_val, enc_val, ZMod.natCast_zmod_val, ZMod.natCast_zmod_val, Nat.cast_zero,
        neg_add_cancel]
    exact (ZMod.natCast_eq_natCast_iff' _ _ p).1 this

theorem tsRoot_nine : tsRoot 9 = 3 := by
  have h1 : (9 : Fp) ^ Q = (Primality.powMod 260 p 9 Q : Fp) := by
    exact_mod_cast pow_facts 9 Q (by decide)
  have h2 : (9 : Fp) ^ ((Q + 1) / 2) = (Primality.powMod 260 p 9 ((Q + 1) / 2) : Fp) := by
    exact_mod_cast pow_facts 9 ((Q + 1) / 2) (by decide)
  unfold tsRoot
  rw [h1, h2]
  have e1 : Primality.powMod 260 p 9 Q = 1 := by decide +kernel
  have e2 : Primality.powMod 260 p 9 ((Q + 1) / 2) = 3 := by decide +kernel
  rw [e1, e2, Nat.cast_one, if_pos rfl]; rfl

/-- C13: the documented meaning of the sign is false: for `9`, `Choice(1)`, documented to give the
positive root, returns `-3`, and `Choice(0)` returns `3`. -/
theorem C13_sign_documentation_false (c : Cfg) (hc : c.Enough) :
    ∃ r s, modSqrt c ⟨9, 0, 0, 0, 0⟩ true = .ok (some r) ∧ isPositive r = false ∧
      modSqrt c ⟨9, 0, 0, 0, 0⟩ false = .ok (some s) ∧ isPositive s = true := by
  have hn : (⟨9, 0, 0, 0, 0⟩ : FE) = enc 9 := by
    have h : (⟨9, 0, 0, 0, 0⟩ : FE).Canon := by decide
    exact h.eq_enc (by unfold L5.toZ; rfl)
  have h3 : (⟨3, 0, 0, 0, 0⟩ : FE) = enc 3 := by
    have h : (⟨3, 0, 0, 0, 0⟩ : FE).Canon := by decide
    exact h.eq_enc (by unfold L5.toZ; rfl)
  have hs : IsSquare (9 : Fp) := ⟨3, by norm_num⟩
  have p3 : Pos 3 := by
    have : (enc 3).val = 3 := by rw [← h3]; rfl
    unfold Pos; rw [← enc_val, this]; decide
  have n3 : (3 : Fp) ≠ 0 := fun h => by
    have h' : (enc 3).val = 3 := by rw [← h3]; rfl
    rw [h, enc_val, ZMod.val_zero] at h'
    omega
  have n9 : (9 : Fp) ≠ 0 := by
    have : (9 : Fp) = 3 * 3 := by norm_num
    rw [this]; exact mul_ne_zero n3 n3
  refine ⟨enc (-3), enc 3, ?_, ?_, ?_, ?_⟩
  · rw [hn, modSqrt_tsRoot 9 n9 hs c true hc, tsRoot_nine]; rfl
  · rw [isPositive_enc]; exact decide_eq_false (fun h => (pos_neg n3).1 h p3)
  · rw [hn, modSqrt_tsRoot 9 n9 hs c false hc, tsRoot_nine]; rfl
  · rw [isPositive_enc]; exact decide_eq_true p3

example : (⟨9, 0, 0, 0, 0⟩ : FE).Canon := by decide

/-! ### C14, C15 -/

/-- `i`, the fixed square root of `-1`. -/
def iNat : Nat := SQRT_MINUS_ONE.val

example : iNat * iNat % p = p - 1 := by decide +kernel

/-- C14: the contract of `sqrt_ratio_i`. -/
theorem C14_sqrt_ratio_i (c : Cfg) (hc : c.Enough) (u v : FE) (hu : u.Canon) (hv : v.Canon) :
    ∃ ok r, sqrtRatioI c u v = .ok (ok, r) ∧ r.Canon ∧ 2 * r.val ≤ p - 1 ∧
      (u.val = 0 → ok = true ∧ r.val = 0) ∧
      (u.val ≠ 0 → v.val = 0 → ok = false ∧ r.val = 0) ∧
      (u.val ≠ 0 → v.val ≠ 0 → (ok = true ↔ SquareMod (u.val * v.val)) ∧
        (ok = true → r.val * r.val * v.val % p = u.val) ∧
        (ok = false → r.val * r.val * v.val % p = iNat * u.val % p)) := by
  have hz : ∀ w : FE, w.Canon → (w.toZ = 0 ↔ w.val = 0) := by
    intro w hw
    have := toZ_val w
    rw [Nat.mod_eq_of_lt hw.2] at this
    rw [← this, ZMod.val_eq_zero]
  have e := sqrtRatioI_enc c hc u.toZ v.toZ
  rw [hu.enc, hv.enc] at e
  refine ⟨_, _, e, enc_canon _, ?_, ?_, ?_, ?_⟩
  · rw [enc_val]
    exact sqrtRatioZ_pos u.toZ v.toZ
  · intro h
    unfold sqrtRatioZ
    rw [if_pos ((hz u hu).2 h)]
    exact ⟨rfl, by rw [enc_val, ZMod.val_zero]⟩
  · intro h h'
    unfold sqrtRatioZ
    rw [if_neg (fun x => h ((hz u hu).1 x)), if_pos ((hz v hv).2 h')]
    exact ⟨rfl, by rw [enc_val, ZMod.val_zero]⟩
  · intro h h'
    have hu0 : u.toZ ≠ 0 := fun x => h ((hz u hu).1 x)
    have hv0 : v.toZ ≠ 0 := fun x => h' ((hz v hv).1 x)
    have hsq : IsSquare (u.toZ / v.toZ) ↔ SquareMod (u.val * v.val) := by
      rw [squareMod_iff, Nat.cast_mul]
      change _ ↔ IsSquare (u.toZ * v.toZ)
      constructor
      · rintro ⟨s, hs⟩
        refine ⟨s * v.toZ, ?_⟩
        rw [div_eq_iff hv0] at hs
        rw [hs]; ring
      · rintro ⟨s, hs⟩
        refine ⟨s / v.toZ, ?_⟩
        field_simp
        linear_combination hs
    have red : ∀ (x : Fp) (n : Nat), x * x * v.toZ = (n : Fp) →
        (enc x).val * (enc x).val * v.val % p = n % p := by
      intro x n hx
      apply (ZMod.natCast_eq_natCast_iff' _ _ p).1
      rw [Nat.cast_mul, Nat.cast_mul, enc_val, ZMod.natCast_zmod_val]
      exact hx
    unfold sqrtRatioZ
    rw [if_neg hu0, if_neg hv0]
    by_cases hs : IsSquare (u.toZ / v.toZ)
    · rw [if_pos hs]
      refine ⟨by simp [← hsq, hs], fun _ => ?_, fun hf => absurd hf (by simp)⟩
      rw [red _ u.val, Nat.mod_eq_of_lt hu.2]
      rw [psqrt_sq hs, div_mul_cancel₀ _ hv0]; rfl
    · rw [if_neg hs]
      refine ⟨by simp [← hsq, hs], fun hf => absurd hf (by simp), fun _ => ?_⟩
      rw [red _ (iNat * u.val)]
      rw [psqrt_sq (iZ_mul_square hs), mul_assoc, div_mul_cancel₀ _ hv0, Nat.cast_mul]; rfl

/-- C15: the contract of `inv_sqrt`. -/
theorem C15_inv_sqrt (c : Cfg) (hc : c.Enough) (v : FE) (hv : v.Canon) :
    ∃ ok r, invSqrt c v = .ok (ok, r) ∧ r.Canon ∧ 2 * r.val ≤ p - 1 ∧
      (v.val = 0 → ok = false ∧ r.val = 0) ∧
      (v.val ≠ 0 → (ok = true ↔ SquareMod v.val) ∧
        (ok = true → r.val * r.val * v.val % p = 1) ∧
        (ok = false → r.val * r.val * v.val % p = iNat)) := by
  obtain ⟨ok, r, e, h1, h2, h3, h4, h5⟩ := C14_sqrt_ratio_i c hc one v one_canon hv
  have i_red : iNat * one.val % p = iNat := by decide
  rw [one_val] at h4 h5
  refine ⟨ok, r, e, h1, h2, fun h => h4 (by decide) h, fun h => ?_⟩
  obtain ⟨a, b, d⟩ := h5 (by decide) h
  rw [one_val] at i_red
  rw [Nat.one_mul] at a
  rw [i_red] at d
  exact ⟨a, b, d⟩

/-- Both outcomes occur among the admissible inputs. -/
example : (⟨4, 0, 0, 0, 0⟩ : FE).Canon ∧ SquareMod (⟨4, 0, 0, 0, 0⟩ : FE).val ∧
    SQRT_MINUS_ONE.Canon ∧ ¬ SquareMod SQRT_MINUS_ONE.val :=
  ⟨by decide, ⟨2, rfl⟩, by decide, by rw [squareMod_iff]; exact iZ_not_square⟩

/-! ### C16 -/

/-- C16: the sign test. -/
theorem C16_is_positive (a : FE) (ha : a.WF) : isPositive a = true ↔ a.val ≤ (p - 1) / 2 := by
  rw [isPositive_spec a ha, decide_eq_true_eq]
  omega

/-- C16: of a nonzero canonical element and its negative exactly one is positive; zero is positive. -/
theorem C16_exactly_one (c : Cfg) (a : FE) (ha : a.Canon) (h0 : a.val ≠ 0) :
    ∃ n, neg c a = .ok n ∧ isPositive n = !isPositive a := by
  have hz : a.toZ ≠ 0 := fun h => h0 (by
    have := toZ_val a
    rw [h, ZMod.val_zero, Nat.mod_eq_of_lt ha.2] at this
    exact this.symm)
  refine ⟨enc (-a.toZ), ?_, ?_⟩
  · have := neg_enc c a.toZ
    rwa [ha.enc] at this
  · rw [isPositive_enc, decide_eq_decide.2 (pos_neg hz), decide_not, ← isPositive_enc, ha.enc]

theorem C16_zero_positive : isPositive ⟨0, 0, 0, 0, 0⟩ = true := by decide

example : minusOne.Canon ∧ minusOne.val ≠ 0 ∧ isPositive minusOne = false ∧ isPositive one = true := by
  decide

/-! ### C17 -/

/-- C17: the order of field elements and of scalars is the order of their values. -/
theorem C17_cmp (a b : L5) (ha : a.WF) (hb : b.WF) :
    Field.cmp a b = compare a.val b.val ∧ Scalar.cmp a b = compare a.val b.val :=
  ⟨cmp_spec a b ha hb, cmp_spec a b ha hb⟩

example : (⟨2 ^ 52 - 1, 0, 0, 0, 1⟩ : FE).WF ∧ (⟨0, 0, 0, 0, 2⟩ : FE).WF ∧
    Field.cmp ⟨2 ^ 52 - 1, 0, 0, 0, 1⟩ ⟨0, 0, 0, 0, 2⟩ = .lt := by decide

/-! ### C18 -/

/-- C18: encoding is the little-endian value. -/
theorem C18_to_bytes (a : FE) (ha : a.WF) (h : a.val < 2 ^ 256) : bytesVal (toBytes a) = a.val :=
  toBytes_spec a ha h

/-- C18: decoding keeps the integer value of all byte strings, without reduction. -/
theorem C18_from_bytes (b : Bytes32) :
    (fromBytes b).WF ∧ (fromBytes b).val = bytesVal b ∧ ((fromBytes b).Canon ↔ bytesVal b < p) := by
  obtain ⟨w, v⟩ := fromBytes_spec b
  refine ⟨w, v, ?_⟩
  unfold L5.Canon
  rw [v]
  exact ⟨fun h => h.2, fun h => ⟨w, h⟩⟩

/-- C18: the two are inverse to each other. -/
theorem C18_roundtrip : (∀ b : Bytes32, toBytes (fromBytes b) = b) ∧
    (∀ a : FE, a.WF → a.val < 2 ^ 256 → fromBytes (toBytes a) = a) :=
  ⟨toBytes_fromBytes, fromBytes_toBytes⟩

example : minusOne.WF ∧ minusOne.val < 2 ^ 256 ∧ FIELD_L.val < 2 ^ 256 ∧ ¬ FIELD_L.Canon := by decide

/-! ### C19 -/

/-- C19: equality coincides with equality of integer values below `2^256`. -/
theorem C19_eq (a b : FE) (ha : a.WF) (hb : b.WF) (ha' : a.val < 2 ^ 256) (hb' : b.val < 2 ^ 256) :
    ctEq a b = true ↔ a.val = b.val := by
  rw [ctEq_spec a b ha hb ha' hb', decide_eq_true_eq]

/-- C19: on canonical elements equality is equality of residues. -/
theorem C19_eq_canon (a b : FE) (ha : a.Canon) (hb : b.Canon) :
    ctEq a b = true ↔ a.val % p = b.val % p := by
  rw [C19_eq a b ha.1 hb.1 (canon_lt256 ha) (canon_lt256 hb), Nat.mod_eq_of_lt ha.2,
    Nat.mod_eq_of_lt hb.2]

/-- C19: non-canonical representatives are not identified: the decoding of `p` differs from zero. -/
theorem C19_not_normalised : ∃ b : Bytes32, bytesVal b = p ∧ (fromBytes b).val % p = 0 ∧
    ctEq (fromBytes b) ⟨0, 0, 0, 0, 0⟩ = false := by
  refine ⟨toBytes FIELD_L, ?_, ?_, ?_⟩ <;> decide +kernel

example : one.Canon ∧ minusOne.Canon := by decide

/-! ### C20 -/

/-- C20: unsigned conversions (8, 16 and 32 bits share a definition). -/
theorem C20_from_unsigned (n : Nat) :
    (n < 2 ^ 32 → (Field.fromU32 n).Canon ∧ (Field.fromU32 n).val = n ∧
      (Scalar.fromU32 n).SCanon ∧ (Scalar.fromU32 n).val = n) ∧
    (n < 2 ^ 64 → (Field.fromU64 n).Canon ∧ (Field.fromU64 n).val = n ∧
      (Scalar.fromU64 n).SCanon ∧ (Scalar.fromU64 n).val = n) ∧
    (n < 2 ^ 128 → (Field.fromU128 n).Canon ∧ (Field.fromU128 n).val = n ∧
      (Scalar.fromU128 n).SCanon ∧ (Scalar.fromU128 n).val = n) := by
  refine ⟨fun h => ?_, fun h => ?_, fun h => ?_⟩
  · obtain ⟨a, b⟩ := Field.fromU32_spec n h
    obtain ⟨d, e⟩ := Scalar.fromU32_spec n h
    exact ⟨a, b, d, e⟩
  · obtain ⟨a, b⟩ := Field.fromU64_spec n h
    obtain ⟨d, e⟩ := Scalar.fromU64_spec n h
    exact ⟨a, b, d, e⟩
  · obtain ⟨a, b⟩ := Field.fromU128_spec n h
    obtain ⟨d, e⟩ := Scalar.fromU128_spec n h
    exact ⟨a, b, d, e⟩

example : (2 ^ 127 + 3 < 2 ^ 128) ∧ Field.fromU128 (2 ^ 127 + 3) = ⟨3, 0, 2 ^ 23, 0, 0⟩ := by decide

/-! ### C21 -/

/-- C21: powers of two in the field. -/
theorem C21_two_pow_k_field (k : Nat) :
    (k ≤ 252 → ∃ r, Field.twoPowK k = .ok r ∧ r.Canon ∧ r.val = 2 ^ k) ∧
    (253 ≤ k → Field.twoPowK k = .panic) :=
  ⟨Field.twoPowK_ok k, Field.twoPowK_panic k⟩

/-- C21: powers of two among scalars. -/
theorem C21_two_pow_k_scalar (k : Nat) :
    (k ≤ 249 → ∃ r, Scalar.twoPowK k = .ok r ∧ r.SCanon ∧ r.val = 2 ^ k) ∧
    (250 ≤ k → Scalar.twoPowK k = .panic) :=
  ⟨Scalar.twoPowK_ok k, Scalar.twoPowK_panic k⟩

example : Field.twoPowK 252 = .ok ⟨0, 0, 0, 0, 2 ^ 44⟩ ∧ Scalar.twoPowK 249 = .ok ⟨0, 0, 0, 0, 2 ^ 41⟩ := by
  decide

/-! ### C22 -/

/-- C22: random field elements are canonical for every generator output, but below `2^251`. -/
theorem C22_random_field (b : Bytes32) :
    (Field.random b).Canon ∧ (Field.random b).val < 2 ^ 251 := Field.random_spec b

/-- C22: random scalars never panic and are canonical for every generator output, but below `2^249`. -/
theorem C22_random_scalar (b : Bytes32) :
    ∃ r, Scalar.random b = .ok r ∧ r.SCanon ∧ r.val < 2 ^ 249 := Scalar.random_spec b

/-- C22: some field elements and scalars are never produced. -/
theorem C22_not_uniform :
    (∃ a : FE, a.Canon ∧ ∀ b, Field.random b ≠ a) ∧
    (∃ s : Sc, s.SCanon ∧ ∀ b, Scalar.random b ≠ .ok s) := by
  refine ⟨⟨minusOne, minusOne_canon, fun b h => ?_⟩,
    ⟨Scalar.minusOne, Scalar.minusOne_canon, fun b h => ?_⟩⟩
  · have := (Field.random_spec b).2
    rw [h] at this
    revert this; decide
  · obtain ⟨r, e, _, l⟩ := Scalar.random_spec b
    rw [e, Res.ok_inj] at h
    rw [h] at l
    revert l; decide

/-- Exactly half of `[0, p)` or less is reachable: everything from `2^251` on is missed. -/
theorem C22_range (a : FE) (h : 2 ^ 251 ≤ a.val) (b : Bytes32) : Field.random b ≠ a := by
  intro e
  have := (Field.random_spec b).2
  rw [e] at this
  omega

example : (Field.random (Vector.replicate 32 255)).val = 2 ^ 251 - 1 := by decide +kernel

/-! ### C23 -/

open External

/-- C23: canonical elements convert to dalek scalars and back. -/
theorem C23_roundtrip (a : FE) (ha : a.Canon) :
    ∃ s, intoDalek a = .ok s ∧ toField s = a := by
  have h := toBytes_spec a ha.1 (canon_lt256 ha)
  refine ⟨toBytes a, ?_, ?_⟩
  · unfold intoDalek fromCanonicalBytes
    rw [h, if_pos ha.2]; rfl
  · exact fromBytes_toBytes a ha.1 (canon_lt256 ha)

/-- C23: converting a non-canonical element by value panics. -/
theorem C23_noncanonical_panics (a : FE) (ha : a.WF) (h1 : p ≤ a.val) (h2 : a.val < 2 ^ 256) :
    intoDalek a = .panic := by
  unfold intoDalek fromCanonicalBytes
  rw [toBytes_spec a ha h2, if_neg (by omega)]; rfl

theorem leBytes_val (n : Nat) (h : n < 2 ^ 256) : bytesVal (leBytes n) = n := by
  rw [bytesVal_expand]
  unfold leBytes
  simp only [Vector.getElem_ofFn, UInt8.toNat_ofNat']
  norm_num
  omega

/-- C23: the by-reference conversion reduces, so it agrees with the by-value one on canonical elements
and never panics. -/
theorem C23_by_reference (a : FE) (ha : a.WF) (h2 : a.val < 2 ^ 256) :
    bytesVal (refIntoDalek a) = a.val % p := by
  unfold refIntoDalek fromBytesModOrder
  have h3 : a.val % p < 2 ^ 256 := lt_trans (Nat.mod_lt _ (by decide)) (by decide)
  rw [toBytes_spec a ha h2, leBytes_val _ h3]

example : minusOne.Canon ∧ FIELD_L.WF ∧ p ≤ FIELD_L.val ∧ FIELD_L.val < 2 ^ 256 := by decide

end Props
end Zerocaf
