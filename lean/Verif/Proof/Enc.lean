import Verif.Proof.Bytes
import Verif.Proof.Primality

/-!
# Canonical encodings of residues

`enc x` is the canonical limb vector of a residue `x`. On canonical inputs the model operations are
field operations on residues.
-/

set_option exponentiation.threshold 600

namespace Zerocaf

/-- The field. -/
abbrev Fp := ZMod p

/-- The residue a limb vector denotes. -/
def L5.toZ (a : L5) : Fp := (a.val : Fp)

/-- The limbs of an integer. -/
def encNat (n : Nat) : L5 :=
  ⟨n % 2 ^ 52, n / 2 ^ 52 % 2 ^ 52, n / 2 ^ 104 % 2 ^ 52, n / 2 ^ 156 % 2 ^ 52, n / 2 ^ 208 % 2 ^ 52⟩

/-- The canonical limb vector of a residue. -/
def enc (x : Fp) : L5 := encNat x.val

theorem encNat_WF (n : Nat) : (encNat n).WF :=
  ⟨Nat.mod_lt _ (by decide), Nat.mod_lt _ (by decide), Nat.mod_lt _ (by decide),
    Nat.mod_lt _ (by decide), Nat.mod_lt _ (by decide)⟩

theorem encNat_val (n : Nat) (h : n < 2 ^ 260) : (encNat n).val = n := by
  unfold encNat L5.val; dsimp only; omega

theorem enc_WF (x : Fp) : (enc x).WF := encNat_WF _

theorem enc_val (x : Fp) : (enc x).val = x.val :=
  encNat_val _ (by have := ZMod.val_lt x; have := p_lt; omega)

theorem enc_canon (x : Fp) : (enc x).Canon := ⟨enc_WF x, by rw [enc_val]; exact ZMod.val_lt x⟩

@[simp] theorem enc_toZ (x : Fp) : (enc x).toZ = x := by
  unfold L5.toZ; rw [enc_val]; exact ZMod.natCast_zmod_val x

theorem toZ_val (a : L5) : a.toZ.val = a.val % p := ZMod.val_natCast p a.val

theorem L5.Canon.enc {a : L5} (h : a.Canon) : enc a.toZ = a :=
  (enc_WF _).ext h.1 (by rw [enc_val, toZ_val, Nat.mod_eq_of_lt h.2])

/-- A canonical vector is determined by its residue. -/
theorem L5.Canon.eq_enc {a : L5} (h : a.Canon) {x : Fp} (hx : a.toZ = x) : a = Zerocaf.enc x := by
  rw [← hx, h.enc]

theorem enc_inj {x y : Fp} : enc x = enc y ↔ x = y :=
  ⟨fun h => by rw [← enc_toZ x, h, enc_toZ], fun h => by rw [h]⟩

theorem toZ_eq_iff {a : L5} {n : Nat} : a.toZ = (n : Fp) ↔ a.val % p = n % p :=
  ZMod.natCast_eq_natCast_iff' _ _ _

namespace Field

/-- Multiplication of well-formed vectors, canonical or not. -/
theorem mul_wf (c : Cfg) (a b : FE) (ha : a.WF) (hb : b.WF) :
    mul c a b = .ok (enc (a.toZ * b.toZ)) := by
  obtain ⟨r, e, h, v⟩ := mul_spec c a b ha hb
  rw [e, h.eq_enc]
  unfold L5.toZ; rw [v, ZMod.natCast_mod, Nat.cast_mul]

theorem square_wf (c : Cfg) (a : FE) (ha : a.WF) : square c a = .ok (enc (a.toZ * a.toZ)) := by
  obtain ⟨r, e, h, v⟩ := square_spec c a ha
  rw [e, h.eq_enc]
  unfold L5.toZ; rw [v, ZMod.natCast_mod, Nat.cast_mul]

@[simp] theorem mul_enc (c : Cfg) (x y : Fp) : mul c (enc x) (enc y) = .ok (enc (x * y)) := by
  rw [mul_wf c _ _ (enc_WF x) (enc_WF y), enc_toZ, enc_toZ]

@[simp] theorem square_enc (c : Cfg) (x : Fp) : square c (enc x) = .ok (enc (x * x)) := by
  rw [square_wf c _ (enc_WF x), enc_toZ]

@[simp] theorem add_enc (c : Cfg) (x y : Fp) : add c (enc x) (enc y) = .ok (enc (x + y)) := by
  obtain ⟨r, e, h, v⟩ := add_spec c _ _ (enc_canon x) (enc_canon y)
  rw [e, h.eq_enc]
  unfold L5.toZ
  rw [v, enc_val, enc_val, ZMod.natCast_mod, Nat.cast_add, ZMod.natCast_zmod_val,
    ZMod.natCast_zmod_val]

@[simp] theorem sub_enc (c : Cfg) (x y : Fp) : sub c (enc x) (enc y) = .ok (enc (x - y)) := by
  obtain ⟨r, e, h, v⟩ := sub_spec c _ _ (enc_canon x) (enc_canon y)
  rw [e, h.eq_enc]
  have hy := (ZMod.val_lt y).le
  unfold L5.toZ
  rw [v, enc_val, enc_val, ZMod.natCast_mod, Nat.add_sub_assoc hy, Nat.cast_add, Nat.cast_sub hy,
    ZMod.natCast_zmod_val, ZMod.natCast_zmod_val, ZMod.natCast_self]
  ring

theorem zero_enc : zero = enc 0 := zero_canon.eq_enc (by unfold L5.toZ; rw [zero_val, Nat.cast_zero])
theorem one_enc : one = enc 1 := one_canon.eq_enc (by unfold L5.toZ; rw [one_val, Nat.cast_one])
theorem minusOne_enc : minusOne = enc (-1) := minusOne_canon.eq_enc (by
  unfold L5.toZ
  rw [minusOne_val, Nat.cast_sub (by decide), ZMod.natCast_self, Nat.cast_one, zero_sub])

@[simp] theorem neg_enc (c : Cfg) (x : Fp) : neg c (enc x) = .ok (enc (-x)) := by
  unfold neg; rw [zero_enc, sub_enc, zero_sub]

theorem fromU32_enc (n : Nat) (h : n < 2 ^ 32) : fromU32 n = enc (n : Fp) :=
  (fromU32_spec n h).1.eq_enc (by unfold L5.toZ; rw [(fromU32_spec n h).2])

@[simp] theorem ctEq_enc (x y : Fp) : ctEq (enc x) (enc y) = decide (x = y) := by
  rw [ctEq_canon _ _ (enc_canon x) (enc_canon y)]
  simp only [enc_inj]

@[simp] theorem condSelect_enc (x y : Fp) (ch : Bool) :
    condSelect (enc x) (enc y) ch = enc (if ch then y else x) := by
  rw [condSelect_spec]; cases ch <;> rfl

@[simp] theorem condNegate_enc (c : Cfg) (x : Fp) (ch : Bool) :
    condNegate c (enc x) ch = .ok (enc (if ch then -x else x)) := by
  unfold condNegate; simp

theorem half_wf (c : Cfg) (a : FE) (ha : a.WF) : half c a = .ok (enc (a.toZ / 2)) := by
  have two : (2 : Fp) ≠ 0 := by
    have : ((2 : ℕ) : Fp) ≠ 0 := by
      rw [Ne, ZMod.natCast_eq_zero_iff]; exact Nat.not_dvd_of_pos_of_lt (by decide) (by decide)
    exact_mod_cast this
  obtain ⟨r, e, h, v⟩ := half_spec c a ha
  rw [e, h.eq_enc]
  rw [eq_div_iff two]
  have := (ZMod.natCast_eq_natCast_iff' _ _ p).2 v
  unfold L5.toZ
  rw [← this]; push_cast; ring

/-! ### Sign -/

end Field

/-- Non-negative residues: at most `(p - 1) / 2`. -/
def Pos (x : Fp) : Prop := 2 * x.val ≤ p - 1

instance (x : Fp) : Decidable (Pos x) := by unfold Pos; infer_instance

theorem Field.isPositive_enc (x : Fp) : Field.isPositive (enc x) = decide (Pos x) := by
  rw [Field.isPositive_spec _ (enc_WF x), enc_val]; rfl

theorem pos_zero : Pos 0 := by unfold Pos; simp

theorem p_odd : p % 2 = 1 := by decide

/-- Exactly one of `x`, `-x` is non-negative, for `x ≠ 0`. -/
theorem pos_neg {x : Fp} (hx : x ≠ 0) : Pos (-x) ↔ ¬ Pos x := by
  unfold Pos
  have : NeZero x := ⟨hx⟩
  rw [ZMod.val_neg_of_ne_zero]
  have h1 := ZMod.val_lt x
  have h2 : x.val ≠ 0 := by rwa [Ne, ZMod.val_eq_zero]
  have := p_odd
  omega

end Zerocaf
