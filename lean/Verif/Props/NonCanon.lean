import Verif.Proof.NonCanon
import Verif.Props.Field

/-!
# Field elements that are not reduced (C82)

`from_bytes` accepts all byte strings, so field elements with values from `p` to `2^256 - 1` circulate.
-/

set_option exponentiation.threshold 600

namespace Zerocaf
namespace Props

open Zerocaf.Field

/-! ### C82 -/

/-- A field element that `from_bytes` can return. -/
def Decoded (a : FE) : Prop := a.WF ∧ a.val < 2 ^ 256

instance (a : FE) : Decidable (Decoded a) := inferInstanceAs (Decidable (_ ∧ _))

theorem decoded_iff (a : FE) : Decoded a ↔ ∃ b : Bytes32, fromBytes b = a := by
  refine ⟨fun h => ⟨toBytes a, fromBytes_toBytes a h.1 h.2⟩, ?_⟩
  rintro ⟨b, rfl⟩
  obtain ⟨w, v⟩ := fromBytes_spec b
  exact ⟨w, by rw [v]; exact bytesVal_lt b⟩

/-- C82: addition subtracts `p` at most once. The sum is right modulo `p`, but not reduced in general. -/
theorem C82_add (c : Cfg) (a b : FE) (ha : Decoded a) (hb : Decoded b) :
    ∃ r, add c a b = .ok r ∧ r.WF ∧ r.val % p = (a.val + b.val) % p ∧
      r.val = if a.val + b.val < p then a.val + b.val else a.val + b.val - p := by
  obtain ⟨r, e, w, v⟩ := add_exact c a b ha.1 hb.1 ha.2 hb.2
  refine ⟨r, e, w, ?_, v⟩
  rw [v]
  split_ifs with h
  · rfl
  · rw [Nat.mod_eq_sub_mod (show a.val + b.val ≥ p by omega)]

/-- C82: subtraction never panics, and is right modulo `p` exactly if the subtrahend exceeds the minuend by
at most `p`. -/
theorem C82_sub (c : Cfg) (a b : FE) (ha : Decoded a) (hb : Decoded b) :
    ∃ r, sub c a b = .ok r ∧ r.WF ∧
      ((r.val : Int) % p = ((a.val : Int) - b.val) % p ↔ b.val ≤ a.val + p) ∧
      (a.val + p < b.val → r.val = a.val + p + 2 ^ 260 - b.val) := by
  obtain ⟨r, e, w, v⟩ := sub_cases c a b ha.1 hb.1 ha.2 hb.2
  have hp := p_lt
  have hb2 := hb.2
  refine ⟨r, e, w, ?_, fun h => by rw [v, if_neg (by omega), if_neg (by omega)]⟩
  by_cases h1 : b.val ≤ a.val
  · rw [if_pos h1] at v
    exact iff_of_true (by rw [v, Nat.cast_sub h1]) (by omega)
  rw [if_neg h1] at v
  by_cases h2 : b.val ≤ a.val + p
  · rw [if_pos h2] at v
    refine iff_of_true ?_ h2
    rw [v, show ((a.val + p - b.val : ℕ) : Int) = (a.val : Int) - b.val + p by omega, Int.add_emod_right]
  · rw [if_neg h2] at v
    refine iff_of_false (fun h => ?_) h2
    have e1 : ((a.val + p + 2 ^ 260 - b.val : ℕ) : Int) = ((a.val : Int) - b.val) + (p + 2 ^ 260) := by omega
    rw [v, e1] at h
    have h3 : (p : Int) ∣ (p : Int) + 2 ^ 260 := by
      have := Int.ModEq.dvd (Int.ModEq.symm h)
      rwa [add_sub_cancel_left] at this
    exact absurd h3 (by decide)

/-- C82: negation is right exactly for values up to `p`. -/
theorem C82_neg (c : Cfg) (a : FE) (ha : Decoded a) :
    ∃ r, neg c a = .ok r ∧ ((r.val + a.val) % p = 0 ↔ a.val ≤ p) := by
  obtain ⟨r, e, w, h, _⟩ := C82_sub c zero a ⟨zero_canon.1, by decide⟩ ha
  refine ⟨r, e, ?_⟩
  rw [Field.zero_val, Nat.zero_add, Nat.cast_zero, zero_sub] at h
  rw [← h, ← Nat.dvd_iff_mod_eq_zero, ← Int.natCast_dvd_natCast, Nat.cast_add,
    show (r.val : Int) + a.val = r.val - -a.val by ring]
  exact ⟨fun h => (Int.ModEq.symm ((Int.modEq_iff_dvd).2 h)), fun h => (Int.modEq_iff_dvd).1 (Int.ModEq.symm h)⟩

/-- The element `2^256 - 1`. -/
def allOnes : FE := ⟨2 ^ 52 - 1, 2 ^ 52 - 1, 2 ^ 52 - 1, 2 ^ 52 - 1, 2 ^ 48 - 1⟩

/-- C82: `-from_bytes([0xff; 32])` plus that element is not zero modulo `p`. -/
theorem C82_neg_wrong (c : Cfg) :
    fromBytes (Vector.replicate 32 0xff) = allOnes ∧
    ∃ r, neg c allOnes = .ok r ∧ (r.val + allOnes.val) % p ≠ 0 := by
  refine ⟨by decide +kernel, ?_⟩
  obtain ⟨r, e, h⟩ := C82_neg c allOnes ⟨by decide, by decide⟩
  refine ⟨r, e, fun h0 => ?_⟩
  have := h.1 h0
  exact absurd this (by decide)

/-- C82: a nonzero multiple of `p` is not recognised as zero: its inverse is zero instead of a panic, so is
every quotient by it, and its modular square root does not terminate. -/
theorem C82_multiples (c : Cfg) (hc : c.Enough) (a b : FE) (ha : a.WF) (hb : Decoded b) (h : b.val % p = 0)
    (h0 : b.val ≠ 0) (sign : Bool) :
    inverse c b = .ok zero ∧ divRef c a b = .ok zero ∧ div c a b = .ok zero ∧
    modSqrt c b sign = .diverge ∧ sqrtRatioI c a b = .ok (true, zero) := by
  have hd := Nat.dvd_of_mod_eq_zero h
  have hi := inverse_multiple c hc b hb.1 hb.2 hd h0
  have hct : ctEq b zero = false := by
    rw [ctEq_spec b zero hb.1 zero_canon.1 hb.2 (by decide), Field.zero_val]
    exact decide_eq_false h0
  have hm : mul c a (enc 0) = .ok (enc 0) := by
    rw [mul_wf c _ _ ha (enc_WF _), enc_toZ, mul_zero]
  refine ⟨by rw [hi, zero_enc], ?_, ?_, modSqrt_multiple c hc b hb.1 hb.2 hd h0 sign, ?_⟩
  · unfold divRef
    rw [hct, hi]
    simp only [Bool.not_false, rassert, if_true, Res.ok_bind]
    rw [hm, zero_enc]
  · unfold div
    rw [hi, Res.ok_bind, hm, zero_enc]
  · rw [sqrtRatioI_multiple c hc a b ha hb.1 hb.2 hd h0, zero_enc]

example : Decoded FIELD_L ∧ FIELD_L.val % p = 0 ∧ FIELD_L.val ≠ 0 := by decide

/-- C82: on everything else, square roots and ratios depend on the residues only. -/
theorem C82_residues (c : Cfg) (hc : c.Enough) (u u' v v' : FE) (hu : Decoded u) (hu' : Decoded u')
    (hv : Decoded v) (hv' : Decoded v') (eu : u.val % p = u'.val % p) (ev : v.val % p = v'.val % p)
    (hu0 : u.val % p ≠ 0) (hv0 : v.val % p ≠ 0) (sign : Bool) :
    modSqrt c u sign = modSqrt c u' sign ∧ sqrtRatioI c u v = sqrtRatioI c u' v' ∧
    divRef c u v = divRef c u' v' ∧ inverse c u = inverse c u' := by
  have key : ∀ a b : FE, a.val % p = b.val % p → a.toZ = b.toZ := fun a b h => by
    unfold L5.toZ
    exact (ZMod.natCast_eq_natCast_iff' _ _ p).2 h
  have nz : ∀ a : FE, a.val % p ≠ 0 → a.toZ ≠ 0 := fun a h h0 =>
    h (Nat.mod_eq_zero_of_dvd ((toZ_eq_zero_iff a).1 h0))
  have zu := key u u' eu
  have zv := key v v' ev
  have nu := nz u hu0
  have nv := nz v hv0
  have nu' : u'.toZ ≠ 0 := zu ▸ nu
  have nv' : v'.toZ ≠ 0 := zv ▸ nv
  refine ⟨?_, ?_, ?_, ?_⟩
  · rw [modSqrt_wf c hc u hu.1 hu.2 nu, modSqrt_wf c hc u' hu'.1 hu'.2 nu', zu]
  · rw [sqrtRatioI_wf c hc u v hu.1 hv.1 hu.2 hv.2 nu nv,
      sqrtRatioI_wf c hc u' v' hu'.1 hv'.1 hu'.2 hv'.2 nu' nv', zu, zv]
  · rw [divRef_wf c hc u v hu.1 hv.1 hv.2 nv, divRef_wf c hc u' v' hu'.1 hv'.1 hv'.2 nv', zu, zv]
  · rw [inverse_wf c hc u hu.1 hu.2 nu, inverse_wf c hc u' hu'.1 hu'.2 nu', zu]

example : Decoded allOnes ∧ allOnes.val % p ≠ 0 ∧ Decoded ⟨allOnes.l0 - FIELD_L.l0, allOnes.l1 - FIELD_L.l1,
    allOnes.l2 - FIELD_L.l2, allOnes.l3 - FIELD_L.l3, allOnes.l4 - FIELD_L.l4⟩ := by decide

end Props
end Zerocaf
