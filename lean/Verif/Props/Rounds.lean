import Verif.Proof.Rounds
import Verif.Props.Scalar
import Verif.Props.Ristretto

/-!
# C113: how many rounds the loops make

`fuel` bounds the rounds of every loop of the model. Without enough of it the outcome is `diverge`. The theorems give,
for each operation with a loop of variable length, the exact fuel from which on it returns, and so the exact number of
rounds, for every operand and every build.
-/

set_option exponentiation.threshold 600

namespace Zerocaf
namespace Props

/-- C113: a power of a field element takes one round for each bit of the exponent. -/
theorem C113_field_pow (c : Cfg) (a e : FE) (ha : a.WF) (he : e.WF) :
    (c.fuel ≤ Nat.size e.val → Field.pow c a e = .diverge) ∧
    (Nat.size e.val < c.fuel → ∃ r, Field.pow c a e = .ok r ∧ r.Canon ∧ r.val = a.val ^ e.val % p) := by
  rw [Field.pow_rounds c a e ha he]
  refine ⟨fun h => if_neg (by omega), fun h => ⟨_, if_pos h, enc_canon _, ?_⟩⟩
  rw [enc_val, L5.toZ, ← Nat.cast_pow, ZMod.val_natCast]

/-- C113: a power of a scalar takes one round for each bit of a canonical exponent. -/
theorem C113_scalar_pow (c : Cfg) (a e : Sc) (ha : a.WF) (he : e.SCanon) :
    (c.fuel ≤ Nat.size e.val → Scalar.pow c a e = .diverge) ∧
    (Nat.size e.val < c.fuel → ∃ r, Scalar.pow c a e = .ok r ∧ r.SCanon ∧ r.val = a.val ^ e.val % ell) :=
  Scalar.pow_rounds c a e ha he

/-- C113: multiplication of a point by a scalar takes one round for each bit of the scalar, on all point types. -/
theorem C113_mul (c : Cfg) (P : EdPoint) (Q : ProjPoint) (A : E) (hP : P.Rep A) (hQ : Q.Rep A) (n : Sc) (wn : n.WF)
    (hn : n.val < 2 ^ 256) :
    (c.fuel ≤ Nat.size n.val →
      Ed.mul c P n = .diverge ∧ Ristretto.mul c P n = .diverge ∧ Proj.mul c Q n = .diverge) ∧
    (Nat.size n.val < c.fuel → (∃ S, Ed.mul c P n = .ok S ∧ S.Rep (n.val • A)) ∧
      (∃ S, Ristretto.mul c P n = .ok S ∧ S.Rep (n.val • A)) ∧ ∃ S, Proj.mul c Q n = .ok S ∧ S.Rep (n.val • A)) := by
  obtain ⟨h1, h2⟩ := doubleAndAdd_rounds Ed.opsSpec c hP n wn hn
  obtain ⟨h3, h4⟩ := doubleAndAdd_rounds Proj.opsSpec c hQ n wn hn
  obtain ⟨h5, h6⟩ := doubleAndAdd_rounds Ristretto.opsSpec c hP n wn hn
  exact ⟨fun h => ⟨h1 h, h5 h, h3 h⟩, fun h => ⟨h2 h, h6 h, h4 h⟩⟩

/-- C113: inversion takes `k` rounds with `p + a ≤ 2^k ≤ 2·p·a`, for canonical operands from 253 to 505. -/
theorem C113_inverse (a : FE) (ha : a.WF) (ha2 : a.val < 2 ^ 256) (h0 : ¬p ∣ a.val) :
    ∃ k, p + a.val ≤ 2 ^ k ∧ 2 ^ k ≤ 2 * (p * a.val) ∧ (a.Canon → 253 ≤ k ∧ k ≤ 505) ∧
      ∃ r : FE, r.Canon ∧ a.val * r.val % p = 1 ∧ ∀ c : Cfg,
        (c.fuel ≤ k → Field.inverse c a = .diverge) ∧ (k < c.fuel → Field.inverse c a = .ok r) := by
  have z : a.toZ ≠ 0 := fun h => h0 ((ZMod.natCast_eq_zero_iff _ _).1 h)
  obtain ⟨k, b1, b2, e⟩ := Field.inverse_rounds a ha ha2 z
  refine ⟨k, b1, b2, fun hc => ⟨?_, ?_⟩, enc a.toZ⁻¹, enc_canon _, ?_, fun c => ?_⟩
  · by_contra h
    have h1 := Nat.pow_le_pow_right (n := 2) (by decide) (show k ≤ 252 by omega)
    have h2 : 2 ^ 252 ≤ p := by decide
    have h3 : a.val ≠ 0 := fun h => h0 (by rw [h]; exact dvd_zero _)
    omega
  · by_contra h
    have h1 := Nat.pow_le_pow_right (n := 2) (by decide) (show 506 ≤ k by omega)
    have h2 : p * a.val < p * p := Nat.mul_lt_mul_of_pos_left hc.2 (by decide)
    have h3 : 2 * (p * p) < 2 ^ 506 := by decide
    omega
  · have h1 : ((a.val * (enc a.toZ⁻¹).val : ℕ) : Fp) = ((1 : ℕ) : Fp) := by
      rw [Nat.cast_mul, Nat.cast_one, show ((enc a.toZ⁻¹).val : Fp) = a.toZ⁻¹ from enc_toZ _]
      exact mul_inv_cancel₀ z
    have h2 := (ZMod.natCast_eq_natCast_iff' _ _ p).1 h1
    rw [h2]
    decide
  · rw [e c]
    exact ⟨fun h => if_neg (by omega), fun h => if_pos h⟩

/-- C113: the bounds meet at the element one, which takes exactly 253 rounds, the fewest possible. -/
theorem C113_inverse_one (c : Cfg) :
    (c.fuel ≤ 253 → Field.inverse c Field.one = .diverge) ∧ (253 < c.fuel → Field.inverse c Field.one = .ok Field.one) := by
  obtain ⟨k, b1, b2, b3, r, cr, vr, e⟩ := C113_inverse Field.one (by decide) (by decide) (by decide)
  have hk : k = 253 := by
    refine le_antisymm ?_ (b3 (by decide)).1
    by_contra h
    have h1 := Nat.pow_le_pow_right (n := 2) (by decide) (show 254 ≤ k by omega)
    have h2 : 2 * (p * Field.one.val) < 2 ^ 254 := by decide
    omega
  have hr : r = Field.one := by
    refine cr.1.ext (by decide) ?_
    rw [Field.one_val] at vr ⊢
    rw [Nat.one_mul, Nat.mod_eq_of_lt cr.2] at vr
    exact vr
  rw [hk, hr] at e
  exact e c

/-- C113: the residue symbol and square roots of nonzero elements take 252 rounds, the bits of `(p - 1) / 2`. No loop
inside takes more. -/
theorem C113_roots (c : Cfg) (a : FE) (ha : a.Canon) (h0 : a.val ≠ 0) (s : Bool) :
    (c.fuel ≤ 252 → Field.legendre c a = .diverge ∧ Field.modSqrt c a s = .diverge) ∧
    (252 < c.fuel → Field.legendre c a = Field.legendre ⟨c.debug, 1000⟩ a ∧
      Field.modSqrt c a s = Field.modSqrt ⟨c.debug, 1000⟩ a s ∧
      (∃ b, Field.legendre c a = .ok b) ∧ ∃ o, Field.modSqrt c a s = .ok o) := by
  classical
  obtain ⟨x, rfl⟩ : ∃ x, a = enc x := ⟨_, ha.eq_enc rfl⟩
  have hx : x ≠ 0 := fun h => h0 (by rw [h]; exact Field.zero_val')
  have hE : (⟨c.debug, 1000⟩ : Cfg).Enough := by unfold Cfg.Enough; exact le_refl _
  rw [Field.legendre_rounds, Field.modSqrt_rounds c x hx]
  refine ⟨fun h => ⟨if_neg (by omega), if_neg (by omega)⟩, fun h => ?_⟩
  rw [if_pos h, if_pos h]
  refine ⟨rfl, rfl, ⟨_, Field.legendre_enc _ hE x⟩, ?_⟩
  by_cases hs : IsSquare x
  · exact ⟨_, Field.modSqrt_tsRoot x hx hs _ s hE⟩
  · exact ⟨_, Field.modSqrt_nonsquare _ hE x s hs⟩

theorem wnafLoop_fuel (d : Bool) (n m w : Nat) : ∀ (f : Nat) (k : Sc) (i : Nat) (res : Vector Int 256),
    Scalar.wnafLoop ⟨d, n⟩ w f k i res = Scalar.wnafLoop ⟨d, m⟩ w f k i res := by
  have e1 : Scalar.mods2PowK ⟨d, n⟩ = Scalar.mods2PowK ⟨d, m⟩ := rfl
  have e2 : Scalar.fromI8 ⟨d, n⟩ = Scalar.fromI8 ⟨d, m⟩ := rfl
  have e3 : Scalar.sub ⟨d, n⟩ = Scalar.sub ⟨d, m⟩ := rfl
  intro f
  induction f with
  | zero => intros; rfl
  | succ f ih =>
    intro k i res
    simp only [Scalar.wnafLoop, e1, e2, e3, ih]

theorem wnaf_rounds (d : Bool) (w : Nat) (h1 : 2 ≤ w) (h2 : w ≤ 6) (a : Sc) (ha : a.SCanon) (v : Vector Int 256)
    (hv : Scalar.computeWindowNAF ⟨d, 1000⟩ a w = .ok v) (fuel : Nat) :
    ((fuel = 0 ∨ ∃ j : Fin 256, v[j] ≠ 0 ∧ fuel ≤ j.val + 1) → Scalar.computeWindowNAF ⟨d, fuel⟩ a w = .diverge) ∧
    (¬(fuel = 0 ∨ ∃ j : Fin 256, v[j] ≠ 0 ∧ fuel ≤ j.val + 1) → Scalar.computeWindowNAF ⟨d, fuel⟩ a w = .ok v) := by
  obtain ⟨_, _, h⟩ := Scalar.wnafLoop_top ⟨d, 1000⟩ w h1 h2 1000 a 0 _ v ha hv (fun j _ => Scalar.dig_replicate j)
  have e : Scalar.computeWindowNAF ⟨d, fuel⟩ a w = Scalar.wnafLoop ⟨d, 1000⟩ w fuel a 0 (Vector.replicate 256 0) :=
    wnafLoop_fuel d fuel 1000 w fuel a 0 _
  have key : (fuel = 0 ∨ ∃ j : Fin 256, v[j] ≠ 0 ∧ fuel ≤ j.val + 1) ↔
      (fuel = 0 ∨ ∃ j, 0 ≤ j ∧ Scalar.dig v j ≠ 0 ∧ fuel ≤ j + 1 - 0) := by
    refine or_congr Iff.rfl ⟨?_, ?_⟩
    · rintro ⟨j, hj, hf⟩
      exact ⟨j.val, Nat.zero_le _, by rw [dig_fin]; exact hj, hf⟩
    · rintro ⟨j, _, hj, hf⟩
      by_cases hl : j < 256
      · exact ⟨⟨j, hl⟩, by rw [← dig_fin]; exact hj, hf⟩
      · exact absurd (by unfold Scalar.dig; rw [dif_neg hl]) hj
  rw [key, e]
  exact h fuel

/-- C113: the digits of a scalar take one round for each position up to the last nonzero digit. -/
theorem C113_digits (d : Bool) (a : Sc) (ha : a.SCanon) :
    (∃ v, IsNAF 2 v ∧ digitSum v = a.val ∧ ∀ fuel,
      ((fuel = 0 ∨ ∃ j : Fin 256, v[j] ≠ 0 ∧ fuel ≤ j.val + 1) → Scalar.computeNAF ⟨d, fuel⟩ a = .diverge) ∧
      (¬(fuel = 0 ∨ ∃ j : Fin 256, v[j] ≠ 0 ∧ fuel ≤ j.val + 1) → Scalar.computeNAF ⟨d, fuel⟩ a = .ok v)) ∧
    ∀ w, 2 ≤ w → w ≤ 5 → ∃ v, IsNAF w v ∧ digitSum v = a.val ∧ ∀ fuel,
      ((fuel = 0 ∨ ∃ j : Fin 256, v[j] ≠ 0 ∧ fuel ≤ j.val + 1) → Scalar.computeWindowNAF ⟨d, fuel⟩ a w = .diverge) ∧
      (¬(fuel = 0 ∨ ∃ j : Fin 256, v[j] ≠ 0 ∧ fuel ≤ j.val + 1) → Scalar.computeWindowNAF ⟨d, fuel⟩ a w = .ok v) := by
  have hE : (⟨d, 1000⟩ : Cfg).Enough := by unfold Cfg.Enough; exact le_refl _
  have hw : ∀ w, 2 ≤ w → w ≤ 5 → ∃ v, IsNAF w v ∧ digitSum v = a.val ∧ ∀ fuel,
      ((fuel = 0 ∨ ∃ j : Fin 256, v[j] ≠ 0 ∧ fuel ≤ j.val + 1) → Scalar.computeWindowNAF ⟨d, fuel⟩ a w = .diverge) ∧
      (¬(fuel = 0 ∨ ∃ j : Fin 256, v[j] ≠ 0 ∧ fuel ≤ j.val + 1) → Scalar.computeWindowNAF ⟨d, fuel⟩ a w = .ok v) := by
    intro w h1 h2
    obtain ⟨v, hv, n, s⟩ := C33_window_naf ⟨d, 1000⟩ hE w h1 h2 a ha
    exact ⟨v, n, s, wnaf_rounds d w h1 (by omega) a ha v hv⟩
  have e : ∀ fuel, Scalar.computeNAF ⟨d, fuel⟩ a = Scalar.computeWindowNAF ⟨d, fuel⟩ a 2 := fun fuel =>
    Scalar.nafLoop_eq _ _ _ _ _
  refine ⟨?_, hw⟩
  simp only [e]
  exact hw 2 (le_refl _) (by omega)

/-- The hypotheses hold for the base point and the scalar five, whose multiple takes three rounds; its digits
`5 = 1 + 4` also take three rounds. -/
example : Ed.BASEPOINT.Rep Bpt ∧ Nat.size (⟨5, 0, 0, 0, 0⟩ : Sc).val = 3 ∧ (⟨5, 0, 0, 0, 0⟩ : Sc).SCanon ∧
    Ed.mul ⟨true, 3⟩ Ed.BASEPOINT ⟨5, 0, 0, 0, 0⟩ = .diverge ∧
    Scalar.computeNAF ⟨true, 3⟩ ⟨5, 0, 0, 0, 0⟩ = .diverge ∧
    (∃ v, Scalar.computeNAF ⟨true, 4⟩ ⟨5, 0, 0, 0, 0⟩ = .ok v) := by
  refine ⟨BASEPOINT_rep, by decide, by decide, ?_, by decide +kernel, ?_⟩
  · exact ((doubleAndAdd_rounds Ed.opsSpec ⟨true, 3⟩ BASEPOINT_rep _ (by decide) (by decide)).1 (by decide))
  · exact ⟨_, rfl⟩

end Props
end Zerocaf
