import Verif.Proof.Naf2
import Verif.Props.Scalar

/-!
# Windowed expansions of width 6 and more (C83)
-/

set_option exponentiation.threshold 600

namespace Zerocaf
namespace Props

open Scalar

/-! ### C83 -/

/-- C83: width 6 is right for every canonical scalar but `L - 2`. -/
theorem C83_width_six (c : Cfg) (hc : c.Enough) (a : Sc) (ha : a.SCanon) (h : a.val ≠ ell - 2) :
    ∃ v, Scalar.computeWindowNAF c a 6 = .ok v ∧ IsNAF 6 v ∧ digitSum v = a.val := by
  obtain ⟨v, e, h⟩ := computeWindowNAF_wide c hc 6 (by omega) (by omega)
    (fun k => mods2PowK_spec c k 6 (by omega) (by omega)) a ha
    (fun ho => not_not.1 (fun hn => h ((smod_over_iff a.val ha.2 ho).1.1 hn)))
  obtain ⟨h1, h2, _⟩ := expands_naf (by omega) h
  exact ⟨v, e, h1, h2⟩

example : firstDigits 9 (Scalar.computeWindowNAF dbg ⟨39, 0, 0, 0, 0⟩ 6) = [-25, 0, 0, 0, 0, 0, 1, 0, 0] := by
  decide +kernel

/-- C83: width 7 in wrapping builds is right except for the seventeen odd scalars from `L - 34` on. -/
theorem C83_width_seven (c : Cfg) (hc : c.Enough) (hd : c.debug = false) (a : Sc) (ha : a.SCanon)
    (h : ¬ (a.val % 2 = 1 ∧ ell - 34 ≤ a.val)) :
    ∃ v, Scalar.computeWindowNAF c a 7 = .ok v ∧ IsNAF 7 v ∧ digitSum v = a.val := by
  obtain ⟨v, e, h⟩ := computeWindowNAF_wide c hc 7 (by omega) (by omega)
    (mods2PowK_seven c hd) a ha
    (fun ho => not_not.1 (fun hn => h ⟨ho, (smod_over_iff a.val ha.2 ho).2.1 hn⟩))
  obtain ⟨h1, h2, _⟩ := expands_naf (by omega) h
  exact ⟨v, e, h1, h2⟩

example : firstDigits 9 (Scalar.computeWindowNAF rel ⟨103, 0, 0, 0, 0⟩ 7) = [-25, 0, 0, 0, 0, 0, 0, 1, 0] := by
  decide +kernel

theorem over_sum {w : Nat} {a : Nat} {x : Int} {res out : Vector Int 256}
    (h0 : dig out 0 = (a : Int) - ell - 29) (hE : Expands w 250 1 14 (res.set 0 x) out) :
    digitSum out = (a : Int) - ell - 1 := by
  have hs := hE.sum
  unfold digitSum
  rw [Finset.sum_congr rfl (fun (j : Fin 256) _ => by rw [← dig_fin]),
    Fin.sum_univ_eq_sum_range (fun j => dig out j * 2 ^ j) 256]
  have e1 : ∑ j ∈ Finset.range 256, dig out j * 2 ^ j = ∑ j ∈ Finset.range 251, dig out j * 2 ^ j := by
    symm
    apply Finset.sum_subset (Finset.range_subset_range.2 (by omega))
    intro j _ hj
    rw [Finset.mem_range] at hj
    rw [hE.high j (by omega), zero_mul]
  rw [e1, Finset.sum_range_succ', h0, pow_zero, mul_one]
  have : ∀ j ∈ Finset.range 250, dig out (j + 1) * 2 ^ (j + 1) = 2 * (dig out (1 + j) * 2 ^ j) := by
    intro j _; rw [show j + 1 = 1 + j by omega, pow_add]; ring
  rw [Finset.sum_congr rfl this, ← Finset.mul_sum, hs]
  push_cast
  omega

/-- C83: in the exceptional cases the digits denote `a - L - 1` instead of `a`, which is not even the
same residue modulo `L`. -/
theorem C83_wrong (c : Cfg) (hc : c.Enough) (a : Sc) (ha : a.SCanon) (ho : a.val % 2 = 1) :
    (a.val = ell - 2 → ∃ v, Scalar.computeWindowNAF c a 6 = .ok v ∧ digitSum v = (a.val : Int) - ell - 1) ∧
    (c.debug = false → ell - 34 ≤ a.val →
      ∃ v, Scalar.computeWindowNAF c a 7 = .ok v ∧ digitSum v = (a.val : Int) - ell - 1) := by
  refine ⟨fun h => ?_, fun hd h => ?_⟩
  · obtain ⟨v, e, h0, hE⟩ := computeWindowNAF_over c hc 6 (Or.inl rfl)
      (fun k => mods2PowK_spec c k 6 (by omega) (by omega)) a ha ho ((smod_over_iff a.val ha.2 ho).1.2 h)
    exact ⟨v, e, over_sum h0 hE⟩
  · obtain ⟨v, e, h0, hE⟩ := computeWindowNAF_over c hc 7 (Or.inr rfl)
      (mods2PowK_seven c hd) a ha ho ((smod_over_iff a.val ha.2 ho).2.2 h)
    exact ⟨v, e, over_sum h0 hE⟩

example : lMinusTwo.SCanon ∧ lMinusTwo.val % 2 = 1 ∧ lMinusTwo.val = ell - 2 ∧ rel.debug = false := by decide

/-- C83: width 7 in overflow-checking builds gives the digits of the wrapping build when none of them is
negative and panics otherwise. -/
theorem C83_width_seven_debug (c : Cfg) (hc : c.Enough) (hd : c.debug = true) (a : Sc) (ha : a.SCanon) :
    ∃ v, Scalar.computeWindowNAF ⟨false, c.fuel⟩ a 7 = .ok v ∧
      ((∀ j : Fin 256, 0 ≤ v[j]) → Scalar.computeWindowNAF c a 7 = .ok v) ∧
      ((∃ j : Fin 256, v[j] < 0) → Scalar.computeWindowNAF c a 7 = .panic) := by
  have hc' : (⟨false, c.fuel⟩ : Cfg).Enough := hc
  have hv : ∃ v, Scalar.computeWindowNAF ⟨false, c.fuel⟩ a 7 = .ok v := by
    by_cases h : a.val % 2 = 1 ∧ ell - 34 ≤ a.val
    · obtain ⟨v, e, _⟩ := (C83_wrong ⟨false, c.fuel⟩ hc' a ha h.1).2 rfl h.2
      exact ⟨v, e⟩
    · obtain ⟨v, e, _⟩ := C83_width_seven ⟨false, c.fuel⟩ hc' rfl a ha h
      exact ⟨v, e⟩
  obtain ⟨v, e⟩ := hv
  have key := wnafLoop_debug_seven ⟨false, c.fuel⟩ c hd rfl c.fuel a 0 _ v ha
    (fun j _ => dig_replicate j) e
  refine ⟨v, e, fun h => ?_, fun ⟨j, hj⟩ => ?_⟩
  · refine key.trans (if_pos (fun j _ => ?_))
    by_cases hj : j < 256
    · have := h ⟨j, hj⟩
      rwa [← dig_fin] at this
    · unfold dig; rw [dif_neg hj]
  · refine key.trans (if_neg (fun h => ?_))
    have := h j.val (by omega)
    rw [dig_fin] at this
    omega

example : Scalar.computeWindowNAF dbg ⟨103, 0, 0, 0, 0⟩ 7 = .panic ∧
    firstDigits 3 (Scalar.computeWindowNAF dbg ⟨39, 0, 0, 0, 0⟩ 7) = [39, 0, 0] := by decide +kernel

/-- C83: widths 8 and more panic in overflow-checking builds for every nonzero scalar, and widths 32 and
more panic in all builds. -/
theorem C83_panics (c : Cfg) (hc : c.Enough) (a : Sc) (ha : a.SCanon) (h0 : a.val ≠ 0) (w : Nat) :
    (c.debug = true → 8 ≤ w → Scalar.computeWindowNAF c a w = .panic) ∧
    (32 ≤ w → Scalar.computeWindowNAF c a w = .panic) := by
  refine ⟨fun hd h => ?_, fun h => ?_⟩
  · refine computeWindowNAF_panic c hc w (fun k => ?_) a ha h0
    rcases Nat.eq_or_lt_of_le h with e | e
    · subst e; exact mods2PowK_eight_debug c hd k
    · exact mods2PowK_wide_debug c hd k w e
  · exact computeWindowNAF_panic c hc w (fun k => mods2PowK_assert c k w h) a ha h0

theorem zeroDigits_set : (Vector.replicate 256 (0 : Int)).set 0 0 (by omega) = Vector.replicate 256 0 := by
  decide +kernel

/-- C83: in wrapping builds the width-8 digits of one are all zero. -/
theorem C83_width_eight_release (c : Cfg) (hc : c.Enough) (hd : c.debug = false) :
    Scalar.computeWindowNAF c Scalar.one 8 = .ok (Vector.replicate 256 0) := by
  unfold Cfg.Enough at hc
  obtain ⟨d, f⟩ := c
  subst hd
  obtain ⟨f, rfl⟩ : ∃ g, f = g + 1 + 1 := ⟨f - 2, by simp only at hc; omega⟩
  have hm : mods2PowK ⟨false, f + 1 + 1⟩ Scalar.one 8 = .ok 0 := rfl
  have hs : Scalar.fromI8 ⟨false, f + 1 + 1⟩ 0 = .ok Scalar.zero := rfl
  obtain ⟨r, er, cr, vr⟩ := Scalar.sub_spec ⟨false, f + 1 + 1⟩ Scalar.one Scalar.zero (by decide) (by decide)
  have hh : Scalar.halfWithoutMod r = Scalar.zero := by
    obtain ⟨wh, vh⟩ := halfWithoutMod_spec r cr.1
    exact wh.ext (by decide) (by rw [vh, vr]; decide)
  unfold Scalar.computeWindowNAF
  rw [wnafLoop, show ge Scalar.one Scalar.one = true by decide,
    show isEven Scalar.one = false by decide, hm]
  simp only [if_true, Bool.not_false, Res.ok_bind, hs, er, hh,
      setDigit_ok _ 0 _ (show 0 < 256 by omega)]
  rw [wnafLoop, show ge Scalar.zero Scalar.one = false by decide]
  simp only [Bool.false_eq_true, if_false]
  rw [Res.ok_inj]
  exact zeroDigits_set

end Props
end Zerocaf
