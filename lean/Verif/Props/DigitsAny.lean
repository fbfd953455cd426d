import Verif.Props.WindowAll
import Verif.Proof.DigitsAny
import Verif.Props.ScalarUnreduced

/-!
# Property C122: the signed digits of every scalar with 52-bit limbs

C105 settles scalars below `2L`. The limbs of a scalar reach up to `2^260`, about `2^11 L`.
-/

set_option exponentiation.threshold 600

namespace Zerocaf
namespace Props

open Scalar

/-- C122: the outcome of both expansions, for every scalar with 52-bit limbs. They panic if something is left after 256
digits. -/
theorem C122_digits (c : Cfg) (hc : c.Enough) (w : ℕ) (h1 : 2 ≤ w) (h2 : w ≤ 6) (a : Sc) (ha : a.WF) :
    (Scalar.computeWindowNAF c a w = if cutRest w a.val 256 = 0 then
      .ok (Vector.ofFn fun j : Fin 256 => digitOf w (cutRest w a.val j.val)) else .panic) ∧
    (Scalar.computeNAF c a = if cutRest 2 a.val 256 = 0 then
      .ok (Vector.ofFn fun j : Fin 256 => digitOf 2 (cutRest 2 a.val j.val)) else .panic) :=
  ⟨computeWindowNAF_any c hc w h1 h2 a ha,
    by rw [computeNAF_any]; exact computeWindowNAF_any c hc 2 (by omega) (by omega) a ha⟩

theorem wf_lt {a : Sc} (ha : a.WF) : (a.val : ℤ) < 2 ^ 260 := by
  have := ha.val_lt
  have h7 : ((2 ^ 260 : ℕ) : ℤ) = 2 ^ 260 := by push_cast
  omega

theorem digitSum_ofFn (f : ℕ → ℤ) : digitSum (Vector.ofFn fun j : Fin 256 => f j.val) = ∑ j ∈ Finset.range 256, f j * 2 ^ j := by
  unfold digitSum
  rw [Finset.sum_range]
  refine Finset.sum_congr rfl fun j _ => ?_
  rw [show (Vector.ofFn fun j : Fin 256 => f j.val)[j] = f j.val from Vector.getElem_ofFn j.isLt]

/-- C122: the digits denote the scalar less `L + 1` times the sum of the places at which something is lost; all of these are
among the first eleven. They are right modulo `L`, and then right, exactly if nothing is lost. -/
theorem C122_sum (c : Cfg) (hc : c.Enough) (w : ℕ) (h1 : 2 ≤ w) (h2 : w ≤ 6) (a : Sc) (ha : a.WF) (v : Vector Int 256)
    (hv : Scalar.computeWindowNAF c a w = .ok v) :
    digitSum v = a.val - ((ell : ℤ) + 1) * lostSum w a.val 11 ∧ 0 ≤ lostSum w a.val 11 ∧ lostSum w a.val 11 < 2 ^ 11 ∧
    (digitSum v ≡ a.val [ZMOD ell] ↔ ∀ j < 11, ¬ Lost w (cutRest w a.val j)) ∧
    (digitSum v = a.val ↔ ∀ j < 11, ¬ Lost w (cutRest w a.val j)) := by
  rw [computeWindowNAF_any c hc w h1 h2 a ha] at hv
  have hz : cutRest w a.val 256 = 0 := by
    by_contra h
    rw [if_neg h] at hv
    exact absurd hv (by simp)
  rw [if_pos hz, Res.ok_inj] at hv
  have hid := cut_identity w (by omega) a.val 256
  rw [hz, mul_zero, add_zero, lostSum_eq w (by omega) h2 _ (wf_lt ha) 256 (by omega)] at hid
  have hs : digitSum v = a.val - ((ell : ℤ) + 1) * lostSum w a.val 11 := by
    rw [← hv, digitSum_ofFn fun j => digitOf w (cutRest w a.val j)]
    linarith
  obtain ⟨r1, r2⟩ := lostSum_range w a.val
  refine ⟨hs, r1, r2, ?_, ?_⟩
  · rw [← lostSum_zero, hs, Int.modEq_iff_dvd]
    have e : (a.val : ℤ) - (a.val - ((ell : ℤ) + 1) * lostSum w a.val 11) =
      ell * lostSum w a.val 11 + lostSum w a.val 11 := by ring
    rw [e, Int.dvd_add_right (dvd_mul_right _ _)]
    constructor
    · intro h
      have : 2 ^ 11 < ell := by decide
      exact Int.eq_zero_of_dvd_of_nonneg_of_lt r1 (by omega) h
    · intro h; rw [h]; exact dvd_zero _
  · rw [← lostSum_zero, hs]
    have := ell_big
    constructor
    · intro h
      have h3 : ((ell : ℤ) + 1) * lostSum w a.val 11 = 0 := by linarith
      exact (mul_eq_zero.1 h3).resolve_left (by omega)
    · intro h; rw [h, mul_zero, sub_zero]

/-- C122: no scalar up to `2^255` panics. -/
theorem C122_no_panic (c : Cfg) (hc : c.Enough) (w : ℕ) (h1 : 2 ≤ w) (h2 : w ≤ 6) (a : Sc) (ha : a.WF) (hl : a.val ≤ 2 ^ 255) :
    ∃ v, Scalar.computeWindowNAF c a w = .ok v := by
  rw [computeWindowNAF_any c hc w h1 h2 a ha, if_pos (cut_small w h1 h2 256 a.val (Or.inr ⟨by omega, hl⟩))]
  exact ⟨_, rfl⟩

/-- C122: the non-adjacent form never panics below `2^257 / 3`. From there on it panics if nothing is lost on the way. -/
theorem C122_naf_panic (c : Cfg) (hc : c.Enough) (a : Sc) (ha : a.WF) :
    (3 * a.val < 2 ^ 257 → ∃ v, Scalar.computeNAF c a = .ok v) ∧
    ((∀ j < 11, ¬ Lost 2 (cutRest 2 a.val j)) → 2 ^ 257 ≤ 3 * a.val → Scalar.computeNAF c a = .panic) := by
  rw [computeNAF_any, computeWindowNAF_any c hc 2 (by omega) (by omega) a ha]
  constructor
  · intro h
    rw [if_pos (cut_small2 256 a.val h)]
    exact ⟨_, rfl⟩
  · intro hl h
    rw [if_neg]
    refine cut_big2 256 a.val h fun j _ hj => ?_
    exact hl j (lost_lt 2 (by omega) (by omega) _ (wf_lt ha) j hj) hj

/-- C122: for every width, the multiples of `2^256` other than zero panic. -/
theorem C122_panic (c : Cfg) (hc : c.Enough) (w : ℕ) (h1 : 2 ≤ w) (h2 : w ≤ 6) (a : Sc) (ha : a.WF) (k : ℕ) (hk : k ≠ 0)
    (hv : a.val = 2 ^ 256 * k) : Scalar.computeWindowNAF c a w = .panic ∧ Scalar.computeNAF c a = .panic := by
  have h : ∀ w', cutRest w' a.val 256 ≠ 0 := by
    intro w'
    rw [hv, cutRest_shift w' k 256]
    exact_mod_cast hk
  rw [computeNAF_any, computeWindowNAF_any c hc w h1 h2 a ha, computeWindowNAF_any c hc 2 (by omega) (by omega) a ha,
    if_neg (h w), if_neg (h 2)]
  exact ⟨rfl, rfl⟩

section generic
variable {T : Type} {O : PointOps T} {R : T → E → Prop}

theorem digitOf_two (v : ℤ) : digitOf 2 v = -1 ∨ digitOf 2 v = 0 ∨ digitOf 2 v = 1 := by
  unfold digitOf
  split_ifs with h
  · have a1 := Int.le_bmod (x := v) (m := 2 ^ 2) (by decide)
    have a2 := Int.bmod_lt (x := v) (m := 2 ^ 2) (by decide)
    have a3 : ((2 ^ 2 : ℕ) : ℤ) ∣ Int.bmod v (2 ^ 2) - v := Int.dvd_bmod_sub_self
    norm_num at a1 a2 a3 ⊢
    omega
  · exact Or.inr (Or.inl rfl)

theorem nafMul_any (hO : OpsSpec O R) (c : Cfg) (hc : c.Enough) {P : T} {A : E} (hP : R P A) (a : Sc) (ha : a.WF) :
    (cutRest 2 a.val 256 ≠ 0 → binaryNafMul O c P a = .panic) ∧
    (cutRest 2 a.val 256 = 0 → ∃ S, binaryNafMul O c P a = .ok S ∧
      R S (((a.val : ℤ) - ((ell : ℤ) + 1) * lostSum 2 a.val 11 - 2 ^ 250 * cutRest 2 a.val 250) • A)) := by
  have hn := (C122_digits c hc 2 (by omega) (by omega) a ha).2
  constructor
  · intro h
    rw [if_neg h] at hn
    unfold binaryNafMul
    rw [hn, Res.panic_bind]
  · intro h
    rw [if_pos h] at hn
    obtain ⟨S, eS, hS⟩ := nafMulLoop_rep hO c hP
      (Vector.ofFn fun j : Fin 256 => digitOf 2 (cutRest 2 a.val j.val)) (fun j hj => by
      rw [Vector.getElem_ofFn]
      exact digitOf_two (cutRest 2 a.val j)) 250 (by omega) O.identity 0
      (by rw [zero_zsmul]; exact hO.identity)
    refine ⟨S, by unfold binaryNafMul; rw [hn, Res.ok_bind, eS], ?_⟩
    rw [zero_mul, zero_add] at hS
    have hid := cut_identity 2 (by omega) a.val 250
    rw [lostSum_eq 2 (by omega) (by omega) _ (wf_lt ha) 250 (by omega)] at hid
    have e : ∑ j ∈ Finset.range 250, dig (Vector.ofFn fun j : Fin 256 => digitOf 2 (cutRest 2 a.val j.val)) j * 2 ^ j =
        (a.val : ℤ) - ((ell : ℤ) + 1) * lostSum 2 a.val 11 - 2 ^ 250 * cutRest 2 a.val 250 := by
      rw [Finset.sum_congr rfl (g := fun j => digitOf 2 (cutRest 2 a.val j) * 2 ^ j) fun j hj => ?_]
      · linarith
      · have hj' : j < 256 := lt_trans (Finset.mem_range.1 hj) (by decide)
        unfold dig
        rw [dif_pos hj', Vector.getElem_ofFn]
    rwa [e] at hS

end generic

/-- C122: multiplication with the non-adjacent form, for every scalar with 52-bit limbs, in all three kinds of points. It
looks at 250 digits. -/
theorem C122_naf_mul (c : Cfg) (hc : c.Enough) {P : EdPoint} {Q : ProjPoint} {A B : E} (hP : P.Rep A)
    (hQ : Q.Rep B) (a : Sc) (ha : a.WF) (z : ℤ)
    (hz : z = (a.val : ℤ) - ((ell : ℤ) + 1) * lostSum 2 a.val 11 - 2 ^ 250 * cutRest 2 a.val 250) :
    (cutRest 2 a.val 256 ≠ 0 → binaryNafMul Ed.ops c P a = .panic ∧ binaryNafMul Proj.ops c Q a = .panic ∧
      binaryNafMul Ristretto.ops c P a = .panic) ∧
    (cutRest 2 a.val 256 = 0 → (∃ S, binaryNafMul Ed.ops c P a = .ok S ∧ S.Rep (z • A)) ∧
      (∃ S, binaryNafMul Proj.ops c Q a = .ok S ∧ S.Rep (z • B)) ∧
      (∃ S, binaryNafMul Ristretto.ops c P a = .ok S ∧ S.Rep (z • A))) := by
  obtain ⟨e1, e2⟩ := nafMul_any Ed.opsSpec c hc hP a ha
  obtain ⟨p1, p2⟩ := nafMul_any Proj.opsSpec c hc hQ a ha
  obtain ⟨r1, r2⟩ := nafMul_any Ristretto.opsSpec c hc hP a ha
  rw [hz]
  exact ⟨fun h => ⟨e1 h, p1 h, r1 h⟩, fun h => ⟨e2 h, p2 h, r2 h⟩⟩

/-- C122: multiplication of the basepoint with the table, for every scalar with 52-bit limbs and the widths 2 to 6. It
panics as the expansion does. Otherwise each of the first 250 digits `k` counts as `2 k - sign k`, so that with width 2
the result is that of the non-adjacent form. -/
theorem C122_window_mul (c : Cfg) (hc : c.Enough) (w : ℕ) (h1 : 2 ≤ w) (h2 : w ≤ 6) (a : Sc) (ha : a.WF) :
    (cutRest w a.val 256 ≠ 0 → Ristretto.windowNafMul c a w = .panic) ∧
    (cutRest w a.val 256 = 0 → ∃ S, Ristretto.windowNafMul c a w = .ok S ∧
      S.Rep ((∑ j ∈ Finset.range 250, (2 * digitOf w (cutRest w a.val j) - (digitOf w (cutRest w a.val j)).sign) *
        2 ^ j) • Bpt) ∧
      (w = 2 → S.Rep (((a.val : ℤ) - ((ell : ℤ) + 1) * lostSum 2 a.val 11 - 2 ^ 250 * cutRest 2 a.val 250) • Bpt))) := by
  have hd := (C122_digits c hc w h1 h2 a ha).1
  obtain ⟨p1, p2⟩ := C50_any_width c w a
  constructor
  · intro h
    rw [if_neg h] at hd
    exact p1 hd
  · intro h
    rw [if_pos h] at hd
    have hdig : ∀ j, j < 250 → dig (Vector.ofFn fun j : Fin 256 => digitOf w (cutRest w a.val j.val)) j =
        digitOf w (cutRest w a.val j) := by
      intro j hj
      unfold dig
      rw [dif_pos (by omega), Vector.getElem_ofFn]
    obtain ⟨S, eS, hS⟩ := (p2 _ hd).2 fun j => by
      rw [hdig j.val j.isLt]
      have := digitOf_abs w h2 (cutRest w a.val j.val)
      exact abs_le.2 ⟨by omega, by omega⟩
    rw [Finset.sum_congr rfl (g := fun j => (2 * digitOf w (cutRest w a.val j) -
      (digitOf w (cutRest w a.val j)).sign) * 2 ^ j) fun j hj => by
        rw [hdig j (Finset.mem_range.1 hj), tableCoeff_eq]] at hS
    refine ⟨S, eS, hS, fun e => ?_⟩
    subst e
    have hid := cut_identity 2 (by omega) a.val 250
    rw [lostSum_eq 2 (by omega) (by omega) _ (wf_lt ha) 250 (by omega)] at hid
    rw [Finset.sum_congr rfl (g := fun j => digitOf 2 (cutRest 2 a.val j) * 2 ^ j) fun j _ => by
      rcases digitOf_two (cutRest 2 a.val j) with e | e | e <;> rw [e] <;> rfl] at hS
    rwa [show ∑ j ∈ Finset.range 250, digitOf 2 (cutRest 2 a.val j) * 2 ^ j =
      (a.val : ℤ) - ((ell : ℤ) + 1) * lostSum 2 a.val 11 - 2 ^ 250 * cutRest 2 a.val 250 by linarith] at hS

/-- `2^256` has 52-bit limbs. -/
def two256 : Sc := ⟨0, 0, 0, 0, 2 ^ 48⟩

example : two256.WF ∧ two256.val = 2 ^ 256 * 1 ∧ 2 ^ 257 ≤ 3 * two256.val := by decide

example (c : Cfg) (hc : c.Enough) : Scalar.computeNAF c two256 = .panic :=
  (C122_panic c hc 2 (by omega) (by omega) two256 (by decide) 1 (by decide) (by decide)).2

/-- `3L` is 1 modulo 4 and loses nothing in its first digit; `2L` is even, and its second digit loses `L + 1`. -/
example : ¬ Lost 2 (3 * ell : ℕ) ∧ ¬ Lost 2 (cutRest 2 (2 * ell : ℕ) 0) ∧ Lost 2 (cutRest 2 (2 * ell : ℕ) 1) ∧
    lostSum 2 (2 * ell : ℕ) 11 = 2 ∧ 2 * ell ≤ 2 ^ 255 := by decide

end Props
end Zerocaf
