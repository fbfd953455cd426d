import Verif.Proof.Naf3
import Verif.Props.Wide

/-!
# Windowed expansions of widths 8 to 31 in wrapping builds (C83)
-/

set_option exponentiation.threshold 600

namespace Zerocaf
namespace Props

open Scalar

theorem digitSum_short {out : Vector Int 256} (hz : ∀ j, 251 ≤ j → dig out j = 0) :
    digitSum out = ∑ j ∈ Finset.range 251, dig out (0 + j) * 2 ^ j := by
  unfold digitSum
  rw [Finset.sum_congr rfl (fun (j : Fin 256) _ => by rw [← dig_fin]),
    Fin.sum_univ_eq_sum_range (fun j => dig out j * 2 ^ j) 256]
  symm
  refine (Finset.sum_congr rfl (fun j _ => by rw [Nat.zero_add])).trans ?_
  apply Finset.sum_subset (Finset.range_subset_range.2 (by omega))
  intro j _ hj
  rw [Finset.mem_range] at hj
  rw [hz j (by omega), zero_mul]

/-- C83: in wrapping builds the widths 10 to 15, 18 to 23 and 26 to 31 give odd digits below 128 in size with the
right sum, of which any `w mod 8` consecutive ones contain at most one nonzero, except that the seventeen odd scalars
from `L - 34` on are wrong when `w mod 8` is 7. -/
theorem C83_wrapped (c : Cfg) (hc : c.Enough) (hd : c.debug = false) (w : Nat) (h1 : 9 ≤ w) (h2 : w < 32)
    (h3 : 2 ≤ w % 8) (a : Sc) (ha : a.SCanon) (h : ¬ (w % 8 = 7 ∧ a.val % 2 = 1 ∧ ell - 34 ≤ a.val)) :
    ∃ v, Scalar.computeWindowNAF c a w = .ok v ∧ digitSum v = a.val ∧
      (∀ j : Fin 256, v[j] = 0 ∨ (v[j] % 2 = 1 ∧ |v[j]| < 128)) ∧
      (∀ j k : Fin 256, j < k → k.val < j.val + w % 8 → v[j] = 0 ∨ v[k] = 0) := by
  obtain ⟨v, e, s⟩ := (computeWindowNAF_wrapped c hc w hd h1 h2 h3 a ha).1
    (fun k => h ((wdig_over (w % 8) a.val h3 (by omega) ha.2).1 k))
  refine ⟨v, e, ?_, fun j => ?_, fun j k hjk hk => ?_⟩
  · rw [digitSum_short (fun j hj => s.high j (by omega)), s.sum]
  · rw [← dig_fin]
    rcases s.digits j.val (by omega) with h0 | ⟨x, y, z⟩
    · exact Or.inl h0
    · exact Or.inr ⟨x, abs_lt.2 ⟨y, z⟩⟩
  · rw [← dig_fin, ← dig_fin]
    by_cases h0 : dig v j.val = 0
    · exact Or.inl h0
    · right
      have hlt : j.val < k.val := hjk
      have := s.sparse j.val (by omega) h0 (k.val - j.val) (by omega) (by omega)
      rwa [show j.val + (k.val - j.val) = k.val by omega] at this

/-- C83: these digits do not have the sparsity of the width asked for. -/
example : firstDigits 12 (Scalar.computeWindowNAF rel ⟨1029, 0, 0, 0, 0⟩ 10) = [1, 0, 1, 0, 0, 0, 0, 0, 0, 0, 1, 0] := by
  decide +kernel

/-- C83: the wrong cases of widths 15, 23 and 31. -/
theorem C83_wrapped_wrong (c : Cfg) (hc : c.Enough) (hd : c.debug = false) (w : Nat) (h1 : 9 ≤ w) (h2 : w < 32)
    (h3 : w % 8 = 7) (a : Sc) (ha : a.SCanon) (ho : a.val % 2 = 1) (hl : ell - 34 ≤ a.val) :
    ∃ v, Scalar.computeWindowNAF c a w = .ok v ∧ digitSum v = (a.val : Int) - ell - 1 := by
  obtain ⟨v, e, z, s⟩ := (computeWindowNAF_wrapped c hc w hd h1 h2 (by omega) a ha).2
    ((wdig_over (w % 8) a.val (by omega) (by omega) ha.2).2 ⟨h3, ho, hl⟩)
  exact ⟨v, e, (digitSum_short z).trans s⟩

example : lMinusTwo.SCanon ∧ lMinusTwo.val % 2 = 1 ∧ ell - 34 ≤ lMinusTwo.val ∧ rel.debug = false := by decide

/-- C83: zero has no nonzero digit, whatever the width and the build, even where every other scalar panics. -/
theorem C83_zero (c : Cfg) (hc : c.Enough) (w : Nat) :
    Scalar.computeNAF c Scalar.zero = .ok (Vector.replicate 256 0) ∧
    Scalar.computeWindowNAF c Scalar.zero w = .ok (Vector.replicate 256 0) := by
  unfold Cfg.Enough at hc
  obtain ⟨f, hf⟩ : ∃ f, c.fuel = f + 1 := ⟨c.fuel - 1, by omega⟩
  unfold Scalar.computeNAF Scalar.computeWindowNAF
  rw [hf, Scalar.nafLoop, Scalar.wnafLoop, ge_spec _ _ (by decide) (by decide)]
  exact ⟨rfl, rfl⟩

/-- C83: in wrapping builds widths 9, 17 and 25 panic for every nonzero scalar. -/
theorem C83_wrapped_panics (c : Cfg) (hc : c.Enough) (hd : c.debug = false) (w : Nat) (h1 : 9 ≤ w) (h2 : w < 32)
    (h3 : w % 8 = 1) (a : Sc) (ha : a.SCanon) (h0 : a.val ≠ 0) : Scalar.computeWindowNAF c a w = .panic := by
  have e : ell % 256 = 99 := by decide
  have := ell_big
  refine wnaf_positive c hc w (wdig 1) (fun k _ => ?_) (fun k ho => ?_) (fun k ho hk => ?_) a ha h0
  · rw [mods2PowK_wrapped c hd k w h1 h2 (by omega), h3]
  · obtain ⟨b1, b2, b3, b4, b5⟩ := wdig_bounds 1 k (by omega) (by omega) ho
    refine ⟨b1, b2, ?_⟩
    unfold wdig sres
    norm_num
    split_ifs <;> omega
  · unfold wdig sres
    generalize ell = l at *
    norm_num
    split_ifs <;> omega

/-- C83: in wrapping builds widths 8, 16 and 24 give even digits, which denote no number congruent to the scalar
modulo `L`, for every nonzero scalar. -/
theorem C83_wrapped_eighths (c : Cfg) (hc : c.Enough) (hd : c.debug = false) (w : Nat) (h1 : 8 ≤ w) (h2 : w < 32)
    (h3 : w % 8 = 0) (a : Sc) (ha : a.SCanon) (h0 : a.val ≠ 0) :
    ∃ v, Scalar.computeWindowNAF c a w = .ok v ∧ (∀ j : Fin 256, v[j] % 2 = 0) ∧
      ¬ (ell : Int) ∣ digitSum v - a.val := by
  obtain ⟨v, e, z, ev, h⟩ := computeWindowNAF_eighth c hc w hd h1 h2 h3 a ha h0
  refine ⟨v, e, fun j => ?_, ?_⟩
  · rw [← dig_fin]; exact ev j
  · rw [digitSum_short z]; exact h

example : firstDigits 12 (Scalar.computeWindowNAF rel ⟨1029, 0, 0, 0, 0⟩ 16) =
    [4, 0, 0, 0, 0, 0, 0, 0, 0, 0, 0, 0] := by decide +kernel

end Props
end Zerocaf
