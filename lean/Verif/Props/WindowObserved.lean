import Verif.Props.WindowAll
import Verif.Props.Ristretto

/-!
# C50, seen through the equality of group elements

`window_naf_mul` returns a group element, so a caller compares its result with `==`, which identifies points that
differ by 4-torsion. The wrong results are wrong for this comparison too.
-/

set_option exponentiation.threshold 600

namespace Zerocaf
namespace Props

/-- Multiples of the base point in one class are one point, because `L` is odd. -/
theorem sameClass_multiples (k : ℤ) (n : ℕ) : SameClass (k • Bpt) (n • Bpt) ↔ k • Bpt = n • Bpt := by
  constructor
  · intro h
    unfold SameClass at h
    have e : k • Bpt - n • Bpt = (k - n) • Bpt := by rw [sub_zsmul, natCast_zsmul, sub_eq_add_neg]
    rw [e] at h
    have h4 : ((4 : ℤ) * (k - n)) • Bpt = 0 := by
      rw [mul_zsmul]
      exact_mod_cast h
    have hd := (addOrderOf_dvd_iff_zsmul_eq_zero).2 h4
    rw [Bpt_order] at hd
    have hco : IsCoprime (ell : ℤ) 4 := by
      have h : IsCoprime (ell : ℤ) ((4 : ℕ) : ℤ) := Nat.isCoprime_iff_coprime.2 (by decide)
      exact_mod_cast h
    have h0 : (k - n) • Bpt = 0 :=
      addOrderOf_dvd_iff_zsmul_eq_zero.1 (by rw [Bpt_order]; exact hco.dvd_of_dvd_mul_left hd)
    rw [← e] at h0
    exact sub_eq_zero.1 h0
  · intro h
    rw [h]
    simp [SameClass]

/-- C50: for widths 2 to 5, comparing the result with the one of the multiplication operator gives true exactly for the
scalars whose expansion has no digit other than `-1`, `0` and `1`. -/
theorem C50_observed (c : Cfg) (hc : c.Enough) (w : Nat) (h1 : 2 ≤ w) (h2 : w ≤ 5) (n : Sc) (hn : n.SCanon) :
    ∃ v S T, Scalar.computeWindowNAF c n w = .ok v ∧ digitSum v = n.val ∧
      Ristretto.windowNafMul c n w = .ok S ∧ Ristretto.mul c Ed.BASEPOINT n = .ok T ∧
      Ristretto.ctEq c S T = .ok (decide (∀ j : Fin 256, v[j] = -1 ∨ v[j] = 0 ∨ v[j] = 1)) := by
  obtain ⟨v, S, ev, -, hs, eS, -, hiff⟩ := C50_exact c hc w h1 h2 n hn
  obtain ⟨v', S', -, -, eS', hS⟩ := C50_all_widths c hc w h1 h2 n hn
  obtain rfl := Res.ok.inj (eS.symm.trans eS')
  obtain ⟨T, eT, hT⟩ := C45_ristretto c hc BASEPOINT_rep n hn.1 (hn.2.trans (by decide))
  obtain ⟨t, et, ht⟩ := C58_eq_iff c hS hT
  refine ⟨v, S, T, ev, hs, eS, eT, ?_⟩
  have hb : t = true ↔ ∀ j : Fin 256, v[j] = -1 ∨ v[j] = 0 ∨ v[j] = 1 := by
    rw [ht, sameClass_multiples, ← hiff]
    exact ⟨fun h => h ▸ hS, fun h => hS.unique h⟩
  rw [et, Bool.eq_iff_iff.2 (hb.trans decide_eq_true_iff.symm)]

/-- C50: for every width other than 2, in every build, multiplying by 253 panics or gives an element that compares as
different from 253 times the base point. -/
theorem C50_only_width_two_observed (c : Cfg) (hc : c.Enough) (w : Nat) (hw : w ≠ 2) :
    Ristretto.windowNafMul c ⟨253, 0, 0, 0, 0⟩ w = .panic ∨
    ∃ S T, Ristretto.windowNafMul c ⟨253, 0, 0, 0, 0⟩ w = .ok S ∧
      Ristretto.mul c Ed.BASEPOINT ⟨253, 0, 0, 0, 0⟩ = .ok T ∧ Ristretto.ctEq c S T = .ok false := by
  rcases C50_only_width_two c hc w hw with h | ⟨S, eS, -, hno⟩
  · exact Or.inl h
  right
  have hS : ∃ k : ℤ, S.Rep (k • Bpt) := by
    obtain ⟨h1, h2⟩ := C50_any_width c w ⟨253, 0, 0, 0, 0⟩
    have key := expansions_253 c hc w hw
    cases hv : Scalar.computeWindowNAF c ⟨253, 0, 0, 0, 0⟩ w with
    | diverge => rw [hv] at key; cases key
    | panic => rw [h1 hv] at eS; cases eS
    | ok v =>
      by_cases hb : ∀ j : Fin 250, |Scalar.dig v j| ≤ 125
      · obtain ⟨S', eS', hS'⟩ := (h2 v hv).2 hb
        obtain rfl := Res.ok.inj (eS.symm.trans eS')
        exact ⟨_, hS'⟩
      · push Not at hb
        obtain ⟨j, hj⟩ := hb
        rw [(h2 v hv).1 ⟨j, hj⟩] at eS
        cases eS
  obtain ⟨k, hS⟩ := hS
  obtain ⟨T, eT, hT⟩ := C45_ristretto c hc BASEPOINT_rep ⟨253, 0, 0, 0, 0⟩ (by decide) (by decide)
  obtain ⟨t, et, ht⟩ := C58_eq_iff c hS hT
  refine ⟨S, T, eS, eT, ?_⟩
  have hf : t = false := by
    rw [Bool.eq_false_iff]
    intro h
    rw [ht, sameClass_multiples] at h
    exact hno (h ▸ hS)
  rw [et, hf]

example : dbg.Enough ∧ (⟨3, 0, 0, 0, 0⟩ : Sc).SCanon ∧ (⟨253, 0, 0, 0, 0⟩ : Sc).SCanon := by decide

end Props
end Zerocaf
