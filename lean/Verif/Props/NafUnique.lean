import Verif.Proof.NafUnique

/-!
# Property C91: the signed digit expansions are the unique ones, and the shortest
-/

set_option exponentiation.threshold 600

namespace Zerocaf
namespace Props

open Scalar

/-- The number of nonzero digits. -/
def digitWeight (v : Vector Int 256) : Nat := (Finset.univ.filter fun j : Fin 256 => v[j] ≠ 0).card

theorem digitSum_val (v : Vector Int 256) : digitSum v = NafU.val (dig v) 256 := by
  unfold digitSum NafU.val
  rw [Finset.sum_congr rfl (fun (j : Fin 256) _ => by rw [← dig_fin]),
    Fin.sum_univ_eq_sum_range (fun j => dig v j * 2 ^ j) 256]

theorem digitWeight_wt (v : Vector Int 256) : digitWeight v = NafU.wt (dig v) 256 := by
  unfold digitWeight NafU.wt
  rw [Finset.card_filter, Finset.card_filter,
    Finset.sum_congr rfl (fun (j : Fin 256) _ => by rw [← dig_fin]),
    Fin.sum_univ_eq_sum_range (fun j => if dig v j ≠ 0 then 1 else 0) 256]

theorem isNAF_ok {w : Nat} {v : Vector Int 256} (h : IsNAF w v) : NafU.Ok w (dig v) 256 := by
  refine ⟨fun j hj => ?_, fun j k hjk hk hw => ?_⟩
  · have := h.1 ⟨j, hj⟩
    rwa [← dig_fin] at this
  · have := h.2 ⟨j, by omega⟩ ⟨k, hk⟩ hjk hw
    rwa [← dig_fin, ← dig_fin] at this

theorem dig_ext {u v : Vector Int 256} (h : ∀ j < 256, dig u j = dig v j) : u = v := by
  refine Vector.ext fun j hj => ?_
  have := h j hj
  rwa [show dig u j = u[j] from dig_fin u ⟨j, hj⟩, show dig v j = v[j] from dig_fin v ⟨j, hj⟩] at this

/-- C91: an integer has at most one width-`w` non-adjacent form. -/
theorem C91_unique (w : Nat) (hw : 1 ≤ w) (u v : Vector Int 256) (hu : IsNAF w u) (hv : IsNAF w v)
    (h : digitSum u = digitSum v) : u = v := by
  rw [digitSum_val, digitSum_val] at h
  exact dig_ext (NafU.unique hw 256 _ _ (isNAF_ok hu) (isNAF_ok hv) h)

/-- C91: so the windowed expansion is determined by the scalar, in every build. -/
theorem C91_window (c : Cfg) (hc : c.Enough) (w : Nat) (h1 : 2 ≤ w) (h2 : w ≤ 5) (a : Sc) (ha : a.SCanon)
    (u : Vector Int 256) : computeWindowNAF c a w = .ok u ↔ IsNAF w u ∧ digitSum u = a.val := by
  obtain ⟨v, e, hv, sv⟩ := C33_window_naf c hc w h1 h2 a ha
  rw [e, Res.ok_inj]
  constructor
  · rintro rfl; exact ⟨hv, sv⟩
  · rintro ⟨hu, su⟩
    exact C91_unique w (by omega) v u hv hu (by rw [sv, su])

theorem naf_isNAF (c : Cfg) (hc : c.Enough) (a : Sc) (ha : a.SCanon) :
    ∃ v, computeNAF c a = .ok v ∧ IsNAF 2 v ∧ digitSum v = a.val := by
  obtain ⟨v, e, h⟩ := Scalar.computeNAF_spec c hc a ha
  obtain ⟨h1, h3, h4⟩ := expands_naf (by omega) h
  exact ⟨v, e, h1, h3⟩

/-- C91: likewise the non-adjacent form; the two functions agree for width 2. -/
theorem C91_naf (c c' : Cfg) (hc : c.Enough) (hc' : c'.Enough) (a : Sc) (ha : a.SCanon)
    (u : Vector Int 256) : (computeNAF c a = .ok u ↔ IsNAF 2 u ∧ digitSum u = a.val) ∧
      computeNAF c a = computeWindowNAF c' a 2 := by
  obtain ⟨v, e, hv, sv⟩ := naf_isNAF c hc a ha
  have key : computeNAF c a = .ok u ↔ IsNAF 2 u ∧ digitSum u = a.val := by
    rw [e, Res.ok_inj]
    constructor
    · rintro rfl; exact ⟨hv, sv⟩
    · rintro ⟨hu, su⟩
      exact C91_unique 2 (by omega) v u hv hu (by rw [sv, su])
  refine ⟨key, ?_⟩
  rw [e, (C91_window c' hc' 2 (by omega) (by omega) a ha v).2 ⟨hv, sv⟩]

/-- C91: no expansion with digits `-1, 0, 1` has fewer nonzero digits than the computed one. -/
theorem C91_minimal (c : Cfg) (hc : c.Enough) (a : Sc) (ha : a.SCanon) :
    ∃ v, computeNAF c a = .ok v ∧ digitSum v = a.val ∧
      ∀ u : Vector Int 256, (∀ j : Fin 256, u[j] = -1 ∨ u[j] = 0 ∨ u[j] = 1) → digitSum u = a.val →
        digitWeight v ≤ digitWeight u := by
  obtain ⟨v, e, hv, sv⟩ := naf_isNAF c hc a ha
  refine ⟨v, e, sv, fun u hu su => ?_⟩
  rw [digitWeight_wt, digitWeight_wt, ← NafU.nw_naf 256 _ (isNAF_ok hv), ← digitSum_val, sv, ← su, digitSum_val]
  refine NafU.nw_le_wt 256 _ fun j hj => ?_
  have := hu ⟨j, hj⟩
  rwa [← dig_fin] at this

/-- C91: in particular it never needs more additions than the binary digits of the scalar. -/
theorem C91_at_most_binary (c : Cfg) (hc : c.Enough) (a : Sc) (ha : a.SCanon) :
    ∃ v, computeNAF c a = .ok v ∧
      digitWeight v ≤ (Finset.univ.filter fun j : Fin 256 => (Scalar.intoBits a)[j] ≠ 0).card := by
  obtain ⟨v, e, _, hm⟩ := C91_minimal c hc a ha
  refine ⟨v, e, ?_⟩
  have hlt := Scalar.scanon_lt256 ha
  obtain ⟨hb, _⟩ := Scalar.intoBits_spec a ha.1 hlt
  let u : Vector Int 256 := Vector.ofFn fun j => ((Scalar.intoBits a)[j].toNat : Int)
  have hu : ∀ j : Fin 256, u[j] = (((a.val / 2 ^ j.val % 2 : ℕ)) : Int) := by
    intro j
    have := hb j.val j.isLt
    show u[j.val] = _
    simp only [u, Vector.getElem_ofFn]
    exact_mod_cast this
  have := hm u (fun j => by rw [hu]; omega) (by
    unfold digitSum
    rw [Finset.sum_congr rfl (fun (j : Fin 256) _ => by rw [hu j]),
      Fin.sum_univ_eq_sum_range (fun j => ((a.val / 2 ^ j % 2 : ℕ) : ℤ) * 2 ^ j) 256]
    have : ∀ n, ∑ j ∈ Finset.range n, ((a.val / 2 ^ j % 2 : ℕ) : ℤ) * 2 ^ j = ((a.val % 2 ^ n : ℕ) : ℤ) := by
      intro n
      induction n with
      | zero => simp [Nat.mod_one]
      | succ n ih =>
        rw [Finset.sum_range_succ, ih, Nat.mod_pow_succ]
        push_cast; ring
    rw [this, Nat.mod_eq_of_lt hlt])
  have e2 : ∀ j : Fin 256, (u[j] ≠ 0 ↔ (Scalar.intoBits a)[j] ≠ 0) := by
    intro j
    have e3 : u[j] = ((Scalar.intoBits a)[j].toNat : Int) := by
      show u[j.val] = _
      simp only [u, Vector.getElem_ofFn]
    rw [e3]
    refine not_congr ⟨fun h => ?_, fun h => by rw [h]; rfl⟩
    exact UInt8.toNat_inj.1 (by exact_mod_cast h)
  unfold digitWeight at this
  rwa [Finset.filter_congr (fun j _ => e2 j)] at this

/-- The scalar 7 needs three binary digits and two signed ones. -/
example : (⟨7, 0, 0, 0, 0⟩ : Sc).SCanon ∧ dbg.Enough ∧
    (computeNAF dbg ⟨7, 0, 0, 0, 0⟩ >>= fun v => .ok (digitWeight v)) = .ok 2 := by
  refine ⟨by decide, by decide, ?_⟩
  decide +kernel

end Props
end Zerocaf
