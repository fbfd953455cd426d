import Verif.Props.Hash

/-!
# Exact counts for random elements (C22) and Edwards encodings (C54)
-/

set_option exponentiation.threshold 600

namespace Zerocaf
namespace Props

theorem ncard_mod (A B m : ℕ) (hm : m < A) : {n : Fin (A * B) | n.val % A = m}.ncard = B := by
  have hA : 0 < A := by omega
  let f : Fin B → Fin (A * B) := fun q => ⟨m + A * q.val, by
    have h : A * (q.val + 1) ≤ A * B := Nat.mul_le_mul_left A q.isLt
    rw [mul_add, mul_one] at h
    omega⟩
  have hf : Function.Injective f := by
    intro a b h
    have h1 : m + A * a.val = m + A * b.val := congrArg Fin.val h
    exact Fin.ext (Nat.eq_of_mul_eq_mul_left hA (by omega))
  have himg : {n : Fin (A * B) | n.val % A = m} = Set.range f := by
    ext n
    constructor
    · intro h
      have h : n.val % A = m := h
      refine ⟨⟨n.val / A, Nat.div_lt_of_lt_mul n.isLt⟩, Fin.ext ?_⟩
      show m + A * (n.val / A) = n.val
      rw [← h]
      exact Nat.mod_add_div _ _
    · rintro ⟨q, rfl⟩
      show (m + A * q.val) % A = m
      rw [Nat.add_mul_mod_self_left, Nat.mod_eq_of_lt hm]
  rw [himg, ← Set.image_univ, Set.ncard_image_of_injective _ hf, Set.ncard_univ, Nat.card_eq_fintype_card,
    Fintype.card_fin]

/-- The number of byte strings with given low bits. -/
theorem ncard_low_bits (A B m : ℕ) (hAB : A * B = 2 ^ 256) (hm : m < A) :
    {b : Bytes32 | bytesVal b % A = m}.ncard = B := by
  have h := ncard_mod A B m hm
  rw [hAB] at h
  rw [← h, ← Set.ncard_image_of_injective _ bytesEquiv.injective]
  congr 1
  ext n
  constructor
  · rintro ⟨b, hb, rfl⟩
    exact hb
  · intro hn
    refine ⟨bytesEquiv.symm n, ?_, bytesEquiv.apply_symm_apply n⟩
    show bytesVal (bytesEquiv.symm n) % A = m
    have : bytesVal (bytesEquiv.symm n) = n.val := congrArg Fin.val (bytesEquiv.apply_symm_apply n)
    rw [this]
    exact hn

theorem mask_low (b : Bytes32) (j : ℕ) (m : UInt8)
    (key : ∀ n : Fin 256, (UInt8.ofNat n &&& m).toNat = (UInt8.ofNat n).toNat % 2 ^ j) :
    bytesVal (b.set 31 (b[31] &&& m)) = bytesVal b % (2 ^ 248 * 2 ^ j) := by
  have h1 : (b[31] &&& m).toNat = b[31].toNat % 2 ^ j := by
    have := key ⟨b[31].toNat, u8_lt _⟩
    rwa [UInt8.ofNat_toNat] at this
  rw [bytesVal_set31, h1, top_byte, Nat.mod_mul]
  generalize bytesVal b = m
  generalize 2 ^ j = t
  omega

/-! ### C22 -/

theorem random_field_val (b : Bytes32) : (Field.random b).val = bytesVal b % 2 ^ 251 := by
  have h := mask_low b 3 0b00000111 (by decide +kernel)
  rw [show (2 : ℕ) ^ 248 * 2 ^ 3 = 2 ^ 251 by norm_num] at h
  exact (Field.fromBytes_spec _).2.trans h

/-- C22: on its range the random field element is uniform: every value below `2^251` comes from exactly `2^5` of the
`2^256` generator outputs. -/
theorem C22_field_uniform_on_range (a : FE) (ha : a.Canon) (h : a.val < 2 ^ 251) :
    {b : Bytes32 | Field.random b = a}.ncard = 2 ^ 5 := by
  have e : {b : Bytes32 | Field.random b = a} = {b : Bytes32 | bytesVal b % 2 ^ 251 = a.val} := by
    refine Set.ext fun b => ?_
    show Field.random b = a ↔ bytesVal b % 2 ^ 251 = a.val
    rw [← random_field_val]
    exact ⟨fun h => by rw [h], fun h => (Field.random_spec b).1.1.ext ha.1 h⟩
  rw [e]
  exact ncard_low_bits _ _ _ (by norm_num) h

/-- C22: every scalar below `2^249` comes from exactly `2^7` generator outputs. -/
theorem C22_scalar_uniform_on_range (a : Sc) (ha : a.SCanon) (h : a.val < 2 ^ 249) :
    {b : Bytes32 | Scalar.random b = .ok a}.ncard = 2 ^ 7 := by
  have e : {b : Bytes32 | Scalar.random b = .ok a} = {b : Bytes32 | bytesVal b % 2 ^ 249 = a.val} := by
    refine Set.ext fun b => ?_
    show Scalar.random b = .ok a ↔ bytesVal b % 2 ^ 249 = a.val
    have h' := mask_low b 1 0b00000001 (by decide +kernel)
    rw [show (2 : ℕ) ^ 248 * 2 ^ 1 = 2 ^ 249 by norm_num] at h'
    have hlt : bytesVal (b.set 31 (b[31] &&& 0b00000001)) < ell := by
      rw [h']
      exact lt_trans (Nat.mod_lt _ (by positivity)) ell_gt
    obtain ⟨r, er, hr, vr⟩ := Scalar.fromBytes_ok _ hlt
    have er' : Scalar.random b = .ok r := er
    rw [er', Res.ok_inj, ← h', ← vr]
    exact ⟨fun h => by rw [h], fun h => hr.1.ext ha.1 h⟩
  rw [e]
  exact ncard_low_bits _ _ _ (by norm_num) h

example : Field.one.Canon ∧ Field.one.val < 2 ^ 251 ∧ Scalar.one.SCanon ∧ Scalar.one.val < 2 ^ 249 := by decide

/-! ### C54 -/

theorem sign_bit (b : Bytes32) : (b[31] >>> 7 == 1) = decide (bytesVal b / 2 ^ 255 = 1) := by
  have key : ∀ n : Fin 256, (UInt8.ofNat n >>> 7 == 1) = decide ((UInt8.ofNat n).toNat / 2 ^ 7 = 1) := by
    decide +kernel
  have h := key ⟨b[31].toNat, u8_lt _⟩
  simp only [UInt8.ofNat_toNat] at h
  rw [h, top_byte, Nat.div_div_eq_div_mul, show (2 : ℕ) ^ 248 * 2 ^ 7 = 2 ^ 255 by norm_num]

/-- What is decoded depends on the low 252 bits and the top bit. -/
theorem decodes_to (c : Cfg) (hc : c.Enough) (b : Bytes32) (A : E) :
    (∃ P, Ed.decompress c b = .ok (some P) ∧ P.Rep A) ↔
      bytesVal b % 2 ^ 252 = A.y.val ∧ (A.x = 0 ∨ bytesVal b / 2 ^ 255 = (signOf A).toNat) := by
  have hA : IsSquare (xxOf A.y) := ⟨A.x, (xxOf_pt A).symm⟩
  have hlow : ((bytesVal b % 2 ^ 252 : ℕ) : Fp).val = bytesVal b % 2 ^ 252 := by
    rw [ZMod.val_natCast, Nat.mod_eq_of_lt]
    exact lt_trans (Nat.mod_lt _ (by positivity)) (by decide)
  have hbit : bytesVal b / 2 ^ 255 < 2 := by
    have := bytesVal_lt b
    omega
  have hsgn : ∀ s : Bool, yPt A.y s hA = A ↔ A.x = 0 ∨ s = signOf A := by
    intro s
    have h1 : yPt A.y (signOf A) hA = A := by unfold yPt signOf; rw [sPt_self]
    constructor
    · intro h
      by_contra hcon
      rw [not_or] at hcon
      have hs : s = !signOf A := by
        rcases s with _ | _ <;> rcases hq : signOf A with _ | _ <;> simp_all
      have hn : A = -A := by
        rcases hq : signOf A with _ | _
        · rw [hq] at h1
          rw [hs, hq] at h
          have := yPt_neg A.y hA
          rw [h1] at this
          exact h.symm.trans this
        · rw [hq] at h1
          rw [hs, hq] at h
          have := yPt_neg A.y hA
          rw [show yPt A.y false hA = A from h] at this
          exact h1.symm.trans this
      have hx : A.x = -A.x := congrArg EdCurve.Pt.x hn
      have h2 : (2 : Fp) * A.x = 0 := by linear_combination hx
      rcases mul_eq_zero.1 h2 with h3 | h3
      · exact Field.two_ne_zero' h3
      · exact hcon.1 h3
    · rintro (h | h)
      · refine EdCurve.Pt.ext ?_ (yPt_y _ _ _)
        rw [yPt_x]
        have hz : xxOf A.y = 0 := by rw [← xxOf_pt A, h, mul_zero]
        rw [hz, tsRoot_zero, neg_zero, ite_self, h]
      · rw [h]; exact h1
  rw [decompress_eq, sign_bit]
  constructor
  · rintro ⟨P, e, hP⟩
    by_cases hs : IsSquare (xxOf ((bytesVal b % 2 ^ 252 : ℕ) : Fp))
    · obtain ⟨Q, eQ, hQ⟩ := Ed.newFromY_some c hc _ (decide (bytesVal b / 2 ^ 255 = 1)) hs
      rw [eQ, Res.ok_inj] at e
      obtain rfl := Option.some.inj e
      have hAe := hQ.unique hP
      have hy : ((bytesVal b % 2 ^ 252 : ℕ) : Fp) = A.y := by rw [← hAe, yPt_y]
      refine ⟨by rw [← hlow, hy], ?_⟩
      have : yPt A.y (decide (bytesVal b / 2 ^ 255 = 1)) hA = A := by
        refine Eq.trans ?_ hAe
        revert hs
        rw [hy]
        intros
        rfl
      rcases (hsgn _).1 this with h | h
      · exact Or.inl h
      · refine Or.inr ?_
        rw [← h]
        rcases (show bytesVal b / 2 ^ 255 = 0 ∨ bytesVal b / 2 ^ 255 = 1 by omega) with h | h <;> rw [h] <;> rfl
    · rw [Ed.newFromY_none c hc _ _ hs, Res.ok_inj] at e
      exact absurd e (by simp)
  · rintro ⟨h1, h2⟩
    rw [h1, ZMod.natCast_zmod_val]
    obtain ⟨Q, eQ, hQ⟩ := Ed.newFromY_some c hc A.y (decide (bytesVal b / 2 ^ 255 = 1)) hA
    refine ⟨Q, eQ, ?_⟩
    rwa [(hsgn _).2] at hQ
    rcases h2 with h | h
    · exact Or.inl h
    · refine Or.inr ?_
      rw [h]
      rcases signOf A with _ | _ <;> rfl

/-- C54: two byte strings decode to the same point exactly if their low 252 bits agree and, unless `x = 0`, their top
bits agree. -/
theorem C54_exact (c : Cfg) (hc : c.Enough) (b b' : Bytes32) (P : EdPoint) (A : E)
    (h : Ed.decompress c b = .ok (some P)) (hA : P.Rep A) :
    (∃ P', Ed.decompress c b' = .ok (some P') ∧ P'.Rep A) ↔
      bytesVal b' % 2 ^ 252 = bytesVal b % 2 ^ 252 ∧ (A.x = 0 ∨ bytesVal b' / 2 ^ 255 = bytesVal b / 2 ^ 255) := by
  obtain ⟨h1, h2⟩ := (decodes_to c hc b A).1 ⟨P, h, hA⟩
  rw [decodes_to c hc, h1]
  rcases h2 with h2 | h2
  · simp only [h2, true_or]
  · rw [h2]

theorem ncard_xx (A B m s : ℕ) (hAB : A * 8 * B = 2 ^ 256) (hm : m < A) (hs : s < B) :
    {b : Bytes32 | bytesVal b % A = m ∧ bytesVal b / (A * 8) = s}.ncard = 8 := by
  have hA : 0 < A := by omega
  let g : Fin 8 → Fin (2 ^ 256) := fun q => ⟨m + A * (q.val + 8 * s), by
    rw [← hAB]
    have h1 : q.val + 8 * s + 1 ≤ 8 * B := by have := q.isLt; omega
    have h2 : A * (q.val + 8 * s + 1) ≤ A * (8 * B) := Nat.mul_le_mul_left A h1
    rw [mul_add, mul_one, ← mul_assoc] at h2
    omega⟩
  have hg : Function.Injective g := by
    intro a b h
    have h1 : m + A * (a.val + 8 * s) = m + A * (b.val + 8 * s) := congrArg Fin.val h
    have h2 := Nat.eq_of_mul_eq_mul_left hA (show A * (a.val + 8 * s) = A * (b.val + 8 * s) by omega)
    exact Fin.ext (by omega)
  have e : {b : Bytes32 | bytesVal b % A = m ∧ bytesVal b / (A * 8) = s} =
      Set.range (fun q => bytesEquiv.symm (g q)) := by
    refine Set.ext fun b => ⟨?_, ?_⟩
    · rintro ⟨h1, h2⟩
      refine ⟨⟨bytesVal b / A % 8, Nat.mod_lt _ (by norm_num)⟩, ?_⟩
      show bytesEquiv.symm (g _) = b
      rw [Equiv.symm_apply_eq]
      refine Fin.ext ?_
      show m + A * (bytesVal b / A % 8 + 8 * s) = bytesVal b
      rw [← h2, ← Nat.div_div_eq_div_mul, Nat.mod_add_div, ← h1, Nat.mod_add_div]
    · rintro ⟨q, rfl⟩
      have hv : bytesVal (bytesEquiv.symm (g q)) = m + A * (q.val + 8 * s) :=
        congrArg Fin.val (bytesEquiv.apply_symm_apply (g q))
      show bytesVal (bytesEquiv.symm (g q)) % A = m ∧ bytesVal (bytesEquiv.symm (g q)) / (A * 8) = s
      rw [hv, Nat.add_mul_mod_self_left, Nat.mod_eq_of_lt hm, ← Nat.div_div_eq_div_mul,
        Nat.add_mul_div_left _ _ hA, Nat.div_eq_of_lt hm, zero_add, Nat.add_mul_div_left _ _ (by norm_num),
        Nat.div_eq_of_lt q.isLt, zero_add]
      exact ⟨rfl, rfl⟩
  have hg' : Function.Injective (fun q => bytesEquiv.symm (g q)) := bytesEquiv.symm.injective.comp hg
  rw [e, ← Set.image_univ, Set.ncard_image_of_injective _ hg', Set.ncard_univ,
    Nat.card_eq_fintype_card, Fintype.card_fin]

/-- C54: a curve point with `y < 2^252` has exactly 8 encodings that decode to it, 16 if `x = 0`; a curve point with
larger `y` has none. -/
theorem C54_count (c : Cfg) (hc : c.Enough) (A : E) :
    {b : Bytes32 | ∃ P, Ed.decompress c b = .ok (some P) ∧ P.Rep A}.ncard =
      if A.y.val < 2 ^ 252 then (if A.x = 0 then 16 else 8) else 0 := by
  have e : {b : Bytes32 | ∃ P, Ed.decompress c b = .ok (some P) ∧ P.Rep A} =
      {b : Bytes32 | bytesVal b % 2 ^ 252 = A.y.val ∧ (A.x = 0 ∨ bytesVal b / 2 ^ 255 = (signOf A).toNat)} :=
    Set.ext fun b => decodes_to c hc b A
  rw [e]
  by_cases hy : A.y.val < 2 ^ 252
  · rw [if_pos hy]
    by_cases hx : A.x = 0
    · rw [if_pos hx]
      simp only [hx, true_or, and_true]
      exact ncard_low_bits _ _ _ (by norm_num) hy
    · rw [if_neg hx]
      simp only [hx, false_or]
      have := ncard_xx (2 ^ 252) 2 A.y.val (signOf A).toNat (by norm_num) hy (Bool.toNat_lt _)
      rwa [show (2 : ℕ) ^ 252 * 8 = 2 ^ 255 by norm_num] at this
  · rw [if_neg hy, Set.ncard_eq_zero]
    rw [Set.eq_empty_iff_forall_notMem]
    rintro b ⟨h, _⟩
    exact hy (by rw [← h]; exact Nat.mod_lt _ (by positivity))

example : dbg.Enough ∧ Bpt.y.val < 2 ^ 252 ∧ Bpt.x ≠ 0 := by
  refine ⟨by decide, ?_, ?_⟩
  · have h : Bpt.y = (by' : Fp) := rfl
    rw [h, ZMod.val_natCast]; decide
  · have h : Bpt.x = (bx : Fp) := rfl
    rw [h]
    intro h0
    have := congrArg ZMod.val h0
    rw [ZMod.val_natCast, ZMod.val_zero] at this
    revert this
    decide

end Props
end Zerocaf
