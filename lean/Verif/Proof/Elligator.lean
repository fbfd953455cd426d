import Verif.Proof.Encode

/-!
# The Elligator map
-/

set_option exponentiation.threshold 600

namespace Zerocaf

attribute [local irreducible] psqrt

/-- The values of `s` and `c` chosen by the map, on residues. -/
noncomputable def ellPick (b : Bool) (t r0 r : Fp) : Fp × Fp :=
  if b then (t, -1) else (if Pos (t * r0) then -(t * r0) else t * r0, r)

namespace Ristretto

/-- The coordinates computed by the map. -/
noncomputable def ellOut (r s cc : Fp) : EdPoint :=
  let D := (-1 - dZ * r) * (r + dZ)
  let W0 := (s + s) * D
  let W1 := (cc * (r - 1) * ((dZ - 1) * (dZ - 1)) - D) * qZ
  ⟨enc (W0 * (1 + s * s)), enc ((1 - s * s) * W1), enc (W1 * (1 + s * s)), enc (W0 * (1 - s * s))⟩

theorem elligator_enc (c : Cfg) (hc : c.Enough) (a : FE) (ha : a.WF) (r0 r : Fp) (h0 : r0 = a.toZ)
    (hr : r = Field.iZ * (r0 * r0)) (b : Bool) (t : Fp)
    (hq : (b, t) = Field.sqrtRatioZ ((r + 1) * (1 - dZ * dZ)) ((-1 - dZ * r) * (r + dZ))) :
    elligator c a = .ok (ellOut r (ellPick b t r0 r).1 (ellPick b t r0 r).2) := by
  have hm : ∀ s : Fp, Field.mul c (enc s) a = .ok (enc (s * a.toZ)) := by
    intro s
    rw [Field.mul_wf c _ _ (enc_WF _) ha, enc_toZ]
  unfold elligator ellOut
  rw [← h0] at hm
  simp only [Field.one_enc, Field.neg_enc, EDWARDS_D_enc, Field.square_enc, Field.sub_enc, Res.ok_bind,
    Field.square_wf c a ha, Field.SQRT_MINUS_ONE_enc, Field.mul_enc, Field.add_enc, ← h0, ← hr,
    Field.sqrtRatioI_enc c hc, ← hq, hm, Field.isPositive_enc, Field.condNegate_enc, SQRT_AD_enc]
  cases b <;>
  simp only [Field.condSelect_enc, Bool.not_true, Bool.not_false, Bool.false_eq_true, if_true, if_false,
    Field.square_enc, Field.mul_enc, Field.sub_enc, Field.add_enc, Res.ok_bind, Res.pure_eq,
    decide_eq_true_iff, ellPick]

end Ristretto

/-- The identity behind the map, for a square `Ns / D`. -/
theorem ell_id1 (d r : Fp) (D : Fp) (hD : D = (-1 - d * r) * (r + d)) :
    ((-1) * (r - 1) * ((d - 1) * (d - 1)) - D) ^ 2 * (d + 1) =
      (D + (r + 1) * (1 - d * d)) ^ 2 + d * (D - (r + 1) * (1 - d * d)) ^ 2 := by
  rw [hD]; ring

/-- The identity behind the map, for a non-square `Ns / D`. -/
theorem ell_id2 (d r : Fp) (D : Fp) (hD : D = (-1 - d * r) * (r + d)) :
    (r * (r - 1) * ((d - 1) * (d - 1)) - D) ^ 2 * (d + 1) =
      (D + r * ((r + 1) * (1 - d * d))) ^ 2 + d * (D - r * ((r + 1) * (1 - d * d))) ^ 2 := by
  rw [hD]; ring

/-- From the identity to the point. -/
theorem ell_point {D s t : Fp} (hD : D ≠ 0)
    (h : t ^ 2 * (dZ + 1) = (D + D * (s * s)) ^ 2 + dZ * (D - D * (s * s)) ^ 2) :
    t ≠ 0 ∧ 1 + s * s ≠ 0 ∧ ∃ A : E, InEven A ∧ A.x * (t * qZ) = (s + s) * D ∧
      A.y * (1 + s * s) = 1 - s * s := by
  have ht : t ≠ 0 := by
    intro h0
    rw [h0] at h
    have h1 : D - D * (s * s) ≠ 0 := by
      intro h1
      rw [h1] at h
      have h2 : D + D * (s * s) = 0 := by
        by_contra h3
        exact pow_ne_zero 2 h3 (by linear_combination -h)
      have : (2 : Fp) * D = 0 := by linear_combination h1 + h2
      rcases mul_eq_zero.1 this with h | h
      · exact Field.two_ne_zero' h
      · exact hD h
    apply dZ_not_square
    refine ⟨Field.iZ * (D + D * (s * s)) / (D - D * (s * s)), ?_⟩
    rw [div_mul_div_comm, eq_div_iff (mul_ne_zero h1 h1)]
    linear_combination -h - (D + D * (s * s)) ^ 2 * Field.iZ_sq
  have hu2 : 1 + s * s ≠ 0 := by
    intro h0
    have hs : s * s = -1 := by linear_combination h0
    rw [hs] at h
    apply dZ_not_square
    rw [← square_mul_left (a := (2 * D) ^ 2) ⟨_, by rw [pow_two]⟩
      (pow_ne_zero 2 (mul_ne_zero Field.two_ne_zero' hD))]
    have e : (2 * D) ^ 2 * dZ = (1 + dZ) * t ^ 2 := by linear_combination -h
    rw [e]
    exact one_add_d_square.mul ⟨_, by rw [pow_two]⟩
  have hq : qZ ≠ 0 := by
    intro h0
    have := qZ_sq
    rw [h0, mul_zero] at this
    exact one_add_d_ne (by linear_combination this)
  refine ⟨ht, hu2, ?_⟩
  have hy : (1 - s * s) / (1 + s * s) * (1 + s * s) = 1 - s * s := div_mul_cancel₀ _ hu2
  have hx : (s + s) * D / (t * qZ) * (t * qZ) = (s + s) * D := div_mul_cancel₀ _ (mul_ne_zero ht hq)
  generalize (1 - s * s) / (1 + s * s) = y at *
  generalize (s + s) * D / (t * qZ) = x at *
  have hdy : (1 + dZ * y ^ 2) * ((1 + s * s) * D) ^ 2 = (1 + dZ) * t ^ 2 := by
    linear_combination -h + dZ * D ^ 2 * (y * (1 + s * s) + (1 - s * s)) * hy
  have hon : x * x = xxOf y := by
    unfold xxOf
    rw [eq_div_iff (dy_ne y)]
    apply mul_right_cancel₀ (pow_ne_zero 2 (mul_ne_zero hu2 hD))
    have hq2 := qZ_sq
    generalize qZ = q at *
    generalize dZ = d at *
    linear_combination x ^ 2 * hdy + t ^ 2 * x ^ 2 * hq2 - (x * (t * q) + (s + s) * D) * hx
      - D ^ 2 * (y * (1 + s * s) + (1 - s * s)) * hy
  refine ⟨⟨x, y, xxOf_on hon⟩, ?_, hx, hy⟩
  rw [inEven_iff]
  dsimp only
  rw [← square_mul_left (a := ((1 + s * s) * D) ^ 2) ⟨_, by rw [pow_two]⟩
      (pow_ne_zero 2 (mul_ne_zero hu2 hD)), mul_comm, hdy]
  exact one_add_d_square.mul ⟨_, by rw [pow_two]⟩


theorem sqrtRatio_cases {u v : Fp} (hu : u ≠ 0) :
    (v = 0 ∧ Field.sqrtRatioZ u v = (false, 0)) ∨
    (v ≠ 0 ∧ ∃ t, Field.sqrtRatioZ u v = (true, t) ∧ v * (t * t) = u) ∨
    (v ≠ 0 ∧ ∃ t, Field.sqrtRatioZ u v = (false, t) ∧ v * (t * t) = Field.iZ * u) := by
  unfold Field.sqrtRatioZ
  rw [if_neg hu]
  by_cases hv : v = 0
  · rw [if_pos hv]; exact Or.inl ⟨hv, rfl⟩
  · rw [if_neg hv]
    right
    by_cases hs : IsSquare (u / v)
    · rw [if_pos hs]
      refine Or.inl ⟨hv, _, rfl, ?_⟩
      rw [psqrt_sq hs, mul_div_cancel₀ _ hv]
    · rw [if_neg hs]
      refine Or.inr ⟨hv, _, rfl, ?_⟩
      rw [psqrt_sq (Field.iZ_mul_square hs)]
      field_simp

theorem one_sub_d_ne : 1 - dZ ≠ 0 := fun h => dZ_not_square ⟨1, by linear_combination -h⟩

theorem qZ_ne : qZ ≠ 0 := by
  intro h0
  have := qZ_sq
  rw [h0, mul_zero] at this
  exact one_add_d_ne (by linear_combination this)

theorem r_add_one_ne (r0 : Fp) : Field.iZ * (r0 * r0) + 1 ≠ 0 := by
  intro h
  apply Field.iZ_not_square
  refine ⟨r0, ?_⟩
  apply mul_left_cancel₀ Field.iZ_ne
  linear_combination Field.iZ_sq - h

namespace Ristretto

theorem ellOut_rep {r s cc D t : Fp} (hD : D = (-1 - dZ * r) * (r + dZ)) (hD0 : D ≠ 0)
    (ht : t = cc * (r - 1) * ((dZ - 1) * (dZ - 1)) - D)
    (h : t ^ 2 * (dZ + 1) = (D + D * (s * s)) ^ 2 + dZ * (D - D * (s * s)) ^ 2) :
    ∃ A : E, InEven A ∧ (ellOut r s cc).Rep A := by
  obtain ⟨ht0, hu2, A, hA, hx, hy⟩ := ell_point hD0 h
  refine ⟨A, hA, ?_⟩
  unfold ellOut
  dsimp only
  rw [← hD, ← ht]
  refine EdPoint.rep_mk (mul_ne_zero (mul_ne_zero ht0 qZ_ne) hu2) ?_ ?_ ?_
  · linear_combination -(1 + s * s) * hx
  · linear_combination -(t * qZ) * hy
  · linear_combination -(1 - s * s) * hx - A.x * (t * qZ) * hy

/-- The map is total and always yields an even point. -/
theorem elligator_rep (c : Cfg) (hc : c.Enough) (a : FE) (ha : a.WF) :
    ∃ P A, elligator c a = .ok P ∧ P.Rep A ∧ InEven A := by
  generalize h0 : a.toZ = r0
  generalize hr : Field.iZ * (r0 * r0) = r
  have hN : (r + 1) * (1 - dZ * dZ) ≠ 0 := by
    rw [← hr, show (1 : Fp) - dZ * dZ = (1 - dZ) * (1 + dZ) by ring]
    exact mul_ne_zero (r_add_one_ne r0) (mul_ne_zero one_sub_d_ne one_add_d_ne)
  have key := elligator_enc c hc a ha r0 r h0.symm hr.symm
  generalize hD : (-1 - dZ * r) * (r + dZ) = D at *
  rcases sqrtRatio_cases (v := D) hN with ⟨h1, e⟩ | ⟨h1, t, e, ht⟩ | ⟨h1, t, e, ht⟩
  · refine ⟨_, 0, key false 0 e.symm, ?_, inEven_zero⟩
    have e1 : ellPick false 0 r0 r = (0, r) := by
      unfold ellPick
      rw [if_neg Bool.false_ne_true, zero_mul, if_pos pos_zero, neg_zero]
    rw [e1]
    unfold ellOut
    dsimp only
    rw [hD, h1]
    have hr0 : r ≠ 0 := by
      intro h
      rw [h, h1] at hD
      exact dZ_ne (by linear_combination -hD)
    have hr1 : r - 1 ≠ 0 := by
      intro h
      have h2 : r = 1 := by linear_combination h
      rw [h2, h1] at hD
      have : (1 + dZ) * (1 + dZ) = 0 := by linear_combination -hD
      exact mul_ne_zero one_add_d_ne one_add_d_ne this
    have hd : dZ - 1 ≠ 0 := fun h => one_sub_d_ne (by linear_combination -h)
    have hW : (r * (r - 1) * ((dZ - 1) * (dZ - 1)) - 0) * qZ * (1 + 0 * 0) ≠ 0 := by
      rw [sub_zero, mul_zero, add_zero, mul_one]
      exact mul_ne_zero (mul_ne_zero (mul_ne_zero hr0 hr1) (mul_ne_zero hd hd)) qZ_ne
    refine EdPoint.rep_mk hW ?_ ?_ ?_
    · rw [EdCurve.Pt.zero_x]; ring
    · rw [EdCurve.Pt.zero_y]; ring
    · rw [EdCurve.Pt.zero_x]; ring
  · obtain ⟨A, hA, hR⟩ := ellOut_rep (r := r) (s := t) (cc := -1) hD.symm h1 rfl (by
      rw [ht]; exact ell_id1 dZ r D hD.symm)
    have e1 : ellPick true t r0 r = (t, -1) := by
      unfold ellPick
      rw [if_pos rfl]
    refine ⟨_, A, key true t e.symm, ?_, hA⟩
    rw [e1]; exact hR
  · have hs : ∀ s : Fp, s * s = t * r0 * (t * r0) → D * (s * s) = r * ((r + 1) * (1 - dZ * dZ)) := by
      intro s hs
      rw [hs, ← hr]
      rw [← hr] at ht
      linear_combination (r0 * r0) * ht
    obtain ⟨A, hA, hR⟩ := ellOut_rep (r := r) (s := (ellPick false t r0 r).1) (cc := r) hD.symm h1 rfl (by
      rw [hs _ (by
        unfold ellPick
        rw [if_neg Bool.false_ne_true]
        dsimp only
        by_cases hp : Pos (t * r0)
        · rw [if_pos hp, neg_mul_neg]
        · rw [if_neg hp])]
      exact ell_id2 dZ r D hD.symm)
    have e1 : (ellPick false t r0 r).2 = r := by
      unfold ellPick
      rw [if_neg Bool.false_ne_true]
    refine ⟨_, A, key false t e.symm, ?_, hA⟩
    rw [e1]; exact hR

/-- Elligator sees its argument modulo `p`. -/
theorem elligator_congr (c : Cfg) (hc : c.Enough) (a b : FE) (ha : a.WF) (hb : b.WF) (h : a.toZ = b.toZ) :
    elligator c a = elligator c b := by
  generalize h0 : a.toZ = r0 at h
  generalize hr : Field.iZ * (r0 * r0) = r
  have ka := elligator_enc c hc a ha r0 r h0.symm hr.symm
  have kb := elligator_enc c hc b hb r0 r h hr.symm
  generalize Field.sqrtRatioZ _ _ = q at ka kb
  obtain ⟨t, u⟩ := q
  rw [ka t u rfl, kb t u rfl]

end Ristretto
end Zerocaf
