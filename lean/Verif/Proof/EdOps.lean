import Verif.Spec.Points

/-!
# Point operations on represented points
-/

set_option exponentiation.threshold 600

namespace Zerocaf

theorem zc_d : zc.d = dZ := by rfl

theorem EDWARDS_D_enc : EDWARDS_D = enc dZ := by
  have h : EDWARDS_D.Canon := by decide
  refine h.eq_enc ?_
  rw [dZ_eq]
  unfold L5.toZ
  have : EDWARDS_D.val = dNat := by decide
  rw [this]

theorem EDWARDS_A_enc : EDWARDS_A = enc (-1) := by
  have : EDWARDS_A = Field.minusOne := by decide
  rw [this, Field.minusOne_enc]

/-! ### Normal forms of represented points -/

theorem EdPoint.rep_mk {A : E} {X Y Z T : Fp} (hz : Z ≠ 0) (hx : X = A.x * Z) (hy : Y = A.y * Z)
    (ht : T = A.x * A.y * Z) : EdPoint.Rep ⟨enc X, enc Y, enc Z, enc T⟩ A := by
  have hv : ∀ x : Fp, ((enc x).val : Fp) = x := enc_toZ
  refine ⟨enc_canon _, enc_canon _, enc_canon _, enc_canon _, ?_, ?_, ?_, ?_⟩ <;> dsimp only <;>
    simp only [hv]
  · exact hz
  · rw [hx, mul_div_cancel_right₀ _ hz]
  · rw [hy, mul_div_cancel_right₀ _ hz]
  · rw [ht, hx, hy]; field_simp

theorem EdPoint.Rep.form {P : EdPoint} {A : E} (h : P.Rep A) : ∃ Z : Fp, Z ≠ 0 ∧
    P = ⟨enc (A.x * Z), enc (A.y * Z), enc Z, enc (A.x * A.y * Z)⟩ := by
  have hz := h.z_ne
  have hx := h.x_eq
  have hy := h.y_eq
  have ht := h.t_eq
  rw [div_eq_iff hz] at hx hy
  refine ⟨(P.Z.val : Fp), hz, ?_⟩
  rw [hx, hy] at ht
  have ht' : (P.T.val : Fp) = A.x * A.y * P.Z.val := by rw [ht]; field_simp
  obtain ⟨X, Y, Z, T⟩ := P
  rw [EdPoint.mk.injEq]
  exact ⟨h.cX.eq_enc hx, h.cY.eq_enc hy, h.cZ.eq_enc rfl, h.cT.eq_enc ht'⟩

theorem ProjPoint.rep_mk {A : E} {X Y Z : Fp} (hz : Z ≠ 0) (hx : X = A.x * Z) (hy : Y = A.y * Z) :
    ProjPoint.Rep ⟨enc X, enc Y, enc Z⟩ A := by
  have hv : ∀ x : Fp, ((enc x).val : Fp) = x := enc_toZ
  refine ⟨enc_canon _, enc_canon _, enc_canon _, ?_, ?_, ?_⟩ <;> dsimp only <;> simp only [hv]
  · exact hz
  · rw [hx, mul_div_cancel_right₀ _ hz]
  · rw [hy, mul_div_cancel_right₀ _ hz]

theorem ProjPoint.Rep.form {P : ProjPoint} {A : E} (h : P.Rep A) : ∃ Z : Fp, Z ≠ 0 ∧
    P = ⟨enc (A.x * Z), enc (A.y * Z), enc Z⟩ := by
  have hz := h.z_ne
  have hx := h.x_eq
  have hy := h.y_eq
  rw [div_eq_iff hz] at hx hy
  refine ⟨(P.Z.val : Fp), hz, ?_⟩
  obtain ⟨X, Y, Z⟩ := P
  rw [ProjPoint.mk.injEq]
  exact ⟨h.cX.eq_enc hx, h.cY.eq_enc hy, h.cZ.eq_enc rfl⟩

theorem AffPoint.rep_mk {A : E} {X Y : Fp} (hx : X = A.x) (hy : Y = A.y) :
    AffPoint.Rep ⟨enc X, enc Y⟩ A :=
  ⟨enc_canon _, enc_canon _, (enc_toZ X).trans hx, (enc_toZ Y).trans hy⟩

theorem AffPoint.Rep.form {P : AffPoint} {A : E} (h : P.Rep A) : P = ⟨enc A.x, enc A.y⟩ := by
  obtain ⟨X, Y⟩ := P
  rw [AffPoint.mk.injEq]
  exact ⟨h.cX.eq_enc h.x_eq, h.cY.eq_enc h.y_eq⟩

/-- The point represented is unique. -/
theorem EdPoint.Rep.unique {P : EdPoint} {A B : E} (h : P.Rep A) (g : P.Rep B) : A = B := by
  ext
  · rw [← h.x_eq, g.x_eq]
  · rw [← h.y_eq, g.y_eq]

theorem ProjPoint.Rep.unique {P : ProjPoint} {A B : E} (h : P.Rep A) (g : P.Rep B) : A = B := by
  ext
  · rw [← h.x_eq, g.x_eq]
  · rw [← h.y_eq, g.y_eq]

theorem AffPoint.Rep.unique {P : AffPoint} {A B : E} (h : P.Rep A) (g : P.Rep B) : A = B := by
  ext
  · rw [← h.x_eq, g.x_eq]
  · rw [← h.y_eq, g.y_eq]

/-! ### The sum, without divisions -/

theorem add_facts (A B : E) :
    1 + dZ * A.x * B.x * A.y * B.y ≠ 0 ∧ 1 - dZ * A.x * B.x * A.y * B.y ≠ 0 ∧
    (A + B).x * (1 + dZ * A.x * B.x * A.y * B.y) = A.x * B.y + A.y * B.x ∧
    (A + B).y * (1 - dZ * A.x * B.x * A.y * B.y) = A.y * B.y + A.x * B.x := by
  have h1 := EdCurve.one_add_ne A.on B.on
  have h2 := EdCurve.one_sub_ne A.on B.on
  rw [zc_d] at h1 h2
  refine ⟨h1, h2, ?_, ?_⟩
  · rw [EdCurve.Pt.add_x, zc_d, div_mul_cancel₀ _ h1]
  · rw [EdCurve.Pt.add_y, zc_d, div_mul_cancel₀ _ h2]

theorem on_fact (A : E) : A.y ^ 2 - A.x ^ 2 = 1 + dZ * A.x ^ 2 * A.y ^ 2 := A.on

/-! ### Extended coordinates -/

namespace Ed

theorem identity_rep : identity.Rep 0 := by
  unfold identity
  rw [Field.zero_enc, Field.one_enc]
  exact EdPoint.rep_mk one_ne_zero (by rw [EdCurve.Pt.zero_x, zero_mul])
    (by rw [EdCurve.Pt.zero_y, one_mul]) (by rw [EdCurve.Pt.zero_x, zero_mul, zero_mul])

theorem neg_rep (c : Cfg) {P : EdPoint} {A : E} (h : P.Rep A) :
    ∃ R, neg c P = .ok R ∧ R.Rep (-A) := by
  obtain ⟨Z, hz, rfl⟩ := h.form
  refine ⟨⟨enc (-(A.x * Z)), enc (A.y * Z), enc Z, enc (-(A.x * A.y * Z))⟩, ?_, ?_⟩
  · simp only [neg, Field.neg_enc, Res.ok_bind, Res.pure_eq]
  · apply EdPoint.rep_mk hz
    · rw [EdCurve.Pt.neg_x]; ring
    · rw [EdCurve.Pt.neg_y]
    · rw [EdCurve.Pt.neg_x, EdCurve.Pt.neg_y]; ring

theorem add_enc (c : Cfg) (X Y Z T X' Y' Z' T' : Fp) :
    add c ⟨enc X, enc Y, enc Z, enc T⟩ ⟨enc X', enc Y', enc Z', enc T'⟩ =
      .ok ⟨enc (((X + Y) * (X' + Y') - X * X' - Y * Y') * (Z * Z' - dZ * T * T')),
        enc ((Z * Z' + dZ * T * T') * (Y * Y' + X * X')),
        enc ((Z * Z' - dZ * T * T') * (Z * Z' + dZ * T * T')),
        enc (((X + Y) * (X' + Y') - X * X' - Y * Y') * (Y * Y' + X * X'))⟩ := by
  simp only [add, EDWARDS_D_enc, Field.mul_enc, Field.add_enc, Field.sub_enc, Res.ok_bind, Res.pure_eq]

theorem add_rep (c : Cfg) {P Q : EdPoint} {A B : E} (hP : P.Rep A) (hQ : Q.Rep B) :
    ∃ R, add c P Q = .ok R ∧ R.Rep (A + B) := by
  obtain ⟨Z, hz, rfl⟩ := hP.form
  obtain ⟨Z', hz', rfl⟩ := hQ.form
  refine ⟨_, add_enc c _ _ _ _ _ _ _ _, ?_⟩
  obtain ⟨n1, n2, hx, hy⟩ := add_facts A B
  generalize A + B = S at *
  generalize dZ = d at *
  apply EdPoint.rep_mk
  · have : (Z * Z' - d * (A.x * A.y * Z) * (B.x * B.y * Z')) *
        (Z * Z' + d * (A.x * A.y * Z) * (B.x * B.y * Z')) =
        (Z * Z') ^ 2 * ((1 + d * A.x * B.x * A.y * B.y) * (1 - d * A.x * B.x * A.y * B.y)) := by ring
    rw [this]
    exact mul_ne_zero (pow_ne_zero 2 (mul_ne_zero hz hz')) (mul_ne_zero n1 n2)
  · linear_combination (-(Z * Z') ^ 2 * (1 - d * A.x * B.x * A.y * B.y)) * hx
  · linear_combination (-(Z * Z') ^ 2 * (1 + d * A.x * B.x * A.y * B.y)) * hy
  · linear_combination (-(Z * Z') ^ 2 * (A.y * B.y + A.x * B.x)) * hx
      - (Z * Z') ^ 2 * S.x * (1 + d * A.x * B.x * A.y * B.y) * hy

theorem double_rep (c : Cfg) {P : EdPoint} {A : E} (h : P.Rep A) :
    ∃ R, double c P = .ok R ∧ R.Rep (A + A) := add_rep c h h

theorem sub_rep (c : Cfg) {P Q : EdPoint} {A B : E} (hP : P.Rep A) (hQ : Q.Rep B) :
    ∃ R, sub c P Q = .ok R ∧ R.Rep (A - B) := by
  obtain ⟨N, eN, hN⟩ := neg_rep c hQ
  obtain ⟨R, eR, hR⟩ := add_rep c hP hN
  refine ⟨R, ?_, by rw [sub_eq_add_neg]; exact hR⟩
  obtain ⟨Z, hz, rfl⟩ := hP.form
  obtain ⟨Z', hz', rfl⟩ := hN.form
  rw [← eR, add_enc]
  unfold sub
  rw [eN]
  simp only [EDWARDS_D_enc, EDWARDS_A_enc, Field.mul_enc, Field.add_enc, Field.sub_enc, Res.ok_bind,
    Res.pure_eq, neg_one_mul, sub_neg_eq_add]

end Ed

/-! ### Projective coordinates -/

namespace Proj

theorem identity_rep : identity.Rep 0 := by
  unfold identity
  rw [Field.zero_enc, Field.one_enc]
  exact ProjPoint.rep_mk one_ne_zero (by rw [EdCurve.Pt.zero_x, zero_mul])
    (by rw [EdCurve.Pt.zero_y, one_mul])

theorem neg_rep (c : Cfg) {P : ProjPoint} {A : E} (h : P.Rep A) :
    ∃ R, neg c P = .ok R ∧ R.Rep (-A) := by
  obtain ⟨Z, hz, rfl⟩ := h.form
  refine ⟨⟨enc (-(A.x * Z)), enc (A.y * Z), enc Z⟩, ?_, ?_⟩
  · simp only [neg, Field.neg_enc, Res.ok_bind, Res.pure_eq]
  · apply ProjPoint.rep_mk hz
    · rw [EdCurve.Pt.neg_x]; ring
    · rw [EdCurve.Pt.neg_y]

theorem add_enc (c : Cfg) (X Y Z X' Y' Z' : Fp) :
    add c ⟨enc X, enc Y, enc Z⟩ ⟨enc X', enc Y', enc Z'⟩ =
      .ok ⟨enc (Z * Z' * ((Z * Z' * (Z * Z') - dZ * (X * X') * (Y * Y')) *
          ((X + Y) * (X' + Y') - X * X' - Y * Y'))),
        enc (Z * Z' * (Z * Z' * (Z * Z') + dZ * (X * X') * (Y * Y')) * (Y * Y' + X * X')),
        enc ((Z * Z' * (Z * Z') - dZ * (X * X') * (Y * Y')) *
          (Z * Z' * (Z * Z') + dZ * (X * X') * (Y * Y')))⟩ := by
  simp only [add, EDWARDS_D_enc, Field.mul_enc, Field.square_enc, Field.add_enc, Field.sub_enc,
    Res.ok_bind, Res.pure_eq]

theorem add_rep (c : Cfg) {P Q : ProjPoint} {A B : E} (hP : P.Rep A) (hQ : Q.Rep B) :
    ∃ R, add c P Q = .ok R ∧ R.Rep (A + B) := by
  obtain ⟨Z, hz, rfl⟩ := hP.form
  obtain ⟨Z', hz', rfl⟩ := hQ.form
  refine ⟨_, add_enc c _ _ _ _ _ _, ?_⟩
  obtain ⟨n1, n2, hx, hy⟩ := add_facts A B
  generalize A + B = S at *
  generalize dZ = d at *
  apply ProjPoint.rep_mk
  · have : (Z * Z' * (Z * Z') - d * (A.x * Z * (B.x * Z')) * (A.y * Z * (B.y * Z'))) *
        (Z * Z' * (Z * Z') + d * (A.x * Z * (B.x * Z')) * (A.y * Z * (B.y * Z'))) =
        (Z * Z') ^ 4 * ((1 + d * A.x * B.x * A.y * B.y) * (1 - d * A.x * B.x * A.y * B.y)) := by ring
    rw [this]
    exact mul_ne_zero (pow_ne_zero 4 (mul_ne_zero hz hz')) (mul_ne_zero n1 n2)
  · linear_combination (-(Z * Z') ^ 4 * (1 - d * A.x * B.x * A.y * B.y)) * hx
  · linear_combination (-(Z * Z') ^ 4 * (1 + d * A.x * B.x * A.y * B.y)) * hy

theorem sub_rep (c : Cfg) {P Q : ProjPoint} {A B : E} (hP : P.Rep A) (hQ : Q.Rep B) :
    ∃ R, sub c P Q = .ok R ∧ R.Rep (A - B) := by
  obtain ⟨N, eN, hN⟩ := neg_rep c hQ
  obtain ⟨R, eR, hR⟩ := add_rep c hP hN
  refine ⟨R, ?_, by rw [sub_eq_add_neg]; exact hR⟩
  unfold sub
  rw [eN, Res.ok_bind, eR]

theorem double_enc (c : Cfg) (X Y Z : Fp) :
    double c ⟨enc X, enc Y, enc Z⟩ =
      .ok ⟨enc (((X + Y) * (X + Y) - X * X - Y * Y) * (-(X * X) + Y * Y - 2 * (Z * Z))),
        enc ((-(X * X) + Y * Y) * (-(X * X) - Y * Y)),
        enc ((-(X * X) + Y * Y) * (-(X * X) + Y * Y - 2 * (Z * Z)))⟩ := by
  have h2 : Field.fromU32 2 = enc 2 := by rw [← Field.two_enc]; rfl
  simp only [double, EDWARDS_A_enc, h2, Field.mul_enc, Field.square_enc, Field.add_enc,
    Field.sub_enc, Res.ok_bind, Res.pure_eq, neg_one_mul]

theorem double_rep (c : Cfg) {P : ProjPoint} {A : E} (h : P.Rep A) :
    ∃ R, double c P = .ok R ∧ R.Rep (A + A) := by
  obtain ⟨Z, hz, rfl⟩ := h.form
  refine ⟨_, double_enc c _ _ _, ?_⟩
  obtain ⟨n1, n2, hx, hy⟩ := add_facts A A
  have ho := on_fact A
  generalize A + A = S at *
  generalize dZ = d at *
  apply ProjPoint.rep_mk
  · have : (-(A.x * Z * (A.x * Z)) + A.y * Z * (A.y * Z)) *
        (-(A.x * Z * (A.x * Z)) + A.y * Z * (A.y * Z) - 2 * (Z * Z)) =
        -(Z ^ 4 * ((1 + d * A.x * A.x * A.y * A.y) * (1 - d * A.x * A.x * A.y * A.y))) := by
      linear_combination Z ^ 4 * (A.y ^ 2 - A.x ^ 2 - 1 + d * A.x ^ 2 * A.y ^ 2) * ho
    rw [this]
    exact neg_ne_zero.2 (mul_ne_zero (pow_ne_zero 4 hz) (mul_ne_zero n1 n2))
  · have e : A.x * A.y + A.y * A.x = S.x * (A.y ^ 2 - A.x ^ 2) := by rw [← hx, ho]; ring
    linear_combination Z ^ 4 * (A.y ^ 2 - A.x ^ 2 - 2) * e
  · have e : A.y * A.y + A.x * A.x = -(S.y * (A.y ^ 2 - A.x ^ 2 - 2)) := by rw [← hy, ho]; ring
    linear_combination -Z ^ 4 * (A.y ^ 2 - A.x ^ 2) * e

end Proj

/-! ### Conversions -/

theorem Aff.ofEd_rep (c : Cfg) (hc : c.Enough) {P : EdPoint} {A : E} (h : P.Rep A) :
    Aff.ofEd c P = .ok ⟨enc A.x, enc A.y⟩ := by
  obtain ⟨Z, hz, rfl⟩ := h.form
  simp only [Aff.ofEd, Field.inverse_enc c hc Z hz, Field.mul_enc, Res.ok_bind, Res.pure_eq,
    mul_inv_cancel_right₀ hz]

theorem Aff.ofProj_rep (c : Cfg) (hc : c.Enough) {P : ProjPoint} {A : E} (h : P.Rep A) :
    Aff.ofProj c P = .ok ⟨enc A.x, enc A.y⟩ := by
  obtain ⟨Z, hz, rfl⟩ := h.form
  simp only [Aff.ofProj, Field.inverse_enc c hc Z hz, Field.mul_enc, Res.ok_bind, Res.pure_eq,
    mul_inv_cancel_right₀ hz]

theorem Aff.neg_rep (c : Cfg) {P : AffPoint} {A : E} (h : P.Rep A) :
    ∃ R, Aff.neg c P = .ok R ∧ R.Rep (-A) := by
  rw [h.form]
  refine ⟨⟨enc (-A.x), enc A.y⟩, ?_, AffPoint.rep_mk rfl rfl⟩
  simp only [Aff.neg, Field.neg_enc, Res.ok_bind, Res.pure_eq]

theorem Proj.ofEd_rep {P : EdPoint} {A : E} (h : P.Rep A) : (Proj.ofEd P).Rep A :=
  ⟨h.cX, h.cY, h.cZ, h.z_ne, h.x_eq, h.y_eq⟩

theorem Proj.ofAff_rep {P : AffPoint} {A : E} (h : P.Rep A) : (Proj.ofAff P).Rep A := by
  rw [h.form]
  unfold Proj.ofAff
  dsimp only
  rw [Field.one_enc]
  exact ProjPoint.rep_mk one_ne_zero (mul_one _).symm (mul_one _).symm

theorem Ed.ofAff_rep (c : Cfg) {P : AffPoint} {A : E} (h : P.Rep A) :
    ∃ R, Ed.ofAff c P = .ok R ∧ R.Rep A := by
  rw [h.form]
  refine ⟨⟨enc A.x, enc A.y, enc 1, enc (A.x * A.y)⟩, ?_, ?_⟩
  · simp only [Ed.ofAff, Field.mul_enc, Field.one_enc, Res.ok_bind, Res.pure_eq]
  · exact EdPoint.rep_mk one_ne_zero (mul_one _).symm (mul_one _).symm (mul_one _).symm

theorem Ed.ofProj_rep (c : Cfg) {P : ProjPoint} {A : E} (h : P.Rep A) :
    ∃ R, Ed.ofProj c P = .ok R ∧ R.Rep A := by
  obtain ⟨Z, hz, rfl⟩ := h.form
  refine ⟨⟨enc (A.x * Z * Z), enc (A.y * Z * Z), enc (Z * Z), enc (A.x * Z * (A.y * Z))⟩, ?_, ?_⟩
  · simp only [Ed.ofProj, Field.mul_enc, Field.square_enc, Res.ok_bind, Res.pure_eq]
  · exact EdPoint.rep_mk (mul_ne_zero hz hz) (by ring) (by ring) (by ring)

/-! ### Equality -/

theorem Ed.ctEq_rep (c : Cfg) (hc : c.Enough) {P Q : EdPoint} {A B : E} (hP : P.Rep A) (hQ : Q.Rep B) :
    Ed.ctEq c P Q = .ok (decide (A.x = B.x) && decide (A.y = B.y)) := by
  simp only [Ed.ctEq, Aff.ofEd_rep c hc hP, Aff.ofEd_rep c hc hQ, Res.ok_bind, Res.pure_eq, Aff.ctEq,
    Field.ctEq_enc]

theorem Proj.ctEq_rep (c : Cfg) (hc : c.Enough) {P Q : ProjPoint} {A B : E} (hP : P.Rep A)
    (hQ : Q.Rep B) : Proj.ctEq c P Q = .ok (decide (A.x = B.x) && decide (A.y = B.y)) := by
  simp only [Proj.ctEq, Aff.ofProj_rep c hc hP, Aff.ofProj_rep c hc hQ, Res.ok_bind, Res.pure_eq,
    Aff.ctEq, Field.ctEq_enc]

theorem xy_eq_iff {A B : E} : (decide (A.x = B.x) && decide (A.y = B.y)) = true ↔ A = B := by
  rw [Bool.and_eq_true, decide_eq_true_eq, decide_eq_true_eq]
  exact ⟨fun h => EdCurve.Pt.ext h.1 h.2, fun h => by rw [h]; exact ⟨rfl, rfl⟩⟩

end Zerocaf
