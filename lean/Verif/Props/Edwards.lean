import Verif.Proof.WindowMul
import Verif.Props.Scalar

/-!
# Properties C37-C51, C56, C70: the curve, point arithmetic and scalar multiplication

`P.Rep A` (in `Spec/Points.lean`) says that the coordinates `P` represent the curve point `A : E`; the group
`E` with its affine addition law is in `Spec/Curve.lean`.
-/

set_option exponentiation.threshold 600

namespace Zerocaf
namespace Props

/-! ### C37 -/

/-- C37: addition in extended coordinates is complete and correct. -/
theorem C37_add (c : Cfg) {P Q : EdPoint} {A B : E} (hP : P.Rep A) (hQ : Q.Rep B) :
    ∃ R, Ed.add c P Q = .ok R ∧ R.Rep (A + B) := Ed.add_rep c hP hQ

/-- C37: the affine law; its denominators never vanish on curve points. -/
theorem C37_law (A B : E) :
    1 + dZ * A.x * B.x * A.y * B.y ≠ 0 ∧ 1 - dZ * A.x * B.x * A.y * B.y ≠ 0 ∧
    (A + B).x = (A.x * B.y + A.y * B.x) / (1 + dZ * A.x * B.x * A.y * B.y) ∧
    (A + B).y = (A.y * B.y + A.x * B.x) / (1 - dZ * A.x * B.x * A.y * B.y) ∧
    -A.x ^ 2 + A.y ^ 2 = 1 + dZ * A.x ^ 2 * A.y ^ 2 :=
  ⟨(add_facts A B).1, (add_facts A B).2.1, (eq_div_iff (add_facts A B).1).2 (add_facts A B).2.2.1,
    (eq_div_iff (add_facts A B).2.1).2 (add_facts A B).2.2.2, by linear_combination on_fact A⟩

/-- C37: which coordinate tuples the theorems cover. -/
theorem C37_valid_iff (P : EdPoint) :
    P.Valid ↔ (P.X.Canon ∧ P.Y.Canon ∧ P.Z.Canon ∧ P.T.Canon) ∧ P.Z.val ≠ 0 ∧
      (P.T.val : Fp) * P.Z.val = P.X.val * P.Y.val ∧
      (-(P.X.val : Fp) ^ 2 + (P.Y.val : Fp) ^ 2) * (P.Z.val : Fp) ^ 2 =
        (P.Z.val : Fp) ^ 4 + dZ * (P.X.val : Fp) ^ 2 * (P.Y.val : Fp) ^ 2 := by
  constructor
  · rintro ⟨A, h⟩
    have hz := h.z_ne
    refine ⟨⟨h.cX, h.cY, h.cZ, h.cT⟩, ?_, ?_, ?_⟩
    · intro h0; rw [h0, Nat.cast_zero] at hz; exact hz rfl
    · rw [h.t_eq, div_mul_cancel₀ _ hz]
    · have h1 := (div_eq_iff hz).1 h.x_eq
      have h2 := (div_eq_iff hz).1 h.y_eq
      rw [h1, h2]
      linear_combination ((P.Z.val : Fp) ^ 4) * on_fact A
  · rintro ⟨⟨cX, cY, cZ, cT⟩, hz0, ht, ho⟩
    have hz : (P.Z.val : Fp) ≠ 0 := by
      rw [Ne, ZMod.natCast_eq_zero_iff]
      exact Nat.not_dvd_of_pos_of_lt (Nat.pos_of_ne_zero hz0) cZ.2
    refine ⟨⟨(P.X.val : Fp) / P.Z.val, (P.Y.val : Fp) / P.Z.val, ?_⟩, cX, cY, cZ, cT, hz, rfl, rfl, ?_⟩
    · show _ = 1 + dZ * _ * _
      generalize dZ = d at *
      field_simp
      linear_combination ho
    · rw [eq_div_iff hz, ht]

theorem base_valid : Ed.BASEPOINT.Valid := ⟨_, BASEPOINT_rep⟩

/-- The base point plus itself: equal inputs are covered. -/
example : Ed.BASEPOINT.Rep Bpt ∧ ∃ R, Ed.add dbg Ed.BASEPOINT Ed.BASEPOINT = .ok R ∧ R.Rep (Bpt + Bpt) :=
  ⟨BASEPOINT_rep, C37_add dbg BASEPOINT_rep BASEPOINT_rep⟩

/-! ### C38 -/

theorem Ed_ctEq_iff (c : Cfg) (hc : c.Enough) {P Q : EdPoint} {A B : E} (hP : P.Rep A) (hQ : Q.Rep B) :
    ∃ b, Ed.ctEq c P Q = .ok b ∧ (b = true ↔ A = B) := ⟨_, Ed.ctEq_rep c hc hP hQ, xy_eq_iff⟩

theorem Ed_ctEq_same (c : Cfg) (hc : c.Enough) {P Q : EdPoint} {A : E} (hP : P.Rep A) (hQ : Q.Rep A) :
    Ed.ctEq c P Q = .ok true := by
  obtain ⟨b, e, h⟩ := Ed_ctEq_iff c hc hP hQ
  rw [e, h.2 rfl]

/-- C38: the curve points form a commutative group; the neutral element is `(0, 1)` and the inverse
negates `x`. -/
theorem C38_group (A B C : E) :
    A + B + C = A + (B + C) ∧ A + B = B + A ∧ A + 0 = A ∧ A + -A = 0 ∧
    ((0 : E).x = 0 ∧ (0 : E).y = 1) ∧ ((-A).x = -A.x ∧ (-A).y = A.y) :=
  ⟨add_assoc A B C, add_comm A B, add_zero A, add_neg_cancel A, ⟨rfl, rfl⟩, rfl, rfl⟩

/-- C38: the additions of the library, compared with the library's equality, are associative. -/
theorem C38_assoc (c : Cfg) (hc : c.Enough) {P Q R : EdPoint} (hP : P.Valid) (hQ : Q.Valid) (hR : R.Valid) :
    (do
      let pq ← Ed.add c P Q
      let l ← Ed.add c pq R
      let qr ← Ed.add c Q R
      let r ← Ed.add c P qr
      Ed.ctEq c l r) = .ok true := by
  obtain ⟨A, hA⟩ := hP
  obtain ⟨B, hB⟩ := hQ
  obtain ⟨C, hC⟩ := hR
  obtain ⟨pq, e1, h1⟩ := Ed.add_rep c hA hB
  obtain ⟨l, e2, h2⟩ := Ed.add_rep c h1 hC
  obtain ⟨qr, e3, h3⟩ := Ed.add_rep c hB hC
  obtain ⟨r, e4, h4⟩ := Ed.add_rep c hA h3
  rw [add_assoc] at h2
  simp only [e1, e2, e3, e4, Res.ok_bind]
  exact Ed_ctEq_same c hc h2 h4

/-- C38: commutativity, neutral element and inverses, for the library's operations. -/
theorem C38_comm_zero_neg (c : Cfg) (hc : c.Enough) {P Q : EdPoint} (hP : P.Valid) (hQ : Q.Valid) :
    (do
      let l ← Ed.add c P Q
      let r ← Ed.add c Q P
      Ed.ctEq c l r) = .ok true ∧
    (do
      let l ← Ed.add c P Ed.identity
      Ed.ctEq c l P) = .ok true ∧
    (do
      let n ← Ed.neg c P
      let l ← Ed.add c P n
      Ed.ctEq c l Ed.identity) = .ok true := by
  obtain ⟨A, hA⟩ := hP
  obtain ⟨B, hB⟩ := hQ
  obtain ⟨l, e1, h1⟩ := Ed.add_rep c hA hB
  obtain ⟨r, e2, h2⟩ := Ed.add_rep c hB hA
  obtain ⟨l', e3, h3⟩ := Ed.add_rep c hA Ed.identity_rep
  obtain ⟨n, e4, h4⟩ := Ed.neg_rep c hA
  obtain ⟨l'', e5, h5⟩ := Ed.add_rep c hA h4
  rw [add_comm] at h2
  rw [add_zero] at h3
  rw [add_neg_cancel] at h5
  simp only [e1, e2, e3, e4, e5, Res.ok_bind]
  exact ⟨Ed_ctEq_same c hc h1 h2, Ed_ctEq_same c hc h3 hA, Ed_ctEq_same c hc h5 Ed.identity_rep⟩

example : Ed.BASEPOINT.Valid ∧ Ed.identity.Valid ∧ dbg.Enough ∧ Bpt ≠ 0 :=
  ⟨base_valid, ⟨0, Ed.identity_rep⟩, by decide, Bpt_ne⟩

/-! ### C39 -/

/-- C39: doubling in extended coordinates. -/
theorem C39_extended (c : Cfg) {P : EdPoint} {A : E} (h : P.Rep A) :
    ∃ R, Ed.double c P = .ok R ∧ R.Rep (A + A) := Ed.double_rep c h

/-- C39: doubling in projective coordinates (a separate formula). -/
theorem C39_projective (c : Cfg) {P : ProjPoint} {A : E} (h : P.Rep A) :
    ∃ R, Proj.double c P = .ok R ∧ R.Rep (A + A) := Proj.double_rep c h

example : Ed.BASEPOINT.Rep Bpt ∧ (Proj.ofEd Ed.BASEPOINT).Rep Bpt :=
  ⟨BASEPOINT_rep, Proj.ofEd_rep BASEPOINT_rep⟩

/-! ### C40 -/

/-- C40: negation and subtraction in extended coordinates. -/
theorem C40_extended (c : Cfg) {P Q : EdPoint} {A B : E} (hP : P.Rep A) (hQ : Q.Rep B) :
    (∃ R, Ed.neg c P = .ok R ∧ R.Rep (-A)) ∧ (∃ R, Ed.sub c P Q = .ok R ∧ R.Rep (A - B)) :=
  ⟨Ed.neg_rep c hP, Ed.sub_rep c hP hQ⟩

/-- C40: negation and subtraction in projective coordinates. -/
theorem C40_projective (c : Cfg) {P Q : ProjPoint} {A B : E} (hP : P.Rep A) (hQ : Q.Rep B) :
    (∃ R, Proj.neg c P = .ok R ∧ R.Rep (-A)) ∧ (∃ R, Proj.sub c P Q = .ok R ∧ R.Rep (A - B)) :=
  ⟨Proj.neg_rep c hP, Proj.sub_rep c hP hQ⟩

/-- C40: negation of affine and subtraction of Ristretto points. -/
theorem C40_affine_ristretto (c : Cfg) {P : AffPoint} {A : E} (hP : P.Rep A) {Q R : EdPoint} {B C : E}
    (hQ : Q.Rep B) (hR : R.Rep C) :
    (∃ S, Aff.neg c P = .ok S ∧ S.Rep (-A)) ∧ (∃ S, Ristretto.neg c Q = .ok S ∧ S.Rep (-B)) ∧
    (∃ S, Ristretto.sub c Q R = .ok S ∧ S.Rep (B - C)) :=
  ⟨Aff.neg_rep c hP, Ed.neg_rep c hQ, Ristretto.sub_rep c hQ hR⟩

/-- `A - B` above is `A + (-B)`. -/
example (A B : E) : A - B = A + -B := sub_eq_add_neg A B

/-! ### C41 -/

/-- C41: projective addition. -/
theorem C41_projective_add (c : Cfg) {P Q : ProjPoint} {A B : E} (hP : P.Rep A) (hQ : Q.Rep B) :
    ∃ R, Proj.add c P Q = .ok R ∧ R.Rep (A + B) := Proj.add_rep c hP hQ

/-- C41: the identity of every point type represents the neutral element, and is valid. -/
theorem C41_identities (c : Cfg) :
    Ed.identity.Rep 0 ∧ Proj.identity.Rep 0 ∧ Aff.identity.Rep 0 ∧ Ristretto.identity.Rep 0 ∧
    Aff.isValid c Aff.identity = .ok true ∧ Ed.isValid c Ed.identity = .ok true := by
  refine ⟨Ed.identity_rep, Proj.identity_rep, ?_, Ed.identity_rep, ?_, ?_⟩
  · unfold Aff.identity
    rw [Field.zero_enc, Field.one_enc]
    exact AffPoint.rep_mk EdCurve.Pt.zero_x.symm EdCurve.Pt.zero_y.symm
  · simp only [Aff.identity, Field.zero_enc, Aff.isValid, Field.square_enc, Field.minusOne_enc, Field.mul_enc,
      Field.add_enc, Field.one_enc, EDWARDS_D_enc, Res.ok_bind, Res.pure_eq, Field.ctEq_enc, Res.ok_inj,
      decide_eq_true_eq]
    ring
  · simp only [Ed.isValid, Proj.ofEd, Ed.identity, Field.zero_enc, Proj.isValid, Field.square_enc, EDWARDS_A_enc,
      Field.mul_enc, Field.add_enc, Field.one_enc, EDWARDS_D_enc, Res.ok_bind, Res.pure_eq, Field.ctEq_enc,
      Res.ok_inj, decide_eq_true_eq]
    ring

/-- C41: conversions preserve the represented point. -/
theorem C41_conversions (c : Cfg) (hc : c.Enough) {P : EdPoint} {Q : ProjPoint} {S : AffPoint} {A : E}
    (hP : P.Rep A) (hQ : Q.Rep A) (hS : S.Rep A) :
    (Proj.ofEd P).Rep A ∧ (Proj.ofAff S).Rep A ∧
    (∃ R, Ed.ofProj c Q = .ok R ∧ R.Rep A) ∧ (∃ R, Ed.ofAff c S = .ok R ∧ R.Rep A) ∧
    (∃ R, Aff.ofEd c P = .ok R ∧ R.Rep A) ∧ (∃ R, Aff.ofProj c Q = .ok R ∧ R.Rep A) :=
  ⟨Proj.ofEd_rep hP, Proj.ofAff_rep hS, Ed.ofProj_rep c hQ, Ed.ofAff_rep c hS,
    ⟨_, Aff.ofEd_rep c hc hP, AffPoint.rep_mk rfl rfl⟩,
    ⟨_, Aff.ofProj_rep c hc hQ, AffPoint.rep_mk rfl rfl⟩⟩

/-- The represented point is unique. -/
theorem C41_unique {P : EdPoint} {A B : E} (h : P.Rep A) (g : P.Rep B) : A = B := h.unique g

example : ∃ (P : EdPoint) (Q : ProjPoint) (S : AffPoint), P.Rep Bpt ∧ Q.Rep Bpt ∧ S.Rep Bpt :=
  ⟨_, _, _, BASEPOINT_rep, Proj.ofEd_rep BASEPOINT_rep, AffPoint.rep_mk rfl rfl⟩

/-! ### C42 -/

/-- C42: equality of extended points. -/
theorem C42_extended (c : Cfg) (hc : c.Enough) {P Q : EdPoint} {A B : E} (hP : P.Rep A) (hQ : Q.Rep B) :
    ∃ b, Ed.ctEq c P Q = .ok b ∧ (b = true ↔ A = B) := Ed_ctEq_iff c hc hP hQ

/-- C42: equality of projective points. -/
theorem C42_projective (c : Cfg) (hc : c.Enough) {P Q : ProjPoint} {A B : E} (hP : P.Rep A)
    (hQ : Q.Rep B) : ∃ b, Proj.ctEq c P Q = .ok b ∧ (b = true ↔ A = B) :=
  ⟨_, Proj.ctEq_rep c hc hP hQ, xy_eq_iff⟩

/-- C42: equality of affine points. -/
theorem C42_affine {P Q : AffPoint} {A B : E} (hP : P.Rep A) (hQ : Q.Rep B) :
    Aff.ctEq P Q = true ↔ A = B := by
  rw [hP.form, hQ.form, Aff.ctEq, Field.ctEq_enc, Field.ctEq_enc]
  exact xy_eq_iff

/-- Different points and different representatives of one point exist. -/
example : Ed.BASEPOINT.Rep Bpt ∧ Ed.identity.Rep 0 ∧ Bpt ≠ 0 ∧
    ∃ R, Ed.add dbg Ed.BASEPOINT Ed.identity = .ok R ∧ R.Rep Bpt := by
  refine ⟨BASEPOINT_rep, Ed.identity_rep, Bpt_ne, ?_⟩
  have := Ed.add_rep dbg BASEPOINT_rep Ed.identity_rep
  rwa [add_zero] at this

/-! ### C43 -/

/-- The curve equation. -/
def OnCurve (x y : Fp) : Prop := -x ^ 2 + y ^ 2 = 1 + dZ * x ^ 2 * y ^ 2

theorem Aff_isValid_enc (c : Cfg) (x y : Fp) : Aff.isValid c ⟨enc x, enc y⟩ =
    .ok (decide (-1 * (x * x) + y * y = 1 + dZ * (x * x) * (y * y))) := by
  simp only [Aff.isValid, Field.square_enc, Field.minusOne_enc, Field.mul_enc, Field.add_enc,
    Field.one_enc, EDWARDS_D_enc, Res.ok_bind, Res.pure_eq, Field.ctEq_enc]

/-- C43: the validity check of affine points decides the curve equation. -/
theorem C43_affine_valid (c : Cfg) (P : AffPoint) (hX : P.X.Canon) (hY : P.Y.Canon) :
    ∃ b, Aff.isValid c P = .ok b ∧ (b = true ↔ OnCurve P.X.val P.Y.val) := by
  obtain ⟨X, Y⟩ := P
  dsimp only at hX hY
  refine ⟨_, by rw [hX.eq_enc (x := (X.val : Fp)) rfl, hY.eq_enc (x := (Y.val : Fp)) rfl]
                exact Aff_isValid_enc c _ _, ?_⟩
  rw [decide_eq_true_eq]
  unfold OnCurve
  constructor <;> intro h <;> linear_combination h

/-- Both outcomes occur. -/
example : Aff.isValid dbg ⟨Ed.BASEPOINT.X, Ed.BASEPOINT.Y⟩ = .ok true ∧
    Aff.isValid dbg ⟨Field.one, Field.one⟩ = .ok false := by decide +kernel

/-! ### C44 -/

theorem Proj_isValid_enc (c : Cfg) (x y z : Fp) : Proj.isValid c ⟨enc x, enc y, enc z⟩ =
    .ok (decide ((-1 * (x * x) + y * y) * (z * z) = z * z * (z * z) + dZ * (x * x) * (y * y))) := by
  simp only [Proj.isValid, Field.square_enc, EDWARDS_A_enc, Field.mul_enc, Field.add_enc,
    EDWARDS_D_enc, Res.ok_bind, Res.pure_eq, Field.ctEq_enc]

/-- C44: with nonzero `Z`, the validity check decides whether `(X/Z, Y/Z)` is on the curve. -/
theorem C44_projective_valid (c : Cfg) (P : ProjPoint) (hX : P.X.Canon) (hY : P.Y.Canon) (hZ : P.Z.Canon)
    (h0 : P.Z.val ≠ 0) :
    ∃ b, Proj.isValid c P = .ok b ∧
      (b = true ↔ OnCurve ((P.X.val : Fp) / P.Z.val) ((P.Y.val : Fp) / P.Z.val)) := by
  obtain ⟨X, Y, Z⟩ := P
  dsimp only at hX hY hZ h0 ⊢
  have hz : (Z.val : Fp) ≠ 0 := by
    rw [Ne, ZMod.natCast_eq_zero_iff]
    exact Nat.not_dvd_of_pos_of_lt (Nat.pos_of_ne_zero h0) hZ.2
  refine ⟨_, by rw [hX.eq_enc (x := (X.val : Fp)) rfl, hY.eq_enc (x := (Y.val : Fp)) rfl,
                  hZ.eq_enc (x := (Z.val : Fp)) rfl]
                exact Proj_isValid_enc c _ _ _, ?_⟩
  rw [decide_eq_true_eq]
  unfold OnCurve
  generalize dZ = d at *
  field_simp

/-- C44: for extended points the check is the same; `T` plays no role. -/
theorem C44_extended_ignores_T (c : Cfg) (P : EdPoint) (t : FE) :
    Ed.isValid c P = Proj.isValid c ⟨P.X, P.Y, P.Z⟩ ∧ Ed.isValid c { P with T := t } = Ed.isValid c P :=
  ⟨rfl, rfl⟩

/-- C44: so tuples that represent no curve point are accepted: wrong `T`, and the all-zero tuple. -/
theorem C44_accepts_invalid (c : Cfg) :
    (∃ P : EdPoint, Ed.isValid c P = .ok true ∧ P.Z.val ≠ 0 ∧ ¬ P.Valid) ∧
    (Ed.isValid c ⟨Field.zero, Field.zero, Field.zero, Field.zero⟩ = .ok true ∧
      ¬ (⟨Field.zero, Field.zero, Field.zero, Field.zero⟩ : EdPoint).Valid) := by
  refine ⟨⟨⟨Field.zero, Field.one, Field.one, Field.one⟩, ?_, by decide, ?_⟩, ?_, ?_⟩
  · show Proj.isValid c ⟨Field.zero, Field.one, Field.one⟩ = _
    rw [Field.zero_enc, Field.one_enc, Proj_isValid_enc, decide_eq_true (by ring)]
  · intro h
    have := ((C37_valid_iff _).1 h).2.2.1
    have h1 : Field.one.val = 1 := by decide
    have h2 : Field.zero.val = 0 := by decide
    simp only [h1, h2, Nat.cast_one, Nat.cast_zero, mul_one] at this
    exact one_ne_zero this
  · show Proj.isValid c ⟨Field.zero, Field.zero, Field.zero⟩ = _
    rw [Field.zero_enc, Proj_isValid_enc, decide_eq_true (by ring)]
  · intro h
    exact ((C37_valid_iff _).1 h).2.1 (by decide)

/-- C44: comparing the all-zero tuple with anything panics. -/
theorem C44_zero_eq_panics (c : Cfg) (Q : EdPoint) :
    Ed.ctEq c ⟨Field.zero, Field.zero, Field.zero, Field.zero⟩ Q = .panic := by
  simp only [Ed.ctEq, Aff.ofEd, Field.zero_enc, Field.inverse_zero, Res.panic_bind]

example : (Proj.ofEd Ed.BASEPOINT).Z.val ≠ 0 ∧ Proj.isValid dbg (Proj.ofEd Ed.BASEPOINT) = .ok true ∧
    Proj.isValid dbg ⟨Field.one, Field.one, Field.one⟩ = .ok false := by decide +kernel

/-! ### C45 -/

/-- C45: scalar multiplication of extended points. -/
theorem C45_extended (c : Cfg) (hc : c.Enough) {P : EdPoint} {A : E} (hP : P.Rep A) (n : Sc) (wn : n.WF)
    (hn : n.val < 2 ^ 256) : ∃ S, Ed.mul c P n = .ok S ∧ S.Rep (n.val • A) :=
  doubleAndAdd_rep Ed.opsSpec c hc hP n wn hn

/-- C45: scalar multiplication of projective points. -/
theorem C45_projective (c : Cfg) (hc : c.Enough) {P : ProjPoint} {A : E} (hP : P.Rep A) (n : Sc)
    (wn : n.WF) (hn : n.val < 2 ^ 256) : ∃ S, Proj.mul c P n = .ok S ∧ S.Rep (n.val • A) :=
  doubleAndAdd_rep Proj.opsSpec c hc hP n wn hn

/-- C45: scalar multiplication of Ristretto points. -/
theorem C45_ristretto (c : Cfg) (hc : c.Enough) {P : EdPoint} {A : E} (hP : P.Rep A) (n : Sc)
    (wn : n.WF) (hn : n.val < 2 ^ 256) : ∃ S, Ristretto.mul c P n = .ok S ∧ S.Rep (n.val • A) :=
  doubleAndAdd_rep Ristretto.opsSpec c hc hP n wn hn

/-- C45: bits of a raw scalar above `2^256` are not all seen: the loop ends at once on `2^256`. -/
theorem C45_top_bits (c : Cfg) (hc : c.Enough) (P : EdPoint) :
    (⟨0, 0, 0, 0, 2 ^ 48⟩ : Sc).WF ∧ (⟨0, 0, 0, 0, 2 ^ 48⟩ : Sc).val = 2 ^ 256 ∧
    Ed.mul c P ⟨0, 0, 0, 0, 2 ^ 48⟩ = .ok Ed.identity ∧ 2 ^ 256 • Bpt ≠ 0 := by
  refine ⟨by decide, by decide, ?_, ?_⟩
  · obtain ⟨f, hf⟩ : ∃ f, c.fuel = f + 1 := ⟨c.fuel - 1, by unfold Cfg.Enough at hc; omega⟩
    have h : Scalar.ctEq ⟨0, 0, 0, 0, 2 ^ 48⟩ Scalar.zero = true := by decide +kernel
    unfold Ed.mul doubleAndAdd
    rw [hf, doubleAndAddLoop, h]
    rfl
  · rw [Ne, ← addOrderOf_dvd_iff_nsmul_eq_zero, Bpt_order]
    decide

example : dbg.Enough ∧ Ed.BASEPOINT.Rep Bpt ∧ Scalar.minusOne.WF ∧ Scalar.minusOne.val = ell - 1 :=
  ⟨by decide, BASEPOINT_rep, by decide, by decide⟩

/-! ### C46 -/

theorem mod_ell (n : Nat) : (n % ell) • Bpt = n • Bpt := by
  rw [← Bpt_order]; exact mod_addOrderOf_nsmul Bpt n

/-- C46: scalar addition corresponds to point addition. -/
theorem C46_add (c : Cfg) (hc : c.Enough) (a b : Sc) (ha : a.SCanon) (hb : b.SCanon) :
    (do
      let s ← Scalar.add c a b
      let l ← Ed.mul c Ed.BASEPOINT s
      let x ← Ed.mul c Ed.BASEPOINT a
      let y ← Ed.mul c Ed.BASEPOINT b
      let r ← Ed.add c x y
      Ed.ctEq c l r) = .ok true := by
  obtain ⟨s, es, cs, vs⟩ := Scalar.add_spec c a b ha hb
  obtain ⟨l, el, hl⟩ := C45_extended c hc BASEPOINT_rep s cs.1 (Scalar.scanon_lt256 cs)
  obtain ⟨x, ex, hx⟩ := C45_extended c hc BASEPOINT_rep a ha.1 (Scalar.scanon_lt256 ha)
  obtain ⟨y, ey, hy⟩ := C45_extended c hc BASEPOINT_rep b hb.1 (Scalar.scanon_lt256 hb)
  obtain ⟨r, er, hr⟩ := Ed.add_rep c hx hy
  simp only [es, el, ex, ey, er, Res.ok_bind]
  rw [vs, mod_ell, add_nsmul] at hl
  exact Ed_ctEq_same c hc hl hr

/-- C46: scalar multiplication corresponds to iterated multiplication. -/
theorem C46_mul (c : Cfg) (hc : c.Enough) (a b : Sc) (ha : a.SCanon) (hb : b.SCanon) :
    (do
      let s ← Scalar.mul c a b
      let l ← Ed.mul c Ed.BASEPOINT s
      let y ← Ed.mul c Ed.BASEPOINT b
      let r ← Ed.mul c y a
      Ed.ctEq c l r) = .ok true := by
  obtain ⟨s, es, cs, vs⟩ := Scalar.mul_spec c a b ha.1 hb.1
  obtain ⟨l, el, hl⟩ := C45_extended c hc BASEPOINT_rep s cs.1 (Scalar.scanon_lt256 cs)
  obtain ⟨y, ey, hy⟩ := C45_extended c hc BASEPOINT_rep b hb.1 (Scalar.scanon_lt256 hb)
  obtain ⟨r, er, hr⟩ := C45_extended c hc hy a ha.1 (Scalar.scanon_lt256 ha)
  simp only [es, el, ey, er, Res.ok_bind]
  rw [vs, mod_ell, mul_nsmul'] at hl
  exact Ed_ctEq_same c hc hl hr

/-- C46: scalar negation and subtraction correspond to point negation and subtraction. -/
theorem C46_neg_sub (c : Cfg) (hc : c.Enough) (a b : Sc) (ha : a.SCanon) (hb : b.SCanon) :
    (do
      let s ← Scalar.neg c a
      let l ← Ed.mul c Ed.BASEPOINT s
      let x ← Ed.mul c Ed.BASEPOINT a
      let r ← Ed.neg c x
      Ed.ctEq c l r) = .ok true ∧
    (do
      let s ← Scalar.sub c a b
      let l ← Ed.mul c Ed.BASEPOINT s
      let x ← Ed.mul c Ed.BASEPOINT a
      let y ← Ed.mul c Ed.BASEPOINT b
      let r ← Ed.sub c x y
      Ed.ctEq c l r) = .ok true := by
  obtain ⟨s, es, cs, vs⟩ := Scalar.neg_spec c a ha
  obtain ⟨l, el, hl⟩ := C45_extended c hc BASEPOINT_rep s cs.1 (Scalar.scanon_lt256 cs)
  obtain ⟨x, ex, hx⟩ := C45_extended c hc BASEPOINT_rep a ha.1 (Scalar.scanon_lt256 ha)
  obtain ⟨r, er, hr⟩ := Ed.neg_rep c hx
  obtain ⟨s', es', cs', vs'⟩ := Scalar.sub_spec c a b ha hb
  obtain ⟨l', el', hl'⟩ := C45_extended c hc BASEPOINT_rep s' cs'.1 (Scalar.scanon_lt256 cs')
  obtain ⟨y, ey, hy⟩ := C45_extended c hc BASEPOINT_rep b hb.1 (Scalar.scanon_lt256 hb)
  obtain ⟨r', er', hr'⟩ := Ed.sub_rep c hx hy
  have ha' := ha.2
  have hb' := hb.2
  simp only [es, el, ex, er, es', el', ey, er', Res.ok_bind]
  have e1 : (ell - a.val) • Bpt = -(a.val • Bpt) := by
    rw [eq_neg_iff_add_eq_zero, ← add_nsmul, Nat.sub_add_cancel ha'.le, ell_Bpt]
  have e2 : (a.val + ell - b.val) • Bpt = a.val • Bpt - b.val • Bpt := by
    rw [eq_sub_iff_add_eq, ← add_nsmul, Nat.sub_add_cancel (by omega), add_nsmul, ell_Bpt, add_zero]
  rw [vs, mod_ell, e1] at hl
  rw [vs', mod_ell, e2] at hl'
  exact ⟨Ed_ctEq_same c hc hl hr, Ed_ctEq_same c hc hl' hr'⟩

/-- C46: different canonical scalars give different multiples of the base point. -/
theorem C46_injective (c : Cfg) (hc : c.Enough) (a b : Sc) (ha : a.SCanon) (hb : b.SCanon) :
    (do
      let x ← Ed.mul c Ed.BASEPOINT a
      let y ← Ed.mul c Ed.BASEPOINT b
      Ed.ctEq c x y) = .ok (decide (a = b)) := by
  obtain ⟨x, ex, hx⟩ := C45_extended c hc BASEPOINT_rep a ha.1 (Scalar.scanon_lt256 ha)
  obtain ⟨y, ey, hy⟩ := C45_extended c hc BASEPOINT_rep b hb.1 (Scalar.scanon_lt256 hb)
  obtain ⟨t, et, ht⟩ := Ed_ctEq_iff c hc hx hy
  simp only [ex, ey, et, Res.ok_bind, Res.ok_inj]
  rw [Bool.eq_iff_iff, ht, decide_eq_true_eq]
  constructor
  · intro h
    have h1 : a.val = b.val := by
      have := nsmul_injOn_Iio_addOrderOf (x := Bpt)
      rw [Bpt_order] at this
      exact this ha.2 hb.2 h
    exact ha.1.ext hb.1 h1
  · rintro rfl; rfl

example : dbg.Enough ∧ Scalar.minusOne.SCanon ∧ (⟨5, 0, 0, 0, 0⟩ : Sc).SCanon ∧
    Scalar.add dbg Scalar.minusOne ⟨5, 0, 0, 0, 0⟩ = .ok ⟨4, 0, 0, 0, 0⟩ := by decide

/-! ### C47 -/

/-- C47: the published base point is the curve point with `y = 3/5` of prime order `L`. -/
theorem C47_basepoint : Nat.Prime ell ∧ ∃ B : E, Ed.BASEPOINT.Rep B ∧ B.y = 3 / 5 ∧ ell • B = 0 ∧
    ∀ k : Nat, 0 < k → k < ell → k • B ≠ 0 := by
  refine ⟨ell_prime, Bpt, BASEPOINT_rep, Bpt_y, ell_Bpt, fun k h1 h2 h => ?_⟩
  have := addOrderOf_dvd_of_nsmul_eq_zero h
  rw [Bpt_order] at this
  exact absurd (Nat.le_of_dvd h1 this) (by omega)

/-! ### C48 -/

/-- C48: left-to-right binary multiplication processes the low 249 bits. -/
theorem C48_extended (c : Cfg) {P : EdPoint} {A : E} (hP : P.Rep A) (n : Sc) (hn : n.SCanon) :
    ∃ S, ltrBinMul Ed.ops c P n = .ok S ∧ (n.val < 2 ^ 249 → S.Rep (n.val • A)) ∧
      (2 ^ 249 ≤ n.val → S.Rep ((n.val - 2 ^ 249) • A)) := by
  obtain ⟨S, eS, hS⟩ := ltrBinMul_rep Ed.opsSpec c hP n hn.1 (Scalar.scanon_lt256 hn)
  refine ⟨S, eS, fun h => ?_, fun h => ?_⟩
  · rwa [Nat.mod_eq_of_lt h] at hS
  · have h2 := hn.2
    have h3 : ell < 2 ^ 249 + 2 ^ 249 := by decide
    rwa [Nat.mod_eq_sub_mod h, Nat.mod_eq_of_lt (by omega)] at hS

/-- C48: the same for projective and Ristretto points. -/
theorem C48_projective_ristretto (c : Cfg) {P : ProjPoint} {Q : EdPoint} {A B : E} (hP : P.Rep A)
    (hQ : Q.Rep B) (n : Sc) (hn : n.SCanon) :
    (∃ S, ltrBinMul Proj.ops c P n = .ok S ∧ S.Rep ((n.val % 2 ^ 249) • A)) ∧
    (∃ S, ltrBinMul Ristretto.ops c Q n = .ok S ∧ S.Rep ((n.val % 2 ^ 249) • B)) :=
  ⟨ltrBinMul_rep Proj.opsSpec c hP n hn.1 (Scalar.scanon_lt256 hn),
    ltrBinMul_rep Ristretto.opsSpec c hQ n hn.1 (Scalar.scanon_lt256 hn)⟩

/-- C48: for canonical scalars from `2^249` on the result differs from `n B` on the base point. -/
theorem C48_wrong (c : Cfg) (hc : c.Enough) (n : Sc) (hn : n.SCanon) (h : 2 ^ 249 ≤ n.val) :
    (do
      let x ← ltrBinMul Ed.ops c Ed.BASEPOINT n
      let y ← Ed.mul c Ed.BASEPOINT n
      Ed.ctEq c x y) = .ok false := by
  obtain ⟨x, ex, _, hx⟩ := C48_extended c BASEPOINT_rep n hn
  obtain ⟨y, ey, hy⟩ := C45_extended c hc BASEPOINT_rep n hn.1 (Scalar.scanon_lt256 hn)
  obtain ⟨t, et, ht⟩ := Ed_ctEq_iff c hc (hx h) hy
  simp only [ex, ey, et, Res.ok_bind, Res.ok_inj]
  rw [← Bool.not_eq_true, ht]
  intro he
  have := nsmul_injOn_Iio_addOrderOf (x := Bpt)
  rw [Bpt_order] at this
  have h2 := hn.2
  have h3 := this (show n.val - 2 ^ 249 < ell by omega) h2 he
  omega

example : Scalar.minusOne.SCanon ∧ 2 ^ 249 ≤ Scalar.minusOne.val ∧ (⟨5, 0, 0, 0, 0⟩ : Sc).SCanon := by decide

/-! ### C49 -/

/-- C49: multiplication through the non-adjacent form. -/
theorem C49_naf (c : Cfg) (hc : c.Enough) {P : EdPoint} {Q : ProjPoint} {A B : E} (hP : P.Rep A)
    (hQ : Q.Rep B) (n : Sc) (hn : n.SCanon) :
    (∃ S, binaryNafMul Ed.ops c P n = .ok S ∧ S.Rep (n.val • A)) ∧
    (∃ S, binaryNafMul Proj.ops c Q n = .ok S ∧ S.Rep (n.val • B)) ∧
    (∃ S, binaryNafMul Ristretto.ops c P n = .ok S ∧ S.Rep (n.val • A)) :=
  ⟨binaryNafMul_rep Ed.opsSpec c hc hP n hn, binaryNafMul_rep Proj.opsSpec c hc hQ n hn,
    binaryNafMul_rep Ristretto.opsSpec c hc hP n hn⟩

example : dbg.Enough ∧ Ed.BASEPOINT.Rep Bpt ∧ (Proj.ofEd Ed.BASEPOINT).Rep Bpt ∧ Scalar.minusOne.SCanon :=
  ⟨by decide, BASEPOINT_rep, Proj.ofEd_rep BASEPOINT_rep, by decide⟩

/-! ### C50 -/

/-- C50: with width 2 the windowed multiplication returns `n B`. -/
theorem C50_width_two (c : Cfg) (hc : c.Enough) (n : Sc) (hn : n.SCanon) :
    ∃ S, Ristretto.windowNafMul c n 2 = .ok S ∧ S.Rep (n.val • Bpt) := by
  obtain ⟨v, ev, hv⟩ := Scalar.computeNAF_spec c hc n hn
  have ev' : Scalar.computeWindowNAF c n 2 = .ok v := by
    unfold Scalar.computeWindowNAF
    rw [← Scalar.nafLoop_eq]; exact ev
  have hd : ∀ j, Scalar.dig v j = -1 ∨ Scalar.dig v j = 0 ∨ Scalar.dig v j = 1 := by
    intro j
    have := hv.digits j (by omega)
    norm_num at this
    omega
  obtain ⟨S, eS, hS⟩ := Ristretto.windowNafMul_rep c n 2 v ev' (by
    intro j hj
    have e : Scalar.dig v j = v[j] := by unfold Scalar.dig; rw [dif_pos hj]
    have := hd j
    rw [e] at this
    rcases this with h | h | h <;> rw [h] <;> decide)
  refine ⟨S, eS, ?_⟩
  have hs := hv.sum
  simp only [Nat.zero_add] at hs
  have : ∑ j ∈ Finset.range 250, tableCoeff (Scalar.dig v j) * 2 ^ j = (n.val : Int) := by
    rw [← hs]
    apply Finset.sum_congr rfl
    intro j _
    rcases hd j with h | h | h <;> rw [h] <;> rfl
  rw [this, natCast_zsmul] at hS
  exact hS

theorem three_sum : ∑ j ∈ Finset.range 250,
    tableCoeff (Scalar.dig ((Vector.replicate 256 0).set 0 3) j) * 2 ^ j = 5 := by decide +kernel

theorem three_bound : ∀ j (hj : j < 256), |((Vector.replicate 256 (0 : Int)).set 0 3)[j]| ≤ 125 := by
  decide +kernel

/-- C50: with width 3 and the scalar 3 it returns `5 B`, which is not `3 B`. -/
theorem C50_width_three_wrong (c : Cfg) (hc : c.Enough) :
    (∃ S, Ristretto.windowNafMul c ⟨3, 0, 0, 0, 0⟩ 3 = .ok S ∧ S.Rep (5 • Bpt)) ∧ 5 • Bpt ≠ 3 • Bpt := by
  constructor
  · have hf : ∃ f, c.fuel = f + 1 + 1 := ⟨c.fuel - 2, by unfold Cfg.Enough at hc; omega⟩
    obtain ⟨f, hf⟩ := hf
    have o3 : Scalar.isEven ⟨3, 0, 0, 0, 0⟩ = false := by decide
    have g3 : Scalar.ge ⟨3, 0, 0, 0, 0⟩ Scalar.one = true := by decide
    have d3 : Scalar.smod (⟨3, 0, 0, 0, 0⟩ : Sc).val 3 = 3 := by decide
    obtain ⟨s3, es3, cs3, vs3⟩ := Scalar.fromI8_spec c 3 (by omega) (by omega)
    have vs3' : s3.val = 3 := by
      have : (3 : ℤ) % ell = 3 := by decide
      rw [this] at vs3; omega
    obtain ⟨r3, er3, cr3, vr3⟩ := Scalar.sub_spec c ⟨3, 0, 0, 0, 0⟩ s3 (by decide) cs3
    have vr3' : r3.val = 0 := by rw [vr3, vs3']; decide
    have h3 : Scalar.halfWithoutMod r3 = ⟨0, 0, 0, 0, 0⟩ := by
      obtain ⟨wh, vh⟩ := halfWithoutMod_spec r3 cr3.1
      exact wh.ext (by decide) (by rw [vh, vr3']; rfl)
    have g4 : Scalar.ge ⟨0, 0, 0, 0, 0⟩ Scalar.one = false := by decide
    have e : Scalar.computeWindowNAF c ⟨3, 0, 0, 0, 0⟩ 3 = .ok ((Vector.replicate 256 0).set 0 3) := by
      unfold Scalar.computeWindowNAF
      rw [hf, Scalar.wnafLoop, g3, o3, Scalar.mods2PowK_spec c _ 3 (by omega) (by omega), d3]
      simp only [if_true, Bool.not_false, Res.ok_bind, es3, er3, h3,
        Scalar.setDigit_ok _ 0 _ (show 0 < 256 by omega)]
      rw [Scalar.wnafLoop, g4]
      rfl
    obtain ⟨S, eS, hS⟩ := Ristretto.windowNafMul_rep c _ 3 _ e three_bound
    refine ⟨S, eS, ?_⟩
    rw [three_sum] at hS
    exact_mod_cast hS
  · intro h
    have := nsmul_injOn_Iio_addOrderOf (x := Bpt)
    rw [Bpt_order] at this
    exact absurd (this (show 5 < ell by decide) (show 3 < ell by decide) h) (by decide)

/-- C50: for widths 2 to 5, a digit `k` contributes `2k - 1` (`2k + 1` if negative) instead of `k`. -/
theorem C50_all_widths (c : Cfg) (hc : c.Enough) (w : Nat) (h1 : 2 ≤ w) (h2 : w ≤ 5) (n : Sc)
    (hn : n.SCanon) :
    ∃ v S, Scalar.computeWindowNAF c n w = .ok v ∧ digitSum v = n.val ∧
      Ristretto.windowNafMul c n w = .ok S ∧
      S.Rep ((∑ j ∈ Finset.range 250, tableCoeff (Scalar.dig v j) * 2 ^ j) • Bpt) := by
  obtain ⟨v, ev, hv⟩ := Scalar.computeWindowNAF_spec c hc w h1 h2 n hn
  have hb : (2 : Int) ^ (w - 1) ≤ 16 := by interval_cases w <;> decide
  obtain ⟨S, eS, hS⟩ := Ristretto.windowNafMul_rep c n w v ev (by
    intro j hj
    have e : Scalar.dig v j = v[j] := by unfold Scalar.dig; rw [dif_pos hj]
    have := hv.digits j (by omega)
    rw [e] at this
    generalize v[j] = x at *
    rw [abs_le]
    omega)
  exact ⟨v, S, ev, (expands_naf (by omega) hv).2.1, eS, hS⟩

/-! ### C51 -/

/-- C51: multiplication by the cofactor 8. -/
theorem C51_cofactor (c : Cfg) (hc : c.Enough) {P : EdPoint} {Q : ProjPoint} {A B : E} (hP : P.Rep A)
    (hQ : Q.Rep B) :
    (∃ S, mulByCofactor Ed.ops c P = .ok S ∧ S.Rep (8 • A)) ∧
    (∃ S, mulByCofactor Proj.ops c Q = .ok S ∧ S.Rep (8 • B)) ∧
    (∃ S, mulByCofactor Ristretto.ops c P = .ok S ∧ S.Rep (8 • A)) :=
  ⟨mulByCofactor_rep Ed.opsSpec c hc hP, mulByCofactor_rep Proj.opsSpec c hc hQ,
    mulByCofactor_rep Ristretto.opsSpec c hc hP⟩

/-- C51: multiplication by a power of two. -/
theorem C51_pow_two (c : Cfg) (hc : c.Enough) {P : EdPoint} {Q : ProjPoint} {A B : E} (hP : P.Rep A)
    (hQ : Q.Rep B) (k : Nat) (hk : k ≤ 249) :
    (∃ S, mulByPow2 Ed.ops c P k = .ok S ∧ S.Rep (2 ^ k • A)) ∧
    (∃ S, mulByPow2 Proj.ops c Q k = .ok S ∧ S.Rep (2 ^ k • B)) ∧
    (∃ S, mulByPow2 Ristretto.ops c P k = .ok S ∧ S.Rep (2 ^ k • A)) :=
  ⟨mulByPow2_rep Ed.opsSpec c hc hP k hk, mulByPow2_rep Proj.opsSpec c hc hQ k hk,
    mulByPow2_rep Ristretto.opsSpec c hc hP k hk⟩

/-- C51: larger exponents panic. -/
theorem C51_pow_two_panics (c : Cfg) (P : EdPoint) (Q : ProjPoint) (k : Nat) (hk : 250 ≤ k) :
    mulByPow2 Ed.ops c P k = .panic ∧ mulByPow2 Proj.ops c Q k = .panic ∧
    mulByPow2 Ristretto.ops c P k = .panic := by
  unfold mulByPow2
  rw [Scalar.twoPowK_panic k hk]
  exact ⟨rfl, rfl, rfl⟩

example : dbg.Enough ∧ Ed.BASEPOINT.Rep Bpt ∧ (Proj.ofEd Ed.BASEPOINT).Rep Bpt :=
  ⟨by decide, BASEPOINT_rep, Proj.ofEd_rep BASEPOINT_rep⟩

/-! ### C56 -/

/-- C56: the curve has exactly `8 L` points and its group is cyclic. -/
theorem C56_curve_order : Nat.card E = 8 * ell ∧ IsAddCyclic E := ⟨card_E, cyclic_E⟩

/-! ### C70 -/

/-- C70: the table of odd multiples. -/
theorem C70_table : Ristretto.ODD_MULTIPLES.length = 126 ∧
    Ristretto.ODD_MULTIPLES[0]? = some Ed.identity ∧
    ∀ i : Nat, 1 ≤ i → i ≤ 125 →
      ∃ P, Ristretto.ODD_MULTIPLES[i]? = some P ∧ P.Rep ((2 * i - 1) • Bpt) := by
  refine ⟨table_length, by decide, fun i h1 h2 => ?_⟩
  obtain ⟨P, eP, hP⟩ := table_rep (i - 1) (by omega)
  rw [show i - 1 + 1 = i by omega] at eP
  rw [show 2 * (i - 1) + 1 = 2 * i - 1 by omega] at hP
  exact ⟨P, eP, hP⟩

end Props
end Zerocaf
