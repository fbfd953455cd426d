import Verif.Props.NonCanon
import Verif.Props.Edwards
import Verif.Props.Ristretto
import Verif.Props.NafUnique

/-!
# Points with coordinates that are not reduced (C104)

The coordinates of the point types are public and `FieldElement::from_bytes` accepts every byte string, so
points whose coordinates are `p` or more can be built.
-/

set_option exponentiation.threshold 600

namespace Zerocaf
namespace Props

open Zerocaf.Field

/-! ### C104 -/

/-- Two field elements that `from_bytes` can return and that are equal modulo `p`. -/
def SameMod (a b : FE) : Prop := Decoded a ∧ Decoded b ∧ a.val % p = b.val % p

instance (a b : FE) : Decidable (SameMod a b) := inferInstanceAs (Decidable (_ ∧ _ ∧ _))

/-- Extended points whose coordinates are pairwise equal modulo `p`. -/
def EdSame (P Q : EdPoint) : Prop :=
  SameMod P.X Q.X ∧ SameMod P.Y Q.Y ∧ SameMod P.Z Q.Z ∧ SameMod P.T Q.T

instance (P Q : EdPoint) : Decidable (EdSame P Q) := inferInstanceAs (Decidable (_ ∧ _ ∧ _ ∧ _))

/-- Projective points whose coordinates are pairwise equal modulo `p`. -/
def ProjSame (P Q : ProjPoint) : Prop := SameMod P.X Q.X ∧ SameMod P.Y Q.Y ∧ SameMod P.Z Q.Z

instance (P Q : ProjPoint) : Decidable (ProjSame P Q) := inferInstanceAs (Decidable (_ ∧ _ ∧ _))

namespace SameMod

theorem toZ {a b : FE} (h : SameMod a b) : a.toZ = b.toZ := by
  unfold L5.toZ
  exact (ZMod.natCast_eq_natCast_iff' _ _ p).2 h.2.2

theorem w1 {a b : FE} (h : SameMod a b) : a.WF := h.1.1
theorem w2 {a b : FE} (h : SameMod a b) : b.WF := h.2.1.1

theorem enc {a : FE} (h : Decoded a) : SameMod a (Zerocaf.enc a.toZ) := by
  refine ⟨h, ⟨enc_WF _, ?_⟩, ?_⟩
  · rw [enc_val]; exact lt_trans (ZMod.val_lt _) (by decide)
  · rw [enc_val, toZ_val, Nat.mod_mod]

end SameMod

/-- The sum of two decoded elements, as a factor. -/
theorem sum_decoded (c : Cfg) {a b : FE} (ha : Decoded a) (hb : Decoded b) :
    ∃ r, Field.add c a b = .ok r ∧ r.WF ∧ r.toZ = a.toZ + b.toZ := by
  obtain ⟨r, e, w, h, _⟩ := C82_add c a b ha hb
  refine ⟨r, e, w, ?_⟩
  unfold L5.toZ
  rw [← Nat.cast_add]
  exact (ZMod.natCast_eq_natCast_iff' _ _ p).2 h

theorem Ed_add_decoded (c : Cfg) (P Q : EdPoint) (hX : Decoded P.X) (hY : Decoded P.Y) (hZ : Decoded P.Z)
    (hT : Decoded P.T) (hX' : Decoded Q.X) (hY' : Decoded Q.Y) (hZ' : Decoded Q.Z) (hT' : Decoded Q.T) :
    Ed.add c P Q = Ed.add c ⟨enc P.X.toZ, enc P.Y.toZ, enc P.Z.toZ, enc P.T.toZ⟩
      ⟨enc Q.X.toZ, enc Q.Y.toZ, enc Q.Z.toZ, enc Q.T.toZ⟩ := by
  obtain ⟨s1, e1, w1, z1⟩ := sum_decoded c hX hY
  obtain ⟨s2, e2, w2, z2⟩ := sum_decoded c hX' hY'
  rw [Ed.add_enc]
  unfold Ed.add
  rw [mul_wf c _ _ hX.1 hX'.1, mul_wf c _ _ hY.1 hY'.1, mul_wf c _ _ hZ.1 hZ'.1, e1, e2, EDWARDS_D_enc,
    mul_wf c _ _ (enc_WF _) hT.1]
  simp only [Res.ok_bind]
  rw [mul_wf c _ _ (enc_WF _) hT'.1]
  simp only [Res.ok_bind]
  rw [mul_wf c _ _ w1 w2, z1, z2]
  simp only [Field.mul_enc, Field.add_enc, Field.sub_enc, Res.ok_bind, Res.pure_eq, enc_toZ]

theorem Proj_add_decoded (c : Cfg) (P Q : ProjPoint) (hX : Decoded P.X) (hY : Decoded P.Y) (hZ : Decoded P.Z)
    (hX' : Decoded Q.X) (hY' : Decoded Q.Y) (hZ' : Decoded Q.Z) :
    Proj.add c P Q = Proj.add c ⟨enc P.X.toZ, enc P.Y.toZ, enc P.Z.toZ⟩
      ⟨enc Q.X.toZ, enc Q.Y.toZ, enc Q.Z.toZ⟩ := by
  obtain ⟨s1, e1, w1, z1⟩ := sum_decoded c hX hY
  obtain ⟨s2, e2, w2, z2⟩ := sum_decoded c hX' hY'
  rw [Proj.add_enc]
  unfold Proj.add
  rw [mul_wf c _ _ hX.1 hX'.1, mul_wf c _ _ hY.1 hY'.1, mul_wf c _ _ hZ.1 hZ'.1, e1, e2, EDWARDS_D_enc]
  simp only [Res.ok_bind]
  rw [mul_wf c _ _ w1 w2, z1, z2]
  simp only [Field.mul_enc, Field.square_enc, Field.add_enc, Field.sub_enc, Res.ok_bind, Res.pure_eq]

theorem Proj_double_decoded (c : Cfg) (P : ProjPoint) (hX : Decoded P.X) (hY : Decoded P.Y)
    (hZ : Decoded P.Z) :
    Proj.double c P = Proj.double c ⟨enc P.X.toZ, enc P.Y.toZ, enc P.Z.toZ⟩ := by
  obtain ⟨s1, e1, w1, z1⟩ := sum_decoded c hX hY
  have h2 : Field.fromU32 2 = enc 2 := by rw [← Field.two_enc]; rfl
  rw [Proj.double_enc]
  unfold Proj.double
  rw [e1, square_wf c _ hX.1, square_wf c _ hY.1, square_wf c _ hZ.1]
  simp only [Res.ok_bind]
  rw [square_wf c _ w1, z1]
  simp only [EDWARDS_A_enc, h2, Field.mul_enc, Field.add_enc, Field.sub_enc, Res.ok_bind, Res.pure_eq,
    neg_one_mul]

/-- C104: addition and doubling of extended points depend only on the coordinates modulo `p`: the results are
the same limbs, not only the same point. -/
theorem C104_ed_add (c : Cfg) (P P' Q Q' : EdPoint) (hP : EdSame P P') (hQ : EdSame Q Q') :
    Ed.add c P Q = Ed.add c P' Q' ∧ Ed.double c P = Ed.double c P' := by
  have key : ∀ P P' Q Q' : EdPoint, EdSame P P' → EdSame Q Q' → Ed.add c P Q = Ed.add c P' Q' := by
    rintro P P' Q Q' ⟨x, y, z, t⟩ ⟨x', y', z', t'⟩
    rw [Ed_add_decoded c P Q x.1 y.1 z.1 t.1 x'.1 y'.1 z'.1 t'.1,
      Ed_add_decoded c P' Q' x.2.1 y.2.1 z.2.1 t.2.1 x'.2.1 y'.2.1 z'.2.1 t'.2.1,
      x.toZ, y.toZ, z.toZ, t.toZ, x'.toZ, y'.toZ, z'.toZ, t'.toZ]
  exact ⟨key P P' Q Q' hP hQ, key P P' P P' hP hP⟩

/-- C104: the same for projective points. -/
theorem C104_proj_add (c : Cfg) (P P' Q Q' : ProjPoint) (hP : ProjSame P P') (hQ : ProjSame Q Q') :
    Proj.add c P Q = Proj.add c P' Q' ∧ Proj.double c P = Proj.double c P' := by
  obtain ⟨x, y, z⟩ := hP
  obtain ⟨x', y', z'⟩ := hQ
  constructor
  · rw [Proj_add_decoded c P Q x.1 y.1 z.1 x'.1 y'.1 z'.1,
      Proj_add_decoded c P' Q' x.2.1 y.2.1 z.2.1 x'.2.1 y'.2.1 z'.2.1,
      x.toZ, y.toZ, z.toZ, x'.toZ, y'.toZ, z'.toZ]
  · rw [Proj_double_decoded c P x.1 y.1 z.1, Proj_double_decoded c P' x.2.1 y.2.1 z.2.1, x.toZ, y.toZ, z.toZ]

/-! #### Scalar multiplication -/

/-- The operator uses the point itself only in the first step. -/
theorem doubleAndAdd_same {T : Type} (O : PointOps T) (c : Cfg) (N N' : T)
    (hadd : O.add c O.identity N = O.add c O.identity N') (hdbl : O.double c N = O.double c N') (n : Sc) :
    doubleAndAdd O c N n = doubleAndAdd O c N' n := by
  unfold doubleAndAdd
  cases c.fuel with
  | zero => rfl
  | succ fuel =>
    unfold doubleAndAddLoop
    split_ifs with h1 h2
    · rw [hadd, hdbl]
    · rw [Res.ok_bind, Res.ok_bind, hdbl]
    · rfl

theorem ltrLoop_same {T : Type} (O : PointOps T) (c : Cfg) (S : T → Prop)
    (hadd : ∀ Q R, ∀ N, S Q → S N → O.add c Q N = .ok R → S R)
    (hdbl : ∀ Q R, S Q → O.double c Q = .ok R → S R) (N N' : T) (hN : S N') 
    (hsame : ∀ Q, S Q → O.add c Q N = O.add c Q N')
    (bits : Vector UInt8 256) :
    ∀ (n : Nat) (h : n ≤ 256) (Q : T), S Q →
      ltrLoop O c N bits n h Q = ltrLoop O c N' bits n h Q := by
  intro n
  induction n with
  | zero => intros; rfl
  | succ i ih =>
    intro h Q hQ
    unfold ltrLoop
    cases e : O.double c Q with
    | panic => rw [Res.panic_bind, Res.panic_bind]
    | diverge => rw [Res.diverge_bind, Res.diverge_bind]
    | ok M =>
      have hM := hdbl Q M hQ e
      rw [Res.ok_bind, Res.ok_bind]
      split_ifs with h2
      · rw [hsame M hM]
        cases e' : O.add c M N' with
        | panic => rw [Res.panic_bind, Res.panic_bind]
        | diverge => rw [Res.diverge_bind, Res.diverge_bind]
        | ok M' => rw [Res.ok_bind, Res.ok_bind]; exact ih _ _ (hadd _ _ _ hM hN e')
      · rw [Res.ok_bind, Res.ok_bind]; exact ih _ _ hM

theorem sameMod_enc (x : Fp) : SameMod (enc x) (enc x) := by
  have h : Decoded (enc x) := ⟨enc_WF _, by rw [enc_val]; exact lt_trans (ZMod.val_lt _) (by decide)⟩
  exact ⟨h, h, rfl⟩

theorem edSame_id : EdSame Ed.identity Ed.identity := by decide
theorem projSame_id : ProjSame Proj.identity Proj.identity := by decide

theorem edSame_right {P P' : EdPoint} (h : EdSame P P') : EdSame P' P' := by
  obtain ⟨x, y, z, t⟩ := h
  exact ⟨⟨x.2.1, x.2.1, rfl⟩, ⟨y.2.1, y.2.1, rfl⟩, ⟨z.2.1, z.2.1, rfl⟩, ⟨t.2.1, t.2.1, rfl⟩⟩

theorem projSame_right {P P' : ProjPoint} (h : ProjSame P P') : ProjSame P' P' := by
  obtain ⟨x, y, z⟩ := h
  exact ⟨⟨x.2.1, x.2.1, rfl⟩, ⟨y.2.1, y.2.1, rfl⟩, ⟨z.2.1, z.2.1, rfl⟩⟩

theorem Ed_add_self (c : Cfg) {P Q R : EdPoint} (hP : EdSame P P) (hQ : EdSame Q Q)
    (e : Ed.add c P Q = .ok R) : EdSame R R := by
  obtain ⟨x, y, z, t⟩ := hP
  obtain ⟨x', y', z', t'⟩ := hQ
  rw [Ed_add_decoded c P Q x.1 y.1 z.1 t.1 x'.1 y'.1 z'.1 t'.1, Ed.add_enc] at e
  rw [← Res.ok.inj e]
  exact ⟨sameMod_enc _, sameMod_enc _, sameMod_enc _, sameMod_enc _⟩

theorem Proj_add_self (c : Cfg) {P Q R : ProjPoint} (hP : ProjSame P P) (hQ : ProjSame Q Q)
    (e : Proj.add c P Q = .ok R) : ProjSame R R := by
  obtain ⟨x, y, z⟩ := hP
  obtain ⟨x', y', z'⟩ := hQ
  rw [Proj_add_decoded c P Q x.1 y.1 z.1 x'.1 y'.1 z'.1, Proj.add_enc] at e
  rw [← Res.ok.inj e]
  exact ⟨sameMod_enc _, sameMod_enc _, sameMod_enc _⟩

theorem Proj_double_self (c : Cfg) {P R : ProjPoint} (hP : ProjSame P P)
    (e : Proj.double c P = .ok R) : ProjSame R R := by
  obtain ⟨x, y, z⟩ := hP
  rw [Proj_double_decoded c P x.1 y.1 z.1, Proj.double_enc] at e
  rw [← Res.ok.inj e]
  exact ⟨sameMod_enc _, sameMod_enc _, sameMod_enc _⟩

/-- C104: so do scalar multiplication with the operator and from left to right, for every scalar value, and
multiplication by the cofactor and by powers of two. -/
theorem C104_ed_mul (c : Cfg) (P P' : EdPoint) (hP : EdSame P P') (n : Sc) (k : Nat) :
    Ed.mul c P n = Ed.mul c P' n ∧ ltrBinMul Ed.ops c P n = ltrBinMul Ed.ops c P' n ∧
    mulByCofactor Ed.ops c P = mulByCofactor Ed.ops c P' ∧
    mulByPow2 Ed.ops c P k = mulByPow2 Ed.ops c P' k ∧
    Ristretto.mul c P n = Ristretto.mul c P' n := by
  have h1 : Ed.add c Ed.identity P = Ed.add c Ed.identity P' :=
    (C104_ed_add c _ _ P P' edSame_id hP).1
  have h2 : Ed.double c P = Ed.double c P' := (C104_ed_add c P P' P P' hP hP).2
  have hm : ∀ n, Ed.mul c P n = Ed.mul c P' n := doubleAndAdd_same Ed.ops c P P' h1 h2
  refine ⟨hm n, ?_, hm _, ?_, doubleAndAdd_same Ristretto.ops c P P' h1 h2 n⟩
  · unfold ltrBinMul
    exact ltrLoop_same Ed.ops c (fun Q => EdSame Q Q) (fun Q R N hQ hN e => Ed_add_self c hQ hN e)
      (fun Q R hQ e => Ed_add_self c hQ hQ e) P P' (edSame_right hP)
      (fun Q hQ => (C104_ed_add c Q Q P P' hQ hP).1) _ 249 _ _ edSame_id
  · unfold mulByPow2
    cases Scalar.twoPowK k with
    | panic => rw [Res.panic_bind, Res.panic_bind]
    | diverge => rw [Res.diverge_bind, Res.diverge_bind]
    | ok s => rw [Res.ok_bind, Res.ok_bind]; exact hm s

/-- C104: the same for projective points. -/
theorem C104_proj_mul (c : Cfg) (P P' : ProjPoint) (hP : ProjSame P P') (n : Sc) (k : Nat) :
    Proj.mul c P n = Proj.mul c P' n ∧ ltrBinMul Proj.ops c P n = ltrBinMul Proj.ops c P' n ∧
    mulByCofactor Proj.ops c P = mulByCofactor Proj.ops c P' ∧
    mulByPow2 Proj.ops c P k = mulByPow2 Proj.ops c P' k := by
  have h1 : Proj.add c Proj.identity P = Proj.add c Proj.identity P' :=
    (C104_proj_add c _ _ P P' projSame_id hP).1
  have h2 : Proj.double c P = Proj.double c P' := (C104_proj_add c P P' P P' hP hP).2
  have hm : ∀ n, Proj.mul c P n = Proj.mul c P' n := doubleAndAdd_same Proj.ops c P P' h1 h2
  refine ⟨hm n, ?_, hm _, ?_⟩
  · unfold ltrBinMul
    exact ltrLoop_same Proj.ops c (fun Q => ProjSame Q Q) (fun Q R N hQ hN e => Proj_add_self c hQ hN e)
      (fun Q R hQ e => Proj_double_self c hQ e) P P' (projSame_right hP)
      (fun Q hQ => (C104_proj_add c Q Q P P' hQ hP).1) _ 249 _ _ projSame_id
  · unfold mulByPow2
    cases Scalar.twoPowK k with
    | panic => rw [Res.panic_bind, Res.panic_bind]
    | diverge => rw [Res.diverge_bind, Res.diverge_bind]
    | ok s => rw [Res.ok_bind, Res.ok_bind]; exact hm s

/-! #### Validity, equality, conversions, encodings -/

theorem Proj_isValid_decoded (c : Cfg) (P : ProjPoint) (hX : Decoded P.X) (hY : Decoded P.Y)
    (hZ : Decoded P.Z) :
    Proj.isValid c P = Proj.isValid c ⟨enc P.X.toZ, enc P.Y.toZ, enc P.Z.toZ⟩ := by
  unfold Proj.isValid
  simp only [square_wf c _ hX.1, square_wf c _ hY.1, square_wf c _ hZ.1, Field.square_enc]

theorem Aff_ofProj_decoded (c : Cfg) (hc : c.Enough) (P : ProjPoint) (hX : Decoded P.X) (hY : Decoded P.Y)
    (hZ : Decoded P.Z) (hz : P.Z.toZ ≠ 0) :
    Aff.ofProj c P = .ok ⟨enc (P.X.toZ * P.Z.toZ⁻¹), enc (P.Y.toZ * P.Z.toZ⁻¹)⟩ := by
  unfold Aff.ofProj
  rw [inverse_wf c hc _ hZ.1 hZ.2 hz, Res.ok_bind, mul_wf c _ _ hX.1 (enc_WF _), Res.ok_bind,
    mul_wf c _ _ hY.1 (enc_WF _), Res.ok_bind, enc_toZ, Res.pure_eq]

theorem Aff_ofEd_decoded (c : Cfg) (hc : c.Enough) (P : EdPoint) (hX : Decoded P.X) (hY : Decoded P.Y)
    (hZ : Decoded P.Z) (hz : P.Z.toZ ≠ 0) :
    Aff.ofEd c P = .ok ⟨enc (P.X.toZ * P.Z.toZ⁻¹), enc (P.Y.toZ * P.Z.toZ⁻¹)⟩ :=
  Aff_ofProj_decoded c hc (Proj.ofEd P) hX hY hZ hz

theorem toZ_ne {a : FE} (h : a.val % p ≠ 0) : a.toZ ≠ 0 := fun h0 =>
  h (Nat.mod_eq_zero_of_dvd ((toZ_eq_zero_iff a).1 h0))

/-- C104: the validity checks depend only on the coordinates modulo `p`; so do, where `Z` is not a multiple of
`p`, the conversion to affine coordinates, equality and the compression of Edwards points, and always the
conversion to extended coordinates and Ristretto equality. -/
theorem C104_ed_rest (c : Cfg) (P P' Q Q' : EdPoint) (hP : EdSame P P') (hQ : EdSame Q Q') :
    Ed.isValid c P = Ed.isValid c P' ∧ Ristretto.ctEq c P Q = Ristretto.ctEq c P' Q' ∧
    Ed.ofProj c (Proj.ofEd P) = Ed.ofProj c (Proj.ofEd P') ∧
    (c.Enough → P.Z.val % p ≠ 0 → Aff.ofEd c P = Aff.ofEd c P' ∧ Ed.compress c P = Ed.compress c P' ∧
      (Q.Z.val % p ≠ 0 → Ed.ctEq c P Q = Ed.ctEq c P' Q')) := by
  have hr : ∀ P P' : EdPoint, EdSame P P' → c.Enough → P.Z.val % p ≠ 0 → Aff.ofEd c P = Aff.ofEd c P' := by
    rintro P P' ⟨x, y, z, t⟩ hc hz
    have hz1 := toZ_ne hz
    rw [Aff_ofEd_decoded c hc P x.1 y.1 z.1 hz1,
      Aff_ofEd_decoded c hc P' x.2.1 y.2.1 z.2.1 (z.toZ ▸ hz1), x.toZ, y.toZ, z.toZ]
  refine ⟨?_, ?_, ?_, fun hc hz => ⟨hr P P' hP hc hz, ?_, fun hz' => ?_⟩⟩
  · obtain ⟨x, y, z, t⟩ := hP
    unfold Ed.isValid
    rw [Proj_isValid_decoded c (Proj.ofEd P) x.1 y.1 z.1, Proj_isValid_decoded c (Proj.ofEd P') x.2.1 y.2.1 z.2.1]
    simp only [Proj.ofEd]
    rw [x.toZ, y.toZ, z.toZ]
  · obtain ⟨x, y, z, t⟩ := hP
    obtain ⟨x', y', z', t'⟩ := hQ
    unfold Ristretto.ctEq
    rw [mul_wf c _ _ x.w1 y'.w1, mul_wf c _ _ y.w1 x'.w1, mul_wf c _ _ x.w1 x'.w1, mul_wf c _ _ y.w1 y'.w1,
      mul_wf c _ _ x.w2 y'.w2, mul_wf c _ _ y.w2 x'.w2, mul_wf c _ _ x.w2 x'.w2, mul_wf c _ _ y.w2 y'.w2,
      x.toZ, y.toZ, x'.toZ, y'.toZ]
  · obtain ⟨x, y, z, t⟩ := hP
    unfold Ed.ofProj Proj.ofEd
    dsimp only
    rw [mul_wf c _ _ x.w1 z.w1, mul_wf c _ _ y.w1 z.w1, square_wf c _ z.w1, mul_wf c _ _ x.w1 y.w1,
      mul_wf c _ _ x.w2 z.w2, mul_wf c _ _ y.w2 z.w2, square_wf c _ z.w2, mul_wf c _ _ x.w2 y.w2,
      x.toZ, y.toZ, z.toZ]
  · unfold Ed.compress
    rw [hr P P' hP hc hz]
  · unfold Ed.ctEq
    rw [hr P P' hP hc hz, hr Q Q' hQ hc hz']

/-- C104: the same for projective points. -/
theorem C104_proj_rest (c : Cfg) (P P' Q Q' : ProjPoint) (hP : ProjSame P P') (hQ : ProjSame Q Q') :
    Proj.isValid c P = Proj.isValid c P' ∧ Ed.ofProj c P = Ed.ofProj c P' ∧
    (c.Enough → P.Z.val % p ≠ 0 → Aff.ofProj c P = Aff.ofProj c P' ∧
      (Q.Z.val % p ≠ 0 → Proj.ctEq c P Q = Proj.ctEq c P' Q')) := by
  have hr : ∀ P P' : ProjPoint, ProjSame P P' → c.Enough → P.Z.val % p ≠ 0 →
      Aff.ofProj c P = Aff.ofProj c P' := by
    rintro P P' ⟨x, y, z⟩ hc hz
    have hz1 := toZ_ne hz
    rw [Aff_ofProj_decoded c hc P x.1 y.1 z.1 hz1,
      Aff_ofProj_decoded c hc P' x.2.1 y.2.1 z.2.1 (z.toZ ▸ hz1), x.toZ, y.toZ, z.toZ]
  refine ⟨?_, ?_, fun hc hz => ⟨hr P P' hP hc hz, fun hz' => ?_⟩⟩
  · obtain ⟨x, y, z⟩ := hP
    rw [Proj_isValid_decoded c P x.1 y.1 z.1, Proj_isValid_decoded c P' x.2.1 y.2.1 z.2.1, x.toZ, y.toZ, z.toZ]
  · obtain ⟨x, y, z⟩ := hP
    unfold Ed.ofProj
    rw [mul_wf c _ _ x.w1 z.w1, mul_wf c _ _ y.w1 z.w1, square_wf c _ z.w1, mul_wf c _ _ x.w1 y.w1,
      mul_wf c _ _ x.w2 z.w2, mul_wf c _ _ y.w2 z.w2, square_wf c _ z.w2, mul_wf c _ _ x.w2 y.w2,
      x.toZ, y.toZ, z.toZ]
  · unfold Proj.ctEq
    rw [hr P P' hP hc hz, hr Q Q' hQ hc hz']

/-- C104: so does the validity check of Ristretto points, which multiplies by the group order. -/
theorem C104_ristretto_valid (c : Cfg) (P P' : EdPoint) (hP : EdSame P P') :
    Ristretto.isValid c P = Ristretto.isValid c P' := by
  unfold Ristretto.isValid
  rw [(C104_ed_mul c P P' hP Scalar.L 0).1, (C104_ed_rest c P P' P P' hP hP).1]

/-- C104: the validity check of affine points depends only on the coordinates modulo `p`, but equality of
affine points compares the values: two forms of one point are different. -/
theorem C104_aff (c : Cfg) (P P' : AffPoint) (hX : SameMod P.X P'.X) (hY : SameMod P.Y P'.Y) :
    Aff.isValid c P = Aff.isValid c P' ∧
    (Aff.ctEq P P' = true ↔ P.X.val = P'.X.val ∧ P.Y.val = P'.Y.val) := by
  constructor
  · unfold Aff.isValid
    rw [square_wf c _ hX.w1, square_wf c _ hX.w2, square_wf c _ hY.w1, square_wf c _ hY.w2, hX.toZ, hY.toZ]
  · unfold Aff.ctEq
    rw [ctEq_spec _ _ hX.w1 hX.w2 hX.1.2 hX.2.1.2, ctEq_spec _ _ hY.w1 hY.w2 hY.1.2 hY.2.1.2,
      Bool.and_eq_true, decide_eq_true_eq, decide_eq_true_eq]

/-- C104: where `Z` is a nonzero multiple of `p`, the conversion to affine coordinates does not panic as it
does for zero: it gives `(0, 0)`. Any two such points are equal. -/
theorem C104_z_multiple (c : Cfg) (hc : c.Enough) (P Q : EdPoint) (hP : EdSame P P) (hQ : EdSame Q Q)
    (hz : P.Z.val % p = 0) (hz0 : P.Z.val ≠ 0) (hz' : Q.Z.val % p = 0) (hz0' : Q.Z.val ≠ 0) :
    Aff.ofEd c P = .ok ⟨zero, zero⟩ ∧ Aff.ofProj c (Proj.ofEd P) = .ok ⟨zero, zero⟩ ∧
    Ed.ctEq c P Q = .ok true ∧ Proj.ctEq c (Proj.ofEd P) (Proj.ofEd Q) = .ok true := by
  have key : ∀ P : EdPoint, EdSame P P → P.Z.val % p = 0 → P.Z.val ≠ 0 → Aff.ofEd c P = .ok ⟨zero, zero⟩ := by
    rintro P ⟨x, y, z, t⟩ h h0
    have hm : ∀ a : FE, a.WF → Field.mul c a zero = .ok zero := fun a ha => by
      rw [zero_enc, mul_wf c _ _ ha (enc_WF _), enc_toZ, mul_zero]
    unfold Aff.ofEd
    rw [(C82_multiples c hc zero P.Z zero_canon.1 z.1 h h0 false).1, Res.ok_bind, hm _ x.w1, Res.ok_bind,
      hm _ y.w1, Res.ok_bind, Res.pure_eq]
  have k1 := key P hP hz hz0
  have k2 := key Q hQ hz' hz0'
  have k1' : Aff.ofProj c (Proj.ofEd P) = .ok ⟨zero, zero⟩ := k1
  have k2' : Aff.ofProj c (Proj.ofEd Q) = .ok ⟨zero, zero⟩ := k2
  have hct : Aff.ctEq ⟨zero, zero⟩ ⟨zero, zero⟩ = true := by decide
  refine ⟨k1, k1', ?_, ?_⟩
  · unfold Ed.ctEq
    rw [k1, k2, Res.ok_bind, Res.ok_bind, hct, Res.pure_eq]
  · unfold Proj.ctEq
    rw [k1', k2', Res.ok_bind, Res.ok_bind, hct, Res.pure_eq]

/-- Two different points with `Z = p`, one of them accepted by `is_valid`. -/
example : EdSame ⟨one, one, FIELD_L, zero⟩ ⟨one, one, FIELD_L, zero⟩ ∧
    EdSame ⟨zero, one, FIELD_L, zero⟩ ⟨zero, one, FIELD_L, zero⟩ ∧
    Ed.isValid dbg ⟨one, one, FIELD_L, zero⟩ = .ok false ∧
    Ed.isValid dbg ⟨zero, one, FIELD_L, zero⟩ = .ok true ∧ FIELD_L.val = p := by decide +kernel

/-! #### Negation and what uses it -/

/-- C104: negation is right exactly if the coordinates it negates, `X` and `T`, are at most `p`. -/
theorem C104_neg (c : Cfg) (P : EdPoint) (hX : Decoded P.X) (hT : Decoded P.T) :
    ∃ R, Ed.neg c P = .ok R ∧ Ristretto.neg c P = .ok R ∧ R.Y = P.Y ∧ R.Z = P.Z ∧
      Proj.neg c (Proj.ofEd P) = .ok (Proj.ofEd R) ∧
      ((R.X.val + P.X.val) % p = 0 ↔ P.X.val ≤ p) ∧ ((R.T.val + P.T.val) % p = 0 ↔ P.T.val ≤ p) := by
  obtain ⟨x, ex, hx⟩ := C82_neg c P.X hX
  obtain ⟨t, et, ht⟩ := C82_neg c P.T hT
  have e : Ed.neg c P = .ok ⟨x, P.Y, P.Z, t⟩ := by
    unfold Ed.neg
    rw [ex, et, Res.ok_bind, Res.ok_bind, Res.pure_eq]
  refine ⟨⟨x, P.Y, P.Z, t⟩, e, e, rfl, rfl, ?_, hx, ht⟩
  unfold Proj.neg Proj.ofEd
  dsimp only
  rw [ex, Res.ok_bind, Res.pure_eq]

theorem neg_small (c : Cfg) {a : FE} (ha : Decoded a) (h : a.val ≤ p) :
    ∃ r, Field.neg c a = .ok r ∧ Decoded r ∧ r.toZ = -a.toZ := by
  obtain ⟨r, e, w, v⟩ := sub_cases c zero a zero_canon.1 ha.1 (by decide) ha.2
  rw [Field.zero_val, Nat.zero_add, Nat.zero_sub] at v
  refine ⟨r, e, ⟨w, ?_⟩, ?_⟩
  · have := p_lt
    rw [v]; split_ifs <;> omega
  · unfold L5.toZ
    rw [v]
    split_ifs with h1
    · rw [Nat.le_zero.1 h1, Nat.cast_zero, neg_zero]
    · rw [Nat.cast_sub h, ZMod.natCast_self, zero_sub]

theorem Ed_sub_decoded (c : Cfg) (P Q : EdPoint) (hX : Decoded P.X) (hY : Decoded P.Y) (hZ : Decoded P.Z)
    (hT : Decoded P.T) (hX' : Decoded Q.X) (hY' : Decoded Q.Y) (hZ' : Decoded Q.Z) (hT' : Decoded Q.T)
    (hx : Q.X.val ≤ p) (ht : Q.T.val ≤ p) :
    Ed.sub c P Q = Ed.sub c ⟨enc P.X.toZ, enc P.Y.toZ, enc P.Z.toZ, enc P.T.toZ⟩
      ⟨enc Q.X.toZ, enc Q.Y.toZ, enc Q.Z.toZ, enc Q.T.toZ⟩ := by
  obtain ⟨nx, enx, dx, zx⟩ := neg_small c hX' hx
  obtain ⟨nt, ent, dt, zt⟩ := neg_small c hT' ht
  obtain ⟨s1, e1, w1, z1⟩ := sum_decoded c hX hY
  obtain ⟨s2, e2, w2, z2⟩ := sum_decoded c dx hY'
  unfold Ed.sub Ed.neg
  rw [enx, ent]
  simp only [Res.ok_bind, Res.pure_eq, Field.neg_enc]
  rw [mul_wf c _ _ hX.1 dx.1, mul_wf c _ _ hY.1 hY'.1, mul_wf c _ _ hZ.1 hZ'.1, e1, e2, EDWARDS_D_enc,
    mul_wf c _ _ (enc_WF _) hT.1]
  simp only [Res.ok_bind]
  rw [mul_wf c _ nt (enc_WF _) dt.1]
  simp only [Res.ok_bind]
  rw [mul_wf c _ _ w1 w2, z1, z2, zx, zt]
  simp only [EDWARDS_A_enc, Field.mul_enc, Field.add_enc, Field.sub_enc, Res.ok_bind, enc_toZ]

/-- C104: where the subtrahend's `X` and `T` are at most `p`, subtraction of extended points depends only on the
coordinates modulo `p`, and so does multiplication with the non-adjacent form. -/
theorem C104_ed_sub (c : Cfg) (P P' Q Q' : EdPoint) (hP : EdSame P P') (hQ : EdSame Q Q')
    (hx : Q.X.val ≤ p) (ht : Q.T.val ≤ p) (hx' : Q'.X.val ≤ p) (ht' : Q'.T.val ≤ p) (n : Sc) :
    Ed.sub c P Q = Ed.sub c P' Q' ∧ binaryNafMul Ed.ops c Q n = binaryNafMul Ed.ops c Q' n := by
  have key : ∀ P P' Q Q' : EdPoint, EdSame P P' → EdSame Q Q' → Q.X.val ≤ p → Q.T.val ≤ p → Q'.X.val ≤ p →
      Q'.T.val ≤ p → Ed.sub c P Q = Ed.sub c P' Q' := by
    rintro P P' Q Q' ⟨x, y, z, t⟩ ⟨x', y', z', t'⟩ hx ht hx' ht'
    rw [Ed_sub_decoded c P Q x.1 y.1 z.1 t.1 x'.1 y'.1 z'.1 t'.1 hx ht,
      Ed_sub_decoded c P' Q' x.2.1 y.2.1 z.2.1 t.2.1 x'.2.1 y'.2.1 z'.2.1 t'.2.1 hx' ht',
      x.toZ, y.toZ, z.toZ, t.toZ, x'.toZ, y'.toZ, z'.toZ, t'.toZ]
  have self : ∀ P R : EdPoint, EdSame P P → Ed.sub c P Q' = .ok R → EdSame R R := by
    rintro P R ⟨x, y, z, t⟩ e
    obtain ⟨x', y', z', t'⟩ := edSame_right hQ
    rw [Ed_sub_decoded c P Q' x.1 y.1 z.1 t.1 x'.1 y'.1 z'.1 t'.1 hx' ht'] at e
    unfold Ed.sub Ed.neg at e
    simp only [EDWARDS_D_enc, EDWARDS_A_enc, Field.mul_enc, Field.add_enc, Field.sub_enc, Field.neg_enc,
      Res.ok_bind, Res.pure_eq] at e
    rw [← Res.ok.inj e]
    exact ⟨sameMod_enc _, sameMod_enc _, sameMod_enc _, sameMod_enc _⟩
  refine ⟨key P P' Q Q' hP hQ hx ht hx' ht', ?_⟩
  unfold binaryNafMul
  cases Scalar.computeNAF c n with
  | panic => rw [Res.panic_bind, Res.panic_bind]
  | diverge => rw [Res.diverge_bind, Res.diverge_bind]
  | ok naf =>
    rw [Res.ok_bind, Res.ok_bind]
    have loop : ∀ (m : Nat) (h : m ≤ 256) (R : EdPoint), EdSame R R →
        nafMulLoop Ed.ops c Q naf m h R = nafMulLoop Ed.ops c Q' naf m h R := by
      intro m
      induction m with
      | zero => intros; rfl
      | succ i ih =>
        intro h R hR
        rw [nafMulLoop, nafMulLoop]
        cases e : Ed.ops.double c R with
        | panic => rw [Res.panic_bind, Res.panic_bind]
        | diverge => rw [Res.diverge_bind, Res.diverge_bind]
        | ok M =>
          have hM : EdSame M M := Ed_add_self c hR hR e
          have ea : Ed.ops.add c M Q = Ed.ops.add c M Q' := (C104_ed_add c M M Q Q' hM hQ).1
          have es : Ed.ops.sub c M Q = Ed.ops.sub c M Q' := key M M Q Q' hM hQ hx ht hx' ht'
          rw [Res.ok_bind, Res.ok_bind, ea, es]
          split_ifs
          · cases e' : Ed.ops.add c M Q' with
            | panic => rw [Res.panic_bind, Res.panic_bind]
            | diverge => rw [Res.diverge_bind, Res.diverge_bind]
            | ok S => rw [Res.ok_bind, Res.ok_bind]; exact ih _ _ (Ed_add_self c hM (edSame_right hQ) e')
          · cases e' : Ed.ops.sub c M Q' with
            | panic => rw [Res.panic_bind, Res.panic_bind]
            | diverge => rw [Res.diverge_bind, Res.diverge_bind]
            | ok S => rw [Res.ok_bind, Res.ok_bind]; exact ih _ _ (self M S hM e')
          · rw [Res.ok_bind, Res.ok_bind]; exact ih _ _ hM
    exact loop 250 _ _ edSame_id

/-- The base point with `p` added to `Y` and the base point. -/
example : ∃ P : EdPoint, P ≠ Ed.BASEPOINT ∧ EdSame P Ed.BASEPOINT ∧ P.X.val ≤ p ∧ P.T.val ≤ p ∧
    Ed.BASEPOINT.X.val ≤ p ∧ Ed.BASEPOINT.T.val ≤ p :=
  ⟨⟨Ed.BASEPOINT.X, encNat (Ed.BASEPOINT.Y.val + p), Ed.BASEPOINT.Z, Ed.BASEPOINT.T⟩, by decide, by decide,
    by decide, by decide, by decide, by decide⟩

/-- The neutral element, written with `X = 2p`. -/
def idTwoP : EdPoint :=
  ⟨⟨1343829666670554, 3329729022839554, 2735603, 0, 35184372088832⟩, one, one, zero⟩

/-- `2^260` modulo `p`. -/
def twoTo260 : Fp := 2 ^ 260

theorem neg_idTwoP (c : Cfg) : ∃ r : FE, Field.neg c idTwoP.X = .ok r ∧ r.WF ∧ r.toZ = twoTo260 := by
  obtain ⟨r, e, w, v⟩ := sub_cases c zero idTwoP.X zero_canon.1 (by decide) (by decide) (by decide)
  rw [if_neg (by decide), if_neg (by decide)] at v
  refine ⟨r, e, w, ?_⟩
  unfold L5.toZ twoTo260
  rw [v, show zero.val + p + 2 ^ 260 - idTwoP.X.val = 2 ^ 260 - p by decide, Nat.cast_sub (by decide),
    ZMod.natCast_self, sub_zero]
  exact Nat.cast_pow 2 260

theorem twoTo260_ne : twoTo260 ≠ 0 := two_pow_ne 260

theorem add_large (c : Cfg) (a b : FE) (ha : a.WF) (hb : b.WF) (h : a.val + b.val < 2 ^ 260) :
    ∃ r, Field.add c a b = .ok r ∧ r.WF ∧ r.toZ = a.toZ + b.toZ := by
  obtain ⟨s, es, ws, vs⟩ := addChain c a b (fun s => Field.sub c s FIELD_L) ha hb
  have vs' : s.val = a.val + b.val := by rw [vs]; exact Nat.mod_eq_of_lt (by omega)
  obtain ⟨r, er, wr, v1, v2⟩ := subWith_spec FIELD_L c s FIELD_L FIELD_L_WF ws.1 ws.2.1 ws.2.2.1
    ws.2.2.2.1 (lt_trans ws.2.2.2.2 (by decide)) FIELD_L_WF
  rw [FIELD_L_val] at v1 v2
  have hp := p_lt
  refine ⟨r, ?_, wr, ?_⟩
  · unfold Field.add; rw [es]; exact er
  · unfold L5.toZ
    rw [← Nat.cast_add, ← vs']
    by_cases h' : p ≤ s.val
    · rw [v1 h', Nat.mod_eq_of_lt (by omega), Nat.cast_sub h', ZMod.natCast_self, sub_zero]
    · have v3 : r.val = s.val := by rw [v2 (by omega)]; omega
      rw [v3]

theorem double_id (c : Cfg) : Ed.double c Ed.identity = .ok Ed.identity := by
  unfold Ed.double Ed.identity
  rw [zero_enc, one_enc, Ed.add_enc]
  simp only [mul_zero, zero_add, add_zero, sub_zero, mul_one, sub_self]

theorem add_id (c : Cfg) (h : EdSame idTwoP Ed.identity) : Ed.add c Ed.identity idTwoP = .ok Ed.identity := by
  rw [(C104_ed_add c _ _ _ _ edSame_id h).1]
  exact double_id c

/-- Doubling the neutral element for zero digits. -/
theorem nafMulLoop_zeros (c : Cfg) (P : EdPoint) (naf : Vector Int 256) (j : Nat) :
    ∀ (n : Nat) (h : j + n ≤ 256), (∀ i, j ≤ i → (hi : i < 256) → naf[i] = 0) →
      nafMulLoop Ed.ops c P naf (j + n) h Ed.identity =
        nafMulLoop Ed.ops c P naf j (by omega) Ed.identity := by
  intro n
  induction n with
  | zero => intros; rfl
  | succ n ih =>
    intro h hz
    have e := hz (j + n) (by omega) (by omega)
    have hd : Ed.ops.double c Ed.identity = .ok Ed.identity := double_id c
    rw [← ih (by omega) hz]
    show nafMulLoop Ed.ops c P naf (j + n + 1) h Ed.identity = _
    rw [nafMulLoop, hd, Res.ok_bind, if_neg (by rw [e]; decide), if_neg (by rw [e]; decide), Res.ok_bind]

/-- The non-adjacent form of 3. -/
def nafThree : Vector Int 256 := ((Vector.replicate 256 0).set 0 (-1)).set 2 1

/-- C104: the neutral element with `X = 2p` is equal to the neutral element and valid, but its negative is not
on the curve. Subtracting it from the neutral element leaves the curve, and so does its multiple by 3 with the
non-adjacent form, while the operator gives the neutral element. -/
theorem C104_neg_wrong (c : Cfg) (hc : c.Enough) :
    EdSame idTwoP Ed.identity ∧ Ed.isValid c idTwoP = .ok true ∧ Ed.ctEq c idTwoP Ed.identity = .ok true ∧
    (∃ R, Ed.neg c idTwoP = .ok R ∧ Ed.isValid c R = .ok false) ∧
    (∃ R, Ed.sub c Ed.identity idTwoP = .ok R ∧ Ed.isValid c R = .ok false) ∧
    (∃ R, binaryNafMul Ed.ops c idTwoP ⟨3, 0, 0, 0, 0⟩ = .ok R ∧ Ed.isValid c R = .ok false) ∧
    (∃ R, Ed.mul c idTwoP ⟨3, 0, 0, 0, 0⟩ = .ok R ∧ R.Rep 0) := by
  have hs : EdSame idTwoP Ed.identity := by decide
  obtain ⟨r, e, w, z⟩ := neg_idTwoP c
  have hz1 : idTwoP.Z.val % p ≠ 0 := by decide
  have hv := C104_ed_rest c _ _ _ _ hs edSame_id
  have hid : Ed.isValid c Ed.identity = .ok true := by
    unfold Ed.isValid Proj.ofEd Ed.identity
    rw [zero_enc, one_enc, Proj_isValid_enc, decide_eq_true (by ring)]
  have hcid : Ed.ctEq c Ed.identity Ed.identity = .ok true := by
    obtain ⟨b, e, h⟩ := C42_extended c hc Ed.identity_rep Ed.identity_rep
    rw [e, h.2 rfl]
  have en : Ed.neg c idTwoP = .ok ⟨r, one, one, zero⟩ := by
    have e0 : Field.neg c zero = .ok zero := by
      rw [zero_enc, Field.neg_enc, neg_zero]
    unfold Ed.neg
    rw [e, show idTwoP.T = zero from rfl, e0, Res.ok_bind, Res.ok_bind, Res.pure_eq]
    rfl
  have hd : 1 + dZ * ((1 : Fp) * 1) ≠ 0 := dy_ne 1
  have hoff : ∀ t : FE, Ed.isValid c ⟨enc twoTo260, enc 1, enc 1, t⟩ = .ok false := fun t => by
    unfold Ed.isValid Proj.ofEd
    dsimp only
    rw [Proj_isValid_enc, decide_eq_false]
    intro h
    have : twoTo260 * twoTo260 * (1 + dZ * (1 * 1)) = 0 := by linear_combination -h
    exact mul_ne_zero (mul_ne_zero twoTo260_ne twoTo260_ne) hd this
  have esub : Ed.sub c Ed.identity idTwoP = .ok ⟨enc twoTo260, enc 1, enc 1, enc twoTo260⟩ := by
    have hr : r.val + one.val < 2 ^ 260 := by
      obtain ⟨r', e', w', v⟩ := sub_cases c zero idTwoP.X zero_canon.1 (by decide) (by decide) (by decide)
      rw [if_neg (by decide), if_neg (by decide)] at v
      have : r = r' := Res.ok.inj (e.symm.trans e')
      rw [this, v]
      decide
    obtain ⟨s2, e2, w2, z2⟩ := add_large c r one w (by decide) hr
    have o1 : one.toZ = 1 := by rw [one_enc, enc_toZ]
    rw [z, o1] at z2
    unfold Ed.sub
    rw [en]
    simp only [Res.ok_bind, Ed.identity]
    rw [e2, zero_enc, one_enc, mul_wf c _ r (enc_WF _) w, Field.add_enc]
    simp only [Res.ok_bind, enc_toZ, EDWARDS_D_enc, EDWARDS_A_enc, Field.mul_enc, Field.sub_enc, Field.add_enc]
    rw [mul_wf c _ s2 (enc_WF _) w2, z2]
    simp only [Res.ok_bind, enc_toZ, Field.mul_enc, Field.sub_enc, Res.pure_eq]
    simp only [zero_mul, mul_zero, zero_add, add_zero, sub_zero, mul_one, one_mul, add_sub_cancel_right]
  have enaf : Scalar.computeNAF c ⟨3, 0, 0, 0, 0⟩ = .ok nafThree := by
    rw [(C91_naf c dbg hc (by decide) _ (by decide) nafThree).2]
    decide +kernel
  refine ⟨hs, hv.1.trans hid, ?_, ⟨_, en, ?_⟩, ⟨_, esub, hoff _⟩, ⟨_, ?_, hoff (enc twoTo260)⟩, ?_⟩
  · rw [(hv.2.2.2 hc hz1).2.2 (by decide), hcid]
  · rw [← hoff zero]
    unfold Ed.isValid Proj.isValid Proj.ofEd
    dsimp only
    rw [square_wf c r w, z, one_enc, Field.square_enc c twoTo260]
  · unfold binaryNafMul
    rw [enaf, Res.ok_bind]
    have hd : Ed.ops.double c Ed.identity = .ok Ed.identity := double_id c
    have ha : Ed.ops.add c Ed.identity idTwoP = .ok Ed.identity := add_id c hs
    have hsb : Ed.ops.sub c Ed.identity idTwoP = .ok ⟨enc twoTo260, enc 1, enc 1, enc twoTo260⟩ := esub
    have hz : ∀ i, 3 ≤ i → (hi : i < 256) → nafThree[i] = 0 := fun i h3 hi => by
      unfold nafThree
      rw [Vector.getElem_set_ne _ _ (by omega), Vector.getElem_set_ne _ _ (by omega), Vector.getElem_replicate]
    have h2 : nafThree[2] = 1 := by decide
    have h1 : nafThree[1] = 0 := by decide
    have h0 : nafThree[0] = -1 := by decide
    show nafMulLoop Ed.ops c idTwoP nafThree (3 + 247) _ Ed.identity = _
    rw [nafMulLoop_zeros c idTwoP nafThree 3 247 (by omega) hz]
    show nafMulLoop Ed.ops c idTwoP nafThree (2 + 1) _ Ed.identity = _
    rw [nafMulLoop, hd, Res.ok_bind, if_pos h2, ha, Res.ok_bind]
    show nafMulLoop Ed.ops c idTwoP nafThree (1 + 1) _ Ed.identity = _
    rw [nafMulLoop, hd, Res.ok_bind, if_neg (by rw [h1]; decide), if_neg (by rw [h1]; decide), Res.ok_bind]
    show nafMulLoop Ed.ops c idTwoP nafThree (0 + 1) _ Ed.identity = _
    rw [nafMulLoop, hd, Res.ok_bind, if_neg (by rw [h0]; decide), if_pos h0, hsb, Res.ok_bind]
    rfl
  · obtain ⟨R, eR, hR⟩ := C45_extended c hc Ed.identity_rep ⟨3, 0, 0, 0, 0⟩ (by decide) (by decide)
    rw [smul_zero] at hR
    exact ⟨R, by rw [(C104_ed_mul c _ _ hs _ 0).1, eR], hR⟩

/-- The base point with `p` added to its `Y`. -/
def baseYp : EdPoint :=
  ⟨Ed.BASEPOINT.X, ⟨1975783658810543, 2663783218271643, 2702159778610780, 2702159776422297, 28147497671065⟩,
    Ed.BASEPOINT.Z, Ed.BASEPOINT.T⟩

theorem compress_baseYp_dbg : Ristretto.compress dbg baseYp ≠ .ok Ristretto.BASEPOINT_COMPRESSED := by
  decide +kernel

theorem compress_baseYp_rel : Ristretto.compress rel baseYp ≠ .ok Ristretto.BASEPOINT_COMPRESSED := by
  decide +kernel

/-- C104: Ristretto compression subtracts `Y`, so the base point with `Y + p` has another encoding than the base
point, in both builds, though the two are equal. -/
theorem C104_ristretto_compress :
    EdSame baseYp Ed.BASEPOINT ∧ baseYp.Y.val = Ed.BASEPOINT.Y.val + p ∧
    Ristretto.ctEq dbg baseYp Ed.BASEPOINT = .ok true ∧ Ristretto.ctEq rel baseYp Ed.BASEPOINT = .ok true ∧
    Ristretto.compress dbg baseYp ≠ Ristretto.compress dbg Ed.BASEPOINT ∧
    Ristretto.compress rel baseYp ≠ Ristretto.compress rel Ed.BASEPOINT := by
  refine ⟨by decide, by decide, by decide +kernel, by decide +kernel, ?_, ?_⟩
  · rw [C69_ristretto_encode dbg (by decide)]; exact compress_baseYp_dbg
  · rw [C69_ristretto_encode rel (by decide)]; exact compress_baseYp_rel

theorem newFromY_xx (c : Cfg) (hc : c.Enough) (y : FE) (hy : y.WF) (sign : Bool) :
    Proj.newFromY c y sign = Field.modSqrt c (enc (xxOf y.toZ)) sign >>= fun o => match o with
      | none => .ok none
      | some x => .ok (some ⟨x, y, Field.one⟩) := by
  have h : dZ * (y.toZ * y.toZ) - -1 ≠ 0 := by
    rw [sub_neg_eq_add, add_comm]; exact dy_ne y.toZ
  unfold Proj.newFromY
  rw [square_wf c _ hy]
  simp only [Res.ok_bind, Field.one_enc, Field.sub_enc, EDWARDS_D_enc, EDWARDS_A_enc,
    Field.mul_enc, Field.div_enc c hc _ _ h]
  rfl

theorem modSqrt_form (c : Cfg) (hc : c.Enough) (a : Fp) (sign : Bool) :
    ∃ o : Option Fp, Field.modSqrt c (enc a) sign = .ok (o.map enc) := by
  by_cases h0 : a = 0
  · exact ⟨some 0, by rw [h0, modSqrt_zero]; rfl⟩
  by_cases hs : IsSquare a
  · exact ⟨_, (modSqrt_tsRoot a h0 hs c sign hc).trans (by rw [Option.map_some])⟩
  · exact ⟨none, by rw [modSqrt_nonsquare c hc a sign hs]; rfl⟩

/-- C104: points from a `y` coordinate: the extended point depends only on `y` modulo `p`, the projective point
keeps the unreduced `y`. -/
theorem C104_from_y (c : Cfg) (hc : c.Enough) (y y' : FE) (h : SameMod y y') (sign : Bool) :
    Ed.newFromY c y sign = Ed.newFromY c y' sign ∧
    (∀ P, Proj.newFromY c y sign = .ok (some P) ↔ P.Y = y ∧
      Proj.newFromY c y' sign = .ok (some ⟨P.X, y', P.Z⟩)) := by
  have e1 := newFromY_xx c hc y h.w1 sign
  have e2 := newFromY_xx c hc y' h.w2 sign
  rw [h.toZ] at e1
  unfold Ed.newFromY
  rw [e1, e2]
  obtain ⟨o, ho⟩ := modSqrt_form c hc (xxOf y'.toZ) sign
  rw [ho]
  cases o with
  | none => exact ⟨rfl, fun P => by constructor <;> intro h <;> simp at h⟩
  | some x =>
    have hm : Ed.ofProj c ⟨enc x, y, one⟩ = Ed.ofProj c ⟨enc x, y', one⟩ := by
      unfold Ed.ofProj
      dsimp only
      rw [mul_wf c y _ h.w1 (by decide), mul_wf c y' _ h.w2 (by decide), mul_wf c _ y (enc_WF _) h.w1,
        mul_wf c _ y' (enc_WF _) h.w2, h.toZ]
    refine ⟨?_, fun P => ?_⟩
    · simp only [Res.ok_bind, Option.map_some]
      rw [hm]
    · simp only [Res.ok_bind, Option.map_some, Res.ok_inj, Option.some.injEq]
      obtain ⟨X, Y, Z⟩ := P
      simp only [ProjPoint.mk.injEq]
      constructor
      · rintro ⟨rfl, rfl, rfl⟩; simp
      · rintro ⟨rfl, rfl, _, rfl⟩; simp

end Props
end Zerocaf
