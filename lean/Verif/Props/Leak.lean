import Verif.Proof.LeakInv

/-!
# C73: what the control flow reveals

`Model/Leak.lean` runs the functions of the library with a record of their control flow. The arithmetic of field
elements, scalars and points, the equality of field elements, scalars and of the prime order group, conditional
negation and the quadratic residue test leave the same record for all inputs. Inversion, the equality of Edwards
points, general powers and scalar multiplication do not: their records determine the inverted element, the exponent
and the scalar.
-/

set_option exponentiation.threshold 600

namespace Zerocaf
namespace Props

open Leak

/-- Both computations leave the same record. -/
def SameFlow {α : Type} (m m' : LM α) : Prop := m.tr = m'.tr

theorem sameFlow_ok {α : Type} {c : Cfg} {m m' : LM α} {t : List Ev} {x y : α} (h : Const c m t) (h' : Const c m' t)
    (hx : m.val = .ok x) (hy : m'.val = .ok y) : SameFlow m m' := (h.1 x hx).trans (h'.1 y hy).symm

theorem sameFlow_rel {α : Type} {c : Cfg} {m m' : LM α} {t : List Ev} (hc : c.debug = false) (h : Const c m t)
    (h' : Const c m' t) : SameFlow m m' := by
  obtain ⟨x, hx⟩ := h.2 hc
  obtain ⟨y, hy⟩ := h'.2 hc
  exact sameFlow_ok h h' hx hy

/-- C73: forgetting the record gives the functions of the model, so that the statements below are about them. -/
theorem C73_record_is_faithful (c : Cfg) (a b : FE) (s t : Sc) (P Q : EdPoint) (R S : ProjPoint) (ch : Bool) :
    ((Leak.Field.add c a b).val = Field.add c a b ∧ (Leak.Field.sub c a b).val = Field.sub c a b ∧
      (Leak.Field.neg c a).val = Field.neg c a ∧ (Leak.Field.mul c a b).val = Field.mul c a b ∧
      (Leak.Field.square c a).val = Field.square c a ∧ (Leak.Field.half c a).val = Field.half c a ∧
      (Leak.Field.ctEq a b).val = .ok (Field.ctEq a b) ∧
      (Leak.Field.condNegate c a ch).val = Field.condNegate c a ch ∧ (Leak.Field.pow c a b).val = Field.pow c a b ∧
      (Leak.Field.legendre c a).val = Field.legendre c a ∧ (Leak.Field.inverse c a).val = Field.inverse c a) ∧
    ((Leak.Scalar.add c s t).val = Scalar.add c s t ∧ (Leak.Scalar.sub c s t).val = Scalar.sub c s t ∧
      (Leak.Scalar.neg c s).val = Scalar.neg c s ∧ (Leak.Scalar.mul c s t).val = Scalar.mul c s t ∧
      (Leak.Scalar.square c s).val = Scalar.square c s ∧ (Leak.Scalar.half c s).val = Scalar.half c s ∧
      (Leak.Scalar.ctEq s t).val = .ok (Scalar.ctEq s t)) ∧
    ((Leak.Ed.neg c P).val = Ed.neg c P ∧ (Leak.Ed.add c P Q).val = Ed.add c P Q ∧
      (Leak.Ed.sub c P Q).val = Ed.sub c P Q ∧ (Leak.Ed.double c P).val = Ed.double c P ∧
      (Leak.Ed.ctEq c P Q).val = Ed.ctEq c P Q ∧ (Leak.Ristretto.ctEq c P Q).val = Ristretto.ctEq c P Q ∧
      (Leak.doubleAndAdd Leak.Ed.ops c P s).val = doubleAndAdd Ed.ops c P s ∧
      (Leak.ltrBinMul Leak.Ed.ops c P s).val = ltrBinMul Ed.ops c P s) ∧
    ((Leak.Proj.neg c R).val = Proj.neg c R ∧ (Leak.Proj.add c R S).val = Proj.add c R S ∧
      (Leak.Proj.sub c R S).val = Proj.sub c R S ∧ (Leak.Proj.double c R).val = Proj.double c R ∧
      (Leak.doubleAndAdd Leak.Proj.ops c R s).val = doubleAndAdd Proj.ops c R s ∧
      (Leak.ltrBinMul Leak.Proj.ops c R s).val = ltrBinMul Proj.ops c R s) :=
  ⟨⟨Field.add_val c a b, Field.sub_val c a b, Field.neg_val c a, Field.mul_val c a b, Field.square_val c a,
    Field.half_val c a, Field.ctEq_val a b, Field.condNegate_val c a ch, Field.pow_val c a b, Field.legendre_val c a,
    Field.inverse_val c a⟩,
   ⟨Scalar.add_val c s t, Scalar.sub_val c s t, Scalar.neg_val c s, Scalar.mul_val c s t, Scalar.square_val c s,
    Scalar.half_val c s, Scalar.ctEq_val s t⟩,
   ⟨Ed.neg_val c P, Ed.add_val c P Q, Ed.sub_val c P Q, Ed.double_val c P, Ed.ctEq_val c P Q, Ristretto.ctEq_val c P Q,
    by rw [doubleAndAdd_val, Leak.Ed.ops_erase], by rw [ltrBinMul_val, Leak.Ed.ops_erase]⟩,
   ⟨Proj.neg_val c R, Proj.add_val c R S, Proj.sub_val c R S, Proj.double_val c R,
    by rw [doubleAndAdd_val, Leak.Proj.ops_erase], by rw [ltrBinMul_val, Leak.Proj.ops_erase]⟩⟩

/-- C73: field arithmetic on reduced elements leaves the same record for all of them, in every build. -/
theorem C73_field (c : Cfg) (a b a' b' : FE) (ha : a.Canon) (hb : b.Canon) (ha' : a'.Canon) (hb' : b'.Canon)
    (ch ch' : Bool) :
    SameFlow (Leak.Field.add c a b) (Leak.Field.add c a' b') ∧
    SameFlow (Leak.Field.sub c a b) (Leak.Field.sub c a' b') ∧
    SameFlow (Leak.Field.neg c a) (Leak.Field.neg c a') ∧
    SameFlow (Leak.Field.mul c a b) (Leak.Field.mul c a' b') ∧
    SameFlow (Leak.Field.square c a) (Leak.Field.square c a') ∧
    SameFlow (Leak.Field.half c a) (Leak.Field.half c a') ∧
    SameFlow (Leak.Field.condNegate c a ch) (Leak.Field.condNegate c a' ch') := by
  obtain ⟨_, h1⟩ := Field.add_ct c
  obtain ⟨_, h2⟩ := Field.sub_ct c
  obtain ⟨_, h3⟩ := Field.neg_ct c
  obtain ⟨_, h4⟩ := Field.mul_ct c
  obtain ⟨_, h5⟩ := Field.square_ct c
  obtain ⟨_, h6⟩ := Field.half_ct c
  obtain ⟨_, h7⟩ := Field.condNegate_ct c
  have f : ∀ {x y : FE}, x.Canon → y.Canon → (∃ r, (Leak.Field.add c x y).val = .ok r) ∧
      (∃ r, (Leak.Field.sub c x y).val = .ok r) ∧ (∃ r, (Leak.Field.neg c x).val = .ok r) ∧
      (∃ r, (Leak.Field.mul c x y).val = .ok r) ∧ (∃ r, (Leak.Field.square c x).val = .ok r) ∧
      (∃ r, (Leak.Field.half c x).val = .ok r) ∧ ∀ ch, (∃ r, (Leak.Field.condNegate c x ch).val = .ok r) := by
    intro x y hx hy
    rw [Field.add_val, Field.sub_val, Field.neg_val, Field.mul_val, Field.square_val, Field.half_val]
    obtain ⟨r1, e1, _⟩ := Zerocaf.Field.add_spec c x y hx hy
    obtain ⟨r2, e2, _⟩ := Zerocaf.Field.sub_spec c x y hx hy
    obtain ⟨r3, e3, _⟩ := Zerocaf.Field.neg_spec c x hx
    obtain ⟨r4, e4, _⟩ := Zerocaf.Field.mul_spec c x y hx.1 hy.1
    obtain ⟨r5, e5, _⟩ := Zerocaf.Field.square_spec c x hx.1
    obtain ⟨r6, e6, _⟩ := Zerocaf.Field.half_spec c x hx.1
    refine ⟨⟨_, e1⟩, ⟨_, e2⟩, ⟨_, e3⟩, ⟨_, e4⟩, ⟨_, e5⟩, ⟨_, e6⟩, fun ch => ?_⟩
    rw [Field.condNegate_val]
    unfold Zerocaf.Field.condNegate
    rw [e3]
    exact ⟨_, rfl⟩
  obtain ⟨⟨_, f1⟩, ⟨_, f2⟩, ⟨_, f3⟩, ⟨_, f4⟩, ⟨_, f5⟩, ⟨_, f6⟩, f7⟩ := f ha hb
  obtain ⟨⟨_, g1⟩, ⟨_, g2⟩, ⟨_, g3⟩, ⟨_, g4⟩, ⟨_, g5⟩, ⟨_, g6⟩, g7⟩ := f ha' hb'
  obtain ⟨_, f7⟩ := f7 ch
  obtain ⟨_, g7⟩ := g7 ch'
  exact ⟨sameFlow_ok (h1 _ _) (h1 _ _) f1 g1, sameFlow_ok (h2 _ _) (h2 _ _) f2 g2, sameFlow_ok (h3 _) (h3 _) f3 g3,
    sameFlow_ok (h4 _ _) (h4 _ _) f4 g4, sameFlow_ok (h5 _) (h5 _) f5 g5, sameFlow_ok (h6 _) (h6 _) f6 g6,
    sameFlow_ok (h7 _ _) (h7 _ _) f7 g7⟩

/-- C73: the same for scalars. -/
theorem C73_scalar (c : Cfg) (a b a' b' : Sc) (ha : a.SCanon) (hb : b.SCanon) (ha' : a'.SCanon) (hb' : b'.SCanon) :
    SameFlow (Leak.Scalar.add c a b) (Leak.Scalar.add c a' b') ∧
    SameFlow (Leak.Scalar.sub c a b) (Leak.Scalar.sub c a' b') ∧
    SameFlow (Leak.Scalar.neg c a) (Leak.Scalar.neg c a') ∧
    SameFlow (Leak.Scalar.mul c a b) (Leak.Scalar.mul c a' b') ∧
    SameFlow (Leak.Scalar.square c a) (Leak.Scalar.square c a') ∧
    SameFlow (Leak.Scalar.half c a) (Leak.Scalar.half c a') := by
  obtain ⟨_, h1⟩ := Scalar.add_ct c
  obtain ⟨_, h2⟩ := Scalar.sub_ct c
  obtain ⟨_, h3⟩ := Scalar.neg_ct c
  obtain ⟨_, h4⟩ := Scalar.mul_ct c
  obtain ⟨_, h5⟩ := Scalar.square_ct c
  obtain ⟨_, h6⟩ := Scalar.half_ct c
  have f : ∀ {x y : Sc}, x.SCanon → y.SCanon → (∃ r, (Leak.Scalar.add c x y).val = .ok r) ∧
      (∃ r, (Leak.Scalar.sub c x y).val = .ok r) ∧ (∃ r, (Leak.Scalar.neg c x).val = .ok r) ∧
      (∃ r, (Leak.Scalar.mul c x y).val = .ok r) ∧ (∃ r, (Leak.Scalar.square c x).val = .ok r) ∧
      (∃ r, (Leak.Scalar.half c x).val = .ok r) := by
    intro x y hx hy
    rw [Scalar.add_val, Scalar.sub_val, Scalar.neg_val, Scalar.mul_val, Scalar.square_val, Scalar.half_val]
    obtain ⟨r1, e1, _⟩ := Zerocaf.Scalar.add_spec c x y hx hy
    obtain ⟨r2, e2, _⟩ := Zerocaf.Scalar.sub_spec c x y hx hy
    obtain ⟨r3, e3, _⟩ := Zerocaf.Scalar.neg_spec c x hx
    obtain ⟨r4, e4, _⟩ := Zerocaf.Scalar.mul_spec c x y hx.1 hy.1
    obtain ⟨r5, e5, _⟩ := Zerocaf.Scalar.square_spec c x hx.1
    obtain ⟨r6, e6, _⟩ := Zerocaf.Scalar.half_spec c x hx.1
    exact ⟨⟨_, e1⟩, ⟨_, e2⟩, ⟨_, e3⟩, ⟨_, e4⟩, ⟨_, e5⟩, ⟨_, e6⟩⟩
  obtain ⟨⟨_, f1⟩, ⟨_, f2⟩, ⟨_, f3⟩, ⟨_, f4⟩, ⟨_, f5⟩, ⟨_, f6⟩⟩ := f ha hb
  obtain ⟨⟨_, g1⟩, ⟨_, g2⟩, ⟨_, g3⟩, ⟨_, g4⟩, ⟨_, g5⟩, ⟨_, g6⟩⟩ := f ha' hb'
  exact ⟨sameFlow_ok (h1 _ _) (h1 _ _) f1 g1, sameFlow_ok (h2 _ _) (h2 _ _) f2 g2, sameFlow_ok (h3 _) (h3 _) f3 g3,
    sameFlow_ok (h4 _ _) (h4 _ _) f4 g4, sameFlow_ok (h5 _) (h5 _) f5 g5, sameFlow_ok (h6 _) (h6 _) f6 g6⟩

/-- C73: in release builds the same holds for all limbs, reduced or not, and for all coordinates. -/
theorem C73_release (c : Cfg) (hc : c.debug = false) (a b a' b' : FE) (s t s' t' : Sc) (P Q P' Q' : EdPoint)
    (R S R' S' : ProjPoint) (ch ch' : Bool) :
    (SameFlow (Leak.Field.add c a b) (Leak.Field.add c a' b') ∧
      SameFlow (Leak.Field.sub c a b) (Leak.Field.sub c a' b') ∧
      SameFlow (Leak.Field.neg c a) (Leak.Field.neg c a') ∧
      SameFlow (Leak.Field.mul c a b) (Leak.Field.mul c a' b') ∧
      SameFlow (Leak.Field.square c a) (Leak.Field.square c a') ∧
      SameFlow (Leak.Field.half c a) (Leak.Field.half c a') ∧
      SameFlow (Leak.Field.condNegate c a ch) (Leak.Field.condNegate c a' ch')) ∧
    (SameFlow (Leak.Scalar.add c s t) (Leak.Scalar.add c s' t') ∧
      SameFlow (Leak.Scalar.sub c s t) (Leak.Scalar.sub c s' t') ∧
      SameFlow (Leak.Scalar.neg c s) (Leak.Scalar.neg c s') ∧
      SameFlow (Leak.Scalar.mul c s t) (Leak.Scalar.mul c s' t') ∧
      SameFlow (Leak.Scalar.square c s) (Leak.Scalar.square c s') ∧
      SameFlow (Leak.Scalar.half c s) (Leak.Scalar.half c s')) ∧
    (SameFlow (Leak.Ed.add c P Q) (Leak.Ed.add c P' Q') ∧ SameFlow (Leak.Ed.sub c P Q) (Leak.Ed.sub c P' Q') ∧
      SameFlow (Leak.Ed.double c P) (Leak.Ed.double c P') ∧ SameFlow (Leak.Ed.neg c P) (Leak.Ed.neg c P') ∧
      SameFlow (Leak.Ristretto.ctEq c P Q) (Leak.Ristretto.ctEq c P' Q')) ∧
    (SameFlow (Leak.Proj.add c R S) (Leak.Proj.add c R' S') ∧ SameFlow (Leak.Proj.sub c R S) (Leak.Proj.sub c R' S') ∧
      SameFlow (Leak.Proj.double c R) (Leak.Proj.double c R') ∧
      SameFlow (Leak.Proj.neg c R) (Leak.Proj.neg c R')) := by
  obtain ⟨_, h1⟩ := Field.add_ct c
  obtain ⟨_, h2⟩ := Field.sub_ct c
  obtain ⟨_, h3⟩ := Field.neg_ct c
  obtain ⟨_, h4⟩ := Field.mul_ct c
  obtain ⟨_, h5⟩ := Field.square_ct c
  obtain ⟨_, h6⟩ := Field.half_ct c
  obtain ⟨_, h7⟩ := Field.condNegate_ct c
  obtain ⟨_, i1⟩ := Scalar.add_ct c
  obtain ⟨_, i2⟩ := Scalar.sub_ct c
  obtain ⟨_, i3⟩ := Scalar.neg_ct c
  obtain ⟨_, i4⟩ := Scalar.mul_ct c
  obtain ⟨_, i5⟩ := Scalar.square_ct c
  obtain ⟨_, i6⟩ := Scalar.half_ct c
  obtain ⟨_, j1⟩ := Ed.add_ct c
  obtain ⟨_, j2⟩ := Ed.sub_ct c
  obtain ⟨_, j3⟩ := Ed.double_ct c
  obtain ⟨_, j4⟩ := Ed.neg_ct c
  obtain ⟨_, j5⟩ := Ristretto.ctEq_ct c
  obtain ⟨_, k1⟩ := Proj.add_ct c
  obtain ⟨_, k2⟩ := Proj.sub_ct c
  obtain ⟨_, k3⟩ := Proj.double_ct c
  obtain ⟨_, k4⟩ := Proj.neg_ct c
  exact ⟨⟨sameFlow_rel hc (h1 _ _) (h1 _ _), sameFlow_rel hc (h2 _ _) (h2 _ _), sameFlow_rel hc (h3 _) (h3 _),
      sameFlow_rel hc (h4 _ _) (h4 _ _), sameFlow_rel hc (h5 _) (h5 _), sameFlow_rel hc (h6 _) (h6 _),
      sameFlow_rel hc (h7 _ _) (h7 _ _)⟩,
    ⟨sameFlow_rel hc (i1 _ _) (i1 _ _), sameFlow_rel hc (i2 _ _) (i2 _ _), sameFlow_rel hc (i3 _) (i3 _),
      sameFlow_rel hc (i4 _ _) (i4 _ _), sameFlow_rel hc (i5 _) (i5 _), sameFlow_rel hc (i6 _) (i6 _)⟩,
    ⟨sameFlow_rel hc (j1 _ _) (j1 _ _), sameFlow_rel hc (j2 _ _) (j2 _ _), sameFlow_rel hc (j3 _) (j3 _),
      sameFlow_rel hc (j4 _) (j4 _), sameFlow_rel hc (j5 _ _) (j5 _ _)⟩,
    ⟨sameFlow_rel hc (k1 _ _) (k1 _ _), sameFlow_rel hc (k2 _ _) (k2 _ _), sameFlow_rel hc (k3 _) (k3 _),
      sameFlow_rel hc (k4 _) (k4 _)⟩⟩

/-- C73: equality of field elements, of scalars and of affine points leaves the same record for all operands, equal
or not, reduced or not. -/
theorem C73_equality (a b a' b' : FE) (s t s' t' : Sc) (P Q P' Q' : AffPoint) :
    SameFlow (Leak.Field.ctEq a b) (Leak.Field.ctEq a' b') ∧
    SameFlow (Leak.Scalar.ctEq s t) (Leak.Scalar.ctEq s' t') ∧
    SameFlow (Leak.Aff.ctEq P Q) (Leak.Aff.ctEq P' Q') := by
  refine ⟨(Field.ctEq_tr a b).trans (Field.ctEq_tr a' b').symm, (sctEq_tr s t).trans (sctEq_tr s' t').symm, ?_⟩
  obtain ⟨_, h⟩ := Aff.ctEq_ct dbg
  exact sameFlow_ok (h P Q) (h P' Q') (Aff.ctEq_val P Q) (Aff.ctEq_val P' Q')

/-- C73: point arithmetic and the equality of the prime order group, on reduced coordinates and in every build. -/
theorem C73_points (c : Cfg) (P Q P' Q' : EdPoint) (hP : P.Red) (hQ : Q.Red) (hP' : P'.Red) (hQ' : Q'.Red)
    (R S R' S' : ProjPoint) (hR : R.Red) (hS : S.Red) (hR' : R'.Red) (hS' : S'.Red) :
    (SameFlow (Leak.Ed.add c P Q) (Leak.Ed.add c P' Q') ∧ SameFlow (Leak.Ed.sub c P Q) (Leak.Ed.sub c P' Q') ∧
      SameFlow (Leak.Ed.double c P) (Leak.Ed.double c P') ∧ SameFlow (Leak.Ed.neg c P) (Leak.Ed.neg c P') ∧
      SameFlow (Leak.Ristretto.ctEq c P Q) (Leak.Ristretto.ctEq c P' Q')) ∧
    (SameFlow (Leak.Proj.add c R S) (Leak.Proj.add c R' S') ∧ SameFlow (Leak.Proj.sub c R S) (Leak.Proj.sub c R' S') ∧
      SameFlow (Leak.Proj.double c R) (Leak.Proj.double c R') ∧
      SameFlow (Leak.Proj.neg c R) (Leak.Proj.neg c R')) := by
  obtain ⟨_, j1⟩ := Ed.add_ct c
  obtain ⟨_, j2⟩ := Ed.sub_ct c
  obtain ⟨_, j3⟩ := Ed.double_ct c
  obtain ⟨_, j4⟩ := Ed.neg_ct c
  obtain ⟨_, j5⟩ := Ristretto.ctEq_ct c
  obtain ⟨_, k1⟩ := Proj.add_ct c
  obtain ⟨_, k2⟩ := Proj.sub_ct c
  obtain ⟨_, k3⟩ := Proj.double_ct c
  obtain ⟨_, k4⟩ := Proj.neg_ct c
  have f : ∀ {A B : EdPoint}, A.Red → B.Red → (∃ r, (Leak.Ed.add c A B).val = .ok r) ∧
      (∃ r, (Leak.Ed.sub c A B).val = .ok r) ∧ (∃ r, (Leak.Ed.double c A).val = .ok r) ∧
      (∃ r, (Leak.Ed.neg c A).val = .ok r) ∧ (∃ r, (Leak.Ristretto.ctEq c A B).val = .ok r) := by
    intro A B hA hB
    rw [Ed.add_val, Ed.sub_val, Ed.double_val, Ed.neg_val, Ristretto.ctEq_val]
    obtain ⟨_, _, _, _, _, _, _, _, e⟩ := C89_extended_ops A B hA hB
    refine ⟨⟨_, (e c).1⟩, ⟨_, (e c).2.1⟩, ⟨_, (e c).2.2.1⟩, ⟨_, (e c).2.2.2⟩, ?_⟩
    rw [hA.form, hB.form]
    simp only [Zerocaf.Ristretto.ctEq, Zerocaf.Field.mul_enc, Res.ok_bind, Res.pure_eq]
    exact ⟨_, rfl⟩
  have g : ∀ {A B : ProjPoint}, A.Red → B.Red → (∃ r, (Leak.Proj.add c A B).val = .ok r) ∧
      (∃ r, (Leak.Proj.sub c A B).val = .ok r) ∧ (∃ r, (Leak.Proj.double c A).val = .ok r) ∧
      (∃ r, (Leak.Proj.neg c A).val = .ok r) := by
    intro A B hA hB
    rw [Proj.add_val, Proj.sub_val, Proj.double_val, Proj.neg_val]
    obtain ⟨_, _, _, _, _, _, _, _, e⟩ := C89_projective_ops A B hA hB
    exact ⟨⟨_, (e c).1⟩, ⟨_, (e c).2.1⟩, ⟨_, (e c).2.2.1⟩, ⟨_, (e c).2.2.2⟩⟩
  obtain ⟨⟨_, f1⟩, ⟨_, f2⟩, ⟨_, f3⟩, ⟨_, f4⟩, ⟨_, f5⟩⟩ := f hP hQ
  obtain ⟨⟨_, f1'⟩, ⟨_, f2'⟩, ⟨_, f3'⟩, ⟨_, f4'⟩, ⟨_, f5'⟩⟩ := f hP' hQ'
  obtain ⟨⟨_, g1⟩, ⟨_, g2⟩, ⟨_, g3⟩, ⟨_, g4⟩⟩ := g hR hS
  obtain ⟨⟨_, g1'⟩, ⟨_, g2'⟩, ⟨_, g3'⟩, ⟨_, g4'⟩⟩ := g hR' hS'
  exact ⟨⟨sameFlow_ok (j1 _ _) (j1 _ _) f1 f1', sameFlow_ok (j2 _ _) (j2 _ _) f2 f2',
      sameFlow_ok (j3 _) (j3 _) f3 f3', sameFlow_ok (j4 _) (j4 _) f4 f4', sameFlow_ok (j5 _ _) (j5 _ _) f5 f5'⟩,
    ⟨sameFlow_ok (k1 _ _) (k1 _ _) g1 g1', sameFlow_ok (k2 _ _) (k2 _ _) g2 g2', sameFlow_ok (k3 _) (k3 _) g3 g3',
      sameFlow_ok (k4 _) (k4 _) g4 g4'⟩⟩

/-- C73: the record of a power is a function of the exponent, and determines it. -/
theorem C73_pow (c : Cfg) (hc : c.Enough) (a a' e e' : FE) (ha : a.WF) (ha' : a'.WF) (he : e.WF) (he' : e'.WF) :
    SameFlow (Leak.Field.pow c a e) (Leak.Field.pow c a' e') ↔ e = e' := by
  have h1 := (Field.pow_val c a e).trans (Zerocaf.Field.pow_wf c hc a e ha he)
  have h2 := (Field.pow_val c a' e').trans (Zerocaf.Field.pow_wf c hc a' e' ha' he')
  constructor
  · intro h
    obtain ⟨tm, hm⟩ := Field.mul_ct c
    obtain ⟨ts, hs⟩ := Field.sub_ct c
    exact he.ext he' (Field.powLoop_inj c tm ts hm hs c.fuel c.fuel _ _ e _ _ e' _ _ [] [] he he' h1 h2
      (congrArg (· ++ []) h))
  · rintro rfl
    obtain ⟨t, ht⟩ := Field.powLoop_ret c c.fuel e
    exact (ht _ _ _ h1).trans (ht _ _ _ h2).symm

/-- C73: the quadratic residue test leaves the same record for all elements. -/
theorem C73_legendre (c : Cfg) (hc : c.Enough) (a a' : FE) (ha : a.WF) (ha' : a'.WF) :
    SameFlow (Leak.Field.legendre c a) (Leak.Field.legendre c a') := by
  have w := Zerocaf.Field.MINUS_ONE_HALF_spec.1
  have h1 := (Field.pow_val c a _).trans (Zerocaf.Field.pow_wf c hc a Zerocaf.Field.MINUS_ONE_HALF ha w)
  have h2 := (Field.pow_val c a' _).trans (Zerocaf.Field.pow_wf c hc a' Zerocaf.Field.MINUS_ONE_HALF ha' w)
  have h := (C73_pow c hc a a' _ _ ha ha' w w).2 rfl
  unfold SameFlow at h ⊢
  unfold Leak.Field.legendre
  rw [LM.tr_bind _ _ _ h1, LM.tr_bind _ _ _ h2, h, LM.tr_bind _ _ _ (Field.ctEq_val _ _),
    LM.tr_bind _ _ _ (Field.ctEq_val _ _), Field.ctEq_tr, Field.ctEq_tr, LM.tr_pure, LM.tr_pure]

/-- C73: the record of an inversion determines the inverted element. -/
theorem C73_inverse (c : Cfg) (hc : c.Enough) (a b : FE) (ha : a.Canon) (hb : b.Canon) (ha0 : a.val ≠ 0)
    (hb0 : b.val ≠ 0) : SameFlow (Leak.Field.inverse c a) (Leak.Field.inverse c b) ↔ a = b := by
  constructor
  · intro h
    have f : ∀ {x : FE}, x.Canon → x.val ≠ 0 → x.toZ ≠ 0 := fun hx h0 h => h0 (by
      unfold L5.toZ at h
      rw [ZMod.natCast_eq_zero_iff] at h
      exact Nat.eq_zero_of_dvd_of_lt h hx.2)
    have g : ∀ {x : FE}, x.Canon → x.val ≠ 0 → ¬p ∣ x.val := fun hx h0 h =>
      h0 (Nat.eq_zero_of_dvd_of_lt h hx.2)
    exact Field.inverse_inj c a b _ _ ha.1 hb.1 (g ha ha0) (g hb hb0)
      ((Field.inverse_val c a).trans (Zerocaf.Field.inverse_wf c hc a ha.1 (Zerocaf.Field.canon_lt256 ha) (f ha ha0)))
      ((Field.inverse_val c b).trans (Zerocaf.Field.inverse_wf c hc b hb.1 (Zerocaf.Field.canon_lt256 hb) (f hb hb0)))
      [] [] (congrArg (· ++ []) h)
  · rintro rfl
    rfl

/-- C73: the record of an equality test of Edwards points determines the third coordinates of both. -/
theorem C73_edwards_equality (c : Cfg) (hc : c.Enough) (P Q P' Q' : EdPoint) (hP : P.Red) (hQ : Q.Red) (hP' : P'.Red)
    (hQ' : Q'.Red) (zP : P.Z.val ≠ 0) (zQ : Q.Z.val ≠ 0) (zP' : P'.Z.val ≠ 0) (zQ' : Q'.Z.val ≠ 0) :
    SameFlow (Leak.Ed.ctEq c P Q) (Leak.Ed.ctEq c P' Q') ↔ P.Z = P'.Z ∧ Q.Z = Q'.Z := by
  have g : ∀ {x : FE}, x.Canon → x.val ≠ 0 → ¬p ∣ x.val := fun hx h0 h =>
    h0 (Nat.eq_zero_of_dvd_of_lt h hx.2)
  have i : ∀ {x : FE}, x.Canon → x.val ≠ 0 → ∃ y, (Leak.Field.inverse c x).val = .ok y := fun {x} hx h0 =>
    ⟨_, (Field.inverse_val c x).trans (Zerocaf.Field.inverse_wf c hc x hx.1 (Zerocaf.Field.canon_lt256 hx)
      (fun h => g hx h0 (by unfold L5.toZ at h; rwa [ZMod.natCast_eq_zero_iff] at h)))⟩
  obtain ⟨tm, hm⟩ := Field.mul_ct c
  obtain ⟨te, hte⟩ := Aff.ctEq_ct c
  -- the conversion to affine coordinates
  have aff : ∀ {A : EdPoint}, A.Red → A.Z.val ≠ 0 → ∃ r, (Leak.Aff.ofEd c A).val = .ok r ∧
      (Leak.Aff.ofEd c A).tr = (Leak.Field.inverse c A.Z).tr ++ (tm ++ (tm ++ [])) := by
    intro A hA h0
    obtain ⟨y, hy⟩ := i hA.2.2.1 h0
    have hv : ∃ r, (Leak.Aff.ofEd c A).val = .ok r := by
      rw [Aff.ofEd_val, hA.form, Aff_ofEd_enc c hc _ _ _ _ ((val_ne hA.2.2.1).2 h0)]
      exact ⟨_, rfl⟩
    obtain ⟨r, hr⟩ := hv
    refine ⟨r, hr, ?_⟩
    unfold Leak.Aff.ofEd at hr ⊢
    rw [LM.tr_bind _ _ _ hy]
    rw [LM.val_bind, hy, Res.ok_bind] at hr
    obtain ⟨m1, hm1, hr⟩ := bind_ok hr
    rw [LM.tr_bind _ _ _ hm1, (hm _ _).1 _ hm1]
    obtain ⟨m2, hm2, hr⟩ := bind_ok hr
    rw [LM.tr_bind _ _ _ hm2, (hm _ _).1 _ hm2, LM.tr_pure]
  have eqn : ∀ {A B : EdPoint}, A.Red → B.Red → A.Z.val ≠ 0 → B.Z.val ≠ 0 →
      (Leak.Ed.ctEq c A B).tr = (Leak.Field.inverse c A.Z).tr ++ ((tm ++ (tm ++ [])) ++
        ((Leak.Field.inverse c B.Z).tr ++ ((tm ++ (tm ++ [])) ++ te))) := by
    intro A B hA hB hA0 hB0
    obtain ⟨r, hr, er⟩ := aff hA hA0
    obtain ⟨s, hs, es⟩ := aff hB hB0
    unfold Leak.Ed.ctEq
    rw [LM.tr_bind _ _ _ hr, er, LM.tr_bind _ _ _ hs, es, (hte r s).1 _ (Aff.ctEq_val r s)]
    simp only [List.append_assoc]
  unfold SameFlow
  rw [eqn hP hQ zP zQ, eqn hP' hQ' zP' zQ']
  constructor
  · intro h
    obtain ⟨y1, e1⟩ := i hP.2.2.1 zP
    obtain ⟨y2, e2⟩ := i hQ.2.2.1 zQ
    obtain ⟨y3, e3⟩ := i hP'.2.2.1 zP'
    obtain ⟨y4, e4⟩ := i hQ'.2.2.1 zQ'
    have h1 := Field.inverse_inj c _ _ _ _ hP.2.2.1.1 hP'.2.2.1.1 (g hP.2.2.1 zP) (g hP'.2.2.1 zP') e1 e3 _ _ h
    rw [h1] at h
    have h2 := List.append_cancel_left (List.append_cancel_left h)
    exact ⟨h1, Field.inverse_inj c _ _ _ _ hQ.2.2.1.1 hQ'.2.2.1.1 (g hQ.2.2.1 zQ) (g hQ'.2.2.1 zQ') e2 e4 _ _ h2⟩
  · rintro ⟨h1, h2⟩
    rw [h1, h2]

/-- C73: multiplication by doubling and adding: the record is a function of the scalar, whatever the point, and
determines the scalar. -/
theorem C73_double_and_add (c : Cfg) (hc : c.Enough) (P P' : EdPoint) (hP : P.Red) (hP' : P'.Red) (R R' : ProjPoint)
    (hR : R.Red) (hR' : R'.Red) (s s' : Sc) (hs : s.SCanon) (hs' : s'.SCanon) :
    (SameFlow (Leak.doubleAndAdd Leak.Ed.ops c P s) (Leak.doubleAndAdd Leak.Ed.ops c P' s') ↔ s = s') ∧
    (SameFlow (Leak.doubleAndAdd Leak.Proj.ops c R s) (Leak.doubleAndAdd Leak.Proj.ops c R' s') ↔ s = s') := by
  have gen : ∀ {T : Type} (O : Leak.PointOps T) (ta td : List Ev), (∀ a b, Ret (O.add c a b) ta) →
      (∀ a, Ret (O.double c a) td) → ∀ (A A' X X' : T), (Leak.doubleAndAdd O c A s).val = .ok X →
      (Leak.doubleAndAdd O c A' s').val = .ok X' →
      (SameFlow (Leak.doubleAndAdd O c A s) (Leak.doubleAndAdd O c A' s') ↔ s = s') := by
    intro T O ta td ha hd A A' X X' hX hX'
    constructor
    · intro h
      exact hs.1.ext hs'.1 (daa_inj O c ta td ha hd c.fuel c.fuel A s _ X A' s' _ X' [] [] hs.1
        (Zerocaf.Scalar.scanon_lt256 hs) hs'.1 (Zerocaf.Scalar.scanon_lt256 hs') hX hX' (congrArg (· ++ []) h))
    · rintro rfl
      obtain ⟨t, ht⟩ := daa_ret O c ta td ha hd c.fuel s hs.1 (Zerocaf.Scalar.scanon_lt256 hs)
      exact (ht _ _ _ hX).trans (ht _ _ _ hX').symm
  obtain ⟨ta, ha⟩ := Ed.add_ct c
  obtain ⟨td, hd⟩ := Ed.double_ct c
  obtain ⟨ta', ha'⟩ := Proj.add_ct c
  obtain ⟨td', hd'⟩ := Proj.double_ct c
  obtain ⟨X, _, e⟩ := Zerocaf.Ed.totSpec.daa hP s hs.1 (Zerocaf.Scalar.scanon_lt256 hs)
  obtain ⟨X', _, e'⟩ := Zerocaf.Ed.totSpec.daa hP' s' hs'.1 (Zerocaf.Scalar.scanon_lt256 hs')
  obtain ⟨Y, _, f⟩ := Zerocaf.Proj.totSpec.daa hR s hs.1 (Zerocaf.Scalar.scanon_lt256 hs)
  obtain ⟨Y', _, f'⟩ := Zerocaf.Proj.totSpec.daa hR' s' hs'.1 (Zerocaf.Scalar.scanon_lt256 hs')
  refine ⟨gen Leak.Ed.ops ta td (fun a b => (ha a b).ret) (fun a => (hd a).ret) P P' X X' ?_ ?_,
    gen Leak.Proj.ops ta' td' (fun a b => (ha' a b).ret) (fun a => (hd' a).ret) R R' Y Y' ?_ ?_⟩
  · rw [doubleAndAdd_val, Leak.Ed.ops_erase, e c hc]
  · rw [doubleAndAdd_val, Leak.Ed.ops_erase, e' c hc]
  · rw [doubleAndAdd_val, Leak.Proj.ops_erase, f c hc]
  · rw [doubleAndAdd_val, Leak.Proj.ops_erase, f' c hc]

theorem ltrLoop_congr {T : Type} (O : Leak.PointOps T) (c : Cfg) (P : T) (b b' : Vector UInt8 256) :
    ∀ (n : ℕ) (hn : n ≤ 256) (Q : T), (∀ (i : ℕ) (hi : i < n), b[i] = b'[i]) →
      Leak.ltrLoop O c P b n hn Q = Leak.ltrLoop O c P b' n hn Q := by
  intro n
  induction n with
  | zero => intro hn Q _; rfl
  | succ n ih =>
    intro hn Q h
    have e : b[n] = b'[n] := h n (by omega)
    have f : (fun R => Leak.ltrLoop O c P b n (by omega) R) = fun R => Leak.ltrLoop O c P b' n (by omega) R :=
      funext fun R => ih (by omega) R (fun i hi => h i (by omega))
    have f' : ∀ R, Leak.ltrLoop O c P b n (by omega) R = Leak.ltrLoop O c P b' n (by omega) R := fun R => congrFun f R
    rw [Leak.ltrLoop, Leak.ltrLoop, e]
    simp only [f']

/-- The lowest binary digits and the residue modulo a power of two. -/
theorem mod_eq_iff_digits (a b n : ℕ) : a % 2 ^ n = b % 2 ^ n ↔ ∀ i < n, a / 2 ^ i % 2 = b / 2 ^ i % 2 := by
  constructor
  · intro h i hi
    have f : ∀ m : ℕ, m / 2 ^ i % 2 = (m % 2 ^ n / 2 ^ i) % 2 := by
      intro m
      have e : 2 ^ n = 2 ^ i * 2 ^ (n - i) := by rw [← pow_add]; congr 1; omega
      rw [e, Nat.mod_mul_right_div_self, Nat.mod_mod_of_dvd]
      exact dvd_pow_self 2 (by omega)
    rw [f a, f b, h]
  · intro h
    refine Nat.eq_of_testBit_eq fun i => ?_
    rw [Nat.testBit_mod_two_pow, Nat.testBit_mod_two_pow]
    by_cases hi : i < n
    · have := h i hi
      rw [Nat.testBit_eq_decide_div_mod_eq, Nat.testBit_eq_decide_div_mod_eq, this]
    · simp [hi]

theorem bit_toNat (u v : UInt8) (a b : ℕ) (hu : u.toNat = a % 2) (hv : v.toNat = b % 2) (h : (u == 1) = (v == 1)) :
    u.toNat = v.toNat := by
  rw [Bool.eq_iff_iff, beq_iff_eq, beq_iff_eq, ← UInt8.toNat_inj, ← UInt8.toNat_inj] at h
  have h1 : (1 : UInt8).toNat = 1 := rfl
  rw [h1] at h
  omega

/-- C73: multiplication from the left: the record is a function of the scalar, whatever the point, and determines the
249 digits it uses. -/
theorem C73_ltr_bin_mul (c : Cfg) (P P' : EdPoint) (hP : P.Red) (hP' : P'.Red) (R R' : ProjPoint)
    (hR : R.Red) (hR' : R'.Red) (s s' : Sc) (hs : s.SCanon) (hs' : s'.SCanon) :
    (SameFlow (Leak.ltrBinMul Leak.Ed.ops c P s) (Leak.ltrBinMul Leak.Ed.ops c P' s') ↔
      s.val % 2 ^ 249 = s'.val % 2 ^ 249) ∧
    (SameFlow (Leak.ltrBinMul Leak.Proj.ops c R s) (Leak.ltrBinMul Leak.Proj.ops c R' s') ↔
      s.val % 2 ^ 249 = s'.val % 2 ^ 249) := by
  obtain ⟨b1, _⟩ := Zerocaf.Scalar.intoBits_spec s hs.1 (Zerocaf.Scalar.scanon_lt256 hs)
  obtain ⟨b2, _⟩ := Zerocaf.Scalar.intoBits_spec s' hs'.1 (Zerocaf.Scalar.scanon_lt256 hs')
  have gen : ∀ {T : Type} (O : Leak.PointOps T) (ta td : List Ev), (∀ a b, Ret (O.add c a b) ta) →
      (∀ a, Ret (O.double c a) td) → ∀ (A A' X X' : T), (Leak.ltrBinMul O c A s).val = .ok X →
      (Leak.ltrBinMul O c A' s').val = .ok X' →
      (SameFlow (Leak.ltrBinMul O c A s) (Leak.ltrBinMul O c A' s') ↔ s.val % 2 ^ 249 = s'.val % 2 ^ 249) := by
    intro T O ta td ha hd A A' X X' hX hX'
    rw [mod_eq_iff_digits]
    constructor
    · intro h i hi
      have := ltr_inj O c ta td ha hd A A' _ _ 249 (by omega) _ _ X X' [] [] hX hX' (congrArg (· ++ []) h) i hi
      exact (b1 i (by omega)).symm.trans ((bit_toNat _ _ _ _ (b1 i (by omega)) (b2 i (by omega)) this).trans
        (b2 i (by omega)))
    · intro h
      have e : Leak.ltrBinMul O c A s = Leak.ltrBinMul O c A s' :=
        ltrLoop_congr O c A _ _ 249 (by omega) _ fun i hi =>
          UInt8.toNat_inj.1 (by rw [b1 i (by omega), b2 i (by omega), h i hi])
      rw [e] at hX ⊢
      obtain ⟨t, ht⟩ := ltr_ret O c ta td ha hd (Zerocaf.Scalar.intoBits s') 249 (by omega)
      exact (ht _ _ _ hX).trans (ht _ _ _ hX').symm
  obtain ⟨ta, ha⟩ := Ed.add_ct c
  obtain ⟨td, hd⟩ := Ed.double_ct c
  obtain ⟨ta', ha'⟩ := Proj.add_ct c
  obtain ⟨td', hd'⟩ := Proj.double_ct c
  obtain ⟨X, _, e⟩ := Zerocaf.Ed.totSpec.ltrLoop hP (Zerocaf.Scalar.intoBits s) 249 (by omega) _
    Zerocaf.Ed.totSpec.identity
  obtain ⟨X', _, e'⟩ := Zerocaf.Ed.totSpec.ltrLoop hP' (Zerocaf.Scalar.intoBits s') 249 (by omega) _
    Zerocaf.Ed.totSpec.identity
  obtain ⟨Y, _, f⟩ := Zerocaf.Proj.totSpec.ltrLoop hR (Zerocaf.Scalar.intoBits s) 249 (by omega) _
    Zerocaf.Proj.totSpec.identity
  obtain ⟨Y', _, f'⟩ := Zerocaf.Proj.totSpec.ltrLoop hR' (Zerocaf.Scalar.intoBits s') 249 (by omega) _
    Zerocaf.Proj.totSpec.identity
  refine ⟨gen Leak.Ed.ops ta td (fun a b => (ha a b).ret) (fun a => (hd a).ret) P P' X X' ?_ ?_,
    gen Leak.Proj.ops ta' td' (fun a b => (ha' a b).ret) (fun a => (hd' a).ret) R R' Y Y' ?_ ?_⟩
  · rw [ltrBinMul_val, Leak.Ed.ops_erase]; exact e c
  · rw [ltrBinMul_val, Leak.Ed.ops_erase]; exact e' c
  · rw [ltrBinMul_val, Leak.Proj.ops_erase]; exact f c
  · rw [ltrBinMul_val, Leak.Proj.ops_erase]; exact f' c

/-- The hypotheses are met by different elements, scalars and points. -/
example : Field.one.Canon ∧ Field.minusOne.Canon ∧ Field.one ≠ Field.minusOne ∧ Scalar.one.SCanon ∧
    Scalar.minusOne.SCanon ∧ Scalar.one ≠ Scalar.minusOne ∧ Ed.identity.Red ∧ Zerocaf.Ed.BASEPOINT.Red ∧
    Proj.identity.Red ∧ (⟨Field.one, Field.one, Field.one⟩ : ProjPoint).Red ∧ dbg.Enough ∧ rel.Enough ∧
    Field.one.val ≠ 0 ∧ Field.minusOne.val ≠ 0 ∧ rel.debug = false := by
  refine ⟨by decide, by decide, by decide, by decide, by decide, by decide, ⟨by decide, by decide, by decide, by decide⟩,
    ⟨by decide, by decide, by decide, by decide⟩, ⟨by decide, by decide, by decide⟩, ⟨by decide, by decide, by decide⟩,
    by decide, by decide, by decide, by decide, rfl⟩

/-- The record of a small multiplication: two doublings more for `5` than for `1`, and an addition for each digit. -/
example : ((Leak.doubleAndAdd Leak.Ed.ops rel Ed.identity (Scalar.fromU32 5)).tr.filter
      fun e => match e with | .br .daaOdd _ => true | _ => false) = [.br .daaOdd true, .br .daaOdd false,
    .br .daaOdd true] := by
  decide +kernel

/-- Two inputs told apart by the record of an inversion, and two that are not by that of a product. -/
example : ¬SameFlow (Leak.Field.inverse rel Field.one) (Leak.Field.inverse rel Field.minusOne) ∧
    SameFlow (Leak.Field.mul rel Field.one Field.one) (Leak.Field.mul rel Field.minusOne Field.one) := by
  unfold SameFlow
  decide +kernel

end Props
end Zerocaf
