import Verif.Props.TestsField
import Verif.Props.Compress
import Verif.Props.Ristretto
import Verif.Props.Window

/-!
# Property C124, second part: the tests of the Edwards points pass

Every point written out in the tests is related to a point of the curve by arithmetic with numbers. The rest follows
from the theorems about the group operations, decompression and the scalar multiplications.
-/

set_option exponentiation.threshold 600
set_option maxRecDepth 100000

namespace Zerocaf
namespace Tests

open Props

/-! ### The points of the tests -/

def y1 : ℕ := 1329847310432884362110924566349269420738424585243029561330911492423116983246
def y2 : ℕ := 3295852391766231710775359255962084372654764936733420286493628916624458118402

def A1 : E := ptOfNat 13 y1 (by decide +kernel)
def A2 : E := ptOfNat 67 y2 (by decide +kernel)

def n1 : NP := ⟨13, y1, 1, 13 * y1 % p⟩
def n2 : NP := ⟨67, y2, 1, 67 * y2 % p⟩

theorem n1_rep : n1.Rep A1 := ptOfNat_rep 13 y1 _
theorem n2_rep : n2.Rep A2 := ptOfNat_rep 67 y2 _

theorem P1E : Edw.P1_EXTENDED.Rep A1 := entryOk_rep (by decide +kernel) n1_rep
theorem P2E : Edw.P2_EXTENDED.Rep A2 := entryOk_rep (by decide +kernel) n2_rep
theorem P3E : Edw.P3_EXTENDED.Rep (A1 + A1) := entryOk_rep (by decide +kernel) (NP.add_rep n1_rep n1_rep)
theorem P4E : Edw.P4_EXTENDED.Rep (A1 + A2) := entryOk_rep (by decide +kernel) (NP.add_rep n1_rep n2_rep)
theorem P1P : Edw.P1_PROJECTIVE.Rep A1 := Proj.ofEd_rep P1E
theorem P2P : Edw.P2_PROJECTIVE.Rep A2 := Proj.ofEd_rep P2E
theorem P3P : Edw.P3_PROJECTIVE.Rep (A1 + A1) := Proj.ofEd_rep P3E
theorem P4P : Edw.P4_PROJECTIVE.Rep (A1 + A2) := Proj.ofEd_rep P4E
theorem P1A : Edw.P1_AFFINE.Rep A1 := by
  refine ⟨by decide, by decide, ?_, ?_⟩ <;> exact fp_eq (by decide +kernel)
theorem P2A : Edw.P2_AFFINE.Rep A2 := by
  refine ⟨by decide, by decide, ?_, ?_⟩ <;> exact fp_eq (by decide +kernel)

theorem A1_ne_A2 : A1 ≠ A2 := fun h => by
  have : ((13 : ℕ) : Fp) = ((67 : ℕ) : Fp) := congrArg EdCurve.Pt.x h
  exact nat_ne (by decide +kernel) this

theorem ed_same (c : Cfg) (hc : c.Enough) {P Q : EdPoint} {A B : E} (hP : P.Rep A) (hQ : Q.Rep B) (h : A = B) :
    Ed.ctEq c P Q = .ok true := by
  obtain ⟨b, e, hb⟩ := C42_extended c hc hP hQ
  rw [e, hb.2 h]

theorem proj_same (c : Cfg) (hc : c.Enough) {P Q : ProjPoint} {A B : E} (hP : P.Rep A) (hQ : Q.Rep B) (h : A = B) :
    Proj.ctEq c P Q = .ok true := by
  obtain ⟨b, e, hb⟩ := C42_projective c hc hP hQ
  rw [e, hb.2 h]

theorem rassert_ok : rassert true = .ok () := rfl

/-- The point with a given `y` that `new_from_y_coord` picks. -/
theorem yPt_is {x y : ℕ} (h) (hx : tsNat (x * x % p) % p = x % p) :
    ∃ hs : IsSquare (xxOf (y : Fp)), yPt (y : Fp) false hs = ptOfNat x y h := by
  have e := xxOf_pt (ptOfNat x y h)
  have e' : ((x * x % p : ℕ) : Fp) = xxOf (y : Fp) := by rw [ZMod.natCast_mod, Nat.cast_mul]; exact e
  have hs : IsSquare (xxOf (y : Fp)) := ⟨_, e.symm⟩
  refine ⟨hs, EdCurve.Pt.ext ?_ (yPt_y _ _ _)⟩
  rw [yPt_x, if_neg Bool.false_ne_true, ← e', tsRoot_nat]
  exact fp_eq hx

theorem newFromY_is (c : Cfg) (hc : c.Enough) {x y : ℕ} {a : FE} (h) (ha : a.Canon) (hv : a.val % p = y % p)
    (hx : tsNat (x * x % p) % p = x % p) :
    ∃ P, Ed.newFromY c a false = .ok (some P) ∧ P.Rep (ptOfNat x y h) := by
  obtain ⟨hs, e⟩ := yPt_is (y := y) h hx
  rw [is_enc ha hv, ← e]
  exact Ed.newFromY_some c hc _ false hs

theorem projFromY_is (c : Cfg) (hc : c.Enough) {x y : ℕ} {a : FE} (h) (ha : a.Canon) (hv : a.val % p = y % p)
    (hx : tsNat (x * x % p) % p = x % p) :
    ∃ P, Proj.newFromY c a false = .ok (some P) ∧ P.Rep (ptOfNat x y h) := by
  obtain ⟨hs, e⟩ := yPt_is (y := y) h hx
  rw [is_enc ha hv, ← e]
  obtain ⟨P, h1, h2, _⟩ := Proj.newFromY_some c hc (y : Fp) false hs
  exact ⟨P, h1, h2⟩

/-- No point has a given `y`. -/
theorem no_y (y : ℕ) (h : Primality.powMod 260 p ((y * y + (p - 1)) * (1 + dNat * (y * y))) (p / 2) = p - 1) :
    ¬ IsSquare (xxOf (y : Fp)) := by
  intro hq
  apply nonsquare_of _ h
  have e : xxOf (y : Fp) * (1 + dZ * ((y : Fp) * y)) ^ 2 =
      (((y * y + (p - 1)) * (1 + dNat * (y * y)) : ℕ) : Fp) := by
    have hn := dy_ne (y : Fp)
    unfold xxOf
    rw [div_mul_eq_mul_div, div_eq_iff hn, Nat.cast_mul, Nat.cast_add, Nat.cast_sub (by decide), ZMod.natCast_self]
    push_cast
    rw [← dZ_eq]
    ring
  rw [← e]
  exact hq.mul ⟨_, by rw [pow_two]⟩

/-! ### The tests -/

theorem Edw.from_projective_to_extended_ok (c : Cfg) (hc : c.Enough) : Edw.from_projective_to_extended c = .ok () := by
  unfold Edw.from_projective_to_extended
  obtain ⟨R, e, h⟩ := Ed.ofProj_rep c P1P
  rw [e, Res.ok_bind, ed_same c hc h P1E rfl]; rfl

theorem Edw.from_extended_to_projective_ok (c : Cfg) (hc : c.Enough) : Edw.from_extended_to_projective c = .ok () := by
  unfold Edw.from_extended_to_projective
  rw [proj_same c hc P1P (Proj.ofEd_rep P1E) rfl]; rfl

theorem Edw.extended_point_neg_ok (c : Cfg) (hc : c.Enough) : Edw.extended_point_neg c = .ok () := by
  unfold Edw.extended_point_neg
  obtain ⟨R, e, h⟩ := Ed.neg_rep c Ed.identity_rep
  dsimp only
  rw [e, Res.ok_bind, ed_same c hc h (show EdPoint.Rep ⟨Field.zero, Field.one, Field.one, Field.zero⟩ 0 from
    Ed.identity_rep) neg_zero]; rfl

theorem Edw.extended_coords_neg_identity_ok (c : Cfg) (hc : c.Enough) : Edw.extended_coords_neg_identity c = .ok () := by
  unfold Edw.extended_coords_neg_identity
  obtain ⟨R, e, h⟩ := Ed.neg_rep c Ed.identity_rep
  rw [e, Res.ok_bind, ed_same c hc h Ed.identity_rep neg_zero]; rfl

theorem Edw.extended_point_addition_ok (c : Cfg) (hc : c.Enough) : Edw.extended_point_addition c = .ok () := by
  unfold Edw.extended_point_addition
  obtain ⟨R, e, h⟩ := Ed.add_rep c P1E P2E
  rw [e, Res.ok_bind, ed_same c hc h P4E rfl]; rfl

theorem Edw.extended_point_doubling_by_addition_ok (c : Cfg) (hc : c.Enough) :
    Edw.extended_point_doubling_by_addition c = .ok () := by
  unfold Edw.extended_point_doubling_by_addition
  obtain ⟨R, e, h⟩ := Ed.add_rep c P1E P1E
  rw [e, Res.ok_bind, ed_same c hc h P3E rfl]; rfl

theorem Edw.extended_point_doubling_ok (c : Cfg) (hc : c.Enough) : Edw.extended_point_doubling c = .ok () := by
  unfold Edw.extended_point_doubling
  obtain ⟨R, e, h⟩ := Ed.double_rep c P1E
  obtain ⟨S, e', h'⟩ := Ed.double_rep c Ed.identity_rep
  rw [e, Res.ok_bind, ed_same c hc h P3E rfl, Res.ok_bind, rassert_ok, Res.ok_bind, e', Res.ok_bind,
    ed_same c hc Ed.identity_rep h' (add_zero 0).symm]; rfl

theorem Edw.extended_double_and_add_ok (c : Cfg) (hc : c.Enough) : Edw.extended_double_and_add c = .ok () := by
  unfold Edw.extended_double_and_add
  obtain ⟨R, e, h⟩ := Ed.double_rep c P1E
  obtain ⟨S, e', h'⟩ := Ed.double_rep c h
  obtain ⟨T, e'', h''⟩ := Ed.double_rep c h'
  obtain ⟨M, em, hm⟩ := C45_extended c hc P1E (Scalar.fromU32 8) (by decide) (by decide)
  rw [e, Res.ok_bind, e', Res.ok_bind, e'', Res.ok_bind, em, Res.ok_bind, ed_same c hc h'' hm (by
    rw [show (Scalar.fromU32 8).val = 8 by decide]; abel)]; rfl

theorem Edw.extended_point_generation_ok (c : Cfg) (hc : c.Enough) : Edw.extended_point_generation c = .ok () := by
  unfold Edw.extended_point_generation
  obtain ⟨Q, e, h⟩ := newFromY_is c hc (x := 67) (y := y2) (a := Edw.P2_EXTENDED.Y) (by decide +kernel) (by decide)
    (by decide +kernel) (by decide +kernel)
  obtain ⟨R, e', h'⟩ := newFromY_is c hc (x := 13) (y := y1) (a := Edw.P1_EXTENDED.Y) (by decide +kernel) (by decide)
    (by decide +kernel) (by decide +kernel)
  have e15 := Ed.newFromY_none c hc ((15 : ℕ) : Fp) false (no_y 15 (by decide +kernel))
  rw [← is_enc (a := Field.fromU32 15) (by decide) (by decide +kernel)] at e15
  rw [e, Res.ok_bind, unwrap, Res.ok_bind, ed_same c hc h P2E rfl, Res.ok_bind, rassert_ok, Res.ok_bind, e', Res.ok_bind,
    unwrap, Res.ok_bind, ed_same c hc h' P1E rfl, Res.ok_bind, rassert_ok, Res.ok_bind, e15, Res.ok_bind]; rfl

theorem Edw.projective_point_neg_ok (c : Cfg) (hc : c.Enough) : Edw.projective_point_neg c = .ok () := by
  unfold Edw.projective_point_neg
  obtain ⟨R, e, h⟩ := Proj.neg_rep c Proj.identity_rep
  dsimp only
  rw [e, Res.ok_bind, proj_same c hc h (show ProjPoint.Rep ⟨Field.zero, Field.one, Field.one⟩ 0 from
    Proj.identity_rep) neg_zero]; rfl

theorem Edw.projective_coords_neg_identity_ok (c : Cfg) (hc : c.Enough) :
    Edw.projective_coords_neg_identity c = .ok () := by
  unfold Edw.projective_coords_neg_identity
  obtain ⟨R, e, h⟩ := Proj.neg_rep c Proj.identity_rep
  rw [e, Res.ok_bind, proj_same c hc h Proj.identity_rep neg_zero]; rfl

theorem Edw.projective_point_addition_ok (c : Cfg) (hc : c.Enough) : Edw.projective_point_addition c = .ok () := by
  unfold Edw.projective_point_addition
  obtain ⟨R, e, h⟩ := Proj.add_rep c P1P P2P
  rw [e, Res.ok_bind, proj_same c hc h P4P rfl]; rfl

theorem Edw.projective_point_doubling_ok (c : Cfg) (hc : c.Enough) : Edw.projective_point_doubling c = .ok () := by
  unfold Edw.projective_point_doubling
  obtain ⟨R, e, h⟩ := Proj.double_rep c P1P
  rw [e, Res.ok_bind, proj_same c hc h P3P rfl]; rfl

theorem Edw.projective_double_and_add_ok (c : Cfg) (hc : c.Enough) : Edw.projective_double_and_add c = .ok () := by
  unfold Edw.projective_double_and_add
  obtain ⟨R, e, h⟩ := Proj.double_rep c P1P
  obtain ⟨S, e', h'⟩ := Proj.double_rep c h
  obtain ⟨T, e'', h''⟩ := Proj.double_rep c h'
  obtain ⟨M, em, hm⟩ := C45_projective c hc P1P (Scalar.fromU32 8) (by decide) (by decide)
  rw [e, Res.ok_bind, e', Res.ok_bind, e'', Res.ok_bind, em, Res.ok_bind, proj_same c hc h'' hm (by
    rw [show (Scalar.fromU32 8).val = 8 by decide]; abel)]; rfl

theorem Edw.projective_point_generation_ok (c : Cfg) (hc : c.Enough) : Edw.projective_point_generation c = .ok () := by
  unfold Edw.projective_point_generation
  obtain ⟨Q, e, h⟩ := projFromY_is c hc (x := 67) (y := y2) (a := Edw.P2_EXTENDED.Y) (by decide +kernel) (by decide)
    (by decide +kernel) (by decide +kernel)
  obtain ⟨R, e', h'⟩ := projFromY_is c hc (x := 13) (y := y1) (a := Edw.P1_EXTENDED.Y) (by decide +kernel) (by decide)
    (by decide +kernel) (by decide +kernel)
  have e15 := Proj.newFromY_none c hc ((15 : ℕ) : Fp) false (no_y 15 (by decide +kernel))
  rw [← is_enc (a := Field.fromU32 15) (by decide) (by decide +kernel)] at e15
  rw [e, Res.ok_bind, unwrap, Res.ok_bind, proj_same c hc h P2P rfl, Res.ok_bind, rassert_ok, Res.ok_bind, e', Res.ok_bind,
    unwrap, Res.ok_bind, proj_same c hc h' P1P rfl, Res.ok_bind, rassert_ok, Res.ok_bind, e15, Res.ok_bind]; rfl

theorem aff_ne : Aff.ctEq Edw.P1_AFFINE Edw.P2_AFFINE = false := by
  rw [Bool.eq_false_iff, Ne, C42_affine P1A P2A]; exact A1_ne_A2
theorem aff_self : Aff.ctEq Edw.P1_AFFINE Edw.P1_AFFINE = true := (C42_affine P1A P1A).2 rfl

theorem aff_double (c : Cfg) (hc : c.Enough) : ∃ a d b, Aff.ofProj c Edw.P3_PROJECTIVE = .ok a ∧
    Proj.double c Edw.P1_PROJECTIVE = .ok d ∧ Aff.ofProj c d = .ok b ∧ Aff.ctEq a b = true := by
  obtain ⟨d, e, h⟩ := Proj.double_rep c P1P
  have ha := Aff.ofProj_rep c hc P3P
  have hb := Aff.ofProj_rep c hc h
  exact ⟨_, d, _, ha, e, hb, (C42_affine (AffPoint.rep_mk rfl rfl) (AffPoint.rep_mk rfl rfl)).2 rfl⟩

theorem Edw.affine_point_ct_eq_ok (c : Cfg) (hc : c.Enough) : Edw.affine_point_ct_eq c = .ok () := by
  unfold Edw.affine_point_ct_eq
  obtain ⟨a, d, b, h1, h2, h3, h4⟩ := aff_double c hc
  rw [aff_ne, aff_self, h1, h2]
  simp only [Bool.not_false, rassert_ok, Res.ok_bind, h3, h4]

theorem Edw.affine_point_eq_ok (c : Cfg) (hc : c.Enough) : Edw.affine_point_eq c = .ok () := by
  unfold Edw.affine_point_eq
  obtain ⟨a, d, b, h1, h2, h3, h4⟩ := aff_double c hc
  rw [aff_ne, aff_self, h1, h2]
  simp only [Bool.not_false, rassert_ok, Res.ok_bind, h3, h4]

theorem sign_is {x y : ℕ} (h) (hx : tsNat (x * x % p) % p = x % p) : signOf (ptOfNat x y h) = false := by
  obtain ⟨hs, e⟩ := yPt_is (y := y) h hx
  unfold signOf
  rw [Bool.not_eq_false', decide_eq_true_iff, ← e, yPt_x, if_neg Bool.false_ne_true, yPt_y]

theorem compress_P1 (c : Cfg) (hc : c.Enough) : Ed.compress c Edw.P1_EXTENDED = .ok Edw.P1_COMPRESSED := by
  have hy : enc A1.y = Edw.P1_EXTENDED.Y := (is_enc (by decide) (by decide +kernel)).symm
  rw [Zerocaf.compress_rep c hc P1E, A1, sign_is _ (by decide +kernel), ← A1, hy, Res.ok_inj]
  decide +kernel

theorem compress_P2 (c : Cfg) (hc : c.Enough) : Ed.compress c Edw.P2_EXTENDED = .ok Edw.P2_COMPRESSED := by
  have hy : enc A2.y = Edw.P2_EXTENDED.Y := (is_enc (by decide) (by decide +kernel)).symm
  rw [Zerocaf.compress_rep c hc P2E, A2, sign_is _ (by decide +kernel), ← A2, hy, Res.ok_inj]
  decide +kernel

theorem Edw.point_compression_ok (c : Cfg) (hc : c.Enough) : Edw.point_compression c = .ok () := by
  unfold Edw.point_compression
  have e1 : Misc.edFromSlice Edw.P1_COMPRESSED.toList = .ok Edw.P1_COMPRESSED := by decide +kernel
  have e2 : Misc.edFromSlice Edw.P2_COMPRESSED.toList = .ok Edw.P2_COMPRESSED := by decide +kernel
  rw [e1, Res.ok_bind, compress_P1 c hc, Res.ok_bind, show Misc.compressedCtEq Edw.P1_COMPRESSED Edw.P1_COMPRESSED = true by
    decide +kernel, rassert_ok, Res.ok_bind, e2, Res.ok_bind, compress_P2 c hc, Res.ok_bind,
    show Misc.compressedCtEq Edw.P2_COMPRESSED Edw.P2_COMPRESSED = true by decide +kernel, rassert_ok]

theorem Edw.point_decompression_ok (c : Cfg) (hc : c.Enough) : Edw.point_decompression c = .ok () := by
  unfold Edw.point_decompression
  obtain ⟨b1, Q1, h1, h1', q1⟩ := roundtrip_low c hc P1E (by
    rw [show A1.y = (y1 : Fp) from rfl, ZMod.val_natCast]; decide)
  obtain ⟨b2, Q2, h2, h2', q2⟩ := roundtrip_low c hc P2E (by
    rw [show A2.y = (y2 : Fp) from rfl, ZMod.val_natCast]; decide)
  rw [compress_P1 c hc, Res.ok_inj] at h1
  rw [compress_P2 c hc, Res.ok_inj] at h2
  rw [← h1] at h1'
  rw [← h2] at h2'
  have e3 : Misc.edFromSlice Edw.FAIL_BYTES.toList = .ok Edw.FAIL_BYTES := by decide +kernel
  obtain ⟨o, eo, _, hn⟩ := C55_decompress c hc Edw.FAIL_BYTES
  have : o = none := by
    rw [hn, exists_y_iff]
    exact no_y _ (by decide +kernel)
  rw [this] at eo
  rw [h1', Res.ok_bind, unwrap, Res.ok_bind, ed_same c hc q1 P1E rfl, Res.ok_bind, rassert_ok, Res.ok_bind, h2', Res.ok_bind,
    unwrap, Res.ok_bind, ed_same c hc q2 P2E rfl, Res.ok_bind, rassert_ok, Res.ok_bind, e3, Res.ok_bind, eo, Res.ok_bind]
  rfl

theorem Edw.validity_check_ok (c : Cfg) : Edw.validity_check c = .ok () := by obtain ⟨_ | _, n⟩ := c <;> keval

theorem ed_valid (c : Cfg) {P : EdPoint} {A : E} (h : P.Rep A) : Ed.isValid c P = .ok true := by
  obtain ⟨Z, hz, rfl⟩ := h.form
  show Proj.isValid c ⟨enc (A.x * Z), enc (A.y * Z), enc Z⟩ = _
  rw [Proj_isValid_enc, decide_eq_true]
  have := on_fact A
  linear_combination Z ^ 4 * this

theorem Edw.unique_basepoint_test_ok (c : Cfg) (hc : c.Enough) : Edw.unique_basepoint_test c = .ok () := by
  unfold Edw.unique_basepoint_test
  obtain ⟨B, e, h⟩ := newFromY_is c hc (x := bx) (y := by') (a := Ed.BASEPOINT.Y) (by decide +kernel) (by decide)
    (by decide +kernel) (by decide +kernel)
  obtain ⟨S, es, hs⟩ := C45_extended c hc h Scalar.L (by decide) (by decide)
  rw [div_is c hc (r := Ed.BASEPOINT.Y) (by decide) (by decide) (by decide) (by decide +kernel) (by decide +kernel),
    Res.ok_bind, e, Res.ok_bind, unwrap, Res.ok_bind, ed_valid c h, Res.ok_bind, rassert_ok, Res.ok_bind, es, Res.ok_bind,
    ed_same c hc hs Ed.identity_rep (by rw [show Scalar.L.val = ell by decide]; exact ell_Bpt)]
  rfl

theorem Edw.left_to_right_bin_mul_ok (c : Cfg) (hc : c.Enough) : Edw.left_to_right_bin_mul c = .ok () := by
  unfold Edw.left_to_right_bin_mul
  have ek : Scalar.twoPowK 215 = .ok ⟨0, 0, 0, 0, 2 ^ 7⟩ := by decide
  obtain ⟨S, es, hs⟩ := C45_extended c hc P1E ⟨0, 0, 0, 0, 2 ^ 7⟩ (by decide) (by decide)
  obtain ⟨T, et, ht, _⟩ := C48_extended c P1E ⟨0, 0, 0, 0, 2 ^ 7⟩ (by decide)
  rw [ek, Res.ok_bind, es, Res.ok_bind, et, Res.ok_bind, ed_same c hc hs (ht (by decide)) rfl]
  rfl

theorem naf_pair (c : Cfg) (hc : c.Enough) (n : Sc) (hn : n.SCanon) :
    ∃ S T, doubleAndAdd Ed.ops c Edw.P1_EXTENDED n = .ok S ∧ Ed.mul c Edw.P1_EXTENDED n = .ok S ∧
      binaryNafMul Ed.ops c Edw.P1_EXTENDED n = .ok T ∧ Ed.ctEq c S T = .ok true ∧ Ed.ctEq c T S = .ok true := by
  obtain ⟨S, es, hs⟩ := C45_extended c hc P1E n hn.1 (Scalar.scanon_lt256 hn)
  obtain ⟨⟨T, et, ht⟩, _⟩ := C49_naf c hc P1E P1P n hn
  exact ⟨S, T, es, es, et, ed_same c hc hs ht rfl, ed_same c hc ht hs rfl⟩

theorem Edw.naf_bin_mul_ok (c : Cfg) (hc : c.Enough) : Edw.naf_bin_mul c = .ok () := by
  unfold Edw.naf_bin_mul
  have e7 : Scalar.twoPowK 7 = .ok ⟨2 ^ 7, 0, 0, 0, 0⟩ := by decide
  have e215 : Scalar.twoPowK 215 = .ok ⟨0, 0, 0, 0, 2 ^ 7⟩ := by decide
  have e249 : Scalar.twoPowK 249 = .ok ⟨0, 0, 0, 0, 2 ^ 41⟩ := by decide
  have em : Scalar.sub c ⟨0, 0, 0, 0, 2 ^ 41⟩ Scalar.one =
      .ok ⟨2 ^ 52 - 1, 2 ^ 52 - 1, 2 ^ 52 - 1, 2 ^ 52 - 1, 2 ^ 41 - 1⟩ := by
    obtain ⟨_ | _, n⟩ := c <;> keval
  obtain ⟨a, b, a1, _, a2, a3, _⟩ := naf_pair c hc ⟨2 ^ 7, 0, 0, 0, 0⟩ (by decide)
  obtain ⟨d, e, d1, _, d2, d3, _⟩ := naf_pair c hc ⟨0, 0, 0, 0, 2 ^ 7⟩ (by decide)
  obtain ⟨f, g, f1, _, f2, _, f3⟩ := naf_pair c hc ⟨2 ^ 52 - 1, 2 ^ 52 - 1, 2 ^ 52 - 1, 2 ^ 52 - 1, 2 ^ 41 - 1⟩ (by decide)
  obtain ⟨h, i, _, h1, h2, h3, _⟩ := naf_pair c hc Scalar.minusOne (by decide)
  rw [e7, Res.ok_bind, a1, Res.ok_bind, a2, Res.ok_bind, a3, Res.ok_bind, rassert_ok, Res.ok_bind, e215, Res.ok_bind, d1,
    Res.ok_bind, d2, Res.ok_bind, d3, Res.ok_bind, rassert_ok, Res.ok_bind, e249, Res.ok_bind, em, Res.ok_bind, f2,
    Res.ok_bind, f1, Res.ok_bind, f3, Res.ok_bind, rassert_ok, Res.ok_bind, h1, Res.ok_bind, h2, Res.ok_bind, h3,
    Res.ok_bind, rassert_ok]

end Tests
end Zerocaf
