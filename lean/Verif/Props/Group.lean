import Verif.Props.Ristretto
import Verif.Props.Scalar

/-!
# Properties C75-C79: the group API and the scalar API together
-/

set_option exponentiation.threshold 600

namespace Zerocaf
namespace Props

open Ristretto

/-- The group of even classes has exponent `L`. -/
theorem ell_even {A : E} (hA : InEven A) : SameClass (ell • A) 0 := by
  obtain ⟨k, _, h⟩ := even_class hA
  have h2 := h.smul ell
  rwa [smul_smul, mul_comm, mul_smul, ell_Bpt, smul_zero] at h2

theorem mod_ell_even {A : E} (hA : InEven A) (n : ℕ) : SameClass ((n % ell) • A) (n • A) := by
  have h := ((ell_even hA).smul (n / ell)).add (SameClass.refl ((n % ell) • A))
  rw [smul_zero, zero_add, smul_smul, mul_comm, ← add_smul, Nat.div_add_mod] at h
  exact h.symm

theorem class_congr {A : E} (hA : InEven A) {m n : ℕ} (h : m % ell = n % ell) : SameClass (m • A) (n • A) := by
  have h1 := mod_ell_even hA m
  rw [h] at h1
  exact h1.symm.trans (mod_ell_even hA n)

/-! ### C75 -/

/-- C75: sums of scalars act as sums of points. -/
theorem C75_scalar_add (c : Cfg) (hc : c.Enough) {P : EdPoint} {A : E} (hP : P.Rep A) (hA : InEven A)
    (m n : Sc) (hm : m.SCanon) (hn : n.SCanon) :
    ∃ s R U V W, Scalar.add c m n = .ok s ∧ Ristretto.mul c P s = .ok R ∧
      Ristretto.mul c P m = .ok U ∧ Ristretto.mul c P n = .ok V ∧ Ristretto.add c U V = .ok W ∧
      REq c R W := by
  obtain ⟨s, e, hs, hv⟩ := C25_add c m n hm hn
  obtain ⟨R, eR, hR⟩ := doubleAndAdd_rep Ristretto.opsSpec c hc hP s hs.1 (Scalar.scanon_lt256 hs)
  obtain ⟨U, eU, hU⟩ := doubleAndAdd_rep Ristretto.opsSpec c hc hP m hm.1 (Scalar.scanon_lt256 hm)
  obtain ⟨V, eV, hV⟩ := doubleAndAdd_rep Ristretto.opsSpec c hc hP n hn.1 (Scalar.scanon_lt256 hn)
  obtain ⟨W, eW, hW⟩ := Ed.add_rep c hU hV
  refine ⟨s, R, U, V, W, e, eR, eU, eV, eW, (req_iff c hR hW).2 ?_⟩
  rw [hv, ← add_smul]; exact mod_ell_even hA _

/-- C75: products of scalars act as iterated multiplication. -/
theorem C75_scalar_mul (c : Cfg) (hc : c.Enough) {P : EdPoint} {A : E} (hP : P.Rep A) (hA : InEven A)
    (m n : Sc) (hm : m.SCanon) (hn : n.SCanon) :
    ∃ s R U W, Scalar.mul c m n = .ok s ∧ Ristretto.mul c P s = .ok R ∧
      Ristretto.mul c P n = .ok U ∧ Ristretto.mul c U m = .ok W ∧ REq c R W := by
  obtain ⟨s, e, hs, hv⟩ := C27_mul c m n hm.1 hn.1
  obtain ⟨R, eR, hR⟩ := doubleAndAdd_rep Ristretto.opsSpec c hc hP s hs.1 (Scalar.scanon_lt256 hs)
  obtain ⟨U, eU, hU⟩ := doubleAndAdd_rep Ristretto.opsSpec c hc hP n hn.1 (Scalar.scanon_lt256 hn)
  obtain ⟨W, eW, hW⟩ := doubleAndAdd_rep Ristretto.opsSpec c hc hU m hm.1 (Scalar.scanon_lt256 hm)
  refine ⟨s, R, U, W, e, eR, eU, eW, (req_iff c hR hW).2 ?_⟩
  rw [hv, smul_smul]; exact mod_ell_even hA _

/-- C75: differences and negatives of scalars act as differences and negatives of points. -/
theorem C75_scalar_sub_neg (c : Cfg) (hc : c.Enough) {P : EdPoint} {A : E} (hP : P.Rep A) (hA : InEven A)
    (m n : Sc) (hm : m.SCanon) (hn : n.SCanon) :
    (∃ s R U V W, Scalar.sub c m n = .ok s ∧ Ristretto.mul c P s = .ok R ∧
      Ristretto.mul c P m = .ok U ∧ Ristretto.mul c P n = .ok V ∧ Ristretto.sub c U V = .ok W ∧
      REq c R W) ∧
    (∃ s R V W, Scalar.neg c n = .ok s ∧ Ristretto.mul c P s = .ok R ∧
      Ristretto.mul c P n = .ok V ∧ Ristretto.neg c V = .ok W ∧ REq c R W) := by
  obtain ⟨U, eU, hU⟩ := doubleAndAdd_rep Ristretto.opsSpec c hc hP m hm.1 (Scalar.scanon_lt256 hm)
  obtain ⟨V, eV, hV⟩ := doubleAndAdd_rep Ristretto.opsSpec c hc hP n hn.1 (Scalar.scanon_lt256 hn)
  have hm2 := hm.2
  have hn2 := hn.2
  constructor
  · obtain ⟨s, e, hs, hv⟩ := Scalar.sub_spec c m n hm hn
    obtain ⟨R, eR, hR⟩ := doubleAndAdd_rep Ristretto.opsSpec c hc hP s hs.1 (Scalar.scanon_lt256 hs)
    obtain ⟨W, eW, hW⟩ := Ristretto.sub_rep c hU hV
    refine ⟨s, R, U, V, W, e, eR, eU, eV, eW, (req_iff c hR hW).2 ?_⟩
    rw [hv]
    refine (mod_ell_even hA _).trans ?_
    have h1 : (m.val + ell - n.val) • A = (m.val • A - n.val • A) + ell • A := by
      rw [sub_add_eq_add_sub, eq_sub_iff_add_eq, ← add_smul, ← add_smul, Nat.sub_add_cancel (by omega)]
    have h2 := (SameClass.refl (m.val • A - n.val • A)).add (ell_even hA)
    rw [h1]
    rwa [add_zero] at h2
  · obtain ⟨s, e, hs, hv⟩ := Scalar.neg_spec c n hn
    obtain ⟨R, eR, hR⟩ := doubleAndAdd_rep Ristretto.opsSpec c hc hP s hs.1 (Scalar.scanon_lt256 hs)
    obtain ⟨W, eW, hW⟩ := Ed.neg_rep c hV
    refine ⟨s, R, V, W, e, eR, eV, eW, (req_iff c hR hW).2 ?_⟩
    rw [hv]
    refine (mod_ell_even hA _).trans ?_
    have h1 : (ell - n.val) • A = -(n.val • A) + ell • A := by
      rw [neg_add_eq_sub, eq_sub_iff_add_eq, ← add_smul, Nat.sub_add_cancel (by omega)]
    have h2 := (SameClass.refl (-(n.val • A))).add (ell_even hA)
    rw [h1]
    rwa [add_zero] at h2

/-- C75: scalars distribute over sums of points; one and zero act as they should; and multiplying by the
group order gives the identity. -/
theorem C75_points (c : Cfg) (hc : c.Enough) {P Q : EdPoint} {A B : E} (hP : P.Rep A) (hQ : Q.Rep B)
    (hA : InEven A) (n : Sc) (hn : n.SCanon) :
    (∃ S R U V W, Ristretto.add c P Q = .ok S ∧ Ristretto.mul c S n = .ok R ∧
      Ristretto.mul c P n = .ok U ∧ Ristretto.mul c Q n = .ok V ∧ Ristretto.add c U V = .ok W ∧
      REq c R W) ∧
    (∃ R, Ristretto.mul c P Scalar.one = .ok R ∧ REq c R P) ∧
    (∃ R, Ristretto.mul c P Scalar.zero = .ok R ∧ REq c R Ristretto.identity) ∧
    (∃ R, Ristretto.mul c P Scalar.L = .ok R ∧ REq c R Ristretto.identity) := by
  have h1 : Scalar.one.SCanon ∧ Scalar.one.val = 1 := by decide
  have h0 : Scalar.zero.SCanon ∧ Scalar.zero.val = 0 := by decide
  have hL : Scalar.L.WF ∧ Scalar.L.val = ell := by decide
  have hi : Ristretto.identity.Rep 0 := Ed.identity_rep
  refine ⟨?_, ?_, ?_, ?_⟩
  · obtain ⟨S, eS, hS⟩ := Ed.add_rep c hP hQ
    obtain ⟨R, eR, hR⟩ := doubleAndAdd_rep Ristretto.opsSpec c hc hS n hn.1 (Scalar.scanon_lt256 hn)
    obtain ⟨U, eU, hU⟩ := doubleAndAdd_rep Ristretto.opsSpec c hc hP n hn.1 (Scalar.scanon_lt256 hn)
    obtain ⟨V, eV, hV⟩ := doubleAndAdd_rep Ristretto.opsSpec c hc hQ n hn.1 (Scalar.scanon_lt256 hn)
    obtain ⟨W, eW, hW⟩ := Ed.add_rep c hU hV
    refine ⟨S, R, U, V, W, eS, eR, eU, eV, eW, (req_iff c hR hW).2 ?_⟩
    rw [smul_add]; exact SameClass.refl _
  · obtain ⟨R, eR, hR⟩ := doubleAndAdd_rep Ristretto.opsSpec c hc hP _ h1.1.1 (Scalar.scanon_lt256 h1.1)
    refine ⟨R, eR, (req_iff c hR hP).2 ?_⟩
    rw [h1.2, one_smul]; exact SameClass.refl _
  · obtain ⟨R, eR, hR⟩ := doubleAndAdd_rep Ristretto.opsSpec c hc hP _ h0.1.1 (Scalar.scanon_lt256 h0.1)
    refine ⟨R, eR, (req_iff c hR hi).2 ?_⟩
    rw [h0.2, zero_smul]; exact SameClass.refl _
  · obtain ⟨R, eR, hR⟩ := doubleAndAdd_rep Ristretto.opsSpec c hc hP _ hL.1 (by rw [hL.2]; decide)
    refine ⟨R, eR, (req_iff c hR hi).2 ?_⟩
    rw [hL.2]; exact ell_even hA

/-- C75: a nonzero multiple of a point other than the identity is never the identity. -/
theorem C75_no_zero_divisors (c : Cfg) (hc : c.Enough) {P : EdPoint} {A : E} (hP : P.Rep A) (hA : InEven A)
    (n : Sc) (hn : n.SCanon) (h0 : n.val ≠ 0) :
    ∃ R, Ristretto.mul c P n = .ok R ∧ (REq c R Ristretto.identity ↔ REq c P Ristretto.identity) := by
  have hi : Ristretto.identity.Rep 0 := Ed.identity_rep
  obtain ⟨R, eR, hR⟩ := doubleAndAdd_rep Ristretto.opsSpec c hc hP n hn.1 (Scalar.scanon_lt256 hn)
  refine ⟨R, eR, ?_⟩
  rw [req_iff c hR hi, req_iff c hP hi]
  constructor
  · intro h
    have hcop : Nat.Coprime n.val ell := ((Nat.Prime.coprime_iff_not_dvd ell_prime).2 (fun hd =>
      h0 (Nat.eq_zero_of_dvd_of_lt hd hn.2))).symm
    obtain ⟨m, _, hm⟩ := Nat.exists_mul_mod_eq_one_of_coprime hcop (by decide)
    have h2 := h.smul m
    rw [smul_zero, smul_smul, mul_comm] at h2
    have h3 := mod_ell_even hA (n.val * m)
    rw [hm, one_smul] at h3
    exact h3.trans h2
  · intro h
    have := h.smul n.val
    rwa [smul_zero] at this

example : Ed.BASEPOINT.Rep Bpt ∧ InEven Bpt ∧ ¬ SameClass Bpt 0 ∧ Scalar.minusOne.SCanon ∧
    (⟨7, 0, 0, 0, 0⟩ : Sc).SCanon := by
  refine ⟨BASEPOINT_rep, Bpt_even, fun h => ?_, by decide, by decide⟩
  have := mult_class (j := 1) (k := 0) (by decide) (by decide) (by rw [one_smul, zero_smul]; exact h)
  omega

/-! ### C76 -/

/-- C76: two parties who exchange encodings of their multiples of an even point and multiply what they
decode by their own scalars arrive at the same encoding. -/
theorem C76_key_agreement (c : Cfg) (hc : c.Enough) {P : EdPoint} {A : E} (hP : P.Rep A) (hA : InEven A)
    (m n : Sc) (wm : m.WF) (wn : n.WF) (hm : m.val < 2 ^ 256) (hn : n.val < 2 ^ 256) :
    ∃ U V bU bV U' V' S T k,
      Ristretto.mul c P m = .ok U ∧ Ristretto.compress c U = .ok bU ∧
      Ristretto.mul c P n = .ok V ∧ Ristretto.compress c V = .ok bV ∧
      Ristretto.decompress c bU = .ok (some U') ∧ Ristretto.decompress c bV = .ok (some V') ∧
      Ristretto.mul c V' m = .ok S ∧ Ristretto.mul c U' n = .ok T ∧
      Ristretto.compress c S = .ok k ∧ Ristretto.compress c T = .ok k := by
  obtain ⟨U, eU, hU⟩ := doubleAndAdd_rep Ristretto.opsSpec c hc hP m wm hm
  obtain ⟨V, eV, hV⟩ := doubleAndAdd_rep Ristretto.opsSpec c hc hP n wn hn
  obtain ⟨AU, s, a1, a2, a3, ea⟩ := Ristretto.compress_rep c hc hU (hA.smul _)
  obtain ⟨AV, t, b1, b2, b3, eb⟩ := Ristretto.compress_rep c hc hV (hA.smul _)
  obtain ⟨S, eS, hS⟩ := doubleAndAdd_rep Ristretto.opsSpec c hc (ofPt_rep AV) m wm hm
  obtain ⟨T, eT, hT⟩ := doubleAndAdd_rep Ristretto.opsSpec c hc (ofPt_rep AU) n wn hn
  have hST : REq c S T := by
    rw [req_iff c hS hT]
    refine (b1.symm.smul _).trans ?_
    rw [smul_comm]
    exact a1.smul _
  have hk := (C61_encoding_identifies c hc hS hT (b2.even.smul _) (a2.even.smul _)).2 hST
  obtain ⟨k, ek⟩ := C60_encode_total c hc ⟨_, hS⟩
  exact ⟨U, V, _, _, _, _, S, T, k, eU, ea, eV, eb, decompress_of c hc a2 a3, decompress_of c hc b2 b3,
    eS, eT, ek, by rw [← hk, ek]⟩

/-- C76: a different secret gives a different public encoding. -/
theorem C76_public_keys_distinct (c : Cfg) (hc : c.Enough) (m n : Sc) (hm : m.SCanon) (hn : n.SCanon) :
    ∃ U V, Ristretto.mul c Ed.BASEPOINT m = .ok U ∧ Ristretto.mul c Ed.BASEPOINT n = .ok V ∧
      (Ristretto.compress c U = Ristretto.compress c V ↔ m = n) := by
  obtain ⟨U, eU, hU⟩ := doubleAndAdd_rep Ristretto.opsSpec c hc BASEPOINT_rep m hm.1 (Scalar.scanon_lt256 hm)
  obtain ⟨V, eV, hV⟩ := doubleAndAdd_rep Ristretto.opsSpec c hc BASEPOINT_rep n hn.1 (Scalar.scanon_lt256 hn)
  refine ⟨U, V, eU, eV, ?_⟩
  rw [C61_encoding_identifies c hc hU hV (Bpt_even.smul _) (Bpt_even.smul _), req_iff c hU hV]
  constructor
  · intro h; exact hm.1.ext hn.1 (mult_class hm.2 hn.2 h)
  · rintro rfl; exact SameClass.refl _

/-! ### C77 -/

/-- C77: on Edwards points outside the prime-order subgroup the scalar laws fail: for every valid point
not killed by `L` there are scalars in range with `(m + n) P ≠ m P + n P`. -/
theorem C77_torsion_breaks_add (c : Cfg) (hc : c.Enough) {P : EdPoint} {A : E} (hP : P.Rep A)
    (h : ell • A ≠ 0) :
    ∃ m n s : Sc, m.SCanon ∧ n.SCanon ∧ Scalar.add c m n = .ok s ∧
      ∃ R U V W, Ed.mul c P s = .ok R ∧ Ed.mul c P m = .ok U ∧ Ed.mul c P n = .ok V ∧
        Ed.add c U V = .ok W ∧ Ed.ctEq c R W = .ok false := by
  have hm : Scalar.minusOne.SCanon ∧ Scalar.minusOne.val = ell - 1 := by decide
  have hn : Scalar.one.SCanon ∧ Scalar.one.val = 1 := by decide
  obtain ⟨s, e, hs, hv⟩ := C25_add c _ _ hm.1 hn.1
  obtain ⟨R, eR, hR⟩ := doubleAndAdd_rep Ed.opsSpec c hc hP s hs.1 (Scalar.scanon_lt256 hs)
  obtain ⟨U, eU, hU⟩ := doubleAndAdd_rep Ed.opsSpec c hc hP _ hm.1.1 (Scalar.scanon_lt256 hm.1)
  obtain ⟨V, eV, hV⟩ := doubleAndAdd_rep Ed.opsSpec c hc hP _ hn.1.1 (Scalar.scanon_lt256 hn.1)
  obtain ⟨W, eW, hW⟩ := Ed.add_rep c hU hV
  obtain ⟨t, et, ht⟩ := Ed_ctEq_iff c hc hR hW
  refine ⟨_, _, s, hm.1, hn.1, e, R, U, V, W, eR, eU, eV, eW, ?_⟩
  rw [et, Res.ok_inj, ← Bool.not_eq_true, ht, hv, hm.2, hn.2, ← add_smul,
    show ell - 1 + 1 = ell by decide, Nat.mod_self, zero_smul]
  exact fun h0 => h h0.symm

/-- C77: on points killed by `L` they hold. -/
theorem C77_subgroup_add (c : Cfg) (hc : c.Enough) {P : EdPoint} {A : E} (hP : P.Rep A)
    (h : ell • A = 0) (m n : Sc) (hm : m.SCanon) (hn : n.SCanon) :
    ∃ s R U V W, Scalar.add c m n = .ok s ∧ Ed.mul c P s = .ok R ∧ Ed.mul c P m = .ok U ∧
      Ed.mul c P n = .ok V ∧ Ed.add c U V = .ok W ∧ Ed.ctEq c R W = .ok true := by
  obtain ⟨s, e, hs, hv⟩ := C25_add c _ _ hm hn
  obtain ⟨R, eR, hR⟩ := doubleAndAdd_rep Ed.opsSpec c hc hP s hs.1 (Scalar.scanon_lt256 hs)
  obtain ⟨U, eU, hU⟩ := doubleAndAdd_rep Ed.opsSpec c hc hP _ hm.1 (Scalar.scanon_lt256 hm)
  obtain ⟨V, eV, hV⟩ := doubleAndAdd_rep Ed.opsSpec c hc hP _ hn.1 (Scalar.scanon_lt256 hn)
  obtain ⟨W, eW, hW⟩ := Ed.add_rep c hU hV
  refine ⟨s, R, U, V, W, e, eR, eU, eV, eW, ?_⟩
  have h1 : s.val • A = m.val • A + n.val • A := by
    rw [hv, ← add_smul]
    conv_rhs => rw [← Nat.div_add_mod (m.val + n.val) ell, add_smul, mul_comm, mul_smul, h, smul_zero,
      zero_add]
  rw [← h1] at hW
  exact Ed_ctEq_same c hc hR hW

/-- There are valid points of both kinds. -/
theorem C77_witnesses : (∃ A, Ed.COSET2.Rep A ∧ ell • A ≠ 0) ∧ (∃ A, Ed.BASEPOINT.Rep A ∧ ell • A = 0) := by
  refine ⟨⟨twoTorsion, COSET2_rep, fun h => ?_⟩, ⟨Bpt, BASEPOINT_rep, ell_Bpt⟩⟩
  have h2 : 2 • twoTorsion = 0 := by
    have h1 : -twoTorsion = twoTorsion := by
      refine EdCurve.Pt.ext ?_ ?_
      · rw [EdCurve.Pt.neg_x]; exact neg_zero
      · rw [EdCurve.Pt.neg_y]
    rw [two_nsmul]; nth_rw 1 [← h1]; exact neg_add_cancel _
  rw [show ell = ell / 2 * 2 + 1 by decide, add_smul, mul_smul, h2, smul_zero, zero_add, one_smul] at h
  have := congrArg EdCurve.Pt.y h
  rw [EdCurve.Pt.zero_y] at this
  exact Field.one_ne_neg_one this.symm

/-! ### C78 -/

/-- C78: multiplying any valid point by the cofactor lands in the subgroup generated by the base point, where
the Ristretto validity check accepts it. -/
theorem C78_clears_torsion (c : Cfg) (hc : c.Enough) {P : EdPoint} (hP : P.Valid) :
    ∃ S, mulByCofactor Ed.ops c P = .ok S ∧ Ristretto.isValid c S = .ok true ∧
      ∃ n : Sc, n.SCanon ∧ ∃ R, Ed.mul c Ed.BASEPOINT n = .ok R ∧ Ed.ctEq c R S = .ok true := by
  obtain ⟨A, hA⟩ := hP
  obtain ⟨S, eS, hS⟩ := mulByCofactor_rep Ed.opsSpec c hc hA
  have h0 : ell • 8 • A = 0 := by
    rw [smul_smul, mul_comm, ← card_E]
    exact card_nsmul_eq_zero'
  have hE : InEven (8 • A) := ⟨4 • A, by rw [← add_smul]⟩
  obtain ⟨k, hk, hkA⟩ := even_class hE
  have hkB : ell • k • Bpt = 0 := by rw [smul_comm, ell_Bpt, smul_zero]
  have he := ell_class h0 hkB hkA
  refine ⟨S, eS, ?_, encNat k, ?_⟩
  · obtain ⟨t, et, ht⟩ := C68_is_valid c hc hS
    rw [et, ht.2 h0]
  · have hcan : (encNat k).SCanon := by
      refine ⟨encNat_WF k, ?_⟩
      rw [encNat_val k (lt_trans hk (by decide))]; exact hk
    have hval : (encNat k).val = k := encNat_val k (lt_trans hk (by decide))
    refine ⟨hcan, ?_⟩
    obtain ⟨R, eR, hR⟩ := doubleAndAdd_rep Ed.opsSpec c hc BASEPOINT_rep (encNat k) hcan.1
      (Scalar.scanon_lt256 hcan)
    rw [hval, ← he] at hR
    exact ⟨R, eR, Ed_ctEq_same c hc hR hS⟩

/-- C78: the result is the identity exactly for the eight points of small order. -/
theorem C78_kernel (c : Cfg) (hc : c.Enough) {P : EdPoint} {A : E} (hP : P.Rep A) :
    (∃ S, mulByCofactor Ed.ops c P = .ok S ∧ ∃ t, Ed.ctEq c S Ed.identity = .ok t ∧
      (t = true ↔ 8 • A = 0)) ∧ Nat.card {A : E // 8 • A = 0} = 8 := by
  constructor
  · obtain ⟨S, eS, hS⟩ := mulByCofactor_rep Ed.opsSpec c hc hP
    obtain ⟨t, et, ht⟩ := Ed_ctEq_iff c hc hS Ed.identity_rep
    exact ⟨S, eS, t, et, ht⟩
  · have hG : ∀ A : E, 8 • A = 0 ↔ ∃ k : Fin 8, A = (k.val * ell) • Gpt := by
      intro A
      constructor
      · intro h
        obtain ⟨j, rfl⟩ := exists_mul_G A
        rw [smul_smul, mul_G_zero] at h
        obtain ⟨i, rfl⟩ := Nat.dvd_of_mul_dvd_mul_left (by decide) h
        refine ⟨⟨i % 8, Nat.mod_lt _ (by decide)⟩, ?_⟩
        have h2 : (8 * ell * (i / 8)) • Gpt = 0 := (mul_G_zero _).2 ⟨_, rfl⟩
        have h3 : ell * i = 8 * ell * (i / 8) + i % 8 * ell := by
          conv_lhs => rw [← Nat.div_add_mod i 8]
          ring
        rw [h3, add_smul, h2, zero_add]
      · rintro ⟨k, rfl⟩
        rw [smul_smul, mul_G_zero]
        exact ⟨k, by ring⟩
    let g : Fin 8 → {A : E // 8 • A = 0} := fun k => ⟨(k.val * ell) • Gpt, (hG _).2 ⟨k, rfl⟩⟩
    have hg : Function.Bijective g := by
      constructor
      · intro j k h
        have h1 : (j.val * ell) • Gpt = (k.val * ell) • Gpt := congrArg Subtype.val h
        have hb : ∀ k : Fin 8, k.val * ell < 8 * ell := fun k =>
          Nat.mul_lt_mul_of_pos_right k.isLt (by decide)
        have hi := nsmul_injOn_Iio_addOrderOf (x := Gpt)
        rw [Gpt_order] at hi
        have h2 := hi (hb j) (hb k) h1
        exact Fin.ext (Nat.eq_of_mul_eq_mul_right (by decide) h2)
      · rintro ⟨A, hA⟩
        obtain ⟨k, hk⟩ := (hG A).1 hA
        exact ⟨k, Subtype.ext hk.symm⟩
    rw [← Nat.card_congr (Equiv.ofBijective g hg), Nat.card_fin]

example : Ed.COSET2.Valid ∧ Ed.BASEPOINT.Valid := ⟨⟨_, COSET2_rep⟩, ⟨_, BASEPOINT_rep⟩⟩

/-! ### C79 -/

theorem top_bit (n m : Fin 32) (s t : Bool)
    (h : UInt8.ofNat n ||| ((if s then 1 else 0 : UInt8) <<< 7) =
      UInt8.ofNat m ||| ((if t then 1 else 0 : UInt8) <<< 7)) : n = m ∧ s = t := by
  revert n m s t; decide +kernel

theorem eq_of_y_sign {A B : E} (hy : A.y = B.y) (hs : signOf A = signOf B) : A = B := by
  rcases same_y hy with h | h
  · exact h.symm
  · have hA : Field.tsRoot (xxOf A.y) * Field.tsRoot (xxOf A.y) = A.x * A.x := by
      rw [tsRoot_sq ⟨A.x, (xxOf_pt A).symm⟩, xxOf_pt]
    have hx : B.x = -A.x := by rw [h, EdCurve.Pt.neg_x]
    unfold signOf at hs
    rw [← hy, hx] at hs
    generalize Field.tsRoot (xxOf A.y) = t at *
    have h0 : A.x = B.x := by
      rw [hx]
      rcases sq_eq_cases hA with ht | ht
      · rw [ht] at hs
        by_contra hne
        simp [hne] at hs
      · rw [ht] at hs
        by_contra hne
        have hne' : ¬ -A.x = A.x := fun h => hne h.symm
        simp [hne'] at hs
    exact EdCurve.Pt.ext h0 hy

/-- C79: different valid points have different Edwards encodings. -/
theorem C79_compress_injective (c : Cfg) (hc : c.Enough) {P Q : EdPoint} {A B : E} (hP : P.Rep A)
    (hQ : Q.Rep B) : Ed.compress c P = Ed.compress c Q ↔ A = B := by
  rw [Zerocaf.compress_rep c hc hP, Zerocaf.compress_rep c hc hQ, Res.ok_inj]
  constructor
  · intro h
    have hb : ∀ A : E, (Field.toBytes (enc A.y))[31].toNat < 32 := by
      intro A
      have hv := toBytes_enc_val A.y
      have hlt : A.y.val < p := ZMod.val_lt A.y
      have hp : p < 2 ^ 253 := by decide
      have ht := top_byte (Field.toBytes (enc A.y))
      rw [hv] at ht
      omega
    have h31 := congrArg (fun v : Bytes32 => v[31]) h
    simp only [get_set31] at h31
    have hk := top_bit ⟨_, hb A⟩ ⟨_, hb B⟩ (signOf A) (signOf B) (by
      simpa only [UInt8.ofNat_toNat] using h31)
    obtain ⟨h1, h2⟩ := hk
    have h1' : (Field.toBytes (enc A.y))[31] = (Field.toBytes (enc B.y))[31] :=
      UInt8.toNat_inj.1 (Fin.mk.inj h1)
    have h3 : Field.toBytes (enc A.y) = Field.toBytes (enc B.y) := by
      have := congrArg (fun v : Bytes32 => v.set 31 (Field.toBytes (enc A.y))[31]) h
      simp only [set_set31] at this
      rw [h1'] at this
      nth_rw 1 [← h1'] at this
      simpa using this
    have h4 := congrArg Field.fromBytes h3
    rw [Field.fromBytes_toBytes _ (enc_WF _) (Field.canon_lt256 (enc_canon _)),
      Field.fromBytes_toBytes _ (enc_WF _) (Field.canon_lt256 (enc_canon _)), enc_inj] at h4
    exact eq_of_y_sign h4 h2
  · rintro rfl; rfl

example : ∃ A, Ed.COSET2.Rep A ∧ Ed.BASEPOINT.Rep Bpt ∧ A ≠ Bpt :=
  ⟨twoTorsion, COSET2_rep, BASEPOINT_rep, fun h => by
    have h2 := C77_witnesses.1
    obtain ⟨A, hA, hne⟩ := h2
    rw [hA.unique COSET2_rep, h] at hne
    exact hne ell_Bpt⟩

end Props
end Zerocaf
