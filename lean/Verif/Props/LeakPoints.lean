import Verif.Proof.LeakPoints
import Verif.Props.LeakRoots
import Verif.Props.Builds

/-!
# C110: what the control flow of the remaining functions on points reveals

`Model/LeakPoints.lean` completes the record of control flow: validity checks, conversions, cosets, the two special
multiplications, the functions that look for a point with a given `y`, random points, and decoding and negation of
encodings. Validity checks, conversions to extended coordinates, cosets and multiplication by the cofactor leave the
same record for all points. The functions that look for a point divide by `1 + d·y²`, so that their records show `y`
up to sign and nothing else; the record of the generation of a random point determines the point.
-/

set_option exponentiation.threshold 600

namespace Zerocaf
namespace Props

open Leak

/-- C110: forgetting the record gives the functions of the model. -/
theorem C110_record_is_faithful (c : Cfg) (A : AffPoint) (R S : ProjPoint) (P : EdPoint) (y : FE) (s : Bool)
    (b : Bytes32) (g : ℕ → Bytes32) (k : ℕ) :
    ((Leak.Aff.isValid c A).val = Aff.isValid c A ∧ (Leak.Proj.isValid c R).val = Proj.isValid c R ∧
      (Leak.Ed.isValid c P).val = Ed.isValid c P ∧ (Leak.Ristretto.isValid c P).val = Ristretto.isValid c P) ∧
    ((Leak.Aff.ofProj c R).val = Aff.ofProj c R ∧ (Leak.Ed.ofProj c R).val = Ed.ofProj c R ∧
      (Leak.Ed.ofAff c A).val = Ed.ofAff c A ∧ (Leak.Ed.coset4 c P).val = Ed.coset4 c P ∧
      (Leak.Proj.ctEq c R S).val = Proj.ctEq c R S) ∧
    ((Leak.mulByCofactor Leak.Ed.ops c P).val = mulByCofactor Ed.ops c P ∧
      (Leak.mulByCofactor Leak.Proj.ops c R).val = mulByCofactor Proj.ops c R ∧
      (Leak.mulByPow2 Leak.Ed.ops c P k).val = mulByPow2 Ed.ops c P k ∧
      (Leak.mulByPow2 Leak.Proj.ops c R k).val = mulByPow2 Proj.ops c R k) ∧
    ((Leak.Proj.newFromY c y s).val = Proj.newFromY c y s ∧ (Leak.Ed.newFromY c y s).val = Ed.newFromY c y s ∧
      (Leak.Proj.newRandom c g).val = Proj.newRandom c g ∧ (Leak.Ed.newRandom c g).val = Ed.newRandom c g) ∧
    (Leak.Ed.decompress c b).val = Ed.decompress c b ∧ (Leak.Ed.negCompressed c b).val = Ed.negCompressed c b := by
  refine ⟨⟨Leak.Aff.isValid_val c A, Leak.Proj.isValid_val c R, Leak.Ed.isValid_val c P, Leak.Ristretto.isValid_val c P⟩,
    ⟨Leak.Aff.ofProj_val c R, Leak.Ed.ofProj_val c R, Leak.Ed.ofAff_val c A, Leak.Ed.coset4_val c P,
      Leak.Proj.ctEq_val c R S⟩, ⟨?_, ?_, ?_, ?_⟩,
    ⟨Leak.Proj.newFromY_val c y s, Leak.Ed.newFromY_val c y s, Leak.Proj.newRandom_val c g, Leak.Ed.newRandom_val c g⟩,
    Leak.Ed.decompress_val c b, Leak.Ed.negCompressed_val c b⟩
  · rw [Leak.mulByCofactor_val, Leak.Ed.ops_erase]
  · rw [Leak.mulByCofactor_val, Leak.Proj.ops_erase]
  · rw [Leak.mulByPow2_val, Leak.Ed.ops_erase]
  · rw [Leak.mulByPow2_val, Leak.Proj.ops_erase]

/-! ### Functions with one record -/

/-- C110: on reduced coordinates, valid or not, and in every build, these functions leave the same record for all
points. -/
theorem C110_fixed (c : Cfg) (hc : c.Enough) (A A' : AffPoint) (hA : A.X.Canon ∧ A.Y.Canon)
    (hA' : A'.X.Canon ∧ A'.Y.Canon) (R R' : ProjPoint) (hR : R.Red) (hR' : R'.Red) (P P' : EdPoint) (hP : P.Red)
    (hP' : P'.Red) :
    SameFlow (Leak.Aff.isValid c A) (Leak.Aff.isValid c A') ∧
    SameFlow (Leak.Proj.isValid c R) (Leak.Proj.isValid c R') ∧
    SameFlow (Leak.Ed.isValid c P) (Leak.Ed.isValid c P') ∧
    SameFlow (Leak.Ed.ofProj c R) (Leak.Ed.ofProj c R') ∧ SameFlow (Leak.Ed.ofAff c A) (Leak.Ed.ofAff c A') ∧
    SameFlow (Leak.Ed.coset4 c P) (Leak.Ed.coset4 c P') ∧
    SameFlow (Leak.mulByCofactor Leak.Ed.ops c P) (Leak.mulByCofactor Leak.Ed.ops c P') ∧
    SameFlow (Leak.mulByCofactor Leak.Proj.ops c R) (Leak.mulByCofactor Leak.Proj.ops c R') := by
  obtain ⟨_, t1⟩ := Leak.Aff.isValid_ct c
  obtain ⟨_, t2⟩ := Leak.Proj.isValid_ct c
  obtain ⟨_, t3⟩ := Leak.Ed.isValid_ct c
  obtain ⟨_, t4⟩ := Leak.Ed.ofProj_ct c
  obtain ⟨_, t5⟩ := Leak.Ed.ofAff_ct c
  obtain ⟨_, t6⟩ := Leak.Ed.coset4_ct c
  obtain ⟨⟨_, a4, _⟩, ⟨_, a5, _⟩, _, ⟨_, a1, _⟩, ⟨_, a2, _⟩, ⟨_, a3, _⟩, ⟨_, a6, _⟩, _⟩ :=
    C24_conversions c c P hP R hR A hA.1 hA.2
  obtain ⟨⟨_, b4, _⟩, ⟨_, b5, _⟩, _, ⟨_, b1, _⟩, ⟨_, b2, _⟩, ⟨_, b3, _⟩, ⟨_, b6, _⟩, _⟩ :=
    C24_conversions c c P' hP' R' hR' A' hA'.1 hA'.2
  have d := C73_double_and_add c hc P P' hP hP' R R' hR hR' _ _ (Scalar.fromU32_spec 8 (by norm_num)).1
    (Scalar.fromU32_spec 8 (by norm_num)).1
  exact ⟨sameFlow_ok (t1 A) (t1 A') ((Leak.Aff.isValid_val c A).trans a1) ((Leak.Aff.isValid_val c A').trans b1),
    sameFlow_ok (t2 R) (t2 R') ((Leak.Proj.isValid_val c R).trans a2) ((Leak.Proj.isValid_val c R').trans b2),
    sameFlow_ok (t3 P) (t3 P') ((Leak.Ed.isValid_val c P).trans a3) ((Leak.Ed.isValid_val c P').trans b3),
    sameFlow_ok (t4 R) (t4 R') ((Leak.Ed.ofProj_val c R).trans a4) ((Leak.Ed.ofProj_val c R').trans b4),
    sameFlow_ok (t5 A) (t5 A') ((Leak.Ed.ofAff_val c A).trans a5) ((Leak.Ed.ofAff_val c A').trans b5),
    sameFlow_ok (t6 P) (t6 P') ((Leak.Ed.coset4_val c P).trans a6) ((Leak.Ed.coset4_val c P').trans b6),
    d.1.2 rfl, d.2.2 rfl⟩

/-- C110: in release builds this holds for arbitrary limbs. -/
theorem C110_fixed_release (c : Cfg) (hc : c.debug = false) (A A' : AffPoint) (R R' : ProjPoint) (P P' : EdPoint) :
    SameFlow (Leak.Aff.isValid c A) (Leak.Aff.isValid c A') ∧
    SameFlow (Leak.Proj.isValid c R) (Leak.Proj.isValid c R') ∧
    SameFlow (Leak.Ed.isValid c P) (Leak.Ed.isValid c P') ∧
    SameFlow (Leak.Ed.ofProj c R) (Leak.Ed.ofProj c R') ∧ SameFlow (Leak.Ed.ofAff c A) (Leak.Ed.ofAff c A') ∧
    SameFlow (Leak.Ed.coset4 c P) (Leak.Ed.coset4 c P') := by
  obtain ⟨_, t1⟩ := Leak.Aff.isValid_ct c
  obtain ⟨_, t2⟩ := Leak.Proj.isValid_ct c
  obtain ⟨_, t3⟩ := Leak.Ed.isValid_ct c
  obtain ⟨_, t4⟩ := Leak.Ed.ofProj_ct c
  obtain ⟨_, t5⟩ := Leak.Ed.ofAff_ct c
  obtain ⟨_, t6⟩ := Leak.Ed.coset4_ct c
  exact ⟨sameFlow_rel hc (t1 A) (t1 A'), sameFlow_rel hc (t2 R) (t2 R'), sameFlow_rel hc (t3 P) (t3 P'),
    sameFlow_rel hc (t4 R) (t4 R'), sameFlow_rel hc (t5 A) (t5 A'), sameFlow_rel hc (t6 P) (t6 P')⟩

/-! ### Multiplication by powers of two -/

theorem twoPowK_sync (k k' : ℕ) : Sync (Leak.Scalar.twoPowK k) (Leak.Scalar.twoPowK k') fun _ _ => True := by
  unfold Leak.Scalar.twoPowK
  refine (rassert_sync _ _).bind fun _ _ _ _ _ => ?_
  refine Sync.branch _ fun _ => Sync.branch _ fun _ => Sync.branch _ fun _ => Sync.branch _ fun _ => ?_
  exact Sync.pure trivial

/-- C110: the record of a multiplication by a power of two is a function of the exponent, whatever the point, and
determines it. -/
theorem C110_pow2 (c : Cfg) (hc : c.Enough) (P P' : EdPoint) (hP : P.Red) (hP' : P'.Red) (R R' : ProjPoint)
    (hR : R.Red) (hR' : R'.Red) (k k' : ℕ) (hk : k < 250) (hk' : k' < 250) :
    (SameFlow (Leak.mulByPow2 Leak.Ed.ops c P k) (Leak.mulByPow2 Leak.Ed.ops c P' k') ↔ k = k') ∧
    (SameFlow (Leak.mulByPow2 Leak.Proj.ops c R k) (Leak.mulByPow2 Leak.Proj.ops c R' k') ↔ k = k') := by
  obtain ⟨s, es, hs, vs⟩ := Scalar.twoPowK_ok k (by omega)
  obtain ⟨s', es', hs', vs'⟩ := Scalar.twoPowK_ok k' (by omega)
  have e1 := (Leak.Scalar.twoPowK_val k).trans es
  have e1' := (Leak.Scalar.twoPowK_val k').trans es'
  have d := C73_double_and_add c hc P P' hP hP' R R' hR hR' s s' hs hs'
  have ks : s = s' ↔ k = k' := by
    constructor
    · intro h
      rw [h, vs'] at vs
      exact (Nat.pow_right_injective (le_refl 2) vs).symm
    · rintro rfl
      rw [es, Res.ok_inj] at es'
      exact es'
  have gen : ∀ {T : Type} (O : Leak.PointOps T) (A A' X X' : T), (Leak.doubleAndAdd O c A s).val = .ok X →
      (Leak.doubleAndAdd O c A' s').val = .ok X' →
      (SameFlow (Leak.doubleAndAdd O c A s) (Leak.doubleAndAdd O c A' s') ↔ s = s') →
      (SameFlow (Leak.mulByPow2 O c A k) (Leak.mulByPow2 O c A' k') ↔ k = k') := by
    intro T O A A' X X' hX hX' h
    unfold SameFlow Leak.mulByPow2 at *
    rw [LM.tr_bind _ _ _ e1, LM.tr_bind _ _ _ e1', ← ks, ← h]
    constructor
    · intro ht
      have := (twoPowK_sync k k' s s' _ _ e1 e1' ht).1
      rw [this] at ht
      exact List.append_cancel_left ht
    · intro ht
      have hk := ks.1 (h.1 ht)
      rw [ht, hk]
  obtain ⟨X, _, f⟩ := Zerocaf.Ed.totSpec.daa hP s hs.1 (Zerocaf.Scalar.scanon_lt256 hs)
  obtain ⟨X', _, f'⟩ := Zerocaf.Ed.totSpec.daa hP' s' hs'.1 (Zerocaf.Scalar.scanon_lt256 hs')
  obtain ⟨Y, _, g⟩ := Zerocaf.Proj.totSpec.daa hR s hs.1 (Zerocaf.Scalar.scanon_lt256 hs)
  obtain ⟨Y', _, g'⟩ := Zerocaf.Proj.totSpec.daa hR' s' hs'.1 (Zerocaf.Scalar.scanon_lt256 hs')
  refine ⟨gen Leak.Ed.ops P P' X X' ?_ ?_ d.1, gen Leak.Proj.ops R R' Y Y' ?_ ?_ d.2⟩
  · rw [doubleAndAdd_val, Leak.Ed.ops_erase, f c hc]
  · rw [doubleAndAdd_val, Leak.Ed.ops_erase, f' c hc]
  · rw [doubleAndAdd_val, Leak.Proj.ops_erase, g c hc]
  · rw [doubleAndAdd_val, Leak.Proj.ops_erase, g' c hc]

/-! ### Comparisons that invert -/

/-- C110: the record of a comparison of projective points shows both `Z` and nothing else. -/
theorem C110_projective_equality (c : Cfg) (hc : c.Enough) (P Q P' Q' : ProjPoint) (hP : P.Red) (hQ : Q.Red)
    (hP' : P'.Red) (hQ' : Q'.Red) (zP : P.Z.val ≠ 0) (zQ : Q.Z.val ≠ 0) (zP' : P'.Z.val ≠ 0) (zQ' : Q'.Z.val ≠ 0) :
    SameFlow (Leak.Proj.ctEq c P Q) (Leak.Proj.ctEq c P' Q') ↔ P.Z = P'.Z ∧ Q.Z = Q'.Z := by
  have r : ∀ {P : ProjPoint}, P.Red → (⟨P.X, P.Y, P.Z, Field.zero⟩ : EdPoint).Red := fun h =>
    ⟨h.1, h.2.1, h.2.2, Field.zero_canon⟩
  exact C73_edwards_equality c hc ⟨P.X, P.Y, P.Z, Field.zero⟩ ⟨Q.X, Q.Y, Q.Z, Field.zero⟩ ⟨P'.X, P'.Y, P'.Z, Field.zero⟩
    ⟨Q'.X, Q'.Y, Q'.Z, Field.zero⟩ (r hP) (r hQ) (r hP') (r hQ') zP zQ zP' zQ'

/-- C110: the validity check of the prime order group multiplies by the order and compares with the identity: its
record shows the `Z` of the multiple and nothing else. -/
theorem C110_ristretto_valid (c : Cfg) (hc : c.Enough) (P P' Q Q' : EdPoint) (hP : P.Valid) (hP' : P'.Valid)
    (hQ : Ed.mul c P Scalar.L = .ok Q) (hQ' : Ed.mul c P' Scalar.L = .ok Q') :
    SameFlow (Leak.Ristretto.isValid c P) (Leak.Ristretto.isValid c P') ↔ Q.Z = Q'.Z := by
  obtain ⟨A, hA⟩ := hP
  obtain ⟨A', hA'⟩ := hP'
  have r : P.Red := ⟨hA.cX, hA.cY, hA.cZ, hA.cT⟩
  have r' : P'.Red := ⟨hA'.cX, hA'.cY, hA'.cZ, hA'.cT⟩
  obtain ⟨S, eS, hS⟩ := doubleAndAdd_rep Ed.opsSpec c hc hA Scalar.L (by decide) (by decide)
  obtain ⟨S', eS', hS'⟩ := doubleAndAdd_rep Ed.opsSpec c hc hA' Scalar.L (by decide) (by decide)
  unfold Ed.mul at hQ hQ'
  rw [eS, Res.ok_inj] at hQ
  rw [eS', Res.ok_inj] at hQ'
  subst hQ hQ'
  have rS : S.Red := ⟨hS.cX, hS.cY, hS.cZ, hS.cT⟩
  have rS' : S'.Red := ⟨hS'.cX, hS'.cY, hS'.cZ, hS'.cT⟩
  have zS := (val_ne rS.2.2.1).1 hS.z_ne
  have zS' := (val_ne rS'.2.2.1).1 hS'.z_ne
  have hid : Ed.identity.Red := Ed.totSpec.identity
  have q := C73_edwards_equality c hc S Ed.identity S' Ed.identity rS hid rS' hid zS (by decide) zS' (by decide)
  obtain ⟨ta, ha⟩ := Leak.Ed.add_ct c
  obtain ⟨td, hd⟩ := Leak.Ed.double_ct c
  obtain ⟨t, ht⟩ := daa_ret Leak.Ed.ops c ta td (fun a b => (ha a b).ret) (fun a => (hd a).ret) c.fuel Scalar.L (by decide)
    (by decide)
  obtain ⟨tv, hv⟩ := Leak.Ed.isValid_ct c
  obtain ⟨v, ev, _⟩ := C89_valid (Proj.ofEd P) ⟨r.1, r.2.1, r.2.2.1⟩
  obtain ⟨v', ev', _⟩ := C89_valid (Proj.ofEd P') ⟨r'.1, r'.2.1, r'.2.2.1⟩
  obtain ⟨e, ee, _⟩ := (C89_equality S _ rS hid).2 zS (by decide)
  obtain ⟨e', ee', _⟩ := (C89_equality S' _ rS' hid).2 zS' (by decide)
  have m1 : (Leak.doubleAndAdd Leak.Ed.ops c P Scalar.L).val = .ok S := by
    rw [doubleAndAdd_val, Leak.Ed.ops_erase]; exact eS
  have m1' : (Leak.doubleAndAdd Leak.Ed.ops c P' Scalar.L).val = .ok S' := by
    rw [doubleAndAdd_val, Leak.Ed.ops_erase]; exact eS'
  have m2 := (Leak.Ed.ctEq_val c S Ed.identity).trans (ee c hc)
  have m2' := (Leak.Ed.ctEq_val c S' Ed.identity).trans (ee' c hc)
  have m3 := (Leak.Ed.isValid_val c P).trans (ev c)
  have m3' := (Leak.Ed.isValid_val c P').trans (ev' c)
  unfold SameFlow at q ⊢
  unfold Leak.Ristretto.isValid
  rw [LM.tr_bind _ _ _ m1, LM.tr_bind _ _ _ m1', LM.tr_bind _ _ _ m2, LM.tr_bind _ _ _ m2', LM.tr_bind _ _ _ m3,
    LM.tr_bind _ _ _ m3', (hv P).1 _ m3, (hv P').1 _ m3', LM.tr_pure, LM.tr_pure]
  rw [show (Leak.doubleAndAdd Leak.Ed.ops c P Scalar.L).tr = t from ht _ _ _ m1,
    show (Leak.doubleAndAdd Leak.Ed.ops c P' Scalar.L).tr = t from ht _ _ _ m1', List.append_right_inj,
    List.append_left_inj, q, and_iff_left rfl]

/-! ### Points from their `y` -/

/-- C110: the record of the search for a point with a given `y` shows `y` up to sign and nothing else: neither the
requested sign nor the point. -/
theorem C110_new_from_y (c : Cfg) (hc : c.Enough) (y y' : FE) (hy : y.Canon) (hy' : y'.Canon) (s s' : Bool) :
    (SameFlow (Leak.Proj.newFromY c y s) (Leak.Proj.newFromY c y' s') ↔
      (y.val : Fp) = y'.val ∨ (y.val : Fp) = -y'.val) ∧
    (SameFlow (Leak.Ed.newFromY c y s) (Leak.Ed.newFromY c y' s') ↔
      (y.val : Fp) = y'.val ∨ (y.val : Fp) = -y'.val) := by
  obtain ⟨x, rfl⟩ : ∃ x, y = enc x := ⟨_, hy.eq_enc rfl⟩
  obtain ⟨x', rfl⟩ : ∃ x, y' = enc x := ⟨_, hy'.eq_enc rfl⟩
  rw [enc_valZ, enc_valZ]
  have sq : x * x = x' * x' ↔ x = x' ∨ x = -x' := mul_self_eq_mul_self_iff
  have tot : ∀ (x : Fp) (s : Bool), (∃ o, (Leak.Proj.newFromY c (enc x) s).val = .ok o) ∧
      ∃ o, (Leak.Ed.newFromY c (enc x) s).val = .ok o := by
    intro x s
    rw [Leak.Proj.newFromY_val, Leak.Ed.newFromY_val]
    by_cases h : IsSquare (xxOf x)
    · obtain ⟨P, eP, _⟩ := Proj.newFromY_some c hc x s h
      obtain ⟨Q, eQ, _⟩ := Ed.newFromY_some c hc x s h
      exact ⟨⟨_, eP⟩, ⟨_, eQ⟩⟩
    · exact ⟨⟨_, Proj.newFromY_none c hc x s h⟩, ⟨_, Ed.newFromY_none c hc x s h⟩⟩
  obtain ⟨⟨_, a1⟩, ⟨_, a2⟩⟩ := tot x s
  obtain ⟨⟨_, b1⟩, ⟨_, b2⟩⟩ := tot x' s'
  rw [← sq]
  refine ⟨⟨fun h => ?_, fun h => (Leak.Proj.newFromY_lock c hc x x' s s' h _ _ a1 b1).1⟩,
    ⟨fun h => ?_, fun h => (Leak.Ed.newFromY_lock c hc x x' s s' h _ _ a2 b2).1⟩⟩
  · have k := Sync.flow (Leak.Proj.newFromY_sync c hc x x' s s') a1 b1 h
    exact k
  · have k := Sync.flow (Leak.Ed.newFromY_sync c hc x x' s s') a2 b2 h
    exact k

/-- C110: so the record of decoding an Edwards point shows the encoded `y` up to sign and nothing else. -/
theorem C110_decompress (c : Cfg) (hc : c.Enough) (b b' : Bytes32) :
    SameFlow (Leak.Ed.decompress c b) (Leak.Ed.decompress c b') ↔
      ((bytesVal b % 2 ^ 252 : ℕ) : Fp) = (bytesVal b' % 2 ^ 252 : ℕ) ∨
        ((bytesVal b % 2 ^ 252 : ℕ) : Fp) = -((bytesVal b' % 2 ^ 252 : ℕ) : Fp) := by
  rw [Leak.Ed.decompress_eq, Leak.Ed.decompress_eq]
  have h := (C110_new_from_y c hc _ _ (enc_canon ((bytesVal b % 2 ^ 252 : ℕ) : Fp))
    (enc_canon ((bytesVal b' % 2 ^ 252 : ℕ) : Fp)) (b[31] >>> 7 == 1) (b'[31] >>> 7 == 1)).2
  rw [enc_valZ, enc_valZ] at h
  exact h

/-- C110: two runs of the generation of a random point that leave the same record return the same point. -/
theorem C110_random_point (c : Cfg) (hc : c.Enough) (g g' : ℕ → Bytes32) (R R' : ProjPoint) (P P' : EdPoint) :
    (Proj.newRandom c g = .ok R → Proj.newRandom c g' = .ok R' →
      SameFlow (Leak.Proj.newRandom c g) (Leak.Proj.newRandom c g') → R = R') ∧
    (Ed.newRandom c g = .ok P → Ed.newRandom c g' = .ok P' →
      SameFlow (Leak.Ed.newRandom c g) (Leak.Ed.newRandom c g') → P = P') := by
  constructor
  · intro h h' e
    exact Sync.flow (Leak.Proj.newRandomLoop_sync c hc g g' _ _ _ _) ((Leak.Proj.newRandom_val c g).trans h)
      ((Leak.Proj.newRandom_val c g').trans h') e
  · intro h h' e
    exact Sync.flow (Leak.Ed.newRandom_sync c hc g g') ((Leak.Ed.newRandom_val c g).trans h)
      ((Leak.Ed.newRandom_val c g').trans h') e

/-! ### Encodings -/

theorem enc_bit (b : Bytes32) : (if b[31] >>> 7 == 1 then 1 else 0) = bytesVal b / 2 ^ 255 := by
  have key : ∀ n : Fin 256, (if UInt8.ofNat n >>> 7 == 1 then 1 else 0) = (UInt8.ofNat n).toNat / 128 := by decide +kernel
  have h := key ⟨b[31].toNat, UInt8.toNat_lt _⟩
  rw [UInt8.ofNat_toNat, top_byte, Nat.div_div_eq_div_mul] at h
  exact h

theorem enc_bit_eq (b b' : Bytes32) :
    (b[31] >>> 7 == 1) = (b'[31] >>> 7 == 1) ↔ bytesVal b / 2 ^ 255 = bytesVal b' / 2 ^ 255 := by
  rw [← enc_bit, ← enc_bit]
  cases b[31] >>> 7 == 1 <;> cases b'[31] >>> 7 == 1 <;> simp

theorem compress_bit (c : Cfg) (hc : c.Enough) {P : EdPoint} {A : E} (h : P.Rep A) (b : Bytes32)
    (hb : Ed.compress c P = .ok b) : (b[31] >>> 7 == 1) = signOf A := by
  rw [compress_rep c hc h, Res.ok_inj] at hb
  subst hb
  rw [get_set31]
  have key : ∀ (n : Fin 128) (s : Bool), ((UInt8.ofNat n ||| ((if s then 1 else 0 : UInt8) <<< 7)) >>> 7 == 1) = s := by
    decide +kernel
  have lt : (Field.toBytes (enc A.y))[31].toNat < 128 := by
    rw [top_byte, toBytes_enc_val]
    have := ZMod.val_lt A.y
    have hp : p < 128 * 2 ^ 248 := by decide
    exact Nat.div_lt_of_lt_mul (by omega)
  have := key ⟨_, lt⟩ (signOf A)
  rwa [UInt8.ofNat_toNat] at this

/-- C110: the record of the compression of an Edwards point shows `Z`, `Y` up to sign and the sign bit of the encoding,
and nothing else. -/
theorem C110_compress (c : Cfg) (hc : c.Enough) (P P' : EdPoint) (hP : P.Valid) (hP' : P'.Valid) (b b' : Bytes32)
    (hb : Ed.compress c P = .ok b) (hb' : Ed.compress c P' = .ok b') :
    SameFlow (Leak.Ed.compress c P) (Leak.Ed.compress c P') ↔
      P.Z = P'.Z ∧ ((P.Y.val : Fp) = P'.Y.val ∨ (P.Y.val : Fp) = -P'.Y.val) ∧
        bytesVal b / 2 ^ 255 = bytesVal b' / 2 ^ 255 := by
  obtain ⟨A, hA⟩ := hP
  obtain ⟨A', hA'⟩ := hP'
  have r : P.Red := ⟨hA.cX, hA.cY, hA.cZ, hA.cT⟩
  have r' : P'.Red := ⟨hA'.cX, hA'.cY, hA'.cZ, hA'.cT⟩
  have s1 := compress_bit c hc hA b hb
  have s2 := compress_bit c hc hA' b' hb'
  have e1 := (Leak.Ed.compress_val c P).trans hb
  have e2 := (Leak.Ed.compress_val c P').trans hb'
  have eZ := r.2.2.1.eq_enc rfl
  have eZ' := r'.2.2.1.eq_enc rfl
  have zn := hA.z_ne
  have zn' := hA'.z_ne
  have q : IsSquare (xxOf A.y) := ⟨A.x, (xxOf_pt A).symm⟩
  have q' : IsSquare (xxOf A'.y) := ⟨A'.x, (xxOf_pt A').symm⟩
  rw [← enc_bit_eq, s1, s2]
  unfold signOf
  rw [← hA.y_eq] at q ⊢
  rw [← hA'.y_eq] at q' ⊢
  rw [← hA.x_eq, ← hA'.x_eq, Bool.not_inj_iff, decide_eq_decide, ← mul_self_eq_mul_self_iff]
  have hZ : P.Z = P'.Z ↔ (P.Z.val : Fp) = P'.Z.val := by
    constructor
    · intro h; rw [h]
    · intro h; rw [eZ, eZ']; exact congrArg enc h
  rw [hZ]
  rw [r.form] at e1 ⊢
  rw [r'.form] at e2 ⊢
  simp only [enc_valZ]
  generalize (P.X.val : Fp) = X at *
  generalize (P.Y.val : Fp) = Y at *
  generalize (P.Z.val : Fp) = Z at *
  generalize (P'.X.val : Fp) = X' at *
  generalize (P'.Y.val : Fp) = Y' at *
  generalize (P'.Z.val : Fp) = Z' at *
  constructor
  · intro h
    have h1 := Sync.flow (Leak.Ed.compress_sync c hc _ _ _ _ _ _ _ _ zn zn') e1 e2 h
    have h2 := Sync.flow (Leak.Ed.compress_sign c hc _ _ _ _ _ _ _ _ zn zn' q q') e1 e2 h
    exact ⟨h1.1, h1.2, h2⟩
  · rintro ⟨rfl, h2, h3⟩
    exact (Leak.Ed.compress_lock c hc _ _ _ _ _ _ _ zn h2 h3 q _ _ e1 e2).1

theorem newFromY_point (c : Cfg) (hc : c.Enough) (y : Fp) (s : Bool) (hs : IsSquare (xxOf y)) :
    Ed.newFromY c (enc y) s = .ok (some ⟨enc (yPt y s hs).x, enc y, enc 1, enc ((yPt y s hs).x * y)⟩) := by
  obtain ⟨P, eP, _, rfl⟩ := Proj.newFromY_some c hc y s hs
  unfold Ed.newFromY
  rw [eP, Res.ok_bind]
  dsimp only
  unfold Ed.ofProj
  simp only [Field.mul_enc, Field.square_enc, Res.ok_bind, Res.pure_eq, mul_one]

theorem xxOf_zero {y : Fp} (h : xxOf y = 0) : y ^ 2 = 1 := by
  unfold xxOf at h
  rcases div_eq_zero_iff.1 h with h | h
  · linear_combination h
  · exact absurd h (dy_ne y)

theorem xxOf_one {y : Fp} (h : y ^ 2 = 1) : xxOf y = 0 := by
  unfold xxOf
  rw [← pow_two, h, sub_self, zero_div]

/-- C110: the record of the negation of a valid encoding shows the encoded `y` up to sign and, unless `x` is zero, the
sign bit, and nothing else. -/
theorem C110_negate_encoding (c : Cfg) (hc : c.Enough) (b b' n n' : Bytes32) (hn : Ed.negCompressed c b = .ok n)
    (hn' : Ed.negCompressed c b' = .ok n') :
    SameFlow (Leak.Ed.negCompressed c b) (Leak.Ed.negCompressed c b') ↔
      (((bytesVal b % 2 ^ 252 : ℕ) : Fp) = (bytesVal b' % 2 ^ 252 : ℕ) ∨
        ((bytesVal b % 2 ^ 252 : ℕ) : Fp) = -((bytesVal b' % 2 ^ 252 : ℕ) : Fp)) ∧
      (((bytesVal b % 2 ^ 252 : ℕ) : Fp) ^ 2 = 1 ∨ bytesVal b / 2 ^ 255 = bytesVal b' / 2 ^ 255) := by
  have dec : ∀ b n, Ed.negCompressed c b = .ok n → IsSquare (xxOf ((bytesVal b % 2 ^ 252 : ℕ) : Fp)) := by
    intro b n h
    by_contra k
    unfold Ed.negCompressed at h
    rw [decompress_eq, Ed.newFromY_none c hc _ _ k, Res.ok_bind] at h
    cases h
  have q := dec b n hn
  have q' := dec b' n' hn'
  rw [← enc_bit_eq]
  have v := (Leak.Ed.negCompressed_val c b).trans hn
  have v' := (Leak.Ed.negCompressed_val c b').trans hn'
  have f := newFromY_point c hc _ (b[31] >>> 7 == 1) q
  have f' := newFromY_point c hc _ (b'[31] >>> 7 == 1) q'
  have g := Leak.Ed.decompress_eq c b
  have g' := Leak.Ed.decompress_eq c b'
  rw [yPt_x] at f f'
  generalize ((bytesVal b % 2 ^ 252 : ℕ) : Fp) = y at *
  generalize ((bytesVal b' % 2 ^ 252 : ℕ) : Fp) = y' at *
  generalize (b[31] >>> 7 == 1) = s at *
  generalize (b'[31] >>> 7 == 1) = s' at *
  unfold Leak.Ed.negCompressed at v v' ⊢
  rw [g] at v ⊢
  rw [g'] at v' ⊢
  rw [← mul_self_eq_mul_self_iff]
  obtain ⟨tn, htn⟩ := Leak.Ed.neg_ct c
  have ng : ∀ x y t : Fp, (Leak.Ed.neg c ⟨enc x, enc y, enc 1, enc t⟩).val =
      .ok ⟨enc (-x), enc y, enc 1, enc (-t)⟩ := by
    intro x y t
    rw [Leak.Ed.neg_val]
    unfold Ed.neg
    simp only [Field.neg_enc, Res.ok_bind, Res.pure_eq]
  have z1 : (1 : Fp) ≠ 0 := one_ne_zero
  -- the sign stored for the negated point
  have key : xxOf y = xxOf y' →
      ((Field.tsRoot (xxOf (y / 1)) = -(if s then -Field.tsRoot (xxOf y) else Field.tsRoot (xxOf y)) / 1 ↔
        Field.tsRoot (xxOf (y' / 1)) = -(if s' then -Field.tsRoot (xxOf y') else Field.tsRoot (xxOf y')) / 1) ↔
        (y ^ 2 = 1 ∨ s = s')) := by
    intro e
    rw [div_one, div_one, div_one, div_one, ← e]
    have hr := tsRoot_sq q
    have h0 : Field.tsRoot (xxOf y) = -Field.tsRoot (xxOf y) ↔ y ^ 2 = 1 := by
      constructor
      · intro h
        have h1 : (2 : Fp) * Field.tsRoot (xxOf y) = 0 := by linear_combination h
        have h2 := (mul_eq_zero.1 h1).resolve_left Field.two_ne_zero'
        rw [h2, mul_zero] at hr
        exact xxOf_zero hr.symm
      · intro h
        rw [xxOf_one h] at hr ⊢
        rw [mul_self_eq_zero.1 hr, neg_zero]
    cases s <;> cases s' <;> simp [h0]
  have w := (Leak.Ed.newFromY_val c (enc y) s).trans f
  have w' := (Leak.Ed.newFromY_val c (enc y') s').trans f'
  have u : ∀ P : EdPoint, (Leak.unwrap (some P)).val = .ok P := fun P => Leak.unwrap_val _
  have q1 : IsSquare (xxOf (y / 1)) := by rw [div_one]; exact q
  have q1' : IsSquare (xxOf (y' / 1)) := by rw [div_one]; exact q'
  rw [LM.val_bind, w, Res.ok_bind, LM.val_bind, u, Res.ok_bind, LM.val_bind, ng, Res.ok_bind] at v
  rw [LM.val_bind, w', Res.ok_bind, LM.val_bind, u, Res.ok_bind, LM.val_bind, ng, Res.ok_bind] at v'
  unfold SameFlow
  rw [LM.tr_bind _ _ _ w, LM.tr_bind _ _ _ w', LM.tr_bind _ _ _ (u _), LM.tr_bind _ _ _ (u _), LM.tr_bind _ _ _ (ng _ _ _),
    LM.tr_bind _ _ _ (ng _ _ _), (htn _).1 _ (ng _ _ _), (htn _).1 _ (ng _ _ _)]
  have ut : ∀ P P' : EdPoint, (Leak.unwrap (some P)).tr = (Leak.unwrap (some P')).tr := fun _ _ => rfl
  rw [ut _ Ed.identity, ut ⟨enc (if s' then _ else _), _, _, _⟩ Ed.identity]
  constructor
  · intro h
    obtain ⟨e1, e2⟩ := Leak.Ed.newFromY_sync c hc y y' s s' _ _ _ _ w w' h
    refine ⟨e2, (key (Leak.Ed.xxOf_congr e2)).1 ?_⟩
    rw [e1] at h
    have h3 := List.append_cancel_left (List.append_cancel_left (List.append_cancel_left h))
    have k := Sync.flow (Leak.Ed.compress_sign c hc _ _ _ _ _ _ _ _ z1 z1 q1 q1') v v' h3
    exact k
  · rintro ⟨e2, e3⟩
    rw [(Leak.Ed.newFromY_lock c hc y y' s s' e2 _ _ w w').1,
      (Leak.Ed.compress_lock c hc _ _ _ _ _ _ _ z1 e2 ((key (Leak.Ed.xxOf_congr e2)).2 e3) q1 _ _ v v').1]

/-- The hypotheses hold for the base point, its encoding and the generator that always writes the bytes of one. -/
example : Ed.BASEPOINT.Valid ∧ Ed.BASEPOINT.Red ∧ (Proj.ofEd Ed.BASEPOINT).Red ∧ Field.one.Canon ∧ dbg.Enough ∧
    (∃ Q, Ed.mul dbg Ed.BASEPOINT Scalar.L = .ok Q) ∧ (∃ b, Ed.compress dbg Ed.BASEPOINT = .ok b) ∧
    (∃ n, Ed.negCompressed dbg Ed.BASEPOINT_COMPRESSED = .ok n) ∧
    ∃ P, Ed.newRandom dbg (fun _ => Field.toBytes Field.one) = .ok P := by
  have hd : dbg.Enough := by decide
  obtain ⟨S, eS, _⟩ := doubleAndAdd_rep Ed.opsSpec dbg hd BASEPOINT_rep Scalar.L (by decide) (by decide)
  obtain ⟨P, eP, _⟩ := C69_edwards_decode dbg hd
  obtain ⟨_, n, _, _, en, _⟩ := C74_neg_compressed dbg hd _ P eP
  exact ⟨base_valid, ⟨by decide, by decide, by decide, by decide⟩, ⟨by decide, by decide, by decide⟩, by decide, hd,
    ⟨S, eS⟩, ⟨_, C69_edwards_encode dbg hd⟩, ⟨n, en⟩,
    (C72_random_point dbg hd _).2.2 0 (by decide) ⟨0, by rw [EdCurve.Pt.zero_y]; decide +kernel⟩⟩

/-- Decoding with either sign bit leaves the same record; another `y` leaves another. -/
example : SameFlow (Leak.Ed.decompress dbg Ed.BASEPOINT_COMPRESSED)
      (Leak.Ed.decompress dbg (Ed.BASEPOINT_COMPRESSED.set 31 137)) ∧
    ¬ SameFlow (Leak.Ed.decompress dbg Ed.BASEPOINT_COMPRESSED) (Leak.Ed.decompress dbg Ed.compressedIdentity) := by
  have hd : dbg.Enough := by decide
  rw [C110_decompress dbg hd, C110_decompress dbg hd]
  constructor
  · left; decide +kernel
  · decide +kernel

end Props
end Zerocaf
