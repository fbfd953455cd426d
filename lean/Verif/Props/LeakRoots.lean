import Mathlib.Algebra.Polynomial.Roots
import Mathlib.Data.Set.Card
import Verif.Proof.LeakEnc
import Verif.Props.Leak
import Verif.Props.Total

/-!
# C108: what the control flow of square roots, encodings and the map to the group reveals

`Model/LeakRoots.lean` runs square roots, both encodings, decoding and the Elligator map with a record of their
control flow. The record of a square root shows exactly the class of the element: zero, a fourth power, another square
or no square. The square root of a ratio inverts its divisor, and inversion reveals the inverted element (C73), so that
the functions built on it reveal a value that determines their input up to a few candidates.
-/

set_option exponentiation.threshold 600

namespace Zerocaf
namespace Props

open Leak

theorem Sync.flow {α β : Type} {m : LM α} {m' : LM β} {R : α → β → Prop} {x : α} {x' : β} (h : Sync m m' R)
    (hx : m.val = .ok x) (hx' : m'.val = .ok x') (e : m.tr = m'.tr) : R x x' :=
  (h x x' [] [] hx hx' (congrArg (· ++ []) e)).2

/-- C108: forgetting the record gives the functions of the model. -/
theorem C108_record_is_faithful (c : Cfg) (a b : FE) (s : Bool) (P : EdPoint) (e : Bytes32) (u : Bytes64) :
    ((Leak.Field.isPositive a).val = .ok (Field.isPositive a) ∧ (Leak.Field.divRef c a b).val = Field.divRef c a b ∧
      (Leak.Field.div c a b).val = Field.div c a b ∧ (Leak.Field.modSqrt c a s).val = Field.modSqrt c a s ∧
      (Leak.Field.sqrtRatioI c a b).val = Field.sqrtRatioI c a b ∧ (Leak.Field.invSqrt c a).val = Field.invSqrt c a) ∧
    (Leak.Ed.compress c P).val = Ed.compress c P ∧ (Leak.Ristretto.compress c P).val = Ristretto.compress c P ∧
    (Leak.Ristretto.decompress c e).val = Ristretto.decompress c e ∧
    (Leak.Ristretto.elligator c a).val = Ristretto.elligator c a ∧
    (Leak.Ristretto.fromUniformBytes c u).val = Ristretto.fromUniformBytes c u :=
  ⟨⟨Leak.Field.isPositive_val a, Leak.Field.divRef_val c a b, Leak.Field.div_val c a b, Leak.Field.modSqrt_val c a s,
    Leak.Field.sqrtRatioI_val c a b, Leak.Field.invSqrt_val c a⟩, Leak.Ed.compress_val c P,
    Leak.Ristretto.compress_val c P, Leak.Ristretto.decompress_val c e, Leak.Ristretto.elligator_val c a,
    Leak.Ristretto.fromUniformBytes_val c u⟩

/-! ### Square roots -/

/-- C108: two square roots leave the same record exactly if the elements are both zero or neither, both squares or
neither, and both fourth powers or neither. The requested sign does not matter. -/
theorem C108_mod_sqrt (c : Cfg) (hc : c.Enough) (a a' : FE) (ha : a.Canon) (ha' : a'.Canon) (s s' : Bool) :
    SameFlow (Leak.Field.modSqrt c a s) (Leak.Field.modSqrt c a' s') ↔
      ((a.val = 0 ↔ a'.val = 0) ∧ (IsSquare (a.val : Fp) ↔ IsSquare (a'.val : Fp)) ∧
        ((∃ r : Fp, r ^ 4 = a.val) ↔ ∃ r : Fp, r ^ 4 = a'.val)) := by
  have tot : ∀ (x : Fp) (s : Bool), ∃ y, (Leak.Field.modSqrt c (enc x) s).val = .ok y := by
    intro x s
    rw [Leak.Field.modSqrt_val]
    by_cases h0 : x = 0
    · rw [h0]; exact ⟨_, Field.modSqrt_zero c s⟩
    by_cases h1 : IsSquare x
    · exact ⟨_, Field.modSqrt_tsRoot x h0 h1 c s hc⟩
    · exact ⟨_, Field.modSqrt_nonsquare c hc x s h1⟩
  have z : ∀ {a : FE}, a.Canon → (a.val = 0 ↔ (a.val : Fp) = 0) := fun h => not_iff_not.1 (val_ne h).symm
  rw [z ha, z ha']
  obtain ⟨x, rfl⟩ : ∃ x, a = enc x := ⟨_, ha.eq_enc rfl⟩
  obtain ⟨x', rfl⟩ : ∃ x, a' = enc x := ⟨_, ha'.eq_enc rfl⟩
  rw [enc_valZ, enc_valZ]
  obtain ⟨y, hy⟩ := tot x s
  obtain ⟨y', hy'⟩ := tot x' s'
  constructor
  · intro h
    obtain ⟨h0, h1, h2⟩ := Sync.flow (Leak.Field.modSqrt_sync c hc x x' s s') hy hy' h
    refine ⟨h0, h1, ?_⟩
    by_cases k : x = 0
    · rw [k, h0.1 k]
    · rw [← fourth_iff k, ← fourth_iff fun k' => k (h0.2 k'), h2]
  · rintro ⟨h0, h1, h2⟩
    refine (Leak.Field.modSqrt_lock c hc x x' s s' h0 h1 ?_ y y' hy hy').1
    by_cases k : x = 0
    · rw [k, h0.1 k]; exact .inl rfl
    have k' : x' ≠ 0 := fun k' => k (h0.2 k')
    by_cases q : IsSquare x
    · left
      rw [← fourth_iff k, ← fourth_iff k'] at h2
      rcases square_Q k q with e | e
      · rw [e, h2.1 e]
      · rcases square_Q k' (h1.1 q) with e' | e'
        · rw [e', h2.2 e']
        · rw [e, e']
    · exact .inr q

/-- C108: the record of the square root of a ratio with a nonzero dividend determines the divisor. -/
theorem C108_sqrt_ratio (c : Cfg) (hc : c.Enough) (u v u' v' : FE) (hu : u.Canon) (hv : v.Canon) (hu' : u'.Canon)
    (hv' : v'.Canon) (h : SameFlow (Leak.Field.sqrtRatioI c u v) (Leak.Field.sqrtRatioI c u' v')) :
    (u.val = 0 ↔ u'.val = 0) ∧ (u.val ≠ 0 → v = v') := by
  have z : ∀ {a : FE}, a.Canon → (a.val = 0 ↔ (a.val : Fp) = 0) := fun h => not_iff_not.1 (val_ne h).symm
  rw [hu.eq_enc rfl, hv.eq_enc rfl, hu'.eq_enc rfl, hv'.eq_enc rfl] at h
  have e := Sync.flow (Leak.Field.sqrtRatioI_sync c hc _ _ _ _)
    ((Leak.Field.sqrtRatioI_val c _ _).trans (Field.sqrtRatioI_enc c hc _ _))
    ((Leak.Field.sqrtRatioI_val c _ _).trans (Field.sqrtRatioI_enc c hc _ _)) h
  rw [z hu, z hu', Ne, z hu]
  refine ⟨e.1, fun k => ?_⟩
  rw [hv.eq_enc rfl, hv'.eq_enc rfl, (e.2 k).1]

/-! ### Encodings -/

/-- C108: the record of the compression of an Edwards point determines `Z`, and `X` and `Y` up to sign. -/
theorem C108_edwards_compress (c : Cfg) (hc : c.Enough) (P P' : EdPoint) (hP : P.Valid) (hP' : P'.Valid)
    (h : SameFlow (Leak.Ed.compress c P) (Leak.Ed.compress c P')) :
    P.Z = P'.Z ∧ ((P.Y.val : Fp) = P'.Y.val ∨ (P.Y.val : Fp) = -P'.Y.val) ∧
      ((P.X.val : Fp) = P'.X.val ∨ (P.X.val : Fp) = -P'.X.val) := by
  obtain ⟨A, hA⟩ := hP
  obtain ⟨A', hA'⟩ := hP'
  have r : P.Red := ⟨hA.cX, hA.cY, hA.cZ, hA.cT⟩
  have r' : P'.Red := ⟨hA'.cX, hA'.cY, hA'.cZ, hA'.cT⟩
  obtain ⟨b, hb, _⟩ := (C89_compress P r).2 ((val_ne r.2.2.1).1 hA.z_ne) ⟨A, hA.y_eq.symm⟩
  obtain ⟨b', hb', _⟩ := (C89_compress P' r').2 ((val_ne r'.2.2.1).1 hA'.z_ne) ⟨A', hA'.y_eq.symm⟩
  have hb := (Leak.Ed.compress_val c P).trans (hb c hc)
  have hb' := (Leak.Ed.compress_val c P').trans (hb' c hc)
  have eZ := r.2.2.1.eq_enc rfl
  have eZ' := r'.2.2.1.eq_enc rfl
  have zn := hA.z_ne
  have zn' := hA'.z_ne
  have hx := hA.x_eq
  have hy := hA.y_eq
  have hx' := hA'.x_eq
  have hy' := hA'.y_eq
  rw [r.form] at h hb
  rw [r'.form] at h hb'
  obtain ⟨e1, e2⟩ := Sync.flow (Leak.Ed.compress_sync c hc _ _ _ _ _ _ _ _ zn zn') hb hb' h
  refine ⟨by rw [eZ, eZ']; exact congrArg enc e1, sq_eq_cases e2, ?_⟩
  rw [div_eq_iff zn] at hx hy
  rw [div_eq_iff zn'] at hx' hy'
  rw [← e1] at hx' hy'
  rw [hy, hy'] at e2
  have ey : A.y * A.y = A'.y * A'.y := by
    have : (P.Z.val : Fp) * P.Z.val * (A.y * A.y - A'.y * A'.y) = 0 := by linear_combination e2
    exact sub_eq_zero.1 ((mul_eq_zero.1 this).resolve_left (mul_ne_zero zn zn))
  refine sq_eq_cases ?_
  have c1 := on_fact A
  have c2 := on_fact A'
  have : (1 + dZ * (A.y * A.y)) * (A.x * A.x - A'.x * A'.x) = 0 := by
    linear_combination -c1 + c2 + (1 - dZ * A'.x ^ 2) * ey
  rw [hx, hx']
  linear_combination (P.Z.val : Fp) ^ 2 * (sub_eq_zero.1 ((mul_eq_zero.1 this).resolve_left (dy_ne A.y)))

/-- C108: the record of the compression of a point of the prime order group determines `(Z² - Y²)·(X·Y)²`. -/
theorem C108_ristretto_compress (c : Cfg) (hc : c.Enough) (P P' : EdPoint) (hP : P.Red) (hP' : P'.Red)
    (h : SameFlow (Leak.Ristretto.compress c P) (Leak.Ristretto.compress c P')) :
    (((P.Z.val : Fp) ^ 2 - (P.Y.val : Fp) ^ 2) * ((P.X.val : Fp) * P.Y.val) ^ 2) =
      ((P'.Z.val : Fp) ^ 2 - (P'.Y.val : Fp) ^ 2) * ((P'.X.val : Fp) * P'.Y.val) ^ 2 := by
  rw [hP.form, hP'.form] at h
  have e := Sync.flow (Leak.Ristretto.compress_sync c hc _ _ _ _ _ _ _ _)
    ((Leak.Ristretto.compress_val c _).trans (compress_enc c hc _ _ _ _))
    ((Leak.Ristretto.compress_val c _).trans (compress_enc c hc _ _ _ _)) h
  unfold Leak.Ristretto.encW at e
  linear_combination e

/-- C108: so the compression of one point reveals its representative: two representatives leave the same record only
if their `Z` differ by a sixth root of one. -/
theorem C108_representative (c : Cfg) (hc : c.Enough) (P P' : EdPoint) (A : E) (hP : P.Rep A) (hP' : P'.Rep A)
    (hx : A.x ≠ 0) (hy : A.y ≠ 0)
    (h : SameFlow (Leak.Ristretto.compress c P) (Leak.Ristretto.compress c P')) :
    (P.Z.val : Fp) ^ 6 = (P'.Z.val : Fp) ^ 6 := by
  have e := C108_ristretto_compress c hc P P' ⟨hP.cX, hP.cY, hP.cZ, hP.cT⟩ ⟨hP'.cX, hP'.cY, hP'.cZ, hP'.cT⟩ h
  have h1 := hP.x_eq
  have h2 := hP.y_eq
  have h3 := hP'.x_eq
  have h4 := hP'.y_eq
  rw [div_eq_iff hP.z_ne] at h1 h2
  rw [div_eq_iff hP'.z_ne] at h3 h4
  rw [h1, h2, h3, h4] at e
  have hy1 : 1 - A.y * A.y ≠ 0 := by
    intro k
    have c1 := on_fact A
    have k1 : A.x * A.x * (1 + dZ) = 0 := by linear_combination (-1 + dZ * A.x ^ 2) * k - c1
    refine dZ_not_square ⟨Field.iZ, ?_⟩
    linear_combination (mul_eq_zero.1 k1).resolve_left (mul_ne_zero hx hx) - Field.iZ_sq
  have : (1 - A.y * A.y) * (A.x * A.y) ^ 2 * ((P.Z.val : Fp) ^ 6 - (P'.Z.val : Fp) ^ 6) = 0 := by
    linear_combination e
  exact sub_eq_zero.1 ((mul_eq_zero.1 this).resolve_left (mul_ne_zero hy1 (pow_ne_zero _ (mul_ne_zero hx hy))))

/-- What `decompress` inverts as a polynomial in the square of the encoded element. -/
noncomputable def decPoly (K : Fp) : Polynomial Fp :=
  (Polynomial.C (-dZ) * (1 - Polynomial.X) ^ 2 - (1 + Polynomial.X) ^ 2) * (1 + Polynomial.X) ^ 2 - Polynomial.C K

theorem decPoly_eval (K t : Fp) :
    (decPoly K).eval t = (-dZ * (1 - t) ^ 2 - (1 + t) ^ 2) * (1 + t) ^ 2 - K := by
  simp [decPoly]

theorem decPoly_deg (K : Fp) : (decPoly K).natDegree ≤ 4 := by
  unfold decPoly
  compute_degree

theorem decPoly_ne (K : Fp) : decPoly K ≠ 0 := by
  intro h
  have h1 := decPoly_eval K (-1)
  have h2 := decPoly_eval K 0
  rw [h, Polynomial.eval_zero] at h1 h2
  refine dZ_not_square ⟨Field.iZ, ?_⟩
  linear_combination h2 - h1 - Field.iZ_sq

/-- C108: at most four encodings of nonnegative elements, valid or not, leave the same record when decoded. -/
theorem C108_decompress (c : Cfg) (hc : c.Enough) (b : Bytes32) (hb : 2 * bytesVal b ≤ p - 1) :
    {b' : Bytes32 | 2 * bytesVal b' ≤ p - 1 ∧
      SameFlow (Leak.Ristretto.decompress c b) (Leak.Ristretto.decompress c b')}.encard ≤ 4 := by
  classical
  obtain ⟨s, hs, rfl, _⟩ := Ristretto.toBytes_of_pos b hb
  refine le_trans (Set.encard_le_encard_of_injOn (t := ((decPoly (Leak.Ristretto.decW s)).roots.toFinset : Set Fp))
    (f := fun b' => (bytesVal b' : Fp) ^ 2) ?_ ?_) ?_
  · rintro b' ⟨hb', h⟩
    obtain ⟨t, ht, rfl, et⟩ := Ristretto.toBytes_of_pos b' hb'
    obtain ⟨_, hx⟩ := (decompress_total (Field.toBytes (enc s))).imp fun _ h => h c hc
    obtain ⟨_, hx'⟩ := (decompress_total (Field.toBytes (enc t))).imp fun _ h => h c hc
    have e := (Sync.flow (Leak.Ristretto.decompress_sync c hc s t) ((Leak.Ristretto.decompress_val c _).trans hx)
      ((Leak.Ristretto.decompress_val c _).trans hx') h).2 hs
    simp only [← et]
    rw [Finset.mem_coe, Multiset.mem_toFinset, Polynomial.mem_roots (decPoly_ne _), Polynomial.IsRoot, decPoly_eval, e]
    unfold Leak.Ristretto.decW
    ring
  · rintro b1 ⟨h1, _⟩ b2 ⟨h2, _⟩ e
    obtain ⟨s1, p1, e1, k1⟩ := Ristretto.toBytes_of_pos b1 h1
    obtain ⟨s2, p2, e2, k2⟩ := Ristretto.toBytes_of_pos b2 h2
    simp only [← k1, ← k2, pow_two] at e
    rw [e1, e2, pos_unique p1 p2 e]
  · rw [Set.encard_coe_eq_coe_finsetCard]
    exact_mod_cast (Multiset.toFinset_card_le _).trans ((Polynomial.card_roots' _).trans (decPoly_deg _))

/-! ### The map to the group -/

theorem ellD_eq {z z' : Fp} (h : Leak.Ristretto.ellD z = Leak.Ristretto.ellD z') :
    z = z' ∨ z = -z' ∨ dZ * Field.iZ * (z ^ 2 + z' ^ 2) = -(dZ ^ 2 + 1) := by
  unfold Leak.Ristretto.ellD at h
  have : (z - z') * (z + z') * (Field.iZ * (dZ * Field.iZ * (z ^ 2 + z' ^ 2) + (dZ ^ 2 + 1))) = 0 := by
    linear_combination -h
  rcases mul_eq_zero.1 this with h | h
  · rcases mul_eq_zero.1 h with h | h
    · exact .inl (sub_eq_zero.1 h)
    · exact .inr (.inl (eq_neg_of_add_eq_zero_left h))
  · exact .inr (.inr (eq_neg_of_add_eq_zero_left ((mul_eq_zero.1 h).resolve_left Field.iZ_ne)))

theorem ellD_card (z : Fp) : {z' : Fp | Leak.Ristretto.ellD z = Leak.Ristretto.ellD z'}.encard ≤ 4 := by
  classical
  have four : ∀ a b c d : Fp, ({a, b, c, d} : Set Fp).encard ≤ 4 := fun a b c d => by
    have : ({a, b, c, d} : Set Fp) = (({a, b, c, d} : Finset Fp) : Set Fp) := by simp
    rw [this, Set.encard_coe_eq_coe_finsetCard]
    exact_mod_cast Finset.card_le_four
  by_cases h : ∃ w : Fp, dZ * Field.iZ * (z ^ 2 + w ^ 2) = -(dZ ^ 2 + 1)
  · obtain ⟨w, hw⟩ := h
    refine le_trans (Set.encard_le_encard fun z' hz' => ?_) (four z (-z) w (-w))
    rcases ellD_eq hz' with e | e | e
    · exact .inl e.symm
    · exact .inr (.inl (by rw [e, neg_neg]))
    · have : dZ * Field.iZ * (z' * z' - w * w) = 0 := by linear_combination e - hw
      rcases sq_eq_cases (sub_eq_zero.1 ((mul_eq_zero.1 this).resolve_left (mul_ne_zero dZ_ne Field.iZ_ne))) with
        e | e
      · exact .inr (.inr (.inl e))
      · exact .inr (.inr (.inr e))
  · refine le_trans (Set.encard_le_encard fun z' hz' => ?_) (four z (-z) z (-z))
    rcases ellD_eq hz' with e | e | e
    · exact .inl e.symm
    · exact .inr (.inl (by rw [e, neg_neg]))
    · exact absurd ⟨z', e⟩ h

/-- C108: at most four elements leave the same record under the Elligator map. -/
theorem C108_elligator (c : Cfg) (hc : c.Enough) (a : FE) (ha : a.Canon) :
    {a' : FE | a'.Canon ∧ SameFlow (Leak.Ristretto.elligator c a) (Leak.Ristretto.elligator c a')}.encard ≤ 4 := by
  refine le_trans (Set.encard_le_encard_of_injOn (f := L5.toZ) ?_ ?_) (ellD_card a.toZ)
  · rintro a' ⟨ha', h⟩
    obtain ⟨x, _, hx⟩ := elligator_total a ha.1
    obtain ⟨x', _, hx'⟩ := elligator_total a' ha'.1
    have e := Sync.flow (Leak.Ristretto.elligator_sync c hc a a' ha.1 ha'.1)
      ((Leak.Ristretto.elligator_val c a).trans (hx c hc)) ((Leak.Ristretto.elligator_val c a').trans (hx' c hc)) h
    exact e
  · rintro x ⟨hx, _⟩ y ⟨hy, _⟩ e
    rw [hx.eq_enc rfl, hy.eq_enc rfl, e]

/-- C108: the record of the map from 64 bytes determines both halves in the same way. -/
theorem C108_uniform_bytes (c : Cfg) (hc : c.Enough) (b : Bytes64) :
    {r : Fp × Fp | ∃ b' : Bytes64, SameFlow (Leak.Ristretto.fromUniformBytes c b) (Leak.Ristretto.fromUniformBytes c b') ∧
      r.1 = (bytesVal (Vector.ofFn fun i : Fin 32 => b'[i.val]'(by omega)) : ℕ) ∧
      r.2 = (bytesVal (Vector.ofFn fun i : Fin 32 => b'[32 + i.val]'(by omega)) : ℕ)}.encard ≤ 16 := by
  let x1 : Fp := (bytesVal (Vector.ofFn fun i : Fin 32 => b[i.val]'(by omega)) : ℕ)
  let x2 : Fp := (bytesVal (Vector.ofFn fun i : Fin 32 => b[32 + i.val]'(by omega)) : ℕ)
  refine le_trans (Set.encard_le_encard (t := {z' | Leak.Ristretto.ellD x1 = Leak.Ristretto.ellD z'} ×ˢ
    {z' | Leak.Ristretto.ellD x2 = Leak.Ristretto.ellD z'}) ?_) ?_
  · rintro ⟨r1, r2⟩ ⟨b', h, rfl, rfl⟩
    obtain ⟨_, _, _, x, hx⟩ := C89_decoders (Field.toBytes Field.one) Field.one Field.one_canon.1 b
    obtain ⟨_, _, _, x', hx'⟩ := C89_decoders (Field.toBytes Field.one) Field.one Field.one_canon.1 b'
    have e := Sync.flow (Leak.Ristretto.fromUniformBytes_sync c hc b b')
      ((Leak.Ristretto.fromUniformBytes_val c b).trans (hx c hc).2.2.2)
      ((Leak.Ristretto.fromUniformBytes_val c b').trans (hx' c hc).2.2.2) h
    exact e
  · rw [Set.encard_prod]
    exact le_trans (mul_le_mul' (ellD_card _) (ellD_card _)) (by norm_num)

/-- The roots of `1` and of `16` leave the same record, that of `-1`, a square but no fourth power, another one. -/
example : SameFlow (Leak.Field.modSqrt dbg Field.one false) (Leak.Field.modSqrt dbg ⟨16, 0, 0, 0, 0⟩ true) ∧
    ¬ SameFlow (Leak.Field.modSqrt dbg Field.one false) (Leak.Field.modSqrt dbg Field.minusOne false) := by
  have hd : dbg.Enough := by decide
  have k : ((⟨16, 0, 0, 0, 0⟩ : FE).val : Fp) = 2 ^ 4 := by decide
  have k1 : (Field.one.val : Fp) = 1 ^ 4 := by decide
  constructor
  · rw [C108_mod_sqrt _ hd _ _ (by decide) (by decide)]
    exact ⟨by decide, ⟨fun _ => ⟨4, by rw [k]; decide⟩, fun _ => ⟨1, by rw [k1]; decide⟩⟩, ⟨fun _ => ⟨2, k.symm⟩, fun _ => ⟨1, k1.symm⟩⟩⟩
  · rw [C108_mod_sqrt _ hd _ _ (by decide) (by decide)]
    rintro ⟨_, _, h⟩
    obtain ⟨r, hr⟩ := h.1 ⟨1, k1.symm⟩
    have m : (Field.minusOne.val : Fp) = -1 := by decide
    rw [m] at hr
    have : (r * r - Field.iZ) * (r * r + Field.iZ) = 0 := by linear_combination hr - Field.iZ_sq
    rcases mul_eq_zero.1 this with e | e
    · exact Field.iZ_not_square ⟨r, (sub_eq_zero.1 e).symm⟩
    · exact Field.iZ_not_square ⟨Field.iZ * r, by linear_combination e - r ^ 2 * Field.iZ_sq⟩

/-- The hypotheses hold for the base point and the encoding of the identity. -/
example : Ed.BASEPOINT.Rep Bpt ∧ Ed.BASEPOINT.Red ∧ Bpt.x ≠ 0 ∧ Bpt.y ≠ 0 ∧ Field.minusOne.Canon ∧
    2 * bytesVal (Field.toBytes Field.zero) ≤ p - 1 ∧ dbg.Enough :=
  ⟨BASEPOINT_rep, ⟨by decide, by decide, by decide, by decide⟩, by decide, by decide, by decide, by decide +kernel, by decide⟩

end Props
end Zerocaf
