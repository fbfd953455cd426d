import Verif.Model.Programs
import Verif.Props.Protocols
import Verif.Props.SmallOrder
import Verif.Props.NafUnique
import Verif.Props.Exact

/-!
# Property C115: every program written against the library computes what it says

`Spec/Programs.lean` defines a language of programs over the interface of the library and their meaning in
terms of residues, curve points and the group of order `L`; `Model/Programs.lean` runs them on the model.
-/

set_option exponentiation.threshold 600

namespace Zerocaf
namespace Props

open Programs

/-! ### Which values of the library stand for which mathematical values -/

/-- `Means t v d`: the value `v` of type `t` of the library stands for `d`. -/
def Means : (t : Ty) → Val t → Den t → Prop
  | .obs _, v, d => v = d
  | .field, v, d => L5.Canon v ∧ L5.val v = ZMod.val (n := p) d
  | .scalar, v, d => L5.SCanon v ∧ L5.val v = ZMod.val (n := ell) d
  | .ext, v, d => EdPoint.Rep v d
  | .proj, v, d => ProjPoint.Rep v d
  | .aff, v, d => AffPoint.Rep v d
  | .ris, v, d => ∃ A : E, EdPoint.Rep v A ∧ InEven A ∧ HasLog A d
  | .prod s t, v, d => Means s v.1 d.1 ∧ Means t v.2 d.2
  | .opt t, v, d => Option.Rel (Means t) v d
  | .list t, v, d => List.Forall₂ (Means t) v d

/-- The outcome of a run is the one the meaning prescribes. -/
def Meets (t : Ty) (r : Res (Val t)) : Outcome (Den t) → Prop
  | .val d => ∃ v, r = .ok v ∧ Means t v d
  | .panic => r = .panic
  | .unspecified => True

/-! ### Translation to the forms used by the proofs -/

theorem means_field {a : FE} {x : Fp} : Means .field a x ↔ a = enc x := by
  constructor
  · rintro ⟨h1, h2⟩
    refine h1.eq_enc ?_
    show ((L5.val a : ℕ) : Fp) = x
    rw [h2]
    exact ZMod.natCast_zmod_val x
  · rintro rfl
    exact ⟨enc_canon x, enc_val x⟩

theorem means_field_val {a : FE} (ha : a.Canon) (n : ℕ) (h : a.val = n) : Means .field a (n : Fp) := by
  refine ⟨ha, ?_⟩
  show L5.val a = ZMod.val (n : Fp)
  rw [ZMod.val_natCast, h, Nat.mod_eq_of_lt]
  rw [← h]; exact ha.2

theorem means_scalar {a : Sc} {x : ZMod ell} : Means .scalar a x ↔ a.SCanon ∧ sv a = x := by
  constructor
  · rintro ⟨h1, h2⟩
    refine ⟨h1, ?_⟩
    show ((L5.val a : ℕ) : ZMod ell) = x
    rw [h2]
    exact ZMod.natCast_zmod_val x
  · rintro ⟨h1, rfl⟩
    refine ⟨h1, ?_⟩
    show L5.val a = ZMod.val ((L5.val a : ℕ) : ZMod ell)
    rw [ZMod.val_natCast, Nat.mod_eq_of_lt h1.2]

theorem means_scalar_val {a : Sc} (ha : a.SCanon) (n : ℕ) (h : a.val = n) : Means .scalar a (n : ZMod ell) :=
  means_scalar.2 ⟨ha, by unfold sv; rw [h]⟩

theorem hasLog_iff (A : {A : E // InEven A}) (k : ZMod ell) : HasLog A.1 k ↔ dl A = k := by
  constructor
  · intro h
    exact ZMod.val_injective _ (mult_class (ZMod.val_lt _) (ZMod.val_lt _) ((dl_spec A).symm.trans h))
  · rintro rfl
    exact dl_spec A

theorem means_ris {P : EdPoint} {k : ZMod ell} : Means .ris P k ↔ Lg P k := by
  constructor
  · rintro ⟨A, h1, h2, h3⟩
    exact ⟨⟨A, h2⟩, h1, (hasLog_iff ⟨A, h2⟩ k).1 h3⟩
  · rintro ⟨A, h1, h2⟩
    exact ⟨A.1, h1, A.2, (hasLog_iff A k).2 h2⟩

/-! ### The mathematical functions -/

theorem le32_val (n : ℕ) (h : n < 2 ^ 256) : bytesVal (Programs.leBytes n) = n := leBytes_val n h

theorem eq_leBytes {b : Bytes32} {n : ℕ} (h : bytesVal b = n) : b = Programs.leBytes n :=
  bytesVal_inj (h.trans (le32_val n (h ▸ bytesVal_lt b)).symm)

theorem modRoot_square {a : Fp} (sign : Bool) (h : IsSquare a) :
    modRoot a sign = some (if sign then -Field.tsRoot a else Field.tsRoot a) := by
  unfold modRoot
  rw [if_pos h]
  rfl

theorem modRoot_none {a : Fp} (sign : Bool) (h : ¬ IsSquare a) : modRoot a sign = none := by
  unfold modRoot
  rw [if_neg h]

theorem xxOf_eq (y : Fp) : (y ^ 2 - 1) / (1 + dZ * y ^ 2) = xxOf y := by
  unfold xxOf; rw [pow_two]

theorem fromY_some (y : Fp) (sign : Bool) (h : IsSquare (xxOf y)) : fromY y sign = some (yPt y sign h) := by
  have e : ∃ A : E, A.y = y ∧ some A.x = modRoot ((y ^ 2 - 1) / (1 + dZ * y ^ 2)) sign := by
    refine ⟨yPt y sign h, yPt_y y sign h, ?_⟩
    rw [xxOf_eq, modRoot_square sign h, yPt_x]
  unfold fromY
  rw [dif_pos e]
  have h12 := e.choose_spec
  generalize e.choose = A at h12 ⊢
  obtain ⟨h1, h2⟩ := h12
  rw [xxOf_eq, modRoot_square sign h, ← yPt_x y sign h] at h2
  exact congrArg some (EdCurve.Pt.ext (Option.some.inj h2) (h1.trans (yPt_y y sign h).symm))

theorem fromY_none (y : Fp) (sign : Bool) (h : ¬ IsSquare (xxOf y)) : fromY y sign = none := by
  unfold fromY
  rw [dif_neg]
  rintro ⟨A, h1, h2⟩
  exact h ((exists_y_iff y).1 ⟨A, h1⟩)

theorem risCode_of {k : ZMod ell} {s : Fp} {A : E} (hA : Canonical A) (h : HasLog A k) (hs : EncOf s A) :
    RisCode k s :=
  ⟨A, hA.even, h, hA.px, hA.pt, hA.y0, hA.y1, hs.ps, by rw [pow_two]; exact hs.eq⟩

theorem risCode_unique {k : ZMod ell} {s t : Fp} (h : RisCode k s) (g : RisCode k t) : s = t := by
  obtain ⟨A, a1, a2, a3, a4, a5, a6, a7, a8⟩ := h
  obtain ⟨B, b1, b2, b3, b4, b5, b6, b7, b8⟩ := g
  have hA : Canonical A := ⟨a1, a3, a4, a5, a6⟩
  have hB : Canonical B := ⟨b1, b3, b4, b5, b6⟩
  have e : B = A := hA.unique hB (SameClass.trans a2 (SameClass.symm b2))
  subst e
  exact EncOf.s_unique ⟨a7, by rw [← pow_two]; exact a8⟩ ⟨b7, by rw [← pow_two]; exact b8⟩ a6

theorem risEncode_of {k : ZMod ell} {s : Fp} (h : RisCode k s) : risEncode k = Programs.leBytes s.val := by
  unfold risEncode
  rw [risCode_unique (Classical.epsilon_spec ⟨s, h⟩) h]

theorem compress_log (c : Cfg) (hc : c.Enough) {P : EdPoint} {k : ZMod ell} (h : Lg P k) :
    Ristretto.compress c P = .ok (risEncode k) := by
  obtain ⟨A, h1, h2⟩ := h
  obtain ⟨A', s, hs, hc', he, e⟩ := Ristretto.compress_rep c hc h1 A.2
  have hk : HasLog A' k := SameClass.trans (SameClass.symm hs) ((hasLog_iff A k).2 h2)
  rw [e, risEncode_of (risCode_of hc' hk he), ← eq_leBytes (toBytes_enc_val s)]

theorem lg_exists (k : ZMod ell) : ∃ P, Lg P k := by
  obtain ⟨n, hn, rfl⟩ := sv_surj k
  obtain ⟨R, _, hR⟩ := Lg.mul dbg (by decide) Lg.base n hn.1 (Scalar.scanon_lt256 hn)
  rw [mul_one] at hR
  exact ⟨R, hR⟩

theorem risEncode_inj {j k : ZMod ell} (h : risEncode j = risEncode k) : j = k := by
  obtain ⟨P, hP⟩ := lg_exists j
  obtain ⟨Q, hQ⟩ := lg_exists k
  have hd : Cfg.Enough dbg := by decide
  exact (hP.enc_eq dbg hd hQ).1 (by rw [compress_log dbg hd hP, compress_log dbg hd hQ, h])

theorem decompress_log (c : Cfg) (hc : c.Enough) (b : Bytes32) :
    (∃ P k, Ristretto.decompress c b = .ok (some P) ∧ Lg P k ∧ risDecode b = some k) ∨
    (Ristretto.decompress c b = .ok none ∧ risDecode b = none) := by
  obtain ⟨o, e⟩ := C62_total c hc b
  cases o with
  | some P =>
      left
      obtain ⟨k, hk⟩ := Lg.decoded c hc e
      have h1 := C59_decode_encode c hc b P e
      rw [compress_log c hc hk, Res.ok_inj] at h1
      refine ⟨P, k, e, hk, ?_⟩
      have hex : ∃ k, risEncode k = b := ⟨k, h1⟩
      unfold risDecode
      rw [dif_pos hex, risEncode_inj (hex.choose_spec.trans h1.symm)]
  | none =>
      right
      refine ⟨e, ?_⟩
      unfold risDecode
      rw [dif_neg]
      rintro ⟨k, hk⟩
      obtain ⟨P, hP⟩ := lg_exists k
      obtain ⟨b', Q, e1, e2, _⟩ := hP.wire c hc
      rw [compress_log c hc hP, Res.ok_inj, hk] at e1
      subst e1
      rw [e] at e2
      simp at e2

theorem risMap_eq (t : Fp) : risMap t = dl (ellPt t) := by
  have hex : ∃ k, ∃ A : E, RfcMap Field.iZ qZ t A ∧ HasLog A k :=
    ⟨_, _, ellPt_map t, (hasLog_iff (ellPt t) _).2 rfl⟩
  obtain ⟨A, h1, h2⟩ := Classical.epsilon_spec hex
  have := RfcMap.unique h1 (ellPt_map t)
  subst this
  exact ((hasLog_iff (ellPt t) _).1 h2).symm

theorem risHash_eq (b : Bytes64) : risHash b = dl (ellPt (resOf (loHalf b))) + dl (ellPt (resOf (hiHalf b))) := by
  unfold risHash
  rw [risMap_eq, risMap_eq]
  rfl

theorem edEncode_eq (A : E) : edEncode A = (Field.toBytes (enc A.y)).set 31
      ((Field.toBytes (enc A.y))[31] ||| ((if signOf A then 1 else 0 : UInt8) <<< 7)) := by
  have hs : IsSquare (xxOf A.y) := ⟨A.x, (xxOf_pt A).symm⟩
  have key : ∀ n : Fin 32, ∀ s : Bool,
      (UInt8.ofNat n ||| ((if s then 1 else 0 : UInt8) <<< 7)).toNat =
        (UInt8.ofNat n).toNat + if s then 128 else 0 := by decide
  have hv := toBytes_enc_val A.y
  have ht := top_byte (Field.toBytes (enc A.y))
  have hlt := ZMod.val_lt A.y
  have hp := p_lt
  rw [hv] at ht
  have ht' : (Field.toBytes (enc A.y))[31].toNat < 32 := by omega
  have k := key ⟨_, ht'⟩ (signOf A)
  rw [UInt8.ofNat_toNat] at k
  symm
  unfold edEncode
  apply eq_leBytes
  rw [bytesVal_set31, k, hv, xxOf_eq, modRoot_square false hs]
  have e : (some (if false = true then -Field.tsRoot (xxOf A.y) else Field.tsRoot (xxOf A.y)) = some A.x) ↔
      signOf A = false := by
    rw [if_neg Bool.false_ne_true, Option.some_inj]
    unfold signOf
    simp
  by_cases h : signOf A = false
  · rw [if_pos (e.2 h), h]
    simp only [Bool.false_eq_true, if_false]
    generalize (Field.toBytes (enc A.y))[31].toNat = x at *
    generalize ZMod.val A.y = y at *
    omega
  · rw [if_neg (fun g => h (e.1 g)), (Bool.not_eq_false _).mp h]
    simp only [if_true]
    generalize (Field.toBytes (enc A.y))[31].toNat = x at *
    generalize ZMod.val A.y = y at *
    omega

theorem edDecode_eq (b : Bytes32) :
    edDecode b = fromY ((bytesVal b % 2 ^ 252 : ℕ) : Fp) (b[31] >>> 7 == 1) := by
  rw [sign_bit]
  rfl

/-! ### Every operation -/

section
variable {c : Cfg}

theorem met {t : Ty} {r : Res (Val t)} {v : Val t} {d : Den t} (e : r = .ok v) (h : Means t v d) :
    Meets t r (.val d) := ⟨v, e, h⟩

theorem met_ex {t : Ty} {r : Res (Val t)} {d : Den t} (h : ∃ v, r = .ok v ∧ Means t v d) :
    Meets t r (.val d) := h

theorem fMet {r : Res FE} {x : Fp} (e : r = .ok (enc x)) : Meets .field r (.val x) :=
  ⟨enc x, e, means_field.2 rfl⟩

theorem sMet {r : Res Sc} {x : ZMod ell} (h : ∃ n, r = .ok n ∧ n.SCanon ∧ sv n = x) :
    Meets .scalar r (.val x) := by
  obtain ⟨n, e, h1, h2⟩ := h
  exact ⟨n, e, means_scalar.2 ⟨h1, h2⟩⟩

theorem rMet {r : Res EdPoint} {x : ZMod ell} (h : ∃ P, r = .ok P ∧ Lg P x) : Meets .ris r (.val x) := by
  obtain ⟨P, e, h⟩ := h
  exact ⟨P, e, means_ris.2 h⟩

theorem oMet {T : Type} {r : Res T} {x : T} (h : r = .ok x) : Meets (.obs T) r (.val x) := ⟨x, h, rfl⟩

theorem bMet {r : Res Bool} {q : Prop} {i : Decidable q} (h : ∃ b, r = .ok b ∧ (b = true ↔ q)) :
    Meets (.obs Bool) r (.val (@decide q i)) := by
  obtain ⟨b, e, h⟩ := h
  refine ⟨b, e, ?_⟩
  show b = decide q
  rw [Bool.eq_iff_iff, h, decide_eq_true_iff]

theorem newFromY_met (hc : c.Enough) (y : Fp) (b : Bool) :
    Meets (.opt .ext) (Ed.newFromY c (enc y) b) (.val (fromY y b)) ∧
    Meets (.opt .proj) (Proj.newFromY c (enc y) b) (.val (fromY y b)) := by
  by_cases hs : IsSquare (xxOf y)
  · rw [fromY_some y b hs]
    obtain ⟨P, eP, hP⟩ := Ed.newFromY_some c hc y b hs
    obtain ⟨Q, eQ, hQ, _⟩ := Proj.newFromY_some c hc y b hs
    exact ⟨⟨some P, eP, Option.Rel.some hP⟩, ⟨some Q, eQ, Option.Rel.some hQ⟩⟩
  · rw [fromY_none y b hs]
    exact ⟨⟨none, Ed.newFromY_none c hc y b hs, Option.Rel.none⟩,
      ⟨none, Proj.newFromY_none c hc y b hs, Option.Rel.none⟩⟩

theorem decompress_met (hc : c.Enough) (b : Bytes32) :
    Meets (.opt .ext) (Ed.decompress c b) (.val (edDecode b)) := by
  rw [decompress_eq, edDecode_eq]
  exact (newFromY_met hc _ _).1

theorem compress_met (hc : c.Enough) {P : EdPoint} {A : E} (h : P.Rep A) :
    Ed.compress c P = .ok (edEncode A) := by
  rw [edEncode_eq]
  exact compress_rep c hc h







theorem negCompressed_met (hc : c.Enough) (b : Bytes32) :
    Meets (.obs Byte32) (Ed.negCompressed c b)
      (match edDecode b with
      | some A => Outcome.val (edEncode (-A))
      | none => Outcome.panic) := by
  obtain ⟨o, e, h⟩ := decompress_met (c := c) hc b
  generalize edDecode b = r at h
  cases h with
  | none => exact C74_neg_compressed_panics c b e
  | some h =>
      rename_i P A
      obtain ⟨N, eN, hN⟩ := Ed.neg_rep c h
      refine oMet ?_
      unfold Ed.negCompressed
      have e : Ed.decompress c b = .ok (some (P : EdPoint)) := e
      rw [e, Res.ok_bind]
      show (Ed.neg c P >>= fun np => Ed.compress c np) = _
      rw [eN, Res.ok_bind]
      exact compress_met hc hN

theorem modSqrt_met (hc : c.Enough) (x : Fp) (b : Bool) :
    Meets (.opt .field) (Field.modSqrt c (enc x) b) (.val (modRoot x b)) := by
  by_cases hs : IsSquare x
  · rw [modRoot_square b hs]
    exact ⟨_, modSqrt_of_square c hc b hs, Option.Rel.some (means_field.2 rfl)⟩
  · rw [modRoot_none b hs]
    exact ⟨none, Field.modSqrt_nonsquare c hc x b hs, Option.Rel.none⟩

theorem fFrom_met (n : ℕ) (hn : n < 2 ^ 128) : Meets .field (.ok (Field.fromU128 n)) (.val (n : Fp)) := by
  have := (C20_from_unsigned n).2.2 hn
  exact ⟨_, rfl, means_field_val this.1 n this.2.1⟩

theorem sFrom_met (n : ℕ) (hn : n < 2 ^ 128) : Meets .scalar (.ok (Scalar.fromU128 n)) (.val (n : ZMod ell)) := by
  have := (C20_from_unsigned n).2.2 hn
  exact ⟨_, rfl, means_scalar_val this.2.2.1 n this.2.2.2⟩

theorem fTwoPow_met (k : ℕ) :
    Meets .field (Field.twoPowK k) (if k ≤ 252 then .val (2 ^ k : Fp) else .panic) := by
  obtain ⟨h1, h2⟩ := C21_two_pow_k_field k
  by_cases hk : k ≤ 252
  · obtain ⟨r, e, cr, vr⟩ := h1 hk
    rw [if_pos hk]
    have := means_field_val cr _ vr
    rw [Nat.cast_pow, Nat.cast_ofNat] at this
    exact ⟨r, e, this⟩
  · rw [if_neg hk]
    exact h2 (by omega)

theorem sTwoPow_met (k : ℕ) :
    Meets .scalar (Scalar.twoPowK k) (if k ≤ 249 then .val (2 ^ k : ZMod ell) else .panic) := by
  obtain ⟨h1, h2⟩ := C21_two_pow_k_scalar k
  by_cases hk : k ≤ 249
  · obtain ⟨r, e, cr, vr⟩ := h1 hk
    rw [if_pos hk]
    have := means_scalar_val cr _ vr
    rw [Nat.cast_pow, Nat.cast_ofNat] at this
    exact ⟨r, e, this⟩
  · rw [if_neg hk]
    exact h2 (by omega)

theorem fSquare_met (x : Fp) : Meets .field (Field.square c (enc x)) (.val (x ^ 2 : Fp)) := by
  have h : Field.square c (enc x) = .ok (enc (x ^ 2)) := by
    rw [pow_two]
    exact Field.square_enc c _
  exact fMet h

theorem fHalf_met (x : Fp) : Meets .field (Field.half c (enc x)) (.val (x / 2 : Fp)) := by
  have h : Field.half c (enc x) = .ok (enc (x / 2)) := by
    rw [Field.half_wf c _ (enc_WF x), enc_toZ]
  exact fMet h

theorem fHalfFloor_met (x : Fp) :
    Meets .field (.ok (Field.halfWithoutMod (enc x))) (.val ((x.val / 2 : ℕ) : Fp)) := by
  obtain ⟨w, hv⟩ := C07_half_without_mod (enc x) (enc_WF x)
  rw [enc_val] at hv
  refine ⟨_, rfl, means_field_val ⟨w, ?_⟩ _ hv⟩
  rw [hv]
  exact lt_of_le_of_lt (Nat.div_le_self _ _) (ZMod.val_lt _)

theorem fInverse_met (hc : c.Enough) (x : Fp) :
    Meets .field (Field.inverse c (enc x)) (if x = 0 then .panic else .val (x⁻¹ : Fp)) := by
  by_cases h0 : x = 0
  · rw [if_pos h0, h0]
    exact Field.inverse_zero c
  · rw [if_neg h0]
    exact fMet (Field.inverse_enc c hc _ h0)

theorem fDiv_met (hc : c.Enough) (x y : Fp) :
    Meets .field (Field.divRef c (enc x) (enc y)) (if y = 0 then .panic else .val (x / y)) := by
  by_cases h0 : y = 0
  · rw [if_pos h0, h0]
    exact Field.divRef_zero c _
  · rw [if_neg h0]
    exact fMet (Field.divRef_enc c hc _ _ h0)

theorem fPow_met (hc : c.Enough) (x y : Fp) :
    Meets .field (Field.pow c (enc x) (enc y)) (.val (x ^ y.val)) := by
  have := Field.pow_enc c hc x (enc y) (enc_WF y)
  rw [enc_val] at this
  exact fMet this

open Classical in
theorem fLegendre_met (hc : c.Enough) (x : Fp) :
    Meets (.obs Bool) (Field.legendre c (enc x)) (.val (decide (IsSquare x))) :=
  oMet (Field.legendre_enc c hc _)

theorem fIsEven_met (x : Fp) : Meets (.obs Bool) (.ok (Field.isEven (enc x))) (.val (decide (x.val % 2 = 0))) := by
  refine bMet ⟨_, rfl, ?_⟩
  rw [Field.isEven_spec, enc_val, decide_eq_true_iff]

theorem fIsPositive_met (x : Fp) :
    Meets (.obs Bool) (.ok (Field.isPositive (enc x))) (.val (decide (2 * x.val ≤ p - 1))) := by
  refine bMet ⟨_, rfl, ?_⟩
  rw [Field.isPositive_enc, decide_eq_true_iff]
  rfl

theorem fEq_met (x y : Fp) (i : Decidable (x = y)) :
    Meets (.obs Bool) (.ok (Field.ctEq (enc x) (enc y))) (.val (@decide (x = y) i)) := by
  refine bMet (i := i) ⟨_, rfl, ?_⟩
  have h := Field.ctEq_enc x y
  rw [h]
  exact @decide_eq_true_iff (x = y) (ZMod.decidableEq p x y)

theorem fCmp_met (x y : Fp) :
    Meets (.obs Ordering) (.ok (Field.cmp (enc x) (enc y))) (.val (compare x.val y.val)) := by
  refine ⟨_, rfl, ?_⟩
  show Field.cmp (enc x) (enc y) = _
  rw [(C17_cmp _ _ (enc_WF _) (enc_WF _)).1, enc_val, enc_val]

theorem fToBytes_met (x : Fp) :
    Meets (.obs Byte32) (.ok (Field.toBytes (enc x))) (.val (Programs.leBytes x.val)) :=
  ⟨_, rfl, eq_leBytes (toBytes_enc_val _)⟩

theorem fFromBytes_met (b : Bytes32) : Meets .field (.ok (Field.fromBytes b))
    (if bytesVal b < p then .val ((bytesVal b : ℕ) : Fp) else .unspecified) := by
  obtain ⟨w, hv⟩ := Field.fromBytes_spec b
  by_cases hb : bytesVal b < p
  · rw [if_pos hb]
    exact ⟨_, rfl, means_field_val ⟨w, by rw [hv]; exact hb⟩ _ hv⟩
  · rw [if_neg hb]; trivial

theorem sc_val {n : Sc} (h : n.SCanon) : (sv n).val = n.val := by
  unfold sv
  rw [ZMod.val_natCast, Nat.mod_eq_of_lt h.2]

theorem sZero_met : Meets .scalar (.ok Scalar.zero) (.val (0 : ZMod ell)) :=
  sMet ⟨_, rfl, by decide, by unfold sv; rw [show Scalar.zero.val = 0 from rfl, Nat.cast_zero]⟩

theorem sOne_met : Meets .scalar (.ok Scalar.one) (.val (1 : ZMod ell)) :=
  sMet ⟨_, rfl, by decide, by unfold sv; rw [show Scalar.one.val = 1 from rfl, Nat.cast_one]⟩

theorem sMinusOne_met : Meets .scalar (.ok Scalar.minusOne) (.val (-1 : ZMod ell)) := by
  refine sMet ⟨_, rfl, by decide, ?_⟩
  unfold sv
  rw [show Scalar.minusOne.val = ell - 1 by decide, Nat.cast_sub (by decide), ZMod.natCast_self,
    Nat.cast_one, zero_sub]

theorem sNeg_met {n : Sc} (h : n.SCanon) : Meets .scalar (Scalar.neg c n) (.val (-sv n)) := by
  obtain ⟨r, e, cr, vr⟩ := C26_neg c n h
  refine sMet ⟨r, e, cr, ?_⟩
  have h2 : ((r.val : ℤ) : ZMod ell) = ((-(n.val : ℤ) : ℤ) : ZMod ell) := by
    rw [vr]
    exact ZMod.intCast_mod _ _
  rw [Int.cast_neg, Int.cast_natCast, Int.cast_natCast] at h2
  exact h2

theorem sSquare_met {n : Sc} (h : n.SCanon) : Meets .scalar (Scalar.square c n) (.val (sv n ^ 2 : ZMod ell)) := by
  obtain ⟨_, r, er, cr, vr⟩ := C27_square c n h.1
  refine sMet ⟨r, er, cr, ?_⟩
  have h2 : ((r.val : ℕ) : ZMod ell) = ((n.val : ℕ) : ZMod ell) ^ 2 := by
    rw [vr, ZMod.natCast_mod, Nat.cast_pow]
  exact h2

theorem sHalf_met {n : Sc} (h : n.SCanon) : Meets .scalar (Scalar.half c n) (.val (sv n * 2⁻¹)) := by
  obtain ⟨r, er, cr, vr⟩ := C28_half c n h.1
  refine sMet ⟨r, er, cr, ?_⟩
  have h2 : (2 : ZMod ell) ≠ 0 := by
    have : ((2 : ℕ) : ZMod ell) ≠ 0 := by
      rw [Ne, ZMod.natCast_eq_zero_iff]; exact Nat.not_dvd_of_pos_of_lt (by decide) (by decide)
    rwa [Nat.cast_ofNat] at this
  have h3 : ((2 * r.val : ℕ) : ZMod ell) = ((n.val : ℕ) : ZMod ell) :=
    (ZMod.natCast_eq_natCast_iff' _ _ _).2 vr
  rw [Nat.cast_mul, Nat.cast_ofNat] at h3
  have h4 : ((r.val : ℕ) : ZMod ell) = ((n.val : ℕ) : ZMod ell) * 2⁻¹ := by
    rw [← h3, mul_comm (2 : ZMod ell), mul_inv_cancel_right₀ h2]
  exact h4

theorem sFloor {a : Sc} {n : Sc} (h : n.SCanon) (k : ℕ) (w : a.WF) (hv : a.val = n.val / k) :
    Meets .scalar (.ok a) (.val (((sv n).val / k : ℕ) : ZMod ell)) := by
  rw [← sc_val h] at hv
  refine ⟨_, rfl, means_scalar_val ⟨w, ?_⟩ _ hv⟩
  rw [hv]
  exact lt_of_le_of_lt (Nat.div_le_self _ _) (ZMod.val_lt _)

theorem sPow_met (hc : c.Enough) {a b : Sc} (h1 : a.SCanon) (h2 : b.SCanon) :
    Meets .scalar (Scalar.pow c a b) (.val (sv a ^ (sv b).val)) := by
  obtain ⟨r, e, cr, vr⟩ := C29_pow c hc a b h1.1 h2
  refine sMet ⟨r, e, cr, ?_⟩
  rw [sc_val h2]
  unfold sv
  rw [vr, ZMod.natCast_mod, Nat.cast_pow]

theorem sIsEven_met {a : Sc} (h : a.SCanon) :
    Meets (.obs Bool) (.ok (Scalar.isEven a)) (.val (decide ((sv a).val % 2 = 0))) := by
  refine bMet ⟨_, rfl, ?_⟩
  rw [Scalar.isEven_spec, sc_val h, decide_eq_true_iff]

theorem sEq_met {a b : Sc} (h1 : a.SCanon) (h2 : b.SCanon) (i : Decidable (sv a = sv b)) :
    Meets (.obs Bool) (.ok (Scalar.ctEq a b)) (.val (@decide (sv a = sv b) i)) := by
  refine bMet (i := i) ⟨_, rfl, ?_⟩
  rw [show Scalar.ctEq a b = Field.ctEq a b from rfl,
    C19_eq a b h1.1 h2.1 (Scalar.scanon_lt256 h1) (Scalar.scanon_lt256 h2)]
  exact ⟨fun e => by unfold sv; rw [e], fun e => by rw [← sc_val h1, ← sc_val h2, e]⟩

theorem sCmp_met {a b : Sc} (h1 : a.SCanon) (h2 : b.SCanon) :
    Meets (.obs Ordering) (.ok (Scalar.cmp a b)) (.val (compare (sv a).val (sv b).val)) := by
  refine ⟨_, rfl, ?_⟩
  show Scalar.cmp a b = _
  rw [(C17_cmp a b h1.1 h2.1).2, sc_val h1, sc_val h2]

theorem sToBytes_met {a : Sc} (h1 : a.SCanon) :
    Meets (.obs Byte32) (.ok (Scalar.toBytes a)) (.val (Programs.leBytes (sv a).val)) := by
  refine ⟨_, rfl, eq_leBytes ?_⟩
  rw [sc_val h1]
  exact (C30_to_bytes a h1).1

theorem sFromBytes_met (b : Bytes32) : Meets .scalar (Scalar.fromBytes b)
    (if bytesVal b < ell then .val ((bytesVal b : ℕ) : ZMod ell) else .panic) := by
  by_cases hb : bytesVal b < ell
  · rw [if_pos hb]
    obtain ⟨r, e, cr, vr⟩ := (C30_from_bytes b).1 hb
    exact ⟨r, e, means_scalar_val cr _ vr⟩
  · rw [if_neg hb]
    exact (C30_from_bytes b).2 (by omega)

theorem sFromI8_met (x : I8) : Meets .scalar (Scalar.fromI8 c x.1) (.val ((x.1 : ℤ) : ZMod ell)) := by
  obtain ⟨r, e, hr, v⟩ := C35_from_i8 c x.1 x.2.1 x.2.2
  refine sMet ⟨r, e, hr, ?_⟩
  unfold sv
  rw [← Int.cast_natCast, v, ZMod.intCast_mod]

theorem random_scalar_val (b : Bytes32) : ∃ r, Scalar.random b = .ok r ∧ r.SCanon ∧ r.val = bytesVal b % 2 ^ 249 := by
  obtain ⟨r, e, hr, _⟩ := C22_random_scalar b
  refine ⟨r, e, hr, ?_⟩
  have h' := mask_low b 1 0b00000001 (by decide +kernel)
  rw [show (2 : ℕ) ^ 248 * 2 ^ 1 = 2 ^ 249 by norm_num] at h'
  have hlt : bytesVal (b.set 31 (b[31] &&& 0b00000001)) < ell := by
    rw [h']
    exact lt_trans (Nat.mod_lt _ (by positivity)) ell_gt
  obtain ⟨q, eq, _, vq⟩ := Scalar.fromBytes_ok _ hlt
  unfold Scalar.random at e
  rw [eq, Res.ok_inj] at e
  rw [← e, vq, h']

theorem sRandom_met (b : Bytes32) :
    Meets .scalar (Scalar.random b) (.val ((bytesVal b % 2 ^ 249 : ℕ) : ZMod ell)) := by
  obtain ⟨r, e, hr, v⟩ := random_scalar_val b
  exact sMet ⟨r, e, hr, by unfold sv; rw [v]⟩

theorem sBits_met {a : Sc} (h : a.SCanon) : Meets (.obs (Vector UInt8 256)) (.ok (Scalar.intoBits a))
    (.val (Vector.ofFn fun i => if (sv a).val.testBit i.val then 1 else 0)) := by
  refine oMet (congrArg Res.ok (Vector.ext fun j hj => ?_))
  have e := (Scalar.intoBits_spec a h.1 (Scalar.scanon_lt256 h)).1 j hj
  rw [Vector.getElem_ofFn, ← UInt8.toNat_inj, e, sc_val h, Nat.testBit_eq_decide_div_mod_eq]
  by_cases hb : a.val / 2 ^ j % 2 = 1
  · rw [hb]; rfl
  · rw [Nat.mod_two_ne_one.1 hb]; rfl

/-- The digits of a non-adjacent form are the signed residues. -/
theorem naf_digits {w : ℕ} (hw : 1 ≤ w) : ∀ (n : ℕ) (f : ℕ → ℤ), NafU.Ok w f n →
    ∀ j < n, f j = digitOf w (rest w (NafU.val f n) j) := by
  intro n
  induction n with
  | zero => intro f _ j hj; omega
  | succ n ih =>
    intro f h j hj
    have h0 : digitOf w (NafU.val f (n + 1)) = f 0 := by
      have pr := @NafU.parity f n
      unfold digitOf
      rcases h.dig 0 (by omega) with hz | ⟨ho, ha⟩
      · rw [if_neg (by rw [pr, hz]; decide), hz]
      · have hf : f 0 ≠ 0 := by intro hz; rw [hz] at ho; exact absurd ho (by decide)
        rw [if_pos (by rw [pr, ho])]
        have hd := NafU.first_congr hw h hf
        have e : Int.bmod (NafU.val f (n + 1)) (2 ^ w) = Int.bmod (f 0) (2 ^ w) := by
          rw [← sub_add_cancel (NafU.val f (n + 1)) (f 0)]
          obtain ⟨t, ht⟩ := hd
          rw [ht, add_comm, show ((2 : ℤ) ^ w) = ((2 ^ w : ℕ) : ℤ) by rw [Nat.cast_pow, Nat.cast_ofNat],
            Int.add_mul_bmod_self_left]
        obtain ⟨v, rfl⟩ : ∃ v, w = v + 1 := ⟨w - 1, by omega⟩
        rw [Nat.add_sub_cancel, abs_lt] at ha
        have hp : ((2 ^ (v + 1) : ℕ) : ℤ) = 2 * 2 ^ v := by rw [Nat.cast_pow, Nat.cast_ofNat, pow_succ, mul_comm]
        rw [e]
        exact Int.bmod_eq_of_le (by rw [hp]; omega) (by rw [hp]; omega)
    cases j with
    | zero => exact h0.symm
    | succ j =>
      rw [rest, h0, NafU.val_succ, add_sub_cancel_left, Int.mul_ediv_cancel_left _ (by decide)]
      exact ih _ h.tail j (by omega)

theorem naf_ofFn {w : ℕ} (hw : 1 ≤ w) {v : Vector ℤ 256} {n : ℕ} (h : IsNAF w v) (hs : digitSum v = n) :
    v = Vector.ofFn fun i => digitOf w (rest w n i.val) := by
  refine Vector.ext fun j hj => ?_
  have := naf_digits hw 256 _ (isNAF_ok h) j hj
  rw [← digitSum_val, hs] at this
  rw [Vector.getElem_ofFn, ← this]
  exact (dig_fin v ⟨j, hj⟩).symm

theorem sWindowNaf_met (hc : c.Enough) {a : Sc} (h : a.SCanon) (w : Width) :
    Meets (.obs (Vector ℤ 256)) (Scalar.computeWindowNAF c a w.1)
      (.val (Vector.ofFn fun i => digitOf w.1 (rest w.1 (sv a).val i.val))) := by
  obtain ⟨v, e, h1, h2⟩ := C33_window_naf c hc w.1 w.2.1 w.2.2 a h
  rw [sc_val h]
  exact oMet (e.trans (congrArg Res.ok (naf_ofFn (by have := w.2.1; omega) h1 h2)))

theorem sNaf_met (hc : c.Enough) {a : Sc} (h : a.SCanon) :
    Meets (.obs (Vector ℤ 256)) (Scalar.computeNAF c a)
      (.val (Vector.ofFn fun i => digitOf 2 (rest 2 (sv a).val i.val))) := by
  rw [(C91_naf c c hc hc a h (Vector.replicate 256 0)).2]
  exact sWindowNaf_met hc h ⟨2, by decide, by decide⟩

theorem smod_bmod (n w : ℕ) (hw : 2 ≤ w) : Scalar.smod n w = Int.bmod n (2 ^ w) := by
  obtain ⟨v, rfl⟩ : ∃ v, w = v + 1 := ⟨w - 1, by omega⟩
  unfold Scalar.smod
  rw [Int.bmod_def, Nat.add_sub_cancel]
  have hp : ((2 ^ (v + 1) : ℕ) : ℤ) = 2 * 2 ^ v := by rw [Nat.cast_pow, Nat.cast_ofNat, pow_succ, mul_comm]
  have hm : ((n % 2 ^ (v + 1) : ℕ) : ℤ) = (n : ℤ) % ((2 ^ (v + 1) : ℕ) : ℤ) := Int.natCast_mod _ _
  rw [← hm]
  have h2 : ((2 : ℤ) ^ v) = ((2 ^ v : ℕ) : ℤ) := by rw [Nat.cast_pow, Nat.cast_ofNat]
  have h3 : (2 : ℤ) ^ (v + 1) = ((2 ^ (v + 1) : ℕ) : ℤ) := by rw [Nat.cast_pow, Nat.cast_ofNat]
  rw [h3, hp, h2]
  by_cases hb : 2 ^ v ≤ n % 2 ^ (v + 1)
  · rw [if_pos hb, if_neg (by omega)]
  · rw [if_neg hb, if_pos (by omega)]

theorem sMods_met {a : Sc} (h : a.SCanon) (w : Mod) :
    Meets (.obs ℤ) (Scalar.mods2PowK c a w.1) (.val (Int.bmod (sv a).val (2 ^ w.1))) := by
  rw [sc_val h]
  exact oMet ((Scalar.mods2PowK_spec c a w.1 w.2.1 w.2.2).trans (congrArg Res.ok (smod_bmod _ _ w.2.1)))

theorem sMod_met {a : Sc} (h : a.SCanon) (k : Exp8) :
    Meets (.obs ℕ) (Scalar.mod2PowK c a k.1) (.val ((sv a).val % 2 ^ k.1)) := by
  rw [sc_val h]
  exact oMet (C36_mod_2_pow_k c a k.1 k.2)

theorem eMet {r : Res EdPoint} {A : E} (h : ∃ P, r = .ok P ∧ P.Rep A) : Meets .ext r (.val A) := h
theorem pMet {r : Res ProjPoint} {A : E} (h : ∃ P, r = .ok P ∧ P.Rep A) : Meets .proj r (.val A) := h
theorem aMet {r : Res AffPoint} {A : E} (h : ∃ P, r = .ok P ∧ P.Rep A) : Meets .aff r (.val A) := h

theorem aff_rep (A : E) : AffPoint.Rep ⟨enc A.x, enc A.y⟩ A := AffPoint.rep_mk rfl rfl

theorem pt_eq_iff (A B : E) : (decide (A.x = B.x) && decide (A.y = B.y)) = true ↔ A = B := by
  rw [Bool.and_eq_true, decide_eq_true_iff, decide_eq_true_iff]
  exact ⟨fun h => EdCurve.Pt.ext h.1 h.2, fun h => by rw [h]; exact ⟨rfl, rfl⟩⟩

theorem eEq_met (hc : c.Enough) {P Q : EdPoint} {A B : E} (h1 : P.Rep A) (h2 : Q.Rep B) (i : Decidable (A = B)) :
    Meets (.obs Bool) (Ed.ctEq c P Q) (.val (@decide (A = B) i)) :=
  bMet (i := i) ⟨_, Ed.ctEq_rep c hc h1 h2, pt_eq_iff A B⟩

theorem pEq_met (hc : c.Enough) {P Q : ProjPoint} {A B : E} (h1 : P.Rep A) (h2 : Q.Rep B) (i : Decidable (A = B)) :
    Meets (.obs Bool) (Proj.ctEq c P Q) (.val (@decide (A = B) i)) :=
  bMet (i := i) ⟨_, Proj.ctEq_rep c hc h1 h2, pt_eq_iff A B⟩

theorem aEq_met {P Q : AffPoint} {A B : E} (h1 : P.Rep A) (h2 : Q.Rep B) (i : Decidable (A = B)) :
    Meets (.obs Bool) (.ok (Aff.ctEq P Q)) (.val (@decide (A = B) i)) := by
  refine bMet (i := i) ⟨_, rfl, ?_⟩
  rw [h1.form, h2.form]
  unfold Aff.ctEq
  rw [Field.ctEq_enc, Field.ctEq_enc]
  exact pt_eq_iff A B

theorem pIsValid_met {P : ProjPoint} {A : E} (h : P.Rep A) : Proj.isValid c P = .ok true := by
  obtain ⟨Z, hz, rfl⟩ := h.form
  rw [Proj_isValid_enc, decide_eq_true]
  have := on_fact A
  linear_combination Z ^ 4 * this

theorem aIsValid_met {P : AffPoint} {A : E} (h : P.Rep A) : Aff.isValid c P = .ok true := by
  rw [h.form]
  simp only [Aff.isValid, Field.square_enc, Field.minusOne_enc, Field.mul_enc, Field.add_enc, Field.one_enc,
    EDWARDS_D_enc, Res.ok_bind, Res.pure_eq, Field.ctEq_enc]
  rw [decide_eq_true]
  have := on_fact A
  linear_combination this

/-- The generic point routines on points whose operations are the group's. -/
theorem gen_met {T : Type} {O : PointOps T} {R : T → E → Prop} (hO : OpsSpec O R) (hc : c.Enough) {P : T} {A : E}
    (h : R P A) {n : Sc} (hn : n.SCanon) :
    (∃ S, doubleAndAdd O c P n = .ok S ∧ R S ((sv n).val • A)) ∧
    (∃ S, ltrBinMul O c P n = .ok S ∧ R S (((sv n).val % 2 ^ 249) • A)) ∧
    (∃ S, binaryNafMul O c P n = .ok S ∧ R S ((sv n).val • A)) := by
  rw [sc_val hn]
  exact ⟨doubleAndAdd_rep hO c hc h n hn.1 (Scalar.scanon_lt256 hn),
    ltrBinMul_rep hO c h n hn.1 (Scalar.scanon_lt256 hn), binaryNafMul_rep hO c hc h n hn⟩

theorem pow2_met {t : Ty} {D : ℕ → Den t} {r : Res (Val t)} (k : ℕ) (h1 : k ≤ 249 → Meets t r (.val (D k)))
    (h2 : 250 ≤ k → r = .panic) : Meets t r (if k ≤ 249 then .val (D k) else .panic) := by
  by_cases hk : k ≤ 249
  · rw [if_pos hk]; exact h1 hk
  · rw [if_neg hk]; exact h2 (by omega)

theorem lg_of_rep {A : {A : E // InEven A}} {r : Res EdPoint} {n : ℕ}
    (h : ∃ S, r = .ok S ∧ S.Rep (n • A.1)) : ∃ P, r = .ok P ∧ Lg P (n * dl A) := by
  obtain ⟨S, e, h⟩ := h
  exact ⟨S, e, ⟨_, A.2.smul n⟩, h, dl_smul A n⟩

theorem sv_cast (x : ZMod ell) : ((x.val : ℕ) : ZMod ell) = x := ZMod.natCast_zmod_val x

theorem rMul_met (hc : c.Enough) {P : EdPoint} {k : ZMod ell} (h : Lg P k) {n : Sc} (hn : n.SCanon) :
    (∃ S, Ristretto.mul c P n = .ok S ∧ Lg S (sv n * k)) ∧
    (∃ S, ltrBinMul Ristretto.ops c P n = .ok S ∧ Lg S ((((sv n).val % 2 ^ 249 : ℕ) : ZMod ell) * k)) ∧
    (∃ S, binaryNafMul Ristretto.ops c P n = .ok S ∧ Lg S (sv n * k)) := by
  obtain ⟨A, hA, rfl⟩ := h
  obtain ⟨h1, h2, h3⟩ := gen_met Ristretto.opsSpec hc hA hn
  have h1 := lg_of_rep h1
  have h3 := lg_of_rep h3
  rw [sv_cast] at h1 h3
  exact ⟨h1, lg_of_rep h2, h3⟩

theorem rPow2_met (hc : c.Enough) {P : EdPoint} {k : ZMod ell} (h : Lg P k) :
    (∃ S, mulByCofactor Ristretto.ops c P = .ok S ∧ Lg S (8 * k)) ∧
    ∀ j ≤ 249, ∃ S, mulByPow2 Ristretto.ops c P j = .ok S ∧ Lg S (2 ^ j * k) := by
  obtain ⟨A, hA, rfl⟩ := h
  refine ⟨?_, fun j hj => ?_⟩
  · have := lg_of_rep (mulByCofactor_rep Ristretto.opsSpec c hc hA)
    rwa [Nat.cast_ofNat] at this
  · have := lg_of_rep (mulByPow2_rep Ristretto.opsSpec c hc hA j hj)
    rwa [Nat.cast_pow, Nat.cast_ofNat] at this

theorem rBaseMul_met (hc : c.Enough) {n : Sc} (hn : n.SCanon) :
    ∃ S, Ristretto.windowNafMul c n 2 = .ok S ∧ Lg S (sv n) := by
  obtain ⟨S, e, h⟩ := C50_width_two c hc n hn
  have := lg_of_rep (A := ⟨Bpt, Bpt_even⟩) ⟨S, e, h⟩
  rwa [dl_base, mul_one] at this

theorem rEq_met {P Q : EdPoint} {x y : ZMod ell} (h1 : Lg P x) (h2 : Lg Q y) (i : Decidable (x = y)) :
    Meets (.obs Bool) (Ristretto.ctEq c P Q) (.val (@decide (x = y) i)) := by
  have h3 := h1.req c h2
  obtain ⟨A, hA, _⟩ := h1
  obtain ⟨B, hB, _⟩ := h2
  obtain ⟨t, e, h⟩ := C58_eq_iff c hA hB
  refine bMet (i := i) ⟨t, e, ?_⟩
  unfold REq at h3
  rw [e, Res.ok_inj] at h3
  exact h3

theorem rDecompress_met (hc : c.Enough) (b : Bytes32) :
    Meets (.opt .ris) (Ristretto.decompress c b) (.val (risDecode b)) := by
  rcases decompress_log c hc b with ⟨P, k, e, h, d⟩ | ⟨e, d⟩
  · rw [d]; exact ⟨_, e, Option.Rel.some (means_ris.2 h)⟩
  · rw [d]; exact ⟨_, e, Option.Rel.none⟩

theorem rElligator_met (hc : c.Enough) (t : Fp) :
    Meets .ris (Ristretto.elligator c (enc t)) (.val (risMap t)) := by
  obtain ⟨P, e, h⟩ := ellPt_run c hc (enc t) (enc_WF t)
  rw [enc_toZ] at h
  rw [risMap_eq]
  exact rMet ⟨P, e, _, h, rfl⟩

theorem rFromUniform_met (hc : c.Enough) (b : Bytes64) :
    Meets .ris (Ristretto.fromUniformBytes c b) (.val (risHash b)) := by
  obtain ⟨P, A, e, h, d⟩ := hash_run c hc b
  rw [risHash_eq, ← d]
  exact rMet ⟨P, e, _, h, rfl⟩

theorem sAdd_met {a b : Sc} (h1 : a.SCanon) (h2 : b.SCanon) :
    Meets .scalar (Scalar.add c a b) (.val (sv a + sv b)) := by
  obtain ⟨r, e, _⟩ := C25_add c a b h1 h2
  exact sMet ⟨r, e, sv_add h1 h2 e⟩

theorem sSub_met {a b : Sc} (h1 : a.SCanon) (h2 : b.SCanon) :
    Meets .scalar (Scalar.sub c a b) (.val (sv a - sv b)) := by
  obtain ⟨r, e, _⟩ := C26_sub c a b h1 h2
  exact sMet ⟨r, e, sv_sub h1 h2 e⟩

theorem sMul_met {a b : Sc} (h1 : a.SCanon) (h2 : b.SCanon) :
    Meets .scalar (Scalar.mul c a b) (.val (sv a * sv b)) := by
  obtain ⟨r, e, _⟩ := C27_mul c a b h1.1 h2.1
  exact sMet ⟨r, e, sv_mul h1.1 h2.1 e⟩

theorem ePow2_met (A : E) {r : Res EdPoint} (k : ℕ) (h1 : k ≤ 249 → Meets .ext r (.val (2 ^ k • A : E)))
    (h2 : 250 ≤ k → r = .panic) : Meets .ext r (if k ≤ 249 then .val (2 ^ k • A : E) else .panic) :=
  pow2_met (t := .ext) (D := fun k => (2 ^ k • A : E)) k h1 h2

theorem pPow2_met (A : E) {r : Res ProjPoint} (k : ℕ) (h1 : k ≤ 249 → Meets .proj r (.val (2 ^ k • A : E)))
    (h2 : 250 ≤ k → r = .panic) : Meets .proj r (if k ≤ 249 then .val (2 ^ k • A : E) else .panic) :=
  pow2_met (t := .proj) (D := fun k => (2 ^ k • A : E)) k h1 h2

theorem rPow2_met' (x : ZMod ell) {r : Res EdPoint} (k : ℕ)
    (h1 : k ≤ 249 → Meets .ris r (.val (2 ^ k * x : ZMod ell)))
    (h2 : 250 ≤ k → r = .panic) : Meets .ris r (if k ≤ 249 then .val (2 ^ k * x : ZMod ell) else .panic) :=
  pow2_met (t := .ris) (D := fun k => (2 ^ k * x : ZMod ell)) k h1 h2

theorem aIdentity_rep : Aff.identity.Rep 0 := by
  have h : Aff.identity = ⟨enc (0 : E).x, enc (0 : E).y⟩ := by
    show Aff.identity = ⟨enc 0, enc 1⟩
    unfold Aff.identity
    rw [Field.zero_enc, Field.one_enc]
  rw [h]
  exact aff_rep 0

theorem two_rep {T : Type} {r : Res T} {R : T → E → Prop} {A : E} (h : ∃ S, r = .ok S ∧ R S (A + A)) :
    ∃ S, r = .ok S ∧ R S (2 • A) := by
  rwa [two_nsmul]

set_option maxHeartbeats 1600000 in
/-- Each operation does what its meaning says. -/
theorem prim_sound (c : Cfg) (hc : c.Enough) {s t : Ty} (f : Prim s t) (v : Val s) (d : Den s) (h : Means s v d) :
    Meets t (f.run c v) (f.den d) := by
  cases f with
  | fZero => exact fMet (congrArg Res.ok Field.zero_enc)
  | fOne => exact fMet (congrArg Res.ok Field.one_enc)
  | fMinusOne => exact fMet (congrArg Res.ok Field.minusOne_enc)
  | fFrom =>
      cases (show v = d from h)
      exact fFrom_met _ v.2
  | fTwoPow =>
      cases (show v = d from h)
      exact fTwoPow_met _
  | fNeg =>
      have e := means_field.1 h
      subst e
      exact fMet (Field.neg_enc c _)
  | fSquare =>
      have e := means_field.1 h
      subst e
      exact fSquare_met _
  | fHalf =>
      have e := means_field.1 h
      subst e
      exact fHalf_met _
  | fHalfFloor =>
      have e := means_field.1 h
      subst e
      exact fHalfFloor_met _
  | fInverse =>
      have e := means_field.1 h
      subst e
      exact fInverse_met hc _
  | fAdd =>
      obtain ⟨a, b⟩ := v; obtain ⟨x, y⟩ := d; obtain ⟨h1, h2⟩ := h
      have e1 : a = enc x := means_field.1 h1
      have e2 : b = enc y := means_field.1 h2
      subst e1 e2
      exact fMet (Field.add_enc c _ _)
  | fSub =>
      obtain ⟨a, b⟩ := v; obtain ⟨x, y⟩ := d; obtain ⟨h1, h2⟩ := h
      have e1 : a = enc x := means_field.1 h1
      have e2 : b = enc y := means_field.1 h2
      subst e1 e2
      exact fMet (Field.sub_enc c _ _)
  | fMul =>
      obtain ⟨a, b⟩ := v; obtain ⟨x, y⟩ := d; obtain ⟨h1, h2⟩ := h
      have e1 : a = enc x := means_field.1 h1
      have e2 : b = enc y := means_field.1 h2
      subst e1 e2
      exact fMet (Field.mul_enc c _ _)
  | fDiv =>
      obtain ⟨a, b⟩ := v; obtain ⟨x, y⟩ := d; obtain ⟨h1, h2⟩ := h
      have e1 : a = enc x := means_field.1 h1
      have e2 : b = enc y := means_field.1 h2
      subst e1 e2
      exact fDiv_met hc _ _
  | fPow =>
      obtain ⟨a, b⟩ := v; obtain ⟨x, y⟩ := d; obtain ⟨h1, h2⟩ := h
      have e1 : a = enc x := means_field.1 h1
      have e2 : b = enc y := means_field.1 h2
      subst e1 e2
      exact fPow_met hc _ _
  | fLegendre =>
      have e := means_field.1 h
      subst e
      exact fLegendre_met hc _
  | fModSqrt =>
      obtain ⟨a, b⟩ := v; obtain ⟨x, y⟩ := d; obtain ⟨h1, h2⟩ := h
      have e1 : a = enc x := means_field.1 h1
      have e2 : b = y := h2
      subst e1 e2
      exact modSqrt_met hc _ _
  | fSqrtRatio =>
      obtain ⟨a, b⟩ := v; obtain ⟨x, y⟩ := d; obtain ⟨h1, h2⟩ := h
      have e1 : a = enc x := means_field.1 h1
      have e2 : b = enc y := means_field.1 h2
      subst e1 e2
      exact ⟨_, Field.sqrtRatioI_enc c hc _ _, rfl, means_field.2 rfl⟩
  | fInvSqrt =>
      have e := means_field.1 h
      subst e
      exact ⟨_, Field.invSqrt_enc c hc _, rfl, means_field.2 rfl⟩
  | fIsEven =>
      have e := means_field.1 h
      subst e
      exact fIsEven_met _
  | fIsPositive =>
      have e := means_field.1 h
      subst e
      exact fIsPositive_met _
  | fEq =>
      obtain ⟨a, b⟩ := v; obtain ⟨x, y⟩ := d; obtain ⟨h1, h2⟩ := h
      have e1 : a = enc x := means_field.1 h1
      have e2 : b = enc y := means_field.1 h2
      subst e1 e2
      exact fEq_met _ _ _
  | fCmp =>
      obtain ⟨a, b⟩ := v; obtain ⟨x, y⟩ := d; obtain ⟨h1, h2⟩ := h
      have e1 : a = enc x := means_field.1 h1
      have e2 : b = enc y := means_field.1 h2
      subst e1 e2
      exact fCmp_met _ _
  | fToBytes =>
      have e := means_field.1 h
      subst e
      exact fToBytes_met _
  | fFromBytes =>
      cases (show v = d from h)
      exact fFromBytes_met _
  | fSelect =>
      obtain ⟨⟨a, b⟩, t⟩ := v; obtain ⟨⟨x, y⟩, u⟩ := d; obtain ⟨⟨h1, h2⟩, h3⟩ := h
      have e1 : a = enc x := means_field.1 h1
      have e2 : b = enc y := means_field.1 h2
      have e3 : t = u := h3
      subst e1 e2 e3
      exact fMet (congrArg Res.ok (Field.condSelect_enc _ _ _))
  | fNegIf =>
      obtain ⟨a, t⟩ := v; obtain ⟨x, u⟩ := d; obtain ⟨h1, h2⟩ := h
      have e1 : a = enc x := means_field.1 h1
      have e2 : t = u := h2
      subst e1 e2
      exact fMet (Field.condNegate_enc c _ _)
  | fRandom =>
      cases (show v = d from h)
      exact met rfl (means_field_val (Field.random_spec _).1 _ (random_field_val _))
  | sZero => exact sZero_met
  | sOne => exact sOne_met
  | sMinusOne => exact sMinusOne_met
  | sFrom =>
      cases (show v = d from h)
      exact sFrom_met _ v.2
  | sTwoPow =>
      cases (show v = d from h)
      exact sTwoPow_met _
  | sNeg =>
      obtain ⟨h1, e⟩ := means_scalar.1 h
      subst e
      exact sNeg_met h1
  | sSquare =>
      obtain ⟨h1, e⟩ := means_scalar.1 h
      subst e
      exact sSquare_met h1
  | sHalf =>
      obtain ⟨h1, e⟩ := means_scalar.1 h
      subst e
      exact sHalf_met h1
  | sHalfFloor =>
      obtain ⟨h1, e⟩ := means_scalar.1 h
      subst e
      exact sFloor h1 2 (C28_half_without_mod _ h1.1).1 (C28_half_without_mod _ h1.1).2
  | sShr =>
      obtain ⟨a, n⟩ := v; obtain ⟨x, y⟩ := d; obtain ⟨h1, h2⟩ := h
      obtain ⟨w1, e1⟩ : L5.SCanon a ∧ sv a = x := means_scalar.1 h1
      have e2 : n = y := h2
      subst e1 e2
      exact sFloor w1 _ (C28_shr a n.1 w1.1).1 (C28_shr a n.1 w1.1).2
  | sAdd =>
      obtain ⟨a, b⟩ := v; obtain ⟨x, y⟩ := d; obtain ⟨h1, h2⟩ := h
      obtain ⟨w1, e1⟩ : L5.SCanon a ∧ sv a = x := means_scalar.1 h1
      obtain ⟨w2, e2⟩ : L5.SCanon b ∧ sv b = y := means_scalar.1 h2
      subst e1 e2
      exact sAdd_met w1 w2
  | sSub =>
      obtain ⟨a, b⟩ := v; obtain ⟨x, y⟩ := d; obtain ⟨h1, h2⟩ := h
      obtain ⟨w1, e1⟩ : L5.SCanon a ∧ sv a = x := means_scalar.1 h1
      obtain ⟨w2, e2⟩ : L5.SCanon b ∧ sv b = y := means_scalar.1 h2
      subst e1 e2
      exact sSub_met w1 w2
  | sMul =>
      obtain ⟨a, b⟩ := v; obtain ⟨x, y⟩ := d; obtain ⟨h1, h2⟩ := h
      obtain ⟨w1, e1⟩ : L5.SCanon a ∧ sv a = x := means_scalar.1 h1
      obtain ⟨w2, e2⟩ : L5.SCanon b ∧ sv b = y := means_scalar.1 h2
      subst e1 e2
      exact sMul_met w1 w2
  | sPow =>
      obtain ⟨a, b⟩ := v; obtain ⟨x, y⟩ := d; obtain ⟨h1, h2⟩ := h
      obtain ⟨w1, e1⟩ : L5.SCanon a ∧ sv a = x := means_scalar.1 h1
      obtain ⟨w2, e2⟩ : L5.SCanon b ∧ sv b = y := means_scalar.1 h2
      subst e1 e2
      exact sPow_met hc w1 w2
  | sIsEven =>
      obtain ⟨h1, e⟩ := means_scalar.1 h
      subst e
      exact sIsEven_met h1
  | sEq =>
      obtain ⟨a, b⟩ := v; obtain ⟨x, y⟩ := d; obtain ⟨h1, h2⟩ := h
      obtain ⟨w1, e1⟩ : L5.SCanon a ∧ sv a = x := means_scalar.1 h1
      obtain ⟨w2, e2⟩ : L5.SCanon b ∧ sv b = y := means_scalar.1 h2
      subst e1 e2
      exact sEq_met w1 w2 _
  | sCmp =>
      obtain ⟨a, b⟩ := v; obtain ⟨x, y⟩ := d; obtain ⟨h1, h2⟩ := h
      obtain ⟨w1, e1⟩ : L5.SCanon a ∧ sv a = x := means_scalar.1 h1
      obtain ⟨w2, e2⟩ : L5.SCanon b ∧ sv b = y := means_scalar.1 h2
      subst e1 e2
      exact sCmp_met w1 w2
  | sToBytes =>
      obtain ⟨h1, e⟩ := means_scalar.1 h
      subst e
      exact sToBytes_met h1
  | sFromBytes =>
      cases (show v = d from h)
      exact sFromBytes_met _
  | sFromI8 =>
      cases (show v = d from h)
      exact sFromI8_met _
  | sRandom =>
      cases (show v = d from h)
      exact sRandom_met _
  | sBits =>
      obtain ⟨h1, e⟩ := means_scalar.1 h
      subst e
      exact sBits_met h1
  | sMod =>
      obtain ⟨a, k⟩ := v; obtain ⟨x, j⟩ := d; obtain ⟨h1, h2⟩ := h
      obtain ⟨w1, e1⟩ : L5.SCanon a ∧ sv a = x := means_scalar.1 h1
      have e2 : k = j := h2
      subst e1 e2
      exact sMod_met w1 _
  | sMods =>
      obtain ⟨a, k⟩ := v; obtain ⟨x, j⟩ := d; obtain ⟨h1, h2⟩ := h
      obtain ⟨w1, e1⟩ : L5.SCanon a ∧ sv a = x := means_scalar.1 h1
      have e2 : k = j := h2
      subst e1 e2
      exact sMods_met w1 _
  | sNaf =>
      obtain ⟨h1, e⟩ := means_scalar.1 h
      subst e
      exact sNaf_met hc h1
  | sWindowNaf =>
      obtain ⟨a, k⟩ := v; obtain ⟨x, j⟩ := d; obtain ⟨h1, h2⟩ := h
      obtain ⟨w1, e1⟩ : L5.SCanon a ∧ sv a = x := means_scalar.1 h1
      have e2 : k = j := h2
      subst e1 e2
      exact sWindowNaf_met hc w1 _
  | eZero => exact eMet ⟨_, rfl, Ed.identity_rep⟩
  | eNeg => exact eMet (Ed.neg_rep c h)
  | eDouble => exact eMet (two_rep (Ed.double_rep c h))
  | eAdd =>
      obtain ⟨P, Q⟩ := v; obtain ⟨A, B⟩ := d; obtain ⟨h1, h2⟩ := h
      exact eMet (Ed.add_rep c h1 h2)
  | eSub =>
      obtain ⟨P, Q⟩ := v; obtain ⟨A, B⟩ := d; obtain ⟨h1, h2⟩ := h
      exact eMet (Ed.sub_rep c h1 h2)
  | eMul =>
      obtain ⟨P, b⟩ := v; obtain ⟨A, y⟩ := d; obtain ⟨h1, h2⟩ := h
      obtain ⟨w2, e2⟩ : L5.SCanon b ∧ sv b = y := means_scalar.1 h2
      subst e2
      exact eMet (gen_met Ed.opsSpec hc h1 w2).1
  | eLtrMul =>
      obtain ⟨P, b⟩ := v; obtain ⟨A, y⟩ := d; obtain ⟨h1, h2⟩ := h
      obtain ⟨w2, e2⟩ : L5.SCanon b ∧ sv b = y := means_scalar.1 h2
      subst e2
      exact eMet (gen_met Ed.opsSpec hc h1 w2).2.1
  | eNafMul =>
      obtain ⟨P, b⟩ := v; obtain ⟨A, y⟩ := d; obtain ⟨h1, h2⟩ := h
      obtain ⟨w2, e2⟩ : L5.SCanon b ∧ sv b = y := means_scalar.1 h2
      subst e2
      exact eMet (gen_met Ed.opsSpec hc h1 w2).2.2
  | eCofactor => exact eMet (mulByCofactor_rep Ed.opsSpec c hc h)
  | eMulPow2 =>
      obtain ⟨P, k⟩ := v; obtain ⟨A, y⟩ := d; obtain ⟨h1, h2⟩ := h
      have e2 : k = y := h2
      subst e2
      exact ePow2_met A k.1
        (fun hk => eMet (mulByPow2_rep Ed.opsSpec c hc h1 _ hk))
        (fun hk => (C51_pow_two_panics c P Proj.identity _ hk).1)
  | eEq =>
      obtain ⟨P, Q⟩ := v; obtain ⟨A, B⟩ := d; obtain ⟨h1, h2⟩ := h
      exact eEq_met hc h1 h2 _
  | eIsValid => exact oMet (Ed_isValid_rep c h)
  | eFromY =>
      obtain ⟨a, b⟩ := v; obtain ⟨x, y⟩ := d; obtain ⟨h1, h2⟩ := h
      have e1 : a = enc x := means_field.1 h1
      have e2 : b = y := h2
      subst e1 e2
      exact (newFromY_met hc _ _).1
  | eBase => exact eMet ⟨_, rfl, BASEPOINT_rep⟩
  | eCompress => exact oMet (compress_met hc h)
  | eDecompress =>
      cases (show v = d from h)
      exact decompress_met hc _
  | eNegCompressed =>
      cases (show v = d from h)
      exact negCompressed_met hc _
  | eOfProj => exact eMet (Ed.ofProj_rep c h)
  | eOfAff => exact eMet (Ed.ofAff_rep c h)
  | pZero => exact pMet ⟨_, rfl, Proj.identity_rep⟩
  | pNeg => exact pMet (Proj.neg_rep c h)
  | pDouble => exact pMet (two_rep (Proj.double_rep c h))
  | pAdd =>
      obtain ⟨P, Q⟩ := v; obtain ⟨A, B⟩ := d; obtain ⟨h1, h2⟩ := h
      exact pMet (Proj.add_rep c h1 h2)
  | pSub =>
      obtain ⟨P, Q⟩ := v; obtain ⟨A, B⟩ := d; obtain ⟨h1, h2⟩ := h
      exact pMet (Proj.sub_rep c h1 h2)
  | pMul =>
      obtain ⟨P, b⟩ := v; obtain ⟨A, y⟩ := d; obtain ⟨h1, h2⟩ := h
      obtain ⟨w2, e2⟩ : L5.SCanon b ∧ sv b = y := means_scalar.1 h2
      subst e2
      exact pMet (gen_met Proj.opsSpec hc h1 w2).1
  | pLtrMul =>
      obtain ⟨P, b⟩ := v; obtain ⟨A, y⟩ := d; obtain ⟨h1, h2⟩ := h
      obtain ⟨w2, e2⟩ : L5.SCanon b ∧ sv b = y := means_scalar.1 h2
      subst e2
      exact pMet (gen_met Proj.opsSpec hc h1 w2).2.1
  | pNafMul =>
      obtain ⟨P, b⟩ := v; obtain ⟨A, y⟩ := d; obtain ⟨h1, h2⟩ := h
      obtain ⟨w2, e2⟩ : L5.SCanon b ∧ sv b = y := means_scalar.1 h2
      subst e2
      exact pMet (gen_met Proj.opsSpec hc h1 w2).2.2
  | pCofactor => exact pMet (mulByCofactor_rep Proj.opsSpec c hc h)
  | pMulPow2 =>
      obtain ⟨P, k⟩ := v; obtain ⟨A, y⟩ := d; obtain ⟨h1, h2⟩ := h
      have e2 : k = y := h2
      subst e2
      exact pPow2_met A k.1
        (fun hk => pMet (mulByPow2_rep Proj.opsSpec c hc h1 _ hk))
        (fun hk => (C51_pow_two_panics c Ed.identity P _ hk).2.1)
  | pEq =>
      obtain ⟨P, Q⟩ := v; obtain ⟨A, B⟩ := d; obtain ⟨h1, h2⟩ := h
      exact pEq_met hc h1 h2 _
  | pIsValid => exact oMet (pIsValid_met h)
  | pFromY =>
      obtain ⟨a, b⟩ := v; obtain ⟨x, y⟩ := d; obtain ⟨h1, h2⟩ := h
      have e1 : a = enc x := means_field.1 h1
      have e2 : b = y := h2
      subst e1 e2
      exact (newFromY_met hc _ _).2
  | pOfExt => exact pMet ⟨_, rfl, Proj.ofEd_rep h⟩
  | pOfAff => exact pMet ⟨_, rfl, Proj.ofAff_rep h⟩
  | aZero => exact aMet ⟨_, rfl, aIdentity_rep⟩
  | aNeg => exact aMet (Aff.neg_rep c h)
  | aEq =>
      obtain ⟨P, Q⟩ := v; obtain ⟨A, B⟩ := d; obtain ⟨h1, h2⟩ := h
      exact aEq_met h1 h2 _
  | aIsValid => exact oMet (aIsValid_met h)
  | aOfExt => exact aMet ⟨_, Aff.ofEd_rep c hc h, aff_rep _⟩
  | aOfProj => exact aMet ⟨_, Aff.ofProj_rep c hc h, aff_rep _⟩
  | rZero => exact rMet ⟨_, rfl, Lg.identity⟩
  | rBase => exact rMet ⟨_, rfl, Lg.base⟩
  | rNeg => exact rMet (Lg.neg c (means_ris.1 h))
  | rDouble => exact rMet (Lg.double c (means_ris.1 h))
  | rAdd =>
      obtain ⟨P, Q⟩ := v; obtain ⟨x, y⟩ := d; obtain ⟨h1, h2⟩ := h
      exact rMet (Lg.add c (means_ris.1 h1) (means_ris.1 h2))
  | rSub =>
      obtain ⟨P, Q⟩ := v; obtain ⟨x, y⟩ := d; obtain ⟨h1, h2⟩ := h
      exact rMet (Lg.sub c (means_ris.1 h1) (means_ris.1 h2))
  | rMul =>
      obtain ⟨P, b⟩ := v; obtain ⟨A, y⟩ := d; obtain ⟨h1, h2⟩ := h
      obtain ⟨w2, e2⟩ : L5.SCanon b ∧ sv b = y := means_scalar.1 h2
      subst e2
      exact rMet (rMul_met hc (means_ris.1 h1) w2).1
  | rLtrMul =>
      obtain ⟨P, b⟩ := v; obtain ⟨A, y⟩ := d; obtain ⟨h1, h2⟩ := h
      obtain ⟨w2, e2⟩ : L5.SCanon b ∧ sv b = y := means_scalar.1 h2
      subst e2
      exact rMet (rMul_met hc (means_ris.1 h1) w2).2.1
  | rNafMul =>
      obtain ⟨P, b⟩ := v; obtain ⟨A, y⟩ := d; obtain ⟨h1, h2⟩ := h
      obtain ⟨w2, e2⟩ : L5.SCanon b ∧ sv b = y := means_scalar.1 h2
      subst e2
      exact rMet (rMul_met hc (means_ris.1 h1) w2).2.2
  | rBaseMul =>
      obtain ⟨h1, e⟩ := means_scalar.1 h
      subst e
      exact rMet (rBaseMul_met hc h1)
  | rCofactor => exact rMet (rPow2_met hc (means_ris.1 h)).1
  | rMulPow2 =>
      obtain ⟨P, k⟩ := v; obtain ⟨A, y⟩ := d; obtain ⟨h1, h2⟩ := h
      have e2 : k = y := h2
      subst e2
      exact rPow2_met' A k.1
        (fun hk => rMet ((rPow2_met hc (means_ris.1 h1)).2 _ hk))
        (fun hk => (C51_pow_two_panics c P Proj.identity _ hk).2.2)
  | rEq =>
      obtain ⟨P, Q⟩ := v; obtain ⟨x, y⟩ := d; obtain ⟨h1, h2⟩ := h
      exact rEq_met (means_ris.1 h1) (means_ris.1 h2) _
  | rCompress => exact oMet (compress_log c hc (means_ris.1 h))
  | rDecompress =>
      cases (show v = d from h)
      exact rDecompress_met hc _
  | rElligator =>
      have e := means_field.1 h
      subst e
      exact rElligator_met hc _
  | rFromUniform =>
      cases (show v = d from h)
      exact rFromUniform_met hc _

/-! ### Every program -/

/-- The outcome of a sequence. -/
theorem meets_bind {s t : Ty} {r : Res (Val s)} {o : Outcome (Den s)} {k : Val s → Res (Val t)}
    {g : Den s → Outcome (Den t)} (h : Meets s r o) (hk : ∀ v d, Means s v d → Meets t (k v) (g d)) :
    Meets t (r >>= k) (o.bind g) := by
  cases o with
  | val d =>
      obtain ⟨v, e, hv⟩ := h
      rw [e, Res.ok_bind]
      exact hk v d hv
  | panic =>
      have h : r = .panic := h
      rw [h]
      rfl
  | unspecified => trivial

theorem meets_iter {s : Ty} {k : Val s → Res (Val s)} {g : Den s → Outcome (Den s)}
    (hk : ∀ v d, Means s v d → Meets s (k v) (g d)) :
    ∀ (n : ℕ) v d, Means s v d → Meets s (iterRes k n v) (iterOut g n d)
  | 0, v, _, h => ⟨v, rfl, h⟩
  | n + 1, v, d, h => meets_bind (hk v d h) (meets_iter hk n)

theorem meets_fold {s t : Ty} {k : Val s → Val t → Res (Val s)} {g : Den s → Den t → Outcome (Den s)}
    (hk : ∀ v d w e, Means s v d → Means t w e → Meets s (k v w) (g d e)) {l : List (Val t)} {m : List (Den t)}
    (hl : List.Forall₂ (Means t) l m) : ∀ v d, Means s v d → Meets s (foldRes k v l) (foldOut g d m) := by
  induction hl with
  | nil => exact fun v d h => ⟨v, rfl, h⟩
  | cons h1 _ ih => exact fun v d h => meets_bind (hk _ _ _ _ h h1) ih

/-- **C115.** Every program written against the library does what its mathematical meaning says: on inputs
that stand for `d` it panics if the meaning of the program on `d` is to panic and otherwise returns a value
that stands for the meaning. Programs may call any function of the interface, any computation on ordinary data
in between, branches, lists, loops over lists and counted loops. -/
theorem C115_programs (c : Cfg) (hc : c.Enough) {s t : Ty} (f : Prog s t) :
    ∀ v d, Means s v d → Meets t (f.run c v) (f.den d) := by
  induction f with
  | call f => exact fun v d h => prim_sound c hc f v d h
  | host f =>
      intro v d h
      cases (show v = d from h)
      exact ⟨_, rfl, rfl⟩
  | hostPanic f =>
      intro v d h
      cases (show v = d from h)
      show Meets (.obs _) (match f v with
        | some y => .ok y
        | none => .panic) (match f v with
        | some y => .val y
        | none => .panic)
      cases f v with
      | some y => exact ⟨_, rfl, rfl⟩
      | none => rfl
  | lit x => exact fun v d h => ⟨x, rfl, rfl⟩
  | skip => exact fun v d h => ⟨v, rfl, h⟩
  | seq f g ihf ihg => exact fun v d h => meets_bind (ihf v d h) ihg
  | pair f g ihf ihg =>
      exact fun v d h => meets_bind (ihf v d h) fun v1 d1 h1 =>
        meets_bind (ihg v d h) fun v2 d2 h2 => ⟨(v1, v2), rfl, h1, h2⟩
  | fst =>
      rintro ⟨v, w⟩ ⟨d, e⟩ ⟨h, _⟩
      exact ⟨v, rfl, h⟩
  | snd =>
      rintro ⟨v, w⟩ ⟨d, e⟩ ⟨_, h⟩
      exact ⟨w, rfl, h⟩
  | join =>
      rintro ⟨v, w⟩ ⟨d, e⟩ ⟨h1, h2⟩
      cases (show v = d from h1)
      cases (show w = e from h2)
      exact ⟨_, rfl, rfl⟩
  | ite b f g ihb ihf ihg =>
      intro v d h
      refine meets_bind (s := .obs Bool) (ihb v d h) fun b b' hb => ?_
      cases (show b = b' from hb)
      cases (show Bool from b) with
      | true => exact ihf v d h
      | false => exact ihg v d h
  | some => exact fun v d h => ⟨_, rfl, Option.Rel.some h⟩
  | none => exact fun v d h => ⟨_, rfl, Option.Rel.none⟩
  | matchOpt o f g iho ihf ihg =>
      intro v d h
      refine meets_bind (iho v d h) fun v1 d1 h1 => ?_
      cases h1 with
      | some h1 => exact ihf _ _ ⟨h, h1⟩
      | none => exact ihg v d h
  | nil => exact fun v d h => ⟨_, rfl, List.Forall₂.nil⟩
  | cons =>
      rintro ⟨v, w⟩ ⟨d, e⟩ ⟨h1, h2⟩
      exact ⟨_, rfl, List.Forall₂.cons h1 h2⟩
  | fold f ih =>
      rintro ⟨v, w⟩ ⟨d, e⟩ ⟨h1, h2⟩
      exact meets_fold (fun v d w e h g => ih (v, w) (d, e) ⟨h, g⟩) h2 v d h1
  | iter n f ihn ihf =>
      intro v d h
      refine meets_bind (s := .obs ℕ) (ihn v d h) fun n n' hn => ?_
      cases (show n = n' from hn)
      exact meets_iter ihf _ v d h
  | panic => exact fun v d h => rfl

theorem forall_unique {α β : Type} {R : α → β → Prop} {l : List α} {m m' : List β}
    (hR : ∀ a b b', R a b → R a b' → b = b') (h : List.Forall₂ R l m) (h' : List.Forall₂ R l m') : m = m' := by
  induction h generalizing m' with
  | nil => cases h'; rfl
  | cons h _ ih =>
      cases h' with
      | cons h1 h2 => rw [hR _ _ _ h h1, ih h2]

/-- A value stands for at most one mathematical value. -/
theorem means_unique : ∀ {t : Ty} {v : Val t} {d d' : Den t}, Means t v d → Means t v d' → d = d'
  | .obs _, _, _, _, h, h' => h.symm.trans h'
  | .field, _, _, _, h, h' => ZMod.val_injective p (h.2.symm.trans h'.2)
  | .scalar, _, _, _, h, h' => ZMod.val_injective ell (h.2.symm.trans h'.2)
  | .ext, _, _, _, h, h' => EdPoint.Rep.unique h h'
  | .proj, _, _, _, h, h' => ProjPoint.Rep.unique h h'
  | .aff, _, _, _, h, h' => AffPoint.Rep.unique h h'
  | .ris, _, _, _, h, h' => Lg.unique (means_ris.1 h) (means_ris.1 h')
  | .prod _ _, _, _, _, h, h' => Prod.ext (means_unique h.1 h'.1) (means_unique h.2 h'.2)
  | .opt _, _, _, _, h, h' => by
      cases h with
      | none => cases h'; rfl
      | some h =>
          cases h' with
          | some h' => exact congrArg _ (means_unique h h')
  | .list _, _, _, _, h, h' => by
      exact forall_unique (R := Means _) (fun _ _ _ h h' => means_unique h h') h h'

/-- Two values of the library stand for the same mathematical value. -/
def Same (t : Ty) (v v' : Val t) : Prop := ∃ d, Means t v d ∧ Means t v' d

/-- Two runs end alike: both panic, or both return and the results stand for the same value. -/
def Alike (t : Ty) (r r' : Res (Val t)) : Prop :=
  (r = .panic ∧ r' = .panic) ∨ ∃ v v', r = .ok v ∧ r' = .ok v' ∧ Same t v v'

/-- **C115.** Programs whose meaning is specified cannot tell builds apart, nor representations of one value:
two builds, given inputs that stand for the same values, end alike. -/
theorem C115_builds (c c' : Cfg) (hc : c.Enough) (hc' : c'.Enough) {s t : Ty} (f : Prog s t) (v v' : Val s)
    (d : Den s) (h : Means s v d) (h' : Means s v' d) (hd : f.den d ≠ .unspecified) :
    Alike t (f.run c v) (f.run c' v') := by
  have h1 := C115_programs c hc f v d h
  have h2 := C115_programs c' hc' f v' d h'
  generalize f.den d = o at h1 h2 hd
  cases o with
  | val e =>
      obtain ⟨w, e1, m1⟩ := h1
      obtain ⟨w', e2, m2⟩ := h2
      exact Or.inr ⟨w, w', e1, e2, e, m1, m2⟩
  | panic => exact Or.inl ⟨h1, h2⟩
  | unspecified => exact absurd rfl hd

/-- **C115.** Programs that return ordinary data return the same data, or both panic. -/
theorem C115_observable (c c' : Cfg) (hc : c.Enough) (hc' : c'.Enough) {s : Ty} {T : Type} (f : Prog s (.obs T))
    (v v' : Val s) (d : Den s) (h : Means s v d) (h' : Means s v' d) (hd : f.den d ≠ .unspecified) :
    f.run c v = f.run c' v' ∧ f.run c v ≠ .diverge := by
  rcases C115_builds c c' hc hc' f v v' d h h' hd with ⟨e, e'⟩ | ⟨w, w', e, e', x, m, m'⟩
  · rw [e, e']; exact ⟨rfl, nofun⟩
  · cases (show w = x from m)
    cases (show w' = w from m')
    rw [e, e']; exact ⟨rfl, nofun⟩

/-! ### Programs that always have a meaning -/

theorem bind_specified {α β : Type} {o : Outcome α} {g : α → Outcome β} (h : o ≠ .unspecified)
    (hg : ∀ a, g a ≠ .unspecified) : o.bind g ≠ .unspecified := by
  cases o with
  | val a => exact hg a
  | panic => exact nofun
  | unspecified => exact absurd rfl h

theorem iter_specified {α : Type} {g : α → Outcome α} (hg : ∀ a, g a ≠ .unspecified) :
    ∀ n a, iterOut g n a ≠ .unspecified
  | 0, _ => nofun
  | n + 1, a => bind_specified (hg a) (iter_specified hg n)

theorem fold_specified {α β : Type} {g : α → β → Outcome α} (hg : ∀ a b, g a b ≠ .unspecified) :
    ∀ l a, foldOut g a l ≠ .unspecified
  | [], _ => nofun
  | b :: l, a => bind_specified (hg a b) (fold_specified hg l)

theorem ite_specified {α : Type} {q : Prop} {i : Decidable q} {a b : Outcome α} (ha : a ≠ .unspecified)
    (hb : b ≠ .unspecified) : (@ite _ q i a b) ≠ .unspecified := by
  by_cases h : q
  · rwa [if_pos h]
  · rwa [if_neg h]

theorem prim_specified {s t : Ty} (f : Prim s t) (h : f.raw = false) (d : Den s) : f.den d ≠ .unspecified := by
  cases f with
  | fFromBytes => cases h
  | fTwoPow => exact ite_specified nofun nofun
  | fInverse => exact ite_specified nofun nofun
  | fDiv => exact ite_specified nofun nofun
  | sTwoPow => exact ite_specified nofun nofun
  | sFromBytes => exact ite_specified nofun nofun
  | eMulPow2 => exact ite_specified nofun nofun
  | pMulPow2 => exact ite_specified nofun nofun
  | rMulPow2 => exact ite_specified nofun nofun
  | eNegCompressed =>
      show (match edDecode d with
        | some A => Outcome.val (edEncode (-A))
        | none => Outcome.panic) ≠ .unspecified
      cases edDecode d <;> exact nofun
  | _ => exact nofun

/-- **C115.** The meaning of a program is specified on every input if the program does not call
`FieldElement::from_bytes`. -/
theorem C115_specified {s t : Ty} (f : Prog s t) : f.NoRaw → ∀ d, f.den d ≠ .unspecified := by
  induction f with
  | call f => exact fun h d => prim_specified f h d
  | host f => exact fun _ _ => nofun
  | hostPanic f =>
      intro _ d
      show (match f d with
        | some y => Outcome.val y
        | none => .panic) ≠ .unspecified
      cases f d <;> exact nofun
  | lit | skip | fst | snd | join | some | none | nil | cons | panic => exact fun _ _ => nofun
  | seq f g ihf ihg => exact fun h d => bind_specified (ihf h.1 d) (ihg h.2)
  | pair f g ihf ihg =>
      exact fun h d => bind_specified (ihf h.1 d) fun _ => bind_specified (ihg h.2 d) fun _ => nofun
  | ite b f g ihb ihf ihg =>
      exact fun h d => bind_specified (ihb h.1 d) fun _ => ite_specified (ihf h.2.1 d) (ihg h.2.2 d)
  | matchOpt o f g iho ihf ihg =>
      intro h d
      refine bind_specified (iho h.1 d) fun y => ?_
      cases (show Option _ from y) with
      | some y => exact ihf h.2.1 (d, y)
      | none => exact ihg h.2.2 d
  | fold f ih => exact fun h d => fold_specified (fun a b => ih h (a, b)) _ _
  | iter n f ihn ihf => exact fun h d => bind_specified (ihn h.1 d) fun k => iter_specified (ihf h.2) k d

/-! ### Every value is represented, and a program can tell any two values apart -/

/-- Every mathematical value has a value of the library that stands for it. -/
theorem means_exists : ∀ {t : Ty} (d : Den t), ∃ v, Means t v d
  | .obs _, d => ⟨d, rfl⟩
  | .field, d => ⟨enc d, means_field.2 rfl⟩
  | .scalar, d => by
      obtain ⟨n, h1, h2⟩ := sv_surj d
      exact ⟨n, means_scalar.2 ⟨h1, h2⟩⟩
  | .ext, d => by
      obtain ⟨R, _, h⟩ := Ed.ofAff_rep dbg (aff_rep d)
      exact ⟨R, h⟩
  | .proj, d => ⟨_, Proj.ofAff_rep (aff_rep d)⟩
  | .aff, d => ⟨_, aff_rep d⟩
  | .ris, d => by
      obtain ⟨P, h⟩ := lg_exists d
      exact ⟨P, means_ris.2 h⟩
  | .prod _ _, (d, e) => by
      obtain ⟨v, h⟩ := means_exists d
      obtain ⟨w, g⟩ := means_exists e
      exact ⟨(v, w), h, g⟩
  | .opt _, none => ⟨none, Option.Rel.none⟩
  | .opt _, some d => by
      obtain ⟨v, h⟩ := means_exists d
      exact ⟨some v, Option.Rel.some h⟩
  | .list _, l => by
      induction (show List _ from l) with
      | nil => exact ⟨[], List.Forall₂.nil⟩
      | cons d l ih =>
          obtain ⟨v, h⟩ := means_exists d
          obtain ⟨w, g⟩ := ih
          exact ⟨v :: w, List.Forall₂.cons h g⟩

/-- A program that answers whether its input is `d`. -/
def Tests {t : Ty} (f : Prog t (.obs Bool)) (d : Den t) : Prop :=
  f.NoRaw ∧ ∀ x, ∃ b : Bool, f.den x = .val b ∧ (b = true ↔ x = d)

theorem tests_code {t : Ty} {T : Type} (f : Prim t (.obs T)) (h : f.raw = false) (e : Den t → T)
    (hf : ∀ x, f.den x = .val (e x)) (he : Function.Injective e) (d : Den t) : ∃ g, Tests (t := t) g d := by
  classical
  refine ⟨.seq (.call f) (.host fun y => decide (y = e d)), ⟨h, trivial⟩, fun x => ⟨decide (e x = e d), ?_, ?_⟩⟩
  · show (f.den x).bind _ = _
    rw [hf]
    rfl
  · rw [decide_eq_true_iff]
    exact he.eq_iff

theorem tests_via {s t : Ty} (f : Prim s t) (h : f.raw = false) (e : Den s → Den t)
    (hf : ∀ x, f.den x = .val (e x)) (he : Function.Injective e) (d : Den s) (g : ∃ g, Tests g (e d)) :
    ∃ g, Tests g d := by
  obtain ⟨g, h1, h2⟩ := g
  refine ⟨.seq (.call f) g, ⟨h, h1⟩, fun x => ?_⟩
  obtain ⟨b, e1, e2⟩ := h2 (e x)
  refine ⟨b, ?_, e2.trans he.eq_iff⟩
  show (f.den x).bind _ = _
  rw [hf]
  exact e1

theorem leBytes_inj {m n : ℕ} (hm : m < 2 ^ 256) (hn : n < 2 ^ 256)
    (h : Programs.leBytes m = Programs.leBytes n) : m = n := by
  rw [← le32_val m hm, ← le32_val n hn, h]

theorem edEncode_inj {A B : E} (h : edEncode A = edEncode B) : A = B := by
  obtain ⟨P, _, hP⟩ := Ed.ofAff_rep dbg (aff_rep A)
  obtain ⟨Q, _, hQ⟩ := Ed.ofAff_rep dbg (aff_rep B)
  rw [← C79_compress_injective dbg (by decide) hP hQ, compress_met (by decide) hP, compress_met (by decide) hQ, h]

open Classical in
/-- One program gives the answers of several tests. -/
theorem answers {t : Ty} (ht : ∀ d : Den t, ∃ f, Tests f d) : ∀ l : List (Den t),
    ∃ f : Prog t (.obs (List Bool)), f.NoRaw ∧ ∀ y, f.den y = .val (l.map fun d => decide (y = d))
  | [] => ⟨.lit [], trivial, fun _ => rfl⟩
  | d :: l => by
      obtain ⟨f, f1, f2⟩ := ht d
      obtain ⟨g, g1, g2⟩ := answers ht l
      refine ⟨.seq (.seq (.pair f g) .join) (.host fun x => x.1 :: x.2), ⟨⟨⟨f1, g1⟩, trivial⟩, trivial⟩,
        fun y => ?_⟩
      obtain ⟨a, a1, a2⟩ := f2 y
      show (((f.den y).bind fun u => (g.den y).bind fun w => .val (u, w)).bind _).bind _ = _
      rw [a1, g2 y]
      have e : a = decide (y = d) := by rw [Bool.eq_iff_iff, a2, decide_eq_true_iff]
      rw [e]
      rfl

theorem fold_append {α β : Type} {g : List β → α → Outcome (List β)} {A : α → β}
    (h : ∀ a x, g a x = .val (a ++ [A x])) : ∀ (l : List α) a, foldOut g a l = .val (a ++ l.map A)
  | [], a => by rw [List.map_nil, List.append_nil]; rfl
  | x :: l, a => by
      show (g a x).bind _ = _
      rw [h]
      show foldOut g (a ++ [A x]) l = _
      rw [fold_append h l, List.append_assoc]
      rfl

theorem map_tests {α β : Type} {A : α → β} : ∀ {l m : List α}, (∀ x, ∀ y ∈ m, A x = A y → x = y) →
    l.map A = m.map A → l = m
  | [], [], _, _ => rfl
  | x :: l, y :: m, h, e => by
      rw [List.map_cons, List.map_cons, List.cons.injEq] at e
      rw [h x y List.mem_cons_self e.1, map_tests (fun x y hy => h x y (List.mem_cons_of_mem _ hy)) e.2]

theorem tests_list {t : Ty} (ht : ∀ d : Den t, ∃ f, Tests f d) (m : List (Den t)) :
    ∃ f, Tests (t := .list t) f m := by
  classical
  obtain ⟨f, f1, f2⟩ := answers ht m
  let A : Den t → List Bool := fun y => m.map fun d => decide (y = d)
  let step : Prog (.prod (.obs (List (List Bool))) t) (.obs (List (List Bool))) :=
    .seq (.seq (.pair .fst (.seq .snd f)) .join) (.host fun x => x.1 ++ [x.2])
  have hstep : ∀ (a : List (List Bool)) y, step.den (a, y) = .val (a ++ [A y]) := by
    intro a y
    show ((Outcome.bind (.val a) fun u => (f.den y).bind fun w => .val (u, w)).bind _).bind _ = _
    rw [f2 y]
    rfl
  have hA : ∀ x, ∀ y ∈ m, A x = A y → x = y := by
    intro x y hy e
    have h1 := List.map_inj_left.1 e y hy
    rw [decide_eq_true (rfl : y = y)] at h1
    exact of_decide_eq_true h1
  refine ⟨.seq (.seq (.pair (.lit []) .skip) (.fold step)) (.host fun r => decide (r = m.map A)),
    ⟨⟨⟨trivial, trivial⟩, ⟨⟨⟨trivial, trivial, f1⟩, trivial⟩, trivial⟩⟩, trivial⟩, fun l => ?_⟩
  refine ⟨decide (List.map A l = m.map A), ?_, ?_⟩
  · have e := fold_append (A := A) hstep l []
    exact congrArg (fun o => Outcome.bind o (Prog.host fun r => decide (r = m.map A)).den) e
  · rw [decide_eq_true_iff]
    exact ⟨map_tests hA, fun h => by rw [h]⟩

/-- There is a test for every value. -/
theorem tests_exists : ∀ {t : Ty} (d : Den t), ∃ f, Tests f d
  | .obs T, d => by
      classical
      exact ⟨.host fun x => decide (x = d), trivial, fun x => ⟨_, rfl, decide_eq_true_iff⟩⟩
  | .field, d => tests_code .fToBytes rfl (fun x => Programs.leBytes (ZMod.val (n := p) x)) (fun _ => rfl)
      (fun x y h => ZMod.val_injective p (leBytes_inj (lt_trans (ZMod.val_lt _) (by decide))
        (lt_trans (ZMod.val_lt _) (by decide)) h)) d
  | .scalar, d => tests_code .sToBytes rfl (fun x => Programs.leBytes (ZMod.val (n := ell) x)) (fun _ => rfl)
      (fun x y h => ZMod.val_injective ell (leBytes_inj (lt_trans (ZMod.val_lt _) (by decide))
        (lt_trans (ZMod.val_lt _) (by decide)) h)) d
  | .ext, d => tests_code .eCompress rfl edEncode (fun _ => rfl) (fun _ _ h => edEncode_inj h) d
  | .proj, d => tests_via .eOfProj rfl (fun x => x) (fun _ => rfl) (fun _ _ h => h) d
      (tests_code .eCompress rfl edEncode (fun _ => rfl) (fun _ _ h => edEncode_inj h) d)
  | .aff, d => tests_via .eOfAff rfl (fun x => x) (fun _ => rfl) (fun _ _ h => h) d
      (tests_code .eCompress rfl edEncode (fun _ => rfl) (fun _ _ h => edEncode_inj h) d)
  | .ris, d => tests_code .rCompress rfl risEncode (fun _ => rfl) (fun _ _ h => risEncode_inj h) d
  | .prod _ _, (d, e) => by
      obtain ⟨f, f1, f2⟩ := tests_exists d
      obtain ⟨g, g1, g2⟩ := tests_exists e
      refine ⟨.seq (.seq (.pair (.seq .fst f) (.seq .snd g)) .join) (.host fun x => x.1 && x.2),
        ⟨⟨⟨⟨trivial, f1⟩, trivial, g1⟩, trivial⟩, trivial⟩, fun ⟨x, y⟩ => ?_⟩
      obtain ⟨a, a1, a2⟩ := f2 x
      obtain ⟨b, b1, b2⟩ := g2 y
      refine ⟨a && b, ?_, ?_⟩
      · show ((((f.den x).bind fun u => (g.den y).bind fun w => .val (u, w))).bind _).bind _ = _
        rw [a1, b1]
        rfl
      · rw [Bool.and_eq_true, a2, b2]
        exact Prod.mk_inj.symm
  | .opt _, none => by
      refine ⟨.matchOpt .skip (.lit false) (.lit true), ⟨trivial, trivial, trivial⟩, fun x => ?_⟩
      cases (show Option _ from x) with
      | none => exact ⟨true, rfl, fun _ => rfl, fun _ => rfl⟩
      | some y => exact ⟨false, rfl, by simp⟩
  | .opt _, some d => by
      obtain ⟨f, f1, f2⟩ := tests_exists d
      refine ⟨.matchOpt .skip (.seq .snd f) (.lit false), ⟨trivial, ⟨trivial, f1⟩, trivial⟩, fun x => ?_⟩
      cases (show Option _ from x) with
      | none => exact ⟨false, rfl, by simp⟩
      | some y =>
          obtain ⟨a, a1, a2⟩ := f2 y
          refine ⟨a, a1, a2.trans ?_⟩
          exact ⟨fun h => congrArg _ h, fun h => Option.some.inj h⟩
  | .list _, m => tests_list (fun d => tests_exists d) m

/-- **C115.** Nothing more is hidden: values that stand for different mathematical values are told apart by some
program, in all builds. -/
theorem C115_distinguish {t : Ty} (v v' : Val t) (d d' : Den t) (h : Means t v d) (h' : Means t v' d') (hd : d ≠ d') :
    ∃ f : Prog t (.obs Bool), f.NoRaw ∧
      ∀ c : Cfg, c.Enough → f.run c v = .ok true ∧ f.run c v' = .ok false := by
  obtain ⟨f, f1, f2⟩ := tests_exists d
  refine ⟨f, f1, fun c hc => ⟨?_, ?_⟩⟩
  · obtain ⟨b, e, hb⟩ := f2 d
    have := C115_programs c hc f v d h
    rw [e] at this
    obtain ⟨w, e1, e2⟩ := this
    rw [e1, show w = b from e2, hb.2 rfl]
  · obtain ⟨b, e, hb⟩ := f2 d'
    have := C115_programs c hc f v' d' h'
    rw [e] at this
    obtain ⟨w, e1, e2⟩ := this
    have hb' : b = false := by
      rw [← Bool.not_eq_true, hb]
      exact fun h => hd h.symm
    rw [e1, show w = b from e2, hb']

/-! ### Two programs -/

theorem run_val (hc : c.Enough) {s t : Ty} (f : Prog s t) {v : Val s} {d : Den s} {x : Den t} (h : Means s v d)
    (e : f.den d = .val x) : ∃ w, f.run c v = .ok w ∧ Means t w x := by
  have := C115_programs c hc f v d h
  rw [e] at this
  exact this

theorem run_obs (hc : c.Enough) {s : Ty} {T : Type} (f : Prog s (.obs T)) {v : Val s} {d : Den s} {x : T}
    (h : Means s v d) (e : f.den d = .val x) : f.run c v = .ok x := by
  obtain ⟨w, e1, e2⟩ := run_val hc f h e
  rw [e1, show w = x from e2]

/-- Key agreement: decode the other key, multiply by the own secret, encode and hash with any function `H`;
no result if the other key does not decode. -/
def sharedKey {T : Type} (H : Byte32 → T) : Prog (.prod .scalar (.obs Byte32)) (.obs (Option T)) :=
  .matchOpt (.seq .snd (.call .rDecompress))
    (.seq (.seq (.pair .snd (.seq .fst .fst)) (.seq (.call .rMul) (.call .rCompress))) (.host fun b => some (H b)))
    (.lit none)

theorem risDecode_encode (k : ZMod ell) : risDecode (risEncode k) = some k := by
  unfold risDecode
  rw [dif_pos ⟨k, rfl⟩]
  exact congrArg some (risEncode_inj (Classical.choose_spec (p := fun j => risEncode j = risEncode k) ⟨k, rfl⟩))

theorem sharedKey_den {T : Type} (H : Byte32 → T) (a b : ZMod ell) :
    (sharedKey H).den (a, risEncode b) = .val (some (H (risEncode (a * b)))) := by
  show Outcome.bind (.val (risDecode (risEncode b))) _ = _
  rw [risDecode_encode]
  rfl

/-- The two sides of a key agreement compute the same key in whatever builds they run, whichever of the
encodings' preimages they hold. -/
example {T : Type} (H : Byte32 → T) (c c' : Cfg) (hc : c.Enough) (hc' : c'.Enough) (a b : Sc) (ha : a.SCanon)
    (hb : b.SCanon) :
    (sharedKey H).run c (a, risEncode (sv b)) = (sharedKey H).run c' (b, risEncode (sv a)) ∧
    ∃ k, (sharedKey H).run c (a, risEncode (sv b)) = .ok (some k) := by
  have h1 := run_obs hc (sharedKey H) (v := (a, risEncode (sv b)))
    (d := (sv a, risEncode (sv b))) ⟨means_scalar.2 ⟨ha, rfl⟩, rfl⟩
    (sharedKey_den H (sv a) (sv b))
  have h2 := run_obs hc' (sharedKey H) (v := (b, risEncode (sv a)))
    (d := (sv b, risEncode (sv a))) ⟨means_scalar.2 ⟨hb, rfl⟩, rfl⟩
    (sharedKey_den H (sv b) (sv a))
  rw [mul_comm (sv b)] at h2
  exact ⟨h1.trans h2.symm, _, h1⟩

/-- The sum of multiples of a list of points. -/
def weightedSum : Prog (.list (.prod .ris .scalar)) .ris :=
  .seq (.pair (.seq (.lit ()) (.call .rZero)) .skip)
    (.fold (.seq (.pair .fst (.seq .snd (.call .rMul))) (.call .rAdd)))

theorem weightedSum_den (l : List (ZMod ell × ZMod ell)) :
    weightedSum.den l = .val ((l.map fun x => x.2 * x.1).sum : ZMod ell) := by
  have h : ∀ (l : List (ZMod ell × ZMod ell)) (a : ZMod ell),
      foldOut (fun a (x : ZMod ell × ZMod ell) => Outcome.val (a + x.2 * x.1)) a l =
        .val (a + (l.map fun x => x.2 * x.1).sum) := by
    intro l
    induction l with
    | nil => intro a; rw [List.map_nil, List.sum_nil, add_zero]; rfl
    | cons x l ih =>
        intro a
        show foldOut _ (a + x.2 * x.1) l = _
        rw [ih, List.map_cons, List.sum_cons, add_assoc]
  have := h l 0
  rw [zero_add] at this
  exact this

example : weightedSum.NoRaw ∧ (sharedKey (T := Byte32) id).NoRaw := by
  unfold weightedSum sharedKey
  simp [Prog.NoRaw, Prim.raw]

/-- A concrete run. -/
example : ∃ R, weightedSum.run dbg [(Ed.BASEPOINT, Scalar.fromU128 8)] = .ok R ∧ Means .ris R (8 : ZMod ell) := by
  have h8 : Means .scalar (Scalar.fromU128 8) ((8 : ℕ) : ZMod ell) := by
    have := (C20_from_unsigned 8).2.2 (by decide)
    exact means_scalar_val this.2.2.1 8 this.2.2.2
  refine run_val (by decide) weightedSum (d := [((1 : ZMod ell), ((8 : ℕ) : ZMod ell))])
    (List.Forall₂.cons ⟨means_ris.2 Lg.base, h8⟩ List.Forall₂.nil) ?_
  have e8 : (([((1 : ZMod ell), ((8 : ℕ) : ZMod ell))].map fun x => x.2 * x.1).sum : ZMod ell) = 8 := by
    rw [List.map_cons, List.map_nil, List.sum_cons, List.sum_nil, mul_one, add_zero, Nat.cast_ofNat]
  exact (weightedSum_den _).trans (congrArg Outcome.val e8)

end

end Props
end Zerocaf
