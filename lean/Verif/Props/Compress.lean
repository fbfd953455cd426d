import Verif.Proof.Compress
import Verif.Props.Edwards

/-!
# Properties C52-C55, C57, C71, C72, C74: points from `y`, Edwards encodings, cosets, random points
-/

set_option exponentiation.threshold 600

namespace Zerocaf
namespace Props

/-! ### C52 -/

/-- C52: `new_from_y_coord` succeeds exactly for the `y` of curve points and returns a point with that
`y`; the two signs give opposite points. Projective points. -/
theorem C52_projective (c : Cfg) (hc : c.Enough) (y : FE) (hy : y.Canon) :
    ((∃ A : E, A.y = y.val) → ∃ P Q A, Proj.newFromY c y false = .ok (some P) ∧
      Proj.newFromY c y true = .ok (some Q) ∧ P.Rep A ∧ Q.Rep (-A) ∧ A.y = y.val) ∧
    ((¬ ∃ A : E, A.y = y.val) → ∀ sign, Proj.newFromY c y sign = .ok none) := by
  have e : y = enc (y.val : Fp) := hy.eq_enc rfl
  rw [exists_y_iff]
  constructor
  · intro hs
    obtain ⟨P, eP, hP, _⟩ := Proj.newFromY_some c hc _ false hs
    obtain ⟨Q, eQ, hQ, _⟩ := Proj.newFromY_some c hc _ true hs
    rw [yPt_neg] at hQ
    rw [← e] at eP eQ
    exact ⟨P, Q, _, eP, eQ, hP, hQ, yPt_y _ _ _⟩
  · intro hs sign
    rw [e]
    exact Proj.newFromY_none c hc _ sign hs

/-- C52: the same for extended points. -/
theorem C52_extended (c : Cfg) (hc : c.Enough) (y : FE) (hy : y.Canon) :
    ((∃ A : E, A.y = y.val) → ∃ P Q A, Ed.newFromY c y false = .ok (some P) ∧
      Ed.newFromY c y true = .ok (some Q) ∧ P.Rep A ∧ Q.Rep (-A) ∧ A.y = y.val) ∧
    ((¬ ∃ A : E, A.y = y.val) → ∀ sign, Ed.newFromY c y sign = .ok none) := by
  have e : y = enc (y.val : Fp) := hy.eq_enc rfl
  rw [exists_y_iff]
  constructor
  · intro hs
    obtain ⟨P, eP, hP⟩ := Ed.newFromY_some c hc _ false hs
    obtain ⟨Q, eQ, hQ⟩ := Ed.newFromY_some c hc _ true hs
    rw [yPt_neg] at hQ
    rw [← e] at eP eQ
    exact ⟨P, Q, _, eP, eQ, hP, hQ, yPt_y _ _ _⟩
  · intro hs sign
    rw [e]
    exact Ed.newFromY_none c hc _ sign hs

/-- Both cases occur: `y = 3` has points, `y = 6` has none. -/
example : (∃ A : E, A.y = ((⟨3, 0, 0, 0, 0⟩ : FE).val : Fp)) ∧
    (¬ ∃ A : E, A.y = ((⟨6, 0, 0, 0, 0⟩ : FE).val : Fp)) := by
  refine ⟨⟨Gpt, rfl⟩, ?_⟩
  rw [exists_y_iff]
  intro h
  have e : xxOf (((⟨6, 0, 0, 0, 0⟩ : FE).val : ℕ) : Fp) * ((1 + dNat * 36 : ℕ) : Fp) ^ 2 =
      ((35 * (1 + dNat * 36) : ℕ) : Fp) := by
    have hn := dy_ne (((⟨6, 0, 0, 0, 0⟩ : FE).val : ℕ) : Fp)
    have h2 : (((⟨6, 0, 0, 0, 0⟩ : FE).val : ℕ) : Fp) = 6 := by
      have : (⟨6, 0, 0, 0, 0⟩ : FE).val = 6 := by decide
      rw [this]; norm_num
    unfold xxOf
    rw [h2] at hn ⊢
    rw [div_mul_eq_mul_div, div_eq_iff hn]
    push_cast
    rw [← dZ_eq]
    ring
  have h3 : IsSquare ((35 * (1 + dNat * 36) : ℕ) : Fp) := by
    rw [← e]; exact h.mul ⟨_, by rw [pow_two]⟩
  rw [← Field.pow_half_ne_neg_one, Field.pow_facts _ (p / 2) (by decide)] at h3
  apply h3
  have h4 : Primality.powMod 260 p (35 * (1 + dNat * 36)) (p / 2) = p - 1 := by decide +kernel
  rw [h4, Nat.cast_sub (by decide), ZMod.natCast_self, Nat.cast_one, zero_sub]

/-! ### C53 -/

/-- C53: points with affine `y < 2^252` survive compression and decompression. -/
theorem C53_roundtrip (c : Cfg) (hc : c.Enough) {P : EdPoint} {A : E} (h : P.Rep A)
    (hy : A.y.val < 2 ^ 252) :
    (do
      let b ← Ed.compress c P
      let o ← Ed.decompress c b
      match o with
      | none => return false
      | some Q => Ed.ctEq c Q P) = .ok true := by
  obtain ⟨b, Q, e1, e2, hQ⟩ := roundtrip_low c hc h hy
  simp only [e1, e2, Res.ok_bind]
  exact Ed_ctEq_same c hc hQ h

/-- C53: points with affine `y ≥ 2^252` never do. -/
theorem C53_roundtrip_fails (c : Cfg) (hc : c.Enough) {P : EdPoint} {A : E} (h : P.Rep A)
    (hy : 2 ^ 252 ≤ A.y.val) :
    (do
      let b ← Ed.compress c P
      let o ← Ed.decompress c b
      match o with
      | none => return false
      | some Q => Ed.ctEq c Q P) = .ok false := by
  obtain ⟨b, o, e1, e2, ho⟩ := roundtrip_high c hc h hy
  simp only [e1, e2, Res.ok_bind]
  cases o with
  | none => rfl
  | some Q =>
    obtain ⟨B, hB, _, hne⟩ := ho Q rfl
    obtain ⟨t, et, ht⟩ := Ed_ctEq_iff c hc hB h
    dsimp only
    rw [et, Res.ok_inj, ← Bool.not_eq_true, ht]
    intro he; exact hne (by rw [he])

/-- The point `(0, -1)`. -/
def twoTorsion : E := ⟨0, -1, by show (-1 : Fp) ^ 2 - 0 ^ 2 = 1 + dZ * 0 ^ 2 * (-1) ^ 2; ring⟩

theorem COSET2_rep : Ed.COSET2.Rep twoTorsion := by
  have e : Ed.COSET2 = ⟨enc 0, enc (-1), enc 1, enc 0⟩ := by
    rw [← Field.zero_enc, ← Field.minusOne_enc, ← Field.one_enc]; decide
  rw [e]
  have hx : twoTorsion.x = 0 := rfl
  have hy : twoTorsion.y = -1 := rfl
  refine EdPoint.rep_mk one_ne_zero ?_ ?_ ?_
  · rw [hx]; ring
  · rw [hy]; ring
  · rw [hx, hy]; ring

/-- C53: `(0, -1)` is such a point; and the base point is one that survives. -/
theorem C53_witnesses :
    (∃ A : E, Ed.COSET2.Rep A ∧ A.x = 0 ∧ A.y = -1 ∧ 2 ^ 252 ≤ A.y.val) ∧
    (∃ A : E, Ed.BASEPOINT.Rep A ∧ A.y.val < 2 ^ 252) := by
  refine ⟨⟨twoTorsion, COSET2_rep, rfl, rfl, ?_⟩, ⟨Bpt, BASEPOINT_rep, ?_⟩⟩
  · have h : twoTorsion.y = ((p - 1 : ℕ) : Fp) := by
      rw [Nat.cast_sub (by decide), ZMod.natCast_self, Nat.cast_one, zero_sub]; rfl
    rw [h, ZMod.val_natCast]; decide
  · have h : Bpt.y = (by' : Fp) := rfl
    rw [h, ZMod.val_natCast]; decide

/-! ### C54 -/

/-- C54: flipping bits 4 to 6 of the last byte does not change what is decoded. -/
theorem C54_ignored_bits (c : Cfg) (b : Bytes32) (k : Fin 8) :
    Ed.decompress c (b.set 31 (b[31] ^^^ (UInt8.ofNat k <<< 4))) = Ed.decompress c b := by
  have key : ∀ n : Fin 256, ∀ k : Fin 8,
      ((UInt8.ofNat n ^^^ (UInt8.ofNat k <<< 4)) &&& 0b00001111 = UInt8.ofNat n &&& 0b00001111) ∧
      ((UInt8.ofNat n ^^^ (UInt8.ofNat k <<< 4)) >>> 7 = UInt8.ofNat n >>> 7) := by decide +kernel
  obtain ⟨h1, h2⟩ := key ⟨b[31].toNat, u8_lt _⟩ k
  simp only [UInt8.ofNat_toNat] at h1 h2
  unfold Ed.decompress
  rw [get_set31, set_set31, h1, h2]

/-- C54: these are eight different byte strings. -/
theorem C54_distinct (b : Bytes32) :
    Function.Injective fun k : Fin 8 => b.set 31 (b[31] ^^^ (UInt8.ofNat k <<< 4)) := by
  intro k l h
  have h1 : b[31] ^^^ (UInt8.ofNat k <<< 4) = b[31] ^^^ (UInt8.ofNat l <<< 4) := by
    have := congrArg (fun v : Bytes32 => v[31]) h
    simpa only [get_set31] using this
  have h2 : UInt8.ofNat k <<< 4 = UInt8.ofNat l <<< 4 := UInt8.xor_right_inj _ |>.1 h1
  revert k l
  have key : ∀ k l : Fin 8, UInt8.ofNat k <<< 4 = UInt8.ofNat l <<< 4 → k = l := by decide
  intro k l _ _ h2
  exact key k l h2

/-- C54: the identity is decoded with either sign bit. -/
theorem C54_identity_signs (c : Cfg) (hc : c.Enough) :
    (∃ P, Ed.decompress c Ed.compressedIdentity = .ok (some P) ∧ P.Rep 0) ∧
    (∃ P, Ed.decompress c (Ed.compressedIdentity.set 31 128) = .ok (some P) ∧ P.Rep 0) := by
  have hx : xxOf 1 = 0 := by unfold xxOf; rw [mul_one, sub_self, zero_div]
  have hs : IsSquare (xxOf ((1 : ℕ) : Fp)) := by
    rw [Nat.cast_one, hx]; exact ⟨0, (mul_zero 0).symm⟩
  have h0 : ∀ s, yPt ((1 : ℕ) : Fp) s hs = 0 := by
    intro s
    refine EdCurve.Pt.ext ?_ ?_
    · rw [yPt_x, Nat.cast_one, hx, tsRoot_zero, neg_zero, ite_self, EdCurve.Pt.zero_x]
    · rw [yPt_y, Nat.cast_one, EdCurve.Pt.zero_y]
  have key : ∀ b : Bytes32, bytesVal b % 2 ^ 252 = 1 → ∃ P, Ed.decompress c b = .ok (some P) ∧ P.Rep 0 := by
    intro b hb
    obtain ⟨P, eP, hP⟩ := Ed.newFromY_some c hc _ (b[31] >>> 7 == 1) hs
    rw [h0] at hP
    exact ⟨P, by rw [decompress_eq, hb]; exact eP, hP⟩
  exact ⟨key _ (by decide +kernel), key _ (by decide +kernel)⟩

/-! ### C55 -/

/-- C55: decompression never panics, and what it returns is the curve point with the encoded `y`; it
returns nothing exactly if no curve point has that `y`. -/
theorem C55_decompress (c : Cfg) (hc : c.Enough) (b : Bytes32) :
    ∃ o, Ed.decompress c b = .ok o ∧
      (∀ P, o = some P → ∃ A, P.Rep A ∧ A.y = ((bytesVal b % 2 ^ 252 : ℕ) : Fp)) ∧
      (o = none ↔ ¬ ∃ A : E, A.y = ((bytesVal b % 2 ^ 252 : ℕ) : Fp)) := by
  rw [decompress_eq, exists_y_iff]
  by_cases hs : IsSquare (xxOf ((bytesVal b % 2 ^ 252 : ℕ) : Fp))
  · obtain ⟨P, eP, hP⟩ := Ed.newFromY_some c hc _ (b[31] >>> 7 == 1) hs
    refine ⟨some P, eP, fun Q hQ => ⟨_, (Option.some.inj hQ) ▸ hP, yPt_y _ _ _⟩, ?_⟩
    exact ⟨fun h => absurd h (by simp), fun h => absurd hs h⟩
  · refine ⟨none, Ed.newFromY_none c hc _ _ hs, ?_, fun _ => hs, fun _ => rfl⟩
    intro Q hQ; exact absurd hQ (by simp)

/-! ### C74 -/

/-- C74: negating a compressed point that decodes to `P` gives an encoding that decodes to `-P`. -/
theorem C74_neg_compressed (c : Cfg) (hc : c.Enough) (b : Bytes32) (P : EdPoint)
    (h : Ed.decompress c b = .ok (some P)) :
    ∃ A b' Q, P.Rep A ∧ Ed.negCompressed c b = .ok b' ∧ Ed.decompress c b' = .ok (some Q) ∧ Q.Rep (-A) := by
  obtain ⟨o, eo, ho, _⟩ := C55_decompress c hc b
  rw [eo, Res.ok_inj] at h
  obtain ⟨A, hA, hy⟩ := ho P h
  obtain ⟨N, eN, hN⟩ := Ed.neg_rep c hA
  have hlt : (-A).y.val < 2 ^ 252 := by
    have h2 : bytesVal b % 2 ^ 252 < 2 ^ 252 := Nat.mod_lt _ (by decide)
    rw [EdCurve.Pt.neg_y, hy, ZMod.val_natCast, Nat.mod_eq_of_lt (lt_trans h2 (by decide))]
    exact h2
  obtain ⟨b', Q, e1, e2, hQ⟩ := roundtrip_low c hc hN hlt
  refine ⟨A, b', Q, hA, ?_, e2, hQ⟩
  unfold Ed.negCompressed
  rw [eo, h, Res.ok_bind]
  show (Ed.neg c P).bind (fun np => Ed.compress c np) = _
  rw [eN]; exact e1

/-- C74: negating bytes that do not decode panics. -/
theorem C74_neg_compressed_panics (c : Cfg) (b : Bytes32) (h : Ed.decompress c b = .ok none) :
    Ed.negCompressed c b = .panic := by
  unfold Ed.negCompressed
  rw [h]; rfl

/-! ### C57 -/

/-- Swapping the coordinates of a curve point never gives a curve point. -/
theorem swap_not_on (A : E) : ¬ OnCurve A.y A.x := by
  intro h
  unfold OnCurve at h
  have h1 := on_fact A
  have hw : dZ * (A.x * A.y) ^ 2 = -1 := by
    have h2 : (2 : Fp) * (dZ * (A.x * A.y) ^ 2 + 1) = 0 := by linear_combination -h - h1
    have h3 : (2 : Fp) ≠ 0 := Field.two_ne_zero'
    have := (mul_eq_zero.1 h2).resolve_left h3
    linear_combination this
  apply dZ_not_square
  have hk : A.x * A.y ≠ 0 := by
    intro h0; rw [h0] at hw
    apply one_ne_zero (α := Fp)
    linear_combination hw
  refine ⟨Field.iZ / (A.x * A.y), ?_⟩
  rw [div_mul_div_comm, Field.iZ_sq, eq_div_iff (mul_ne_zero hk hk), ← hw]
  ring

/-- The point `(-i, 0)`. -/
def fourTorsion : E := ⟨-Field.iZ, 0, by
  show (0 : Fp) ^ 2 - (-Field.iZ) ^ 2 = 1 + dZ * (-Field.iZ) ^ 2 * 0 ^ 2
  linear_combination -Field.iZ_sq⟩

theorem COSET1_rep : Ed.COSET1.Rep fourTorsion := by
  have e : Ed.COSET1 = ⟨enc (-Field.iZ), enc 0, enc 1, enc 0⟩ := by
    have h := Field.neg_enc dbg Field.iZ
    have h2 : Field.neg dbg Field.SQRT_MINUS_ONE = .ok Ed.COSET1.X := by decide +kernel
    rw [Field.SQRT_MINUS_ONE_enc, h, Res.ok_inj] at h2
    rw [h2, ← Field.zero_enc, ← Field.one_enc]; rfl
  rw [e]
  have hx : fourTorsion.x = -Field.iZ := rfl
  have hy : fourTorsion.y = 0 := rfl
  refine EdPoint.rep_mk one_ne_zero ?_ ?_ ?_
  · rw [hx]; ring
  · rw [hy]; ring
  · rw [hx, hy]; ring

/-- C57: entry 1 of `coset4` has the coordinates of the input swapped and so is never a curve point;
the other entries are the input, the input plus `(-i, 0)` and the input plus `(0, -1)`. -/
theorem C57_coset4 (c : Cfg) {P : EdPoint} {A : E} (h : P.Rep A) :
    ∃ Q R S, Ed.coset4 c P = .ok (P, Q, R, S) ∧
      (Q.Z.val : Fp) ≠ 0 ∧ (Q.X.val : Fp) / Q.Z.val = A.y ∧ (Q.Y.val : Fp) / Q.Z.val = A.x ∧
      ¬ OnCurve ((Q.X.val : Fp) / Q.Z.val) ((Q.Y.val : Fp) / Q.Z.val) ∧ ¬ Q.Valid ∧
      (∃ U : E, U.x = -Field.iZ ∧ U.y = 0 ∧ R.Rep (A + U)) ∧
      (∃ U : E, U.x = 0 ∧ U.y = -1 ∧ S.Rep (A + U)) := by
  obtain ⟨R, eR, hR⟩ := Ed.add_rep c h COSET1_rep
  obtain ⟨S, eS, hS⟩ := Ed.add_rep c h COSET2_rep
  obtain ⟨Z, hz, eP⟩ := h.form
  have e0 : Ed.COSET0 = ⟨enc 1, enc 0, enc 1, enc 0⟩ := by rw [← Field.zero_enc, ← Field.one_enc]; rfl
  obtain ⟨Q, eQ, qx, qy, qz⟩ : ∃ Q, Ed.add c P Ed.COSET0 = .ok Q ∧ (Q.X.val : Fp) = A.y * Z ^ 2 ∧
      (Q.Y.val : Fp) = A.x * Z ^ 2 ∧ (Q.Z.val : Fp) = Z ^ 2 := by
    rw [eP, e0]
    refine ⟨_, Ed.add_enc c _ _ _ _ _ _ _ _, ?_, ?_, ?_⟩ <;> dsimp only <;> rw [enc_val, ZMod.natCast_zmod_val] <;> ring
  have hz2 : Z ^ 2 ≠ 0 := pow_ne_zero 2 hz
  have hqx : (Q.X.val : Fp) / Q.Z.val = A.y := by rw [qx, qz, mul_div_cancel_right₀ _ hz2]
  have hqy : (Q.Y.val : Fp) / Q.Z.val = A.x := by rw [qy, qz, mul_div_cancel_right₀ _ hz2]
  refine ⟨Q, R, S, ?_, by rw [qz]; exact hz2, hqx, hqy, ?_, ?_, ⟨_, rfl, rfl, hR⟩, ⟨_, rfl, rfl, hS⟩⟩
  · simp only [Ed.coset4, eQ, eR, eS, Res.ok_bind, Res.pure_eq]
  · rw [hqx, hqy]; exact swap_not_on A
  · rintro ⟨B, hB⟩
    have h1 := hB.x_eq
    have h2 := hB.y_eq
    rw [hqx] at h1
    rw [hqy] at h2
    have h3 := on_fact B
    rw [← h1, ← h2] at h3
    apply swap_not_on A
    unfold OnCurve
    linear_combination h3

example : Ed.BASEPOINT.Valid := base_valid

/-! ### C71 -/

/-- C71: Montgomery point equality is equality of the byte strings. -/
theorem C71_montgomery_eq (a b : Bytes32) : Montgomery.ctEq a b = true ↔ a = b := by
  unfold Montgomery.ctEq
  obtain ⟨wa, va⟩ := Field.fromBytes_spec a
  obtain ⟨wb, vb⟩ := Field.fromBytes_spec b
  rw [Field.ctEq_spec _ _ wa wb (by rw [va]; exact bytesVal_lt a) (by rw [vb]; exact bytesVal_lt b), va, vb,
    decide_eq_true_iff]
  exact ⟨fun h => bytesVal_inj h, fun h => by rw [h]⟩

/-- C71: it is not equality modulo `p`. -/
theorem C71_not_mod_p : ∃ a b : Bytes32, bytesVal a % p = bytesVal b % p ∧ Montgomery.ctEq a b = false :=
  ⟨External.leBytes 0, External.leBytes p, by decide +kernel, by decide +kernel⟩

/-! ### C72 -/

/-- What the loop drawing random points does. -/
theorem newRandomLoop_cases (c : Cfg) (hc : c.Enough) (rng : Nat → Bytes32) : ∀ fuel i,
    (∃ P j hs, i ≤ j ∧ j < i + fuel ∧ Proj.newRandomLoop c rng fuel i = .ok P ∧
      P.Rep (yPt ((Field.random (rng j)).val : Fp) false hs)) ∨
    (Proj.newRandomLoop c rng fuel i = .diverge ∧
      ∀ j, i ≤ j → j < i + fuel → ¬ IsSquare (xxOf ((Field.random (rng j)).val : Fp))) := by
  intro fuel
  induction fuel with
  | zero => intro i; exact Or.inr ⟨rfl, fun j h1 h2 => by omega⟩
  | succ f ih =>
    intro i
    have e : Field.random (rng i) = enc ((Field.random (rng i)).val : Fp) := (Field.random_spec _).1.eq_enc rfl
    by_cases hs : IsSquare (xxOf ((Field.random (rng i)).val : Fp))
    · obtain ⟨P, eP, hP, _⟩ := Proj.newFromY_some c hc _ false hs
      rw [← e] at eP
      refine Or.inl ⟨P, i, hs, le_refl _, by omega, ?_, hP⟩
      simp only [Proj.newRandomLoop, eP, Res.ok_bind, Res.pure_eq]
    · have eP := Proj.newFromY_none c hc _ false hs
      rw [← e] at eP
      have step : Proj.newRandomLoop c rng (f + 1) i = Proj.newRandomLoop c rng f (i + 1) := by
        simp only [Proj.newRandomLoop, eP, Res.ok_bind]
      rw [step]
      rcases ih (i + 1) with ⟨P, j, hj, h1, h2, h3, h4⟩ | ⟨h1, h2⟩
      · exact Or.inl ⟨P, j, hj, by omega, by omega, h3, h4⟩
      · refine Or.inr ⟨h1, fun j a b => ?_⟩
        by_cases hij : j = i
        · rw [hij]; exact hs
        · exact h2 j (by omega) (by omega)

/-- C72: a random point is a curve point with `y < 2^251`. The call never panics and returns as soon as the
generator yields the `y` of a point. -/
theorem C72_random_point (c : Cfg) (hc : c.Enough) (rng : Nat → Bytes32) :
    Ed.newRandom c rng ≠ .panic ∧
    (∀ P, Ed.newRandom c rng = .ok P → ∃ A, P.Rep A ∧ A.y.val < 2 ^ 251) ∧
    (∀ j, j < c.fuel → (∃ A : E, A.y = ((Field.random (rng j)).val : Fp)) →
      ∃ P, Ed.newRandom c rng = .ok P) := by
  rcases newRandomLoop_cases c hc rng c.fuel 0 with ⟨P, j, hs, _, _, e, hP⟩ | ⟨e, hn⟩
  · obtain ⟨Q, eQ, hQ⟩ := Ed.ofProj_rep c hP
    have eN : Ed.newRandom c rng = .ok Q := by
      unfold Ed.newRandom Proj.newRandom
      rw [e, Res.ok_bind]; exact eQ
    refine ⟨by rw [eN]; simp, ?_, fun _ _ _ => ⟨Q, eN⟩⟩
    intro P' h
    rw [eN, Res.ok_inj] at h
    refine ⟨_, h ▸ hQ, ?_⟩
    obtain ⟨h1, h2⟩ := Field.random_spec (rng j)
    rw [yPt_y, ZMod.val_natCast, Nat.mod_eq_of_lt h1.2]
    exact h2
  · have eN : Ed.newRandom c rng = .diverge := by
      unfold Ed.newRandom Proj.newRandom
      rw [e, Res.diverge_bind]
    refine ⟨by rw [eN]; simp, fun P h => by rw [eN] at h; simp at h, ?_⟩
    intro j hj hA
    exact absurd ((exists_y_iff _).1 hA) (hn j (by omega) (by omega))

/-- C72: of two points `A`, `-A` only one is ever drawn: random points with equal `y` are equal. -/
theorem C72_one_sign (c : Cfg) (hc : c.Enough) (rng rng' : Nat → Bytes32) (P P' : EdPoint) (A A' : E)
    (e : Ed.newRandom c rng = .ok P) (e' : Ed.newRandom c rng' = .ok P') (h : P.Rep A) (h' : P'.Rep A')
    (hy : A.y = A'.y) : A = A' := by
  have key : ∀ (rng : Nat → Bytes32) (P : EdPoint) (A : E), Ed.newRandom c rng = .ok P → P.Rep A →
      ∃ y hs, A = yPt y false hs := by
    intro rng P A e h
    rcases newRandomLoop_cases c hc rng c.fuel 0 with ⟨R, j, hs, _, _, eR, hR⟩ | ⟨eR, _⟩
    · obtain ⟨Q, eQ, hQ⟩ := Ed.ofProj_rep c hR
      have eN : Ed.newRandom c rng = .ok Q := by
        unfold Ed.newRandom Proj.newRandom
        rw [eR, Res.ok_bind]; exact eQ
      rw [eN, Res.ok_inj] at e
      rw [e] at hQ
      exact ⟨_, hs, h.unique hQ⟩
    · unfold Ed.newRandom Proj.newRandom at e
      rw [eR, Res.diverge_bind] at e
      simp at e
  obtain ⟨y, hs, rfl⟩ := key rng P A e h
  obtain ⟨y', hs', rfl⟩ := key rng' P' A' e' h'
  rw [yPt_y, yPt_y] at hy
  subst hy
  rfl

/-- A generator for which a point is drawn, and one with a first failure. -/
example : (∃ A : E, A.y = ((Field.random (External.leBytes 3)).val : Fp)) := by
  have : (Field.random (External.leBytes 3)).val = 3 := by decide +kernel
  rw [this]; exact ⟨Gpt, by rfl⟩

end Props
end Zerocaf
