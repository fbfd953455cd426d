import Verif.Proof.Base

/-!
# Points from their `y` coordinate, Edwards compression
-/

set_option exponentiation.threshold 600

namespace Zerocaf

theorem tsRoot_zero : Field.tsRoot 0 = 0 := by
  unfold Field.tsRoot
  have h1 : (0 : Fp) ^ Field.Q = 0 := zero_pow (by decide)
  have h2 : (0 : Fp) ^ ((Field.Q + 1) / 2) = 0 := zero_pow (by decide)
  rw [h1, h2, if_neg zero_ne_one, zero_mul]

theorem tsRoot_sq {a : Fp} (hs : IsSquare a) : Field.tsRoot a * Field.tsRoot a = a := by
  by_cases h0 : a = 0
  · rw [h0, tsRoot_zero, mul_zero]
  · exact (Field.tsRoot_spec a h0 hs).1

theorem modSqrt_of_square (c : Cfg) (hc : c.Enough) {a : Fp} (sign : Bool) (hs : IsSquare a) :
    Field.modSqrt c (enc a) sign =
      .ok (some (enc (if sign then -Field.tsRoot a else Field.tsRoot a))) := by
  by_cases h0 : a = 0
  · rw [h0, Field.modSqrt_zero, tsRoot_zero, neg_zero, ite_self]
  · exact Field.modSqrt_tsRoot a h0 hs c sign hc

attribute [local irreducible] Field.tsRoot

theorem Res.bind_assoc' {α β γ : Type} (x : Res α) (f : α → Res β) (g : β → Res γ) :
    ((x >>= f) >>= g) = (x >>= fun a => f a >>= g) := by
  cases x <;> rfl

theorem dy_ne (y : Fp) : 1 + dZ * (y * y) ≠ 0 := by
  intro h
  apply dZ_not_square
  have hy : y ≠ 0 := by
    intro h0; rw [h0] at h; simp at h
  refine ⟨Field.iZ / y, ?_⟩
  rw [div_mul_div_comm, Field.iZ_sq, eq_div_iff (mul_ne_zero hy hy)]
  linear_combination h

/-- The square of `x` determined by `y`. -/
noncomputable def xxOf (y : Fp) : Fp := (y * y - 1) / (1 + dZ * (y * y))

theorem xxOf_on {x y : Fp} (h : x * x = xxOf y) : zc.On x y := by
  unfold xxOf at h
  rw [eq_div_iff (dy_ne y)] at h
  show y ^ 2 - x ^ 2 = 1 + dZ * x ^ 2 * y ^ 2
  linear_combination -h

theorem xxOf_pt (A : E) : A.x * A.x = xxOf A.y := by
  unfold xxOf
  rw [eq_div_iff (dy_ne A.y)]
  linear_combination -(on_fact A)

theorem sgn_on {r y : Fp} (s : Bool) (h : r * r = xxOf y) : zc.On (if s then -r else r) y := by
  apply xxOf_on
  cases s
  · rw [if_neg Bool.false_ne_true]; exact h
  · rw [if_pos rfl, neg_mul_neg]; exact h

/-- The curve point with the given `y` whose `x` is `±r`. -/
def sPt (r y : Fp) (s : Bool) (h : r * r = xxOf y) : E := ⟨if s then -r else r, y, sgn_on s h⟩

theorem sPt_x (r y : Fp) (s : Bool) (h : r * r = xxOf y) : (sPt r y s h).x = if s then -r else r := rfl
theorem sPt_y (r y : Fp) (s : Bool) (h : r * r = xxOf y) : (sPt r y s h).y = y := rfl
theorem sPt_neg (r y : Fp) (h : r * r = xxOf y) : sPt r y true h = -sPt r y false h := rfl

theorem sPt_self (r : Fp) (A : E) (h : r * r = xxOf A.y) : sPt r A.y (!decide (r = A.x)) h = A := by
  refine EdCurve.Pt.ext ?_ (sPt_y _ _ _ _)
  rw [sPt_x]
  by_cases he : r = A.x
  · rw [decide_eq_true he, Bool.not_true, if_neg Bool.false_ne_true]; exact he
  · rw [decide_eq_false he, Bool.not_false, if_pos rfl]
    rcases sq_eq_cases (h.trans (xxOf_pt A).symm) with e | e
    · exact absurd e he
    · rw [e, neg_neg]

/-- The curve point with the given `y` whose `x` is `±tsRoot`. -/
noncomputable def yPt (y : Fp) (sign : Bool) (hs : IsSquare (xxOf y)) : E :=
  sPt (Field.tsRoot (xxOf y)) y sign (tsRoot_sq hs)

theorem yPt_x (y : Fp) (sign : Bool) (hs : IsSquare (xxOf y)) :
    (yPt y sign hs).x = if sign then -Field.tsRoot (xxOf y) else Field.tsRoot (xxOf y) := by
  unfold yPt; rw [sPt_x]
theorem yPt_y (y : Fp) (sign : Bool) (hs : IsSquare (xxOf y)) : (yPt y sign hs).y = y := by
  unfold yPt; rw [sPt_y]

theorem exists_y_iff (y : Fp) : (∃ A : E, A.y = y) ↔ IsSquare (xxOf y) := by
  constructor
  · rintro ⟨A, rfl⟩
    exact ⟨A.x, (xxOf_pt A).symm⟩
  · intro h
    exact ⟨yPt y false h, yPt_y _ _ _⟩

theorem findXX_enc (c : Cfg) (hc : c.Enough) (y : Fp) : findXX c (enc y) = .ok (enc (xxOf y)) := by
  have h : dZ * (y * y) - -1 ≠ 0 := by
    rw [sub_neg_eq_add, add_comm]; exact dy_ne y
  simp only [findXX, Field.square_enc, Field.one_enc, Field.sub_enc, EDWARDS_D_enc, EDWARDS_A_enc,
    Field.mul_enc, Res.ok_bind, Field.div_enc c hc _ _ h]
  unfold xxOf
  rw [sub_neg_eq_add, add_comm 1]

namespace Proj

theorem newFromY_eq (c : Cfg) (y : FE) (sign : Bool) : newFromY c y sign = (do
    let xx ← findXX c y
    let o ← Field.modSqrt c xx sign
    match o with
    | none => return none
    | some x => return some ⟨x, y, Field.one⟩) := by
  unfold newFromY findXX
  simp only [Res.bind_assoc']
  rfl

theorem newFromY_some (c : Cfg) (hc : c.Enough) (y : Fp) (sign : Bool) (hs : IsSquare (xxOf y)) :
    ∃ P, newFromY c (enc y) sign = .ok (some P) ∧ P.Rep (yPt y sign hs) ∧
      P = ⟨enc (yPt y sign hs).x, enc y, enc 1⟩ := by
  refine ⟨⟨enc (yPt y sign hs).x, enc y, enc 1⟩, ?_, ?_, rfl⟩
  · rw [newFromY_eq, findXX_enc c hc, Res.ok_bind, modSqrt_of_square c hc sign hs, Res.ok_bind,
      Field.one_enc, yPt_x]
    rfl
  · exact ProjPoint.rep_mk one_ne_zero (mul_one _).symm (by rw [yPt_y, mul_one])

theorem newFromY_none (c : Cfg) (hc : c.Enough) (y : Fp) (sign : Bool) (hs : ¬ IsSquare (xxOf y)) :
    newFromY c (enc y) sign = .ok none := by
  rw [newFromY_eq, findXX_enc c hc, Res.ok_bind, Field.modSqrt_nonsquare c hc _ sign hs, Res.ok_bind]
  rfl

end Proj

namespace Ed

theorem newFromY_some (c : Cfg) (hc : c.Enough) (y : Fp) (sign : Bool) (hs : IsSquare (xxOf y)) :
    ∃ P, newFromY c (enc y) sign = .ok (some P) ∧ P.Rep (yPt y sign hs) := by
  obtain ⟨P, eP, hP, _⟩ := Proj.newFromY_some c hc y sign hs
  obtain ⟨Q, eQ, hQ⟩ := Ed.ofProj_rep c hP
  refine ⟨Q, ?_, hQ⟩
  unfold newFromY
  rw [eP, Res.ok_bind]
  dsimp only
  rw [eQ]; rfl

theorem newFromY_none (c : Cfg) (hc : c.Enough) (y : Fp) (sign : Bool) (hs : ¬ IsSquare (xxOf y)) :
    newFromY c (enc y) sign = .ok none := by
  unfold newFromY
  rw [Proj.newFromY_none c hc y sign hs]; rfl

end Ed

/-- The two sign choices give opposite points. -/
theorem yPt_neg (y : Fp) (hs : IsSquare (xxOf y)) : yPt y true hs = -yPt y false hs := by
  unfold yPt; rw [sPt_neg]

/-! ### Compression -/

/-- The sign bit `compress` stores. -/
noncomputable def signOf (A : E) : Bool := !decide (Field.tsRoot (xxOf A.y) = A.x)

theorem compress_rep (c : Cfg) (hc : c.Enough) {P : EdPoint} {A : E} (h : P.Rep A) :
    Ed.compress c P = .ok ((Field.toBytes (enc A.y)).set 31
      ((Field.toBytes (enc A.y))[31] ||| ((if signOf A then 1 else 0 : UInt8) <<< 7))) := by
  have hs : IsSquare (xxOf A.y) := ⟨A.x, (xxOf_pt A).symm⟩
  unfold Ed.compress signOf
  rw [Aff.ofEd_rep c hc h, Res.ok_bind]
  dsimp only
  rw [findXX_enc c hc, Res.ok_bind, modSqrt_of_square c hc false hs, Res.ok_bind]
  unfold unwrap
  simp only [Res.ok_bind, Bool.false_eq_true, if_false, Field.ctEq_enc, Res.pure_eq]
  by_cases h : Field.tsRoot (xxOf A.y) = A.x
  · simp [h]
  · simp [h]

theorem u8_sign (x : UInt8) (s : Bool) (h : x.toNat < 16) :
    ((x ||| ((if s then 1 else 0 : UInt8) <<< 7)) >>> 7 == 1) = s ∧
    (x ||| ((if s then 1 else 0 : UInt8) <<< 7)) &&& 0b00001111 = x := by
  have key : ∀ n : Fin 16, ∀ s : Bool, ((UInt8.ofNat n ||| ((if s then 1 else 0 : UInt8) <<< 7)) >>> 7 == 1) = s ∧
      (UInt8.ofNat n ||| ((if s then 1 else 0 : UInt8) <<< 7)) &&& 0b00001111 = UInt8.ofNat n := by decide
  have := key ⟨x.toNat, h⟩ s
  rwa [UInt8.ofNat_toNat] at this

theorem u8_sign' (x : UInt8) (s : Bool) (h : x.toNat < 32) :
    ((x ||| ((if s then 1 else 0 : UInt8) <<< 7)) &&& 0b00001111).toNat = x.toNat % 16 := by
  have key : ∀ n : Fin 32, ∀ s : Bool,
      ((UInt8.ofNat n ||| ((if s then 1 else 0 : UInt8) <<< 7)) &&& 0b00001111).toNat =
        (UInt8.ofNat n).toNat % 16 := by decide
  have := key ⟨x.toNat, h⟩ s
  rwa [UInt8.ofNat_toNat] at this

theorem set_set31 (b : Bytes32) (x y : UInt8) : (b.set 31 x).set 31 y = b.set 31 y := by
  simp

theorem get_set31 (b : Bytes32) (x : UInt8) : (b.set 31 x)[31] = x := by simp

theorem set_get31 (b : Bytes32) : b.set 31 b[31] = b := by simp

/-- The top byte in terms of the integer. -/
theorem top_byte (b : Bytes32) : b[31].toNat = bytesVal b / 2 ^ 248 := by
  have h0 := leNat_lt (b.toList.take 31)
  have e : b.toList = b.toList.take 31 ++ [b[31]] := by rw [toList32]; rfl
  have hl : (b.toList.take 31).length = 31 := by simp
  unfold bytesVal
  rw [e, leNat_append]
  rw [hl] at *
  simp only [leNat]
  generalize leNat (b.toList.take 31) = m at *
  generalize b[31].toNat = t at *
  norm_num at h0 ⊢
  omega

theorem mask_val (b : Bytes32) : bytesVal (b.set 31 (b[31] &&& 0b00001111)) = bytesVal b % 2 ^ 252 := by
  have h1 : (b[31] &&& 0b00001111).toNat = b[31].toNat % 16 := by
    have key : ∀ n : Fin 256, (UInt8.ofNat n &&& 0b00001111).toNat = (UInt8.ofNat n).toNat % 16 := by
      decide +kernel
    have := key ⟨b[31].toNat, u8_lt _⟩
    rwa [UInt8.ofNat_toNat] at this
  rw [bytesVal_set31, h1, top_byte]
  generalize bytesVal b = m
  omega

theorem decompress_eq (c : Cfg) (b : Bytes32) :
    Ed.decompress c b =
      Ed.newFromY c (enc ((bytesVal b % 2 ^ 252 : ℕ) : Fp)) (b[31] >>> 7 == 1) := by
  have hy : Field.fromBytes (b.set 31 (b[31] &&& 0b00001111)) = enc ((bytesVal b % 2 ^ 252 : ℕ) : Fp) := by
    obtain ⟨w, v⟩ := Field.fromBytes_spec (b.set 31 (b[31] &&& 0b00001111))
    rw [mask_val] at v
    have hcan : (Field.fromBytes (b.set 31 (b[31] &&& 0b00001111))).Canon := by
      refine ⟨w, ?_⟩
      rw [v]
      have : bytesVal b % 2 ^ 252 < 2 ^ 252 := Nat.mod_lt _ (by decide)
      exact lt_trans this (by decide)
    exact hcan.eq_enc (toZ_eq_iff.2 (by rw [v]))
  unfold Ed.decompress
  dsimp only
  rw [hy]

theorem toBytes_enc_val (y : Fp) : bytesVal (Field.toBytes (enc y)) = y.val := by
  rw [Field.toBytes_spec _ (enc_WF y) (Field.canon_lt256 (enc_canon y)), enc_val]

/-- `y < 2^252`: the round trip returns the point. -/
theorem roundtrip_low (c : Cfg) (hc : c.Enough) {P : EdPoint} {A : E} (h : P.Rep A)
    (hy : A.y.val < 2 ^ 252) :
    ∃ b Q, Ed.compress c P = .ok b ∧ Ed.decompress c b = .ok (some Q) ∧ Q.Rep A := by
  have hs : IsSquare (xxOf A.y) := ⟨A.x, (xxOf_pt A).symm⟩
  have hv := toBytes_enc_val A.y
  have ht := top_byte (Field.toBytes (enc A.y))
  rw [hv] at ht
  have ht' : (Field.toBytes (enc A.y))[31].toNat < 16 := by omega
  obtain ⟨s1, s2⟩ := u8_sign _ (signOf A) ht'
  obtain ⟨Q, eQ, hQ⟩ := Ed.newFromY_some c hc A.y (signOf A) hs
  have hA : yPt A.y (signOf A) hs = A := by
    unfold yPt signOf; rw [sPt_self]
  rw [hA] at hQ
  refine ⟨_, Q, compress_rep c hc h, ?_, hQ⟩
  have e : bytesVal ((Field.toBytes (enc A.y)).set 31
      ((Field.toBytes (enc A.y))[31] ||| ((if signOf A then 1 else 0 : UInt8) <<< 7))) % 2 ^ 252 =
      A.y.val := by
    rw [← mask_val, get_set31, set_set31, s2, set_get31, hv]
  rw [decompress_eq, e, get_set31, s1, ZMod.natCast_zmod_val]
  exact eQ

/-- `y ≥ 2^252`: what the round trip decodes has a different `y`. -/
theorem roundtrip_high (c : Cfg) (hc : c.Enough) {P : EdPoint} {A : E} (h : P.Rep A)
    (hy : 2 ^ 252 ≤ A.y.val) :
    ∃ b o, Ed.compress c P = .ok b ∧ Ed.decompress c b = .ok o ∧
      ∀ Q, o = some Q → ∃ B, Q.Rep B ∧ B.y = ((A.y.val - 2 ^ 252 : ℕ) : Fp) ∧ B.y ≠ A.y := by
  have hv := toBytes_enc_val A.y
  have hlt : A.y.val < p := ZMod.val_lt A.y
  have hp : p < 2 ^ 253 := by decide
  have ht := top_byte (Field.toBytes (enc A.y))
  rw [hv] at ht
  have e : bytesVal ((Field.toBytes (enc A.y)).set 31
      ((Field.toBytes (enc A.y))[31] ||| ((if signOf A then 1 else 0 : UInt8) <<< 7))) % 2 ^ 252 =
      A.y.val - 2 ^ 252 := by
    rw [← mask_val, get_set31, set_set31, bytesVal_set31, u8_sign' _ _ (by omega), hv, ht]
    omega
  have hne : ((A.y.val - 2 ^ 252 : ℕ) : Fp) ≠ A.y := by
    intro he
    have := congrArg ZMod.val he
    rw [ZMod.val_natCast, Nat.mod_eq_of_lt (by omega)] at this
    omega
  have hd := decompress_eq c ((Field.toBytes (enc A.y)).set 31
      ((Field.toBytes (enc A.y))[31] ||| ((if signOf A then 1 else 0 : UInt8) <<< 7)))
  rw [e] at hd
  generalize (((Field.toBytes (enc A.y)).set 31
      ((Field.toBytes (enc A.y))[31] ||| ((if signOf A then 1 else 0 : UInt8) <<< 7)))[31] >>> 7 == 1)
      = sg at hd
  by_cases hs : IsSquare (xxOf ((A.y.val - 2 ^ 252 : ℕ) : Fp))
  · obtain ⟨Q, eQ, hQ⟩ := Ed.newFromY_some c hc _ sg hs
    refine ⟨_, some Q, compress_rep c hc h, by rw [hd, eQ], ?_⟩
    intro Q' h'
    rw [← Option.some.inj h']
    exact ⟨_, hQ, yPt_y _ _ _, by rw [yPt_y]; exact hne⟩
  · refine ⟨_, none, compress_rep c hc h, by rw [hd, Ed.newFromY_none c hc _ sg hs], ?_⟩
    intro Q' h'; cases h'

end Zerocaf
