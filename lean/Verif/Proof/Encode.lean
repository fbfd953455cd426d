import Verif.Proof.Decode

/-!
# Ristretto encoding
-/

set_option exponentiation.threshold 600

namespace Zerocaf

attribute [local irreducible] psqrt

/-- The end of the encoding, on residues. -/
noncomputable def encFin (Z zi x y D : Fp) : Fp :=
  let y := if Pos (x * zi) then y else -y
  let s := (Z - y) * D
  if Pos s then s else -s

/-- Encoding on residues. -/
noncomputable def encZ (X Y Z T : Fp) : Fp :=
  let u1 := (Z + Y) * (Z - Y)
  let u2 := X * Y
  let I := (Field.sqrtRatioZ 1 (u1 * (u2 * u2))).2
  let D1 := u1 * I
  let D2 := u2 * I
  let zi := D1 * D2 * T
  if Pos (T * zi) then encFin Z zi X Y D2 else encFin Z zi (Field.iZ * Y) (Field.iZ * X) (D1 * wZ)

theorem cond_abs' (x y : Fp) : (if (!decide (Pos x)) = true then -y else y) = if Pos x then y else -y := by
  by_cases h : Pos x
  · rw [if_pos h, decide_eq_true h, Bool.not_true, if_neg Bool.false_ne_true]
  · rw [if_neg h, decide_eq_false h, Bool.not_false, if_pos rfl]

theorem compress_enc (c : Cfg) (hc : c.Enough) (X Y Z T : Fp) :
    Ristretto.compress c ⟨enc X, enc Y, enc Z, enc T⟩ = .ok (Field.toBytes (enc (encZ X Y Z T))) := by
  have tf : (true == false) = false := rfl
  have ff : (false == false) = true := rfl
  unfold Ristretto.compress encZ
  simp only [Field.add_enc, Field.sub_enc, Field.mul_enc, Field.square_enc, Res.ok_bind,
    Field.invSqrt_enc c hc, Field.isPositive_enc]
  generalize (Field.sqrtRatioZ 1 _).2 = I
  generalize hzi : (Z + Y) * (Z - Y) * I * (X * Y * I) * T = zi
  by_cases h : Pos (T * zi)
  · simp only [decide_eq_true h, tf, Bool.false_eq_true, if_false, if_pos h, Res.pure_eq, Res.ok_bind,
      Field.mul_enc, Field.condNegate_enc, Field.sub_enc, Field.isPositive_enc, cond_abs']
    rfl
  · simp only [decide_eq_false h, ff, if_true, if_neg h, Res.pure_eq, Res.ok_bind,
      Field.SQRT_MINUS_ONE_enc, INV_SQRT_enc,
      Field.mul_enc, Field.condNegate_enc, Field.sub_enc, Field.isPositive_enc, cond_abs']
    rfl

theorem flip_even {A : E} (h : InEven A) : InEven (flipPt A) := (flip_same A).even h

theorem encFin_spec {B : E} {Z zi x y D : Fp} (hz : Z ≠ 0) (hx : x = B.x * Z) (hy : y = B.y * Z)
    (hzi : zi * Z = 1) (he : InEven B) (hp : Pos (B.x * B.y)) (h0 : B.y ≠ 0)
    (hD : D * D * ((Z - y) * (Z + y)) = 1) :
    ∃ A', SameClass B A' ∧ Canonical A' ∧ EncOf (encFin Z zi x y D) A' := by
  have hxz : x * zi = B.x := by rw [hx]; linear_combination B.x * hzi
  have h1 : 1 + B.y ≠ 0 := by
    intro h
    have : Z + y = 0 := by rw [hy]; linear_combination Z * h
    rw [this] at hD
    exact zero_ne_one (α := Fp) (by linear_combination hD)
  have h2 : 1 - B.y ≠ 0 := by
    intro h
    have : Z - y = 0 := by rw [hy]; linear_combination Z * h
    rw [this] at hD
    exact zero_ne_one (α := Fp) (by linear_combination hD)
  unfold encFin
  rw [hxz]
  dsimp only
  by_cases hB : Pos B.x
  · refine ⟨B, SameClass.refl B, ⟨he, hB, hp, h0, h1⟩, ⟨abs_pos' _, ?_⟩⟩
    rw [abs_sq, if_pos hB]
    apply mul_right_cancel₀ hz
    rw [hy] at hD ⊢
    linear_combination (Z - B.y * Z) * hD
  · refine ⟨flipPt B, flip_same B, ⟨flip_even he, ?_, ?_, ?_, ?_⟩, ⟨abs_pos' _, ?_⟩⟩
    · rw [flipPt_x]; exact (pos_or_neg _).resolve_left hB
    · rw [flipPt_x, flipPt_y, neg_mul_neg]; exact hp
    · rw [flipPt_y]; exact neg_ne_zero.2 h0
    · rw [flipPt_y]; intro h; exact h2 (by linear_combination h)
    · rw [abs_sq, if_neg hB, flipPt_y]
      apply mul_right_cancel₀ hz
      rw [hy] at hD ⊢
      linear_combination (Z + B.y * Z) * hD

theorem canonical_zero : Canonical 0 := by
  refine ⟨inEven_zero, ?_, ?_, ?_, ?_⟩
  · rw [EdCurve.Pt.zero_x]; exact pos_zero
  · rw [EdCurve.Pt.zero_x, zero_mul]; exact pos_zero
  · rw [EdCurve.Pt.zero_y]; exact one_ne_zero
  · rw [EdCurve.Pt.zero_y]; intro h; exact Field.two_ne_zero' (by linear_combination h)

theorem encOf_zero : EncOf 0 0 := ⟨pos_zero, by rw [EdCurve.Pt.zero_y]; ring⟩

theorem encZ_spec {A : E} {Z : Fp} (hz : Z ≠ 0) (hA : InEven A) :
    ∃ A', SameClass A A' ∧ Canonical A' ∧ EncOf (encZ (A.x * Z) (A.y * Z) Z (A.x * A.y * Z)) A' := by
  by_cases h0 : A.x * A.y = 0
  · refine ⟨0, ?_, canonical_zero, ?_⟩
    · rw [SameClass, sub_zero, four_torsion_iff]; exact mul_eq_zero.1 h0
    · have e : encZ (A.x * Z) (A.y * Z) Z (A.x * A.y * Z) = 0 := by
        unfold encZ
        have e0 : A.x * Z * (A.y * Z) = 0 := by linear_combination Z * Z * h0
        rw [e0, h0]
        have e1 : Field.sqrtRatioZ 1 ((Z + A.y * Z) * (Z - A.y * Z) * (0 * 0)) = (false, 0) := by
          unfold Field.sqrtRatioZ
          rw [if_neg one_ne_zero, if_pos (by ring)]
        dsimp only
        rw [e1]
        simp only [zero_mul, mul_zero, encFin, if_pos pos_zero]
      rw [e]; exact encOf_zero
  · have hx0 : A.x ≠ 0 := fun h => h0 (by rw [h, zero_mul])
    have hy0 : A.y ≠ 0 := fun h => h0 (by rw [h, mul_zero])
    have hon := on_fact A
    have hxs := x_sq_eq A
    have hw : (Z + A.y * Z) * (Z - A.y * Z) * (A.x * Z * (A.y * Z) * (A.x * Z * (A.y * Z))) =
        -((1 + dZ * A.y ^ 2) * ((A.x * A.x * A.y * Z ^ 3) * (A.x * A.x * A.y * Z ^ 3))) := by
      linear_combination Z ^ 6 * (A.x * A.y) ^ 2 * hxs
    have hwS : IsSquare ((Z + A.y * Z) * (Z - A.y * Z) * (A.x * Z * (A.y * Z) * (A.x * Z * (A.y * Z)))) := by
      rw [hw, square_neg]
      exact ((inEven_iff A).1 hA).mul ⟨_, rfl⟩
    have hw0 : (Z + A.y * Z) * (Z - A.y * Z) * (A.x * Z * (A.y * Z) * (A.x * Z * (A.y * Z))) ≠ 0 := by
      rw [hw]
      have : A.x * A.x * A.y * Z ^ 3 ≠ 0 :=
        mul_ne_zero (mul_ne_zero (mul_ne_zero hx0 hx0) hy0) (pow_ne_zero 3 hz)
      exact neg_ne_zero.2 (mul_ne_zero (one_add_dy_ne A) (mul_ne_zero this this))
    unfold encZ
    dsimp only
    have hr := sqrtRatio_one
      ((Z + A.y * Z) * (Z - A.y * Z) * (A.x * Z * (A.y * Z) * (A.x * Z * (A.y * Z))))
    generalize Field.sqrtRatioZ 1 _ = r at hr ⊢
    obtain ⟨ok, I⟩ := r
    dsimp only at hr ⊢
    obtain ⟨-, hI, _, _⟩ | ⟨_, h | h⟩ := hr
    rotate_left
    · exact absurd h hw0
    · exact absurd hwS h
    generalize hzi : (Z + A.y * Z) * (Z - A.y * Z) * I * (A.x * Z * (A.y * Z) * I) * (A.x * A.y * Z) = zi
    have hziZ : zi * Z = 1 := by rw [← hzi]; linear_combination hI
    have htz : A.x * A.y * Z * zi = A.x * A.y := by linear_combination A.x * A.y * hziZ
    rw [htz]
    by_cases hp : Pos (A.x * A.y)
    · rw [if_pos hp]
      apply encFin_spec hz rfl rfl hziZ hA hp hy0
      linear_combination hI
    · rw [if_neg hp]
      obtain ⟨A', h1, h2, h3⟩ := encFin_spec (B := rotPt A) (Z := Z) (zi := zi)
        (x := Field.iZ * (A.y * Z)) (y := Field.iZ * (A.x * Z))
        (D := (Z + A.y * Z) * (Z - A.y * Z) * I * wZ) hz
        (by rw [rotPt_x]; ring) (by rw [rotPt_y]; ring) hziZ ((rot_same A).even hA)
        (by
          rw [rotPt_x, rotPt_y, show Field.iZ * A.y * (Field.iZ * A.x) = -(A.x * A.y) by
            linear_combination (A.x * A.y) * Field.iZ_sq]
          exact (pos_or_neg _).resolve_left hp)
        (by rw [rotPt_y]; exact mul_ne_zero Field.iZ_ne hx0)
        (by
          have hw := wZ_sq
          have hi := Field.iZ_sq
          generalize wZ = w at *
          generalize Field.iZ = i at *
          generalize dZ = d at *
          have e1 : (Z - i * (A.x * Z)) * (Z + i * (A.x * Z)) = Z ^ 2 * (1 + A.x ^ 2) := by
            linear_combination -(A.x * Z) ^ 2 * hi
          have e2 : (1 + A.x ^ 2) * (1 - A.y ^ 2) = (A.x * A.y) ^ 2 * (-1 - d) := by
            linear_combination -hon
          rw [e1]
          linear_combination hw + (w * w * (-1 - d)) * hI +
            (I * I * w * w * (1 - A.y ^ 2) * Z ^ 6) * e2)
      exact ⟨A', (rot_same A).trans h1, h2, h3⟩

namespace Ristretto

/-- Encoding an even point gives the encoding of the canonical point of its class. -/
theorem compress_rep (c : Cfg) (hc : c.Enough) {P : EdPoint} {A : E} (h : P.Rep A) (hA : InEven A) :
    ∃ A' s, SameClass A A' ∧ Canonical A' ∧ EncOf s A' ∧
      compress c P = .ok (Field.toBytes (enc s)) := by
  obtain ⟨Z, hz, rfl⟩ := h.form
  obtain ⟨A', h1, h2, h3⟩ := encZ_spec hz hA
  exact ⟨A', _, h1, h2, h3, compress_enc c hc _ _ _ _⟩

/-- The coordinates returned by decoding. -/
def ofPt (A : E) : EdPoint := ⟨enc A.x, enc A.y, enc 1, enc (A.x * A.y)⟩

theorem ofPt_rep (A : E) : (ofPt A).Rep A :=
  EdPoint.rep_mk one_ne_zero (by ring) (by ring) (by ring)

theorem toBytes_of_pos (b : Bytes32) (h : 2 * bytesVal b ≤ p - 1) :
    ∃ s : Fp, Pos s ∧ b = Field.toBytes (enc s) ∧ s = (bytesVal b : Fp) := by
  have hlt : bytesVal b < p := by have := p_odd; omega
  have hv : ((bytesVal b : ℕ) : Fp).val = bytesVal b := by
    rw [ZMod.val_natCast, Nat.mod_eq_of_lt hlt]
  refine ⟨(bytesVal b : Fp), by unfold Pos; rw [hv]; exact h, ?_, rfl⟩
  apply bytesVal_inj
  rw [Field.toBytes_spec _ (enc_WF _) (Field.canon_lt256 (enc_canon _)), enc_val, hv]

/-- All that decoding does. -/
theorem decompress_cases (c : Cfg) (hc : c.Enough) (b : Bytes32) :
    (∃ A s, Canonical A ∧ EncOf s A ∧ b = Field.toBytes (enc s) ∧ decompress c b = .ok (some (ofPt A))) ∨
    (decompress c b = .ok none ∧ ∀ A s, Canonical A → EncOf s A → b ≠ Field.toBytes (enc s)) := by
  by_cases h : 2 * bytesVal b ≤ p - 1
  · obtain ⟨s, hs, hb, _⟩ := toBytes_of_pos b h
    have e := decompress_pos c hc b s hs hb
    have inj : ∀ t : Fp, b = Field.toBytes (enc t) → t = s := by
      intro t ht
      have := congrArg Field.fromBytes (ht.symm.trans hb)
      rw [Field.fromBytes_toBytes _ (enc_WF _) (Field.canon_lt256 (enc_canon _)),
        Field.fromBytes_toBytes _ (enc_WF _) (Field.canon_lt256 (enc_canon _)), enc_inj] at this
      exact this
    cases hd : decZ s with
    | none =>
      right
      rw [hd] at e
      refine ⟨e, fun A t hA ht hbt => ?_⟩
      rw [inj t hbt] at ht
      rw [decZ_of hA ht] at hd
      exact absurd hd (by simp)
    | some a =>
      obtain ⟨x, y⟩ := a
      obtain ⟨A, ex, ey, hA, hsA⟩ := decZ_some hs hd
      left
      refine ⟨A, s, hA, hsA, hb, ?_⟩
      rw [e, hd, ← ex, ← ey]; rfl
  · right
    refine ⟨decompress_neg c b (by omega), ?_⟩
    rintro A s _ hs rfl
    apply h
    rw [Field.toBytes_spec _ (enc_WF _) (Field.canon_lt256 (enc_canon _)), enc_val]
    exact hs.ps

theorem decompress_of (c : Cfg) (hc : c.Enough) {A : E} {s : Fp} (hA : Canonical A) (hs : EncOf s A) :
    decompress c (Field.toBytes (enc s)) = .ok (some (ofPt A)) := by
  rcases decompress_cases c hc (Field.toBytes (enc s)) with ⟨A', t, hA', ht, hb, e⟩ | ⟨_, hn⟩
  · have := congrArg Field.fromBytes hb
    rw [Field.fromBytes_toBytes _ (enc_WF _) (Field.canon_lt256 (enc_canon _)),
      Field.fromBytes_toBytes _ (enc_WF _) (Field.canon_lt256 (enc_canon _)), enc_inj] at this
    rw [← this] at ht
    rw [e, EncOf.A_unique hs ht hA hA']
  · exact absurd rfl (hn A s hA hs)

end Ristretto
end Zerocaf
