import Verif.Proof.Even
import Verif.Proof.WindowMul

/-!
# Ristretto encoding and decoding
-/

set_option exponentiation.threshold 600

namespace Zerocaf

attribute [local irreducible] psqrt

/-! ### Canonical representatives -/

/-- The representative of a class chosen by the encoding. -/
structure Canonical (A : E) : Prop where
  even : InEven A
  px : Pos A.x
  pt : Pos (A.x * A.y)
  y0 : A.y ≠ 0
  y1 : 1 + A.y ≠ 0

/-- `s` is the encoding (as a residue) of the canonical point `A`. -/
structure EncOf (s : Fp) (A : E) : Prop where
  ps : Pos s
  eq : s * s * (1 + A.y) = 1 - A.y

theorem pos_and_neg {x : Fp} (h : Pos x) (h' : Pos (-x)) : x = 0 := by
  by_contra h0
  exact (pos_neg h0).1 h' h

theorem Canonical.unique {A B : E} (hA : Canonical A) (hB : Canonical B) (h : SameClass A B) : B = A := by
  -- a point with a vanishing product of coordinates is the neutral element
  have key : ∀ {C : E}, Canonical C → C.x * C.y = 0 → C = 0 := by
    intro C hC h0
    have hx : C.x = 0 := (mul_eq_zero.1 h0).resolve_right hC.y0
    have hon := on_fact C
    rw [hx] at hon
    have hs : (C.y - 1) * (1 + C.y) = 0 := by linear_combination hon
    have := (mul_eq_zero.1 hs).resolve_right hC.y1
    exact (eq_zero_iff C).2 ⟨hx, by linear_combination this⟩
  rcases class_cases h with e | e | e | e
  · exact e
  · have h1 := hB.px
    rw [e, flipPt_x] at h1
    have h0 := pos_and_neg hA.px h1
    rw [key hA (by rw [h0, zero_mul]), key hB (by rw [e, flipPt_x, h0]; ring)]
  · have h1 := hB.pt
    rw [e, rotPt_x, rotPt_y, show Field.iZ * A.y * (Field.iZ * A.x) = -(A.x * A.y) by
      linear_combination (A.x * A.y) * Field.iZ_sq] at h1
    have h0 := pos_and_neg hA.pt h1
    rw [key hA h0, key hB (by
      rw [e, rotPt_x, rotPt_y]; linear_combination (A.x * A.y) * Field.iZ_sq - h0)]
  · have h1 := hB.pt
    rw [e, flipPt_x, flipPt_y, rotPt_x, rotPt_y,
      show -(Field.iZ * A.y) * -(Field.iZ * A.x) = -(A.x * A.y) by
        linear_combination (A.x * A.y) * Field.iZ_sq] at h1
    have h0 := pos_and_neg hA.pt h1
    rw [key hA h0, key hB (by
      rw [e, flipPt_x, flipPt_y, rotPt_x, rotPt_y]; linear_combination (A.x * A.y) * Field.iZ_sq - h0)]

theorem EncOf.s_unique {s t : Fp} {A : E} (h : EncOf s A) (g : EncOf t A) (h1 : 1 + A.y ≠ 0) : s = t := by
  apply pos_unique h.ps g.ps
  apply mul_right_cancel₀ h1
  rw [h.eq, g.eq]

theorem EncOf.A_unique {s : Fp} {A B : E} (h : EncOf s A) (g : EncOf s B) (hA : Canonical A)
    (hB : Canonical B) : A = B := by
  have hs : 1 + s * s ≠ 0 := by
    intro h0
    have e : s * s = -1 := by linear_combination h0
    have h1 := h.eq
    rw [e] at h1
    exact Field.two_ne_zero' (by linear_combination -h1)
  have hy : A.y = B.y := by
    apply mul_left_cancel₀ hs
    have h1 := h.eq
    have h2 := g.eq
    linear_combination h1 - h2
  apply ptCode_inj
  unfold ptCode
  rw [hy, decide_eq_true hA.px, decide_eq_true hB.px]

/-! ### Decoding -/

/-- Decoding on residues. -/
noncomputable def decZ (s : Fp) : Option (Fp × Fp) :=
  let u1 := 1 - s * s
  let u2 := 1 + s * s
  let v := -(dZ * (u1 * u1)) - u2 * u2
  let r := Field.sqrtRatioZ 1 (v * (u2 * u2))
  if r.1 = false then none else
  let dx := r.2 * u2
  let x := (s + s) * dx
  let x := if Pos x then x else -x
  let y := u1 * (r.2 * dx * v)
  if ¬ Pos (x * y) ∨ y = 0 then none else some (x, y)

theorem cond_abs (x : Fp) : (if (!decide (Pos x)) = true then -x else x) = if Pos x then x else -x := by
  by_cases h : Pos x
  · rw [if_pos h, decide_eq_true h, Bool.not_true, if_neg Bool.false_ne_true]
  · rw [if_neg h, decide_eq_false h, Bool.not_false, if_pos rfl]

theorem decompress_neg (c : Cfg) (b : Bytes32) (h : p - 1 < 2 * bytesVal b) :
    Ristretto.decompress c b = .ok none := by
  obtain ⟨w, v⟩ := Field.fromBytes_spec b
  have h1 : Field.isPositive (Field.fromBytes b) = false := by
    rw [Field.isPositive_spec _ w, v]; exact decide_eq_false (by omega)
  unfold Ristretto.decompress
  simp only [h1, beq_self_eq_true, Bool.true_or, if_true, Res.pure_eq]

theorem decompress_pos (c : Cfg) (hc : c.Enough) (b : Bytes32) (s : Fp) (hs : Pos s)
    (hb : b = Field.toBytes (enc s)) :
    Ristretto.decompress c b = .ok ((decZ s).map fun a => ⟨enc a.1, enc a.2, enc 1, enc (a.1 * a.2)⟩) := by
  have h0 : Field.fromBytes b = enc s := by
    rw [hb, Field.fromBytes_toBytes _ (enc_WF s) (Field.canon_lt256 (enc_canon s))]
  unfold Ristretto.decompress
  have h2 : Field.toBytes (enc s) = b := hb.symm
  have tf : (true == false) = false := rfl
  have ff : (false == false) = true := rfl
  simp only [h0, h2, Field.isPositive_enc, decide_eq_true hs, beq_self_eq_true, tf,
    Bool.or_false, Bool.false_eq_true, if_false, Field.one_enc, Field.square_enc, Field.sub_enc,
    Field.add_enc, EDWARDS_D_enc, Field.mul_enc, Field.neg_enc, Res.ok_bind, Field.invSqrt_enc c hc]
  unfold decZ
  dsimp only
  generalize Field.sqrtRatioZ 1 _ = r
  obtain ⟨ok, I⟩ := r
  cases ok
  · rfl
  · simp only [tf, Bool.false_eq_true, if_false, Field.condNegate_enc, cond_abs, Res.ok_bind,
      Field.mul_enc, Field.isPositive_enc, Field.zero_enc, Field.ctEq_enc, Bool.true_eq_false]
    generalize (if Pos ((s + s) * (I * (1 + s * s))) then _ else _ : Fp) = x
    generalize (1 - s * s) * _ = y
    by_cases h3 : Pos (x * y)
    · by_cases h4 : y = 0
      · rw [decide_eq_true h4, Bool.or_true, if_pos rfl, if_pos (Or.inr h4)]; rfl
      · rw [decide_eq_true h3, decide_eq_false h4, tf, Bool.or_false, if_neg Bool.false_ne_true, if_neg]
        · rfl
        · rintro (h | h)
          · exact h h3
          · exact h4 h
    · rw [decide_eq_false h3, ff, Bool.true_or, if_pos rfl, if_pos (Or.inl h3)]; rfl

theorem sqrtRatio_one (w : Fp) : ((Field.sqrtRatioZ 1 w).1 = true ∧ (Field.sqrtRatioZ 1 w).2 *
      (Field.sqrtRatioZ 1 w).2 * w = 1 ∧ w ≠ 0 ∧ IsSquare w) ∨
    ((Field.sqrtRatioZ 1 w).1 = false ∧ (w = 0 ∨ ¬ IsSquare w)) := by
  unfold Field.sqrtRatioZ
  rw [if_neg one_ne_zero]
  by_cases h0 : w = 0
  · rw [if_pos h0]; right; exact ⟨rfl, Or.inl h0⟩
  · rw [if_neg h0]
    by_cases h1 : IsSquare (1 / w)
    · rw [if_pos h1]
      left
      refine ⟨rfl, ?_, h0, ?_⟩
      · generalize hx : (1 : Fp) / w = x at *
        dsimp only
        rw [psqrt_sq h1, ← hx, div_mul_cancel₀ _ h0]
      · rw [one_div] at h1
        have := h1.inv
        rwa [inv_inv] at this
    · rw [if_neg h1]
      right
      refine ⟨rfl, Or.inr fun h => h1 ?_⟩
      rw [one_div]; exact h.inv

theorem abs_pos' (x : Fp) : Pos (if Pos x then x else -x) := by
  by_cases h : Pos x
  · rw [if_pos h]; exact h
  · rw [if_neg h]; exact (pos_or_neg x).resolve_left h

theorem abs_sq (x : Fp) : (if Pos x then x else -x) * (if Pos x then x else -x) = x * x := by
  by_cases h : Pos x
  · rw [if_pos h]
  · rw [if_neg h, neg_mul_neg]

theorem decZ_some {s x y : Fp} (hs : Pos s) (h : decZ s = some (x, y)) :
    ∃ A : E, A.x = x ∧ A.y = y ∧ Canonical A ∧ EncOf s A := by
  unfold decZ at h
  dsimp only at h
  have hr := sqrtRatio_one ((-(dZ * ((1 - s * s) * (1 - s * s))) - (1 + s * s) * (1 + s * s)) *
    ((1 + s * s) * (1 + s * s)))
  generalize Field.sqrtRatioZ 1 _ = r at h hr
  obtain ⟨ok, I⟩ := r
  dsimp only at h hr
  cases ok
  · rw [if_pos rfl] at h; exact absurd h (by simp)
  rw [if_neg (by decide)] at h
  obtain ⟨_, hI, hw0, hwS⟩ | ⟨h, _⟩ := hr
  swap
  · exact absurd h (by decide)
  generalize hX : (if Pos ((s + s) * (I * (1 + s * s))) then _ else _ : Fp) = X at h
  generalize hY : (1 - s * s) * _ = Y at h
  split at h
  · exact absurd h (by simp)
  rename_i hcond
  have e := Option.some.inj h
  have ex : X = x := congrArg Prod.fst e
  have ey : Y = y := congrArg Prod.snd e
  subst ex ey
  have hXp : Pos X := by rw [← hX]; exact abs_pos' _
  have hXs : X * X = (s + s) * (I * (1 + s * s)) * ((s + s) * (I * (1 + s * s))) := by
    rw [← hX]; exact abs_sq _
  have hu2 : 1 + s * s ≠ 0 := fun h0 => hw0 (by rw [h0]; ring)
  have hv : -(dZ * ((1 - s * s) * (1 - s * s))) - (1 + s * s) * (1 + s * s) ≠ 0 :=
    fun h0 => hw0 (by rw [h0]; ring)
  have hy2 : Y * (1 + s * s) = 1 - s * s := by
    rw [← hY]
    linear_combination (1 - s * s) * hI
  have hxv : X * X * (-(dZ * ((1 - s * s) * (1 - s * s))) - (1 + s * s) * (1 + s * s)) = 4 * (s * s) := by
    rw [hXs]; linear_combination 4 * (s * s) * hI
  have hdy : (1 + dZ * (Y * Y)) * ((1 + s * s) * (1 + s * s)) =
      -(-(dZ * ((1 - s * s) * (1 - s * s))) - (1 + s * s) * (1 + s * s)) := by
    linear_combination dZ * (Y * (1 + s * s) + (1 - s * s)) * hy2
  have hon : X * X = xxOf Y := by
    unfold xxOf
    rw [eq_div_iff (dy_ne Y)]
    apply mul_right_cancel₀ (mul_ne_zero hu2 hu2)
    generalize dZ = d at *
    linear_combination X * X * hdy - hxv - (Y * (1 + s * s) + (1 - s * s)) * hy2
  have h2 : (1 + Y) * (1 + s * s) = 2 := by linear_combination hy2
  refine ⟨⟨X, Y, xxOf_on hon⟩, rfl, rfl, ⟨?_, hXp, ?_, ?_, ?_⟩, ⟨hs, ?_⟩⟩
  · rw [inEven_iff]
    dsimp only
    rw [← square_mul_left hwS hw0]
    have : (-(dZ * ((1 - s * s) * (1 - s * s))) - (1 + s * s) * (1 + s * s)) * ((1 + s * s) * (1 + s * s)) *
        (1 + dZ * Y ^ 2) = -((-(dZ * ((1 - s * s) * (1 - s * s))) - (1 + s * s) * (1 + s * s)) *
        (-(dZ * ((1 - s * s) * (1 - s * s))) - (1 + s * s) * (1 + s * s))) := by
      generalize (-(dZ * ((1 - s * s) * (1 - s * s))) - (1 + s * s) * (1 + s * s)) = v at *
      linear_combination v * hdy
    rw [this, square_neg]
    exact ⟨_, rfl⟩
  · by_contra h0; exact hcond (Or.inl h0)
  · exact fun h0 => hcond (Or.inr h0)
  · dsimp only
    intro h0
    rw [h0, zero_mul] at h2
    exact Field.two_ne_zero' h2.symm
  · dsimp only
    apply mul_right_cancel₀ hu2
    linear_combination (1 + s * s) * hy2

theorem decZ_of {s : Fp} {A : E} (hA : Canonical A) (h : EncOf s A) : decZ s = some (A.x, A.y) := by
  have he := h.eq
  have h2 : (1 + s * s) * (1 + A.y) = 2 := by linear_combination he
  have hu2 : 1 + s * s ≠ 0 := by
    intro h0; rw [h0, zero_mul] at h2; exact Field.two_ne_zero' h2.symm
  have hu1 : 1 - s * s = A.y * (1 + s * s) := by
    apply mul_right_cancel₀ hA.y1
    linear_combination -(1 + A.y) * he
  have hvv : (-(dZ * ((1 - s * s) * (1 - s * s))) - (1 + s * s) * (1 + s * s)) =
      -((1 + dZ * A.y ^ 2) * ((1 + s * s) * (1 + s * s))) := by
    rw [hu1]; ring
  have hwS : IsSquare ((-(dZ * ((1 - s * s) * (1 - s * s))) - (1 + s * s) * (1 + s * s)) *
      ((1 + s * s) * (1 + s * s))) := by
    rw [hvv, neg_mul, square_neg]
    exact (((inEven_iff A).1 hA.even).mul ⟨_, rfl⟩).mul ⟨_, rfl⟩
  have hw0 : (-(dZ * ((1 - s * s) * (1 - s * s))) - (1 + s * s) * (1 + s * s)) *
      ((1 + s * s) * (1 + s * s)) ≠ 0 := by
    rw [hvv]
    exact mul_ne_zero (neg_ne_zero.2 (mul_ne_zero (one_add_dy_ne A) (mul_ne_zero hu2 hu2)))
      (mul_ne_zero hu2 hu2)
  unfold decZ
  dsimp only
  have hr := sqrtRatio_one ((-(dZ * ((1 - s * s) * (1 - s * s))) - (1 + s * s) * (1 + s * s)) *
    ((1 + s * s) * (1 + s * s)))
  generalize Field.sqrtRatioZ 1 _ = r at hr ⊢
  obtain ⟨ok, I⟩ := r
  dsimp only at hr ⊢
  obtain ⟨hok, hI, _, _⟩ | ⟨_, h | h⟩ := hr
  rotate_left
  · exact absurd h hw0
  · exact absurd hwS h
  subst hok
  rw [if_neg (by decide)]
  have hY : (1 - s * s) * (I * (I * (1 + s * s)) *
      (-(dZ * ((1 - s * s) * (1 - s * s))) - (1 + s * s) * (1 + s * s))) = A.y := by
    generalize (-(dZ * ((1 - s * s) * (1 - s * s))) - (1 + s * s) * (1 + s * s)) = v at *
    linear_combination A.y * hI + I * (I * (1 + s * s)) * v * hu1
  have hX : (if Pos ((s + s) * (I * (1 + s * s))) then (s + s) * (I * (1 + s * s))
      else -((s + s) * (I * (1 + s * s)))) = A.x := by
    apply pos_unique (abs_pos' _) hA.px
    rw [abs_sq]
    have hx := x_sq_eq A
    have hv0 := (mul_ne_zero_iff.1 hw0).1
    apply mul_right_cancel₀ hv0
    have h4 : 4 * (s * s) = -(A.y ^ 2 - 1) * ((1 + s * s) * (1 + s * s)) := by
      linear_combination (-(1 - s * s) - A.y * (1 + s * s)) * hu1
    generalize hv : (-(dZ * ((1 - s * s) * (1 - s * s))) - (1 + s * s) * (1 + s * s)) = v at *
    linear_combination 4 * (s * s) * hI + h4 - A.x * A.x * hvv + ((1 + s * s) * (1 + s * s)) * hx
  rw [hX, hY, if_neg]
  rintro (h0 | h0)
  · exact h0 hA.pt
  · exact hA.y0 h0

end Zerocaf
