import Verif.Proof.Classes

/-!
# Ristretto encoding of curve points that are not doubles
-/

set_option exponentiation.threshold 600

namespace Zerocaf

attribute [local irreducible] psqrt

/-- The representative of a class of points that are not doubles on which the encoding ends. -/
structure OddCanonical (A : E) : Prop where
  odd : ¬ InEven A
  px : Pos (Field.iZ * A.x)
  pt : Pos (Field.iZ * (A.x * A.y))

/-- `s` is what the encoding gives for the point `A`. -/
structure OddEncOf (s : Fp) (A : E) : Prop where
  ps : Pos s
  eq : s * s * (1 + A.y) = Field.iZ * (1 - A.y)

theorem odd_xy {A : E} (h : ¬ InEven A) : A.x ≠ 0 ∧ A.y ≠ 0 := by
  have key : ¬ (A.x = 0 ∨ A.y = 0) := by
    intro h0
    rw [← four_torsion_iff] at h0
    apply h
    have : SameClass A 0 := by rw [SameClass, sub_zero]; exact h0
    exact this.symm.even inEven_zero
  exact ⟨fun e => key (Or.inl e), fun e => key (Or.inr e)⟩

theorem SameClass.odd {A B : E} (h : SameClass A B) (hA : ¬ InEven A) : ¬ InEven B :=
  fun hB => hA (h.symm.even hB)

theorem odd_y1 {A : E} (h : ¬ InEven A) : 1 + A.y ≠ 0 := by
  intro h1
  apply (odd_xy h).1
  have hs := x_sq_eq A
  have : A.x ^ 2 = 0 := by
    apply (mul_eq_zero.1 (show A.x ^ 2 * (1 + dZ * A.y ^ 2) = 0 by
      rw [hs]; linear_combination (A.y - 1) * h1)).resolve_right (one_add_dy_ne A)
  exact pow_eq_zero_iff (two_ne_zero) |>.1 this

theorem OddCanonical.unique {A B : E} (hA : OddCanonical A) (hB : OddCanonical B) (h : SameClass A B) :
    B = A := by
  obtain ⟨x0, y0⟩ := odd_xy hA.odd
  have i0 := Field.iZ_ne
  have hxy : Field.iZ * (A.x * A.y) ≠ 0 := mul_ne_zero i0 (mul_ne_zero x0 y0)
  rcases class_cases h with e | e | e | e
  · exact e
  · have h1 := hB.px
    rw [e, flipPt_x, mul_neg] at h1
    exact absurd (pos_and_neg hA.px h1) (mul_ne_zero i0 x0)
  · have h1 := hB.pt
    rw [e, rotPt_x, rotPt_y, show Field.iZ * (Field.iZ * A.y * (Field.iZ * A.x)) =
      -(Field.iZ * (A.x * A.y)) by linear_combination (Field.iZ * (A.x * A.y)) * Field.iZ_sq] at h1
    exact absurd (pos_and_neg hA.pt h1) hxy
  · have h1 := hB.pt
    rw [e, flipPt_x, flipPt_y, rotPt_x, rotPt_y, show Field.iZ * (-(Field.iZ * A.y) * -(Field.iZ * A.x)) =
      -(Field.iZ * (A.x * A.y)) by linear_combination (Field.iZ * (A.x * A.y)) * Field.iZ_sq] at h1
    exact absurd (pos_and_neg hA.pt h1) hxy

theorem OddEncOf.s_unique {s t : Fp} {A : E} (h : OddEncOf s A) (g : OddEncOf t A) (h1 : 1 + A.y ≠ 0) :
    s = t := by
  apply pos_unique h.ps g.ps
  apply mul_right_cancel₀ h1
  rw [h.eq, g.eq]

theorem OddEncOf.A_unique {s : Fp} {A B : E} (h : OddEncOf s A) (g : OddEncOf s B) (hA : OddCanonical A)
    (hB : OddCanonical B) : A = B := by
  have hs : Field.iZ + s * s ≠ 0 := by
    intro h0
    have e : s * s = -Field.iZ := by linear_combination h0
    have h1 := h.eq
    rw [e] at h1
    exact mul_ne_zero Field.two_ne_zero' Field.iZ_ne (by linear_combination -h1)
  have hy : A.y = B.y := by
    apply mul_left_cancel₀ hs
    have h1 := h.eq
    have h2 := g.eq
    linear_combination h1 - h2
  rcases same_y hy with e | e
  · exact e.symm
  · have h1 := hB.px
    rw [e, EdCurve.Pt.neg_x, mul_neg] at h1
    exact absurd (pos_and_neg hA.px h1) (mul_ne_zero Field.iZ_ne (odd_xy hA.odd).1)

theorem sqrtRatio_one_nonsquare {w : Fp} (h0 : w ≠ 0) (h : ¬ IsSquare w) :
    (Field.sqrtRatioZ 1 w).2 * (Field.sqrtRatioZ 1 w).2 * w = Field.iZ := by
  have h1 : ¬ IsSquare (1 / w) := by
    intro h1
    rw [one_div] at h1
    have := h1.inv
    rw [inv_inv] at this
    exact h this
  have hs := psqrt_sq (Field.iZ_mul_square h1)
  unfold Field.sqrtRatioZ
  rw [if_neg one_ne_zero, if_neg h0, if_neg h1]
  dsimp only
  rw [hs, mul_assoc, div_mul_cancel₀ _ h0, mul_one]

theorem encFin_odd {B : E} {Z zi x y D : Fp} (hz : Z ≠ 0) (hx : x = B.x * Z) (hy : y = B.y * Z)
    (hzi : zi * Z = Field.iZ) (he : ¬ InEven B) (hp : Pos (Field.iZ * (B.x * B.y)))
    (hD : D * D * ((Z - y) * (Z + y)) = Field.iZ) :
    ∃ A', SameClass B A' ∧ OddCanonical A' ∧ OddEncOf (encFin Z zi x y D) A' := by
  have hxz : x * zi = Field.iZ * B.x := by rw [hx]; linear_combination B.x * hzi
  unfold encFin
  rw [hxz]
  dsimp only
  by_cases hB : Pos (Field.iZ * B.x)
  · refine ⟨B, SameClass.refl B, ⟨he, hB, hp⟩, ⟨abs_pos' _, ?_⟩⟩
    rw [abs_sq, if_pos hB]
    apply mul_right_cancel₀ hz
    rw [hy] at hD ⊢
    linear_combination (Z - B.y * Z) * hD
  · refine ⟨flipPt B, flip_same B, ⟨(flip_same B).odd he, ?_, ?_⟩, ⟨abs_pos' _, ?_⟩⟩
    · rw [flipPt_x, mul_neg]; exact (pos_or_neg _).resolve_left hB
    · rw [flipPt_x, flipPt_y, neg_mul_neg]; exact hp
    · rw [abs_sq, if_neg hB, flipPt_y]
      apply mul_right_cancel₀ hz
      rw [hy] at hD ⊢
      linear_combination (Z + B.y * Z) * hD

theorem encZ_odd {A : E} {Z : Fp} (hz : Z ≠ 0) (hA : ¬ InEven A) :
    ∃ A', SameClass A A' ∧ OddCanonical A' ∧
      OddEncOf (encZ (A.x * Z) (A.y * Z) Z (A.x * A.y * Z)) A' := by
  obtain ⟨hx0, hy0⟩ := odd_xy hA
  have hon := on_fact A
  have hxs := x_sq_eq A
  have hw : (Z + A.y * Z) * (Z - A.y * Z) * (A.x * Z * (A.y * Z) * (A.x * Z * (A.y * Z))) =
      -((1 + dZ * A.y ^ 2) * ((A.x * A.x * A.y * Z ^ 3) * (A.x * A.x * A.y * Z ^ 3))) := by
    linear_combination Z ^ 6 * (A.x * A.y) ^ 2 * hxs
  have hk : A.x * A.x * A.y * Z ^ 3 ≠ 0 :=
    mul_ne_zero (mul_ne_zero (mul_ne_zero hx0 hx0) hy0) (pow_ne_zero 3 hz)
  have hwS : ¬ IsSquare ((Z + A.y * Z) * (Z - A.y * Z) *
      (A.x * Z * (A.y * Z) * (A.x * Z * (A.y * Z)))) := by
    rw [hw, square_neg, mul_comm (1 + dZ * A.y ^ 2), square_mul_left ⟨_, rfl⟩ (mul_ne_zero hk hk), ← inEven_iff]
    exact hA
  have hw0 : (Z + A.y * Z) * (Z - A.y * Z) * (A.x * Z * (A.y * Z) * (A.x * Z * (A.y * Z))) ≠ 0 := by
    intro h; rw [h] at hwS; exact hwS ⟨0, by ring⟩
  unfold encZ
  dsimp only
  have hI := sqrtRatio_one_nonsquare hw0 hwS
  generalize (Field.sqrtRatioZ 1 _).2 = I at hI ⊢
  generalize hzi : (Z + A.y * Z) * (Z - A.y * Z) * I * (A.x * Z * (A.y * Z) * I) * (A.x * A.y * Z) = zi
  have hziZ : zi * Z = Field.iZ := by rw [← hzi]; linear_combination hI
  have htz : A.x * A.y * Z * zi = Field.iZ * (A.x * A.y) := by linear_combination A.x * A.y * hziZ
  rw [htz]
  by_cases hp : Pos (Field.iZ * (A.x * A.y))
  · rw [if_pos hp]
    apply encFin_odd hz rfl rfl hziZ hA hp
    linear_combination hI
  · rw [if_neg hp]
    obtain ⟨A', h1, h2, h3⟩ := encFin_odd (B := rotPt A) (Z := Z) (zi := zi)
      (x := Field.iZ * (A.y * Z)) (y := Field.iZ * (A.x * Z))
      (D := (Z + A.y * Z) * (Z - A.y * Z) * I * wZ) hz
      (by rw [rotPt_x]; ring) (by rw [rotPt_y]; ring) hziZ ((rot_same A).odd hA)
      (by
        rw [rotPt_x, rotPt_y, show Field.iZ * (Field.iZ * A.y * (Field.iZ * A.x)) =
          -(Field.iZ * (A.x * A.y)) by linear_combination (Field.iZ * (A.x * A.y)) * Field.iZ_sq]
        exact (pos_or_neg _).resolve_left hp)
      (by
        have hw := wZ_sq
        have hi := Field.iZ_sq
        generalize wZ = w at *
        generalize Field.iZ = i at *
        generalize dZ = d at *
        have e1 : (Z - i * (A.x * Z)) * (Z + i * (A.x * Z)) = Z ^ 2 * (1 + A.x ^ 2) := by
          linear_combination -(A.x * Z) ^ 2 * hi
        have e2 : (1 + A.x ^ 2) * (1 - A.y ^ 2) = (A.x * A.y) ^ 2 * (-1 - d) := by
          linear_combination -hon
        rw [e1]
        linear_combination i * hw + (w * w * (-1 - d)) * hI +
          (I * I * w * w * (1 - A.y ^ 2) * Z ^ 6) * e2)
    exact ⟨A', (rot_same A).trans h1, h2, h3⟩

namespace Ristretto

/-- Encoding a point that is not a double. -/
theorem compress_rep_odd (c : Cfg) (hc : c.Enough) {P : EdPoint} {A : E} (h : P.Rep A) (hA : ¬ InEven A) :
    ∃ A' s, SameClass A A' ∧ OddCanonical A' ∧ OddEncOf s A' ∧
      compress c P = .ok (Field.toBytes (enc s)) := by
  obtain ⟨Z, hz, rfl⟩ := h.form
  obtain ⟨A', h1, h2, h3⟩ := encZ_odd hz hA
  exact ⟨A', _, h1, h2, h3, compress_enc c hc _ _ _ _⟩

theorem toBytes_enc_inj {s t : Fp} (h : Field.toBytes (enc s) = Field.toBytes (enc t)) : s = t := by
  have := congrArg Field.fromBytes h
  rw [Field.fromBytes_toBytes _ (enc_WF _) (Field.canon_lt256 (enc_canon _)),
    Field.fromBytes_toBytes _ (enc_WF _) (Field.canon_lt256 (enc_canon _)), enc_inj] at this
  exact this

/-- Encoding the chosen representative. -/
theorem compress_of_odd (c : Cfg) (hc : c.Enough) {P : EdPoint} {A : E} {s : Fp} (h : P.Rep A)
    (hA : OddCanonical A) (hs : OddEncOf s A) : compress c P = .ok (Field.toBytes (enc s)) := by
  obtain ⟨A', t, h1, h2, h3, e⟩ := compress_rep_odd c hc h hA.odd
  have := hA.unique h2 h1
  subst this
  rw [e, h3.s_unique hs (odd_y1 hA.odd)]

/-- Encoding the chosen representative of an even class. -/
theorem compress_of_even (c : Cfg) (hc : c.Enough) {P : EdPoint} {A : E} {s : Fp} (h : P.Rep A)
    (hA : Canonical A) (hs : EncOf s A) : compress c P = .ok (Field.toBytes (enc s)) := by
  obtain ⟨A', t, h1, h2, h3, e⟩ := compress_rep c hc h hA.even
  have := hA.unique h2 h1
  subst this
  rw [e, h3.s_unique hs hA.y1]

end Ristretto

/-! ### Two points -/

theorem iZ_nat : Field.iZ = ((3034649101460298094273452163494570791663566989388331537498831373842135895065 : ℕ) : Fp) := by
  have : Field.SQRT_MINUS_ONE.val =
    3034649101460298094273452163494570791663566989388331537498831373842135895065 := by decide +kernel
  unfold Field.iZ L5.toZ
  rw [this]

def ox4 : Nat := 1933270306424916482046151337112529593946212334348621630169458532189660150717
def oy4 : Nat := 603131579242753450305587399751635094397241535157454747268397709997011605641

/-- A point that is not a double, encoded as 4. -/
def odd4 : E := ptOfNat ox4 oy4 (by decide +kernel)

def ox10 : Nat := 445348972514174973873348621483135197283974941508279109520687491686288043807
def oy10 : Nat := 5529145182300966420342971831778304333215672605310631745431107840755084986874

/-- A point that is not a double, encoded as 10. -/
def odd10 : E := ptOfNat ox10 oy10 (by decide +kernel)

def ex10 : Nat := 3130670179863725706685400179643070732775945923519987665894889900826014785959
def ey10 : Nat := 4012597151788184989925727203271363143445529862626483425109992599445400376785

/-- A double, encoded as 10. -/
def even10 : E := ptOfNat ex10 ey10 (by decide +kernel)

theorem nonsquare_nat (n : Nat) (h : Primality.powMod 260 p n (p / 2) = p - 1) : ¬ IsSquare (n : Fp) := by
  intro hs
  rw [← Field.pow_half_ne_neg_one, Field.pow_facts _ (p / 2) (by decide)] at hs
  apply hs
  rw [h, Nat.cast_sub (by decide), ZMod.natCast_self, Nat.cast_one, zero_sub]

theorem odd_of_nat (x y : Nat) (h) (hp : Primality.powMod 260 p (1 + dNat * (y * y)) (p / 2) = p - 1) :
    ¬ InEven (ptOfNat x y h) := by
  rw [inEven_iff]
  have e : 1 + dZ * (ptOfNat x y h).y ^ 2 = ((1 + dNat * (y * y) : ℕ) : Fp) := by
    show 1 + dZ * (y : Fp) ^ 2 = _
    rw [dZ_eq]; push_cast; ring
  rw [e]
  exact nonsquare_nat _ hp

theorem pos_nat {n : Nat} (h : 2 * (n % p) ≤ p - 1) : Pos (n : Fp) := by
  unfold Pos; rw [ZMod.val_natCast]; exact h

theorem odd4_canonical : OddCanonical odd4 := by
  refine ⟨odd_of_nat _ _ _ (by decide +kernel), ?_, ?_⟩
  · rw [iZ_nat, show odd4.x = (ox4 : Fp) from rfl, ← Nat.cast_mul]
    exact pos_nat (by decide +kernel)
  · rw [iZ_nat, show odd4.x = (ox4 : Fp) from rfl, show odd4.y = (oy4 : Fp) from rfl, ← Nat.cast_mul,
      ← Nat.cast_mul]
    exact pos_nat (by decide +kernel)

theorem odd10_canonical : OddCanonical odd10 := by
  refine ⟨odd_of_nat _ _ _ (by decide +kernel), ?_, ?_⟩
  · rw [iZ_nat, show odd10.x = (ox10 : Fp) from rfl, ← Nat.cast_mul]
    exact pos_nat (by decide +kernel)
  · rw [iZ_nat, show odd10.x = (ox10 : Fp) from rfl, show odd10.y = (oy10 : Fp) from rfl, ← Nat.cast_mul,
      ← Nat.cast_mul]
    exact pos_nat (by decide +kernel)

theorem nat_eq {a b : Nat} (h : a % p = b % p) : (a : Fp) = (b : Fp) :=
  (ZMod.natCast_eq_natCast_iff' _ _ p).2 h

theorem odd4_enc : OddEncOf ((4 : ℕ) : Fp) odd4 := by
  refine ⟨pos_nat (by decide +kernel), ?_⟩
  have h := nat_eq (a := 16 * (1 + oy4) +
      3034649101460298094273452163494570791663566989388331537498831373842135895065 * oy4)
    (b := 3034649101460298094273452163494570791663566989388331537498831373842135895065) (by decide +kernel)
  rw [iZ_nat, show odd4.y = (oy4 : Fp) from rfl]
  push_cast at h ⊢
  linear_combination h

theorem odd10_enc : OddEncOf ((10 : ℕ) : Fp) odd10 := by
  refine ⟨pos_nat (by decide +kernel), ?_⟩
  have h := nat_eq (a := 100 * (1 + oy10) +
      3034649101460298094273452163494570791663566989388331537498831373842135895065 * oy10)
    (b := 3034649101460298094273452163494570791663566989388331537498831373842135895065) (by decide +kernel)
  rw [iZ_nat, show odd10.y = (oy10 : Fp) from rfl]
  push_cast at h ⊢
  linear_combination h

theorem even10_canonical : Canonical even10 := by
  have hy : even10.y = (ey10 : Fp) := rfl
  have hx : even10.x = (ex10 : Fp) := rfl
  refine ⟨?_, ?_, ?_, ?_, ?_⟩
  · rw [inEven_iff, hy]
    refine ⟨((2331805501296566065490732449786720723681638677454226950010760546822310840711 : ℕ) : Fp), ?_⟩
    have h := nat_eq (a := 1 + dNat * (ey10 * ey10))
      (b := 2331805501296566065490732449786720723681638677454226950010760546822310840711 *
        2331805501296566065490732449786720723681638677454226950010760546822310840711) (by decide +kernel)
    simp only [Nat.cast_mul, Nat.cast_add, Nat.cast_one, ← dZ_eq] at h
    linear_combination h
  · rw [hx]; exact pos_nat (by decide +kernel)
  · rw [hx, hy, ← Nat.cast_mul]; exact pos_nat (by decide +kernel)
  · rw [hy, Ne, ZMod.natCast_eq_zero_iff]; decide +kernel
  · rw [hy, ← Nat.cast_one, ← Nat.cast_add, Ne, ZMod.natCast_eq_zero_iff]; decide +kernel

theorem even10_enc : EncOf ((10 : ℕ) : Fp) even10 := by
  refine ⟨pos_nat (by decide +kernel), ?_⟩
  have h := nat_eq (a := 100 * (1 + ey10) + ey10) (b := 1) (by decide +kernel)
  rw [show even10.y = (ey10 : Fp) from rfl]
  push_cast at h ⊢
  linear_combination h

/-- 4 is not the encoding of any double. -/
theorem four_not_enc {A : E} (hA : Canonical A) : ¬ EncOf ((4 : ℕ) : Fp) A := by
  intro h
  have h1 := h.eq
  have hs := (inEven_iff A).1 hA.even
  have e : (17 : Fp) * 17 * (1 + dZ * A.y ^ 2) = ((289 + dNat * 225 : ℕ) : Fp) := by
    have h2 : 17 * A.y = -15 := by push_cast at h1; linear_combination h1
    push_cast
    rw [← dZ_eq]
    linear_combination dZ * (17 * A.y - 15) * h2
  have : IsSquare ((289 + dNat * 225 : ℕ) : Fp) := by rw [← e]; exact IsSquare.mul ⟨17, rfl⟩ hs
  exact nonsquare_nat _ (by decide +kernel) this

end Zerocaf
