import Verif.Proof.Compress
import Verif.Model.Ristretto
import Verif.Spec.Ristretto

/-!
# The even subgroup and the 4-torsion
-/

set_option exponentiation.threshold 600

namespace Zerocaf

/-! ### Squares -/

theorem neg_one_square : IsSquare (-1 : Fp) := ⟨Field.iZ, Field.iZ_sq.symm⟩

theorem square_neg {a : Fp} : IsSquare (-a) ↔ IsSquare a := by
  constructor <;> intro h
  · have := neg_one_square.mul h
    rwa [neg_mul_neg, one_mul] at this
  · have := neg_one_square.mul h
    rwa [neg_mul, one_mul] at this

theorem nonsquare_mul {a b : Fp} (ha : ¬ IsSquare a) (hb : ¬ IsSquare b) : IsSquare (a * b) := by
  have := (Field.iZ_mul_square ha).mul (Field.iZ_mul_square hb)
  have e : Field.iZ * a * (Field.iZ * b) = -(a * b) := by linear_combination a * b * Field.iZ_sq
  rw [e] at this
  exact square_neg.1 this

theorem square_mul_left {a b : Fp} (ha : IsSquare a) (h0 : a ≠ 0) : IsSquare (a * b) ↔ IsSquare b := by
  constructor
  · intro h
    have := h.div ha
    rwa [mul_div_cancel_left₀ _ h0] at this
  · exact fun h => ha.mul h

theorem square_triple {a b c : Fp} (ha : a ≠ 0) (hb : b ≠ 0) (hc : c ≠ 0) (h : IsSquare (a * (b * c))) :
    IsSquare a ↔ (IsSquare b ↔ IsSquare c) := by
  by_cases h1 : IsSquare b
  · by_cases h2 : IsSquare c
    · have := h.div (h1.mul h2)
      rw [mul_div_cancel_right₀ _ (mul_ne_zero hb hc)] at this
      simp [h1, h2, this]
    · simp only [h1, h2, iff_false, not_true_eq_false]
      intro h3
      apply h2
      have := h.div (h3.mul h1)
      have e : a * (b * c) / (a * b) = c := by field_simp
      rwa [e] at this
  · by_cases h2 : IsSquare c
    · simp only [h1, h2, iff_true, iff_false]
      intro h3
      apply h1
      have := h.div (h3.mul h2)
      have e : a * (b * c) / (a * c) = b := by field_simp
      rwa [e] at this
    · have h3 := nonsquare_mul h1 h2
      have := h.div h3
      rw [mul_div_cancel_right₀ _ (mul_ne_zero hb hc)] at this
      simp [h1, h2, this]

/-! ### The even subgroup -/

/-- `INV_SQRT_A_MINUS_D` as a residue. -/
def wZ : Fp := Ristretto.INV_SQRT_A_MINUS_D.toZ

theorem INV_SQRT_enc : Ristretto.INV_SQRT_A_MINUS_D = enc wZ := (L5.Canon.enc (by decide)).symm

theorem wZ_sq : wZ * wZ * (-1 - dZ) = 1 := by
  have h : (Ristretto.INV_SQRT_A_MINUS_D.val * Ristretto.INV_SQRT_A_MINUS_D.val *
      (2 * p - 1 - dNat)) % p = 1 % p := by decide +kernel
  have h2 := (ZMod.natCast_eq_natCast_iff' _ _ p).2 h
  rw [Nat.cast_mul, Nat.cast_mul, Nat.cast_sub (by decide), Nat.cast_sub (by decide), Nat.cast_mul,
    ZMod.natCast_self, Nat.cast_one, mul_zero, zero_sub, ← dZ_eq] at h2
  exact h2

/-- `SQRT_AD_MINUS_ONE` as a residue. -/
def qZ : Fp := Ristretto.SQRT_AD_MINUS_ONE.toZ

theorem SQRT_AD_enc : Ristretto.SQRT_AD_MINUS_ONE = enc qZ := (L5.Canon.enc (by decide)).symm

theorem qZ_sq : qZ * qZ = -1 - dZ := by
  have h : (Ristretto.SQRT_AD_MINUS_ONE.val * Ristretto.SQRT_AD_MINUS_ONE.val) % p =
      (2 * p - 1 - dNat) % p := by decide +kernel
  have h2 := (ZMod.natCast_eq_natCast_iff' _ _ p).2 h
  rw [Nat.cast_mul, Nat.cast_sub (by decide), Nat.cast_sub (by decide), Nat.cast_mul,
    ZMod.natCast_self, Nat.cast_one, mul_zero, zero_sub, ← dZ_eq] at h2
  exact h2

theorem one_add_d_ne : 1 + dZ ≠ 0 := by
  have := wZ_sq
  intro h
  rw [show -1 - dZ = -(1 + dZ) by ring, h, neg_zero, mul_zero] at this
  exact zero_ne_one this

theorem one_add_d_square : IsSquare (1 + dZ) :=
  square_neg.1 ⟨qZ, by rw [qZ_sq]; ring⟩

/-- Whether `1 + d y^2` is a square multiplies along the group law. -/
theorem even_add (A B : E) : IsSquare (1 + dZ * (A + B).y ^ 2) ↔
    (IsSquare (1 + dZ * A.y ^ 2) ↔ IsSquare (1 + dZ * B.y ^ 2)) := by
  apply square_triple (one_add_dy_ne _) (one_add_dy_ne _) (one_add_dy_ne _)
  obtain ⟨_, hk, _, hy⟩ := add_facts A B
  have h1 := x_sq_eq A
  have h2 := x_sq_eq B
  have h3 : (1 + dZ * (A + B).y ^ 2) * ((1 + dZ * A.y ^ 2) * (1 + dZ * B.y ^ 2)) =
      (1 + dZ) * ((1 + dZ * A.y ^ 2 * B.y ^ 2) / (1 - dZ * A.x * B.x * A.y * B.y)) ^ 2 := by
    rw [div_pow, ← mul_div_assoc, eq_div_iff (pow_ne_zero 2 hk)]
    generalize A + B = S at *
    generalize dZ = d at *
    linear_combination (d * (S.y * (1 - d * A.x * B.x * A.y * B.y) + (A.y * B.y + A.x * B.x)) *
      ((1 + d * A.y ^ 2) * (1 + d * B.y ^ 2))) * hy +
      (1 + d * A.y ^ 2 * B.y ^ 2) * d * (B.x ^ 2 * (1 + d * B.y ^ 2)) * h1 +
      (1 + d * A.y ^ 2 * B.y ^ 2) * d * (A.y ^ 2 - 1) * h2
  rw [h3]
  exact one_add_d_square.mul ⟨_, by rw [pow_two]⟩

theorem Gpt_not_even : ¬ IsSquare (1 + dZ * Gpt.y ^ 2) := by
  have e : 1 + dZ * Gpt.y ^ 2 = ((1 + dNat * 9 : ℕ) : Fp) := by
    have : Gpt.y = 3 := by
      have : Gpt.y = ((3 : ℕ) : Fp) := rfl
      rw [this]; norm_num
    rw [this, dZ_eq]; push_cast; ring
  intro h
  rw [e, ← Field.pow_half_ne_neg_one, Field.pow_facts _ (p / 2) (by decide)] at h
  apply h
  have h4 : Primality.powMod 260 p (1 + dNat * 9) (p / 2) = p - 1 := by decide +kernel
  rw [h4, Nat.cast_sub (by decide), ZMod.natCast_self, Nat.cast_one, zero_sub]

theorem even_mul_G (k : ℕ) : IsSquare (1 + dZ * (k • Gpt).y ^ 2) ↔ k % 2 = 0 := by
  induction k with
  | zero =>
    rw [zero_smul, EdCurve.Pt.zero_y, one_pow, mul_one]
    simp [one_add_d_square]
  | succ k ih =>
    rw [succ_nsmul, even_add, ih]
    have := Gpt_not_even
    simp only [this, iff_false]
    omega

theorem inEven_iff (A : E) : InEven A ↔ IsSquare (1 + dZ * A.y ^ 2) := by
  constructor
  · rintro ⟨B, rfl⟩
    rw [even_add]
  · intro h
    obtain ⟨k, rfl⟩ := exists_mul_G A
    rw [even_mul_G] at h
    refine ⟨(k / 2) • Gpt, ?_⟩
    rw [← add_smul]
    congr 1; omega

theorem InEven.add {A B : E} (hA : InEven A) (hB : InEven B) : InEven (A + B) := by
  obtain ⟨C, rfl⟩ := hA
  obtain ⟨D, rfl⟩ := hB
  exact ⟨C + D, by abel⟩

theorem InEven.neg {A : E} (hA : InEven A) : InEven (-A) := by
  obtain ⟨C, rfl⟩ := hA
  exact ⟨-C, by abel⟩

theorem InEven.smul {A : E} (hA : InEven A) (n : ℕ) : InEven (n • A) := by
  obtain ⟨C, rfl⟩ := hA
  exact ⟨n • C, by rw [smul_add]⟩

theorem inEven_zero : InEven 0 := ⟨0, by abel⟩

/-! ### The 4-torsion -/

theorem dbl_facts (A : E) : ((A + A).x = 0 ↔ A.x = 0 ∨ A.y = 0) ∧
    (A.x = 0 → (A + A).y = 1) ∧ (A.y = 0 → (A + A).y = -1) := by
  obtain ⟨h1, h2, hx, hy⟩ := add_facts A A
  have hon := on_fact A
  refine ⟨?_, ?_, ?_⟩
  · constructor
    · intro h
      rw [h, zero_mul] at hx
      have : (2 : Fp) * (A.x * A.y) = 0 := by linear_combination -hx
      exact mul_eq_zero.1 ((mul_eq_zero.1 this).resolve_left Field.two_ne_zero')
    · intro h
      have : (A + A).x * (1 + dZ * A.x * A.x * A.y * A.y) = 0 := by
        rw [hx]; rcases h with h | h <;> rw [h] <;> ring
      exact (mul_eq_zero.1 this).resolve_right h1
  · intro h
    rw [h] at hy hon
    linear_combination hy + hon
  · intro h
    rw [h] at hy hon
    linear_combination hy - hon

theorem eq_zero_iff (A : E) : A = 0 ↔ A.x = 0 ∧ A.y = 1 :=
  ⟨fun h => by rw [h]; exact ⟨EdCurve.Pt.zero_x, EdCurve.Pt.zero_y⟩,
    fun h => EdCurve.Pt.ext (by rw [h.1, EdCurve.Pt.zero_x]) (by rw [h.2, EdCurve.Pt.zero_y])⟩

theorem four_torsion_iff (A : E) : 4 • A = 0 ↔ A.x = 0 ∨ A.y = 0 := by
  have e : 4 • A = (A + A) + (A + A) := by abel
  obtain ⟨a1, a2, a3⟩ := dbl_facts A
  obtain ⟨b1, b2, b3⟩ := dbl_facts (A + A)
  rw [e, eq_zero_iff, b1, a1]
  constructor
  · rintro ⟨h | h, hy⟩
    · exact h
    · exfalso
      rw [b3 h] at hy
      exact Field.one_ne_neg_one hy.symm
  · intro h
    exact ⟨Or.inl h, b2 (a1.2 h)⟩

theorem SameClass.refl (A : E) : SameClass A A := by
  unfold SameClass; rw [sub_self, smul_zero]

theorem SameClass.symm {A B : E} (h : SameClass A B) : SameClass B A := by
  unfold SameClass at *; rw [← neg_sub, smul_neg, h, neg_zero]

theorem SameClass.trans {A B C : E} (h : SameClass A B) (g : SameClass B C) : SameClass A C := by
  unfold SameClass at *
  rw [show A - C = (A - B) + (B - C) by abel, smul_add, h, g, add_zero]

theorem SameClass.add {A B C D : E} (h : SameClass A B) (g : SameClass C D) : SameClass (A + C) (B + D) := by
  unfold SameClass at *
  rw [show A + C - (B + D) = (A - B) + (C - D) by abel, smul_add, h, g, add_zero]

theorem SameClass.neg {A B : E} (h : SameClass A B) : SameClass (-A) (-B) := by
  unfold SameClass at *
  rw [show -A - -B = -(A - B) by abel, smul_neg, h, neg_zero]

theorem SameClass.smul {A B : E} (h : SameClass A B) (n : ℕ) : SameClass (n • A) (n • B) := by
  unfold SameClass at *
  rw [← smul_sub, smul_comm, h, smul_zero]

/-- Points of one class in coordinates. -/
theorem sameClass_iff (A B : E) : SameClass A B ↔ A.x * B.y = A.y * B.x ∨ A.x * B.x = A.y * B.y := by
  unfold SameClass
  rw [sub_eq_add_neg, four_torsion_iff]
  obtain ⟨h1, h2, hx, hy⟩ := add_facts A (-B)
  rw [EdCurve.Pt.neg_x, EdCurve.Pt.neg_y] at *
  apply or_congr
  · constructor
    · intro h
      rw [h, zero_mul] at hx
      linear_combination -hx
    · intro h
      have : (A + -B).x * (1 + dZ * A.x * -B.x * A.y * B.y) = 0 := by rw [hx]; linear_combination h
      exact (mul_eq_zero.1 this).resolve_right h1
  · constructor
    · intro h
      rw [h, zero_mul] at hy
      linear_combination hy
    · intro h
      have : (A + -B).y * (1 - dZ * A.x * -B.x * A.y * B.y) = 0 := by rw [hy]; linear_combination -h
      exact (mul_eq_zero.1 this).resolve_right h2

/-- The point with both coordinates negated. -/
def flipPt (A : E) : E := ⟨-A.x, -A.y, by have := A.on; unfold EdCurve.On at *; linear_combination this⟩

theorem flipPt_x (A : E) : (flipPt A).x = -A.x := rfl
theorem flipPt_y (A : E) : (flipPt A).y = -A.y := rfl

theorem rot_on (A : E) : zc.On (Field.iZ * A.y) (Field.iZ * A.x) := by
  show (Field.iZ * A.x) ^ 2 - (Field.iZ * A.y) ^ 2 =
    1 + dZ * (Field.iZ * A.y) ^ 2 * (Field.iZ * A.x) ^ 2
  have h := on_fact A
  have hi := Field.iZ_sq
  generalize Field.iZ = i at *
  linear_combination h + (A.x ^ 2 - A.y ^ 2 - dZ * A.x ^ 2 * A.y ^ 2 * (i * i - 1)) * hi

/-- The point `(i y, i x)`. -/
def rotPt (A : E) : E := ⟨Field.iZ * A.y, Field.iZ * A.x, rot_on A⟩

theorem rotPt_x (A : E) : (rotPt A).x = Field.iZ * A.y := rfl
theorem rotPt_y (A : E) : (rotPt A).y = Field.iZ * A.x := rfl

theorem flip_same (A : E) : SameClass A (flipPt A) := by
  rw [sameClass_iff, flipPt_x, flipPt_y]; left; ring

theorem rot_same (A : E) : SameClass A (rotPt A) := by
  rw [sameClass_iff, rotPt_x, rotPt_y]; right; ring

/-- Two points of one class are one of the four listed. -/
theorem class_cases {A B : E} (h : SameClass A B) :
    B = A ∨ B = flipPt A ∨ B = rotPt A ∨ B = flipPt (rotPt A) := by
  have hB : B = A + (B - A) := by abel
  have hD := (four_torsion_iff _).1 h.symm
  obtain ⟨h1, h2, hx, hy⟩ := add_facts A (B - A)
  have hon := on_fact (B - A)
  rw [← hB] at hx hy
  generalize B - A = D at *
  rcases hD with h0 | h0
  · rw [h0] at hx hy hon
    have hs : D.y * D.y = 1 * 1 := by linear_combination hon
    have ex : B.x = A.x * D.y := by linear_combination hx
    have ey : B.y = A.y * D.y := by linear_combination hy
    rcases sq_eq_cases hs with e | e <;> rw [e] at ex ey
    · left; exact EdCurve.Pt.ext (by rw [ex, mul_one]) (by rw [ey, mul_one])
    · right; left
      exact EdCurve.Pt.ext (by rw [ex, flipPt_x]; ring) (by rw [ey, flipPt_y]; ring)
  · rw [h0] at hx hy hon
    have hs : D.x * D.x = Field.iZ * Field.iZ := by rw [Field.iZ_sq]; linear_combination -hon
    have ex : B.x = A.y * D.x := by linear_combination hx
    have ey : B.y = A.x * D.x := by linear_combination hy
    rcases sq_eq_cases hs with e | e <;> rw [e] at ex ey
    · right; right; left
      exact EdCurve.Pt.ext (by rw [ex, rotPt_x]; ring) (by rw [ey, rotPt_y]; ring)
    · right; right; right
      exact EdCurve.Pt.ext (by rw [ex, flipPt_x, rotPt_x]; ring) (by rw [ey, flipPt_y, rotPt_y]; ring)

theorem SameClass.even {A B : E} (h : SameClass A B) (hA : InEven A) : InEven B := by
  obtain ⟨k, hk⟩ := exists_mul_G (A - B)
  unfold SameClass at h
  rw [hk, smul_smul, mul_G_zero] at h
  have h2 : InEven (A - B) := by
    rw [hk, inEven_iff, even_mul_G]
    have : (8 : ℕ) ∣ 4 * k := dvd_trans (Dvd.intro _ rfl) h
    omega
  have := hA.add h2.neg
  rwa [show A + -(A - B) = B by abel] at this

end Zerocaf
