import Verif.Proof.Elligator

/-!
# The classes of the Ristretto group and the base point
-/

set_option exponentiation.threshold 600

namespace Zerocaf

/-- `8 G` is a multiple of the base point. -/
theorem eight_G_eq : ∃ n : ℕ, 8 • Gpt = n • Bpt := by
  obtain ⟨m, hm⟩ := exists_mul_G Bpt
  have h1 : 8 * ell ∣ ell * m := by
    rw [← mul_G_zero, mul_smul, ← hm]; exact ell_Bpt
  have h2 : (8 : ℕ) ∣ m := by
    rw [mul_comm] at h1
    exact Nat.dvd_of_mul_dvd_mul_left (by decide) h1
  obtain ⟨k, rfl⟩ := h2
  have hk : ¬ ell ∣ k := by
    intro h
    apply Bpt_ne
    rw [hm, mul_G_zero]
    exact Nat.mul_dvd_mul_left 8 h
  have hcop : Nat.Coprime k ell := ((Nat.Prime.coprime_iff_not_dvd ell_prime).2 hk).symm
  obtain ⟨n, _, hn⟩ := Nat.exists_mul_mod_eq_one_of_coprime hcop (by decide)
  refine ⟨n, ?_⟩
  rw [hm, smul_smul, show n * (8 * k) = 8 * (k * n) by ring, mul_comm 8, ← Nat.div_add_mod (k * n) ell, hn,
    add_mul, add_smul, one_mul]
  have : (ell * (k * n / ell) * 8) • Gpt = 0 := by
    rw [mul_G_zero]; exact ⟨k * n / ell, by ring⟩
  rw [this, zero_add]

/-- Every class of the even subgroup contains a multiple of the base point. -/
theorem even_class {A : E} (hA : InEven A) : ∃ k, k < ell ∧ SameClass A (k • Bpt) := by
  obtain ⟨C, rfl⟩ := hA
  obtain ⟨j, rfl⟩ := exists_mul_G C
  obtain ⟨n, hn⟩ := eight_G_eq
  refine ⟨(j * n * ((ell + 1) / 4)) % ell, Nat.mod_lt _ (by decide), ?_⟩
  have hB : ((j * n * ((ell + 1) / 4)) % ell) • Bpt = (j * n * ((ell + 1) / 4)) • Bpt := by
    conv_rhs => rw [← Nat.div_add_mod (j * n * ((ell + 1) / 4)) ell, add_smul, mul_comm ell, mul_smul,
      ell_Bpt, smul_zero, zero_add]
  unfold SameClass
  rw [hB, smul_sub, sub_eq_zero]
  have e4 : 4 * ((ell + 1) / 4) = ell + 1 := by decide
  rw [smul_smul, show 4 * (j * n * ((ell + 1) / 4)) = j * n * (4 * ((ell + 1) / 4)) by ring, e4, mul_add,
    add_smul, mul_smul (j * n) ell, ell_Bpt, smul_zero, zero_add, mul_one, mul_smul, ← hn]
  rw [← add_smul, smul_smul, smul_smul]
  congr 1; ring

/-- Different multiples of the base point are in different classes. -/
theorem mult_class {j k : ℕ} (hj : j < ell) (hk : k < ell) (h : SameClass (j • Bpt) (k • Bpt)) : j = k := by
  have key : ∀ a b : ℕ, a ≤ b → b < ell → SameClass (b • Bpt) (a • Bpt) → a = b := by
    intro a b hab hb h
    unfold SameClass at h
    have e : b • Bpt - a • Bpt = (b - a) • Bpt := by
      rw [sub_eq_iff_eq_add, ← add_smul, Nat.sub_add_cancel hab]
    rw [e, smul_smul, ← addOrderOf_dvd_iff_nsmul_eq_zero, Bpt_order] at h
    rcases (Nat.Prime.dvd_mul ell_prime).1 h with h | h
    · exact absurd (Nat.le_of_dvd (by decide) h) (by decide)
    · have := Nat.eq_zero_of_dvd_of_lt h (by omega)
      omega
  rcases le_total j k with hle | hle
  · exact key j k hle hk h.symm
  · exact (key k j hle hj h).symm

theorem Bpt_even : InEven Bpt := by
  refine ⟨((ell + 1) / 2) • Bpt, ?_⟩
  rw [← add_smul, show (ell + 1) / 2 + (ell + 1) / 2 = ell + 1 by decide, add_smul, ell_Bpt, zero_add,
    one_smul]

/-! ### The base point and its encodings -/

theorem Bpt_x : Bpt.x = (bx : Fp) := rfl
theorem Bpt_y' : Bpt.y = (by' : Fp) := rfl

theorem Bpt_pos : ¬ Pos Bpt.x ∧ Pos (Bpt.x * Bpt.y) := by
  rw [Bpt_x, Bpt_y', ← Nat.cast_mul]
  unfold Pos
  rw [ZMod.val_natCast, ZMod.val_natCast]
  decide +kernel

theorem five_ne : (5 : Fp) ≠ 0 := by
  have : ((5 : ℕ) : Fp) ≠ 0 := by
    rw [Ne, ZMod.natCast_eq_zero_iff]; decide
  exact_mod_cast this

theorem three_ne : (3 : Fp) ≠ 0 := by
  have : ((3 : ℕ) : Fp) ≠ 0 := by
    rw [Ne, ZMod.natCast_eq_zero_iff]; decide
  exact_mod_cast this

theorem Bpt_y5 : Bpt.y * 5 = 3 := by rw [Bpt_y]; exact div_mul_cancel₀ _ five_ne

theorem flipB_canonical : Canonical (flipPt Bpt) := by
  have h5 := Bpt_y5
  refine ⟨flip_even Bpt_even, ?_, ?_, ?_, ?_⟩
  · rw [flipPt_x]; exact (pos_or_neg _).resolve_left Bpt_pos.1
  · rw [flipPt_x, flipPt_y, neg_mul_neg]; exact Bpt_pos.2
  · rw [flipPt_y]
    intro h
    exact three_ne (by linear_combination -h5 - 5 * h)
  · rw [flipPt_y]
    intro h
    exact Field.two_ne_zero' (by linear_combination h5 + 5 * h)

theorem flipB_enc : EncOf 2 (flipPt Bpt) := by
  have h5 := Bpt_y5
  refine ⟨?_, ?_⟩
  · have : (2 : Fp) = ((2 : ℕ) : Fp) := by norm_num
    unfold Pos
    rw [this, ZMod.val_natCast]; decide
  · rw [flipPt_y]
    linear_combination -h5

theorem two_bytes : Field.toBytes (enc 2) = Ristretto.BASEPOINT_COMPRESSED := by
  rw [← Field.two_enc]; decide +kernel

theorem Bpt_sign : signOf Bpt = false := by
  unfold signOf
  have hx : xxOf Bpt.y = ((bx * bx : ℕ) : Fp) := by rw [← xxOf_pt, Bpt_x, Nat.cast_mul]
  have h1 : ((bx * bx : ℕ) : Fp) ^ Field.Q ≠ 1 := by
    rw [Field.pow_facts _ _ (by decide)]
    have : Primality.powMod 260 p (bx * bx) Field.Q = p - 1 := by decide +kernel
    rw [this, Nat.cast_sub (by decide), ZMod.natCast_self, Nat.cast_one, zero_sub]
    exact fun h => Field.one_ne_neg_one h.symm
  have h2 : ((bx * bx : ℕ) : Fp) ^ ((Field.Q + 1) / 2) * 6 ^ Field.Q = (bx : Fp) := by
    have e6 : (6 : Fp) = ((6 : ℕ) : Fp) := by norm_num
    rw [e6, Field.pow_facts _ _ (by decide), Field.pow_facts _ _ (by decide), ← Nat.cast_mul,
      ZMod.natCast_eq_natCast_iff']
    decide +kernel
  have h3 : Field.tsRoot ((bx * bx : ℕ) : Fp) = (bx : Fp) := by
    unfold Field.tsRoot
    rw [if_neg h1, h2]
  rw [hx, h3, Bpt_x, decide_eq_true rfl]; rfl

end Zerocaf
