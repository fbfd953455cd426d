import Verif.Proof.EncodeOdd
import Verif.Props.Ristretto

/-!
# Property C126: Ristretto points that hold a curve point which is not a double

The field of `RistrettoPoint` is public (`ristretto.rs:158`), so that any curve point can be wrapped.
The decoder and the map from bytes only give doubles; half of the curve points are not doubles.
-/

set_option exponentiation.threshold 600

namespace Zerocaf
namespace Props

open Ristretto

/-! ### C126 -/

/-- C126: encodings decode to the same group element exactly for the doubles. -/
theorem C126_round_trip_iff (c : Cfg) (hc : c.Enough) {P : EdPoint} {A : E} (h : P.Rep A) :
    (∃ b Q, Ristretto.compress c P = .ok b ∧ Ristretto.decompress c b = .ok (some Q) ∧ REq c Q P) ↔
      InEven A := by
  constructor
  · rintro ⟨b, Q, _, e, hr⟩
    rcases decompress_cases c hc b with ⟨B, s, hB, _, _, e'⟩ | ⟨e', _⟩
    · rw [e', Res.ok_inj, Option.some_inj] at e
      subst e
      rw [req_iff c (ofPt_rep B) h] at hr
      exact hr.even hB.even
    · rw [e', Res.ok_inj] at e; exact absurd e (by simp)
  · exact C60_encode_decode c hc h

/-- C126: what decodes from the encoding of a point that is not a double is another group element. -/
theorem C126_never_itself (c : Cfg) (hc : c.Enough) {P : EdPoint} {A : E} (h : P.Rep A) (hA : ¬ InEven A) :
    ∃ b, Ristretto.compress c P = .ok b ∧ (Ristretto.decompress c b = .ok none ∨
      ∃ Q B, Ristretto.decompress c b = .ok (some Q) ∧ Q.Rep B ∧ InEven B ∧ ¬ REq c Q P ∧
        Ristretto.compress c Q = .ok b) := by
  obtain ⟨b, e⟩ := C60_encode_total c hc ⟨A, h⟩
  refine ⟨b, e, ?_⟩
  rcases decompress_cases c hc b with ⟨B, s, hB, hs, hb, e'⟩ | ⟨e', _⟩
  · right
    refine ⟨ofPt B, B, e', ofPt_rep B, hB.even, ?_, ?_⟩
    · rw [req_iff c (ofPt_rep B) h]
      exact fun hr => hA (hr.even hB.even)
    · rw [compress_of_even c hc (ofPt_rep B) hB hs, hb]
  · exact Or.inl e'

/-- C126: among points that are not doubles too, equal encodings and equality coincide. -/
theorem C126_same_parity (c : Cfg) (hc : c.Enough) {P Q : EdPoint} {A B : E} (hP : P.Rep A) (hQ : Q.Rep B)
    (hAB : InEven A ↔ InEven B) :
    Ristretto.compress c P = Ristretto.compress c Q ↔ REq c P Q := by
  by_cases hA : InEven A
  · exact C61_encoding_identifies c hc hP hQ hA (hAB.1 hA)
  · have hB : ¬ InEven B := fun h => hA (hAB.2 h)
    obtain ⟨A', s, a1, a2, a3, ea⟩ := compress_rep_odd c hc hP hA
    obtain ⟨B', t, b1, b2, b3, eb⟩ := compress_rep_odd c hc hQ hB
    rw [ea, eb, Res.ok_inj, req_iff c hP hQ]
    constructor
    · intro h
      have := toBytes_enc_inj h
      subst this
      rw [a3.A_unique b3 a2 b2] at a1
      exact a1.trans b1.symm
    · intro h
      have := a2.unique b2 ((a1.symm.trans h).trans b1)
      subst this
      rw [a3.s_unique b3 (odd_y1 a2.odd)]

/-- C126: equal Ristretto points have equal encodings, whatever curve points they hold. -/
theorem C126_equal_encode_equal (c : Cfg) (hc : c.Enough) {P Q : EdPoint} (hP : P.Valid) (hQ : Q.Valid)
    (h : REq c P Q) : Ristretto.compress c P = Ristretto.compress c Q := by
  obtain ⟨A, hP⟩ := hP
  obtain ⟨B, hQ⟩ := hQ
  have hs := (req_iff c hP hQ).1 h
  exact (C126_same_parity c hc hP hQ ⟨hs.even, hs.symm.even⟩).2 h

/-- C126: no three different group elements have the same encoding. -/
theorem C126_at_most_two (c : Cfg) (hc : c.Enough) {P Q R : EdPoint} (hP : P.Valid) (hQ : Q.Valid)
    (hR : R.Valid) (h : Ristretto.compress c P = Ristretto.compress c Q)
    (g : Ristretto.compress c Q = Ristretto.compress c R) : REq c P Q ∨ REq c Q R ∨ REq c P R := by
  obtain ⟨A, hP⟩ := hP
  obtain ⟨B, hQ⟩ := hQ
  obtain ⟨C, hR⟩ := hR
  by_cases h1 : InEven A ↔ InEven B
  · exact Or.inl ((C126_same_parity c hc hP hQ h1).1 h)
  by_cases h2 : InEven B ↔ InEven C
  · exact Or.inr (Or.inl ((C126_same_parity c hc hQ hR h2).1 g))
  · exact Or.inr (Or.inr ((C126_same_parity c hc hP hR (by tauto)).1 (h.trans g)))

/-- C126: the number that a point which is not a double is encoded as. Some point `(x, y)` of its class has
`x i` and `x y i` non-negative, and the number is the non-negative root of `i (1 - y) / (1 + y)`. -/
theorem C126_value (c : Cfg) (hc : c.Enough) {P : EdPoint} {A : E} (h : P.Rep A) (hA : ¬ InEven A) :
    ∃ b B, Ristretto.compress c P = .ok b ∧ SameClass A B ∧
      2 * (B.x * Field.iZ).val ≤ p - 1 ∧ 2 * (B.x * B.y * Field.iZ).val ≤ p - 1 ∧
      2 * bytesVal b ≤ p - 1 ∧
      (bytesVal b : Fp) ^ 2 = Field.iZ * (1 - B.y) / (1 + B.y) ∧ 1 + B.y ≠ 0 := by
  obtain ⟨B, s, h1, h2, h3, e⟩ := compress_rep_odd c hc h hA
  have hb : bytesVal (Field.toBytes (enc s)) = s.val := by
    rw [Field.toBytes_spec _ (enc_WF _) (Field.canon_lt256 (enc_canon _)), enc_val]
  refine ⟨_, B, e, h1, ?_, ?_, ?_, ?_, odd_y1 h2.odd⟩
  · rw [mul_comm B.x]; exact h2.px
  · rw [mul_comm (B.x * B.y)]; exact h2.pt
  · rw [hb]; exact h3.ps
  · rw [hb, ZMod.natCast_zmod_val, eq_div_iff (odd_y1 h2.odd), pow_two, h3.eq]

/-- C126: two valid points that are different as Ristretto points, with the same encoding: the byte 10 followed by
zeros. It decodes to the second. -/
theorem C126_collision : ∃ P Q : EdPoint, P.Valid ∧ Q.Valid ∧ ∀ c : Cfg, c.Enough →
    Ristretto.compress c P = .ok ((Vector.replicate 32 0).set 0 10) ∧
    Ristretto.compress c Q = .ok ((Vector.replicate 32 0).set 0 10) ∧
    Ristretto.ctEq c P Q = .ok false ∧
    ∃ R, Ristretto.decompress c ((Vector.replicate 32 0).set 0 10) = .ok (some R) ∧ REq c R Q := by
  have hb : Field.toBytes (enc ((10 : ℕ) : Fp)) = (Vector.replicate 32 0).set 0 10 := by decide +kernel
  refine ⟨ofPt odd10, ofPt even10, ⟨_, ofPt_rep _⟩, ⟨_, ofPt_rep _⟩, fun c hc => ⟨?_, ?_, ?_, ?_⟩⟩
  · rw [← hb]; exact compress_of_odd c hc (ofPt_rep _) odd10_canonical odd10_enc
  · rw [← hb]; exact compress_of_even c hc (ofPt_rep _) even10_canonical even10_enc
  · obtain ⟨t, e, ht⟩ := C58_eq_iff c (ofPt_rep odd10) (ofPt_rep even10)
    rw [e]
    cases t
    · rfl
    · exact absurd ((ht.1 rfl).symm.even even10_canonical.even) odd10_canonical.odd
  · refine ⟨ofPt even10, ?_, ?_⟩
    · rw [← hb]; exact decompress_of c hc even10_canonical even10_enc
    · rw [req_iff c (ofPt_rep _) (ofPt_rep _)]; exact SameClass.refl _

/-- C126: a valid point whose encoding, the byte 4 followed by zeros, is rejected by the decoder. -/
theorem C126_rejected : ∃ P : EdPoint, P.Valid ∧ ∀ c : Cfg, c.Enough →
    Ristretto.compress c P = .ok ((Vector.replicate 32 0).set 0 4) ∧
    Ristretto.decompress c ((Vector.replicate 32 0).set 0 4) = .ok none := by
  have hb : Field.toBytes (enc ((4 : ℕ) : Fp)) = (Vector.replicate 32 0).set 0 4 := by decide +kernel
  refine ⟨ofPt odd4, ⟨_, ofPt_rep _⟩, fun c hc => ⟨?_, ?_⟩⟩
  · rw [← hb]; exact compress_of_odd c hc (ofPt_rep _) odd4_canonical odd4_enc
  · rw [← hb]
    rcases decompress_cases c hc (Field.toBytes (enc ((4 : ℕ) : Fp))) with ⟨A, t, hA, ht, h, _⟩ | ⟨h, _⟩
    · rw [← toBytes_enc_inj h] at ht
      exact absurd ht (four_not_enc hA)
    · exact h

/-- C126: sums and differences of two points that are not doubles have a round trip, those of a double and another
point do not. -/
theorem C126_sums (c : Cfg) (hc : c.Enough) {P Q : EdPoint} {A B : E} (hP : P.Rep A) (hQ : Q.Rep B) :
    ∃ S D, Ristretto.add c P Q = .ok S ∧ Ristretto.sub c P Q = .ok D ∧
      ((∃ b R, Ristretto.compress c S = .ok b ∧ Ristretto.decompress c b = .ok (some R) ∧ REq c R S) ↔
        (InEven A ↔ InEven B)) ∧
      ((∃ b R, Ristretto.compress c D = .ok b ∧ Ristretto.decompress c b = .ok (some R) ∧ REq c R D) ↔
        (InEven A ↔ InEven B)) := by
  obtain ⟨⟨S, e, hS⟩, ⟨D, e', hD⟩, _⟩ := C66_ops c hc hP hQ Scalar.zero (by decide) (by decide)
  refine ⟨S, D, e, e', ?_, ?_⟩
  · rw [C126_round_trip_iff c hc hS, inEven_iff, inEven_iff, inEven_iff, even_add]
  · rw [C126_round_trip_iff c hc hD, inEven_iff, inEven_iff, inEven_iff, sub_eq_add_neg, even_add,
      EdCurve.Pt.neg_y]

/-- C126: a multiple of a point that is not a double has a round trip exactly for even scalars. A rejected encoding
thus comes from an odd scalar. -/
theorem C126_multiples (c : Cfg) (hc : c.Enough) {P : EdPoint} {A : E} (hP : P.Rep A) (hA : ¬ InEven A)
    (n : Sc) (wn : n.WF) (hn : n.val < 2 ^ 256) :
    ∃ R, Ristretto.mul c P n = .ok R ∧
      ((∃ b Q, Ristretto.compress c R = .ok b ∧ Ristretto.decompress c b = .ok (some Q) ∧ REq c Q R) ↔
        n.val % 2 = 0) := by
  obtain ⟨-, -, -, -, R, e, hR⟩ := C66_ops c hc hP hP n wn hn
  refine ⟨R, e, ?_⟩
  rw [C126_round_trip_iff c hc hR]
  have hA' : ¬ IsSquare (1 + dZ * A.y ^ 2) := fun h => hA ((inEven_iff A).2 h)
  have key : ∀ k : ℕ, IsSquare (1 + dZ * (k • A).y ^ 2) ↔ k % 2 = 0 := by
    intro k
    induction k with
    | zero =>
      rw [zero_smul, EdCurve.Pt.zero_y, one_pow, mul_one]
      simp [one_add_d_square]
    | succ k ih =>
      rw [succ_nsmul, even_add, ih]
      simp only [hA', iff_false]
      omega
  rw [inEven_iff, key]

/-- C126: points that pass the validity check have a round trip. -/
theorem C126_valid_guard (c : Cfg) (hc : c.Enough) {P : EdPoint} (hP : P.Valid)
    (h : Ristretto.isValid c P = .ok true) :
    ∃ b Q, Ristretto.compress c P = .ok b ∧ Ristretto.decompress c b = .ok (some Q) ∧ REq c Q P := by
  obtain ⟨A, hP⟩ := hP
  obtain ⟨t, e, ht⟩ := C68_is_valid c hc hP
  rw [e, Res.ok_inj] at h
  rw [C126_round_trip_iff c hc hP]
  have h0 := ht.1 h
  refine ⟨((ell + 1) / 2) • A, ?_⟩
  rw [← add_smul, show (ell + 1) / 2 + (ell + 1) / 2 = ell + 1 by decide, add_smul, h0, zero_add, one_smul]

example : Ed.BASEPOINT.Valid ∧ Ristretto.isValid rel Ed.BASEPOINT = .ok true := by
  refine ⟨⟨_, BASEPOINT_rep⟩, ?_⟩
  obtain ⟨t, e, ht⟩ := C68_is_valid rel (by decide) BASEPOINT_rep
  rw [e, ht.2 ell_Bpt]

/-- C126: with all curve points wrapped there are `2 L` different Ristretto points, twice as many as encodings that
decode. -/
theorem C126_twice_as_many (c : Cfg) {P : EdPoint} (hP : P.Valid) :
    ∃! k, k < 2 * ell ∧ REq c P (ofPt (k • Gpt)) := by
  obtain ⟨A, hP⟩ := hP
  have key : ∀ j k : ℕ, SameClass (j • Gpt) (k • Gpt) ↔ j % (2 * ell) = k % (2 * ell) := by
    intro j k
    have h1 : SameClass (j • Gpt) (k • Gpt) ↔ (4 * j) • Gpt = (4 * k) • Gpt := by
      rw [SameClass, smul_sub, sub_eq_zero, ← mul_smul, ← mul_smul]
    rw [h1, nsmul_eq_nsmul_iff_modEq, Gpt_order, show 8 * ell = 4 * (2 * ell) by ring]
    exact Nat.ModEq.mul_left_cancel_iff' (by decide)
  obtain ⟨k, rfl⟩ := exists_mul_G A
  have hl : 0 < 2 * ell := by decide
  refine ⟨k % (2 * ell), ⟨Nat.mod_lt _ hl, ?_⟩, ?_⟩
  · rw [req_iff c hP (ofPt_rep _), key, Nat.mod_mod]
  · rintro j ⟨hj, h⟩
    rw [req_iff c hP (ofPt_rep _), key, Nat.mod_eq_of_lt hj] at h
    exact h.symm

/-- C126: half of the points of the curve are not doubles. -/
theorem C126_half (A : E) : InEven A ↔ ¬ InEven (A + Gpt) := by
  rw [inEven_iff, inEven_iff, even_add]
  have hG := Gpt_not_even
  generalize IsSquare (1 + dZ * Gpt.y ^ 2) = g at *
  generalize IsSquare (1 + dZ * A.y ^ 2) = a at *
  simp only [hG, iff_false, Classical.not_not]

example : (ofPt Gpt).Rep Gpt ∧ ¬ InEven Gpt := ⟨ofPt_rep _, by rw [inEven_iff]; exact Gpt_not_even⟩
example : (ofPt odd10).Rep odd10 ∧ (ofPt Gpt).Rep Gpt ∧ (InEven odd10 ↔ InEven Gpt) :=
  ⟨ofPt_rep _, ofPt_rep _, by simp [odd10_canonical.odd, inEven_iff Gpt, Gpt_not_even]⟩

end Props
end Zerocaf
