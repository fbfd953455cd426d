import Verif.Proof.Weierstrass
import Verif.Proof.Elligator
import Verif.Props.Docs

/-!
# Property C88: the Montgomery and Weierstrass forms of the curve

The README gives three equations for "the" curve. The two others are curves of Mathlib's
`WeierstrassCurve`, with the chord and tangent group law proved there; the points the library computes with
form the same group.
-/

set_option exponentiation.threshold 600

namespace Zerocaf
namespace Props

open WeierstrassCurve.Affine (Point)

/-- The Montgomery form of the README: `y^2 = x^3 + 505186 x^2 + x`. -/
def montW : WeierstrassCurve.Affine Fp := ⟨0, 505186, 0, 1, 0⟩

/-- The Weierstrass form of the README: `y^2 = x^3 + a x + b`. -/
def shortW : WeierstrassCurve.Affine Fp :=
  ⟨0, 0, 0, 7237005577332262213973186563042994240857116359379907606001950828033483786813,
    445582015604702849664⟩

/-- The constants linking the Edwards and the Montgomery form. -/
def zlink : zc.Link where
  q := qZ
  a := 505186
  q_ne := qZ_ne
  q_sq := qZ_sq
  a_eq := by
    rw [qZ_sq]
    unfold dZ
    have := c126297
    field_simp
    ring

theorem fpcast {a b : Nat} (h : a % p = b % p) : (a : Fp) = b := (ZMod.natCast_eq_natCast_iff' a b p).2 h

/-- The substitution linking the Montgomery and the Weierstrass form. -/
def zshift : Shift (505186 : Fp) 1 7237005577332262213973186563042994240857116359379907606001950828033483786813
    445582015604702849664 where
  s := 6
  r := 6062232
  s_ne := by
    have : ((6 : ℕ) : Fp) ≠ 0 := by
      rw [Ne, ZMod.natCast_eq_zero_iff]; exact Nat.not_dvd_of_pos_of_lt (by decide) (by decide)
    exact_mod_cast this
  h2 := by norm_num
  h1 := by
    have := @fpcast (7237005577332262213973186563042994240857116359379907606001950828033483786813 +
      3 * 6062232 ^ 2) (6 ^ 4 * 1) (by decide +kernel)
    exact_mod_cast this
  h0 := by
    have := @fpcast (6062232 ^ 3 +
      7237005577332262213973186563042994240857116359379907606001950828033483786813 * 6062232 +
      445582015604702849664) 0 (by decide +kernel)
    exact_mod_cast this

/-- The curve group of the library as the group of the Montgomery curve. -/
noncomputable def mont : E ≃+ montW.Point := zlink.equivW

/-- The curve group of the library as the group of the Weierstrass curve. -/
noncomputable def weier : E ≃+ shortW.Point := AddEquiv.trans (N := montW.Point) mont zshift.equiv

/-- C88: the curve of the library is isomorphic, as a group, to the Montgomery curve of the README with
Mathlib's group law, by the usual birational map `u = (1 + y)/(1 - y)`, `v = 2u/(q x)`. -/
theorem C88_montgomery : mont ⟨0, -1, by unfold EdCurve.On; ring⟩ = .some 0 0 zlink.ns_zero ∧
    ∀ A : E, A.x ≠ 0 → ∃ u v h, mont A = .some u v h ∧
      u = (1 + A.y) / (1 - A.y) ∧ v = 2 * u / ((Ristretto.SQRT_AD_MINUS_ONE.val : Fp) * A.x) := by
  refine ⟨zlink.toW_tor, fun A hA => ?_⟩
  exact ⟨_, _, _, zlink.toW_uv (zlink.uv_of hA), rfl, rfl⟩

/-- C88: the same for the Weierstrass curve of the README, by `(u, v) ↦ (36 u + 12 A, 216 v)`. -/
theorem C88_weierstrass (A : E) (hA : A.x ≠ 0) : ∃ x y h, weier A = .some x y h ∧
      x = 36 * ((1 + A.y) / (1 - A.y)) + 12 * 505186 ∧
      y = 216 * (2 * ((1 + A.y) / (1 - A.y)) / ((Ristretto.SQRT_AD_MINUS_ONE.val : Fp) * A.x)) := by
  have h : mont A = .some _ _ (zlink.uv_of hA).ns := zlink.toW_uv (zlink.uv_of hA)
  refine ⟨6 ^ 2 * ((1 + A.y) / (1 - A.y)) + 6062232,
    6 ^ 3 * (2 * ((1 + A.y) / (1 - A.y)) / ((Ristretto.SQRT_AD_MINUS_ONE.val : Fp) * A.x)),
    zshift.ns.2 (zlink.uv_of hA).ns, ?_, by norm_num, by norm_num⟩
  show zshift.equiv (mont A) = _
  rw [h]
  rfl

/-- C88: both curves are elliptic curves. -/
theorem C88_elliptic : montW.Δ ≠ 0 ∧ shortW.Δ ≠ 0 := by
  have key : ∀ n : Nat, n % p ≠ 0 → (n : Fp) ≠ 0 := fun n hn h => hn (Nat.mod_eq_zero_of_dvd
    ((ZMod.natCast_eq_zero_iff _ _).1 h))
  constructor
  · have e : montW.Δ = ((16 * (505186 ^ 2 - 4) : ℕ) : Fp) := by
      simp only [WeierstrassCurve.Δ, WeierstrassCurve.b₂, WeierstrassCurve.b₄, WeierstrassCurve.b₆,
        WeierstrassCurve.b₈, montW]
      norm_num
    rw [e]
    exact key _ (by decide +kernel)
  · have e : shortW.Δ = -((64 * 7237005577332262213973186563042994240857116359379907606001950828033483786813 ^ 3
        + 432 * 445582015604702849664 ^ 2 : ℕ) : Fp) := by
      simp only [WeierstrassCurve.Δ, WeierstrassCurve.b₂, WeierstrassCurve.b₄, WeierstrassCurve.b₆,
        WeierstrassCurve.b₈, shortW]
      push_cast
      ring
    rw [e]
    exact neg_ne_zero.2 (key _ (by decide +kernel))

/-- C88: both curves have the number of points the README gives. -/
theorem C88_order : Nat.card montW.Point = 2 ^ 252 + 115924404605461509904689566245241897752 ∧
    Nat.card shortW.Point = 2 ^ 252 + 115924404605461509904689566245241897752 := by
  have h : 8 * ell = 2 ^ 252 + 115924404605461509904689566245241897752 := by decide +kernel
  refine ⟨?_, ?_⟩
  · rw [← Nat.card_congr mont.toEquiv, card_E, h]
  · rw [← Nat.card_congr weier.toEquiv, card_E, h]

/-- C88: the base point has `u = 4` in Montgomery form. -/
theorem C88_base : Ed.BASEPOINT.Rep Bpt ∧ ∃ v h, mont Bpt = .some 4 v h := by
  refine ⟨BASEPOINT_rep, ?_⟩
  have h5 : (5 : Fp) ≠ 0 := by
    have : ((5 : ℕ) : Fp) ≠ 0 := by
      rw [Ne, ZMod.natCast_eq_zero_iff]; exact Nat.not_dvd_of_pos_of_lt (by decide) (by decide)
    exact_mod_cast this
  have h2 := Field.two_ne_zero'
  have hy : Bpt.y = 3 / 5 := Bpt_y
  have hx : Bpt.x ≠ 0 := by
    intro h
    rcases EdCurve.Link.y_of_x h with e | e <;> rw [hy] at e
    · rw [div_eq_iff h5] at e
      exact h2 (by linear_combination -e)
    · rw [div_eq_iff h5] at e
      exact h2 (mul_self_eq_zero.1 (mul_self_eq_zero.1 (by linear_combination 2 * e)))
  have hu : EdCurve.Link.uOf Bpt = (4 : Fp) := by
    unfold EdCurve.Link.uOf
    have : (1 : Fp) - 3 / 5 ≠ 0 := by
      intro e
      have : (2 : Fp) = 0 := by
        have := congrArg (· * (5 : Fp)) e
        simp only [sub_mul, div_mul_cancel₀ _ h5] at this
        linear_combination this
      exact h2 this
    rw [hy, div_eq_iff this]
    field_simp
    ring
  have h : mont Bpt = .some _ _ (zlink.uv_of hx).ns := zlink.toW_uv (zlink.uv_of hx)
  obtain ⟨h', e⟩ := zlink.some_congr (zlink.uv_of hx).ns hu rfl
  exact ⟨_, h', h.trans e⟩

/-- C88: what the library computes is Mathlib's group law on the Montgomery curve: addition, subtraction,
doubling, negation and multiplication by a scalar. -/
theorem C88_operations (c : Cfg) (hc : c.Enough) {P Q : EdPoint} {A B : E} (hP : P.Rep A) (hQ : Q.Rep B)
    (n : Sc) (hn : n.SCanon) :
    ∃ S D T N M A₁ A₂ A₃ A₄ A₅, Ed.add c P Q = .ok S ∧ S.Rep A₁ ∧ mont A₁ = mont A + mont B ∧
      Ed.sub c P Q = .ok D ∧ D.Rep A₂ ∧ mont A₂ = mont A - mont B ∧
      Ed.double c P = .ok T ∧ T.Rep A₃ ∧ mont A₃ = mont A + mont A ∧
      Ed.neg c P = .ok N ∧ N.Rep A₄ ∧ mont A₄ = -mont A ∧
      Ed.mul c P n = .ok M ∧ M.Rep A₅ ∧ mont A₅ = n.val • mont A := by
  obtain ⟨S, e1, h1⟩ := Ed.add_rep c hP hQ
  obtain ⟨D, e2, h2⟩ := Ed.sub_rep c hP hQ
  obtain ⟨T, e3, h3⟩ := Ed.double_rep c hP
  obtain ⟨N, e4, h4⟩ := Ed.neg_rep c hP
  obtain ⟨M, e5, h5⟩ := C45_extended c hc hP n hn.1 (hn.2.trans (by decide))
  exact ⟨S, D, T, N, M, _, _, _, _, _, e1, h1, map_add _ _ _, e2, h2, map_sub _ _ _, e3, h3, map_add _ _ _,
    e4, h4, map_neg _ _, e5, h5, map_nsmul _ _ _⟩

/-- C88: two tuples of coordinates are equal for the library exactly when they give the same point of the
Montgomery curve. -/
theorem C88_equality (c : Cfg) (hc : c.Enough) {P Q : EdPoint} {A B : E} (hP : P.Rep A) (hQ : Q.Rep B) :
    ∃ b, Ed.ctEq c P Q = .ok b ∧ (b = true ↔ mont A = mont B) := by
  obtain ⟨b, e, h⟩ := Ed_ctEq_iff c hc hP hQ
  exact ⟨b, e, h.trans mont.injective.eq_iff.symm⟩

example : Ed.BASEPOINT.Rep Bpt ∧ Scalar.one.SCanon ∧ dbg.Enough ∧ mont Bpt ≠ 0 :=
  ⟨BASEPOINT_rep, by decide, by decide, fun h => Bpt_ne (mont.injective (h.trans (map_zero _).symm))⟩

end Props
end Zerocaf
