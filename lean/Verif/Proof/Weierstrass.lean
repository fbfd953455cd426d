import Verif.Spec.Curve
import Mathlib.AlgebraicGeometry.EllipticCurve.Affine.Point
import Mathlib.Tactic.FieldSimp
import Mathlib.Tactic.LinearCombination

/-!
# The Edwards group law and the group law of Mathlib's Weierstrass curves

A complete twisted Edwards curve with `a = -1` and `-1 - d = q^2` is isomorphic, as a group, to the
Montgomery curve `v^2 = u^3 + A u^2 + u` with `A = -2 - 4/q^2`, whose group law is Mathlib's.
-/

namespace Zerocaf
namespace EdCurve

variable {F : Type} [Field F] {C : EdCurve F}

/-- Constants linking the two forms. -/
structure Link (C : EdCurve F) where
  q : F
  a : F
  q_ne : q ≠ 0
  q_sq : q * q = -1 - C.d
  a_eq : a * (q * q) = -4 - 2 * (q * q)

namespace Link

variable (K : Link C)

/-- The Montgomery curve. -/
def W : WeierstrassCurve.Affine F := ⟨0, K.a, 0, 1, 0⟩

/-- `(u, v)` is the image of the point `A` with nonzero `x`. -/
structure UV (A : C.Pt) (u v : F) : Prop where
  u0 : u ≠ 0
  v0 : v ≠ 0
  u1 : u + 1 ≠ 0
  hx : A.x * (K.q * v) = 2 * u
  hy : A.y * (u + 1) = u - 1
  on : v ^ 2 = u ^ 3 + K.a * u ^ 2 + u

include K in
theorem one_add_d_ne : 1 + C.d ≠ 0 := fun h => K.q_ne (mul_self_eq_zero.1 (by
  linear_combination K.q_sq - h))

include K in
theorem x_eq_zero {A : C.Pt} (h : A.y ^ 2 = 1) : A.x = 0 := by
  have on := A.on
  unfold On at on
  rw [h] at on
  have : A.x ^ 2 * (1 + C.d) = 0 := by linear_combination -on
  exact pow_eq_zero_iff two_ne_zero |>.1 ((mul_eq_zero.1 this).resolve_right K.one_add_d_ne)

theorem y_of_x {A : C.Pt} (h : A.x = 0) : A.y = 1 ∨ A.y = -1 := by
  have on := A.on
  unfold On at on
  rw [h] at on
  have : (A.y - 1) * (A.y + 1) = 0 := by linear_combination on
  rcases mul_eq_zero.1 this with h | h
  · exact Or.inl (by linear_combination h)
  · exact Or.inr (by linear_combination h)

/-- The `u` coordinate. -/
def uOf (A : C.Pt) : F := (1 + A.y) / (1 - A.y)

/-- The `v` coordinate. -/
def vOf (A : C.Pt) : F := 2 * uOf A / (K.q * A.x)

theorem uv_of {A : C.Pt} (hx : A.x ≠ 0) : K.UV A (uOf A) (K.vOf A) := by
  have n1 : 1 - A.y ≠ 0 := fun h => hx (K.x_eq_zero (by rw [show A.y = 1 by linear_combination -h]; ring))
  have n2 : 1 + A.y ≠ 0 := fun h => hx (K.x_eq_zero (by rw [show A.y = -1 by linear_combination h]; ring))
  have h2 := C.two
  have u0 : uOf A ≠ 0 := div_ne_zero n2 n1
  have hq := K.q_ne
  have on := A.on
  unfold On at on
  have e1 := K.q_sq
  have e2 := K.a_eq
  have hu1 : uOf A + 1 = 2 / (1 - A.y) := by unfold uOf; field_simp; ring
  refine ⟨u0, div_ne_zero (mul_ne_zero h2 u0) (mul_ne_zero hq hx), ?_, ?_, ?_, ?_⟩
  · rw [hu1]; exact div_ne_zero h2 n1
  · unfold vOf; field_simp
  · rw [hu1]; unfold uOf; field_simp; ring
  · unfold vOf uOf
    generalize A.x = x at *
    generalize A.y = y at *
    generalize K.q = q at *
    generalize K.a = a at *
    generalize C.d = d at *
    field_simp
    linear_combination -4 * on - x ^ 2 * (1 - y ^ 2) * e2 - 4 * x ^ 2 * y ^ 2 * e1

theorem UV.ext {A : C.Pt} {u v u' v' : F} (h : K.UV A u v) (h' : K.UV A u' v') : u = u' ∧ v = v' := by
  have n : 1 - A.y ≠ 0 := fun e => C.two (by
    have := h.hy
    linear_combination this + (u + 1) * e)
  have hu : u = u' := by
    refine mul_left_cancel₀ n ?_
    linear_combination h'.hy - h.hy
  refine ⟨hu, ?_⟩
  have hx : A.x ≠ 0 := fun e => h.u0 (by
    have := h.hx
    rw [e, zero_mul] at this
    exact (mul_eq_zero.1 this.symm).resolve_left C.two)
  refine mul_left_cancel₀ (mul_ne_zero hx K.q_ne) ?_
  have := h.hx
  rw [hu] at this
  linear_combination this - h'.hx

theorem UV.pt {A B : C.Pt} {u v : F} (h : K.UV A u v) (h' : K.UV B u v) : A = B := by
  ext
  · refine mul_right_cancel₀ (mul_ne_zero K.q_ne h.v0) ?_
    rw [h.hx, h'.hx]
  · refine mul_right_cancel₀ h.u1 ?_
    rw [h.hy, h'.hy]

section Add

variable {A B : C.Pt} {u v s t : F} (hA : K.UV A u v) (hB : K.UV B s t)

include hA hB

theorem prod_x : A.x * B.x * (v * t) = -(K.a + 2) * (u * s) := by
  refine mul_left_cancel₀ (mul_ne_zero K.q_ne K.q_ne) ?_
  have h1 := hA.hx
  have h2 := hB.hx
  have h3 := K.a_eq
  linear_combination B.x * K.q * t * h1 + 2 * u * h2 + u * s * h3

theorem prod_y : A.y * B.y * ((u + 1) * (s + 1)) = (u - 1) * (s - 1) := by
  linear_combination B.y * (s + 1) * hA.hy + (u - 1) * hB.hy

theorem prod_d : C.d * A.x * B.x * A.y * B.y * (v * t * ((u + 1) * (s + 1))) =
    (K.a - 2) * (u * s) * ((u - 1) * (s - 1)) := by
  have h1 := K.prod_x hA hB
  have h2 := K.prod_y hA hB
  have h3 : C.d * (K.a + 2) = 2 - K.a := by
    refine mul_left_cancel₀ (mul_ne_zero K.q_ne K.q_ne) ?_
    linear_combination (C.d + 1) * K.a_eq - 4 * K.q_sq
  linear_combination C.d * A.y * B.y * ((u + 1) * (s + 1)) * h1 - C.d * (K.a + 2) * (u * s) * h2 -
    u * s * ((u - 1) * (s - 1)) * h3

/-- The `u` coordinate of a sum. -/
theorem sum_u {w z : F} (hS : K.UV (A + B) w z) :
    w * (v * t * (u + s) + u * s * (K.a * (u + s) + 2 * (u * s + 1))) =
      v * t * (u * s + 1) - u * s * (K.a * (u * s + 1) + 2 * (u + s)) := by
  have n := one_sub_ne A.on B.on
  have e := hS.hy
  rw [Pt.add_y, div_mul_eq_mul_div, div_eq_iff n] at e
  have h1 := K.prod_x hA hB
  have h2 := K.prod_y hA hB
  have h3 := K.prod_d hA hB
  refine mul_left_cancel₀ C.two ?_
  linear_combination -(v * t * ((u + 1) * (s + 1))) * e + (w + 1) * (v * t) * h2 +
    (w + 1) * ((u + 1) * (s + 1)) * h1 + (w - 1) * h3

/-- The `v` coordinate of a sum. -/
theorem sum_v {w z : F} (hS : K.UV (A + B) w z) :
    z * (u * t * (u + 1) * (s - 1) + s * v * (u - 1) * (s + 1)) =
      w * (v * t * ((u + 1) * (s + 1)) + (K.a - 2) * (u * s) * ((u - 1) * (s - 1))) := by
  have n := one_add_ne A.on B.on
  have e := hS.hx
  rw [Pt.add_x, div_mul_eq_mul_div, div_eq_iff n] at e
  have h1 := hA.hx
  have h2 := hB.hx
  have h3 := K.prod_d hA hB
  refine mul_left_cancel₀ C.two ?_
  linear_combination (v * t * ((u + 1) * (s + 1))) * e + 2 * w * h3 -
    z * t * (u + 1) * (s + 1) * B.y * h1 - z * t * (u + 1) * 2 * u * hB.hy -
    z * v * (s + 1) * (u + 1) * A.y * h2 - z * v * (s + 1) * 2 * s * hA.hy

theorem sum_X_ne {w z : F} (hS : K.UV (A + B) w z) :
    u * t * (u + 1) * (s - 1) + s * v * (u - 1) * (s + 1) ≠ 0 := by
  intro h0
  have n := one_add_ne A.on B.on
  have e : (A + B).x * (1 + C.d * A.x * B.x * A.y * B.y) = A.x * B.y + A.y * B.x := by
    rw [Pt.add_x, div_mul_cancel₀ _ n]
  have hn : K.q * (v * t * ((u + 1) * (s + 1))) ≠ 0 :=
    mul_ne_zero K.q_ne (mul_ne_zero (mul_ne_zero hA.v0 hB.v0) (mul_ne_zero hA.u1 hB.u1))
  have h1 := hA.hx
  have h2 := hB.hx
  have hx : (A + B).x = 0 := by
    refine (mul_eq_zero.1 ?_).resolve_right n
    refine (mul_eq_zero.1 ?_).resolve_right hn
    linear_combination K.q * (v * t * ((u + 1) * (s + 1))) * e + 2 * h0 +
      t * (u + 1) * (s + 1) * B.y * h1 + t * (u + 1) * 2 * u * hB.hy +
      v * (s + 1) * (u + 1) * A.y * h2 + v * (s + 1) * 2 * s * hA.hy
  have := hS.hx
  rw [hx, zero_mul] at this
  exact hS.u0 ((mul_eq_zero.1 this.symm).resolve_left C.two)

theorem sum_uD_ne {w z : F} (hS : K.UV (A + B) w z) :
    v * t * (u + s) + u * s * (K.a * (u + s) + 2 * (u * s + 1)) ≠ 0 := by
  intro h0
  have n := one_sub_ne A.on B.on
  have e : (A + B).y * (1 - C.d * A.x * B.x * A.y * B.y) = A.y * B.y + A.x * B.x := by
    rw [Pt.add_y, div_mul_cancel₀ _ n]
  have hn : v * t * ((u + 1) * (s + 1)) ≠ 0 :=
    mul_ne_zero (mul_ne_zero hA.v0 hB.v0) (mul_ne_zero hA.u1 hB.u1)
  have h1 := K.prod_x hA hB
  have h2 := K.prod_y hA hB
  have h3 := K.prod_d hA hB
  have hy : (A + B).y - 1 = 0 := by
    refine (mul_eq_zero.1 ?_).resolve_right n
    refine (mul_eq_zero.1 ?_).resolve_right hn
    linear_combination v * t * ((u + 1) * (s + 1)) * e - 2 * h0 + v * t * h2 + ((u + 1) * (s + 1)) * h1 + h3
  have := hS.hy
  exact C.two (by linear_combination this - (w + 1) * hy)

/-- Sums of points with different `u` coordinates: the chord. -/
theorem sum_chord {w z : F} (hS : K.UV (A + B) w z) (hus : u ≠ s) :
    w = ((v - t) / (u - s)) ^ 2 - K.a - u - s ∧ z = -((v - t) / (u - s) * (w - u) + v) := by
  have h : u - s ≠ 0 := sub_ne_zero.2 hus
  have f1 := hA.on
  have f2 := hB.on
  have hu := K.sum_u hA hB hS
  have hv := K.sum_v hA hB hS
  have nX := K.sum_X_ne hA hB hS
  have nD := K.sum_uD_ne hA hB hS
  generalize K.a = a at *
  have hw : w * (u - s) ^ 2 = (u + s) * (u * s + 1) + 2 * a * u * s - 2 * v * t := by
    refine mul_right_cancel₀ nD ?_
    linear_combination (u - s) ^ 2 * hu + (2*u*t^2 +2*s*t^2) * f1 +
      (2*u^4 +2*u^3*s +2*u^3*a +2*u^2*s*a +2*u^2 +2*u*s) * f2
  have hz : z * (u - s) ^ 3 = -(v - t) * ((u + s) * (u * s + 1) + 2 * a * u * s - 2 * v * t - u * (u - s) ^ 2) -
      v * (u - s) ^ 3 := by
    refine mul_right_cancel₀ nX ?_
    linear_combination (u - s) ^ 3 * hv + (u - s) * (v * t * ((u + 1) * (s + 1)) +
      (a - 2) * (u * s) * ((u - 1) * (s - 1))) * hw - (-3*u^2*s^4 -2*u^2*s^3*a -3*u^2*s^3 -2*u^2*s^2*a
      -u^2*s^2 +4*u^2*s*t^2 -u^2*s +2*u*v*s^2*t +2*u*v*s*t +u*s^5 +4*u*s^4 +2*u*s^3*a +2*u*s^3 -4*u*s^2*t^2
      +2*u*s^2*a +u*s -2*v*s^2*t -2*v*s*t -s^5 -s^4 +s^3 +s^2) * f1 - (3*u^5*s +u^5 -u^4*s^2 +4*u^4*s*a
      -4*u^4*s +u^4 -2*u^3*s^2*a +3*u^3*s^2 -2*u^3*s*a +2*u^3*s -u^3 -2*u^2*v*s*t +2*u^2*v*t +2*u^2*s^2*a
      -3*u^2*s^2 -2*u^2*s*a -u^2 -2*u*v*s*t +2*u*v*t +u*s^2 -u*s) * f2
  constructor
  · refine mul_right_cancel₀ (pow_ne_zero 2 h) ?_
    rw [hw]
    field_simp
    linear_combination -f1 - f2
  · refine mul_right_cancel₀ (pow_ne_zero 3 h) ?_
    rw [hz]
    field_simp
    linear_combination (v - t) * hw

end Add

/-- Doubles: the tangent. -/
theorem sum_tangent {A : C.Pt} {u v w z : F} (hA : K.UV A u v) (hS : K.UV (A + A) w z) :
    w = ((3 * u ^ 2 + 2 * K.a * u + 1) / (2 * v)) ^ 2 - K.a - u - u ∧
    z = -((3 * u ^ 2 + 2 * K.a * u + 1) / (2 * v) * (w - u) + v) := by
  have f1 := hA.on
  have hu := K.sum_u hA hA hS
  have hv := K.sum_v hA hA hS
  have nX := K.sum_X_ne hA hA hS
  have u0 := hA.u0
  have v0 := hA.v0
  have h2 := C.two
  generalize K.a = a at *
  have hw : w * (4 * v ^ 2) = (u ^ 2 - 1) ^ 2 := by
    refine mul_left_cancel₀ u0 ?_
    linear_combination hu + (2 * u * w + (u ^ 2 + 1)) * f1
  have hu2 : u ^ 2 - 1 ≠ 0 := fun e => nX (by linear_combination 2 * u * v * e)
  have hz : z * (2 * v) = -((3 * u ^ 2 + 2 * a * u + 1) * (w - u) + 2 * v ^ 2) := by
    refine mul_right_cancel₀ (mul_ne_zero (mul_ne_zero u0 hu2)
      (mul_ne_zero (mul_ne_zero h2 h2) (pow_ne_zero 2 v0))) ?_
    linear_combination 4 * v ^ 2 * hv + ((v ^ 2 * (u + 1) ^ 2 + (a - 2) * u ^ 2 * (u - 1) ^ 2) +
      u * (u ^ 2 - 1) * (3 * u ^ 2 + 2 * a * u + 1)) * hw +
      (-3*u^6 +2*u^5 +7*u^4 +8*u^3*v^2 -4*u^3 -5*u^2 -8*u*v^2 +2*u +1) * f1
  constructor
  · refine mul_right_cancel₀ (mul_ne_zero (mul_ne_zero h2 h2) (pow_ne_zero 2 v0)) ?_
    field_simp
    linear_combination hw - (-8*u - 4*a) * f1
  · refine mul_right_cancel₀ (mul_ne_zero h2 v0) ?_
    rw [hz]
    field_simp

/-! ### The isomorphism -/

theorem W_a1 : K.W.a₁ = 0 := rfl
theorem W_a2 : K.W.a₂ = K.a := rfl
theorem W_a3 : K.W.a₃ = 0 := rfl
theorem W_a4 : K.W.a₄ = 1 := rfl
theorem W_a6 : K.W.a₆ = 0 := rfl

theorem W_negY (x y : F) : K.W.negY x y = -y := by
  rw [WeierstrassCurve.Affine.negY, W_a1, W_a3]; ring

theorem UV.ns {A : C.Pt} {u v : F} (h : K.UV A u v) : K.W.Nonsingular u v := by
  rw [WeierstrassCurve.Affine.nonsingular_iff, WeierstrassCurve.Affine.equation_iff, W_a1, W_a2, W_a3, W_a4,
    W_a6]
  refine ⟨by linear_combination h.on, Or.inr fun e => ?_⟩
  have : 2 * v = 0 := by linear_combination e
  exact h.v0 ((mul_eq_zero.1 this).resolve_left C.two)

theorem ns_zero : K.W.Nonsingular 0 0 := by
  rw [WeierstrassCurve.Affine.nonsingular_iff, WeierstrassCurve.Affine.equation_iff, W_a1, W_a2, W_a3, W_a4,
    W_a6]
  refine ⟨by ring, Or.inl fun e => ?_⟩
  have : (1 : F) = 0 := by linear_combination -e
  exact one_ne_zero this

/-- The point of order two. -/
def tor (C : EdCurve F) : C.Pt := ⟨0, -1, by unfold On; ring⟩

theorem cases_x {A : C.Pt} (h : A.x = 0) : A = 0 ∨ A = tor C := by
  rcases y_of_x h with hy | hy
  · exact Or.inl (Pt.ext h hy)
  · exact Or.inr (Pt.ext h hy)

theorem tor_ne : tor C ≠ 0 := fun h => C.two (by
  have : (-1 : F) = 1 := congrArg Pt.y h
  linear_combination -this)

open WeierstrassCurve.Affine (Point)

variable [DecidableEq F]

/-- The map from the Edwards curve to the Montgomery curve. -/
def toW (A : C.Pt) : K.W.Point :=
  if hx : A.x = 0 then (if A.y = 1 then 0 else .some 0 0 K.ns_zero)
  else .some (uOf A) (K.vOf A) (K.uv_of hx).ns

theorem toW_zero : K.toW 0 = 0 := by
  unfold toW; rw [dif_pos (show (0 : C.Pt).x = 0 from rfl), if_pos (show (0 : C.Pt).y = 1 from rfl)]

theorem toW_tor : K.toW (tor C) = .some 0 0 K.ns_zero := by
  unfold toW
  rw [dif_pos (show (tor C).x = 0 from rfl), if_neg]
  exact fun h => tor_ne (Pt.ext rfl h)

omit [DecidableEq F] in
theorem some_congr {x y x' y' : F} (h : K.W.Nonsingular x y) (hx : x = x') (hy : y = y') :
    ∃ h', (Point.some x y h : K.W.Point) = .some x' y' h' := by
  subst hx; subst hy; exact ⟨h, rfl⟩

theorem toW_uv {A : C.Pt} {u v : F} (h : K.UV A u v) : K.toW A = .some u v h.ns := by
  have hx : A.x ≠ 0 := fun e => h.u0 (by
    have := h.hx
    rw [e, zero_mul] at this
    exact (mul_eq_zero.1 this.symm).resolve_left C.two)
  obtain ⟨e1, e2⟩ := UV.ext K (K.uv_of hx) h
  obtain ⟨_, e⟩ := K.some_congr (K.uv_of hx).ns e1 e2
  unfold toW
  rw [dif_neg hx, e]

omit [DecidableEq F] in
theorem UV.neg {A : C.Pt} {u v : F} (h : K.UV A u v) : K.UV (-A) u (-v) :=
  ⟨h.u0, neg_ne_zero.2 h.v0, h.u1, by rw [Pt.neg_x]; linear_combination h.hx, by rw [Pt.neg_y]; exact h.hy,
    by linear_combination h.on⟩

omit [DecidableEq F] in
theorem neg_tor : -(tor C) = tor C := Pt.ext (by rw [Pt.neg_x]; exact neg_zero) rfl

theorem toW_neg (A : C.Pt) : K.toW (-A) = -K.toW A := by
  by_cases hx : A.x = 0
  · rcases cases_x hx with rfl | rfl
    · rw [neg_zero, toW_zero, neg_zero]
    · rw [neg_tor, toW_tor, Point.neg_some]
      obtain ⟨_, e⟩ := K.some_congr K.ns_zero rfl (show (0 : F) = K.W.negY 0 0 by rw [W_negY, neg_zero])
      rw [e]
  · rw [K.toW_uv (K.uv_of hx), K.toW_uv (K.uv_of hx).neg, Point.neg_some]
    obtain ⟨_, e⟩ := K.some_congr (K.uv_of hx).neg.ns rfl (show -K.vOf A = K.W.negY (uOf A) (K.vOf A) by rw [W_negY])
    rw [e]

omit [DecidableEq F] in
/-- Adding the point of order two. -/
theorem UV.add_tor {A : C.Pt} {u v : F} (h : K.UV A u v) : K.UV (tor C + A) (1 / u) (-v / u ^ 2) := by
  have u0 := h.u0
  have v0 := h.v0
  have u1 := h.u1
  have hx := h.hx
  have hy := h.hy
  have on := h.on
  have ex : (tor C + A).x = -A.x := by
    rw [Pt.add_x, show (tor C).x = 0 from rfl, show (tor C).y = -1 from rfl]; simp
  have ey : (tor C + A).y = -A.y := by
    rw [Pt.add_y, show (tor C).x = 0 from rfl, show (tor C).y = -1 from rfl]; simp
  refine ⟨one_div_ne_zero u0, div_ne_zero (neg_ne_zero.2 v0) (pow_ne_zero 2 u0), ?_, ?_, ?_, ?_⟩
  · rw [show 1 / u + 1 = (u + 1) / u by field_simp; ring]
    exact div_ne_zero u1 u0
  · rw [ex]; field_simp; linear_combination hx
  · rw [ey]; field_simp; linear_combination -hy
  · field_simp; linear_combination on

theorem toW_tor_add (A : C.Pt) : K.toW (tor C + A) = K.toW (tor C) + K.toW A := by
  by_cases hx : A.x = 0
  · rcases cases_x hx with rfl | rfl
    · rw [add_zero, toW_zero, add_zero]
    · have : tor C + tor C = 0 := by
        have := add_neg_cancel (tor C)
        rwa [neg_tor] at this
      rw [this, toW_zero, toW_tor]
      exact (Point.add_of_Y_eq rfl (by rw [W_negY, neg_zero])).symm
  · have h := K.uv_of hx
    have u0 := h.u0
    have on := h.on
    rw [K.toW_uv h, K.toW_uv h.add_tor, toW_tor, Point.add_of_X_ne u0.symm]
    have e1 : K.W.addX 0 (uOf A) (K.W.slope 0 (uOf A) 0 (K.vOf A)) = 1 / uOf A := by
      rw [WeierstrassCurve.Affine.slope_of_X_ne u0.symm, WeierstrassCurve.Affine.addX, W_a1, W_a2]
      field_simp
      linear_combination uOf A * on
    obtain ⟨_, e⟩ := K.some_congr h.add_tor.ns e1.symm (y' := K.W.addY 0 (uOf A) 0 (K.W.slope 0 (uOf A) 0 (K.vOf A))) (by
      rw [WeierstrassCurve.Affine.addY, WeierstrassCurve.Affine.negAddY, W_negY, e1,
        WeierstrassCurve.Affine.slope_of_X_ne u0.symm]
      field_simp
      ring)
    rw [e]

theorem toW_add (A B : C.Pt) : K.toW (A + B) = K.toW A + K.toW B := by
  by_cases hA : A.x = 0
  · rcases cases_x hA with rfl | rfl
    · rw [zero_add, toW_zero, zero_add]
    · exact K.toW_tor_add B
  by_cases hB : B.x = 0
  · rcases cases_x hB with rfl | rfl
    · rw [add_zero, toW_zero, add_zero]
    · rw [add_comm, K.toW_tor_add A, add_comm]
  by_cases hS : (A + B).x = 0
  · rcases cases_x hS with h | h
    · have : B = -A := (neg_eq_of_add_eq_zero_right h).symm
      rw [h, this, toW_neg, toW_zero, add_neg_cancel]
    · have : B = tor C + -A := by rw [← h]; abel
      rw [h, this, toW_tor_add, toW_neg]
      abel
  have h1 := K.uv_of hA
  have h2 := K.uv_of hB
  have h3 := K.uv_of hS
  by_cases hu : uOf A = uOf B
  · have hv : K.vOf A = K.vOf B := by
      have f1 := h1.on
      have f2 := h2.on
      rw [← hu] at f2
      have : (K.vOf A - K.vOf B) * (K.vOf A + K.vOf B) = 0 := by linear_combination f1 - f2
      rcases mul_eq_zero.1 this with h | h
      · linear_combination h
      · refine absurd ?_ hS
        have hv : K.vOf B = -K.vOf A := by linear_combination h
        have hB : B = -A := by
          have h2' := h2
          rw [← hu, hv] at h2'
          exact UV.pt K h2' h1.neg
        rw [hB, add_neg_cancel]; rfl
    have hAB : B = A := by
      have h2' := h2
      rw [← hu, ← hv] at h2'
      exact UV.pt K h2' h1
    subst hAB
    obtain ⟨e1, e2⟩ := K.sum_tangent h1 h3
    have hne : K.vOf B ≠ K.W.negY (uOf B) (K.vOf B) := by
      rw [W_negY]
      intro e
      have : 2 * K.vOf B = 0 := by linear_combination e
      exact h1.v0 ((mul_eq_zero.1 this).resolve_left C.two)
    have hsl : K.W.slope (uOf B) (uOf B) (K.vOf B) (K.vOf B) =
        (3 * uOf B ^ 2 + 2 * K.a * uOf B + 1) / (2 * K.vOf B) := by
      rw [WeierstrassCurve.Affine.slope_of_Y_ne rfl hne, W_negY, W_a1, W_a2, W_a4]
      congr 1 <;> ring
    rw [K.toW_uv h1, K.toW_uv h3, Point.add_of_Y_ne hne]
    obtain ⟨_, e⟩ := K.some_congr h3.ns
      (x' := K.W.addX (uOf B) (uOf B) (K.W.slope (uOf B) (uOf B) (K.vOf B) (K.vOf B)))
      (y' := K.W.addY (uOf B) (uOf B) (K.vOf B) (K.W.slope (uOf B) (uOf B) (K.vOf B) (K.vOf B)))
      (by rw [e1, WeierstrassCurve.Affine.addX, hsl, W_a1, W_a2]; ring)
      (by rw [WeierstrassCurve.Affine.addY, WeierstrassCurve.Affine.negAddY, W_negY, e2,
            WeierstrassCurve.Affine.addX, hsl, W_a1, W_a2, e1]; ring)
    rw [e]
  · obtain ⟨e1, e2⟩ := K.sum_chord h1 h2 h3 hu
    rw [K.toW_uv h1, K.toW_uv h2, K.toW_uv h3, Point.add_of_X_ne hu]
    obtain ⟨_, e⟩ := K.some_congr h3.ns
      (x' := K.W.addX (uOf A) (uOf B) (K.W.slope (uOf A) (uOf B) (K.vOf A) (K.vOf B)))
      (y' := K.W.addY (uOf A) (uOf B) (K.vOf A) (K.W.slope (uOf A) (uOf B) (K.vOf A) (K.vOf B)))
      (by rw [e1, WeierstrassCurve.Affine.addX, WeierstrassCurve.Affine.slope_of_X_ne hu, W_a1, W_a2]; ring)
      (by rw [WeierstrassCurve.Affine.addY, WeierstrassCurve.Affine.negAddY, W_negY, e2, WeierstrassCurve.Affine.addX,
            WeierstrassCurve.Affine.slope_of_X_ne hu, W_a1, W_a2, e1]; ring)
    rw [e]

omit [DecidableEq F] in
/-- Every affine point of the Montgomery curve other than `(0, 0)` comes from a point with nonzero `x`. -/
theorem exists_uv {u v : F} (on : v ^ 2 = u ^ 3 + K.a * u ^ 2 + u) (u0 : u ≠ 0) : ∃ A : C.Pt, K.UV A u v := by
  have hq := K.q_ne
  have hi := C.i_sq
  have h2 := C.two
  have e1 := K.q_sq
  have e2 := K.a_eq
  have hd : C.d * (K.a + 2) = 2 - K.a := by
    refine mul_left_cancel₀ (mul_ne_zero K.q_ne K.q_ne) ?_
    linear_combination (C.d + 1) * K.a_eq - 4 * K.q_sq
  have i0 : C.i ≠ 0 := fun h => by rw [h, zero_mul] at hi; exact one_ne_zero (neg_eq_zero.1 hi.symm)
  -- `a - 2` is no square
  have ns : ∀ r : F, r ^ 2 ≠ K.a - 2 := fun r hr => C.d_ns ⟨K.q * r / 2, by
    field_simp
    linear_combination -K.q ^ 2 * hr - e2 + 4 * e1⟩
  have v0 : v ≠ 0 := fun h => by
    rw [h] at on
    have h0 : u ^ 2 + K.a * u + 1 = 0 := by
      refine mul_left_cancel₀ u0 ?_
      linear_combination -on
    refine ns (K.q * (2 * u + K.a) / (2 * C.i)) ?_
    field_simp
    linear_combination 4 * K.q ^ 2 * h0 + (K.a - 2) * e2 - 4 * (K.a - 2) * hi
  have u1 : u + 1 ≠ 0 := fun h => ns v (by
    have : u = -1 := by linear_combination h
    rw [on, this]; ring)
  refine ⟨⟨2 * u / (K.q * v), (u - 1) / (u + 1), ?_⟩, u0, v0, u1, ?_, ?_, on⟩
  · unfold On
    field_simp
    linear_combination -4 * u * K.q ^ 2 * on - 4 * u ^ 2 * ((u ^ 2 + 1 - 2 * u) * e1 + u * e2)
  · show 2 * u / (K.q * v) * (K.q * v) = 2 * u
    field_simp
  · show (u - 1) / (u + 1) * (u + 1) = u - 1
    field_simp

/-- The Edwards curve and the Montgomery curve are isomorphic as groups. -/
noncomputable def equivW : C.Pt ≃+ K.W.Point := AddEquiv.ofBijective (AddMonoidHom.mk' K.toW K.toW_add) (by
  constructor
  · rw [injective_iff_map_eq_zero]
    intro A (h : K.toW A = 0)
    by_cases hx : A.x = 0
    · rcases cases_x hx with rfl | rfl
      · rfl
      · rw [toW_tor] at h
        exact absurd h (Point.some_ne_zero _)
    · rw [K.toW_uv (K.uv_of hx)] at h
      exact absurd h (Point.some_ne_zero _)
  · rintro (_ | ⟨u, v, h⟩)
    · exact ⟨0, K.toW_zero⟩
    · have on := h.1
      rw [WeierstrassCurve.Affine.equation_iff, W_a1, W_a2, W_a3, W_a4, W_a6] at on
      by_cases u0 : u = 0
      · subst u0
        have hv : v = 0 := by
          have : v ^ 2 = 0 := by linear_combination on
          exact pow_eq_zero_iff two_ne_zero |>.1 this
        subst hv
        exact ⟨tor C, K.toW_tor⟩
      · obtain ⟨A, hA⟩ := K.exists_uv (show v ^ 2 = u ^ 3 + K.a * u ^ 2 + u by linear_combination on) u0
        exact ⟨A, K.toW_uv hA⟩)

end Link
end EdCurve

/-! ### Moving to the short form `y^2 = x^3 + A x + B` -/

open WeierstrassCurve.Affine (Point)

variable {F : Type} [Field F]

/-- The substitution `(x, y) ↦ (s^2 x + r, s^3 y)` takes `y^2 = x^3 + a x^2 + b x` to
`y^2 = x^3 + A x + B`. -/
structure Shift (a b A B : F) where
  s : F
  r : F
  s_ne : s ≠ 0
  h2 : 3 * r = s ^ 2 * a
  h1 : A + 3 * r ^ 2 = s ^ 4 * b
  h0 : r ^ 3 + A * r + B = 0

namespace Shift

variable {a b A B : F} (S : Shift a b A B)

/-- The curve before the substitution. -/
abbrev W1 (_ : Shift a b A B) : WeierstrassCurve.Affine F := ⟨0, a, 0, b, 0⟩
/-- The curve after the substitution. -/
abbrev W2 (_ : Shift a b A B) : WeierstrassCurve.Affine F := ⟨0, 0, 0, A, B⟩

theorem ns {x y : F} : S.W2.Nonsingular (S.s ^ 2 * x + S.r) (S.s ^ 3 * y) ↔ S.W1.Nonsingular x y := by
  have hs := S.s_ne
  have h2 := S.h2
  have h1 := S.h1
  have h0 := S.h0
  rw [WeierstrassCurve.Affine.nonsingular_iff', WeierstrassCurve.Affine.nonsingular_iff',
    WeierstrassCurve.Affine.equation_iff, WeierstrassCurve.Affine.equation_iff]
  refine and_congr ⟨fun e => ?_, fun e => ?_⟩ (or_congr (not_congr ⟨fun e => ?_, fun e => ?_⟩)
    (not_congr ⟨fun e => ?_, fun e => ?_⟩))
  · refine mul_left_cancel₀ (pow_ne_zero 6 hs) ?_
    simp only [zero_mul, add_zero] at e ⊢
    linear_combination e + S.s ^ 4 * x ^ 2 * h2 + S.s ^ 2 * x * h1 + h0
  · simp only [zero_mul, add_zero] at e ⊢
    linear_combination S.s ^ 6 * e - S.s ^ 4 * x ^ 2 * h2 - S.s ^ 2 * x * h1 - h0
  · refine mul_left_cancel₀ (pow_ne_zero 4 hs) ?_
    simp only [zero_mul] at e ⊢
    linear_combination e + 2 * S.s ^ 2 * x * h2 + h1
  · simp only [zero_mul] at e ⊢
    linear_combination S.s ^ 4 * e - 2 * S.s ^ 2 * x * h2 - h1
  · refine mul_left_cancel₀ (pow_ne_zero 3 hs) ?_
    simp only [zero_mul, add_zero] at e ⊢
    linear_combination e
  · simp only [zero_mul, add_zero] at e ⊢
    linear_combination S.s ^ 3 * e

/-- The substitution on points. -/
def map : S.W1.Point → S.W2.Point
  | .zero => .zero
  | .some x y h => .some (S.s ^ 2 * x + S.r) (S.s ^ 3 * y) (S.ns.2 h)

theorem map_zero : S.map 0 = 0 := rfl

theorem map_some {x y : F} (h : S.W1.Nonsingular x y) :
    S.map (.some x y h) = .some (S.s ^ 2 * x + S.r) (S.s ^ 3 * y) (S.ns.2 h) := rfl

theorem some_congr {x y x' y' : F} (h : S.W2.Nonsingular x y) (hx : x = x') (hy : y = y') :
    ∃ h' : S.W2.Nonsingular x' y', (Point.some x y h : S.W2.Point) = Point.some x' y' h' := by
  subst hx; subst hy; exact ⟨h, rfl⟩

theorem x_iff {x x' : F} : S.s ^ 2 * x + S.r = S.s ^ 2 * x' + S.r ↔ x = x' :=
  ⟨fun e => mul_left_cancel₀ (pow_ne_zero 2 S.s_ne) (by linear_combination e), fun e => by rw [e]⟩

theorem y_iff {x x' y y' : F} :
    S.s ^ 3 * y = S.W2.negY (S.s ^ 2 * x + S.r) (S.s ^ 3 * y') ↔ y = S.W1.negY x' y' := by
  simp only [WeierstrassCurve.Affine.negY, zero_mul, sub_zero]
  exact ⟨fun e => mul_left_cancel₀ (pow_ne_zero 3 S.s_ne) (by linear_combination e), fun e => by rw [e]; ring⟩

variable [DecidableEq F]

theorem slope {x x' y y' : F} (hxy : ¬(x = x' ∧ y = S.W1.negY x' y')) (hy' : x = x' → y = y') :
    S.W2.slope (S.s ^ 2 * x + S.r) (S.s ^ 2 * x' + S.r) (S.s ^ 3 * y) (S.s ^ 3 * y') =
      S.s * S.W1.slope x x' y y' := by
  have hs := S.s_ne
  by_cases hx : x = x'
  · have hy : y ≠ S.W1.negY x' y' := fun h => hxy ⟨hx, h⟩
    rw [WeierstrassCurve.Affine.slope_of_Y_ne hx hy,
      WeierstrassCurve.Affine.slope_of_Y_ne (S.x_iff.2 hx) (fun h => hy (S.y_iff.1 h))]
    have h1 := S.h1
    have h2 := S.h2
    have n : y + y ≠ 0 := by
      intro h
      apply hy
      rw [← hy' hx]
      simp only [WeierstrassCurve.Affine.negY, zero_mul, sub_zero]
      linear_combination h
    simp only [WeierstrassCurve.Affine.negY, zero_mul, sub_zero, mul_zero, add_zero, sub_neg_eq_add]
    have n' : S.s ^ 3 * y + S.s ^ 3 * y ≠ 0 := by
      rw [← mul_add]; exact mul_ne_zero (pow_ne_zero 3 hs) n
    rw [← mul_div_assoc, div_eq_div_iff n' n]
    linear_combination (y + y) * (2 * S.s ^ 2 * x * h2 + h1)
  · rw [WeierstrassCurve.Affine.slope_of_X_ne hx,
      WeierstrassCurve.Affine.slope_of_X_ne (fun h => hx (S.x_iff.1 h))]
    have n : x - x' ≠ 0 := sub_ne_zero.2 hx
    have n' : S.s ^ 2 * x + S.r - (S.s ^ 2 * x' + S.r) ≠ 0 := sub_ne_zero.2 (fun h => hx (S.x_iff.1 h))
    rw [← mul_div_assoc, div_eq_div_iff n' n]
    ring

theorem map_add (P Q : S.W1.Point) : S.map (P + Q) = S.map P + S.map Q := by
  rcases P with _ | ⟨x, y, h⟩
  · rw [← Point.zero_def, zero_add, map_zero, zero_add]
  rcases Q with _ | ⟨x', y', h'⟩
  · rw [← Point.zero_def, add_zero, map_zero, add_zero]
  by_cases hxy : x = x' ∧ y = S.W1.negY x' y'
  · rw [Point.add_of_Y_eq hxy.1 hxy.2, map_zero, map_some, map_some,
      Point.add_of_Y_eq (S.x_iff.2 hxy.1) (S.y_iff.2 hxy.2)]
  · have hy' : x = x' → y = y' := fun e => by
      rcases WeierstrassCurve.Affine.Y_eq_of_X_eq h.1 h'.1 e with e' | e'
      · exact e'
      · exact absurd ⟨e, e'⟩ hxy
    have hsl := S.slope hxy hy'
    have h2 := S.h2
    rw [Point.add_some hxy, map_some, map_some, map_some,
      Point.add_some (fun e => hxy ⟨S.x_iff.1 e.1, S.y_iff.1 e.2⟩)]
    obtain ⟨_, e⟩ := S.some_congr (S.ns.2 (WeierstrassCurve.Affine.nonsingular_add h h' hxy))
      (x' := S.W2.addX (S.s ^ 2 * x + S.r) (S.s ^ 2 * x' + S.r)
        (S.W2.slope (S.s ^ 2 * x + S.r) (S.s ^ 2 * x' + S.r) (S.s ^ 3 * y) (S.s ^ 3 * y')))
      (y' := S.W2.addY (S.s ^ 2 * x + S.r) (S.s ^ 2 * x' + S.r) (S.s ^ 3 * y)
        (S.W2.slope (S.s ^ 2 * x + S.r) (S.s ^ 2 * x' + S.r) (S.s ^ 3 * y) (S.s ^ 3 * y')))
      (by
        rw [hsl]
        generalize S.W1.slope x x' y y' = l
        simp only [WeierstrassCurve.Affine.addX, zero_mul, add_zero, sub_zero]
        linear_combination h2)
      (by
        rw [hsl]
        generalize S.W1.slope x x' y y' = l
        simp only [WeierstrassCurve.Affine.addY, WeierstrassCurve.Affine.negAddY,
          WeierstrassCurve.Affine.negY, WeierstrassCurve.Affine.addX, zero_mul, add_zero, sub_zero]
        linear_combination -S.s * l * h2)
    rw [e]

/-- The substitution is an isomorphism of groups. -/
noncomputable def equiv : S.W1.Point ≃+ S.W2.Point :=
  AddEquiv.ofBijective (AddMonoidHom.mk' S.map S.map_add) (by
    constructor
    · rw [injective_iff_map_eq_zero]
      rintro (_ | ⟨x, y, h⟩) e
      · rfl
      · exact absurd e (Point.some_ne_zero _)
    · rintro (_ | ⟨x, y, h⟩)
      · exact ⟨0, S.map_zero⟩
      · have hs := S.s_ne
        have ex : x = S.s ^ 2 * ((x - S.r) / S.s ^ 2) + S.r := by field_simp; ring
        have ey : y = S.s ^ 3 * (y / S.s ^ 3) := by field_simp
        obtain ⟨h', e⟩ := S.some_congr h ex ey
        exact ⟨.some _ _ (S.ns.1 h'), e.symm⟩)

theorem equiv_apply (P : S.W1.Point) : S.equiv P = S.map P := rfl

end Shift
end Zerocaf
