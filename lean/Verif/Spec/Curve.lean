import Mathlib.Algebra.Field.Basic
import Mathlib.Algebra.Group.Even
import Mathlib.Tactic.FieldSimp
import Mathlib.Tactic.LinearCombination
import Mathlib.Tactic.Ring

/-!
# Specification: twisted Edwards curves `-x^2 + y^2 = 1 + d x^2 y^2` as groups

Nothing here mentions the model. The curve is over a field in which `-1` is a square, `d` is not a square
and `2` is not zero. The affine addition law is shown to be total (the denominators never vanish), to stay
on the curve, and to be a commutative group law. The certificates passed to `linear_combination` were found
by polynomial division; Lean checks them.
-/

namespace Zerocaf

/-- Parameters of a complete twisted Edwards curve with `a = -1`. -/
structure EdCurve (F : Type) [Field F] where
  d : F
  i : F
  i_sq : i * i = -1
  d_ns : ¬ IsSquare d
  two : (2 : F) ≠ 0

namespace EdCurve

variable {F : Type} [Field F] (C : EdCurve F)

/-- The curve equation. -/
def On (x y : F) : Prop := y ^ 2 - x ^ 2 = 1 + C.d * x ^ 2 * y ^ 2

/-- Affine points of the curve. -/
@[ext] structure Pt where
  x : F
  y : F
  on : C.On x y

variable {C}

/-- Completeness: the product `d x1 x2 y1 y2` is never `1` or `-1`. -/
theorem sq_ne_one {x1 y1 x2 y2 : F} (h1 : C.On x1 y1) (h2 : C.On x2 y2) :
    (C.d * x1 * x2 * y1 * y2) ^ 2 ≠ 1 := by
  intro he
  unfold On at h1 h2
  have hd := C.d_ns
  have hi := C.i_sq
  have h0 := C.two
  generalize C.d = d at *
  generalize C.i = i at *
  generalize hE : d * x1 * x2 * y1 * y2 = e at *
  have e0 : e ≠ 0 := fun h => by rw [h] at he; norm_num at he
  have hxy : x1 * y1 ≠ 0 := fun h => e0 (by rw [← hE]; linear_combination d * x2 * y2 * h)
  have k1 : (i * x1 + e * y1) ^ 2 = d * (x1 * y1 * (i * x2 + y2)) ^ 2 := by
    subst hE
    linear_combination (x1 ^ 2 - d * x1 ^ 2 * y1 ^ 2 * x2 ^ 2) * hi + (y1 ^ 2 - 1) * he + h1
      - d * x1 ^ 2 * y1 ^ 2 * h2
  have k2 : (i * x1 - e * y1) ^ 2 = d * (x1 * y1 * (i * x2 - y2)) ^ 2 := by
    subst hE
    linear_combination (x1 ^ 2 - d * x1 ^ 2 * y1 ^ 2 * x2 ^ 2) * hi + (y1 ^ 2 - 1) * he + h1
      - d * x1 ^ 2 * y1 ^ 2 * h2
  have sq : ∀ u v : F, u ^ 2 = d * (x1 * y1 * v) ^ 2 → v = 0 := by
    intro u v h
    by_contra hv
    have hw : x1 * y1 * v ≠ 0 := mul_ne_zero hxy hv
    refine hd ⟨u / (x1 * y1 * v), ?_⟩
    rw [div_mul_div_comm, ← pow_two, ← pow_two, h, mul_div_cancel_right₀ _ (pow_ne_zero 2 hw)]
  have z1 := sq _ _ k1
  have z2 := sq _ _ k2
  have hy : y2 = 0 := by
    have : 2 * y2 = 0 := by linear_combination z1 - z2
    exact (mul_eq_zero.1 this).resolve_left h0
  exact e0 (by rw [← hE, hy, mul_zero])

theorem one_add_ne {x1 y1 x2 y2 : F} (h1 : C.On x1 y1) (h2 : C.On x2 y2) :
    1 + C.d * x1 * x2 * y1 * y2 ≠ 0 := fun h => sq_ne_one h1 h2 (by
  have : C.d * x1 * x2 * y1 * y2 = -1 := by linear_combination h
  rw [this]; ring)

theorem one_sub_ne {x1 y1 x2 y2 : F} (h1 : C.On x1 y1) (h2 : C.On x2 y2) :
    1 - C.d * x1 * x2 * y1 * y2 ≠ 0 := fun h => sq_ne_one h1 h2 (by
  have : C.d * x1 * x2 * y1 * y2 = 1 := by linear_combination -h
  rw [this]; ring)

/-- The addition law stays on the curve. -/
theorem on_add {x1 y1 x2 y2 : F} (g1 : C.On x1 y1) (g2 : C.On x2 y2) :
    C.On ((x1 * y2 + y1 * x2) / (1 + C.d * x1 * x2 * y1 * y2))
      ((y1 * y2 + x1 * x2) / (1 - C.d * x1 * x2 * y1 * y2)) := by
  have n1 := one_add_ne g1 g2
  have n2 := one_sub_ne g1 g2
  unfold On at g1 g2 ⊢
  have h1 := sub_eq_zero.2 g1
  have h2 := sub_eq_zero.2 g2
  generalize C.d = d at *
  have key : (y1 * y2 + x1 * x2) ^ 2 * (1 + d * x1 * x2 * y1 * y2) ^ 2 -
      (x1 * y2 + y1 * x2) ^ 2 * (1 - d * x1 * x2 * y1 * y2) ^ 2 =
      (1 + d * x1 * x2 * y1 * y2) ^ 2 * (1 - d * x1 * x2 * y1 * y2) ^ 2 +
        d * (x1 * y2 + y1 * x2) ^ 2 * (y1 * y2 + x1 * x2) ^ 2 := by
    linear_combination
        (y2^4-4*x2^2*y2^2-2*x2^2*y2^2*d+2*x2^2*y2^4+x2^4-2*x2^4*y2^2-2*x2^4*y2^4*d-x2^4*y2^4*d^2-
          y1^2*x2^2*y2^4*d+y1^2*x2^4*y2^2*d+y1^2*x2^4*y2^4*d^2+x1^2*x2^2*y2^4*d-x1^2*x2^4*y2^2*d-
          x1^2*x2^4*y2^4*d^2+x1^2*y1^2*x2^4*y2^4*d^3) * h1 + (1+y2^2-x2^2+2*x2^2*y2^2+x2^2*y2^2*d-
          y1^2*y2^2+y1^2*x2^2-2*y1^2*x2^2*y2^2-2*y1^2*x2^2*y2^2*d+y1^4*x2^2*y2^2*d+x1^2*y2^2-
          x1^2*x2^2+2*x1^2*x2^2*y2^2+2*x1^2*x2^2*y2^2*d+x1^4*x2^2*y2^2*d) * h2
  generalize x1 * y2 + y1 * x2 = N at *
  generalize y1 * y2 + x1 * x2 = M at *
  generalize 1 + d * x1 * x2 * y1 * y2 = D1 at *
  generalize 1 - d * x1 * x2 * y1 * y2 = D2 at *
  field_simp
  linear_combination key

namespace Pt

/-- The neutral element. -/
instance : Zero C.Pt := ⟨⟨0, 1, by unfold On; ring⟩⟩

/-- The twisted Edwards addition law. -/
instance : Add C.Pt := ⟨fun P Q =>
  ⟨(P.x * Q.y + P.y * Q.x) / (1 + C.d * P.x * Q.x * P.y * Q.y),
   (P.y * Q.y + P.x * Q.x) / (1 - C.d * P.x * Q.x * P.y * Q.y), on_add P.on Q.on⟩⟩

/-- The inverse. -/
instance : Neg C.Pt := ⟨fun P => ⟨-P.x, P.y, by have := P.on; unfold On at *; linear_combination this⟩⟩

theorem zero_x : (0 : C.Pt).x = 0 := rfl
theorem zero_y : (0 : C.Pt).y = 1 := rfl
theorem neg_x (P : C.Pt) : (-P).x = -P.x := rfl
theorem neg_y (P : C.Pt) : (-P).y = P.y := rfl
theorem add_x (P Q : C.Pt) :
    (P + Q).x = (P.x * Q.y + P.y * Q.x) / (1 + C.d * P.x * Q.x * P.y * Q.y) := rfl
theorem add_y (P Q : C.Pt) :
    (P + Q).y = (P.y * Q.y + P.x * Q.x) / (1 - C.d * P.x * Q.x * P.y * Q.y) := rfl

theorem add_comm' (P Q : C.Pt) : P + Q = Q + P := by
  ext
  · rw [add_x, add_x]; congr 1 <;> ring
  · rw [add_y, add_y]; congr 1 <;> ring

theorem zero_add' (P : C.Pt) : 0 + P = P := by
  ext
  · rw [add_x, zero_x, zero_y]; simp
  · rw [add_y, zero_x, zero_y]; simp

theorem neg_add' (P : C.Pt) : -P + P = 0 := by
  have h := P.on
  have n2 := one_sub_ne (-P).on P.on
  ext
  · rw [add_x, neg_x, neg_y, zero_x, show -P.x * P.y + P.y * P.x = 0 by ring, zero_div]
  · rw [add_y, neg_x, neg_y, zero_y]
    rw [neg_x, neg_y] at n2
    rw [div_eq_one_iff_eq n2]
    unfold On at h
    linear_combination h

theorem assoc_x {d x1 y1 x2 y2 x3 y3 : F} (h1 : y1 ^ 2 - x1 ^ 2 - (1 + d * x1 ^ 2 * y1 ^ 2) = 0)
    (h2 : y2 ^ 2 - x2 ^ 2 - (1 + d * x2 ^ 2 * y2 ^ 2) = 0)
    (h3 : y3 ^ 2 - x3 ^ 2 - (1 + d * x3 ^ 2 * y3 ^ 2) = 0) :
    ((x1 * y2 + y1 * x2) * (1 - d * x1 * x2 * y1 * y2) * y3 +
        (y1 * y2 + x1 * x2) * (1 + d * x1 * x2 * y1 * y2) * x3) *
      ((1 + d * x2 * x3 * y2 * y3) * (1 - d * x2 * x3 * y2 * y3) +
        d * x1 * y1 * (x2 * y3 + y2 * x3) * (y2 * y3 + x2 * x3)) =
    (x1 * (y2 * y3 + x2 * x3) * (1 + d * x2 * x3 * y2 * y3) +
        y1 * (x2 * y3 + y2 * x3) * (1 - d * x2 * x3 * y2 * y3)) *
      ((1 + d * x1 * x2 * y1 * y2) * (1 - d * x1 * x2 * y1 * y2) +
        d * (x1 * y2 + y1 * x2) * (y1 * y2 + x1 * x2) * x3 * y3) := by
  linear_combination
      (-y1*x2*y2^4*x3^2*y3*d-y1*x2^2*y2^3*x3*d-y1*x2^2*y2^3*x3^3*d-y1*x2^3*y2^2*y3*d+
        y1*x2^3*y2^2*y3^3*d+y1*x2^3*y2^4*x3^2*y3*d^2+y1*x2^4*y2*x3*y3^2*d+
        y1*x2^4*y2^3*x3*y3^2*d^2+x1*x2*y2^4*x3*y3^2*d-x1*x2^2*y2^3*y3*d+x1*x2^2*y2^3*y3^3*d-
        x1*x2^3*y2^2*x3*d-x1*x2^3*y2^2*x3^3*d-x1*x2^3*y2^4*x3*y3^2*d^2-x1*x2^4*y2*x3^2*y3*d-
        x1*x2^4*y2^3*x3^2*y3*d^2) * h1 + (y1*y2*x3-y1*y2*x3*y3^2+y1*y2*x3^3+y1*y2*x3^3*y3^2*d+
        y1*x2*y3-y1*x2*y3^3+y1*x2*x3^2*y3+y1*x2*x3^2*y3^3*d-y1*x2*y2^2*x3^2*y3*d-
        y1*x2^2*y2*x3*y3^2*d-y1^3*y2*x3+y1^3*y2*x3*y3^2-y1^3*y2*x3^3-y1^3*y2*x3^3*y3^2*d-
        y1^3*x2*y3+y1^3*x2*y3^3-y1^3*x2*x3^2*y3-y1^3*x2*x3^2*y3^3*d+y1^3*x2*y2^2*x3^2*y3*d+
        y1^3*x2^2*y2*x3*y3^2*d+x1*y2*y3-x1*y2*y3^3+x1*y2*x3^2*y3+x1*y2*x3^2*y3^3*d+x1*x2*x3-
        x1*x2*x3*y3^2+x1*x2*x3^3+x1*x2*x3^3*y3^2*d+x1*x2*y2^2*x3*y3^2*d+x1*x2^2*y2*x3^2*y3*d-
        x1*y1^2*y2*y3+x1*y1^2*y2*y3^3-x1*y1^2*y2*x3^2*y3-x1*y1^2*y2*x3^2*y3^3*d-x1*y1^2*x2*x3+
        x1*y1^2*x2*x3*y3^2-x1*y1^2*x2*x3^3-x1*y1^2*x2*x3^3*y3^2*d-x1*y1^2*x2*y2^2*x3*y3^2*d+
        x1*y1^2*x2*y2^2*x3^3*y3^2*d^2-x1*y1^2*x2^2*y2*x3^2*y3*d-x1*y1^2*x2^2*y2*x3^2*y3^3*d^2+
        x1^2*y1*y2*x3-x1^2*y1*y2*x3*y3^2+x1^2*y1*y2*x3^3+x1^2*y1*y2*x3^3*y3^2*d+x1^2*y1*x2*y3-
        x1^2*y1*x2*y3^3+x1^2*y1*x2*x3^2*y3+x1^2*y1*x2*x3^2*y3^3*d-x1^2*y1*x2*y2^2*x3^2*y3*d-
        x1^2*y1*x2*y2^2*x3^2*y3^3*d^2-x1^2*y1*x2^2*y2*x3*y3^2*d+x1^2*y1*x2^2*y2*x3^3*y3^2*d^2+
        x1^3*y2*y3-x1^3*y2*y3^3+x1^3*y2*x3^2*y3+x1^3*y2*x3^2*y3^3*d+x1^3*x2*x3-x1^3*x2*x3*y3^2+
        x1^3*x2*x3^3+x1^3*x2*x3^3*y3^2*d+x1^3*x2*y2^2*x3*y3^2*d+x1^3*x2^2*y2*x3^2*y3*d) * h2 + (-
        y1*y2*x3+y1*y2^3*x3-y1*x2*y3+y1*x2*y2^2*y3-y1*x2^2*y2*x3-y1*x2^3*y3+y1^3*y2*x3-
        y1^3*y2^3*x3+y1^3*x2*y3-y1^3*x2*y2^2*y3+y1^3*x2^2*y2*x3+y1^3*x2^3*y3-x1*y2*y3+x1*y2^3*y3-
        x1*x2*x3+x1*x2*y2^2*x3-x1*x2^2*y2*y3-x1*x2^3*x3+x1*y1^2*y2*y3-x1*y1^2*y2^3*y3+
        x1*y1^2*x2*x3-x1*y1^2*x2*y2^2*x3-x1*y1^2*x2*y2^2*x3*d+x1*y1^2*x2^2*y2*y3+
        x1*y1^2*x2^2*y2*y3*d+x1*y1^2*x2^3*x3-x1^2*y1*y2*x3+x1^2*y1*y2^3*x3-x1^2*y1*x2*y3+
        x1^2*y1*x2*y2^2*y3+x1^2*y1*x2*y2^2*y3*d-x1^2*y1*x2^2*y2*x3-x1^2*y1*x2^2*y2*x3*d-
        x1^2*y1*x2^3*y3-x1^3*y2*y3+x1^3*y2^3*y3-x1^3*x2*x3+x1^3*x2*y2^2*x3-x1^3*x2^2*y2*y3-
        x1^3*x2^3*x3) * h3

theorem assoc_y {d x1 y1 x2 y2 x3 y3 : F} (h1 : y1 ^ 2 - x1 ^ 2 - (1 + d * x1 ^ 2 * y1 ^ 2) = 0)
    (h2 : y2 ^ 2 - x2 ^ 2 - (1 + d * x2 ^ 2 * y2 ^ 2) = 0)
    (h3 : y3 ^ 2 - x3 ^ 2 - (1 + d * x3 ^ 2 * y3 ^ 2) = 0) :
    ((y1 * y2 + x1 * x2) * (1 + d * x1 * x2 * y1 * y2) * y3 +
        (x1 * y2 + y1 * x2) * (1 - d * x1 * x2 * y1 * y2) * x3) *
      ((1 + d * x2 * x3 * y2 * y3) * (1 - d * x2 * x3 * y2 * y3) -
        d * x1 * y1 * (x2 * y3 + y2 * x3) * (y2 * y3 + x2 * x3)) =
    (y1 * (y2 * y3 + x2 * x3) * (1 + d * x2 * x3 * y2 * y3) +
        x1 * (x2 * y3 + y2 * x3) * (1 - d * x2 * x3 * y2 * y3)) *
      ((1 + d * x1 * x2 * y1 * y2) * (1 - d * x1 * x2 * y1 * y2) -
        d * (x1 * y2 + y1 * x2) * (y1 * y2 + x1 * x2) * x3 * y3) := by
  linear_combination
      (y1*x2*y2^4*x3*y3^2*d-y1*x2^2*y2^3*y3*d+y1*x2^2*y2^3*y3^3*d-y1*x2^3*y2^2*x3*d-
        y1*x2^3*y2^2*x3^3*d-y1*x2^3*y2^4*x3*y3^2*d^2-y1*x2^4*y2*x3^2*y3*d-
        y1*x2^4*y2^3*x3^2*y3*d^2-x1*x2*y2^4*x3^2*y3*d-x1*x2^2*y2^3*x3*d-x1*x2^2*y2^3*x3^3*d-
        x1*x2^3*y2^2*y3*d+x1*x2^3*y2^2*y3^3*d+x1*x2^3*y2^4*x3^2*y3*d^2+x1*x2^4*y2*x3*y3^2*d+
        x1*x2^4*y2^3*x3*y3^2*d^2) * h1 + (y1*y2*y3-y1*y2*y3^3+y1*y2*x3^2*y3+y1*y2*x3^2*y3^3*d+
        y1*x2*x3-y1*x2*x3*y3^2+y1*x2*x3^3+y1*x2*x3^3*y3^2*d+y1*x2*y2^2*x3*y3^2*d+
        y1*x2^2*y2*x3^2*y3*d-y1^3*y2*y3+y1^3*y2*y3^3-y1^3*y2*x3^2*y3-y1^3*y2*x3^2*y3^3*d-
        y1^3*x2*x3+y1^3*x2*x3*y3^2-y1^3*x2*x3^3-y1^3*x2*x3^3*y3^2*d-y1^3*x2*y2^2*x3*y3^2*d-
        y1^3*x2^2*y2*x3^2*y3*d+x1*y2*x3-x1*y2*x3*y3^2+x1*y2*x3^3+x1*y2*x3^3*y3^2*d+x1*x2*y3-
        x1*x2*y3^3+x1*x2*x3^2*y3+x1*x2*x3^2*y3^3*d-x1*x2*y2^2*x3^2*y3*d-x1*x2^2*y2*x3*y3^2*d-
        x1*y1^2*y2*x3+x1*y1^2*y2*x3*y3^2-x1*y1^2*y2*x3^3-x1*y1^2*y2*x3^3*y3^2*d-x1*y1^2*x2*y3+
        x1*y1^2*x2*y3^3-x1*y1^2*x2*x3^2*y3-x1*y1^2*x2*x3^2*y3^3*d+x1*y1^2*x2*y2^2*x3^2*y3*d+
        x1*y1^2*x2*y2^2*x3^2*y3^3*d^2+x1*y1^2*x2^2*y2*x3*y3^2*d-x1*y1^2*x2^2*y2*x3^3*y3^2*d^2+
        x1^2*y1*y2*y3-x1^2*y1*y2*y3^3+x1^2*y1*y2*x3^2*y3+x1^2*y1*y2*x3^2*y3^3*d+x1^2*y1*x2*x3-
        x1^2*y1*x2*x3*y3^2+x1^2*y1*x2*x3^3+x1^2*y1*x2*x3^3*y3^2*d+x1^2*y1*x2*y2^2*x3*y3^2*d-
        x1^2*y1*x2*y2^2*x3^3*y3^2*d^2+x1^2*y1*x2^2*y2*x3^2*y3*d+x1^2*y1*x2^2*y2*x3^2*y3^3*d^2+
        x1^3*y2*x3-x1^3*y2*x3*y3^2+x1^3*y2*x3^3+x1^3*y2*x3^3*y3^2*d+x1^3*x2*y3-x1^3*x2*y3^3+
        x1^3*x2*x3^2*y3+x1^3*x2*x3^2*y3^3*d-x1^3*x2*y2^2*x3^2*y3*d-x1^3*x2^2*y2*x3*y3^2*d) * h2 +
        (-y1*y2*y3+y1*y2^3*y3-y1*x2*x3+y1*x2*y2^2*x3-y1*x2^2*y2*y3-y1*x2^3*x3+y1^3*y2*y3-
        y1^3*y2^3*y3+y1^3*x2*x3-y1^3*x2*y2^2*x3+y1^3*x2^2*y2*y3+y1^3*x2^3*x3-x1*y2*x3+x1*y2^3*x3-
        x1*x2*y3+x1*x2*y2^2*y3-x1*x2^2*y2*x3-x1*x2^3*y3+x1*y1^2*y2*x3-x1*y1^2*y2^3*x3+
        x1*y1^2*x2*y3-x1*y1^2*x2*y2^2*y3-x1*y1^2*x2*y2^2*y3*d+x1*y1^2*x2^2*y2*x3+
        x1*y1^2*x2^2*y2*x3*d+x1*y1^2*x2^3*y3-x1^2*y1*y2*y3+x1^2*y1*y2^3*y3-x1^2*y1*x2*x3+
        x1^2*y1*x2*y2^2*x3+x1^2*y1*x2*y2^2*x3*d-x1^2*y1*x2^2*y2*y3-x1^2*y1*x2^2*y2*y3*d-
        x1^2*y1*x2^3*x3-x1^3*y2*x3+x1^3*y2^3*x3-x1^3*x2*y3+x1^3*x2*y2^2*y3-x1^3*x2^2*y2*x3-
        x1^3*x2^3*y3) * h3

theorem add_assoc' (P Q R : C.Pt) : P + Q + R = P + (Q + R) := by
  have h1 := sub_eq_zero.2 P.on
  have h2 := sub_eq_zero.2 Q.on
  have h3 := sub_eq_zero.2 R.on
  have a1 := one_add_ne P.on Q.on
  have a2 := one_sub_ne P.on Q.on
  have b1 := one_add_ne Q.on R.on
  have b2 := one_sub_ne Q.on R.on
  have c1 := one_add_ne (P + Q).on R.on
  have c2 := one_sub_ne (P + Q).on R.on
  have d1 := one_add_ne P.on (Q + R).on
  have d2 := one_sub_ne P.on (Q + R).on
  obtain ⟨x1, y1, g1⟩ := P
  obtain ⟨x2, y2, g2⟩ := Q
  obtain ⟨x3, y3, g3⟩ := R
  have ax := assoc_x h1 h2 h3
  have ay := assoc_y h1 h2 h3
  ext
  · rw [add_x, add_x]
    rw [add_x, add_y] at c1 d1
    rw [add_x, add_y, add_x, add_y]
    dsimp only at *
    generalize C.d = d at *
    generalize x1 * y2 + y1 * x2 = N at *
    generalize y1 * y2 + x1 * x2 = M at *
    generalize x2 * y3 + y2 * x3 = N' at *
    generalize y2 * y3 + x2 * x3 = M' at *
    generalize 1 + d * x1 * x2 * y1 * y2 = D1 at *
    generalize 1 - d * x1 * x2 * y1 * y2 = D2 at *
    generalize 1 + d * x2 * x3 * y2 * y3 = E1 at *
    generalize 1 - d * x2 * x3 * y2 * y3 = E2 at *
    rw [div_eq_div_iff c1 d1]
    field_simp
    linear_combination ax
  · rw [add_y, add_y]
    rw [add_x, add_y] at c2 d2
    rw [add_x, add_y, add_x, add_y]
    dsimp only at *
    generalize C.d = d at *
    generalize x1 * y2 + y1 * x2 = N at *
    generalize y1 * y2 + x1 * x2 = M at *
    generalize x2 * y3 + y2 * x3 = N' at *
    generalize y2 * y3 + x2 * x3 = M' at *
    generalize 1 + d * x1 * x2 * y1 * y2 = D1 at *
    generalize 1 - d * x1 * x2 * y1 * y2 = D2 at *
    generalize 1 + d * x2 * x3 * y2 * y3 = E1 at *
    generalize 1 - d * x2 * x3 * y2 * y3 = E2 at *
    rw [div_eq_div_iff c2 d2]
    field_simp
    linear_combination ay

/-- The points form a commutative group. -/
instance : AddCommGroup C.Pt where
  add_assoc := add_assoc'
  zero_add := zero_add'
  add_zero P := by rw [add_comm', zero_add']
  neg_add_cancel := neg_add'
  add_comm := add_comm'
  nsmul := nsmulRec
  zsmul := zsmulRec

end Pt
end EdCurve
end Zerocaf
