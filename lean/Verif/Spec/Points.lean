import Verif.Spec.Curve
import Verif.Proof.Sqrt
import Verif.Model.Edwards

/-!
# Specification: the curve of the library and what coordinates represent

The curve is `-x^2 + y^2 = 1 - (126296/126297) x^2 y^2` over the field with `p` elements. `Rep` says which
curve point a coordinate tuple of the model represents; it only mentions the integers the limbs denote.
-/

set_option exponentiation.threshold 600

namespace Zerocaf

/-- The curve parameter `d = -126296/126297`. -/
def dZ : Fp := -126296 / 126297

theorem c126297 : (126297 : Fp) ≠ 0 := by
  have : ((126297 : ℕ) : Fp) ≠ 0 := by
    rw [Ne, ZMod.natCast_eq_zero_iff]; exact Nat.not_dvd_of_pos_of_lt (by decide) (by decide)
  exact_mod_cast this

/-- The integer stored as `EDWARDS_D`. -/
def dNat : Nat := 951605751702391019481481818669129158712512026257330939079110344917983315091

theorem dZ_eq : dZ = (dNat : Fp) := by
  unfold dZ
  rw [div_eq_iff c126297]
  have h : ((dNat * 126297 + 126296 : ℕ) : Fp) = ((0 : ℕ) : Fp) := by
    rw [ZMod.natCast_eq_natCast_iff']; decide +kernel
  rw [Nat.cast_add, Nat.cast_mul, Nat.cast_zero, Nat.cast_ofNat, Nat.cast_ofNat] at h
  linear_combination -h

theorem dZ_ne : dZ ≠ 0 := by
  rw [dZ_eq, Ne, ZMod.natCast_eq_zero_iff]
  exact Nat.not_dvd_of_pos_of_lt (by decide) (by decide)

theorem dZ_not_square : ¬ IsSquare dZ := by
  intro h
  have h1 := (ZMod.euler_criterion p dZ_ne).1 h
  rw [dZ_eq, Field.pow_facts dNat (p / 2) (by decide)] at h1
  have h2 : Primality.powMod 260 p dNat (p / 2) = p - 1 := by decide +kernel
  rw [h2, Nat.cast_sub (by decide), ZMod.natCast_self, Nat.cast_one, zero_sub] at h1
  exact Field.one_ne_neg_one h1.symm

/-- The curve of the library. -/
def zc : EdCurve Fp where
  d := dZ
  i := Field.iZ
  i_sq := Field.iZ_sq
  d_ns := dZ_not_square
  two := Field.two_ne_zero'

/-- The group of the points of the curve. -/
abbrev E := zc.Pt

/-- The extended coordinates `P` represent the curve point `A`: coordinates are reduced, `Z` is not zero,
`X/Z` and `Y/Z` are the affine coordinates and `T = XY/Z`. -/
structure EdPoint.Rep (P : EdPoint) (A : E) : Prop where
  cX : P.X.Canon
  cY : P.Y.Canon
  cZ : P.Z.Canon
  cT : P.T.Canon
  z_ne : (P.Z.val : Fp) ≠ 0
  x_eq : (P.X.val : Fp) / P.Z.val = A.x
  y_eq : (P.Y.val : Fp) / P.Z.val = A.y
  t_eq : (P.T.val : Fp) = P.X.val * P.Y.val / P.Z.val

/-- The projective coordinates `P` represent the curve point `A`. -/
structure ProjPoint.Rep (P : ProjPoint) (A : E) : Prop where
  cX : P.X.Canon
  cY : P.Y.Canon
  cZ : P.Z.Canon
  z_ne : (P.Z.val : Fp) ≠ 0
  x_eq : (P.X.val : Fp) / P.Z.val = A.x
  y_eq : (P.Y.val : Fp) / P.Z.val = A.y

/-- The affine coordinates `P` represent the curve point `A`. -/
structure AffPoint.Rep (P : AffPoint) (A : E) : Prop where
  cX : P.X.Canon
  cY : P.Y.Canon
  x_eq : (P.X.val : Fp) = A.x
  y_eq : (P.Y.val : Fp) = A.y

/-- The tuple represents some curve point. -/
def EdPoint.Valid (P : EdPoint) : Prop := ∃ A, P.Rep A
def ProjPoint.Valid (P : ProjPoint) : Prop := ∃ A, P.Rep A
def AffPoint.Valid (P : AffPoint) : Prop := ∃ A, P.Rep A

end Zerocaf
