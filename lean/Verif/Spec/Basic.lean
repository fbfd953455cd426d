import Verif.Machine

/-!
# Specification: integers denoted by machine representations

Independent of the model functions: only the representation types are mentioned.
-/

namespace Zerocaf

/-- The field prime `p = 2^252 + 27742317777372353535851937790883648493`. -/
def p : Nat := 2 ^ 252 + 27742317777372353535851937790883648493

/-- The subgroup order `L = 2^249 + 14490550575682688738086195780655237219`. -/
def ell : Nat := 2 ^ 249 + 14490550575682688738086195780655237219

/-- The integer denoted by five radix-`2^52` limbs. -/
def L5.val (a : L5) : Nat :=
  a.l0 + 2 ^ 52 * a.l1 + 2 ^ 104 * a.l2 + 2 ^ 156 * a.l3 + 2 ^ 208 * a.l4

/-- All limbs are below `2^52`. -/
def L5.WF (a : L5) : Prop :=
  a.l0 < 2 ^ 52 ∧ a.l1 < 2 ^ 52 ∧ a.l2 < 2 ^ 52 ∧ a.l3 < 2 ^ 52 ∧ a.l4 < 2 ^ 52

instance (a : L5) : Decidable a.WF := by unfold L5.WF; infer_instance

/-- A reduced field element. -/
def L5.Canon (a : L5) : Prop := a.WF ∧ a.val < p

/-- A reduced scalar. -/
def L5.SCanon (a : L5) : Prop := a.WF ∧ a.val < ell

instance (a : L5) : Decidable a.Canon := by unfold L5.Canon; infer_instance
instance (a : L5) : Decidable a.SCanon := by unfold L5.SCanon; infer_instance

/-- Little-endian integer of a list of bytes. -/
def leNat : List UInt8 → Nat
  | [] => 0
  | b :: bs => b.toNat + 256 * leNat bs

/-- The integer a byte string denotes (little endian). -/
def bytesVal {n : Nat} (b : Vector UInt8 n) : Nat := leNat b.toList

/-- Enough loop fuel for every loop of the library that terminates. -/
def Cfg.Enough (c : Cfg) : Prop := 1000 ≤ c.fuel

instance (c : Cfg) : Decidable c.Enough := inferInstanceAs (Decidable (1000 ≤ c.fuel))

/-- The nine-word integer of a double-width product. -/
def W9.val (w : W9) : Nat :=
  w.w0 + 2 ^ 52 * w.w1 + 2 ^ 104 * w.w2 + 2 ^ 156 * w.w3 + 2 ^ 208 * w.w4 + 2 ^ 260 * w.w5 +
    2 ^ 312 * w.w6 + 2 ^ 364 * w.w7 + 2 ^ 416 * w.w8

end Zerocaf
