import Verif.Model.Misc
import Verif.Props.Edwards
import Verif.Props.Compress

/-!
# Published constants, byte slices, unimplemented functions, documented examples (C84 to C87), tools (C90)
-/

set_option exponentiation.threshold 600

namespace Zerocaf
namespace Props

open Zerocaf.Field

/-! ### C84 -/

/-- C84: the moduli and the constants of the reduction algorithms satisfy the documented equations. -/
theorem C84_moduli :
    Scalar.L.val = 2 ^ 249 + 14490550575682688738086195780655237219 ∧
    FIELD_L.val = 2 ^ 252 + 27742317777372353535851937790883648493 ∧
    (Scalar.L.val * Scalar.LFACTOR + 1) % 2 ^ 52 = 0 ∧
    (FIELD_L.val * LFACTOR_FIELD + 1) % 2 ^ 52 = 0 ∧
    Scalar.RR.val = (2 ^ 260) ^ 2 % Scalar.L.val ∧
    RR_FIELD.val = (2 ^ 260) ^ 2 % FIELD_L.val ∧
    Misc.INV_RR.val = (2 ^ 253) ^ 2 % FIELD_L.val ∧
    POS_RANGE.val = (FIELD_L.val - 1) / 2 := by decide +kernel

/-- C84: the halves. -/
theorem C84_halves :
    Scalar.INVERSE_MOD_TWO.SCanon ∧ 2 * Scalar.INVERSE_MOD_TWO.val % ell = 1 ∧
    INVERSE_MOD_TWO.Canon ∧ 2 * INVERSE_MOD_TWO.val % p = 1 ∧
    MINUS_ONE_HALF.Canon ∧ (2 * MINUS_ONE_HALF.val + 1) % p = 0 := by decide +kernel

/-- C84: the curve constants have the documented decimal values and satisfy the documented equations. -/
theorem C84_curve :
    EDWARDS_A.val = 7237005577332262213973186563042994240857116359379907606001950938285454250988 ∧
    (EDWARDS_A.val + 1) % p = 0 ∧
    EDWARDS_D.val = 951605751702391019481481818669129158712512026257330939079110344917983315091 ∧
    (EDWARDS_D.val * 126297 + 126296) % p = 0 ∧
    SQRT_MINUS_ONE.val = 3034649101460298094273452163494570791663566989388331537498831373842135895065 ∧
    (SQRT_MINUS_ONE.val ^ 2 + 1) % p = 0 ∧
    Misc.INV_SQRT_A.val = 4202356475871964119699734399548423449193549369991576068503119564443318355924 ∧
    Misc.INV_SQRT_A.val * SQRT_MINUS_ONE.val % p = 1 ∧
    Misc.MINUS_SQRT_A.val = 4202356475871964119699734399548423449193549369991576068503119564443318355924 ∧
    (Misc.MINUS_SQRT_A.val + SQRT_MINUS_ONE.val) % p = 0 ∧
    Ristretto.INV_SQRT_A_MINUS_D.val =
      482283834104289360917429750399313974390948281833312135312952165682596457149 ∧
    Ristretto.INV_SQRT_A_MINUS_D.val ^ 2 * (EDWARDS_A.val + (p - EDWARDS_D.val)) % p = 1 ∧
    Ristretto.SQRT_AD_MINUS_ONE.val ^ 2 % p = (EDWARDS_A.val * EDWARDS_D.val + (p - 1)) % p := by
  decide +kernel

/-- C84: all of them are reduced. -/
theorem C84_reduced : Scalar.RR.SCanon ∧ RR_FIELD.Canon ∧ Misc.INV_RR.Canon ∧ POS_RANGE.Canon ∧
    EDWARDS_A.Canon ∧ EDWARDS_D.Canon ∧ SQRT_MINUS_ONE.Canon ∧ Misc.INV_SQRT_A.Canon ∧
    Misc.MINUS_SQRT_A.Canon ∧ Ristretto.INV_SQRT_A_MINUS_D.Canon ∧ Ristretto.SQRT_AD_MINUS_ONE.Canon := by
  decide +kernel

/-! ### C85 -/

theorem copyFromSlice_spec (bytes : List UInt8) :
    (∀ b, Misc.copyFromSlice bytes = .ok b ↔ b.toList = bytes) ∧
    (Misc.copyFromSlice bytes = .panic ↔ bytes.length ≠ 32) ∧ Misc.copyFromSlice bytes ≠ .diverge := by
  unfold Misc.copyFromSlice
  split_ifs with h
  · refine ⟨fun b => ?_, by simp [h], by simp⟩
    rw [Res.ok_inj]
    constructor
    · rintro rfl; rfl
    · intro e; subst e; rfl
  · refine ⟨fun b => ?_, by simp [h], by simp⟩
    refine iff_of_false (by simp) (fun e => h ?_)
    rw [← e]; simp

/-- C85: compressed points are built from exactly the slices of 32 bytes, unchanged; others panic. -/
theorem C85_from_slice (bytes : List UInt8) :
    (∀ b, Misc.edFromSlice bytes = .ok b ↔ b.toList = bytes) ∧
    (Misc.edFromSlice bytes = .panic ↔ bytes.length ≠ 32) ∧
    (∀ b, Misc.risFromSlice bytes = .ok b ↔ b.toList = bytes) ∧
    (Misc.risFromSlice bytes = .panic ↔ bytes.length ≠ 32) :=
  ⟨(copyFromSlice_spec bytes).1, (copyFromSlice_spec bytes).2.1, (copyFromSlice_spec bytes).1,
    (copyFromSlice_spec bytes).2.1⟩

example : Misc.edFromSlice (List.replicate 32 7) = .ok (Vector.replicate 32 7) ∧
    Misc.edFromSlice (List.replicate 31 7) = .panic ∧ Misc.risFromSlice (List.replicate 33 7) = .panic := by
  decide

theorem foldl_and (l : List Bool) (b : Bool) :
    l.foldl (· && ·) b = true ↔ b = true ∧ ∀ x ∈ l, x = true := by
  induction l generalizing b with
  | nil => simp
  | cons x l ih => rw [List.foldl_cons, ih]; simp [and_assoc]

/-- C85: two compressed points are equal exactly if all bytes are. -/
theorem C85_eq (a b : Bytes32) : Misc.compressedCtEq a b = true ↔ a = b := by
  unfold Misc.compressedCtEq
  rw [foldl_and]
  constructor
  · rintro ⟨-, h⟩
    ext i hi
    have := h (decide (a[i] = b[i])) (by
      rw [Vector.mem_toList_iff, Vector.mem_iff_getElem]
      exact ⟨i, hi, by rw [Vector.getElem_zipWith]⟩)
    rw [decide_eq_true_eq] at this
    rw [this]
  · rintro rfl
    refine ⟨rfl, fun x hx => ?_⟩
    rw [Vector.mem_toList_iff, Vector.mem_iff_getElem] at hx
    obtain ⟨i, hi, rfl⟩ := hx
    rw [Vector.getElem_zipWith]; simp

/-- C85: reading a byte panics exactly past the end. -/
theorem C85_index (b : Bytes32) (i : Nat) :
    (∀ h : i < 32, Misc.index b i = .ok b[i]) ∧ (32 ≤ i → Misc.index b i = .panic) := by
  unfold Misc.index
  refine ⟨fun h => ?_, fun h => ?_⟩
  · rw [Vector.getElem?_eq_getElem h]; rfl
  · rw [Vector.getElem?_eq_none h]; rfl

/-- C85: the default compressed Edwards point decodes to the identity. -/
theorem C85_default (c : Cfg) (hc : c.Enough) :
    ∃ P, Ed.decompress c Misc.compressedDefault = .ok (some P) ∧ P.Rep 0 := by
  have hv : ((bytesVal Misc.compressedDefault % 2 ^ 252 : ℕ) : Fp) = 1 := by
    rw [show bytesVal Misc.compressedDefault % 2 ^ 252 = 1 by decide +kernel, Nat.cast_one]
  obtain ⟨o, e, h1, h2⟩ := C55_decompress c hc Misc.compressedDefault
  rw [hv] at h1 h2
  cases o with
  | none => exact absurd ⟨0, rfl⟩ (h2.1 rfl)
  | some P =>
    obtain ⟨A, hP, hy⟩ := h1 P rfl
    refine ⟨P, e, ?_⟩
    have hx := x_sq_eq A
    rw [hy] at hx
    have : A.x ^ 2 = 0 := by
      refine (mul_eq_zero.1 (show A.x ^ 2 * (1 + dZ * 1 ^ 2) = 0 by rw [hx]; ring)).resolve_right ?_
      have := one_add_dy_ne A
      rwa [hy] at this
    have hA : A = 0 := by
      ext
      · exact pow_eq_zero_iff (two_ne_zero) |>.1 this
      · exact hy
    rwa [hA] at hP

/-! ### C86 -/

/-- C86: these functions of the interface always panic, whatever the arguments and the build. -/
theorem C86_unimplemented (P : EdPoint) (m : Bytes32) (sign : UInt8) (w : Bytes64) :
    Ed.toMontgomery P = .panic ∧ Montgomery.toEdwards m sign = .panic ∧ Scalar.fromBytesWide w = .panic :=
  ⟨rfl, rfl, rfl⟩

/-! ### C57 -/

/-- C57: entries 1, 2 and 3 of the table behind `coset4` are one, two and three times the point `(-i, 0)` of order
four. Entry 0 should be the identity and is no point. -/
theorem C57_table : ∃ U : E, U.x = -iZ ∧ U.y = 0 ∧ Ed.COSET1.Rep U ∧ Ed.COSET2.Rep (U + U) ∧
    Ed.COSET3.Rep (U + U + U) ∧ U + U ≠ 0 ∧ U + U + U + U = 0 ∧ ¬ Ed.COSET0.Valid := by
  have hx : fourTorsion.x = -iZ := rfl
  have hy : fourTorsion.y = 0 := rfl
  have h2 : fourTorsion + fourTorsion = twoTorsion := by
    apply EdCurve.Pt.ext
    · show _ = (0 : Fp)
      rw [EdCurve.Pt.add_x, hx, hy]; simp
    · show _ = (-1 : Fp)
      rw [EdCurve.Pt.add_y, hx, hy]
      have := iZ_sq
      simp only [mul_zero, sub_zero, div_one, zero_add]
      linear_combination this
  have h4 : twoTorsion + twoTorsion = 0 := by
    apply EdCurve.Pt.ext
    · show _ = (0 : Fp)
      rw [EdCurve.Pt.add_x]; show (0 * -1 + -1 * 0 : Fp) / _ = 0; simp
    · show _ = (1 : Fp)
      rw [EdCurve.Pt.add_y]; show (-1 * -1 + 0 * 0 : Fp) / (1 - dZ * 0 * 0 * -1 * -1) = 1; simp
  have h4' : fourTorsion + fourTorsion + fourTorsion + fourTorsion = 0 := by
    rw [h2, add_assoc, h2, h4]
  refine ⟨fourTorsion, hx, hy, COSET1_rep, by rw [h2]; exact COSET2_rep, ?_, ?_, h4', ?_⟩
  · obtain ⟨R, e, r⟩ := Ed.neg_rep dbg COSET1_rep
    have e3 : Ed.neg dbg Ed.COSET1 = .ok Ed.COSET3 := by decide +kernel
    rw [e3, Res.ok_inj] at e
    rwa [eq_neg_of_add_eq_zero_left h4', e]
  · rw [h2]
    intro h
    have h' : (-1 : Fp) = 1 := congrArg EdCurve.Pt.y h
    exact absurd h' (by decide +kernel)
  · rintro ⟨B, hB⟩
    have h1 := hB.x_eq
    have h3 := hB.y_eq
    have e1 : (Ed.COSET0.X.val : Fp) = 1 := by decide +kernel
    have e2 : (Ed.COSET0.Y.val : Fp) = 0 := by decide +kernel
    have e3 : (Ed.COSET0.Z.val : Fp) = 1 := by decide +kernel
    rw [e1, e3, div_one] at h1
    rw [e2, e3, zero_div] at h3
    have h5 := on_fact B
    rw [← h1, ← h3] at h5
    have h' : (-1 : Fp) = 1 := by linear_combination h5
    exact absurd h' (by decide +kernel)

/-! ### C87 -/

/-- C87: the point `G` of the usage example is no point of the curve, although its coordinates are reduced and
satisfy `XY = ZT`; the validity check rejects it. -/
theorem C87_example_point (c : Cfg) :
    Misc.exampleG.X.Canon ∧ Misc.exampleG.Y.Canon ∧ Misc.exampleG.Z.Canon ∧ Misc.exampleG.T.Canon ∧
    Misc.exampleG.X.val * Misc.exampleG.Y.val % p = Misc.exampleG.Z.val * Misc.exampleG.T.val % p ∧
    Ed.isValid c Misc.exampleG = .ok false ∧ ¬ Misc.exampleG.Valid := by
  have hX : Misc.exampleG.X.Canon := by decide
  have hY : Misc.exampleG.Y.Canon := by decide
  have hZ : Misc.exampleG.Z.Canon := by decide
  have hT : Misc.exampleG.T.Canon := by decide
  have hz : Misc.exampleG.Z.val = 1 := by decide
  have hx : Misc.exampleG.X.val = 23 := by decide
  have hoff : ¬ OnCurve ((Misc.exampleG.X.val : Fp) / Misc.exampleG.Z.val)
      ((Misc.exampleG.Y.val : Fp) / Misc.exampleG.Z.val) := by
    rw [hz, Nat.cast_one, div_one, div_one]
    unfold OnCurve
    intro h
    have h' : ((Misc.exampleG.Y.val ^ 2 : ℕ) : Fp) =
        ((1 + dNat * 23 ^ 2 * Misc.exampleG.Y.val ^ 2 + 23 ^ 2 : ℕ) : Fp) := by
      rw [hx, dZ_eq] at h
      generalize Misc.exampleG.Y.val = y at h ⊢
      generalize dNat = d at h ⊢
      push_cast at h ⊢
      linear_combination h
    rw [ZMod.natCast_eq_natCast_iff'] at h'
    revert h'
    decide +kernel
  refine ⟨hX, hY, hZ, hT, by decide +kernel, ?_, fun h => ?_⟩
  · obtain ⟨b, e, hb⟩ := C44_projective_valid c (Proj.ofEd Misc.exampleG) hX hY hZ
      (by rw [show (Proj.ofEd Misc.exampleG).Z.val = 1 from hz]; decide)
    have : b = false := by
      rw [← Bool.not_eq_true]; exact fun h => hoff (hb.1 h)
    rw [this] at e
    exact e
  · obtain ⟨-, -, -, h⟩ := (C37_valid_iff _).1 h
    refine hoff ?_
    unfold OnCurve
    rw [hz] at h ⊢
    rw [Nat.cast_one, div_one, div_one]
    rw [Nat.cast_one] at h
    linear_combination h

/-- C87: the random scalar of the usage example never panics; it is a reduced scalar below `2^248`. -/
theorem C87_example_scalar (rnd : Vector UInt8 31) :
    ∃ r, Misc.exampleScalar rnd = .ok r ∧ r.SCanon ∧ r.val = bytesVal rnd ∧ r.val < 2 ^ 248 := by
  have hv : bytesVal (rnd ++ (#v[0] : Vector UInt8 1)) = bytesVal rnd := by
    unfold bytesVal
    rw [Vector.toList_append]
    rw [leNat_append]; simp [leNat]
  have hlt : bytesVal rnd < 2 ^ 248 := by
    have := leNat_lt rnd.toList
    rw [Vector.length_toList] at this
    exact this
  obtain ⟨r, e, cr, v⟩ := Scalar.fromBytes_ok (rnd ++ (#v[0] : Vector UInt8 1))
    (by rw [hv]; exact hlt.trans (by decide))
  rw [hv] at v
  exact ⟨r, e, cr, v, by rw [v]; exact hlt⟩

example : Misc.exampleScalar (Vector.replicate 31 255) = .ok ⟨2 ^ 52 - 1, 2 ^ 52 - 1, 2 ^ 52 - 1, 2 ^ 52 - 1,
    2 ^ 40 - 1⟩ := by decide +kernel

/-- The subgroup order printed in the scalar documentation. -/
def docOrder : Nat := 2 ^ 249 - 15145038707218910765482344729778085401

/-- The subgroup order printed in the README. -/
def readmeOrder : Nat := 2 ^ 249 + 15114490550575682688738086195780655237219

/-- C87: neither documented number is the order of the base point: the multiples by them are not the identity.
The first is accepted as a scalar, which is not zero. -/
theorem C87_documented_orders (c : Cfg) (hc : c.Enough) :
    docOrder ≠ ell ∧ readmeOrder ≠ ell ∧ docOrder • Bpt ≠ 0 ∧ readmeOrder • Bpt ≠ 0 ∧
    ∃ r P, Scalar.fromBytes (External.leBytes docOrder) = .ok r ∧ Scalar.ctEq r Scalar.zero = false ∧
      Ed.mul c Ed.BASEPOINT r = .ok P ∧ Ed.ctEq c P Ed.identity = .ok false := by
  have nd : ∀ n : ℕ, n % ell ≠ 0 → n • Bpt ≠ 0 := fun n h e => by
    have := addOrderOf_dvd_of_nsmul_eq_zero e
    rw [Bpt_order] at this
    exact h (Nat.mod_eq_zero_of_dvd this)
  have h1 : docOrder • Bpt ≠ 0 := nd _ (by decide)
  obtain ⟨r, e, cr, v⟩ := Scalar.fromBytes_ok (External.leBytes docOrder) (by decide +kernel)
  rw [show bytesVal (External.leBytes docOrder) = docOrder by decide +kernel] at v
  obtain ⟨P, eP, hP⟩ := C45_extended c hc BASEPOINT_rep r cr.1 (cr.2.trans (by decide))
  obtain ⟨b, eb, hb⟩ := C42_extended c hc hP Ed.identity_rep
  refine ⟨by decide, by decide, h1, nd _ (by decide), r, P, e, ?_, eP, ?_⟩
  · rw [Scalar.ctEq_eq, Field.ctEq_spec _ _ cr.1 (by decide) (cr.2.trans (by decide)) (by decide), v]
    decide
  · rw [eb, Res.ok_inj, ← Bool.not_eq_true, hb, v]
    exact h1

/-- C87: the documented division is right: `-126296 / 126297` is the constant `d`. -/
theorem C87_documented_division (c : Cfg) (hc : c.Enough) :
    (do let m ← neg c (fromU32 126296); div c m (fromU32 126297)) = .ok EDWARDS_D := by
  rw [fromU32_enc _ (by decide), fromU32_enc _ (by decide), neg_enc, Res.ok_bind,
    div_enc c hc _ _ (by exact_mod_cast c126297), EDWARDS_D_enc]
  unfold dZ
  norm_num

/-! ### C90 -/

/-- C90: the tool that splits numbers into limbs returns the limbs of the number modulo `2^260`, and the tool
that joins limbs returns the number denoted, so joining inverts splitting exactly for numbers below `2^260`. -/
theorem C90_base52 (n : Nat) (a : L5) :
    (Misc.toBase52 n).WF ∧ (Misc.toBase52 n).val = n % 2 ^ 260 ∧ Misc.fromBase52 a = a.val ∧
    (Misc.fromBase52 (Misc.toBase52 n) = n ↔ n < 2 ^ 260) ∧
    (Misc.toBase52 (Misc.fromBase52 a) = a ↔ a.WF) := by
  have w : ∀ n, (Misc.toBase52 n).WF := fun n => by
    unfold Misc.toBase52 L5.WF; dsimp only; omega
  have v : ∀ n, (Misc.toBase52 n).val = n % 2 ^ 260 := fun n => by
    unfold Misc.toBase52 L5.val; dsimp only; omega
  have f : ∀ a, Misc.fromBase52 a = a.val := fun a => by
    unfold Misc.fromBase52 L5.val; norm_num
  refine ⟨w n, v n, f a, ?_, ?_⟩
  · rw [f, v]
    exact ⟨fun h => by rw [← h]; exact Nat.mod_lt _ (by decide), fun h => Nat.mod_eq_of_lt h⟩
  · rw [f]
    refine ⟨fun h => by rw [← h]; exact w _, fun h => (w _).ext h ?_⟩
    rw [v]
    refine Nat.mod_eq_of_lt ?_
    obtain ⟨h0, h1, h2, h3, h4⟩ := h
    unfold L5.val
    omega

example : Misc.toBase52 p = FIELD_L ∧ Misc.fromBase52 Scalar.L = ell := by decide +kernel

theorem montReduceLoop_spec (m : Nat) (hm : m % 2 = 1) : ∀ n a,
    2 ^ n * Misc.montReduceLoop m n a % m = a % m ∧
    2 ^ n * Misc.montReduceLoop m n a + m ≤ a + m * 2 ^ n := by
  intro n
  induction n with
  | zero => intro a; exact ⟨by simp [Misc.montReduceLoop], by simp [Misc.montReduceLoop]⟩
  | succ n ih =>
    intro a
    rw [Misc.montReduceLoop, Nat.shiftRight_one]
    obtain ⟨h1, h2⟩ := ih ((if a % 2 = 0 then a else a + m) / 2)
    generalize Misc.montReduceLoop m n _ = r at h1 h2 ⊢
    have e : 2 * ((if a % 2 = 0 then a else a + m) / 2) = if a % 2 = 0 then a else a + m := by
      split_ifs with h <;> omega
    rw [pow_succ, mul_comm (2 ^ n) 2, mul_assoc]
    constructor
    · rw [Nat.mul_mod, h1, ← Nat.mul_mod, e]
      split_ifs <;> simp
    · have : 2 * (2 ^ n * r + m) ≤ 2 * ((if a % 2 = 0 then a else a + m) / 2 + m * 2 ^ n) :=
        Nat.mul_le_mul_left 2 h2
      rw [mul_add, mul_add, e] at this
      have e2 : m * (2 * 2 ^ n) = 2 * (m * 2 ^ n) := by ring
      rw [e2]
      split_ifs at this <;> omega

/-- C90: Montgomery reduction by the tool: for an odd modulus `m` of `n` bits and arguments below `m 2^n` the
result is reduced, and times `2^n` it is the argument modulo `m`; converting to Montgomery form and back
recovers every residue. Even moduli are refused. -/
theorem C90_reduce (m : Nat) :
    (m % 2 = 0 → Misc.Mont.new m = none) ∧
    (m % 2 = 1 → ∃ s, Misc.Mont.new m = some s ∧ m < 2 ^ s.n ∧
      (∀ a, 2 ^ s.n * s.reduce a % m = a % m) ∧ (∀ a, a < m * 2 ^ s.n → s.reduce a < m) ∧
      ∀ x, x < m → s.reduce (x * s.rrm) = x * 2 ^ s.n % m ∧ s.reduce (s.reduce (x * s.rrm)) = x) := by
  refine ⟨fun h => by rw [Misc.Mont.new, if_pos h], fun hm => ?_⟩
  refine ⟨_, by rw [Misc.Mont.new, if_neg (by omega)], ?_⟩
  dsimp only
  have hn : m < 2 ^ Misc.bits m := by
    unfold Misc.bits
    rw [if_neg (by omega)]
    exact Nat.lt_log2_self
  generalize Misc.bits m = n at hn ⊢
  have m0 : 0 < m := by omega
  set s : Misc.Mont := ⟨m, 1 <<< (n * 2) % m, n⟩ with hs
  have h1 : ∀ a, 2 ^ n * s.reduce a % m = a % m := fun a => by
    have h := (montReduceLoop_spec m hm n a).1
    unfold Misc.Mont.reduce
    dsimp only [hs]
    split_ifs with hr
    · rw [Nat.mul_sub, ← h]
      have : 2 ^ n * m ≤ 2 ^ n * Misc.montReduceLoop m n a := Nat.mul_le_mul_left _ hr
      conv_rhs => rw [← Nat.sub_add_cancel this, Nat.add_mul_mod_self_right]
    · exact h
  have h2 : ∀ a, a < m * 2 ^ n → s.reduce a < m := fun a ha => by
    have h := (montReduceLoop_spec m hm n a).2
    have : Misc.montReduceLoop m n a < 2 * m := by
      refine Nat.lt_of_mul_lt_mul_left (a := 2 ^ n) ?_
      have e : 2 ^ n * (2 * m) = m * 2 ^ n + m * 2 ^ n := by ring
      omega
    show (if Misc.montReduceLoop m n a ≥ m then Misc.montReduceLoop m n a - m
      else Misc.montReduceLoop m n a) < m
    split_ifs <;> omega
  have cop : Nat.Coprime m (2 ^ n) := by
    refine Nat.Coprime.pow_right n ?_
    exact Nat.coprime_two_right.2 (Nat.odd_iff.2 hm)
  have uniq : ∀ a b, a < m → b < m → 2 ^ n * a % m = 2 ^ n * b % m → a = b := fun a b ha hb h => by
    have := Nat.ModEq.cancel_left_of_coprime (m := m) (c := 2 ^ n) cop h
    rwa [Nat.ModEq, Nat.mod_eq_of_lt ha, Nat.mod_eq_of_lt hb] at this
  refine ⟨hn, h1, h2, fun x hx => ?_⟩
  have hrr : s.rrm < m := Nat.mod_lt _ m0
  have b1 : s.reduce (x * s.rrm) < m := h2 _ (Nat.mul_lt_mul_of_lt_of_le hx (hrr.le.trans hn.le) (by positivity))
  have e1 : s.reduce (x * s.rrm) = x * 2 ^ n % m := by
    refine uniq _ _ b1 (Nat.mod_lt _ m0) ?_
    rw [h1, Nat.mul_mod_mod, Nat.mul_mod_mod, Nat.shiftLeft_eq, one_mul]
    congr 1
    rw [pow_mul]; ring
  refine ⟨e1, uniq _ _ (h2 _ (b1.trans_le (Nat.le_mul_of_pos_right m (by positivity)))) hx ?_⟩
  rw [h1, Nat.mod_eq_of_lt b1, e1, mul_comm]

example : ∃ s, Misc.Mont.new 750791094644726559640638407699 = some s ∧ s.n = 100 ∧
    s.reduce (s.reduce (540019781128412936473322405310 * s.rrm)) = 540019781128412936473322405310 :=
  ⟨_, rfl, by decide +kernel, by decide +kernel⟩

end Props
end Zerocaf
