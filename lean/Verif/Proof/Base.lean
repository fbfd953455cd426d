import Mathlib.GroupTheory.SpecificGroups.Cyclic
import Verif.Proof.EdOps
import Verif.Model.Table

/-!
# The base point, the order of the curve group

Multiples of concrete points are computed with natural numbers in extended coordinates; the kernel evaluates
the computation.
-/

set_option exponentiation.threshold 600

namespace Zerocaf

/-! ### A computable addition on natural numbers -/

/-- Extended coordinates as natural numbers. -/
structure NP where
  X : Nat
  Y : Nat
  Z : Nat
  T : Nat

namespace NP

/-- Subtraction mod `p`. -/
def nsub (a b : Nat) : Nat := (a + (p - b % p)) % p

/-- Products of the last step of addition. -/
def fin (E F G H : Nat) : NP := ⟨E * F % p, G * H % p, F * G % p, E * H % p⟩

/-- Addition. -/
def add (P Q : NP) : NP :=
  let A := P.X * Q.X % p
  let B := P.Y * Q.Y % p
  let C := dNat * P.T % p * Q.T % p
  let D := P.Z * Q.Z % p
  fin (nsub ((P.X + P.Y) * (Q.X + Q.Y)) (A + B)) (nsub D C) ((D + C) % p) ((B + A) % p)

/-- `n P + Q`, for `n < 2^f`. -/
def mulAux : Nat → Nat → NP → NP → NP
  | 0, _, _, acc => acc
  | f + 1, n, P, acc => mulAux f (n / 2) (add P P) (if n % 2 = 1 then add acc P else acc)

def zero : NP := ⟨0, 1, 1, 0⟩

/-- Does the tuple represent the neutral element? -/
def isZero (P : NP) : Bool := P.X % p == 0 && P.Y % p == P.Z % p

/-- The tuple represents `A`. -/
structure Rep (P : NP) (A : E) : Prop where
  z : (P.Z : Fp) ≠ 0
  x : (P.X : Fp) = A.x * P.Z
  y : (P.Y : Fp) = A.y * P.Z
  t : (P.T : Fp) = A.x * A.y * P.Z

theorem nsub_cast (a b : Nat) : (nsub a b : Fp) = a - b := by
  unfold nsub
  rw [ZMod.natCast_mod, Nat.cast_add, Nat.cast_sub (Nat.mod_lt _ (by decide)).le, ZMod.natCast_self,
    ZMod.natCast_mod]
  ring

theorem add_rep {P Q : NP} {A B : E} (hP : P.Rep A) (hQ : Q.Rep B) : (add P Q).Rep (A + B) := by
  obtain ⟨X, Y, Z, T⟩ := P
  obtain ⟨X', Y', Z', T'⟩ := Q
  obtain ⟨hz, hx, hy, ht⟩ := hP
  obtain ⟨hz', hx', hy', ht'⟩ := hQ
  obtain ⟨n1, n2, ax, ay⟩ := add_facts A B
  dsimp only at hz hx hy ht hz' hx' hy' ht'
  have hd : (dNat : Fp) = dZ := dZ_eq.symm
  have e1 : ((add ⟨X, Y, Z, T⟩ ⟨X', Y', Z', T'⟩).X : Fp) =
      (((X : Fp) + Y) * (X' + Y') - (X * X' + Y * Y')) * (Z * Z' - dZ * T * T') := by
    simp only [add, fin, ZMod.natCast_mod, Nat.cast_mul, nsub_cast, Nat.cast_add, hd]
  have e2 : ((add ⟨X, Y, Z, T⟩ ⟨X', Y', Z', T'⟩).Y : Fp) =
      ((Z : Fp) * Z' + dZ * T * T') * (Y * Y' + X * X') := by
    simp only [add, fin, ZMod.natCast_mod, Nat.cast_mul, nsub_cast, Nat.cast_add, hd]
  have e3 : ((add ⟨X, Y, Z, T⟩ ⟨X', Y', Z', T'⟩).Z : Fp) =
      ((Z : Fp) * Z' - dZ * T * T') * (Z * Z' + dZ * T * T') := by
    simp only [add, fin, ZMod.natCast_mod, Nat.cast_mul, nsub_cast, Nat.cast_add, hd]
  have e4 : ((add ⟨X, Y, Z, T⟩ ⟨X', Y', Z', T'⟩).T : Fp) =
      (((X : Fp) + Y) * (X' + Y') - (X * X' + Y * Y')) * (Y * Y' + X * X') := by
    simp only [add, fin, ZMod.natCast_mod, Nat.cast_mul, nsub_cast, Nat.cast_add, hd]
  generalize add ⟨X, Y, Z, T⟩ ⟨X', Y', Z', T'⟩ = S at *
  generalize A + B = U at *
  generalize (X : Fp) = X at *
  generalize (Y : Fp) = Y at *
  generalize (Z : Fp) = Z at *
  generalize (T : Fp) = T at *
  generalize (X' : Fp) = X' at *
  generalize (Y' : Fp) = Y' at *
  generalize (Z' : Fp) = Z' at *
  generalize (T' : Fp) = T' at *
  generalize dZ = d at *
  subst hx hy ht hx' hy' ht'
  have f1 : Z * Z' - d * (A.x * A.y * Z) * (B.x * B.y * Z') =
      Z * Z' * (1 - d * A.x * B.x * A.y * B.y) := by ring
  have f2 : Z * Z' + d * (A.x * A.y * Z) * (B.x * B.y * Z') =
      Z * Z' * (1 + d * A.x * B.x * A.y * B.y) := by ring
  rw [f1, f2] at e3
  rw [f1] at e1
  rw [f2] at e2
  refine ⟨?_, ?_, ?_, ?_⟩
  · rw [e3]
    exact mul_ne_zero (mul_ne_zero (mul_ne_zero hz hz') n2) (mul_ne_zero (mul_ne_zero hz hz') n1)
  · rw [e1, e3]
    linear_combination -(Z * Z' * (Z * Z') * (1 - d * A.x * B.x * A.y * B.y)) * ax
  · rw [e2, e3]
    linear_combination -(Z * Z' * (Z * Z') * (1 + d * A.x * B.x * A.y * B.y)) * ay
  · rw [e4, e3]
    linear_combination -(Z * Z' * (Z * Z') * (A.y * B.y + A.x * B.x)) * ax -
      (Z * Z' * (Z * Z') * U.x * (1 + d * A.x * B.x * A.y * B.y)) * ay

theorem zero_rep : zero.Rep 0 := by
  refine ⟨?_, ?_, ?_, ?_⟩ <;> simp [zero, EdCurve.Pt.zero_x, EdCurve.Pt.zero_y]

theorem mulAux_rep : ∀ (f n : Nat) (P acc : NP) (A B : E), n < 2 ^ f → P.Rep A → acc.Rep B →
    (mulAux f n P acc).Rep (B + n • A) := by
  intro f
  induction f with
  | zero =>
    intro n P acc A B h hP hacc
    have : n = 0 := by simpa using h
    subst this
    rw [zero_nsmul, add_zero]; exact hacc
  | succ f ih =>
    intro n P acc A B h hP hacc
    have hn : n / 2 < 2 ^ f := by rw [pow_succ] at h; omega
    rw [mulAux]
    by_cases h1 : n % 2 = 1
    · rw [if_pos h1]
      have := ih (n / 2) (add P P) (add acc P) (A + A) (B + A) hn (add_rep hP hP) (add_rep hacc hP)
      have e : B + n • A = B + A + (n / 2) • (A + A) := by
        rw [← two_nsmul, ← mul_nsmul', add_assoc]
        congr 1
        rw [← succ_nsmul']
        congr 1; omega
      rw [e]; exact this
    · rw [if_neg h1]
      have := ih (n / 2) (add P P) acc (A + A) B hn (add_rep hP hP) hacc
      have e : B + n • A = B + (n / 2) • (A + A) := by
        rw [← two_nsmul, ← mul_nsmul']
        congr 2; omega
      rw [e]; exact this

theorem mul_rep (n : Nat) (hn : n < 2 ^ 256) {P : NP} {A : E} (hP : P.Rep A) :
    (mulAux 256 n P zero).Rep (n • A) := by
  have := mulAux_rep 256 n P zero A 0 hn hP zero_rep
  rwa [zero_add] at this

theorem isZero_rep {P : NP} {A : E} (h : P.Rep A) : isZero P = true ↔ A = 0 := by
  obtain ⟨hz, hx, hy, ht⟩ := h
  have h1 : P.X % p = 0 ↔ (P.X : Fp) = 0 := by
    rw [ZMod.natCast_eq_zero_iff, Nat.dvd_iff_mod_eq_zero]
  have h2 : P.Y % p = P.Z % p ↔ (P.Y : Fp) = P.Z := (ZMod.natCast_eq_natCast_iff' _ _ _).symm
  unfold isZero
  rw [Bool.and_eq_true, beq_iff_eq, beq_iff_eq, h1, h2, hx, hy]
  constructor
  · rintro ⟨a, b⟩
    ext
    · exact (mul_eq_zero.1 a).resolve_right hz
    · exact mul_right_cancel₀ hz (b.trans (one_mul _).symm)
  · rintro rfl
    rw [EdCurve.Pt.zero_x, EdCurve.Pt.zero_y, zero_mul, one_mul]; exact ⟨rfl, rfl⟩

end NP

/-! ### Concrete points -/

/-- Numbers on the curve. -/
theorem on_of_nat {x y : Nat} (h : y * y % p = (1 + x * x + dNat * (x * x * (y * y))) % p) :
    zc.On (x : Fp) (y : Fp) := by
  have h1 := (ZMod.natCast_eq_natCast_iff' _ _ p).2 h
  simp only [Nat.cast_mul, Nat.cast_add, Nat.cast_one, ← dZ_eq] at h1
  show (y : Fp) ^ 2 - (x : Fp) ^ 2 = 1 + dZ * (x : Fp) ^ 2 * (y : Fp) ^ 2
  linear_combination h1

/-- A curve point given by numbers. -/
def ptOfNat (x y : Nat) (h : y * y % p = (1 + x * x + dNat * (x * x * (y * y))) % p) : E :=
  ⟨x, y, on_of_nat h⟩

theorem ptOfNat_rep (x y : Nat) (h : y * y % p = (1 + x * x + dNat * (x * x * (y * y))) % p) :
    NP.Rep ⟨x, y, 1, x * y % p⟩ (ptOfNat x y h) := by
  refine ⟨?_, ?_, ?_, ?_⟩ <;> dsimp only <;> simp [ptOfNat]

def bx : Nat := 5543765830694772891887215782191909494666954494493566203295350876317221014088
def by' : Nat := 4342203346399357328383911937825796544514269815627944563601170562971272550594

/-- The base point. -/
def Bpt : E := ptOfNat bx by' (by decide +kernel)

def gx : Nat := 2883801358259805902463415859752971860210413682654334956921251728488015447953

/-- A point of order `8 L`, with `y = 3`. -/
def Gpt : E := ptOfNat gx 3 (by decide +kernel)

theorem mult_zero_iff (n x y : Nat) (hn : n < 2 ^ 256)
    (h : y * y % p = (1 + x * x + dNat * (x * x * (y * y))) % p) :
    n • ptOfNat x y h = 0 ↔
      NP.isZero (NP.mulAux 256 n ⟨x, y, 1, x * y % p⟩ NP.zero) = true :=
  (NP.isZero_rep (NP.mul_rep n hn (ptOfNat_rep x y h))).symm

theorem ell_Bpt : ell • Bpt = 0 := (mult_zero_iff ell bx by' (by decide) _).2 (by decide +kernel)

theorem Bpt_ne : Bpt ≠ 0 := by
  have := (mult_zero_iff 1 bx by' (by decide) (by decide +kernel)).not.2 (by decide +kernel)
  rwa [one_nsmul] at this

theorem Bpt_order : addOrderOf Bpt = ell := by
  have : Fact (Nat.Prime ell) := ⟨ell_prime⟩
  exact addOrderOf_eq_prime ell_Bpt Bpt_ne

theorem ell8_Gpt : (8 * ell) • Gpt = 0 :=
  (mult_zero_iff (8 * ell) gx 3 (by decide) _).2 (by decide +kernel)
theorem ell4_Gpt : (4 * ell) • Gpt ≠ 0 :=
  (mult_zero_iff (4 * ell) gx 3 (by decide) _).not.2 (by decide +kernel)
theorem eight_Gpt : 8 • Gpt ≠ 0 :=
  (mult_zero_iff 8 gx 3 (by decide) _).not.2 (by decide +kernel)

theorem Gpt_order : addOrderOf Gpt = 8 * ell := by
  refine addOrderOf_eq_of_nsmul_and_div_prime_nsmul (by decide) ell8_Gpt ?_
  intro q hq hd
  rcases (Nat.Prime.dvd_mul hq).1 hd with h | h
  · have : q = 2 := (Nat.prime_dvd_prime_iff_eq hq Nat.prime_two).1
      (hq.dvd_of_dvd_pow (n := 3) h)
    subst this
    rw [show 8 * ell / 2 = 4 * ell by omega]
    exact ell4_Gpt
  · have : q = ell := (Nat.prime_dvd_prime_iff_eq hq ell_prime).1 h
    subst this
    rw [Nat.mul_div_cancel _ (by decide)]
    exact eight_Gpt

/-! ### Counting points -/

theorem one_add_dy_ne (A : E) : 1 + dZ * A.y ^ 2 ≠ 0 := by
  intro h
  apply dZ_not_square
  have hy : A.y ≠ 0 := by
    intro h0; rw [h0] at h; simp at h
  refine ⟨Field.iZ / A.y, ?_⟩
  rw [div_mul_div_comm, Field.iZ_sq, eq_div_iff (mul_ne_zero hy hy)]
  linear_combination h

theorem x_sq_eq (A : E) : A.x ^ 2 * (1 + dZ * A.y ^ 2) = A.y ^ 2 - 1 := by
  linear_combination -(on_fact A)

/-- Two points with the same `y` have the same or opposite `x`. -/
theorem same_y {A B : E} (h : A.y = B.y) : B = A ∨ B = -A := by
  have h1 : A.x * A.x = B.x * B.x := by
    have a := x_sq_eq A
    have b := x_sq_eq B
    rw [← h] at b
    apply mul_right_cancel₀ (one_add_dy_ne A)
    linear_combination a - b
  rcases sq_eq_cases h1 with e | e
  · left; exact EdCurve.Pt.ext e.symm h.symm
  · right; refine EdCurve.Pt.ext ?_ h.symm
    rw [EdCurve.Pt.neg_x, e, neg_neg]

/-- A point is determined by `y` and the sign of `x`. -/
noncomputable def ptCode (A : E) : Fp × Bool := (A.y, decide (Pos A.x))

theorem ptCode_inj : Function.Injective ptCode := by
  intro A B h
  have hy : A.y = B.y := congrArg Prod.fst h
  have hs : decide (Pos A.x) = decide (Pos B.x) := congrArg Prod.snd h
  rcases same_y hy with e | e
  · exact e.symm
  · by_cases h0 : A.x = 0
    · rw [e]
      refine EdCurve.Pt.ext ?_ ?_
      · rw [EdCurve.Pt.neg_x, h0, neg_zero]
      · rw [EdCurve.Pt.neg_y]
    · exfalso
      rw [e, EdCurve.Pt.neg_x] at hs
      have h2 := decide_eq_decide.1 hs
      rw [pos_neg h0] at h2
      by_cases h3 : Pos A.x
      · exact h2.1 h3 h3
      · exact h3 (h2.2 h3)

instance : Finite E := Finite.of_injective ptCode ptCode_inj

theorem card_le : Nat.card E ≤ p * 2 := by
  have h1 := Nat.card_le_card_of_injective ptCode ptCode_inj
  rwa [Nat.card_prod, Nat.card_zmod, Nat.card_eq_fintype_card (α := Bool), Fintype.card_bool] at h1

theorem card_E : Nat.card E = 8 * ell := by
  have h1 : 8 * ell ∣ Nat.card E := by rw [← Gpt_order]; exact addOrderOf_dvd_natCard Gpt
  obtain ⟨k, hk⟩ := h1
  have h2 := card_le
  have h3 : 0 < Nat.card E := Nat.card_pos
  have h4 : p * 2 < 8 * ell * 2 := by decide
  have h5 : k < 2 := by
    by_contra hc
    have : 8 * ell * 2 ≤ 8 * ell * k := Nat.mul_le_mul_left _ (by omega)
    omega
  have h6 : k ≠ 0 := by rintro rfl; omega
  rw [hk, show k = 1 by omega, mul_one]

instance cyclic_E : IsAddCyclic E :=
  isAddCyclic_of_addOrderOf_eq_card Gpt (by rw [Gpt_order, card_E])

theorem exists_mul_G (A : E) : ∃ k : ℕ, A = k • Gpt := by
  have h := AddSubgroup.card_eq_iff_eq_top (AddSubgroup.zmultiples Gpt)
  have h1 : AddSubgroup.zmultiples Gpt = ⊤ := by
    rw [← h, Nat.card_zmultiples, Gpt_order, card_E]
  have h2 : A ∈ AddSubgroup.zmultiples Gpt := by rw [h1]; trivial
  classical
  rw [mem_zmultiples_iff_mem_range_addOrderOf] at h2
  obtain ⟨k, _, hk⟩ := Finset.mem_image.1 h2
  exact ⟨k, hk.symm⟩

theorem mul_G_zero (k : ℕ) : k • Gpt = 0 ↔ 8 * ell ∣ k := by
  rw [← Gpt_order]; exact addOrderOf_dvd_iff_nsmul_eq_zero.symm

/-! ### The base point of the library -/

theorem BASEPOINT_rep : Ed.BASEPOINT.Rep Bpt := by
  have e : Ed.BASEPOINT = ⟨enc (bx : Fp), enc (by' : Fp), enc ((1 : ℕ) : Fp),
      enc ((bx * by' % p : ℕ) : Fp)⟩ := by
    have hX : Ed.BASEPOINT.X.Canon := by decide
    have hY : Ed.BASEPOINT.Y.Canon := by decide
    have hZ : Ed.BASEPOINT.Z.Canon := by decide
    have hT : Ed.BASEPOINT.T.Canon := by decide
    have eX := hX.eq_enc (toZ_eq_iff.2 (show Ed.BASEPOINT.X.val % p = bx % p by decide +kernel))
    have eY := hY.eq_enc (toZ_eq_iff.2 (show Ed.BASEPOINT.Y.val % p = by' % p by decide +kernel))
    have eZ := hZ.eq_enc (toZ_eq_iff.2 (show Ed.BASEPOINT.Z.val % p = 1 % p by decide +kernel))
    have eT := hT.eq_enc (toZ_eq_iff.2
      (show Ed.BASEPOINT.T.val % p = (bx * by' % p) % p by decide +kernel))
    rw [← eX, ← eY, ← eZ, ← eT]
  rw [e]
  have hx : Bpt.x = (bx : Fp) := rfl
  have hy : Bpt.y = (by' : Fp) := rfl
  refine EdPoint.rep_mk (by rw [Nat.cast_one]; exact one_ne_zero) ?_ ?_ ?_
  · rw [hx, Nat.cast_one, mul_one]
  · rw [hy, Nat.cast_one, mul_one]
  · rw [hx, hy, Nat.cast_one, mul_one, ZMod.natCast_mod, Nat.cast_mul]

theorem Bpt_y : Bpt.y = 3 / 5 := by
  have h5 : ((5 : ℕ) : Fp) ≠ 0 := by
    rw [Ne, ZMod.natCast_eq_zero_iff]; exact Nat.not_dvd_of_pos_of_lt (by decide) (by decide)
  have h : ((by' * 5 : ℕ) : Fp) = ((3 : ℕ) : Fp) := by
    rw [ZMod.natCast_eq_natCast_iff']; decide +kernel
  rw [Nat.cast_mul] at h
  have : Bpt.y * ((5 : ℕ) : Fp) = ((3 : ℕ) : Fp) := h
  rw [Nat.cast_ofNat] at this h5
  rw [eq_div_iff h5, this, Nat.cast_ofNat]

/-! ### The table of odd multiples -/

/-- The entry has reduced coordinates, consistent `T`, and equals the computed point. -/
def entryOk (Q : NP) (P : EdPoint) : Bool :=
  decide (P.X.Canon) && decide (P.Y.Canon) && decide (P.Z.Canon) && decide (P.T.Canon) &&
  P.Z.val % p != 0 && P.X.val * Q.Z % p == Q.X * P.Z.val % p && P.Y.val * Q.Z % p == Q.Y * P.Z.val % p &&
  P.T.val * P.Z.val % p == P.X.val * P.Y.val % p

theorem entryOk_rep {Q : NP} {P : EdPoint} {A : E} (h : entryOk Q P = true) (hQ : Q.Rep A) : P.Rep A := by
  unfold entryOk at h
  simp only [Bool.and_eq_true, decide_eq_true_eq, bne_iff_ne, beq_iff_eq] at h
  obtain ⟨⟨⟨⟨⟨⟨⟨cX, cY⟩, cZ⟩, cT⟩, hz⟩, hx⟩, hy⟩, ht⟩ := h
  have hz' : (P.Z.val : Fp) ≠ 0 := by
    rw [Ne, ZMod.natCast_eq_zero_iff, Nat.dvd_iff_mod_eq_zero]; exact hz
  have hx' := (ZMod.natCast_eq_natCast_iff' _ _ p).2 hx
  have hy' := (ZMod.natCast_eq_natCast_iff' _ _ p).2 hy
  have ht' := (ZMod.natCast_eq_natCast_iff' _ _ p).2 ht
  simp only [Nat.cast_mul] at hx' hy' ht'
  rw [hQ.x] at hx'
  rw [hQ.y] at hy'
  refine ⟨cX, cY, cZ, cT, hz', ?_, ?_, ?_⟩
  · rw [div_eq_iff hz']
    apply mul_right_cancel₀ hQ.z
    linear_combination hx'
  · rw [div_eq_iff hz']
    apply mul_right_cancel₀ hQ.z
    linear_combination hy'
  · rw [eq_div_iff hz']
    exact ht'

/-- Compare the list with `Q, Q + S, Q + 2S, …`. -/
def tableOk (S : NP) : NP → List EdPoint → Bool
  | _, [] => true
  | Q, P :: Ps => entryOk Q P && tableOk S (NP.add Q S) Ps

theorem tableOk_rep {S : NP} {C : E} (hS : S.Rep C) : ∀ (l : List EdPoint) (Q : NP) (A : E), Q.Rep A →
    tableOk S Q l = true → ∀ (i : Nat) (h : i < l.length), (l[i]).Rep (A + i • C) := by
  intro l
  induction l with
  | nil => intro Q A _ _ i h; exact absurd h (Nat.not_lt_zero _)
  | cons P Ps ih =>
    intro Q A hQ h i hi
    rw [tableOk, Bool.and_eq_true] at h
    cases i with
    | zero => rw [zero_nsmul, add_zero]; exact entryOk_rep h.1 hQ
    | succ i =>
      have := ih (NP.add Q S) (A + C) (NP.add_rep hQ hS) h.2 i (by simpa using hi)
      rw [succ_nsmul', ← add_assoc]
      exact this

def bN : NP := ⟨bx, by', 1, bx * by' % p⟩
theorem bN_rep : bN.Rep Bpt := ptOfNat_rep bx by' _

theorem table_check : tableOk (NP.add bN bN) bN Ristretto.ODD_MULTIPLES.tail = true := by decide +kernel

theorem table_length : Ristretto.ODD_MULTIPLES.length = 126 := by decide +kernel

theorem table_rep (i : Nat) (h : i < 125) :
    ∃ P, Ristretto.ODD_MULTIPLES[i + 1]? = some P ∧ P.Rep ((2 * i + 1) • Bpt) := by
  have hl := table_length
  have h2 := tableOk_rep (NP.add_rep bN_rep bN_rep) _ bN Bpt bN_rep table_check i
    (by rw [List.length_tail]; omega)
  refine ⟨Ristretto.ODD_MULTIPLES[i + 1]'(by omega), List.getElem?_eq_getElem _, ?_⟩
  rw [List.getElem_tail] at h2
  have e : (2 * i + 1) • Bpt = Bpt + i • (Bpt + Bpt) := by
    rw [← two_nsmul, ← mul_nsmul', succ_nsmul', mul_comm]
  rw [e]; exact h2

end Zerocaf
