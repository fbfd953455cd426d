import Verif.Props.Group
import Verif.Props.Random
import Mathlib.GroupTheory.SpecificGroups.Cyclic
import Mathlib.NumberTheory.Divisors

/-!
# C111: small subgroups

What a party learns about a secret scalar by choosing the point that is multiplied by it. Edwards decoding accepts
points of small order; Ristretto decoding accepts one point only on which multiplication is not injective.
-/

set_option exponentiation.threshold 600

namespace Zerocaf
namespace Props

open Ristretto

/-! ### Orders of points -/

theorem order_dvd (A : E) : addOrderOf A ∣ 8 * ell := by
  rw [← card_E]; exact addOrderOf_dvd_natCard A

/-- C111: the order of a curve point is one of eight numbers. -/
theorem C111_orders (A : E) : addOrderOf A ∈ [1, 2, 4, 8, ell, 2 * ell, 4 * ell, 8 * ell] := by
  obtain ⟨a, b, ha, hb, h⟩ := (Nat.dvd_mul).1 (order_dvd A)
  have h8 : a = 1 ∨ a = 2 ∨ a = 4 ∨ a = 8 := by
    have : a ∈ Nat.divisors 8 := Nat.mem_divisors.2 ⟨ha, by decide⟩
    have e : Nat.divisors 8 = {1, 2, 4, 8} := by decide
    rw [e] at this
    simpa using this
  rcases (Nat.dvd_prime ell_prime).1 hb with rfl | rfl <;> rcases h8 with rfl | rfl | rfl | rfl <;> rw [← h] <;> simp

theorem card_order {d : ℕ} (hd : d ∣ 8 * ell) : Nat.card {A : E // addOrderOf A = d} = d.totient := by
  classical
  have : Fintype E := Fintype.ofFinite E
  have := cyclic_E
  rw [Nat.card_eq_fintype_card, Fintype.card_subtype]
  exact IsAddCyclic.card_addOrderOf_eq_totient (by rwa [← card_E, Nat.card_eq_fintype_card] at hd)

/-- C111: how many points have each order. -/
theorem C111_order_counts :
    Nat.card {A : E // addOrderOf A = 1} = 1 ∧ Nat.card {A : E // addOrderOf A = 2} = 1 ∧
    Nat.card {A : E // addOrderOf A = 4} = 2 ∧ Nat.card {A : E // addOrderOf A = 8} = 4 ∧
    Nat.card {A : E // addOrderOf A = ell} = ell - 1 ∧ Nat.card {A : E // addOrderOf A = 2 * ell} = ell - 1 ∧
    Nat.card {A : E // addOrderOf A = 4 * ell} = 2 * (ell - 1) ∧
    Nat.card {A : E // addOrderOf A = 8 * ell} = 4 * (ell - 1) := by
  have co : ∀ k, Nat.Coprime (2 ^ k) ell := fun k => Nat.Coprime.pow_left k (by decide)
  have t : ∀ k, (2 ^ k * ell).totient = (2 ^ k).totient * (ell - 1) := fun k => by
    rw [Nat.totient_mul (co k), Nat.totient_prime ell_prime]
  refine ⟨?_, ?_, ?_, ?_, ?_, ?_, ?_, ?_⟩
  · rw [card_order (by decide)]; decide
  · rw [card_order (by decide)]; decide
  · rw [card_order (by decide)]; decide
  · rw [card_order (by decide)]; decide
  · rw [card_order (by decide), Nat.totient_prime ell_prime]
  · rw [card_order (by decide)]; have := t 1; rwa [show (2 ^ 1 : ℕ) = 2 by decide, show Nat.totient 2 = 1 by decide, one_mul] at this
  · rw [card_order (by decide)]; have := t 2; rwa [show (2 ^ 2 : ℕ) = 4 by decide, show Nat.totient 4 = 2 by decide] at this
  · rw [card_order (by decide)]; have := t 3; rwa [show (2 ^ 3 : ℕ) = 8 by decide, show Nat.totient 8 = 4 by decide] at this

/-! ### Multiples of a chosen Edwards point -/

/-- C111: the results of multiplying an Edwards point by two scalars compare equal, and have the same encoding,
exactly if the scalars agree modulo the order of the point. -/
theorem C111_multiples (c : Cfg) (hc : c.Enough) {P : EdPoint} {A : E} (hP : P.Rep A) (m n : Sc) (hm : m.SCanon)
    (hn : n.SCanon) :
    ∃ U V, Ed.mul c P m = .ok U ∧ Ed.mul c P n = .ok V ∧
      (Ed.ctEq c U V = .ok true ↔ m.val % addOrderOf A = n.val % addOrderOf A) ∧
      (Ed.compress c U = Ed.compress c V ↔ m.val % addOrderOf A = n.val % addOrderOf A) := by
  obtain ⟨U, eU, hU⟩ := doubleAndAdd_rep Ed.opsSpec c hc hP m hm.1 (Scalar.scanon_lt256 hm)
  obtain ⟨V, eV, hV⟩ := doubleAndAdd_rep Ed.opsSpec c hc hP n hn.1 (Scalar.scanon_lt256 hn)
  obtain ⟨t, et, ht⟩ := Ed_ctEq_iff c hc hU hV
  have key : m.val • A = n.val • A ↔ m.val % addOrderOf A = n.val % addOrderOf A := nsmul_eq_nsmul_iff_modEq
  refine ⟨U, V, eU, eV, ?_, ?_⟩
  · rw [et, Res.ok_inj, ht, key]
  · rw [C79_compress_injective c hc hU hV, key]

theorem Ed_isValid_rep (c : Cfg) {P : EdPoint} {A : E} (h : P.Rep A) : Ed.isValid c P = .ok true := by
  obtain ⟨Z, hz, rfl⟩ := h.form
  show Proj.isValid c ⟨enc (A.x * Z), enc (A.y * Z), enc Z⟩ = _
  rw [Proj_isValid_enc, decide_eq_true]
  have := on_fact A
  linear_combination Z ^ 4 * this

def t8x : ℕ := 1091910026072235984856367854170966085582408623864506197900113418591691589351
def t8y : ℕ := 242403190066714369086741577901897568491077369507641597925571404102657305519
/-- A point of order eight. -/
def T8 : E := ptOfNat t8x t8y (by decide +kernel)

theorem T8_order : addOrderOf T8 = 8 := by
  refine addOrderOf_eq_prime_pow (p := 2) (n := 2) ?_ ?_
  · exact (mult_zero_iff 4 t8x t8y (by decide) _).not.2 (by decide +kernel)
  · exact (mult_zero_iff 8 t8x t8y (by decide) _).2 (by decide +kernel)

/-- Bytes that decode to a point of order eight. -/
def eightBytes : Bytes32 :=
  #v[175, 235, 138, 218, 140, 218, 100, 223, 45, 13, 72, 217, 149, 84, 239, 156, 173, 188, 31, 20, 210, 197, 78, 159,
    42, 24, 17, 9, 2, 50, 137, 0]

/-- C111: these bytes decode, the point passes the validity check of Edwards points, and its multiple by a secret
scalar shows the scalar modulo eight. -/
theorem C111_weak_encoding (c : Cfg) (hc : c.Enough) :
    ∃ T, Ed.decompress c eightBytes = .ok (some T) ∧ Ed.isValid c T = .ok true ∧
      ∀ m n : Sc, m.SCanon → n.SCanon → ∃ U V, Ed.mul c T m = .ok U ∧ Ed.mul c T n = .ok V ∧
        (Ed.compress c U = Ed.compress c V ↔ m.val % 8 = n.val % 8) := by
  obtain ⟨o, eo, ho, hn⟩ := C55_decompress c hc eightBytes
  have hy : (t8y : Fp) = ((bytesVal eightBytes % 2 ^ 252 : ℕ) : Fp) :=
    congrArg _ (by decide +kernel : t8y = bytesVal eightBytes % 2 ^ 252)
  cases o with
  | none => exact absurd ⟨T8, hy⟩ (hn.1 rfl)
  | some T =>
    obtain ⟨A, hA, hAy⟩ := ho T rfl
    have hor : addOrderOf A = 8 := by
      rcases same_y (A := T8) (hy.trans hAy.symm) with h | h
      · rw [h, T8_order]
      · rw [h, addOrderOf_neg, T8_order]
    refine ⟨T, eo, ?_, ?_⟩
    · exact Ed_isValid_rep c hA
    · intro m n hm hn
      obtain ⟨U, V, eU, eV, _, h⟩ := C111_multiples c hc hA m n hm hn
      rw [hor] at h
      exact ⟨U, V, eU, eV, h⟩

theorem T8'_zero : 8 • ptOfNat t8x (p - t8y) (by decide +kernel) = 0 :=
  (mult_zero_iff 8 t8x (p - t8y) (by decide) _).2 (by decide +kernel)

theorem t8_root : dZ * (t8y : Fp) ^ 4 + 2 * (t8y : Fp) ^ 2 - 1 = 0 := by
  unfold dZ t8y
  decide +kernel

/-- The points whose order divides eight, by their `y`. -/
theorem eight_torsion_iff (A : E) :
    8 • A = 0 ↔ A.y = 1 ∨ A.y = -1 ∨ A.y = 0 ∨ A.y = (t8y : Fp) ∨ A.y = -(t8y : Fp) := by
  constructor
  · intro h
    have h4 : 4 • (A + A) = 0 := by rw [← h]; abel
    obtain ⟨n1, n2, e1, e2⟩ := add_facts A A
    have on := on_fact A
    rcases (four_torsion_iff _).1 h4 with h0 | h0
    · rw [h0, zero_mul] at e1
      have e3 : (2 : Fp) * (A.x * A.y) = 0 := by linear_combination -e1
      rcases mul_eq_zero.1 ((mul_eq_zero.1 e3).resolve_left Field.two_ne_zero') with hx | hy
      · rw [hx] at on
        have : A.y * A.y = 1 * 1 := by linear_combination on
        rcases mul_self_eq_mul_self_iff.1 this with h1 | h1
        · exact Or.inl h1
        · exact Or.inr (Or.inl h1)
      · exact Or.inr (Or.inr (Or.inl hy))
    · rw [h0, zero_mul] at e2
      have e3 : dZ * A.y ^ 4 + 2 * A.y ^ 2 - 1 = 0 := by
        linear_combination on + (1 + dZ * A.y ^ 2) * (-e2)
      have e4 : (A.y ^ 2 - (t8y : Fp) ^ 2) * (dZ * (A.y ^ 2 + (t8y : Fp) ^ 2) + 2) = 0 := by
        linear_combination e3 - t8_root
      rcases mul_eq_zero.1 e4 with h1 | h1
      · have : A.y * A.y = (t8y : Fp) * (t8y : Fp) := by linear_combination h1
        rcases mul_self_eq_mul_self_iff.1 this with h2 | h2
        · exact Or.inr (Or.inr (Or.inr (Or.inl h2)))
        · exact Or.inr (Or.inr (Or.inr (Or.inr h2)))
      · exfalso
        have h2 : dZ * A.y ^ 2 * (t8y : Fp) ^ 2 = -1 := by
          linear_combination (t8y : Fp) ^ 2 * h1 - t8_root
        refine dZ_not_square ⟨Field.iZ / (A.y * (t8y : Fp)), ?_⟩
        have h3 : A.y * (t8y : Fp) ≠ 0 := by
          intro h4
          have h5 : dZ * (A.y * (t8y : Fp)) ^ 2 = -1 := by linear_combination h2
          rw [h4] at h5
          simp at h5
        rw [div_mul_div_comm, eq_div_iff (mul_ne_zero h3 h3)]
        have hi : Field.iZ * Field.iZ = -1 := Field.iZ_sq
        linear_combination h2 - hi
  · have case : ∀ B : E, B.y = A.y → 8 • B = 0 → 8 • A = 0 := by
      intro B hy hB
      rcases same_y hy with e | e
      · rw [e, hB]
      · rw [e, smul_neg, hB, neg_zero]
    rintro (h | h | h | h | h)
    · exact case 0 (by rw [h]; rfl) (smul_zero _)
    · refine case twoTorsion (by rw [h]; rfl) ?_
      have : 4 • twoTorsion = 0 := (four_torsion_iff _).2 (Or.inl rfl)
      rw [show 8 = 2 * 4 by decide, mul_smul, this, smul_zero]
    · have : 4 • A = 0 := (four_torsion_iff _).2 (Or.inr h)
      rw [show 8 = 2 * 4 by decide, mul_smul, this, smul_zero]
    · exact case T8 (by rw [h]; rfl) (addOrderOf_dvd_iff_nsmul_eq_zero.1 (by rw [T8_order]))
    · refine case _ ?_ T8'_zero
      rw [h]
      show ((p - t8y : ℕ) : Fp) = _
      rw [Nat.cast_sub (by decide), CharP.cast_eq_zero, zero_sub]

/-- C111: which encodings decode to a point of small order: a list of four values of the low 252 bits, in 64 byte
strings. -/
theorem C111_small_order_encodings (c : Cfg) (hc : c.Enough) :
    (∀ b P S, Ed.decompress c b = .ok (some P) → mulByCofactor Ed.ops c P = .ok S →
      (Ed.ctEq c S Ed.identity = .ok true ↔ bytesVal b % 2 ^ 252 ∈ [0, 1, t8y, p - t8y])) ∧
    {b : Bytes32 | ∃ P S, Ed.decompress c b = .ok (some P) ∧ mulByCofactor Ed.ops c P = .ok S ∧
      Ed.ctEq c S Ed.identity = .ok true}.ncard = 64 := by
  have hp : p = 2 ^ 252 + 27742317777372353535851937790883648493 := by decide
  have key : ∀ b P S, Ed.decompress c b = .ok (some P) → mulByCofactor Ed.ops c P = .ok S →
      ∃ A : E, A.y = ((bytesVal b % 2 ^ 252 : ℕ) : Fp) ∧ (Ed.ctEq c S Ed.identity = .ok true ↔ 8 • A = 0) := by
    intro b P S h hS
    obtain ⟨o, eo, ho, _⟩ := C55_decompress c hc b
    rw [eo, Res.ok_inj] at h
    obtain ⟨A, hA, hy⟩ := ho P h
    obtain ⟨S', eS, hS'⟩ := mulByCofactor_rep Ed.opsSpec c hc hA
    obtain rfl : S' = S := Res.ok.inj (eS.symm.trans hS)
    obtain ⟨t, et, ht⟩ := Ed_ctEq_iff c hc hS' Ed.identity_rep
    refine ⟨A, hy, ?_⟩
    rw [et, Res.ok_inj, ht]
  have cast : ∀ k n : ℕ, k < p → n < p → ((k : Fp) = (n : Fp) ↔ k = n) := by
    intro k n hk hn
    rw [ZMod.natCast_eq_natCast_iff']
    rw [Nat.mod_eq_of_lt hk, Nat.mod_eq_of_lt hn]
  have low : ∀ (A : E) (k : ℕ), k < 2 ^ 252 → A.y = (k : Fp) → (8 • A = 0 ↔ k ∈ [0, 1, t8y, p - t8y]) := by
    intro A k hk hy
    have h1 := cast k 1 (by omega) (by decide)
    have h2 := cast k (p - 1) (by omega) (by decide)
    have h3 := cast k 0 (by omega) (by decide)
    have h4 := cast k t8y (by omega) (by decide)
    have h5 := cast k (p - t8y) (by omega) (by decide)
    rw [Nat.cast_sub (by decide), CharP.cast_eq_zero Fp p, zero_sub] at h2 h5
    rw [Nat.cast_one] at h1 h2
    rw [Nat.cast_zero] at h3
    rw [eight_torsion_iff, hy, h1, h2, h3, h4, h5]
    simp only [List.mem_cons, List.not_mem_nil, or_false]
    constructor
    · rintro (h | h | h | h | h)
      · exact Or.inr (Or.inl h)
      · omega
      · exact Or.inl h
      · exact Or.inr (Or.inr (Or.inl h))
      · exact Or.inr (Or.inr (Or.inr h))
    · rintro (h | h | h | h)
      · exact Or.inr (Or.inr (Or.inl h))
      · exact Or.inl h
      · exact Or.inr (Or.inr (Or.inr (Or.inl h)))
      · exact Or.inr (Or.inr (Or.inr (Or.inr h)))
  have lt : ∀ b : Bytes32, bytesVal b % 2 ^ 252 < 2 ^ 252 := fun b => Nat.mod_lt _ (by decide)
  refine ⟨fun b P S h hS => ?_, ?_⟩
  · obtain ⟨A, hy, hA⟩ := key b P S h hS
    rw [hA, low A _ (lt b) hy]
  · have e : {b : Bytes32 | ∃ P S, Ed.decompress c b = .ok (some P) ∧ mulByCofactor Ed.ops c P = .ok S ∧
        Ed.ctEq c S Ed.identity = .ok true} =
        {b : Bytes32 | (fun y => ∃ A : E, A.y = y ∧ 8 • A = 0) ((bytesVal b % 2 ^ 252 : ℕ) : Fp)} := by
      ext b
      show (∃ P S, _) ↔ ∃ A : E, _
      constructor
      · rintro ⟨P, S, h1, h2, h3⟩
        obtain ⟨A, hy, hA⟩ := key b P S h1 h2
        exact ⟨A, hy, hA.1 h3⟩
      · rintro ⟨A, hy, hA⟩
        obtain ⟨o, eo, ho, hn⟩ := C55_decompress c hc b
        cases o with
        | none => exact absurd ⟨A, hy⟩ (hn.1 rfl)
        | some P =>
          obtain ⟨A', hA', hy'⟩ := ho P rfl
          obtain ⟨S, eS, hS⟩ := mulByCofactor_rep Ed.opsSpec c hc hA'
          obtain ⟨A'', hy'', h⟩ := key b P S eo eS
          exact ⟨P, S, eo, eS, h.2 ((low A'' _ (lt b) hy'').2 ((low A _ (lt b) hy).1 hA))⟩
    rw [e]
    refine (ncard_low_set (2 ^ 252) 16 (by norm_num) (by decide) fun y => ∃ A : E, A.y = y ∧ 8 • A = 0).trans ?_
    have e2 : {y : Fp | (∃ A : E, A.y = y ∧ 8 • A = 0) ∧ y.val < 2 ^ 252} =
        {(0 : Fp), 1, (t8y : Fp), ((p - t8y : ℕ) : Fp)} := by
      ext y
      simp only [Set.mem_ofPred_eq, Set.mem_insert_iff, Set.mem_singleton_iff]
      constructor
      · rintro ⟨⟨A, hy, hA⟩, hlt⟩
        have hv : y = (y.val : Fp) := (ZMod.natCast_zmod_val y).symm
        have := (low A y.val hlt (hy.trans hv)).1 hA
        simp only [List.mem_cons, List.not_mem_nil, or_false] at this
        rw [hv]
        rcases this with h | h | h | h
        · left; rw [h, Nat.cast_zero]
        · right; left; rw [h, Nat.cast_one]
        · right; right; left; rw [h]
        · right; right; right; rw [h]
      · rintro (h | h | h | h)
        · exact ⟨⟨fourTorsion, h.symm, (low _ 0 (by decide) Nat.cast_zero.symm).2 (by simp)⟩, by rw [h]; decide⟩
        · exact ⟨⟨0, h.symm, smul_zero _⟩, by rw [h]; decide⟩
        · exact ⟨⟨T8, h.symm, (low _ t8y (by decide) rfl).2 (by simp)⟩, by rw [h]; decide⟩
        · exact ⟨⟨_, h.symm, T8'_zero⟩, by rw [h]; decide⟩
    rw [e2, Set.ncard_eq_toFinset_card']
    have : (Set.toFinset {(0 : Fp), 1, (t8y : Fp), ((p - t8y : ℕ) : Fp)}).card = 4 := by decide +kernel
    rw [this]

/-- C111: the chosen point need not have small order. If eight divides its order, the multiple of the result by the
public constant `L` still shows the scalar modulo eight. -/
theorem C111_projects (c : Cfg) (hc : c.Enough) {P : EdPoint} {A : E} (hP : P.Rep A) (h8 : 8 ∣ addOrderOf A)
    (m n : Sc) (hm : m.SCanon) (hn : n.SCanon) :
    ∃ U V X Y, Ed.mul c P m = .ok U ∧ Ed.mul c P n = .ok V ∧ Ed.mul c U Scalar.L = .ok X ∧
      Ed.mul c V Scalar.L = .ok Y ∧ (Ed.compress c X = Ed.compress c Y ↔ m.val % 8 = n.val % 8) := by
  obtain ⟨U, eU, hU⟩ := doubleAndAdd_rep Ed.opsSpec c hc hP m hm.1 (Scalar.scanon_lt256 hm)
  obtain ⟨V, eV, hV⟩ := doubleAndAdd_rep Ed.opsSpec c hc hP n hn.1 (Scalar.scanon_lt256 hn)
  obtain ⟨X, eX, hX⟩ := doubleAndAdd_rep Ed.opsSpec c hc hU Scalar.L (by decide) (by decide)
  obtain ⟨Y, eY, hY⟩ := doubleAndAdd_rep Ed.opsSpec c hc hV Scalar.L (by decide) (by decide)
  refine ⟨U, V, X, Y, eU, eV, eX, eY, ?_⟩
  have ord : addOrderOf (ell • A) = 8 := by
    have hd := order_dvd A
    obtain ⟨k, hk⟩ := h8
    rw [hk] at hd
    have hkl : k ∣ ell := Nat.dvd_of_mul_dvd_mul_left (by decide) hd
    have e8 : Nat.Coprime 8 ell := by decide
    rw [addOrderOf_nsmul' A (by decide), hk, Nat.Coprime.gcd_mul_left_cancel k e8, Nat.gcd_eq_left hkl]
    rcases (Nat.dvd_prime ell_prime).1 hkl with rfl | rfl
    · rfl
    · exact Nat.mul_div_cancel _ (by decide)
  have vL : L5.val Scalar.L = ell := by decide
  rw [C79_compress_injective c hc hX hY, vL, smul_comm, smul_comm ell n.val, nsmul_eq_nsmul_iff_modEq, ord]
  rfl

/-! ### Countermeasures -/

/-- C111: multiplying by the cofactor first removes this: the multiples then agree only for equal scalars, or for all
scalars if the point has small order. -/
theorem C111_cofactor_first (c : Cfg) (hc : c.Enough) {P : EdPoint} {A : E} (hP : P.Rep A) (m n : Sc) (hm : m.SCanon)
    (hn : n.SCanon) :
    ∃ S U V, mulByCofactor Ed.ops c P = .ok S ∧ Ed.mul c S m = .ok U ∧ Ed.mul c S n = .ok V ∧
      (Ed.compress c U = Ed.compress c V ↔ m = n ∨ Ed.ctEq c S Ed.identity = .ok true) := by
  obtain ⟨S, eS, hS⟩ := mulByCofactor_rep Ed.opsSpec c hc hP
  obtain ⟨U, V, eU, eV, _, h⟩ := C111_multiples c hc hS m n hm hn
  obtain ⟨t, et, ht⟩ := Ed_ctEq_iff c hc hS Ed.identity_rep
  refine ⟨S, U, V, eS, eU, eV, ?_⟩
  rw [h, et, Res.ok_inj, ht]
  have h0 : ell • 8 • A = 0 := by
    rw [smul_smul, mul_comm, ← card_E]
    exact card_nsmul_eq_zero'
  rcases (Nat.dvd_prime ell_prime).1 (addOrderOf_dvd_of_nsmul_eq_zero h0) with e | e
  · rw [e, Nat.mod_one, Nat.mod_one]
    exact ⟨fun _ => Or.inr (AddMonoid.addOrderOf_eq_one_iff.1 e), fun _ => rfl⟩
  · rw [e, Nat.mod_eq_of_lt hm.2, Nat.mod_eq_of_lt hn.2]
    have hne : 8 • A ≠ 0 := by
      intro h1
      rw [h1, addOrderOf_zero] at e
      exact absurd e (by decide)
    constructor
    · exact fun h1 => Or.inl (hm.1.ext hn.1 h1)
    · rintro (h1 | h1)
      · rw [h1]
      · exact absurd h1 hne

/-- C111: multiplying the secret by eight with scalar arithmetic instead does not help: for a point of order eight the
result shows the floor of `8 n / L`, the upper three bits of the secret. -/
theorem C111_scalar_cofactor (c : Cfg) (hc : c.Enough) {T : EdPoint} {A : E} (hT : T.Rep A) (h8 : addOrderOf A = 8)
    (m n : Sc) (hm : m.SCanon) (hn : n.SCanon) :
    ∃ s t U V, Scalar.mul c (Scalar.fromU32 8) m = .ok s ∧ Scalar.mul c (Scalar.fromU32 8) n = .ok t ∧
      Ed.mul c T s = .ok U ∧ Ed.mul c T t = .ok V ∧
      (Ed.compress c U = Ed.compress c V ↔ 8 * m.val / ell = 8 * n.val / ell) := by
  obtain ⟨h1, h2⟩ := Scalar.fromU32_spec 8 (by decide)
  obtain ⟨s, es, hs, vs⟩ := C27_mul c _ m h1.1 hm.1
  obtain ⟨t, et, ht, vt⟩ := C27_mul c _ n h1.1 hn.1
  obtain ⟨U, V, eU, eV, _, h⟩ := C111_multiples c hc hT s t hs ht
  refine ⟨s, t, U, V, es, et, eU, eV, ?_⟩
  rw [h, h8, vs, vt, h2]
  have a := Nat.div_add_mod (8 * m.val) ell
  have b := Nat.div_add_mod (8 * n.val) ell
  have q : ∀ k, k < ell → 8 * k / ell < 8 := fun k hk => Nat.div_lt_of_lt_mul (by omega)
  have qa := q _ hm.2
  have qb := q _ hn.2
  have l3 : ell = 8 * (ell / 8) + 3 := by decide
  generalize 8 * m.val / ell = x at *
  generalize 8 * n.val / ell = y at *
  generalize 8 * m.val % ell = u at *
  generalize 8 * n.val % ell = v at *
  rw [l3] at a b
  generalize ell / 8 = w at *
  have a1 : u % 8 = (5 * x) % 8 := by
    have : (8 * w + 3) * x + u + 5 * x= 8 * (w * x + x) + u := by ring
    omega
  have b1 : v % 8 = (5 * y) % 8 := by
    have : (8 * w + 3) * y + v + 5 * y = 8 * (w * y + y) + v := by ring
    omega
  rw [a1, b1]
  omega

/-! ### Ristretto -/

/-- C111: for an encoding that Ristretto decoding accepts, other than that of the identity, multiples by different
scalars have different encodings. Multiples of the identity are all the same. -/
theorem C111_ristretto (c : Cfg) (hc : c.Enough) (b : Bytes32) (P : EdPoint)
    (h : Ristretto.decompress c b = .ok (some P)) (m n : Sc) (hm : m.SCanon) (hn : n.SCanon) :
    ∃ U V, Ristretto.mul c P m = .ok U ∧ Ristretto.mul c P n = .ok V ∧
      (Ristretto.compress c U = Ristretto.compress c V ↔ m = n ∨ b = Vector.replicate 32 0) := by
  obtain ⟨A, hA, hE⟩ := C63_decode_valid c hc b P h
  obtain ⟨U, eU, hU⟩ := doubleAndAdd_rep Ristretto.opsSpec c hc hA m hm.1 (Scalar.scanon_lt256 hm)
  obtain ⟨V, eV, hV⟩ := doubleAndAdd_rep Ristretto.opsSpec c hc hA n hn.1 (Scalar.scanon_lt256 hn)
  refine ⟨U, V, eU, eV, ?_⟩
  rw [C61_encoding_identifies c hc hU hV (hE.smul _) (hE.smul _), req_iff c hU hV]
  have id : SameClass A 0 ↔ b = Vector.replicate 32 0 := by
    rw [← req_iff c hA Ed.identity_rep, ← C61_encoding_identifies c hc hA Ed.identity_rep hE inEven_zero,
      C59_decode_encode c hc b P h]
    exact ⟨fun k => Res.ok.inj (k.trans (C69_identity c hc).1), fun k => (congrArg Res.ok k).trans (C69_identity c hc).1.symm⟩
  rw [← id]
  constructor
  · intro k
    obtain ⟨j, hj, hk⟩ := even_class hE
    by_cases hj0 : j = 0
    · right
      rwa [hj0, zero_smul] at hk
    left
    have e : ∀ x : ℕ, SameClass (x • A) ((x * j % ell) • Bpt) := by
      intro x
      have := hk.smul x
      rw [smul_smul] at this
      exact this.trans (mod_ell_even Bpt_even _).symm
    have k2 := mult_class (Nat.mod_lt _ (by decide)) (Nat.mod_lt _ (by decide)) ((e m.val).symm.trans (k.trans (e n.val)))
    have co : Nat.gcd ell j = 1 := (Nat.Prime.coprime_iff_not_dvd ell_prime).2 fun hd =>
      hj0 (Nat.eq_zero_of_dvd_of_lt hd hj)
    have k3 : m.val % ell = n.val % ell := Nat.ModEq.cancel_right_of_coprime co k2
    rw [Nat.mod_eq_of_lt hm.2, Nat.mod_eq_of_lt hn.2] at k3
    exact hm.1.ext hn.1 k3
  · rintro (k | k)
    · rw [k]; exact SameClass.refl _
    · have k1 := k.smul m.val
      have k2 := k.smul n.val
      rw [smul_zero] at k1 k2
      exact k1.trans k2.symm

/-- The hypotheses hold: a point of order `8 L`, one of order eight, the encoding of the base point, scalars. -/
example : (ofPt Gpt).Rep Gpt ∧ 8 ∣ addOrderOf Gpt ∧ (ofPt T8).Rep T8 ∧ addOrderOf T8 = 8 ∧ dbg.Enough ∧
    (∃ P, Ristretto.decompress dbg Ristretto.BASEPOINT_COMPRESSED = .ok (some P)) ∧ Scalar.one.SCanon ∧
    Scalar.minusOne.SCanon ∧ Scalar.one.val % 8 ≠ Scalar.minusOne.val % 8 ∧
    8 * Scalar.one.val / ell ≠ 8 * Scalar.minusOne.val / ell := by
  refine ⟨ofPt_rep _, ⟨ell, Gpt_order⟩, ofPt_rep _, T8_order, by decide, ?_, by decide, by decide, by decide, by decide⟩
  exact ⟨_, base_decodes dbg (by decide)⟩

end Props
end Zerocaf
