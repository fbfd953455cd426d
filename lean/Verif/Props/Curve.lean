import Verif.Proof.Twist
import Verif.Props.Forms
import Verif.Props.Random
import Mathlib.NumberTheory.LegendreSymbol.QuadraticChar.Basic
import Mathlib.Analysis.SpecialFunctions.Pow.Real
import Mathlib.Data.Nat.Squarefree

/-!
# C102, C103: the security criteria and the examples in the documents

`docs/Safe Curve criteria`, `docs/main.tex` and `sage_codes/` claim that the curve meets the criteria of
<https://safecurves.cr.yp.to/>, and print numbers computed for it.
-/

set_option exponentiation.threshold 600

namespace Zerocaf
namespace Props

open WeierstrassCurve.Affine (Point)

/-- The number of points of a curve `y^2 = x^3 + a x^2 + b x`, with the point at infinity. -/
theorem card_montgomery_shape (W : WeierstrassCurve.Affine Fp) (h1 : W.a₁ = 0) (h3 : W.a₃ = 0) (hΔ : W.Δ ≠ 0) :
    (Nat.card W.Point : ℤ) = 1 + ∑ x : Fp, (quadraticChar Fp (x ^ 3 + W.a₂ * x ^ 2 + W.a₄ * x + W.a₆) + 1) := by
  have e1 : ∀ x y : Fp, W.Nonsingular x y ↔ y ^ 2 = x ^ 3 + W.a₂ * x ^ 2 + W.a₄ * x + W.a₆ := by
    intro x y
    rw [← W.equation_iff_nonsingular_of_Δ_ne_zero hΔ, WeierstrassCurve.Affine.equation_iff, h1, h3]
    constructor <;> intro h <;> linear_combination h
  have hc : ringChar Fp ≠ 2 := by
    rw [ZMod.ringChar_zmod_n]
    decide
  rw [Nat.card_congr W.nonsingularPointEquiv]
  have e2 : Nat.card (WithZero {xy : Fp × Fp // W.Nonsingular xy.1 xy.2}) =
      Nat.card {xy : Fp × Fp // W.Nonsingular xy.1 xy.2} + 1 := Finite.card_option
  have e3 : Nat.card {xy : Fp × Fp // W.Nonsingular xy.1 xy.2} =
      Nat.card (Σ x : Fp, {y : Fp // y ^ 2 = x ^ 3 + W.a₂ * x ^ 2 + W.a₄ * x + W.a₆}) := by
    refine Nat.card_congr ⟨fun z => ⟨z.1.1, z.1.2, (e1 _ _).1 z.2⟩, fun z => ⟨(z.1, z.2.1), (e1 _ _).2 z.2.2⟩,
      fun z => rfl, fun z => rfl⟩
  have e4 : ∀ x : Fp, ((Nat.card {y : Fp // y ^ 2 = x ^ 3 + W.a₂ * x ^ 2 + W.a₄ * x + W.a₆} : ℕ) : ℤ) =
      quadraticChar Fp (x ^ 3 + W.a₂ * x ^ 2 + W.a₄ * x + W.a₆) + 1 := by
    intro x
    generalize x ^ 3 + W.a₂ * x ^ 2 + W.a₄ * x + W.a₆ = z
    rw [← quadraticChar_card_sqrts hc, Nat.card_eq_fintype_card, Set.toFinset_card]
    rfl
  rw [e2, e3, Nat.card_sigma]
  push_cast
  rw [Finset.sum_congr rfl fun x _ => e4 x]
  exact add_comm _ _

/-- The quadratic twist of the Montgomery form by `c`: `y^2 = x^3 + 505186 c x^2 + c^2 x`, that is
`c v^2 = u^3 + 505186 u^2 + u` with `x = c u`, `y = c^2 v`. -/
def twistW (c : Fp) : WeierstrassCurve.Affine Fp := ⟨0, c * 505186, 0, c ^ 2, 0⟩

theorem twist_Δ (c : Fp) : (twistW c).Δ = c ^ 6 * montW.Δ := by
  simp only [WeierstrassCurve.Δ, WeierstrassCurve.b₂, WeierstrassCurve.b₄, WeierstrassCurve.b₆,
    WeierstrassCurve.b₈, montW, twistW]
  ring

theorem card_sum (c : Fp) (hc : ¬ IsSquare c) : Nat.card montW.Point + Nat.card (twistW c).Point = 2 * p + 2 := by
  have c0 : c ≠ 0 := fun h => hc (h ▸ ⟨0, by ring⟩)
  have hΔ : (twistW c).Δ ≠ 0 := by
    rw [twist_Δ]
    exact mul_ne_zero (pow_ne_zero _ c0) C88_elliptic.1
  have h1 := card_montgomery_shape montW rfl rfl C88_elliptic.1
  have h2 := card_montgomery_shape (twistW c) rfl rfl hΔ
  have h3 : ∑ x : Fp, (quadraticChar Fp (x ^ 3 + (twistW c).a₂ * x ^ 2 + (twistW c).a₄ * x + (twistW c).a₆) + 1) =
      ∑ x : Fp, (quadraticChar Fp ((c * x) ^ 3 + (twistW c).a₂ * (c * x) ^ 2 + (twistW c).a₄ * (c * x) +
        (twistW c).a₆) + 1) :=
    (Equiv.sum_comp (Equiv.mulLeft₀ c c0) fun x => (quadraticChar Fp (x ^ 3 + (twistW c).a₂ * x ^ 2 +
      (twistW c).a₄ * x + (twistW c).a₆) + 1)).symm
  have h4 : ∀ x : Fp, quadraticChar Fp ((c * x) ^ 3 + (twistW c).a₂ * (c * x) ^ 2 + (twistW c).a₄ * (c * x) +
      (twistW c).a₆) = -quadraticChar Fp (x ^ 3 + montW.a₂ * x ^ 2 + montW.a₄ * x + montW.a₆) := by
    intro x
    have : (c * x) ^ 3 + (twistW c).a₂ * (c * x) ^ 2 + (twistW c).a₄ * (c * x) + (twistW c).a₆ =
        c * c ^ 2 * (x ^ 3 + montW.a₂ * x ^ 2 + montW.a₄ * x + montW.a₆) := by
      simp only [twistW, montW]
      ring
    rw [this, map_mul, map_mul, quadraticChar_sq_one' c0, mul_one,
      quadraticChar_neg_one_iff_not_isSquare.2 hc, neg_one_mul]
  have h5 : (Nat.card montW.Point + Nat.card (twistW c).Point : ℤ) = 2 * p + 2 := by
    rw [h1, h2, h3]
    simp only [h4]
    rw [add_add_add_comm, ← Finset.sum_add_distrib]
    have : ∀ x : Fp, (quadraticChar Fp (x ^ 3 + montW.a₂ * x ^ 2 + montW.a₄ * x + montW.a₆) + 1 +
        (-quadraticChar Fp (x ^ 3 + montW.a₂ * x ^ 2 + montW.a₄ * x + montW.a₆) + 1) : ℤ) = 2 := fun x => by ring
    simp only [this]
    rw [Finset.sum_const, Finset.card_univ, ZMod.card]
    simp only [nsmul_eq_mul]
    ring
  exact_mod_cast h5

/-- The trace of Frobenius: `p + 1` minus the number of points. -/
noncomputable def trace : ℤ := p + 1 - Nat.card montW.Point

theorem trace_eq : trace = -88182086828089156368837628454358249258 := by
  unfold trace
  rw [C88_order.1]
  decide +kernel

/-- C102: every quadratic twist of the curve has `4 q` points with `q` prime, as `curve_derivation` asks. -/
theorem C102_twist_order (c : Fp) (hc : ¬ IsSquare c) :
    ∃ q : ℕ, q.Prime ∧ Nat.card (twistW c).Point = 4 * q ∧ 2 ^ 249 < q := by
  refine ⟨_, Primality.prime_1809251394333065553493296640760748560192233568137954612408278327457774000433, ?_,
    by decide +kernel⟩
  have h := card_sum c hc
  rw [C88_order.1] at h
  have h2 : 2 * p + 2 = 2 ^ 252 + 115924404605461509904689566245241897752 +
      4 * 1809251394333065553493296640760748560192233568137954612408278327457774000433 := by decide +kernel
  rw [h2] at h
  exact Nat.add_left_cancel h

theorem orderOf_p : orderOf (p : ZMod ell) = (ell - 1) / 15 := by
  have h1 : 1 < ell := by decide
  refine orderOf_eq_of_pow_and_pow_div_prime (by decide) ?_ ?_
  · rw [← Primality.powMod_spec 250 ell p _ (by decide +kernel)]
    exact (Primality.cast_mod_one h1).2 (by decide +kernel)
  · intro q hq hd
    have hfs : (ell - 1) / 15 = (([(2, 1), (155385589, 1),
        (194060402252303413788402286645422500134630096612112378773286921059, 1)] : List (ℕ × ℕ)).map
          fun q => q.1 ^ q.2).prod := by decide +kernel
    obtain ⟨x, hx, rfl⟩ := Primality.prime_dvd_of_prod hq _ (by
      simp only [List.forall_mem_cons, List.not_mem_nil, false_implies, implies_true, and_true]
      exact ⟨by norm_num, Primality.prime_155385589,
        Primality.prime_194060402252303413788402286645422500134630096612112378773286921059⟩) (hfs ▸ hd)
    rw [← Primality.powMod_spec 250 ell p _ (lt_of_le_of_lt (Nat.div_le_self _ _) (by decide +kernel))]
    intro e
    have e := (Primality.cast_mod_one h1).1 e
    revert e
    simp only [List.mem_cons, List.not_mem_nil, or_false] at hx
    rcases hx with rfl | rfl | rfl <;> decide +kernel

/-- C102: transfers. `L` does not divide `p`, and the embedding degree, the least positive `k` for which `L`
divides `p^k - 1`, is `(L - 1)/15`, above the required `(L - 1)/100`. -/
theorem C102_embedding_degree : Nat.Coprime ell p ∧
    IsLeast {k : ℕ | 0 < k ∧ ell ∣ p ^ k - 1} ((ell - 1) / 15) ∧ (ell - 1) / 100 < (ell - 1) / 15 := by
  refine ⟨by decide +kernel, ?_, by decide +kernel⟩
  have key : ∀ k : ℕ, ell ∣ p ^ k - 1 ↔ (p : ZMod ell) ^ k = 1 := by
    intro k
    rw [← ZMod.natCast_eq_zero_iff, Nat.cast_sub (Nat.one_le_pow _ _ (by decide)), sub_eq_zero, Nat.cast_pow,
      Nat.cast_one]
  refine ⟨⟨by decide, ?_⟩, ?_⟩
  · rw [key, ← orderOf_p, pow_orderOf_eq_one]
  · rintro k ⟨hk, h⟩
    rw [key] at h
    rw [← orderOf_p]
    exact orderOf_le_of_pow_eq_one hk h

/-- C102: the rho attack. `0.886 sqrt L` is above the required `2^100`, on the curve and on every twist; on the
curve it is below `2^125`, so the security level 127 of `main.tex` is not reached. -/
theorem C102_rho : (2 : ℝ) ^ 124 < 0.886 * Real.sqrt ell ∧ 0.886 * Real.sqrt ell < (2 : ℝ) ^ 125 ∧
    ∀ c : Fp, ¬ IsSquare c → ∀ q : ℕ, q.Prime → 8 < q → q ∣ Nat.card (twistW c).Point →
      (2 : ℝ) ^ 124 < 0.886 * Real.sqrt q := by
  have key : ∀ n : ℕ, 2 ^ 248 * 1000000 < 886 ^ 2 * n → (2 : ℝ) ^ 124 < 0.886 * Real.sqrt n := by
    intro n h
    have h' : (2 : ℝ) ^ 248 * 1000000 < 886 ^ 2 * n := by exact_mod_cast h
    rw [show (0.886 : ℝ) * Real.sqrt n = Real.sqrt (0.886 ^ 2 * n) by
      rw [Real.sqrt_mul (by norm_num), Real.sqrt_sq (by norm_num)]]
    refine Real.lt_sqrt_of_sq_lt ?_
    rw [← pow_mul]
    norm_num at h' ⊢
    linarith
  refine ⟨key ell (by decide +kernel), ?_, ?_⟩
  · have h' : (886 : ℝ) ^ 2 * ell < 2 ^ 250 * 1000000 := by
      have : 886 ^ 2 * ell < 2 ^ 250 * 1000000 := by decide +kernel
      exact_mod_cast this
    rw [show (0.886 : ℝ) * Real.sqrt ell = Real.sqrt (0.886 ^ 2 * ell) by
      rw [Real.sqrt_mul (by norm_num), Real.sqrt_sq (by norm_num)]]
    rw [Real.sqrt_lt' (by positivity), ← pow_mul]
    norm_num at h' ⊢
    linarith
  · intro c hc q hq h8 hd
    obtain ⟨r, hr, hcard, hlt⟩ := C102_twist_order c hc
    rw [hcard] at hd
    have : q = r := by
      rcases (Nat.Prime.dvd_mul hq).1 hd with h | h
      · exact absurd (Nat.le_of_dvd (by norm_num) h) (by omega)
      · exact (Nat.prime_dvd_prime_iff_eq hq hr).1 h
    subst this
    refine key q (lt_of_lt_of_le ?_ (Nat.mul_le_mul_left _ hlt.le))
    decide +kernel

/-- The square-free part of the discriminant `trace^2 - 4 p`. -/
def discPart : ℕ := 557 * (1284268031676943 * (983030834487880084651 * 1881753370316552587875387939158653037))

theorem disc_squarefree : Squarefree discPart := by
  have p1 : Nat.Prime 557 := by norm_num
  have p2 := Primality.prime_1284268031676943
  have p3 := Primality.prime_983030834487880084651
  have p4 := Primality.prime_1881753370316552587875387939158653037
  unfold discPart
  rw [Nat.squarefree_mul (by norm_num), Nat.squarefree_mul (by norm_num), Nat.squarefree_mul (by norm_num)]
  exact ⟨p1.prime.squarefree, p2.prime.squarefree, p3.prime.squarefree, p4.prime.squarefree⟩

/-- C102: the discriminant. Whatever square `s^2` is split off from `trace^2 - 4 p`, the absolute value of the
rest is above the required `2^100`; `trace^2 - 4p = -16 m` with `m` square-free. -/
theorem C102_discriminant : trace ^ 2 - 4 * p = -16 * discPart ∧ Squarefree discPart ∧
    ∀ s D : ℤ, trace ^ 2 - 4 * p = s ^ 2 * D → 2 ^ 249 < |D| := by
  have h0 : trace ^ 2 - 4 * p = -16 * discPart := by
    rw [trace_eq]
    decide +kernel
  refine ⟨h0, disc_squarefree, fun s D h => ?_⟩
  rw [h0] at h
  -- `s` divides 4
  have hs : s.natAbs ^ 2 * D.natAbs = 16 * discPart := by
    have := congrArg Int.natAbs h
    rw [Int.natAbs_mul, Int.natAbs_mul, Int.natAbs_pow] at this
    rw [← this]
    rfl
  have hodd : Odd discPart := by decide +kernel
  have hs0 : s.natAbs ≠ 0 := by
    intro e
    rw [e, zero_pow two_ne_zero, zero_mul] at hs
    exact absurd hs.symm (by decide +kernel)
  obtain ⟨a, m, hm, he⟩ := Nat.exists_eq_two_pow_mul_odd hs0
  have hdvd : s.natAbs ^ 2 ∣ 16 * discPart := ⟨_, hs.symm⟩
  have hm1 : m = 1 := by
    have h1 : m * m ∣ 16 * discPart := Dvd.dvd.trans ⟨2 ^ a * 2 ^ a, by rw [he]; ring⟩ hdvd
    have h2 : Nat.Coprime (m * m) 16 := by
      have : Nat.Coprime m 2 := hm.coprime_two_right
      exact Nat.Coprime.pow_right 4 (this.mul_left this)
    exact Nat.isUnit_iff.1 (disc_squarefree m (h2.dvd_of_dvd_mul_left h1))
  have ha : a ≤ 2 := by
    by_contra hgt
    have h1 : 2 ^ 5 ∣ 16 * discPart := Dvd.dvd.trans (Dvd.dvd.trans (pow_dvd_pow 2 (by omega : 5 ≤ a * 2))
      ⟨m ^ 2, by rw [he]; ring⟩) hdvd
    exact absurd h1 (by decide +kernel)
  have hle : s.natAbs ^ 2 ≤ 16 := by
    rw [he, hm1, mul_one, ← pow_mul]
    exact Nat.pow_le_pow_right (by norm_num) (by omega : a * 2 ≤ 4)
  have hD : discPart ≤ D.natAbs := by
    have := Nat.mul_le_mul_right D.natAbs hle
    rw [hs] at this
    omega
  have hbig : 2 ^ 249 < discPart := by decide +kernel
  rw [Int.abs_eq_natAbs]
  exact_mod_cast hbig.trans_le hD

/-- C102: Hasse's bound holds, and the two values of the trace printed in `sage_codes/Safe Curve code` are both
wrong: the first has the wrong sign, the second is off by two from it. -/
theorem C102_trace : trace = -88182086828089156368837628454358249258 ∧ trace ^ 2 < 4 * p ∧
    trace ≠ 88182086828089156368837628454358249258 ∧ trace ≠ 88182086828089156368837628454358249260 := by
  refine ⟨trace_eq, ?_, ?_, ?_⟩ <;> rw [trace_eq] <;> decide +kernel

theorem mont_cyclic : IsAddCyclic montW.Point := (mont.isAddCyclic).1 cyclic_E

theorem order_count (n : ℕ) (hn : n ∣ 8 * ell) : Nat.card {P : montW.Point // addOrderOf P = n} = n.totient := by
  have := mont_cyclic
  have hcard : Nat.card montW.Point = 8 * ell := by rw [← Nat.card_congr mont.toEquiv, card_E]
  have hfin : Finite montW.Point := Nat.finite_of_card_ne_zero (by rw [hcard]; decide)
  have := Fintype.ofFinite montW.Point
  rw [Nat.card_eq_fintype_card, Fintype.card_subtype]
  exact IsAddCyclic.card_addOrderOf_eq_totient (by rwa [← Nat.card_eq_fintype_card, hcard])

/-- C102: completeness criterion. Exactly one point has order 2, exactly two have order 4. -/
theorem C102_small_orders : Nat.card {P : montW.Point // addOrderOf P = 2} = 1 ∧
    Nat.card {P : montW.Point // addOrderOf P = 4} = 2 := by
  rw [order_count 2 (by decide), order_count 4 (by decide)]
  decide

/-- C102: ladder and indistinguishability criteria. The Weierstrass form has a root `r` of `x^3 + a x + b` with
`3 r^2 + a` a square, `b` is not zero, and the number of points is even. -/
theorem C102_ladder_elligator : (∃ r : Fp, r ^ 3 + shortW.a₄ * r + shortW.a₆ = 0 ∧ IsSquare (3 * r ^ 2 + shortW.a₄)) ∧
    shortW.a₆ ≠ 0 ∧ Even (Nat.card shortW.Point) := by
  refine ⟨⟨6062232, zshift.h0, ⟨36, ?_⟩⟩, ?_, ?_⟩
  · have := zshift.h1
    have h : (shortW.a₄ : Fp) = 7237005577332262213973186563042994240857116359379907606001950828033483786813 := rfl
    have e1 : zshift.r = 6062232 := rfl
    have e2 : zshift.s = 6 := rfl
    rw [e1, e2] at this
    rw [h]
    linear_combination this
  · have : ((445582015604702849664 : ℕ) : Fp) ≠ 0 := by
      rw [Ne, ZMod.natCast_eq_zero_iff]
      exact Nat.not_dvd_of_pos_of_lt (by decide) (by decide)
    exact_mod_cast this
  · rw [C88_order.2]
    decide

/-- C102: the conditions on the coefficients used to derive the curve: `A^2 - 4` is not a square and `A + 2` is. -/
theorem C102_derivation : ¬ IsSquare ((505186 : Fp) ^ 2 - 4) ∧ IsSquare ((505186 : Fp) + 2) ∧ 505186 % 4 = 2 := by
  refine ⟨?_, ?_, by decide⟩
  · have e : ((505186 : Fp) ^ 2 - 4) = ((505186 ^ 2 - 4 : ℕ) : Fp) := by norm_num
    rw [e]
    intro h
    rw [← Field.pow_half_ne_neg_one, Field.pow_facts _ (p / 2) (by decide)] at h
    apply h
    have h4 : Primality.powMod 260 p (505186 ^ 2 - 4) (p / 2) = p - 1 := by decide +kernel
    rw [h4, Nat.cast_sub (by decide), ZMod.natCast_self, Nat.cast_one, zero_sub]
  · have e : ((505186 : Fp) + 2) = ((505188 : ℕ) : Fp) := by norm_num
    rw [e, ← Field.pow_half_ne_neg_one, Field.pow_facts _ (p / 2) (by decide)]
    have h4 : Primality.powMod 260 p 505188 (p / 2) = 1 := by decide +kernel
    rw [h4, Nat.cast_one]
    exact one_ne_neg_one_Fp

/-! ### C103 -/

/-- Every point of the Montgomery curve with `u ≠ 0` comes from a point with the matching coordinates. -/
theorem of_mont {u v : Fp} (h : montW.Nonsingular u v) (hu : u ≠ 0) :
    ∃ A : E, mont A = .some u v h ∧ zlink.UV A u v := by
  have on : v ^ 2 = u ^ 3 + zlink.a * u ^ 2 + u := by
    have := (WeierstrassCurve.Affine.equation_iff _ _).1 h.1
    have e : zlink.a = 505186 := rfl
    rw [e]
    simp only [montW] at this
    linear_combination this
  obtain ⟨A, hA⟩ := zlink.exists_uv on hu
  exact ⟨A, zlink.toW_uv hA, hA⟩

theorem nat_ne {a b : ℕ} (h : a % p ≠ b % p) : (a : Fp) ≠ b := fun e => h ((ZMod.natCast_eq_natCast_iff' a b p).1 e)

theorem nonsquare_of (n : ℕ) (h : Primality.powMod 260 p n (p / 2) = p - 1) : ¬ IsSquare (n : Fp) := by
  intro hs
  rw [← Field.pow_half_ne_neg_one, Field.pow_facts _ (p / 2) (by decide)] at hs
  apply hs
  rw [h, Nat.cast_sub (by decide), ZMod.natCast_self, Nat.cast_one, zero_sub]

/-- The generator of `main.tex`: a point with `u = 2`. -/
def paperGen : E := ptOfNat 1987690902726160915525709621737165415790493636000125987678731127035634441177
  4824670384888174809315457708695329493904744239586605070667967292190302833993 (by decide +kernel)

theorem three_y : 3 * paperGen.y = 1 := by
  have : ((3 * 4824670384888174809315457708695329493904744239586605070667967292190302833993 : ℕ) : Fp) = (1 : ℕ) :=
    fpcast (by decide +kernel)
  exact_mod_cast this

theorem u_two {A : E} {v : Fp} (h : zlink.UV A 2 v) : A.y = paperGen.y := by
  have h1 := h.hy
  have h3 : (3 : Fp) ≠ 0 := by
    have := nat_ne (a := 3) (b := 0) (by decide)
    exact_mod_cast this
  apply mul_left_cancel₀ h3
  rw [three_y]
  linear_combination h1

theorem paperGen_order : addOrderOf paperGen = 8 * ell := by
  refine addOrderOf_eq_of_nsmul_and_div_prime_nsmul (by decide) ?_ ?_
  · rw [← card_E]
    exact card_nsmul_eq_zero'
  intro q hq hd
  rcases (Nat.Prime.dvd_mul hq).1 hd with h | h
  · have : q = 2 := (Nat.prime_dvd_prime_iff_eq hq Nat.prime_two).1 (hq.dvd_of_dvd_pow (n := 3) h)
    subst this
    rw [show 8 * ell / 2 = 4 * ell by omega]
    exact (mult_zero_iff (4 * ell) _ _ (by decide) _).not.2 (by decide +kernel)
  · have : q = ell := (Nat.prime_dvd_prime_iff_eq hq ell_prime).1 h
    subst this
    rw [Nat.mul_div_cancel _ (by decide)]
    exact (mult_zero_iff 8 _ _ (by decide) _).not.2 (by decide +kernel)

theorem mont_order (A : E) : addOrderOf (mont A) = addOrderOf A :=
  addOrderOf_injective mont.toAddMonoidHom mont.injective A

/-- C103: the base point. Among the points of the Montgomery form with `u` a positive integer, the first of prime
order have `u = 4`, and those are the base point of the library and its negative. -/
theorem C103_base_choice : (∀ u : ℕ, 0 < u → u < 4 → ∀ (v : Fp) (h : montW.Nonsingular (u : Fp) v),
      ¬ (addOrderOf (Point.some (u : Fp) v h)).Prime) ∧
    (∀ (v : Fp) (h : montW.Nonsingular 4 v), addOrderOf (Point.some 4 v h) = ell ∧
      (Point.some 4 v h = mont Bpt ∨ Point.some 4 v h = -mont Bpt)) := by
  constructor
  · intro u h0 h4 v h hp
    have hu : (u : Fp) ≠ 0 := by
      have := nat_ne (a := u) (b := 0) (by rw [Nat.mod_eq_of_lt (h4.trans (by decide))]; simpa using h0.ne')
      exact_mod_cast this
    obtain ⟨A, hA, uv⟩ := of_mont h hu
    rw [← hA, mont_order] at hp
    have hx : A.x ≠ 0 := fun e => by
      have := uv.hx
      rw [e, zero_mul] at this
      exact hu ((mul_eq_zero.1 this.symm).resolve_left two_ne_zero_Fp)
    have h2 : addOrderOf A ≠ 2 := by
      intro e
      have h1 : 2 • A = 0 := by rw [← e]; exact addOrderOf_nsmul_eq_zero A
      have : A = -A := eq_neg_of_add_eq_zero_left (by rw [← two_nsmul]; exact h1)
      exact hx ((x_eq_zero_iff A).2 ((pt_eq_neg_iff A).1 this))
    -- a point of odd order is twice a point
    have hev : InEven A := by
      have hodd : addOrderOf A % 2 = 1 := hp.eq_two_or_odd.resolve_left h2
      refine ⟨((addOrderOf A + 1) / 2) • A, ?_⟩
      rw [← add_smul, show (addOrderOf A + 1) / 2 + (addOrderOf A + 1) / 2 = addOrderOf A + 1 by omega, add_smul,
        addOrderOf_nsmul_eq_zero, zero_add, one_smul]
    have hu3 : u = 1 ∨ u = 2 ∨ u = 3 := by omega
    rcases hu3 with rfl | rfl | rfl
    · have hy : A.y = 0 := by
        have := uv.hy
        have h2' : A.y * 2 = 0 := by
          push_cast at this
          linear_combination this
        exact (mul_eq_zero.1 h2').resolve_right two_ne_zero_Fp
      have h4 : 4 • A = 0 := (four_torsion_iff A).2 (Or.inr hy)
      have hd : addOrderOf A ∣ 2 ^ 2 := addOrderOf_dvd_of_nsmul_eq_zero h4
      exact h2 ((Nat.prime_dvd_prime_iff_eq hp Nat.prime_two).1 (hp.dvd_of_dvd_pow hd))
    · have hy : A.y = paperGen.y := u_two (v := v) (by exact_mod_cast uv)
      rw [inEven_iff, hy, ← inEven_iff] at hev
      obtain ⟨B, hB⟩ := hev
      have h4 : (4 * ell) • paperGen = 0 := by
        rw [hB, ← two_smul ℕ B, smul_smul, show 4 * ell * 2 = 8 * ell by ring, ← card_E]
        exact card_nsmul_eq_zero'
      have := addOrderOf_dvd_of_nsmul_eq_zero h4
      rw [paperGen_order] at this
      exact absurd (Nat.le_of_dvd (by decide) this) (by decide)
    · have on := uv.on
      have e : zlink.a = 505186 := rfl
      rw [e] at on
      have h3 : ¬ IsSquare ((27 + 505186 * 9 + 3 : ℕ) : Fp) := nonsquare_of _ (by decide +kernel)
      apply h3
      refine ⟨v, ?_⟩
      rw [← pow_two, on]
      push_cast
      ring
  · intro v h
    have h4 : (4 : Fp) ≠ 0 := by
      have := nat_ne (a := 4) (b := 0) (by decide)
      exact_mod_cast this
    have h5 : (5 : Fp) ≠ 0 := by
      have := nat_ne (a := 5) (b := 0) (by decide)
      exact_mod_cast this
    obtain ⟨A, hA, uv⟩ := of_mont h h4
    have hy : A.y = Bpt.y := by
      apply mul_right_cancel₀ h5
      rw [Bpt_y, div_mul_cancel₀ _ h5]
      linear_combination uv.hy
    rcases same_y hy with e | e
    · rw [← hA, mont_order, ← e]
      exact ⟨Bpt_order, Or.inl rfl⟩
    · have e' : A = -Bpt := by rw [e, neg_neg]
      rw [← hA, mont_order, e', addOrderOf_neg]
      exact ⟨Bpt_order, Or.inr (map_neg _ _)⟩

/-- C103: the point chosen in `main.tex` instead: the smallest `u` of a point of full order is 2, and eight times
such a point is not the base point of the library, nor its negative. -/
theorem C103_paper_choice : (∀ (v : Fp) (h : montW.Nonsingular 2 v), addOrderOf (Point.some 2 v h) = 8 * ell ∧
      8 • Point.some 2 v h ≠ mont Bpt ∧ 8 • Point.some 2 v h ≠ -mont Bpt) ∧
    (∃ v, montW.Nonsingular 2 v) ∧
    ∀ (u : ℕ), u < 2 → ∀ (v : Fp) (h : montW.Nonsingular (u : Fp) v), addOrderOf (Point.some (u : Fp) v h) ≠ 8 * ell := by
  have hne : 8 • paperGen - Bpt ≠ 0 ∧ 8 • paperGen + Bpt ≠ 0 := by
    have hP := NP.mul_rep 8 (by decide) (ptOfNat_rep
      1987690902726160915525709621737165415790493636000125987678731127035634441177
      4824670384888174809315457708695329493904744239586605070667967292190302833993 (by decide +kernel))
    have hB : bN.Rep Bpt := bN_rep
    have hN : NP.Rep ⟨p - bN.X, bN.Y, 1, (p - bN.X) * bN.Y % p⟩ (-Bpt) := by
      refine ⟨by simp, ?_, ?_, ?_⟩ <;> dsimp only
      · rw [Nat.cast_sub (by decide), ZMod.natCast_self, hB.x, EdCurve.Pt.neg_x]
        have : (bN.Z : Fp) = 1 := by simp [bN]
        rw [this]; push_cast; ring
      · rw [hB.y, EdCurve.Pt.neg_y]
        have : (bN.Z : Fp) = 1 := by simp [bN]
        rw [this]; push_cast; ring
      · rw [ZMod.natCast_mod, Nat.cast_mul, Nat.cast_sub (by decide), ZMod.natCast_self, hB.x, hB.y,
          EdCurve.Pt.neg_x, EdCurve.Pt.neg_y]
        have : (bN.Z : Fp) = 1 := by simp [bN]
        rw [this]; push_cast; ring
    constructor
    · rw [sub_eq_add_neg]
      exact (NP.isZero_rep (NP.add_rep hP hN)).not.1 (by decide +kernel)
    · exact (NP.isZero_rep (NP.add_rep hP hB)).not.1 (by decide +kernel)
  refine ⟨?_, ?_, ?_⟩
  · intro v h
    obtain ⟨A, hA, uv⟩ := of_mont h two_ne_zero_Fp
    rw [← hA, mont_order, ← map_nsmul, ← map_neg, mont.injective.ne_iff, mont.injective.ne_iff]
    rcases same_y (u_two uv) with e | e
    · rw [← e]
      refine ⟨paperGen_order, fun h => hne.1 (by rw [h, sub_self]), fun h => hne.2 (by rw [h, neg_add_cancel])⟩
    · have e' : A = -paperGen := by rw [e, neg_neg]
      rw [e', addOrderOf_neg, smul_neg]
      refine ⟨paperGen_order, fun h => hne.2 ?_, fun h => hne.1 (by rw [neg_inj.1 h, sub_self])⟩
      rw [← h, add_neg_cancel]
  · have hx : paperGen.x ≠ 0 := by
      have := nat_ne (a := 1987690902726160915525709621737165415790493636000125987678731127035634441177) (b := 0)
        (by decide +kernel)
      exact_mod_cast this
    have uv := zlink.uv_of hx
    have hu : EdCurve.Link.uOf paperGen = (2 : Fp) := by
      have h3 := three_y
      have h1 : 1 - paperGen.y ≠ 0 := fun e => two_ne_zero_Fp (by linear_combination 3 * e + h3 )
      unfold EdCurve.Link.uOf
      rw [div_eq_iff h1]
      linear_combination h3
    exact ⟨_, hu ▸ uv.ns⟩
  · intro u hu v h e
    have hu' : u = 0 ∨ u = 1 := by omega
    rcases hu' with rfl | rfl
    · have hv : v = 0 := by
        have := (WeierstrassCurve.Affine.equation_iff _ _).1 h.1
        simp only [montW] at this
        refine pow_eq_zero_iff two_ne_zero |>.1 ?_
        push_cast at this
        linear_combination this
      have h2 : 2 • Point.some ((0 : ℕ) : Fp) v h = 0 := by
        have h0 := zlink.toW_tor
        have e0 : Point.some ((0 : ℕ) : Fp) v h = mont (EdCurve.Link.tor zc) := by
          rw [show mont (EdCurve.Link.tor zc) = Point.some 0 0 zlink.ns_zero from h0]
          exact (zlink.some_congr h (by push_cast; rfl) hv).2
        rw [e0, ← map_nsmul, two_nsmul]
        nth_rewrite 1 [← EdCurve.Link.neg_tor]
        rw [neg_add_cancel, map_zero]
      have := addOrderOf_dvd_of_nsmul_eq_zero h2
      rw [e] at this
      exact absurd (Nat.le_of_dvd (by decide) this) (by decide)
    · obtain ⟨A, hA, uv⟩ := of_mont h (by push_cast; exact one_ne_zero)
      rw [← hA, mont_order] at e
      have hy : A.y = 0 := by
        have := uv.hy
        have h2' : A.y * 2 = 0 := by
          push_cast at this
          linear_combination this
        exact (mul_eq_zero.1 h2').resolve_right two_ne_zero_Fp
      have h4 : 4 • A = 0 := (four_torsion_iff A).2 (Or.inr hy)
      have hd := addOrderOf_dvd_of_nsmul_eq_zero h4
      rw [e] at hd
      exact absurd (Nat.le_of_dvd (by decide) hd) (by decide)

/-- C103: the order in `main.tex` is right, its prime factor is not: eight times the number printed there is not
the order, and the number is not prime. -/
theorem C103_paper_order : Nat.card E = 2 ^ 252 + 115924404605461509904689566245241897752 ∧
    8 * (2 ^ 249 + 15114490550575682688738086195780655237219) ≠ Nat.card E ∧
    ¬ (2 ^ 249 + 15114490550575682688738086195780655237219).Prime := by
  have h : Nat.card E = 2 ^ 252 + 115924404605461509904689566245241897752 := by
    rw [card_E]
    decide +kernel
  refine ⟨h, by rw [h]; decide +kernel, fun hp => ?_⟩
  have : Fact (2 ^ 249 + 15114490550575682688738086195780655237219).Prime := ⟨hp⟩
  have h2 : ((2 : ℕ) : ZMod (2 ^ 249 + 15114490550575682688738086195780655237219)) ≠ 0 := by
    rw [Ne, ZMod.natCast_eq_zero_iff]
    exact Nat.not_dvd_of_pos_of_lt (by decide) (by decide +kernel)
  have := ZMod.pow_card_sub_one_eq_one h2
  rw [← Primality.powMod_spec 250 _ 2 _ (by decide +kernel), Primality.cast_mod_one (by decide +kernel)] at this
  revert this
  decide +kernel

/-- C103: the equation in the definition of `main.tex` has lost a sign: no point of the curve with nonzero
coordinates satisfies it. -/
theorem C103_paper_equation (A : E) (hx : A.x ≠ 0) (hy : A.y ≠ 0) :
    -A.x ^ 2 + A.y ^ 2 ≠ 1 + 126296 / 126297 * A.x ^ 2 * A.y ^ 2 := by
  intro h
  have on := A.on
  unfold EdCurve.On at on
  have hd : zc.d = -126296 / 126297 := rfl
  have c1 : (126297 : Fp) ≠ 0 := c126297
  have c2 : (126296 : Fp) ≠ 0 := by
    have := nat_ne (a := 126296) (b := 0) (by decide)
    exact_mod_cast this
  have : 2 * (126296 / 126297) * (A.x * A.y) ^ 2 = (0 : Fp) := by
    rw [hd] at on
    linear_combination on - h
  rcases mul_eq_zero.1 this with e | e
  · rcases mul_eq_zero.1 e with e | e
    · exact two_ne_zero_Fp e
    · exact div_ne_zero c2 c1 e
  · exact mul_ne_zero hx hy (pow_eq_zero_iff two_ne_zero |>.1 e)

/-- C103: the conversion map of `main.tex` from the twisted Edwards form to the Montgomery form takes no point with
`x ≠ 0` to the Montgomery curve. -/
theorem C103_paper_to_montgomery (A : E) (hx : A.x ≠ 0) :
    ¬ montW.Equation ((1 + A.y) / (1 - A.y)) ((1 + A.y) / ((1 - A.y) * A.x)) := by
  rw [WeierstrassCurve.Affine.equation_iff]
  have n1 : 1 - A.y ≠ 0 := fun h => hx ((x_eq_zero_iff A).2 (Or.inl (by linear_combination -h)))
  have n2 : 1 + A.y ≠ 0 := fun h => hx ((x_eq_zero_iff A).2 (Or.inr (by linear_combination h)))
  have uv := zlink.uv_of hx
  have on := uv.on
  intro h
  simp only [montW] at h
  have e : zlink.a = 505186 := rfl
  rw [e] at on
  unfold EdCurve.Link.vOf EdCurve.Link.uOf at on
  have hq : zlink.q = qZ := rfl
  have hq0 := qZ_ne
  rw [hq] at on
  have h4 : (4 : Fp) = qZ ^ 2 := by
    have : ((1 + A.y) / ((1 - A.y) * A.x)) ^ 2 = (2 * ((1 + A.y) / (1 - A.y)) / (qZ * A.x)) ^ 2 := by
      rw [on]
      linear_combination h
    rw [div_pow, div_pow, div_eq_div_iff (pow_ne_zero _ (mul_ne_zero n1 hx)) (pow_ne_zero _ (mul_ne_zero hq0 hx))]
      at this
    have h2 : (1 + A.y) ^ 2 * A.x ^ 2 * (4 - qZ ^ 2) = 0 := by
      field_simp at this
      linear_combination -((1 + A.y) ^ 2 * A.x ^ 2) * this
    rcases mul_eq_zero.1 h2 with h | h
    · exact absurd h (mul_ne_zero (pow_ne_zero _ n2) (pow_ne_zero _ hx))
    · linear_combination h
  have hz := zlink.a_eq
  rw [e, hq] at hz
  have : ((4 * 505186 + 4 + 2 * 4 : ℕ) : Fp) = 0 := by
    push_cast
    linear_combination hz + (505186 + 2) * h4
  exact nat_ne (a := 4 * 505186 + 4 + 2 * 4) (b := 0) (by decide) (by exact_mod_cast this)

/-- C103: the scaling theorem of `main.tex` holds for no point with `y ≠ 1, -1` unless `a^2 = 1`: dividing
`x` by `f = sqrt(-a)` is wrong, multiplying is right. -/
theorem C103_paper_scaling (a d f x y : Fp) (hf : f ^ 2 = -a) (ha : a ≠ 0) (hy : y ^ 2 ≠ 1)
    (on : a * x ^ 2 + y ^ 2 = 1 + d * x ^ 2 * y ^ 2) :
    (-(x / f) ^ 2 + y ^ 2 = 1 + (-d / a) * (x / f) ^ 2 * y ^ 2 ↔ a ^ 2 = 1) ∧
      -(x * f) ^ 2 + y ^ 2 = 1 + (-d / a) * (x * f) ^ 2 * y ^ 2 := by
  have f0 : f ≠ 0 := fun h => ha (by rw [h] at hf; linear_combination hf)
  constructor
  · rw [div_pow, hf]
    have key : (y ^ 2 - 1) = x ^ 2 * (-a + d * y ^ 2) := by linear_combination on
    constructor
    · intro h
      field_simp at h
      have h2 : (y ^ 2 - 1) * (a ^ 2 - 1) = 0 := by
        linear_combination h - key
      rcases mul_eq_zero.1 h2 with h | h
      · exact absurd (by linear_combination h) hy
      · linear_combination h
    · intro h
      field_simp
      linear_combination (y ^ 2 - 1) * h + key
  · rw [mul_pow, hf]
    field_simp
    linear_combination on

/-- C103: contrary to `main.tex` the curve with `A = 1` is smooth. -/
theorem C103_paper_smooth : (⟨0, 1, 0, 1, 0⟩ : WeierstrassCurve.Affine Fp).Δ ≠ 0 := by
  simp only [WeierstrassCurve.Δ, WeierstrassCurve.b₂, WeierstrassCurve.b₄, WeierstrassCurve.b₆, WeierstrassCurve.b₈]
  have := nat_ne (a := 48) (b := 0) (by decide)
  intro h
  apply this
  push_cast
  linear_combination -h

/-- The tuple of numbers represents the curve point. -/
def Represents (X Y T Z : ℕ) (A : E) : Prop := NP.Rep ⟨X, Y, Z, T⟩ A

/-- Cross multiplication. -/
theorem NP.rep_of_cross {P Q : NP} {A : E} (h : P.Rep A) (z : (Q.Z : Fp) ≠ 0)
    (hx : Q.X * P.Z % p = P.X * Q.Z % p) (hy : Q.Y * P.Z % p = P.Y * Q.Z % p) (ht : Q.T * P.Z % p = P.T * Q.Z % p) :
    Q.Rep A := by
  have key : ∀ {a b c d : ℕ} {w : Fp}, a * b % p = c * d % p → (c : Fp) = w * b → (b : Fp) ≠ 0 → (a : Fp) = w * d := by
    intro a b c d w h1 h2 h3
    have := (ZMod.natCast_eq_natCast_iff' _ _ p).2 h1
    rw [Nat.cast_mul, Nat.cast_mul, h2] at this
    exact mul_right_cancel₀ h3 (by linear_combination this)
  exact ⟨z, key hx h.x h.z, key hy h.y h.z, key ht h.t h.z⟩

/-- C103: the worked examples of `sage_codes/Point computation`: the printed tuples for `X = 14` and `X = 67` are
curve points, and the printed tuples for their sum and for the double of the first are right. -/
theorem C103_worked_examples : ∃ A B : E,
    Represents 14 209320140320440078856110758841281411362780900395675344846360946607335974114
      2930481964486161103985550623777939759078932605539454827849053252502703637596 1 A ∧
    Represents 67 3295852391766231710775359255962084372654764936733420286493628916624458118402
      3711942928369658202753473258169825742155759979741931015014609265275066403264 1 B ∧
    Represents 6071577539228590191219387911031602982956051495655581694654126271979753651722
      837202702872841412924343780706778248153230580612427863707303374823451692769
      3870569102798123767101920828945730089305537575358572428982223506408632563886
      5030678076965133398451320860257582818948884882165145613987735041289292101393 (A + B) ∧
    Represents 149787030802898863214220589614787467360377956858885734134859441157998105502
      4114181249139963708922561672280278463269518807069632207462778037420327721750
      465221815300404819953157336686579853418396566040992296296754217912562254655
      3604554139948105518509753594085031057181477091926039562012636801913890184366 (2 • A) := by
  have h1 : NP.Rep ⟨14, 209320140320440078856110758841281411362780900395675344846360946607335974114, 1,
      2930481964486161103985550623777939759078932605539454827849053252502703637596⟩ (ptOfNat 14
      209320140320440078856110758841281411362780900395675344846360946607335974114 (by decide +kernel)) :=
    NP.rep_of_cross (ptOfNat_rep _ _ _) (by simp) (by decide +kernel) (by decide +kernel) (by decide +kernel)
  have h2 : NP.Rep ⟨67, 3295852391766231710775359255962084372654764936733420286493628916624458118402, 1,
      3711942928369658202753473258169825742155759979741931015014609265275066403264⟩ (ptOfNat 67
      3295852391766231710775359255962084372654764936733420286493628916624458118402 (by decide +kernel)) :=
    NP.rep_of_cross (ptOfNat_rep _ _ _) (by simp) (by decide +kernel) (by decide +kernel) (by decide +kernel)
  have z : ∀ n : ℕ, n % p ≠ 0 → (n : Fp) ≠ 0 := fun n h => by
    have := nat_ne (a := n) (b := 0) (by simpa using h)
    exact_mod_cast this
  refine ⟨_, _, h1, h2, ?_, ?_⟩
  · exact NP.rep_of_cross (NP.add_rep h1 h2) (z _ (by decide +kernel)) (by decide +kernel) (by decide +kernel)
      (by decide +kernel)
  · rw [two_nsmul]
    exact NP.rep_of_cross (NP.add_rep h1 h1) (z _ (by decide +kernel)) (by decide +kernel) (by decide +kernel)
      (by decide +kernel)

/-- The image in Montgomery form of a point given by numbers. -/
theorem mont_ofNat (x y u v : ℕ) (h : y * y % p = (1 + x * x + dNat * (x * x * (y * y))) % p)
    (h1 : x * (Ristretto.SQRT_AD_MINUS_ONE.val * v) % p = 2 * u % p) (h2 : (y * (u + 1) + 1) % p = u % p)
    (h3 : u % p ≠ 0) (h4 : v % p ≠ 0) (h5 : (u + 1) % p ≠ 0)
    (h6 : v ^ 2 % p = (u ^ 3 + 505186 * u ^ 2 + u) % p) :
    ∃ hn, mont (ptOfNat x y h) = .some (u : Fp) (v : Fp) hn := by
  have z : ∀ n : ℕ, n % p ≠ 0 → (n : Fp) ≠ 0 := fun n h => by
    have := nat_ne (a := n) (b := 0) (by simpa using h)
    exact_mod_cast this
  have c : ∀ {a b : ℕ}, a % p = b % p → (a : Fp) = b := fun h => (ZMod.natCast_eq_natCast_iff' _ _ p).2 h
  have uv : zlink.UV (ptOfNat x y h) (u : Fp) (v : Fp) := by
    refine ⟨z _ h3, z _ h4, by exact_mod_cast z _ h5, ?_, ?_, ?_⟩
    · have := c h1
      push_cast at this
      exact this
    · have := c h2
      push_cast at this
      have e : (ptOfNat x y h).y = (y : Fp) := rfl
      rw [e]
      linear_combination this
    · have := c h6
      push_cast at this
      exact this
  exact ⟨_, zlink.toW_uv uv⟩

/-- C103: the worked multiplication by eight on the Montgomery form, and the documented base point
`(4, 2387…3877)`, which has order `L`. -/
theorem C103_worked_multiples :
    (∃ h h', 8 • (Point.some (5051189995337479708433119006747039364870785988521470496097671181243562411695 : Fp)
        7155958472685660389975401207154951743382380416674787893210035445445872196541 h : montW.Point) =
      .some 1868330701290932041393248498391407583880515981499204757603220260047257156875
        5999066270237031196158421153363394298942525294456370395071609058345162660448 h') ∧
    ∃ h, addOrderOf (Point.some (4 : Fp)
      2387694734969974503585694617203302024142786955946516383730480941479078023877 h : montW.Point) = ell := by
  constructor
  · obtain ⟨h1, e1⟩ := mont_ofNat
      1839839672690745114533474737358204648631146662444526038818807753694233809471
      5704899234183759708233010138414959842001413916872991013655507575602442980222
      5051189995337479708433119006747039364870785988521470496097671181243562411695
      7155958472685660389975401207154951743382380416674787893210035445445872196541
      (by decide +kernel) (by decide +kernel) (by decide +kernel) (by decide +kernel) (by decide +kernel)
      (by decide +kernel) (by decide +kernel)
    obtain ⟨h2, e2⟩ := mont_ofNat
      4240481925349165934248371194425202787771401730062076575264360586161672802393
      5535761465212232303072424628159424172943694214594168485096719561398431529459
      1868330701290932041393248498391407583880515981499204757603220260047257156875
      5999066270237031196158421153363394298942525294456370395071609058345162660448
      (by decide +kernel) (by decide +kernel) (by decide +kernel) (by decide +kernel) (by decide +kernel)
      (by decide +kernel) (by decide +kernel)
    have h8 : 8 • ptOfNat 1839839672690745114533474737358204648631146662444526038818807753694233809471
        5704899234183759708233010138414959842001413916872991013655507575602442980222 (by decide +kernel) =
        ptOfNat 4240481925349165934248371194425202787771401730062076575264360586161672802393
        5535761465212232303072424628159424172943694214594168485096719561398431529459 (by decide +kernel) := by
      have hr := NP.rep_of_cross (Q := ⟨4240481925349165934248371194425202787771401730062076575264360586161672802393,
        5535761465212232303072424628159424172943694214594168485096719561398431529459, 1,
        4240481925349165934248371194425202787771401730062076575264360586161672802393 *
        5535761465212232303072424628159424172943694214594168485096719561398431529459 % p⟩)
        (NP.mul_rep 8 (by decide) (ptOfNat_rep
        1839839672690745114533474737358204648631146662444526038818807753694233809471
        5704899234183759708233010138414959842001413916872991013655507575602442980222 (by decide +kernel)))
        (by simp) (by decide +kernel) (by decide +kernel) (by decide +kernel)
      refine EdCurve.Pt.ext ?_ ?_
      · have := hr.x
        dsimp only at this
        rw [Nat.cast_one, mul_one] at this
        exact this.symm
      · have := hr.y
        dsimp only at this
        rw [Nat.cast_one, mul_one] at this
        exact this.symm
    refine ⟨by exact_mod_cast h1, by exact_mod_cast h2, ?_⟩
    have := congrArg mont h8
    rw [map_nsmul, e1, e2] at this
    exact_mod_cast this
  · have hn : montW.Nonsingular 4 2387694734969974503585694617203302024142786955946516383730480941479078023877 := by
      rw [← montW.equation_iff_nonsingular_of_Δ_ne_zero C88_elliptic.1, WeierstrassCurve.Affine.equation_iff]
      simp only [montW]
      have : ((2387694734969974503585694617203302024142786955946516383730480941479078023877 ^ 2 : ℕ) : Fp) =
          (4 ^ 3 + 505186 * 4 ^ 2 + 4 : ℕ) := fpcast (by decide +kernel)
      push_cast at this
      linear_combination this
    exact ⟨hn, (C103_base_choice.2 _ hn).1⟩

/-- C103: the second coordinate given as the "hexadecimal representation" in `sage_codes/Safe Curve code` is not
that of a point with first coordinate 4. -/
theorem C103_wrong_hex : ¬ montW.Equation 4 0x23E4A96ED9E13AF0600EA21DB1007D9FB6E47BDD233BBBD82EB8E634305E0B1 ∧
    montW.Equation 4 0x5476327F819F419674D6ECE6CD9CC73DD90461A0D99B2A65D27C9881ABA52C5 := by
  rw [WeierstrassCurve.Affine.equation_iff, WeierstrassCurve.Affine.equation_iff]
  simp only [montW]
  constructor
  · intro h
    have := nat_ne (a := 0x23E4A96ED9E13AF0600EA21DB1007D9FB6E47BDD233BBBD82EB8E634305E0B1 ^ 2)
      (b := 4 ^ 3 + 505186 * 4 ^ 2 + 4) (by decide +kernel)
    apply this
    push_cast
    linear_combination h
  · have : ((0x5476327F819F419674D6ECE6CD9CC73DD90461A0D99B2A65D27C9881ABA52C5 ^ 2 : ℕ) : Fp) =
        (4 ^ 3 + 505186 * 4 ^ 2 + 4 : ℕ) := fpcast (by decide +kernel)
    push_cast at this
    linear_combination this

/-- Cases meeting the hypotheses. -/
example : ¬ IsSquare (6 : Fp) ∧ Bpt.x ≠ 0 ∧ Bpt.y ≠ 0 := by
  refine ⟨?_, ?_, ?_⟩
  · have := nonsquare_of 6 (by decide +kernel)
    exact_mod_cast this
  · have := nat_ne (a := bx) (b := 0) (by decide +kernel)
    exact_mod_cast this
  · have := nat_ne (a := by') (b := 0) (by decide +kernel)
    exact_mod_cast this

example : ∃ a d f x y : Fp, f ^ 2 = -a ∧ a ≠ 0 ∧ y ^ 2 ≠ 1 ∧ a * x ^ 2 + y ^ 2 = 1 + d * x ^ 2 * y ^ 2 := by
  have h2 := two_ne_zero_Fp
  have h3 : (3 : Fp) ≠ 0 := by
    have := nat_ne (a := 3) (b := 0) (by decide)
    exact_mod_cast this
  refine ⟨-4, -1 / 4, 2, 1, 2, by norm_num, ?_, ?_, ?_⟩
  · rw [neg_ne_zero]
    have := nat_ne (a := 4) (b := 0) (by decide)
    exact_mod_cast this
  · intro h
    exact h3 (by linear_combination h)
  · have h4 : (4 : Fp) ≠ 0 := by
      have := nat_ne (a := 4) (b := 0) (by decide)
      exact_mod_cast this
    field_simp
    norm_num

end Props
end Zerocaf
