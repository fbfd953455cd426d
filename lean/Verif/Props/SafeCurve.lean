import Verif.Proof.SafeCurve
import Verif.Props.Curve
import Verif.Props.WindowAll

/-!
# The safe curve script

What the verdicts of `verify` mean, for every input, and what it says of this curve.
-/

set_option exponentiation.threshold 600

namespace Zerocaf
namespace Props

open SafeCurve
open WeierstrassCurve.Affine (Point)

/-! ### The list of primes for this curve -/

/-- A file of primes for this curve, without its first entry 2, and for each prime the base that proves it. -/
def certs : List (ℕ × ℕ) := [
  (3, 2), (5, 2), (7, 2), (11, 2), (13, 2), (17, 3), (19, 2), (23, 2), (29, 2), (31, 3), (37, 2), (41, 3), (47, 2),
  (53, 2), (59, 2), (61, 2), (73, 2), (89, 2), (101, 2), (107, 2), (131, 2), (137, 2), (139, 2), (149, 2), (163, 2),
  (193, 5), (239, 2), (373, 2), (379, 2), (491, 2), (557, 2), (601, 2), (709, 2), (983, 2), (1009, 2), (1153, 5),
  (1973, 2), (2551, 2), (2837, 2), (3797, 2), (4273, 2), (6563, 2), (9631, 2), (10091, 2), (14249, 2), (16363, 2),
  (17093, 2), (20183, 2), (33937, 2), (47581, 2), (54091, 2), (90821, 2), (116929, 2), (131893, 2), (173359, 2),
  (199487, 2), (531581, 2), (693437, 2), (1224481, 2), (1510693, 2), (1764313, 2), (8003089, 2), (18128317, 2),
  (54740093, 2), (145621771, 2), (155385589, 2), (9314420119, 2), (15846943951, 2), (99436412879, 2),
  (198872825759, 2), (623489659271, 2), (4987917274169, 2), (294016471763383, 2), (327732120834113, 2),
  (1257559732178653, 2), (1284268031676943, 2), (144390024159715879, 2), (4434155615661930479, 2),
  (40071806414386996511, 2), (741298384035981322787, 2), (983030834487880084651, 2), (1810634771647000234619, 2),
  (84399785055716745428129, 2), (172054593956031949258510691, 2), (942815819693522402764397133329, 2),
  (1473397327204484414562622435849, 2), (7365150704979913443124612950202067, 2),
  (1881753370316552587875387939158653037, 2), (7777599144458788595939591275413382753, 2),
  (19757330305831588566944191468367130476339, 2), (276602624281642239937218680557139826668747, 2),
  (194060402252303413788402286645422500134630096612112378773286921059, 2),
  (904625697166532776746648320380374280118162305775999595296348570842476562531, 2),
  (1809251394333065553493296640760748560192233568137954612408278327457774000433, 2),
  (7237005577332262213973186563042994240857116359379907606001950938285454250989, 2)]

/-- The file of primes. -/
def primeFile : List ℕ := 2 :: certs.map Prod.fst

theorem certs_ok : chainC [2] certs = true := by decide +kernel

/-- The large prime factor of the order of the twist. -/
def twistQ : ℕ := 1809251394333065553493296640760748560192233568137954612408278327457774000433

/-! ### Bounds on real numbers -/

theorem pi4_pos : 0 < pi4 := by unfold pi4; norm_num
theorem pi4_half : 1 / 2 ≤ pi4 := by unfold pi4; norm_num
theorem pi4_one : pi4 ≤ 1 := by unfold pi4; norm_num

theorem rhoOk_iff (l : ℕ) : rhoOk l = true ↔ (4 : ℝ) ^ 100 ≤ pi4 * l := by
  unfold rhoOk
  rw [decide_eq_true_iff, le_div_iff₀ (Real.log_pos (by norm_num))]
  rcases Nat.eq_zero_or_pos l with rfl | hl
  · rw [Nat.cast_zero, mul_zero, Real.log_zero]
    have := Real.log_pos (by norm_num : (1 : ℝ) < 4)
    constructor <;> intro h <;> norm_num at h
    linarith
  · have hl' : (0 : ℝ) < l := by exact_mod_cast hl
    rw [← Real.log_le_log_iff (by positivity) (mul_pos pi4_pos hl'), Real.log_pow]
    norm_cast

theorem jointOk_of (pre : ℕ) (j : ℝ) (h : (2 : ℝ) ^ 200 ≤ pi4 * j) : jointOk pre j = true := by
  unfold jointOk
  rw [decide_eq_true_iff, le_div_iff₀ (Real.log_pos (by norm_num))]
  have h1 : (2 : ℝ) ^ 100 ≤ √(pi4 * j) := by
    refine Real.le_sqrt_of_sq_le ?_
    rw [← pow_mul]
    exact h
  have h2 : (2 : ℝ) ^ 100 ≤ pre + √(pi4 * j) := by
    have : (0 : ℝ) ≤ pre := Nat.cast_nonneg _
    linarith
  have := Real.log_le_log (by positivity) h2
  rw [Real.log_pow] at this
  exact_mod_cast this

/-- Dividing by two is worth its cost. -/
theorem worth_two (j : ℝ) (h : 1000 ≤ pi4 * j) : ((2 : ℕ) : ℝ) + √(pi4 * j / (2 : ℕ)) < √(pi4 * j) := by
  push_cast
  have hy := Real.sq_sqrt (show 0 ≤ pi4 * j / 2 by linarith)
  have h0 := Real.sqrt_nonneg (pi4 * j / 2)
  refine Real.lt_sqrt_of_sq_lt ?_
  have : 20 ≤ √(pi4 * j / 2) := Real.le_sqrt_of_sq_le (by linarith)
  nlinarith

/-- Dividing by a prime above the root is not. -/
theorem not_worth (v : ℕ) (j : ℝ) (h : pi4 * j ≤ (v : ℝ) ^ 2) : ¬ ((v : ℝ) + √(pi4 * j / v) < √(pi4 * j)) := by
  have h1 : √(pi4 * j) ≤ v := (Real.sqrt_le_left (Nat.cast_nonneg _)).2 h
  have := Real.sqrt_nonneg (pi4 * j / v)
  linarith

/-! ### The run on this curve -/

theorem orderOf_q : orderOf (p : ZMod twistQ) = (twistQ - 1) / 4 := by
  have h1 : 1 < twistQ := by decide
  refine orderOf_eq_of_pow_and_pow_div_prime (by decide) ?_ ?_
  · rw [← Primality.powMod_spec 251 twistQ p _ (by decide +kernel)]
    exact (Primality.cast_mod_one h1).2 (by decide +kernel)
  · intro q hq hd
    have hfs : (twistQ - 1) / 4 = (([(2, 2), (47, 1), (1153, 1), (2837, 1), (20183, 1), (116929, 1),
        (40071806414386996511, 1), (7777599144458788595939591275413382753, 1)] : List (ℕ × ℕ)).map
          fun q => q.1 ^ q.2).prod := by decide +kernel
    obtain ⟨x, hx, rfl⟩ := Primality.prime_dvd_of_prod hq _ (by
      simp only [List.forall_mem_cons, List.not_mem_nil, false_implies, implies_true, and_true]
      exact ⟨by norm_num, by norm_num, by norm_num, by norm_num, by norm_num, by norm_num,
        Primality.prime_40071806414386996511, Primality.prime_7777599144458788595939591275413382753⟩) (hfs ▸ hd)
    rw [← Primality.powMod_spec 251 twistQ p _ (lt_of_le_of_lt (Nat.div_le_self _ _) (by decide +kernel))]
    intro e
    have e := (Primality.cast_mod_one h1).1 e
    revert e
    simp only [List.mem_cons, List.not_mem_nil, or_false] at hx
    rcases hx with rfl | rfl | rfl | rfl | rfl | rfl | rfl | rfl <;> decide +kernel

/-- What the run needs of the verified primes. -/
structure Enough (V mid : List ℕ) : Prop where
  split : V = 2 :: mid ++ [ell, twistQ, p]
  skip : ∀ v ∈ mid, ¬ ((8 * ell : ℤ) % v = 0 ∨ (4 * twistQ : ℤ) % v = 0)
  cof : collectAll 8 V 8 [] = .ok [2, 2, 2]
  disc : stripAll 8 (fun v => (v : ℤ) ^ 2) V (-16 * discPart) = .ok (-discPart)
  discProd : (((V.filter fun v : ℕ => decide ((-discPart : ℤ) % v = 0)).prod : ℕ) : ℤ) = discPart
  twist : stripAll 8 (fun v => v) V (4 * twistQ) = .ok 1
  largest : largest (4 * twistQ) V none = some twistQ
  tcof : collectAll 8 V 4 [] = .ok [2, 2]
  temb : stripAll 8 (fun v => v) V ((twistQ : ℤ) - 1) = .ok 1

theorem joint_run (fuel : ℕ) (V mid : List ℕ) (h : Enough V mid) :
    jointAll (fuel + 4) (8 * ell) (4 * twistQ) V 0 ell = .ok (6, (ell : ℝ) / 2 / 2 / 2) := by
  have hl : (2 : ℝ) ^ 249 ≤ ell := by
    have : 2 ^ 249 ≤ ell := by decide +kernel
    exact_mod_cast this
  have hu : (ell : ℝ) ≤ (2 : ℝ) ^ 250 := by
    have : ell ≤ 2 ^ 250 := by decide +kernel
    exact_mod_cast this
  have hp4 := pi4_half
  have hp1 := pi4_one
  have w : ∀ c : ℝ, 0 < c → c ≤ 8 → 1000 ≤ pi4 * (ell / c) := by
    intro c hc h8
    have : (2 : ℝ) ^ 246 ≤ ell / c := by
      rw [le_div_iff₀ hc]
      calc (2 : ℝ) ^ 246 * c ≤ 2 ^ 246 * 8 := by nlinarith [pow_pos (two_pos : (0 : ℝ) < 2) 246]
        _ = 2 ^ 249 := by norm_num
        _ ≤ ell := hl
    have : 2000 ≤ (ell : ℝ) / c := le_trans (by norm_num) this
    nlinarith
  have n : ∀ v : ℕ, 2 ^ 249 ≤ v → ∀ j : ℝ, 0 ≤ j → j ≤ ell → pi4 * j ≤ (v : ℝ) ^ 2 := by
    intro v hv j hj0 hj
    have hv' : (2 : ℝ) ^ 249 ≤ v := by exact_mod_cast hv
    have : (2 : ℝ) ^ 250 ≤ (v : ℝ) ^ 2 := by
      calc (2 : ℝ) ^ 250 ≤ (2 ^ 249) ^ 2 := by norm_num
        _ ≤ (v : ℝ) ^ 2 := by gcongr
    nlinarith
  have j0 : (0 : ℝ) ≤ (ell : ℝ) / 2 / 2 / 2 := by positivity
  have j1 : (ell : ℝ) / 2 / 2 / 2 ≤ ell := by
    have : (0 : ℝ) ≤ ell := Nat.cast_nonneg _
    linarith
  rw [h.split]
  have s1 : jointAll (fuel + 4) (8 * ell) (4 * twistQ) [2] 0 ell = .ok (6, (ell : ℝ) / 2 / 2 / 2) := by
    have w1 := worth_two ell (by have := w 1 one_pos (by norm_num); rwa [div_one] at this)
    have w2 := worth_two (ell / 2) (w 2 two_pos (by norm_num))
    have w3 := worth_two (ell / 2 / 2) (by
      have := w 4 (by norm_num) (by norm_num)
      rwa [div_div, show (2 : ℝ) * 2 = 4 by norm_num])
    have e1 : ((8 * ell : ℤ) % ((2 : ℕ) : ℤ) = 0) ∧ (4 * twistQ : ℤ) % ((2 : ℕ) : ℤ) = 0 ∧
      (8 * ell : ℤ) / ((2 : ℕ) : ℤ) = 4 * ell ∧ (4 * twistQ : ℤ) / ((2 : ℕ) : ℤ) = 2 * twistQ := by decide +kernel
    have e2 : ((4 * ell : ℤ) % ((2 : ℕ) : ℤ) = 0) ∧ (2 * twistQ : ℤ) % ((2 : ℕ) : ℤ) = 0 ∧
      (4 * ell : ℤ) / ((2 : ℕ) : ℤ) = 2 * ell ∧ (2 * twistQ : ℤ) / ((2 : ℕ) : ℤ) = twistQ := by decide +kernel
    have e3 : ((2 * ell : ℤ) % ((2 : ℕ) : ℤ) = 0) ∧ ¬ (twistQ : ℤ) % ((2 : ℕ) : ℤ) = 0 ∧
      (2 * ell : ℤ) / ((2 : ℕ) : ℤ) = ell ∧ ¬ (ell : ℤ) % ((2 : ℕ) : ℤ) = 0 := by decide +kernel
    rw [jointAll, show fuel + 4 = fuel + 3 + 1 from rfl, jointLoop, if_pos (Or.inl e1.1)]
    dsimp only
    rw [if_pos w1, if_pos e1.1, if_pos e1.2.1, e1.2.2.1, e1.2.2.2, show fuel + 3 = fuel + 2 + 1 from rfl, jointLoop,
      if_pos (Or.inl e2.1)]
    dsimp only
    rw [show (ell : ℝ) / ((2 : ℕ) : ℝ) = ell / 2 by norm_num, if_pos w2, if_pos e2.1, if_pos e2.2.1, e2.2.2.1, e2.2.2.2,
      show fuel + 2 = fuel + 1 + 1 from rfl, jointLoop, if_pos (Or.inl e3.1)]
    dsimp only
    rw [show (ell : ℝ) / 2 / ((2 : ℕ) : ℝ) = ell / 2 / 2 by norm_num, if_pos w3, if_pos e3.1, if_neg e3.2.1, e3.2.2.1,
      jointLoop, if_neg (by rintro (h | h); exacts [e3.2.2.2 h, e3.2.1 h]),
      show (ell : ℝ) / 2 / 2 / ((2 : ℕ) : ℝ) = ell / 2 / 2 / 2 by norm_num]
    rfl
  have s3 : jointAll (fuel + 4) (8 * ell) (4 * twistQ) [ell, twistQ, p] 6 ((ell : ℝ) / 2 / 2 / 2) =
      .ok (6, (ell : ℝ) / 2 / 2 / 2) := by
    have nl := not_worth ell _ (n ell (by decide +kernel) _ j0 j1)
    have nq := not_worth twistQ _ (n twistQ (by decide +kernel) _ j0 j1)
    have e1 : ((8 * ell : ℤ) % (ell : ℤ) = 0) ∧ ¬ (4 * twistQ : ℤ) % (ell : ℤ) = 0 ∧
      (8 * ell : ℤ) / (ell : ℤ) = 8 ∧ ¬ (8 : ℤ) % (ell : ℤ) = 0 := by decide +kernel
    have e2 : (¬ (8 * ell : ℤ) % (twistQ : ℤ) = 0) ∧ (4 * twistQ : ℤ) % (twistQ : ℤ) = 0 ∧
      (4 * twistQ : ℤ) / (twistQ : ℤ) = 4 ∧ ¬ (4 : ℤ) % (twistQ : ℤ) = 0 := by decide +kernel
    have e3 : (¬ (8 * ell : ℤ) % (p : ℤ) = 0) ∧ ¬ (4 * twistQ : ℤ) % (p : ℤ) = 0 := by decide +kernel
    rw [jointAll, show fuel + 4 = fuel + 3 + 1 from rfl, jointLoop, if_pos (Or.inl e1.1)]
    dsimp only
    rw [if_neg nl, if_pos e1.1, if_neg e1.2.1, e1.2.2.1, show fuel + 3 = fuel + 2 + 1 from rfl, jointLoop,
      if_neg (by rintro (h | h); exacts [e1.2.2.2 h, e1.2.1 h]), Res.ok_bind, jointAll,
      show fuel + 2 + 1 + 1 = (fuel + 3) + 1 from rfl, jointLoop, if_pos (Or.inr e2.2.1)]
    dsimp only
    rw [if_neg nq, if_neg e2.1, if_pos e2.2.1, e2.2.2.1, show fuel + 3 = fuel + 2 + 1 from rfl, jointLoop,
      if_neg (by rintro (h | h); exacts [e2.1 h, e2.2.2.2 h]), Res.ok_bind, jointAll,
      show fuel + 2 + 1 + 1 = (fuel + 3) + 1 from rfl, jointLoop,
      if_neg (by rintro (h | h); exacts [e3.1 h, e3.2 h]), Res.ok_bind]
    rfl
  have s2 := jointAll_skip (fuel + 3) (8 * ell) (4 * twistQ) mid 6 ((ell : ℝ) / 2 / 2 / 2) h.skip
  rw [show (2 :: mid ++ [ell, twistQ, p] : List ℕ) = [2] ++ (mid ++ [ell, twistQ, p]) from rfl,
    jointAll_append _ _ _ _ _ _ _ _ s1, jointAll_append _ _ _ _ _ _ _ _ s2]
  exact s3

theorem two_ne : (2 : Fp) ≠ 0 := by
  have := nat_ne (a := 2) (b := 0) (by decide)
  exact_mod_cast this

theorem three_ne : (3 : Fp) ≠ 0 := by
  have := nat_ne (a := 3) (b := 0) (by decide)
  exact_mod_cast this

/-- The short form computed for the Montgomery form of this curve. -/
def zshort (x0 y0 x1 y1 : Fp) : Short p :=
  ⟨true, true, true, (3 - 505186 ^ 2) / 3, (2 * 505186 ^ 3 - 9 * 505186) / 27, x0 + 505186 / 3, y0, x1 + 505186 / 3, y1⟩

theorem short_run (x0 y0 x1 y1 : Fp) (h0 : montW.Equation x0 y0) (h1 : montW.Equation x1 y1) :
    short (.montgomery 505186 1) x0 y0 x1 y1 = .ok (zshort x0 y0 x1 y1) := by
  rw [WeierstrassCurve.Affine.equation_iff] at h0 h1
  simp only [montW] at h0 h1
  have h3 := three_ne
  have h27 : (27 : Fp) ≠ 0 := by
    have := nat_ne (a := 27) (b := 0) (by decide)
    exact_mod_cast this
  have e1 : ((505186 : Fp) ^ 2 - 4) ≠ 0 := by
    have := nat_ne (a := 505186 ^ 2) (b := 4) (by decide +kernel)
    rw [sub_ne_zero]
    exact_mod_cast this
  have hone : (1 : Fp) ≠ 0 := one_ne_zero
  unfold short ofMontgomery divk
  simp only [Int.cast_ofNat, Int.cast_one, one_mul, one_pow, mul_one, if_neg h3, if_neg h27, if_neg hone, Res.ok_bind, div_one]
  unfold zshort
  congr 2
  · exact decide_eq_true (by linear_combination h0)
  · exact decide_eq_true (by linear_combination h1)

/-- The substitution from the Montgomery form. -/
def sshift : Shift (505186 : Fp) 1 ((3 - 505186 ^ 2) / 3) ((2 * 505186 ^ 3 - 9 * 505186) / 27) where
  s := 1
  r := 505186 / 3
  s_ne := one_ne_zero
  h2 := by have := three_ne; field_simp
  h1 := by have := three_ne; field_simp; ring
  h0 := by
    have := three_ne
    rw [show (27 : Fp) = 3 ^ 3 by norm_num]
    field_simp
    ring

theorem short_point (x y : Fp) (h : montW.Nonsingular x y) : ∃ h' : sshift.W2.Nonsingular (x + 505186 / 3) y,
    sshift.equiv (.some x y h) = .some (x + 505186 / 3) y h' := by
  refine sshift.some_congr (sshift.ns.2 h) ?_ ?_
  · show (1 : Fp) ^ 2 * x + 505186 / 3 = _
    ring
  · show (1 : Fp) ^ 3 * y = _
    ring

theorem order_two_iff {G : Type*} [AddCommGroup G] (P : G) : addOrderOf P = 2 ↔ P ≠ 0 ∧ 2 • P = 0 := by
  constructor
  · intro h
    refine ⟨fun e => ?_, by rw [← h, addOrderOf_nsmul_eq_zero]⟩
    rw [e, addOrderOf_zero] at h
    omega
  · rintro ⟨h1, h2⟩
    exact addOrderOf_eq_prime h2 h1

theorem order_four_iff {G : Type*} [AddCommGroup G] (P : G) : addOrderOf P = 4 ↔ 2 • P ≠ 0 ∧ 4 • P = 0 := by
  constructor
  · intro h
    refine ⟨fun e => ?_, by rw [← h, addOrderOf_nsmul_eq_zero]⟩
    have := Nat.le_of_dvd two_pos (addOrderOf_dvd_of_nsmul_eq_zero e)
    omega
  · rintro ⟨h1, h2⟩
    exact addOrderOf_eq_prime_pow (p := 2) (n := 1) (by simpa using h1) (by simpa using h2)

theorem group_eq {a b : ℕ} {c d : Bool} (ha : a = 1) (hb : b = 2) (hc : c = true) :
    ∃ e, some (SafeCurve.Group.mk a b c d) = some ⟨1, 2, true, e⟩ := ⟨d, by rw [ha, hb, hc]⟩

theorem group_run (x0 y0 x1 y1 : Fp) (h0 : montW.Equation x0 y0) (h1 : montW.Equation x1 y1)
    (ho : ∀ h, addOrderOf (Point.some (W' := montW) x1 y1 h) = ell) :
    ∃ b, group (zshort x0 y0 x1 y1) ell 8 = some ⟨1, 2, true, b⟩ := by
  have n0 := (montW.equation_iff_nonsingular_of_Δ_ne_zero C88_elliptic.1).1 h0
  have n1 := (montW.equation_iff_nonsingular_of_Δ_ne_zero C88_elliptic.1).1 h1
  obtain ⟨m0, _⟩ := short_point x0 y0 n0
  obtain ⟨m1, e1⟩ := short_point x1 y1 n1
  have hΔ : (zshort x0 y0 x1 y1).curve.Δ ≠ 0 := by
    have h := C88_elliptic.1
    rw [WeierstrassCurve.Δ, WeierstrassCurve.b₂, WeierstrassCurve.b₄, WeierstrassCurve.b₆, WeierstrassCurve.b₈] at h ⊢
    simp only [montW, Short.curve, zshort] at h ⊢
    intro e
    apply h
    have h3 := three_ne
    rw [show (27 : Fp) = 3 ^ 3 by norm_num] at e
    field_simp at e
    refine mul_left_cancel₀ (pow_ne_zero 4 h3) ?_
    linear_combination e
  have t2 : Nat.card {P : sshift.W2.Point // P ≠ 0 ∧ 2 • P = 0} = 1 := by
    refine (Nat.card_congr (sshift.equiv.toEquiv.subtypeEquiv fun P => ?_)).symm.trans C102_small_orders.1
    rw [← order_two_iff]
    show _ ↔ addOrderOf (sshift.equiv P) = 2
    rw [AddEquiv.addOrderOf_eq]
    rfl
  have t4 : Nat.card {P : sshift.W2.Point // 2 • P ≠ 0 ∧ 4 • P = 0} = 2 := by
    refine (Nat.card_congr (sshift.equiv.toEquiv.subtypeEquiv fun P => ?_)).symm.trans C102_small_orders.2
    rw [← order_four_iff]
    show _ ↔ addOrderOf (sshift.equiv P) = 4
    rw [AddEquiv.addOrderOf_eq]
    rfl
  have tl : ell • (Point.some _ _ m1 : sshift.W2.Point) = 0 := by
    rw [← e1, ← map_nsmul]
    have : ell • (Point.some x1 y1 n1 : montW.Point) = 0 := by rw [← ho n1, addOrderOf_nsmul_eq_zero]
    exact (congrArg sshift.equiv this).trans (map_zero _)
  have m1' : (zshort x0 y0 x1 y1).curve.Nonsingular (zshort x0 y0 x1 y1).x1 (zshort x0 y0 x1 y1).y1 := m1
  have m0' : (zshort x0 y0 x1 y1).curve.Nonsingular (zshort x0 y0 x1 y1).x0 (zshort x0 y0 x1 y1).y0 := m0
  unfold group
  rw [if_neg hΔ, dif_pos m1', dif_pos m0']
  exact group_eq t2 t4 (decide_eq_true tl)

theorem ladder_run (x0 y0 x1 y1 : Fp) : ladder (zshort x0 y0 x1 y1) = true := by
  unfold ladder
  refine decide_eq_true ⟨505186 / 3, sshift.h0, 1, ?_⟩
  have := sshift.h1
  have e1 : sshift.r = 505186 / 3 := rfl
  have e2 : sshift.s = 1 := rfl
  rw [e1, e2] at this
  simp only [zshort]
  linear_combination this

theorem b_run (x0 y0 x1 y1 : Fp) : (zshort x0 y0 x1 y1).b ≠ 0 := by
  have h27 : (27 : Fp) ≠ 0 := by
    have := nat_ne (a := 27) (b := 0) (by decide)
    exact_mod_cast this
  have : ((2 : Fp) * 505186 ^ 3 - 9 * 505186) ≠ 0 := by
    have := nat_ne (a := 2 * 505186 ^ 3) (b := 9 * 505186) (by decide +kernel)
    rw [sub_ne_zero]
    exact_mod_cast this
  exact div_ne_zero this h27

/-- How the report is put together. -/
theorem verify_run {sage : ℕ → Bool} {fuel : ℕ} {i : Input} (hp : i.p.Prime) {V : List ℕ} {e : Option ℕ} {t : ℤ}
    {f : List ℕ} {D : Option ℤ} {q : ℕ} {T : Twist} {s : Short i.p}
    (hV : verified sage i.primes = V) (he : embedding sage fuel V i.p i.l = .ok e) (hl : i.l ≠ 0)
    (ht : SafeCurve.trace i.p i.l = t) (h16 : 16 * i.p < i.l ^ 2)
    (hf : collectAll fuel V ((i.p + 1 - t) / i.l) [] = .ok f)
    (hD : disc fuel V i.p t = .ok D) (hq : twistL fuel V (i.p + 1 + t) = .ok (some q))
    (hT : SafeCurve.twist sage fuel V i.p i.l t q = .ok T)
    (hs : haveI : Fact i.p.Prime := ⟨hp⟩
      short (p := i.p) i.shape i.x0 i.y0 i.x1 i.y1 = .ok s) :
    haveI : Fact i.p.Prime := ⟨hp⟩
    verify sage fuel i = .ok ⟨V, e, some t, some f, D, some T, group s i.l ((i.p + 1 - t) / i.l), decide (i.p ∈ V), s.elliptic,
      decide (i.l ∈ V) && s.on0 && s.on1, rhoOk i.l, decide (Nat.gcd i.l i.p = 1) && movSafe i.l e, discBig D,
      i.rigid == "fully rigid" || i.rigid == "somewhat rigid", ladder s, T.safe,
      completeOk (group s i.l ((i.p + 1 - t) / i.l)), decide ((i.p + 1 - t) % 2 = 0) && decide (s.b ≠ 0),
      decide (i.p ∈ V) && s.elliptic && (decide (i.l ∈ V) && s.on0 && s.on1) && rhoOk i.l &&
        (decide (Nat.gcd i.l i.p = 1) && movSafe i.l e) && discBig D &&
        (i.rigid == "fully rigid" || i.rigid == "somewhat rigid") && ladder s && T.safe &&
        completeOk (group s i.l ((i.p + 1 - t) / i.l)) && (decide ((i.p + 1 - t) % 2 = 0) && decide (s.b ≠ 0))⟩ := by
  unfold verify
  rw [dif_pos hp]
  dsimp only
  rw [hV, he, Res.ok_bind, if_neg hl, ht, if_pos h16, hf, Res.ok_bind, Res.ok_bind, hD, Res.ok_bind, hq, Res.ok_bind]
  dsimp only
  rw [hT, Res.ok_bind, Res.ok_bind, hs, Res.ok_bind, if_pos h16]
  rfl

theorem p_prime' : p.Prime := Fact.out
theorem q_prime : twistQ.Prime :=
  Primality.prime_1809251394333065553493296640760748560192233568137954612408278327457774000433

/-- The run on this curve with any file of primes that is long enough. -/
theorem run_with (sage : ℕ → Bool) (hs : ∀ n, n.Prime → sage n = true) (fuel : ℕ) (hfuel : 252 ≤ fuel) (x0 y0 y1 : ℤ)
    (h0 : montW.Equation x0 y0) (h1 : montW.Equation 4 y1) (rigid : String) (V mid : List ℕ) (hen : Enough V mid)
    (hV : verified sage V = V) (e : Option ℕ) (he : embedding sage fuel V p ell = .ok e) (hm : movSafe ell e = true) :
    ∃ r, verify sage fuel ⟨p, ell, x0, y0, 4, y1, .montgomery 505186 1, V, rigid⟩ = .ok r ∧ r.verified = V ∧
      r.embedding = e ∧ r.trace = some trace ∧ r.cofactor = some [2, 2, 2] ∧ r.disc = some (-4 * (discPart : ℤ)) ∧
      (∃ T, r.twist = some T ∧ T.l = twistQ ∧ T.cofactor = [2, 2] ∧ T.embedding = some ((twistQ - 1) / 4) ∧
        T.safe = true) ∧
      (∃ b, r.group = some ⟨1, 2, true, b⟩) ∧
      (r.safecurve = true ↔ rigid = "fully rigid" ∨ rigid = "somewhat rigid") := by
  have hprime : ∀ v ∈ V, v.Prime := by rw [← hV]; exact (verified_prime sage V).1
  have t1 : SafeCurve.trace p ell = -88182086828089156368837628454358249258 := by decide +kernel
  have n1 : (p : ℤ) + 1 - -88182086828089156368837628454358249258 = 8 * ell := by decide +kernel
  have n2 : (p : ℤ) + 1 + -88182086828089156368837628454358249258 = 4 * twistQ := by decide +kernel
  have n3 : (8 * ell : ℤ) / ell = 8 := by decide +kernel
  have n4 : (4 * twistQ : ℤ) / twistQ = 4 := by decide +kernel
  have m8 : 8 ≤ fuel := by omega
  have hD : disc fuel V p (-88182086828089156368837628454358249258) = .ok (some (-4 * discPart)) := by
    unfold disc
    rw [show ((-88182086828089156368837628454358249258 : ℤ) ^ 2 - 4 * p) = -16 * discPart by decide +kernel,
      stripAll_mono _ m8 _ _ _ hen.disc, Res.ok_bind, hen.discProd, neg_neg, if_neg (by simp),
      if_pos (by decide +kernel)]
    exact congrArg (fun x => Res.ok (some x)) (by ring)
  have hq : twistL fuel V (p + 1 + -88182086828089156368837628454358249258) = .ok (some twistQ) := by
    unfold twistL
    rw [n2, stripAll_mono _ m8 _ _ _ hen.twist, Res.ok_bind, if_pos rfl, hen.largest]
  have hrl : rhoOk ell = true := by
    rw [rhoOk_iff]
    have h : (2 : ℝ) ^ 249 ≤ ell := by
      have : 2 ^ 249 ≤ ell := by decide +kernel
      exact_mod_cast this
    have := pi4_half
    have h4 : (4 : ℝ) ^ 100 ≤ 1 / 2 * 2 ^ 249 := by norm_num
    nlinarith
  have hrq : rhoOk twistQ = true := by
    rw [rhoOk_iff]
    have h : (2 : ℝ) ^ 249 ≤ twistQ := by
      have : 2 ^ 249 ≤ twistQ := by decide +kernel
      exact_mod_cast this
    have := pi4_half
    have h4 : (4 : ℝ) ^ 100 ≤ 1 / 2 * 2 ^ 249 := by norm_num
    nlinarith
  have hj : jointOk 6 ((ell : ℝ) / 2 / 2 / 2) = true := by
    apply jointOk_of
    have h : (2 : ℝ) ^ 249 ≤ ell := by
      have : 2 ^ 249 ≤ ell := by decide +kernel
      exact_mod_cast this
    have := pi4_half
    have h4 : (2 : ℝ) ^ 200 ≤ 1 / 2 * (2 ^ 249 / 2 / 2 / 2) := by norm_num
    have h5 : (2 : ℝ) ^ 249 / 2 / 2 / 2 ≤ (ell : ℝ) / 2 / 2 / 2 := by linarith
    have h6 : (0 : ℝ) ≤ 2 ^ 249 / 2 / 2 / 2 := by positivity
    nlinarith
  have hgq : Nat.gcd twistQ p = 1 := by decide +kernel
  have heq : embedding sage fuel V p twistQ = .ok (some ((twistQ - 1) / 4)) := by
    rw [embedding_total sage fuel V hprime p twistQ q_prime ?_ (hs _ q_prime) hgq (stripAll_mono _ m8 _ _ _ hen.temb),
      orderOf_q]
    exact le_trans (by decide +kernel : twistQ ≤ 2 ^ 252) (Nat.pow_le_pow_right two_pos hfuel)
  have hT : SafeCurve.twist sage fuel V p ell (-88182086828089156368837628454358249258) twistQ =
      .ok ⟨twistQ, [2, 2], true, some ((twistQ - 1) / 4), true, true⟩ := by
    unfold SafeCurve.twist
    obtain ⟨k, rfl⟩ : ∃ k, fuel = k + 4 := ⟨fuel - 4, by omega⟩
    rw [n1, n2, n4, collectAll_mono m8 _ _ _ _ hen.tcof, Res.ok_bind, heq, Res.ok_bind, joint_run k V mid hen,
      Res.ok_bind]
    dsimp only
    rw [hrq, hj, decide_eq_true hgq]
  have hTs : (⟨twistQ, [2, 2], true, some ((twistQ - 1) / 4), true, true⟩ : Twist).safe = true := by decide +kernel
  have h0' : montW.Equation ((x0 : ℤ) : Fp) ((y0 : ℤ) : Fp) := h0
  have h1' : montW.Equation (((4 : ℤ) : ℤ) : Fp) ((y1 : ℤ) : Fp) := by rwa [Int.cast_ofNat]
  have hsh := short_run x0 y0 ((4 : ℤ) : Fp) y1 h0' h1'
  obtain ⟨b, hg⟩ := group_run x0 y0 ((4 : ℤ) : Fp) y1 h0' h1' (by
    rw [Int.cast_ofNat]
    intro h
    exact (C103_base_choice.2 _ h).1)
  have l0 : ell ≠ 0 := by decide
  have l16 : 16 * p < ell ^ 2 := by decide +kernel
  have run := verify_run (sage := sage) (fuel := fuel)
    (i := ⟨p, ell, x0, y0, 4, y1, .montgomery 505186 1, V, rigid⟩) p_prime' (V := V) (e := e)
    (t := -88182086828089156368837628454358249258) (f := [2, 2, 2]) hV he l0 t1 l16
    (by dsimp only; rw [n1, n3]; exact collectAll_mono m8 _ _ _ _ hen.cof) hD hq hT hsh
  refine ⟨_, run, rfl, rfl, ?_, rfl, rfl, ⟨_, rfl, rfl, rfl, rfl, hTs⟩, ⟨b, ?_⟩, ?_⟩
  · dsimp only
    rw [trace_eq]
  · dsimp only
    rw [n1, n3]
    exact hg
  · dsimp only
    rw [n1, n3, hTs, hm, hrl]
    have hg' : completeOk (group (zshort x0 y0 ((4 : ℤ) : Fp) y1) ell 8) = true := by rw [hg]; rfl
    have hpV : p ∈ V := by rw [hen.split]; simp
    have hlV : ell ∈ V := by rw [hen.split]; simp
    have hgl : Nat.gcd ell p = 1 := by decide +kernel
    have hd : discBig (some (-4 * discPart)) = true := by decide +kernel
    have h2 : (8 * ell : ℤ) % 2 = 0 := by decide +kernel
    have hb := b_run x0 y0 ((4 : ℤ) : Fp) y1
    have hla := ladder_run x0 y0 ((4 : ℤ) : Fp) y1
    rw [decide_eq_true hpV, decide_eq_true hlV, decide_eq_true hgl, hd, decide_eq_true h2]
    simp only [Bool.and_eq_true, Bool.or_eq_true, beq_iff_eq, decide_eq_true_eq]
    constructor
    · intro h
      exact h.1.1.1.1.2
    · intro h
      exact ⟨⟨⟨⟨⟨⟨⟨⟨⟨⟨trivial, rfl⟩, ⟨⟨trivial, rfl⟩, rfl⟩⟩, trivial⟩, ⟨trivial, trivial⟩⟩, trivial⟩, h⟩, hla⟩, trivial⟩,
        hg'⟩, ⟨trivial, hb⟩⟩

/-! ### The theorems -/

/-- C123: every number the script verifies is prime, whatever the primality test of Sage answers, and none is listed twice. -/
theorem C123_primes (sage : ℕ → Bool) (s : List ℕ) : (∀ v ∈ verified sage s, v.Prime) ∧ (verified sage s).Nodup :=
  verified_prime sage s

/-- The equation of a shape. -/
def OnShape {p : ℕ} : Shape → ZMod p → ZMod p → Prop
  | .edwards d, x, y => x ^ 2 + y ^ 2 = 1 + d * x ^ 2 * y ^ 2
  | .montgomery A B, x, y => B * y ^ 2 = x ^ 3 + A * x ^ 2 + x
  | .shortw a b, x, y => y ^ 2 = x ^ 3 + a * x + b

/-- The equation of a shape is that of an elliptic curve. -/
def EllipticShape (p : ℕ) : Shape → Prop
  | .edwards d => (d : ZMod p) ≠ 0 ∧ (d : ZMod p) ≠ 1
  | .montgomery A B => (B : ZMod p) ≠ 0 ∧ (A : ZMod p) ^ 2 ≠ 4
  | .shortw a b => 4 * (a : ZMod p) ^ 3 + 27 * (b : ZMod p) ^ 2 ≠ 0

theorem divk_ok {p : ℕ} [Fact p.Prime] {x y z : ZMod p} (h : divk x y = .ok z) : y ≠ 0 ∧ z = x / y := by
  unfold divk at h
  split_ifs at h with hy
  rw [Res.ok_inj] at h
  exact ⟨hy, h.symm⟩

theorem ofMontgomery_ok {p : ℕ} [Fact p.Prime] {e o0 o1 : Bool} {A B x0 y0 x1 y1 : ZMod p} {s : Short p}
    (h : ofMontgomery e o0 o1 A B x0 y0 x1 y1 = .ok s) : (3 : ZMod p) ≠ 0 ∧ B ≠ 0 ∧ s = ⟨e, o0, o1, (3 - A ^ 2) / (3 * B ^ 2),
      (2 * A ^ 3 - 9 * A) / (27 * B ^ 3), (x0 + A / 3) / B, y0 / B, (x1 + A / 3) / B, y1 / B⟩ := by
  unfold ofMontgomery at h
  obtain ⟨a, ha, h⟩ := Res.bind_ok h
  obtain ⟨b, hb, h⟩ := Res.bind_ok h
  obtain ⟨r, hr, h⟩ := Res.bind_ok h
  obtain ⟨u0, hu0, h⟩ := Res.bind_ok h
  obtain ⟨v0, hv0, h⟩ := Res.bind_ok h
  obtain ⟨u1, hu1, h⟩ := Res.bind_ok h
  obtain ⟨v1, hv1, h⟩ := Res.bind_ok h
  rw [Res.ok_inj] at h
  rw [← h, (divk_ok ha).2, (divk_ok hb).2, (divk_ok hu0).2, (divk_ok hv0).2, (divk_ok hu1).2, (divk_ok hv1).2,
    (divk_ok hr).2]
  exact ⟨(divk_ok hr).1, (divk_ok hv0).1, rfl⟩

/-- A point of `B v^2 = u^3 + A u^2 + u` in short Weierstrass form. -/
theorem mont_short {p : ℕ} [Fact p.Prime] {A B u v : ZMod p} (h3 : (3 : ZMod p) ≠ 0) (hB : B ≠ 0) :
    B * v ^ 2 = u ^ 3 + A * u ^ 2 + u ↔ (v / B) ^ 2 =
      ((u + A / 3) / B) ^ 3 + (3 - A ^ 2) / (3 * B ^ 2) * ((u + A / 3) / B) + (2 * A ^ 3 - 9 * A) / (27 * B ^ 3) := by
  have e : (v / B) ^ 2 - (((u + A / 3) / B) ^ 3 + (3 - A ^ 2) / (3 * B ^ 2) * ((u + A / 3) / B) +
      (2 * A ^ 3 - 9 * A) / (27 * B ^ 3)) = (B * v ^ 2 - (u ^ 3 + A * u ^ 2 + u)) / B ^ 3 := by
    rw [show (27 : ZMod p) = 3 ^ 3 by norm_num]
    field_simp
    ring
  rw [← sub_eq_zero (a := (v / B) ^ 2), e, div_eq_zero_iff, sub_eq_zero, or_iff_left (pow_ne_zero 3 hB)]

/-- A point of an Edwards curve in Montgomery form. -/
theorem edwards_mont {p : ℕ} [Fact p.Prime] {d x y : ZMod p} (hd : 1 - d ≠ 0) (hy : 1 - y ≠ 0) (hx : x ≠ 0)
    (h : x ^ 2 + y ^ 2 = 1 + d * x ^ 2 * y ^ 2) : 4 / (1 - d) * ((1 + y) / (1 - y) / x) ^ 2 =
      ((1 + y) / (1 - y)) ^ 3 + 2 * (1 + d) / (1 - d) * ((1 + y) / (1 - y)) ^ 2 + (1 + y) / (1 - y) := by
  have e : 4 / (1 - d) * ((1 + y) / (1 - y) / x) ^ 2 - (((1 + y) / (1 - y)) ^ 3 +
      2 * (1 + d) / (1 - d) * ((1 + y) / (1 - y)) ^ 2 + (1 + y) / (1 - y)) =
      4 * (1 + y) * ((1 + d * x ^ 2 * y ^ 2) - (x ^ 2 + y ^ 2)) / ((1 - d) * (1 - y) ^ 3 * x ^ 2) := by
    field_simp
    ring
  rw [h, sub_self, mul_zero, zero_div] at e
  exact sub_eq_zero.1 e

/-- C123: the short form. The verdict on the equation says whether it is that of an elliptic curve, those on the two points
whether they satisfy it, and if they do, the points found in short Weierstrass form lie on the curve found. -/
theorem C123_form {p : ℕ} [Fact p.Prime] (shape : Shape) (x0 y0 x1 y1 : ZMod p) (s : Short p)
    (h : short shape x0 y0 x1 y1 = .ok s) : (s.elliptic = true ↔ EllipticShape p shape) ∧
    (s.on0 = true ↔ OnShape shape x0 y0) ∧ (s.on1 = true ↔ OnShape shape x1 y1) ∧
    (OnShape shape x0 y0 → s.curve.Equation s.x0 s.y0) ∧ (OnShape shape x1 y1 → s.curve.Equation s.x1 s.y1) := by
  have eq : ∀ x y : ZMod p, s.curve.Equation x y ↔ y ^ 2 = x ^ 3 + s.a * x + s.b := by
    intro x y
    rw [WeierstrassCurve.Affine.equation_iff]
    simp only [Short.curve, zero_mul, add_zero]
  rw [eq, eq]
  cases shape with
  | shortw a b =>
    unfold short at h
    rw [Res.ok_inj] at h
    subst h
    simp only [decide_eq_true_eq, EllipticShape, OnShape]
    refine ⟨trivial, ?_, ?_, fun h => h, fun h => h⟩ <;>
      constructor <;> intro h <;> linear_combination h
  | montgomery A B =>
    unfold short at h
    obtain ⟨h3, hB, h⟩ := ofMontgomery_ok h
    subst h
    simp only [decide_eq_true_eq, EllipticShape, OnShape]
    refine ⟨?_, ?_, ?_, (mont_short h3 hB).1, (mont_short h3 hB).1⟩
    · rw [mul_ne_zero_iff, sub_ne_zero]
    all_goals constructor <;> intro h <;> linear_combination h
  | edwards d =>
    unfold short at h
    obtain ⟨A, hA, h⟩ := Res.bind_ok h
    obtain ⟨B, hB, h⟩ := Res.bind_ok h
    obtain ⟨u0, hu0, h⟩ := Res.bind_ok h
    obtain ⟨v0, hv0, h⟩ := Res.bind_ok h
    obtain ⟨u1, hu1, h⟩ := Res.bind_ok h
    obtain ⟨v1, hv1, h⟩ := Res.bind_ok h
    obtain ⟨hd, rfl⟩ := divk_ok hA
    obtain ⟨-, rfl⟩ := divk_ok hB
    obtain ⟨hy0, rfl⟩ := divk_ok hu0
    obtain ⟨hx0, rfl⟩ := divk_ok hv0
    obtain ⟨hy1, rfl⟩ := divk_ok hu1
    obtain ⟨hx1, rfl⟩ := divk_ok hv1
    obtain ⟨h3, hB, h⟩ := ofMontgomery_ok h
    subst h
    simp only [decide_eq_true_eq, EllipticShape, OnShape]
    refine ⟨?_, ?_, ?_, fun h => (mont_short h3 hB).1 (edwards_mont hd hy0 hx0 h), fun h => (mont_short h3 hB).1 (edwards_mont hd hy1 hx1 h)⟩
    · rw [mul_ne_zero_iff, sub_ne_zero]
      exact and_congr_right fun _ => ne_comm
    all_goals constructor <;> intro h <;> linear_combination h

/-- The parts of a run. -/
theorem verify_parts {sage : ℕ → Bool} {fuel : ℕ} {i : Input} {r : Report} (h : verify sage fuel i = .ok r) :
    ∃ hp : i.p.Prime, haveI : Fact i.p.Prime := ⟨hp⟩
    ∃ s : Short i.p, short (p := i.p) i.shape i.x0 i.y0 i.x1 i.y1 = .ok s ∧ i.l ≠ 0 ∧
    r.verified = verified sage i.primes ∧
    embedding sage fuel (verified sage i.primes) i.p i.l = .ok r.embedding ∧
    r.trace = (if 16 * i.p < i.l ^ 2 then some (SafeCurve.trace i.p i.l) else none) ∧
    (∀ f, r.cofactor = some f → collectAll fuel (verified sage i.primes) ((i.p + 1 - SafeCurve.trace i.p i.l) / i.l) [] =
      .ok f) ∧
    disc fuel (verified sage i.primes) i.p (SafeCurve.trace i.p i.l) = .ok r.disc ∧
    (∀ T, r.twist = some T → ∃ q, twistL fuel (verified sage i.primes) (i.p + 1 + SafeCurve.trace i.p i.l) = .ok (some q) ∧
      SafeCurve.twist sage fuel (verified sage i.primes) i.p i.l (SafeCurve.trace i.p i.l) q = .ok T) ∧
    r.group = group s i.l ((i.p + 1 - SafeCurve.trace i.p i.l) / i.l) ∧
    (r.safecurve = true ↔ i.p ∈ verified sage i.primes ∧ s.elliptic = true ∧
      (i.l ∈ verified sage i.primes ∧ s.on0 = true ∧ s.on1 = true) ∧
      rhoOk i.l = true ∧ (Nat.gcd i.l i.p = 1 ∧ movSafe i.l r.embedding = true) ∧ discBig r.disc = true ∧
      (i.rigid = "fully rigid" ∨ i.rigid = "somewhat rigid") ∧ ladder s = true ∧
      (∃ T, r.twist = some T ∧ T.safe = true) ∧ completeOk r.group = true ∧
      (i.p + 1 - SafeCurve.trace i.p i.l) % 2 = 0 ∧ s.b ≠ 0) := by
  unfold verify at h
  by_cases hp : i.p.Prime
  case neg => rw [dif_neg hp] at h; cases h
  rw [dif_pos hp] at h
  refine ⟨hp, ?_⟩
  dsimp only at h
  obtain ⟨e, he, h⟩ := Res.bind_ok h
  by_cases hl : i.l = 0
  · rw [if_pos hl] at h; cases h
  rw [if_neg hl] at h
  obtain ⟨cof, hc, h⟩ := Res.bind_ok h
  obtain ⟨D, hD, h⟩ := Res.bind_ok h
  obtain ⟨tl, htl, h⟩ := Res.bind_ok h
  obtain ⟨tw, htw, h⟩ := Res.bind_ok h
  obtain ⟨s, hs, h⟩ := Res.bind_ok h
  rw [Res.ok_inj] at h
  subst h
  refine ⟨s, hs, hl, rfl, he, rfl, ?_, hD, ?_, rfl, ?_⟩
  · rintro f rfl
    split_ifs at hc with h16
    · obtain ⟨f', hf, hc⟩ := Res.bind_ok hc
      rw [Res.ok_inj, Option.some_inj] at hc
      rw [← hc]; exact hf
    · rw [Res.ok_inj] at hc; cases hc
  · rintro T rfl
    cases tl with
    | none => rw [Res.ok_inj] at htw; cases htw
    | some q =>
      obtain ⟨T', hT, htw⟩ := Res.bind_ok htw
      rw [Res.ok_inj, Option.some_inj] at htw
      exact ⟨q, htl, htw ▸ hT⟩
  · have e : twistSafe tw = true ↔ ∃ T, tw = some T ∧ T.safe = true := by
      cases tw with
      | none => simp [twistSafe]
      | some T => simp [twistSafe]
    dsimp only
    simp only [Bool.and_eq_true, Bool.or_eq_true, beq_iff_eq, decide_eq_true_eq, e, and_assoc]

theorem twist_parts {sage : ℕ → Bool} {fuel : ℕ} {V : List ℕ} {p l : ℕ} {t : ℤ} {q : ℕ} {T : Twist}
    (h : SafeCurve.twist sage fuel V p l t q = .ok T) : T.l = q ∧ (T.gcd1 = true → Nat.gcd q p = 1) ∧
    embedding sage fuel V p q = .ok T.embedding ∧ T.rho = rhoOk q ∧
    collectAll fuel V ((p + 1 + t) / q) [] = .ok T.cofactor := by
  unfold SafeCurve.twist at h
  obtain ⟨f, hf, h⟩ := Res.bind_ok h
  obtain ⟨e, he, h⟩ := Res.bind_ok h
  obtain ⟨j, hj, h⟩ := Res.bind_ok h
  rw [Res.ok_inj] at h
  subst h
  exact ⟨rfl, fun h => of_decide_eq_true h, he, rfl, hf⟩

/-- C123: the verdict. If the script calls a curve safe, then `p` and `l` are prime, `l` does not divide `p` and is large enough
against the rho method; the embedding degree, if written, is the multiplicative order of `p` modulo `l` and above the bound;
the equation is elliptic and both points satisfy it; in short Weierstrass form the base point has order exactly `l`, exactly one
point has order 2 and two have order 4, there is a Montgomery ladder, and `b` is not 0. -/
theorem C123_safe (sage : ℕ → Bool) (fuel : ℕ) (i : Input) (r : Report) (h : verify sage fuel i = .ok r)
    (hsafe : r.safecurve = true) :
    ∃ hp : i.p.Prime, haveI : Fact i.p.Prime := ⟨hp⟩
    i.l.Prime ∧ Nat.Coprime i.l i.p ∧ (4 : ℝ) ^ 100 ≤ pi4 * i.l ∧
    (∀ d, r.embedding = some d → orderOf (i.p : ZMod i.l) = d ∧ i.l - 1 ≤ 100 * d) ∧
    EllipticShape i.p i.shape ∧ OnShape (p := i.p) i.shape i.x0 i.y0 ∧ OnShape (p := i.p) i.shape i.x1 i.y1 ∧
    ∃ s : Short i.p, short (p := i.p) i.shape i.x0 i.y0 i.x1 i.y1 = .ok s ∧ s.curve.Δ ≠ 0 ∧
      (∃ h1, addOrderOf (Point.some (W' := s.curve) s.x1 s.y1 h1) = i.l) ∧
      Nat.card {P : s.curve.Point // addOrderOf P = 2} = 1 ∧ Nat.card {P : s.curve.Point // addOrderOf P = 4} = 2 ∧
      (∃ x : ZMod i.p, x ^ 3 + s.a * x + s.b = 0 ∧ IsSquare (3 * x ^ 2 + s.a)) ∧ s.b ≠ 0 ∧
      (((Nat.card s.curve.Point : ℤ) - (i.p + 1)) ^ 2 ≤ 4 * i.p → 16 * i.p < i.l ^ 2 →
        r.trace = some ((i.p : ℤ) + 1 - Nat.card s.curve.Point) ∧ Even (Nat.card s.curve.Point) ∧
        (∃ m k : ℕ, Squarefree m ∧ ((i.p : ℤ) + 1 - Nat.card s.curve.Point) ^ 2 - 4 * i.p = -(m * (k : ℤ) ^ 2) ∧
          r.disc = some (if m % 4 = 3 then -(m : ℤ) else -4 * m) ∧ 2 ^ 100 < if m % 4 = 3 then m else 4 * m) ∧
        ∃ T, r.twist = some T ∧ T.l.Prime ∧ (T.l : ℤ) ∣ 2 * i.p + 2 - Nat.card s.curve.Point ∧
          (∀ q : ℕ, q.Prime → (q : ℤ) ∣ 2 * i.p + 2 - Nat.card s.curve.Point → q ≤ T.l) ∧
          Nat.Coprime T.l i.p ∧ (4 : ℝ) ^ 100 ≤ pi4 * T.l ∧
          ∀ d, T.embedding = some d → orderOf (i.p : ZMod T.l) = d ∧ T.l - 1 ≤ 100 * d) := by
  obtain ⟨hp, s, hs, hl0, -, he, ht, -, hD, hT, hg, hsc⟩ := verify_parts h
  obtain ⟨-, g2, ⟨g3, g3a, g3b⟩, g4, ⟨g5, g5a⟩, g6, -, g8, ⟨T, hT1, hT2⟩, g10, g11, g12⟩ := hsc.1 hsafe
  obtain ⟨hV, hN⟩ := verified_prime sage i.primes
  have : Fact i.p.Prime := ⟨hp⟩
  obtain ⟨f1, f2, f3, -, -⟩ := C123_form _ _ _ _ _ _ hs
  have hl : i.l.Prime := hV _ g3
  refine ⟨hp, hl, g5, (rhoOk_iff _).1 g4, ?_, f1.1 g2, f2.1 g3a, f3.1 g3b, s, hs, ?_⟩
  · intro d hd
    rw [hd] at he g5a
    exact ⟨(embedding_spec sage fuel _ hV _ _ d hl he).2, of_decide_eq_true g5a⟩
  rw [hg] at g10
  unfold group at g10
  split_ifs at g10 with hΔ h1 h0
  · cases g10
  · simp only [completeOk, Bool.and_eq_true, decide_eq_true_eq] at g10
    obtain ⟨⟨c4, c2⟩, cl⟩ := g10
    have ho : addOrderOf (Point.some (W' := s.curve) s.x1 s.y1 h1) = i.l := by
      have : Fact i.l.Prime := ⟨hl⟩
      exact addOrderOf_eq_prime cl (WeierstrassCurve.Affine.Point.some_ne_zero h1)
    refine ⟨hΔ, ⟨h1, ho⟩, ?_, ?_, of_decide_eq_true g8, g12, ?_⟩
    · rw [← c2]; exact Nat.card_congr (Equiv.subtypeEquivRight fun P => order_two_iff P)
    · rw [← c4]; exact Nat.card_congr (Equiv.subtypeEquivRight fun P => order_four_iff P)
    · intro hasse h16
      have hd : i.l ∣ Nat.card s.curve.Point := ho ▸ addOrderOf_dvd_natCard _
      have htr := trace_spec i.p i.l _ hd hasse h16
      have e2 : (i.p : ℤ) + 1 + SafeCurve.trace i.p i.l = 2 * i.p + 2 - Nat.card s.curve.Point := by rw [htr]; ring
      refine ⟨by rw [ht, if_pos h16, htr], ?_, ?_, T, hT1, ?_⟩
      · rw [htr] at g11
        rw [Nat.even_iff]
        omega
      · cases hd : r.disc with
        | none => rw [hd] at g6; cases g6
        | some D =>
          rw [hd] at g6 hD
          obtain ⟨m, k, m1, m2, m3⟩ := disc_spec fuel _ hV hN _ _ _ hD
          refine ⟨m, k, m1, by rw [← htr]; exact m2, congrArg some m3, ?_⟩
          have := of_decide_eq_true g6
          split_ifs at m3 ⊢ <;> omega
      · obtain ⟨q, hq, hTq⟩ := hT T hT1
        obtain ⟨p1, p2, p3, p4, -⟩ := twist_parts hTq
        subst p1
        obtain ⟨-, q2, q3, q4⟩ := twistL_spec fuel _ hV _ _ hq
        rw [e2] at q3 q4
        unfold Twist.safe at hT2
        simp only [Bool.and_eq_true] at hT2
        obtain ⟨⟨⟨k1, k2⟩, k3⟩, -⟩ := hT2
        refine ⟨hV _ q2, q3, q4, p2 k1, (rhoOk_iff _).1 (p4 ▸ k3), ?_⟩
        intro d hd
        rw [hd] at p3 k2
        exact ⟨(embedding_spec sage fuel _ hV _ _ d (hV _ q2) p3).2, of_decide_eq_true k2⟩
  · cases g10
  · cases g10

/-- The file of primes without 155385589, a factor of `L - 1`. -/
def shortCerts : List (ℕ × ℕ) := certs.filter fun x => x.1 ≠ 155385589

theorem shortCerts_ok : chainC [2] shortCerts = true := by decide +kernel

theorem enough_full : Enough primeFile ((certs.map Prod.fst).take 92) :=
  ⟨by decide +kernel, by decide +kernel, by decide +kernel, by decide +kernel, by decide +kernel, by decide +kernel,
    by decide +kernel, by decide +kernel, by decide +kernel⟩

theorem enough_short : Enough (2 :: shortCerts.map Prod.fst) ((shortCerts.map Prod.fst).take 91) :=
  ⟨by decide +kernel, by decide +kernel, by decide +kernel, by decide +kernel, by decide +kernel, by decide +kernel,
    by decide +kernel, by decide +kernel, by decide +kernel⟩

/-- C123: this curve. Given the prime `p`, the order `L`, the Montgomery form, any point and a base point with first coordinate 4,
and a file with the 96 primes needed, the script verifies them all and writes embedding degree `(L-1)/15`, the true trace,
cofactor `2 2 2`, the discriminant, and for the twist the prime `q`, cofactor `2 2` and embedding degree `(q-1)/4`. It calls the curve safe
if and only if it is declared rigid. -/
theorem C123_accepts (sage : ℕ → Bool) (hs : ∀ n, n.Prime → sage n = true) (fuel : ℕ) (hfuel : 252 ≤ fuel) (x0 y0 y1 : ℤ)
    (h0 : montW.Equation x0 y0) (h1 : montW.Equation 4 y1) (rigid : String) :
    ∃ r, verify sage fuel ⟨p, ell, x0, y0, 4, y1, .montgomery 505186 1, primeFile, rigid⟩ = .ok r ∧
      r.verified = primeFile ∧
      r.embedding = some ((ell - 1) / 15) ∧ r.trace = some ((p : ℤ) + 1 - Nat.card montW.Point) ∧ r.cofactor = some [2, 2, 2] ∧
      r.disc = some (-4 * (discPart : ℤ)) ∧
      (∃ T, r.twist = some T ∧ T.l = twistQ ∧ T.cofactor = [2, 2] ∧ T.embedding = some ((twistQ - 1) / 4) ∧
        T.safe = true) ∧
      (∃ b, r.group = some ⟨1, 2, true, b⟩) ∧
      (r.safecurve = true ↔ rigid = "fully rigid" ∨ rigid = "somewhat rigid") := by
  have hV : verified sage primeFile = primeFile := verified_chain sage hs certs certs_ok
  have hl : ell.Prime := Fact.out
  have he : embedding sage fuel primeFile p ell = .ok (some ((ell - 1) / 15)) := by
    have hst : stripAll 8 (fun v => v) primeFile ((ell : ℤ) - 1) = .ok 1 := by decide +kernel
    rw [embedding_total sage fuel primeFile (by rw [← hV]; exact (verified_prime sage _).1) p ell hl
      (le_trans (by decide +kernel : ell ≤ 2 ^ 252) (Nat.pow_le_pow_right two_pos hfuel)) (hs _ hl) (by decide +kernel)
      (stripAll_mono _ (by omega) _ _ _ hst), orderOf_p]
  exact run_with sage hs fuel hfuel x0 y0 y1 h0 h1 rigid primeFile _ enough_full hV _ he (by decide +kernel)

/-- C123: a weakness. If the file of primes lacks one factor of `L - 1`, the embedding degree is not computed, and the script
still reports that transfers are not a danger and that the curve is safe. -/
theorem C123_unverified (sage : ℕ → Bool) (hs : ∀ n, n.Prime → sage n = true) (fuel : ℕ) (hfuel : 252 ≤ fuel) (x0 y0 y1 : ℤ)
    (h0 : montW.Equation x0 y0) (h1 : montW.Equation 4 y1) :
    ∃ r, verify sage fuel ⟨p, ell, x0, y0, 4, y1, .montgomery 505186 1, primeFile.filter (· ≠ 155385589), "fully rigid"⟩ =
      .ok r ∧ r.embedding = none ∧ r.safecurve = true := by
  have hf : primeFile.filter (· ≠ 155385589) = 2 :: shortCerts.map Prod.fst := by decide +kernel
  rw [hf]
  have hV := verified_chain sage hs shortCerts shortCerts_ok
  have hl : ell.Prime := Fact.out
  have he : embedding sage fuel (2 :: shortCerts.map Prod.fst) p ell = .ok none := by
    have hst : stripAll 8 (fun v => v) (2 :: shortCerts.map Prod.fst) ((ell : ℤ) - 1) = .ok 155385589 := by decide +kernel
    unfold embedding
    rw [if_pos ⟨by decide +kernel, hs _ hl⟩, stripAll_mono _ (by omega) _ _ _ hst, Res.ok_bind, if_neg (by decide)]
  obtain ⟨r, a1, -, a3, -, -, -, -, -, a9⟩ :=
    run_with sage hs fuel hfuel x0 y0 y1 h0 h1 "fully rigid" _ _ enough_short hV _ he rfl
  exact ⟨r, a1, a3, a9.2 (Or.inl rfl)⟩

/-- The hypotheses are met: the base point of the script, as both points. -/
example : ∃ r, verify (fun _ => true) 252 ⟨p, ell, 4,
      0x5476327F819F419674D6ECE6CD9CC73DD90461A0D99B2A65D27C9881ABA52C5, 4,
      0x5476327F819F419674D6ECE6CD9CC73DD90461A0D99B2A65D27C9881ABA52C5, .montgomery 505186 1, primeFile, "fully rigid"⟩ = .ok r ∧
    r.safecurve = true := by
  have h : montW.Equation 4 ((0x5476327F819F419674D6ECE6CD9CC73DD90461A0D99B2A65D27C9881ABA52C5 : ℤ) : Fp) := by
    rw [Int.cast_ofNat]; exact C103_wrong_hex.2
  have h0 : montW.Equation ((4 : ℤ) : Fp) ((0x5476327F819F419674D6ECE6CD9CC73DD90461A0D99B2A65D27C9881ABA52C5 : ℤ) : Fp) := by
    rw [Int.cast_ofNat 4]; exact h
  obtain ⟨r, h1, -, -, -, -, -, -, -, h9⟩ := C123_accepts (fun _ => true) (fun _ _ => rfl) 252 (le_refl _) 4 _ _
    h0 h "fully rigid"
  exact ⟨r, h1, h9.2 (Or.inl rfl)⟩

end Props
end Zerocaf
