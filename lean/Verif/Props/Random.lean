import Verif.Props.Exact
import Mathlib.Data.Fintype.Pi
import Mathlib.Probability.ProductMeasure
import Mathlib.Probability.Distributions.Uniform

/-!
# C99: how often points are found

The number of `y` coordinates of curve points, the share of generator outputs for which a random point is found, the
distribution of the first find, and the number of points whose Edwards encoding is not decoded.
-/

set_option exponentiation.threshold 600

namespace Zerocaf
namespace Props

/-- The `y` coordinates of curve points. -/
def PointY (y : Fp) : Prop := ∃ A : E, A.y = y

theorem one_add_dZ_ne : (1 : Fp) + dZ ≠ 0 := by
  have := dy_ne 1
  rwa [mul_one, mul_one] at this

theorem x_eq_zero_iff (A : E) : A.x = 0 ↔ A.y = 1 ∨ A.y = -1 := by
  have h := x_sq_eq A
  constructor
  · intro hx
    have : (A.y - 1) * (A.y + 1) = 0 := by rw [hx] at h; linear_combination -h
    rcases mul_eq_zero.1 this with h | h
    · exact Or.inl (by linear_combination h)
    · exact Or.inr (by linear_combination h)
  · intro hy
    have hy2 : A.y ^ 2 = 1 := by rcases hy with h | h <;> rw [h] <;> ring
    have : A.x * A.x * (1 + dZ) = 0 := by
      rw [hy2] at h
      linear_combination h
    rcases mul_eq_zero.1 this with h | h
    · exact mul_self_eq_zero.1 h
    · exact absurd h one_add_dZ_ne

theorem two_ne_zero_Fp : (2 : Fp) ≠ 0 := by
  intro h
  have : ((2 : ℕ) : Fp) = 0 := by exact_mod_cast h
  rw [ZMod.natCast_eq_zero_iff] at this
  exact absurd (Nat.le_of_dvd (by norm_num) this) (by decide)

theorem one_ne_neg_one_Fp : (1 : Fp) ≠ -1 := by
  intro h
  exact two_ne_zero_Fp (by linear_combination h)

theorem pt_eq_neg_iff (A : E) : A = -A ↔ A.y = 1 ∨ A.y = -1 := by
  rw [← x_eq_zero_iff]
  constructor
  · intro h
    have := congrArg EdCurve.Pt.x h
    rw [EdCurve.Pt.neg_x] at this
    have h2 : 2 * A.x = 0 := by linear_combination this
    exact (mul_eq_zero.1 h2).resolve_left two_ne_zero_Fp
  · intro h
    exact EdCurve.Pt.ext (by rw [EdCurve.Pt.neg_x, h, neg_zero]) (EdCurve.Pt.neg_y A).symm

theorem pointY_one : PointY 1 := ⟨0, rfl⟩
theorem pointY_neg_one : PointY (-1) := ⟨twoTorsion, rfl⟩
theorem pointY_zero : PointY 0 := ⟨fourTorsion, rfl⟩

theorem pointY_neg (y : Fp) (h : PointY y) : PointY (-y) := by
  unfold PointY at h ⊢
  rw [exists_y_iff] at h ⊢
  have : xxOf (-y) = xxOf y := by unfold xxOf; rw [neg_mul_neg]
  rwa [this]

/-- C99: the points of the curve have exactly `4L + 1` different `y` coordinates. -/
theorem C99_y_count : {y : Fp | PointY y}.ncard = 4 * ell + 1 := by
  classical
  let : Fintype E := Fintype.ofFinite E
  let S : Finset Fp := Finset.univ.filter PointY
  have hS : {y : Fp | PointY y}.ncard = S.card := by
    rw [← Set.ncard_coe_finset]
    congr 1
    ext y
    simp [S]
  have h1 : (Finset.univ : Finset E).card = ∑ y ∈ S, (Finset.univ.filter fun A : E => A.y = y).card :=
    Finset.card_eq_sum_card_fiberwise (f := fun A : E => A.y) fun A _ => by
      simp only [S, Finset.coe_filter, Finset.mem_univ, true_and, Set.mem_ofPred_eq]
      exact ⟨A, rfl⟩
  have h2 : ∀ y ∈ S, (Finset.univ.filter fun A : E => A.y = y).card + (if y = 1 then 1 else 0) +
      (if y = -1 then 1 else 0) = 2 := by
    intro y hy
    obtain ⟨A, rfl⟩ := (Finset.mem_filter.1 hy).2
    have hf : (Finset.univ.filter fun B : E => B.y = A.y) = {A, -A} := by
      ext B
      simp only [Finset.mem_filter, Finset.mem_univ, true_and, Finset.mem_insert, Finset.mem_singleton]
      constructor
      · intro h
        exact same_y h.symm
      · rintro (rfl | rfl)
        · rfl
        · exact EdCurve.Pt.neg_y A
    rw [hf]
    by_cases h : A.y = 1 ∨ A.y = -1
    · rw [← (pt_eq_neg_iff A).2 h, Finset.pair_eq_singleton, Finset.card_singleton]
      rcases h with h | h
      · rw [if_pos h, if_neg (by rw [h]; exact one_ne_neg_one_Fp)]
      · rw [if_neg (by rw [h]; exact one_ne_neg_one_Fp.symm), if_pos h]
    · rw [Finset.card_pair (fun e => h ((pt_eq_neg_iff A).1 e))]
      rw [not_or] at h
      rw [if_neg h.1, if_neg h.2]
  have h3 := Finset.sum_congr rfl h2
  rw [Finset.sum_add_distrib, Finset.sum_add_distrib, ← h1, Finset.sum_ite_eq', Finset.sum_ite_eq',
    if_pos (by simp [S, pointY_one]), if_pos (by simp [S, pointY_neg_one]), Finset.sum_const, smul_eq_mul,
    Finset.card_univ, ← Nat.card_eq_fintype_card, card_E] at h3
  rw [hS]
  omega

theorem neg_val_Fp (y : Fp) (h : y ≠ 0) : (-y).val = p - y.val := by
  have : NeZero y := ⟨h⟩
  exact ZMod.val_neg_of_ne_zero y

theorem finite_Fp (s : Set Fp) : s.Finite := Set.toFinite s

/-- The number of residues in an interval. -/
theorem ncard_val_le (a b : ℕ) : {y : Fp | a ≤ y.val ∧ y.val < b}.ncard ≤ b - a := by
  rw [← Set.ncard_image_of_injective _ (ZMod.val_injective p)]
  refine le_trans (Set.ncard_le_ncard (t := (Finset.Ico a b : Set ℕ)) ?_ (Finset.finite_toSet _)) ?_
  · rintro _ ⟨y, hy, rfl⟩
    exact Finset.mem_coe.2 (Finset.mem_Ico.2 hy)
  · rw [Set.ncard_coe_finset, Nat.card_Ico]

/-- A set of residues that is closed under negation and contains zero. -/
theorem half_count (S : Set Fp) (h0 : (0 : Fp) ∈ S) (hn : ∀ y ∈ S, -y ∈ S) (B : ℕ) (hB : 0 < B) (hp : 2 * B ≤ p) :
    S.ncard + 1 ≤ 2 * {y | y ∈ S ∧ y.val < B}.ncard + (p + 1 - 2 * B) ∧
    2 * {y | y ∈ S ∧ y.val < B}.ncard ≤ S.ncard + 1 := by
  set low : Set Fp := {y | y ∈ S ∧ y.val < B} with hlow
  set high : Set Fp := {y | y ∈ S ∧ p - B < y.val} with hhigh
  set mid : Set Fp := {y | y ∈ S ∧ B ≤ y.val ∧ y.val < p - B + 1} with hmid
  have z0 : (0 : Fp) ∈ low := ⟨h0, by rw [ZMod.val_zero]; exact hB⟩
  have e : S = low ∪ high ∪ mid := by
    ext y
    constructor
    · intro hy
      by_cases h1 : y.val < B
      · exact Or.inl (Or.inl ⟨hy, h1⟩)
      · by_cases h2 : p - B < y.val
        · exact Or.inl (Or.inr ⟨hy, h2⟩)
        · exact Or.inr ⟨hy, by omega, by omega⟩
    · rintro ((h | h) | h) <;> exact h.1
  have himg : high = (fun y : Fp => -y) '' (low \ {0}) := by
    ext y
    have hlt : y.val < p := ZMod.val_lt y
    constructor
    · rintro ⟨hy, hv⟩
      have hne : y ≠ 0 := by
        rintro rfl
        rw [ZMod.val_zero] at hv
        omega
      refine ⟨-y, ⟨⟨hn y hy, ?_⟩, ?_⟩, neg_neg y⟩
      · rw [neg_val_Fp y hne]; omega
      · rw [Set.mem_singleton_iff, neg_eq_zero]; exact hne
    · rintro ⟨z, ⟨⟨hz, hv⟩, hz0⟩, rfl⟩
      rw [Set.mem_singleton_iff] at hz0
      refine ⟨hn z hz, ?_⟩
      show p - B < (-z).val
      rw [neg_val_Fp z hz0]
      have : z.val ≠ 0 := fun h => hz0 ((ZMod.val_eq_zero z).1 h)
      omega
  have ch : high.ncard = low.ncard - 1 := by
    rw [himg, Set.ncard_image_of_injective _ neg_injective, Set.ncard_sdiff_singleton_of_mem z0]
  have cl : 0 < low.ncard := (Set.ncard_pos (finite_Fp _)).2 ⟨0, z0⟩
  have cm : mid.ncard ≤ p + 1 - 2 * B := by
    refine le_trans (Set.ncard_le_ncard (fun y hy => hy.2) (finite_Fp _)) (le_trans (ncard_val_le B (p - B + 1)) ?_)
    omega
  have d1 : Disjoint low high := by
    rw [Set.disjoint_left]
    rintro y ⟨_, h1⟩ ⟨_, h2⟩
    omega
  have d2 : Disjoint (low ∪ high) mid := by
    rw [Set.disjoint_left]
    rintro y (⟨_, h1⟩ | ⟨_, h1⟩) ⟨_, h2, h3⟩ <;> omega
  have c : S.ncard = low.ncard + high.ncard + mid.ncard := by
    conv_lhs => rw [e]
    rw [Set.ncard_union_eq d2 (finite_Fp _) (finite_Fp _), Set.ncard_union_eq d1 (finite_Fp _) (finite_Fp _)]
  omega

/-- C99: of the `2^251` values a random `y` can have, more than half belong to points, but less than a
`1/2 + 2^-126` share. -/
theorem C99_low_y_count : 2 ^ 250 < {y : Fp | PointY y ∧ y.val < 2 ^ 251}.ncard ∧
    {y : Fp | PointY y ∧ y.val < 2 ^ 251}.ncard < 2 ^ 250 + 2 ^ 125 := by
  have h := half_count {y : Fp | PointY y} pointY_zero pointY_neg (2 ^ 251) (by norm_num) (by decide)
  rw [C99_y_count] at h
  obtain ⟨h1, h2⟩ := h
  have e : {y : Fp | y ∈ {y : Fp | PointY y} ∧ y.val < 2 ^ 251} = {y : Fp | PointY y ∧ y.val < 2 ^ 251} := rfl
  rw [e] at h1 h2
  generalize {y : Fp | PointY y ∧ y.val < 2 ^ 251}.ncard = V at *
  have hp : p = 2 ^ 252 + 27742317777372353535851937790883648493 := by decide
  have hl : ell = 2 ^ 249 + 14490550575682688738086195780655237219 := by decide
  rw [hp, hl] at h1
  rw [hl] at h2
  constructor <;> omega

theorem natCast_val_lt (a : ℕ) (h : a < p) : (a : Fp).val = a := by rw [ZMod.val_natCast, Nat.mod_eq_of_lt h]

/-- The number of byte strings whose low bits are in a given set of residues. -/
theorem ncard_low_set (A B : ℕ) (hAB : A * B = 2 ^ 256) (hA : A ≤ p) (Q : Fp → Prop) :
    {b : Bytes32 | Q ((bytesVal b % A : ℕ) : Fp)}.ncard = {y : Fp | Q y ∧ y.val < A}.ncard * B := by
  classical
  let : Fintype Bytes32 := Fintype.ofFinite _
  have hA0 : 0 < A := Nat.pos_of_ne_zero (by rintro rfl; rw [zero_mul] at hAB; exact absurd hAB (by norm_num))
  let S : Finset Bytes32 := Finset.univ.filter fun b => Q ((bytesVal b % A : ℕ) : Fp)
  let T : Finset Fp := Finset.univ.filter fun y => Q y ∧ y.val < A
  have hS : {b : Bytes32 | Q ((bytesVal b % A : ℕ) : Fp)}.ncard = S.card := by
    rw [← Set.ncard_coe_finset]; congr 1; ext b; simp [S]
  have hT : {y : Fp | Q y ∧ y.val < A}.ncard = T.card := by
    rw [← Set.ncard_coe_finset]; congr 1; ext y; simp [T]
  rw [hS, hT]
  have h1 : S.card = ∑ y ∈ T, (S.filter fun b => ((bytesVal b % A : ℕ) : Fp) = y).card :=
    Finset.card_eq_sum_card_fiberwise fun b hb => by
      have hb : b ∈ S := hb
      simp only [T, Finset.coe_filter, Finset.mem_univ, true_and, Set.mem_ofPred_eq]
      refine ⟨(Finset.mem_filter.1 hb).2, ?_⟩
      have : bytesVal b % A < A := Nat.mod_lt _ hA0
      rw [natCast_val_lt _ (by omega)]
      exact this
  rw [h1]
  refine (Finset.sum_congr rfl fun y hy => ?_).trans (Finset.sum_const B)
  obtain ⟨hq, hv⟩ := (Finset.mem_filter.1 hy).2
  rw [← ncard_low_bits A B y.val hAB hv, ← Set.ncard_coe_finset]
  congr 1
  ext b
  have hlt : bytesVal b % A < p := lt_of_lt_of_le (Nat.mod_lt _ hA0) hA
  simp only [S, Finset.coe_filter, Finset.mem_filter, Finset.mem_univ, true_and, Set.mem_ofPred_eq]
  constructor
  · rintro ⟨_, h⟩
    rw [← h, natCast_val_lt _ hlt]
  · intro h
    have e : ((bytesVal b % A : ℕ) : Fp) = y := by rw [h, ZMod.natCast_zmod_val]
    exact ⟨by rw [e]; exact hq, e⟩

/-- A generator output from which a point is made. -/
def Found (b : Bytes32) : Prop := PointY ((Field.random b).val : Fp)

/-- C99: for more than half of the `2^256` generator outputs the first draw gives a point, but for less than a
`1/2 + 2^-126` share. -/
theorem C99_found_count : 2 ^ 255 < {b : Bytes32 | Found b}.ncard ∧ {b : Bytes32 | Found b}.ncard < 2 ^ 255 + 2 ^ 130 := by
  have e : {b : Bytes32 | Found b} = {b : Bytes32 | PointY ((bytesVal b % 2 ^ 251 : ℕ) : Fp)} := by
    ext b
    show PointY _ ↔ PointY _
    rw [random_field_val]
  rw [e, ncard_low_set (2 ^ 251) 32 (by norm_num) (by decide) PointY]
  obtain ⟨h1, h2⟩ := C99_low_y_count
  generalize {y : Fp | PointY y ∧ y.val < 2 ^ 251}.ncard = V at *
  constructor <;> omega

theorem not_found_count : {b : Bytes32 | ¬Found b}.ncard < 2 ^ 255 := by
  have h := Set.ncard_add_ncard_compl {b : Bytes32 | Found b}
  rw [card_bytes] at h
  have := C99_found_count.1
  have e : {b : Bytes32 | Found b}ᶜ = {b : Bytes32 | ¬Found b} := rfl
  rw [e] at h
  omega

/-- C99: the share of sequences of `n` generator outputs that do not make the random point function return is at most
`2^-n`: fewer than `(2^255)^n` of the `(2^256)^n`. -/
theorem C99_termination (n : ℕ) :
    {s : Fin n → Bytes32 | ¬∀ (c : Cfg) (rng : ℕ → Bytes32), c.Enough → n ≤ c.fuel → (∀ i : Fin n, rng i = s i) →
      ∃ P, Ed.newRandom c rng = .ok P}.ncard ≤ (2 ^ 255) ^ n ∧ Nat.card (Fin n → Bytes32) = (2 ^ 256) ^ n := by
  classical
  let : Fintype Bytes32 := Fintype.ofFinite _
  constructor
  · let F : Finset Bytes32 := Finset.univ.filter fun b => ¬Found b
    have hF : F.card ≤ 2 ^ 255 := by
      have : {b : Bytes32 | ¬Found b}.ncard = F.card := by
        rw [← Set.ncard_coe_finset]; congr 1; ext b; simp [F]
      rw [← this]
      exact le_of_lt not_found_count
    have hsub : {s : Fin n → Bytes32 | ¬∀ (c : Cfg) (rng : ℕ → Bytes32), c.Enough → n ≤ c.fuel →
        (∀ i : Fin n, rng i = s i) → ∃ P, Ed.newRandom c rng = .ok P} ⊆
        ((Fintype.piFinset fun _ : Fin n => F : Finset (Fin n → Bytes32)) : Set (Fin n → Bytes32)) := by
      intro s hs
      rw [Finset.mem_coe, Fintype.mem_piFinset]
      intro i
      refine Finset.mem_filter.2 ⟨Finset.mem_univ _, fun hf => hs fun c rng hc hn hr => ?_⟩
      refine (C72_random_point c hc rng).2.2 i (by have := i.isLt; omega) ?_
      rw [hr i]
      exact hf
    refine le_trans (Set.ncard_le_ncard hsub (Finset.finite_toSet _)) ?_
    rw [Set.ncard_coe_finset, Fintype.card_piFinset_const]
    exact Nat.pow_le_pow_left hF n
  · rw [Nat.card_fun, card_bytes, Nat.card_eq_fintype_card, Fintype.card_fin]

section Measure
open MeasureTheory

/-- Every set of byte strings is an event. -/
instance : MeasurableSpace Bytes32 := ⊤

noncomputable instance : Fintype Bytes32 := Fintype.ofFinite _

instance : Nonempty Bytes32 := ⟨Vector.replicate 32 0⟩

/-- Independent uniformly distributed generator outputs. -/
noncomputable def idealRng : Measure (ℕ → Bytes32) :=
  Measure.infinitePi fun _ : ℕ => (PMF.uniformOfFintype Bytes32).toMeasure

/-- The random point function returns, once enough loop iterations are granted. -/
def Returns (rng : ℕ → Bytes32) : Prop :=
  ∃ N, ∀ c : Cfg, c.Enough → N ≤ c.fuel → ∃ P, Ed.newRandom c rng = .ok P

theorem not_found_measure : (PMF.uniformOfFintype Bytes32).toMeasure {b | ¬Found b} ≤ 2⁻¹ := by
  classical
  rw [PMF.toMeasure_uniformOfFintype_apply _ MeasurableSpace.measurableSet_top]
  have h1 : Fintype.card ↑{b : Bytes32 | ¬Found b} ≤ 2 ^ 255 := by
    rw [← Nat.card_eq_fintype_card]
    exact le_of_lt not_found_count
  have h2 : Fintype.card Bytes32 = 2 ^ 255 * 2 := by
    rw [← Nat.card_eq_fintype_card, card_bytes]
    norm_num
  rw [h2]
  refine ENNReal.div_le_of_le_mul ?_
  have h3 : (2 : ENNReal)⁻¹ * ((2 ^ 255 * 2 : ℕ) : ENNReal) = ((2 ^ 255 : ℕ) : ENNReal) := by
    rw [Nat.cast_mul, mul_comm, mul_assoc, Nat.cast_ofNat, ENNReal.mul_inv_cancel two_ne_zero (by norm_num), mul_one]
  rw [h3]
  exact_mod_cast h1

/-- C99: with independent uniform generator outputs the random point function returns with probability one. -/
theorem C99_returns_almost_surely : idealRng {rng | ¬Returns rng} = 0 := by
  have h : ∀ n : ℕ, idealRng {rng | ¬Returns rng} ≤ 2⁻¹ ^ n := by
    intro n
    have hsub : {rng | ¬Returns rng} ⊆ Set.pi (Finset.range n : Set ℕ) fun _ => {b : Bytes32 | ¬Found b} := by
      intro rng hr i hi hf
      refine hr ⟨i + 1, fun c hc hn => (C72_random_point c hc rng).2.2 i (by omega) hf⟩
    refine le_trans (measure_mono hsub) ?_
    unfold idealRng
    rw [Measure.infinitePi_pi (fun _ : ℕ => (PMF.uniformOfFintype Bytes32).toMeasure)
      (fun _ _ => MeasurableSpace.measurableSet_top), Finset.prod_const, Finset.card_range]
    exact pow_le_pow_left₀ zero_le not_found_measure n
  exact le_antisymm (ge_of_tendsto' (ENNReal.tendsto_pow_atTop_nhds_zero_of_lt_one (by norm_num)) h) zero_le

end Measure

/-- Some generator makes the random point function return the point `A`. -/
def Drawn (A : E) : Prop := ∃ c rng P, c.Enough ∧ Ed.newRandom c rng = .ok P ∧ P.Rep A

theorem newRandom_first (c : Cfg) (hc : c.Enough) (rng : ℕ → Bytes32)
    (hs : IsSquare (xxOf ((Field.random (rng 0)).val : Fp))) :
    ∃ P, Ed.newRandom c rng = .ok P ∧ P.Rep (yPt ((Field.random (rng 0)).val : Fp) false hs) := by
  obtain ⟨f, hf⟩ : ∃ f, c.fuel = f + 1 := ⟨c.fuel - 1, by unfold Cfg.Enough at hc; omega⟩
  have e : Field.random (rng 0) = enc ((Field.random (rng 0)).val : Fp) := (Field.random_spec _).1.eq_enc rfl
  obtain ⟨P, eP, hP, _⟩ := Proj.newFromY_some c hc _ false hs
  rw [← e] at eP
  obtain ⟨Q, eQ, hQ⟩ := Ed.ofProj_rep c hP
  refine ⟨Q, ?_, hQ⟩
  unfold Ed.newRandom Proj.newRandom
  rw [hf]
  simp only [Proj.newRandomLoop, eP, Res.ok_bind, Res.pure_eq]
  exact eQ

theorem yPt_congr {y y' : Fp} (h : y = y') (b : Bool) (hs : IsSquare (xxOf y)) (hs' : IsSquare (xxOf y')) :
    yPt y b hs = yPt y' b hs' := by
  subst h
  rfl

theorem drawn_form (A : E) (h : Drawn A) : A.y.val < 2 ^ 251 ∧ ∃ hs, A = yPt A.y false hs := by
  obtain ⟨c, rng, P, hc, e, hP⟩ := h
  rcases newRandomLoop_cases c hc rng c.fuel 0 with ⟨R, j, hs, _, _, eR, hR⟩ | ⟨eR, _⟩
  · obtain ⟨Q, eQ, hQ⟩ := Ed.ofProj_rep c hR
    have eN : Ed.newRandom c rng = .ok Q := by
      unfold Ed.newRandom Proj.newRandom
      rw [eR, Res.ok_bind]; exact eQ
    rw [eN, Res.ok_inj] at e
    rw [e] at hQ
    have hA := hP.unique hQ
    have hy : A.y = ((Field.random (rng j)).val : Fp) := by rw [hA, yPt_y]
    obtain ⟨h1, h2⟩ := Field.random_spec (rng j)
    refine ⟨by rw [hy, natCast_val_lt _ h1.2]; exact h2, ?_⟩
    have hs' : IsSquare (xxOf A.y) := by rw [hy]; exact hs
    exact ⟨hs', hA.trans (yPt_congr hy.symm _ _ _)⟩
  · unfold Ed.newRandom Proj.newRandom at e
    rw [eR, Res.diverge_bind] at e
    simp at e

/-- C99: every point that can be drawn is drawn at once for exactly `2^5` of the `2^256` first generator outputs, every
other one for none, and there are as many such points as `y` coordinates below `2^251`: given that the first draw
succeeds, all these points are equally likely. -/
theorem C99_uniform (A : E) :
    {b : Bytes32 | ∀ (c : Cfg) (rng : ℕ → Bytes32), c.Enough → rng 0 = b →
      ∃ P, Ed.newRandom c rng = .ok P ∧ P.Rep A}.ncard = (open Classical in if Drawn A then 32 else 0) ∧
    {A : E | Drawn A}.ncard = {y : Fp | PointY y ∧ y.val < 2 ^ 251}.ncard := by
  classical
  have key : ∀ (A : E) (b : Bytes32), Drawn A → ((∀ (c : Cfg) (rng : ℕ → Bytes32), c.Enough → rng 0 = b →
      ∃ P, Ed.newRandom c rng = .ok P ∧ P.Rep A) ↔ bytesVal b % 2 ^ 251 = A.y.val) := by
    intro A b hA
    obtain ⟨hv, hs, hf⟩ := drawn_form A hA
    constructor
    · intro h
      by_cases hb : Found b
      · have hb' := (exists_y_iff _).1 hb
        obtain ⟨P, eP, hP⟩ := newRandom_first dbg (by decide) (fun _ => b) hb'
        obtain ⟨Q, eQ, hQ⟩ := h dbg (fun _ => b) (by decide) rfl
        rw [eP, Res.ok_inj] at eQ
        rw [← eQ] at hQ
        have := hQ.unique hP
        rw [this, yPt_y, ← random_field_val, natCast_val_lt _ (Field.random_spec b).1.2]
      · obtain ⟨Q, eQ, hQ⟩ := h dbg (fun _ => b) (by decide) rfl
        rcases newRandomLoop_cases dbg (by decide) (fun _ => b) dbg.fuel 0 with ⟨R, j, hs, _⟩ | ⟨eR, _⟩
        · exact absurd ((exists_y_iff _).2 hs) hb
        · unfold Ed.newRandom Proj.newRandom at eQ
          rw [eR, Res.diverge_bind] at eQ
          simp at eQ
    · intro h c rng hc hr
      have hy : ((Field.random (rng 0)).val : Fp) = A.y := by
        rw [hr, random_field_val, h, ZMod.natCast_zmod_val]
      have hs' : IsSquare (xxOf ((Field.random (rng 0)).val : Fp)) := by rw [hy]; exact hs
      obtain ⟨P, eP, hP⟩ := newRandom_first c hc rng hs'
      refine ⟨P, eP, ?_⟩
      have : yPt ((Field.random (rng 0)).val : Fp) false hs' = A := by
        exact Eq.trans (yPt_congr hy _ _ _) hf.symm
      rwa [this] at hP
  constructor
  · by_cases hA : Drawn A
    · rw [if_pos hA, ← ncard_low_bits (2 ^ 251) 32 A.y.val (by norm_num) (drawn_form A hA).1]
      congr 1
      ext b
      exact key A b hA
    · rw [if_neg hA]
      rw [Set.ncard_eq_zero (Set.toFinite _), Set.eq_empty_iff_forall_notMem]
      intro b hb
      obtain ⟨P, eP, hP⟩ := hb dbg (fun _ => b) (by decide) rfl
      exact hA ⟨dbg, fun _ => b, P, by decide, eP, hP⟩
  · have hi : Set.InjOn (fun A : E => A.y) {A : E | Drawn A} := by
      intro A hA B hB hy
      obtain ⟨_, hs, hf⟩ := drawn_form A hA
      obtain ⟨_, hs', hf'⟩ := drawn_form B hB
      have hy : A.y = B.y := hy
      exact hf.trans ((yPt_congr hy _ _ _).trans hf'.symm)
    rw [← Set.InjOn.ncard_image hi]
    congr 1
    ext y
    constructor
    · rintro ⟨A, hA, rfl⟩
      exact ⟨⟨A, rfl⟩, (drawn_form A hA).1⟩
    · rintro ⟨hy, hv⟩
      have hs := (exists_y_iff _).1 hy
      have hr : (Field.random (bytesEquiv.symm ⟨y.val, lt_trans hv (by norm_num)⟩)).val = y.val := by
        rw [random_field_val]
        have : bytesVal (bytesEquiv.symm ⟨y.val, lt_trans hv (by norm_num)⟩) = y.val :=
          congrArg Fin.val (bytesEquiv.apply_symm_apply _)
        rw [this, Nat.mod_eq_of_lt hv]
      have hs' : IsSquare (xxOf ((Field.random ((fun _ : ℕ => bytesEquiv.symm ⟨y.val, lt_trans hv (by norm_num)⟩) 0)).val : Fp)) := by
        show IsSquare (xxOf ((Field.random (bytesEquiv.symm ⟨y.val, lt_trans hv (by norm_num)⟩)).val : Fp))
        rw [hr, ZMod.natCast_zmod_val]; exact hs
      obtain ⟨P, eP, hP⟩ := newRandom_first dbg (by decide) (fun _ => bytesEquiv.symm ⟨y.val, lt_trans hv (by norm_num)⟩) hs'
      refine ⟨_, ⟨dbg, _, P, by decide, eP, hP⟩, ?_⟩
      show (yPt _ false hs').y = y
      rw [yPt_y]
      show ((Field.random (bytesEquiv.symm ⟨y.val, lt_trans hv (by norm_num)⟩)).val : Fp) = y
      rw [hr, ZMod.natCast_zmod_val]

/-- C99: fewer than `2^126` of the `8L` points have an encoding that does not decode to them. -/
theorem C99_undecodable_count : {A : E | 2 ^ 252 ≤ A.y.val}.ncard < 2 ^ 126 ∧ {A : E | 2 ^ 252 ≤ A.y.val}.Nonempty := by
  constructor
  · have h1 := Set.ncard_image_of_injective {A : E | 2 ^ 252 ≤ A.y.val} ptCode_inj
    have h2 : ptCode '' {A : E | 2 ^ 252 ≤ A.y.val} ⊆ {y : Fp | 2 ^ 252 ≤ y.val ∧ y.val < p} ×ˢ (Set.univ : Set Bool) := by
      rintro _ ⟨A, hA, rfl⟩
      exact ⟨⟨hA, ZMod.val_lt _⟩, Set.mem_univ _⟩
    have h3 := Set.ncard_le_ncard h2 (Set.toFinite _)
    rw [h1, Set.ncard_prod, Set.ncard_univ, Nat.card_eq_fintype_card (α := Bool), Fintype.card_bool] at h3
    have h4 := ncard_val_le (2 ^ 252) p
    have hp : p = 2 ^ 252 + 27742317777372353535851937790883648493 := by decide
    generalize {y : Fp | 2 ^ 252 ≤ y.val ∧ y.val < p}.ncard = V at *
    rw [hp] at h4
    omega
  · obtain ⟨⟨A, _, _, _, h⟩, _⟩ := C53_witnesses
    exact ⟨A, h⟩

/-- C99: more than half of all byte strings, but less than a `1/2 + 2^-126` share, decode as Edwards points. -/
theorem C99_decodable_count (c : Cfg) (hc : c.Enough) :
    2 ^ 255 < {b : Bytes32 | ∃ P, Ed.decompress c b = .ok (some P)}.ncard ∧
    {b : Bytes32 | ∃ P, Ed.decompress c b = .ok (some P)}.ncard < 2 ^ 255 + 2 ^ 130 := by
  have e : {b : Bytes32 | ∃ P, Ed.decompress c b = .ok (some P)} =
      {b : Bytes32 | PointY ((bytesVal b % 2 ^ 252 : ℕ) : Fp)} := by
    ext b
    obtain ⟨o, e, h1, h2⟩ := C55_decompress c hc b
    show (∃ P, Ed.decompress c b = .ok (some P)) ↔ PointY _
    rw [e]
    constructor
    · rintro ⟨P, h⟩
      rw [Res.ok_inj] at h
      obtain ⟨A, _, hA⟩ := h1 P h
      exact ⟨A, hA⟩
    · intro h
      rcases o with _ | P
      · exact absurd h (h2.1 rfl)
      · exact ⟨P, rfl⟩
  rw [e, ncard_low_set (2 ^ 252) 16 (by norm_num) (by decide) PointY]
  have h1 : {y : Fp | PointY y ∧ y.val < 2 ^ 252}.ncard ≤ {y : Fp | PointY y}.ncard :=
    Set.ncard_le_ncard (fun y hy => hy.1) (finite_Fp _)
  have h2 : {y : Fp | PointY y} ⊆ {y : Fp | PointY y ∧ y.val < 2 ^ 252} ∪ {y : Fp | 2 ^ 252 ≤ y.val ∧ y.val < p} := by
    intro y hy
    by_cases h : y.val < 2 ^ 252
    · exact Or.inl ⟨hy, h⟩
    · exact Or.inr ⟨by omega, ZMod.val_lt y⟩
  have h3 := le_trans (Set.ncard_le_ncard h2 (finite_Fp _)) (Set.ncard_union_le _ _)
  have h4 := ncard_val_le (2 ^ 252) p
  rw [C99_y_count] at h1 h3
  have hp : p = 2 ^ 252 + 27742317777372353535851937790883648493 := by decide
  have hl : ell = 2 ^ 249 + 14490550575682688738086195780655237219 := by decide
  generalize {y : Fp | 2 ^ 252 ≤ y.val ∧ y.val < p}.ncard = D at *
  generalize {y : Fp | PointY y ∧ y.val < 2 ^ 252}.ncard = V at *
  rw [hp] at h4
  rw [hl] at h1 h3
  constructor <;> omega

/-- Points that are drawn and points that are not. -/
example : (∃ A : E, Drawn A) ∧ ∃ A : E, ¬Drawn A := by
  constructor
  · have h : ∃ b : Bytes32, Found b := (Set.ncard_pos (Set.toFinite _)).1 (lt_trans (by norm_num) C99_found_count.1)
    obtain ⟨b, hb⟩ := h
    obtain ⟨P, eP, hP⟩ := newRandom_first dbg (by decide) (fun _ => b) ((exists_y_iff _).1 hb)
    exact ⟨_, dbg, _, P, by decide, eP, hP⟩
  · obtain ⟨⟨A, _, _, _, h⟩, _⟩ := C53_witnesses
    exact ⟨A, fun hA => absurd (drawn_form A hA).1 (by
      have : (2 : ℕ) ^ 251 < 2 ^ 252 := by norm_num
      omega)⟩

end Props
end Zerocaf
