import Verif.Props.Random
import Mathlib.Topology.Algebra.InfiniteSum.ENNReal
import Mathlib.Analysis.SpecificLimits.Basic

/-!
# C99: the distribution of random points

`C99_uniform` is about the first generator output. Here the generator runs on until a point is found.
-/

set_option exponentiation.threshold 600

namespace Zerocaf
namespace Props
open MeasureTheory

/-- The random point function returns the point `A`, once enough loop iterations are granted. -/
def ReturnsPoint (rng : ℕ → Bytes32) (A : E) : Prop :=
  ∃ N, ∀ c : Cfg, c.Enough → N ≤ c.fuel → ∃ P, Ed.newRandom c rng = .ok P ∧ P.Rep A

theorem newRandomLoop_at (c : Cfg) (hc : c.Enough) (rng : ℕ → Bytes32) : ∀ (n i fuel : ℕ), n < fuel →
    (∀ k < n, ¬ IsSquare (xxOf ((Field.random (rng (i + k))).val : Fp))) →
    ∀ hs : IsSquare (xxOf ((Field.random (rng (i + n))).val : Fp)),
    ∃ P, Proj.newRandomLoop c rng fuel i = .ok P ∧ P.Rep (yPt ((Field.random (rng (i + n))).val : Fp) false hs) := by
  intro n
  induction n with
  | zero =>
    intro i fuel hf _ hs
    obtain ⟨f, rfl⟩ : ∃ f, fuel = f + 1 := ⟨fuel - 1, by omega⟩
    have e : Field.random (rng i) = enc ((Field.random (rng i)).val : Fp) := (Field.random_spec _).1.eq_enc rfl
    obtain ⟨P, eP, hP, _⟩ := Proj.newFromY_some c hc _ false hs
    refine ⟨P, ?_, hP⟩
    rw [Nat.add_zero, ← e] at eP
    simp only [Proj.newRandomLoop, eP, Res.ok_bind, Res.pure_eq]
  | succ n ih =>
    intro i fuel hf hn hs
    obtain ⟨f, rfl⟩ : ∃ f, fuel = f + 1 := ⟨fuel - 1, by omega⟩
    have e : Field.random (rng i) = enc ((Field.random (rng i)).val : Fp) := (Field.random_spec _).1.eq_enc rfl
    have eP := Proj.newFromY_none c hc _ false (hn 0 (by omega))
    rw [Nat.add_zero, ← e] at eP
    have hi : ∀ k, i + (k + 1) = i + 1 + k := fun k => by omega
    have hs' : IsSquare (xxOf ((Field.random (rng (i + 1 + n))).val : Fp)) := by rw [← hi]; exact hs
    obtain ⟨P, eR, hR⟩ := ih (i + 1) f (by omega) (fun k hk => by rw [← hi]; exact hn (k + 1) (by omega)) hs'
    refine ⟨P, ?_, ?_⟩
    · simp only [Proj.newRandomLoop, eP, Res.ok_bind]
      exact eR
    · rwa [yPt_congr (by rw [hi]) false hs hs']

/-- With `n` unusable generator outputs before a usable one, the usable one makes the point. -/
theorem newRandom_at (c : Cfg) (hc : c.Enough) (rng : ℕ → Bytes32) (n : ℕ) (hf : n < c.fuel)
    (hn : ∀ k < n, ¬Found (rng k)) (hs : IsSquare (xxOf ((Field.random (rng n)).val : Fp))) :
    ∃ P, Ed.newRandom c rng = .ok P ∧ P.Rep (yPt ((Field.random (rng n)).val : Fp) false hs) := by
  have hz : ∀ k, 0 + k = k := fun k => by omega
  obtain ⟨P, eP, hP⟩ := newRandomLoop_at c hc rng n 0 c.fuel hf
    (fun k hk h => hn k hk ((exists_y_iff _).2 (by rwa [hz] at h))) (by rw [hz]; exact hs)
  obtain ⟨Q, eQ, hQ⟩ := Ed.ofProj_rep c hP
  refine ⟨Q, ?_, ?_⟩
  · unfold Ed.newRandom Proj.newRandom
    rw [eP, Res.ok_bind]; exact eQ
  · rwa [yPt_congr (y' := ((Field.random (rng (0 + n))).val : Fp)) (by rw [hz]) false hs (by rw [hz]; exact hs)]

/-- The generator outputs that make the point `A`. -/
def Makes (A : E) (b : Bytes32) : Prop := bytesVal b % 2 ^ 251 = A.y.val

theorem makes_found {A : E} {b : Bytes32} (h : Makes A b) : Found b := by
  refine ⟨A, ?_⟩
  rw [random_field_val, show bytesVal b % 2 ^ 251 = A.y.val from h, ZMod.natCast_zmod_val]

theorem makes_card {A : E} (hA : Drawn A) : {b : Bytes32 | Makes A b}.ncard = 32 :=
  ncard_low_bits (2 ^ 251) 32 A.y.val (by norm_num) (drawn_form A hA).1

theorem found_card : {b : Bytes32 | Found b}.ncard = 32 * {A : E | Drawn A}.ncard := by
  have e : {b : Bytes32 | Found b} = {b : Bytes32 | PointY ((bytesVal b % 2 ^ 251 : ℕ) : Fp)} := by
    ext b
    show PointY _ ↔ PointY _
    rw [random_field_val]
  rw [e, ncard_low_set (2 ^ 251) 32 (by norm_num) (by decide) PointY, (C99_uniform 0).2, mul_comm]

theorem returns_iff {A : E} (hA : Drawn A) (rng : ℕ → Bytes32) :
    ReturnsPoint rng A ↔ ∃ n, (∀ k < n, ¬Found (rng k)) ∧ Makes A (rng n) := by
  classical
  constructor
  · rintro ⟨N, hN⟩
    have hc : (⟨true, dbg.fuel + N⟩ : Cfg).Enough := by
      have : dbg.Enough := by decide
      unfold Cfg.Enough at *
      show _ ≤ dbg.fuel + N
      omega
    obtain ⟨P, eP, hP⟩ := hN _ hc (Nat.le_add_left _ _)
    have hex : ∃ j, j < (⟨true, dbg.fuel + N⟩ : Cfg).fuel ∧ Found (rng j) := by
      rcases newRandomLoop_cases _ hc rng (⟨true, dbg.fuel + N⟩ : Cfg).fuel 0 with ⟨R, j, hs, _, hj, _⟩ | ⟨eR, _⟩
      · exact ⟨j, by omega, (exists_y_iff _).2 hs⟩
      · unfold Ed.newRandom Proj.newRandom at eP
        rw [eR, Res.diverge_bind] at eP
        simp at eP
    have hex' : ∃ j, Found (rng j) := hex.imp fun _ h => h.2
    refine ⟨Nat.find hex', fun k hk => Nat.find_min hex' hk, ?_⟩
    have hf : Nat.find hex' < (⟨true, dbg.fuel + N⟩ : Cfg).fuel := by
      obtain ⟨j, h1, h2⟩ := hex
      exact lt_of_le_of_lt (Nat.find_min' hex' h2) h1
    have hs := (exists_y_iff _).1 (Nat.find_spec hex')
    obtain ⟨Q, eQ, hQ⟩ := newRandom_at _ hc rng _ hf (fun k hk => Nat.find_min hex' hk) hs
    rw [eP, Res.ok_inj] at eQ
    rw [← eQ] at hQ
    show _ = _
    rw [hP.unique hQ, yPt_y, ← random_field_val, natCast_val_lt _ (Field.random_spec _).1.2]
  · rintro ⟨n, hn, hm⟩
    obtain ⟨hv, hs, hf⟩ := drawn_form A hA
    have hy : ((Field.random (rng n)).val : Fp) = A.y := by
      rw [random_field_val, show bytesVal (rng n) % 2 ^ 251 = A.y.val from hm, ZMod.natCast_zmod_val]
    have hs' : IsSquare (xxOf ((Field.random (rng n)).val : Fp)) := by rw [hy]; exact hs
    refine ⟨n + 1, fun c hc hN => ?_⟩
    obtain ⟨P, eP, hP⟩ := newRandom_at c hc rng n (by omega) hn hs'
    refine ⟨P, eP, ?_⟩
    have : yPt ((Field.random (rng n)).val : Fp) false hs' = A := Eq.trans (yPt_congr hy _ _ _) hf.symm
    rwa [this] at hP

noncomputable abbrev draw : Measure Bytes32 := (PMF.uniformOfFintype Bytes32).toMeasure

theorem draw_apply (S : Set Bytes32) : draw S = (S.ncard : ENNReal) / ((2 ^ 256 : ℕ) : ENNReal) := by
  classical
  rw [draw, PMF.toMeasure_uniformOfFintype_apply _ MeasurableSpace.measurableSet_top, ← Nat.card_eq_fintype_card,
    ← Nat.card_eq_fintype_card, card_bytes]
  rfl

/-- The sequences whose first `n` entries make no point and whose next one makes `A`. -/
def At (A : E) (n : ℕ) : Set (ℕ → Bytes32) :=
  Set.pi (Finset.range (n + 1) : Set ℕ) fun i => if i < n then {b | ¬Found b} else {b | Makes A b}

theorem mem_at (A : E) (n : ℕ) (rng : ℕ → Bytes32) :
    rng ∈ At A n ↔ (∀ k < n, ¬Found (rng k)) ∧ Makes A (rng n) := by
  unfold At
  constructor
  · intro h
    constructor
    · intro k hk
      have := h k (Finset.mem_coe.2 (Finset.mem_range.2 (by omega)))
      dsimp only at this
      rwa [if_pos hk] at this
    · have := h n (Finset.mem_coe.2 (Finset.mem_range.2 (by omega)))
      dsimp only at this
      rwa [if_neg (by omega)] at this
  · rintro ⟨h1, h2⟩ i hi
    have hi' := Finset.mem_range.1 (Finset.mem_coe.1 hi)
    dsimp only
    by_cases h : i < n
    · rw [if_pos h]; exact h1 i h
    · rw [if_neg h, show i = n by omega]; exact h2

theorem at_measure (A : E) (n : ℕ) : idealRng (At A n) = draw {b | ¬Found b} ^ n * draw {b | Makes A b} := by
  unfold At idealRng
  rw [Measure.infinitePi_pi (fun _ : ℕ => draw) (fun _ _ => MeasurableSpace.measurableSet_top),
    Finset.prod_range_succ, if_neg (by omega)]
  congr 1
  rw [Finset.prod_congr rfl (g := fun _ => draw {b | ¬Found b}) fun i hi => by
    rw [if_pos (Finset.mem_range.1 hi)], Finset.prod_const, Finset.card_range]

/-- C99: with independent uniform generator outputs every point that can be drawn comes out with the same probability,
however many outputs it takes. -/
theorem C99_distribution (A : E) : idealRng {rng | ReturnsPoint rng A} =
    (open Classical in if Drawn A then ({A : E | Drawn A}.ncard : ENNReal)⁻¹ else 0) := by
  classical
  split_ifs with hA
  · have hU : {rng | ReturnsPoint rng A} = ⋃ n, At A n := by
      ext rng
      rw [Set.mem_iUnion]
      exact (returns_iff hA rng).trans (exists_congr fun n => (mem_at A n rng).symm)
    have hd : Pairwise (Function.onFun Disjoint (At A)) := by
      intro m n hmn
      refine Set.disjoint_left.2 fun rng hm hn => ?_
      obtain ⟨m1, m2⟩ := (mem_at A m rng).1 hm
      obtain ⟨n1, n2⟩ := (mem_at A n rng).1 hn
      rcases lt_or_gt_of_ne hmn with h | h
      · exact n1 m h (makes_found m2)
      · exact m1 n h (makes_found n2)
    have hmeas : ∀ n, MeasurableSet (At A n) := fun n =>
      MeasurableSet.pi (Finset.countable_toSet _) fun _ _ => MeasurableSpace.measurableSet_top
    rw [hU, measure_iUnion hd hmeas]
    simp only [at_measure]
    rw [ENNReal.tsum_mul_right, ENNReal.tsum_geometric]
    have h1 : (1 : ENNReal) - draw {b | ¬Found b} = draw {b | Found b} := by
      have := prob_compl_eq_one_sub (μ := draw) (s := {b : Bytes32 | ¬Found b}) MeasurableSpace.measurableSet_top
      rw [← this]
      congr 1
      ext b
      simp
    rw [h1, draw_apply, draw_apply, makes_card hA, found_card, Nat.cast_mul]
    have hp : 0 < {A : E | Drawn A}.ncard := by
      have := C99_found_count.1
      rw [found_card] at this
      omega
    generalize {A : E | Drawn A}.ncard = D at *
    have hD : (D : ENNReal) ≠ 0 := by exact_mod_cast hp.ne'
    have hD' : (D : ENNReal) ≠ ⊤ := ENNReal.natCast_ne_top D
    rw [ENNReal.inv_div (Or.inl (by simp)) (Or.inl (by simp)), div_eq_mul_inv, div_eq_mul_inv,
      ENNReal.mul_inv (Or.inl (by norm_num)) (Or.inl (by simp))]
    generalize hK : ((2 ^ 256 : ℕ) : ENNReal) = K
    have hK0 : K ≠ 0 := by rw [← hK]; simp
    have hK1 : K ≠ ⊤ := by rw [← hK]; exact ENNReal.natCast_ne_top _
    have h32 : ((32 : ℕ) : ENNReal)⁻¹ * ((32 : ℕ) : ENNReal) = 1 :=
      ENNReal.inv_mul_cancel (by norm_num) (by simp)
    calc K * (((32 : ℕ) : ENNReal)⁻¹ * (D : ENNReal)⁻¹) * (((32 : ℕ) : ENNReal) * K⁻¹)
        = (K * K⁻¹) * (((32 : ℕ) : ENNReal)⁻¹ * ((32 : ℕ) : ENNReal)) * (D : ENNReal)⁻¹ := by ring
      _ = _ := by rw [ENNReal.mul_inv_cancel hK0 hK1, h32, one_mul, one_mul]
  · have : {rng | ReturnsPoint rng A} = ∅ := by
      rw [Set.eq_empty_iff_forall_notMem]
      rintro rng ⟨N, hN⟩
      have hc : (⟨true, dbg.fuel + N⟩ : Cfg).Enough := by
        have : dbg.Enough := by decide
        unfold Cfg.Enough at *
        show _ ≤ dbg.fuel + N
        omega
      obtain ⟨P, eP, hP⟩ := hN _ hc (Nat.le_add_left _ _)
      exact hA ⟨_, rng, P, hc, eP, hP⟩
    rw [this, measure_empty]

/-- C99: the probability that the first `n` generator outputs make no point is the `n`th power of the share of such
outputs, which is between `1/2 - 2^-126` and `1/2`. -/
theorem C99_waiting (n : ℕ) : idealRng {rng | ∀ k < n, ¬Found (rng k)} = draw {b | ¬Found b} ^ n ∧
    draw {b | ¬Found b} = (({b : Bytes32 | ¬Found b}.ncard : ℕ) : ENNReal) / ((2 ^ 256 : ℕ) : ENNReal) ∧
    2 ^ 255 - 2 ^ 130 < {b : Bytes32 | ¬Found b}.ncard ∧ {b : Bytes32 | ¬Found b}.ncard < 2 ^ 255 := by
  refine ⟨?_, draw_apply _, ?_, not_found_count⟩
  · have e : {rng : ℕ → Bytes32 | ∀ k < n, ¬Found (rng k)} = Set.pi (Finset.range n : Set ℕ) fun _ => {b | ¬Found b} := by
      ext rng
      exact ⟨fun h i hi => h i (Finset.mem_range.1 (Finset.mem_coe.1 hi)),
        fun h i hi => h i (Finset.mem_coe.2 (Finset.mem_range.2 hi))⟩
    rw [e, idealRng, Measure.infinitePi_pi (fun _ : ℕ => draw) (fun _ _ => MeasurableSpace.measurableSet_top),
      Finset.prod_const, Finset.card_range]
  · have h := Set.ncard_add_ncard_compl {b : Bytes32 | Found b}
    rw [card_bytes] at h
    have := C99_found_count.2
    have e : {b : Bytes32 | Found b}ᶜ = {b : Bytes32 | ¬Found b} := rfl
    rw [e] at h
    omega

example : ∃ A : E, Drawn A ∧ idealRng {rng | ReturnsPoint rng A} ≠ 0 := by
  obtain ⟨A, hA⟩ : ∃ A : E, Drawn A := by
    by_contra h
    have h0 : {A : E | Drawn A} = ∅ := Set.eq_empty_iff_forall_notMem.2 fun A hA => h ⟨A, hA⟩
    have h1 := C99_found_count.1
    rw [found_card, h0, Set.ncard_empty] at h1
    omega
  refine ⟨A, hA, ?_⟩
  rw [C99_distribution, if_pos hA]
  exact ENNReal.inv_ne_zero.2 (ENNReal.natCast_ne_top _)

end Props
end Zerocaf
