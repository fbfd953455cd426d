import Verif.Model.Count
import Verif.Props.Cost

/-!
# Property C106: the field operations that the point functions perform

The documentation states costs: `M` multiplications, `S` squarings, `D` multiplications by a constant, `a` additions,
`I` inversions.
-/

set_option exponentiation.threshold 600

namespace Zerocaf
namespace Props

open Zerocaf.Count

/-- The counted computation `x` does what `r` does, and if that returns, `x` has performed the operations `n`. -/
def Costs {α : Type} (x : CM α) (n : Ops) (r : Res α) : Prop := x.val = r ∧ ((∃ a, r = .ok a) → x.n = n)

theorem Ops.ext' {x y : Ops} (h1 : x.m = y.m) (h2 : x.d = y.d) (h3 : x.s = y.s) (h4 : x.a = y.a) (h5 : x.i = y.i) :
    x = y := by
  cases x; cases y; simp_all

theorem ops_add (a b c d e a' b' c' d' e' : ℕ) :
    (⟨a, b, c, d, e⟩ : Ops) + ⟨a', b', c', d', e'⟩ = ⟨a + a', b + b', c + c', d + d', e + e'⟩ := rfl

theorem zero_ops : (0 : Ops) = ⟨0, 0, 0, 0, 0⟩ := rfl

theorem Costs.bind {α β : Type} {x : CM α} {f : α → CM β} {n n' : Ops} {r : Res α} {g : α → Res β}
    (h : Costs x n r) (hf : ∀ a, Costs (f a) n' (g a)) : Costs (x >>= f) (n + n') (r >>= g) := by
  obtain ⟨h1, h2⟩ := h
  show Costs (CM.bind x f) _ _
  unfold CM.bind
  rw [h1]
  cases r with
  | ok a => exact ⟨by rw [Res.ok_bind]; exact (hf a).1, fun h => by
      show x.n + (f a).n = _
      rw [h2 ⟨a, rfl⟩, (hf a).2 (by rwa [Res.ok_bind] at h)]⟩
  | panic => exact ⟨rfl, fun ⟨_, h⟩ => by cases h⟩
  | diverge => exact ⟨rfl, fun ⟨_, h⟩ => by cases h⟩

theorem Costs.pure {α : Type} (a : α) : Costs (pure a : CM α) 0 (pure a) := ⟨rfl, fun _ => rfl⟩

theorem Costs.cast {α : Type} {x : CM α} {n n' : Ops} {r : Res α} (h : Costs x n r) (e : n = n') : Costs x n' r := e ▸ h

theorem Costs.mul (c : Cfg) (a b : FE) : Costs (Count.Field.mul c a b) ⟨1, 0, 0, 0, 0⟩ (Field.mul c a b) :=
  ⟨rfl, fun _ => rfl⟩
theorem Costs.cmul (c : Cfg) (a b : FE) : Costs (Count.Field.cmul c a b) ⟨0, 1, 0, 0, 0⟩ (Field.mul c a b) :=
  ⟨rfl, fun _ => rfl⟩
theorem Costs.square (c : Cfg) (a : FE) : Costs (Count.Field.square c a) ⟨0, 0, 1, 0, 0⟩ (Field.square c a) :=
  ⟨rfl, fun _ => rfl⟩
theorem Costs.add (c : Cfg) (a b : FE) : Costs (Count.Field.add c a b) ⟨0, 0, 0, 1, 0⟩ (Field.add c a b) :=
  ⟨rfl, fun _ => rfl⟩
theorem Costs.sub (c : Cfg) (a b : FE) : Costs (Count.Field.sub c a b) ⟨0, 0, 0, 1, 0⟩ (Field.sub c a b) :=
  ⟨rfl, fun _ => rfl⟩
theorem Costs.neg (c : Cfg) (a : FE) : Costs (Count.Field.neg c a) ⟨0, 0, 0, 1, 0⟩ (Field.neg c a) :=
  ⟨rfl, fun _ => rfl⟩
theorem Costs.inverse (c : Cfg) (a : FE) : Costs (Count.Field.inverse c a) ⟨0, 0, 0, 0, 1⟩ (Field.inverse c a) :=
  ⟨rfl, fun _ => rfl⟩

/-- Follows the text of a function. -/
macro "costs" : tactic => `(tactic| (apply Costs.cast
                                     · repeat (first
                                        | exact Costs.pure _
                                        | (apply Costs.bind (Costs.cmul _ _ _); intro _)
                                        | (apply Costs.bind (Costs.mul _ _ _); intro _)
                                        | (apply Costs.bind (Costs.square _ _); intro _)
                                        | (apply Costs.bind (Costs.add _ _ _); intro _)
                                        | (apply Costs.bind (Costs.sub _ _ _); intro _)
                                        | (apply Costs.bind (Costs.neg _ _); intro _)
                                        | (apply Costs.bind (Costs.inverse _ _); intro _))))

theorem proj_neg_costs (c : Cfg) (P : ProjPoint) : Costs (Count.Proj.neg c P) ⟨0, 0, 0, 1, 0⟩ (Proj.neg c P) := by
  unfold Count.Proj.neg Proj.neg
  costs
  rfl

theorem ed_neg_costs (c : Cfg) (P : EdPoint) : Costs (Count.Ed.neg c P) ⟨0, 0, 0, 2, 0⟩ (Ed.neg c P) := by
  unfold Count.Ed.neg Ed.neg
  costs
  rfl

/-! ### Multiples -/

/-- `k` times the operations `x`. -/
def Ops.times (k : ℕ) (x : Ops) : Ops := ⟨k * x.m, k * x.d, k * x.s, k * x.a, k * x.i⟩

theorem Ops.zero_add (x : Ops) : 0 + x = x :=
  Ops.ext' (Nat.zero_add _) (Nat.zero_add _) (Nat.zero_add _) (Nat.zero_add _) (Nat.zero_add _)

theorem free_bind {α β : Type} (a : α) (f : α → CM β) : (Count.free (.ok a) >>= f) = f a := by
  show CM.mk (0 + (f a).n) (f a).val = f a
  rw [Ops.zero_add]

/-- `k` additions, `l` subtractions and `j` doublings. -/
def Ops.total (A S D : Ops) (k l j : ℕ) : Ops := Ops.times k A + Ops.times l S + Ops.times j D

theorem Ops.total_zero (A S D : Ops) : Ops.total A S D 0 0 0 = 0 := by
  apply Ops.ext' <;> simp only [Ops.total, Ops.times, ops_add, Nat.zero_mul] <;> rfl

theorem Ops.total_add (A S D : Ops) (k l j : ℕ) : A + Ops.total A S D k l j = Ops.total A S D (k + 1) l j := by
  apply Ops.ext' <;> simp only [Ops.total, Ops.times, ops_add] <;>
    first
      | (show A.m + _ = _; ring)
      | (show A.d + _ = _; ring)
      | (show A.s + _ = _; ring)
      | (show A.a + _ = _; ring)
      | (show A.i + _ = _; ring)

theorem Ops.total_sub (A S D : Ops) (k l j : ℕ) : S + Ops.total A S D k l j = Ops.total A S D k (l + 1) j := by
  apply Ops.ext' <;> simp only [Ops.total, Ops.times, ops_add] <;>
    first
      | (show S.m + _ = _; ring)
      | (show S.d + _ = _; ring)
      | (show S.s + _ = _; ring)
      | (show S.a + _ = _; ring)
      | (show S.i + _ = _; ring)

theorem Ops.total_double (A S D : Ops) (k l j : ℕ) : D + Ops.total A S D k l j = Ops.total A S D k l (j + 1) := by
  apply Ops.ext' <;> simp only [Ops.total, Ops.times, ops_add] <;>
    first
      | (show D.m + _ = _; ring)
      | (show D.d + _ = _; ring)
      | (show D.s + _ = _; ring)
      | (show D.a + _ = _; ring)
      | (show D.i + _ = _; ring)

/-- The operations of a point type cost `A`, `S` and `D`. -/
structure CostSpec {T : Type} (O : Count.PointOps T) (Z : Zerocaf.PointOps T) (A S D : Ops) : Prop where
  identity : O.identity = Z.identity
  add : ∀ c a b, Costs (O.add c a b) A (Z.add c a b)
  sub : ∀ c a b, Costs (O.sub c a b) S (Z.sub c a b)
  double : ∀ c a, Costs (O.double c a) D (Z.double c a)

/-- The number of binary digits. -/
def bitLength (n : ℕ) : ℕ := (Nat.digits 2 n).length

theorem bitLength_step {n : ℕ} (h : n ≠ 0) : bitLength n = bitLength (n / 2) + 1 := by
  unfold bitLength
  rw [Nat.digits_def' (by omega) (Nat.pos_of_ne_zero h), List.length_cons]

section
variable {T : Type} {O : Count.PointOps T} {Z : Zerocaf.PointOps T} {A S D : Ops}

theorem daa_costs (hO : CostSpec O Z A S D) (c : Cfg) : ∀ (k fuel : ℕ) (N : T) (n : Sc) (Q : T), n.WF → n.val < 2 ^ k →
    k ≤ 256 → k < fuel →
    Costs (Count.doubleAndAddLoop O c fuel N n Q) (Ops.total A S D (ones n.val) 0 (bitLength n.val))
      (Zerocaf.doubleAndAddLoop Z c fuel N n Q) := by
  intro k
  induction k with
  | zero =>
    intro fuel N n Q wn hn _ hf
    obtain ⟨f, rfl⟩ : ∃ f, fuel = f + 1 := ⟨fuel - 1, by omega⟩
    have h0 : n.val = 0 := by simpa using hn
    rw [Count.doubleAndAddLoop, Zerocaf.doubleAndAddLoop, sctEq_zero n wn (by omega), h0]
    exact (Costs.pure Q).cast (Ops.total_zero A S D).symm
  | succ k ih =>
    intro fuel N n Q wn hn hk hf
    obtain ⟨f, rfl⟩ : ∃ f, fuel = f + 1 := ⟨fuel - 1, by omega⟩
    have hn' : n.val < 2 ^ 256 := lt_of_lt_of_le hn (Nat.pow_le_pow_right (by decide) hk)
    rw [Count.doubleAndAddLoop, Zerocaf.doubleAndAddLoop, sctEq_zero n wn hn', Scalar.isEven_spec]
    by_cases h0 : n.val = 0
    · rw [h0]
      exact (Costs.pure Q).cast (Ops.total_zero A S D).symm
    obtain ⟨wh, vh⟩ := halfWithoutMod_spec n wn
    have vh' : (Scalar.halfWithoutMod n).val = n.val / 2 := vh
    have hlt : (Scalar.halfWithoutMod n).val < 2 ^ k := by
      rw [vh']; rw [pow_succ] at hn; omega
    simp only [h0, decide_false, Bool.not_false, if_true]
    have rest : ∀ Q' : T, Costs (O.double c N >>= fun N' =>
        Count.doubleAndAddLoop O c f N' (Scalar.halfWithoutMod n) Q')
        (Ops.total A S D (ones (n.val / 2)) 0 (bitLength (n.val / 2) + 1))
        (Z.double c N >>= fun N' => Zerocaf.doubleAndAddLoop Z c f N' (Scalar.halfWithoutMod n) Q') := by
      intro Q'
      refine (Costs.bind (hO.double c N) fun N' => ?_).cast (Ops.total_double A S D _ _ _)
      have := ih f N' (Scalar.halfWithoutMod n) Q' wh hlt (by omega) (by omega)
      rwa [vh'] at this
    rw [bitLength_step h0, ones_step h0]
    by_cases he : n.val % 2 = 0
    · simp only [he, decide_true, Bool.not_true, Bool.false_eq_true, if_false, Nat.zero_add]
      exact (Costs.bind (Costs.pure Q) rest).cast (Ops.zero_add _)
    · have he1 : n.val % 2 = 1 := by omega
      simp only [he1, Nat.one_ne_zero, decide_false, Bool.not_false, if_true]
      rw [Nat.add_comm 1]
      exact (Costs.bind (hO.add c Q N) rest).cast (Ops.total_add A S D _ _ _)

theorem ltr_costs (hO : CostSpec O Z A S D) (c : Cfg) (P : T) (bits : Vector UInt8 256) (m : ℕ)
    (hb : ∀ j (hj : j < 256), bits[j].toNat = m / 2 ^ j % 2) :
    ∀ (n : ℕ) (hn : n ≤ 256) (Q : T), Costs (Count.ltrLoop O c P bits n hn Q) (Ops.total A S D (ones (m % 2 ^ n)) 0 n)
      (Zerocaf.ltrLoop Z c P bits n hn Q) := by
  intro n
  induction n with
  | zero =>
    intro hn Q
    rw [Count.ltrLoop, Zerocaf.ltrLoop, pow_zero, Nat.mod_one, ones_zero]
    exact (Costs.pure Q).cast (Ops.total_zero A S D).symm
  | succ i ih =>
    intro hn Q
    have hbit := hb i (by omega)
    have ho : ones (m % 2 ^ (i + 1)) = ones (m % 2 ^ i) + m / 2 ^ i % 2 := by
      rw [ones_mod, ones_mod, Finset.sum_range_succ]
    rw [Count.ltrLoop, Zerocaf.ltrLoop]
    refine (Costs.bind (hO.double c Q) (n' := Ops.total A S D (ones (m % 2 ^ (i + 1))) 0 i) fun Q1 => ?_).cast
      (Ops.total_double A S D _ _ _)
    rcases Nat.mod_two_eq_zero_or_one (m / 2 ^ i) with h | h
    · have hz : (bits[i] == 1) = false := by
        rw [beq_eq_false_iff_ne]; intro h'; rw [h', h] at hbit; exact absurd hbit (by decide)
      rw [hz, ho, h]
      exact (Costs.bind (Costs.pure Q1) fun Q2 => ih (by omega) Q2).cast (Ops.zero_add _)
    · have hz : (bits[i] == 1) = true := by
        rw [beq_iff_eq]; exact UInt8.toNat_inj.1 (by rw [hbit, h]; rfl)
      rw [hz, ho, h]
      exact (Costs.bind (hO.add c Q1 P) fun Q2 => ih (by omega) Q2).cast (Ops.total_add A S D _ _ _)

/-- The number of digits `x` below position `n`. -/
def digitCount (v : Vector Int 256) (x : Int) (n : ℕ) : ℕ :=
  ((Finset.range n).filter fun j => v.toList[j]? = some x).card

theorem digitCount_succ (v : Vector Int 256) (x : Int) (n : ℕ) (h : n < 256) :
    digitCount v x (n + 1) = digitCount v x n + if v[n] = x then 1 else 0 := by
  unfold digitCount
  have e : (v.toList[n]? = some x) ↔ v[n] = x := by
    rw [List.getElem?_eq_getElem (by simpa using h), Option.some_inj, Vector.getElem_toList]
  rw [Finset.range_add_one, Finset.filter_insert]
  by_cases hx : v[n] = x
  · rw [if_pos (e.2 hx), if_pos hx, Finset.card_insert_of_notMem (by simp)]
  · rw [if_neg (fun h => hx (e.1 h)), if_neg hx]; rfl

theorem naf_costs (hO : CostSpec O Z A S D) (c : Cfg) (P : T) (v : Vector Int 256) :
    ∀ (n : ℕ) (hn : n ≤ 256) (Q : T),
      Costs (Count.nafMulLoop O c P v n hn Q) (Ops.total A S D (digitCount v 1 n) (digitCount v (-1) n) n)
        (Zerocaf.nafMulLoop Z c P v n hn Q) := by
  intro n
  induction n with
  | zero =>
    intro hn Q
    rw [Count.nafMulLoop, Zerocaf.nafMulLoop]
    exact (Costs.pure Q).cast (Ops.total_zero A S D).symm
  | succ i ih =>
    intro hn Q
    rw [Count.nafMulLoop, Zerocaf.nafMulLoop]
    refine (Costs.bind (hO.double c Q)
      (n' := Ops.total A S D (digitCount v 1 (i + 1)) (digitCount v (-1) (i + 1)) i) fun Q1 => ?_).cast
      (Ops.total_double A S D _ _ _)
    rw [digitCount_succ v 1 i (by omega), digitCount_succ v (-1) i (by omega)]
    by_cases h1 : v[i] = 1
    · rw [if_pos h1, if_pos h1, if_pos h1, if_neg (by rw [h1]; decide)]
      exact (Costs.bind (hO.add c Q1 P) fun Q2 => ih (by omega) Q2).cast (Ops.total_add A S D _ _ _)
    · rw [if_neg h1, if_neg h1, if_neg h1]
      by_cases h2 : v[i] = -1
      · rw [if_pos h2, if_pos h2, if_pos h2]
        exact (Costs.bind (hO.sub c Q1 P) fun Q2 => ih (by omega) Q2).cast (Ops.total_sub A S D _ _ _)
      · rw [if_neg h2, if_neg h2, if_neg h2]
        exact (Costs.bind (Costs.pure Q1) fun Q2 => ih (by omega) Q2).cast (Ops.zero_add _)

end

/-! ### C106 -/

/-- C106: addition and subtraction of extended points. -/
theorem C106_extended_add (c : Cfg) (P Q : EdPoint) :
    Costs (Count.Ed.add c P Q) ⟨9, 1, 0, 7, 0⟩ (Ed.add c P Q) := by
  unfold Count.Ed.add Ed.add
  costs
  rfl

theorem C106_extended_sub (c : Cfg) (P Q : EdPoint) :
    Costs (Count.Ed.sub c P Q) ⟨9, 2, 0, 9, 0⟩ (Ed.sub c P Q) := by
  unfold Count.Ed.sub Ed.sub
  refine Costs.cast (n := ⟨0, 0, 0, 2, 0⟩ + ⟨9, 2, 0, 7, 0⟩) (Costs.bind (ed_neg_costs c Q) fun nq => ?_) rfl
  costs
  rfl

/-- C106: doubling an extended point or a Ristretto point costs what an addition costs, 9M + 1D + 7a. There are no
squarings, while the documentation of both types promises 4M + 4S + 1D. -/
theorem C106_extended_double (c : Cfg) (P : EdPoint) :
    Costs (Count.Ed.double c P) ⟨9, 1, 0, 7, 0⟩ (Ed.double c P) ∧
    Costs (Count.Ed.double c P) ⟨9, 1, 0, 7, 0⟩ (Ristretto.double c P) :=
  ⟨C106_extended_add c P P, C106_extended_add c P P⟩

/-- C106: addition of projective points. -/
theorem C106_projective_add (c : Cfg) (P Q : ProjPoint) :
    Costs (Count.Proj.add c P Q) ⟨10, 1, 1, 7, 0⟩ (Proj.add c P Q) := by
  unfold Count.Proj.add Proj.add
  costs
  rfl

theorem C106_projective_sub (c : Cfg) (P Q : ProjPoint) :
    Costs (Count.Proj.sub c P Q) ⟨10, 1, 1, 8, 0⟩ (Proj.sub c P Q) := by
  unfold Count.Proj.sub Proj.sub
  exact (Costs.bind (proj_neg_costs c Q) fun a => C106_projective_add c P a).cast rfl

/-- C106: doubling. -/
theorem C106_projective_double (c : Cfg) (P : ProjPoint) :
    Costs (Count.Proj.double c P) ⟨3, 2, 4, 6, 0⟩ (Proj.double c P) := by
  unfold Count.Proj.double Proj.double
  costs
  rfl

theorem C106_conversions (c : Cfg) (P : EdPoint) (Q : ProjPoint) :
    Costs (Count.Ed.ofProj c Q) ⟨3, 0, 1, 0, 0⟩ (Ed.ofProj c Q) ∧
    Costs (Count.Aff.ofEd c P) ⟨2, 0, 0, 0, 1⟩ (Aff.ofEd c P) ∧
    Costs (Count.Aff.ofProj c Q) ⟨2, 0, 0, 0, 1⟩ (Aff.ofProj c Q) := by
  refine ⟨?_, ?_, ?_⟩
  · unfold Count.Ed.ofProj Ed.ofProj
    costs
    rfl
  · unfold Count.Aff.ofEd Aff.ofEd
    costs
    rfl
  · unfold Count.Aff.ofProj Aff.ofProj
    costs
    rfl

theorem Ed.costSpec : CostSpec Count.Ed.ops Ed.ops ⟨9, 1, 0, 7, 0⟩ ⟨9, 2, 0, 9, 0⟩ ⟨9, 1, 0, 7, 0⟩ :=
  ⟨rfl, C106_extended_add, C106_extended_sub, fun c P => (C106_extended_double c P).1⟩

theorem Proj.costSpec : CostSpec Count.Proj.ops Proj.ops ⟨10, 1, 1, 7, 0⟩ ⟨10, 1, 1, 8, 0⟩ ⟨3, 2, 4, 6, 0⟩ :=
  ⟨rfl, C106_projective_add, C106_projective_sub, C106_projective_double⟩

/-- C106: multiplying an extended point with the operator costs nine multiplications for each one among the binary
digits of the scalar and nine for each digit. There are no squarings. -/
theorem C106_extended_operator (c : Cfg) (hc : c.Enough) (P : EdPoint) (hP : P.Red) (n : Sc) (hn : n.SCanon) :
    (Count.doubleAndAdd Count.Ed.ops c P n).val = Ed.mul c P n ∧
    (Count.doubleAndAdd Count.Ed.ops c P n).n =
      ⟨9 * (ones n.val + bitLength n.val), ones n.val + bitLength n.val, 0, 7 * (ones n.val + bitLength n.val), 0⟩ := by
  have hn' := Scalar.scanon_lt256 hn
  unfold Cfg.Enough at hc
  obtain ⟨h1, h2⟩ := daa_costs Ed.costSpec c 256 c.fuel P n Ed.identity hn.1 hn' le_rfl (by omega)
  obtain ⟨R, _, e⟩ := Ed.totSpec.daa hP n hn.1 hn'
  refine ⟨h1, (h2 ⟨R, e c hc⟩).trans ?_⟩
  apply Ops.ext' <;> simp only [Ops.total, Ops.times, ops_add] <;> ring

/-- C106: likewise for a projective point: the doublings use squarings. -/
theorem C106_projective_operator (c : Cfg) (hc : c.Enough) (P : ProjPoint) (hP : P.Red) (n : Sc) (hn : n.SCanon) :
    (Count.doubleAndAdd Count.Proj.ops c P n).val = Proj.mul c P n ∧
    (Count.doubleAndAdd Count.Proj.ops c P n).n =
      ⟨10 * ones n.val + 3 * bitLength n.val, ones n.val + 2 * bitLength n.val, ones n.val + 4 * bitLength n.val,
        7 * ones n.val + 6 * bitLength n.val, 0⟩ := by
  have hn' := Scalar.scanon_lt256 hn
  unfold Cfg.Enough at hc
  obtain ⟨h1, h2⟩ := daa_costs Proj.costSpec c 256 c.fuel P n Proj.identity hn.1 hn' le_rfl (by omega)
  obtain ⟨R, _, e⟩ := Proj.totSpec.daa hP n hn.1 hn'
  refine ⟨h1, (h2 ⟨R, e c hc⟩).trans ?_⟩
  apply Ops.ext' <;> simp only [Ops.total, Ops.times, ops_add] <;> ring

/-- C106: the left-to-right function performs 249 doublings whatever the scalar. -/
theorem C106_left_to_right (c : Cfg) (P : EdPoint) (hP : P.Red) (Q : ProjPoint) (hQ : Q.Red) (n : Sc)
    (hn : n.SCanon) :
    ((Count.ltrBinMul Count.Ed.ops c P n).val = ltrBinMul Ed.ops c P n ∧
      (Count.ltrBinMul Count.Ed.ops c P n).n =
        ⟨9 * (ones (n.val % 2 ^ 249) + 249), ones (n.val % 2 ^ 249) + 249, 0, 7 * (ones (n.val % 2 ^ 249) + 249), 0⟩) ∧
    ((Count.ltrBinMul Count.Proj.ops c Q n).val = ltrBinMul Proj.ops c Q n ∧
      (Count.ltrBinMul Count.Proj.ops c Q n).n =
        ⟨10 * ones (n.val % 2 ^ 249) + 747, ones (n.val % 2 ^ 249) + 498, ones (n.val % 2 ^ 249) + 996,
          7 * ones (n.val % 2 ^ 249) + 1494, 0⟩) := by
  obtain ⟨hb, _⟩ := Scalar.intoBits_spec n hn.1 (Scalar.scanon_lt256 hn)
  constructor
  · obtain ⟨h1, h2⟩ := ltr_costs Ed.costSpec c P (Scalar.intoBits n) n.val hb 249 (by omega) Ed.identity
    obtain ⟨R, _, e⟩ := Ed.totSpec.ltrLoop hP (Scalar.intoBits n) 249 (by omega) Ed.identity Ed.totSpec.identity
    refine ⟨h1, (h2 ⟨R, e c⟩).trans ?_⟩
    apply Ops.ext' <;> simp only [Ops.total, Ops.times, ops_add] <;> ring
  · obtain ⟨h1, h2⟩ := ltr_costs Proj.costSpec c Q (Scalar.intoBits n) n.val hb 249 (by omega) Proj.identity
    obtain ⟨R, _, e⟩ := Proj.totSpec.ltrLoop hQ (Scalar.intoBits n) 249 (by omega) Proj.identity Proj.totSpec.identity
    refine ⟨h1, (h2 ⟨R, e c⟩).trans ?_⟩
    apply Ops.ext' <;> simp only [Ops.total, Ops.times, ops_add] <;> ring

/-- C106: the function that uses signed digits performs 250 doublings, an addition for each digit 1 and a subtraction
for each digit -1. A subtraction of extended points costs a multiplication more than an addition. -/
theorem C106_signed (c : Cfg) (hc : c.Enough) (P : EdPoint) (hP : P.Red) (Q : ProjPoint) (hQ : Q.Red) (n : Sc)
    (hn : n.SCanon) :
    ∃ v, Scalar.computeNAF c n = .ok v ∧
    ((Count.binaryNafMul Count.Ed.ops c P n).val = binaryNafMul Ed.ops c P n ∧
      (Count.binaryNafMul Count.Ed.ops c P n).n =
        ⟨9 * (digitCount v 1 250 + digitCount v (-1) 250 + 250), digitCount v 1 250 + 2 * digitCount v (-1) 250 + 250, 0,
          7 * digitCount v 1 250 + 9 * digitCount v (-1) 250 + 1750, 0⟩) ∧
    ((Count.binaryNafMul Count.Proj.ops c Q n).val = binaryNafMul Proj.ops c Q n ∧
      (Count.binaryNafMul Count.Proj.ops c Q n).n =
        ⟨10 * (digitCount v 1 250 + digitCount v (-1) 250) + 750, digitCount v 1 250 + digitCount v (-1) 250 + 500,
          digitCount v 1 250 + digitCount v (-1) 250 + 1000,
          7 * digitCount v 1 250 + 8 * digitCount v (-1) 250 + 1500, 0⟩) := by
  obtain ⟨v, ev, _⟩ := Scalar.computeNAF_spec c hc n hn
  refine ⟨v, ev, ?_, ?_⟩
  · have hv : Count.binaryNafMul Count.Ed.ops c P n = Count.nafMulLoop Count.Ed.ops c P v 250 (by omega) Ed.identity := by
      unfold Count.binaryNafMul
      rw [ev, free_bind]; rfl
    have hv' : binaryNafMul Ed.ops c P n = nafMulLoop Ed.ops c P v 250 (by omega) Ed.identity := by
      unfold binaryNafMul
      rw [ev, Res.ok_bind]; rfl
    obtain ⟨h1, h2⟩ := naf_costs Ed.costSpec c P v 250 (by omega) Ed.identity
    obtain ⟨R, _, e⟩ := Ed.totSpec.nafLoop hP v 250 (by omega) Ed.identity Ed.totSpec.identity
    rw [hv, hv']
    refine ⟨h1, (h2 ⟨R, e c⟩).trans ?_⟩
    apply Ops.ext' <;> simp only [Ops.total, Ops.times, ops_add] <;> ring
  · have hv : Count.binaryNafMul Count.Proj.ops c Q n =
        Count.nafMulLoop Count.Proj.ops c Q v 250 (by omega) Proj.identity := by
      unfold Count.binaryNafMul
      rw [ev, free_bind]; rfl
    have hv' : binaryNafMul Proj.ops c Q n = nafMulLoop Proj.ops c Q v 250 (by omega) Proj.identity := by
      unfold binaryNafMul
      rw [ev, Res.ok_bind]; rfl
    obtain ⟨h1, h2⟩ := naf_costs Proj.costSpec c Q v 250 (by omega) Proj.identity
    obtain ⟨R, _, e⟩ := Proj.totSpec.nafLoop hQ v 250 (by omega) Proj.identity Proj.totSpec.identity
    rw [hv, hv']
    refine ⟨h1, (h2 ⟨R, e c⟩).trans ?_⟩
    apply Ops.ext' <;> simp only [Ops.total, Ops.times, ops_add] <;> ring

/-- Multiplying the basepoint by 6, with two ones among three digits, costs 45 multiplications in extended
coordinates; doubling it once returns and so has the stated cost. -/
example : Ed.BASEPOINT.Red ∧ (⟨6, 0, 0, 0, 0⟩ : Sc).SCanon ∧ ones 6 = 2 ∧ bitLength 6 = 3 ∧
    (Count.doubleAndAdd Count.Ed.ops dbg Ed.BASEPOINT ⟨6, 0, 0, 0, 0⟩).n = ⟨45, 5, 0, 35, 0⟩ ∧
    (∃ R, Ed.double dbg Ed.BASEPOINT = .ok R) ∧ (Count.Ed.double dbg Ed.BASEPOINT).n = ⟨9, 1, 0, 7, 0⟩ := by
  have hB : Ed.BASEPOINT.Red := ⟨by decide, by decide, by decide, by decide⟩
  obtain ⟨R, _, e⟩ := Ed.totSpec.double hB
  have e' : Ed.double dbg Ed.BASEPOINT = .ok R := e dbg
  have h6 : ones 6 = 2 ∧ bitLength 6 = 3 := by
    constructor <;> norm_num [ones, bitLength]
  have hs : (⟨6, 0, 0, 0, 0⟩ : Sc).SCanon := by decide
  have v6 : (⟨6, 0, 0, 0, 0⟩ : Sc).val = 6 := by decide
  have := (C106_extended_operator dbg (by decide) Ed.BASEPOINT hB ⟨6, 0, 0, 0, 0⟩ hs).2
  rw [v6, h6.1, h6.2] at this
  exact ⟨hB, hs, h6.1, h6.2, this, ⟨R, e'⟩, (C106_extended_double dbg _).1.2 ⟨R, e'⟩⟩

end Props
end Zerocaf
