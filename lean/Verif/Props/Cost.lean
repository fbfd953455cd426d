import Verif.Props.Total

/-!
# Property C95: the point operations that the multiplication functions perform

The multiplication functions are generic in the point type. Applied to formal expressions instead of points they
return the expression that they evaluate. Its shape gives the number of operations performed.
-/

set_option exponentiation.threshold 600

namespace Zerocaf
namespace Props

/-- Formal expressions in one point. -/
inductive PExpr where
  | inp
  | ident
  | add (a b : PExpr)
  | sub (a b : PExpr)
  | dbl (a : PExpr)
deriving DecidableEq

namespace PExpr

/-- The operations of the point type "formal expression". -/
def ops : PointOps PExpr where
  identity := ident
  add _ a b := .ok (add a b)
  sub _ a b := .ok (sub a b)
  double _ a := .ok (dbl a)

/-- Evaluation of an expression at a point with the operations of a point type. -/
def eval {T : Type} (O : PointOps T) (c : Cfg) (P : T) : PExpr → Res T
  | inp => .ok P
  | ident => .ok O.identity
  | add a b => do O.add c (← eval O c P a) (← eval O c P b)
  | sub a b => do O.sub c (← eval O c P a) (← eval O c P b)
  | dbl a => do O.double c (← eval O c P a)

/-- The multiple of the point that the expression stands for. -/
def coeff : PExpr → ℤ
  | inp => 1
  | ident => 0
  | add a b => coeff a + coeff b
  | sub a b => coeff a - coeff b
  | dbl a => 2 * coeff a

/-- The number of additions and subtractions. -/
def adds : PExpr → ℕ
  | inp => 0
  | ident => 0
  | add a b => adds a + adds b + 1
  | sub a b => adds a + adds b + 1
  | dbl a => adds a

/-- The largest number of doublings in a row, which is the number of doublings if they form one chain. -/
def dbls : PExpr → ℕ
  | inp => 0
  | ident => 0
  | add a b => max (dbls a) (dbls b)
  | sub a b => max (dbls a) (dbls b)
  | dbl a => dbls a + 1

end PExpr

open PExpr

/-- The number of ones in binary. -/
def ones (n : ℕ) : ℕ := (Nat.digits 2 n).sum

theorem ones_zero : ones 0 = 0 := by simp [ones]

theorem ones_step {n : ℕ} (h : n ≠ 0) : ones n = n % 2 + ones (n / 2) := by
  unfold ones
  rw [Nat.digits_def' (by omega) (Nat.pos_of_ne_zero h), List.sum_cons]

theorem ones_range : ∀ (k n : ℕ), n < 2 ^ k → ones n = ∑ j ∈ Finset.range k, n / 2 ^ j % 2 := by
  intro k
  induction k with
  | zero =>
    intro n h
    obtain rfl : n = 0 := by simpa using h
    rw [ones_zero, Finset.sum_range_zero]
  | succ k ih =>
    intro n h
    rw [Finset.sum_range_succ', pow_zero, Nat.div_one]
    rcases Nat.eq_zero_or_pos n with rfl | hp
    · simp [ones_zero]
    · rw [ones_step hp.ne', ih (n / 2) (by rw [pow_succ] at h; omega), add_comm]
      congr 1
      refine Finset.sum_congr rfl fun j _ => ?_
      rw [Nat.div_div_eq_div_mul, pow_succ, mul_comm]

theorem ones_mod (m i : ℕ) : ones (m % 2 ^ i) = ∑ j ∈ Finset.range i, m / 2 ^ j % 2 := by
  rw [ones_range i _ (Nat.mod_lt _ (by positivity))]
  refine Finset.sum_congr rfl fun j hj => ?_
  rw [Finset.mem_range] at hj
  obtain ⟨t, rfl⟩ : ∃ t, i = j + 1 + t := ⟨i - j - 1, by omega⟩
  rw [pow_add, pow_succ, mul_assoc, Nat.mod_mul_right_div_self, Nat.mod_mul_right_mod]

/-! ### Right to left -/

theorem daa_expr (c : Cfg) : ∀ (k fuel : ℕ) (N : PExpr) (n : Sc) (Q : PExpr), n.WF → n.val < 2 ^ k → k ≤ 256 →
    k < fuel → adds N = 0 → dbls Q ≤ dbls N →
    ∃ e, doubleAndAddLoop PExpr.ops c fuel N n Q = .ok e ∧ coeff e = coeff Q + n.val * coeff N ∧
      adds e = adds Q + ones n.val ∧ dbls e = if n.val = 0 then dbls Q else dbls N + Nat.log 2 n.val := by
  intro k
  induction k with
  | zero =>
    intro fuel N n Q wn hn _ hf hN hQ
    obtain ⟨f, rfl⟩ : ∃ f, fuel = f + 1 := ⟨fuel - 1, by omega⟩
    have h0 : n.val = 0 := by simpa using hn
    refine ⟨Q, ?_, by rw [h0]; simp, by rw [h0, ones_zero, add_zero], by rw [if_pos h0]⟩
    rw [doubleAndAddLoop, sctEq_zero n wn (by omega), h0]; rfl
  | succ k ih =>
    intro fuel N n Q wn hn hk hf hN hQ
    obtain ⟨f, rfl⟩ : ∃ f, fuel = f + 1 := ⟨fuel - 1, by omega⟩
    have hn' : n.val < 2 ^ 256 := lt_of_lt_of_le hn (Nat.pow_le_pow_right (by decide) hk)
    rw [doubleAndAddLoop, sctEq_zero n wn hn', Scalar.isEven_spec]
    by_cases h0 : n.val = 0
    · refine ⟨Q, ?_, by rw [h0]; simp, by rw [h0, ones_zero, add_zero], by rw [if_pos h0]⟩
      rw [h0]; rfl
    obtain ⟨wh, vh⟩ := halfWithoutMod_spec n wn
    have vh' : (Scalar.halfWithoutMod n).val = n.val / 2 := vh
    have hlt : (Scalar.halfWithoutMod n).val < 2 ^ k := by
      rw [vh']; rw [pow_succ] at hn; omega
    have eN : PExpr.ops.double c N = .ok (dbl N) := rfl
    simp only [h0, decide_false, Bool.not_false, if_true, eN, Res.ok_bind]
    have hlog : n.val / 2 ≠ 0 → Nat.log 2 n.val = Nat.log 2 (n.val / 2) + 1 := by
      intro h
      exact Nat.log_of_one_lt_of_le (by omega) (by omega)
    by_cases he : n.val % 2 = 0
    · simp only [he, decide_true, Bool.not_true, Bool.false_eq_true, if_false, Res.ok_bind]
      obtain ⟨e, ee, h1, h2, h3⟩ := ih f (dbl N) (Scalar.halfWithoutMod n) Q wh hlt (by omega) (by omega) hN
        (by show dbls Q ≤ dbls N + 1; omega)
      rw [vh'] at h1 h2 h3
      refine ⟨e, ee, ?_, ?_, ?_⟩
      · rw [h1]
        show coeff Q + ((n.val / 2 : ℕ) : ℤ) * (2 * coeff N) = _
        have : ((n.val : ℕ) : ℤ) = 2 * ((n.val / 2 : ℕ) : ℤ) := by omega
        rw [this]; ring
      · rw [h2, ones_step h0, he, zero_add]
      · have hh : n.val / 2 ≠ 0 := by omega
        rw [h3, if_neg hh, hlog hh]
        show dbls N + 1 + _ = _
        omega
    · have he1 : n.val % 2 = 1 := by omega
      have eQ : PExpr.ops.add c Q N = .ok (add Q N) := rfl
      simp only [he, decide_false, Bool.not_false, if_true, eQ, Res.ok_bind]
      obtain ⟨e, ee, h1, h2, h3⟩ := ih f (dbl N) (Scalar.halfWithoutMod n) (add Q N) wh hlt (by omega) (by omega) hN
        (by show max (dbls Q) (dbls N) ≤ dbls N + 1; omega)
      rw [vh'] at h1 h2 h3
      refine ⟨e, ee, ?_, ?_, ?_⟩
      · rw [h1]
        show coeff Q + coeff N + ((n.val / 2 : ℕ) : ℤ) * (2 * coeff N) = _
        have : ((n.val : ℕ) : ℤ) = 2 * ((n.val / 2 : ℕ) : ℤ) + 1 := by omega
        rw [this]; ring
      · rw [h2, ones_step h0, he1]
        show adds Q + adds N + 1 + _ = _
        omega
      · rw [h3]
        simp only [if_false]
        by_cases hh : n.val / 2 = 0
        · rw [if_pos hh]
          have : n.val = 1 := by omega
          rw [this]
          show max (dbls Q) (dbls N) = _
          rw [Nat.log_one_right]
          omega
        · rw [if_neg hh, hlog hh]
          show dbls N + 1 + _ = _
          omega

/-! ### Left to right -/

theorem ltr_expr (c : Cfg) (bits : Vector UInt8 256) (m : ℕ)
    (hb : ∀ j (hj : j < 256), bits[j].toNat = m / 2 ^ j % 2) :
    ∀ (n : ℕ) (hn : n ≤ 256) (Q : PExpr),
      ∃ e, ltrLoop PExpr.ops c inp bits n hn Q = .ok e ∧ coeff e = coeff Q * 2 ^ n + (m % 2 ^ n : ℕ) ∧
        adds e = adds Q + ones (m % 2 ^ n) ∧ dbls e = dbls Q + n := by
  intro n
  induction n with
  | zero =>
    intro hn Q
    exact ⟨Q, rfl, by simp [Nat.mod_one], by rw [pow_zero, Nat.mod_one, ones_zero, add_zero], rfl⟩
  | succ i ih =>
    intro hn Q
    have hbit := hb i (by omega)
    have hm : m % 2 ^ (i + 1) = m % 2 ^ i + 2 ^ i * (m / 2 ^ i % 2) := Nat.mod_pow_succ
    have ho : ones (m % 2 ^ (i + 1)) = ones (m % 2 ^ i) + m / 2 ^ i % 2 := by
      rw [ones_mod, ones_mod, Finset.sum_range_succ]
    have e1 : PExpr.ops.double c Q = .ok (dbl Q) := rfl
    rw [ltrLoop, e1, Res.ok_bind]
    rcases Nat.mod_two_eq_zero_or_one (m / 2 ^ i) with h | h
    · have hz : (bits[i] == 1) = false := by
        rw [beq_eq_false_iff_ne]; intro h'; rw [h', h] at hbit; exact absurd hbit (by decide)
      rw [hz]
      obtain ⟨e, ee, h1, h2, h3⟩ := ih (by omega) (dbl Q)
      refine ⟨e, ee, ?_, ?_, ?_⟩
      · rw [h1, hm, h, mul_zero, add_zero]
        show 2 * coeff Q * 2 ^ i + _ = _
        ring
      · rw [h2, ho, h]; rfl
      · rw [h3]; show dbls Q + 1 + i = _; omega
    · have hz : (bits[i] == 1) = true := by
        rw [beq_iff_eq]; exact UInt8.toNat_inj.1 (by rw [hbit, h]; rfl)
      have e2 : PExpr.ops.add c (dbl Q) inp = .ok (add (dbl Q) inp) := rfl
      rw [hz]
      obtain ⟨e, ee, h1, h2, h3⟩ := ih (by omega) (add (dbl Q) inp)
      refine ⟨e, ?_, ?_, ?_, ?_⟩
      · rw [if_pos rfl, e2, Res.ok_bind]; exact ee
      · rw [h1, hm, h, mul_one]
        show (2 * coeff Q + 1) * 2 ^ i + _ = _
        push_cast
        ring
      · rw [h2, ho, h]
        show adds Q + 0 + 1 + _ = _
        omega
      · rw [h3]
        show max (dbls Q + 1) 0 + i = _
        omega

/-! ### Signed digits -/

theorem naf_expr (c : Cfg) (naf : Vector Int 256)
    (hd : ∀ j (hj : j < 256), naf[j] = -1 ∨ naf[j] = 0 ∨ naf[j] = 1) :
    ∀ (n : ℕ) (hn : n ≤ 256) (Q : PExpr),
      ∃ e, nafMulLoop PExpr.ops c inp naf n hn Q = .ok e ∧
        coeff e = coeff Q * 2 ^ n + ∑ j ∈ Finset.range n, Scalar.dig naf j * 2 ^ j ∧
        adds e = adds Q + ((Finset.range n).filter fun j => Scalar.dig naf j ≠ 0).card ∧ dbls e = dbls Q + n := by
  intro n
  induction n with
  | zero => exact fun hn Q => ⟨Q, rfl, by simp, by simp, rfl⟩
  | succ i ih =>
    intro hn Q
    have hdig : Scalar.dig naf i = naf[i] := by
      unfold Scalar.dig; rw [dif_pos (by omega)]
    have e1 : PExpr.ops.double c Q = .ok (dbl Q) := rfl
    rw [nafMulLoop, e1, Res.ok_bind, Finset.sum_range_succ, Finset.range_add_one, Finset.filter_insert, hdig]
    have hni : i ∉ (Finset.range i).filter fun j => Scalar.dig naf j ≠ 0 := by simp
    rcases hd i (by omega) with h | h | h
    · have e2 : PExpr.ops.sub c (dbl Q) inp = .ok (PExpr.sub (dbl Q) inp) := rfl
      rw [h, if_neg (by decide), if_pos rfl, e2, Res.ok_bind, if_pos (by decide), Finset.card_insert_of_notMem hni]
      obtain ⟨e, ee, h1, h2, h3⟩ := ih (by omega) (PExpr.sub (dbl Q) inp)
      refine ⟨e, ee, ?_, ?_, ?_⟩
      · rw [h1]
        show (2 * coeff Q - 1) * 2 ^ i + _ = _
        ring
      · rw [h2]; show adds Q + 0 + 1 + _ = _; omega
      · rw [h3]; show max (dbls Q + 1) 0 + i = _; omega
    · rw [h, if_neg (by decide), if_neg (by decide), Res.ok_bind, if_neg (by decide)]
      obtain ⟨e, ee, h1, h2, h3⟩ := ih (by omega) (dbl Q)
      refine ⟨e, ee, ?_, ?_, ?_⟩
      · rw [h1]
        show 2 * coeff Q * 2 ^ i + _ = _
        ring
      · rw [h2]; rfl
      · rw [h3]; show dbls Q + 1 + i = _; omega
    · have e2 : PExpr.ops.add c (dbl Q) inp = .ok (add (dbl Q) inp) := rfl
      rw [h, if_pos rfl, e2, Res.ok_bind, if_pos (by decide), Finset.card_insert_of_notMem hni]
      obtain ⟨e, ee, h1, h2, h3⟩ := ih (by omega) (add (dbl Q) inp)
      refine ⟨e, ee, ?_, ?_, ?_⟩
      · rw [h1]
        show (2 * coeff Q + 1) * 2 ^ i + _ = _
        ring
      · rw [h2]; show adds Q + 0 + 1 + _ = _; omega
      · rw [h3]; show max (dbls Q + 1) 0 + i = _; omega

/-! ### Expressions describe the computation -/

section
variable {T : Type} {O : PointOps T} {K : T → Prop}

theorem eval_daa (hO : TotSpec O K) (c : Cfg) (P : T) : ∀ (fuel : ℕ) (N : T) (N' : PExpr) (n : Sc) (Q : T) (Q' : PExpr),
    K N → eval O c P N' = .ok N → K Q → eval O c P Q' = .ok Q →
    (doubleAndAddLoop PExpr.ops c fuel N' n Q' >>= eval O c P) = doubleAndAddLoop O c fuel N n Q := by
  intro fuel
  induction fuel with
  | zero => intros; rfl
  | succ f ih =>
    intro N N' n Q Q' hN eN hQ eQ
    rw [doubleAndAddLoop, doubleAndAddLoop]
    obtain ⟨N1, k1, e1⟩ := hO.double hN
    have e1' : eval O c P (dbl N') = .ok N1 := by
      show (eval O c P N' >>= fun a => O.double c a) = _
      rw [eN, Res.ok_bind, e1]
    have d1 : PExpr.ops.double c N' = .ok (dbl N') := rfl
    rcases Scalar.ctEq n Scalar.zero with _ | _
    · rcases Scalar.isEven n with _ | _
      · obtain ⟨Q1, k2, e2⟩ := hO.add hQ hN
        have d2 : PExpr.ops.add c Q' N' = .ok (add Q' N') := rfl
        have e2' : eval O c P (add Q' N') = .ok Q1 := by
          show (eval O c P Q' >>= fun a => eval O c P N' >>= fun b => O.add c a b) = _
          rw [eN, eQ, Res.ok_bind, Res.ok_bind, e2]
        simp only [Bool.not_false, if_true, e1, e2, d1, d2, Res.ok_bind]
        exact ih N1 (dbl N') _ Q1 (add Q' N') k1 e1' k2 e2'
      · simp only [Bool.not_false, Bool.not_true, if_true, Bool.false_eq_true, if_false, e1, d1, Res.ok_bind]
        exact ih N1 (dbl N') _ Q Q' k1 e1' hQ eQ
    · simp only [Bool.not_true, Bool.false_eq_true, if_false, Res.ok_bind]
      exact eQ

theorem eval_ltr (hO : TotSpec O K) (c : Cfg) {P : T} (hP : K P) (bits : Vector UInt8 256) :
    ∀ (n : ℕ) (hn : n ≤ 256) (Q : T) (Q' : PExpr), K Q → eval O c P Q' = .ok Q →
      (ltrLoop PExpr.ops c inp bits n hn Q' >>= eval O c P) = ltrLoop O c P bits n hn Q := by
  intro n
  induction n with
  | zero => intro hn Q Q' hQ eQ; exact eQ
  | succ i ih =>
    intro hn Q Q' hQ eQ
    rw [ltrLoop, ltrLoop]
    obtain ⟨Q1, k1, e1⟩ := hO.double hQ
    have e1' : eval O c P (dbl Q') = .ok Q1 := by
      show (eval O c P Q' >>= fun a => O.double c a) = _
      rw [eQ, Res.ok_bind, e1]
    have d1 : PExpr.ops.double c Q' = .ok (dbl Q') := rfl
    rcases bits[i] == 1 with _ | _
    · simp only [Bool.false_eq_true, if_false, e1, d1, Res.ok_bind]
      exact ih (by omega) Q1 _ k1 e1'
    · obtain ⟨Q2, k2, e2⟩ := hO.add k1 hP
      have d2 : PExpr.ops.add c (dbl Q') inp = .ok (add (dbl Q') inp) := rfl
      have e2' : eval O c P (add (dbl Q') inp) = .ok Q2 := by
        show (eval O c P (dbl Q') >>= fun a => eval O c P inp >>= fun b => O.add c a b) = _
        rw [e1', Res.ok_bind]
        exact e2 c
      simp only [if_true, e1, e2, d1, d2, Res.ok_bind]
      exact ih (by omega) Q2 _ k2 e2'

theorem eval_naf (hO : TotSpec O K) (c : Cfg) {P : T} (hP : K P) (naf : Vector Int 256) :
    ∀ (n : ℕ) (hn : n ≤ 256) (Q : T) (Q' : PExpr), K Q → eval O c P Q' = .ok Q →
      (nafMulLoop PExpr.ops c inp naf n hn Q' >>= eval O c P) = nafMulLoop O c P naf n hn Q := by
  intro n
  induction n with
  | zero => intro hn Q Q' hQ eQ; exact eQ
  | succ i ih =>
    intro hn Q Q' hQ eQ
    rw [nafMulLoop, nafMulLoop]
    obtain ⟨Q1, k1, e1⟩ := hO.double hQ
    have e1' : eval O c P (dbl Q') = .ok Q1 := by
      show (eval O c P Q' >>= fun a => O.double c a) = _
      rw [eQ, Res.ok_bind, e1]
    have d1 : PExpr.ops.double c Q' = .ok (dbl Q') := rfl
    by_cases h1 : naf[i] = 1
    · obtain ⟨Q2, k2, e2⟩ := hO.add k1 hP
      have d2 : PExpr.ops.add c (dbl Q') inp = .ok (add (dbl Q') inp) := rfl
      have e2' : eval O c P (add (dbl Q') inp) = .ok Q2 := by
        show (eval O c P (dbl Q') >>= fun a => eval O c P inp >>= fun b => O.add c a b) = _
        rw [e1', Res.ok_bind]
        exact e2 c
      simp only [h1, if_true, e1, e2, d1, d2, Res.ok_bind]
      exact ih (by omega) Q2 _ k2 e2'
    · by_cases h2 : naf[i] = -1
      · obtain ⟨Q2, k2, e2⟩ := hO.sub k1 hP
        have d2 : PExpr.ops.sub c (dbl Q') inp = .ok (PExpr.sub (dbl Q') inp) := rfl
        have e2' : eval O c P (PExpr.sub (dbl Q') inp) = .ok Q2 := by
          show (eval O c P (dbl Q') >>= fun a => eval O c P inp >>= fun b => O.sub c a b) = _
          rw [e1', Res.ok_bind]
          exact e2 c
        simp only [h1, h2, if_true, if_false, e1, e2, d1, d2, Res.ok_bind]
        exact ih (by omega) Q2 _ k2 e2'
      · simp only [h1, h2, if_false, e1, d1, Res.ok_bind]
        exact ih (by omega) Q1 _ k1 e1'

end

/-! ### C95 -/

/-- C95: multiplying by the operator performs one addition for each one among the binary digits of the scalar,
and the doublings that reach the highest of them. -/
theorem C95_operator (c : Cfg) (hc : c.Enough) (n : Sc) (hn : n.SCanon) :
    ∃ e, doubleAndAdd PExpr.ops c inp n = .ok e ∧ coeff e = n.val ∧ adds e = ones n.val ∧
      dbls e = Nat.log 2 n.val := by
  unfold Cfg.Enough at hc
  obtain ⟨e, h, h1, h2, h3⟩ := daa_expr c 256 c.fuel inp n ident hn.1 (Scalar.scanon_lt256 hn) le_rfl (by omega) rfl
    le_rfl
  refine ⟨e, h, ?_, ?_, ?_⟩
  · rw [h1]; show 0 + (n.val : ℤ) * 1 = _; ring
  · rw [h2]; show 0 + _ = _; omega
  · rw [h3]
    show (if n.val = 0 then 0 else 0 + _) = _
    split
    · next h => rw [h]; rfl
    · omega

/-- C95: the left-to-right function performs 249 doublings and one addition for each one among the lower 249
binary digits. -/
theorem C95_left_to_right (c : Cfg) (n : Sc) (hn : n.SCanon) :
    ∃ e, ltrBinMul PExpr.ops c inp n = .ok e ∧ coeff e = (n.val % 2 ^ 249 : ℕ) ∧
      adds e = ones (n.val % 2 ^ 249) ∧ dbls e = 249 := by
  obtain ⟨hb, _⟩ := Scalar.intoBits_spec n hn.1 (Scalar.scanon_lt256 hn)
  obtain ⟨e, h, h1, h2, h3⟩ := ltr_expr c (Scalar.intoBits n) n.val hb 249 (by omega) ident
  refine ⟨e, h, ?_, ?_, ?_⟩
  · rw [h1]; show 0 * 2 ^ 249 + _ = _; rw [zero_mul, zero_add]
  · rw [h2]; show 0 + _ = _; omega
  · rw [h3]; rfl

/-- C95: the function that uses signed digits performs 250 doublings and as many additions and subtractions
as the expansion has nonzero digits. No other expansion with digits `-1, 0, 1` has fewer. -/
theorem C95_signed (c : Cfg) (hc : c.Enough) (n : Sc) (hn : n.SCanon) :
    ∃ e, binaryNafMul PExpr.ops c inp n = .ok e ∧ coeff e = n.val ∧ dbls e = 250 ∧
      (∃ v, Scalar.computeNAF c n = .ok v ∧ adds e = digitWeight v) ∧
      ∀ u : Vector Int 256, (∀ j : Fin 256, u[j] = -1 ∨ u[j] = 0 ∨ u[j] = 1) → digitSum u = n.val →
        adds e ≤ digitWeight u := by
  obtain ⟨v, ev, hv⟩ := Scalar.computeNAF_spec c hc n hn
  have hd : ∀ j (hj : j < 256), v[j] = -1 ∨ v[j] = 0 ∨ v[j] = 1 := by
    intro j hj
    have e : Scalar.dig v j = v[j] := by unfold Scalar.dig; rw [dif_pos hj]
    have := hv.digits j (by omega)
    rw [e] at this
    norm_num at this
    omega
  obtain ⟨e, h, h1, h2, h3⟩ := naf_expr c v hd 250 (by omega) ident
  have hw : adds e = digitWeight v := by
    rw [h2, digitWeight_wt]
    show 0 + _ = NafU.wt (Scalar.dig v) 256
    rw [zero_add]
    unfold NafU.wt
    refine congrArg Finset.card (Finset.ext fun j => ?_)
    simp only [Finset.mem_filter, Finset.mem_range]
    constructor
    · rintro ⟨a, b⟩; exact ⟨by omega, b⟩
    · rintro ⟨a, b⟩
      refine ⟨?_, b⟩
      by_contra hj
      exact b (hv.high j (by omega))
  refine ⟨e, ?_, ?_, ?_, ⟨v, ev, hw⟩, ?_⟩
  · unfold binaryNafMul
    rw [ev, Res.ok_bind]; exact h
  · have hs := hv.sum
    simp only [Nat.zero_add] at hs
    rw [h1, hs]; show 0 * 2 ^ 250 + _ = _; rw [zero_mul, zero_add]
  · rw [h3]; rfl
  · obtain ⟨v', ev', _, hm⟩ := C91_minimal c hc n hn
    rw [ev, Res.ok_inj] at ev'
    subst ev'
    rw [hw]
    exact hm

/-- C95: the operations performed determine the scalar, so whoever observes them learns it: two scalars in range
lead to the same expression only if they are equal. For the left-to-right function they agree modulo `2^249`. -/
theorem C95_operations_reveal_scalar (c : Cfg) (hc : c.Enough) (m n : Sc) (hm : m.SCanon) (hn : n.SCanon) :
    (doubleAndAdd PExpr.ops c inp m = doubleAndAdd PExpr.ops c inp n ↔ m = n) ∧
    (ltrBinMul PExpr.ops c inp m = ltrBinMul PExpr.ops c inp n ↔ m.val % 2 ^ 249 = n.val % 2 ^ 249) ∧
    (binaryNafMul PExpr.ops c inp m = binaryNafMul PExpr.ops c inp n ↔ m = n) := by
  refine ⟨⟨fun h => ?_, fun h => by rw [h]⟩, ⟨fun h => ?_, fun h => ?_⟩, ⟨fun h => ?_, fun h => by rw [h]⟩⟩
  · obtain ⟨e, h1, h2, _⟩ := C95_operator c hc m hm
    obtain ⟨e', h1', h2', _⟩ := C95_operator c hc n hn
    rw [h1, h1', Res.ok_inj] at h
    subst h
    exact hm.1.ext hn.1 (by exact_mod_cast h2.symm.trans h2')
  · obtain ⟨e, h1, h2, _⟩ := C95_left_to_right c m hm
    obtain ⟨e', h1', h2', _⟩ := C95_left_to_right c n hn
    rw [h1, h1', Res.ok_inj] at h
    subst h
    exact_mod_cast h2.symm.trans h2'
  · unfold ltrBinMul
    obtain ⟨hb, _⟩ := Scalar.intoBits_spec m hm.1 (Scalar.scanon_lt256 hm)
    obtain ⟨hb', _⟩ := Scalar.intoBits_spec n hn.1 (Scalar.scanon_lt256 hn)
    have hbit : ∀ j (hj : j < 249), (Scalar.intoBits m)[j]'(by omega) = (Scalar.intoBits n)[j]'(by omega) := by
      intro j hj
      apply UInt8.toNat_inj.1
      rw [hb j (by omega), hb' j (by omega)]
      have key : ∀ a : ℕ, a / 2 ^ j % 2 = (a % 2 ^ 249) / 2 ^ j % 2 := by
        intro a
        obtain ⟨t, ht⟩ : ∃ t, 249 = j + 1 + t := ⟨249 - j - 1, by omega⟩
        rw [ht, pow_add, pow_succ, mul_assoc, Nat.mod_mul_right_div_self, Nat.mod_mul_right_mod]
      rw [key m.val, key n.val, h]
    have : ∀ (k : ℕ) (hk : k ≤ 249) (Q : PExpr),
        ltrLoop PExpr.ops c inp (Scalar.intoBits m) k (by omega) Q =
          ltrLoop PExpr.ops c inp (Scalar.intoBits n) k (by omega) Q := by
      intro k
      induction k with
      | zero => intro hk Q; rw [ltrLoop, ltrLoop]
      | succ i ih =>
        intro hk Q
        rw [ltrLoop, ltrLoop, hbit i (by omega)]
        have d1 : PExpr.ops.double c Q = .ok (dbl Q) := rfl
        rw [d1, Res.ok_bind, Res.ok_bind]
        rcases (Scalar.intoBits n)[i] == 1 with _ | _
        · exact ih (by omega) _
        · have d2 : PExpr.ops.add c (dbl Q) inp = .ok (add (dbl Q) inp) := rfl
          simp only [if_true, d2, Res.ok_bind]
          exact ih (by omega) _
    exact this 249 le_rfl _
  · obtain ⟨e, h1, h2, _⟩ := C95_signed c hc m hm
    obtain ⟨e', h1', h2', _⟩ := C95_signed c hc n hn
    rw [h1, h1', Res.ok_inj] at h
    subst h
    exact hm.1.ext hn.1 (by exact_mod_cast h2.symm.trans h2')

/-- C95: these expressions are what is computed on extended coordinates, whatever the point. -/
theorem C95_extended (c : Cfg) (hc : c.Enough) (P : EdPoint) (hP : P.Red) (n : Sc) :
    (doubleAndAdd PExpr.ops c inp n >>= eval Ed.ops c P) = doubleAndAdd Ed.ops c P n ∧
    (ltrBinMul PExpr.ops c inp n >>= eval Ed.ops c P) = ltrBinMul Ed.ops c P n ∧
    (n.SCanon → (binaryNafMul PExpr.ops c inp n >>= eval Ed.ops c P) = binaryNafMul Ed.ops c P n) := by
  refine ⟨eval_daa Ed.totSpec c P _ _ _ _ _ _ hP rfl Ed.totSpec.identity rfl,
    eval_ltr Ed.totSpec c hP _ _ _ _ _ Ed.totSpec.identity rfl, fun hn => ?_⟩
  obtain ⟨v, ev, _⟩ := Scalar.computeNAF_spec c hc n hn
  unfold binaryNafMul
  rw [ev, Res.ok_bind, Res.ok_bind]
  exact eval_naf Ed.totSpec c hP _ _ _ _ _ Ed.totSpec.identity rfl

/-- C95: likewise on projective coordinates. -/
theorem C95_projective (c : Cfg) (hc : c.Enough) (P : ProjPoint) (hP : P.Red) (n : Sc) :
    (doubleAndAdd PExpr.ops c inp n >>= eval Proj.ops c P) = doubleAndAdd Proj.ops c P n ∧
    (ltrBinMul PExpr.ops c inp n >>= eval Proj.ops c P) = ltrBinMul Proj.ops c P n ∧
    (n.SCanon → (binaryNafMul PExpr.ops c inp n >>= eval Proj.ops c P) = binaryNafMul Proj.ops c P n) := by
  refine ⟨eval_daa Proj.totSpec c P _ _ _ _ _ _ hP rfl Proj.totSpec.identity rfl,
    eval_ltr Proj.totSpec c hP _ _ _ _ _ Proj.totSpec.identity rfl, fun hn => ?_⟩
  obtain ⟨v, ev, _⟩ := Scalar.computeNAF_spec c hc n hn
  unfold binaryNafMul
  rw [ev, Res.ok_bind, Res.ok_bind]
  exact eval_naf Proj.totSpec c hP _ _ _ _ _ Proj.totSpec.identity rfl

/-- For the scalar 6 the operator evaluates `(0 + 2P) + 4P`. -/
example : (⟨6, 0, 0, 0, 0⟩ : Sc).SCanon ∧ Ed.BASEPOINT.Red ∧
    doubleAndAdd PExpr.ops dbg inp ⟨6, 0, 0, 0, 0⟩ =
      .ok (add (add ident (dbl inp)) (dbl (dbl inp))) := by
  refine ⟨by decide, ?_, by decide +kernel⟩
  exact ⟨by decide, by decide, by decide, by decide⟩

end Props
end Zerocaf
