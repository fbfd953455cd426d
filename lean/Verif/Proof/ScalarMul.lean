import Verif.Proof.EdOps
import Verif.Proof.Naf

/-!
# Scalar multiplication
-/

set_option exponentiation.threshold 600

namespace Zerocaf

/-- The operations of a point type implement the group law on represented points. -/
structure OpsSpec {T : Type} (O : PointOps T) (R : T → E → Prop) : Prop where
  identity : R O.identity 0
  add : ∀ c {P Q A B}, R P A → R Q B → ∃ S, O.add c P Q = .ok S ∧ R S (A + B)
  sub : ∀ c {P Q A B}, R P A → R Q B → ∃ S, O.sub c P Q = .ok S ∧ R S (A - B)
  double : ∀ c {P A}, R P A → ∃ S, O.double c P = .ok S ∧ R S (A + A)

theorem Ed.opsSpec : OpsSpec Ed.ops EdPoint.Rep :=
  ⟨Ed.identity_rep, fun c _ _ _ _ hP hQ => Ed.add_rep c hP hQ, fun c _ _ _ _ hP hQ => Ed.sub_rep c hP hQ,
    fun c _ _ h => Ed.double_rep c h⟩

theorem Proj.opsSpec : OpsSpec Proj.ops ProjPoint.Rep :=
  ⟨Proj.identity_rep, fun c _ _ _ _ hP hQ => Proj.add_rep c hP hQ,
    fun c _ _ _ _ hP hQ => Proj.sub_rep c hP hQ, fun c _ _ h => Proj.double_rep c h⟩

variable {T : Type} {O : PointOps T} {R : T → E → Prop}

theorem sctEq_zero (n : Sc) (hn : n.WF) (h : n.val < 2 ^ 256) :
    Scalar.ctEq n Scalar.zero = decide (n.val = 0) := by
  rw [Scalar.ctEq_eq, Field.ctEq_spec n Scalar.zero hn Scalar.zero_canon.1 h (by decide)]; rfl

theorem doubleAndAddLoop_rep (hO : OpsSpec O R) (c : Cfg) :
    ∀ (k fuel : Nat) (N : T) (A : E) (n : Sc) (Q : T) (B : E), R N A → R Q B → n.WF →
      n.val < 2 ^ k → k ≤ 256 → k < fuel →
      ∃ S, doubleAndAddLoop O c fuel N n Q = .ok S ∧ R S (B + n.val • A) := by
  intro k
  induction k with
  | zero =>
    intro fuel N A n Q B hN hQ wn hn _ hf
    obtain ⟨f, rfl⟩ : ∃ f, fuel = f + 1 := ⟨fuel - 1, by omega⟩
    have h0 : n.val = 0 := by simpa using hn
    refine ⟨Q, ?_, by rw [h0, zero_nsmul, add_zero]; exact hQ⟩
    rw [doubleAndAddLoop, sctEq_zero n wn (by omega), h0]; rfl
  | succ k ih =>
    intro fuel N A n Q B hN hQ wn hn hk hf
    obtain ⟨f, rfl⟩ : ∃ f, fuel = f + 1 := ⟨fuel - 1, by omega⟩
    have hn' : n.val < 2 ^ 256 := lt_of_lt_of_le hn (Nat.pow_le_pow_right (by decide) hk)
    rw [doubleAndAddLoop, sctEq_zero n wn hn', Scalar.isEven_spec]
    by_cases h0 : n.val = 0
    · refine ⟨Q, ?_, by rw [h0, zero_nsmul, add_zero]; exact hQ⟩
      rw [h0]; rfl
    obtain ⟨wh, vh⟩ := halfWithoutMod_spec n wn
    obtain ⟨N', eN, hN'⟩ := hO.double c hN
    have hlt : (Scalar.halfWithoutMod n).val < 2 ^ k := by
      show (Field.halfWithoutMod n).val < _
      rw [vh]; rw [pow_succ] at hn; omega
    simp only [h0, decide_false, Bool.not_false, if_true, eN, Res.ok_bind]
    by_cases he : n.val % 2 = 0
    · simp only [he, decide_true, Bool.not_true, Bool.false_eq_true, if_false]
      obtain ⟨S, eS, hS⟩ := ih f N' (A + A) (Scalar.halfWithoutMod n) Q B hN' hQ wh hlt (by omega)
        (by omega)
      refine ⟨S, eS, ?_⟩
      have : n.val • A = (Scalar.halfWithoutMod n).val • (A + A) := by
        show _ = (Field.halfWithoutMod n).val • (A + A)
        rw [vh, ← two_nsmul, ← mul_nsmul', Nat.div_mul_cancel (Nat.dvd_of_mod_eq_zero he)]
      rw [this]; exact hS
    · obtain ⟨Q', eQ, hQ'⟩ := hO.add c hQ hN
      simp only [he, decide_false, Bool.not_false, if_true, eQ, Res.ok_bind]
      obtain ⟨S, eS, hS⟩ := ih f N' (A + A) (Scalar.halfWithoutMod n) Q' (B + A) hN' hQ' wh hlt
        (by omega) (by omega)
      refine ⟨S, eS, ?_⟩
      have : B + n.val • A = B + A + (Scalar.halfWithoutMod n).val • (A + A) := by
        show _ = B + A + (Field.halfWithoutMod n).val • (A + A)
        rw [vh, ← two_nsmul, ← mul_nsmul', add_assoc]
        congr 1
        rw [← succ_nsmul']
        congr 1; omega
      rw [this]; exact hS

theorem doubleAndAdd_rep (hO : OpsSpec O R) (c : Cfg) (hc : c.Enough) {P : T} {A : E} (hP : R P A)
    (n : Sc) (wn : n.WF) (hn : n.val < 2 ^ 256) :
    ∃ S, doubleAndAdd O c P n = .ok S ∧ R S (n.val • A) := by
  unfold Cfg.Enough at hc
  obtain ⟨S, eS, hS⟩ := doubleAndAddLoop_rep hO c 256 c.fuel P A n O.identity 0 hP hO.identity wn hn
    le_rfl (by omega)
  exact ⟨S, eS, by rw [zero_add] at hS; exact hS⟩

theorem ltrLoop_rep (hO : OpsSpec O R) (c : Cfg) {P : T} {A : E} (hP : R P A) (bits : Vector UInt8 256)
    (m : Nat) (hb : ∀ j (hj : j < 256), bits[j].toNat = m / 2 ^ j % 2) :
    ∀ (n : Nat) (hn : n ≤ 256) (Q : T) (k : Nat), R Q (k • A) →
      ∃ S, ltrLoop O c P bits n hn Q = .ok S ∧ R S ((k * 2 ^ n + m % 2 ^ n) • A) := by
  intro n
  induction n with
  | zero =>
    intro hn Q k hQ
    refine ⟨Q, rfl, ?_⟩
    rw [pow_zero, Nat.mod_one, mul_one, add_zero]; exact hQ
  | succ i ih =>
    intro hn Q k hQ
    obtain ⟨Q1, e1, h1⟩ := hO.double c hQ
    rw [← add_nsmul] at h1
    have hbit := hb i (by omega)
    have hm : m % 2 ^ (i + 1) = m % 2 ^ i + 2 ^ i * (m / 2 ^ i % 2) := Nat.mod_pow_succ
    rw [ltrLoop, e1, Res.ok_bind]
    rcases Nat.mod_two_eq_zero_or_one (m / 2 ^ i) with h | h
    · have hz : (bits[i] == 1) = false := by
        rw [beq_eq_false_iff_ne]; intro h'; rw [h', h] at hbit; exact absurd hbit (by decide)
      rw [hz]
      obtain ⟨S, eS, hS⟩ := ih (by omega) Q1 (k + k) h1
      refine ⟨S, eS, ?_⟩
      rw [hm, h, mul_zero, add_zero, pow_succ, show k * (2 ^ i * 2) = (k + k) * 2 ^ i by ring]
      exact hS
    · have hz : (bits[i] == 1) = true := by
        rw [beq_iff_eq]; exact UInt8.toNat_inj.1 (by rw [hbit, h]; rfl)
      rw [hz]
      obtain ⟨Q2, e2, h2⟩ := hO.add c h1 hP
      rw [← succ_nsmul] at h2
      obtain ⟨S, eS, hS⟩ := ih (by omega) Q2 (k + k + 1) h2
      refine ⟨S, ?_, ?_⟩
      · rw [if_pos rfl, e2, Res.ok_bind]; exact eS
      · rw [hm, h, mul_one, pow_succ, show k * (2 ^ i * 2) + (m % 2 ^ i + 2 ^ i) =
          (k + k + 1) * 2 ^ i + m % 2 ^ i by ring]
        exact hS

theorem ltrBinMul_rep (hO : OpsSpec O R) (c : Cfg) {P : T} {A : E} (hP : R P A) (n : Sc) (wn : n.WF)
    (hn : n.val < 2 ^ 256) : ∃ S, ltrBinMul O c P n = .ok S ∧ R S ((n.val % 2 ^ 249) • A) := by
  obtain ⟨hb, _⟩ := Scalar.intoBits_spec n wn hn
  obtain ⟨S, eS, hS⟩ := ltrLoop_rep hO c hP (Scalar.intoBits n) n.val hb 249 (by omega) O.identity 0
    (by rw [zero_nsmul]; exact hO.identity)
  exact ⟨S, eS, by rw [zero_mul, zero_add] at hS; exact hS⟩

theorem nafMulLoop_rep (hO : OpsSpec O R) (c : Cfg) {P : T} {A : E} (hP : R P A) (naf : Vector Int 256)
    (hd : ∀ j (hj : j < 256), naf[j] = -1 ∨ naf[j] = 0 ∨ naf[j] = 1) :
    ∀ (n : Nat) (hn : n ≤ 256) (Q : T) (k : Int), R Q (k • A) →
      ∃ S, nafMulLoop O c P naf n hn Q = .ok S ∧
        R S ((k * 2 ^ n + ∑ j ∈ Finset.range n, Scalar.dig naf j * 2 ^ j) • A) := by
  intro n
  induction n with
  | zero =>
    intro hn Q k hQ
    refine ⟨Q, rfl, ?_⟩
    rw [pow_zero, mul_one, Finset.sum_range_zero, add_zero]; exact hQ
  | succ i ih =>
    intro hn Q k hQ
    obtain ⟨Q1, e1, h1⟩ := hO.double c hQ
    rw [← add_zsmul] at h1
    have hdig : Scalar.dig naf i = naf[i] := by
      unfold Scalar.dig; rw [dif_pos (by omega)]
    rw [nafMulLoop, e1, Res.ok_bind, Finset.sum_range_succ, hdig]
    rcases hd i (by omega) with h | h | h
    · rw [h, if_neg (by decide), if_pos rfl]
      obtain ⟨Q2, e2, h2⟩ := hO.sub c h1 hP
      have h3 : (k + k) • A - A = (k + k - 1) • A := by
        rw [sub_zsmul, one_zsmul, sub_eq_add_neg]
      rw [h3] at h2
      obtain ⟨S, eS, hS⟩ := ih (by omega) Q2 (k + k - 1) h2
      refine ⟨S, by rw [e2, Res.ok_bind]; exact eS, ?_⟩
      rw [show k * 2 ^ (i + 1) + (∑ j ∈ Finset.range i, Scalar.dig naf j * 2 ^ j + -1 * 2 ^ i) =
        (k + k - 1) * 2 ^ i + ∑ j ∈ Finset.range i, Scalar.dig naf j * 2 ^ j by ring]
      exact hS
    · rw [h, if_neg (by decide), if_neg (by decide)]
      obtain ⟨S, eS, hS⟩ := ih (by omega) Q1 (k + k) h1
      refine ⟨S, by rw [Res.ok_bind]; exact eS, ?_⟩
      rw [show k * 2 ^ (i + 1) + (∑ j ∈ Finset.range i, Scalar.dig naf j * 2 ^ j + 0 * 2 ^ i) =
        (k + k) * 2 ^ i + ∑ j ∈ Finset.range i, Scalar.dig naf j * 2 ^ j by ring]
      exact hS
    · rw [h, if_pos rfl]
      obtain ⟨Q2, e2, h2⟩ := hO.add c h1 hP
      have h3 : (k + k) • A + A = (k + k + 1) • A := (add_one_zsmul A (k + k)).symm
      rw [h3] at h2
      obtain ⟨S, eS, hS⟩ := ih (by omega) Q2 (k + k + 1) h2
      refine ⟨S, by rw [e2, Res.ok_bind]; exact eS, ?_⟩
      rw [show k * 2 ^ (i + 1) + (∑ j ∈ Finset.range i, Scalar.dig naf j * 2 ^ j + 1 * 2 ^ i) =
        (k + k + 1) * 2 ^ i + ∑ j ∈ Finset.range i, Scalar.dig naf j * 2 ^ j by ring]
      exact hS

theorem binaryNafMul_rep (hO : OpsSpec O R) (c : Cfg) (hc : c.Enough) {P : T} {A : E} (hP : R P A)
    (n : Sc) (hn : n.SCanon) : ∃ S, binaryNafMul O c P n = .ok S ∧ R S (n.val • A) := by
  obtain ⟨v, ev, hv⟩ := Scalar.computeNAF_spec c hc n hn
  have hd : ∀ j (hj : j < 256), v[j] = -1 ∨ v[j] = 0 ∨ v[j] = 1 := by
    intro j hj
    have e : Scalar.dig v j = v[j] := by unfold Scalar.dig; rw [dif_pos hj]
    have := hv.digits j (by omega)
    rw [e] at this
    norm_num at this
    omega
  obtain ⟨S, eS, hS⟩ := nafMulLoop_rep hO c hP v hd 250 (by omega) O.identity 0
    (by rw [zero_zsmul]; exact hO.identity)
  refine ⟨S, ?_, ?_⟩
  · unfold binaryNafMul
    rw [ev, Res.ok_bind, eS]
  · have hs := hv.sum
    simp only [Nat.zero_add] at hs
    rw [hs, zero_mul, zero_add, natCast_zsmul] at hS
    exact hS

theorem mulByCofactor_rep (hO : OpsSpec O R) (c : Cfg) (hc : c.Enough) {P : T} {A : E} (hP : R P A) :
    ∃ S, mulByCofactor O c P = .ok S ∧ R S (8 • A) := by
  obtain ⟨h1, h2⟩ := Scalar.fromU32_spec 8 (by decide)
  have := doubleAndAdd_rep hO c hc hP (Scalar.fromU32 8) h1.1 (Scalar.scanon_lt256 h1)
  rw [h2] at this
  exact this

theorem mulByPow2_rep (hO : OpsSpec O R) (c : Cfg) (hc : c.Enough) {P : T} {A : E} (hP : R P A)
    (k : Nat) (hk : k ≤ 249) : ∃ S, mulByPow2 O c P k = .ok S ∧ R S (2 ^ k • A) := by
  obtain ⟨s, es, cs, vs⟩ := Scalar.twoPowK_ok k hk
  obtain ⟨S, eS, hS⟩ := doubleAndAdd_rep hO c hc hP s cs.1 (Scalar.scanon_lt256 cs)
  refine ⟨S, ?_, by rw [← vs]; exact hS⟩
  unfold mulByPow2
  rw [es, Res.ok_bind, eS]

end Zerocaf
