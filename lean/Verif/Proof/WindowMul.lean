import Verif.Proof.Base
import Verif.Proof.ScalarMul
import Verif.Model.Ristretto

/-!
# Windowed multiplication of the base point
-/

set_option exponentiation.threshold 600

namespace Zerocaf

theorem Ristretto.sub_rep (c : Cfg) {P Q : EdPoint} {A B : E} (hP : P.Rep A) (hQ : Q.Rep B) :
    ∃ R, Ristretto.sub c P Q = .ok R ∧ R.Rep (A - B) := by
  obtain ⟨N, eN, hN⟩ := Ed.neg_rep c hQ
  obtain ⟨R, eR, hR⟩ := Ed.add_rep c hP hN
  refine ⟨R, ?_, by rw [sub_eq_add_neg]; exact hR⟩
  show (Ed.neg c Q).bind (fun nq => Ed.add c P nq) = _
  rw [eN]; exact eR

theorem Ristretto.opsSpec : OpsSpec Ristretto.ops EdPoint.Rep :=
  ⟨Ed.identity_rep, fun c _ _ _ _ hP hQ => Ed.add_rep c hP hQ,
    fun c _ _ _ _ hP hQ => Ristretto.sub_rep c hP hQ, fun c _ _ h => Ed.double_rep c h⟩

/-- What indexing the table of odd multiples by `|k|` adds, with the sign of `k`. -/
def tableCoeff (k : Int) : Int := if k = 0 then 0 else if 0 < k then 2 * k - 1 else 2 * k + 1

namespace Ristretto

theorem tableAt_rep (i : Nat) (h1 : 1 ≤ i) (h2 : i ≤ 125) :
    ∃ P, tableAt i = .ok P ∧ P.Rep ((2 * (i : Int) - 1) • Bpt) := by
  obtain ⟨P, eP, hP⟩ := table_rep (i - 1) (by omega)
  rw [show i - 1 + 1 = i by omega] at eP
  refine ⟨P, by unfold tableAt; rw [eP]; rfl, ?_⟩
  have e : (2 * (i : Int) - 1) = ((2 * (i - 1) + 1 : ℕ) : Int) := by omega
  rw [e, natCast_zsmul]; exact hP

theorem wnafMulLoop_rep (c : Cfg) (v : Vector Int 256)
    (hd : ∀ j (hj : j < 256), |v[j]| ≤ 125) :
    ∀ (n : Nat) (hn : n ≤ 256) (Q : EdPoint) (k : Int), Q.Rep (k • Bpt) →
      ∃ S, wnafMulLoop c v n hn Q = .ok S ∧
        S.Rep ((k * 2 ^ n + ∑ j ∈ Finset.range n, tableCoeff (Scalar.dig v j) * 2 ^ j) • Bpt) := by
  intro n
  induction n with
  | zero =>
    intro hn Q k hQ
    refine ⟨Q, rfl, ?_⟩
    rw [pow_zero, mul_one, Finset.sum_range_zero, add_zero]; exact hQ
  | succ i ih =>
    intro hn Q k hQ
    obtain ⟨Q1, e1, h1⟩ := Ed.double_rep c hQ
    rw [← add_zsmul] at h1
    have hdig : Scalar.dig v i = v[i] := by unfold Scalar.dig; rw [dif_pos (by omega)]
    have b0 := hd i (by omega)
    have e1' : double c Q = .ok Q1 := e1
    rw [wnafMulLoop, e1', Res.ok_bind, Finset.sum_range_succ, hdig]
    generalize v[i] = x at *
    clear hdig
    dsimp only
    obtain ⟨b1, b2⟩ := abs_le.1 b0
    have fin : ∀ Q2 : EdPoint, Q2.Rep ((k + k + tableCoeff x) • Bpt) →
        ∃ S, wnafMulLoop c v i (by omega) Q2 = .ok S ∧ S.Rep ((k * 2 ^ (i + 1) +
          (∑ j ∈ Finset.range i, tableCoeff (Scalar.dig v j) * 2 ^ j + tableCoeff x * 2 ^ i)) • Bpt) := by
      intro Q2 h2
      obtain ⟨S, eS, hS⟩ := ih (by omega) Q2 _ h2
      refine ⟨S, eS, ?_⟩
      rw [show k * 2 ^ (i + 1) + (∑ j ∈ Finset.range i, tableCoeff (Scalar.dig v j) * 2 ^ j +
        tableCoeff x * 2 ^ i) = (k + k + tableCoeff x) * 2 ^ i +
          ∑ j ∈ Finset.range i, tableCoeff (Scalar.dig v j) * 2 ^ j by ring]
      exact hS
    rcases lt_trichotomy x 0 with h | h | h
    · rw [if_neg (by omega), if_neg (by omega)]
      have et : tableCoeff x = 2 * x + 1 := by
        unfold tableCoeff; rw [if_neg (by omega), if_neg (by omega)]
      have e3 : chkI8 c (-x) = .ok (-x) := by
        unfold chkI8; rw [if_pos (by omega)]
      have e4 : (-x % 2 ^ 64).toNat = (-x).toNat := by
        rw [Int.emod_eq_of_lt (by omega) (by norm_num; omega)]
      obtain ⟨P, eP, hP⟩ := tableAt_rep (-x).toNat (by omega) (by omega)
      obtain ⟨Q2, e2, h2⟩ := sub_rep c h1 hP
      rw [e3, Res.ok_bind]; beta_reduce; rw [e4, eP, Res.ok_bind]; beta_reduce; rw [e2, Res.ok_bind]
      apply fin Q2
      have e5 : k + k + (2 * x + 1) = (k + k) - (2 * (((-x).toNat : ℕ) : Int) - 1) := by omega
      rw [et, e5, sub_zsmul, ← sub_eq_add_neg]; exact h2
    · have et : tableCoeff x = 0 := by unfold tableCoeff; rw [if_pos h]
      rw [if_pos h, Res.ok_bind]
      apply fin Q1
      rw [et, add_zero]; exact h1
    · rw [if_neg (by omega), if_pos h]
      have et : tableCoeff x = 2 * x - 1 := by
        unfold tableCoeff; rw [if_neg (by omega), if_pos h]
      obtain ⟨P, eP, hP⟩ := tableAt_rep x.toNat (by omega) (by omega)
      obtain ⟨Q2, e2, h2⟩ := Ed.add_rep c h1 hP
      have e2' : add c Q1 P = .ok Q2 := e2
      rw [eP, Res.ok_bind]; beta_reduce; rw [e2', Res.ok_bind]
      apply fin Q2
      have e5 : (2 * ((x.toNat : ℕ) : Int) - 1) = 2 * x - 1 := by omega
      rw [e5, ← add_zsmul] at h2; rw [et]; exact h2

theorem windowNafMul_rep (c : Cfg) (n : Sc) (w : Nat) (v : Vector Int 256)
    (hv : Scalar.computeWindowNAF c n w = .ok v) (hd : ∀ j (hj : j < 256), |v[j]| ≤ 125) :
    ∃ S, windowNafMul c n w = .ok S ∧
      S.Rep ((∑ j ∈ Finset.range 250, tableCoeff (Scalar.dig v j) * 2 ^ j) • Bpt) := by
  obtain ⟨S, eS, hS⟩ := wnafMulLoop_rep c v hd 250 (by omega) identity 0
    (by rw [zero_zsmul]; exact Ed.identity_rep)
  refine ⟨S, ?_, by rw [zero_mul, zero_add] at hS; exact hS⟩
  unfold windowNafMul
  rw [hv, Res.ok_bind]; exact eS

end Ristretto

end Zerocaf
