import Verif.Proof.AddSub
import Mathlib.Tactic.LinearCombination
import Mathlib.Tactic.Ring
import Mathlib.Tactic.Zify
import Mathlib.Data.Nat.ModEq
import Mathlib.Data.Int.ModEq

/-!
# Montgomery multiplication on limbs

`Field.montgomeryReduce` and `Scalar.montgomeryReduce` are instances of one parametric reduction.
-/

set_option exponentiation.threshold 600

namespace Zerocaf

/-- The adjustment step, parametric in the lowest limb of the modulus and the factor. -/
def adjWith (l0 f : Nat) (c : Cfg) (sum : Nat) : Res (Nat × Nat) := do
  let p := wmul64 (lo64 sum) f &&& mask52
  let t ← chk128 c (sum + p * l0)
  return (t >>> 52, p)

/-- Montgomery reduction, parametric in the modulus and the factor. -/
def redWith (l : L5) (f : Nat) (c : Cfg) (w : W9) : Res L5 := do
  let (k0, n0) ← adjWith l.l0 f c w.w0
  let t1 ← chk128 c (k0 + w.w1 + n0 * l.l1)
  let (k1, n1) ← adjWith l.l0 f c t1
  let t2 ← chk128 c (k1 + w.w2 + n0 * l.l2 + n1 * l.l1)
  let (k2, n2) ← adjWith l.l0 f c t2
  let t3 ← chk128 c (k2 + w.w3 + n0 * l.l3 + n1 * l.l2 + n2 * l.l1)
  let (k3, n3) ← adjWith l.l0 f c t3
  let t4 ← chk128 c (k3 + w.w4 + n0 * l.l4 + n1 * l.l3 + n2 * l.l2 + n3 * l.l1)
  let (k4, n4) ← adjWith l.l0 f c t4
  let t5 ← chk128 c (k4 + w.w5 + n1 * l.l4 + n2 * l.l3 + n3 * l.l2 + n4 * l.l1)
  let t6 ← chk128 c (t5 >>> 52 + w.w6 + n2 * l.l4 + n3 * l.l3 + n4 * l.l2)
  let t7 ← chk128 c (t6 >>> 52 + w.w7 + n3 * l.l4 + n4 * l.l3)
  let t8 ← chk128 c (t7 >>> 52 + w.w8 + n4 * l.l4)
  subWith l c ⟨lo64 t5 &&& mask52, lo64 t6 &&& mask52, lo64 t7 &&& mask52, lo64 t8 &&& mask52,
    lo64 (t8 >>> 52)⟩ l

theorem Scalar.montgomeryReduce_eq (c : Cfg) (w : W9) :
    Scalar.montgomeryReduce c w = redWith Scalar.L Scalar.LFACTOR c w := by
  simp only [Scalar.montgomeryReduce, redWith, Scalar.adjustmentFact, adjWith, Scalar.m,
    Scalar.montgRedRes, Scalar.sub_eq]

theorem Field.montgomeryReduce_eq (c : Cfg) (w : W9) :
    Field.montgomeryReduce c w = redWith Field.FIELD_L Field.LFACTOR_FIELD c w := by
  have h3 : Field.FIELD_L.l3 = 0 := rfl
  have mz : ∀ n : Nat, n * 0 = 0 := fun n => Nat.mul_zero n
  have az : ∀ n : Nat, n + 0 = n := fun n => Nat.add_zero n
  unfold Field.montgomeryReduce redWith
  simp only [Field.adjustmentFact, adjWith, Field.m, Field.montgRedRes, Field.sub_eq]
  generalize Field.FIELD_L = l at *
  simp only [h3, mz, az]

theorem adj_dvd (l0 f s : Nat) (h : (l0 * f + 1) % 2 ^ 52 = 0) :
    (s + (s * f % 2 ^ 52) * l0) % 2 ^ 52 = 0 := by
  have h1 : (s + (s * f % 2 ^ 52) * l0) ≡ s * (l0 * f + 1) [MOD 2 ^ 52] := by
    have : s * (l0 * f + 1) = s + (s * f) * l0 := by ring
    rw [this]
    exact Nat.ModEq.add_left _ (Nat.ModEq.mul_right _ (Nat.mod_modEq _ _))
  have h2 : s * (l0 * f + 1) ≡ s * 0 [MOD 2 ^ 52] := Nat.ModEq.mul_left _ h
  exact h1.trans h2

theorem adjWith_spec (l0 f : Nat) (c : Cfg) (s : Nat) (h : (l0 * f + 1) % 2 ^ 52 = 0)
    (hl : l0 < 2 ^ 52) (hs : s < 2 ^ 110) :
    ∃ k n, adjWith l0 f c s = .ok (k, n) ∧ n < 2 ^ 52 ∧ k < 2 ^ 59 ∧ k * 2 ^ 52 = s + n * l0 := by
  have e : wmul64 (lo64 s) f &&& mask52 = s * f % 2 ^ 52 := by
    rw [mask52_and, wmul64, lo64, Nat.mod_mod_of_dvd _ (by decide),
      Nat.mul_mod, Nat.mod_mod_of_dvd _ (by decide), ← Nat.mul_mod]
  have hn : s * f % 2 ^ 52 < 2 ^ 52 := Nat.mod_lt _ (by decide)
  have hd := adj_dvd l0 f s h
  have hb : (s * f % 2 ^ 52) * l0 < 2 ^ 104 := by
    calc (s * f % 2 ^ 52) * l0 < 2 ^ 52 * 2 ^ 52 := Nat.mul_lt_mul'' hn hl
      _ = 2 ^ 104 := by norm_num
  refine ⟨(s + (s * f % 2 ^ 52) * l0) / 2 ^ 52, s * f % 2 ^ 52, ?_, hn, ?_, ?_⟩
  · have hc := chk128_ok c (n := s + (s * f % 2 ^ 52) * l0) (by omega)
    simp only [adjWith, e, hc, Res.ok_bind, shr_eq, Res.pure_eq]
  · omega
  · omega

theorem mul52 {a b : Nat} (ha : a < 2 ^ 52) (hb : b < 2 ^ 52) : a * b ≤ 2 ^ 104 := by
  calc a * b ≤ 2 ^ 52 * 2 ^ 52 := Nat.mul_le_mul ha.le hb.le
    _ = 2 ^ 104 := by norm_num

/-- All words of a double-width product are below `2^107`. -/
def W9.Small (w : W9) : Prop :=
  w.w0 < 2 ^ 107 ∧ w.w1 < 2 ^ 107 ∧ w.w2 < 2 ^ 107 ∧ w.w3 < 2 ^ 107 ∧ w.w4 < 2 ^ 107 ∧
  w.w5 < 2 ^ 107 ∧ w.w6 < 2 ^ 107 ∧ w.w7 < 2 ^ 107 ∧ w.w8 < 2 ^ 107

/-- Reduction divides `w + n * l` exactly by `2^260` for some `n < 2^260`. -/
theorem redWith_spec (l : L5) (f : Nat) (c : Cfg) (w : W9) (hl : l.WF)
    (hf : (l.l0 * f + 1) % 2 ^ 52 = 0) (hw : w.Small) :
    ∃ s n : L5, redWith l f c w = subWith l c s l ∧ n.WF ∧
      s.l0 < 2 ^ 52 ∧ s.l1 < 2 ^ 52 ∧ s.l2 < 2 ^ 52 ∧ s.l3 < 2 ^ 52 ∧ s.l4 < 2 ^ 63 ∧
      s.val * 2 ^ 260 = w.val + n.val * l.val := by
  obtain ⟨hl0, hl1, hl2, hl3, hl4⟩ := hl
  obtain ⟨h0, h1, h2, h3, h4, h5, h6, h7, h8⟩ := hw
  obtain ⟨k0, n0, e0, b0, d0, q0⟩ := adjWith_spec l.l0 f c w.w0 hf hl0 (by omega)
  have m01 := mul52 b0 hl1
  have m02 := mul52 b0 hl2
  have m03 := mul52 b0 hl3
  have m04 := mul52 b0 hl4
  have c1 := chk128_ok c (n := k0 + w.w1 + n0 * l.l1) (by omega)
  obtain ⟨k1, n1, e1, b1, d1, q1⟩ :=
    adjWith_spec l.l0 f c (k0 + w.w1 + n0 * l.l1) hf hl0 (by omega)
  have m11 := mul52 b1 hl1
  have m12 := mul52 b1 hl2
  have m13 := mul52 b1 hl3
  have m14 := mul52 b1 hl4
  have c2 := chk128_ok c (n := k1 + w.w2 + n0 * l.l2 + n1 * l.l1) (by omega)
  obtain ⟨k2, n2, e2, b2, d2, q2⟩ :=
    adjWith_spec l.l0 f c (k1 + w.w2 + n0 * l.l2 + n1 * l.l1) hf hl0 (by omega)
  have m21 := mul52 b2 hl1
  have m22 := mul52 b2 hl2
  have m23 := mul52 b2 hl3
  have m24 := mul52 b2 hl4
  have c3 := chk128_ok c (n := k2 + w.w3 + n0 * l.l3 + n1 * l.l2 + n2 * l.l1) (by omega)
  obtain ⟨k3, n3, e3, b3, d3, q3⟩ :=
    adjWith_spec l.l0 f c (k2 + w.w3 + n0 * l.l3 + n1 * l.l2 + n2 * l.l1) hf hl0 (by omega)
  have m31 := mul52 b3 hl1
  have m32 := mul52 b3 hl2
  have m33 := mul52 b3 hl3
  have m34 := mul52 b3 hl4
  have c4 := chk128_ok c
    (n := k3 + w.w4 + n0 * l.l4 + n1 * l.l3 + n2 * l.l2 + n3 * l.l1) (by omega)
  obtain ⟨k4, n4, e4, b4, d4, q4⟩ :=
    adjWith_spec l.l0 f c (k3 + w.w4 + n0 * l.l4 + n1 * l.l3 + n2 * l.l2 + n3 * l.l1) hf hl0 (by omega)
  have m41 := mul52 b4 hl1
  have m42 := mul52 b4 hl2
  have m43 := mul52 b4 hl3
  have m44 := mul52 b4 hl4
  obtain ⟨t5, u5⟩ : ∃ t, t = k4 + w.w5 + n1 * l.l4 + n2 * l.l3 + n3 * l.l2 + n4 * l.l1 := ⟨_, rfl⟩
  have z5 : t5 < 2 ^ 109 := by omega
  obtain ⟨t6, u6⟩ : ∃ t, t = t5 / 2 ^ 52 + w.w6 + n2 * l.l4 + n3 * l.l3 + n4 * l.l2 := ⟨_, rfl⟩
  have z6 : t6 < 2 ^ 109 := by omega
  obtain ⟨t7, u7⟩ : ∃ t, t = t6 / 2 ^ 52 + w.w7 + n3 * l.l4 + n4 * l.l3 := ⟨_, rfl⟩
  have z7 : t7 < 2 ^ 109 := by omega
  obtain ⟨t8, u8⟩ : ∃ t, t = t7 / 2 ^ 52 + w.w8 + n4 * l.l4 := ⟨_, rfl⟩
  have z8 : t8 < 2 ^ 109 := by omega
  have c5 := chk128_ok c (n := t5) (by omega)
  have c6 := chk128_ok c (n := t6) (by omega)
  have c7 := chk128_ok c (n := t7) (by omega)
  have c8 := chk128_ok c (n := t8) (by omega)
  have lo : ∀ t, lo64 t % 2 ^ 52 = t % 2 ^ 52 := fun t => Nat.mod_mod_of_dvd _ (by decide)
  refine ⟨⟨t5 % 2 ^ 52, t6 % 2 ^ 52, t7 % 2 ^ 52, t8 % 2 ^ 52, t8 / 2 ^ 52⟩, ⟨n0, n1, n2, n3, n4⟩,
    ?_, ⟨b0, b1, b2, b3, b4⟩, Nat.mod_lt _ (by decide), Nat.mod_lt _ (by decide),
    Nat.mod_lt _ (by decide), Nat.mod_lt _ (by decide), by show t8 / 2 ^ 52 < 2 ^ 63; omega, ?_⟩
  · have l8 : lo64 (t8 / 2 ^ 52) = t8 / 2 ^ 52 := Nat.mod_eq_of_lt (by omega)
    unfold redWith
    simp only [e0, Res.ok_bind, c1, e1, c2, e2, c3, e3, c4, e4, ← u5, c5, shr_eq, ← u6, c6, ← u7, c7,
      ← u8, c8, mask52_and, lo, l8]
  · have v5 := Nat.div_add_mod t5 (2 ^ 52)
    have v6 := Nat.div_add_mod t6 (2 ^ 52)
    have v7 := Nat.div_add_mod t7 (2 ^ 52)
    have v8 := Nat.div_add_mod t8 (2 ^ 52)
    simp only [L5.val, W9.val]
    generalize t5 / 2 ^ 52 = y5 at *
    generalize t6 / 2 ^ 52 = y6 at *
    generalize t7 / 2 ^ 52 = y7 at *
    generalize t8 / 2 ^ 52 = y8 at *
    generalize t5 % 2 ^ 52 = x5 at *
    generalize t6 % 2 ^ 52 = x6 at *
    generalize t7 % 2 ^ 52 = x7 at *
    generalize t8 % 2 ^ 52 = x8 at *
    subst u5
    zify at q0 q1 q2 q3 q4 u6 u7 u8 v5 v6 v7 v8 ⊢
    linear_combination q0 + 2 ^ 52 * q1 + 2 ^ 104 * q2 + 2 ^ 156 * q3 + 2 ^ 208 * q4 +
      2 ^ 260 * v5 + 2 ^ 312 * (v6 + u6) + 2 ^ 364 * (v7 + u7) + 2 ^ 416 * (v8 + u8)

/-- The schoolbook product of two well-formed limb vectors. -/
theorem mulInternal_spec (c : Cfg) (a b : L5) (ha : a.WF) (hb : b.WF) :
    ∃ w, Field.mulInternal c a b = .ok w ∧ w.Small ∧ w.val = a.val * b.val := by
  obtain ⟨ha0, ha1, ha2, ha3, ha4⟩ := ha
  obtain ⟨hb0, hb1, hb2, hb3, hb4⟩ := hb
  have m00 := mul52 ha0 hb0
  have m01 := mul52 ha0 hb1
  have m02 := mul52 ha0 hb2
  have m03 := mul52 ha0 hb3
  have m04 := mul52 ha0 hb4
  have m10 := mul52 ha1 hb0
  have m11 := mul52 ha1 hb1
  have m12 := mul52 ha1 hb2
  have m13 := mul52 ha1 hb3
  have m14 := mul52 ha1 hb4
  have m20 := mul52 ha2 hb0
  have m21 := mul52 ha2 hb1
  have m22 := mul52 ha2 hb2
  have m23 := mul52 ha2 hb3
  have m24 := mul52 ha2 hb4
  have m30 := mul52 ha3 hb0
  have m31 := mul52 ha3 hb1
  have m32 := mul52 ha3 hb2
  have m33 := mul52 ha3 hb3
  have m34 := mul52 ha3 hb4
  have m40 := mul52 ha4 hb0
  have m41 := mul52 ha4 hb1
  have m42 := mul52 ha4 hb2
  have m43 := mul52 ha4 hb3
  have m44 := mul52 ha4 hb4
  unfold Field.mulInternal Field.m
  rw [chk128_ok c (by omega), Res.ok_bind, chk128_ok c (by omega), Res.ok_bind,
    chk128_ok c (by omega), Res.ok_bind, chk128_ok c (by omega), Res.ok_bind,
    chk128_ok c (by omega), Res.ok_bind, chk128_ok c (by omega), Res.ok_bind,
    chk128_ok c (by omega), Res.ok_bind, chk128_ok c (by omega), Res.ok_bind,
    chk128_ok c (by omega), Res.ok_bind]
  refine ⟨_, rfl, ?_, ?_⟩
  · refine ⟨?_, ?_, ?_, ?_, ?_, ?_, ?_, ?_, ?_⟩ <;> dsimp only <;> omega
  · simp only [L5.val, W9.val]; ring

theorem Scalar.mulInternal_eq (c : Cfg) (a b : L5) :
    Scalar.mulInternal c a b = Field.mulInternal c a b := rfl

theorem Scalar.squareInternal_eq (c : Cfg) (a : L5) :
    Scalar.squareInternal c a = Field.squareInternal c a := rfl

/-- The doubled-limb squaring agrees with the schoolbook product. -/
theorem squareInternal_eq_mul (c : Cfg) (a : L5) (ha : a.WF) :
    Field.squareInternal c a = Field.mulInternal c a a := by
  obtain ⟨ha0, ha1, ha2, ha3, ha4⟩ := ha
  unfold Field.squareInternal Field.mulInternal Field.m
  rw [chk64_ok c (by omega), Res.ok_bind, chk64_ok c (by omega), Res.ok_bind,
    chk64_ok c (by omega), Res.ok_bind, chk64_ok c (by omega), Res.ok_bind]
  have r1 : a.l0 * 2 * a.l1 = a.l0 * a.l1 + a.l1 * a.l0 := by ring
  have r2 : a.l0 * 2 * a.l2 + a.l1 * a.l1 = a.l0 * a.l2 + a.l1 * a.l1 + a.l2 * a.l0 := by ring
  have r3 : a.l0 * 2 * a.l3 + a.l1 * 2 * a.l2 =
    a.l0 * a.l3 + a.l1 * a.l2 + a.l2 * a.l1 + a.l3 * a.l0 := by ring
  have r4 : a.l0 * 2 * a.l4 + a.l1 * 2 * a.l3 + a.l2 * a.l2 =
    a.l0 * a.l4 + a.l1 * a.l3 + a.l2 * a.l2 + a.l3 * a.l1 + a.l4 * a.l0 := by ring
  have r5 : a.l1 * 2 * a.l4 + a.l2 * 2 * a.l3 =
    a.l1 * a.l4 + a.l2 * a.l3 + a.l3 * a.l2 + a.l4 * a.l1 := by ring
  have r6 : a.l2 * 2 * a.l4 + a.l3 * a.l3 = a.l2 * a.l4 + a.l3 * a.l3 + a.l4 * a.l2 := by ring
  have r7 : a.l3 * 2 * a.l4 = a.l3 * a.l4 + a.l4 * a.l3 := by ring
  rw [r1, r2, r3, r4, r5, r6, r7]

/-- Montgomery reduction of a product bounded by `2^520`: the result is well formed and
`r * 2^260 ≡ w (mod l)`; it is reduced when `w < 2^260 * l`. -/
theorem redWith_mod (l : L5) (f : Nat) (c : Cfg) (w : W9) (hl : l.WF)
    (hf : (l.l0 * f + 1) % 2 ^ 52 = 0) (hw : w.Small) (hv : w.val < 2 ^ 520) :
    ∃ r, redWith l f c w = .ok r ∧ r.WF ∧ r.val * 2 ^ 260 ≡ w.val [MOD l.val] ∧
      (w.val < 2 ^ 260 * l.val → r.val < l.val) := by
  obtain ⟨s, n, e, hn, s0, s1, s2, s3, s4, q⟩ := redWith_spec l f c w hl hf hw
  obtain ⟨r, er, wr, v1, v2⟩ := subWith_spec l c s l hl s0 s1 s2 s3 s4 hl
  have hlv := hl.val_lt
  have hnv := hn.val_lt
  have hm : s.val * 2 ^ 260 ≡ w.val [MOD l.val] := by
    rw [q]; exact Nat.add_mul_mod_self_right _ _ _
  have hnl : n.val * l.val ≤ (2 ^ 260 - 1) * l.val := Nat.mul_le_mul_right _ (by omega)
  have hnl' : (2 ^ 260 - 1) * l.val = 2 ^ 260 * l.val - l.val := by
    rw [Nat.sub_mul, Nat.one_mul]
  generalize hN : n.val * l.val = N at *
  have e520 : (2 : Nat) ^ 520 = 2 ^ 260 * 2 ^ 260 := by norm_num
  have hs : s.val < 2 ^ 260 + l.val := by
    rw [e520] at hv
    omega
  refine ⟨r, e.trans er, wr, ?_, ?_⟩
  · by_cases h : l.val ≤ s.val
    · have hr : r.val = s.val - l.val := by
        rw [v1 h]; exact Nat.mod_eq_of_lt (by omega)
      have : s.val = r.val + l.val := by omega
      rw [this] at hm
      refine Nat.ModEq.trans ?_ hm
      rw [Nat.add_mul]
      exact (Nat.add_mul_mod_self_left _ _ _).symm
    · have hr : r.val = s.val := by
        rw [v2 (by omega)]; omega
      rw [hr]; exact hm
  · intro hlt
    have h2 : s.val < 2 * l.val := by omega
    by_cases h : l.val ≤ s.val
    · rw [v1 h, Nat.mod_eq_of_lt (by omega)]; omega
    · rw [v2 (by omega)]; omega

end Zerocaf
