import Verif.Proof.Ops

/-!
# Limb vectors whose limbs exceed 52 bits

The tuple fields of `FieldElement` and `Scalar` are public, so limbs of any size can reach the operations.
-/

set_option exponentiation.threshold 600

namespace Zerocaf

/-- All limbs are below `2^62`. -/
def L5.Wide (a : L5) : Prop := a.l0 < 2 ^ 62 ∧ a.l1 < 2 ^ 62 ∧ a.l2 < 2 ^ 62 ∧ a.l3 < 2 ^ 62 ∧ a.l4 < 2 ^ 62

instance (a : L5) : Decidable a.Wide := inferInstanceAs (Decidable (_ ∧ _))

theorem L5.WF.wide {a : L5} (h : a.WF) : a.Wide := by
  obtain ⟨h0, h1, h2, h3, h4⟩ := h
  refine ⟨?_, ?_, ?_, ?_, ?_⟩ <;> omega

/-- All words of a double-width product leave room for the carries of the reduction. -/
def W9.Med (w : W9) : Prop :=
  w.w0 ≤ 5 * 2 ^ 124 ∧ w.w1 ≤ 5 * 2 ^ 124 ∧ w.w2 ≤ 5 * 2 ^ 124 ∧ w.w3 ≤ 5 * 2 ^ 124 ∧ w.w4 ≤ 5 * 2 ^ 124 ∧
  w.w5 ≤ 5 * 2 ^ 124 ∧ w.w6 ≤ 5 * 2 ^ 124 ∧ w.w7 ≤ 5 * 2 ^ 124 ∧ w.w8 ≤ 5 * 2 ^ 124

theorem mul62 {a b : Nat} (ha : a < 2 ^ 62) (hb : b < 2 ^ 62) : a * b ≤ 2 ^ 124 := by
  calc a * b ≤ 2 ^ 62 * 2 ^ 62 := Nat.mul_le_mul ha.le hb.le
    _ = 2 ^ 124 := by norm_num

theorem adjWith_loose (l0 f : Nat) (c : Cfg) (s : Nat) (h : (l0 * f + 1) % 2 ^ 52 = 0)
    (hl : l0 < 2 ^ 52) (hs : s < 2 ^ 127) :
    ∃ k n, adjWith l0 f c s = .ok (k, n) ∧ n < 2 ^ 52 ∧ k < 2 ^ 76 ∧ k * 2 ^ 52 = s + n * l0 := by
  have e : wmul64 (lo64 s) f &&& mask52 = s * f % 2 ^ 52 := by
    rw [mask52_and, wmul64, lo64, Nat.mod_mod_of_dvd _ (by decide),
      Nat.mul_mod, Nat.mod_mod_of_dvd _ (by decide), ← Nat.mul_mod]
  have hn : s * f % 2 ^ 52 < 2 ^ 52 := Nat.mod_lt _ (by decide)
  have hd := adj_dvd l0 f s h
  have hb : (s * f % 2 ^ 52) * l0 < 2 ^ 104 := by
    calc (s * f % 2 ^ 52) * l0 < 2 ^ 52 * 2 ^ 52 := Nat.mul_lt_mul'' hn hl
      _ = 2 ^ 104 := by norm_num
  refine ⟨(s + (s * f % 2 ^ 52) * l0) / 2 ^ 52, s * f % 2 ^ 52, ?_, hn, ?_, ?_⟩
  · have hc := chk128_ok c (n := s + (s * f % 2 ^ 52) * l0) (by omega)
    simp only [adjWith, e, hc, Res.ok_bind, shr_eq, Res.pure_eq]
  · omega
  · omega

/-- Reduction divides `w + n * l` exactly by `2^260` for some `n < 2^260`, if the words leave room for carries and the
value is below `2^520`. -/
theorem redWith_loose (l : L5) (f : Nat) (c : Cfg) (w : W9) (hl : l.WF)
    (hf : (l.l0 * f + 1) % 2 ^ 52 = 0) (hw : w.Med) (hv : w.val < 2 ^ 520) :
    ∃ s n : L5, redWith l f c w = subWith l c s l ∧ n.WF ∧
      s.l0 < 2 ^ 52 ∧ s.l1 < 2 ^ 52 ∧ s.l2 < 2 ^ 52 ∧ s.l3 < 2 ^ 52 ∧ s.l4 < 2 ^ 63 ∧
      s.val * 2 ^ 260 = w.val + n.val * l.val := by
  obtain ⟨hl0, hl1, hl2, hl3, hl4⟩ := hl
  obtain ⟨h0, h1, h2, h3, h4, h5, h6, h7, h8⟩ := hw
  obtain ⟨k0, n0, e0, b0, d0, q0⟩ := adjWith_loose l.l0 f c w.w0 hf hl0 (by omega)
  have m01 := mul52 b0 hl1
  have m02 := mul52 b0 hl2
  have m03 := mul52 b0 hl3
  have m04 := mul52 b0 hl4
  have c1 := chk128_ok c (n := k0 + w.w1 + n0 * l.l1) (by omega)
  obtain ⟨k1, n1, e1, b1, d1, q1⟩ :=
    adjWith_loose l.l0 f c (k0 + w.w1 + n0 * l.l1) hf hl0 (by omega)
  have m11 := mul52 b1 hl1
  have m12 := mul52 b1 hl2
  have m13 := mul52 b1 hl3
  have m14 := mul52 b1 hl4
  have c2 := chk128_ok c (n := k1 + w.w2 + n0 * l.l2 + n1 * l.l1) (by omega)
  obtain ⟨k2, n2, e2, b2, d2, q2⟩ :=
    adjWith_loose l.l0 f c (k1 + w.w2 + n0 * l.l2 + n1 * l.l1) hf hl0 (by omega)
  have m21 := mul52 b2 hl1
  have m22 := mul52 b2 hl2
  have m23 := mul52 b2 hl3
  have m24 := mul52 b2 hl4
  have c3 := chk128_ok c (n := k2 + w.w3 + n0 * l.l3 + n1 * l.l2 + n2 * l.l1) (by omega)
  obtain ⟨k3, n3, e3, b3, d3, q3⟩ :=
    adjWith_loose l.l0 f c (k2 + w.w3 + n0 * l.l3 + n1 * l.l2 + n2 * l.l1) hf hl0 (by omega)
  have m31 := mul52 b3 hl1
  have m32 := mul52 b3 hl2
  have m33 := mul52 b3 hl3
  have m34 := mul52 b3 hl4
  have c4 := chk128_ok c
    (n := k3 + w.w4 + n0 * l.l4 + n1 * l.l3 + n2 * l.l2 + n3 * l.l1) (by omega)
  obtain ⟨k4, n4, e4, b4, d4, q4⟩ :=
    adjWith_loose l.l0 f c (k3 + w.w4 + n0 * l.l4 + n1 * l.l3 + n2 * l.l2 + n3 * l.l1) hf hl0 (by omega)
  have m41 := mul52 b4 hl1
  have m42 := mul52 b4 hl2
  have m43 := mul52 b4 hl3
  have m44 := mul52 b4 hl4
  obtain ⟨t5, u5⟩ : ∃ t, t = k4 + w.w5 + n1 * l.l4 + n2 * l.l3 + n3 * l.l2 + n4 * l.l1 := ⟨_, rfl⟩
  have z5 : t5 < 2 ^ 127 := by omega
  obtain ⟨t6, u6⟩ : ∃ t, t = t5 / 2 ^ 52 + w.w6 + n2 * l.l4 + n3 * l.l3 + n4 * l.l2 := ⟨_, rfl⟩
  have z6 : t6 < 2 ^ 127 := by omega
  obtain ⟨t7, u7⟩ : ∃ t, t = t6 / 2 ^ 52 + w.w7 + n3 * l.l4 + n4 * l.l3 := ⟨_, rfl⟩
  have z7 : t7 < 2 ^ 127 := by omega
  obtain ⟨t8, u8⟩ : ∃ t, t = t7 / 2 ^ 52 + w.w8 + n4 * l.l4 := ⟨_, rfl⟩
  have z8 : t8 < 2 ^ 127 := by omega
  have c5 := chk128_ok c (n := t5) (by omega)
  have c6 := chk128_ok c (n := t6) (by omega)
  have c7 := chk128_ok c (n := t7) (by omega)
  have c8 := chk128_ok c (n := t8) (by omega)
  have lo : ∀ t, lo64 t % 2 ^ 52 = t % 2 ^ 52 := fun t => Nat.mod_mod_of_dvd _ (by decide)
  have key : (⟨t5 % 2 ^ 52, t6 % 2 ^ 52, t7 % 2 ^ 52, t8 % 2 ^ 52, t8 / 2 ^ 52⟩ : L5).val * 2 ^ 260 =
      w.val + (⟨n0, n1, n2, n3, n4⟩ : L5).val * l.val := by
    have v5 := Nat.div_add_mod t5 (2 ^ 52)
    have v6 := Nat.div_add_mod t6 (2 ^ 52)
    have v7 := Nat.div_add_mod t7 (2 ^ 52)
    have v8 := Nat.div_add_mod t8 (2 ^ 52)
    simp only [L5.val, W9.val]
    generalize t5 / 2 ^ 52 = y5 at *
    generalize t6 / 2 ^ 52 = y6 at *
    generalize t7 / 2 ^ 52 = y7 at *
    generalize t8 / 2 ^ 52 = y8 at *
    generalize t5 % 2 ^ 52 = x5 at *
    generalize t6 % 2 ^ 52 = x6 at *
    generalize t7 % 2 ^ 52 = x7 at *
    generalize t8 % 2 ^ 52 = x8 at *
    subst u5
    zify at q0 q1 q2 q3 q4 u6 u7 u8 v5 v6 v7 v8 ⊢
    linear_combination q0 + 2 ^ 52 * q1 + 2 ^ 104 * q2 + 2 ^ 156 * q3 + 2 ^ 208 * q4 +
      2 ^ 260 * v5 + 2 ^ 312 * (v6 + u6) + 2 ^ 364 * (v7 + u7) + 2 ^ 416 * (v8 + u8)
  have hn : (⟨n0, n1, n2, n3, n4⟩ : L5).WF := ⟨b0, b1, b2, b3, b4⟩
  have hlw : l.WF := ⟨hl0, hl1, hl2, hl3, hl4⟩
  have top : t8 / 2 ^ 52 < 2 ^ 63 := by
    have h1 : (⟨n0, n1, n2, n3, n4⟩ : L5).val * l.val < 2 ^ 260 * 2 ^ 260 := Nat.mul_lt_mul'' hn.val_lt hlw.val_lt
    generalize (⟨n0, n1, n2, n3, n4⟩ : L5).val * l.val = N at *
    have h2 : t8 / 2 ^ 52 * 2 ^ 208 ≤ (⟨t5 % 2 ^ 52, t6 % 2 ^ 52, t7 % 2 ^ 52, t8 % 2 ^ 52, t8 / 2 ^ 52⟩ : L5).val := by
      simp only [L5.val]; omega
    generalize (⟨t5 % 2 ^ 52, t6 % 2 ^ 52, t7 % 2 ^ 52, t8 % 2 ^ 52, t8 / 2 ^ 52⟩ : L5).val = V at *
    generalize w.val = W at *
    clear u5 u6 u7 u8 z5 z6 z7 z8 q0 q1 q2 q3 q4
    omega
  refine ⟨⟨t5 % 2 ^ 52, t6 % 2 ^ 52, t7 % 2 ^ 52, t8 % 2 ^ 52, t8 / 2 ^ 52⟩, ⟨n0, n1, n2, n3, n4⟩,
    ?_, ⟨b0, b1, b2, b3, b4⟩, Nat.mod_lt _ (by decide), Nat.mod_lt _ (by decide),
    Nat.mod_lt _ (by decide), Nat.mod_lt _ (by decide), top, key⟩
  have l8 : lo64 (t8 / 2 ^ 52) = t8 / 2 ^ 52 := Nat.mod_eq_of_lt (by omega)
  unfold redWith
  simp only [e0, Res.ok_bind, c1, e1, c2, e2, c3, e3, c4, e4, ← u5, c5, shr_eq, ← u6, c6, ← u7, c7,
    ← u8, c8, mask52_and, lo, l8]

/-- The schoolbook product of two limb vectors with limbs below `2^62`. -/
theorem mulInternal_loose (c : Cfg) (a b : L5) (ha : a.Wide) (hb : b.Wide) :
    ∃ w, Field.mulInternal c a b = .ok w ∧ w.Med ∧ w.val = a.val * b.val := by
  obtain ⟨ha0, ha1, ha2, ha3, ha4⟩ := ha
  obtain ⟨hb0, hb1, hb2, hb3, hb4⟩ := hb
  have m00 := mul62 ha0 hb0
  have m01 := mul62 ha0 hb1
  have m02 := mul62 ha0 hb2
  have m03 := mul62 ha0 hb3
  have m04 := mul62 ha0 hb4
  have m10 := mul62 ha1 hb0
  have m11 := mul62 ha1 hb1
  have m12 := mul62 ha1 hb2
  have m13 := mul62 ha1 hb3
  have m14 := mul62 ha1 hb4
  have m20 := mul62 ha2 hb0
  have m21 := mul62 ha2 hb1
  have m22 := mul62 ha2 hb2
  have m23 := mul62 ha2 hb3
  have m24 := mul62 ha2 hb4
  have m30 := mul62 ha3 hb0
  have m31 := mul62 ha3 hb1
  have m32 := mul62 ha3 hb2
  have m33 := mul62 ha3 hb3
  have m34 := mul62 ha3 hb4
  have m40 := mul62 ha4 hb0
  have m41 := mul62 ha4 hb1
  have m42 := mul62 ha4 hb2
  have m43 := mul62 ha4 hb3
  have m44 := mul62 ha4 hb4
  unfold Field.mulInternal Field.m
  rw [chk128_ok c (by omega), Res.ok_bind, chk128_ok c (by omega), Res.ok_bind,
    chk128_ok c (by omega), Res.ok_bind, chk128_ok c (by omega), Res.ok_bind,
    chk128_ok c (by omega), Res.ok_bind, chk128_ok c (by omega), Res.ok_bind,
    chk128_ok c (by omega), Res.ok_bind, chk128_ok c (by omega), Res.ok_bind,
    chk128_ok c (by omega), Res.ok_bind]
  refine ⟨_, rfl, ?_, ?_⟩
  · refine ⟨?_, ?_, ?_, ?_, ?_, ?_, ?_, ?_, ?_⟩ <;> dsimp only <;> omega
  · simp only [L5.val, W9.val]; ring

/-- The doubled-limb squaring agrees with the schoolbook product. -/
theorem squareInternal_loose (c : Cfg) (a : L5) (ha : a.Wide) :
    Field.squareInternal c a = Field.mulInternal c a a := by
  obtain ⟨ha0, ha1, ha2, ha3, ha4⟩ := ha
  unfold Field.squareInternal Field.mulInternal Field.m
  rw [chk64_ok c (by omega), Res.ok_bind, chk64_ok c (by omega), Res.ok_bind,
    chk64_ok c (by omega), Res.ok_bind, chk64_ok c (by omega), Res.ok_bind]
  have r1 : a.l0 * 2 * a.l1 = a.l0 * a.l1 + a.l1 * a.l0 := by ring
  have r2 : a.l0 * 2 * a.l2 + a.l1 * a.l1 = a.l0 * a.l2 + a.l1 * a.l1 + a.l2 * a.l0 := by ring
  have r3 : a.l0 * 2 * a.l3 + a.l1 * 2 * a.l2 =
    a.l0 * a.l3 + a.l1 * a.l2 + a.l2 * a.l1 + a.l3 * a.l0 := by ring
  have r4 : a.l0 * 2 * a.l4 + a.l1 * 2 * a.l3 + a.l2 * a.l2 =
    a.l0 * a.l4 + a.l1 * a.l3 + a.l2 * a.l2 + a.l3 * a.l1 + a.l4 * a.l0 := by ring
  have r5 : a.l1 * 2 * a.l4 + a.l2 * 2 * a.l3 =
    a.l1 * a.l4 + a.l2 * a.l3 + a.l3 * a.l2 + a.l4 * a.l1 := by ring
  have r6 : a.l2 * 2 * a.l4 + a.l3 * a.l3 = a.l2 * a.l4 + a.l3 * a.l3 + a.l4 * a.l2 := by ring
  have r7 : a.l3 * 2 * a.l4 = a.l3 * a.l4 + a.l4 * a.l3 := by ring
  rw [r1, r2, r3, r4, r5, r6, r7]

/-- Montgomery reduction of a product bounded by `2^520`: the result is well formed and
`r * 2^260 ≡ w (mod l)`; it is reduced when `w < 2^260 * l`. -/
theorem redWith_mod_loose (l : L5) (f : Nat) (c : Cfg) (w : W9) (hl : l.WF)
    (hf : (l.l0 * f + 1) % 2 ^ 52 = 0) (hw : w.Med) (hv : w.val < 2 ^ 520) :
    ∃ r, redWith l f c w = .ok r ∧ r.WF ∧ r.val * 2 ^ 260 ≡ w.val [MOD l.val] ∧
      (w.val < 2 ^ 260 * l.val → r.val < l.val) := by
  obtain ⟨s, n, e, hn, s0, s1, s2, s3, s4, q⟩ := redWith_loose l f c w hl hf hw hv
  obtain ⟨r, er, wr, v1, v2⟩ := subWith_spec l c s l hl s0 s1 s2 s3 s4 hl
  have hlv := hl.val_lt
  have hnv := hn.val_lt
  have hm : s.val * 2 ^ 260 ≡ w.val [MOD l.val] := by
    rw [q]; exact Nat.add_mul_mod_self_right _ _ _
  have hnl : n.val * l.val ≤ (2 ^ 260 - 1) * l.val := Nat.mul_le_mul_right _ (by omega)
  have hnl' : (2 ^ 260 - 1) * l.val = 2 ^ 260 * l.val - l.val := by
    rw [Nat.sub_mul, Nat.one_mul]
  generalize hN : n.val * l.val = N at *
  have e520 : (2 : Nat) ^ 520 = 2 ^ 260 * 2 ^ 260 := by norm_num
  have hs : s.val < 2 ^ 260 + l.val := by
    rw [e520] at hv
    omega
  refine ⟨r, e.trans er, wr, ?_, ?_⟩
  · by_cases h : l.val ≤ s.val
    · have hr : r.val = s.val - l.val := by
        rw [v1 h]; exact Nat.mod_eq_of_lt (by omega)
      have : s.val = r.val + l.val := by omega
      rw [this] at hm
      refine Nat.ModEq.trans ?_ hm
      rw [Nat.add_mul]
      exact (Nat.add_mul_mod_self_left _ _ _).symm
    · have hr : r.val = s.val := by
        rw [v2 (by omega)]; omega
      rw [hr]; exact hm
  · intro hlt
    have h2 : s.val < 2 * l.val := by omega
    by_cases h : l.val ≤ s.val
    · rw [v1 h, Nat.mod_eq_of_lt (by omega)]; omega
    · rw [v2 (by omega)]; omega

theorem mul_loose (l : L5) (f : Nat) (R : L5) (c : Cfg) (w : W9) (hl : l.WF)
    (hf : (l.l0 * f + 1) % 2 ^ 52 = 0) (hR : R.WF) (hRl : R.val < l.val)
    (hRR : R.val ≡ 2 ^ 260 * 2 ^ 260 [MOD l.val]) (hco : Nat.gcd l.val (2 ^ 260) = 1)
    (hw : w.Med) (hv : w.val < 2 ^ 520) :
    ∃ r, (do
      let x ← redWith l f c w
      let w' ← Field.mulInternal c x R
      redWith l f c w') = .ok r ∧ r.WF ∧ r.val < l.val ∧ r.val = w.val % l.val := by
  obtain ⟨x, ex, wx, mx, _⟩ := redWith_mod_loose l f c w hl hf hw hv
  obtain ⟨w', ew', sw', vw'⟩ := mulInternal_spec c x R wx hR
  have hx := wx.val_lt
  have hlv := hl.val_lt
  have hlt : w'.val < 2 ^ 260 * l.val := by
    rw [vw']; exact Nat.mul_lt_mul'' hx hRl
  have hlt2 : w'.val < 2 ^ 520 := lt_trans hlt (by
    calc 2 ^ 260 * l.val < 2 ^ 260 * 2 ^ 260 := Nat.mul_lt_mul_of_pos_left hlv (by positivity)
      _ = 2 ^ 520 := by norm_num)
  obtain ⟨r, er, wr, mr, lr⟩ := redWith_mod l f c w' hl hf sw' hlt2
  refine ⟨r, ?_, wr, lr hlt, ?_⟩
  · rw [ex, Res.ok_bind, ew', Res.ok_bind, er]
  · have h1 : r.val * 2 ^ 260 ≡ w.val * 2 ^ 260 [MOD l.val] := by
      calc r.val * 2 ^ 260 ≡ w'.val [MOD l.val] := mr
        _ = x.val * R.val := vw'
        _ ≡ x.val * (2 ^ 260 * 2 ^ 260) [MOD l.val] := Nat.ModEq.mul_left _ hRR
        _ = (x.val * 2 ^ 260) * 2 ^ 260 := by ring
        _ ≡ w.val * 2 ^ 260 [MOD l.val] := Nat.ModEq.mul_right _ mx
    have h2 := Nat.ModEq.cancel_right_of_coprime hco h1
    rw [← h2, Nat.mod_eq_of_lt (lr hlt)]

/-- The limb sum with carries, before the final subtraction, for limbs below `2^62`, as in `Field.add` and `Scalar.add`. -/
theorem addChain_loose (c : Cfg) (a b : L5) (f : L5 → Res L5) (ha : a.Wide) (hb : b.Wide) :
    ∃ s : L5, (do
      let c0 ← chk64 c (a.l0 + b.l0 + (0 >>> 52))
      let c1 ← chk64 c (a.l1 + b.l1 + (c0 >>> 52))
      let c2 ← chk64 c (a.l2 + b.l2 + (c1 >>> 52))
      let c3 ← chk64 c (a.l3 + b.l3 + (c2 >>> 52))
      let c4 ← chk64 c (a.l4 + b.l4 + (c3 >>> 52))
      f ⟨c0 &&& mask52, c1 &&& mask52, c2 &&& mask52, c3 &&& mask52, c4 &&& mask52⟩) = f s ∧
      s.WF ∧ s.val = (a.val + b.val) % 2 ^ 260 := by
  obtain ⟨ha0, ha1, ha2, ha3, ha4⟩ := ha
  obtain ⟨hb0, hb1, hb2, hb3, hb4⟩ := hb
  simp only [shr_eq]
  rw [chk64_ok c (by omega), Res.ok_bind, chk64_ok c (by omega), Res.ok_bind,
    chk64_ok c (by omega), Res.ok_bind, chk64_ok c (by omega), Res.ok_bind,
    chk64_ok c (by omega), Res.ok_bind]
  refine ⟨_, rfl, ?_, ?_⟩
  · simp only [L5.WF, mask52_and]; omega
  · simp only [L5.val, mask52_and]; omega

end Zerocaf
