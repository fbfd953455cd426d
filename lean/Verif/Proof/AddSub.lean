import Verif.Proof.Limbs

/-!
# Addition and subtraction on limbs
-/

set_option exponentiation.threshold 600

namespace Zerocaf

/-- `Field.sub` and `Scalar.sub` with the modulus as a parameter. -/
def subWith (l : L5) (c : Cfg) (a b : L5) : Res L5 := do
  let s0 ← Field.subStep c a.l0 b.l0 0
  let s1 ← Field.subStep c a.l1 b.l1 s0
  let s2 ← Field.subStep c a.l2 b.l2 s1
  let s3 ← Field.subStep c a.l3 b.l3 s2
  let s4 ← Field.subStep c a.l4 b.l4 s3
  let um := wsub64 ((s4 >>> 63) ^^^ 1) 1
  let c0 ← Field.subFixStep c 0 (s0 &&& mask52) l.l0 um
  let c1 ← Field.subFixStep c c0 (s1 &&& mask52) l.l1 um
  let c2 ← Field.subFixStep c c1 (s2 &&& mask52) l.l2 um
  let c3 ← Field.subFixStep c c2 (s3 &&& mask52) l.l3 um
  let c4 ← Field.subFixStep c c3 (s4 &&& mask52) l.l4 um
  return ⟨c0 &&& mask52, c1 &&& mask52, c2 &&& mask52, c3 &&& mask52, c4 &&& mask52⟩

theorem Field.sub_eq (c : Cfg) (a b : FE) : Field.sub c a b = subWith Field.FIELD_L c a b := rfl
theorem Scalar.sub_eq (c : Cfg) (a b : Sc) : Scalar.sub c a b = subWith Scalar.L c a b := rfl

theorem subFixStep_spec (c : Cfg) (k d l um : Nat) (hk : k < 2 ^ 54) (hd : d < 2 ^ 52)
    (hl : l &&& um < 2 ^ 52) :
    Field.subFixStep c k d l um = .ok (k / 2 ^ 52 + d + (l &&& um)) := by
  unfold Field.subFixStep
  rw [shr_eq, chk64_ok c (by omega)]

/-- The conditional addition of the modulus, as a carry chain. -/
theorem fixChain (c : Cfg) (d l : L5) (um : Nat) (hd : d.WF) (hl0 : l.l0 &&& um < 2 ^ 52)
    (hl1 : l.l1 &&& um < 2 ^ 52) (hl2 : l.l2 &&& um < 2 ^ 52) (hl3 : l.l3 &&& um < 2 ^ 52)
    (hl4 : l.l4 &&& um < 2 ^ 52) :
    ∃ r : L5, (do
      let c0 ← Field.subFixStep c 0 d.l0 l.l0 um
      let c1 ← Field.subFixStep c c0 d.l1 l.l1 um
      let c2 ← Field.subFixStep c c1 d.l2 l.l2 um
      let c3 ← Field.subFixStep c c2 d.l3 l.l3 um
      let c4 ← Field.subFixStep c c3 d.l4 l.l4 um
      return (⟨c0 &&& mask52, c1 &&& mask52, c2 &&& mask52, c3 &&& mask52, c4 &&& mask52⟩ : L5))
      = Res.ok r ∧ r.WF ∧
      r.val = (d.val + (⟨l.l0 &&& um, l.l1 &&& um, l.l2 &&& um, l.l3 &&& um, l.l4 &&& um⟩ : L5).val)
        % 2 ^ 260 := by
  obtain ⟨h0, h1, h2, h3, h4⟩ := hd
  rw [subFixStep_spec c _ _ _ _ (by omega) h0 hl0, Res.ok_bind,
    subFixStep_spec c _ _ _ _ (by omega) h1 hl1, Res.ok_bind,
    subFixStep_spec c _ _ _ _ (by omega) h2 hl2, Res.ok_bind,
    subFixStep_spec c _ _ _ _ (by omega) h3 hl3, Res.ok_bind,
    subFixStep_spec c _ _ _ _ (by omega) h4 hl4, Res.ok_bind]
  refine ⟨_, rfl, ?_, ?_⟩
  · simp only [L5.WF, mask52_and]; omega
  · simp only [L5.val, mask52_and]
    generalize l.l0 &&& um = m0 at *
    generalize l.l1 &&& um = m1 at *
    generalize l.l2 &&& um = m2 at *
    generalize l.l3 &&& um = m3 at *
    generalize l.l4 &&& um = m4 at *
    omega

/-- One borrow step on proper limbs: `d + b + cin = a + 2^52 * cout`. -/
theorem subStep_lin (c : Cfg) (a b s k : Nat) (ha : a < 2 ^ 52) (hb : b < 2 ^ 52) (hs : s < 2 ^ 64)
    (hk : s / 2 ^ 63 = k) :
    ∃ t k', Field.subStep c a b s = .ok t ∧ t < 2 ^ 64 ∧ t / 2 ^ 63 = k' ∧ k' ≤ 1 ∧
      t % 2 ^ 52 + b + k = a + 2 ^ 52 * k' := by
  obtain ⟨t, e, ht, h⟩ := subStep_spec c a b s (by omega) hb hs
  subst hk
  refine ⟨t, t / 2 ^ 63, e, ht, rfl, by omega, ?_⟩
  omega

/-- The last borrow step, whose limb may exceed 52 bits. -/
theorem subStep_last (c : Cfg) (a b s k : Nat) (ha : a < 2 ^ 63) (hb : b < 2 ^ 52) (hs : s < 2 ^ 64)
    (hk : s / 2 ^ 63 = k) :
    ∃ t, Field.subStep c a b s = .ok t ∧ t < 2 ^ 64 ∧
      ((t / 2 ^ 63 = 0 ∧ t + b + k = a) ∨
       (t / 2 ^ 63 = 1 ∧ t % 2 ^ 52 + b + k = a + 2 ^ 52 ∧ a < b + k)) := by
  obtain ⟨t, e, ht, h⟩ := subStep_spec c a b s ha hb hs
  subst hk
  refine ⟨t, e, ht, ?_⟩
  have : s / 2 ^ 63 ≤ 1 := by omega
  omega

theorem val_diff (a0 a1 a2 a3 a4 b0 b1 b2 b3 b4 d0 d1 d2 d3 d4 k0 k1 k2 k3 k4 : Nat)
    (q0 : d0 + b0 = a0 + 2 ^ 52 * k0) (q1 : d1 + b1 + k0 = a1 + 2 ^ 52 * k1)
    (q2 : d2 + b2 + k1 = a2 + 2 ^ 52 * k2) (q3 : d3 + b3 + k2 = a3 + 2 ^ 52 * k3)
    (q4 : d4 + b4 + k3 = a4 + 2 ^ 52 * k4) :
    (⟨d0, d1, d2, d3, d4⟩ : L5).val + (⟨b0, b1, b2, b3, b4⟩ : L5).val =
      (⟨a0, a1, a2, a3, a4⟩ : L5).val + 2 ^ 260 * k4 := by
  simp only [L5.val]; omega

theorem L5.WF.val_lt {a : L5} (h : a.WF) : a.val < 2 ^ 260 := by
  obtain ⟨h0, h1, h2, h3, h4⟩ := h
  simp only [L5.val]; omega

theorem zero_val : (⟨0, 0, 0, 0, 0⟩ : L5).val = 0 := rfl

theorem top_mod (d0 d1 d2 d3 d4 : Nat) :
    (⟨d0, d1, d2, d3, d4 % 2 ^ 52⟩ : L5).val % 2 ^ 260 = (⟨d0, d1, d2, d3, d4⟩ : L5).val % 2 ^ 260 := by
  simp only [L5.val]; omega

/-- Subtraction: exact when it does not underflow, otherwise the modulus is added (mod `2^260`). -/
theorem subWith_spec (l : L5) (c : Cfg) (a b : L5) (hl : l.WF)
    (ha0 : a.l0 < 2 ^ 52) (ha1 : a.l1 < 2 ^ 52) (ha2 : a.l2 < 2 ^ 52) (ha3 : a.l3 < 2 ^ 52)
    (ha4 : a.l4 < 2 ^ 63) (hb : b.WF) :
    ∃ r, subWith l c a b = .ok r ∧ r.WF ∧
      (b.val ≤ a.val → r.val = (a.val - b.val) % 2 ^ 260) ∧
      (a.val < b.val → r.val = (a.val + 2 ^ 260 - b.val + l.val) % 2 ^ 260) := by
  have hbv := hb.val_lt
  obtain ⟨hl0, hl1, hl2, hl3, hl4⟩ := hl
  obtain ⟨hb0, hb1, hb2, hb3, hb4⟩ := hb
  obtain ⟨s0, k0, e0, t0, j0, n0, q0⟩ := subStep_lin c a.l0 b.l0 0 0 ha0 hb0 (by omega) rfl
  obtain ⟨s1, k1, e1, t1, j1, n1, q1⟩ := subStep_lin c a.l1 b.l1 s0 k0 ha1 hb1 t0 j0
  obtain ⟨s2, k2, e2, t2, j2, n2, q2⟩ := subStep_lin c a.l2 b.l2 s1 k1 ha2 hb2 t1 j1
  obtain ⟨s3, k3, e3, t3, j3, n3, q3⟩ := subStep_lin c a.l3 b.l3 s2 k2 ha3 hb3 t2 j2
  obtain ⟨s4, e4, t4, q4⟩ := subStep_last c a.l4 b.l4 s3 k3 ha4 hb4 t3 j3
  have hd : (⟨s0 % 2 ^ 52, s1 % 2 ^ 52, s2 % 2 ^ 52, s3 % 2 ^ 52, s4 % 2 ^ 52⟩ : L5).WF :=
    ⟨Nat.mod_lt _ (by decide), Nat.mod_lt _ (by decide), Nat.mod_lt _ (by decide),
      Nat.mod_lt _ (by decide), Nat.mod_lt _ (by decide)⟩
  have hdv := hd.val_lt
  unfold subWith
  simp only [e0, e1, e2, e3, e4, Res.ok_bind, mask52_and]
  rcases underflowMask s4 t4 with ⟨hu, hm⟩ | ⟨hu, hm⟩
  · obtain ⟨r, er, wr, vr⟩ := fixChain c _ l 0 hd (by simp) (by simp) (by simp) (by simp) (by simp)
    rw [hm]
    simp only [mask52_and] at er
    have h4 : s4 + b.l4 + k3 = a.l4 := by rcases q4 with h | h <;> omega
    have e := val_diff a.l0 a.l1 a.l2 a.l3 a.l4 b.l0 b.l1 b.l2 b.l3 b.l4 _ _ _ _ s4 k0 k1 k2 k3 0
      q0 q1 q2 q3 h4
    refine ⟨r, er, wr, ?_, ?_⟩
    · intro hle
      rw [vr]
      simp only [Nat.and_zero]
      rw [zero_val, Nat.add_zero, top_mod]
      have ea : (⟨a.l0, a.l1, a.l2, a.l3, a.l4⟩ : L5).val = a.val := rfl
      have eb : (⟨b.l0, b.l1, b.l2, b.l3, b.l4⟩ : L5).val = b.val := rfl
      rw [ea, eb, Nat.mul_zero, Nat.add_zero] at e
      rw [← e, Nat.add_sub_cancel]
    · intro hlt
      exfalso
      have ea : (⟨a.l0, a.l1, a.l2, a.l3, a.l4⟩ : L5).val = a.val := rfl
      have eb : (⟨b.l0, b.l1, b.l2, b.l3, b.l4⟩ : L5).val = b.val := rfl
      rw [ea, eb] at e
      clear q0 q1 q2 q3 q4 er hm hd hdv hbv vr
      omega
  · have f0 := and_full_mask l.l0 (by omega)
    have f1 := and_full_mask l.l1 (by omega)
    have f2 := and_full_mask l.l2 (by omega)
    have f3 := and_full_mask l.l3 (by omega)
    have f4 := and_full_mask l.l4 (by omega)
    obtain ⟨r, er, wr, vr⟩ := fixChain c _ l (2 ^ 64 - 1) hd (by rw [f0]; exact hl0)
      (by rw [f1]; exact hl1) (by rw [f2]; exact hl2) (by rw [f3]; exact hl3) (by rw [f4]; exact hl4)
    rw [hm]
    rw [f0, f1, f2, f3, f4] at vr
    simp only [mask52_and] at er
    have h4 : s4 % 2 ^ 52 + b.l4 + k3 = a.l4 + 2 ^ 52 * 1 ∧ a.l4 < b.l4 + k3 := by
      rcases q4 with h | h <;> omega
    have e := val_diff a.l0 a.l1 a.l2 a.l3 a.l4 b.l0 b.l1 b.l2 b.l3 b.l4 _ _ _ _ _ k0 k1 k2 k3 1
      q0 q1 q2 q3 h4.1
    refine ⟨r, er, wr, ?_, ?_⟩
    · intro hle
      exfalso
      clear q0 q1 q2 q3 q4 er hm hd vr
      have ea : (⟨a.l0, a.l1, a.l2, a.l3, a.l4⟩ : L5).val = a.val := rfl
      have eb : (⟨b.l0, b.l1, b.l2, b.l3, b.l4⟩ : L5).val = b.val := rfl
      omega
    · intro hlt
      rw [vr]
      have ea : (⟨a.l0, a.l1, a.l2, a.l3, a.l4⟩ : L5).val = a.val := rfl
      have eb : (⟨b.l0, b.l1, b.l2, b.l3, b.l4⟩ : L5).val = b.val := rfl
      have el : (⟨l.l0, l.l1, l.l2, l.l3, l.l4⟩ : L5).val = l.val := rfl
      rw [ea, eb] at e
      rw [el]
      have : (⟨s0 % 2 ^ 52, s1 % 2 ^ 52, s2 % 2 ^ 52, s3 % 2 ^ 52, s4 % 2 ^ 52⟩ : L5).val =
        a.val + 2 ^ 260 - b.val := by omega
      rw [this]

/-- The limb sum with carries, before the final subtraction, as in `Field.add` and `Scalar.add`. -/
theorem addChain (c : Cfg) (a b : L5) (f : L5 → Res L5) (ha : a.WF) (hb : b.WF) :
    ∃ s : L5, (do
      let c0 ← chk64 c (a.l0 + b.l0 + (0 >>> 52))
      let c1 ← chk64 c (a.l1 + b.l1 + (c0 >>> 52))
      let c2 ← chk64 c (a.l2 + b.l2 + (c1 >>> 52))
      let c3 ← chk64 c (a.l3 + b.l3 + (c2 >>> 52))
      let c4 ← chk64 c (a.l4 + b.l4 + (c3 >>> 52))
      f ⟨c0 &&& mask52, c1 &&& mask52, c2 &&& mask52, c3 &&& mask52, c4 &&& mask52⟩) = f s ∧
      s.WF ∧ s.val = (a.val + b.val) % 2 ^ 260 := by
  obtain ⟨ha0, ha1, ha2, ha3, ha4⟩ := ha
  obtain ⟨hb0, hb1, hb2, hb3, hb4⟩ := hb
  simp only [shr_eq]
  rw [chk64_ok c (by omega), Res.ok_bind, chk64_ok c (by omega), Res.ok_bind,
    chk64_ok c (by omega), Res.ok_bind, chk64_ok c (by omega), Res.ok_bind,
    chk64_ok c (by omega), Res.ok_bind]
  refine ⟨_, rfl, ?_, ?_⟩
  · simp only [L5.WF, mask52_and]; omega
  · simp only [L5.val, mask52_and]; omega

end Zerocaf
