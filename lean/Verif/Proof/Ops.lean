import Verif.Proof.Montgomery
import Mathlib.Tactic.NormNum
import Mathlib.Tactic.IntervalCases

/-!
# Integer-level specifications of the field and scalar operations
-/

set_option exponentiation.threshold 600

namespace Zerocaf

theorem FIELD_L_val : Field.FIELD_L.val = p := by decide
theorem FIELD_L_WF : Field.FIELD_L.WF := by decide
theorem SCALAR_L_val : Scalar.L.val = ell := by decide
theorem SCALAR_L_WF : Scalar.L.WF := by decide

theorem p_lt : p < 2 ^ 253 := by decide
theorem p_gt : 2 ^ 252 < p := by decide
theorem ell_lt : ell < 2 ^ 250 := by decide
theorem ell_gt : 2 ^ 249 < ell := by decide

theorem L5.Canon.wf {a : L5} (h : a.Canon) : a.WF := h.1
theorem L5.SCanon.wf {a : L5} (h : a.SCanon) : a.WF := h.1

/-- Well-formed limb vectors are determined by their value. -/
theorem L5.WF.ext {a b : L5} (ha : a.WF) (hb : b.WF) (h : a.val = b.val) : a = b := by
  obtain ⟨a0, a1, a2, a3, a4⟩ := a
  obtain ⟨b0, b1, b2, b3, b4⟩ := b
  obtain ⟨ha0, ha1, ha2, ha3, ha4⟩ := ha
  obtain ⟨hb0, hb1, hb2, hb3, hb4⟩ := hb
  simp only [L5.val] at *
  have h0 : a0 = b0 := by omega
  subst h0
  have h1 : a1 = b1 := by omega
  subst h1
  have h2 : a2 = b2 := by omega
  subst h2
  have h3 : a3 = b3 := by omega
  subst h3
  have h4 : a4 = b4 := by omega
  subst h4
  rfl

/-! ### Subtraction, addition, negation for a modulus `q < 2^259` -/

theorem subWith_canon (l : L5) (c : Cfg) (a b : L5) (hl : l.WF) (hl2 : l.val < 2 ^ 259)
    (ha : a.WF) (hb : b.WF) (ha' : a.val < 2 * l.val) (hb' : b.val ≤ l.val)
    (hab : a.val < l.val + b.val) :
    ∃ r, subWith l c a b = .ok r ∧ r.WF ∧ r.val < l.val ∧ r.val = (a.val + l.val - b.val) % l.val := by
  obtain ⟨r, er, wr, v1, v2⟩ :=
    subWith_spec l c a b hl ha.1 ha.2.1 ha.2.2.1 ha.2.2.2.1 (lt_trans ha.2.2.2.2 (by decide)) hb
  refine ⟨r, er, wr, ?_⟩
  by_cases h : b.val ≤ a.val
  · have e : r.val = a.val - b.val := by
      rw [v1 h]; exact Nat.mod_eq_of_lt (by omega)
    have : a.val + l.val - b.val = (a.val - b.val) + l.val := by omega
    rw [this, Nat.add_mod_right, Nat.mod_eq_of_lt (by omega)]
    omega
  · have e : r.val = a.val + l.val - b.val := by
      rw [v2 (by omega)]; omega
    rw [Nat.mod_eq_of_lt (by omega)]
    omega

theorem add_generic (l : L5) (c : Cfg) (a b : L5) (hl : l.WF) (hl2 : l.val < 2 ^ 259)
    (ha : a.WF) (hb : b.WF) (ha' : a.val < l.val) (hb' : b.val < l.val)
    (f : L5 → Res L5) (hf : ∀ s, f s = subWith l c s l) :
    ∃ r : L5, (do
      let c0 ← chk64 c (a.l0 + b.l0 + (0 >>> 52))
      let c1 ← chk64 c (a.l1 + b.l1 + (c0 >>> 52))
      let c2 ← chk64 c (a.l2 + b.l2 + (c1 >>> 52))
      let c3 ← chk64 c (a.l3 + b.l3 + (c2 >>> 52))
      let c4 ← chk64 c (a.l4 + b.l4 + (c3 >>> 52))
      f ⟨c0 &&& mask52, c1 &&& mask52, c2 &&& mask52, c3 &&& mask52, c4 &&& mask52⟩) = .ok r ∧
      r.WF ∧ r.val < l.val ∧ r.val = (a.val + b.val) % l.val := by
  obtain ⟨s, es, ws, vs⟩ := addChain c a b f ha hb
  have vs' : s.val = a.val + b.val := by rw [vs]; exact Nat.mod_eq_of_lt (by omega)
  obtain ⟨r, er, wr, lr, vr⟩ := subWith_canon l c s l hl hl2 ws hl (by omega) (le_refl _) (by omega)
  refine ⟨r, ?_, wr, lr, ?_⟩
  · rw [es, hf, er]
  · rw [vr, vs', Nat.add_sub_cancel]

/-! ### Multiplication, squaring -/

theorem mul_generic (l : L5) (f : Nat) (R : L5) (c : Cfg) (w : W9) (hl : l.WF)
    (hf : (l.l0 * f + 1) % 2 ^ 52 = 0) (hR : R.WF) (hRl : R.val < l.val)
    (hRR : R.val ≡ 2 ^ 260 * 2 ^ 260 [MOD l.val]) (hco : Nat.gcd l.val (2 ^ 260) = 1)
    (hw : w.Small) (hv : w.val < 2 ^ 520) :
    ∃ r, (do
      let x ← redWith l f c w
      let w' ← Field.mulInternal c x R
      redWith l f c w') = .ok r ∧ r.WF ∧ r.val < l.val ∧ r.val = w.val % l.val := by
  obtain ⟨x, ex, wx, mx, _⟩ := redWith_mod l f c w hl hf hw hv
  obtain ⟨w', ew', sw', vw'⟩ := mulInternal_spec c x R wx hR
  have hx := wx.val_lt
  have hlv := hl.val_lt
  have hlt : w'.val < 2 ^ 260 * l.val := by
    rw [vw']; exact Nat.mul_lt_mul'' hx hRl
  have hlt2 : w'.val < 2 ^ 520 := lt_trans hlt (by
    calc 2 ^ 260 * l.val < 2 ^ 260 * 2 ^ 260 := Nat.mul_lt_mul_of_pos_left hlv (by positivity)
      _ = 2 ^ 520 := by norm_num)
  obtain ⟨r, er, wr, mr, lr⟩ := redWith_mod l f c w' hl hf sw' hlt2
  refine ⟨r, ?_, wr, lr hlt, ?_⟩
  · rw [ex, Res.ok_bind, ew', Res.ok_bind, er]
  · have h1 : r.val * 2 ^ 260 ≡ w.val * 2 ^ 260 [MOD l.val] := by
      calc r.val * 2 ^ 260 ≡ w'.val [MOD l.val] := mr
        _ = x.val * R.val := vw'
        _ ≡ x.val * (2 ^ 260 * 2 ^ 260) [MOD l.val] := Nat.ModEq.mul_left _ hRR
        _ = (x.val * 2 ^ 260) * 2 ^ 260 := by ring
        _ ≡ w.val * 2 ^ 260 [MOD l.val] := Nat.ModEq.mul_right _ mx
    have h2 := Nat.ModEq.cancel_right_of_coprime hco h1
    rw [← h2, Nat.mod_eq_of_lt (lr hlt)]

/-! ### Field -/

namespace Field

theorem add_spec (c : Cfg) (a b : FE) (ha : a.Canon) (hb : b.Canon) :
    ∃ r, add c a b = .ok r ∧ r.Canon ∧ r.val = (a.val + b.val) % p := by
  have h := add_generic FIELD_L c a b FIELD_L_WF (by decide) ha.1 hb.1
    (by rw [FIELD_L_val]; exact ha.2) (by rw [FIELD_L_val]; exact hb.2)
    (fun s => sub c s FIELD_L) (fun s => sub_eq c s FIELD_L)
  rw [FIELD_L_val] at h
  obtain ⟨r, e, w, l, v⟩ := h
  exact ⟨r, e, ⟨w, l⟩, v⟩

/-- Subtraction for a minuend below `2p` (or equal to `p`) and a subtrahend at most `p`. -/
theorem sub_gen (c : Cfg) (a b : FE) (ha : a.WF) (hb : b.WF) (ha' : a.val < 2 * p)
    (hb' : b.val ≤ p) (hab : a.val < p + b.val) :
    ∃ r, sub c a b = .ok r ∧ r.Canon ∧ r.val = (a.val + p - b.val) % p := by
  have h := subWith_canon FIELD_L c a b FIELD_L_WF (by decide) ha hb
    (by rw [FIELD_L_val]; exact ha') (by rw [FIELD_L_val]; exact hb')
    (by rw [FIELD_L_val]; exact hab)
  rw [FIELD_L_val] at h
  obtain ⟨r, e, w, l, v⟩ := h
  exact ⟨r, e, ⟨w, l⟩, v⟩

theorem sub_spec (c : Cfg) (a b : FE) (ha : a.Canon) (hb : b.Canon) :
    ∃ r, sub c a b = .ok r ∧ r.Canon ∧ r.val = (a.val + p - b.val) % p :=
  sub_gen c a b ha.1 hb.1 (by have := ha.2; omega) hb.2.le (by have := ha.2; omega)

/-- Plain integer subtraction on arbitrary well-formed vectors when it does not underflow. -/
theorem sub_exact (c : Cfg) (a b : FE) (ha : a.WF) (hb : b.WF) (h : b.val ≤ a.val) :
    ∃ r, sub c a b = .ok r ∧ r.WF ∧ r.val = a.val - b.val := by
  obtain ⟨r, er, wr, v1, v2⟩ := subWith_spec FIELD_L c a b FIELD_L_WF ha.1 ha.2.1 ha.2.2.1
    ha.2.2.2.1 (lt_trans ha.2.2.2.2 (by decide)) hb
  refine ⟨r, er, wr, ?_⟩
  rw [v1 h]
  exact Nat.mod_eq_of_lt (by have := ha.val_lt; omega)

theorem zero_canon : zero.Canon := by decide
theorem one_canon : one.Canon := by decide
theorem minusOne_canon : minusOne.Canon := by decide
theorem zero_val : zero.val = 0 := rfl
theorem one_val : one.val = 1 := rfl
theorem minusOne_val : minusOne.val = p - 1 := by decide

theorem neg_spec (c : Cfg) (a : FE) (ha : a.Canon) :
    ∃ r, neg c a = .ok r ∧ r.Canon ∧ r.val = (p - a.val) % p := by
  obtain ⟨r, e, w, v⟩ := sub_spec c zero a zero_canon ha
  refine ⟨r, e, w, ?_⟩
  rw [v, zero_val, Nat.zero_add]

theorem RR_WF : RR_FIELD.WF := by decide
theorem RR_lt : RR_FIELD.val < FIELD_L.val := by decide
theorem RR_mod : RR_FIELD.val ≡ 2 ^ 260 * 2 ^ 260 [MOD FIELD_L.val] := by
  rw [FIELD_L_val]; decide +kernel
theorem FACT : (FIELD_L.l0 * LFACTOR_FIELD + 1) % 2 ^ 52 = 0 := by decide
theorem COPRIME : Nat.gcd FIELD_L.val (2 ^ 260) = 1 := by rw [FIELD_L_val]; decide +kernel

theorem montgomeryReduce_spec (c : Cfg) (w : W9) (hw : w.Small) (hv : w.val < 2 ^ 520) :
    ∃ r, montgomeryReduce c w = .ok r ∧ r.WF ∧ r.val * 2 ^ 260 ≡ w.val [MOD p] ∧
      (w.val < 2 ^ 260 * p → r.val < p) := by
  have h := redWith_mod FIELD_L LFACTOR_FIELD c w FIELD_L_WF FACT hw hv
  rw [← montgomeryReduce_eq, FIELD_L_val] at h
  exact h

theorem wf_mul_lt {a b : L5} (ha : a.WF) (hb : b.WF) : a.val * b.val < 2 ^ 520 := by
  calc a.val * b.val < 2 ^ 260 * 2 ^ 260 := Nat.mul_lt_mul'' ha.val_lt hb.val_lt
    _ = 2 ^ 520 := by norm_num

/-- Montgomery multiplication of well-formed factors. -/
theorem montgomeryMul_spec (c : Cfg) (a b : FE) (ha : a.WF) (hb : b.WF) :
    ∃ r, montgomeryMul c a b = .ok r ∧ r.WF ∧ r.val * 2 ^ 260 ≡ a.val * b.val [MOD p] ∧
      (a.val * b.val < 2 ^ 260 * p → r.val < p) := by
  obtain ⟨w, ew, sw, vw⟩ := mulInternal_spec c a b ha hb
  obtain ⟨r, er, wr, mr, lr⟩ := montgomeryReduce_spec c w sw (by rw [vw]; exact wf_mul_lt ha hb)
  refine ⟨r, ?_, wr, ?_, ?_⟩
  · rw [montgomeryMul, ew, Res.ok_bind, er]
  · rw [← vw]; exact mr
  · rw [← vw]; exact lr

theorem mul_spec (c : Cfg) (a b : FE) (ha : a.WF) (hb : b.WF) :
    ∃ r, mul c a b = .ok r ∧ r.Canon ∧ r.val = a.val * b.val % p := by
  obtain ⟨w, ew, sw, vw⟩ := mulInternal_spec c a b ha hb
  have h := mul_generic FIELD_L LFACTOR_FIELD RR_FIELD c w FIELD_L_WF FACT RR_WF RR_lt RR_mod COPRIME
    sw (by rw [vw]; exact wf_mul_lt ha hb)
  obtain ⟨r, er, wr, lr, vr⟩ := h
  rw [FIELD_L_val] at lr vr
  refine ⟨r, ?_, ⟨wr, lr⟩, by rw [vr, vw]⟩
  unfold mul
  rw [ew, Res.ok_bind]
  simp only [montgomeryReduce_eq]
  exact er

theorem square_spec (c : Cfg) (a : FE) (ha : a.WF) :
    ∃ r, square c a = .ok r ∧ r.Canon ∧ r.val = a.val * a.val % p := by
  obtain ⟨r, er, h⟩ := mul_spec c a a ha ha
  refine ⟨r, ?_, h⟩
  rw [← er]
  unfold square mul
  rw [squareInternal_eq_mul c a ha]

theorem INVERSE_MOD_TWO_spec : INVERSE_MOD_TWO.WF ∧ 2 * INVERSE_MOD_TWO.val = p + 1 := by
  decide

theorem half_spec (c : Cfg) (a : FE) (ha : a.WF) :
    ∃ r, half c a = .ok r ∧ r.Canon ∧ 2 * r.val % p = a.val % p := by
  obtain ⟨r, er, h, v⟩ := mul_spec c a INVERSE_MOD_TWO ha INVERSE_MOD_TWO_spec.1
  refine ⟨r, er, h, ?_⟩
  rw [v, Nat.mul_mod_mod]
  have : 2 * (a.val * INVERSE_MOD_TWO.val) = a.val + a.val * p := by
    have := INVERSE_MOD_TWO_spec.2
    calc 2 * (a.val * INVERSE_MOD_TWO.val) = a.val * (2 * INVERSE_MOD_TWO.val) := by ring
      _ = a.val + a.val * p := by rw [this]; ring
  rw [this, Nat.add_mul_mod_self_right]

end Field

/-! ### Halving without reduction -/

theorem or52 (l k : Nat) (hl : l < 2 ^ 52) : l ||| (2 ^ 52 * k) = l + 2 ^ 52 * k := by
  rw [Nat.or_comm, ← Nat.two_pow_add_eq_or_of_lt hl, Nat.add_comm]

theorem halfStep_spec (l k : Nat) (hl : l < 2 ^ 52) :
    Field.halfStep l (2 ^ 52 * k) = ((l + 2 ^ 52 * k) / 2, 2 ^ 52 * (l % 2)) := by
  unfold Field.halfStep shl64
  simp only [or52 l k hl, Nat.and_one_is_mod, Nat.shiftLeft_eq, Nat.shiftRight_eq_div_pow]
  have : (l + 2 ^ 52 * k) % 2 = l % 2 := by omega
  rw [this]
  refine Prod.ext (by simp) ?_
  show l % 2 * 2 ^ 52 % 2 ^ 64 = 2 ^ 52 * (l % 2)
  omega

theorem halfWithoutMod_spec (a : L5) (ha : a.WF) :
    (Field.halfWithoutMod a).WF ∧ (Field.halfWithoutMod a).val = a.val / 2 := by
  obtain ⟨h0, h1, h2, h3, h4⟩ := ha
  have e4 : Field.halfStep a.l4 0 = ((a.l4 + 2 ^ 52 * 0) / 2, 2 ^ 52 * (a.l4 % 2)) :=
    halfStep_spec a.l4 0 h4
  have e3 := halfStep_spec a.l3 (a.l4 % 2) h3
  have e2 := halfStep_spec a.l2 (a.l3 % 2) h2
  have e1 := halfStep_spec a.l1 (a.l2 % 2) h1
  have e0 := halfStep_spec a.l0 (a.l1 % 2) h0
  unfold Field.halfWithoutMod
  simp only [e4, e3, e2, e1, e0, L5.WF, L5.val]
  constructor <;> omega

theorem Scalar.halfWithoutMod_eq (a : L5) :
    Scalar.halfWithoutMod a = Field.halfWithoutMod a := rfl

/-! ### Comparison -/

theorem cmp_spec (a b : L5) (ha : a.WF) (hb : b.WF) : Field.cmp a b = compare a.val b.val := by
  obtain ⟨ha0, ha1, ha2, ha3, ha4⟩ := ha
  obtain ⟨hb0, hb1, hb2, hb3, hb4⟩ := hb
  have gt_case : ∀ x y : Nat, y < x → compare x y = .gt := fun x y h => Nat.compare_eq_gt.2 h
  have lt_case : ∀ x y : Nat, x < y → compare x y = .lt := fun x y h => Nat.compare_eq_lt.2 h
  unfold Field.cmp
  simp only [L5.val]
  split_ifs
  all_goals first
    | (rw [gt_case]; omega)
    | (rw [lt_case]; omega)
    | (symm; rw [Nat.compare_eq_eq]; omega)

theorem Scalar.cmp_eq (a b : L5) : Scalar.cmp a b = Field.cmp a b := rfl

namespace Field

theorem gt_spec (a b : FE) (ha : a.WF) (hb : b.WF) : gt a b = decide (b.val < a.val) := by
  unfold gt; rw [cmp_spec a b ha hb]
  rcases lt_trichotomy a.val b.val with h | h | h
  · rw [Nat.compare_eq_lt.2 h]; exact (decide_eq_false (by omega)).symm
  · rw [Nat.compare_eq_eq.2 h]; exact (decide_eq_false (by omega)).symm
  · rw [Nat.compare_eq_gt.2 h]; exact (decide_eq_true (by omega)).symm

theorem lt_spec (a b : FE) (ha : a.WF) (hb : b.WF) : lt a b = decide (a.val < b.val) := by
  unfold lt; rw [cmp_spec a b ha hb]
  rcases lt_trichotomy a.val b.val with h | h | h
  · rw [Nat.compare_eq_lt.2 h]; exact (decide_eq_true (by omega)).symm
  · rw [Nat.compare_eq_eq.2 h]; exact (decide_eq_false (by omega)).symm
  · rw [Nat.compare_eq_gt.2 h]; exact (decide_eq_false (by omega)).symm

theorem ge_spec (a b : FE) (ha : a.WF) (hb : b.WF) : ge a b = decide (b.val ≤ a.val) := by
  unfold ge; rw [cmp_spec a b ha hb]
  rcases lt_trichotomy a.val b.val with h | h | h
  · rw [Nat.compare_eq_lt.2 h]; exact (decide_eq_false (by omega)).symm
  · rw [Nat.compare_eq_eq.2 h]; exact (decide_eq_true (by omega)).symm
  · rw [Nat.compare_eq_gt.2 h]; exact (decide_eq_true (by omega)).symm

theorem le_spec (a b : FE) (ha : a.WF) (hb : b.WF) : le a b = decide (a.val ≤ b.val) := by
  unfold le; rw [cmp_spec a b ha hb]
  rcases lt_trichotomy a.val b.val with h | h | h
  · rw [Nat.compare_eq_lt.2 h]; exact (decide_eq_true (by omega)).symm
  · rw [Nat.compare_eq_eq.2 h]; exact (decide_eq_true (by omega)).symm
  · rw [Nat.compare_eq_gt.2 h]; exact (decide_eq_false (by omega)).symm

theorem isEven_spec (a : FE) : isEven a = decide (a.val % 2 = 0) := by
  unfold isEven
  rw [Nat.and_one_is_mod]
  have : a.val % 2 = a.l0 % 2 := by simp only [L5.val]; omega
  rw [this]; rfl

theorem isPositive_spec (a : FE) (ha : a.WF) :
    isPositive a = decide (2 * a.val ≤ p - 1) := by
  unfold isPositive
  rw [ge_spec a zero ha zero_canon.1, le_spec a POS_RANGE ha (by decide), zero_val]
  have : 2 * POS_RANGE.val = p - 1 := by decide
  rw [← this]
  simp

end Field

/-! ### Scalars -/

namespace Scalar

theorem add_spec (c : Cfg) (a b : Sc) (ha : a.SCanon) (hb : b.SCanon) :
    ∃ r, add c a b = .ok r ∧ r.SCanon ∧ r.val = (a.val + b.val) % ell := by
  have h := add_generic L c a b SCALAR_L_WF (by decide) ha.1 hb.1
    (by rw [SCALAR_L_val]; exact ha.2) (by rw [SCALAR_L_val]; exact hb.2)
    (fun s => sub c s L) (fun s => sub_eq c s L)
  rw [SCALAR_L_val] at h
  obtain ⟨r, e, w, l, v⟩ := h
  exact ⟨r, e, ⟨w, l⟩, v⟩

theorem sub_spec (c : Cfg) (a b : Sc) (ha : a.SCanon) (hb : b.SCanon) :
    ∃ r, sub c a b = .ok r ∧ r.SCanon ∧ r.val = (a.val + ell - b.val) % ell := by
  have := ha.2
  have := hb.2
  have h := subWith_canon L c a b SCALAR_L_WF (by decide) ha.1 hb.1
    (by rw [SCALAR_L_val]; omega) (by rw [SCALAR_L_val]; omega) (by rw [SCALAR_L_val]; omega)
  rw [SCALAR_L_val] at h
  obtain ⟨r, e, w, l, v⟩ := h
  exact ⟨r, e, ⟨w, l⟩, v⟩

theorem zero_canon : zero.SCanon := by decide
theorem one_canon : one.SCanon := by decide
theorem minusOne_canon : minusOne.SCanon := by decide
theorem zero_val : zero.val = 0 := rfl
theorem one_val : one.val = 1 := rfl
theorem minusOne_val : minusOne.val = ell - 1 := by decide

theorem neg_spec (c : Cfg) (a : Sc) (ha : a.SCanon) :
    ∃ r, neg c a = .ok r ∧ r.SCanon ∧ r.val = (ell - a.val) % ell := by
  obtain ⟨r, e, w, v⟩ := sub_spec c zero a zero_canon ha
  refine ⟨r, e, w, ?_⟩
  rw [v, zero_val, Nat.zero_add]

theorem RR_WF : RR.WF := by decide
theorem RR_lt : RR.val < L.val := by decide
theorem RR_mod : RR.val ≡ 2 ^ 260 * 2 ^ 260 [MOD L.val] := by
  rw [SCALAR_L_val]; decide +kernel
theorem FACT : (L.l0 * LFACTOR + 1) % 2 ^ 52 = 0 := by decide
theorem COPRIME : Nat.gcd L.val (2 ^ 260) = 1 := by rw [SCALAR_L_val]; decide +kernel

theorem mul_spec (c : Cfg) (a b : Sc) (ha : a.WF) (hb : b.WF) :
    ∃ r, mul c a b = .ok r ∧ r.SCanon ∧ r.val = a.val * b.val % ell := by
  obtain ⟨w, ew, sw, vw⟩ := mulInternal_spec c a b ha hb
  have h := mul_generic L LFACTOR RR c w SCALAR_L_WF FACT RR_WF RR_lt RR_mod COPRIME
    sw (by rw [vw]; exact Field.wf_mul_lt ha hb)
  obtain ⟨r, er, wr, lr, vr⟩ := h
  rw [SCALAR_L_val] at lr vr
  refine ⟨r, ?_, ⟨wr, lr⟩, by rw [vr, vw]⟩
  unfold mul
  simp only [mulInternal_eq, montgomeryReduce_eq]
  rw [ew, Res.ok_bind]
  exact er

theorem square_spec (c : Cfg) (a : Sc) (ha : a.WF) :
    ∃ r, square c a = .ok r ∧ r.SCanon ∧ r.val = a.val * a.val % ell := by
  obtain ⟨r, er, h⟩ := mul_spec c a a ha ha
  refine ⟨r, ?_, h⟩
  rw [← er]
  unfold square mul
  rw [squareInternal_eq, mulInternal_eq, squareInternal_eq_mul c a ha]

theorem INVERSE_MOD_TWO_spec : INVERSE_MOD_TWO.WF ∧ 2 * INVERSE_MOD_TWO.val = ell + 1 := by
  decide

theorem half_spec (c : Cfg) (a : Sc) (ha : a.WF) :
    ∃ r, half c a = .ok r ∧ r.SCanon ∧ 2 * r.val % ell = a.val % ell := by
  obtain ⟨r, er, h, v⟩ := mul_spec c a INVERSE_MOD_TWO ha INVERSE_MOD_TWO_spec.1
  refine ⟨r, er, h, ?_⟩
  rw [v, Nat.mul_mod_mod]
  have : 2 * (a.val * INVERSE_MOD_TWO.val) = a.val + a.val * ell := by
    have := INVERSE_MOD_TWO_spec.2
    calc 2 * (a.val * INVERSE_MOD_TWO.val) = a.val * (2 * INVERSE_MOD_TWO.val) := by ring
      _ = a.val + a.val * ell := by rw [this]; ring
  rw [this, Nat.add_mul_mod_self_right]

theorem gt_spec (a b : Sc) (ha : a.WF) (hb : b.WF) : gt a b = decide (b.val < a.val) :=
  Field.gt_spec a b ha hb
theorem ge_spec (a b : Sc) (ha : a.WF) (hb : b.WF) : ge a b = decide (b.val ≤ a.val) :=
  Field.ge_spec a b ha hb
theorem le_spec (a b : Sc) (ha : a.WF) (hb : b.WF) : le a b = decide (a.val ≤ b.val) :=
  Field.le_spec a b ha hb

theorem isEven_spec (a : Sc) : isEven a = decide (a.val % 2 = 0) := by
  unfold isEven
  have : a.val % 2 = a.l0 % 2 := by simp only [L5.val]; omega
  rw [this]; rfl

theorem shr_spec (a : Sc) (n : Nat) (ha : a.WF) : (shr a n).WF ∧ (shr a n).val = a.val / 2 ^ n := by
  induction n with
  | zero => exact ⟨ha, by simp [shr]⟩
  | succ n ih =>
    have h : shr a (n + 1) = Field.halfWithoutMod (shr a n) := rfl
    rw [h]
    obtain ⟨h1, h2⟩ := halfWithoutMod_spec _ ih.1
    refine ⟨h1, ?_⟩
    rw [h2, ih.2, Nat.div_div_eq_div_mul, pow_succ]

end Scalar

end Zerocaf
