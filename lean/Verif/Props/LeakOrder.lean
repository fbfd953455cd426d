import Verif.Model.LeakOrder
import Verif.Proof.LeakInv
import Verif.Proof.LeakRoots
import Verif.Props.Leak
import Verif.Props.Loose
import Verif.Props.Exact

/-!
# C118: what the control flow of ordering, sign tests, decoding and random generation reveals

`Model/LeakOrder.lean` runs them with a record of their control flow. A comparison walks down the limbs until they
differ, so it shows, for each of the five prefixes of the numbers at 52-bit boundaries, how the prefixes compare, and
nothing else. Decoding a scalar compares it with `L - 1`, and the scalars below `2^249`, which are all a random scalar
can be, are not told apart by that.
-/

set_option exponentiation.threshold 600

namespace Zerocaf
namespace Props

open Leak

/-- The prefixes of `x` and `y` at 52-bit boundaries compare as those of `x'` and `y'` do. -/
def SamePrefixOrder (x y x' y' : ℕ) : Prop :=
  ∀ j < 5, compare (x / 2 ^ (52 * j)) (y / 2 ^ (52 * j)) = compare (x' / 2 ^ (52 * j)) (y' / 2 ^ (52 * j))

/-- The comparisons of the prefixes of a list of limbs. -/
def prefixOrders : Ordering → List (ℕ × ℕ) → List Ordering
  | _, [] => []
  | o, (x, y) :: r => o.then (compare x y) :: prefixOrders (o.then (compare x y)) r

theorem prefixOrders_ne {o : Ordering} (ho : o ≠ .eq) (l : List (ℕ × ℕ)) :
    prefixOrders o l = List.replicate l.length o := by
  induction l with
  | nil => rfl
  | cons q l ih =>
    have e : o.then (compare q.1 q.2) = o := by cases o <;> first | rfl | exact absurd rfl ho
    rw [prefixOrders, e, ih]
    rfl

theorem cmpLimbs_tr (x y : ℕ) (l : List (ℕ × ℕ)) : (cmpLimbs ((x, y) :: l)).tr =
    match compare x y with
    | .gt => [.br .cmpGt true]
    | .lt => [.br .cmpGt false, .br .cmpLt true]
    | .eq => .br .cmpGt false :: .br .cmpLt false :: (cmpLimbs l).tr := by
  rw [cmpLimbs, LM.tr_bind _ _ _ (br_val _ _)]
  rcases lt_trichotomy x y with h | h | h
  · have h' : ¬ x > y := by omega
    rw [Nat.compare_eq_lt.2 h, decide_eq_false h', if_neg (by simp), LM.tr_bind _ _ _ (br_val _ _),
      decide_eq_true h, if_pos rfl]
    rfl
  · subst h
    have h' : ¬ x > x := by omega
    rw [Nat.compare_eq_eq.2 rfl, decide_eq_false h', if_neg (by simp), LM.tr_bind _ _ _ (br_val _ _),
      if_neg (by simp)]
    rfl
  · rw [Nat.compare_eq_gt.2 h, decide_eq_true h, if_pos rfl]
    rfl

theorem cmpLimbs_iff : ∀ (l l' : List (ℕ × ℕ)), l.length = l'.length →
    ((cmpLimbs l).tr = (cmpLimbs l').tr ↔ prefixOrders .eq l = prefixOrders .eq l')
  | [], [], _ => by simp [prefixOrders]
  | (x, y) :: l, (x', y') :: l', h => by
    have hl : l.length = l'.length := by simpa using h
    have ih := cmpLimbs_iff l l' hl
    have e : ∀ a b : ℕ, Ordering.eq.then (compare a b) = compare a b := fun _ _ => rfl
    rw [cmpLimbs_tr, cmpLimbs_tr, prefixOrders, prefixOrders, e, e]
    rcases h1 : compare x y <;> rcases h2 : compare x' y' <;>
      simp [prefixOrders_ne, hl, ih]

theorem compare_limb (x y r s : ℕ) (hr : r < 2 ^ 52) (hs : s < 2 ^ 52) :
    compare (r + 2 ^ 52 * x) (s + 2 ^ 52 * y) = (compare x y).then (compare r s) := by
  rcases lt_trichotomy x y with h | h | h
  · rw [Nat.compare_eq_lt.2 h, Nat.compare_eq_lt.2 (by omega)]
    rfl
  · subst h
    rw [Nat.compare_eq_eq.2 rfl]
    show _ = compare r s
    rcases lt_trichotomy r s with h | h | h
    · rw [Nat.compare_eq_lt.2 h, Nat.compare_eq_lt.2 (by omega)]
    · rw [Nat.compare_eq_eq.2 h, Nat.compare_eq_eq.2 (by omega)]
    · rw [Nat.compare_eq_gt.2 h, Nat.compare_eq_gt.2 (by omega)]
  · rw [Nat.compare_eq_gt.2 h, Nat.compare_eq_gt.2 (by omega)]
    rfl

theorem prefixOrders_val (a b : L5) (ha : a.WF) (hb : b.WF) :
    prefixOrders .eq [(a.l4, b.l4), (a.l3, b.l3), (a.l2, b.l2), (a.l1, b.l1), (a.l0, b.l0)] =
      [compare (a.val / 2 ^ (52 * 4)) (b.val / 2 ^ (52 * 4)), compare (a.val / 2 ^ (52 * 3)) (b.val / 2 ^ (52 * 3)),
       compare (a.val / 2 ^ (52 * 2)) (b.val / 2 ^ (52 * 2)), compare (a.val / 2 ^ (52 * 1)) (b.val / 2 ^ (52 * 1)),
       compare (a.val / 2 ^ (52 * 0)) (b.val / 2 ^ (52 * 0))] := by
  have key : ∀ z : L5, z.WF → z.val / 2 ^ (52 * 4) = z.l4 ∧ z.val / 2 ^ (52 * 3) = z.l3 + 2 ^ 52 * z.l4 ∧
      z.val / 2 ^ (52 * 2) = z.l2 + 2 ^ 52 * (z.l3 + 2 ^ 52 * z.l4) ∧
      z.val / 2 ^ (52 * 1) = z.l1 + 2 ^ 52 * (z.l2 + 2 ^ 52 * (z.l3 + 2 ^ 52 * z.l4)) ∧
      z.val / 2 ^ (52 * 0) = z.l0 + 2 ^ 52 * (z.l1 + 2 ^ 52 * (z.l2 + 2 ^ 52 * (z.l3 + 2 ^ 52 * z.l4))) := by
    intro z hz
    obtain ⟨h0, h1, h2, h3, h4⟩ := hz
    simp only [L5.val]
    refine ⟨?_, ?_, ?_, ?_, ?_⟩ <;> omega
  obtain ⟨a4, a3, a2, a1, a0⟩ := key a ha
  obtain ⟨b4, b3, b2, b1, b0⟩ := key b hb
  obtain ⟨ha0, ha1, ha2, ha3, ha4⟩ := ha
  obtain ⟨hb0, hb1, hb2, hb3, hb4⟩ := hb
  rw [a4, a3, a2, a1, a0, b4, b3, b2, b1, b0, compare_limb _ _ _ _ ha0 hb0, compare_limb _ _ _ _ ha1 hb1,
    compare_limb _ _ _ _ ha2 hb2, compare_limb _ _ _ _ ha3 hb3]
  rfl

theorem cmp_flow (a b a' b' : L5) (ha : a.WF) (hb : b.WF) (ha' : a'.WF) (hb' : b'.WF) :
    (Leak.cmp a b).tr = (Leak.cmp a' b').tr ↔ SamePrefixOrder a.val b.val a'.val b'.val := by
  unfold Leak.cmp
  rw [cmpLimbs_iff _ _ (by simp), prefixOrders_val a b ha hb, prefixOrders_val a' b' ha' hb']
  simp only [List.cons.injEq, and_true]
  constructor
  · rintro ⟨h4, h3, h2, h1, h0⟩ j hj
    interval_cases j <;> assumption
  · intro h
    exact ⟨h 4 (by norm_num), h 3 (by norm_num), h 2 (by norm_num), h 1 (by norm_num), h 0 (by norm_num)⟩

theorem scalar_le (a b : Sc) : Scalar.le a b = Field.le a b := rfl

theorem scalar_cmp (a b : Sc) : Scalar.cmp a b = Field.cmp a b := rfl

theorem scalar_fromBytes_val (y : Bytes32) : (Leak.Scalar.fromBytes y).val = Scalar.fromBytes y := by
  unfold Leak.Scalar.fromBytes Scalar.fromBytes
  rw [LM.val_bind, le_val, Res.ok_bind]
  dsimp only
  rw [scalar_le]
  exact bindVal (rassert_val _) fun _ => LM.val_pure _

theorem field_random_val (y : Bytes32) : (Leak.Field.random y).val = .ok (Field.random y) := by
  unfold Leak.Field.random
  exact LM.val_pure _

theorem field_toMontgomery_val (c : Cfg) (a : FE) : (Leak.Field.toMontgomery c a).val = Field.toMontgomery c a := by
  unfold Leak.Field.toMontgomery Field.toMontgomery
  exact Leak.Field.montgomeryMul_val c a _

theorem field_fromMontgomery_val (c : Cfg) (a : FE) :
    (Leak.Field.fromMontgomery c a).val = Field.fromMontgomery c a := by
  unfold Leak.Field.fromMontgomery Field.fromMontgomery
  exact Leak.Field.montgomeryReduce_val c _

theorem scalar_toMontgomery_val (c : Cfg) (s : Sc) :
    (Leak.Scalar.toMontgomery c s).val = Scalar.toMontgomery c s := by
  unfold Leak.Scalar.toMontgomery Leak.Scalar.montgomeryMul Scalar.toMontgomery Scalar.montgomeryMul
  exact bindVal (Leak.Scalar.mulInternal_val c _ _) fun _ => Leak.Scalar.montgomeryReduce_val c _

theorem scalar_fromMontgomery_val (c : Cfg) (s : Sc) :
    (Leak.Scalar.fromMontgomery c s).val = Scalar.fromMontgomery c s := by
  unfold Leak.Scalar.fromMontgomery Scalar.fromMontgomery
  exact Leak.Scalar.montgomeryReduce_val c _

theorem scalar_random_val (y : Bytes32) : (Leak.Scalar.random y).val = Scalar.random y := by
  unfold Leak.Scalar.random Scalar.random
  exact scalar_fromBytes_val _

/-- C118: forgetting the record gives the functions of the model. -/
theorem C118_record_is_faithful (c : Cfg) (a b : FE) (s t : Sc) (y : Bytes32) (z : Bytes64) :
    ((Leak.cmp a b).val = .ok (Field.cmp a b) ∧ (Leak.lt a b).val = .ok (Field.lt a b) ∧
      (Leak.le a b).val = .ok (Field.le a b) ∧ (Leak.gt a b).val = .ok (Field.gt a b) ∧
      (Leak.ge a b).val = .ok (Field.ge a b) ∧ (Leak.Field.isPositive a).val = .ok (Field.isPositive a) ∧
      (Leak.Field.random y).val = .ok (Field.random y) ∧
      (Leak.Field.toMontgomery c a).val = Field.toMontgomery c a ∧
      (Leak.Field.fromMontgomery c a).val = Field.fromMontgomery c a) ∧
    ((Leak.cmp s t).val = .ok (Scalar.cmp s t) ∧ (Leak.Scalar.fromBytes y).val = Scalar.fromBytes y ∧
      (Leak.Scalar.random y).val = Scalar.random y ∧ (Leak.Scalar.fromBytesWide z).val = Scalar.fromBytesWide z ∧
      (Leak.Scalar.toMontgomery c s).val = Scalar.toMontgomery c s ∧
      (Leak.Scalar.fromMontgomery c s).val = Scalar.fromMontgomery c s) :=
  ⟨⟨cmp_val a b, lt_val a b, le_val a b, gt_val a b, ge_val a b, Leak.Field.isPositive_val a, field_random_val y,
    field_toMontgomery_val c a, field_fromMontgomery_val c a⟩,
   ⟨(cmp_val s t).trans (by rw [scalar_cmp]), scalar_fromBytes_val y, scalar_random_val y, rfl,
    scalar_toMontgomery_val c s, scalar_fromMontgomery_val c s⟩⟩

theorem pure_tr {α β : Type} (m : LM α) (f : α → β) {x : α} (h : m.val = .ok x) :
    (m >>= fun o => (pure (f o) : LM β)).tr = m.tr := by
  rw [LM.tr_bind _ _ _ h]
  exact List.append_nil _

/-- C118: a comparison of elements with limbs below `2^52` shows exactly how their prefixes at 52-bit boundaries
compare, whichever of the five comparisons is asked for; field elements and scalars share the code. -/
theorem C118_order (a b a' b' : L5) (ha : a.WF) (hb : b.WF) (ha' : a'.WF) (hb' : b'.WF) :
    (SameFlow (Leak.cmp a b) (Leak.cmp a' b') ↔ SamePrefixOrder a.val b.val a'.val b'.val) ∧
    (SameFlow (Leak.lt a b) (Leak.lt a' b') ↔ SamePrefixOrder a.val b.val a'.val b'.val) ∧
    (SameFlow (Leak.le a b) (Leak.le a' b') ↔ SamePrefixOrder a.val b.val a'.val b'.val) ∧
    (SameFlow (Leak.gt a b) (Leak.gt a' b') ↔ SamePrefixOrder a.val b.val a'.val b'.val) ∧
    (SameFlow (Leak.ge a b) (Leak.ge a' b') ↔ SamePrefixOrder a.val b.val a'.val b'.val) := by
  have h := cmp_flow a b a' b' ha hb ha' hb'
  refine ⟨h, ?_, ?_, ?_, ?_⟩
  · unfold SameFlow Leak.lt
    rw [pure_tr _ _ (cmp_val a b), pure_tr _ _ (cmp_val a' b')]
    exact h
  · unfold SameFlow Leak.le
    rw [pure_tr _ _ (cmp_val a b), pure_tr _ _ (cmp_val a' b')]
    exact h
  · unfold SameFlow Leak.gt
    rw [pure_tr _ _ (cmp_val a b), pure_tr _ _ (cmp_val a' b')]
    exact h
  · unfold SameFlow Leak.ge
    rw [pure_tr _ _ (cmp_val a b), pure_tr _ _ (cmp_val a' b')]
    exact h

/-- `5 < 2^52` and `9 < 2^52` are told from `5 < 9`, but not from each other. -/
example : SamePrefixOrder 5 (2 ^ 52) 9 (2 ^ 52) ∧ ¬ SamePrefixOrder 5 (2 ^ 52) 5 9 := by
  refine ⟨by unfold SamePrefixOrder; decide, fun h => ?_⟩
  have := h 1 (by norm_num)
  revert this
  decide

theorem cmp_allCmp (a b : L5) : AllCmp (Leak.cmp a b).tr := cmpLimbs_allCmp _

theorem isPositive_tr (a : FE) (ha : a.WF) : (Leak.Field.isPositive a).tr =
    (Leak.cmp a Field.zero).tr ++ .br .posGe true :: ((Leak.cmp a Field.POS_RANGE).tr ++
      [.br .posLe (decide (a.val ≤ (p - 1) / 2))]) := by
  have h0 : Field.ge a Field.zero = true := by
    rw [Field.ge_spec a _ ha Field.zero_canon.1, Field.zero_val]
    exact decide_eq_true (Nat.zero_le _)
  have h1 : Field.le a Field.POS_RANGE = decide (a.val ≤ (p - 1) / 2) := by
    rw [Field.le_spec a _ ha (by decide)]
    congr 2
  have t0 : (Leak.ge a Field.zero).tr = (Leak.cmp a Field.zero).tr := by
    unfold Leak.ge
    exact pure_tr _ _ (cmp_val _ _)
  have t1 : (Leak.le a Field.POS_RANGE).tr = (Leak.cmp a Field.POS_RANGE).tr := by
    unfold Leak.le
    exact pure_tr _ _ (cmp_val _ _)
  unfold Leak.Field.isPositive
  rw [LM.tr_bind _ _ _ (ge_val _ _), LM.tr_bind _ _ _ (br_val _ _), h0, if_pos rfl, LM.tr_bind _ _ _ (le_val _ _),
    t0, t1, h1]
  rfl

/-- C118: the sign test compares with zero and with `(p - 1) / 2`, and shows exactly which of the five prefixes are
zero and how the prefixes compare with those of `(p - 1) / 2`. -/
theorem C118_is_positive (a a' : FE) (ha : a.WF) (ha' : a'.WF) :
    SameFlow (Leak.Field.isPositive a) (Leak.Field.isPositive a') ↔
      SamePrefixOrder a.val 0 a'.val 0 ∧ SamePrefixOrder a.val ((p - 1) / 2) a'.val ((p - 1) / 2) := by
  have hz : Field.zero.val = 0 := Field.zero_val
  have hr : Field.POS_RANGE.val = (p - 1) / 2 := by decide
  have i0 := cmp_flow a Field.zero a' Field.zero ha Field.zero_canon.1 ha' Field.zero_canon.1
  have i1 := cmp_flow a Field.POS_RANGE a' Field.POS_RANGE ha (by decide) ha' (by decide)
  rw [hz] at i0
  rw [hr] at i1
  unfold SameFlow
  rw [isPositive_tr a ha, isPositive_tr a' ha', ← i0, ← i1]
  constructor
  · intro h
    have s0 := cmp_split (cmp_allCmp _ _) (cmp_allCmp _ _) rfl rfl h
    have e0 : (Leak.cmp a Field.zero).tr = (Leak.cmp a' Field.zero).tr := by
      rw [s0.2] at h
      exact List.append_cancel_right h
    have s1 := cmp_split (cmp_allCmp _ _) (cmp_allCmp _ _) rfl rfl s0.2
    have h' := s0.2
    rw [s1.1] at h'
    exact ⟨e0, List.append_cancel_right h'⟩
  · rintro ⟨e0, e1⟩
    have h := (i1.1 e1) 0 (by norm_num)
    simp only [Nat.mul_zero, pow_zero, Nat.div_one] at h
    have hd : decide (a.val ≤ (p - 1) / 2) = decide (a'.val ≤ (p - 1) / 2) := by
      rw [decide_eq_decide, ← Nat.compare_ne_gt, ← Nat.compare_ne_gt, h]
    rw [e0, e1, hd]

/-- The signs of two elements with a nonzero top limb, one a little and one much smaller than `(p - 1) / 2`, are not
told apart; that of one is told from those. -/
example : (SamePrefixOrder (2 ^ 250) 0 (2 ^ 230) 0 ∧
      SamePrefixOrder (2 ^ 250) ((p - 1) / 2) (2 ^ 230) ((p - 1) / 2)) ∧ ¬ SamePrefixOrder (2 ^ 250) 0 1 0 := by
  refine ⟨⟨by unfold SamePrefixOrder; decide, by unfold SamePrefixOrder; decide⟩, fun h => ?_⟩
  have := h 1 (by norm_num)
  revert this
  decide

theorem scalar_fromBytes_tr (b : Bytes32) : (Leak.Scalar.fromBytes b).tr =
    (Leak.cmp (Scalar.unpack b) Scalar.minusOne).tr ++ [.br .assert (decide (bytesVal b ≤ ell - 1))] := by
  obtain ⟨w, v⟩ := Scalar.unpack_spec b
  have h1 : Field.le (Scalar.unpack b) Scalar.minusOne = decide (bytesVal b ≤ ell - 1) := by
    rw [← scalar_le, Scalar.le_spec _ _ w Scalar.minusOne_canon.1, v, Scalar.minusOne_val]
  have t1 : (Leak.le (Scalar.unpack b) Scalar.minusOne).tr = (Leak.cmp (Scalar.unpack b) Scalar.minusOne).tr := by
    unfold Leak.le
    exact pure_tr _ _ (cmp_val _ _)
  unfold Leak.Scalar.fromBytes
  dsimp only
  rw [LM.tr_bind _ _ _ (le_val _ _), t1, h1]
  congr 1
  by_cases h : bytesVal b ≤ ell - 1
  · rw [decide_eq_true h]
    rfl
  · rw [decide_eq_false h]
    rfl

/-- C118: decoding a scalar, accepted or not, shows exactly how the prefixes of the encoded number compare with those
of `L - 1`. -/
theorem C118_scalar_decoding (b b' : Bytes32) :
    SameFlow (Leak.Scalar.fromBytes b) (Leak.Scalar.fromBytes b') ↔
      SamePrefixOrder (bytesVal b) (ell - 1) (bytesVal b') (ell - 1) := by
  obtain ⟨w, v⟩ := Scalar.unpack_spec b
  obtain ⟨w', v'⟩ := Scalar.unpack_spec b'
  have i1 := cmp_flow _ Scalar.minusOne _ Scalar.minusOne w Scalar.minusOne_canon.1 w' Scalar.minusOne_canon.1
  rw [v, v', Scalar.minusOne_val] at i1
  unfold SameFlow
  rw [scalar_fromBytes_tr, scalar_fromBytes_tr, ← i1]
  constructor
  · intro h
    have s := cmp_split (cmp_allCmp _ _) (cmp_allCmp _ _) rfl rfl h
    rw [s.1] at h
    exact List.append_cancel_right h
  · intro e
    have h := (i1.1 e) 0 (by norm_num)
    simp only [Nat.mul_zero, pow_zero, Nat.div_one] at h
    have hd : decide (bytesVal b ≤ ell - 1) = decide (bytesVal b' ≤ ell - 1) := by
      rw [decide_eq_decide, ← Nat.compare_ne_gt, ← Nat.compare_ne_gt, h]
    rw [e, hd]

theorem below_order (x y : ℕ) (hx : x < 2 ^ 249) (hy : y < 2 ^ 249) :
    SamePrefixOrder x (ell - 1) y (ell - 1) := by
  have he : (ell - 1) / 2 ^ 208 = 2 ^ 41 := by decide
  have key : ∀ z j, z < 2 ^ 249 → j < 5 → compare (z / 2 ^ (52 * j)) ((ell - 1) / 2 ^ (52 * j)) = .lt := by
    intro z j hz hj
    rw [Nat.compare_eq_lt]
    have h0 : 2 ^ 249 ≤ ell - 1 := by decide
    interval_cases j
    · simpa using lt_of_lt_of_le hz h0
    · have : (ell - 1) / 2 ^ (52 * 1) ≥ 2 ^ 249 / 2 ^ (52 * 1) := Nat.div_le_div_right h0
      omega
    · have : (ell - 1) / 2 ^ (52 * 2) ≥ 2 ^ 249 / 2 ^ (52 * 2) := Nat.div_le_div_right h0
      omega
    · have : (ell - 1) / 2 ^ (52 * 3) ≥ 2 ^ 249 / 2 ^ (52 * 3) := Nat.div_le_div_right h0
      omega
    · have : (ell - 1) / 2 ^ (52 * 4) ≥ 2 ^ 249 / 2 ^ (52 * 4) := Nat.div_le_div_right h0
      omega
  intro j hj
  rw [key x j hx hj, key y j hy hj]

/-- C118: so decoding does not tell apart scalars below `2^249`. It tells them from all others: the control flow shows
exactly whether an encoded number is below `2^249`, and the numbers from there on in classes. -/
theorem C118_scalar_decoding_small (b b' : Bytes32) (h : bytesVal b < 2 ^ 249) :
    SameFlow (Leak.Scalar.fromBytes b) (Leak.Scalar.fromBytes b') ↔ bytesVal b' < 2 ^ 249 := by
  rw [C118_scalar_decoding]
  constructor
  · intro hs
    have h4 := hs 4 (by norm_num)
    have he : (ell - 1) / 2 ^ (52 * 4) = 2 ^ 41 := by decide
    rw [he, Nat.compare_eq_lt.2 (by omega)] at h4
    have := Nat.compare_eq_lt.1 h4.symm
    omega
  · exact below_order _ _ h

/-- From `2^249` on accepted scalars are told apart: `2^249` from `L - 1`, and both from a rejected number. -/
example : ¬ SamePrefixOrder (2 ^ 249) (ell - 1) (ell - 1) (ell - 1) ∧
    ¬ SamePrefixOrder (2 ^ 249) (ell - 1) ell (ell - 1) ∧ ¬ SamePrefixOrder (ell - 1) (ell - 1) ell (ell - 1) := by
  refine ⟨fun h => ?_, fun h => ?_, fun h => ?_⟩ <;>
  · have := h 0 (by norm_num)
    revert this
    decide

/-- C118: generating a random scalar or field element shows nothing about it. -/
theorem C118_random (b b' : Bytes32) :
    SameFlow (Leak.Scalar.random b) (Leak.Scalar.random b') ∧
      SameFlow (Leak.Field.random b) (Leak.Field.random b') := by
  refine ⟨?_, rfl⟩
  have hlt : ∀ b : Bytes32, bytesVal (b.set 31 (b[31] &&& 0b00000001)) < 2 ^ 249 := by
    intro b
    have h' := mask_low b 1 0b00000001 (by decide +kernel)
    rw [show (2 : ℕ) ^ 248 * 2 ^ 1 = 2 ^ 249 by norm_num] at h'
    rw [h']
    exact Nat.mod_lt _ (by positivity)
  exact (C118_scalar_decoding_small _ _ (hlt b)).2 (hlt b')

/-- C118: entering and leaving Montgomery form shows nothing about elements with limbs below `2^52`, in every build, and
nothing about any limbs in release builds. -/
theorem C118_montgomery (c : Cfg) (a a' : FE) (s s' : Sc)
    (h : (a.WF ∧ a'.WF ∧ s.WF ∧ s'.WF) ∨ c.debug = false) :
    SameFlow (Leak.Field.toMontgomery c a) (Leak.Field.toMontgomery c a') ∧
    SameFlow (Leak.Field.fromMontgomery c a) (Leak.Field.fromMontgomery c a') ∧
    SameFlow (Leak.Scalar.toMontgomery c s) (Leak.Scalar.toMontgomery c s') ∧
    SameFlow (Leak.Scalar.fromMontgomery c s) (Leak.Scalar.fromMontgomery c s') := by
  obtain ⟨t1, k1⟩ := Leak.Field.montgomeryMul_ct c
  obtain ⟨t2, k2⟩ := Leak.Field.montgomeryReduce_ct c
  obtain ⟨t3, k3⟩ := Leak.Scalar.mulInternal_ct c
  obtain ⟨t4, k4⟩ := Leak.Scalar.montgomeryReduce_ct c
  have f1 : ∀ x, Const c (Leak.Field.toMontgomery c x) t1 := fun x => k1 _ _
  have f2 : ∀ x, Const c (Leak.Field.fromMontgomery c x) t2 := fun x => k2 _
  have f3 : ∀ x, Const c (Leak.Scalar.toMontgomery c x) (t3 ++ t4) := by
    intro x
    unfold Leak.Scalar.toMontgomery Leak.Scalar.montgomeryMul
    exact (k3 _ _).bind fun _ => k4 _
  have f4 : ∀ x, Const c (Leak.Scalar.fromMontgomery c x) t4 := fun x => k4 _
  rcases h with ⟨ha, ha', hs, hs'⟩ | hc
  · obtain ⟨m, _, r, em, -, -, -, -, -, er, -⟩ := C101_field c a ha
    obtain ⟨m', _, r', em', -, -, -, -, -, er', -⟩ := C101_field c a' ha'
    obtain ⟨u, _, v, eu, -, -, -, -, -, ev, -⟩ := C101_scalar c s hs
    obtain ⟨u', _, v', eu', -, -, -, -, -, ev', -⟩ := C101_scalar c s' hs'
    obtain ⟨⟨-, -, -, -, -, -, -, g1, g2⟩, -, -, -, -, g3, g4⟩ :=
      C118_record_is_faithful c a a s s (Vector.replicate 32 0) (Vector.replicate 64 0)
    obtain ⟨⟨-, -, -, -, -, -, -, g1', g2'⟩, -, -, -, -, g3', g4'⟩ :=
      C118_record_is_faithful c a' a' s' s' (Vector.replicate 32 0) (Vector.replicate 64 0)
    exact ⟨sameFlow_ok (f1 a) (f1 a') (g1.trans em) (g1'.trans em'),
      sameFlow_ok (f2 a) (f2 a') (g2.trans er) (g2'.trans er'),
      sameFlow_ok (f3 s) (f3 s') (g3.trans eu) (g3'.trans eu'),
      sameFlow_ok (f4 s) (f4 s') (g4.trans ev) (g4'.trans ev')⟩
  · exact ⟨sameFlow_rel hc (f1 a) (f1 a'), sameFlow_rel hc (f2 a) (f2 a'), sameFlow_rel hc (f3 s) (f3 s'),
      sameFlow_rel hc (f4 s) (f4 s')⟩

end Props
end Zerocaf
