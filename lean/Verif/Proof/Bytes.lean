import Verif.Proof.Ops

/-!
# Byte encodings
-/

set_option exponentiation.threshold 600

namespace Zerocaf

theorem or_shift (k a b : Nat) (ha : a < 2 ^ k) : a ||| (b <<< k) = a + 2 ^ k * b := by
  rw [Nat.or_comm, Nat.shiftLeft_eq, Nat.mul_comm, ← Nat.two_pow_add_eq_or_of_lt ha, Nat.add_comm]

theorem u8_lt (b : UInt8) : b.toNat < 256 := b.toNat_lt

theorem load8_spec (b0 b1 b2 b3 b4 b5 b6 b7 : UInt8) :
    Field.load8 b0 b1 b2 b3 b4 b5 b6 b7 = b0.toNat + 2 ^ 8 * b1.toNat + 2 ^ 16 * b2.toNat +
      2 ^ 24 * b3.toNat + 2 ^ 32 * b4.toNat + 2 ^ 40 * b5.toNat + 2 ^ 48 * b6.toNat +
      2 ^ 56 * b7.toNat := by
  have h0 := u8_lt b0
  have h1 := u8_lt b1
  have h2 := u8_lt b2
  have h3 := u8_lt b3
  have h4 := u8_lt b4
  have h5 := u8_lt b5
  have h6 := u8_lt b6
  unfold Field.load8
  rw [or_shift 8 _ _ (by omega), or_shift 16 _ _ (by omega), or_shift 24 _ _ (by omega),
    or_shift 32 _ _ (by omega), or_shift 40 _ _ (by omega), or_shift 48 _ _ (by omega),
    or_shift 56 _ _ (by omega)]

theorem loadWord_spec (b0 b1 b2 b3 b4 b5 b6 b7 : UInt8) :
    Scalar.loadWord b0 b1 b2 b3 b4 b5 b6 b7 = b0.toNat + 2 ^ 8 * b1.toNat + 2 ^ 16 * b2.toNat +
      2 ^ 24 * b3.toNat + 2 ^ 32 * b4.toNat + 2 ^ 40 * b5.toNat + 2 ^ 48 * b6.toNat +
      2 ^ 56 * b7.toNat := by
  rw [← load8_spec]
  unfold Scalar.loadWord Field.load8
  rw [Nat.shiftLeft_zero, Nat.zero_or]

theorem toList32 (b : Bytes32) : b.toList =
    [b[0], b[1], b[2], b[3], b[4], b[5], b[6], b[7], b[8], b[9], b[10], b[11], b[12], b[13], b[14],
     b[15], b[16], b[17], b[18], b[19], b[20], b[21], b[22], b[23], b[24], b[25], b[26], b[27],
     b[28], b[29], b[30], b[31]] := by
  apply List.ext_getElem
  · simp
  · intro i h1 h2
    simp only [Vector.length_toList] at h1
    rw [Vector.getElem_toList]
    interval_cases i <;> rfl

theorem leNat_append (xs ys : List UInt8) :
    leNat (xs ++ ys) = leNat xs + 256 ^ xs.length * leNat ys := by
  induction xs with
  | nil => simp [leNat]
  | cons x xs ih => simp only [List.cons_append, leNat, ih, List.length_cons, pow_succ]; ring

theorem leNat_lt (xs : List UInt8) : leNat xs < 256 ^ xs.length := by
  induction xs with
  | nil => simp [leNat]
  | cons x xs ih =>
    have := u8_lt x
    simp only [leNat, List.length_cons, pow_succ]; omega

theorem bytesVal_lt (b : Bytes32) : bytesVal b < 2 ^ 256 := by
  have h := leNat_lt b.toList
  rw [Vector.length_toList] at h
  exact lt_of_lt_of_eq h (by norm_num)

/-- Byte strings are determined by the integer they denote. -/
theorem leNat_inj : ∀ xs ys : List UInt8, xs.length = ys.length → leNat xs = leNat ys → xs = ys
  | [], [], _, _ => rfl
  | [], _ :: _, h, _ => by simp at h
  | _ :: _, [], h, _ => by simp at h
  | x :: xs, y :: ys, h, e => by
    have hx := u8_lt x
    have hy := u8_lt y
    simp only [leNat] at e
    have e1 : x.toNat = y.toNat := by omega
    have e2 : leNat xs = leNat ys := by omega
    rw [UInt8.toNat_inj.1 e1, leNat_inj xs ys (by simpa using h) e2]

theorem bytesVal_inj {n : Nat} {a b : Vector UInt8 n} (h : bytesVal a = bytesVal b) : a = b := by
  have := leNat_inj a.toList b.toList (by simp) h
  exact Vector.toList_inj.1 this

theorem bytesVal_expand (b : Bytes32) : bytesVal b =
    b[0].toNat + 2 ^ 8 * b[1].toNat + 2 ^ 16 * b[2].toNat + 2 ^ 24 * b[3].toNat +
    2 ^ 32 * b[4].toNat + 2 ^ 40 * b[5].toNat + 2 ^ 48 * b[6].toNat + 2 ^ 56 * b[7].toNat +
    2 ^ 64 * b[8].toNat + 2 ^ 72 * b[9].toNat + 2 ^ 80 * b[10].toNat + 2 ^ 88 * b[11].toNat +
    2 ^ 96 * b[12].toNat + 2 ^ 104 * b[13].toNat + 2 ^ 112 * b[14].toNat + 2 ^ 120 * b[15].toNat +
    2 ^ 128 * b[16].toNat + 2 ^ 136 * b[17].toNat + 2 ^ 144 * b[18].toNat + 2 ^ 152 * b[19].toNat +
    2 ^ 160 * b[20].toNat + 2 ^ 168 * b[21].toNat + 2 ^ 176 * b[22].toNat + 2 ^ 184 * b[23].toNat +
    2 ^ 192 * b[24].toNat + 2 ^ 200 * b[25].toNat + 2 ^ 208 * b[26].toNat + 2 ^ 216 * b[27].toNat +
    2 ^ 224 * b[28].toNat + 2 ^ 232 * b[29].toNat + 2 ^ 240 * b[30].toNat + 2 ^ 248 * b[31].toNat := by
  unfold bytesVal
  rw [toList32]
  simp only [leNat]
  ring

/-! ### Limb extraction -/

theorem limbA (b0 b1 b2 b3 b4 b5 b6 b7 : UInt8) :
    Field.load8 b0 b1 b2 b3 b4 b5 b6 b7 &&& mask52 = b0.toNat + 2 ^ 8 * b1.toNat +
      2 ^ 16 * b2.toNat + 2 ^ 24 * b3.toNat + 2 ^ 32 * b4.toNat + 2 ^ 40 * b5.toNat +
      2 ^ 48 * (b6.toNat % 16) := by
  have h0 := u8_lt b0
  have h1 := u8_lt b1
  have h2 := u8_lt b2
  have h3 := u8_lt b3
  have h4 := u8_lt b4
  have h5 := u8_lt b5
  rw [mask52_and, load8_spec]; omega

theorem limbB (b0 b1 b2 b3 b4 b5 b6 b7 : UInt8) :
    (Field.load8 b0 b1 b2 b3 b4 b5 b6 b7 >>> 4) &&& mask52 = b0.toNat / 16 + 2 ^ 4 * b1.toNat +
      2 ^ 12 * b2.toNat + 2 ^ 20 * b3.toNat + 2 ^ 28 * b4.toNat + 2 ^ 36 * b5.toNat +
      2 ^ 44 * b6.toNat := by
  have h0 := u8_lt b0
  have h1 := u8_lt b1
  have h2 := u8_lt b2
  have h3 := u8_lt b3
  have h4 := u8_lt b4
  have h5 := u8_lt b5
  have h6 := u8_lt b6
  rw [mask52_and, load8_spec, shr_eq]; omega

theorem limbC (b0 b1 b2 b3 b4 b5 b6 b7 : UInt8) :
    (Field.load8 b0 b1 b2 b3 b4 b5 b6 b7 >>> 8) &&& mask52 = b1.toNat +
      2 ^ 8 * b2.toNat + 2 ^ 16 * b3.toNat + 2 ^ 24 * b4.toNat + 2 ^ 32 * b5.toNat +
      2 ^ 40 * b6.toNat + 2 ^ 48 * (b7.toNat % 16) := by
  have h0 := u8_lt b0
  have h1 := u8_lt b1
  have h2 := u8_lt b2
  have h3 := u8_lt b3
  have h4 := u8_lt b4
  have h5 := u8_lt b5
  have h6 := u8_lt b6
  rw [mask52_and, load8_spec, shr_eq]; omega

theorem limbD (b0 b1 b2 b3 b4 b5 b6 b7 : UInt8) :
    (Field.load8 b0 b1 b2 b3 b4 b5 b6 b7 >>> 16) &&& mask52 = b2.toNat +
      2 ^ 8 * b3.toNat + 2 ^ 16 * b4.toNat + 2 ^ 24 * b5.toNat + 2 ^ 32 * b6.toNat +
      2 ^ 40 * b7.toNat := by
  have h0 := u8_lt b0
  have h1 := u8_lt b1
  have h2 := u8_lt b2
  have h3 := u8_lt b3
  have h4 := u8_lt b4
  have h5 := u8_lt b5
  have h6 := u8_lt b6
  have h7 := u8_lt b7
  rw [mask52_and, load8_spec, shr_eq]; omega

namespace Field

theorem fromBytes_spec (b : Bytes32) : (fromBytes b).WF ∧ (fromBytes b).val = bytesVal b := by
  constructor
  · unfold fromBytes L5.WF
    simp only [mask52_and]
    exact ⟨Nat.mod_lt _ (by decide), Nat.mod_lt _ (by decide), Nat.mod_lt _ (by decide),
      Nat.mod_lt _ (by decide), Nat.mod_lt _ (by decide)⟩
  · rw [bytesVal_expand]
    unfold fromBytes
    simp only [L5.val, limbA, limbB, limbC, limbD]
    have h6 := Nat.div_add_mod b[6].toNat 16
    have h19 := Nat.div_add_mod b[19].toNat 16
    generalize b[6].toNat / 16 = x6 at *
    generalize b[19].toNat / 16 = x19 at *
    generalize b[6].toNat % 16 = y6 at *
    generalize b[19].toNat % 16 = y19 at *
    rw [← h6, ← h19]
    ring

theorem byte0 (l n : Nat) : (UInt8.ofNat (l >>> n)).toNat = l / 2 ^ n % 256 := by
  rw [UInt8.toNat_ofNat', shr_eq]

theorem byteOr (l k : Nat) (hl : l < 2 ^ 52) (hk : k < 2 ^ 52) :
    (UInt8.ofNat ((l >>> 48) ||| shl64 k 4)).toNat = l / 2 ^ 48 + 16 * (k % 16) := by
  have : shl64 k 4 = k <<< 4 := by
    unfold shl64; rw [Nat.shiftLeft_eq]; omega
  rw [UInt8.toNat_ofNat', this, shr_eq, or_shift 4 _ _ (by omega)]
  omega

theorem split7 (l : Nat) :
    l / 2 ^ 0 % 256 + 2 ^ 8 * (l / 2 ^ 8 % 256) + 2 ^ 16 * (l / 2 ^ 16 % 256) +
      2 ^ 24 * (l / 2 ^ 24 % 256) + 2 ^ 32 * (l / 2 ^ 32 % 256) + 2 ^ 40 * (l / 2 ^ 40 % 256) +
      2 ^ 48 * (l / 2 ^ 48) = l := by omega

theorem split7' (l : Nat) (hl : l < 2 ^ 52) :
    l % 16 + 2 ^ 4 * (l / 2 ^ 4 % 256) + 2 ^ 12 * (l / 2 ^ 12 % 256) +
      2 ^ 20 * (l / 2 ^ 20 % 256) + 2 ^ 28 * (l / 2 ^ 28 % 256) + 2 ^ 36 * (l / 2 ^ 36 % 256) +
      2 ^ 44 * (l / 2 ^ 44 % 256) = l := by omega

theorem split6 (l : Nat) (hl : l < 2 ^ 48) :
    l / 2 ^ 0 % 256 + 2 ^ 8 * (l / 2 ^ 8 % 256) + 2 ^ 16 * (l / 2 ^ 16 % 256) +
      2 ^ 24 * (l / 2 ^ 24 % 256) + 2 ^ 32 * (l / 2 ^ 32 % 256) + 2 ^ 40 * (l / 2 ^ 40 % 256) = l := by
  omega

theorem toBytes_spec (a : FE) (ha : a.WF) (h : a.val < 2 ^ 256) : bytesVal (toBytes a) = a.val := by
  have h4 : a.l4 < 2 ^ 48 := by simp only [L5.val] at h; omega
  obtain ⟨h0, h1, h2, h3, _⟩ := ha
  have e0 := split7 a.l0
  have e1 := split7' a.l1 h1
  have e2 := split7 a.l2
  have e3 := split7' a.l3 h3
  have e4 := split6 a.l4 h4
  have e : bytesVal (toBytes a) = leNat
    [.ofNat (a.l0 >>> 0), .ofNat (a.l0 >>> 8), .ofNat (a.l0 >>> 16), .ofNat (a.l0 >>> 24),
     .ofNat (a.l0 >>> 32), .ofNat (a.l0 >>> 40), .ofNat ((a.l0 >>> 48) ||| shl64 a.l1 4),
     .ofNat (a.l1 >>> 4), .ofNat (a.l1 >>> 12), .ofNat (a.l1 >>> 20), .ofNat (a.l1 >>> 28),
     .ofNat (a.l1 >>> 36), .ofNat (a.l1 >>> 44),
     .ofNat (a.l2 >>> 0), .ofNat (a.l2 >>> 8), .ofNat (a.l2 >>> 16), .ofNat (a.l2 >>> 24),
     .ofNat (a.l2 >>> 32), .ofNat (a.l2 >>> 40), .ofNat ((a.l2 >>> 48) ||| shl64 a.l3 4),
     .ofNat (a.l3 >>> 4), .ofNat (a.l3 >>> 12), .ofNat (a.l3 >>> 20), .ofNat (a.l3 >>> 28),
     .ofNat (a.l3 >>> 36), .ofNat (a.l3 >>> 44),
     .ofNat (a.l4 >>> 0), .ofNat (a.l4 >>> 8), .ofNat (a.l4 >>> 16), .ofNat (a.l4 >>> 24),
     .ofNat (a.l4 >>> 32), .ofNat (a.l4 >>> 40)] := rfl
  rw [e]
  simp only [leNat, byteOr a.l0 a.l1 h0 h1, byteOr a.l2 a.l3 h2 h3, byte0]
  unfold L5.val
  clear e
  zify at *
  linear_combination e0 + 2 ^ 52 * e1 + 2 ^ 104 * e2 + 2 ^ 156 * e3 + 2 ^ 208 * e4

theorem fromBytes_toBytes (a : FE) (ha : a.WF) (h : a.val < 2 ^ 256) : fromBytes (toBytes a) = a :=
  (fromBytes_spec _).1.ext ha (by rw [(fromBytes_spec _).2, toBytes_spec a ha h])

theorem toBytes_fromBytes (b : Bytes32) : toBytes (fromBytes b) = b := by
  apply bytesVal_inj
  obtain ⟨w, v⟩ := fromBytes_spec b
  rw [toBytes_spec _ w (by rw [v]; exact bytesVal_lt b), v]

theorem ctEq_spec (a b : FE) (ha : a.WF) (hb : b.WF) (ha' : a.val < 2 ^ 256) (hb' : b.val < 2 ^ 256) :
    ctEq a b = decide (a.val = b.val) := by
  unfold ctEq
  by_cases h : a.val = b.val
  · rw [ha.ext hb h]; simp
  · have : toBytes a ≠ toBytes b := fun e => h (by
      rw [← toBytes_spec a ha ha', ← toBytes_spec b hb hb', e])
    simp [h, this]

theorem canon_lt256 {a : FE} (h : a.Canon) : a.val < 2 ^ 256 := by
  have := h.2; have := p_lt; omega

theorem ctEq_canon (a b : FE) (ha : a.Canon) (hb : b.Canon) : ctEq a b = decide (a = b) := by
  rw [ctEq_spec a b ha.1 hb.1 (canon_lt256 ha) (canon_lt256 hb)]
  by_cases h : a.val = b.val
  · have := ha.1.ext hb.1 h; simp [this]
  · have : a ≠ b := fun e => h (by rw [e])
    simp [h, this]

theorem condSelect_spec (a b : FE) (ch : Bool) : condSelect a b ch = if ch then b else a := by
  cases ch <;> rfl

/-! ### Conversions -/

theorem fromU32_spec (n : Nat) (h : n < 2 ^ 32) : (fromU32 n).Canon ∧ (fromU32 n).val = n := by
  unfold fromU32 L5.Canon L5.WF L5.val p
  refine ⟨⟨?_, ?_⟩, ?_⟩ <;> dsimp only <;> omega

theorem fromU64_spec (n : Nat) (h : n < 2 ^ 64) : (fromU64 n).Canon ∧ (fromU64 n).val = n := by
  unfold fromU64 L5.Canon L5.WF L5.val p
  simp only [mask52_and, shr_eq]
  refine ⟨⟨?_, ?_⟩, ?_⟩ <;> omega

theorem fromU128_spec (n : Nat) (h : n < 2 ^ 128) : (fromU128 n).Canon ∧ (fromU128 n).val = n := by
  have e0 : lo64 (n % 2 ^ 52) = n % 2 ^ 52 := Nat.mod_eq_of_lt (by omega)
  have e1 : lo64 (n / 2 ^ 52 % 2 ^ 52) = n / 2 ^ 52 % 2 ^ 52 := Nat.mod_eq_of_lt (by omega)
  have e2 : lo64 (n / 2 ^ 104) = n / 2 ^ 104 := Nat.mod_eq_of_lt (by omega)
  unfold fromU128 L5.Canon L5.WF L5.val p
  simp only [mask52_and, shr_eq, e0, e1, e2]
  refine ⟨⟨?_, ?_⟩, ?_⟩ <;> omega

/-! ### Powers of two -/

theorem shl64_one (e : Nat) (h : e < 64) : shl64 1 e = 2 ^ e := by
  unfold shl64
  rw [Nat.shiftLeft_eq, Nat.one_mul]
  exact Nat.mod_eq_of_lt (Nat.pow_lt_pow_right (by decide) h)

theorem twoPowLimbs_spec (e : Nat) (h : e < 260) :
    (twoPowLimbs e).WF ∧ (twoPowLimbs e).val = 2 ^ e := by
  have pw : ∀ k, k ≤ 51 → 2 ^ k < 2 ^ 52 := fun k hk => Nat.pow_lt_pow_right (by decide) (by omega)
  have z : 0 < 2 ^ 52 := by decide
  unfold twoPowLimbs
  split_ifs with h1 h2 h3 h4
  · rw [shl64_one e (by omega)]
    exact ⟨⟨pw _ h1, z, z, z, z⟩, by simp [L5.val]⟩
  · rw [shl64_one _ (by omega)]
    refine ⟨⟨z, pw _ (by omega), z, z, z⟩, ?_⟩
    simp only [L5.val, Nat.mul_zero, Nat.add_zero, Nat.zero_add, ← pow_add]
    rw [show 52 + (e - 52) = e by omega]
  · rw [shl64_one _ (by omega)]
    refine ⟨⟨z, z, pw _ (by omega), z, z⟩, ?_⟩
    simp only [L5.val, Nat.mul_zero, Nat.add_zero, Nat.zero_add, ← pow_add]
    rw [show 104 + (e - 104) = e by omega]
  · rw [shl64_one _ (by omega)]
    refine ⟨⟨z, z, z, pw _ (by omega), z⟩, ?_⟩
    simp only [L5.val, Nat.mul_zero, Nat.add_zero, Nat.zero_add, ← pow_add]
    rw [show 156 + (e - 156) = e by omega]
  · rw [shl64_one _ (by omega)]
    refine ⟨⟨z, z, z, z, pw _ (by omega)⟩, ?_⟩
    simp only [L5.val, Nat.mul_zero, Nat.add_zero, Nat.zero_add, ← pow_add]
    rw [show 208 + (e - 208) = e by omega]

theorem twoPowK_ok (e : Nat) (h : e ≤ 252) :
    ∃ r, twoPowK e = .ok r ∧ r.Canon ∧ r.val = 2 ^ e := by
  obtain ⟨w, v⟩ := twoPowLimbs_spec e (by omega)
  refine ⟨twoPowLimbs e, ?_, ⟨w, ?_⟩, v⟩
  · unfold twoPowK rassert
    rw [decide_eq_true (by omega)]; rfl
  · rw [v]
    exact lt_of_le_of_lt (Nat.pow_le_pow_right (by decide) h) p_gt

theorem twoPowK_panic (e : Nat) (h : 253 ≤ e) : twoPowK e = .panic := by
  unfold twoPowK rassert
  rw [decide_eq_false (by omega)]; rfl

theorem innerTwoPowK_ok (e : Nat) (h : e < 260) :
    ∃ r, innerTwoPowK e = .ok r ∧ r.WF ∧ r.val = 2 ^ e := by
  obtain ⟨w, v⟩ := twoPowLimbs_spec e h
  refine ⟨twoPowLimbs e, ?_, w, v⟩
  unfold innerTwoPowK rassert
  rw [decide_eq_true (by omega)]; rfl

/-! ### Random elements -/

end Field

theorem bytesVal_set31 (b : Bytes32) (x : UInt8) :
    bytesVal (b.set 31 x) = bytesVal b - 2 ^ 248 * b[31].toNat + 2 ^ 248 * x.toNat := by
  rw [bytesVal_expand, bytesVal_expand]
  simp only [Vector.getElem_set]
  norm_num

theorem bytesVal_lt31 (b : Bytes32) (k : Nat) (h : b[31].toNat < k) : bytesVal b < 2 ^ 248 * k := by
  have h0 := leNat_lt (b.toList.take 31)
  have e : b.toList = b.toList.take 31 ++ [b[31]] := by rw [toList32]; rfl
  unfold bytesVal
  rw [e, leNat_append]
  have hl : (b.toList.take 31).length = 31 := by simp
  rw [hl] at h0 ⊢
  have : leNat [b[31]] = b[31].toNat := by simp [leNat]
  rw [this]
  have e2 : 256 ^ 31 = 2 ^ 248 := by norm_num
  rw [e2] at h0 ⊢
  have : 2 ^ 248 * (b[31].toNat + 1) ≤ 2 ^ 248 * k := Nat.mul_le_mul_left _ h
  omega

theorem Field.random_spec (b : Bytes32) : (Field.random b).Canon ∧ (Field.random b).val < 2 ^ 251 := by
  obtain ⟨w, v⟩ := Field.fromBytes_spec (b.set 31 (b[31] &&& 0b00000111))
  have h : (Field.random b).val < 2 ^ 251 := by
    unfold Field.random
    rw [v]
    have := bytesVal_lt31 (b.set 31 (b[31] &&& 0b00000111)) 8 (by
      rw [Vector.getElem_set_self, UInt8.toNat_and]
      exact lt_of_le_of_lt Nat.and_le_right (by decide))
    exact lt_of_lt_of_eq this (by norm_num)
  exact ⟨⟨w, lt_trans h (lt_trans (by decide) p_gt)⟩, h⟩

namespace Scalar

theorem toBytes_eq (a : Sc) : toBytes a = Field.toBytes a := rfl
theorem ctEq_eq (a b : Sc) : ctEq a b = Field.ctEq a b := rfl

theorem fromU32_spec (n : Nat) (h : n < 2 ^ 32) : (fromU32 n).SCanon ∧ (fromU32 n).val = n := by
  unfold fromU32 L5.SCanon L5.WF L5.val ell
  refine ⟨⟨?_, ?_⟩, ?_⟩ <;> dsimp only <;> omega

theorem fromU64_spec (n : Nat) (h : n < 2 ^ 64) : (fromU64 n).SCanon ∧ (fromU64 n).val = n := by
  obtain ⟨⟨w, _⟩, v⟩ := Field.fromU64_spec n h
  exact ⟨⟨w, lt_trans (lt_of_eq_of_lt v h) (by decide)⟩, v⟩

theorem fromU128_spec (n : Nat) (h : n < 2 ^ 128) : (fromU128 n).SCanon ∧ (fromU128 n).val = n := by
  obtain ⟨⟨w, _⟩, v⟩ := Field.fromU128_spec n h
  exact ⟨⟨w, lt_trans (lt_of_eq_of_lt v h) (by decide)⟩, v⟩

theorem twoPowK_ok (e : Nat) (h : e ≤ 249) :
    ∃ r, twoPowK e = .ok r ∧ r.SCanon ∧ r.val = 2 ^ e := by
  obtain ⟨w, v⟩ := Field.twoPowLimbs_spec e (by omega)
  refine ⟨Field.twoPowLimbs e, ?_, ⟨w, ?_⟩, v⟩
  · unfold twoPowK rassert
    rw [decide_eq_true (by omega)]; rfl
  · rw [v]
    exact lt_of_le_of_lt (Nat.pow_le_pow_right (by decide) h) ell_gt

theorem twoPowK_panic (e : Nat) (h : 250 ≤ e) : twoPowK e = .panic := by
  unfold twoPowK rassert
  rw [decide_eq_false (by omega)]; rfl

theorem or_shl (k a b : Nat) :
    (a ||| shl64 b k) % 2 ^ 64 = (a ||| (b <<< k)) % 2 ^ 64 := by
  unfold shl64
  rw [Nat.or_mod_two_pow, Nat.or_mod_two_pow (a := a) (b := b <<< k), Nat.mod_mod]

theorem unpackLimb (k a b : Nat) (ha : a < 2 ^ k) :
    (a ||| shl64 b k) &&& mask52 = (a + 2 ^ k * b) % 2 ^ 52 := by
  rw [mask52_and, ← Nat.mod_mod_of_dvd (a ||| shl64 b k) (show 2 ^ 52 ∣ 2 ^ 64 by decide),
    or_shl k a b, or_shift k a b ha, Nat.mod_mod_of_dvd _ (by decide)]

theorem loadWord_lt (b0 b1 b2 b3 b4 b5 b6 b7 : UInt8) :
    loadWord b0 b1 b2 b3 b4 b5 b6 b7 < 2 ^ 64 := by
  have h0 := u8_lt b0
  have h1 := u8_lt b1
  have h2 := u8_lt b2
  have h3 := u8_lt b3
  have h4 := u8_lt b4
  have h5 := u8_lt b5
  have h6 := u8_lt b6
  have h7 := u8_lt b7
  rw [loadWord_spec]; omega

theorem unpack_spec (b : Bytes32) : (unpack b).WF ∧ (unpack b).val = bytesVal b := by
  have e : bytesVal b = loadWord b[0] b[1] b[2] b[3] b[4] b[5] b[6] b[7] +
      2 ^ 64 * loadWord b[8] b[9] b[10] b[11] b[12] b[13] b[14] b[15] +
      2 ^ 128 * loadWord b[16] b[17] b[18] b[19] b[20] b[21] b[22] b[23] +
      2 ^ 192 * loadWord b[24] b[25] b[26] b[27] b[28] b[29] b[30] b[31] := by
    rw [bytesVal_expand]; simp only [loadWord_spec]; ring
  unfold unpack
  rw [e]
  have h0 := loadWord_lt b[0] b[1] b[2] b[3] b[4] b[5] b[6] b[7]
  have h1 := loadWord_lt b[8] b[9] b[10] b[11] b[12] b[13] b[14] b[15]
  have h2 := loadWord_lt b[16] b[17] b[18] b[19] b[20] b[21] b[22] b[23]
  have h3 := loadWord_lt b[24] b[25] b[26] b[27] b[28] b[29] b[30] b[31]
  generalize loadWord b[0] b[1] b[2] b[3] b[4] b[5] b[6] b[7] = w0 at *
  generalize loadWord b[8] b[9] b[10] b[11] b[12] b[13] b[14] b[15] = w1 at *
  generalize loadWord b[16] b[17] b[18] b[19] b[20] b[21] b[22] b[23] = w2 at *
  generalize loadWord b[24] b[25] b[26] b[27] b[28] b[29] b[30] b[31] = w3 at *
  dsimp only
  rw [unpackLimb 12 _ _ (by rw [shr_eq]; omega), unpackLimb 24 _ _ (by rw [shr_eq]; omega),
    unpackLimb 36 _ _ (by rw [shr_eq]; omega), mask52_and, Nat.and_two_pow_sub_one_eq_mod]
  simp only [shr_eq]
  clear e
  constructor
  · refine ⟨?_, ?_, ?_, ?_, ?_⟩ <;> dsimp only <;> omega
  · simp only [L5.val]
    omega

theorem fromBytes_ok (b : Bytes32) (h : bytesVal b < ell) :
    ∃ r, fromBytes b = .ok r ∧ r.SCanon ∧ r.val = bytesVal b := by
  obtain ⟨w, v⟩ := unpack_spec b
  refine ⟨unpack b, ?_, ⟨w, by rw [v]; exact h⟩, v⟩
  have hd : le (unpack b) minusOne = true := by
    rw [le_spec _ _ w minusOne_canon.1, v, minusOne_val]; exact decide_eq_true (by omega)
  simp only [fromBytes, rassert, hd, if_true, Res.ok_bind, Res.pure_eq]

theorem fromBytes_panic (b : Bytes32) (h : ell ≤ bytesVal b) : fromBytes b = .panic := by
  obtain ⟨w, v⟩ := unpack_spec b
  have hd : le (unpack b) minusOne = false := by
    rw [le_spec _ _ w minusOne_canon.1, v, minusOne_val]
    exact decide_eq_false (by have : 0 < ell := by decide
                              omega)
  simp only [fromBytes, rassert, hd, Bool.false_eq_true, if_false, Res.panic_bind]

theorem scanon_lt256 {a : Sc} (h : a.SCanon) : a.val < 2 ^ 256 := by
  have := h.2; have := ell_lt; omega

theorem toBytes_spec (a : Sc) (ha : a.SCanon) : bytesVal (toBytes a) = a.val :=
  Field.toBytes_spec a ha.1 (scanon_lt256 ha)

theorem fromBytes_toBytes (a : Sc) (ha : a.SCanon) : fromBytes (toBytes a) = .ok a := by
  obtain ⟨r, e, h, v⟩ := fromBytes_ok (toBytes a) (by rw [toBytes_spec a ha]; exact ha.2)
  rw [e, h.1.ext ha.1 (by rw [v, toBytes_spec a ha])]

theorem random_spec (b : Bytes32) :
    ∃ r, random b = .ok r ∧ r.SCanon ∧ r.val < 2 ^ 249 := by
  have h : bytesVal (b.set 31 (b[31] &&& 0b00000001)) < 2 ^ 249 := by
    have := bytesVal_lt31 (b.set 31 (b[31] &&& 0b00000001)) 2 (by
      rw [Vector.getElem_set_self, UInt8.toNat_and]
      exact lt_of_le_of_lt Nat.and_le_right (by decide))
    exact lt_of_lt_of_eq this (by norm_num)
  obtain ⟨r, e, hr, v⟩ := fromBytes_ok _ (lt_trans h ell_gt)
  exact ⟨r, e, hr, by rw [v]; exact h⟩

end Scalar
end Zerocaf
