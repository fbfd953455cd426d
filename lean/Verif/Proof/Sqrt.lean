import Verif.Proof.Pow

/-!
# Square roots
-/

set_option exponentiation.threshold 600

namespace Zerocaf

/-! ### The non-negative square root -/

open Classical in
/-- The non-negative square root of a square, `0` for non-squares. -/
noncomputable def psqrt (x : Fp) : Fp :=
  if h : IsSquare x then (if Pos h.choose then h.choose else -h.choose) else 0

theorem pos_or_neg (r : Fp) : Pos r ∨ Pos (-r) := by
  by_cases h : r = 0
  · left; rw [h]; exact pos_zero
  · by_cases h1 : Pos r
    · exact Or.inl h1
    · exact Or.inr ((pos_neg h).2 h1)

theorem psqrt_sq {x : Fp} (h : IsSquare x) : psqrt x * psqrt x = x := by
  unfold psqrt
  rw [dif_pos h]
  have := h.choose_spec
  split
  · exact this.symm
  · rw [neg_mul_neg]; exact this.symm

theorem psqrt_pos (x : Fp) : Pos (psqrt x) := by
  unfold psqrt
  split
  · rename_i h
    by_cases h1 : Pos h.choose
    · rw [if_pos h1]; exact h1
    · rw [if_neg h1]; exact (pos_or_neg _).resolve_left h1
  · exact pos_zero

theorem sq_eq_cases {r s : Fp} (h : r * r = s * s) : r = s ∨ r = -s := by
  have : (r - s) * (r + s) = 0 := by linear_combination h
  rcases mul_eq_zero.1 this with h | h
  · exact Or.inl (sub_eq_zero.1 h)
  · exact Or.inr (eq_neg_of_add_eq_zero_left h)

theorem pos_unique {r s : Fp} (hr : Pos r) (hs : Pos s) (h : r * r = s * s) : r = s := by
  rcases sq_eq_cases h with h | h
  · exact h
  · by_cases h0 : s = 0
    · rw [h, h0, neg_zero]
    · rw [h] at hr
      exact absurd hs ((pos_neg h0).1 hr)

theorem psqrt_unique {r x : Fp} (hr : Pos r) (h : r * r = x) : r = psqrt x :=
  pos_unique hr (psqrt_pos x) (by rw [psqrt_sq ⟨r, h.symm⟩, h])

theorem psqrt_zero : psqrt 0 = 0 := (psqrt_unique pos_zero (by simp)).symm

/-- Of a root and its negative, the non-negative one is `psqrt`. -/
theorem abs_eq_psqrt {r x : Fp} (h : r * r = x) : (if Pos r then r else -r) = psqrt x := by
  by_cases h1 : Pos r
  · rw [if_pos h1]; exact psqrt_unique h1 h
  · rw [if_neg h1]
    exact psqrt_unique ((pos_or_neg r).resolve_left h1) (by rw [neg_mul_neg, h])

namespace Field

/-! ### Concrete facts about `p` -/

/-- The odd part of `p - 1`. -/
def Q : Nat := (p - 1) / 4

theorem Q_spec : p - 1 = 4 * Q ∧ Q % 2 = 1 := by decide

theorem pow_facts (b : Nat) (e : Nat) (h : e < 2 ^ 260) :
    ((b : Fp)) ^ e = (Primality.powMod 260 p b e : Fp) := (Primality.powMod_spec 260 p b e h).symm

theorem six_pow : (6 : Fp) ^ (2 * Q) = -1 := by
  have h := pow_facts 6 (2 * Q) (by decide)
  have h2 : Primality.powMod 260 p 6 (2 * Q) = p - 1 := by decide +kernel
  rw [h2, Nat.cast_sub (by decide), ZMod.natCast_self, Nat.cast_one, zero_sub] at h
  exact_mod_cast h

/-- `i = SQRT_MINUS_ONE` as a residue. -/
def iZ : Fp := SQRT_MINUS_ONE.toZ

theorem SQRT_MINUS_ONE_enc : SQRT_MINUS_ONE = enc iZ := (L5.Canon.enc (by decide)).symm

theorem iZ_sq : iZ * iZ = -1 := by
  have h : SQRT_MINUS_ONE.val * SQRT_MINUS_ONE.val % p = (p - 1) % p := by decide +kernel
  have h2 := (ZMod.natCast_eq_natCast_iff' _ _ p).2 h
  rw [Nat.cast_mul, Nat.cast_sub (by decide), ZMod.natCast_self, Nat.cast_one, zero_sub] at h2
  exact h2

theorem iZ_ne : iZ ≠ 0 := fun h => by
  have := iZ_sq
  rw [h, mul_zero] at this
  exact one_ne_zero (neg_eq_zero.1 this.symm)

/-- `i` is not a square since `p = 5 mod 8`. -/
theorem iZ_not_square : ¬ IsSquare iZ := by
  rw [ZMod.euler_criterion p iZ_ne]
  have : p / 2 = 2 * Q := by decide
  rw [this, pow_mul, pow_two, iZ_sq, Odd.neg_one_pow (Nat.odd_iff.2 Q_spec.2)]
  exact fun h => one_ne_neg_one h.symm

/-- For a non-square `x`, `i * x` is a square. -/
theorem iZ_mul_square {x : Fp} (h : ¬ IsSquare x) : IsSquare (iZ * x) := by
  have hx : x ≠ 0 := fun h0 => h ⟨0, by rw [h0, mul_zero]⟩
  rw [ZMod.euler_criterion p (mul_ne_zero iZ_ne hx), mul_pow]
  have h1 := (ZMod.pow_div_two_eq_neg_one_or_one p iZ_ne).resolve_left
    (fun e => iZ_not_square ((ZMod.euler_criterion p iZ_ne).2 e))
  have h2 := (ZMod.pow_div_two_eq_neg_one_or_one p hx).resolve_left
    (fun e => h ((ZMod.euler_criterion p hx).2 e))
  rw [h1, h2]; ring

/-! ### The Tonelli-Shanks loop -/

theorem factorLoop_spec (c : Cfg) (hc : c.Enough) :
    ∃ q : FE, q.WF ∧ q.val = Q ∧ factorLoop c c.fuel zero minusOne = .ok (enc 2, q) := by
  unfold Cfg.Enough at hc
  obtain ⟨f, hf⟩ : ∃ f, c.fuel = f + 3 := ⟨c.fuel - 3, by omega⟩
  obtain ⟨w1, v1⟩ := halfWithoutMod_spec minusOne minusOne_canon.1
  obtain ⟨w2, v2⟩ := halfWithoutMod_spec _ w1
  rw [v1, minusOne_val] at v2
  rw [minusOne_val] at v1
  refine ⟨_, w2, by rw [v2]; decide, ?_⟩
  have d0 : decide (minusOne.val % 2 = 0) = true := by decide
  have d1 : decide ((halfWithoutMod minusOne).val % 2 = 0) = true := by rw [v1]; decide
  have d2 : decide ((halfWithoutMod (halfWithoutMod minusOne)).val % 2 = 0) = false := by
    rw [v2]; decide
  rw [hf, factorLoop, isEven_spec, d0, if_pos rfl, zero_enc, one_enc, add_enc, Res.ok_bind, factorLoop,
    isEven_spec, d1, if_pos rfl, one_enc, add_enc, Res.ok_bind, factorLoop, isEven_spec, d2]
  norm_num

theorem two_val : (enc 2).val = 2 := by
  rw [← two_enc]; rfl

theorem lt_enc_zero_two : lt (enc 0) (enc 2) = true := by
  rw [lt_spec _ _ (enc_WF 0) (enc_WF 2), two_val, enc_val, ZMod.val_zero]; rfl

theorem findI_neg_one (c : Cfg) (hc : c.Enough) :
    findILoop c (enc (-1)) (enc 2) c.fuel zero (fromU32 2) = .ok (enc 1) := by
  have hc' := hc
  unfold Cfg.Enough at hc
  obtain ⟨f, hf⟩ : ∃ f, c.fuel = f + 1 := ⟨c.fuel - 1, by omega⟩
  rw [hf, findILoop, zero_enc, lt_enc_zero_two, if_pos rfl, one_enc, add_enc, Res.ok_bind,
    pow_enc c hc' _ _ (fromU32_spec 2 (by decide)).1.1, (fromU32_spec 2 (by decide)).2, Res.ok_bind]
  simp

theorem tonelli_one (c : Cfg) (hc : c.Enough) (cc x mm : FE) :
    tonelliLoop c c.fuel cc x (enc 1) mm = .ok x := by
  unfold Cfg.Enough at hc
  obtain ⟨f, hf⟩ : ∃ f, c.fuel = f + 1 := ⟨c.fuel - 1, by omega⟩
  rw [hf, tonelliLoop, one_enc, ctEq_enc]
  simp

theorem one_val' : (enc 1).val = 1 := by rw [← one_enc]; rfl
theorem zero_val' : (enc 0).val = 0 := by rw [← zero_enc]; rfl

theorem tonelli_neg_one (c : Cfg) (hc : c.Enough) (cc x : Fp) (hcc : cc * cc = -1) :
    tonelliLoop c c.fuel (enc cc) (enc x) (enc (-1)) (enc 2) = .ok (enc (x * cc)) := by
  have hc' := hc
  unfold Cfg.Enough at hc
  obtain ⟨f, hf⟩ : ∃ f, c.fuel = f + 2 := ⟨c.fuel - 2, by omega⟩
  have h1 : (-1 : Fp) ≠ 1 := fun h => one_ne_neg_one h.symm
  rw [hf, tonelliLoop, one_enc, ctEq_enc, decide_eq_false h1, Bool.not_false, if_pos rfl,
    findI_neg_one c hc', Res.ok_bind, sub_enc, Res.ok_bind, sub_enc, Res.ok_bind,
    show (2 : Fp) - 1 - 1 = 0 by ring, two_enc, pow_enc c hc' _ _ (enc_WF 0), Res.ok_bind, zero_val',
    pow_zero, pow_enc c hc' _ _ (enc_WF 1), one_val', pow_one, Res.ok_bind, mul_enc, Res.ok_bind,
    square_enc, Res.ok_bind, mul_enc, Res.ok_bind, Res.ok_bind, hcc]
  rw [show (-1 : Fp) * -1 = 1 by ring, tonelliLoop, one_enc, ctEq_enc]
  simp

theorem sub_p_enc (c : Cfg) {x : Fp} (hx : x ≠ 0) : sub c FIELD_L (enc x) = .ok (enc (-x)) := by
  have hpos : 0 < (enc x).val := by
    rw [enc_val]; rcases Nat.eq_zero_or_pos x.val with h | h
    · exact absurd ((ZMod.val_eq_zero x).1 h) hx
    · exact h
  obtain ⟨pr, e2, w2, v2⟩ := sub_gen c FIELD_L (enc x) FIELD_L_WF (enc_WF x)
    (by rw [FIELD_L_val]; have := p_gt; omega) (enc_canon x).2.le (by rw [FIELD_L_val]; omega)
  rw [e2, w2.eq_enc]
  unfold L5.toZ
  have := (enc_canon x).2.le
  rw [v2, FIELD_L_val, ZMod.natCast_mod, Nat.add_sub_assoc this, Nat.cast_add, Nat.cast_sub this,
    ZMod.natCast_self, enc_val, ZMod.natCast_zmod_val]
  ring

/-- The root `mod_sqrt` computes for a nonzero square, before the sign choice. -/
def tsRoot (a : Fp) : Fp :=
  if a ^ Q = 1 then a ^ ((Q + 1) / 2) else a ^ ((Q + 1) / 2) * 6 ^ Q

theorem tsRoot_spec (a : Fp) (h0 : a ≠ 0) (hs : IsSquare a) :
    tsRoot a * tsRoot a = a ∧ ∀ (c : Cfg), c.Enough →
      tonelliLoop c c.fuel (enc (6 ^ Q)) (enc (a ^ ((Q + 1) / 2))) (enc (a ^ Q)) (enc 2)
        = .ok (enc (tsRoot a)) := by
  have ht : a ^ Q = 1 ∨ a ^ Q = -1 := by
    have h1 := (ZMod.euler_criterion p h0).1 hs
    have : p / 2 = Q * 2 := by decide
    rw [this, pow_mul, pow_two] at h1
    exact sq_eq_cases (by rw [h1, one_mul])
  have hx : a ^ ((Q + 1) / 2) * a ^ ((Q + 1) / 2) = a * a ^ Q := by
    rw [← pow_add, ← pow_succ']
    congr 1
  have h6 : (6 : Fp) ^ Q * 6 ^ Q = -1 := by
    rw [← pow_add, ← two_mul]; exact six_pow
  unfold tsRoot
  rcases ht with ht | ht
  · rw [if_pos ht]
    refine ⟨by rw [hx, ht, mul_one], fun c hc => ?_⟩
    rw [ht, tonelli_one c hc]
  · rw [if_neg (by rw [ht]; exact fun h => one_ne_neg_one h.symm)]
    refine ⟨?_, fun c hc => ?_⟩
    · rw [mul_mul_mul_comm, hx, h6, ht]; ring
    · rw [ht, tonelli_neg_one c hc _ _ h6]

theorem modSqrt_tsRoot (a : Fp) (h0 : a ≠ 0) (hs : IsSquare a) (c : Cfg) (sign : Bool)
    (hc : c.Enough) :
    modSqrt c (enc a) sign = .ok (some (enc (if sign then -tsRoot a else tsRoot a))) := by
  obtain ⟨hr, hm⟩ := tsRoot_spec a h0 hs
  generalize tsRoot a = r at *
  have hr0 : r ≠ 0 := fun h => h0 (by rw [← hr, h, mul_zero])
  obtain ⟨q, wq, vq, eq⟩ := factorLoop_spec c hc
  obtain ⟨q1, eq1, wq1, vq1⟩ : ∃ q1, add c q one = .ok q1 ∧ q1.Canon ∧ q1.val = Q + 1 := by
    obtain ⟨q1, e, w, v⟩ := add_spec c q one ⟨wq, by rw [vq]; decide⟩ one_canon
    exact ⟨q1, e, w, by rw [v, vq, one_val]; decide⟩
  obtain ⟨wh, vh⟩ := halfWithoutMod_spec q1 wq1.1
  have six : (⟨6, 0, 0, 0, 0⟩ : FE) = enc 6 := by
    have h : (⟨6, 0, 0, 0, 0⟩ : FE).Canon := by decide
    exact h.eq_enc (by unfold L5.toZ; rfl)
  unfold modSqrt
  rw [zero_enc, ctEq_enc, decide_eq_false h0]
  simp only [Bool.false_eq_true, if_false]
  rw [legendre_enc c hc, Res.ok_bind, decide_eq_true hs]
  simp only [Bool.true_eq_false, beq_iff_eq, if_false]
  rw [← zero_enc, eq, Res.ok_bind]
  dsimp only
  rw [six, pow_enc c hc _ _ wq, vq, Res.ok_bind, eq1, Res.ok_bind, pow_enc c hc _ _ wh, vh, vq1,
    Res.ok_bind, pow_enc c hc _ _ wq, vq, Res.ok_bind, hm c hc, Res.ok_bind, sub_p_enc c hr0,
    Res.ok_bind, condSelect_enc, Res.pure_eq]

theorem modSqrt_square (a : Fp) (h0 : a ≠ 0) (hs : IsSquare a) :
    ∃ r : Fp, r * r = a ∧ ∀ (c : Cfg) (sign : Bool), c.Enough →
      modSqrt c (enc a) sign = .ok (some (enc (if sign then -r else r))) :=
  ⟨tsRoot a, (tsRoot_spec a h0 hs).1, fun c sign hc => modSqrt_tsRoot a h0 hs c sign hc⟩

theorem modSqrt_nonsquare (c : Cfg) (hc : c.Enough) (a : Fp) (sign : Bool) (hs : ¬ IsSquare a) :
    modSqrt c (enc a) sign = .ok none := by
  have h0 : a ≠ 0 := fun h0 => hs ⟨0, by rw [h0, mul_zero]⟩
  unfold modSqrt
  rw [zero_enc, ctEq_enc, decide_eq_false h0]
  simp only [Bool.false_eq_true, if_false]
  rw [legendre_enc c hc, Res.ok_bind, decide_eq_false hs]
  simp

theorem modSqrt_zero (c : Cfg) (sign : Bool) : modSqrt c (enc 0) sign = .ok (some (enc 0)) := by
  unfold modSqrt
  rw [zero_enc, ctEq_enc]
  simp

/-! ### Square roots of ratios -/

/-- The negation of a root towards the non-negative one. -/
theorem condNegate_root (c : Cfg) {r x : Fp} (h : r * r = x) :
    condNegate c (enc r) (!isPositive (enc r)) = .ok (enc (psqrt x)) := by
  rw [isPositive_enc, condNegate_enc, ← abs_eq_psqrt h]
  by_cases h1 : Pos r
  · simp [h1]
  · simp [h1]

theorem neg_root {r x : Fp} (h : r * r = x) : -r * -r = x := by rw [neg_mul_neg, h]

theorem sqrtRatioI_zero_left (c : Cfg) (v : Fp) :
    sqrtRatioI c (enc 0) (enc v) = .ok (true, enc 0) := by
  unfold sqrtRatioI
  rw [zero_enc, ctEq_enc]
  simp

theorem sqrtRatioI_zero_right (c : Cfg) {u : Fp} (hu : u ≠ 0) :
    sqrtRatioI c (enc u) (enc 0) = .ok (false, enc 0) := by
  unfold sqrtRatioI
  rw [zero_enc, ctEq_enc, ctEq_enc, decide_eq_false hu]
  simp

theorem sqrtRatioI_square (c : Cfg) (hc : c.Enough) {u v : Fp} (hu : u ≠ 0) (hv : v ≠ 0)
    (hs : IsSquare (u / v)) : sqrtRatioI c (enc u) (enc v) = .ok (true, enc (psqrt (u / v))) := by
  obtain ⟨r, hr, hm⟩ := modSqrt_square (u / v) (div_ne_zero hu hv) hs
  unfold sqrtRatioI
  rw [zero_enc, ctEq_enc, ctEq_enc, decide_eq_false hu, decide_eq_false hv]
  simp only [Bool.false_eq_true, if_false]
  rw [divRef_enc c hc _ _ hv, Res.ok_bind, legendre_enc c hc, Res.ok_bind, decide_eq_true hs]
  simp only [Bool.true_eq_false, beq_iff_eq, if_false]
  rw [Res.ok_bind, hm c true hc, Res.ok_bind, if_pos rfl]
  unfold unwrap
  rw [Res.ok_bind, condNegate_root c (neg_root hr), Res.ok_bind, Res.pure_eq]

theorem sqrtRatioI_nonsquare (c : Cfg) (hc : c.Enough) {u v : Fp} (hu : u ≠ 0) (hv : v ≠ 0)
    (hs : ¬ IsSquare (u / v)) :
    sqrtRatioI c (enc u) (enc v) = .ok (false, enc (psqrt (iZ * (u / v)))) := by
  obtain ⟨r, hr, hm⟩ := modSqrt_square (iZ * (u / v)) (mul_ne_zero iZ_ne (div_ne_zero hu hv))
    (iZ_mul_square hs)
  unfold sqrtRatioI
  rw [zero_enc, ctEq_enc, ctEq_enc, decide_eq_false hu, decide_eq_false hv]
  simp only [Bool.false_eq_true, if_false]
  rw [divRef_enc c hc _ _ hv, Res.ok_bind, legendre_enc c hc, Res.ok_bind, decide_eq_false hs]
  simp only [beq_self_eq_true, if_true]
  rw [Res.ok_bind, SQRT_MINUS_ONE_enc, mul_enc, Res.ok_bind, hm c true hc, Res.ok_bind, if_pos rfl]
  unfold unwrap
  rw [Res.ok_bind, condNegate_root c (neg_root hr), Res.ok_bind, Res.pure_eq]

/-- The value of `sqrt_ratio_i`, as a function on residues. -/
noncomputable def sqrtRatioZ (u v : Fp) : Bool × Fp :=
  open Classical in
  if u = 0 then (true, 0) else if v = 0 then (false, 0)
  else if IsSquare (u / v) then (true, psqrt (u / v)) else (false, psqrt (iZ * (u / v)))

theorem sqrtRatioZ_pos (u v : Fp) : Pos (sqrtRatioZ u v).2 := by
  unfold sqrtRatioZ
  by_cases h1 : u = 0
  · rw [if_pos h1]; exact pos_zero
  rw [if_neg h1]
  by_cases h2 : v = 0
  · rw [if_pos h2]; exact pos_zero
  rw [if_neg h2]
  by_cases h3 : IsSquare (u / v)
  · rw [if_pos h3]; generalize (u/v) = x; dsimp only; apply psqrt_pos
  · rw [if_neg h3]; generalize iZ * (u/v) = x; dsimp only; apply psqrt_pos

theorem sqrtRatioI_enc (c : Cfg) (hc : c.Enough) (u v : Fp) :
    sqrtRatioI c (enc u) (enc v) = .ok ((sqrtRatioZ u v).1, enc (sqrtRatioZ u v).2) := by
  unfold sqrtRatioZ
  by_cases hu : u = 0
  · rw [if_pos hu, hu, sqrtRatioI_zero_left]
  · rw [if_neg hu]
    by_cases hv : v = 0
    · rw [if_pos hv, hv, sqrtRatioI_zero_right c hu]
    · rw [if_neg hv]
      by_cases hs : IsSquare (u / v)
      · rw [if_pos hs, sqrtRatioI_square c hc hu hv hs]
      · rw [if_neg hs, sqrtRatioI_nonsquare c hc hu hv hs]

theorem invSqrt_enc (c : Cfg) (hc : c.Enough) (v : Fp) :
    invSqrt c (enc v) = .ok ((sqrtRatioZ 1 v).1, enc (sqrtRatioZ 1 v).2) := by
  unfold invSqrt
  rw [one_enc, sqrtRatioI_enc c hc]

end Field
end Zerocaf
