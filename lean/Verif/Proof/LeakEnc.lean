import Verif.Proof.LeakSync

/-!
# Traces of encodings and of the Elligator map
-/

set_option exponentiation.threshold 600

namespace Zerocaf
namespace Leak

/-! ### Computations on related inputs -/

/-- Whenever both computations return, their traces agree and their results are related. -/
def Lock {α β : Type} (m : LM α) (m' : LM β) (R : α → β → Prop) : Prop :=
  ∀ x x', m.val = .ok x → m'.val = .ok x' → m.tr = m'.tr ∧ R x x'

theorem Lock.bind {α β α' β' : Type} {m : LM α} {m' : LM α'} {f : α → LM β} {f' : α' → LM β'} {R : α → α' → Prop}
    {S : β → β' → Prop} (h : Lock m m' R)
    (h' : ∀ a a', m.val = .ok a → m'.val = .ok a' → R a a' → Lock (f a) (f' a') S) :
    Lock (m >>= f) (m' >>= f') S := by
  intro x x' hx hx'
  obtain ⟨a, ha, hfa⟩ := bind_ok hx
  obtain ⟨a', ha', hfa'⟩ := bind_ok hx'
  obtain ⟨e, r⟩ := h a a' ha ha'
  obtain ⟨e', s⟩ := h' a a' ha ha' r x x' hfa hfa'
  exact ⟨by rw [LM.tr_bind _ _ _ ha, LM.tr_bind _ _ _ ha', e, e'], s⟩

/-- The same computation. -/
theorem Lock.same {α β β' : Type} {m : LM α} {f : α → LM β} {f' : α → LM β'} {S : β → β' → Prop}
    (h : ∀ a, m.val = .ok a → Lock (f a) (f' a) S) : Lock (m >>= f) (m >>= f') S :=
  Lock.bind (R := fun x x' => x = x')
    (fun x x' hx hx' => ⟨rfl, by rw [hx, Res.ok_inj] at hx'; exact hx'⟩) fun a a' ha _ e => by subst e; exact h a ha

theorem Lock.ret {α β : Type} {m : LM α} {m' : LM β} {t : List Ev} (h : Ret m t) (h' : Ret m' t) :
    Lock m m' fun _ _ => True := fun x x' hx hx' => ⟨(h x hx).trans (h' x' hx').symm, trivial⟩

theorem Lock.skip {α β α' β' : Type} {m : LM α} {m' : LM α'} {f : α → LM β} {f' : α' → LM β'} {t : List Ev}
    {S : β → β' → Prop} (h : Ret m t) (h' : Ret m' t)
    (hf : ∀ a a', m.val = .ok a → m'.val = .ok a' → Lock (f a) (f' a') S) :
    Lock (m >>= f) (m' >>= f') S := (Lock.ret h h').bind fun a a' ha ha' _ => hf a a' ha ha'

theorem Lock.pure {α β : Type} {a : α} {b : β} {R : α → β → Prop} (h : R a b) :
    Lock (Pure.pure a : LM α) (Pure.pure b : LM β) R := fun x x' hx hx' => by
  rw [LM.val_pure, Res.ok_inj] at hx hx'
  subst hx hx'
  exact ⟨by rw [LM.tr_pure, LM.tr_pure], h⟩

theorem Lock.branch {β β' : Type} (s : Site) {b : Bool} {f : Bool → LM β} {f' : Bool → LM β'} {S : β → β' → Prop}
    (h : Lock (f b) (f' b) S) : Lock (br s b >>= f) (br s b >>= f') S :=
  Lock.same fun a ha => by
    rw [br_val, Res.ok_inj] at ha
    subst ha
    exact h

namespace Field

theorem pow_lock (c : Cfg) (a a' e : FE) : Lock (pow c a e) (pow c a' e) fun _ _ => True := by
  obtain ⟨t, ht⟩ := powLoop_ret c c.fuel e
  exact Lock.ret (ht _ _) (ht _ _)

/-- The trace of the loop of `mod_sqrt` does not depend on the root. -/
theorem tonelliLoop_lock (c : Cfg) : ∀ (n : ℕ) (cc x x' t mm : FE),
    Lock (tonelliLoop c n cc x t mm) (tonelliLoop c n cc x' t mm) fun _ _ => True := by
  obtain ⟨tm, hm⟩ := mul_ct c
  intro n
  induction n with
  | zero => intro cc x x' t mm y y' hy; simp [tonelliLoop] at hy
  | succ n ih =>
    intro cc x x' t mm
    rw [tonelliLoop, tonelliLoop]
    refine Lock.same fun z _ => Lock.branch _ ?_
    cases z
    · rw [Bool.not_false, if_pos rfl, if_pos rfl]
      refine Lock.same fun _ _ => Lock.same fun _ _ => Lock.same fun _ _ => Lock.same fun _ _ => Lock.same fun _ _ => ?_
      refine Lock.skip (hm _ _).ret (hm _ _).ret fun _ _ _ _ => ?_
      exact Lock.same fun _ _ => Lock.same fun _ _ => Lock.same fun _ _ => ih _ _ _ _ _
    · rw [Bool.not_true, if_neg (by simp), if_neg (by simp)]
      exact Lock.pure trivial

theorem legendre_lock (c : Cfg) (a a' : FE) : Lock (legendre c a) (legendre c a') fun _ _ => True :=
  (pow_lock c _ _ _).bind fun _ _ _ _ _ => Lock.skip (ctEq_ret _ _) (ctEq_ret _ _) fun _ _ _ _ => Lock.pure trivial

/-- The trace of `mod_sqrt` depends on the class of the element only. -/
theorem modSqrt_lock (c : Cfg) (hc : c.Enough) (x x' : Fp) (s s' : Bool) (h0 : x = 0 ↔ x' = 0)
    (hq : IsSquare x ↔ IsSquare x') (ht : x ^ Zerocaf.Field.Q = x' ^ Zerocaf.Field.Q ∨ ¬IsSquare x) :
    Lock (modSqrt c (enc x) s) (modSqrt c (enc x') s') fun _ _ => True := by
  classical
  obtain ⟨q, wq, vq, eq⟩ := Zerocaf.Field.factorLoop_spec c hc
  obtain ⟨ts, hs⟩ := sub_ct c
  unfold modSqrt
  rw [Zerocaf.Field.zero_enc]
  refine Lock.skip (ctEq_ret _ _) (ctEq_ret _ _) fun e e' he he' => ?_
  rw [ctEq_val, Zerocaf.Field.ctEq_enc, Res.ok_inj] at he he'
  subst he
  obtain rfl : decide (x = 0) = e' := (decide_eq_decide.2 h0).trans he'
  refine Lock.branch _ ?_
  by_cases z : x = 0
  · rw [decide_eq_true z, if_pos rfl, if_pos rfl]
    exact Lock.pure trivial
  rw [decide_eq_false z, if_neg (by simp), if_neg (by simp)]
  refine (legendre_lock c _ _).bind fun l l' hl hl' _ => ?_
  rw [legendre_val, Zerocaf.Field.legendre_enc c hc, Res.ok_inj] at hl hl'
  subst hl
  obtain rfl : decide (IsSquare x) = l' := (decide_eq_decide.2 hq).trans hl'
  refine Lock.branch _ ?_
  by_cases h1 : IsSquare x
  · have ht := ht.resolve_right (not_not_intro h1)
    rw [decide_eq_true h1, if_neg (by simp), if_neg (by simp)]
    refine Lock.same fun f hf => Lock.same fun _ _ => Lock.same fun _ _ => (pow_lock c _ _ _).bind fun _ _ _ _ _ => ?_
    rw [factorLoop_val, ← Zerocaf.Field.zero_enc, eq, Res.ok_inj] at hf
    subst hf
    dsimp only
    refine (pow_lock c _ _ _).bind fun t t' ht1 ht2 _ => ?_
    rw [pow_val, Zerocaf.Field.pow_enc c hc _ _ wq, vq, Res.ok_inj] at ht1 ht2
    rw [← ht] at ht2
    subst ht1
    subst ht2
    exact (tonelliLoop_lock c _ _ _ _ _ _).bind fun _ _ _ _ _ => Lock.skip (hs _ _).ret (hs _ _).ret fun _ _ _ _ =>
      Lock.pure trivial
  · rw [decide_eq_false h1, if_pos (by simp), if_pos (by simp)]
    exact Lock.pure trivial

theorem invSqrt_sync (c : Cfg) (hc : c.Enough) (v v' : Fp) :
    Sync (invSqrt c (enc v)) (invSqrt c (enc v')) fun _ _ => v = v' := by
  rw [invSqrt, invSqrt, Zerocaf.Field.one_enc]
  exact (sqrtRatioI_sync c hc _ _ _ _).mono fun _ _ e => (e.2 one_ne_zero).1

end Field

/-! ### Encodings -/

open Zerocaf.Leak.Field (mulE addE subE sqE negE eqE)

theorem findXX_sync (c : Cfg) (y y' : Fp) :
    Sync (findXX c (enc y)) (findXX c (enc y')) fun _ _ => y * y = y' * y' := by
  unfold findXX
  rw [Zerocaf.Field.one_enc, EDWARDS_D_enc, EDWARDS_A_enc]
  refine sqE (subE (sqE (mulE (subE ?_))))
  have g : ∀ y : Fp, dZ * (y * y) - -1 ≠ 0 := fun y => by rw [sub_neg_eq_add, add_comm]; exact dy_ne y
  refine (Field.div_sync c _ _ _ _ (g y) (g y')).mono fun _ _ h => ?_
  have : dZ * (y * y - y' * y') = 0 := by linear_combination h
  exact sub_eq_zero.1 ((mul_eq_zero.1 this).resolve_left dZ_ne)

/-- Compressions of Edwards points in step: the same `Z`, and the same `y` up to sign. -/
theorem Ed.compress_sync (c : Cfg) (hc : c.Enough) (X Y Z X' Y' Z' : Fp) (T T' : FE) (hZ : Z ≠ 0) (hZ' : Z' ≠ 0) :
    Sync (Ed.compress c ⟨enc X, enc Y, enc Z, T⟩) (Ed.compress c ⟨enc X', enc Y', enc Z', T'⟩) fun _ _ =>
      Z = Z' ∧ Y * Y = Y' * Y' := by
  obtain ⟨tm, hm⟩ := Field.mul_ct c
  unfold Ed.compress
  refine Sync.bind (R := fun _ _ => Z = Z') ?_ fun P P' hP hP' eZ => ?_
  · unfold Aff.ofEd
    refine (Field.inverse_sync c _ _ (enc_WF Z) (enc_WF Z') (Field.not_dvd_enc hZ) (Field.not_dvd_enc hZ')).bind
      fun _ _ _ _ e => ?_
    exact Sync.skip (hm _ _).ret (hm _ _).ret fun _ _ => Sync.skip (hm _ _).ret (hm _ _).ret fun _ _ =>
      Sync.pure (enc_inj.1 e)
  · rw [Aff.ofEd_val, Props.Aff_ofEd_enc c hc _ _ _ _ ‹_›, Res.ok_inj] at hP hP'
    subst hP hP'
    refine (findXX_sync c _ _).bind fun q q' hq hq' e => ?_
    rw [findXX_val, findXX_enc c hc, Res.ok_inj] at hq hq'
    subst hq hq'
    refine (Field.modSqrt_sync c hc _ _ _ _).bind fun _ _ _ _ _ => (unwrap_sync _ _).bind fun _ _ _ _ _ => ?_
    refine Sync.skip (Field.ctEq_ret _ _) (Field.ctEq_ret _ _) fun _ _ => Sync.branch _ fun _ => Sync.pure ⟨eZ, ?_⟩
    subst eZ
    rw [div_mul_div_comm, div_mul_div_comm] at e
    exact (div_left_inj' (mul_ne_zero hZ hZ)).1 e

namespace Ristretto

/-- What the encoding of a point inverts. -/
def encW (X Y Z : Fp) : Fp := (Z + Y) * (Z - Y) * (X * Y * (X * Y))

theorem compress_sync (c : Cfg) (hc : c.Enough) (X Y Z T X' Y' Z' T' : Fp) :
    Sync (compress c ⟨enc X, enc Y, enc Z, enc T⟩) (compress c ⟨enc X', enc Y', enc Z', enc T'⟩) fun _ _ =>
      encW X Y Z = encW X' Y' Z' := by
  obtain ⟨tm, hm⟩ := Field.mul_ct c
  obtain ⟨ts, hs⟩ := Field.sub_ct c
  obtain ⟨tn, hn⟩ := Field.condNegate_ct c
  unfold compress
  dsimp only
  refine addE (subE (mulE (mulE (sqE (mulE ?_)))))
  refine (Field.invSqrt_sync c hc _ _).bind fun _ _ _ _ e => ?_
  refine Sync.skip (hm _ _).ret (hm _ _).ret fun _ _ => Sync.skip (hm _ _).ret (hm _ _).ret fun _ _ => ?_
  refine Sync.skip (hm _ _).ret (hm _ _).ret fun _ _ => Sync.skip (hm _ _).ret (hm _ _).ret fun _ _ => ?_
  refine Sync.skip (hm _ _).ret (hm _ _).ret fun _ _ => (Field.isPositive_sync _ _).bind fun r r' _ _ er => ?_
  refine Sync.branch _ fun _ => ?_
  refine Sync.bind (R := fun _ _ => True) ?_ fun _ _ _ _ _ => ?_
  · cases r
    · rw [if_pos (by rfl), if_pos (by rfl)]
      exact Sync.skip (hm _ _).ret (hm _ _).ret fun _ _ => Sync.skip (hm _ _).ret (hm _ _).ret fun _ _ =>
        Sync.skip (hm _ _).ret (hm _ _).ret fun _ _ => Sync.pure trivial
    · rw [if_neg (by simp), if_neg (by simp)]
      exact Sync.pure trivial
  refine Sync.skip (hm _ _).ret (hm _ _).ret fun _ _ => (Field.isPositive_sync _ _).bind fun _ _ _ _ _ => ?_
  refine Sync.skip (hn _ _).ret (hn _ _).ret fun _ _ => Sync.skip (hs _ _).ret (hs _ _).ret fun _ _ => ?_
  refine Sync.skip (hm _ _).ret (hm _ _).ret fun _ _ => (Field.isPositive_sync _ _).bind fun _ _ _ _ _ => ?_
  exact Sync.skip (hn _ _).ret (hn _ _).ret fun _ _ => Sync.pure e

/-- What the decoding of `s` inverts. -/
def decW (s : Fp) : Fp :=
  (-(dZ * ((1 - s * s) * (1 - s * s))) - (1 + s * s) * (1 + s * s)) * ((1 + s * s) * (1 + s * s))

theorem decompress_sync (c : Cfg) (hc : c.Enough) (s s' : Fp) :
    Sync (decompress c (Zerocaf.Field.toBytes (enc s))) (decompress c (Zerocaf.Field.toBytes (enc s'))) fun _ _ =>
      (Pos s ↔ Pos s') ∧ (Pos s → decW s = decW s') := by
  obtain ⟨tm, hm⟩ := Field.mul_ct c
  obtain ⟨ta, ha⟩ := Field.add_ct c
  obtain ⟨tn, hn⟩ := Field.condNegate_ct c
  have g : ∀ s : Fp, Zerocaf.Field.fromBytes (Zerocaf.Field.toBytes (enc s)) = enc s := fun s =>
    Zerocaf.Field.fromBytes_toBytes _ (enc_WF s) (Zerocaf.Field.canon_lt256 (enc_canon s))
  unfold decompress
  dsimp only
  rw [g s, g s']
  have se : ∀ b : Bytes32, Ret (sliceEq b b) (.br .sliceLen true :: List.replicate 32 .stm) := fun b => (sliceEq_ct c b b).ret
  refine Sync.step (se _) (se _) (sliceEq_val _ _) (sliceEq_val _ _) ?_
  refine (Field.isPositive_sync _ _).bind fun q q' hq hq' eq => ?_
  rw [Field.isPositive_val, Field.isPositive_enc, Res.ok_inj] at hq hq'
  subst eq
  have e0 : Pos s ↔ Pos s' := by rw [← decide_eq_decide, hq, hq']
  refine Sync.branch _ fun _ => ?_
  by_cases h0 : Pos s
  swap
  · rw [decide_eq_false h0] at hq
    subst hq
    rw [if_pos (by rfl), if_pos (by rfl)]
    exact Sync.pure ⟨e0, fun h => absurd h h0⟩
  rw [decide_eq_true h0] at hq
  subst hq
  rw [if_neg (by simp), if_neg (by simp)]
  refine Sync.branch _ fun _ => ?_
  rw [if_neg (by simp), if_neg (by simp), Zerocaf.Field.one_enc, EDWARDS_D_enc]
  refine sqE (subE (sqE (addE (sqE (sqE (mulE (negE (subE (mulE ?_)))))))))
  refine (Field.invSqrt_sync c hc _ _).bind fun r r' _ _ e => Sync.branch _ fun _ => ?_
  have e : Pos s → decW s = decW s' := fun _ => e
  by_cases h1 : r.1 = false
  · rw [if_pos (by simp [h1]), if_pos (by simp [h1])]
    exact Sync.pure ⟨e0, e⟩
  rw [if_neg (by simpa using h1), if_neg (by simpa using h1)]
  refine Sync.skip (hm _ _).ret (hm _ _).ret fun _ _ => Sync.skip (hm _ _).ret (hm _ _).ret fun _ _ => ?_
  refine Sync.skip (hm _ _).ret (hm _ _).ret fun _ _ => Sync.skip (ha _ _).ret (ha _ _).ret fun _ _ => ?_
  refine Sync.skip (hm _ _).ret (hm _ _).ret fun _ _ => (Field.isPositive_sync _ _).bind fun _ _ _ _ _ => ?_
  refine Sync.skip (hn _ _).ret (hn _ _).ret fun _ _ => Sync.skip (hm _ _).ret (hm _ _).ret fun _ _ => ?_
  refine Sync.skip (hm _ _).ret (hm _ _).ret fun _ _ => (Field.isPositive_sync _ _).bind fun k _ _ _ _ => ?_
  refine Sync.branch _ fun _ => ?_
  cases k
  · rw [if_pos (by rfl), if_pos (by rfl)]
    exact Sync.pure ⟨e0, e⟩
  rw [if_neg (by simp), if_neg (by simp)]
  refine Sync.skip (Field.ctEq_ret _ _) (Field.ctEq_ret _ _) fun k _ => Sync.branch _ fun _ => ?_
  cases k
  · rw [if_neg (by simp), if_neg (by simp)]
    exact Sync.pure ⟨e0, e⟩
  · rw [if_pos rfl, if_pos rfl]
    exact Sync.pure ⟨e0, e⟩

/-- What the Elligator map inverts. -/
def ellD (z : Fp) : Fp :=
  (-1 - dZ * (Zerocaf.Field.iZ * (z * z))) * (Zerocaf.Field.iZ * (z * z) + dZ)

theorem ell_Ns_ne (z : Fp) : (Zerocaf.Field.iZ * (z * z) + 1) * (1 - dZ * dZ) ≠ 0 := by
  refine mul_ne_zero (r_add_one_ne z) fun h => ?_
  have h1 : (1 - dZ) * (1 + dZ) = 0 := by linear_combination h
  rcases mul_eq_zero.1 h1 with h | h
  · exact one_sub_d_ne h
  · refine dZ_not_square ⟨Zerocaf.Field.iZ, ?_⟩
    linear_combination h - Zerocaf.Field.iZ_sq

theorem elligator_sync (c : Cfg) (hc : c.Enough) (a a' : FE) (ha : a.WF) (ha' : a'.WF) :
    Sync (elligator c a) (elligator c a') fun _ _ => ellD a.toZ = ellD a'.toZ := by
  obtain ⟨tm, hm⟩ := Field.mul_ct c
  obtain ⟨ta, hadd⟩ := Field.add_ct c
  obtain ⟨ts, hs⟩ := Field.sub_ct c
  obtain ⟨tq, hq⟩ := Field.square_ct c
  obtain ⟨tn, hn⟩ := Field.condNegate_ct c
  unfold elligator
  dsimp only
  rw [Zerocaf.Field.one_enc, EDWARDS_D_enc, Zerocaf.Field.SQRT_MINUS_ONE_enc]
  refine negE (sqE (subE ?_))
  refine Sync.step (hq _).ret (hq _).ret (by rw [Field.square_val, Zerocaf.Field.square_wf c a ha])
    (by rw [Field.square_val, Zerocaf.Field.square_wf c a' ha']) ?_
  refine mulE (addE (mulE (mulE (subE (addE (mulE ?_))))))
  refine (Field.sqrtRatioI_sync c hc _ _ _ _).bind fun r r' _ _ e => ?_
  have e := (e.2 (ell_Ns_ne _)).1
  refine Sync.skip (hm _ _).ret (hm _ _).ret fun _ _ => (Field.isPositive_sync _ _).bind fun _ _ _ _ _ => ?_
  refine Sync.skip (hn _ _).ret (hn _ _).ret fun _ _ => Sync.skip (hs _ _).ret (hs _ _).ret fun _ _ => ?_
  refine Sync.skip (hm _ _).ret (hm _ _).ret fun _ _ => Sync.skip (hs _ _).ret (hs _ _).ret fun _ _ => ?_
  refine Sync.skip (hq _).ret (hq _).ret fun _ _ => Sync.skip (hm _ _).ret (hm _ _).ret fun _ _ => ?_
  refine Sync.skip (hs _ _).ret (hs _ _).ret fun _ _ => Sync.skip (hq _).ret (hq _).ret fun _ _ => ?_
  refine Sync.skip (hadd _ _).ret (hadd _ _).ret fun _ _ => Sync.skip (hm _ _).ret (hm _ _).ret fun _ _ => ?_
  refine Sync.skip (hm _ _).ret (hm _ _).ret fun _ _ => Sync.skip (hs _ _).ret (hs _ _).ret fun _ _ => ?_
  refine Sync.skip (hadd _ _).ret (hadd _ _).ret fun _ _ => Sync.skip (hm _ _).ret (hm _ _).ret fun _ _ => ?_
  refine Sync.skip (hm _ _).ret (hm _ _).ret fun _ _ => Sync.skip (hm _ _).ret (hm _ _).ret fun _ _ => ?_
  exact Sync.skip (hm _ _).ret (hm _ _).ret fun _ _ => Sync.pure e

theorem fromUniformBytes_sync (c : Cfg) (hc : c.Enough) (b b' : Bytes64) :
    Sync (fromUniformBytes c b) (fromUniformBytes c b') fun _ _ =>
      ellD (bytesVal (Vector.ofFn fun i : Fin 32 => b[i.val]'(by omega)) : ℕ) =
        ellD (bytesVal (Vector.ofFn fun i : Fin 32 => b'[i.val]'(by omega)) : ℕ) ∧
      ellD (bytesVal (Vector.ofFn fun i : Fin 32 => b[32 + i.val]'(by omega)) : ℕ) =
        ellD (bytesVal (Vector.ofFn fun i : Fin 32 => b'[32 + i.val]'(by omega)) : ℕ) := by
  obtain ⟨te, he⟩ := Ed.add_ct c
  have g : ∀ v : Bytes32, L5.toZ (Zerocaf.Field.fromBytes v) = ((bytesVal v : ℕ) : Fp) := fun v => by
    rw [L5.toZ, (Zerocaf.Field.fromBytes_spec v).2]
  have w := fun v => (Zerocaf.Field.fromBytes_spec v).1
  unfold fromUniformBytes
  dsimp only
  refine (elligator_sync c hc _ _ (w _) (w _)).bind fun _ _ _ _ e1 => ?_
  refine (elligator_sync c hc _ _ (w _) (w _)).bind fun _ _ _ _ e2 => ?_
  rw [g, g] at e1 e2
  intro x x' z z' hx hx' hz
  have t1 := (he _ _).1 x hx
  have t2 := (he _ _).1 x' hx'
  exact ⟨t1.trans t2.symm, e1, e2⟩

end Ristretto

end Leak

/-! ### Fourth powers -/

theorem fourth_iff {x : Fp} (hx : x ≠ 0) : x ^ Field.Q = 1 ↔ ∃ r : Fp, r ^ 4 = x := by
  constructor
  · intro h
    refine ⟨x ^ ((Field.Q + 1) / 4), ?_⟩
    rw [← pow_mul, show (Field.Q + 1) / 4 * 4 = Field.Q + 1 by decide, pow_succ, h, one_mul]
  · rintro ⟨r, rfl⟩
    have hr : r ≠ 0 := fun h => hx (by rw [h]; exact zero_pow (by decide))
    rw [← pow_mul, ← Field.Q_spec.1]
    exact ZMod.pow_card_sub_one_eq_one hr

theorem square_Q {x : Fp} (hx : x ≠ 0) (h : IsSquare x) : x ^ Field.Q = 1 ∨ x ^ Field.Q = -1 := by
  have e := (ZMod.euler_criterion p hx).1 h
  rw [show p / 2 = Field.Q * 2 by decide, pow_mul] at e
  have : (x ^ Field.Q - 1) * (x ^ Field.Q + 1) = 0 := by linear_combination e
  rcases mul_eq_zero.1 this with h | h
  · exact .inl (sub_eq_zero.1 h)
  · exact .inr (eq_neg_of_add_eq_zero_left h)

end Zerocaf
