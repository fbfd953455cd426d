import Verif.Proof.LeakRoots
import Verif.Proof.Compress
import Verif.Proof.Elligator

/-!
# Computations that run in step

`Sync m m' R`: two computations whose traces, with anything appended, agree have equal traces, and their results are
related by `R`. The rules follow the shape of the programs, so that no function needs to be evaluated.
-/

set_option exponentiation.threshold 600

namespace Zerocaf
namespace Leak

/-- If the traces of two computations agree, up to what follows, then they are equal and the results related. -/
def Sync {α β : Type} (m : LM α) (m' : LM β) (R : α → β → Prop) : Prop :=
  ∀ x x' z z', m.val = .ok x → m'.val = .ok x' → m.tr ++ z = m'.tr ++ z' → m.tr = m'.tr ∧ R x x'

theorem Sync.mono {α β : Type} {m : LM α} {m' : LM β} {R S : α → β → Prop} (h : Sync m m' R)
    (hs : ∀ x x', R x x' → S x x') : Sync m m' S := fun x x' z z' hx hx' ht =>
  ⟨(h x x' z z' hx hx' ht).1, hs _ _ (h x x' z z' hx hx' ht).2⟩

theorem Sync.bind {α β α' β' : Type} {m : LM α} {m' : LM α'} {f : α → LM β} {f' : α' → LM β'} {R : α → α' → Prop}
    {S : β → β' → Prop} (h : Sync m m' R)
    (h' : ∀ a a', m.val = .ok a → m'.val = .ok a' → R a a' → Sync (f a) (f' a') S) :
    Sync (m >>= f) (m' >>= f') S := by
  intro x x' z z' hx hx' ht
  obtain ⟨a, ha, hfa⟩ := bind_ok hx
  obtain ⟨a', ha', hfa'⟩ := bind_ok hx'
  rw [LM.tr_bind _ _ _ ha, LM.tr_bind _ _ _ ha', List.append_assoc, List.append_assoc] at ht
  obtain ⟨e, r⟩ := h a a' _ _ ha ha' ht
  rw [e] at ht
  obtain ⟨e', s⟩ := h' a a' ha ha' r x x' z z' hfa hfa' (List.append_cancel_left ht)
  exact ⟨by rw [LM.tr_bind _ _ _ ha, LM.tr_bind _ _ _ ha', e, e'], s⟩

theorem Sync.ret {α β : Type} {m : LM α} {m' : LM β} {t : List Ev} (h : Ret m t) (h' : Ret m' t) :
    Sync m m' fun _ _ => True := fun x x' _ _ hx hx' _ => ⟨(h x hx).trans (h' x' hx').symm, trivial⟩

/-- A computation with a fixed trace, in step with itself. -/
theorem Sync.skip {α β α' β' : Type} {m : LM α} {m' : LM α'} {f : α → LM β} {f' : α' → LM β'} {t : List Ev}
    {S : β → β' → Prop} (h : Ret m t) (h' : Ret m' t) (hf : ∀ a a', Sync (f a) (f' a') S) :
    Sync (m >>= f) (m' >>= f') S := (Sync.ret h h').bind fun a a' _ _ _ => hf a a'

/-- A computation with a fixed trace and a known result. -/
theorem Sync.step {α β α' β' : Type} {m : LM α} {m' : LM α'} {f : α → LM β} {f' : α' → LM β'} {t : List Ev}
    {S : β → β' → Prop} {a : α} {a' : α'} (h : Ret m t) (h' : Ret m' t) (ha : m.val = .ok a) (ha' : m'.val = .ok a')
    (hf : Sync (f a) (f' a') S) : Sync (m >>= f) (m' >>= f') S := (Sync.ret h h').bind fun b b' hb hb' _ => by
  rw [ha, Res.ok_inj] at hb
  rw [ha', Res.ok_inj] at hb'
  subst hb hb'
  exact hf

theorem Sync.pure {α β : Type} {a : α} {b : β} {R : α → β → Prop} (h : R a b) :
    Sync (Pure.pure a : LM α) (Pure.pure b : LM β) R := fun x x' _ _ hx hx' _ => by
  rw [LM.val_pure, Res.ok_inj] at hx hx'
  subst hx hx'
  exact ⟨by rw [LM.tr_pure, LM.tr_pure], h⟩

theorem Sync.stop {α β : Type} {m : LM α} {m' : LM β} {R : α → β → Prop} (h : ∀ x, m.val ≠ .ok x) : Sync m m' R :=
  fun x _ _ _ hx => absurd hx (h x)

theorem Sync.stop' {α β : Type} {m : LM α} {m' : LM β} {R : α → β → Prop} (h : ∀ x, m'.val ≠ .ok x) : Sync m m' R :=
  fun _ x _ _ _ hx => absurd hx (h x)

theorem br_sync (s : Site) (b b' : Bool) : Sync (br s b) (br s b') fun x x' => x = x' ∧ x = b ∧ x' = b' := by
  intro x x' z z' hx hx' ht
  rw [br_val, Res.ok_inj] at hx hx'
  subst hx hx'
  rw [br_tr, br_tr, List.cons_append, List.cons_append] at ht
  have := (List.cons.inj ht).1
  rw [Ev.br.injEq] at this
  exact ⟨by rw [br_tr, br_tr, this.2], this.2, rfl, rfl⟩

/-- A branch: both runs take the same side. -/
theorem Sync.branch {β β' : Type} (s : Site) {b b' : Bool} {f : Bool → LM β} {f' : Bool → LM β'} {S : β → β' → Prop}
    (h : b = b' → Sync (f b) (f' b) S) : Sync (br s b >>= f) (br s b' >>= f') S :=
  (br_sync s b b').bind fun a a' _ _ ⟨e, e1, e2⟩ => by
    subst e1 e2
    subst e
    exact h rfl

theorem rassert_sync (b b' : Bool) : Sync (rassert b) (rassert b') fun _ _ => b = true ∧ b' = true := by
  intro x x' z z' hx hx' _
  rw [Field.rassert_ok hx, Field.rassert_ok hx']
  exact ⟨rfl, rfl, rfl⟩

theorem unwrap_sync {α β : Type} (o : Option α) (o' : Option β) :
    Sync (unwrap o) (unwrap o') fun x x' => o = some x ∧ o' = some x' := by
  intro x x' z z' hx hx' _
  rw [unwrap_val] at hx hx'
  cases o <;> cases o' <;> simp [Zerocaf.unwrap] at hx hx'
  subst hx hx'
  exact ⟨rfl, rfl, rfl⟩

theorem cmpLimbs_sync : ∀ (l l' : List (ℕ × ℕ)), l.length = l'.length →
    Sync (cmpLimbs l) (cmpLimbs l') fun x x' => x = x' := by
  intro l
  induction l with
  | nil =>
    intro l' h
    cases l' with
    | nil => exact Sync.pure rfl
    | cons _ _ => simp at h
  | cons q l ih =>
    intro l' h
    cases l' with
    | nil => simp at h
    | cons q' l' =>
      obtain ⟨x, y⟩ := q
      obtain ⟨x', y'⟩ := q'
      rw [cmpLimbs, cmpLimbs]
      refine Sync.branch _ fun e => ?_
      by_cases h1 : decide (x > y) = true
      · rw [if_pos h1, if_pos h1]
        exact Sync.pure rfl
      · rw [if_neg h1, if_neg h1]
        refine Sync.branch _ fun e => ?_
        by_cases h2 : decide (x < y) = true
        · rw [if_pos h2, if_pos h2]
          exact Sync.pure rfl
        · rw [if_neg h2, if_neg h2]
          exact ih l' (by simpa using h)

theorem cmp_sync (a b a' b' : L5) : Sync (cmp a b) (cmp a' b') fun x x' => x = x' := cmpLimbs_sync _ _ rfl

theorem gt_sync (a b a' b' : L5) : Sync (gt a b) (gt a' b') fun x x' => x = x' :=
  (cmp_sync a b a' b').bind fun _ _ _ _ e => Sync.pure (by rw [e])

theorem ge_sync (a b a' b' : L5) : Sync (ge a b) (ge a' b') fun x x' => x = x' :=
  (cmp_sync a b a' b').bind fun _ _ _ _ e => Sync.pure (by rw [e])

theorem lt_sync (a b a' b' : L5) : Sync (lt a b) (lt a' b') fun x x' => x = x' :=
  (cmp_sync a b a' b').bind fun _ _ _ _ e => Sync.pure (by rw [e])

theorem le_sync (a b a' b' : L5) : Sync (le a b) (le a' b') fun x x' => x = x' :=
  (cmp_sync a b a' b').bind fun _ _ _ _ e => Sync.pure (by rw [e])

theorem csub64_ret (c : Cfg) (a b : ℕ) : Ret (csub64 c a b) (chkTr c) := by
  unfold Ret chkTr csub64 Zerocaf.csub64
  generalize 2 ^ 64 = B
  cases c.debug <;> by_cases h : b ≤ a <;> simp [h]

theorem chk64_ret (c : Cfg) (n : ℕ) : Ret (chk64 c n) (chkTr c) := (chk64_ct c n).ret

namespace Field

theorem ctEq_ret (a b : L5) : Ret (ctEq a b) (.br .sliceLen true :: List.replicate 32 .stm) := fun _ _ => ctEq_tr a b

theorem powLoop_sync (c : Cfg) : ∀ (n n' : ℕ) (b r e b' r' e' : FE),
    Sync (powLoop c n b r e) (powLoop c n' b' r' e') fun _ _ => True := by
  obtain ⟨tm, hm⟩ := mul_ct c
  obtain ⟨ts, hs⟩ := sub_ct c
  intro n
  induction n with
  | zero => intro n' b r e b' r' e'; exact Sync.stop fun x h => by simp [powLoop] at h
  | succ n ih =>
    intro n' b r e b' r' e'
    cases n' with
    | zero => exact Sync.stop' fun x h => by simp [powLoop] at h
    | succ n' =>
      rw [powLoop, powLoop]
      refine (gt_sync _ _ _ _).bind fun g g' _ _ e1 => Sync.branch _ fun _ => ?_
      cases g
      · rw [if_neg (by simp), if_neg (by simp)]
        exact Sync.pure trivial
      · rw [if_pos rfl, if_pos rfl]
        refine Sync.branch _ fun _ => ?_
        cases Zerocaf.Field.isEven e
        · rw [if_neg (by simp), if_neg (by simp)]
          exact Sync.skip (hs _ _).ret (hs _ _).ret fun _ _ => Sync.skip (hm _ _).ret (hm _ _).ret fun _ _ =>
            Sync.skip (hm _ _).ret (hm _ _).ret fun _ _ => ih _ _ _ _ _ _ _
        · rw [if_pos rfl, if_pos rfl]
          exact Sync.skip (hm _ _).ret (hm _ _).ret fun _ _ => ih _ _ _ _ _ _ _

theorem pow_sync (c : Cfg) (a e a' e' : FE) : Sync (pow c a e) (pow c a' e') fun _ _ => True := powLoop_sync c _ _ _ _ _ _ _ _

theorem legendre_sync (c : Cfg) (a a' : FE) : Sync (legendre c a) (legendre c a') fun _ _ => True :=
  (pow_sync c _ _ _ _).bind fun _ _ _ _ _ => Sync.skip (ctEq_ret _ _) (ctEq_ret _ _) fun _ _ => Sync.pure trivial

theorem phase1Loop_sync (c : Cfg) : ∀ (n n' : ℕ) (u v r s u' v' r' s' : FE) (k k' : ℕ),
    Sync (phase1Loop c n u v r s k) (phase1Loop c n' u' v' r' s' k') fun _ _ => True := by
  obtain ⟨tm, hm⟩ := mul_ct c
  obtain ⟨ts, hs⟩ := sub_ct c
  obtain ⟨ta, ha⟩ := add_ct c
  intro n
  induction n with
  | zero => intro n' u v r s u' v' r' s' k k'; exact Sync.stop fun x h => by simp [phase1Loop] at h
  | succ n ih =>
    intro n' u v r s u' v' r' s' k k'
    cases n' with
    | zero => exact Sync.stop' fun x h => by simp [phase1Loop] at h
    | succ n' =>
      rw [phase1Loop, phase1Loop]
      refine (gt_sync _ _ _ _).bind fun g g' _ _ e1 => Sync.branch _ fun _ => ?_
      cases g
      · rw [if_neg (by simp), if_neg (by simp)]
        exact Sync.pure trivial
      · rw [if_pos rfl, if_pos rfl]
        refine (gt_sync _ _ _ _).bind fun cg cg' _ _ e2 => (ge_sync _ _ _ _).bind fun cl cl' _ _ e3 => ?_
        refine Sync.branch _ fun _ => ?_
        cases Zerocaf.Field.isEven u
        · rw [if_neg (by simp), if_neg (by simp)]
          refine Sync.branch _ fun _ => ?_
          cases Zerocaf.Field.isEven v
          · rw [if_neg (by simp), if_neg (by simp)]
            refine Sync.branch _ fun _ => ?_
            cases cg
            · rw [if_neg (by simp), if_neg (by simp)]
              refine Sync.branch _ fun _ => ?_
              cases cl
              · rw [if_neg (by simp), if_neg (by simp)]
                exact Sync.stop fun x h => by cases h
              · rw [if_pos rfl, if_pos rfl]
                exact Sync.skip (hs _ _).ret (hs _ _).ret fun _ _ => Sync.skip (ha _ _).ret (ha _ _).ret fun _ _ =>
                  Sync.skip (hm _ _).ret (hm _ _).ret fun _ _ => Sync.skip (chk64_ret c _) (chk64_ret c _) fun _ _ =>
                  ih _ _ _ _ _ _ _ _ _ _ _
            · rw [if_pos rfl, if_pos rfl]
              exact Sync.skip (hs _ _).ret (hs _ _).ret fun _ _ => Sync.skip (ha _ _).ret (ha _ _).ret fun _ _ =>
                Sync.skip (hm _ _).ret (hm _ _).ret fun _ _ => Sync.skip (chk64_ret c _) (chk64_ret c _) fun _ _ =>
                ih _ _ _ _ _ _ _ _ _ _ _
          · rw [if_pos rfl, if_pos rfl]
            exact Sync.skip (hm _ _).ret (hm _ _).ret fun _ _ => Sync.skip (chk64_ret c _) (chk64_ret c _) fun _ _ =>
              ih _ _ _ _ _ _ _ _ _ _ _
        · rw [if_pos rfl, if_pos rfl]
          exact Sync.skip (hm _ _).ret (hm _ _).ret fun _ _ => Sync.skip (chk64_ret c _) (chk64_ret c _) fun _ _ =>
            ih _ _ _ _ _ _ _ _ _ _ _

theorem phase1_sync (c : Cfg) (a a' : FE) : Sync (phase1 c a) (phase1 c a') fun _ _ => True := by
  obtain ⟨ts, hs⟩ := sub_ct c
  unfold phase1
  refine Sync.skip (ctEq_ret _ _) (ctEq_ret _ _) fun _ _ => (rassert_sync _ _).bind fun _ _ _ _ _ => ?_
  refine (phase1Loop_sync c _ _ _ _ _ _ _ _ _ _ _ _).bind fun q q' _ _ _ => ?_
  refine (gt_sync _ _ _ _).bind fun g g' _ _ _ => Sync.branch _ fun _ => ?_
  cases g
  · rw [if_neg (by simp), if_neg (by simp)]
    exact (Sync.pure trivial : Sync _ _ fun _ _ => True).bind fun _ _ _ _ _ =>
      Sync.skip (hs _ _).ret (hs _ _).ret fun _ _ => Sync.pure trivial
  · rw [if_pos rfl, if_pos rfl]
    exact Sync.skip (hs _ _).ret (hs _ _).ret fun _ _ => Sync.skip (hs _ _).ret (hs _ _).ret fun _ _ => Sync.pure trivial

theorem innerTwoPowK_sync (e e' : ℕ) : Sync (innerTwoPowK e) (innerTwoPowK e') fun _ _ => True := by
  unfold innerTwoPowK
  refine (rassert_sync _ _).bind fun _ _ _ _ _ => ?_
  refine Sync.branch _ fun _ => Sync.branch _ fun _ => Sync.branch _ fun _ => Sync.branch _ fun _ => ?_
  exact Sync.pure trivial

theorem inverse_sync' (c : Cfg) (a a' : FE) : Sync (inverse c a) (inverse c a') fun _ _ => True := by
  obtain ⟨tm, hm⟩ := montgomeryMul_ct c
  unfold inverse
  refine (phase1_sync c a a').bind fun q q' _ _ _ => ?_
  dsimp only
  refine Sync.branch _ fun _ => ?_
  cases decide (q.2 > 260)
  · rw [if_neg (by simp), if_neg (by simp)]
    exact Sync.skip (csub64_ret c _ _) (csub64_ret c _ _) fun _ _ => (innerTwoPowK_sync _ _).bind fun _ _ _ _ _ =>
      Sync.ret (hm _ _).ret (hm _ _).ret
  · rw [if_pos rfl, if_pos rfl]
    exact Sync.skip (hm _ _).ret (hm _ _).ret fun _ _ => Sync.skip (csub64_ret c _ _) (csub64_ret c _ _) fun _ _ =>
      Sync.skip (csub64_ret c _ _) (csub64_ret c _ _) fun _ _ => (innerTwoPowK_sync _ _).bind fun _ _ _ _ _ =>
      Sync.ret (hm _ _).ret (hm _ _).ret

/-- Inversions in step invert the same element. -/
theorem inverse_sync (c : Cfg) (a a' : FE) (ha : a.WF) (ha' : a'.WF) (ga : ¬p ∣ a.val) (ga' : ¬p ∣ a'.val) :
    Sync (inverse c a) (inverse c a') fun _ _ => a = a' := fun x x' z z' hx hx' ht =>
  ⟨(inverse_sync' c a a' x x' z z' hx hx' ht).1, inverse_inj c a a' x x' ha ha' ga ga' hx hx' z z' ht⟩

theorem isPositive_sync (a a' : FE) : Sync (isPositive a) (isPositive a') fun x x' => x = x' := by
  unfold isPositive
  refine (ge_sync _ _ _ _).bind fun g g' _ _ _ => Sync.branch _ fun _ => ?_
  cases g
  · rw [if_neg (by simp), if_neg (by simp)]
    exact Sync.pure rfl
  · rw [if_pos rfl, if_pos rfl]
    exact (le_sync _ _ _ _).bind fun l l' _ _ _ => (br_sync _ _ _).mono fun _ _ h => h.1

theorem factorLoop_sync (c : Cfg) : ∀ (n n' : ℕ) (s q s' q' : FE),
    Sync (factorLoop c n s q) (factorLoop c n' s' q') fun _ _ => True := by
  obtain ⟨ta, ha⟩ := add_ct c
  intro n
  induction n with
  | zero => intro n' s q s' q'; exact Sync.stop fun x h => by simp [factorLoop] at h
  | succ n ih =>
    intro n' s q s' q'
    cases n' with
    | zero => exact Sync.stop' fun x h => by simp [factorLoop] at h
    | succ n' =>
      rw [factorLoop, factorLoop]
      refine Sync.branch _ fun _ => ?_
      cases Zerocaf.Field.isEven q
      · rw [if_neg (by simp), if_neg (by simp)]
        exact Sync.pure trivial
      · rw [if_pos rfl, if_pos rfl]
        exact Sync.skip (ha _ _).ret (ha _ _).ret fun _ _ => ih _ _ _ _ _

theorem findILoop_sync (c : Cfg) (t mm t' mm' : FE) : ∀ (n n' : ℕ) (i e i' e' : FE),
    Sync (findILoop c t mm n i e) (findILoop c t' mm' n' i' e') fun _ _ => True := by
  obtain ⟨ta, ha⟩ := add_ct c
  obtain ⟨tm, hm⟩ := mul_ct c
  intro n
  induction n with
  | zero => intro n' i e i' e'; exact Sync.stop fun x h => by simp [findILoop] at h
  | succ n ih =>
    intro n' i e i' e'
    cases n' with
    | zero => exact Sync.stop' fun x h => by simp [findILoop] at h
    | succ n' =>
      rw [findILoop, findILoop]
      refine (lt_sync _ _ _ _).bind fun l l' _ _ _ => Sync.branch _ fun _ => ?_
      cases l
      · rw [if_neg (by simp), if_neg (by simp)]
        exact Sync.pure trivial
      · rw [if_pos rfl, if_pos rfl]
        refine Sync.skip (ha _ _).ret (ha _ _).ret fun _ _ => (pow_sync c _ _ _ _).bind fun _ _ _ _ _ =>
          Sync.skip (ctEq_ret _ _) (ctEq_ret _ _) fun o o' => Sync.branch _ fun _ => ?_
        cases o
        · rw [if_neg (by simp), if_neg (by simp)]
          exact Sync.skip (hm _ _).ret (hm _ _).ret fun _ _ => ih _ _ _ _ _
        · rw [if_pos rfl, if_pos rfl]
          exact Sync.pure trivial

theorem tonelliLoop_sync (c : Cfg) : ∀ (n n' : ℕ) (cc x t mm cc' x' t' mm' : FE),
    Sync (tonelliLoop c n cc x t mm) (tonelliLoop c n' cc' x' t' mm') fun _ _ => True := by
  obtain ⟨ts, hs⟩ := sub_ct c
  obtain ⟨tm, hm⟩ := mul_ct c
  obtain ⟨tq, hq⟩ := square_ct c
  intro n
  induction n with
  | zero => intro n' cc x t mm cc' x' t' mm'; exact Sync.stop fun x h => by simp [tonelliLoop] at h
  | succ n ih =>
    intro n' cc x t mm cc' x' t' mm'
    cases n' with
    | zero => exact Sync.stop' fun x h => by simp [tonelliLoop] at h
    | succ n' =>
      rw [tonelliLoop, tonelliLoop]
      refine Sync.skip (ctEq_ret _ _) (ctEq_ret _ _) fun o o' => Sync.branch _ fun _ => ?_
      cases o
      · rw [Bool.not_false, if_pos rfl, if_pos rfl]
        refine (findILoop_sync c _ _ _ _ _ _ _ _ _ _).bind fun _ _ _ _ _ => ?_
        refine Sync.skip (hs _ _).ret (hs _ _).ret fun _ _ => Sync.skip (hs _ _).ret (hs _ _).ret fun _ _ => ?_
        refine (pow_sync c _ _ _ _).bind fun _ _ _ _ _ => (pow_sync c _ _ _ _).bind fun _ _ _ _ _ => ?_
        exact Sync.skip (hm _ _).ret (hm _ _).ret fun _ _ => Sync.skip (hq _).ret (hq _).ret fun _ _ =>
          Sync.skip (hm _ _).ret (hm _ _).ret fun _ _ => Sync.skip (hq _).ret (hq _).ret fun _ _ =>
          ih _ _ _ _ _ _ _ _ _
      · rw [Bool.not_true, if_neg (by simp), if_neg (by simp)]
        exact Sync.pure trivial

/-! ### Arithmetic on reduced elements -/

theorem mulE {β β' : Type} {c : Cfg} {x y x' y' : Fp} {f : FE → LM β} {f' : FE → LM β'} {S : β → β' → Prop}
    (h : Sync (f (enc (x * y))) (f' (enc (x' * y'))) S) :
    Sync (mul c (enc x) (enc y) >>= f) (mul c (enc x') (enc y') >>= f') S := by
  obtain ⟨t, ht⟩ := mul_ct c
  exact Sync.step (ht _ _).ret (ht _ _).ret (by rw [mul_val, Zerocaf.Field.mul_enc])
    (by rw [mul_val, Zerocaf.Field.mul_enc]) h

theorem addE {β β' : Type} {c : Cfg} {x y x' y' : Fp} {f : FE → LM β} {f' : FE → LM β'} {S : β → β' → Prop}
    (h : Sync (f (enc (x + y))) (f' (enc (x' + y'))) S) :
    Sync (add c (enc x) (enc y) >>= f) (add c (enc x') (enc y') >>= f') S := by
  obtain ⟨t, ht⟩ := add_ct c
  exact Sync.step (ht _ _).ret (ht _ _).ret (by rw [add_val, Zerocaf.Field.add_enc])
    (by rw [add_val, Zerocaf.Field.add_enc]) h

theorem subE {β β' : Type} {c : Cfg} {x y x' y' : Fp} {f : FE → LM β} {f' : FE → LM β'} {S : β → β' → Prop}
    (h : Sync (f (enc (x - y))) (f' (enc (x' - y'))) S) :
    Sync (sub c (enc x) (enc y) >>= f) (sub c (enc x') (enc y') >>= f') S := by
  obtain ⟨t, ht⟩ := sub_ct c
  exact Sync.step (ht _ _).ret (ht _ _).ret (by rw [sub_val, Zerocaf.Field.sub_enc])
    (by rw [sub_val, Zerocaf.Field.sub_enc]) h

theorem sqE {β β' : Type} {c : Cfg} {x x' : Fp} {f : FE → LM β} {f' : FE → LM β'} {S : β → β' → Prop}
    (h : Sync (f (enc (x * x))) (f' (enc (x' * x'))) S) :
    Sync (square c (enc x) >>= f) (square c (enc x') >>= f') S := by
  obtain ⟨t, ht⟩ := square_ct c
  exact Sync.step (ht _).ret (ht _).ret (by rw [square_val, Zerocaf.Field.square_enc])
    (by rw [square_val, Zerocaf.Field.square_enc]) h

theorem negE {β β' : Type} {c : Cfg} {x x' : Fp} {f : FE → LM β} {f' : FE → LM β'} {S : β → β' → Prop}
    (h : Sync (f (enc (-x))) (f' (enc (-x'))) S) :
    Sync (neg c (enc x) >>= f) (neg c (enc x') >>= f') S := by
  obtain ⟨t, ht⟩ := neg_ct c
  exact Sync.step (ht _).ret (ht _).ret (by rw [neg_val, Zerocaf.Field.neg_enc])
    (by rw [neg_val, Zerocaf.Field.neg_enc]) h

theorem eqE {β β' : Type} {x y x' y' : Fp} {f : Bool → LM β} {f' : Bool → LM β'} {S : β → β' → Prop}
    (h : Sync (f (decide (x = y))) (f' (decide (x' = y'))) S) :
    Sync (ctEq (enc x) (enc y) >>= f) (ctEq (enc x') (enc y') >>= f') S :=
  Sync.step (ctEq_ret _ _) (ctEq_ret _ _) (by rw [ctEq_val, Zerocaf.Field.ctEq_enc])
    (by rw [ctEq_val, Zerocaf.Field.ctEq_enc]) h

theorem not_dvd_enc {x : Fp} (h : x ≠ 0) : ¬p ∣ (enc x).val := fun hd => h (by
  rw [← ZMod.natCast_eq_zero_iff] at hd
  rwa [← enc_toZ x])

/-- Divisions in step have the same divisor. -/
theorem div_sync (c : Cfg) (u v u' v' : Fp) (hv : v ≠ 0) (hv' : v' ≠ 0) :
    Sync (div c (enc u) (enc v)) (div c (enc u') (enc v')) fun _ _ => v = v' := by
  obtain ⟨t, ht⟩ := mul_ct c
  unfold div
  refine (inverse_sync c _ _ (enc_WF v) (enc_WF v') (not_dvd_enc hv) (not_dvd_enc hv')).bind fun _ _ _ _ e => ?_
  exact (Sync.ret (ht _ _).ret (ht _ _).ret).mono fun _ _ _ => enc_inj.1 e

theorem divRef_sync (c : Cfg) (u v u' v' : Fp) (hv : v ≠ 0) (hv' : v' ≠ 0) :
    Sync (divRef c (enc u) (enc v)) (divRef c (enc u') (enc v')) fun _ _ => v = v' := by
  unfold divRef
  refine Sync.skip (ctEq_ret _ _) (ctEq_ret _ _) fun _ _ => (rassert_sync _ _).bind fun _ _ _ _ _ => ?_
  exact div_sync c u v u' v' hv hv'

theorem pow_Q_ne (y : Fp) (hy : ¬IsSquare y) : y ^ Zerocaf.Field.Q ≠ 1 := fun h => hy (by
  have h0 : y ≠ 0 := fun h0 => hy ⟨0, by rw [h0, mul_zero]⟩
  rw [ZMod.euler_criterion p h0, show p / 2 = Zerocaf.Field.Q * 2 by decide, pow_mul, h, one_pow])

/-- The first test of the loop of `mod_sqrt`. -/
theorem tonelli_first (c : Cfg) (n n' : ℕ) (cc x cc' x' : FE) (t t' : Fp) (mm mm' : FE) :
    Sync (tonelliLoop c n cc x (enc t) mm) (tonelliLoop c n' cc' x' (enc t') mm') fun _ _ => t = 1 ↔ t' = 1 := by
  intro y y' z z' hy hy' hyt
  refine ⟨(tonelliLoop_sync c _ _ _ _ _ _ _ _ _ _ y y' z z' hy hy' hyt).1, ?_⟩
  cases n with
  | zero => simp [tonelliLoop] at hy
  | succ n =>
    cases n' with
    | zero => simp [tonelliLoop] at hy'
    | succ n' =>
      rw [tonelliLoop, tonelliLoop, Zerocaf.Field.one_enc, LM.tr_bind _ _ _ (ctEq_val _ _),
        LM.tr_bind _ _ _ (ctEq_val _ _), ctEq_tr, ctEq_tr, List.append_assoc, List.append_assoc] at hyt
      have h2 := List.append_cancel_left hyt
      rw [LM.tr_bind _ _ _ (br_val _ _), LM.tr_bind _ _ _ (br_val _ _), br_tr, br_tr, List.append_assoc,
        List.append_assoc, List.cons_append, List.cons_append] at h2
      have h3 := (List.cons.inj h2).1
      rw [Ev.br.injEq, Zerocaf.Field.ctEq_enc, Zerocaf.Field.ctEq_enc, Bool.not_inj_iff, decide_eq_decide] at h3
      exact h3.2

/-- Square roots in step: both elements are zero or neither, both are squares or neither, and both are fourth powers
or neither. -/
theorem modSqrt_sync (c : Cfg) (hc : c.Enough) (x x' : Fp) (s s' : Bool) :
    Sync (modSqrt c (enc x) s) (modSqrt c (enc x') s') fun _ _ =>
      (x = 0 ↔ x' = 0) ∧ (IsSquare x ↔ IsSquare x') ∧ (x ^ Zerocaf.Field.Q = 1 ↔ x' ^ Zerocaf.Field.Q = 1) := by
  classical
  obtain ⟨q, wq, vq, eq⟩ := Zerocaf.Field.factorLoop_spec c hc
  obtain ⟨ts, hs⟩ := sub_ct c
  obtain ⟨ta, ha⟩ := add_ct c
  unfold modSqrt
  rw [Zerocaf.Field.zero_enc]
  refine eqE (Sync.branch _ fun e0 => ?_)
  rw [decide_eq_decide] at e0
  by_cases h0 : x = 0
  · have h0' := e0.1 h0
    rw [decide_eq_true h0, if_pos rfl, if_pos rfl]
    refine Sync.pure ?_
    rw [h0, h0']
    exact ⟨Iff.rfl, Iff.rfl, Iff.rfl⟩
  have h0' : x' ≠ 0 := fun h => h0 (e0.2 h)
  rw [decide_eq_false h0, if_neg (by simp), if_neg (by simp)]
  refine (legendre_sync c _ _).bind fun l l' hl hl' _ => Sync.branch _ fun e1 => ?_
  rw [legendre_val, Zerocaf.Field.legendre_enc c hc, Res.ok_inj] at hl hl'
  rw [← e1] at hl'
  subst hl
  rw [decide_eq_decide] at hl'
  by_cases h1 : IsSquare x
  · rw [decide_eq_true h1, if_neg (by simp), if_neg (by simp)]
    refine (factorLoop_sync c _ _ _ _ _ _).bind fun f f' hf hf' _ => ?_
    rw [factorLoop_val, ← Zerocaf.Field.zero_enc, eq, Res.ok_inj] at hf hf'
    subst hf hf'
    dsimp only
    refine (pow_sync c _ _ _ _).bind fun _ _ _ _ _ => Sync.skip (ha _ _).ret (ha _ _).ret fun _ _ => ?_
    refine (pow_sync c _ _ _ _).bind fun _ _ _ _ _ => (pow_sync c _ _ _ _).bind fun t t' ht ht' _ => ?_
    rw [pow_val, Zerocaf.Field.pow_enc c hc _ _ wq, vq, Res.ok_inj] at ht ht'
    subst ht ht'
    refine Sync.bind (R := fun _ _ => x ^ Zerocaf.Field.Q = 1 ↔ x' ^ Zerocaf.Field.Q = 1) ?_ fun _ _ _ _ e2 =>
      Sync.skip (hs _ _).ret (hs _ _).ret fun _ _ => Sync.pure ⟨e0, hl'.symm, e2⟩
    exact tonelli_first c c.fuel c.fuel _ _ _ _ _ _ _ _
  · rw [decide_eq_false h1, if_pos (by simp), if_pos (by simp)]
    have h1' : ¬IsSquare x' := fun h => h1 (hl'.1 h)
    exact Sync.pure ⟨e0, hl'.symm, fun h => absurd h (pow_Q_ne x h1), fun h => absurd h (pow_Q_ne x' h1')⟩

/-- The element of which `sqrt_ratio_i` takes the root. -/
noncomputable def rooted (u v : Fp) : Fp := open Classical in if IsSquare (u / v) then u / v else Zerocaf.Field.iZ * (u / v)

/-- Square roots of ratios in step. -/
theorem sqrtRatioI_sync (c : Cfg) (hc : c.Enough) (u v u' v' : Fp) :
    Sync (sqrtRatioI c (enc u) (enc v)) (sqrtRatioI c (enc u') (enc v')) fun _ _ =>
      (u = 0 ↔ u' = 0) ∧ (u ≠ 0 → v = v' ∧ (v ≠ 0 → (IsSquare (u / v) ↔ IsSquare (u' / v')) ∧
        (rooted u v ^ Zerocaf.Field.Q = 1 ↔ rooted u' v' ^ Zerocaf.Field.Q = 1))) := by
  classical
  obtain ⟨tm, hm⟩ := mul_ct c
  obtain ⟨tn, hn⟩ := condNegate_ct c
  unfold sqrtRatioI
  rw [Zerocaf.Field.zero_enc]
  refine eqE (eqE (Sync.branch _ fun e0 => ?_))
  rw [decide_eq_decide] at e0
  by_cases h0 : u = 0
  · rw [decide_eq_true h0, if_pos rfl, if_pos rfl]
    exact Sync.pure ⟨e0, fun h => absurd h0 h⟩
  have h0' : u' ≠ 0 := fun h => h0 (e0.2 h)
  rw [decide_eq_false h0, if_neg (by simp), if_neg (by simp)]
  refine Sync.branch _ fun e1 => ?_
  rw [decide_eq_decide] at e1
  by_cases h1 : v = 0
  · rw [decide_eq_true h1, if_pos rfl, if_pos rfl]
    exact Sync.pure ⟨e0, fun _ => ⟨by rw [h1, e1.1 h1], fun h => absurd h1 h⟩⟩
  have h1' : v' ≠ 0 := fun h => h1 (e1.2 h)
  rw [decide_eq_false h1, if_neg (by simp), if_neg (by simp)]
  refine (divRef_sync c u v u' v' h1 h1').bind fun q q' hq hq' ev => ?_
  rw [divRef_val, Zerocaf.Field.divRef_enc c hc _ _ ‹_›, Res.ok_inj] at hq hq'
  subst hq hq'
  refine (legendre_sync c _ _).bind fun l l' hl hl' _ => Sync.branch _ fun e2 => ?_
  rw [legendre_val, Zerocaf.Field.legendre_enc c hc, Res.ok_inj] at hl hl'
  rw [← e2] at hl'
  subst hl
  rw [decide_eq_decide] at hl'
  have last : ∀ (b : Bool) (y y' : Fp), rooted u v = y → rooted u' v' = y' → Sync (do
      let o ← modSqrt c (enc y) true
      let res ← unwrap o
      let pos ← isPositive res
      let res ← condNegate c res (!pos)
      return (b, res)) (do
      let o ← modSqrt c (enc y') true
      let res ← unwrap o
      let pos ← isPositive res
      let res ← condNegate c res (!pos)
      return (b, res)) fun _ _ => (u = 0 ↔ u' = 0) ∧ (u ≠ 0 → v = v' ∧ (v ≠ 0 → (IsSquare (u / v) ↔ IsSquare (u' / v')) ∧
        (rooted u v ^ Zerocaf.Field.Q = 1 ↔ rooted u' v' ^ Zerocaf.Field.Q = 1))) := by
    rintro b y y' rfl rfl
    refine (modSqrt_sync c hc _ _ _ _).bind fun _ _ _ _ e3 => (unwrap_sync _ _).bind fun _ _ _ _ _ => ?_
    refine (isPositive_sync _ _).bind fun _ _ _ _ _ => Sync.skip (hn _ _).ret (hn _ _).ret fun _ _ => ?_
    exact Sync.pure ⟨e0, fun _ => ⟨ev, fun _ => ⟨hl'.symm, e3.2.2⟩⟩⟩
  by_cases h2 : IsSquare (u / v)
  · rw [decide_eq_true h2, if_neg (by simp), if_neg (by simp)]
    refine (divRef_sync c u v u' v' h1 h1').bind fun q q' hq hq' _ => ?_
    rw [divRef_val, Zerocaf.Field.divRef_enc c hc _ _ ‹_›, Res.ok_inj] at hq hq'
    subst hq hq'
    exact last true _ _ (by unfold rooted; rw [if_pos h2]) (by unfold rooted; rw [if_pos (hl'.2 h2)])
  · rw [decide_eq_false h2, if_pos (by simp), if_pos (by simp)]
    refine (divRef_sync c u v u' v' h1 h1').bind fun q q' hq hq' _ => ?_
    rw [divRef_val, Zerocaf.Field.divRef_enc c hc _ _ ‹_›, Res.ok_inj] at hq hq'
    subst hq hq'
    rw [Zerocaf.Field.SQRT_MINUS_ONE_enc]
    refine mulE ?_
    exact last false _ _ (by unfold rooted; rw [if_neg h2]) (by unfold rooted; rw [if_neg fun h => h2 (hl'.1 h)])

end Field

end Leak
end Zerocaf
