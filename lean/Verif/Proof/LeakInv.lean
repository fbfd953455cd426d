import Verif.Proof.LeakCt

/-!
# Traces of the loops

The trace of a loop determines the number that steers it: the branches of `pow` and `double_and_add` spell the
binary digits of the exponent or scalar, those of the inversion the steps of the binary greatest common divisor.
-/

set_option exponentiation.threshold 600

namespace Zerocaf
namespace Leak

/-- Events of limb comparisons. -/
def Ev.isCmp : Ev → Bool
  | .br .cmpGt _ => true
  | .br .cmpLt _ => true
  | _ => false

/-- Only comparison events. -/
def AllCmp (l : List Ev) : Prop := ∀ e ∈ l, e.isCmp = true

theorem AllCmp.append {l l' : List Ev} (h : AllCmp l) (h' : AllCmp l') : AllCmp (l ++ l') := by
  intro e he
  rcases List.mem_append.1 he with h1 | h1
  · exact h e h1
  · exact h' e h1

/-- Comparison events followed by another event can be read back. -/
theorem cmp_split : ∀ {l l' : List Ev} {y y' : Ev} {z z' : List Ev}, AllCmp l → AllCmp l' → y.isCmp = false →
    y'.isCmp = false → l ++ y :: z = l' ++ y' :: z' → y = y' ∧ z = z' := by
  intro l
  induction l with
  | nil =>
    intro l' y y' z z' _ h' hy hy' e
    cases l' with
    | nil => simpa using e
    | cons x l' =>
      simp only [List.nil_append, List.cons_append, List.cons.injEq] at e
      rw [e.1, h' x (by simp)] at hy
      cases hy
  | cons x l ih =>
    intro l' y y' z z' h h' hy hy' e
    cases l' with
    | nil =>
      simp only [List.nil_append, List.cons_append, List.cons.injEq] at e
      rw [← e.1, h x (by simp)] at hy'
      cases hy'
    | cons x' l' =>
      simp only [List.cons_append, List.cons.injEq] at e
      exact ih (fun e he => h e (by simp [he])) (fun e he => h' e (by simp [he])) hy hy' e.2

theorem cmpLimbs_allCmp (l : List (ℕ × ℕ)) : AllCmp (cmpLimbs l).tr := by
  induction l with
  | nil => intro e he; simp [cmpLimbs] at he
  | cons q l ih =>
    obtain ⟨x, y⟩ := q
    rw [cmpLimbs, LM.tr_bind _ _ _ (br_val _ _)]
    refine AllCmp.append (by intro e he; simp at he; rw [he]; rfl) ?_
    by_cases h : x > y
    · rw [if_pos (decide_eq_true h)]
      intro e he
      simp at he
    · rw [if_neg (by simpa using h), LM.tr_bind _ _ _ (br_val _ _)]
      refine AllCmp.append (by intro e he; simp at he; rw [he]; rfl) ?_
      by_cases h' : x < y
      · rw [if_pos (decide_eq_true h')]
        intro e he
        simp at he
      · rw [if_neg (by simpa using h')]
        exact ih

theorem gt_allCmp (a b : L5) : AllCmp (gt a b).tr := by
  unfold gt
  rw [LM.tr_bind _ _ _ (cmp_val a b), LM.tr_pure, List.append_nil]
  exact cmpLimbs_allCmp _

theorem ge_allCmp (a b : L5) : AllCmp (ge a b).tr := by
  unfold ge
  rw [LM.tr_bind _ _ _ (cmp_val a b), LM.tr_pure, List.append_nil]
  exact cmpLimbs_allCmp _

/-- If `m` returns, its trace is `t`. -/
def Ret {α : Type} (m : LM α) (t : List Ev) : Prop := ∀ a, m.val = .ok a → m.tr = t

theorem Const.ret {α : Type} {c : Cfg} {m : LM α} {t : List Ev} (h : Const c m t) : Ret m t := h.1

theorem Ret.bind {α β : Type} {m : LM α} {f : α → LM β} {t t' : List Ev} (h : Ret m t) (h' : ∀ a, Ret (f a) t') :
    Ret (m >>= f) (t ++ t') := by
  intro b hb
  obtain ⟨a, ha, hfa⟩ := bind_ok hb
  rw [LM.tr_bind m f a ha, h a ha, h' a b hfa]

/-- A computation that returns `a` first. -/
theorem Ret.bind_of {α β : Type} {m : LM α} {f : α → LM β} {t' : List Ev} {a : α} (h : m.val = .ok a)
    (h' : Ret (f a) t') : Ret (m >>= f) (m.tr ++ t') := by
  intro b hb
  obtain ⟨a', ha', hfa⟩ := bind_ok hb
  rw [h, Res.ok_inj] at ha'
  subst ha'
  rw [LM.tr_bind m f a h, h' b hfa]

namespace Field

/-! ### Powers -/

/-- The trace of a power depends on the exponent only. -/
theorem powLoop_ret (c : Cfg) : ∀ (n : ℕ) (e : FE), ∃ t, ∀ base res, Ret (powLoop c n base res e) t := by
  obtain ⟨tm, hm⟩ := mul_ct c
  intro n
  induction n with
  | zero => intro e; exact ⟨[], fun base res a ha => by simp [powLoop] at ha⟩
  | succ n ih =>
    intro e
    by_cases hg : Zerocaf.Field.gt e Zerocaf.Field.zero = true
    · by_cases he : Zerocaf.Field.isEven e = true
      · obtain ⟨t, ht⟩ := ih (Zerocaf.Field.halfWithoutMod e)
        refine ⟨(gt e Zerocaf.Field.zero).tr ++ ([.br .powWhile true] ++ ([.br .powEven true] ++ (tm ++ t))),
          fun base res => ?_⟩
        rw [powLoop]
        refine Ret.bind_of (gt_val _ _) ?_
        rw [hg]
        refine Ret.bind_of (br_val _ _) ?_
        rw [if_pos rfl, he]
        refine Ret.bind_of (br_val _ _) ?_
        rw [if_pos rfl]
        exact Ret.bind (hm _ _).ret fun _ => ht _ _
      · cases hs : (sub c e Zerocaf.Field.one).val with
        | ok e1 =>
          obtain ⟨t, ht⟩ := ih (Zerocaf.Field.halfWithoutMod e1)
          refine ⟨(gt e Zerocaf.Field.zero).tr ++ ([.br .powWhile true] ++ ([.br .powEven false] ++
            ((sub c e Zerocaf.Field.one).tr ++ (tm ++ (tm ++ t))))), fun base res => ?_⟩
          rw [powLoop]
          refine Ret.bind_of (gt_val _ _) ?_
          rw [hg]
          refine Ret.bind_of (br_val _ _) ?_
          rw [if_pos rfl, Bool.eq_false_iff.2 he]
          refine Ret.bind_of (br_val _ _) ?_
          rw [if_neg (by simp)]
          refine Ret.bind_of hs ?_
          exact Ret.bind (hm _ _).ret fun _ => Ret.bind (hm _ _).ret fun _ => ht _ _
        | panic =>
          refine ⟨[], fun base res a ha => ?_⟩
          exfalso
          rw [powLoop] at ha
          simp [LM.val_bind, gt_val, hg, Bool.eq_false_iff.2 he, hs] at ha
        | diverge =>
          refine ⟨[], fun base res a ha => ?_⟩
          exfalso
          rw [powLoop] at ha
          simp [LM.val_bind, gt_val, hg, Bool.eq_false_iff.2 he, hs] at ha
    · refine ⟨(gt e Zerocaf.Field.zero).tr ++ ([.br .powWhile false] ++ []), fun base res => ?_⟩
      rw [powLoop]
      refine Ret.bind_of (gt_val _ _) ?_
      rw [Bool.eq_false_iff.2 hg]
      refine Ret.bind_of (br_val _ _) ?_
      rw [if_neg (by simp)]
      exact fun _ _ => LM.tr_pure _

/-- One round of the loop of `pow`. -/
theorem powLoop_round (c : Cfg) (tm ts : List Ev) (hm : ∀ a b, Const c (mul c a b) tm)
    (hs : ∀ a b, Const c (sub c a b) ts) (n : ℕ) (base res e x : FE) (he : e.WF)
    (hx : (powLoop c n base res e).val = .ok x) :
    ∃ C, AllCmp C ∧
      ((e.val = 0 ∧ (powLoop c n base res e).tr = C ++ .br .powWhile false :: []) ∨
       (∃ n' base' res' e', n = n' + 1 ∧ e'.WF ∧ e.val = 2 * e'.val ∧ (powLoop c n' base' res' e').val = .ok x ∧
        (powLoop c n base res e).tr =
          C ++ .br .powWhile true :: .br .powEven true :: (tm ++ (powLoop c n' base' res' e').tr)) ∨
       (∃ n' base' res' e', n = n' + 1 ∧ e'.WF ∧ e.val = 2 * e'.val + 1 ∧ (powLoop c n' base' res' e').val = .ok x ∧
        (powLoop c n base res e).tr =
          C ++ .br .powWhile true :: .br .powEven false :: (ts ++ (tm ++ (tm ++ (powLoop c n' base' res' e').tr))))) := by
  cases n with
  | zero => simp [powLoop] at hx
  | succ n =>
    refine ⟨_, gt_allCmp e Zerocaf.Field.zero, ?_⟩
    rw [powLoop] at hx ⊢
    obtain ⟨g, hg, hx⟩ := bind_ok hx
    rw [LM.tr_bind _ _ _ hg]
    rw [gt_val, Res.ok_inj, Zerocaf.Field.gt_spec _ _ he Zerocaf.Field.zero_canon.1, Zerocaf.Field.zero_val] at hg
    obtain ⟨w, hw, hx⟩ := bind_ok hx
    rw [LM.tr_bind _ _ _ hw]
    rw [br_val, Res.ok_inj] at hw
    subst hw
    rw [br_tr]
    by_cases h0 : e.val = 0
    · left
      rw [h0] at hg
      subst hg
      rw [if_neg (by simp)] at hx ⊢
      exact ⟨h0, by simp⟩
    · right
      have : g = true := by rw [← hg]; exact decide_eq_true (by omega)
      subst this
      rw [if_pos rfl] at hx ⊢
      obtain ⟨b, hb, hx⟩ := bind_ok hx
      rw [LM.tr_bind _ _ _ hb]
      rw [br_val, Res.ok_inj, Zerocaf.Field.isEven_spec] at hb
      rw [br_tr, Zerocaf.Field.isEven_spec]
      by_cases hev : e.val % 2 = 0
      · left
        rw [decide_eq_true hev] at hb ⊢
        subst hb
        rw [if_pos rfl] at hx ⊢
        obtain ⟨base', hb', hx⟩ := bind_ok hx
        rw [LM.tr_bind _ _ _ hb', (hm _ _).1 _ hb']
        obtain ⟨wh, vh⟩ := halfWithoutMod_spec e he
        exact ⟨n, base', res, _, rfl, wh, by rw [vh]; omega, hx, rfl⟩
      · right
        rw [decide_eq_false hev] at hb ⊢
        subst hb
        rw [if_neg (by simp)] at hx ⊢
        obtain ⟨e1, he1, hx⟩ := bind_ok hx
        rw [LM.tr_bind _ _ _ he1, (hs _ _).1 _ he1]
        obtain ⟨res', hr', hx⟩ := bind_ok hx
        rw [LM.tr_bind _ _ _ hr', (hm _ _).1 _ hr']
        obtain ⟨base', hb', hx⟩ := bind_ok hx
        rw [LM.tr_bind _ _ _ hb', (hm _ _).1 _ hb']
        obtain ⟨r1, er1, wr1, vr1⟩ := Zerocaf.Field.sub_exact c e Zerocaf.Field.one he Zerocaf.Field.one_canon.1
          (by rw [Zerocaf.Field.one_val]; omega)
        rw [sub_val, er1, Res.ok_inj] at he1
        subst he1
        obtain ⟨wh, vh⟩ := halfWithoutMod_spec r1 wr1
        rw [Zerocaf.Field.one_val] at vr1
        exact ⟨n, base', res', _, rfl, wh, by rw [vh, vr1]; omega, hx, rfl⟩

theorem powLoop_inj (c : Cfg) (tm ts : List Ev) (hm : ∀ a b, Const c (mul c a b) tm)
    (hs : ∀ a b, Const c (sub c a b) ts) : ∀ (n n' : ℕ) (base res e base' res' e' x x' : FE) (z z' : List Ev),
    e.WF → e'.WF → (powLoop c n base res e).val = .ok x → (powLoop c n' base' res' e').val = .ok x' →
    (powLoop c n base res e).tr ++ z = (powLoop c n' base' res' e').tr ++ z' → e.val = e'.val := by
  intro n
  induction n with
  | zero => intro n' base res e base' res' e' x x' z z' he he' hx; simp [powLoop] at hx
  | succ n ih =>
    intro n' base res e base' res' e' x x' z z' he he' hx hx' ht
    obtain ⟨C, hC, h⟩ := powLoop_round c tm ts hm hs (n + 1) base res e x he hx
    obtain ⟨C', hC', h'⟩ := powLoop_round c tm ts hm hs n' base' res' e' x' he' hx'
    rcases h with ⟨h0, t⟩ | ⟨m, b, r, f, en, hf, hv, hy, t⟩ | ⟨m, b, r, f, en, hf, hv, hy, t⟩ <;>
    rcases h' with ⟨h0', t'⟩ | ⟨m', b', r', f', en', hf', hv', hy', t'⟩ | ⟨m', b', r', f', en', hf', hv', hy', t'⟩ <;>
    simp only [t, t', List.append_assoc, List.cons_append] at ht <;>
    have hh := cmp_split hC hC' rfl rfl ht
    · rw [h0, h0']
    · simp at hh
    · simp at hh
    · simp at hh
    · obtain rfl : n = m := by omega
      have h2 := List.append_cancel_left (List.cons.inj hh.2).2
      rw [hv, hv', ih m' b r f b' r' f' x x' z z' hf hf' hy hy' h2]
    · simp at hh
    · simp at hh
    · simp at hh
    · obtain rfl : n = m := by omega
      have h2 := List.append_cancel_left (List.append_cancel_left (List.append_cancel_left (List.cons.inj hh.2).2))
      rw [hv, hv', ih m' b r f b' r' f' x x' z z' hf hf' hy hy' h2]

/-! ### Inversion -/

/-- One round of the loop of the inversion. -/
theorem phase1Loop_round (c : Cfg) (tm ts ta : List Ev) (hm : ∀ a b, Const c (mul c a b) tm)
    (hs : ∀ a b, Const c (sub c a b) ts) (ha : ∀ a b, Const c (add c a b) ta) (n : ℕ) (u v r s : FE) (k : ℕ)
    (x : FE × ℕ) (hu : u.WF) (hv : v.WF) (hx : (phase1Loop c n u v r s k).val = .ok x) :
    ∃ C C', AllCmp C ∧ AllCmp C' ∧
      ((v.val = 0 ∧ (phase1Loop c n u v r s k).tr = C ++ .br .kWhile false :: []) ∨
       (∃ n' u' v' r' s' k' d t, n = n' + 1 ∧ u'.WF ∧ v'.WF ∧ (phase1Loop c n' u' v' r' s' k').val = .ok x ∧
        (phase1Loop c n u v r s k).tr =
          C ++ .br .kWhile true :: (C' ++ (d ++ (t ++ (phase1Loop c n' u' v' r' s' k').tr))) ∧
        ((d = [.br .kU true] ∧ t = tm ++ chkTr c ∧ u.val = 2 * u'.val ∧ v.val = v'.val) ∨
         (d = [.br .kU false, .br .kV true] ∧ t = tm ++ chkTr c ∧ u.val % 2 = 1 ∧ u.val = u'.val ∧ v.val = 2 * v'.val) ∨
         (d = [.br .kU false, .br .kV false, .br .kGt true] ∧ t = ts ++ (ta ++ (tm ++ chkTr c)) ∧ u.val % 2 = 1 ∧
          v.val % 2 = 1 ∧ u.val = 2 * u'.val + v'.val ∧ v.val = v'.val) ∨
         (d = [.br .kU false, .br .kV false, .br .kGt false, .br .kGe true] ∧ t = ts ++ (ta ++ (tm ++ chkTr c)) ∧
          u.val % 2 = 1 ∧ v.val % 2 = 1 ∧ u.val = u'.val ∧ v.val = 2 * v'.val + u'.val)))) := by
  cases n with
  | zero => simp [phase1Loop] at hx
  | succ n =>
    refine ⟨_, (gt u v).tr ++ (ge v u).tr, gt_allCmp v Zerocaf.Field.zero, (gt_allCmp u v).append (ge_allCmp v u), ?_⟩
    rw [phase1Loop] at hx ⊢
    obtain ⟨g, hg, hx⟩ := bind_ok hx
    rw [LM.tr_bind _ _ _ hg]
    rw [gt_val, Res.ok_inj, Zerocaf.Field.gt_spec _ _ hv Zerocaf.Field.zero_canon.1, Zerocaf.Field.zero_val] at hg
    obtain ⟨w, hw, hx⟩ := bind_ok hx
    rw [LM.tr_bind _ _ _ hw]
    rw [br_val, Res.ok_inj] at hw
    subst hw
    rw [br_tr]
    by_cases h0 : v.val = 0
    · left
      rw [h0] at hg
      subst hg
      rw [if_neg (by simp)] at hx ⊢
      exact ⟨h0, by simp⟩
    right
    have : g = true := by rw [← hg]; exact decide_eq_true (by omega)
    subst this
    rw [if_pos rfl] at hx ⊢
    obtain ⟨cg, hcg, hx⟩ := bind_ok hx
    rw [LM.tr_bind _ _ _ hcg]
    rw [gt_val, Res.ok_inj, Zerocaf.Field.gt_spec _ _ hu hv] at hcg
    obtain ⟨cl, hcl, hx⟩ := bind_ok hx
    rw [LM.tr_bind _ _ _ hcl]
    rw [ge_val, Res.ok_inj, Zerocaf.Field.ge_spec _ _ hv hu] at hcl
    obtain ⟨ue, hue, hx⟩ := bind_ok hx
    rw [LM.tr_bind _ _ _ hue]
    rw [br_val, Res.ok_inj] at hue
    rw [br_tr]
    subst hue
    rw [Zerocaf.Field.isEven_spec] at hx ⊢
    by_cases eu : u.val % 2 = 0
    · rw [decide_eq_true eu, if_pos rfl] at hx ⊢
      obtain ⟨s', hs', hx⟩ := bind_ok hx
      rw [LM.tr_bind _ _ _ hs', (hm _ _).1 _ hs']
      obtain ⟨k', hk', hx⟩ := bind_ok hx
      rw [LM.tr_bind _ _ _ hk', (chk64_ct c _).1 _ hk']
      obtain ⟨wh, vh⟩ := halfWithoutMod_spec u hu
      exact ⟨n, _, v, r, s', k', _, _, rfl, wh, hv, hx, by simp only [List.append_assoc, List.cons_append, List.nil_append], Or.inl ⟨rfl, rfl, by rw [vh]; omega, rfl⟩⟩
    rw [decide_eq_false eu, if_neg (by simp)] at hx ⊢
    obtain ⟨ve, hve, hx⟩ := bind_ok hx
    rw [LM.tr_bind _ _ _ hve]
    rw [br_val, Res.ok_inj] at hve
    rw [br_tr]
    subst hve
    rw [Zerocaf.Field.isEven_spec] at hx ⊢
    by_cases ev : v.val % 2 = 0
    · rw [decide_eq_true ev, if_pos rfl] at hx ⊢
      obtain ⟨s', hs', hx⟩ := bind_ok hx
      rw [LM.tr_bind _ _ _ hs', (hm _ _).1 _ hs']
      obtain ⟨k', hk', hx⟩ := bind_ok hx
      rw [LM.tr_bind _ _ _ hk', (chk64_ct c _).1 _ hk']
      obtain ⟨wh, vh⟩ := halfWithoutMod_spec v hv
      exact ⟨n, u, _, s', s, k', _, _, rfl, hu, wh, hx, by simp only [List.append_assoc, List.cons_append, List.nil_append], Or.inr (Or.inl ⟨rfl, rfl, by omega, rfl, by rw [vh]; omega⟩)⟩
    rw [decide_eq_false ev, if_neg (by simp)] at hx ⊢
    obtain ⟨bg, hbg, hx⟩ := bind_ok hx
    rw [LM.tr_bind _ _ _ hbg]
    rw [br_val, Res.ok_inj] at hbg
    rw [br_tr]
    subst hbg
    by_cases huv : v.val < u.val
    · rw [decide_eq_true huv] at hcg
      subst hcg
      rw [if_pos rfl] at hx ⊢
      obtain ⟨u1, hu1, hx⟩ := bind_ok hx
      rw [LM.tr_bind _ _ _ hu1, (hs _ _).1 _ hu1]
      obtain ⟨r', hr', hx⟩ := bind_ok hx
      rw [LM.tr_bind _ _ _ hr', (ha _ _).1 _ hr']
      obtain ⟨s', hs', hx⟩ := bind_ok hx
      rw [LM.tr_bind _ _ _ hs', (hm _ _).1 _ hs']
      obtain ⟨k', hk', hx⟩ := bind_ok hx
      rw [LM.tr_bind _ _ _ hk', (chk64_ct c _).1 _ hk']
      obtain ⟨q, eq, wq, vq⟩ := Zerocaf.Field.sub_exact c u v hu hv huv.le
      rw [sub_val, eq, Res.ok_inj] at hu1
      subst hu1
      obtain ⟨wh, vh⟩ := halfWithoutMod_spec q wq
      exact ⟨n, _, v, r', s', k', _, _, rfl, wh, hv, hx, by simp only [List.append_assoc, List.cons_append, List.nil_append], Or.inr (Or.inr (Or.inl ⟨rfl, rfl, by omega, by omega, by rw [vh, vq]; omega, rfl⟩))⟩
    · rw [decide_eq_false huv] at hcg
      subst hcg
      rw [if_neg (by simp)] at hx ⊢
      obtain ⟨bl, hbl, hx⟩ := bind_ok hx
      rw [LM.tr_bind _ _ _ hbl]
      rw [br_val, Res.ok_inj] at hbl
      rw [br_tr]
      subst hbl
      rw [decide_eq_true (by omega)] at hcl
      subst hcl
      rw [if_pos rfl] at hx ⊢
      obtain ⟨u1, hu1, hx⟩ := bind_ok hx
      rw [LM.tr_bind _ _ _ hu1, (hs _ _).1 _ hu1]
      obtain ⟨r', hr', hx⟩ := bind_ok hx
      rw [LM.tr_bind _ _ _ hr', (ha _ _).1 _ hr']
      obtain ⟨s', hs', hx⟩ := bind_ok hx
      rw [LM.tr_bind _ _ _ hs', (hm _ _).1 _ hs']
      obtain ⟨k', hk', hx⟩ := bind_ok hx
      rw [LM.tr_bind _ _ _ hk', (chk64_ct c _).1 _ hk']
      obtain ⟨q, eq, wq, vq⟩ := Zerocaf.Field.sub_exact c v u hv hu (by omega)
      rw [sub_val, eq, Res.ok_inj] at hu1
      subst hu1
      obtain ⟨wh, vh⟩ := halfWithoutMod_spec q wq
      exact ⟨n, u, _, s', r', k', _, _, rfl, hu, wh, hx, by simp only [List.append_assoc, List.cons_append, List.nil_append], Or.inr (Or.inr (Or.inr ⟨rfl, rfl, by omega, by omega, rfl, by rw [vh, vq]; omega⟩))⟩

theorem phase1Loop_inj (c : Cfg) (tm ts ta : List Ev) (hm : ∀ a b, Const c (mul c a b) tm)
    (hs : ∀ a b, Const c (sub c a b) ts) (ha : ∀ a b, Const c (add c a b) ta) :
    ∀ (n n' : ℕ) (u v r s : FE) (k : ℕ) (u' v' r' s' : FE) (k' : ℕ) (x x' : FE × ℕ) (z z' : List Ev),
    u.WF → v.WF → u'.WF → v'.WF → Nat.Coprime u.val v.val → Nat.Coprime u'.val v'.val →
    (phase1Loop c n u v r s k).val = .ok x → (phase1Loop c n' u' v' r' s' k').val = .ok x' →
    (phase1Loop c n u v r s k).tr ++ z = (phase1Loop c n' u' v' r' s' k').tr ++ z' →
    u.val = u'.val ∧ v.val = v'.val := by
  intro n
  induction n with
  | zero => intro n' u v r s k u' v' r' s' k' x x' z z' _ _ _ _ _ _ hx; simp [phase1Loop] at hx
  | succ n ih =>
    intro n' u v r s k u' v' r' s' k' x x' z z' hu hv hu' hv' hg hg' hx hx' ht
    obtain ⟨C, D, hC, hD, h⟩ := phase1Loop_round c tm ts ta hm hs ha (n + 1) u v r s k x hu hv hx
    obtain ⟨C', D', hC', hD', h'⟩ := phase1Loop_round c tm ts ta hm hs ha n' u' v' r' s' k' x' hu' hv' hx'
    have key : ∀ (m m' : ℕ) (u2 v2 r2 s2 : FE) (k2 : ℕ) (u2' v2' r2' s2' : FE) (k2' : ℕ) (t : List Ev), n + 1 = m + 1 →
        u2.WF → v2.WF → u2'.WF → v2'.WF → Nat.Coprime u2.val v2.val → Nat.Coprime u2'.val v2'.val →
        (phase1Loop c m u2 v2 r2 s2 k2).val = .ok x → (phase1Loop c m' u2' v2' r2' s2' k2').val = .ok x' →
        t ++ ((phase1Loop c m u2 v2 r2 s2 k2).tr ++ z) = t ++ ((phase1Loop c m' u2' v2' r2' s2' k2').tr ++ z') →
        u2.val = u2'.val ∧ v2.val = v2'.val := by
      intro m m' u2 v2 r2 s2 k2 u2' v2' r2' s2' k2' t en w1 w2 w3 w4 g g' y y' e
      obtain rfl : n = m := by omega
      exact ih m' u2 v2 r2 s2 k2 u2' v2' r2' s2' k2' x x' z z' w1 w2 w3 w4 g g' y y' (List.append_cancel_left e)
    have cop1 : ∀ a b : ℕ, Nat.Coprime (2 * a) b → Nat.Coprime a b := fun a b h => Nat.Coprime.coprime_mul_left h
    have cop2 : ∀ a b : ℕ, Nat.Coprime (2 * a + b) b → Nat.Coprime a b := fun a b h =>
      cop1 a b ((Nat.coprime_add_self_left ..).1 h)
    rcases h with ⟨h0, t⟩ | ⟨m, u2, v2, r2, s2, k2, d, w, en, wu, wv, hy, t, hd⟩ <;>
    rcases h' with ⟨h0', t'⟩ | ⟨m', u2', v2', r2', s2', k2', d', w', en', wu', wv', hy', t', hd'⟩ <;>
    simp only [t, t', List.append_assoc, List.cons_append] at ht <;>
    have hh := cmp_split hC hC' rfl rfl ht
    · rw [h0, Nat.coprime_zero_right] at hg
      rw [h0', Nat.coprime_zero_right] at hg'
      exact ⟨by rw [hg, hg'], by rw [h0, h0']⟩
    · simp at hh
    · simp at hh
    · have h2 := hh.2
      rcases hd with ⟨rfl, rfl, e1, e2⟩ | ⟨rfl, rfl, o, e1, e2⟩ | ⟨rfl, rfl, o, o', e1, e2⟩ |
          ⟨rfl, rfl, o, o', e1, e2⟩ <;>
      rcases hd' with ⟨rfl, rfl, e1', e2'⟩ | ⟨rfl, rfl, q, e1', e2'⟩ | ⟨rfl, rfl, q, q', e1', e2'⟩ |
          ⟨rfl, rfl, q, q', e1', e2'⟩ <;>
      simp only [List.append_assoc, List.cons_append, List.nil_append] at h2 <;>
      have h3 := cmp_split hD hD' rfl rfl h2 <;>
      simp only [List.cons.injEq, Ev.br.injEq, and_false, false_and, true_and, Bool.false_eq_true,
        Bool.true_eq_false] at h3
      · obtain ⟨k1, k2⟩ := key _ _ _ _ _ _ _ _ _ _ _ _ (tm ++ chkTr c) en wu wv wu' wv' (cop1 _ _ (by rwa [← e1, ← e2]))
          (cop1 _ _ (by rwa [← e1', ← e2'])) hy hy' (by simpa only [List.append_assoc] using h3)
        omega
      · obtain ⟨k1, k2⟩ := key _ _ _ _ _ _ _ _ _ _ _ _ (tm ++ chkTr c) en wu wv wu' wv'
          (Nat.Coprime.symm (cop1 _ _ (Nat.Coprime.symm (by rwa [← e1, ← e2]))))
          (Nat.Coprime.symm (cop1 _ _ (Nat.Coprime.symm (by rwa [← e1', ← e2'])))) hy hy'
          (by simpa only [List.append_assoc] using h3)
        omega
      · obtain ⟨k1, k2⟩ := key _ _ _ _ _ _ _ _ _ _ _ _ (ts ++ (ta ++ (tm ++ chkTr c))) en wu wv wu' wv'
          (cop2 _ _ (by rwa [← e1, ← e2])) (cop2 _ _ (by rwa [← e1', ← e2'])) hy hy'
          (by simpa only [List.append_assoc] using h3)
        omega
      · obtain ⟨k1, k2⟩ := key _ _ _ _ _ _ _ _ _ _ _ _ (ts ++ (ta ++ (tm ++ chkTr c))) en wu wv wu' wv'
          (Nat.Coprime.symm (cop2 _ _ (Nat.Coprime.symm (by rwa [← e2, ← e1]))))
          (Nat.Coprime.symm (cop2 _ _ (Nat.Coprime.symm (by rwa [← e2', ← e1'])))) hy hy'
          (by simpa only [List.append_assoc] using h3)
        omega

theorem ctEq_tr (a b : L5) : (ctEq a b).tr = .br .sliceLen true :: List.replicate 32 .stm :=
  (ctEq_ct ⟨true, 0⟩ a b).1 _ (ctEq_val a b)

theorem rassert_ok {b : Bool} {x : Unit} (h : (rassert b).val = .ok x) : b = true := by
  cases b
  · cases h
  · rfl

/-- The trace of `phase1`, split at the loop. -/
theorem phase1_split (c : Cfg) (a : FE) (x : FE × ℕ) (hx : (phase1 c a).val = .ok x) :
    ∃ y z, (phase1Loop c c.fuel ⟨671914833335277, 3916664325105025, 1367801, 0, 17592186044416⟩ a Zerocaf.Field.zero
        Zerocaf.Field.one 0).val = .ok y ∧
      (phase1 c a).tr = (.br .sliceLen true :: List.replicate 32 .stm) ++ (.br .assert true ::
        ((phase1Loop c c.fuel ⟨671914833335277, 3916664325105025, 1367801, 0, 17592186044416⟩ a Zerocaf.Field.zero
          Zerocaf.Field.one 0).tr ++ z)) := by
  unfold phase1 at hx ⊢
  obtain ⟨e, he, hx⟩ := bind_ok hx
  rw [LM.tr_bind _ _ _ he, ctEq_tr]
  obtain ⟨w, hw, hx⟩ := bind_ok hx
  rw [LM.tr_bind _ _ _ hw]
  have hw' := rassert_ok hw
  rw [hw']
  obtain ⟨y, hy, hx⟩ := bind_ok hx
  rw [LM.tr_bind _ _ _ hy]
  exact ⟨y, _, hy, rfl⟩

theorem inverse_inj (c : Cfg) (a b x y : FE) (ha : a.WF) (hb : b.WF) (ga : ¬p ∣ a.val) (gb : ¬p ∣ b.val)
    (hx : (inverse c a).val = .ok x) (hy : (inverse c b).val = .ok y) (z z' : List Ev)
    (ht : (inverse c a).tr ++ z = (inverse c b).tr ++ z') : a = b := by
  unfold inverse at hx hy ht
  obtain ⟨r, hr, hx⟩ := bind_ok hx
  obtain ⟨r', hr', hy⟩ := bind_ok hy
  rw [LM.tr_bind _ _ _ hr, LM.tr_bind _ _ _ hr'] at ht
  obtain ⟨q, w, hq, e⟩ := phase1_split c a r hr
  obtain ⟨q', w', hq', e'⟩ := phase1_split c b r' hr'
  rw [e, e'] at ht
  simp only [List.append_assoc, List.cons_append] at ht
  have h1 := (List.cons.inj (List.append_cancel_left (List.cons.inj ht).2)).2
  obtain ⟨tm, hm⟩ := mul_ct c
  obtain ⟨ts, hs⟩ := sub_ct c
  obtain ⟨ta, hadd⟩ := add_ct c
  have hp : (⟨671914833335277, 3916664325105025, 1367801, 0, 17592186044416⟩ : FE).val = p := by decide
  have hw : (⟨671914833335277, 3916664325105025, 1367801, 0, 17592186044416⟩ : FE).WF := by decide
  have := phase1Loop_inj c tm ts ta hm hs hadd c.fuel c.fuel _ a _ _ 0 _ b _ _ 0 q q' _ _ hw ha hw hb
    (by rw [hp]; exact (Nat.Prime.coprime_iff_not_dvd p_prime).2 ga)
    (by rw [hp]; exact (Nat.Prime.coprime_iff_not_dvd p_prime).2 gb) hq hq' h1
  exact ha.ext hb this.2

end Field

/-! ### Scalar multiplication -/

theorem sctEq_tr (a b : L5) : (Scalar.ctEq a b).tr = .br .sliceLen true :: List.replicate 32 .stm :=
  (Scalar.ctEq_ct ⟨true, 0⟩ a b).1 _ (Scalar.ctEq_val a b)

/-- One round of `double_and_add`. -/
theorem daa_round {T : Type} (O : PointOps T) (c : Cfg) (ta td : List Ev) (ha : ∀ a b, Ret (O.add c a b) ta)
    (hd : ∀ a, Ret (O.double c a) td) (n : ℕ) (N : T) (s : Sc) (Q x : T) (hs : s.WF) (hs2 : s.val < 2 ^ 256)
    (hx : (doubleAndAddLoop O c n N s Q).val = .ok x) :
    (s.val = 0 ∧ (doubleAndAddLoop O c n N s Q).tr =
      (.br .sliceLen true :: List.replicate 32 .stm) ++ [.br .daaWhile false]) ∨
    ∃ n' N' s' Q', n = n' + 1 ∧ s'.WF ∧ s'.val = s.val / 2 ∧ (doubleAndAddLoop O c n' N' s' Q').val = .ok x ∧
      (doubleAndAddLoop O c n N s Q).tr = (.br .sliceLen true :: List.replicate 32 .stm) ++ (.br .daaWhile true ::
        .br .daaOdd (decide (s.val % 2 = 1)) :: ((if s.val % 2 = 1 then ta else []) ++ (td ++
          (doubleAndAddLoop O c n' N' s' Q').tr))) := by
  cases n with
  | zero => simp [doubleAndAddLoop] at hx
  | succ n =>
    rw [doubleAndAddLoop] at hx ⊢
    obtain ⟨e, he, hx⟩ := bind_ok hx
    rw [LM.tr_bind _ _ _ he, sctEq_tr]
    rw [Scalar.ctEq_val, Res.ok_inj, sctEq_zero s hs hs2] at he
    obtain ⟨w, hw, hx⟩ := bind_ok hx
    rw [LM.tr_bind _ _ _ hw, br_tr]
    rw [br_val, Res.ok_inj] at hw
    by_cases h0 : s.val = 0
    · left
      rw [decide_eq_true h0] at he
      subst he
      subst hw
      exact ⟨h0, rfl⟩
    · right
      rw [decide_eq_false h0] at he
      subst he
      subst hw
      rw [if_pos (by rfl)] at hx ⊢
      obtain ⟨o, ho, hx⟩ := bind_ok hx
      rw [LM.tr_bind _ _ _ ho, br_tr]
      rw [br_val, Res.ok_inj] at ho
      subst ho
      obtain ⟨wh, vh⟩ := halfWithoutMod_spec s hs
      rw [Zerocaf.Scalar.isEven_spec] at hx ⊢
      by_cases ho : s.val % 2 = 1
      · have h2 : ¬s.val % 2 = 0 := by omega
        rw [if_pos ho, decide_eq_true ho]
        rw [decide_eq_false h2, if_pos (by rfl)] at hx ⊢
        obtain ⟨Q', hQ', hx⟩ := bind_ok hx
        rw [LM.tr_bind _ _ _ hQ', ha _ _ _ hQ']
        obtain ⟨N', hN', hx⟩ := bind_ok hx
        rw [LM.tr_bind _ _ _ hN', hd _ _ hN']
        exact ⟨n, N', _, Q', rfl, wh, vh, hx, rfl⟩
      · have h2 : s.val % 2 = 0 := by omega
        rw [if_neg ho, decide_eq_false ho]
        rw [decide_eq_true h2, if_neg (by simp)] at hx ⊢
        obtain ⟨Q', hQ', hx⟩ := bind_ok hx
        rw [LM.tr_bind _ _ _ hQ', LM.tr_pure]
        obtain ⟨N', hN', hx⟩ := bind_ok hx
        rw [LM.tr_bind _ _ _ hN', hd _ _ hN']
        exact ⟨n, N', _, Q', rfl, wh, vh, hx, rfl⟩

theorem daa_inj {T : Type} (O : PointOps T) (c : Cfg) (ta td : List Ev) (ha : ∀ a b, Ret (O.add c a b) ta)
    (hd : ∀ a, Ret (O.double c a) td) : ∀ (n n' : ℕ) (N : T) (s : Sc) (Q x N' : T) (s' : Sc) (Q' x' : T) (z z' : List Ev),
    s.WF → s.val < 2 ^ 256 → s'.WF → s'.val < 2 ^ 256 →
    (doubleAndAddLoop O c n N s Q).val = .ok x → (doubleAndAddLoop O c n' N' s' Q').val = .ok x' →
    (doubleAndAddLoop O c n N s Q).tr ++ z = (doubleAndAddLoop O c n' N' s' Q').tr ++ z' → s.val = s'.val := by
  intro n
  induction n with
  | zero => intro n' N s Q x N' s' Q' x' z z' _ _ _ _ hx; simp [doubleAndAddLoop] at hx
  | succ n ih =>
    intro n' N s Q x N' s' Q' x' z z' hs hs2 hs' hs2' hx hx' ht
    have h := daa_round O c ta td ha hd (n + 1) N s Q x hs hs2 hx
    have h' := daa_round O c ta td ha hd n' N' s' Q' x' hs' hs2' hx'
    rcases h with ⟨h0, t⟩ | ⟨m, M, r, R, en, hr, hv, hy, t⟩ <;>
    rcases h' with ⟨h0', t'⟩ | ⟨m', M', r', R', en', hr', hv', hy', t'⟩ <;>
    simp only [t, t', List.append_assoc, List.cons_append] at ht <;>
    have h1 := List.append_cancel_left (List.cons.inj ht).2 <;>
    simp only [List.nil_append, List.cons.injEq, Ev.br.injEq, and_false, false_and, true_and,
      Bool.false_eq_true, Bool.true_eq_false] at h1
    · rw [h0, h0']
    · obtain rfl : n = m := by omega
      obtain ⟨h1, h2⟩ := h1
      rw [decide_eq_decide] at h1
      have h3 : (if s.val % 2 = 1 then ta else []) = (if s'.val % 2 = 1 then ta else []) := by simp only [h1]
      rw [h3] at h2
      have h4 := List.append_cancel_left (List.append_cancel_left h2)
      have := ih m' M r R x M' r' R' x' z z' hr (by omega) hr' (by omega) hy hy' h4
      omega

/-- One round of `ltr_bin_mul`. -/
theorem ltr_round {T : Type} (O : PointOps T) (c : Cfg) (ta td : List Ev) (ha : ∀ a b, Ret (O.add c a b) ta)
    (hd : ∀ a, Ret (O.double c a) td) (P : T) (bits : Vector UInt8 256) (n : ℕ) (hn : n + 1 ≤ 256) (Q x : T)
    (hx : (ltrLoop O c P bits (n + 1) hn Q).val = .ok x) :
    ∃ R, (ltrLoop O c P bits n (by omega) R).val = .ok x ∧ (ltrLoop O c P bits (n + 1) hn Q).tr =
      td ++ (.br .ltrBit (bits[n] == 1) :: ((if (bits[n] == 1) = true then ta else []) ++
        (ltrLoop O c P bits n (by omega) R).tr)) := by
  rw [ltrLoop] at hx ⊢
  obtain ⟨D, hD, hx⟩ := bind_ok hx
  rw [LM.tr_bind _ _ _ hD, hd _ _ hD]
  obtain ⟨b, hb, hx⟩ := bind_ok hx
  rw [LM.tr_bind _ _ _ hb, br_tr]
  rw [br_val, Res.ok_inj] at hb
  subst hb
  by_cases h : (bits[n] == 1) = true
  · rw [if_pos h] at hx ⊢
    rw [if_pos h]
    obtain ⟨R, hR, hx⟩ := bind_ok hx
    rw [LM.tr_bind _ _ _ hR, ha _ _ _ hR]
    exact ⟨R, hx, rfl⟩
  · rw [if_neg h] at hx ⊢
    rw [if_neg h]
    obtain ⟨R, hR, hx⟩ := bind_ok hx
    rw [LM.tr_bind _ _ _ hR, LM.tr_pure]
    exact ⟨R, hx, rfl⟩

/-- The trace of `ltr_bin_mul` shows every digit. -/
theorem ltr_inj {T : Type} (O : PointOps T) (c : Cfg) (ta td : List Ev) (ha : ∀ a b, Ret (O.add c a b) ta)
    (hd : ∀ a, Ret (O.double c a) td) (P P' : T) (bits bits' : Vector UInt8 256) : ∀ (n : ℕ) (hn : n ≤ 256) (Q Q' x x' : T)
    (z z' : List Ev), (ltrLoop O c P bits n hn Q).val = .ok x → (ltrLoop O c P' bits' n hn Q').val = .ok x' →
    (ltrLoop O c P bits n hn Q).tr ++ z = (ltrLoop O c P' bits' n hn Q').tr ++ z' →
    ∀ (i : ℕ) (hi : i < n), (bits[i] == 1) = (bits'[i] == 1) := by
  intro n
  induction n with
  | zero => intro hn Q Q' x x' z z' _ _ _ i hi; omega
  | succ n ih =>
    intro hn Q Q' x x' z z' hx hx' ht
    obtain ⟨R, hR, t⟩ := ltr_round O c ta td ha hd P bits n hn Q x hx
    obtain ⟨R', hR', t'⟩ := ltr_round O c ta td ha hd P' bits' n hn Q' x' hx'
    rw [t, t'] at ht
    simp only [List.append_assoc, List.cons_append] at ht
    have h1 := List.append_cancel_left ht
    simp only [List.cons.injEq, Ev.br.injEq, true_and] at h1
    obtain ⟨h1, h2⟩ := h1
    rw [h1] at h2
    have := ih (by omega) R R' x x' z z' hR hR' (List.append_cancel_left h2)
    intro i hi
    rcases Nat.lt_or_eq_of_le (Nat.lt_succ_iff.1 hi) with h | h
    · exact this i h
    · subst h
      exact h1

/-- The trace of `double_and_add` does not depend on the point. -/
theorem daa_ret {T : Type} (O : PointOps T) (c : Cfg) (ta td : List Ev) (ha : ∀ a b, Ret (O.add c a b) ta)
    (hd : ∀ a, Ret (O.double c a) td) : ∀ (n : ℕ) (s : Sc), s.WF → s.val < 2 ^ 256 →
    ∃ t, ∀ N Q, Ret (doubleAndAddLoop O c n N s Q) t := by
  intro n
  induction n with
  | zero => intro s _ _; exact ⟨[], fun N Q x hx => by simp [doubleAndAddLoop] at hx⟩
  | succ n ih =>
    intro s hs hs2
    obtain ⟨wh, vh⟩ := halfWithoutMod_spec s hs
    obtain ⟨t, ht⟩ := ih _ wh (by rw [vh]; omega)
    by_cases h0 : s.val = 0
    · refine ⟨(.br .sliceLen true :: List.replicate 32 .stm) ++ [.br .daaWhile false], fun N Q x hx => ?_⟩
      rcases daa_round O c ta td ha hd (n + 1) N s Q x hs hs2 hx with ⟨_, e⟩ | ⟨m, M, r, R, en, hr, hv, hy, e⟩
      · exact e
      · exfalso
        rw [doubleAndAddLoop, LM.tr_bind _ _ _ (Scalar.ctEq_val _ _), sctEq_tr, sctEq_zero s hs hs2,
          decide_eq_true h0] at e
        have e := List.append_cancel_left e
        rw [LM.tr_bind _ _ _ (br_val _ _), br_tr] at e
        simp at e
    · refine ⟨(.br .sliceLen true :: List.replicate 32 .stm) ++ (.br .daaWhile true ::
        .br .daaOdd (decide (s.val % 2 = 1)) :: ((if s.val % 2 = 1 then ta else []) ++ (td ++ t))), fun N Q x hx => ?_⟩
      rcases daa_round O c ta td ha hd (n + 1) N s Q x hs hs2 hx with ⟨e, _⟩ | ⟨m, M, r, R, en, hr, hv, hy, e⟩
      · exact absurd e h0
      · obtain rfl : n = m := by omega
        have : r = Zerocaf.Field.halfWithoutMod s := hr.ext wh (by rw [hv, vh])
        subst this
        rw [e, ht _ _ _ hy]

/-- The trace of `ltr_bin_mul` does not depend on the point. -/
theorem ltr_ret {T : Type} (O : PointOps T) (c : Cfg) (ta td : List Ev) (ha : ∀ a b, Ret (O.add c a b) ta)
    (hd : ∀ a, Ret (O.double c a) td) (bits : Vector UInt8 256) : ∀ (n : ℕ) (hn : n ≤ 256),
    ∃ t, ∀ P Q, Ret (ltrLoop O c P bits n hn Q) t := by
  intro n
  induction n with
  | zero => intro hn; exact ⟨[], fun P Q x hx => LM.tr_pure _⟩
  | succ n ih =>
    intro hn
    obtain ⟨t, ht⟩ := ih (by omega)
    refine ⟨td ++ (.br .ltrBit (bits[n] == 1) :: ((if (bits[n] == 1) = true then ta else []) ++ t)),
      fun P Q x hx => ?_⟩
    obtain ⟨R, hR, e⟩ := ltr_round O c ta td ha hd P bits n hn Q x hx
    rw [e, ht _ _ _ hR]

end Leak
end Zerocaf
