import Verif.Model.LeakDigits
import Verif.Spec.Digits
import Verif.Proof.LeakInv
import Verif.Proof.Naf
import Verif.Proof.WindowMul

/-!
# Traces of digit expansions and powers

The trace of a digit expansion shows the signs of the digits and, at every position, where the leading limb of the
number left to expand sits. Nothing else enters.
-/

set_option exponentiation.threshold 600

namespace Zerocaf
namespace Leak

/-! ### Forgetting the trace -/

@[simp] theorem stm_val {α : Type} (r : Res α) : (stm r).val = r := by unfold stm; rfl
@[simp] theorem stm_tr {α : Type} (r : Res α) : (stm r).tr = [.stm] := by unfold stm; rfl
@[simp] theorem chkI8_val (c : Cfg) (x : ℤ) : (chkI8 c x).val = Zerocaf.chkI8 c x := by unfold chkI8; rfl

namespace Scalar

@[simp] theorem setDigit_val (v : Vector ℤ 256) (i : ℕ) (x : ℤ) :
    (setDigit v i x).val = Zerocaf.Scalar.setDigit v i x := by unfold setDigit; rfl

theorem fromI8_val (c : Cfg) (x : ℤ) : (fromI8 c x).val = Zerocaf.Scalar.fromI8 c x := by
  unfold fromI8 Zerocaf.Scalar.fromI8
  simp only [LM.val_bind, br_val, Res.ok_bind, val_ite, decide_eq_true_eq, LM.val_pure, chkI8_val, neg_val]

theorem mods2PowK_val (c : Cfg) (a : Sc) (w : ℕ) : (mods2PowK c a w).val = Zerocaf.Scalar.mods2PowK c a w := by
  unfold mods2PowK Zerocaf.Scalar.mods2PowK
  simp only [LM.val_bind, br_val, Res.ok_bind, val_ite, decide_eq_true_eq, LM.val_pure, chkI8_val, rassert_val, stm_val]
  rfl

theorem computeWindowNAF_val (c : Cfg) (a : Sc) (w : ℕ) :
    (computeWindowNAF c a w).val = Zerocaf.Scalar.computeWindowNAF c a w := by
  unfold computeWindowNAF Zerocaf.Scalar.computeWindowNAF
  generalize Vector.replicate 256 (0 : ℤ) = res
  generalize 0 = i
  generalize c.fuel = n
  induction n generalizing a i res with
  | zero => rfl
  | succ n ih =>
    rw [digitLoop, Zerocaf.Scalar.wnafLoop]
    simp only [LM.val_bind, ge_val, br_val, Res.ok_bind, val_ite, LM.val_pure, setDigit_val, fromI8_val, sub_val,
      mods2PowK_val, ih]
    rfl

theorem ge_val' (a b : Sc) : (ge a b).val = .ok (Zerocaf.Scalar.ge a b) := ge_val a b

theorem computeNAF_val (c : Cfg) (a : Sc) : (computeNAF c a).val = Zerocaf.Scalar.computeNAF c a := by
  unfold computeNAF Zerocaf.Scalar.computeNAF
  generalize Vector.replicate 256 (0 : ℤ) = res
  generalize 0 = i
  generalize c.fuel = n
  induction n generalizing a i res with
  | zero => rfl
  | succ n ih =>
    rw [digitLoop, Zerocaf.Scalar.nafLoop]
    unfold nafDigit
    simp only [LM.val_bind, ge_val, br_val, Res.ok_bind, val_ite, LM.val_pure, setDigit_val, fromI8_val, sub_val,
      stm_val, chkI8_val]
    unfold nafDigit at ih
    simp only [ih]
    cases Zerocaf.Scalar.mod2PowK c a 2 <;> rfl

theorem gt_val' (a b : Sc) : (gt a b).val = .ok (Zerocaf.Scalar.gt a b) := gt_val a b

theorem pow_gen (g ev : Bool) (sq sb ml : LM Sc) (sq' sb' ml' : Res Sc) (hf : Sc → LM Sc) (hf' : Sc → Res Sc)
    (k1 : Sc → LM Sc) (k1' : Sc → Res Sc) (k2 : Sc → Sc → Sc → LM Sc) (k2' : Sc → Sc → Sc → Res Sc) (r : Sc)
    (h1 : sq.val = sq') (h2 : sb.val = sb') (h3 : ml.val = ml') (h4 : ∀ a, (hf a).val = hf' a)
    (h5 : ∀ a, (k1 a).val = k1' a) (h6 : ∀ a b d, (k2 a b d).val = k2' a b d) :
    (do
      let w ← br .spowWhile g
      if w then do
        let e ← br .spowEven ev
        if e then do
          let base' ← sq
          k1 base'
        else do
          let e1 ← sb
          let res' ← ml
          let expon' ← hf e1
          let base' ← sq
          k2 base' res' expon'
      else pure r : LM Sc).val =
    (if g then
      if ev then do
        let base' ← sq'
        k1' base'
      else do
        let e1 ← sb'
        let res' ← ml'
        let expon' ← hf' e1
        let base' ← sq'
        k2' base' res' expon'
     else .ok r) := by
  simp only [LM.val_bind, br_val, Res.ok_bind, val_ite, LM.val_pure, h1, h2, h3, h4, h5, h6]

theorem powLoop_val (c : Cfg) : ∀ (n : ℕ) (b r e : Sc), (powLoop c n b r e).val = Zerocaf.Scalar.powLoop c n b r e := by
  intro n
  induction n with
  | zero => intro b r e; rfl
  | succ n ih =>
    intro b r e
    rw [powLoop, Zerocaf.Scalar.powLoop, LM.val_bind, gt_val', Res.ok_bind]
    exact pow_gen _ _ _ _ _ _ _ _ _ _ _ _ _ _ _ (square_val _ _) (sub_val _ _ _) (mul_val _ _ _) (half_val _)
      (fun _ => ih _ _ _) (fun _ _ _ => ih _ _ _)
theorem pow_val (c : Cfg) (a e : Sc) : (pow c a e).val = Zerocaf.Scalar.pow c a e := powLoop_val c _ _ _ _

end Scalar

theorem nafMulLoop_val {T : Type} (O : PointOps T) (c : Cfg) (N : T) (naf : Vector ℤ 256) :
    ∀ (n : ℕ) (h : n ≤ 256) (Q : T), (nafMulLoop O c N naf n h Q).val = Zerocaf.nafMulLoop O.erase c N naf n h Q := by
  intro n
  induction n with
  | zero => intro h Q; rfl
  | succ n ih =>
    intro h Q
    rw [nafMulLoop, Zerocaf.nafMulLoop]
    simp only [LM.val_bind, Res.ok_bind, br_val, val_ite, ih, LM.val_pure, decide_eq_true_eq]
    rfl

theorem binaryNafMul_val {T : Type} (O : PointOps T) (c : Cfg) (N : T) (s : Sc) :
    (binaryNafMul O c N s).val = Zerocaf.binaryNafMul O.erase c N s := by
  unfold binaryNafMul Zerocaf.binaryNafMul
  simp only [LM.val_bind, Scalar.computeNAF_val, nafMulLoop_val]
  rfl

namespace Ristretto

theorem sub_val (c : Cfg) (p q : EdPoint) : (sub c p q).val = Zerocaf.Ristretto.sub c p q := by
  unfold sub
  simp only [LM.val_bind, Ed.neg_val, Ed.add_val]
  rfl

theorem tableAt_val (i : ℕ) : (tableAt i).val = Zerocaf.Ristretto.tableAt i := by unfold tableAt; rfl

theorem wnafMulLoop_val (c : Cfg) (v : Vector ℤ 256) : ∀ (n : ℕ) (h : n ≤ 256) (Q : EdPoint),
    (wnafMulLoop c v n h Q).val = Zerocaf.Ristretto.wnafMulLoop c v n h Q := by
  intro n
  induction n with
  | zero => intro h Q; rfl
  | succ n ih =>
    intro h Q
    rw [wnafMulLoop, Zerocaf.Ristretto.wnafMulLoop]
    simp only [LM.val_bind, Res.ok_bind, br_val, val_ite, ih, LM.val_pure, decide_eq_true_eq, Ed.double_val, Ed.add_val,
      sub_val, tableAt_val, chkI8_val]
    rfl

theorem windowNafMul_val (c : Cfg) (s : Sc) (w : ℕ) :
    (windowNafMul c s w).val = Zerocaf.Ristretto.windowNafMul c s w := by
  unfold windowNafMul Zerocaf.Ristretto.windowNafMul
  simp only [LM.val_bind, Scalar.computeWindowNAF_val, wnafMulLoop_val]

end Ristretto

/-! ### What is left to expand -/

theorem digitOf_even (w : ℕ) (v : ℕ) (h : v % 2 = 0) : digitOf w v = 0 := by
  unfold digitOf; rw [if_neg (by omega)]

theorem digitOf_odd (w : ℕ) (hw : 1 ≤ w) (v : ℕ) (h : v % 2 = 1) : digitOf w v = Zerocaf.Scalar.smod v w := by
  unfold digitOf
  rw [if_pos (by omega), Int.bmod_def]
  unfold Zerocaf.Scalar.smod
  obtain ⟨u, rfl⟩ : ∃ u, w = u + 1 := ⟨w - 1, by omega⟩
  rw [Nat.add_sub_cancel]
  have e : (2 : ℕ) ^ (u + 1) = 2 * 2 ^ u := pow_succ' 2 u
  have e' : (2 : ℤ) ^ (u + 1) = 2 * 2 ^ u := pow_succ' 2 u
  have hc : ((2 ^ u : ℕ) : ℤ) = 2 ^ u := by push_cast; rfl
  rw [e, e', ← hc, ← Int.natCast_mod]
  have hp : 0 < 2 ^ u := by positivity
  split_ifs <;> omega

/-- The events of the comparison with one. -/
def clsTr : ℕ → List Ev
  | 0 => [.br .cmpGt false, .br .cmpLt false, .br .cmpGt false, .br .cmpLt false, .br .cmpGt false, .br .cmpLt false,
      .br .cmpGt false, .br .cmpLt false, .br .cmpGt false, .br .cmpLt true]
  | 1 => [.br .cmpGt false, .br .cmpLt false, .br .cmpGt false, .br .cmpLt false, .br .cmpGt false, .br .cmpLt false,
      .br .cmpGt false, .br .cmpLt false, .br .cmpGt false, .br .cmpLt false]
  | 2 => [.br .cmpGt false, .br .cmpLt false, .br .cmpGt false, .br .cmpLt false, .br .cmpGt false, .br .cmpLt false,
      .br .cmpGt false, .br .cmpLt false, .br .cmpGt true]
  | 3 => [.br .cmpGt false, .br .cmpLt false, .br .cmpGt false, .br .cmpLt false, .br .cmpGt false, .br .cmpLt false,
      .br .cmpGt true]
  | 4 => [.br .cmpGt false, .br .cmpLt false, .br .cmpGt false, .br .cmpLt false, .br .cmpGt true]
  | 5 => [.br .cmpGt false, .br .cmpLt false, .br .cmpGt true]
  | _ => [.br .cmpGt true]

theorem clsTr_inj : ∀ (a b : ℕ) (x y : Bool) (z z' : List Ev), a ≤ 6 → b ≤ 6 →
    clsTr a ++ .br .digWhile x :: z = clsTr b ++ .br .digWhile y :: z' → a = b ∧ x = y ∧ z = z' := by
  intro a b x y z z' ha hb h
  interval_cases a <;> interval_cases b <;> simp [clsTr] at h ⊢ <;> exact h

theorem sizeClass_le (v : ℤ) : sizeClass v ≤ 6 := List.length_filter_le _ _

theorem sizeClass_zero (v : ℕ) : sizeClass v = 0 ↔ v = 0 := by
  unfold sizeClass
  simp only [List.length_eq_zero_iff, List.filter_eq_nil_iff]
  constructor
  · intro h
    have := h 1 (by simp)
    simp only [decide_eq_true_eq] at this
    omega
  · intro h t ht
    subst h
    simp only [List.mem_cons, List.not_mem_nil, or_false] at ht
    rcases ht with rfl | rfl | rfl | rfl | rfl | rfl <;> decide

theorem filter_le {v t : ℤ} (l : List ℤ) (h : t ≤ v) :
    ((t :: l).filter fun t : ℤ => decide (t ≤ v)).length = (l.filter fun t : ℤ => decide (t ≤ v)).length + 1 := by
  rw [List.filter_cons_of_pos (by simpa using h), List.length_cons]

theorem filter_gt {v t : ℤ} (l : List ℤ) (h : v < t) :
    ((t :: l).filter fun t : ℤ => decide (t ≤ v)).length = (l.filter fun t : ℤ => decide (t ≤ v)).length := by
  rw [List.filter_cons_of_neg (by simpa using h)]

theorem sizeClass_1 (v : ℤ) (h : v = 1) : sizeClass v = 1 := by subst h; decide
theorem sizeClass_0 (v : ℤ) (h : v = 0) : sizeClass v = 0 := by subst h; decide
theorem sizeClass_2 (v : ℤ) (h : 2 ≤ v) (h' : v < 2 ^ 52) : sizeClass v = 2 := by
  unfold sizeClass
  rw [filter_le _ (by omega), filter_le _ (by omega), filter_gt _ (by omega), filter_gt _ (by omega),
    filter_gt _ (by omega), filter_gt _ (by omega)]
  rfl
theorem sizeClass_3 (v : ℤ) (h : 2 ^ 52 ≤ v) (h' : v < 2 ^ 104) : sizeClass v = 3 := by
  unfold sizeClass
  rw [filter_le _ (by omega), filter_le _ (by omega), filter_le _ (by omega), filter_gt _ (by omega),
    filter_gt _ (by omega), filter_gt _ (by omega)]
  rfl
theorem sizeClass_4 (v : ℤ) (h : 2 ^ 104 ≤ v) (h' : v < 2 ^ 156) : sizeClass v = 4 := by
  unfold sizeClass
  rw [filter_le _ (by omega), filter_le _ (by omega), filter_le _ (by omega), filter_le _ (by omega),
    filter_gt _ (by omega), filter_gt _ (by omega)]
  rfl
theorem sizeClass_5 (v : ℤ) (h : 2 ^ 156 ≤ v) (h' : v < 2 ^ 208) : sizeClass v = 5 := by
  unfold sizeClass
  rw [filter_le _ (by omega), filter_le _ (by omega), filter_le _ (by omega), filter_le _ (by omega),
    filter_le _ (by omega), filter_gt _ (by omega)]
  rfl
theorem sizeClass_6 (v : ℤ) (h : 2 ^ 208 ≤ v) : sizeClass v = 6 := by
  unfold sizeClass
  rw [filter_le _ (by omega), filter_le _ (by omega), filter_le _ (by omega), filter_le _ (by omega),
    filter_le _ (by omega), filter_le _ (by omega)]
  rfl

theorem ge_one_tr (k : Sc) (hk : k.WF) : (ge k Zerocaf.Scalar.one).tr = clsTr (sizeClass k.val) := by
  obtain ⟨h0, h1, h2, h3, h4⟩ := hk
  unfold ge cmp
  rw [LM.tr_bind _ _ _ (cmpLimbs_val _), LM.tr_pure, List.append_nil]
  unfold Zerocaf.Scalar.one L5.val
  have b : ∀ (b : Bool) (s : Site) {α : Type} (f : Bool → LM α), (br s b >>= f).tr = .br s b :: (f b).tr :=
    fun b s _ f => by rw [LM.tr_bind _ _ _ (br_val s b), br_tr]; rfl
  have q : ∀ {α : Type} (a : α), (pure a : LM α).tr = [] := fun a => LM.tr_pure a
  simp only [cmpLimbs, b]
  by_cases c4 : k.l4 > 0
  · rw [decide_eq_true c4, if_pos rfl, q, sizeClass_6 _ (by omega)]
    rfl
  rw [decide_eq_false c4, if_neg (by decide), b, decide_eq_false (by omega), if_neg (by decide), b]
  by_cases c3 : k.l3 > 0
  · rw [decide_eq_true c3, if_pos rfl, q, sizeClass_5 _ (by omega) (by omega)]
    rfl
  rw [decide_eq_false c3, if_neg (by decide), b, decide_eq_false (by omega), if_neg (by decide), b]
  by_cases c2 : k.l2 > 0
  · rw [decide_eq_true c2, if_pos rfl, q, sizeClass_4 _ (by omega) (by omega)]
    rfl
  rw [decide_eq_false c2, if_neg (by decide), b, decide_eq_false (by omega), if_neg (by decide), b]
  by_cases c1 : k.l1 > 0
  · rw [decide_eq_true c1, if_pos rfl, q, sizeClass_3 _ (by omega) (by omega)]
    rfl
  rw [decide_eq_false c1, if_neg (by decide), b, decide_eq_false (by omega), if_neg (by decide), b]
  by_cases c0 : k.l0 > 1
  · rw [decide_eq_true c0, if_pos rfl, q, sizeClass_2 _ (by omega) (by omega)]
    rfl
  rw [decide_eq_false c0, if_neg (by decide), b]
  by_cases c00 : k.l0 < 1
  · rw [decide_eq_true c00, if_pos rfl, q, sizeClass_0 _ (by omega)]
    rfl
  · rw [decide_eq_false c00, if_neg (by decide), q, sizeClass_1 _ (by omega)]
    rfl

/-! ### One round of the digit loop -/

theorem chkI8_tr (c : Cfg) (x : ℤ) (h1 : -128 ≤ x) (h2 : x ≤ 127) : (chkI8 c x).tr = chkTr c := by
  unfold chkI8 chkTr
  rw [decide_eq_true ⟨h1, h2⟩]

theorem chkI8_ok (c : Cfg) (x : ℤ) (h1 : -128 ≤ x) (h2 : x ≤ 127) : (chkI8 c x).val = .ok x := by
  rw [chkI8_val]; unfold Zerocaf.chkI8; rw [if_pos ⟨h1, h2⟩]

namespace Scalar

theorem fromI8_tr (c : Cfg) (tn : List Ev) (hn : ∀ a, Const c (neg c a) tn) (x : ℤ) (h1 : -127 ≤ x) (h2 : x ≤ 127)
    (s : Sc) (hs : (fromI8 c x).val = .ok s) :
    (fromI8 c x).tr = .br .sign (decide (0 ≤ x)) :: (if x < 0 then chkTr c ++ tn else []) := by
  unfold fromI8 at hs ⊢
  obtain ⟨b, hb, hs⟩ := bind_ok hs
  rw [LM.tr_bind _ _ _ hb, br_tr]
  rw [br_val, Res.ok_inj] at hb
  subst hb
  by_cases h : 0 ≤ x
  · rw [decide_eq_true h, if_pos rfl, if_neg (by omega), LM.tr_pure]
    rfl
  · rw [decide_eq_false h, if_neg (by decide)] at hs ⊢
    obtain ⟨a, ha, hs⟩ := bind_ok hs
    rw [LM.tr_bind _ _ _ ha, (hn _).1 _ hs, chkI8_tr c _ (by omega) (by omega), if_pos (by omega)]
    rfl

/-- The events of one digit of the given sign. -/
def roundTr (T : Bool → List Ev) (tn ts : List Ev) (s : ℤ) : List Ev :=
  if s = 0 then [.br .digOdd false, .br .bound true]
  else .br .digOdd true :: (T (decide (s < 0)) ++ .br .bound true :: .br .sign (decide (0 ≤ s)) ::
    ((if s < 0 then tn else []) ++ ts))

theorem setDigit_tr (v : Vector ℤ 256) (i : ℕ) (x : ℤ) (y : Vector ℤ 256) (h : (setDigit v i x).val = .ok y) :
    (setDigit v i x).tr = [.br .bound true] ∧ ∃ hi : i < 256, y = v.set i x := by
  rw [setDigit_val] at h
  unfold Zerocaf.Scalar.setDigit at h
  split_ifs at h with hi
  rw [Res.ok_inj] at h
  unfold setDigit
  rw [decide_eq_true hi]
  exact ⟨rfl, hi, h.symm⟩

/-- The digits that a digit function gives for odd scalars, and its events. -/
def DigitFn (w : ℕ) (digit : Sc → LM ℤ) (T : Bool → List Ev) : Prop :=
  ∀ k : Sc, k.val % 2 = 1 → (digit k).val = .ok (Zerocaf.Scalar.smod k.val w) ∧
    (digit k).tr = T (decide (Zerocaf.Scalar.smod k.val w < 0))

theorem digitLoop_round (w : ℕ) (h1 : 2 ≤ w) (h2 : w ≤ 5) (digit : Sc → LM ℤ) (T : Bool → List Ev)
    (hT : DigitFn w digit T) (c : Cfg) (tn ts : List Ev) (hn : ∀ a, Const c (neg c a) tn)
    (hs : ∀ a b, Const c (sub c a b) ts) (n : ℕ) (k : Sc) (i : ℕ) (res x : Vector ℤ 256) (hk : k.SCanon)
    (hx : (digitLoop digit c n k i res).val = .ok x) :
    (k.val = 0 ∧ x = res ∧ (digitLoop digit c n k i res).tr = clsTr (sizeClass k.val) ++ .br .digWhile false :: []) ∨
    (k.val ≠ 0 ∧ ∃ n' k', n = n' + 1 ∧ k'.SCanon ∧ (k'.val : ℤ) = (k.val - digitOf w k.val) / 2 ∧ ∃ hi : i < 256,
      (digitLoop digit c n' k' (i + 1) (res.set i (digitOf w k.val))).val = .ok x ∧
      (digitLoop digit c n k i res).tr = clsTr (sizeClass k.val) ++ .br .digWhile true ::
        (roundTr T (chkTr c ++ tn) ts (digitOf w k.val).sign ++
          (digitLoop digit c n' k' (i + 1) (res.set i (digitOf w k.val))).tr)) := by
  cases n with
  | zero => simp [digitLoop] at hx
  | succ n =>
    rw [digitLoop] at hx ⊢
    obtain ⟨g, hg, hx⟩ := bind_ok hx
    rw [LM.tr_bind _ _ _ hg, ge_one_tr k hk.1]
    rw [ge_val', Res.ok_inj, Zerocaf.Scalar.ge_spec _ _ hk.1 Zerocaf.Scalar.one_canon.1, Zerocaf.Scalar.one_val] at hg
    obtain ⟨b, hb, hx⟩ := bind_ok hx
    rw [LM.tr_bind _ _ _ hb, br_tr]
    rw [br_val, Res.ok_inj] at hb
    subst hb
    by_cases h0 : k.val = 0
    · left
      rw [decide_eq_false (by omega)] at hg
      subst hg
      rw [if_neg (by decide)] at hx ⊢
      rw [LM.val_pure, Res.ok_inj] at hx
      rw [LM.tr_pure]
      exact ⟨h0, hx.symm, rfl⟩
    right
    refine ⟨h0, n, ?_⟩
    rw [decide_eq_true (by omega)] at hg
    subst hg
    rw [if_pos rfl] at hx ⊢
    obtain ⟨o, ho, hx⟩ := bind_ok hx
    rw [LM.tr_bind _ _ _ ho, br_tr]
    rw [br_val, Res.ok_inj, Zerocaf.Scalar.isEven_spec] at ho
    rw [Zerocaf.Scalar.isEven_spec]
    by_cases he : k.val % 2 = 0
    · rw [decide_eq_true he] at ho ⊢
      subst ho
      rw [if_neg (by decide)] at hx ⊢
      obtain ⟨res', hr, hx⟩ := bind_ok hx
      rw [LM.tr_bind _ _ _ hr]
      obtain ⟨er, hi, rfl⟩ := setDigit_tr _ _ _ _ hr
      rw [er]
      obtain ⟨wh, vh⟩ := halfWithoutMod_spec k hk.1
      have vh' : (Zerocaf.Scalar.halfWithoutMod k).val = k.val / 2 := vh
      rw [digitOf_even w _ he]
      refine ⟨Zerocaf.Scalar.halfWithoutMod k, rfl, ⟨wh, ?_⟩, ?_, hi, hx, ?_⟩
      · have := hk.2
        rw [vh']; omega
      · rw [vh']; omega
      · rw [Int.sign_zero, roundTr, if_pos rfl]; rfl
    · rw [decide_eq_false he] at ho ⊢
      subst ho
      rw [if_pos (by decide)] at hx ⊢
      have hd := digitOf_odd w (by omega) k.val (by omega)
      obtain ⟨hv, ht⟩ := hT k (by omega)
      rw [← hd] at hv ht
      obtain ⟨ki, hki, hx⟩ := bind_ok hx
      rw [LM.tr_bind _ _ _ hki, ht]
      rw [hv, Res.ok_inj] at hki
      subst hki
      obtain ⟨res', hr, hx⟩ := bind_ok hx
      rw [LM.tr_bind _ _ _ hr]
      obtain ⟨er, hi, rfl⟩ := setDigit_tr _ _ _ _ hr
      rw [er]
      obtain ⟨s, r, es, er, cr, vr⟩ := Zerocaf.Scalar.sub_digit c k w h1 (by omega) hk
        (Zerocaf.Scalar.smod_lt_ell k.val w h1 h2 hk.2 (by omega))
      rw [← hd] at es vr
      obtain ⟨b1, b2, _⟩ := Zerocaf.Scalar.smod_bounds k.val w (by omega)
      rw [← hd] at b1 b2
      have hp : (2 ^ (w - 1) : ℤ) ≤ 2 ^ 6 := pow_le_pow_right₀ (by norm_num) (by omega)
      have hso := Zerocaf.Scalar.smod_odd k.val w (by omega) (by omega)
      rw [← hd] at hso
      obtain ⟨s', hs', hx⟩ := bind_ok hx
      rw [LM.tr_bind _ _ _ hs', fromI8_tr c tn hn _ (by omega) (by omega) _ hs']
      rw [fromI8_val, es, Res.ok_inj] at hs'
      subst hs'
      obtain ⟨r', hr', hx⟩ := bind_ok hx
      rw [LM.tr_bind _ _ _ hr', (hs _ _).1 _ hr']
      rw [sub_val, er, Res.ok_inj] at hr'
      subst hr'
      obtain ⟨wh, vh⟩ := halfWithoutMod_spec r cr.1
      have vh' : (Zerocaf.Scalar.halfWithoutMod r).val = r.val / 2 := vh
      refine ⟨Zerocaf.Scalar.halfWithoutMod r, rfl, ⟨wh, ?_⟩, ?_, hi, hx, ?_⟩
      · have := cr.2
        rw [vh']; omega
      · rw [vh']; omega
      · have hs0 : (digitOf w k.val).sign ≠ 0 := by rw [Ne, Int.sign_eq_zero_iff_zero]; omega
        rw [roundTr, if_neg hs0]
        have e1 : ((digitOf w k.val).sign < 0) = (digitOf w k.val < 0) := propext Int.sign_neg_iff
        have e2 : (0 ≤ (digitOf w k.val).sign) = (0 ≤ digitOf w k.val) := propext Int.sign_nonneg_iff
        simp only [e1, e2, List.append_assoc, List.cons_append, List.nil_append, Bool.not_false]

/-- The sign can be read off the events of the digit and those that follow. -/
def Separates (T : Bool → List Ev) : Prop := ∀ (b b' : Bool) (z z' : List Ev),
  T b ++ .br .bound true :: .br .sign (!b) :: z = T b' ++ .br .bound true :: .br .sign (!b') :: z' → b = b'

theorem roundTr_inj (T : Bool → List Ev) (hT : Separates T) (tn ts : List Ev) (x y : ℤ) (z z' : List Ev)
    (h : roundTr T tn ts x.sign ++ z = roundTr T tn ts y.sign ++ z') : x.sign = y.sign ∧ z = z' := by
  have key : ∀ s s' : ℤ, (s = -1 ∨ s = 0 ∨ s = 1) → (s' = -1 ∨ s' = 0 ∨ s' = 1) →
      roundTr T tn ts s ++ z = roundTr T tn ts s' ++ z' → s = s' := by
    intro s s' hs hs' h
    unfold roundTr at h
    rcases hs with rfl | rfl | rfl <;> rcases hs' with rfl | rfl | rfl <;>
      simp only [List.append_assoc, List.cons_append, List.nil_append, if_pos, show ¬(-1 : ℤ) = 0 by decide,
        show ¬(1 : ℤ) = 0 by decide, if_false, List.cons.injEq, Ev.br.injEq, true_and, Bool.false_eq_true,
        Bool.true_eq_false, false_and, show ((-1 : ℤ) < 0) = True by decide, show ((1 : ℤ) < 0) = False by decide,
        show (0 ≤ (-1 : ℤ)) = False by decide, show (0 ≤ (1 : ℤ)) = True by decide, decide_true, decide_false,
        and_false] at h ⊢
    · have := hT true false _ _ h
      cases this
    · have := hT false true _ _ h
      cases this
  have h3 : ∀ x : ℤ, x.sign = -1 ∨ x.sign = 0 ∨ x.sign = 1 := by
    intro x
    rcases lt_trichotomy x 0 with h | h | h
    · left; exact Int.sign_eq_neg_one_of_neg h
    · right; left; rw [h]; rfl
    · right; right; exact Int.sign_eq_one_of_pos h
  have e := key _ _ (h3 x) (h3 y) h
  rw [e] at h
  exact ⟨e, List.append_cancel_left h⟩

theorem rest_zero (w : ℕ) : ∀ j, rest w 0 j = 0 := by
  intro j
  induction j with
  | zero => rfl
  | succ j ih =>
    rw [rest, show ((0 : ℤ) - digitOf w 0) / 2 = 0 by unfold digitOf; simp]
    exact ih

/-- The trace of a digit expansion shows the signs of the digits and the size of what is left. -/
theorem digitLoop_inj (w : ℕ) (h1 : 2 ≤ w) (h2 : w ≤ 5) (digit : Sc → LM ℤ) (T : Bool → List Ev)
    (hT : DigitFn w digit T) (hS : Separates T) (c : Cfg) (tn ts : List Ev) (hn : ∀ a, Const c (neg c a) tn)
    (hs : ∀ a b, Const c (sub c a b) ts) : ∀ (n n' : ℕ) (k k' : Sc) (i i' : ℕ) (res res' x x' : Vector ℤ 256)
    (z z' : List Ev), k.SCanon → k'.SCanon → (digitLoop digit c n k i res).val = .ok x →
    (digitLoop digit c n' k' i' res').val = .ok x' →
    (digitLoop digit c n k i res).tr ++ z = (digitLoop digit c n' k' i' res').tr ++ z' →
    (∀ j, (digitOf w (rest w k.val j)).sign = (digitOf w (rest w k'.val j)).sign ∧
      sizeClass (rest w k.val j) = sizeClass (rest w k'.val j)) ∧ z = z' := by
  intro n
  induction n with
  | zero => intro n' k k' i i' res res' x x' z z' _ _ hx; simp [digitLoop] at hx
  | succ n ih =>
    intro n' k k' i i' res res' x x' z z' hk hk' hx hx' ht
    have h := digitLoop_round w h1 h2 digit T hT c tn ts hn hs (n + 1) k i res x hk hx
    have h' := digitLoop_round w h1 h2 digit T hT c tn ts hn hs n' k' i' res' x' hk' hx'
    rcases h with ⟨h0, _, t⟩ | ⟨h0, m, q, en, hq, vq, hi, hy, t⟩ <;>
    rcases h' with ⟨h0', _, t'⟩ | ⟨h0', m', q', en', hq', vq', hi', hy', t'⟩ <;>
    simp only [t, t', List.append_assoc, List.cons_append] at ht <;>
    obtain ⟨e1, e2, e3⟩ := clsTr_inj _ _ _ _ _ _ (sizeClass_le _) (sizeClass_le _) ht
    · rw [h0, h0']
      exact ⟨fun j => ⟨rfl, rfl⟩, e3⟩
    · cases e2
    · cases e2
    · obtain rfl : n = m := by omega
      obtain ⟨e4, e5⟩ := roundTr_inj T hS _ _ _ _ _ _ e3
      obtain ⟨e6, e7⟩ := ih m' q q' _ _ _ _ x x' z z' hq hq' hy hy' e5
      refine ⟨fun j => ?_, e7⟩
      cases j with
      | zero => exact ⟨e4, e1⟩
      | succ j =>
        have := e6 j
        rw [vq, vq'] at this
        exact this

/-- Conversely these determine the trace. -/
theorem digitLoop_same (w : ℕ) (h1 : 2 ≤ w) (h2 : w ≤ 5) (digit : Sc → LM ℤ) (T : Bool → List Ev)
    (hT : DigitFn w digit T) (c : Cfg) (tn ts : List Ev) (hn : ∀ a, Const c (neg c a) tn)
    (hs : ∀ a b, Const c (sub c a b) ts) : ∀ (n n' : ℕ) (k k' : Sc) (i i' : ℕ) (res res' x x' : Vector ℤ 256),
    k.SCanon → k'.SCanon → (digitLoop digit c n k i res).val = .ok x →
    (digitLoop digit c n' k' i' res').val = .ok x' →
    (∀ j, (digitOf w (rest w k.val j)).sign = (digitOf w (rest w k'.val j)).sign ∧
      sizeClass (rest w k.val j) = sizeClass (rest w k'.val j)) →
    (digitLoop digit c n k i res).tr = (digitLoop digit c n' k' i' res').tr := by
  intro n
  induction n with
  | zero => intro n' k k' i i' res res' x x' _ _ hx; simp [digitLoop] at hx
  | succ n ih =>
    intro n' k k' i i' res res' x x' hk hk' hx hx' ht
    have h := digitLoop_round w h1 h2 digit T hT c tn ts hn hs (n + 1) k i res x hk hx
    have h' := digitLoop_round w h1 h2 digit T hT c tn ts hn hs n' k' i' res' x' hk' hx'
    obtain ⟨s0, z0⟩ : (digitOf w k.val).sign = (digitOf w k'.val).sign ∧ sizeClass k.val = sizeClass k'.val := ht 0
    have z1 := sizeClass_zero k.val
    have z2 := sizeClass_zero k'.val
    rcases h with ⟨h0, _, t⟩ | ⟨h0, m, q, en, hq, vq, hi, hy, t⟩ <;>
    rcases h' with ⟨h0', _, t'⟩ | ⟨h0', m', q', en', hq', vq', hi', hy', t'⟩ <;>
    rw [t, t', z0]
    · omega
    · omega
    · obtain rfl : n = m := by omega
      rw [s0, ih m' q q' _ _ _ _ x x' hq hq' hy hy' fun j => by
        have := ht (j + 1)
        rw [rest, rest, ← vq, ← vq'] at this
        exact this]

/-- The digits that the loop writes. -/
theorem digitLoop_out (w : ℕ) (h1 : 2 ≤ w) (h2 : w ≤ 5) (digit : Sc → LM ℤ) (T : Bool → List Ev)
    (hT : DigitFn w digit T) (c : Cfg) (tn ts : List Ev) (hn : ∀ a, Const c (neg c a) tn)
    (hs : ∀ a b, Const c (sub c a b) ts) : ∀ (n : ℕ) (k : Sc) (i : ℕ) (res x : Vector ℤ 256), k.SCanon →
    (∀ j, i ≤ j → Zerocaf.Scalar.dig res j = 0) → (digitLoop digit c n k i res).val = .ok x →
    (∀ j < i, Zerocaf.Scalar.dig x j = Zerocaf.Scalar.dig res j) ∧
    ∀ j, i + j < 256 → Zerocaf.Scalar.dig x (i + j) = digitOf w (rest w k.val j) := by
  intro n
  induction n with
  | zero => intro k i res x _ _ hx; simp [digitLoop] at hx
  | succ n ih =>
    intro k i res x hk hz hx
    rcases digitLoop_round w h1 h2 digit T hT c tn ts hn hs (n + 1) k i res x hk hx with
      ⟨h0, e, _⟩ | ⟨h0, m, q, en, hq, vq, hi, hy, _⟩
    · subst e
      refine ⟨fun _ _ => rfl, fun j hj => ?_⟩
      rw [hz _ (by omega), h0, Nat.cast_zero, rest_zero]
      unfold digitOf; simp
    · obtain rfl : n = m := by omega
      obtain ⟨l, g⟩ := ih q (i + 1) _ x hq (fun j hj => by
        rw [Zerocaf.Scalar.dig_set _ _ _ _ hi, if_neg (by omega)]; exact hz j (by omega)) hy
      refine ⟨fun j hj => ?_, fun j hj => ?_⟩
      · rw [l j (by omega), Zerocaf.Scalar.dig_set _ _ _ _ hi, if_neg (by omega)]
      · cases j with
        | zero => rw [Nat.add_zero, l i (by omega), Zerocaf.Scalar.dig_set _ _ _ _ hi, if_pos rfl]; rfl
        | succ j =>
          have := g j (by omega)
          rw [show i + (j + 1) = i + 1 + j by omega, this, vq]
          rfl

end Scalar


namespace Scalar

/-! ### The two digit functions -/

theorem nafDigit_fn (c : Cfg) : DigitFn 2 (nafDigit c) fun _ => .stm :: chkTr c := by
  intro k ho
  have hm : k.val % 2 ^ 2 = 1 ∨ k.val % 2 ^ 2 = 3 := by omega
  have e : (stm (Zerocaf.Scalar.mod2PowK c k 2)).val = .ok (k.val % 2 ^ 2) := by
    rw [stm_val, Zerocaf.Scalar.mod2PowK_spec c k 2 (by decide)]
  have hu : u8AsI8 (k.val % 2 ^ 2) = k.val % 2 ^ 2 := by
    unfold u8AsI8; rw [if_pos (by omega)]; norm_cast
  have hs : Zerocaf.Scalar.smod k.val 2 = 2 - (k.val % 2 ^ 2 : ℕ) := by
    unfold Zerocaf.Scalar.smod
    rcases hm with h | h <;> rw [h] <;> rfl
  have hc : -128 ≤ 2 - u8AsI8 (k.val % 2 ^ 2) ∧ 2 - u8AsI8 (k.val % 2 ^ 2) ≤ 127 := by rw [hu]; omega
  unfold nafDigit
  rw [LM.val_bind, e, Res.ok_bind, LM.tr_bind _ _ _ e, stm_tr, chkI8_tr c _ hc.1 hc.2, chkI8_ok c _ hc.1 hc.2, hs, hu]
  exact ⟨by norm_cast, rfl⟩

theorem nafDigit_sep (c : Cfg) : Separates fun _ => .stm :: chkTr c := by
  intro b b' z z' h
  have := List.append_cancel_left h
  simp only [List.cons.injEq, Ev.br.injEq, true_and] at this
  have := this.1
  cases b <;> cases b' <;> simp_all

theorem mods2PowK_fn (c : Cfg) (w : ℕ) (h1 : 2 ≤ w) (h2 : w ≤ 5) : DigitFn w (fun k => mods2PowK c k w)
    fun b => .br .assert true :: .stm :: .stm :: .stm :: .br .modsGe b :: (if b then .stm :: chkTr c else []) := by
  intro k ho
  have hv : (mods2PowK c k w).val = .ok (Zerocaf.Scalar.smod k.val w) := by
    rw [mods2PowK_val, Zerocaf.Scalar.mods2PowK_spec c k w h1 (by omega)]
  refine ⟨hv, ?_⟩
  unfold mods2PowK at hv ⊢
  obtain ⟨x1, e1, hv⟩ := bind_ok hv
  rw [LM.tr_bind _ _ _ e1]
  obtain ⟨x2, e2, hv⟩ := bind_ok hv
  rw [LM.tr_bind _ _ _ e2, stm_tr]
  rw [stm_val, Zerocaf.Scalar.mod2PowK_spec c k w (by omega), Res.ok_inj] at e2
  subst e2
  obtain ⟨x3, e3, hv⟩ := bind_ok hv
  rw [LM.tr_bind _ _ _ e3, stm_tr]
  obtain ⟨x4, e4, hv⟩ := bind_ok hv
  rw [LM.tr_bind _ _ _ e4, stm_tr]
  have hm : k.val % 2 ^ w < 2 ^ w := Nat.mod_lt _ (by positivity)
  have e34 : x4 = 2 ^ (w - 1) := by
    rw [stm_val] at e3 e4
    interval_cases w <;> simp [Zerocaf.Scalar.predU8] at e3 <;> subst e3 <;>
      simp [Zerocaf.Scalar.shlI8, u8AsI8] at e4 <;> rw [← e4] <;> rfl
  have hu : u8AsI8 (k.val % 2 ^ w) = (k.val % 2 ^ w : ℕ) := by
    unfold u8AsI8
    have : 2 ^ w ≤ 2 ^ 5 := Nat.pow_le_pow_right (by decide) h2
    rw [if_pos (by omega)]
  have hsg : (u8AsI8 (k.val % 2 ^ w) ≥ x4) ↔ Zerocaf.Scalar.smod k.val w < 0 := by
    rw [hu, e34]
    unfold Zerocaf.Scalar.smod
    have hc : ((2 ^ (w - 1) : ℕ) : ℤ) = 2 ^ (w - 1) := by push_cast; rfl
    have hc' : ((2 ^ w : ℕ) : ℤ) = 2 ^ w := by push_cast; rfl
    rw [← hc, ← hc']
    split_ifs <;> omega
  obtain ⟨x5, e5, hv⟩ := bind_ok hv
  rw [LM.tr_bind _ _ _ e5, br_tr]
  rw [br_val, Res.ok_inj] at e5
  subst e5
  rw [decide_eq_decide.2 hsg] at hv ⊢
  have ea : (rassert (decide (w < 32))).tr = [.br .assert true] := by
    unfold rassert; rw [decide_eq_true (by omega)]
  rw [ea]
  by_cases hb : Zerocaf.Scalar.smod k.val w < 0
  · rw [decide_eq_true hb, if_pos rfl] at hv ⊢
    obtain ⟨x6, e6, hv⟩ := bind_ok hv
    rw [LM.tr_bind _ _ _ e6, stm_tr]
    have e66 : x6 = 2 ^ w := by
      rw [stm_val] at e6
      interval_cases w <;> simp [Zerocaf.Scalar.shlU8] at e6 <;> rw [← e6] <;> rfl
    have hr : -128 ≤ u8AsI8 (k.val % 2 ^ w) - u8AsI8 x6 ∧ u8AsI8 (k.val % 2 ^ w) - u8AsI8 x6 ≤ 127 := by
      rw [hu, e66]
      have : 2 ^ w ≤ 2 ^ 5 := Nat.pow_le_pow_right (by decide) h2
      unfold u8AsI8
      rw [if_pos (by omega)]
      omega
    rw [chkI8_tr c _ hr.1 hr.2]
    rfl
  · rw [decide_eq_false hb, if_neg (by decide), LM.tr_pure]
    rfl

theorem mods2PowK_sep (c : Cfg) : Separates
    fun b => .br .assert true :: .stm :: .stm :: .stm :: .br .modsGe b :: (if b then .stm :: chkTr c else []) := by
  intro b b' z z' h
  simp only [List.cons_append, List.cons.injEq, Ev.br.injEq, true_and] at h
  exact h.1

/-- Two traces of `compute_NAF`, whatever follows. -/
theorem computeNAF_inj (c : Cfg) (hc : c.Enough) (s s' : Sc) (hs : s.SCanon) (hs' : s'.SCanon) (z z' : List Ev)
    (h : (computeNAF c s).tr ++ z = (computeNAF c s').tr ++ z') : s = s' ∧ z = z' := by
  obtain ⟨tn, hn⟩ := neg_ct c
  obtain ⟨ts, hsb⟩ := sub_ct c
  obtain ⟨v, ev, hv⟩ := Zerocaf.Scalar.computeNAF_spec c hc s hs
  obtain ⟨v', ev', hv'⟩ := Zerocaf.Scalar.computeNAF_spec c hc s' hs'
  rw [← computeNAF_val] at ev ev'
  unfold computeNAF at ev ev' h
  obtain ⟨hd, hz⟩ := digitLoop_inj 2 (by omega) (by omega) _ _ (nafDigit_fn c) (nafDigit_sep c) c tn ts hn hsb _ _ _ _
    _ _ _ _ v v' z z' hs hs' ev ev' h
  have o := (digitLoop_out 2 (by omega) (by omega) _ _ (nafDigit_fn c) c tn ts hn hsb _ _ 0 _ v hs
    (fun j _ => Zerocaf.Scalar.dig_replicate j) ev).2
  have o' := (digitLoop_out 2 (by omega) (by omega) _ _ (nafDigit_fn c) c tn ts hn hsb _ _ 0 _ v' hs'
    (fun j _ => Zerocaf.Scalar.dig_replicate j) ev').2
  refine ⟨hs.1.ext hs'.1 ?_, hz⟩
  have e : ∀ j ∈ Finset.range 250, Zerocaf.Scalar.dig v (0 + j) * 2 ^ j = Zerocaf.Scalar.dig v' (0 + j) * 2 ^ j := by
    intro j hj
    rw [Finset.mem_range] at hj
    have e1 := (hd j).1
    rw [← o j (by omega), ← o' j (by omega)] at e1
    have sg : ∀ x : ℤ, (x = 0 ∨ (x % 2 = 1 ∧ -(2 ^ (2 - 1) : ℤ) < x ∧ x < 2 ^ (2 - 1))) → x.sign = x := by
      intro x hx
      norm_num at hx
      have : x = 0 ∨ x = 1 ∨ x = -1 := by omega
      rcases this with rfl | rfl | rfl <;> rfl
    rw [sg _ (hv.digits _ (by omega)), sg _ (hv'.digits _ (by omega))] at e1
    rw [e1]
  have := hv.sum.symm.trans ((Finset.sum_congr rfl e).trans hv'.sum)
  exact_mod_cast this

/-! ### Powers of scalars -/

theorem pow_gen_tr (g ev : Bool) (sq sb ml : LM Sc) (hf : Sc → LM Sc) (k1 : Sc → LM Sc) (k2 : Sc → Sc → Sc → LM Sc)
    (r x : Sc) (m : LM Sc) (em : m = (do
      let w ← br .spowWhile g
      if w then do
        let e ← br .spowEven ev
        if e then do
          let base' ← sq
          k1 base'
        else do
          let e1 ← sb
          let res' ← ml
          let expon' ← hf e1
          let base' ← sq
          k2 base' res' expon'
      else pure r)) (hx : m.val = .ok x) :
    (g = false ∧ m.tr = [.br .spowWhile false]) ∨
    (g = true ∧ ev = true ∧ ∃ b, sq.val = .ok b ∧ (k1 b).val = .ok x ∧
      m.tr = .br .spowWhile true :: .br .spowEven true :: (sq.tr ++ (k1 b).tr)) ∨
    (g = true ∧ ev = false ∧ ∃ e1 r' e2 b, sb.val = .ok e1 ∧ ml.val = .ok r' ∧ (hf e1).val = .ok e2 ∧ sq.val = .ok b ∧
      (k2 b r' e2).val = .ok x ∧
      m.tr = .br .spowWhile true :: .br .spowEven false :: (sb.tr ++ (ml.tr ++ ((hf e1).tr ++ (sq.tr ++ (k2 b r' e2).tr))))) := by
  subst em
  obtain ⟨w, hw, hx⟩ := bind_ok hx
  rw [LM.tr_bind _ _ _ hw, br_tr]
  rw [br_val, Res.ok_inj] at hw
  subst hw
  cases g
  · left
    rw [if_neg (by decide), LM.tr_pure]
    exact ⟨rfl, rfl⟩
  right
  rw [if_pos rfl] at hx ⊢
  obtain ⟨b, hb, hx⟩ := bind_ok hx
  rw [LM.tr_bind _ _ _ hb, br_tr]
  rw [br_val, Res.ok_inj] at hb
  subst hb
  cases ev
  · right
    rw [if_neg (by decide)] at hx ⊢
    obtain ⟨e1, he1, hx⟩ := bind_ok hx
    rw [LM.tr_bind _ _ _ he1]
    obtain ⟨r', hr', hx⟩ := bind_ok hx
    rw [LM.tr_bind _ _ _ hr']
    obtain ⟨e2, he2, hx⟩ := bind_ok hx
    rw [LM.tr_bind _ _ _ he2]
    obtain ⟨b', hb', hx⟩ := bind_ok hx
    rw [LM.tr_bind _ _ _ hb']
    exact ⟨rfl, rfl, e1, r', e2, b', he1, hr', he2, hb', hx, rfl⟩
  · left
    rw [if_pos rfl] at hx ⊢
    obtain ⟨b', hb', hx⟩ := bind_ok hx
    rw [LM.tr_bind _ _ _ hb']
    exact ⟨rfl, rfl, b', hb', hx, rfl⟩

/-- One round of the loop of `pow`. -/
theorem powLoop_round (c : Cfg) (tm tq th ts : List Ev) (hm : ∀ a b, Const c (mul c a b) tm)
    (hq : ∀ a, Const c (square c a) tq) (hh : ∀ a, Const c (half c a) th)
    (hs : ∀ a b, Const c (sub c a b) ts) (n : ℕ) (base res e x : Sc) (he : e.SCanon)
    (hx : (powLoop c n base res e).val = .ok x) :
    (e.val = 0 ∧ (powLoop c n base res e).tr = (gt e Zerocaf.Scalar.zero).tr ++ .br .spowWhile false :: []) ∨
    (e.val ≠ 0 ∧ ∃ n' base' res' e', n = n' + 1 ∧ e'.SCanon ∧ e'.val = e.val / 2 ∧
      (powLoop c n' base' res' e').val = .ok x ∧
      (powLoop c n base res e).tr = (gt e Zerocaf.Scalar.zero).tr ++ .br .spowWhile true ::
        .br .spowEven (decide (e.val % 2 = 0)) :: ((if e.val % 2 = 0 then tq else ts ++ (tm ++ (th ++ tq))) ++
          (powLoop c n' base' res' e').tr)) := by
  cases n with
  | zero => simp [powLoop] at hx
  | succ n =>
    rw [powLoop] at hx ⊢
    obtain ⟨g, hg, hx⟩ := bind_ok hx
    rw [LM.tr_bind _ _ _ hg]
    rw [gt_val', Res.ok_inj, Zerocaf.Scalar.gt_spec _ _ he.1 Zerocaf.Scalar.zero_canon.1, Zerocaf.Scalar.zero_val] at hg
    rcases pow_gen_tr _ _ _ _ _ _ _ _ _ _ _ rfl hx with ⟨h, t⟩ | ⟨h, h', b, hb, hk, t⟩ |
      ⟨h, h', e1, r', e2, b, he1, hr', he2, hb, hk, t⟩
    · rw [h, decide_eq_false_iff_not] at hg
      left
      rw [t]
      exact ⟨by omega, rfl⟩
    · right
      rw [h, decide_eq_true_iff] at hg
      rw [Zerocaf.Scalar.isEven_spec, decide_eq_true_iff] at h'
      obtain ⟨wh, vh⟩ := halfWithoutMod_spec e he.1
      have vh' : (Zerocaf.Scalar.halfWithoutMod e).val = e.val / 2 := vh
      refine ⟨by omega, n, b, res, Zerocaf.Scalar.halfWithoutMod e, rfl, ⟨wh, ?_⟩, vh', hk, ?_⟩
      · have := he.2
        show (Zerocaf.Scalar.halfWithoutMod e).val < ell
        rw [vh']; omega
      · rw [t, (hq _).1 _ hb, if_pos h', decide_eq_true h']
    · right
      rw [h, decide_eq_true_iff] at hg
      rw [Zerocaf.Scalar.isEven_spec, decide_eq_false_iff_not] at h'
      have t1 := (hs _ _).1 _ he1
      have t2 := (hh _).1 _ he2
      obtain ⟨f1, ef1, cf1, vf1⟩ := Zerocaf.Scalar.sub_one c e he (by omega)
      rw [sub_val, ef1, Res.ok_inj] at he1
      subst he1
      obtain ⟨f2, ef2, cf2, vf2⟩ := Zerocaf.Scalar.half_even c f1 cf1 (by omega)
      rw [half_val, ef2, Res.ok_inj] at he2
      subst he2
      refine ⟨by omega, n, b, r', f2, rfl, cf2, by omega, hk, ?_⟩
      rw [t, t1, t2, (hm _ _).1 _ hr', (hq _).1 _ hb, if_neg h', decide_eq_false h']
      simp only [List.append_assoc]

/-- The trace of a power depends on the exponent only and determines it. -/
theorem powLoop_iff (c : Cfg) (tm tq th ts : List Ev) (hm : ∀ a b, Const c (mul c a b) tm)
    (hq : ∀ a, Const c (square c a) tq) (hh : ∀ a, Const c (half c a) th)
    (hs : ∀ a b, Const c (sub c a b) ts) : ∀ (n n' : ℕ) (base res e base' res' e' x x' : Sc), e.SCanon → e'.SCanon →
    (powLoop c n base res e).val = .ok x → (powLoop c n' base' res' e').val = .ok x' →
    ((powLoop c n base res e).tr = (powLoop c n' base' res' e').tr ↔ e.val = e'.val) := by
  intro n
  induction n with
  | zero => intro n' base res e base' res' e' x x' _ _ hx; simp [powLoop] at hx
  | succ n ih =>
    intro n' base res e base' res' e' x x' he he' hx hx'
    have h := powLoop_round c tm tq th ts hm hq hh hs (n + 1) base res e x he hx
    have h' := powLoop_round c tm tq th ts hm hq hh hs n' base' res' e' x' he' hx'
    constructor
    · intro ht
      rcases h with ⟨h0, t⟩ | ⟨h0, m, b, r, f, en, hf, hv, hy, t⟩ <;>
      rcases h' with ⟨h0', t'⟩ | ⟨h0', m', b', r', f', en', hf', hv', hy', t'⟩ <;>
      rw [t, t'] at ht <;>
      have hc := cmp_split (gt_allCmp _ _) (gt_allCmp _ _) rfl rfl ht <;>
      simp only [Ev.br.injEq, List.cons.injEq, true_and, and_false, false_and, Bool.false_eq_true, Bool.true_eq_false,
        decide_eq_decide] at hc
      · omega
      · obtain rfl : n = m := by omega
        obtain ⟨h2, h3⟩ := hc
        have e3 : (if e.val % 2 = 0 then tq else ts ++ (tm ++ (th ++ tq))) =
          (if e'.val % 2 = 0 then tq else ts ++ (tm ++ (th ++ tq))) := by simp only [h2]
        rw [e3] at h3
        have := (ih m' b r f b' r' f' x x' hf hf' hy hy').1 (List.append_cancel_left h3)
        omega
    · intro hv0
      have ee : e = e' := he.1.ext he'.1 hv0
      subst ee
      rcases h with ⟨h0, t⟩ | ⟨h0, m, b, r, f, en, hf, hv, hy, t⟩ <;>
      rcases h' with ⟨h0', t'⟩ | ⟨h0', m', b', r', f', en', hf', hv', hy', t'⟩ <;>
      rw [t, t']
      · omega
      · omega
      · obtain rfl : n = m := by omega
        rw [(ih m' b r f b' r' f' x x' hf hf' hy hy').2 (by omega)]

end Scalar

/-! ### Multiplication with signed digits -/

/-- The trace of the loop of `binary_naf_mul` depends on the digits only. -/
theorem nafMul_ret {T : Type} (O : PointOps T) (c : Cfg) (ta tb td : List Ev) (ha : ∀ a b, Ret (O.add c a b) ta)
    (hb : ∀ a b, Ret (O.sub c a b) tb) (hd : ∀ a, Ret (O.double c a) td) (naf : Vector ℤ 256) :
    ∀ (n : ℕ) (hn : n ≤ 256), ∃ t, ∀ P Q, Ret (nafMulLoop O c P naf n hn Q) t := by
  intro n
  induction n with
  | zero => intro hn; exact ⟨[], fun P Q x hx => LM.tr_pure _⟩
  | succ n ih =>
    intro hn
    obtain ⟨t, ht⟩ := ih (by omega)
    by_cases h1 : naf[n] = 1
    · refine ⟨td ++ ([.br .nafOne true] ++ (ta ++ t)), fun P Q => ?_⟩
      rw [nafMulLoop]
      refine Ret.bind (hd _) fun _ => ?_
      rw [decide_eq_true h1]
      refine Ret.bind_of (br_val _ _) ?_
      rw [if_pos rfl]
      exact Ret.bind (ha _ _) fun _ => ht _ _
    · by_cases h2 : naf[n] = -1
      · refine ⟨td ++ ([.br .nafOne false] ++ ([.br .nafMinus true] ++ (tb ++ t))), fun P Q => ?_⟩
        rw [nafMulLoop]
        refine Ret.bind (hd _) fun _ => ?_
        rw [decide_eq_false h1]
        refine Ret.bind_of (br_val _ _) ?_
        rw [if_neg (by decide), decide_eq_true h2]
        refine Ret.bind_of (br_val _ _) ?_
        rw [if_pos rfl]
        exact Ret.bind (hb _ _) fun _ => ht _ _
      · refine ⟨td ++ ([.br .nafOne false] ++ ([.br .nafMinus false] ++ ([] ++ t))), fun P Q => ?_⟩
        rw [nafMulLoop]
        refine Ret.bind (hd _) fun _ => ?_
        rw [decide_eq_false h1]
        refine Ret.bind_of (br_val _ _) ?_
        rw [if_neg (by decide), decide_eq_false h2]
        refine Ret.bind_of (br_val _ _) ?_
        rw [if_neg (by decide)]
        exact Ret.bind (fun _ _ => LM.tr_pure _) fun _ => ht _ _

theorem binaryNafMul_iff {T : Type} (O : PointOps T) (c : Cfg) (hc : c.Enough) (ta tb td : List Ev)
    (ha : ∀ a b, Ret (O.add c a b) ta) (hb : ∀ a b, Ret (O.sub c a b) tb) (hd : ∀ a, Ret (O.double c a) td)
    (P P' x x' : T) (s s' : Sc) (hs : s.SCanon) (hs' : s'.SCanon) (hx : (binaryNafMul O c P s).val = .ok x)
    (hx' : (binaryNafMul O c P' s').val = .ok x') :
    (binaryNafMul O c P s).tr = (binaryNafMul O c P' s').tr ↔ s = s' := by
  unfold binaryNafMul at hx hx' ⊢
  obtain ⟨v, hv, hx⟩ := bind_ok hx
  obtain ⟨v', hv', hx'⟩ := bind_ok hx'
  rw [LM.tr_bind _ _ _ hv, LM.tr_bind _ _ _ hv']
  constructor
  · intro h
    exact (Scalar.computeNAF_inj c hc s s' hs hs' _ _ h).1
  · intro h
    subst h
    rw [hv, Res.ok_inj] at hv'
    subst hv'
    obtain ⟨t, ht⟩ := nafMul_ret O c ta tb td ha hb hd v 250 (by omega)
    rw [ht _ _ _ hx, ht _ _ _ hx']

namespace Ristretto

theorem sub_ct (c : Cfg) : ∃ t, ∀ p q, Const c (Ed.neg c p >>= fun n => Ed.add c q n) t := by
  obtain ⟨tn, hn⟩ := Ed.neg_ct c
  obtain ⟨ta, ha⟩ := Ed.add_ct c
  exact ⟨_, fun p q => (hn _).bind fun _ => ha _ _⟩

/-- The trace of `window_naf_mul` shows every digit it uses. -/
theorem wnafMulLoop_inj (c : Cfg) (td : List Ev) (hd : ∀ a, Const c (Ed.double c a) td) (ta : List Ev)
    (ha : ∀ a b, Const c (Ed.add c a b) ta) (tb : List Ev)
    (hb : ∀ p q, Const c (Ed.neg c p >>= fun n => Ed.add c q n) tb) (v v' : Vector ℤ 256)
    (bd : ∀ (j : ℕ) (hj : j < 256), |v[j]| ≤ 125) (bd' : ∀ (j : ℕ) (hj : j < 256), |v'[j]| ≤ 125) :
    ∀ (n : ℕ) (hn : n ≤ 256) (Q Q' x x' : EdPoint) (z z' : List Ev), (wnafMulLoop c v n hn Q).val = .ok x →
    (wnafMulLoop c v' n hn Q').val = .ok x' →
    (wnafMulLoop c v n hn Q).tr ++ z = (wnafMulLoop c v' n hn Q').tr ++ z' → ∀ (i : ℕ) (hi : i < n), v[i] = v'[i] := by
  have round : ∀ (v : Vector ℤ 256) (bd : ∀ (j : ℕ) (hj : j < 256), |v[j]| ≤ 125) (n : ℕ) (hn : n + 1 ≤ 256)
      (Q x : EdPoint), (wnafMulLoop c v (n + 1) hn Q).val = .ok x →
      ∃ R, (wnafMulLoop c v n (by omega) R).val = .ok x ∧ (wnafMulLoop c v (n + 1) hn Q).tr =
        td ++ ((if v[n] = 0 then [.br .winZero true] else if 0 < v[n] then .br .winZero false :: .br .winPos true ::
          .br .bound true :: .idx (v[n]).natAbs :: ta else .br .winZero false :: .br .winPos false :: (chkTr c ++
          (.br .bound true :: .idx (v[n]).natAbs :: tb))) ++ (wnafMulLoop c v n (by omega) R).tr) := by
    intro v bd n hn Q x hx
    have b0 := bd n (by omega)
    rw [wnafMulLoop] at hx ⊢
    generalize v[n] = d at *
    obtain ⟨b1, b2⟩ := abs_le.1 b0
    obtain ⟨D, hD, hx⟩ := bind_ok hx
    rw [LM.tr_bind _ _ _ hD, (hd _).1 _ hD]
    obtain ⟨b, hb', hx⟩ := bind_ok hx
    rw [LM.tr_bind _ _ _ hb', br_tr]
    rw [br_val, Res.ok_inj] at hb'
    subst hb'
    have bt : ∀ (i : ℕ) (t : EdPoint), (tableAt i).val = .ok t → (tableAt i).tr = [.br .bound true, .idx i] := by
      intro i t h
      rw [tableAt_val] at h
      unfold Zerocaf.Ristretto.tableAt at h
      unfold tableAt
      by_cases hl : i < Zerocaf.Ristretto.ODD_MULTIPLES.length
      · rw [decide_eq_true hl]
      · rw [List.getElem?_eq_none (by omega)] at h
        cases h
    rcases lt_trichotomy d 0 with h | h | h
    · rw [decide_eq_false (by omega), if_neg (by decide)] at hx ⊢
      rw [if_neg (by omega), if_neg (by omega)]
      obtain ⟨b, hb', hR⟩ := bind_ok hx
      rw [LM.tr_bind _ _ _ hb', br_tr]
      rw [br_val, Res.ok_inj] at hb'
      subst hb'
      rw [decide_eq_false (by omega), if_neg (by decide)] at hR ⊢
      obtain ⟨a, ha', hR⟩ := bind_ok hR
      rw [LM.tr_bind _ _ _ ha', chkI8_tr c _ (by omega) (by omega)]
      rw [chkI8_ok c _ (by omega) (by omega), Res.ok_inj] at ha'
      subst ha'
      obtain ⟨t, ht, hR⟩ := bind_ok hR
      rw [LM.tr_bind _ _ _ ht, bt _ _ ht]
      have e4 : (-d % 2 ^ 64).toNat = d.natAbs := by
        rw [Int.emod_eq_of_lt (by omega) (by norm_num; omega)]; omega
      obtain ⟨R, hR, hx⟩ := bind_ok hR
      rw [LM.tr_bind _ _ _ hR]
      refine ⟨R, hx, ?_⟩
      unfold sub at hR ⊢
      rw [(hb _ _).1 _ hR, e4]
      simp only [List.append_assoc, List.cons_append, List.nil_append]
    · subst h
      rw [decide_eq_true rfl, if_pos rfl] at hx ⊢
      rw [if_pos rfl]
      obtain ⟨R, hR, hx⟩ := bind_ok hx
      rw [LM.tr_bind _ _ _ hR, LM.tr_pure]
      exact ⟨R, hx, rfl⟩
    · rw [decide_eq_false (by omega), if_neg (by decide)] at hx ⊢
      rw [if_neg (by omega), if_pos h]
      obtain ⟨b, hb', hR⟩ := bind_ok hx
      rw [LM.tr_bind _ _ _ hb', br_tr]
      rw [br_val, Res.ok_inj] at hb'
      subst hb'
      rw [decide_eq_true h, if_pos rfl] at hR ⊢
      obtain ⟨t, ht, hR⟩ := bind_ok hR
      rw [LM.tr_bind _ _ _ ht, bt _ _ ht]
      obtain ⟨R, hR, hx⟩ := bind_ok hR
      rw [LM.tr_bind _ _ _ hR]
      refine ⟨R, hx, ?_⟩
      rw [(ha _ _).1 _ hR, show d.toNat = d.natAbs by omega]
      simp only [List.cons_append, List.nil_append]
  intro n
  induction n with
  | zero => intro hn Q Q' x x' z z' _ _ _ i hi; omega
  | succ n ih =>
    intro hn Q Q' x x' z z' hx hx' ht
    obtain ⟨R, hR, t⟩ := round v bd n hn Q x hx
    obtain ⟨R', hR', t'⟩ := round v' bd' n hn Q' x' hx'
    rw [t, t'] at ht
    simp only [List.append_assoc] at ht
    have h1 := List.append_cancel_left ht
    have key : v[n] = v'[n] ∧ (wnafMulLoop c v n (by omega) R).tr ++ z = (wnafMulLoop c v' n (by omega) R').tr ++ z' := by
      generalize (wnafMulLoop c v n (by omega) R).tr ++ z = A at *
      generalize (wnafMulLoop c v' n (by omega) R').tr ++ z' = A' at *
      generalize v[n] = d at *
      generalize v'[n] = d' at *
      rcases lt_trichotomy d 0 with h | h | h
      · rw [if_neg (by omega), if_neg (by omega)] at h1
        rcases lt_trichotomy d' 0 with h' | h' | h'
        · rw [if_neg (by omega), if_neg (by omega)] at h1
          simp only [List.cons_append, List.append_assoc, List.cons.injEq, true_and] at h1
          have h2 := List.append_cancel_left h1
          simp only [List.cons.injEq, Ev.idx.injEq, true_and] at h2
          exact ⟨by omega, List.append_cancel_left h2.2⟩
        · rw [if_pos h'] at h1
          simp at h1
        · rw [if_neg (by omega), if_pos h'] at h1
          simp at h1
      · rw [if_pos h] at h1
        rcases lt_trichotomy d' 0 with h' | h' | h'
        · rw [if_neg (by omega), if_neg (by omega)] at h1
          simp at h1
        · rw [if_pos h'] at h1
          exact ⟨by omega, List.append_cancel_left h1⟩
        · rw [if_neg (by omega), if_pos h'] at h1
          simp at h1
      · rw [if_neg (by omega), if_pos h] at h1
        rcases lt_trichotomy d' 0 with h' | h' | h'
        · rw [if_neg (by omega), if_neg (by omega)] at h1
          simp at h1
        · rw [if_pos h'] at h1
          simp at h1
        · rw [if_neg (by omega), if_pos h'] at h1
          simp only [List.cons_append, List.cons.injEq, Ev.idx.injEq, true_and] at h1
          exact ⟨by omega, List.append_cancel_left h1.2⟩
    have := ih (by omega) R R' x x' z z' hR hR' key.2
    intro i hi
    rcases Nat.lt_or_eq_of_le (Nat.lt_succ_iff.1 hi) with h | h
    · exact this i h
    · subst h
      exact key.1

end Ristretto

end Leak
end Zerocaf
