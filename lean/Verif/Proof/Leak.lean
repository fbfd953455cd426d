import Verif.Model.Leak
import Verif.Props.Total

/-!
# The leakage model agrees with the model

Forgetting the trace of every function of `Model/Leak.lean` gives the function of the same name of the model. The
bodies are compared with the arithmetic functions replaced by variables (`mr_gen`, `mul_gen`), so that the kernel
compares the shape of two programs and does not evaluate them.
-/

set_option exponentiation.threshold 600

namespace Zerocaf
namespace Leak

/-! ### Traces and values of compound computations -/

@[simp] theorem LM.val_bind {α β : Type} (m : LM α) (f : α → LM β) :
    (m >>= f).val = m.val >>= fun a => (f a).val := by
  show (LM.bind m f).val = _
  unfold LM.bind
  cases m.val <;> simp

theorem LM.tr_bind {α β : Type} (m : LM α) (f : α → LM β) (a : α) (h : m.val = .ok a) :
    (m >>= f).tr = m.tr ++ (f a).tr := by
  show (LM.bind m f).tr = _
  unfold LM.bind
  rw [h]

/- As in `Machine.lean`, the proofs avoid the bare term `rfl`, so that `simp` uses them as rewriting steps. -/
@[simp] theorem LM.val_pure {α : Type} (a : α) : (pure a : LM α).val = .ok a :=
  Eq.trans (b := .ok a) (by rfl) (Eq.refl _)
@[simp] theorem LM.tr_pure {α : Type} (a : α) : (pure a : LM α).tr = [] := Eq.trans (b := []) (by rfl) (Eq.refl _)
@[simp] theorem br_val (s : Site) (b : Bool) : (br s b).val = .ok b := Eq.trans (b := .ok b) (by rfl) (Eq.refl _)
@[simp] theorem br_tr (s : Site) (b : Bool) : (br s b).tr = [.br s b] :=
  Eq.trans (b := [.br s b]) (by rfl) (Eq.refl _)
@[simp] theorem chk64_val (c : Cfg) (n : ℕ) : (chk64 c n).val = Zerocaf.chk64 c n :=
  Eq.trans (b := Zerocaf.chk64 c n) (by rfl) (Eq.refl _)
@[simp] theorem chk128_val (c : Cfg) (n : ℕ) : (chk128 c n).val = Zerocaf.chk128 c n :=
  Eq.trans (b := Zerocaf.chk128 c n) (by rfl) (Eq.refl _)
@[simp] theorem csub64_val (c : Cfg) (a b : ℕ) : (csub64 c a b).val = Zerocaf.csub64 c a b :=
  Eq.trans (b := Zerocaf.csub64 c a b) (by rfl) (Eq.refl _)
@[simp] theorem rassert_val (b : Bool) : (rassert b).val = Zerocaf.rassert b :=
  Eq.trans (b := Zerocaf.rassert b) (by rfl) (Eq.refl _)

theorem bindVal {α β : Type} {m : LM α} {r : Res α} {f : α → LM β} {g : α → Res β} (h : m.val = r)
    (h' : ∀ a, (f a).val = g a) : (m >>= f).val = r >>= g := by
  rw [LM.val_bind, h, funext h']

theorem val_ite {α : Type} (p : Prop) [Decidable p] (a b : LM α) :
    (if p then a else b).val = if p then a.val else b.val := apply_ite _ _ _ _

/-! ### Forgetting the trace gives the model -/

theorem sliceEqLoop_val : ∀ (xs ys : List UInt8) (acc : Bool), xs.length = ys.length →
    (sliceEqLoop xs ys acc).val = .ok (acc && xs == ys) := by
  intro xs
  induction xs with
  | nil =>
    intro ys acc h
    cases ys with
    | nil => simp [sliceEqLoop]
    | cons y ys => simp at h
  | cons x xs ih =>
    intro ys acc h
    cases ys with
    | nil => simp at h
    | cons y ys =>
      rw [sliceEqLoop, LM.val_bind, Res.ok_bind, ih ys _ (by simpa using h)]
      rw [Bool.and_assoc]
      rfl

theorem sliceEq_val (a b : Bytes32) : (sliceEq a b).val = .ok (a == b) := by
  unfold sliceEq
  rw [LM.val_bind, br_val, Res.ok_bind, sliceEqLoop_val _ _ _ (by simp), Bool.true_and]
  congr 1
  rw [Bool.eq_iff_iff, beq_iff_eq, beq_iff_eq]
  exact Vector.toList_inj

/-- The comparison of lists of limbs without trace. -/
def cmpPure : List (ℕ × ℕ) → Ordering
  | [] => .eq
  | (x, y) :: rest => if x > y then .gt else if x < y then .lt else cmpPure rest

theorem cmpLimbs_val (l : List (ℕ × ℕ)) : (cmpLimbs l).val = .ok (cmpPure l) := by
  induction l with
  | nil => rfl
  | cons q l ih =>
    obtain ⟨x, y⟩ := q
    rw [cmpLimbs, LM.val_bind, br_val, Res.ok_bind, cmpPure]
    by_cases h : x > y
    · rw [if_pos (decide_eq_true h), if_pos h]
      rfl
    · rw [if_neg (by simpa using h), if_neg h, LM.val_bind, br_val, Res.ok_bind]
      by_cases h' : x < y
      · rw [if_pos (decide_eq_true h'), if_pos h']
        rfl
      · rw [if_neg (by simpa using h'), if_neg h']
        exact ih

theorem cmp_val (a b : L5) : (cmp a b).val = .ok (Zerocaf.Field.cmp a b) := by
  unfold cmp Zerocaf.Field.cmp
  rw [cmpLimbs_val]
  simp only [cmpPure]

theorem gt_val (a b : L5) : (gt a b).val = .ok (Zerocaf.Field.gt a b) := by
  unfold gt
  rw [LM.val_bind, cmp_val, Res.ok_bind]
  rfl

theorem ge_val (a b : L5) : (ge a b).val = .ok (Zerocaf.Field.ge a b) := by
  unfold ge
  rw [LM.val_bind, cmp_val, Res.ok_bind]
  rfl

theorem mul_gen (first : LM W9) (first' : Res W9) (hf : first.val = first') (mi : L5 → L5 → LM W9)
    (mi' : L5 → L5 → Res W9) (hmi : ∀ a b, (mi a b).val = mi' a b) (mr : W9 → LM L5) (mr' : W9 → Res L5)
    (hmr : ∀ w, (mr w).val = mr' w) (R : L5) : (do
  let w ← first
  let prod ← mr w
  let w' ← mi prod R
  mr w').val = (do
  let w ← first'
  let prod ← mr' w
  let w' ← mi' prod R
  mr' w') := by
  refine bindVal hf fun _ => ?_
  refine bindVal (hmr _) fun _ => ?_
  refine bindVal (hmi _ _) fun _ => ?_
  exact hmr _

namespace Field

theorem subStep_val (c : Cfg) (a b s : ℕ) : (subStep c a b s).val = Zerocaf.Field.subStep c a b s := by
  simp [subStep, Zerocaf.Field.subStep]

theorem subFixStep_val (c : Cfg) (a b s u : ℕ) : (subFixStep c a b s u).val = Zerocaf.Field.subFixStep c a b s u := by
  simp [subFixStep, Zerocaf.Field.subFixStep]

theorem subTail_val (c : Cfg) (um s0 s1 s2 s3 s4 : ℕ) : (do
  let c0 ← subFixStep c 0 (s0 &&& mask52) Zerocaf.Field.FIELD_L.l0 um
  let c1 ← subFixStep c c0 (s1 &&& mask52) Zerocaf.Field.FIELD_L.l1 um
  let c2 ← subFixStep c c1 (s2 &&& mask52) Zerocaf.Field.FIELD_L.l2 um
  let c3 ← subFixStep c c2 (s3 &&& mask52) Zerocaf.Field.FIELD_L.l3 um
  let c4 ← subFixStep c c3 (s4 &&& mask52) Zerocaf.Field.FIELD_L.l4 um
  return (⟨c0 &&& mask52, c1 &&& mask52, c2 &&& mask52, c3 &&& mask52, c4 &&& mask52⟩ : L5)).val = (do
  let c0 ← Zerocaf.Field.subFixStep c 0 (s0 &&& mask52) Zerocaf.Field.FIELD_L.l0 um
  let c1 ← Zerocaf.Field.subFixStep c c0 (s1 &&& mask52) Zerocaf.Field.FIELD_L.l1 um
  let c2 ← Zerocaf.Field.subFixStep c c1 (s2 &&& mask52) Zerocaf.Field.FIELD_L.l2 um
  let c3 ← Zerocaf.Field.subFixStep c c2 (s3 &&& mask52) Zerocaf.Field.FIELD_L.l3 um
  let c4 ← Zerocaf.Field.subFixStep c c3 (s4 &&& mask52) Zerocaf.Field.FIELD_L.l4 um
  return (⟨c0 &&& mask52, c1 &&& mask52, c2 &&& mask52, c3 &&& mask52, c4 &&& mask52⟩ : L5)) := by
  iterate 5 refine bindVal (subFixStep_val _ _ _ _ _) fun _ => ?_
  rw [LM.val_pure, Res.pure_eq]

theorem sub_val (c : Cfg) (a b : FE) : (sub c a b).val = Zerocaf.Field.sub c a b := by
  unfold sub Zerocaf.Field.sub
  iterate 5 refine bindVal (subStep_val _ _ _ _) fun _ => ?_
  exact subTail_val _ _ _ _ _ _ _

theorem add_val (c : Cfg) (a b : FE) : (add c a b).val = Zerocaf.Field.add c a b := by
  unfold add Zerocaf.Field.add
  iterate 5 refine bindVal (chk64_val _ _) fun _ => ?_
  exact sub_val _ _ _

theorem neg_val (c : Cfg) (a : FE) : (neg c a).val = Zerocaf.Field.neg c a := by
  simp only [neg, Zerocaf.Field.neg, sub_val]

theorem mulInternal_val (c : Cfg) (a b : FE) : (mulInternal c a b).val = Zerocaf.Field.mulInternal c a b := by
  unfold mulInternal Zerocaf.Field.mulInternal
  iterate 9 refine bindVal (chk128_val _ _) fun _ => ?_
  rw [LM.val_pure, Res.pure_eq]

theorem squareInternal_val (c : Cfg) (a : FE) : (squareInternal c a).val = Zerocaf.Field.squareInternal c a := by
  unfold squareInternal Zerocaf.Field.squareInternal
  iterate 4 refine bindVal (chk64_val _ _) fun _ => ?_
  iterate 9 refine bindVal (chk128_val _ _) fun _ => ?_
  rw [LM.val_pure, Res.pure_eq]

theorem adjustmentFact_val (c : Cfg) (s : ℕ) : (adjustmentFact c s).val = Zerocaf.Field.adjustmentFact c s := by
  simp only [adjustmentFact, Zerocaf.Field.adjustmentFact, LM.val_bind, chk128_val, LM.val_pure, Res.pure_eq]

theorem mr_gen (ch : ℕ → LM ℕ) (ch' : ℕ → Res ℕ) (hch : ∀ n, (ch n).val = ch' n) (adj : ℕ → LM (ℕ × ℕ))
    (adj' : ℕ → Res (ℕ × ℕ)) (hadj : ∀ n, (adj n).val = adj' n) (sb : FE → FE → LM FE) (sb' : FE → FE → Res FE)
    (hsb : ∀ a b, (sb a b).val = sb' a b) (rr : ℕ → ℕ × ℕ) (mm : ℕ → ℕ → ℕ) (lo : ℕ → ℕ) (w : W9) (l : L5) : (do
  let x0 ← adj w.w0
  let t1 ← ch (x0.1 + w.w1 + mm x0.2 l.l1)
  let x1 ← adj t1
  let t2 ← ch (x1.1 + w.w2 + mm x0.2 l.l2 + mm x1.2 l.l1)
  let x2 ← adj t2
  let t3 ← ch (x2.1 + w.w3 + mm x1.2 l.l2 + mm x2.2 l.l1)
  let x3 ← adj t3
  let t4 ← ch (x3.1 + w.w4 + mm x0.2 l.l4 + mm x2.2 l.l2 + mm x3.2 l.l1)
  let x4 ← adj t4
  let t5 ← ch (x4.1 + w.w5 + mm x1.2 l.l4 + mm x3.2 l.l2 + mm x4.2 l.l1)
  let t6 ← ch ((rr t5).1 + w.w6 + mm x2.2 l.l4 + mm x4.2 l.l2)
  let t7 ← ch ((rr t6).1 + w.w7 + mm x3.2 l.l4)
  let t8 ← ch ((rr t7).1 + w.w8 + mm x4.2 l.l4)
  sb ⟨(rr t5).2, (rr t6).2, (rr t7).2, (rr t8).2, lo (rr t8).1⟩ l).val = (do
  let x0 ← adj' w.w0
  let t1 ← ch' (x0.1 + w.w1 + mm x0.2 l.l1)
  let x1 ← adj' t1
  let t2 ← ch' (x1.1 + w.w2 + mm x0.2 l.l2 + mm x1.2 l.l1)
  let x2 ← adj' t2
  let t3 ← ch' (x2.1 + w.w3 + mm x1.2 l.l2 + mm x2.2 l.l1)
  let x3 ← adj' t3
  let t4 ← ch' (x3.1 + w.w4 + mm x0.2 l.l4 + mm x2.2 l.l2 + mm x3.2 l.l1)
  let x4 ← adj' t4
  let t5 ← ch' (x4.1 + w.w5 + mm x1.2 l.l4 + mm x3.2 l.l2 + mm x4.2 l.l1)
  let t6 ← ch' ((rr t5).1 + w.w6 + mm x2.2 l.l4 + mm x4.2 l.l2)
  let t7 ← ch' ((rr t6).1 + w.w7 + mm x3.2 l.l4)
  let t8 ← ch' ((rr t7).1 + w.w8 + mm x4.2 l.l4)
  sb' ⟨(rr t5).2, (rr t6).2, (rr t7).2, (rr t8).2, lo (rr t8).1⟩ l) := by
  iterate 4
    refine bindVal (hadj _) fun _ => ?_
    refine bindVal (hch _) fun _ => ?_
  refine bindVal (hadj _) fun _ => ?_
  iterate 4 refine bindVal (hch _) fun _ => ?_
  exact hsb _ _

set_option linter.auxLemma false in
theorem mr_proj (ch : ℕ → Res ℕ) (adj : ℕ → Res (ℕ × ℕ)) (sb : FE → FE → Res FE) (rr : ℕ → ℕ × ℕ)
    (mm : ℕ → ℕ → ℕ) (lo : ℕ → ℕ) (w : W9) (l0 : L5) : (
    have l := l0;
    adj w.w0 >>= fun x => Zerocaf.Field.montgomeryReduce.match_1 (fun _ => Res FE) x fun k0 n0 =>
    ch (k0 + w.w1 + mm n0 l.l1) >>= fun t1 =>
    adj t1 >>= fun x => Zerocaf.Field.montgomeryReduce.match_1 (fun _ => Res FE) x fun k1 n1 =>
    ch (k1 + w.w2 + mm n0 l.l2 + mm n1 l.l1) >>= fun t2 =>
    adj t2 >>= fun x => Zerocaf.Field.montgomeryReduce.match_1 (fun _ => Res FE) x fun k2 n2 =>
    ch (k2 + w.w3 + mm n1 l.l2 + mm n2 l.l1) >>= fun t3 =>
    adj t3 >>= fun x => Zerocaf.Field.montgomeryReduce.match_1 (fun _ => Res FE) x fun k3 n3 =>
    ch (k3 + w.w4 + mm n0 l.l4 + mm n2 l.l2 + mm n3 l.l1) >>= fun t4 =>
    adj t4 >>= fun x => Zerocaf.Field.montgomeryReduce.match_1 (fun _ => Res FE) x fun k4 n4 =>
    ch (k4 + w.w5 + mm n1 l.l4 + mm n3 l.l2 + mm n4 l.l1) >>= fun t5 =>
    Zerocaf.Field.montgomeryReduce.match_1 (fun _ => Res FE) (rr t5) fun k5 r0 =>
    ch (k5 + w.w6 + mm n2 l.l4 + mm n4 l.l2) >>= fun t6 =>
    Zerocaf.Field.montgomeryReduce.match_1 (fun _ => Res FE) (rr t6) fun k6 r1 =>
    ch (k6 + w.w7 + mm n3 l.l4) >>= fun t7 =>
    Zerocaf.Field.montgomeryReduce.match_1 (fun _ => Res FE) (rr t7) fun k7 r2 =>
    ch (k7 + w.w8 + mm n4 l.l4) >>= fun t8 =>
    Zerocaf.Field.montgomeryReduce.match_1 (fun _ => Res FE) (rr t8) fun k8 r3 =>
    have r4 := lo k8;
    sb ⟨r0, r1, r2, r3, r4⟩ l) = (do
    let x0 ← adj w.w0
    let t1 ← ch (x0.1 + w.w1 + mm x0.2 l0.l1)
    let x1 ← adj t1
    let t2 ← ch (x1.1 + w.w2 + mm x0.2 l0.l2 + mm x1.2 l0.l1)
    let x2 ← adj t2
    let t3 ← ch (x2.1 + w.w3 + mm x1.2 l0.l2 + mm x2.2 l0.l1)
    let x3 ← adj t3
    let t4 ← ch (x3.1 + w.w4 + mm x0.2 l0.l4 + mm x2.2 l0.l2 + mm x3.2 l0.l1)
    let x4 ← adj t4
    let t5 ← ch (x4.1 + w.w5 + mm x1.2 l0.l4 + mm x3.2 l0.l2 + mm x4.2 l0.l1)
    let t6 ← ch ((rr t5).1 + w.w6 + mm x2.2 l0.l4 + mm x4.2 l0.l2)
    let t7 ← ch ((rr t6).1 + w.w7 + mm x3.2 l0.l4)
    let t8 ← ch ((rr t7).1 + w.w8 + mm x4.2 l0.l4)
    sb ⟨(rr t5).2, (rr t6).2, (rr t7).2, (rr t8).2, lo (rr t8).1⟩ l0) := rfl

theorem mr_model (c : Cfg) (w : W9) : Zerocaf.Field.montgomeryReduce c w = (do
    let x0 ← Zerocaf.Field.adjustmentFact c w.w0
    let t1 ← Zerocaf.chk128 c (x0.1 + w.w1 + Zerocaf.Field.m x0.2 Zerocaf.Field.FIELD_L.l1)
    let x1 ← Zerocaf.Field.adjustmentFact c t1
    let t2 ← Zerocaf.chk128 c (x1.1 + w.w2 + Zerocaf.Field.m x0.2 Zerocaf.Field.FIELD_L.l2 + Zerocaf.Field.m x1.2 Zerocaf.Field.FIELD_L.l1)
    let x2 ← Zerocaf.Field.adjustmentFact c t2
    let t3 ← Zerocaf.chk128 c (x2.1 + w.w3 + Zerocaf.Field.m x1.2 Zerocaf.Field.FIELD_L.l2 + Zerocaf.Field.m x2.2 Zerocaf.Field.FIELD_L.l1)
    let x3 ← Zerocaf.Field.adjustmentFact c t3
    let t4 ← Zerocaf.chk128 c (x3.1 + w.w4 + Zerocaf.Field.m x0.2 Zerocaf.Field.FIELD_L.l4 + Zerocaf.Field.m x2.2 Zerocaf.Field.FIELD_L.l2 + Zerocaf.Field.m x3.2 Zerocaf.Field.FIELD_L.l1)
    let x4 ← Zerocaf.Field.adjustmentFact c t4
    let t5 ← Zerocaf.chk128 c (x4.1 + w.w5 + Zerocaf.Field.m x1.2 Zerocaf.Field.FIELD_L.l4 + Zerocaf.Field.m x3.2 Zerocaf.Field.FIELD_L.l2 + Zerocaf.Field.m x4.2 Zerocaf.Field.FIELD_L.l1)
    let t6 ← Zerocaf.chk128 c ((Zerocaf.Field.montgRedRes t5).1 + w.w6 + Zerocaf.Field.m x2.2 Zerocaf.Field.FIELD_L.l4 + Zerocaf.Field.m x4.2 Zerocaf.Field.FIELD_L.l2)
    let t7 ← Zerocaf.chk128 c ((Zerocaf.Field.montgRedRes t6).1 + w.w7 + Zerocaf.Field.m x3.2 Zerocaf.Field.FIELD_L.l4)
    let t8 ← Zerocaf.chk128 c ((Zerocaf.Field.montgRedRes t7).1 + w.w8 + Zerocaf.Field.m x4.2 Zerocaf.Field.FIELD_L.l4)
    Zerocaf.Field.sub c ⟨(Zerocaf.Field.montgRedRes t5).2, (Zerocaf.Field.montgRedRes t6).2, (Zerocaf.Field.montgRedRes t7).2, (Zerocaf.Field.montgRedRes t8).2, lo64 (Zerocaf.Field.montgRedRes t8).1⟩ Zerocaf.Field.FIELD_L) := by
  unfold Zerocaf.Field.montgomeryReduce
  exact mr_proj (Zerocaf.chk128 c) (Zerocaf.Field.adjustmentFact c) (Zerocaf.Field.sub c) Zerocaf.Field.montgRedRes
    Zerocaf.Field.m lo64 w Zerocaf.Field.FIELD_L

theorem montgomeryReduce_val (c : Cfg) (w : W9) :
    (montgomeryReduce c w).val = Zerocaf.Field.montgomeryReduce c w := by
  rw [mr_model]
  unfold montgomeryReduce
  exact mr_gen (chk128 c) (Zerocaf.chk128 c) (chk128_val c) (adjustmentFact c) (Zerocaf.Field.adjustmentFact c)
    (adjustmentFact_val c) (sub c) (Zerocaf.Field.sub c) (sub_val c) Zerocaf.Field.montgRedRes Zerocaf.Field.m lo64 _ _

theorem montgomeryMul_val (c : Cfg) (a b : FE) : (montgomeryMul c a b).val = Zerocaf.Field.montgomeryMul c a b := by
  simp only [montgomeryMul, Zerocaf.Field.montgomeryMul, LM.val_bind, mulInternal_val, montgomeryReduce_val]

theorem mul_val (c : Cfg) (a b : FE) : (mul c a b).val = Zerocaf.Field.mul c a b :=
  mul_gen _ _ (mulInternal_val c a b) (mulInternal c) (Zerocaf.Field.mulInternal c) (mulInternal_val c) (montgomeryReduce c)
    (Zerocaf.Field.montgomeryReduce c) (montgomeryReduce_val c) Zerocaf.Field.RR_FIELD

theorem square_val (c : Cfg) (a : FE) : (square c a).val = Zerocaf.Field.square c a :=
  mul_gen _ _ (squareInternal_val c a) (mulInternal c) (Zerocaf.Field.mulInternal c) (mulInternal_val c) (montgomeryReduce c)
    (Zerocaf.Field.montgomeryReduce c) (montgomeryReduce_val c) Zerocaf.Field.RR_FIELD

theorem half_val (c : Cfg) (a : FE) : (half c a).val = Zerocaf.Field.half c a := by
  simp only [half, Zerocaf.Field.half, mul_val]

theorem ctEq_val (a b : FE) : (ctEq a b).val = .ok (Zerocaf.Field.ctEq a b) := sliceEq_val _ _

theorem condNegate_val (c : Cfg) (a : FE) (b : Bool) : (condNegate c a b).val = Zerocaf.Field.condNegate c a b := by
  simp only [condNegate, Zerocaf.Field.condNegate, LM.val_bind, neg_val, LM.val_pure, Res.pure_eq]

theorem powLoop_val (c : Cfg) : ∀ (n : ℕ) (b r e : FE), (powLoop c n b r e).val = Zerocaf.Field.powLoop c n b r e := by
  intro n
  induction n with
  | zero => intro b r e; rfl
  | succ n ih =>
    intro b r e
    rw [powLoop, Zerocaf.Field.powLoop]
    simp only [LM.val_bind, gt_val, Res.ok_bind, br_val, val_ite, mul_val, sub_val, ih, LM.val_pure]

theorem pow_val (c : Cfg) (a e : FE) : (pow c a e).val = Zerocaf.Field.pow c a e := powLoop_val c _ _ _ _

theorem legendre_val (c : Cfg) (a : FE) : (legendre c a).val = Zerocaf.Field.legendre c a := by
  simp only [legendre, Zerocaf.Field.legendre, LM.val_bind, pow_val, ctEq_val, Res.ok_bind, LM.val_pure, Res.pure_eq]

theorem phase1Loop_val (c : Cfg) : ∀ (n : ℕ) (u v r s : FE) (k : ℕ),
    (phase1Loop c n u v r s k).val = Zerocaf.Field.phase1Loop c n u v r s k := by
  intro n
  induction n with
  | zero => intro u v r s k; rfl
  | succ n ih =>
    intro u v r s k
    rw [phase1Loop, Zerocaf.Field.phase1Loop]
    simp only [LM.val_bind, gt_val, ge_val, Res.ok_bind, br_val, val_ite, mul_val, sub_val, add_val, chk64_val, ih,
      LM.val_pure]

theorem phase1_val (c : Cfg) (a : FE) : (phase1 c a).val = Zerocaf.Field.phase1 c a := by
  unfold phase1 Zerocaf.Field.phase1
  simp only [LM.val_bind, ctEq_val, Res.ok_bind, rassert_val, phase1Loop_val, gt_val, br_val, val_ite, sub_val,
    LM.val_pure, Res.pure_eq]

theorem innerTwoPowK_val (e : ℕ) : (innerTwoPowK e).val = Zerocaf.Field.innerTwoPowK e := by
  simp only [innerTwoPowK, Zerocaf.Field.innerTwoPowK, LM.val_bind, rassert_val, br_val, Res.ok_bind, LM.val_pure,
    Res.pure_eq]

theorem inverse_val (c : Cfg) (a : FE) : (inverse c a).val = Zerocaf.Field.inverse c a := by
  unfold inverse Zerocaf.Field.inverse
  simp only [LM.val_bind, phase1_val, br_val, Res.ok_bind, val_ite, montgomeryMul_val, csub64_val, innerTwoPowK_val,
    decide_eq_true_eq]

end Field

namespace Scalar

theorem subStep_val (c : Cfg) (a b s : ℕ) : (subStep c a b s).val = Zerocaf.Scalar.subStep c a b s := by
  simp [subStep, Zerocaf.Scalar.subStep]

theorem subFixStep_val (c : Cfg) (a b s u : ℕ) :
    (subFixStep c a b s u).val = Zerocaf.Scalar.subFixStep c a b s u := by
  simp [subFixStep, Zerocaf.Scalar.subFixStep]

theorem subTail_val (c : Cfg) (um s0 s1 s2 s3 s4 : ℕ) : (do
  let c0 ← subFixStep c 0 (s0 &&& mask52) Zerocaf.Scalar.L.l0 um
  let c1 ← subFixStep c c0 (s1 &&& mask52) Zerocaf.Scalar.L.l1 um
  let c2 ← subFixStep c c1 (s2 &&& mask52) Zerocaf.Scalar.L.l2 um
  let c3 ← subFixStep c c2 (s3 &&& mask52) Zerocaf.Scalar.L.l3 um
  let c4 ← subFixStep c c3 (s4 &&& mask52) Zerocaf.Scalar.L.l4 um
  return (⟨c0 &&& mask52, c1 &&& mask52, c2 &&& mask52, c3 &&& mask52, c4 &&& mask52⟩ : L5)).val = (do
  let c0 ← Zerocaf.Scalar.subFixStep c 0 (s0 &&& mask52) Zerocaf.Scalar.L.l0 um
  let c1 ← Zerocaf.Scalar.subFixStep c c0 (s1 &&& mask52) Zerocaf.Scalar.L.l1 um
  let c2 ← Zerocaf.Scalar.subFixStep c c1 (s2 &&& mask52) Zerocaf.Scalar.L.l2 um
  let c3 ← Zerocaf.Scalar.subFixStep c c2 (s3 &&& mask52) Zerocaf.Scalar.L.l3 um
  let c4 ← Zerocaf.Scalar.subFixStep c c3 (s4 &&& mask52) Zerocaf.Scalar.L.l4 um
  return (⟨c0 &&& mask52, c1 &&& mask52, c2 &&& mask52, c3 &&& mask52, c4 &&& mask52⟩ : L5)) := by
  iterate 5 refine bindVal (subFixStep_val _ _ _ _ _) fun _ => ?_
  rw [LM.val_pure, Res.pure_eq]

theorem sub_val (c : Cfg) (a b : Sc) : (sub c a b).val = Zerocaf.Scalar.sub c a b := by
  unfold sub Zerocaf.Scalar.sub
  iterate 5 refine bindVal (subStep_val _ _ _ _) fun _ => ?_
  exact subTail_val _ _ _ _ _ _ _

theorem add_val (c : Cfg) (a b : Sc) : (add c a b).val = Zerocaf.Scalar.add c a b := by
  unfold add Zerocaf.Scalar.add
  iterate 5 refine bindVal (chk64_val _ _) fun _ => ?_
  exact sub_val _ _ _

theorem neg_val (c : Cfg) (a : Sc) : (neg c a).val = Zerocaf.Scalar.neg c a := by
  simp only [neg, Zerocaf.Scalar.neg, sub_val]

theorem mulInternal_val (c : Cfg) (a b : Sc) : (mulInternal c a b).val = Zerocaf.Scalar.mulInternal c a b := by
  unfold mulInternal Zerocaf.Scalar.mulInternal
  iterate 9 refine bindVal (chk128_val _ _) fun _ => ?_
  rw [LM.val_pure, Res.pure_eq]

theorem squareInternal_val (c : Cfg) (a : Sc) : (squareInternal c a).val = Zerocaf.Scalar.squareInternal c a := by
  unfold squareInternal Zerocaf.Scalar.squareInternal
  iterate 4 refine bindVal (chk64_val _ _) fun _ => ?_
  iterate 9 refine bindVal (chk128_val _ _) fun _ => ?_
  rw [LM.val_pure, Res.pure_eq]

theorem adjustmentFact_val (c : Cfg) (s : ℕ) : (adjustmentFact c s).val = Zerocaf.Scalar.adjustmentFact c s := by
  simp only [adjustmentFact, Zerocaf.Scalar.adjustmentFact, LM.val_bind, chk128_val, LM.val_pure, Res.pure_eq]

theorem mr_gen (ch : ℕ → LM ℕ) (ch' : ℕ → Res ℕ) (hch : ∀ n, (ch n).val = ch' n) (adj : ℕ → LM (ℕ × ℕ))
    (adj' : ℕ → Res (ℕ × ℕ)) (hadj : ∀ n, (adj n).val = adj' n) (sb : Sc → Sc → LM Sc) (sb' : Sc → Sc → Res Sc)
    (hsb : ∀ a b, (sb a b).val = sb' a b) (rr : ℕ → ℕ × ℕ) (mm : ℕ → ℕ → ℕ) (lo : ℕ → ℕ) (w : W9) (l : L5) : (do
  let x0 ← adj w.w0
  let t1 ← ch (x0.1 + w.w1 + mm x0.2 l.l1)
  let x1 ← adj t1
  let t2 ← ch (x1.1 + w.w2 + mm x0.2 l.l2 + mm x1.2 l.l1)
  let x2 ← adj t2
  let t3 ← ch (x2.1 + w.w3 + mm x0.2 l.l3 + mm x1.2 l.l2 + mm x2.2 l.l1)
  let x3 ← adj t3
  let t4 ← ch (x3.1 + w.w4 + mm x0.2 l.l4 + mm x1.2 l.l3 + mm x2.2 l.l2 + mm x3.2 l.l1)
  let x4 ← adj t4
  let t5 ← ch (x4.1 + w.w5 + mm x1.2 l.l4 + mm x2.2 l.l3 + mm x3.2 l.l2 + mm x4.2 l.l1)
  let t6 ← ch ((rr t5).1 + w.w6 + mm x2.2 l.l4 + mm x3.2 l.l3 + mm x4.2 l.l2)
  let t7 ← ch ((rr t6).1 + w.w7 + mm x3.2 l.l4 + mm x4.2 l.l3)
  let t8 ← ch ((rr t7).1 + w.w8 + mm x4.2 l.l4)
  sb ⟨(rr t5).2, (rr t6).2, (rr t7).2, (rr t8).2, lo (rr t8).1⟩ l).val = (do
  let x0 ← adj' w.w0
  let t1 ← ch' (x0.1 + w.w1 + mm x0.2 l.l1)
  let x1 ← adj' t1
  let t2 ← ch' (x1.1 + w.w2 + mm x0.2 l.l2 + mm x1.2 l.l1)
  let x2 ← adj' t2
  let t3 ← ch' (x2.1 + w.w3 + mm x0.2 l.l3 + mm x1.2 l.l2 + mm x2.2 l.l1)
  let x3 ← adj' t3
  let t4 ← ch' (x3.1 + w.w4 + mm x0.2 l.l4 + mm x1.2 l.l3 + mm x2.2 l.l2 + mm x3.2 l.l1)
  let x4 ← adj' t4
  let t5 ← ch' (x4.1 + w.w5 + mm x1.2 l.l4 + mm x2.2 l.l3 + mm x3.2 l.l2 + mm x4.2 l.l1)
  let t6 ← ch' ((rr t5).1 + w.w6 + mm x2.2 l.l4 + mm x3.2 l.l3 + mm x4.2 l.l2)
  let t7 ← ch' ((rr t6).1 + w.w7 + mm x3.2 l.l4 + mm x4.2 l.l3)
  let t8 ← ch' ((rr t7).1 + w.w8 + mm x4.2 l.l4)
  sb' ⟨(rr t5).2, (rr t6).2, (rr t7).2, (rr t8).2, lo (rr t8).1⟩ l) := by
  iterate 4
    refine bindVal (hadj _) fun _ => ?_
    refine bindVal (hch _) fun _ => ?_
  refine bindVal (hadj _) fun _ => ?_
  iterate 4 refine bindVal (hch _) fun _ => ?_
  exact hsb _ _

set_option linter.auxLemma false in
theorem mr_proj (ch : ℕ → Res ℕ) (adj : ℕ → Res (ℕ × ℕ)) (sb : Sc → Sc → Res Sc) (rr : ℕ → ℕ × ℕ)
    (mm : ℕ → ℕ → ℕ) (lo : ℕ → ℕ) (w : W9) (l0 : L5) : (
    have l := l0;
    adj w.w0 >>= fun x => Zerocaf.Scalar.montgomeryReduce.match_1 (fun _ => Res Sc) x fun k0 n0 =>
    ch (k0 + w.w1 + mm n0 l.l1) >>= fun t1 =>
    adj t1 >>= fun x => Zerocaf.Scalar.montgomeryReduce.match_1 (fun _ => Res Sc) x fun k1 n1 =>
    ch (k1 + w.w2 + mm n0 l.l2 + mm n1 l.l1) >>= fun t2 =>
    adj t2 >>= fun x => Zerocaf.Scalar.montgomeryReduce.match_1 (fun _ => Res Sc) x fun k2 n2 =>
    ch (k2 + w.w3 + mm n0 l.l3 + mm n1 l.l2 + mm n2 l.l1) >>= fun t3 =>
    adj t3 >>= fun x => Zerocaf.Scalar.montgomeryReduce.match_1 (fun _ => Res Sc) x fun k3 n3 =>
    ch (k3 + w.w4 + mm n0 l.l4 + mm n1 l.l3 + mm n2 l.l2 + mm n3 l.l1) >>= fun t4 =>
    adj t4 >>= fun x => Zerocaf.Scalar.montgomeryReduce.match_1 (fun _ => Res Sc) x fun k4 n4 =>
    ch (k4 + w.w5 + mm n1 l.l4 + mm n2 l.l3 + mm n3 l.l2 + mm n4 l.l1) >>= fun t5 =>
    Zerocaf.Scalar.montgomeryReduce.match_1 (fun _ => Res Sc) (rr t5) fun k5 r0 =>
    ch (k5 + w.w6 + mm n2 l.l4 + mm n3 l.l3 + mm n4 l.l2) >>= fun t6 =>
    Zerocaf.Scalar.montgomeryReduce.match_1 (fun _ => Res Sc) (rr t6) fun k6 r1 =>
    ch (k6 + w.w7 + mm n3 l.l4 + mm n4 l.l3) >>= fun t7 =>
    Zerocaf.Scalar.montgomeryReduce.match_1 (fun _ => Res Sc) (rr t7) fun k7 r2 =>
    ch (k7 + w.w8 + mm n4 l.l4) >>= fun t8 =>
    Zerocaf.Scalar.montgomeryReduce.match_1 (fun _ => Res Sc) (rr t8) fun k8 r3 =>
    have r4 := lo k8;
    sb ⟨r0, r1, r2, r3, r4⟩ l) = (do
    let x0 ← adj w.w0
    let t1 ← ch (x0.1 + w.w1 + mm x0.2 l0.l1)
    let x1 ← adj t1
    let t2 ← ch (x1.1 + w.w2 + mm x0.2 l0.l2 + mm x1.2 l0.l1)
    let x2 ← adj t2
    let t3 ← ch (x2.1 + w.w3 + mm x0.2 l0.l3 + mm x1.2 l0.l2 + mm x2.2 l0.l1)
    let x3 ← adj t3
    let t4 ← ch (x3.1 + w.w4 + mm x0.2 l0.l4 + mm x1.2 l0.l3 + mm x2.2 l0.l2 + mm x3.2 l0.l1)
    let x4 ← adj t4
    let t5 ← ch (x4.1 + w.w5 + mm x1.2 l0.l4 + mm x2.2 l0.l3 + mm x3.2 l0.l2 + mm x4.2 l0.l1)
    let t6 ← ch ((rr t5).1 + w.w6 + mm x2.2 l0.l4 + mm x3.2 l0.l3 + mm x4.2 l0.l2)
    let t7 ← ch ((rr t6).1 + w.w7 + mm x3.2 l0.l4 + mm x4.2 l0.l3)
    let t8 ← ch ((rr t7).1 + w.w8 + mm x4.2 l0.l4)
    sb ⟨(rr t5).2, (rr t6).2, (rr t7).2, (rr t8).2, lo (rr t8).1⟩ l0) := rfl

theorem mr_model (c : Cfg) (w : W9) : Zerocaf.Scalar.montgomeryReduce c w = (do
    let x0 ← Zerocaf.Scalar.adjustmentFact c w.w0
    let t1 ← Zerocaf.chk128 c (x0.1 + w.w1 + Zerocaf.Scalar.m x0.2 Zerocaf.Scalar.L.l1)
    let x1 ← Zerocaf.Scalar.adjustmentFact c t1
    let t2 ← Zerocaf.chk128 c (x1.1 + w.w2 + Zerocaf.Scalar.m x0.2 Zerocaf.Scalar.L.l2 + Zerocaf.Scalar.m x1.2 Zerocaf.Scalar.L.l1)
    let x2 ← Zerocaf.Scalar.adjustmentFact c t2
    let t3 ← Zerocaf.chk128 c (x2.1 + w.w3 + Zerocaf.Scalar.m x0.2 Zerocaf.Scalar.L.l3 + Zerocaf.Scalar.m x1.2 Zerocaf.Scalar.L.l2 + Zerocaf.Scalar.m x2.2 Zerocaf.Scalar.L.l1)
    let x3 ← Zerocaf.Scalar.adjustmentFact c t3
    let t4 ← Zerocaf.chk128 c (x3.1 + w.w4 + Zerocaf.Scalar.m x0.2 Zerocaf.Scalar.L.l4 + Zerocaf.Scalar.m x1.2 Zerocaf.Scalar.L.l3 + Zerocaf.Scalar.m x2.2 Zerocaf.Scalar.L.l2 + Zerocaf.Scalar.m x3.2 Zerocaf.Scalar.L.l1)
    let x4 ← Zerocaf.Scalar.adjustmentFact c t4
    let t5 ← Zerocaf.chk128 c (x4.1 + w.w5 + Zerocaf.Scalar.m x1.2 Zerocaf.Scalar.L.l4 + Zerocaf.Scalar.m x2.2 Zerocaf.Scalar.L.l3 + Zerocaf.Scalar.m x3.2 Zerocaf.Scalar.L.l2 + Zerocaf.Scalar.m x4.2 Zerocaf.Scalar.L.l1)
    let t6 ← Zerocaf.chk128 c ((Zerocaf.Scalar.montgRedRes t5).1 + w.w6 + Zerocaf.Scalar.m x2.2 Zerocaf.Scalar.L.l4 + Zerocaf.Scalar.m x3.2 Zerocaf.Scalar.L.l3 + Zerocaf.Scalar.m x4.2 Zerocaf.Scalar.L.l2)
    let t7 ← Zerocaf.chk128 c ((Zerocaf.Scalar.montgRedRes t6).1 + w.w7 + Zerocaf.Scalar.m x3.2 Zerocaf.Scalar.L.l4 + Zerocaf.Scalar.m x4.2 Zerocaf.Scalar.L.l3)
    let t8 ← Zerocaf.chk128 c ((Zerocaf.Scalar.montgRedRes t7).1 + w.w8 + Zerocaf.Scalar.m x4.2 Zerocaf.Scalar.L.l4)
    Zerocaf.Scalar.sub c ⟨(Zerocaf.Scalar.montgRedRes t5).2, (Zerocaf.Scalar.montgRedRes t6).2, (Zerocaf.Scalar.montgRedRes t7).2, (Zerocaf.Scalar.montgRedRes t8).2, lo64 (Zerocaf.Scalar.montgRedRes t8).1⟩ Zerocaf.Scalar.L) := by
  unfold Zerocaf.Scalar.montgomeryReduce
  exact mr_proj (Zerocaf.chk128 c) (Zerocaf.Scalar.adjustmentFact c) (Zerocaf.Scalar.sub c) Zerocaf.Scalar.montgRedRes
    Zerocaf.Scalar.m lo64 w Zerocaf.Scalar.L

theorem montgomeryReduce_val (c : Cfg) (w : W9) :
    (montgomeryReduce c w).val = Zerocaf.Scalar.montgomeryReduce c w := by
  rw [mr_model]
  unfold montgomeryReduce
  exact mr_gen (chk128 c) (Zerocaf.chk128 c) (chk128_val c) (adjustmentFact c) (Zerocaf.Scalar.adjustmentFact c)
    (adjustmentFact_val c) (sub c) (Zerocaf.Scalar.sub c) (sub_val c) Zerocaf.Scalar.montgRedRes Zerocaf.Scalar.m lo64 _ _

theorem mul_val (c : Cfg) (a b : Sc) : (mul c a b).val = Zerocaf.Scalar.mul c a b :=
  mul_gen _ _ (mulInternal_val c a b) (mulInternal c) (Zerocaf.Scalar.mulInternal c) (mulInternal_val c) (montgomeryReduce c)
    (Zerocaf.Scalar.montgomeryReduce c) (montgomeryReduce_val c) Zerocaf.Scalar.RR

theorem square_val (c : Cfg) (a : Sc) : (square c a).val = Zerocaf.Scalar.square c a :=
  mul_gen _ _ (squareInternal_val c a) (mulInternal c) (Zerocaf.Scalar.mulInternal c) (mulInternal_val c) (montgomeryReduce c)
    (Zerocaf.Scalar.montgomeryReduce c) (montgomeryReduce_val c) Zerocaf.Scalar.RR

theorem half_val (c : Cfg) (a : Sc) : (half c a).val = Zerocaf.Scalar.half c a := by
  simp only [half, Zerocaf.Scalar.half, mul_val]

theorem ctEq_val (a b : Sc) : (ctEq a b).val = .ok (Zerocaf.Scalar.ctEq a b) := sliceEq_val _ _

end Scalar

theorem Proj.neg_val (c : Cfg) (p : ProjPoint) : (Proj.neg c p).val = Zerocaf.Proj.neg c p := by
  simp only [Proj.neg, Zerocaf.Proj.neg, LM.val_bind, Field.neg_val, LM.val_pure, Res.pure_eq]

theorem Proj.add_val (c : Cfg) (p q : ProjPoint) : (Proj.add c p q).val = Zerocaf.Proj.add c p q := by
  simp only [Proj.add, Zerocaf.Proj.add, LM.val_bind, Field.mul_val, Field.square_val, Field.add_val, Field.sub_val,
    LM.val_pure, Res.pure_eq]

theorem Proj.sub_val (c : Cfg) (p q : ProjPoint) : (Proj.sub c p q).val = Zerocaf.Proj.sub c p q := by
  simp only [Proj.sub, Zerocaf.Proj.sub, LM.val_bind, Proj.neg_val, Proj.add_val]

theorem Proj.double_val (c : Cfg) (p : ProjPoint) : (Proj.double c p).val = Zerocaf.Proj.double c p := by
  simp only [Proj.double, Zerocaf.Proj.double, LM.val_bind, Field.mul_val, Field.square_val, Field.add_val,
    Field.sub_val, LM.val_pure, Res.pure_eq]

theorem Aff.neg_val (c : Cfg) (p : AffPoint) : (Aff.neg c p).val = Zerocaf.Aff.neg c p := by
  simp only [Aff.neg, Zerocaf.Aff.neg, LM.val_bind, Field.neg_val, LM.val_pure, Res.pure_eq]

theorem Aff.ofEd_val (c : Cfg) (p : EdPoint) : (Aff.ofEd c p).val = Zerocaf.Aff.ofEd c p := by
  simp only [Aff.ofEd, Zerocaf.Aff.ofEd, LM.val_bind, Field.inverse_val, Field.mul_val, LM.val_pure, Res.pure_eq]

theorem Aff.ctEq_val (p q : AffPoint) : (Aff.ctEq p q).val = .ok (Zerocaf.Aff.ctEq p q) := by
  simp only [Aff.ctEq, Zerocaf.Aff.ctEq, LM.val_bind, Field.ctEq_val, Res.ok_bind, LM.val_pure]

theorem Ed.neg_val (c : Cfg) (p : EdPoint) : (Ed.neg c p).val = Zerocaf.Ed.neg c p := by
  simp only [Ed.neg, Zerocaf.Ed.neg, LM.val_bind, Field.neg_val, LM.val_pure, Res.pure_eq]

theorem Ed.add_val (c : Cfg) (p q : EdPoint) : (Ed.add c p q).val = Zerocaf.Ed.add c p q := by
  simp only [Ed.add, Zerocaf.Ed.add, LM.val_bind, Field.mul_val, Field.add_val, Field.sub_val, LM.val_pure,
    Res.pure_eq]

theorem Ed.sub_val (c : Cfg) (p q : EdPoint) : (Ed.sub c p q).val = Zerocaf.Ed.sub c p q := by
  simp only [Ed.sub, Zerocaf.Ed.sub, LM.val_bind, Ed.neg_val, Field.mul_val, Field.add_val, Field.sub_val,
    LM.val_pure, Res.pure_eq]

theorem Ed.double_val (c : Cfg) (p : EdPoint) : (Ed.double c p).val = Zerocaf.Ed.double c p := Ed.add_val c p p

theorem Ed.ctEq_val (c : Cfg) (p q : EdPoint) : (Ed.ctEq c p q).val = Zerocaf.Ed.ctEq c p q := by
  simp only [Ed.ctEq, Zerocaf.Ed.ctEq, LM.val_bind, Aff.ofEd_val, Aff.ctEq_val, Res.pure_eq]

theorem Ristretto.ctEq_val (c : Cfg) (p q : EdPoint) : (Ristretto.ctEq c p q).val = Zerocaf.Ristretto.ctEq c p q := by
  simp only [Ristretto.ctEq, Zerocaf.Ristretto.ctEq, LM.val_bind, Field.mul_val, Field.ctEq_val, Res.ok_bind,
    LM.val_pure, Res.pure_eq]

theorem Ed.ops_erase : Ed.ops.erase = Zerocaf.Ed.ops := by
  unfold PointOps.erase Ed.ops Zerocaf.Ed.ops
  simp only [Ed.add_val, Ed.sub_val, Ed.double_val]

theorem Proj.ops_erase : Proj.ops.erase = Zerocaf.Proj.ops := by
  unfold PointOps.erase Proj.ops Zerocaf.Proj.ops
  simp only [Proj.add_val, Proj.sub_val, Proj.double_val]

theorem doubleAndAddLoop_val {T : Type} (O : PointOps T) (c : Cfg) : ∀ (n : ℕ) (N : T) (s : Sc) (Q : T),
    (doubleAndAddLoop O c n N s Q).val = Zerocaf.doubleAndAddLoop O.erase c n N s Q := by
  intro n
  induction n with
  | zero => intro N s Q; rfl
  | succ n ih =>
    intro N s Q
    rw [doubleAndAddLoop, Zerocaf.doubleAndAddLoop]
    simp only [LM.val_bind, Scalar.ctEq_val, Res.ok_bind, br_val, val_ite, ih, LM.val_pure]
    rfl

theorem doubleAndAdd_val {T : Type} (O : PointOps T) (c : Cfg) (N : T) (s : Sc) :
    (doubleAndAdd O c N s).val = Zerocaf.doubleAndAdd O.erase c N s := doubleAndAddLoop_val O c _ _ _ _

theorem ltrLoop_val {T : Type} (O : PointOps T) (c : Cfg) (N : T) (bits : Vector UInt8 256) :
    ∀ (n : ℕ) (h : n ≤ 256) (Q : T), (ltrLoop O c N bits n h Q).val = Zerocaf.ltrLoop O.erase c N bits n h Q := by
  intro n
  induction n with
  | zero => intro h Q; rfl
  | succ n ih =>
    intro h Q
    rw [ltrLoop, Zerocaf.ltrLoop]
    simp only [LM.val_bind, Res.ok_bind, br_val, val_ite, ih, LM.val_pure]
    rfl

theorem ltrBinMul_val {T : Type} (O : PointOps T) (c : Cfg) (N : T) (s : Sc) :
    (ltrBinMul O c N s).val = Zerocaf.ltrBinMul O.erase c N s := ltrLoop_val O c _ _ _ _ _

end Leak
end Zerocaf
