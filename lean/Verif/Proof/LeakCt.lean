import Verif.Proof.Leak

/-!
# Traces of straight-line functions

`Const c m t`: if the computation `m` returns, its trace is `t`, and in release builds it returns.
-/

set_option exponentiation.threshold 600

namespace Zerocaf
namespace Leak

/-- If `m` returns then its trace is `t`; in release builds it returns. -/
def Const {α : Type} (c : Cfg) (m : LM α) (t : List Ev) : Prop :=
  (∀ a, m.val = .ok a → m.tr = t) ∧ (c.debug = false → ∃ a, m.val = .ok a)

theorem bind_ok {α β : Type} {m : LM α} {f : α → LM β} {b : β} (h : (m >>= f).val = .ok b) :
    ∃ a, m.val = .ok a ∧ (f a).val = .ok b := by
  rw [LM.val_bind] at h
  cases hm : m.val with
  | ok a => rw [hm, Res.ok_bind] at h; exact ⟨a, rfl, h⟩
  | panic => rw [hm, Res.panic_bind] at h; cases h
  | diverge => rw [hm, Res.diverge_bind] at h; cases h

theorem Const.bind {α β : Type} {c : Cfg} {m : LM α} {f : α → LM β} {t t' : List Ev} (h : Const c m t)
    (h' : ∀ a, Const c (f a) t') : Const c (m >>= f) (t ++ t') := by
  refine ⟨fun b hb => ?_, fun hc => ?_⟩
  · obtain ⟨a, ha, hfa⟩ := bind_ok hb
    rw [LM.tr_bind m f a ha, h.1 a ha, (h' a).1 b hfa]
  · obtain ⟨a, ha⟩ := h.2 hc
    obtain ⟨b, hb⟩ := (h' a).2 hc
    exact ⟨b, by rw [LM.val_bind, ha, Res.ok_bind, hb]⟩

theorem Const.pure {α : Type} (c : Cfg) (a : α) : Const c (Pure.pure a : LM α) [] :=
  ⟨fun _ _ => LM.tr_pure a, fun _ => ⟨a, LM.val_pure a⟩⟩

/-- The trace of a checked statement that does not overflow. -/
def chkTr (c : Cfg) : List Ev := if c.debug then [.stm, .br .ovf true] else [.stm]

theorem chk64_ct (c : Cfg) (n : ℕ) : Const c (chk64 c n) (chkTr c) := by
  unfold Const chkTr chk64 Zerocaf.chk64
  generalize 2 ^ 64 = B
  cases c.debug <;> by_cases h : n < B <;> simp [h]

theorem chk128_ct (c : Cfg) (n : ℕ) : Const c (chk128 c n) (chkTr c) := by
  unfold Const chkTr chk128 Zerocaf.chk128
  generalize 2 ^ 128 = B
  cases c.debug <;> by_cases h : n < B <;> simp [h]

theorem sliceEqLoop_ct (c : Cfg) : ∀ (xs ys : List UInt8) (acc : Bool), xs.length = ys.length →
    Const c (sliceEqLoop xs ys acc) (List.replicate xs.length .stm) := by
  intro xs
  induction xs with
  | nil =>
    intro ys acc h
    cases ys with
    | nil => exact Const.pure c acc
    | cons y ys => simp at h
  | cons x xs ih =>
    intro ys acc h
    cases ys with
    | nil => simp at h
    | cons y ys =>
      rw [sliceEqLoop]
      exact Const.bind (t := [.stm]) ⟨fun _ _ => rfl, fun _ => ⟨_, rfl⟩⟩ fun a => ih ys a (by simpa using h)

theorem br_ct (c : Cfg) (s : Site) (b : Bool) : Const c (br s b) [.br s b] := ⟨fun _ _ => rfl, fun _ => ⟨b, rfl⟩⟩

theorem sliceEq_ct (c : Cfg) (a b : Bytes32) :
    Const c (sliceEq a b) (.br .sliceLen true :: List.replicate 32 .stm) := by
  unfold sliceEq
  refine Const.bind (t := [.br .sliceLen true]) (br_ct c _ _) fun _ => ?_
  have := sliceEqLoop_ct c a.toList b.toList true (by simp)
  rwa [Vector.length_toList] at this


namespace Field

theorem subStep_ct (c : Cfg) : ∃ t, ∀ a b s, Const c (subStep c a b s) t :=
  ⟨_, fun _ _ _ => (chk64_ct c _).bind fun _ => Const.pure c _⟩

theorem subFixStep_ct (c : Cfg) (a b s u : ℕ) : Const c (subFixStep c a b s u) (chkTr c) := chk64_ct c _

theorem sub_ct (c : Cfg) : ∃ t, ∀ a b, Const c (sub c a b) t := by
  obtain ⟨t, ht⟩ := subStep_ct c
  apply Exists.intro
  intro a b
  unfold sub
  iterate 5 (apply Const.bind (ht _ _ _); intro _)
  iterate 5 (apply Const.bind (subFixStep_ct c _ _ _ _); intro _)
  exact Const.pure c _

theorem add_ct (c : Cfg) : ∃ t, ∀ a b, Const c (add c a b) t := by
  obtain ⟨t, ht⟩ := sub_ct c
  apply Exists.intro
  intro a b
  unfold add
  iterate 5 (apply Const.bind (chk64_ct c _); intro _)
  exact ht _ _

theorem neg_ct (c : Cfg) : ∃ t, ∀ a, Const c (neg c a) t := by
  obtain ⟨t, ht⟩ := sub_ct c
  exact ⟨t, fun a => ht _ _⟩

theorem mulInternal_ct (c : Cfg) : ∃ t, ∀ a b, Const c (mulInternal c a b) t := by
  apply Exists.intro
  intro a b
  unfold mulInternal
  iterate 9 (apply Const.bind (chk128_ct c _); intro _)
  exact Const.pure c _

theorem squareInternal_ct (c : Cfg) : ∃ t, ∀ a, Const c (squareInternal c a) t := by
  apply Exists.intro
  intro a
  unfold squareInternal
  iterate 4 (apply Const.bind (chk64_ct c _); intro _)
  iterate 9 (apply Const.bind (chk128_ct c _); intro _)
  exact Const.pure c _

theorem adjustmentFact_ct (c : Cfg) : ∃ t, ∀ s, Const c (adjustmentFact c s) t := by
  apply Exists.intro
  intro s
  unfold adjustmentFact
  exact (chk128_ct c _).bind fun _ => Const.pure c _

theorem montgomeryReduce_ct (c : Cfg) : ∃ t, ∀ w, Const c (montgomeryReduce c w) t := by
  obtain ⟨t, ht⟩ := adjustmentFact_ct c
  obtain ⟨t', ht'⟩ := sub_ct c
  apply Exists.intro
  intro w
  unfold montgomeryReduce
  iterate 5
    (apply Const.bind (ht _); intro _)
    (apply Const.bind (chk128_ct c _); intro _)
  iterate 3 (apply Const.bind (chk128_ct c _); intro _)
  exact ht' _ _

theorem mul_ct (c : Cfg) : ∃ t, ∀ a b, Const c (mul c a b) t := by
  obtain ⟨t, ht⟩ := mulInternal_ct c
  obtain ⟨t', ht'⟩ := montgomeryReduce_ct c
  apply Exists.intro
  intro a b
  unfold mul
  exact (ht _ _).bind fun _ => (ht' _).bind fun _ => (ht _ _).bind fun _ => ht' _

theorem square_ct (c : Cfg) : ∃ t, ∀ a, Const c (square c a) t := by
  obtain ⟨t, ht⟩ := mulInternal_ct c
  obtain ⟨t', ht'⟩ := montgomeryReduce_ct c
  obtain ⟨t'', ht''⟩ := squareInternal_ct c
  apply Exists.intro
  intro a
  unfold square
  exact (ht'' _).bind fun _ => (ht' _).bind fun _ => (ht _ _).bind fun _ => ht' _

theorem half_ct (c : Cfg) : ∃ t, ∀ a, Const c (half c a) t := by
  obtain ⟨t, ht⟩ := mul_ct c
  exact ⟨t, fun a => ht _ _⟩

theorem ctEq_ct (c : Cfg) (a b : L5) : Const c (ctEq a b) (.br .sliceLen true :: List.replicate 32 .stm) :=
  sliceEq_ct c _ _


theorem montgomeryMul_ct (c : Cfg) : ∃ t, ∀ a b, Const c (montgomeryMul c a b) t := by
  obtain ⟨t, ht⟩ := mulInternal_ct c
  obtain ⟨t', ht'⟩ := montgomeryReduce_ct c
  apply Exists.intro
  intro a b
  unfold montgomeryMul
  exact (ht _ _).bind fun _ => ht' _

theorem condNegate_ct (c : Cfg) : ∃ t, ∀ a b, Const c (condNegate c a b) t := by
  obtain ⟨t, ht⟩ := neg_ct c
  apply Exists.intro
  intro a b
  unfold condNegate
  exact (ht _).bind fun _ => Const.pure c _


end Field


namespace Scalar

theorem subStep_ct (c : Cfg) : ∃ t, ∀ a b s, Const c (subStep c a b s) t :=
  ⟨_, fun _ _ _ => (chk64_ct c _).bind fun _ => Const.pure c _⟩

theorem subFixStep_ct (c : Cfg) (a b s u : ℕ) : Const c (subFixStep c a b s u) (chkTr c) := chk64_ct c _

theorem sub_ct (c : Cfg) : ∃ t, ∀ a b, Const c (sub c a b) t := by
  obtain ⟨t, ht⟩ := subStep_ct c
  apply Exists.intro
  intro a b
  unfold sub
  iterate 5 (apply Const.bind (ht _ _ _); intro _)
  iterate 5 (apply Const.bind (subFixStep_ct c _ _ _ _); intro _)
  exact Const.pure c _

theorem add_ct (c : Cfg) : ∃ t, ∀ a b, Const c (add c a b) t := by
  obtain ⟨t, ht⟩ := sub_ct c
  apply Exists.intro
  intro a b
  unfold add
  iterate 5 (apply Const.bind (chk64_ct c _); intro _)
  exact ht _ _

theorem neg_ct (c : Cfg) : ∃ t, ∀ a, Const c (neg c a) t := by
  obtain ⟨t, ht⟩ := sub_ct c
  exact ⟨t, fun a => ht _ _⟩

theorem mulInternal_ct (c : Cfg) : ∃ t, ∀ a b, Const c (mulInternal c a b) t := by
  apply Exists.intro
  intro a b
  unfold mulInternal
  iterate 9 (apply Const.bind (chk128_ct c _); intro _)
  exact Const.pure c _

theorem squareInternal_ct (c : Cfg) : ∃ t, ∀ a, Const c (squareInternal c a) t := by
  apply Exists.intro
  intro a
  unfold squareInternal
  iterate 4 (apply Const.bind (chk64_ct c _); intro _)
  iterate 9 (apply Const.bind (chk128_ct c _); intro _)
  exact Const.pure c _

theorem adjustmentFact_ct (c : Cfg) : ∃ t, ∀ s, Const c (adjustmentFact c s) t := by
  apply Exists.intro
  intro s
  unfold adjustmentFact
  exact (chk128_ct c _).bind fun _ => Const.pure c _

theorem montgomeryReduce_ct (c : Cfg) : ∃ t, ∀ w, Const c (montgomeryReduce c w) t := by
  obtain ⟨t, ht⟩ := adjustmentFact_ct c
  obtain ⟨t', ht'⟩ := sub_ct c
  apply Exists.intro
  intro w
  unfold montgomeryReduce
  iterate 5
    (apply Const.bind (ht _); intro _)
    (apply Const.bind (chk128_ct c _); intro _)
  iterate 3 (apply Const.bind (chk128_ct c _); intro _)
  exact ht' _ _

theorem mul_ct (c : Cfg) : ∃ t, ∀ a b, Const c (mul c a b) t := by
  obtain ⟨t, ht⟩ := mulInternal_ct c
  obtain ⟨t', ht'⟩ := montgomeryReduce_ct c
  apply Exists.intro
  intro a b
  unfold mul
  exact (ht _ _).bind fun _ => (ht' _).bind fun _ => (ht _ _).bind fun _ => ht' _

theorem square_ct (c : Cfg) : ∃ t, ∀ a, Const c (square c a) t := by
  obtain ⟨t, ht⟩ := mulInternal_ct c
  obtain ⟨t', ht'⟩ := montgomeryReduce_ct c
  obtain ⟨t'', ht''⟩ := squareInternal_ct c
  apply Exists.intro
  intro a
  unfold square
  exact (ht'' _).bind fun _ => (ht' _).bind fun _ => (ht _ _).bind fun _ => ht' _

theorem half_ct (c : Cfg) : ∃ t, ∀ a, Const c (half c a) t := by
  obtain ⟨t, ht⟩ := mul_ct c
  exact ⟨t, fun a => ht _ _⟩

theorem ctEq_ct (c : Cfg) (a b : L5) : Const c (ctEq a b) (.br .sliceLen true :: List.replicate 32 .stm) :=
  sliceEq_ct c _ _


end Scalar

theorem Proj.neg_ct (c : Cfg) : ∃ t, ∀ p, Const c (Proj.neg c p) t := by
  obtain ⟨_, hFneg⟩ := Field.neg_ct c
  apply Exists.intro
  intro p
  unfold Proj.neg
  (apply Const.bind (hFneg _); intro _)
  exact Const.pure c _

theorem Proj.add_ct (c : Cfg) : ∃ t, ∀ p q, Const c (Proj.add c p q) t := by
  obtain ⟨_, hFadd⟩ := Field.add_ct c
  obtain ⟨_, hFmul⟩ := Field.mul_ct c
  obtain ⟨_, hFsquare⟩ := Field.square_ct c
  obtain ⟨_, hFsub⟩ := Field.sub_ct c
  apply Exists.intro
  intro p q
  unfold Proj.add
  (apply Const.bind (hFmul _ _); intro _)
  (apply Const.bind (hFsquare _); intro _)
  (apply Const.bind (hFmul _ _); intro _)
  (apply Const.bind (hFmul _ _); intro _)
  (apply Const.bind (hFmul _ _); intro _)
  (apply Const.bind (hFmul _ _); intro _)
  (apply Const.bind (hFsub _ _); intro _)
  (apply Const.bind (hFadd _ _); intro _)
  (apply Const.bind (hFadd _ _); intro _)
  (apply Const.bind (hFadd _ _); intro _)
  (apply Const.bind (hFmul _ _); intro _)
  (apply Const.bind (hFsub _ _); intro _)
  (apply Const.bind (hFsub _ _); intro _)
  (apply Const.bind (hFmul _ _); intro _)
  (apply Const.bind (hFmul _ _); intro _)
  (apply Const.bind (hFmul _ _); intro _)
  (apply Const.bind (hFadd _ _); intro _)
  (apply Const.bind (hFmul _ _); intro _)
  (apply Const.bind (hFmul _ _); intro _)
  exact Const.pure c _

theorem Proj.sub_ct (c : Cfg) : ∃ t, ∀ p q, Const c (Proj.sub c p q) t := by
  obtain ⟨_, hOadd⟩ := Proj.add_ct c
  obtain ⟨_, hOneg⟩ := Proj.neg_ct c
  apply Exists.intro
  intro p q
  unfold Proj.sub
  (apply Const.bind (hOneg _); intro _)
  exact hOadd _ _

theorem Proj.double_ct (c : Cfg) : ∃ t, ∀ p, Const c (Proj.double c p) t := by
  obtain ⟨_, hFadd⟩ := Field.add_ct c
  obtain ⟨_, hFmul⟩ := Field.mul_ct c
  obtain ⟨_, hFsquare⟩ := Field.square_ct c
  obtain ⟨_, hFsub⟩ := Field.sub_ct c
  apply Exists.intro
  intro p
  unfold Proj.double
  (apply Const.bind (hFadd _ _); intro _)
  (apply Const.bind (hFsquare _); intro _)
  (apply Const.bind (hFsquare _); intro _)
  (apply Const.bind (hFsquare _); intro _)
  (apply Const.bind (hFmul _ _); intro _)
  (apply Const.bind (hFadd _ _); intro _)
  (apply Const.bind (hFsquare _); intro _)
  (apply Const.bind (hFmul _ _); intro _)
  (apply Const.bind (hFsub _ _); intro _)
  (apply Const.bind (hFsub _ _); intro _)
  (apply Const.bind (hFsub _ _); intro _)
  (apply Const.bind (hFmul _ _); intro _)
  (apply Const.bind (hFsub _ _); intro _)
  (apply Const.bind (hFmul _ _); intro _)
  (apply Const.bind (hFmul _ _); intro _)
  exact Const.pure c _

theorem Aff.neg_ct (c : Cfg) : ∃ t, ∀ p, Const c (Aff.neg c p) t := by
  obtain ⟨_, hFneg⟩ := Field.neg_ct c
  apply Exists.intro
  intro p
  unfold Aff.neg
  (apply Const.bind (hFneg _); intro _)
  exact Const.pure c _

theorem Ed.neg_ct (c : Cfg) : ∃ t, ∀ p, Const c (Ed.neg c p) t := by
  obtain ⟨_, hFneg⟩ := Field.neg_ct c
  apply Exists.intro
  intro p
  unfold Ed.neg
  (apply Const.bind (hFneg _); intro _)
  (apply Const.bind (hFneg _); intro _)
  exact Const.pure c _

theorem Ed.add_ct (c : Cfg) : ∃ t, ∀ p q, Const c (Ed.add c p q) t := by
  obtain ⟨_, hFadd⟩ := Field.add_ct c
  obtain ⟨_, hFmul⟩ := Field.mul_ct c
  obtain ⟨_, hFsub⟩ := Field.sub_ct c
  apply Exists.intro
  intro p q
  unfold Ed.add
  (apply Const.bind (hFmul _ _); intro _)
  (apply Const.bind (hFmul _ _); intro _)
  (apply Const.bind (hFmul _ _); intro _)
  (apply Const.bind (hFmul _ _); intro _)
  (apply Const.bind (hFmul _ _); intro _)
  (apply Const.bind (hFadd _ _); intro _)
  (apply Const.bind (hFadd _ _); intro _)
  (apply Const.bind (hFmul _ _); intro _)
  (apply Const.bind (hFsub _ _); intro _)
  (apply Const.bind (hFsub _ _); intro _)
  (apply Const.bind (hFsub _ _); intro _)
  (apply Const.bind (hFadd _ _); intro _)
  (apply Const.bind (hFadd _ _); intro _)
  (apply Const.bind (hFmul _ _); intro _)
  (apply Const.bind (hFmul _ _); intro _)
  (apply Const.bind (hFmul _ _); intro _)
  (apply Const.bind (hFmul _ _); intro _)
  exact Const.pure c _

theorem Ed.sub_ct (c : Cfg) : ∃ t, ∀ p q, Const c (Ed.sub c p q) t := by
  obtain ⟨_, hFadd⟩ := Field.add_ct c
  obtain ⟨_, hFmul⟩ := Field.mul_ct c
  obtain ⟨_, hFsub⟩ := Field.sub_ct c
  obtain ⟨_, hOneg⟩ := Ed.neg_ct c
  apply Exists.intro
  intro p q
  unfold Ed.sub
  (apply Const.bind (hOneg _); intro _)
  (apply Const.bind (hFmul _ _); intro _)
  (apply Const.bind (hFmul _ _); intro _)
  (apply Const.bind (hFmul _ _); intro _)
  (apply Const.bind (hFmul _ _); intro _)
  (apply Const.bind (hFmul _ _); intro _)
  (apply Const.bind (hFadd _ _); intro _)
  (apply Const.bind (hFadd _ _); intro _)
  (apply Const.bind (hFmul _ _); intro _)
  (apply Const.bind (hFsub _ _); intro _)
  (apply Const.bind (hFsub _ _); intro _)
  (apply Const.bind (hFsub _ _); intro _)
  (apply Const.bind (hFadd _ _); intro _)
  (apply Const.bind (hFmul _ _); intro _)
  (apply Const.bind (hFsub _ _); intro _)
  (apply Const.bind (hFmul _ _); intro _)
  (apply Const.bind (hFmul _ _); intro _)
  (apply Const.bind (hFmul _ _); intro _)
  (apply Const.bind (hFmul _ _); intro _)
  exact Const.pure c _

theorem Ristretto.ctEq_ct (c : Cfg) : ∃ t, ∀ p q, Const c (Ristretto.ctEq c p q) t := by
  obtain ⟨_, hFmul⟩ := Field.mul_ct c
  apply Exists.intro
  intro p q
  unfold Ristretto.ctEq
  (apply Const.bind (hFmul _ _); intro _)
  (apply Const.bind (hFmul _ _); intro _)
  (apply Const.bind (hFmul _ _); intro _)
  (apply Const.bind (hFmul _ _); intro _)
  (apply Const.bind (Field.ctEq_ct c _ _); intro _)
  (apply Const.bind (Field.ctEq_ct c _ _); intro _)
  exact Const.pure c _

theorem Ed.double_ct (c : Cfg) : ∃ t, ∀ p, Const c (Ed.double c p) t := by
  obtain ⟨t, ht⟩ := Ed.add_ct c
  exact ⟨t, fun p => ht p p⟩

theorem Aff.ctEq_ct (c : Cfg) : ∃ t, ∀ p q, Const c (Aff.ctEq p q) t := by
  apply Exists.intro
  intro p q
  unfold Aff.ctEq
  (apply Const.bind (Field.ctEq_ct c _ _); intro _)
  (apply Const.bind (Field.ctEq_ct c _ _); intro _)
  exact Const.pure c _

end Leak
end Zerocaf
