import Verif.Model.CountRoots
import Verif.Props.Count
import Verif.Props.LeakRoots

/-!
# Property C114: what powers, roots, encodings, hashing and windowed multiplication cost in field operations

`Ops` lists multiplications, multiplications by constants, squarings, additions (with subtractions and negations) and
inversions, in this order.
-/

set_option exponentiation.threshold 600

namespace Zerocaf
namespace Props

open Zerocaf.Count

/-! ### Forgetting the counts -/

/-- Without its counts the computation `x` is `r`. -/
def Forgets {α : Type} (x : CM α) (r : Res α) : Prop := x.val = r

/-- The computation `x` performs the operations `n` and returns `a`. -/
def Runs {α : Type} (x : CM α) (n : Ops) (a : α) : Prop := x = ⟨n, .ok a⟩

theorem Costs.forgets {α : Type} {x : CM α} {n : Ops} {r : Res α} (h : Costs x n r) : Forgets x r := h.1

namespace Forgets

theorem seq {α β : Type} {x : CM α} {f : α → CM β} {r : Res α} {g : α → Res β} (h : Forgets x r)
    (hf : ∀ a, Forgets (f a) (g a)) : Forgets (x >>= f) (r >>= g) := by
  unfold Forgets at *
  show (CM.bind x f).val = _
  unfold CM.bind
  rw [h]
  cases r with
  | ok a => exact hf a
  | panic => rfl
  | diverge => rfl

theorem pure {α : Type} (a : α) : Forgets (pure a : CM α) (pure a) := rfl
theorem ok {α : Type} (a : α) : Forgets (Pure.pure a : CM α) (.ok a) := rfl
theorem free {α : Type} (r : Res α) : Forgets (Count.free r) r := rfl

theorem ite {α : Type} {P : Prop} [Decidable P] {x y : CM α} {r s : Res α} (h : P → Forgets x r)
    (h' : ¬P → Forgets y s) : Forgets (if P then x else y) (if P then r else s) := by
  split
  · exact h ‹_›
  · exact h' ‹_›

/-- From the operations of a returning computation. -/
theorem runs {α : Type} {x : CM α} {n : Ops} {a : α} (h : Forgets x (.ok a)) (h' : x.n = n) : Runs x n a := by
  unfold Forgets at h
  cases x
  subst h h'
  rfl

theorem condNegate (c : Cfg) (a : FE) (b : Bool) : Forgets (Count.Field.condNegate c a b) (Field.condNegate c a b) := by
  unfold Count.Field.condNegate Field.condNegate
  exact seq (Costs.neg c a).forgets fun _ => pure _

/-- Follows the text of a function. -/
macro "forget" : tactic => `(tactic| repeat (first
    | with_reducible exact Forgets.pure _
    | with_reducible exact Forgets.ok _
    | (with_reducible apply Forgets.seq (Costs.cmul _ _ _).forgets; intro _)
    | (with_reducible apply Forgets.seq (Costs.mul _ _ _).forgets; intro _)
    | (with_reducible apply Forgets.seq (Costs.square _ _).forgets; intro _)
    | (with_reducible apply Forgets.seq (Costs.add _ _ _).forgets; intro _)
    | (with_reducible apply Forgets.seq (Costs.sub _ _ _).forgets; intro _)
    | (with_reducible apply Forgets.seq (Costs.neg _ _).forgets; intro _)
    | (with_reducible apply Forgets.seq (Costs.inverse _ _).forgets; intro _)
    | (with_reducible apply Forgets.seq (Forgets.condNegate _ _ _); intro _)
    | (with_reducible apply Forgets.seq (Forgets.free _); intro _)))

theorem powLoop (c : Cfg) : ∀ (n : ℕ) (b r e : FE), Forgets (Count.Field.powLoop c n b r e) (Field.powLoop c n b r e) := by
  intro n
  induction n with
  | zero => intro b r e; exact free _
  | succ n ih =>
    intro b r e
    rw [Count.Field.powLoop, Field.powLoop]
    refine ite (fun _ => ite (fun _ => ?_) fun _ => ?_) fun _ => ok _
    · forget
      exact ih _ _ _
    · forget
      exact ih _ _ _

theorem pow (c : Cfg) (a e : FE) : Forgets (Count.Field.pow c a e) (Field.pow c a e) := powLoop c _ _ _ _

theorem legendre (c : Cfg) (a : FE) : Forgets (Count.Field.legendre c a) (Field.legendre c a) := by
  unfold Count.Field.legendre Field.legendre
  exact seq (pow c _ _) fun _ => pure _

theorem divRef (c : Cfg) (a b : FE) : Forgets (Count.Field.divRef c a b) (Field.divRef c a b) := by
  unfold Count.Field.divRef Field.divRef
  forget
  exact (Costs.mul _ _ _).forgets

theorem div (c : Cfg) (a b : FE) : Forgets (Count.Field.div c a b) (Field.div c a b) := by
  unfold Count.Field.div Field.div
  forget
  exact (Costs.mul _ _ _).forgets

theorem factorLoop (c : Cfg) : ∀ (n : ℕ) (s q : FE),
    Forgets (Count.Field.factorLoop c n s q) (Field.factorLoop c n s q) := by
  intro n
  induction n with
  | zero => intro s q; exact free _
  | succ n ih =>
    intro s q
    rw [Count.Field.factorLoop, Field.factorLoop]
    refine ite (fun _ => ?_) fun _ => ok _
    forget
    exact ih _ _

theorem findILoop (c : Cfg) (t m : FE) : ∀ (n : ℕ) (i e : FE),
    Forgets (Count.Field.findILoop c t m n i e) (Field.findILoop c t m n i e) := by
  intro n
  induction n with
  | zero => intro i e; exact free _
  | succ n ih =>
    intro i e
    rw [Count.Field.findILoop, Field.findILoop]
    refine ite (fun _ => ?_) fun _ => ok _
    forget
    refine seq (pow c _ _) fun _ => ite (fun _ => ok _) fun _ => ?_
    forget
    exact ih _ _

theorem tonelliLoop (c : Cfg) : ∀ (n : ℕ) (cc x t m : FE),
    Forgets (Count.Field.tonelliLoop c n cc x t m) (Field.tonelliLoop c n cc x t m) := by
  intro n
  induction n with
  | zero => intro cc x t m; exact free _
  | succ n ih =>
    intro cc x t m
    rw [Count.Field.tonelliLoop, Field.tonelliLoop]
    refine ite (fun _ => seq (findILoop c _ _ _ _ _) fun _ => ?_) fun _ => ok _
    forget
    refine seq (pow c _ _) fun _ => seq (pow c _ _) fun _ => ?_
    forget
    exact ih _ _ _ _

theorem modSqrt (c : Cfg) (a : FE) (s : Bool) : Forgets (Count.Field.modSqrt c a s) (Field.modSqrt c a s) := by
  unfold Count.Field.modSqrt Field.modSqrt
  refine ite (fun _ => pure _) fun _ => seq (legendre c a) fun _ => ite (fun _ => pure _) fun _ => ?_
  apply seq (factorLoop c _ _ _)
  rintro ⟨_, _⟩
  apply seq (pow c _ _); intro _
  forget
  apply seq (pow c _ _); intro _
  apply seq (pow c _ _); intro _
  apply seq (tonelliLoop c _ _ _ _ _); intro _
  forget

theorem sqrtRatioI (c : Cfg) (u v : FE) : Forgets (Count.Field.sqrtRatioI c u v) (Field.sqrtRatioI c u v) := by
  unfold Count.Field.sqrtRatioI Field.sqrtRatioI
  refine ite (fun _ => pure _) fun _ => ite (fun _ => pure _) fun _ => seq (divRef c u v) fun _ =>
    seq (legendre c _) fun _ => ite (fun _ => ?_) fun _ => ?_
  · apply seq (divRef c _ _); intro _
    forget
    apply seq (modSqrt c _ _); intro _
    forget
  · apply seq (divRef c _ _); intro _
    apply seq (modSqrt c _ _); intro _
    forget

theorem invSqrt (c : Cfg) (v : FE) : Forgets (Count.Field.invSqrt c v) (Field.invSqrt c v) := sqrtRatioI c _ v

theorem findXX (c : Cfg) (y : FE) : Forgets (Count.findXX c y) (Zerocaf.findXX c y) := by
  unfold Count.findXX Zerocaf.findXX
  forget
  exact div c _ _

theorem projNewFromY (c : Cfg) (y : FE) (s : Bool) : Forgets (Count.Proj.newFromY c y s) (Proj.newFromY c y s) := by
  unfold Count.Proj.newFromY Proj.newFromY
  forget
  apply seq (div c _ _); intro _
  apply seq (modSqrt c _ _); intro o
  cases o
  · exact pure _
  · exact pure _

theorem edNewFromY (c : Cfg) (y : FE) (s : Bool) : Forgets (Count.Ed.newFromY c y s) (Ed.newFromY c y s) := by
  unfold Count.Ed.newFromY Ed.newFromY
  apply seq (projNewFromY c y s); intro o
  cases o with
  | none => exact pure _
  | some p => exact seq (C106_conversions c Ed.identity p).1.forgets fun _ => pure _

theorem edDecompress (c : Cfg) (b : Bytes32) : Forgets (Count.Ed.decompress c b) (Ed.decompress c b) :=
  edNewFromY c _ _

theorem edCompress (c : Cfg) (P : EdPoint) : Forgets (Count.Ed.compress c P) (Ed.compress c P) := by
  unfold Count.Ed.compress Ed.compress
  apply seq (C106_conversions c P Proj.identity).2.1.forgets; intro _
  apply seq (findXX c _); intro _
  apply seq (modSqrt c _ _); intro _
  forget

theorem ristrettoSub (c : Cfg) (P Q : EdPoint) : Forgets (Count.Ristretto.sub c P Q) (Ristretto.sub c P Q) := by
  unfold Count.Ristretto.sub Ristretto.sub
  exact seq (ed_neg_costs c Q).forgets fun _ => (C106_extended_add c _ _).forgets

theorem ristrettoDecompress (c : Cfg) (b : Bytes32) :
    Forgets (Count.Ristretto.decompress c b) (Ristretto.decompress c b) := by
  unfold Count.Ristretto.decompress Ristretto.decompress
  refine ite (fun _ => pure _) fun _ => ?_
  forget
  apply seq (invSqrt c _)
  rintro ⟨_, _⟩
  refine ite (fun _ => pure _) fun _ => ?_
  forget
  exact ite (fun _ => pure _) fun _ => pure _

theorem ristrettoCompress (c : Cfg) (P : EdPoint) :
    Forgets (Count.Ristretto.compress c P) (Ristretto.compress c P) := by
  unfold Count.Ristretto.compress Ristretto.compress
  forget
  apply seq (invSqrt c _)
  rintro ⟨_, _⟩
  forget
  refine seq (ite (fun _ => ?_) fun _ => pure _) ?_
  · forget
  · rintro ⟨_, _, _⟩
    forget

set_option maxRecDepth 4000 in
theorem elligator (c : Cfg) (r : FE) : Forgets (Count.Ristretto.elligator c r) (Ristretto.elligator c r) := by
  unfold Count.Ristretto.elligator Ristretto.elligator
  forget
  apply seq (sqrtRatioI c _ _)
  rintro ⟨_, _⟩
  forget

theorem fromUniformBytes (c : Cfg) (b : Bytes64) :
    Forgets (Count.Ristretto.fromUniformBytes c b) (Ristretto.fromUniformBytes c b) := by
  unfold Count.Ristretto.fromUniformBytes Ristretto.fromUniformBytes
  exact seq (elligator c _) fun _ => seq (elligator c _) fun _ => (C106_extended_add c _ _).forgets

theorem wnafMulLoop (c : Cfg) (v : Vector Int 256) : ∀ (n : ℕ) (hn : n ≤ 256) (Q : EdPoint),
    Forgets (Count.Ristretto.wnafMulLoop c v n hn Q) (Ristretto.wnafMulLoop c v n hn Q) := by
  intro n
  induction n with
  | zero => intro hn Q; exact ok _
  | succ i ih =>
    intro hn Q
    rw [Count.Ristretto.wnafMulLoop, Ristretto.wnafMulLoop]
    apply seq (C106_extended_double c _).2.forgets; intro _
    dsimp only
    apply ite
    · exact fun _ => seq (ok _) fun _ => ih _ _
    · intro _
      apply ite
      · exact fun _ => seq (free _) fun _ => seq (C106_extended_add c _ _).forgets fun _ => ih _ _
      · exact fun _ => seq (free _) fun _ => seq (free _) fun _ => seq (ristrettoSub c _ _) fun _ => ih _ _

theorem windowNafMul (c : Cfg) (n : Sc) (w : ℕ) :
    Forgets (Count.Ristretto.windowNafMul c n w) (Ristretto.windowNafMul c n w) := by
  unfold Count.Ristretto.windowNafMul Ristretto.windowNafMul
  exact seq (free _) fun _ => wnafMulLoop c _ _ _ _

end Forgets

/-! ### Following a computation -/

namespace Runs

theorem seq {α β : Type} {x : CM α} {f : α → CM β} {n n' : Ops} {a : α} {b : β} (h : Runs x n a)
    (hf : Runs (f a) n' b) : Runs (x >>= f) (n + n') b := by
  unfold Runs at *
  subst h
  show CM.mk (n + (f a).n) (f a).val = _
  rw [hf]

theorem cast {α : Type} {x : CM α} {n n' : Ops} {a : α} (h : Runs x n a) (e : n = n') : Runs x n' a := e ▸ h

theorem pure {α : Type} (a : α) : Runs (pure a : CM α) ⟨0, 0, 0, 0, 0⟩ a := rfl
theorem free {α : Type} {r : Res α} {a : α} (h : r = .ok a) : Runs (Count.free r) ⟨0, 0, 0, 0, 0⟩ a := by
  subst h; rfl

theorem of {α : Type} {x : CM α} {n : Ops} {r : Res α} {a : α} (h : Costs x n r) (e : r = .ok a) : Runs x n a :=
  Forgets.runs (e ▸ h.1) (h.2 ⟨a, e⟩)

theorem val {α : Type} {x : CM α} {n : Ops} {a : α} (h : Runs x n a) : Forgets x (.ok a) := by
  unfold Runs at h; subst h; rfl

theorem costs {α : Type} {x : CM α} {n : Ops} {r : Res α} {a : α} (h : Runs x n a) (hf : Forgets x r) :
    Costs x n r ∧ r = .ok a := by
  have := h.val
  unfold Forgets at hf this
  refine ⟨⟨hf, fun _ => by unfold Runs at h; subst h; rfl⟩, by rw [← hf, this]⟩

theorem mul (c : Cfg) (x y : Fp) : Runs (Count.Field.mul c (enc x) (enc y)) ⟨1, 0, 0, 0, 0⟩ (enc (x * y)) :=
  of (Costs.mul c _ _) (Field.mul_enc c x y)
theorem cmul (c : Cfg) (x y : Fp) : Runs (Count.Field.cmul c (enc x) (enc y)) ⟨0, 1, 0, 0, 0⟩ (enc (x * y)) :=
  of (Costs.cmul c _ _) (Field.mul_enc c x y)
theorem square (c : Cfg) (x : Fp) : Runs (Count.Field.square c (enc x)) ⟨0, 0, 1, 0, 0⟩ (enc (x * x)) :=
  of (Costs.square c _) (Field.square_enc c x)
theorem add (c : Cfg) (x y : Fp) : Runs (Count.Field.add c (enc x) (enc y)) ⟨0, 0, 0, 1, 0⟩ (enc (x + y)) :=
  of (Costs.add c _ _) (Field.add_enc c x y)
theorem sub (c : Cfg) (x y : Fp) : Runs (Count.Field.sub c (enc x) (enc y)) ⟨0, 0, 0, 1, 0⟩ (enc (x - y)) :=
  of (Costs.sub c _ _) (Field.sub_enc c x y)
theorem neg (c : Cfg) (x : Fp) : Runs (Count.Field.neg c (enc x)) ⟨0, 0, 0, 1, 0⟩ (enc (-x)) :=
  of (Costs.neg c _) (Field.neg_enc c x)
theorem condNegate (c : Cfg) (x : Fp) (b : Bool) :
    Runs (Count.Field.condNegate c (enc x) b) ⟨0, 0, 0, 1, 0⟩ (enc (if b then -x else x)) := by
  unfold Count.Field.condNegate
  rw [← Field.condSelect_enc x (-x) b]
  refine (seq (neg c x) (n' := ⟨0, 0, 0, 0, 0⟩) ?_).cast rfl
  exact pure _

end Runs

/-! ### Powers -/

theorem ones_zero' : ones 0 = 0 := by rw [ones_range 0 _ (by decide)]; rfl
theorem bitLength_zero : bitLength 0 = 0 := by unfold bitLength; simp

theorem powLoop_runs (c : Cfg) : ∀ (n fuel : ℕ) (b r : Fp) (e : FE), e.WF → e.val < 2 ^ n → n < fuel →
    Runs (Count.Field.powLoop c fuel (enc b) (enc r) e) ⟨bitLength e.val + ones e.val, 0, 0, ones e.val, 0⟩
      (enc (r * b ^ e.val)) := by
  intro n
  induction n with
  | zero =>
    intro fuel b r e he hn hf
    obtain ⟨f, rfl⟩ : ∃ f, fuel = f + 1 := ⟨fuel - 1, by omega⟩
    have h0 : e.val = 0 := by simpa using hn
    have hg : Field.gt e Field.zero = false := by
      rw [Field.gt_spec e Field.zero he Field.zero_canon.1, Field.zero_val, h0]; rfl
    rw [Count.Field.powLoop, hg, h0, ones_zero', bitLength_zero, pow_zero, mul_one]
    exact Runs.pure _
  | succ n ih =>
    intro fuel b r e he hn hf
    obtain ⟨f, rfl⟩ : ∃ f, fuel = f + 1 := ⟨fuel - 1, by omega⟩
    have hn' : e.val < 2 * 2 ^ n := by rw [pow_succ] at hn; omega
    rw [Count.Field.powLoop, Field.gt_spec e Field.zero he Field.zero_canon.1, Field.zero_val, Field.isEven_spec]
    by_cases h0 : e.val = 0
    · rw [h0, ones_zero', bitLength_zero, pow_zero, mul_one]
      exact Runs.pure _
    · rw [decide_eq_true (show 0 < e.val by omega), bitLength_step h0, ones_step h0]
      obtain ⟨wh, vh⟩ := halfWithoutMod_spec e he
      by_cases h2 : e.val % 2 = 0
      · simp only [h2, decide_true, if_true]
        have hv : r * (b * b) ^ (e.val / 2) = r * b ^ e.val := by
          rw [← pow_two, ← pow_mul, show 2 * (e.val / 2) = e.val by omega]
        have h := ih f (b * b) r _ wh (by rw [vh]; omega) (by omega)
        rw [vh, hv] at h
        refine ((Runs.mul c b b).seq h).cast ?_
        rw [ops_add]
        congr 1; omega
      · have h2' : e.val % 2 = 1 := by omega
        simp only [h2', if_true, Bool.false_eq_true, if_false, one_ne_zero, decide_false]
        obtain ⟨e1, ee, we, ve⟩ := Field.sub_exact c e Field.one he Field.one_canon.1 (by rw [Field.one_val]; omega)
        rw [Field.one_val] at ve
        obtain ⟨wh, vh⟩ := halfWithoutMod_spec e1 we
        have hv : e1.val / 2 = e.val / 2 := by omega
        have hr : r * b * (b * b) ^ (e.val / 2) = r * b ^ e.val := by
          rw [← pow_two, ← pow_mul, mul_assoc, ← pow_succ', show 2 * (e.val / 2) + 1 = e.val by omega]
        have h := ih f (b * b) (r * b) _ wh (by rw [vh]; omega) (by omega)
        rw [vh, hv, hr] at h
        refine ((Runs.of (Costs.sub c e Field.one) ee).seq ((Runs.mul c r b).seq ((Runs.mul c b b).seq h))).cast ?_
        simp only [ops_add]
        congr 1 <;> omega

theorem pow_runs (c : Cfg) (hc : c.Enough) (x : Fp) (e : FE) (he : e.WF) :
    Runs (Count.Field.pow c (enc x) e) ⟨bitLength e.val + ones e.val, 0, 0, ones e.val, 0⟩ (enc (x ^ e.val)) := by
  unfold Count.Field.pow
  unfold Cfg.Enough at hc
  have h := powLoop_runs c 260 c.fuel x 1 e he he.val_lt (by omega)
  rwa [one_mul, ← Field.one_enc] at h

theorem bitLength_eq {n k : ℕ} (h1 : 2 ^ k ≤ n) (h2 : n < 2 ^ (k + 1)) : bitLength n = k + 1 := by
  induction k generalizing n with
  | zero =>
    have : n = 1 := by omega
    subst this
    unfold bitLength
    simp
  | succ k ih =>
    rw [bitLength_step (by have := Nat.two_pow_pos (k + 1); omega)]
    rw [pow_succ] at h1 h2
    rw [ih (by omega) (by omega)]

theorem ones_half : ones (p / 2) = 72 := by
  rw [ones_range 252 _ (by decide)]; decide +kernel
theorem ones_Q : ones Field.Q = 72 := by
  rw [ones_range 252 _ (by decide)]; decide +kernel
theorem ones_Q1 : ones ((Field.Q + 1) / 2) = 71 := by
  rw [ones_range 252 _ (by decide)]; decide +kernel
theorem ones_one : ones 1 = 1 := by
  rw [ones_range 1 _ (by decide)]; decide
theorem ones_two : ones 2 = 1 := by
  rw [ones_range 2 _ (by decide)]; decide
theorem len_half : bitLength (p / 2) = 252 := bitLength_eq (k := 251) (by decide) (by decide)
theorem len_Q : bitLength Field.Q = 251 := bitLength_eq (k := 250) (by decide) (by decide)
theorem len_Q1 : bitLength ((Field.Q + 1) / 2) = 250 := bitLength_eq (k := 249) (by decide) (by decide)
theorem len_one : bitLength 1 = 1 := bitLength_eq (k := 0) (by decide) (by decide)
theorem len_two : bitLength 2 = 2 := bitLength_eq (k := 1) (by decide) (by decide)

theorem legendre_runs (c : Cfg) (hc : c.Enough) (x : Fp) :
    Runs (Count.Field.legendre c (enc x)) ⟨324, 0, 0, 72, 0⟩ (decide (IsSquare x)) := by
  have h := pow_runs c hc x _ Field.MINUS_ONE_HALF_spec.1
  rw [Field.MINUS_ONE_HALF_spec.2, ones_half, len_half] at h
  have hr : Runs (Count.Field.legendre c (enc x)) ⟨324, 0, 0, 72, 0⟩
      ((Field.ctEq (enc (x ^ (p / 2))) Field.minusOne) ^^ true) := by
    unfold Count.Field.legendre
    refine (h.seq (n' := ⟨0, 0, 0, 0, 0⟩) ?_).cast rfl
    exact Runs.pure _
  have e := (hr.costs (Forgets.legendre c (enc x))).2
  rw [Field.legendre_enc c hc] at e
  rwa [← (Res.ok_inj _ _).mp e] at hr

/-! ### Square roots -/

theorem factorLoop_runs (c : Cfg) (hc : c.Enough) :
    ∃ q : FE, q.WF ∧ q.val = Field.Q ∧
      Runs (Count.Field.factorLoop c c.fuel Field.zero Field.minusOne) ⟨0, 0, 0, 2, 0⟩ (enc 2, q) := by
  unfold Cfg.Enough at hc
  obtain ⟨f, hf⟩ : ∃ f, c.fuel = f + 3 := ⟨c.fuel - 3, by omega⟩
  obtain ⟨w1, v1⟩ := halfWithoutMod_spec Field.minusOne Field.minusOne_canon.1
  obtain ⟨w2, v2⟩ := halfWithoutMod_spec _ w1
  rw [v1, Field.minusOne_val] at v2
  rw [Field.minusOne_val] at v1
  refine ⟨_, w2, by rw [v2]; decide, ?_⟩
  have d0 : decide (Field.minusOne.val % 2 = 0) = true := by decide
  have d1 : decide ((Field.halfWithoutMod Field.minusOne).val % 2 = 0) = true := by
    rw [v1]; decide
  have d2 : decide ((Field.halfWithoutMod (Field.halfWithoutMod Field.minusOne)).val % 2 = 0) = false := by
    rw [v2]; decide
  rw [hf, Count.Field.factorLoop, Field.isEven_spec, d0, if_pos rfl, Field.zero_enc, Field.one_enc]
  have h2 : Runs (Count.Field.factorLoop c (f + 1) (enc (0 + 1 + 1))
      (Field.halfWithoutMod (Field.halfWithoutMod Field.minusOne))) ⟨0, 0, 0, 0, 0⟩
      (enc 2, Field.halfWithoutMod (Field.halfWithoutMod Field.minusOne)) := by
    rw [Count.Field.factorLoop, Field.isEven_spec, d2, show (0 + 1 + 1 : Fp) = 2 by norm_num]
    exact Runs.pure _
  have h1 : Runs (Count.Field.factorLoop c (f + 2) (enc (0 + 1)) (Field.halfWithoutMod Field.minusOne))
      ⟨0, 0, 0, 1, 0⟩ (enc 2, Field.halfWithoutMod (Field.halfWithoutMod Field.minusOne)) := by
    rw [Count.Field.factorLoop, Field.isEven_spec, d1, if_pos rfl, Field.one_enc]
    exact ((Runs.add c _ _).seq h2).cast rfl
  exact ((Runs.add c _ _).seq h1).cast rfl

theorem findI_runs (c : Cfg) (hc : c.Enough) :
    Runs (Count.Field.findILoop c (enc (-1)) (enc 2) c.fuel Field.zero (Field.fromU32 2)) ⟨3, 0, 0, 2, 0⟩ (enc 1) := by
  have hc' := hc
  unfold Cfg.Enough at hc
  obtain ⟨f, hf⟩ : ∃ f, c.fuel = f + 1 := ⟨c.fuel - 1, by omega⟩
  rw [hf, Count.Field.findILoop, Field.zero_enc, Field.lt_enc_zero_two, if_pos rfl, Field.one_enc]
  have h := pow_runs c hc' (-1) _ (Field.fromU32_spec 2 (by decide)).1.1
  rw [(Field.fromU32_spec 2 (by decide)).2, len_two, ones_two, show ((-1 : Fp) ^ 2) = 1 by norm_num] at h
  have h' := Runs.add c 0 1
  rw [zero_add] at h'
  refine (h'.seq (h.seq (n' := ⟨0, 0, 0, 0, 0⟩) ?_)).cast rfl
  rw [Field.ctEq_enc, decide_eq_true rfl, if_pos rfl]
  exact Runs.pure _

theorem tonelli_one_runs (c : Cfg) (hc : c.Enough) (cc x mm : FE) :
    Runs (Count.Field.tonelliLoop c c.fuel cc x (enc 1) mm) ⟨0, 0, 0, 0, 0⟩ x := by
  unfold Cfg.Enough at hc
  obtain ⟨f, hf⟩ : ∃ f, c.fuel = f + 1 := ⟨c.fuel - 1, by omega⟩
  rw [hf, Count.Field.tonelliLoop, Field.one_enc, Field.ctEq_enc, decide_eq_true rfl]
  exact Runs.pure _

theorem tonelli_neg_one_runs (c : Cfg) (hc : c.Enough) (cc x : Fp) (hcc : cc * cc = -1) :
    Runs (Count.Field.tonelliLoop c c.fuel (enc cc) (enc x) (enc (-1)) (enc 2)) ⟨7, 0, 2, 5, 0⟩ (enc (x * cc)) := by
  have hc' := hc
  unfold Cfg.Enough at hc
  obtain ⟨f, hf⟩ : ∃ f, c.fuel = f + 2 := ⟨c.fuel - 2, by omega⟩
  have h1 : (-1 : Fp) ≠ 1 := fun h => Field.one_ne_neg_one h.symm
  rw [hf, Count.Field.tonelliLoop, Field.one_enc, Field.ctEq_enc, decide_eq_false h1, Bool.not_false, if_pos rfl]
  have p0 := pow_runs c hc' 2 _ (enc_WF 0)
  rw [Field.zero_val', pow_zero, ones_zero', bitLength_zero] at p0
  have p1 := pow_runs c hc' cc _ (enc_WF 1)
  rw [Field.one_val', pow_one, ones_one, len_one] at p1
  have s0 := Runs.sub c (2 - 1) 1
  rw [show (2 : Fp) - 1 - 1 = 0 by ring] at s0
  have m0 := Runs.mul c (-1) (cc * cc)
  rw [hcc, show (-1 : Fp) * -1 = 1 by ring] at m0
  have q0 := Runs.square c cc
  rw [hcc] at q0
  rw [Field.two_enc]
  refine ((findI_runs c hc').seq ((Runs.sub c 2 1).seq (s0.seq (p0.seq (p1.seq ((Runs.mul c x cc).seq (q0.seq
    (m0.seq (q0.seq (n' := ⟨0, 0, 0, 0, 0⟩) ?_))))))))).cast rfl
  rw [Count.Field.tonelliLoop, Field.one_enc, Field.ctEq_enc, decide_eq_true rfl]
  exact Runs.pure _

open Classical in
/-- What `mod_sqrt` performs on the residue `a`. -/
noncomputable def rootOps (a : Fp) : Ops :=
  if a = 0 then ⟨0, 0, 0, 0, 0⟩
  else if ¬IsSquare a then ⟨324, 0, 0, 72, 0⟩
  else if ∃ r : Fp, r ^ 4 = a then ⟨1291, 0, 0, 291, 0⟩
  else ⟨1298, 0, 2, 296, 0⟩

/-- The computation `x` performs the operations `n` and returns. -/
def Takes {α : Type} (x : CM α) (n : Ops) : Prop := ∃ a, Runs x n a

namespace Takes

theorem seq {α β : Type} {x : CM α} {f : α → CM β} {n n' : Ops} {a : α} (h : Runs x n a) (hf : Takes (f a) n') :
    Takes (x >>= f) (n + n') := by
  obtain ⟨b, hb⟩ := hf
  exact ⟨b, h.seq hb⟩

theorem cast {α : Type} {x : CM α} {n n' : Ops} (h : Takes x n) (e : n = n') : Takes x n' := e ▸ h

theorem ite {α : Type} {P : Prop} [Decidable P] {x y : CM α} {n : Ops} (h : Takes x n) (h' : Takes y n) :
    Takes (if P then x else y) n := by
  split
  · exact h
  · exact h'

theorem pure {α : Type} (a : α) : Takes (pure a : CM α) ⟨0, 0, 0, 0, 0⟩ := ⟨a, Runs.pure a⟩

theorem runs {α : Type} {x : CM α} {n : Ops} {r : Res α} {a : α} (h : Takes x n) (hf : Forgets x r) (e : r = .ok a) :
    Runs x n a := by
  obtain ⟨b, hb⟩ := h
  have := (hb.costs hf).2
  rw [e] at this
  rwa [(Res.ok_inj _ _).mp this]

theorem costs {α : Type} {x : CM α} {n : Ops} {r : Res α} (h : Takes x n) (hf : Forgets x r) : Costs x n r := by
  obtain ⟨b, hb⟩ := h
  exact (hb.costs hf).1

/-- Follows the text of a function on residues. -/
macro "run" : tactic => `(tactic| repeat (first
    | with_reducible exact Takes.pure _
    | with_reducible apply Takes.seq (Runs.cmul _ _ _)
    | with_reducible apply Takes.seq (Runs.mul _ _ _)
    | with_reducible apply Takes.seq (Runs.square _ _)
    | with_reducible apply Takes.seq (Runs.add _ _ _)
    | with_reducible apply Takes.seq (Runs.sub _ _ _)
    | with_reducible apply Takes.seq (Runs.neg _ _)
    | with_reducible apply Takes.seq (Runs.condNegate _ _ _)))

end Takes

theorem modSqrt_runs (c : Cfg) (hc : c.Enough) (a : Fp) (sign : Bool) :
    Takes (Count.Field.modSqrt c (enc a) sign) (rootOps a) := by
  unfold rootOps Count.Field.modSqrt
  rw [Field.zero_enc, Field.ctEq_enc]
  by_cases h0 : a = 0
  · rw [if_pos h0, decide_eq_true h0, if_pos rfl]
    exact Takes.pure _
  rw [if_neg h0, decide_eq_false h0]
  simp only [Bool.false_eq_true, if_false]
  by_cases hs : IsSquare a
  swap
  · rw [if_pos hs]
    refine (Takes.seq (legendre_runs c hc a) (n' := ⟨0, 0, 0, 0, 0⟩) ?_).cast rfl
    rw [decide_eq_false hs]
    exact Takes.pure _
  · rw [if_neg (not_not.2 hs)]
    obtain ⟨q, wq, vq, hq⟩ := factorLoop_runs c hc
    obtain ⟨q1, e1, w1, v1⟩ : ∃ q1, Field.add c q Field.one = .ok q1 ∧ q1.Canon ∧ q1.val = Field.Q + 1 := by
      obtain ⟨q1, e, w, v⟩ := Field.add_spec c q Field.one ⟨wq, by rw [vq]; decide⟩ Field.one_canon
      exact ⟨q1, e, w, by rw [v, vq, Field.one_val]; decide⟩
    obtain ⟨wh, vh⟩ := halfWithoutMod_spec q1 w1.1
    have six : (⟨6, 0, 0, 0, 0⟩ : FE) = enc 6 := by
      have h : (⟨6, 0, 0, 0, 0⟩ : FE).Canon := by decide
      exact h.eq_enc (by unfold L5.toZ; rfl)
    obtain ⟨hr, hm⟩ := Field.tsRoot_spec a h0 hs
    have hr0 : Field.tsRoot a ≠ 0 := fun h => h0 (by rw [← hr, h, mul_zero])
    have p1 := pow_runs c hc 6 q wq
    rw [vq, len_Q, ones_Q] at p1
    have p2 := pow_runs c hc a _ wh
    rw [vh, v1, len_Q1, ones_Q1] at p2
    have p3 := pow_runs c hc a q wq
    rw [vq, len_Q, ones_Q] at p3
    have key : ∀ k : Ops, Takes (Count.Field.tonelliLoop c c.fuel (enc (6 ^ Field.Q)) (enc (a ^ ((Field.Q + 1) / 2)))
        (enc (a ^ Field.Q)) (enc 2)) k → ∀ k' : Ops,
        ⟨324, 0, 0, 72, 0⟩ + (⟨0, 0, 0, 2, 0⟩ + (⟨251 + 72, 0, 0, 72, 0⟩ + (⟨0, 0, 0, 1, 0⟩ + (⟨250 + 71, 0, 0, 71, 0⟩ +
          (⟨251 + 72, 0, 0, 72, 0⟩ + (k + (⟨0, 0, 0, 1, 0⟩ + ⟨0, 0, 0, 0, 0⟩))))))) = k' →
        Takes (do
          let ls ← Count.Field.legendre c (enc a)
          if ls == false then return none else
          let sq ← Count.Field.factorLoop c c.fuel (enc 0) Field.minusOne
          let cc ← Count.Field.pow c ⟨6, 0, 0, 0, 0⟩ sq.2
          let q1 ← Count.Field.add c sq.2 Field.one
          let x ← Count.Field.pow c (enc a) (Field.halfWithoutMod q1)
          let t ← Count.Field.pow c (enc a) sq.2
          let x ← Count.Field.tonelliLoop c c.fuel cc x t sq.1
          let nx ← Count.Field.sub c Field.FIELD_L x
          return some (Field.condSelect x nx sign) : CM (Option FE)) k' := by
      intro k hk k' hkk
      refine Takes.cast ?_ hkk
      have ht := hk.runs (Forgets.tonelliLoop c _ _ _ _ _) (hm c hc)
      apply Takes.seq (legendre_runs c hc a)
      rw [decide_eq_true hs]
      simp only [Bool.true_eq_false, beq_iff_eq, if_false]
      rw [← Field.zero_enc, six]
      apply Takes.seq hq
      apply Takes.seq p1
      apply Takes.seq (Runs.of (Costs.add c q Field.one) e1)
      apply Takes.seq p2
      apply Takes.seq p3
      apply Takes.seq ht
      apply Takes.seq (Runs.of (Costs.sub c Field.FIELD_L _) (Field.sub_p_enc c hr0))
      exact Takes.pure _
    by_cases h4 : ∃ r : Fp, r ^ 4 = a
    · rw [if_pos h4]
      refine key ⟨0, 0, 0, 0, 0⟩ ?_ _ rfl
      rw [(fourth_iff h0).2 h4]
      exact ⟨_, tonelli_one_runs c hc _ _ _⟩
    · rw [if_neg h4]
      refine key ⟨7, 0, 2, 5, 0⟩ ?_ _ rfl
      have hQ : a ^ Field.Q = -1 := (square_Q h0 hs).resolve_left fun h => h4 ((fourth_iff h0).1 h)
      rw [hQ]
      exact ⟨_, tonelli_neg_one_runs c hc _ _ (by
        rw [← pow_add, ← two_mul]; exact Field.six_pow)⟩

theorem divRef_runs (c : Cfg) (hc : c.Enough) (x : Fp) {y : Fp} (h0 : y ≠ 0) :
    Runs (Count.Field.divRef c (enc x) (enc y)) ⟨1, 0, 0, 0, 1⟩ (enc (x / y)) := by
  unfold Count.Field.divRef
  rw [div_eq_mul_inv]
  refine (Runs.seq (Runs.free (a := ()) ?_) ((Runs.of (Costs.inverse c _) (Field.inverse_enc c hc y h0)).seq
    (Runs.mul c x y⁻¹))).cast rfl
  rw [Field.zero_enc, Field.ctEq_enc, decide_eq_false h0]
  rfl

theorem div_runs (c : Cfg) (hc : c.Enough) (x : Fp) {y : Fp} (h0 : y ≠ 0) :
    Runs (Count.Field.div c (enc x) (enc y)) ⟨1, 0, 0, 0, 1⟩ (enc (x / y)) := by
  unfold Count.Field.div
  rw [div_eq_mul_inv]
  exact ((Runs.of (Costs.inverse c _) (Field.inverse_enc c hc y h0)).seq (Runs.mul c x y⁻¹)).cast rfl

open Classical in
/-- What `sqrt_ratio_i` performs. -/
noncomputable def ratioOps (u v : Fp) : Ops :=
  if u = 0 ∨ v = 0 then ⟨0, 0, 0, 0, 0⟩
  else if IsSquare (u / v) then
    if ∃ r : Fp, r ^ 4 = u / v then ⟨1617, 0, 0, 364, 2⟩ else ⟨1624, 0, 2, 369, 2⟩
  else if ∃ r : Fp, r ^ 4 = Field.iZ * (u / v) then ⟨1617, 1, 0, 364, 2⟩ else ⟨1624, 1, 2, 369, 2⟩

theorem sqrtRatioI_takes (c : Cfg) (hc : c.Enough) (u v : Fp) :
    Takes (Count.Field.sqrtRatioI c (enc u) (enc v)) (ratioOps u v) := by
  unfold Count.Field.sqrtRatioI ratioOps
  rw [Field.zero_enc, Field.ctEq_enc, Field.ctEq_enc]
  by_cases hu : u = 0
  · rw [if_pos (Or.inl hu), decide_eq_true hu, if_pos rfl]
    exact Takes.pure _
  by_cases hv : v = 0
  · rw [if_pos (Or.inr hv), decide_eq_false hu, decide_eq_true hv]
    simp only [Bool.false_eq_true, if_false, if_true]
    exact Takes.pure _
  rw [decide_eq_false hu, decide_eq_false hv, if_neg (show ¬(u = 0 ∨ v = 0) by tauto)]
  simp only [Bool.false_eq_true, if_false]
  have h0 : u / v ≠ 0 := div_ne_zero hu hv
  by_cases hs : IsSquare (u / v)
  · rw [if_pos hs]
    obtain ⟨r, hr, hm⟩ := Field.modSqrt_square (u / v) h0 hs
    have key : Takes (Count.Field.modSqrt c (enc (u / v)) true) (rootOps (u / v)) := modSqrt_runs c hc _ _
    have hroot := key.runs (Forgets.modSqrt c _ _) (hm c true hc)
    refine Takes.cast (n := ⟨1, 0, 0, 0, 1⟩ + (⟨324, 0, 0, 72, 0⟩ + (⟨1, 0, 0, 0, 1⟩ + (rootOps (u / v) +
      (⟨0, 0, 0, 0, 0⟩ + (⟨0, 0, 0, 1, 0⟩ + ⟨0, 0, 0, 0, 0⟩)))))) ?_ ?_
    · apply Takes.seq (divRef_runs c hc u hv)
      apply Takes.seq (legendre_runs c hc _)
      rw [decide_eq_true hs]
      simp only [Bool.true_eq_false, beq_iff_eq, if_false]
      apply Takes.seq (divRef_runs c hc u hv)
      apply Takes.seq hroot
      rw [if_pos rfl]
      apply Takes.seq (Runs.free (a := enc (-r)) rfl)
      apply Takes.seq (Runs.condNegate c _ _)
      exact Takes.pure _
    · unfold rootOps
      rw [if_neg h0, if_neg (not_not.2 hs)]
      split <;> rfl
  · rw [if_neg hs]
    have hi0 := mul_ne_zero Field.iZ_ne h0
    obtain ⟨r, hr, hm⟩ := Field.modSqrt_square (Field.iZ * (u / v)) hi0 (Field.iZ_mul_square hs)
    have key : Takes (Count.Field.modSqrt c (enc (Field.iZ * (u / v))) true) (rootOps (Field.iZ * (u / v))) :=
      modSqrt_runs c hc _ _
    have hroot := key.runs (Forgets.modSqrt c _ _) (hm c true hc)
    refine Takes.cast (n := ⟨1, 0, 0, 0, 1⟩ + (⟨324, 0, 0, 72, 0⟩ + (⟨1, 0, 0, 0, 1⟩ + (⟨0, 1, 0, 0, 0⟩ +
      (rootOps (Field.iZ * (u / v)) + (⟨0, 0, 0, 0, 0⟩ + (⟨0, 0, 0, 1, 0⟩ + ⟨0, 0, 0, 0, 0⟩))))))) ?_ ?_
    · apply Takes.seq (divRef_runs c hc u hv)
      apply Takes.seq (legendre_runs c hc _)
      rw [decide_eq_false hs]
      simp only [beq_self_eq_true, if_true]
      apply Takes.seq (divRef_runs c hc u hv)
      rw [Field.SQRT_MINUS_ONE_enc]
      apply Takes.seq (Runs.cmul c _ _)
      apply Takes.seq hroot
      rw [if_pos rfl]
      apply Takes.seq (Runs.free (a := enc (-r)) rfl)
      apply Takes.seq (Runs.condNegate c _ _)
      exact Takes.pure _
    · unfold rootOps
      rw [if_neg hi0, if_neg (not_not.2 (Field.iZ_mul_square hs))]
      split <;> rfl

theorem sqrtRatioI_runs (c : Cfg) (hc : c.Enough) (u v : Fp) :
    Runs (Count.Field.sqrtRatioI c (enc u) (enc v)) (ratioOps u v)
      ((Field.sqrtRatioZ u v).1, enc (Field.sqrtRatioZ u v).2) :=
  (sqrtRatioI_takes c hc u v).runs (Forgets.sqrtRatioI c _ _) (Field.sqrtRatioI_enc c hc u v)

theorem invSqrt_runs (c : Cfg) (hc : c.Enough) (v : Fp) :
    Runs (Count.Field.invSqrt c (enc v)) (ratioOps 1 v)
      ((Field.sqrtRatioZ 1 v).1, enc (Field.sqrtRatioZ 1 v).2) := by
  unfold Count.Field.invSqrt
  rw [Field.one_enc]
  exact sqrtRatioI_runs c hc 1 v

/-! ### Encodings of curve points -/

theorem findXX_runs (c : Cfg) (hc : c.Enough) (y : Fp) :
    Runs (Count.findXX c (enc y)) ⟨1, 1, 2, 2, 1⟩ (enc (xxOf y)) := by
  have h : dZ * (y * y) - -1 ≠ 0 := by
    rw [sub_neg_eq_add, add_comm]; exact dy_ne y
  refine Takes.runs ?_ (Forgets.findXX c _) (findXX_enc c hc y)
  unfold Count.findXX
  rw [Field.one_enc, EDWARDS_D_enc, EDWARDS_A_enc]
  apply Takes.cast
  · run
    exact ⟨_, div_runs c hc _ h⟩
  · rfl

/-- A square is a fourth power if its roots are squares. -/
theorem fourth_of_square (x : Fp) : (∃ r : Fp, r ^ 4 = x * x) ↔ IsSquare x := by
  constructor
  · rintro ⟨r, hr⟩
    have h : (r * r - x) * (r * r + x) = 0 := by linear_combination hr
    rcases mul_eq_zero.1 h with h | h
    · exact ⟨r, by linear_combination -h⟩
    · exact ⟨Field.iZ * r, by linear_combination h - r * r * Field.iZ_sq⟩
  · rintro ⟨r, rfl⟩
    exact ⟨r, by ring⟩

theorem rootOps_sq (x : Fp) : rootOps (x * x) =
    if x = 0 then ⟨0, 0, 0, 0, 0⟩ else if IsSquare x then ⟨1291, 0, 0, 291, 0⟩ else ⟨1298, 0, 2, 296, 0⟩ := by
  unfold rootOps
  by_cases h0 : x = 0
  · rw [if_pos h0, if_pos (by rw [h0, mul_zero])]
  · rw [if_neg h0, if_neg (mul_ne_zero h0 h0), if_neg (not_not.2 ⟨x, rfl⟩)]
    by_cases hx : IsSquare x
    · rw [if_pos hx, if_pos ((fourth_of_square x).2 hx)]
    · rw [if_neg hx, if_neg (fun h => hx ((fourth_of_square x).1 h))]

/-- The computation `x` is `r`, which returns, with the operations `n` counted. -/
def Performs {α : Type} (x : CM α) (n : Ops) (r : Res α) : Prop := Costs x n r ∧ ∃ a, r = .ok a

theorem Takes.performs {α : Type} {x : CM α} {n : Ops} {r : Res α} (h : Takes x n) (hf : Forgets x r) :
    Performs x n r := by
  obtain ⟨b, hb⟩ := h
  obtain ⟨h1, h2⟩ := hb.costs hf
  exact ⟨h1, b, h2⟩

theorem compress_takes (c : Cfg) (hc : c.Enough) {P : EdPoint} {A : E} (h : P.Rep A) :
    Takes (Count.Ed.compress c P) (⟨3, 1, 2, 2, 2⟩ + rootOps (A.x * A.x)) := by
  have hs : IsSquare (xxOf A.y) := ⟨A.x, (xxOf_pt A).symm⟩
  have hroot := (modSqrt_runs c hc (xxOf A.y) false).runs (Forgets.modSqrt c _ _) (modSqrt_of_square c hc false hs)
  rw [xxOf_pt]
  unfold Count.Ed.compress
  apply Takes.cast
  · apply Takes.seq (Runs.of (C106_conversions c P Proj.identity).2.1 (Aff.ofEd_rep c hc h))
    apply Takes.seq (findXX_runs c hc _)
    apply Takes.seq hroot
    apply Takes.seq (Runs.free (a := enc _) rfl)
    exact Takes.pure _
  · generalize rootOps (xxOf A.y) = k
    cases k
    simp only [ops_add]
    congr 1 <;> omega

theorem newFromY_none_takes (c : Cfg) (hc : c.Enough) (y : Fp) (s : Bool) (hs : ¬IsSquare (xxOf y)) :
    Takes (Count.Ed.newFromY c (enc y) s) ⟨325, 1, 2, 74, 1⟩ := by
  have h : dZ * (y * y) - -1 ≠ 0 := by
    rw [sub_neg_eq_add, add_comm]; exact dy_ne y
  have hroot := (modSqrt_runs c hc (xxOf y) s).runs (Forgets.modSqrt c _ _) (Field.modSqrt_nonsquare c hc _ s hs)
  have hx : (y * y - 1) / (dZ * (y * y) - -1) = xxOf y := by
    unfold xxOf; rw [sub_neg_eq_add, add_comm 1]
  have hk : rootOps (xxOf y) = ⟨324, 0, 0, 72, 0⟩ := by
    unfold rootOps
    rw [if_neg (fun h0 => hs (by rw [h0]; exact ⟨0, by rw [mul_zero]⟩)), if_pos hs]
  rw [← hx, hx] at hroot
  unfold Count.Ed.newFromY
  have hp : Takes (Count.Proj.newFromY c (enc y) s) ⟨325, 1, 2, 74, 1⟩ := by
    unfold Count.Proj.newFromY
    rw [Field.one_enc, EDWARDS_D_enc, EDWARDS_A_enc]
    have hd := div_runs c hc (y * y - 1) h
    rw [hx] at hd
    rw [hk] at hroot
    apply Takes.cast
    · run
      apply Takes.seq hd
      apply Takes.seq hroot
      exact Takes.pure _
    · rfl
  have hp' := hp.runs (Forgets.projNewFromY c _ _) (Proj.newFromY_none c hc y s hs)
  apply Takes.cast
  · apply Takes.seq hp'
    exact Takes.pure _
  · rfl

theorem newFromY_some_takes (c : Cfg) (hc : c.Enough) (y : Fp) (s : Bool) (hs : IsSquare (xxOf y)) :
    Takes (Count.Ed.newFromY c (enc y) s) (⟨4, 1, 3, 2, 1⟩ + rootOps (xxOf y)) := by
  have h : dZ * (y * y) - -1 ≠ 0 := by
    rw [sub_neg_eq_add, add_comm]; exact dy_ne y
  have hroot := (modSqrt_runs c hc (xxOf y) s).runs (Forgets.modSqrt c _ _) (modSqrt_of_square c hc s hs)
  have hx : (y * y - 1) / (dZ * (y * y) - -1) = xxOf y := by
    unfold xxOf; rw [sub_neg_eq_add, add_comm 1]
  unfold Count.Ed.newFromY
  have hp : Takes (Count.Proj.newFromY c (enc y) s) (⟨1, 1, 2, 2, 1⟩ + rootOps (xxOf y)) := by
    unfold Count.Proj.newFromY
    rw [Field.one_enc, EDWARDS_D_enc, EDWARDS_A_enc]
    have hd := div_runs c hc (y * y - 1) h
    rw [hx] at hd
    apply Takes.cast
    · run
      apply Takes.seq hd
      apply Takes.seq hroot
      exact Takes.pure _
    · generalize rootOps (xxOf y) = k
      cases k
      simp only [ops_add]
      congr 1 <;> omega
  obtain ⟨P, eP, hP, _⟩ := Proj.newFromY_some c hc y s hs
  obtain ⟨Q, eQ, hQ⟩ := Ed.ofProj_rep c hP
  have hp' := hp.runs (Forgets.projNewFromY c _ _) eP
  apply Takes.cast
  · apply Takes.seq hp'
    apply Takes.seq (Runs.of (C106_conversions c Ed.identity P).1 eQ)
    exact Takes.pure _
  · generalize rootOps (xxOf y) = k
    cases k
    simp only [ops_add]
    congr 1 <;> omega

/-! ### Ristretto -/

/-- The costs of the square root of a ratio that is a nonzero square. -/
def squareCosts : List Ops := [⟨1617, 0, 0, 364, 2⟩, ⟨1624, 0, 2, 369, 2⟩]

/-- The costs of the square root of a ratio that is not a square. -/
def nonsquareCosts : List Ops := [⟨1617, 1, 0, 364, 2⟩, ⟨1624, 1, 2, 369, 2⟩]

theorem ratio_cases (u v : Fp) : (ratioOps u v = ⟨0, 0, 0, 0, 0⟩ ∧ (u = 0 ∨ v = 0)) ∨
    (ratioOps u v ∈ squareCosts ∧ (Field.sqrtRatioZ u v).1 = true) ∨
    (ratioOps u v ∈ nonsquareCosts ∧ (Field.sqrtRatioZ u v).1 = false) := by
  unfold ratioOps
  by_cases h0 : u = 0 ∨ v = 0
  · exact Or.inl ⟨if_pos h0, h0⟩
  · right
    have h1 : u ≠ 0 := fun h => h0 (Or.inl h)
    have h2 : v ≠ 0 := fun h => h0 (Or.inr h)
    unfold Field.sqrtRatioZ
    rw [if_neg h0, if_neg h1, if_neg h2]
    by_cases hs : IsSquare (u / v)
    · left
      rw [if_pos hs, if_pos hs]
      refine ⟨?_, rfl⟩
      split
      · exact List.mem_cons_self
      · exact List.mem_cons_of_mem _ List.mem_cons_self
    · right
      rw [if_neg hs, if_neg hs]
      refine ⟨?_, rfl⟩
      split
      · exact List.mem_cons_self
      · exact List.mem_cons_of_mem _ List.mem_cons_self

theorem decompress_takes (c : Cfg) (hc : c.Enough) (b : Bytes32) (s : Fp) (hs : Pos s)
    (hb : b = Field.toBytes (enc s)) :
    Takes (Count.Ristretto.decompress c b) ((if (Field.sqrtRatioZ 1 ((-(dZ * ((1 - s * s) * (1 - s * s))) -
      (1 + s * s) * (1 + s * s)) * ((1 + s * s) * (1 + s * s)))).1 then ⟨7, 1, 4, 6, 0⟩ else ⟨1, 1, 4, 4, 0⟩) +
      ratioOps 1 ((-(dZ * ((1 - s * s) * (1 - s * s))) - (1 + s * s) * (1 + s * s)) *
        ((1 + s * s) * (1 + s * s)))) := by
  have h0 : Field.fromBytes b = enc s := by
    rw [hb, Field.fromBytes_toBytes _ (enc_WF s) (Field.canon_lt256 (enc_canon s))]
  have h2 : (Field.toBytes (enc s) == b) = true := by rw [hb]; exact beq_self_eq_true _
  unfold Count.Ristretto.decompress
  dsimp only
  rw [h0, h2, Field.isPositive_enc, decide_eq_true hs]
  have hn : ¬((true == false || true == false) = true) := by decide
  rw [if_neg hn, Field.one_enc, EDWARDS_D_enc]
  have hinv := invSqrt_runs c hc ((-(dZ * ((1 - s * s) * (1 - s * s))) - (1 + s * s) * (1 + s * s)) *
    ((1 + s * s) * (1 + s * s)))
  generalize ratioOps 1 _ = k at *
  generalize Field.sqrtRatioZ 1 _ = r at *
  obtain ⟨ok, I⟩ := r
  dsimp only at *
  cases ok
  · apply Takes.cast
    · run
      apply Takes.seq hinv
      exact Takes.pure _
    · cases k
      simp only [ops_add, Bool.false_eq_true, if_false]
      congr 1 <;> omega
  · apply Takes.cast
    · run
      apply Takes.seq hinv
      dsimp only
      rw [if_neg (show ¬((true == false) = true) by decide)]
      run
      exact Takes.ite (Takes.pure _) (Takes.pure _)
    · cases k
      simp only [ops_add, if_true]
      congr 1 <;> omega

theorem ristretto_compress_takes (c : Cfg) (hc : c.Enough) (X Y Z T : Fp) :
    ∃ j : Ops, (j = ⟨0, 0, 0, 0, 0⟩ ∨ j = ⟨0, 3, 0, 0, 0⟩ ∧ X * Y ≠ 0) ∧
      Takes (Count.Ristretto.compress c ⟨enc X, enc Y, enc Z, enc T⟩)
        (⟨10, 0, 1, 5, 0⟩ + ratioOps 1 ((Z + Y) * (Z - Y) * (X * Y * (X * Y))) + j) := by
  have hinv := invSqrt_runs c hc ((Z + Y) * (Z - Y) * (X * Y * (X * Y)))
  unfold Count.Ristretto.compress
  dsimp only
  generalize ratioOps 1 _ = k at *
  generalize Field.sqrtRatioZ 1 _ = r at *
  obtain ⟨ok, I⟩ := r
  dsimp only at *
  by_cases h : Pos (T * ((Z + Y) * (Z - Y) * I * (X * Y * I) * T))
  · refine ⟨_, Or.inl rfl, ?_⟩
    apply Takes.cast
    · run
      apply Takes.seq hinv
      dsimp only
      run
      rw [Field.isPositive_enc, decide_eq_true h, if_neg (show ¬((true == false) = true) by decide)]
      apply Takes.seq (Runs.pure _)
      dsimp only
      run
    · cases k
      simp only [ops_add]
      congr 1 <;> omega
  · refine ⟨_, Or.inr ⟨rfl, fun h' => h ?_⟩, ?_⟩
    · rw [h', zero_mul, mul_zero, zero_mul, mul_zero]; exact pos_zero
    apply Takes.cast
    · run
      apply Takes.seq hinv
      dsimp only
      run
      rw [Field.isPositive_enc, decide_eq_false h, if_pos (show (false == false) = true by decide),
        Field.SQRT_MINUS_ONE_enc, INV_SQRT_enc]
      have hflip : Runs (do
          let x ← Count.Field.cmul c (enc Field.iZ) (enc Y)
          let y ← Count.Field.cmul c (enc Field.iZ) (enc X)
          let D ← Count.Field.cmul c (enc ((Z + Y) * (Z - Y) * I)) (enc wZ)
          pure (x, y, D)) ⟨0, 3, 0, 0, 0⟩ (enc (Field.iZ * Y), enc (Field.iZ * X), enc ((Z + Y) * (Z - Y) * I * wZ)) := by
        refine ((Runs.cmul c _ _).seq ((Runs.cmul c _ _).seq ((Runs.cmul c _ _).seq (n' := ⟨0, 0, 0, 0, 0⟩) ?_))).cast rfl
        exact Runs.pure _
      apply Takes.seq hflip
      dsimp only
      run
    · cases k
      simp only [ops_add]
      congr 1 <;> omega

set_option maxRecDepth 4000 in
theorem elligator_takes (c : Cfg) (hc : c.Enough) (a : FE) (ha : a.WF) (r0 r : Fp) (h0 : r0 = a.toZ)
    (hr : r = Field.iZ * (r0 * r0)) :
    Takes (Count.Ristretto.elligator c a)
      (⟨10, 3, 4, 12, 0⟩ + ratioOps ((r + 1) * (1 - dZ * dZ)) ((-1 - dZ * r) * (r + dZ))) := by
  have hm : ∀ s : Fp, Runs (Count.Field.mul c (enc s) a) ⟨1, 0, 0, 0, 0⟩ (enc (s * r0)) := by
    intro s
    exact Runs.of (Costs.mul c _ _) (by rw [Field.mul_wf c _ _ (enc_WF _) ha, enc_toZ, h0])
  have hsq : Runs (Count.Field.square c a) ⟨0, 0, 1, 0, 0⟩ (enc (r0 * r0)) :=
    Runs.of (Costs.square c _) (by rw [Field.square_wf c a ha, h0])
  have hrat := sqrtRatioI_runs c hc ((r + 1) * (1 - dZ * dZ)) ((-1 - dZ * r) * (r + dZ))
  unfold Count.Ristretto.elligator
  dsimp only
  rw [Field.one_enc, EDWARDS_D_enc, Field.SQRT_MINUS_ONE_enc, SQRT_AD_enc]
  generalize ratioOps _ _ = k at *
  generalize Field.sqrtRatioZ _ _ = q at *
  obtain ⟨ok, I⟩ := q
  dsimp only at *
  apply Takes.cast
  · run
    apply Takes.seq hsq
    run
    rw [← hr]
    apply Takes.seq hrat
    apply Takes.seq (hm _)
    apply Takes.seq (Runs.condNegate c _ _)
    dsimp only
    rw [Field.condSelect_enc, Field.condSelect_enc]
    run
  · clear hrat hm hsq hr h0
    cases k
    simp only [ops_add]
    congr 1 <;> omega

/-! ### Windowed multiplication -/

/-- The number of positive digits below position `n`. -/
def positiveDigits (v : Vector Int 256) (n : ℕ) : ℕ :=
  ((Finset.range n).filter fun j => 0 < v.toList[j]?.getD 0).card

/-- The number of negative digits below position `n`. -/
def negativeDigits (v : Vector Int 256) (n : ℕ) : ℕ :=
  ((Finset.range n).filter fun j => v.toList[j]?.getD 0 < 0).card

theorem positiveDigits_succ (v : Vector Int 256) (n : ℕ) (h : n < 256) :
    positiveDigits v (n + 1) = positiveDigits v n + if 0 < v[n] then 1 else 0 := by
  unfold positiveDigits
  have e : 0 < v.toList[n]?.getD 0 ↔ 0 < v[n] := by
    rw [List.getElem?_eq_getElem (by simpa using h), Vector.getElem_toList, Option.getD_some]
  rw [Finset.range_add_one, Finset.filter_insert]
  by_cases hx : 0 < v[n]
  · rw [if_pos (e.2 hx), if_pos hx, Finset.card_insert_of_notMem (by simp)]
  · rw [if_neg (fun h => hx (e.1 h)), if_neg hx]; rfl

theorem negativeDigits_succ (v : Vector Int 256) (n : ℕ) (h : n < 256) :
    negativeDigits v (n + 1) = negativeDigits v n + if v[n] < 0 then 1 else 0 := by
  unfold negativeDigits
  have e : v.toList[n]?.getD 0 < 0 ↔ v[n] < 0 := by
    rw [List.getElem?_eq_getElem (by simpa using h), Vector.getElem_toList, Option.getD_some]
  rw [Finset.range_add_one, Finset.filter_insert]
  by_cases hx : v[n] < 0
  · rw [if_pos (e.2 hx), if_pos hx, Finset.card_insert_of_notMem (by simp)]
  · rw [if_neg (fun h => hx (e.1 h)), if_neg hx]; rfl

theorem Costs.free {α : Type} (r : Res α) : Costs (Count.free r) 0 r := ⟨rfl, fun _ => rfl⟩

/-- C114: a subtraction of Ristretto points costs a negation, two field negations, and an addition. -/
theorem C114_ristretto_sub (c : Cfg) (P Q : EdPoint) :
    Costs (Count.Ristretto.sub c P Q) ⟨9, 1, 0, 9, 0⟩ (Ristretto.sub c P Q) := by
  unfold Count.Ristretto.sub Ristretto.sub
  exact (Costs.bind (ed_neg_costs c Q) fun _ => C106_extended_add c _ _).cast rfl

theorem wnaf_costs (c : Cfg) (v : Vector Int 256) : ∀ (n : ℕ) (hn : n ≤ 256) (Q : EdPoint),
    Costs (Count.Ristretto.wnafMulLoop c v n hn Q)
      (Ops.total ⟨9, 1, 0, 7, 0⟩ ⟨9, 1, 0, 9, 0⟩ ⟨9, 1, 0, 7, 0⟩ (positiveDigits v n) (negativeDigits v n) n)
      (Ristretto.wnafMulLoop c v n hn Q) := by
  intro n
  induction n with
  | zero =>
    intro hn Q
    rw [Count.Ristretto.wnafMulLoop, Ristretto.wnafMulLoop]
    rw [show positiveDigits v 0 = 0 from rfl, show negativeDigits v 0 = 0 from rfl]
    exact (Costs.pure Q).cast (Ops.total_zero _ _ _).symm
  | succ i ih =>
    intro hn Q
    rw [Count.Ristretto.wnafMulLoop, Ristretto.wnafMulLoop]
    refine (Costs.bind (C106_extended_double c Q).2
      (n' := Ops.total ⟨9, 1, 0, 7, 0⟩ ⟨9, 1, 0, 9, 0⟩ ⟨9, 1, 0, 7, 0⟩ (positiveDigits v (i + 1))
        (negativeDigits v (i + 1)) i) fun Q1 => ?_).cast (Ops.total_double _ _ _ _ _ _)
    rw [positiveDigits_succ v i (by omega), negativeDigits_succ v i (by omega)]
    dsimp only
    by_cases h0 : v[i] = 0
    · rw [if_pos h0, if_pos h0, if_neg (by omega), if_neg (by omega)]
      exact (Costs.bind (Costs.pure Q1) fun Q2 => ih (by omega) Q2).cast (Ops.zero_add _)
    · rw [if_neg h0, if_neg h0]
      by_cases h1 : v[i] > 0
      · rw [if_pos h1, if_pos h1, if_pos h1, if_neg (by omega)]
        refine (Costs.bind (Costs.free _) fun t => Costs.bind (C106_extended_add c Q1 t) fun Q2 =>
          ih (by omega) Q2).cast ?_
        rw [Ops.zero_add, Ops.total_add]; rfl
      · rw [if_neg h1, if_neg h1, if_neg h1, if_pos (by omega)]
        refine (Costs.bind (Costs.free _) fun a => Costs.bind (Costs.free _) fun t =>
          Costs.bind (C114_ristretto_sub c Q1 t) fun Q2 => ih (by omega) Q2).cast ?_
        rw [Ops.zero_add, Ops.zero_add, Ops.total_sub]; rfl

/-! ### C114 -/

/-- C114: a power costs a multiplication for each binary digit of the exponent and one more, with a subtraction from the
exponent, for each digit 1. The squarings are performed as multiplications. -/
theorem C114_power (c : Cfg) (hc : c.Enough) (a e : FE) (ha : a.Canon) (he : e.WF) :
    Performs (Count.Field.pow c a e) ⟨bitLength e.val + ones e.val, 0, 0, ones e.val, 0⟩ (Field.pow c a e) := by
  have h : Takes (Count.Field.pow c (enc a.toZ) e) _ := ⟨_, pow_runs c hc a.toZ e he⟩
  rw [ha.enc] at h
  exact h.performs (Forgets.pow c _ _)

/-- C114: the symbol costs the same for all elements. -/
theorem C114_legendre (c : Cfg) (hc : c.Enough) (a : FE) (ha : a.Canon) :
    Performs (Count.Field.legendre c a) ⟨324, 0, 0, 72, 0⟩ (Field.legendre c a) := by
  have h : Takes (Count.Field.legendre c (enc a.toZ)) _ := ⟨_, legendre_runs c hc a.toZ⟩
  rw [ha.enc] at h
  exact h.performs (Forgets.legendre c _)

/-- C114: the square root of zero costs nothing. A residue without square root is found to be one by the symbol. A square
costs four powers, and seven multiplications and two squarings more unless it is a fourth power. -/
theorem C114_mod_sqrt (c : Cfg) (hc : c.Enough) (a : FE) (ha : a.Canon) (sign : Bool) :
    (a.toZ = 0 → Performs (Count.Field.modSqrt c a sign) ⟨0, 0, 0, 0, 0⟩ (Field.modSqrt c a sign)) ∧
    (¬IsSquare a.toZ → Performs (Count.Field.modSqrt c a sign) ⟨324, 0, 0, 72, 0⟩ (Field.modSqrt c a sign)) ∧
    (a.toZ ≠ 0 → (∃ r : Fp, r ^ 4 = a.toZ) →
      Performs (Count.Field.modSqrt c a sign) ⟨1291, 0, 0, 291, 0⟩ (Field.modSqrt c a sign)) ∧
    (IsSquare a.toZ → (¬∃ r : Fp, r ^ 4 = a.toZ) →
      Performs (Count.Field.modSqrt c a sign) ⟨1298, 0, 2, 296, 0⟩ (Field.modSqrt c a sign)) := by
  have h := modSqrt_runs c hc a.toZ sign
  rw [ha.enc] at h
  have hf := Forgets.modSqrt c a sign
  unfold rootOps at h
  generalize hx : a.toZ = x at *
  refine ⟨fun h0 => ?_, fun hs => ?_, fun h0 h4 => ?_, fun hs h4 => ?_⟩
  · rw [if_pos h0] at h
    exact h.performs hf
  · rw [if_neg (fun h0 => hs (by rw [h0]; exact ⟨0, by rw [mul_zero]⟩)), if_pos hs] at h
    exact h.performs hf
  · have hs : IsSquare x := by
      obtain ⟨r, hr⟩ := h4
      exact ⟨r * r, by rw [← hr]; ring⟩
    rw [if_neg h0, if_neg (not_not.2 hs), if_pos h4] at h
    exact h.performs hf
  · have h0 : x ≠ 0 := fun h0 => h4 ⟨0, by rw [h0]; ring⟩
    rw [if_neg h0, if_neg (not_not.2 hs), if_neg h4] at h
    exact h.performs hf

/-- C114: the square root of a ratio costs nothing if one of the two is zero; otherwise it costs two inversions, the
symbol twice, and a root. -/
theorem C114_sqrt_ratio (c : Cfg) (hc : c.Enough) (u v : FE) (hu : u.Canon) (hv : v.Canon) :
    (u.toZ = 0 ∨ v.toZ = 0 → Performs (Count.Field.sqrtRatioI c u v) ⟨0, 0, 0, 0, 0⟩ (Field.sqrtRatioI c u v)) ∧
    (u.toZ ≠ 0 → v.toZ ≠ 0 → IsSquare (u.toZ / v.toZ) → ∃ k ∈ squareCosts,
      (k = ⟨1617, 0, 0, 364, 2⟩ ↔ ∃ r : Fp, r ^ 4 = u.toZ / v.toZ) ∧
      Performs (Count.Field.sqrtRatioI c u v) k (Field.sqrtRatioI c u v)) ∧
    (¬IsSquare (u.toZ / v.toZ) → ∃ k ∈ nonsquareCosts,
      (k = ⟨1617, 1, 0, 364, 2⟩ ↔ ∃ r : Fp, r ^ 4 = Field.iZ * (u.toZ / v.toZ)) ∧
      Performs (Count.Field.sqrtRatioI c u v) k (Field.sqrtRatioI c u v)) := by
  have h := sqrtRatioI_takes c hc u.toZ v.toZ
  rw [hu.enc, hv.enc] at h
  have hf := Forgets.sqrtRatioI c u v
  unfold ratioOps at h
  generalize u.toZ = x at *
  generalize v.toZ = y at *
  refine ⟨fun h0 => ?_, fun hx hy hs => ?_, fun hs => ?_⟩
  · rw [if_pos h0] at h
    exact h.performs hf
  · rw [if_neg (show ¬(x = 0 ∨ y = 0) by tauto), if_pos hs] at h
    by_cases h4 : ∃ r : Fp, r ^ 4 = x / y
    · rw [if_pos h4] at h
      exact ⟨_, List.mem_cons_self, iff_of_true rfl h4, h.performs hf⟩
    · rw [if_neg h4] at h
      exact ⟨_, List.mem_cons_of_mem _ List.mem_cons_self, iff_of_false (by decide) h4, h.performs hf⟩
  · have h0 : ¬(x = 0 ∨ y = 0) := by
      rintro (h0 | h0)
      · exact hs (by rw [h0, zero_div]; exact ⟨0, by rw [mul_zero]⟩)
      · exact hs (by rw [h0, div_zero]; exact ⟨0, by rw [mul_zero]⟩)
    rw [if_neg h0, if_neg hs] at h
    by_cases h4 : ∃ r : Fp, r ^ 4 = Field.iZ * (x / y)
    · rw [if_pos h4] at h
      exact ⟨_, List.mem_cons_self, iff_of_true rfl h4, h.performs hf⟩
    · rw [if_neg h4] at h
      exact ⟨_, List.mem_cons_of_mem _ List.mem_cons_self, iff_of_false (by decide) h4, h.performs hf⟩

/-- C114: encoding a curve point costs two inversions and, unless the first coordinate is zero, a root. -/
theorem C114_edwards_compress (c : Cfg) (hc : c.Enough) (P : EdPoint) (A : E) (h : P.Rep A) :
    Performs (Count.Ed.compress c P)
      (if A.x = 0 then ⟨3, 1, 2, 2, 2⟩ else if IsSquare A.x then ⟨1294, 1, 2, 293, 2⟩ else ⟨1301, 1, 4, 298, 2⟩)
      (Ed.compress c P) := by
  have ht := compress_takes c hc h
  rw [rootOps_sq] at ht
  refine Takes.performs ?_ (Forgets.edCompress c P)
  split
  · rw [if_pos ‹_›] at ht; exact ht
  · rw [if_neg ‹_›] at ht
    split
    · rw [if_pos ‹_›] at ht; exact ht
    · rw [if_neg ‹_›] at ht; exact ht

/-- C114: the encoding of a curve point. A string that is no encoding costs an inversion and the symbol; for the others
the cost depends on whether the first coordinate is zero, a square, or neither. -/
theorem C114_edwards_decompress (c : Cfg) (hc : c.Enough) (b : Bytes32) :
    (Ed.decompress c b = .ok none ∧
      Performs (Count.Ed.decompress c b) ⟨325, 1, 2, 74, 1⟩ (Ed.decompress c b)) ∨
    (∃ (P : EdPoint) (A : E), Ed.decompress c b = .ok (some P) ∧ P.Rep A ∧
      Performs (Count.Ed.decompress c b)
        (if A.x = 0 then ⟨4, 1, 3, 2, 1⟩ else if IsSquare A.x then ⟨1295, 1, 3, 293, 1⟩ else ⟨1302, 1, 5, 298, 1⟩)
        (Ed.decompress c b)) := by
  have hf := Forgets.edDecompress c b
  obtain ⟨s, hs⟩ : ∃ s, s = (b[31] >>> 7 == 1) := ⟨_, rfl⟩
  have hy : Field.fromBytes (b.set 31 (b[31] &&& 0b00001111)) = enc ((bytesVal b % 2 ^ 252 : ℕ) : Fp) := by
    obtain ⟨w, v⟩ := Field.fromBytes_spec (b.set 31 (b[31] &&& 0b00001111))
    rw [mask_val] at v
    have hcan : (Field.fromBytes (b.set 31 (b[31] &&& 0b00001111))).Canon := by
      refine ⟨w, ?_⟩
      rw [v]
      have : bytesVal b % 2 ^ 252 < 2 ^ 252 := Nat.mod_lt _ (by decide)
      exact lt_trans this (by decide)
    exact hcan.eq_enc (toZ_eq_iff.2 (by rw [v]))
  have hcount : Count.Ed.decompress c b = Count.Ed.newFromY c (enc ((bytesVal b % 2 ^ 252 : ℕ) : Fp)) s := by
    unfold Count.Ed.decompress
    rw [hy, hs]
  have e := decompress_eq c b
  rw [← hs] at e
  generalize ((bytesVal b % 2 ^ 252 : ℕ) : Fp) = y at *
  by_cases hq : IsSquare (xxOf y)
  · right
    obtain ⟨P, eP, hP⟩ := Ed.newFromY_some c hc y s hq
    refine ⟨P, yPt y s hq, by rw [e, eP], hP, ?_⟩
    have ht := newFromY_some_takes c hc y s hq
    have hxx : xxOf y = (yPt y s hq).x * (yPt y s hq).x := by rw [xxOf_pt, yPt_y]
    rw [hxx, rootOps_sq, ← hcount] at ht
    refine Takes.performs ?_ hf
    split
    · rw [if_pos ‹_›] at ht; exact ht
    · rw [if_neg ‹_›] at ht
      split
      · rw [if_pos ‹_›] at ht; exact ht
      · rw [if_neg ‹_›] at ht; exact ht
  · left
    have ht := newFromY_none_takes c hc y s hq
    rw [← hcount] at ht
    exact ⟨by rw [e, Ed.newFromY_none c hc y s hq], ht.performs hf⟩

/-- C114: equality of extended and of projective points costs two inversions; equality of Ristretto points costs four
multiplications. -/
theorem C114_equality (c : Cfg) (P Q : EdPoint) (R S : ProjPoint) :
    Costs (Count.Ed.ctEq c P Q) ⟨4, 0, 0, 0, 2⟩ (Ed.ctEq c P Q) ∧
    Costs (Count.Proj.ctEq c R S) ⟨4, 0, 0, 0, 2⟩ (Proj.ctEq c R S) ∧
    Costs (Count.Ristretto.ctEq c P Q) ⟨4, 0, 0, 0, 0⟩ (Ristretto.ctEq c P Q) := by
  refine ⟨?_, ?_, ?_⟩
  · unfold Count.Ed.ctEq Ed.ctEq
    exact (Costs.bind (C106_conversions c P R).2.1 fun _ => Costs.bind (C106_conversions c Q R).2.1 fun _ =>
      Costs.pure _).cast rfl
  · unfold Count.Proj.ctEq Proj.ctEq
    exact (Costs.bind (C106_conversions c P R).2.2 fun _ => Costs.bind (C106_conversions c P S).2.2 fun _ =>
      Costs.pure _).cast rfl
  · unfold Count.Ristretto.ctEq Ristretto.ctEq
    costs
    rfl

theorem proj_isValid_costs (c : Cfg) (P : ProjPoint) :
    Costs (Count.Proj.isValid c P) ⟨2, 2, 4, 2, 0⟩ (Proj.isValid c P) := by
  unfold Count.Proj.isValid Proj.isValid
  costs
  rfl

theorem ones_ell : ones ell = 67 := by
  rw [ones_range 250 _ (by decide)]; decide +kernel
theorem len_ell : bitLength ell = 250 := bitLength_eq (k := 249) (by decide) (by decide)

/-- C114: testing the curve equation costs a few operations; testing a Ristretto point costs a multiplication by the
group order, about 2900 multiplications. -/
theorem C114_is_valid (c : Cfg) (hc : c.Enough) (P : AffPoint) (Q : ProjPoint) (R : EdPoint) :
    Costs (Count.Aff.isValid c P) ⟨1, 2, 2, 2, 0⟩ (Aff.isValid c P) ∧
    Costs (Count.Proj.isValid c Q) ⟨2, 2, 4, 2, 0⟩ (Proj.isValid c Q) ∧
    Costs (Count.Ed.isValid c R) ⟨2, 2, 4, 2, 0⟩ (Ed.isValid c R) ∧
    Costs (Count.Ristretto.isValid c R) ⟨2859, 319, 4, 2221, 2⟩ (Ristretto.isValid c R) := by
  refine ⟨?_, proj_isValid_costs c Q, proj_isValid_costs c _, ?_⟩
  · unfold Count.Aff.isValid Aff.isValid
    costs
    rfl
  · unfold Cfg.Enough at hc
    have hL := daa_costs Ed.costSpec c 256 c.fuel R Scalar.L Ed.identity SCALAR_L_WF (by decide) le_rfl (by omega)
    rw [SCALAR_L_val, ones_ell, len_ell] at hL
    unfold Count.Ristretto.isValid Ristretto.isValid
    refine (Costs.bind hL fun lp => Costs.bind (C114_equality c lp _ Proj.identity Proj.identity).1 fun h =>
      Costs.bind (proj_isValid_costs c _) fun v => Costs.pure _).cast ?_
    rfl

/-- C114: encoding a Ristretto point. The points of the class of the identity cost ten multiplications and a squaring.
For the others the costs tell doubles of curve points from other curve points. -/
theorem C114_ristretto_compress (c : Cfg) (hc : c.Enough) (P : EdPoint) (A : E) (h : P.Rep A) :
    ((A.x = 0 ∨ A.y = 0) →
      Performs (Count.Ristretto.compress c P) ⟨10, 0, 1, 5, 0⟩ (Ristretto.compress c P)) ∧
    ((A.x ≠ 0 ∧ A.y ≠ 0) → ∃ k, (InEven A → k ∈ squareCosts) ∧ (¬InEven A → k ∈ nonsquareCosts) ∧ ∃ j ∈ [0, 3],
      Performs (Count.Ristretto.compress c P) (⟨10, j, 1, 5, 0⟩ + k) (Ristretto.compress c P)) := by
  have hf := Forgets.ristrettoCompress c P
  obtain ⟨Z, hz, rfl⟩ := h.form
  obtain ⟨j, hj, ht⟩ := ristretto_compress_takes c hc (A.x * Z) (A.y * Z) Z (A.x * A.y * Z)
  have hc0 := ratio_cases 1 ((Z + A.y * Z) * (Z - A.y * Z) * (A.x * Z * (A.y * Z) * (A.x * Z * (A.y * Z))))
  constructor
  · intro h0
    have hxy : A.x * Z * (A.y * Z) = 0 := by
      rcases h0 with h0 | h0 <;> rw [h0] <;> ring
    rcases hj with rfl | ⟨_, hj⟩
    swap
    · exact absurd hxy hj
    rw [hxy, mul_zero, mul_zero] at ht
    unfold ratioOps at ht
    rw [if_pos (Or.inr rfl)] at ht
    exact Takes.performs ht hf
  · rintro ⟨hx, hy⟩
    have hne : ¬((1 : Fp) = 0 ∨
        (Z + A.y * Z) * (Z - A.y * Z) * (A.x * Z * (A.y * Z) * (A.x * Z * (A.y * Z))) = 0) := by
      rintro (h1 | h1)
      · exact one_ne_zero h1
      · have hon := xxOf_pt A
        have hxz : A.x * Z * (A.y * Z) ≠ 0 := mul_ne_zero (mul_ne_zero hx hz) (mul_ne_zero hy hz)
        have h2 := (mul_eq_zero.1 h1).resolve_right (mul_ne_zero hxz hxz)
        have h3 : A.y * A.y - 1 = 0 := by
          have : Z * Z * (1 - A.y * A.y) = 0 := by linear_combination h2
          have := (mul_eq_zero.1 this).resolve_left (mul_ne_zero hz hz)
          linear_combination -this
        unfold xxOf at hon
        rw [h3, zero_div] at hon
        exact hx (mul_self_eq_zero.1 hon)
    have hk := hc0.resolve_left fun h => hne h.2
    have hw : (Z + A.y * Z) * (Z - A.y * Z) * (A.x * Z * (A.y * Z) * (A.x * Z * (A.y * Z))) =
        -(((A.x * A.x * A.y * Z ^ 3) * (A.x * A.x * A.y * Z ^ 3)) * (1 + dZ * A.y ^ 2)) := by
      linear_combination Z ^ 6 * (A.x * A.y) ^ 2 * x_sq_eq A
    have h3 : A.x * A.x * A.y * Z ^ 3 ≠ 0 :=
      mul_ne_zero (mul_ne_zero (mul_ne_zero hx hx) hy) (pow_ne_zero 3 hz)
    have heven : InEven A ↔ (Field.sqrtRatioZ 1
        ((Z + A.y * Z) * (Z - A.y * Z) * (A.x * Z * (A.y * Z) * (A.x * Z * (A.y * Z))))).1 = true := by
      have hsq : IsSquare ((Z + A.y * Z) * (Z - A.y * Z) * (A.x * Z * (A.y * Z) * (A.x * Z * (A.y * Z)))) ↔
          InEven A := by
        rw [hw, square_neg, square_mul_left ⟨_, rfl⟩ (mul_ne_zero h3 h3), inEven_iff]
      rcases sqrtRatio_one ((Z + A.y * Z) * (Z - A.y * Z) * (A.x * Z * (A.y * Z) * (A.x * Z * (A.y * Z)))) with
        ⟨h1, _, _, h2⟩ | ⟨h1, h2⟩
      · simp only [h1, iff_true]; exact hsq.1 h2
      · have h4 := h2.resolve_left fun h => hne (Or.inr h)
        simp only [h1, Bool.false_eq_true, iff_false]
        exact fun h => h4 (hsq.2 h)
    generalize Field.sqrtRatioZ 1 _ = r at *
    generalize ratioOps 1 _ = k at *
    refine ⟨k, ?_, ?_, ?_⟩
    · intro hA
      rcases hk with hk | hk
      · exact hk.1
      · rw [heven.1 hA] at hk; exact absurd hk.2 (by simp)
    · intro hA
      rcases hk with hk | hk
      · exact absurd (heven.2 hk.2) hA
      · exact hk.1
    · rcases hj with rfl | ⟨rfl, _⟩
      · refine ⟨0, by simp, Takes.performs (ht.cast ?_) hf⟩
        cases k
        simp only [ops_add]
        congr 1
      · refine ⟨3, by simp, Takes.performs (ht.cast ?_) hf⟩
        cases k
        simp only [ops_add]
        congr 1; ring

/-- C114: decoding. Strings that are not of the form of an encoding cost nothing, so that their rejection is much faster
than that of the others; an encoding costs at least 1624 multiplications. -/
theorem C114_ristretto_decompress (c : Cfg) (hc : c.Enough) (b : Bytes32) :
    (p - 1 < 2 * bytesVal b →
      Performs (Count.Ristretto.decompress c b) ⟨0, 0, 0, 0, 0⟩ (Ristretto.decompress c b)) ∧
    (2 * bytesVal b ≤ p - 1 →
      (∃ k ∈ squareCosts, Performs (Count.Ristretto.decompress c b) (⟨7, 1, 4, 6, 0⟩ + k) (Ristretto.decompress c b)) ∨
      (Ristretto.decompress c b = .ok none ∧ ∃ k ∈ ⟨0, 0, 0, 0, 0⟩ :: nonsquareCosts,
        Performs (Count.Ristretto.decompress c b) (⟨1, 1, 4, 4, 0⟩ + k) (Ristretto.decompress c b))) := by
  have hf := Forgets.ristrettoDecompress c b
  constructor
  · intro h
    refine Takes.performs ?_ hf
    obtain ⟨w, v⟩ := Field.fromBytes_spec b
    have h1 : Field.isPositive (Field.fromBytes b) = false := by
      rw [Field.isPositive_spec _ w, v]; exact decide_eq_false (by omega)
    unfold Count.Ristretto.decompress
    dsimp only
    rw [h1, if_pos (by rfl)]
    exact Takes.pure _
  · intro h
    obtain ⟨s, hs, hb, _⟩ := Ristretto.toBytes_of_pos b h
    have ht := decompress_takes c hc b s hs hb
    have hd := decompress_pos c hc b s hs hb
    have hk := ratio_cases 1 ((-(dZ * ((1 - s * s) * (1 - s * s))) - (1 + s * s) * (1 + s * s)) *
      ((1 + s * s) * (1 + s * s)))
    have hz : ∀ v : Fp, (1 : Fp) = 0 ∨ v = 0 → (Field.sqrtRatioZ 1 v).1 = false := by
      rintro v (h | h)
      · exact absurd h one_ne_zero
      · unfold Field.sqrtRatioZ
        rw [if_neg one_ne_zero, if_pos h]
    have hn : (Field.sqrtRatioZ 1 ((-(dZ * ((1 - s * s) * (1 - s * s))) - (1 + s * s) * (1 + s * s)) *
      ((1 + s * s) * (1 + s * s)))).1 = false → Ristretto.decompress c b = .ok none := by
      intro hr
      rw [hd]
      unfold decZ
      dsimp only
      rw [if_pos hr]
      rfl
    rcases hk with ⟨hk, h0⟩ | ⟨hk, hr⟩ | ⟨hk, hr⟩
    · right
      have hr := hz _ h0
      rw [hr, hk] at ht
      exact ⟨hn hr, _, List.mem_cons_self, Takes.performs ht hf⟩
    · left
      rw [hr] at ht
      exact ⟨_, hk, Takes.performs ht hf⟩
    · right
      rw [hr] at ht
      exact ⟨hn hr, _, List.mem_cons_of_mem _ hk, Takes.performs ht hf⟩

/-- C114: hashing to the group costs two square roots of ratios and an addition. -/
theorem C114_from_uniform_bytes (c : Cfg) (hc : c.Enough) (b : Bytes64) :
    ∃ k ∈ ⟨0, 0, 0, 0, 0⟩ :: squareCosts ++ nonsquareCosts, ∃ l ∈ ⟨0, 0, 0, 0, 0⟩ :: squareCosts ++ nonsquareCosts,
      Performs (Count.Ristretto.fromUniformBytes c b) (⟨29, 7, 8, 31, 0⟩ + k + l) (Ristretto.fromUniformBytes c b) := by
  have mem : ∀ u v : Fp, ratioOps u v ∈ ⟨0, 0, 0, 0, 0⟩ :: squareCosts ++ nonsquareCosts := by
    intro u v
    rcases ratio_cases u v with ⟨h, _⟩ | ⟨h, _⟩ | ⟨h, _⟩
    · rw [h]; exact List.mem_cons_self
    · exact List.mem_append_left _ (List.mem_cons_of_mem _ h)
    · exact List.mem_append_right _ h
  have key : ∀ x : Bytes32, ∃ k ∈ ⟨0, 0, 0, 0, 0⟩ :: squareCosts ++ nonsquareCosts, ∃ R : EdPoint, R.Red ∧
      Runs (Count.Ristretto.elligator c (Field.fromBytes x)) (⟨10, 3, 4, 12, 0⟩ + k) R := by
    intro x
    obtain ⟨w, _⟩ := Field.fromBytes_spec x
    obtain ⟨R, hR, eR⟩ := elligator_total _ w
    exact ⟨_, mem _ _, R, hR, (elligator_takes c hc _ w _ _ rfl rfl).runs (Forgets.elligator c _) (eR c hc)⟩
  have hf := Forgets.fromUniformBytes c b
  unfold Count.Ristretto.fromUniformBytes at *
  dsimp only at *
  generalize hlo : (Vector.ofFn fun i : Fin 32 => b[i.val]'(by omega) : Bytes32) = lo at *
  generalize hhi : (Vector.ofFn fun i : Fin 32 => b[32 + i.val]'(by omega) : Bytes32) = hi at *
  obtain ⟨k, hk, R, hR, h1⟩ := key lo
  obtain ⟨l, hl, S, hS, h2⟩ := key hi
  refine ⟨k, hk, l, hl, Takes.performs ?_ hf⟩
  obtain ⟨T, _, eT⟩ := Ed.totSpec.add hR hS
  apply Takes.cast
  · apply Takes.seq h1
    apply Takes.seq h2
    exact ⟨_, Runs.of (C106_extended_add c R S) (eT c)⟩
  · clear mem key
    cases k
    cases l
    simp only [ops_add]
    congr 1 <;> omega

/-- C114: windowed multiplication performs 250 doublings, an addition for each positive digit and a subtraction for each
negative digit of the expansion. The width changes the number of digits only. -/
theorem C114_window (c : Cfg) (n : Sc) (w : ℕ) (v : Vector Int 256) (hv : Scalar.computeWindowNAF c n w = .ok v) :
    Costs (Count.Ristretto.windowNafMul c n w)
      ⟨9 * (positiveDigits v 250 + negativeDigits v 250 + 250), positiveDigits v 250 + negativeDigits v 250 + 250, 0,
        7 * positiveDigits v 250 + 9 * negativeDigits v 250 + 1750, 0⟩
      (Ristretto.windowNafMul c n w) := by
  unfold Count.Ristretto.windowNafMul Ristretto.windowNafMul
  rw [hv, free_bind, Res.ok_bind]
  refine (wnaf_costs c v 250 _ _).cast ?_
  apply Ops.ext' <;> simp only [Ops.total, Ops.times, ops_add] <;> ring

/-- The root of the square 1, a fourth power, costs 1291 multiplications, the root of -1 seven more; the identity is
encoded and decoded without a root. -/
example (c : Cfg) (hc : c.Enough) :
    Performs (Count.Field.modSqrt c Field.one true) ⟨1291, 0, 0, 291, 0⟩ (Field.modSqrt c Field.one true) ∧
    Performs (Count.Field.modSqrt c Field.minusOne true) ⟨1298, 0, 2, 296, 0⟩ (Field.modSqrt c Field.minusOne true) ∧
    Performs (Count.Ed.compress c Ed.identity) ⟨3, 1, 2, 2, 2⟩ (Ed.compress c Ed.identity) ∧
    Performs (Count.Ristretto.compress c Ed.identity) ⟨10, 0, 1, 5, 0⟩ (Ristretto.compress c Ed.identity) := by
  have h1 : Field.one.toZ = 1 := by rw [Field.one_enc, enc_toZ]
  have hm : Field.minusOne.toZ = -1 := by rw [Field.minusOne_enc, enc_toZ]
  refine ⟨?_, ?_, ?_, ?_⟩
  · refine (C114_mod_sqrt c hc _ Field.one_canon true).2.2.1 ?_ ?_
    · rw [h1]; exact one_ne_zero
    · rw [h1]; exact ⟨1, by ring⟩
  · refine (C114_mod_sqrt c hc _ Field.minusOne_canon true).2.2.2 ?_ ?_
    · rw [hm]; exact ⟨Field.iZ, Field.iZ_sq.symm⟩
    · rw [hm, ← Field.iZ_sq, fourth_of_square]; exact Field.iZ_not_square
  · have := C114_edwards_compress c hc _ _ Ed.identity_rep
    rwa [if_pos (by rfl)] at this
  · exact (C114_ristretto_compress c hc _ _ Ed.identity_rep).1 (Or.inl rfl)

end Props
end Zerocaf
