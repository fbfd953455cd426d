import Verif.Model.LeakPrograms
import Verif.Proof.LeakPoints
import Verif.Proof.LeakDigits
import Verif.Props.Builds

/-!
# Runs that agree

`Par m m' R`: two recorded computations leave the same record and end in the same way, with results related by `R`. The
rules follow the shape of the programs. Calls of the library on secrets agree whenever their public arguments are equal.
-/

set_option exponentiation.threshold 600

namespace Zerocaf
namespace Quiet

open Leak

/-- Two outcomes of the same kind, with related results. -/
inductive ResRel {α β : Type} (R : α → β → Prop) : Res α → Res β → Prop where
  | ok {a : α} {b : β} (h : R a b) : ResRel R (.ok a) (.ok b)
  | panic : ResRel R .panic .panic
  | diverge : ResRel R .diverge .diverge

/-- The same record and outcomes of the same kind. -/
def Par {α β : Type} (m : LM α) (m' : LM β) (R : α → β → Prop) : Prop := m.tr = m'.tr ∧ ResRel R m.val m'.val

section Par
variable {α β α' β' : Type}

theorem ResRel.mono {R S : α → β → Prop} {x : Res α} {y : Res β} (h : ResRel R x y) (hs : ∀ a b, R a b → S a b) :
    ResRel S x y := by
  cases h with
  | ok h => exact .ok (hs _ _ h)
  | panic => exact .panic
  | diverge => exact .diverge

theorem Par.bind {m : LM α} {m' : LM α'} {f : α → LM β} {f' : α' → LM β'} {R : α → α' → Prop} {S : β → β' → Prop}
    (h : Par m m' R) (h' : ∀ a a', R a a' → Par (f a) (f' a') S) : Par (m >>= f) (m' >>= f') S := by
  obtain ⟨ht, hv⟩ := h
  show Par (LM.bind m f) (LM.bind m' f') S
  unfold LM.bind
  generalize m.val = x at hv
  generalize m'.val = y at hv
  cases hv with
  | @ok a b r => exact ⟨show m.tr ++ (f a).tr = m'.tr ++ (f' b).tr by rw [ht, (h' _ _ r).1], (h' _ _ r).2⟩
  | panic => exact ⟨ht, .panic⟩
  | diverge => exact ⟨ht, .diverge⟩

theorem Par.refl (m : LM α) : Par m m fun a b => a = b := by
  refine ⟨rfl, ?_⟩
  cases m.val with
  | ok a => exact .ok rfl
  | panic => exact .panic
  | diverge => exact .diverge

/-- The same computation on both sides. -/
theorem Par.same {m : LM α} {f : α → LM β} {f' : α → LM β'} {S : β → β' → Prop} (h : ∀ a, Par (f a) (f' a) S) :
    Par (m >>= f) (m >>= f') S := (Par.refl m).bind fun a a' e => by subst e; exact h a

theorem Par.pure {a : α} {b : β} {R : α → β → Prop} (h : R a b) : Par (Pure.pure a : LM α) (Pure.pure b : LM β) R :=
  ⟨by rw [LM.tr_pure, LM.tr_pure], by rw [LM.val_pure, LM.val_pure]; exact .ok h⟩

theorem Par.mono {m : LM α} {m' : LM β} {R S : α → β → Prop} (h : Par m m' R) (hs : ∀ a b, R a b → S a b) :
    Par m m' S := ⟨h.1, h.2.mono hs⟩

/-- The same branch on both sides. -/
theorem Par.ite {b : Bool} {x y : LM α} {x' y' : LM β} {R : α → β → Prop} (h : Par x x' R) (h' : Par y y' R) :
    Par (if b = true then x else y) (if b = true then x' else y') R := by
  cases b with
  | true => rw [if_pos rfl, if_pos rfl]; exact h
  | false => rw [if_neg Bool.false_ne_true, if_neg Bool.false_ne_true]; exact h'

/-- Computations with a fixed record that return. -/
theorem Par.const {c : Cfg} {m : LM α} {m' : LM β} {t : List Ev} {a : α} {b : β} {R : α → β → Prop} (h : Const c m t)
    (h' : Const c m' t) (e : m.val = .ok a) (e' : m'.val = .ok b) (r : R a b) : Par m m' R :=
  ⟨(h.1 a e).trans (h'.1 b e').symm, by rw [e, e']; exact .ok r⟩

end Par

/-! ### Fields and scalars -/

theorem fOk {r : Res FE} {a : Fp} (h : r = .ok (enc a)) : ∃ x : FE, r = .ok x ∧ x.Canon := ⟨_, h, enc_canon a⟩

theorem fMul_ok (c : Cfg) {a b : FE} (ha : a.Canon) (hb : b.Canon) :
    ∃ x : FE, (Leak.Field.mul c a b).val = .ok x ∧ x.Canon := by
  rw [Leak.Field.mul_val, ← ha.enc, ← hb.enc]; exact fOk (Field.mul_enc _ _ _)

theorem fMul_par (c : Cfg) {a b a' b' : FE} (ha : a.Canon) (hb : b.Canon) (ha' : a'.Canon) (hb' : b'.Canon) :
    Par (Leak.Field.mul c a b) (Leak.Field.mul c a' b') fun x y => x.Canon ∧ y.Canon := by
  obtain ⟨t, ht⟩ := Leak.Field.mul_ct c
  obtain ⟨x, e, k⟩ := fMul_ok c ha hb
  obtain ⟨x', e', k'⟩ := fMul_ok c ha' hb'
  exact .const (ht _ _) (ht _ _) e e' ⟨k, k'⟩

theorem fPowLoop_par (c : Cfg) : ∀ (n : ℕ) (b r b' r' e : FE), b.Canon → r.Canon → b'.Canon → r'.Canon →
    Par (Leak.Field.powLoop c n b r e) (Leak.Field.powLoop c n b' r' e) fun x y => x.Canon ∧ y.Canon := by
  intro n
  induction n with
  | zero => intro b r b' r' e _ _ _ _; exact ⟨rfl, .diverge⟩
  | succ n ih =>
    intro b r b' r' e hb hr hb' hr'
    rw [Leak.Field.powLoop, Leak.Field.powLoop]
    refine Par.same fun g => Par.same fun w => Par.ite ?_ (Par.pure ⟨hr, hr'⟩)
    refine Par.same fun v => Par.ite ?_ ?_
    · exact (fMul_par c hb hb hb' hb').bind fun x y h => ih _ _ _ _ _ h.1 hr h.2 hr'
    · refine Par.same fun e1 => ?_
      exact (fMul_par c hr hb hr' hb').bind fun x y h => (fMul_par c hb hb hb' hb').bind fun u v k =>
        ih _ _ _ _ _ k.1 h.1 k.2 h.2

theorem fPow_par (c : Cfg) {a a' : FE} (e : FE) (ha : a.Canon) (ha' : a'.Canon) :
    Par (Leak.Field.pow c a e) (Leak.Field.pow c a' e) fun x y => x.Canon ∧ y.Canon :=
  fPowLoop_par c _ _ _ _ _ _ ha Field.one_canon ha' Field.one_canon

theorem sqr_ok (c : Cfg) {a : Sc} (ha : a.SCanon) : ∃ x : Sc, (Leak.Scalar.square c a).val = .ok x ∧ x.SCanon := by
  rw [Leak.Scalar.square_val]
  obtain ⟨x, e, k, _⟩ := Scalar.square_spec c a ha.1
  exact ⟨x, e, k⟩

theorem sMul_ok (c : Cfg) {a b : Sc} (ha : a.SCanon) (hb : b.SCanon) :
    ∃ x : Sc, (Leak.Scalar.mul c a b).val = .ok x ∧ x.SCanon := by
  rw [Leak.Scalar.mul_val]
  obtain ⟨x, e, k, _⟩ := Scalar.mul_spec c a b ha.1 hb.1
  exact ⟨x, e, k⟩

theorem sMul_par (c : Cfg) {a b a' b' : Sc} (ha : a.SCanon) (hb : b.SCanon) (ha' : a'.SCanon) (hb' : b'.SCanon) :
    Par (Leak.Scalar.mul c a b) (Leak.Scalar.mul c a' b') fun x y => x.SCanon ∧ y.SCanon := by
  obtain ⟨t, ht⟩ := Leak.Scalar.mul_ct c
  obtain ⟨x, e, k⟩ := sMul_ok c ha hb
  obtain ⟨x', e', k'⟩ := sMul_ok c ha' hb'
  exact .const (ht _ _) (ht _ _) e e' ⟨k, k'⟩

theorem sqr_par (c : Cfg) {a a' : Sc} (ha : a.SCanon) (ha' : a'.SCanon) :
    Par (Leak.Scalar.square c a) (Leak.Scalar.square c a') fun x y => x.SCanon ∧ y.SCanon := by
  obtain ⟨t, ht⟩ := Leak.Scalar.square_ct c
  obtain ⟨x, e, k⟩ := sqr_ok c ha
  obtain ⟨x', e', k'⟩ := sqr_ok c ha'
  exact .const (ht _) (ht _) e e' ⟨k, k'⟩

theorem sPowLoop_par (c : Cfg) : ∀ (n : ℕ) (b r b' r' e : Sc), b.SCanon → r.SCanon → b'.SCanon → r'.SCanon →
    Par (Leak.Scalar.powLoop c n b r e) (Leak.Scalar.powLoop c n b' r' e) fun x y => x.SCanon ∧ y.SCanon := by
  intro n
  induction n with
  | zero => intro b r b' r' e _ _ _ _; exact ⟨rfl, .diverge⟩
  | succ n ih =>
    intro b r b' r' e hb hr hb' hr'
    rw [Leak.Scalar.powLoop, Leak.Scalar.powLoop]
    refine Par.same fun g => Par.same fun w => Par.ite ?_ (Par.pure ⟨hr, hr'⟩)
    refine Par.same fun v => Par.ite ?_ ?_
    · exact (sqr_par c hb hb').bind fun x y h => ih _ _ _ _ _ h.1 hr h.2 hr'
    · refine Par.same fun e1 => (sMul_par c hr hb hr' hb').bind fun x y h => Par.same fun e2 => ?_
      exact (sqr_par c hb hb').bind fun u v k => ih _ _ _ _ _ k.1 h.1 k.2 h.2

/-! ### Points -/

/-- Operations on points whose records do not depend on the points and that return. -/
structure OpsPar {T : Type} (O : Leak.PointOps T) (c : Cfg) (K : T → Prop) : Prop where
  identity : K O.identity
  add : ∀ {P Q P' Q'}, K P → K Q → K P' → K Q' → Par (O.add c P Q) (O.add c P' Q') fun x y => K x ∧ K y
  sub : ∀ {P Q P' Q'}, K P → K Q → K P' → K Q' → Par (O.sub c P Q) (O.sub c P' Q') fun x y => K x ∧ K y
  double : ∀ {P P'}, K P → K P' → Par (O.double c P) (O.double c P') fun x y => K x ∧ K y

theorem opsPar_of {T : Type} (O : Leak.PointOps T) (c : Cfg) (K : T → Prop) {O' : PointOps T} (he : O.erase = O')
    (h : TotSpec O' K) (ha : ∃ t, ∀ p q, Const c (O.add c p q) t) (hs : ∃ t, ∀ p q, Const c (O.sub c p q) t)
    (hd : ∃ t, ∀ p, Const c (O.double c p) t) : OpsPar O c K := by
  subst he
  obtain ⟨ta, ha⟩ := ha
  obtain ⟨ts, hs⟩ := hs
  obtain ⟨td, hd⟩ := hd
  refine ⟨h.identity, fun h1 h2 h3 h4 => ?_, fun h1 h2 h3 h4 => ?_, fun h1 h2 => ?_⟩
  · obtain ⟨x, k, e⟩ := h.add h1 h2
    obtain ⟨x', k', e'⟩ := h.add h3 h4
    exact .const (ha _ _) (ha _ _) (e c) (e' c) ⟨k, k'⟩
  · obtain ⟨x, k, e⟩ := h.sub h1 h2
    obtain ⟨x', k', e'⟩ := h.sub h3 h4
    exact .const (hs _ _) (hs _ _) (e c) (e' c) ⟨k, k'⟩
  · obtain ⟨x, k, e⟩ := h.double h1
    obtain ⟨x', k', e'⟩ := h.double h2
    exact .const (hd _) (hd _) (e c) (e' c) ⟨k, k'⟩

section Mul
variable {T : Type} {O : Leak.PointOps T} {c : Cfg} {K : T → Prop}

theorem OpsPar.daaLoop (h : OpsPar O c K) : ∀ (n : ℕ) (N Q N' Q' : T) (s : Sc), K N → K Q → K N' → K Q' →
    Par (Leak.doubleAndAddLoop O c n N s Q) (Leak.doubleAndAddLoop O c n N' s Q') fun x y => K x ∧ K y := by
  intro n
  induction n with
  | zero => intro N Q N' Q' s _ _ _ _; exact ⟨rfl, .diverge⟩
  | succ n ih =>
    intro N Q N' Q' s hN hQ hN' hQ'
    rw [Leak.doubleAndAddLoop, Leak.doubleAndAddLoop]
    refine Par.same fun z => Par.same fun w => Par.ite ?_ (Par.pure ⟨hQ, hQ'⟩)
    refine Par.same fun o => Par.ite ?_ ?_
    · exact (h.add hQ hN hQ' hN').bind fun x y k => (h.double hN hN').bind fun u v l => ih _ _ _ _ _ l.1 k.1 l.2 k.2
    · exact (Par.pure (R := fun x y => K x ∧ K y) ⟨hQ, hQ'⟩).bind fun x y k => (h.double hN hN').bind fun u v l =>
        ih _ _ _ _ _ l.1 k.1 l.2 k.2

theorem OpsPar.daa (h : OpsPar O c K) {P P' : T} (s : Sc) (hP : K P) (hP' : K P') :
    Par (Leak.doubleAndAdd O c P s) (Leak.doubleAndAdd O c P' s) fun x y => K x ∧ K y :=
  h.daaLoop _ _ _ _ _ _ hP h.identity hP' h.identity

theorem OpsPar.ltrLoop (h : OpsPar O c K) {P P' : T} (hP : K P) (hP' : K P') (bits : Vector UInt8 256) :
    ∀ (n : ℕ) (hn : n ≤ 256) (Q Q' : T), K Q → K Q' →
    Par (Leak.ltrLoop O c P bits n hn Q) (Leak.ltrLoop O c P' bits n hn Q') fun x y => K x ∧ K y := by
  intro n
  induction n with
  | zero => intro hn Q Q' hQ hQ'; exact Par.pure ⟨hQ, hQ'⟩
  | succ n ih =>
    intro hn Q Q' hQ hQ'
    rw [Leak.ltrLoop, Leak.ltrLoop]
    refine (h.double hQ hQ').bind fun x y k => Par.same fun b => Par.ite ?_ ?_
    · exact (h.add k.1 hP k.2 hP').bind fun u v l => ih _ _ _ l.1 l.2
    · exact (Par.pure (R := fun x y => K x ∧ K y) k).bind fun u v l => ih _ _ _ l.1 l.2

theorem OpsPar.ltr (h : OpsPar O c K) {P P' : T} (s : Sc) (hP : K P) (hP' : K P') :
    Par (Leak.ltrBinMul O c P s) (Leak.ltrBinMul O c P' s) fun x y => K x ∧ K y :=
  h.ltrLoop hP hP' _ _ _ _ _ h.identity h.identity

theorem OpsPar.nafLoop (h : OpsPar O c K) {P P' : T} (hP : K P) (hP' : K P') (naf : Vector ℤ 256) :
    ∀ (n : ℕ) (hn : n ≤ 256) (Q Q' : T), K Q → K Q' →
    Par (Leak.nafMulLoop O c P naf n hn Q) (Leak.nafMulLoop O c P' naf n hn Q') fun x y => K x ∧ K y := by
  intro n
  induction n with
  | zero => intro hn Q Q' hQ hQ'; exact Par.pure ⟨hQ, hQ'⟩
  | succ n ih =>
    intro hn Q Q' hQ hQ'
    rw [Leak.nafMulLoop, Leak.nafMulLoop]
    refine (h.double hQ hQ').bind fun x y k => Par.same fun b => Par.ite ?_ (Par.same fun d => Par.ite ?_ ?_)
    · exact (h.add k.1 hP k.2 hP').bind fun u v l => ih _ _ _ l.1 l.2
    · exact (h.sub k.1 hP k.2 hP').bind fun u v l => ih _ _ _ l.1 l.2
    · exact (Par.pure (R := fun x y => K x ∧ K y) k).bind fun u v l => ih _ _ _ l.1 l.2

theorem OpsPar.naf (h : OpsPar O c K) {P P' : T} (s : Sc) (hP : K P) (hP' : K P') :
    Par (Leak.binaryNafMul O c P s) (Leak.binaryNafMul O c P' s) fun x y => K x ∧ K y :=
  Par.same fun v => h.nafLoop hP hP' v _ _ _ _ h.identity h.identity

theorem OpsPar.pow2 (h : OpsPar O c K) {P P' : T} (k : ℕ) (hP : K P) (hP' : K P') :
    Par (Leak.mulByPow2 O c P k) (Leak.mulByPow2 O c P' k) fun x y => K x ∧ K y :=
  Par.same fun s => h.daa s hP hP'

end Mul

theorem edPar (c : Cfg) : OpsPar Leak.Ed.ops c EdPoint.Red :=
  opsPar_of _ c _ Leak.Ed.ops_erase Ed.totSpec (Leak.Ed.add_ct c) (Leak.Ed.sub_ct c) (Leak.Ed.double_ct c)

theorem projPar (c : Cfg) : OpsPar Leak.Proj.ops c ProjPoint.Red :=
  opsPar_of _ c _ Leak.Proj.ops_erase Proj.totSpec (Leak.Proj.add_ct c) (Leak.Proj.sub_ct c) (Leak.Proj.double_ct c)

theorem risOps_erase : risOps.erase = Ristretto.ops := by
  unfold Leak.PointOps.erase risOps Ristretto.ops
  simp only [Leak.Ed.add_val, Leak.Ristretto.sub_val, Leak.Ed.double_val]
  rfl

theorem risPar (c : Cfg) : OpsPar risOps c EdPoint.Red := by
  refine opsPar_of _ c _ risOps_erase Ristretto.totSpec (Leak.Ed.add_ct c) ?_ (Leak.Ed.double_ct c)
  obtain ⟨tn, hn⟩ := Leak.Ed.neg_ct c
  obtain ⟨ta, ha⟩ := Leak.Ed.add_ct c
  exact ⟨_, fun p q => (hn _).bind fun _ => ha _ _⟩

end Quiet
end Zerocaf
