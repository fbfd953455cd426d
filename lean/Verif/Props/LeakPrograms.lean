import Verif.Proof.LeakPrograms

/-!
# C116: programs that branch on public data only

A program that calls the functions of `Quiet.Op` on secrets, and branches and loops on public data only, reveals through
its control flow nothing beyond the values it reveals on purpose. Two runs with the same public inputs, whatever the
secrets, leave the same record exactly if they reveal the same values; then they also end in the same way and return
the same public results.
-/

set_option exponentiation.threshold 600

namespace Zerocaf
namespace Quiet

open Leak

/-! ### Specification -/

/-- Two values with the same public parts. -/
def Low : (s : STy) → Val s → Val s → Prop
  | .pub _, a, b => a = b
  | .prod s t, (v : Val s × Val t), (w : Val s × Val t) => Low s v.1 w.1 ∧ Low t v.2 w.2
  | .list s, (l : List (Val s)), (m : List (Val s)) => List.Forall₂ (Low s) l m
  | .field, _, _ => True
  | .scalar, _, _ => True
  | .ext, _, _ => True
  | .proj, _, _ => True
  | .aff, _, _ => True
  | .choice, _, _ => True
  | .bytes, _, _ => True

/-- The values a record shows on purpose. -/
def shown : List Obs → List (Sigma Val)
  | [] => []
  | .shown s v :: l => ⟨s, v⟩ :: shown l
  | .lib _ :: l => shown l
  | .br _ :: l => shown l

/-- Programs that reveal nothing on purpose. -/
def Prog.Silent : {s t : STy} → Prog s t → Prop
  | _, _, .reveal => False
  | _, _, .seq f g => f.Silent ∧ g.Silent
  | _, _, .pair f g => f.Silent ∧ g.Silent
  | _, _, .ite f g => f.Silent ∧ g.Silent
  | _, _, .matchOpt f g => f.Silent ∧ g.Silent
  | _, _, .loop f => f.Silent
  | _, _, .each f => f.Silent
  | _, _, .fold f => f.Silent
  | _, _, _ => True

/-! ### Calls -/

/-- Two reduced values with the same public parts. -/
def Both (t : STy) (v w : Val t) : Prop := Good t v ∧ Good t w ∧ Low t v w

/-- A function with a fixed record that returns. -/
theorem one {α β : Type} {A : α → Prop} {B : β → Prop} {c : Cfg} {f : α → LM β} (h : ∃ t, ∀ a, Const c (f a) t)
    (tot : ∀ a, A a → ∃ x, (f a).val = .ok x ∧ B x) {v v' : α} (g : A v) (g' : A v') :
    Par (f v) (f v') fun x y => B x ∧ B y ∧ True := by
  obtain ⟨t, ht⟩ := h
  obtain ⟨x, e, k⟩ := tot v g
  obtain ⟨x', e', k'⟩ := tot v' g'
  exact .const (ht _) (ht _) e e' ⟨k, k', trivial⟩

theorem ex2 {α β γ : Type} {c : Cfg} {f : α → β → LM γ} (h : ∃ t, ∀ a b, Const c (f a b) t) :
    ∃ t, ∀ v : α × β, Const c (f v.1 v.2) t := h.elim fun t ht => ⟨t, fun _ => ht _ _⟩

theorem Par.true {α : Type} {m m' : LM α} {A : α → Prop} (h : Par m m' fun x y => A x ∧ A y) :
    Par m m' fun x y => A x ∧ A y ∧ True := h.mono fun _ _ k => ⟨k.1, k.2, trivial⟩

theorem val_ok {α : Type} {m : LM α} {r : Res α} {A : α → Prop} (h : m.val = r) (h' : ∃ x, r = .ok x ∧ A x) :
    ∃ x, m.val = .ok x ∧ A x := by rw [h]; exact h'

theorem sOk {r : Res Sc} {n : ℕ} (h : ∃ x, r = .ok x ∧ x.SCanon ∧ x.val = n) : ∃ x : Sc, r = .ok x ∧ x.SCanon :=
  h.elim fun x hx => ⟨x, hx.1, hx.2.1⟩

theorem bOk {r : Res Bool} (h : ∃ b, r = .ok b) : ∃ b, r = .ok b ∧ True := h.elim fun b hb => ⟨b, hb, trivial⟩

theorem legendre_par (c : Cfg) {a a' : FE} (ha : a.Canon) (ha' : a'.Canon) :
    Par (Leak.Field.legendre c a) (Leak.Field.legendre c a') fun _ _ => True ∧ True ∧ True := by
  unfold Leak.Field.legendre
  refine (fPow_par c _ ha ha').bind fun x y _ => Par.bind (R := fun _ _ => True) ?_ fun _ _ _ =>
    Par.pure ⟨trivial, trivial, trivial⟩
  exact .const (c := c) (Leak.Field.ctEq_ct c _ _) (Leak.Field.ctEq_ct c _ _) (Leak.Field.ctEq_val _ _)
    (Leak.Field.ctEq_val _ _) trivial

theorem aff_form {A : AffPoint} (h : A.X.Canon ∧ A.Y.Canon) : A = ⟨enc A.X.val, enc A.Y.val⟩ :=
  AffPoint.ext (h.1.eq_enc rfl) (h.2.eq_enc rfl)

theorem ofProj_ok (c : Cfg) {Q : ProjPoint} (h : Q.Red) : ∃ P : EdPoint, Ed.ofProj c Q = .ok P ∧ P.Red := by
  rw [h.form]
  unfold Ed.ofProj
  simp only [Field.mul_enc, Field.square_enc, Res.ok_bind, Res.pure_eq]
  exact ⟨_, rfl, EdPoint.red_mk _ _ _ _⟩

theorem ofAff_ok (c : Cfg) {A : AffPoint} (h : A.X.Canon ∧ A.Y.Canon) : ∃ P : EdPoint, Ed.ofAff c A = .ok P ∧ P.Red := by
  rw [aff_form h]
  unfold Ed.ofAff
  simp only [Field.mul_enc, Res.ok_bind, Res.pure_eq]
  exact ⟨_, rfl, enc_canon _, enc_canon _, Field.one_canon, enc_canon _⟩

theorem affNeg_ok (c : Cfg) {A : AffPoint} (h : A.X.Canon ∧ A.Y.Canon) :
    ∃ B : AffPoint, Aff.neg c A = .ok B ∧ B.X.Canon ∧ B.Y.Canon := by
  rw [aff_form h]
  unfold Aff.neg
  simp only [Field.neg_enc, Res.ok_bind, Res.pure_eq]
  exact ⟨_, rfl, enc_canon _, enc_canon _⟩

theorem coset_ok (c : Cfg) {P : EdPoint} (h : P.Red) : ∃ x : EdPoint × EdPoint × EdPoint × EdPoint,
    Ed.coset4 c P = .ok x ∧ x.1.Red ∧ x.2.1.Red ∧ x.2.2.1.Red ∧ x.2.2.2.Red := by
  have r0 : Ed.COSET0.Red := by refine ⟨?_, ?_, ?_, ?_⟩ <;> decide
  have r1 : Ed.COSET1.Red := by refine ⟨?_, ?_, ?_, ?_⟩ <;> decide
  have r2 : Ed.COSET2.Red := by refine ⟨?_, ?_, ?_, ?_⟩ <;> decide
  obtain ⟨S0, k0, f0⟩ := Ed.totSpec.add h r0
  obtain ⟨S1, k1, f1⟩ := Ed.totSpec.add h r1
  obtain ⟨S2, k2, f2⟩ := Ed.totSpec.add h r2
  have g0 : Ed.add c P Ed.COSET0 = .ok S0 := f0 c
  have g1 : Ed.add c P Ed.COSET1 = .ok S1 := f1 c
  have g2 : Ed.add c P Ed.COSET2 = .ok S2 := f2 c
  refine ⟨(P, S0, S1, S2), ?_, h, k0, k1, k2⟩
  simp only [Ed.coset4, g0, g1, g2, Res.ok_bind, Res.pure_eq]

theorem valid_ok (c : Cfg) (Q : ProjPoint) (h : Q.Red) : ∃ b, Proj.isValid c Q = .ok b := by
  obtain ⟨b, e, _⟩ := Props.C89_valid Q h
  exact ⟨b, e c⟩

theorem affValid_ok (c : Cfg) (A : AffPoint) (h : A.X.Canon ∧ A.Y.Canon) : ∃ b, Aff.isValid c A = .ok b := by
  obtain ⟨_, _, _, ⟨b, e, _⟩, _⟩ := Props.C24_conversions c c Ed.identity Ed.totSpec.identity Proj.identity
    Proj.totSpec.identity A h.1 h.2
  exact ⟨b, e⟩

theorem rEq_ok (c : Cfg) (P Q : EdPoint) (hP : P.Red) (hQ : Q.Red) : ∃ b, Ristretto.ctEq c P Q = .ok b := by
  rw [hP.form, hQ.form]
  simp only [Ristretto.ctEq, Field.mul_enc, Res.ok_bind, Res.pure_eq, Field.ctEq_enc]
  exact ⟨_, rfl⟩

theorem pure_par {α : Type} {x y : α} {A : α → Prop} (hx : A x) (hy : A y) :
    Par (Pure.pure x : LM α) (Pure.pure y) fun x y => A x ∧ A y ∧ True := Par.pure ⟨hx, hy, trivial⟩

/-- Calls on secrets with equal public arguments leave the same record and end in the same way. -/
theorem op_par (c : Cfg) {s t : STy} (o : Op s t) (v v' : Val s) (g : Good s v) (g' : Good s v') (l : Low s v v') :
    Par (o.run c v) (o.run c v') (Both t) := by
  cases o with
  | fAdd =>
    exact one (A := fun v : FE × FE => v.1.Canon ∧ v.2.Canon) (B := L5.Canon) (ex2 (Leak.Field.add_ct c))
      (fun v h => val_ok (Leak.Field.add_val _ _ _) (by rw [← h.1.enc, ← h.2.enc]; exact fOk (Field.add_enc _ _ _))) g g'
  | fSub =>
    exact one (A := fun v : FE × FE => v.1.Canon ∧ v.2.Canon) (B := L5.Canon) (ex2 (Leak.Field.sub_ct c))
      (fun v h => val_ok (Leak.Field.sub_val _ _ _) (by rw [← h.1.enc, ← h.2.enc]; exact fOk (Field.sub_enc _ _ _))) g g'
  | fMul =>
    exact one (A := fun v : FE × FE => v.1.Canon ∧ v.2.Canon) (B := L5.Canon) (ex2 (Leak.Field.mul_ct c))
      (fun v h => fMul_ok c h.1 h.2) g g'
  | fNeg =>
    exact one (A := L5.Canon) (B := L5.Canon) (Leak.Field.neg_ct c)
      (fun v h => val_ok (Leak.Field.neg_val _ _) (by rw [← h.enc]; exact fOk (Field.neg_enc _ _))) g g'
  | fSquare =>
    exact one (A := L5.Canon) (B := L5.Canon) (Leak.Field.square_ct c)
      (fun v h => val_ok (Leak.Field.square_val _ _) (by rw [← h.enc]; exact fOk (Field.square_enc _ _))) g g'
  | fHalf =>
    exact one (A := L5.Canon) (B := L5.Canon) (Leak.Field.half_ct c)
      (fun v h => val_ok (Leak.Field.half_val _ _) (fOk (Field.half_wf _ _ h.1))) g g'
  | fEq =>
    exact one (A := fun v : FE × FE => v.1.Canon ∧ v.2.Canon) (B := fun _ : Bool => True)
      (f := fun v => Leak.Field.ctEq v.1 v.2) (c := c) ⟨_, fun v => Leak.Field.ctEq_ct c _ _⟩
      (fun v h => val_ok (Leak.Field.ctEq_val _ _) ⟨_, rfl, trivial⟩) g g'
  | fSelect =>
    obtain ⟨⟨a, b⟩, d⟩ : (FE × FE) × Bool := v
    obtain ⟨⟨a', b'⟩, d'⟩ : (FE × FE) × Bool := v'
    refine pure_par (A := L5.Canon) ?_ ?_
    · rw [Field.condSelect_spec]; cases d; exacts [g.1.1, g.1.2]
    · rw [Field.condSelect_spec]; cases d'; exacts [g'.1.1, g'.1.2]
  | fCondNeg =>
    exact one (A := fun v : FE × Bool => v.1.Canon ∧ True) (B := L5.Canon) (ex2 (Leak.Field.condNegate_ct c))
      (fun v h => val_ok (Leak.Field.condNegate_val _ _ _) (by rw [← h.1.enc]; exact fOk (Field.condNegate_enc _ _ _)))
      g g'
  | fPow =>
    obtain ⟨a, e⟩ : FE × FE := v
    obtain ⟨a', e'⟩ : FE × FE := v'
    obtain rfl : e = e' := l.2
    exact (fPow_par c e g.1 g'.1).true
  | fLegendre => exact legendre_par c g g'
  | fIsEven => exact pure_par (α := Bool) (A := fun _ => True) trivial trivial
  | fToBytes => exact pure_par (α := Bytes32) (A := fun _ => True) trivial trivial
  | fRandom => exact pure_par (A := L5.Canon) (Field.random_spec _).1 (Field.random_spec _).1
  | sAdd =>
    exact one (A := fun v : Sc × Sc => v.1.SCanon ∧ v.2.SCanon) (B := L5.SCanon) (ex2 (Leak.Scalar.add_ct c))
      (fun v h => val_ok (Leak.Scalar.add_val _ _ _) (sOk (Scalar.add_spec c _ _ h.1 h.2))) g g'
  | sSub =>
    exact one (A := fun v : Sc × Sc => v.1.SCanon ∧ v.2.SCanon) (B := L5.SCanon) (ex2 (Leak.Scalar.sub_ct c))
      (fun v h => val_ok (Leak.Scalar.sub_val _ _ _) (sOk (Scalar.sub_spec c _ _ h.1 h.2))) g g'
  | sMul =>
    exact one (A := fun v : Sc × Sc => v.1.SCanon ∧ v.2.SCanon) (B := L5.SCanon) (ex2 (Leak.Scalar.mul_ct c))
      (fun v h => sMul_ok c h.1 h.2) g g'
  | sNeg =>
    exact one (A := L5.SCanon) (B := L5.SCanon) (Leak.Scalar.neg_ct c)
      (fun v h => val_ok (Leak.Scalar.neg_val _ _) (sOk (Scalar.neg_spec c _ h))) g g'
  | sSquare => exact one (A := L5.SCanon) (B := L5.SCanon) (Leak.Scalar.square_ct c) (fun v h => sqr_ok c h) g g'
  | sHalf =>
    exact one (A := L5.SCanon) (B := L5.SCanon) (Leak.Scalar.half_ct c)
      (fun v h => val_ok (Leak.Scalar.half_val _ _)
        (sOk (Scalar.mul_spec c _ _ h.1 Scalar.INVERSE_MOD_TWO_spec.1))) g g'
  | sEq =>
    exact one (A := fun v : Sc × Sc => v.1.SCanon ∧ v.2.SCanon) (B := fun _ : Bool => True)
      (f := fun v => Leak.Scalar.ctEq v.1 v.2) (c := c) ⟨_, fun v => Leak.Scalar.ctEq_ct c _ _⟩
      (fun v h => val_ok (Leak.Scalar.ctEq_val _ _) ⟨_, rfl, trivial⟩) g g'
  | sPow =>
    obtain ⟨a, e⟩ : Sc × Sc := v
    obtain ⟨a', e'⟩ : Sc × Sc := v'
    obtain rfl : e = e' := l.2
    exact (sPowLoop_par c _ _ _ _ _ _ g.1 Scalar.one_canon g'.1 Scalar.one_canon).true
  | sIsEven => exact pure_par (α := Bool) (A := fun _ => True) trivial trivial
  | sToBytes => exact pure_par (α := Bytes32) (A := fun _ => True) trivial trivial
  | eAdd => exact ((edPar c).add (P := v.1) (Q := v.2) g.1 g.2 (P' := v'.1) (Q' := v'.2) g'.1 g'.2).true
  | eSub => exact ((edPar c).sub (P := v.1) (Q := v.2) g.1 g.2 (P' := v'.1) (Q' := v'.2) g'.1 g'.2).true
  | eNeg =>
    exact one (A := EdPoint.Red) (B := EdPoint.Red) (Leak.Ed.neg_ct c) (fun P h => val_ok (Leak.Ed.neg_val _ _) (by
      obtain ⟨_, _, _, N, _, _, _, k, e⟩ := Props.C89_extended_ops P P h h
      exact ⟨N, (e c).2.2.2, k⟩)) g g'
  | eDouble => exact ((edPar c).double (P := v) (P' := v') g g').true
  | eValid =>
    exact one (A := EdPoint.Red) (B := fun _ : Bool => True) (Leak.Ed.isValid_ct c)
      (fun P h => val_ok (Leak.Ed.isValid_val _ _) (bOk (valid_ok c (Proj.ofEd P) ⟨h.1, h.2.1, h.2.2.1⟩))) g g'
  | eOfProj =>
    exact one (A := ProjPoint.Red) (B := EdPoint.Red) (Leak.Ed.ofProj_ct c)
      (fun P h => val_ok (Leak.Ed.ofProj_val _ _) (ofProj_ok c h)) g g'
  | eOfAff =>
    exact one (A := fun A : AffPoint => A.X.Canon ∧ A.Y.Canon) (B := EdPoint.Red) (Leak.Ed.ofAff_ct c)
      (fun P h => val_ok (Leak.Ed.ofAff_val _ _) (ofAff_ok c h)) g g'
  | eCoset4 =>
    have h := one (A := EdPoint.Red) (B := fun x : EdPoint × EdPoint × EdPoint × EdPoint =>
      x.1.Red ∧ x.2.1.Red ∧ x.2.2.1.Red ∧ x.2.2.2.Red) (Leak.Ed.coset4_ct c)
      (fun P h => val_ok (Leak.Ed.coset4_val _ _) (coset_ok c h)) g g'
    exact h.mono fun x y k => ⟨k.1, k.2.1, trivial, trivial, trivial, trivial⟩
  | eMul =>
    obtain ⟨P, n⟩ : EdPoint × Sc := v
    obtain ⟨P', n'⟩ : EdPoint × Sc := v'
    obtain rfl : n = n' := l.2
    exact ((edPar c).daa n g.1 g'.1).true
  | eLtr =>
    obtain ⟨P, n⟩ : EdPoint × Sc := v
    obtain ⟨P', n'⟩ : EdPoint × Sc := v'
    obtain rfl : n = n' := l.2
    exact ((edPar c).ltr n g.1 g'.1).true
  | eNaf =>
    obtain ⟨P, n⟩ : EdPoint × Sc := v
    obtain ⟨P', n'⟩ : EdPoint × Sc := v'
    obtain rfl : n = n' := l.2
    exact ((edPar c).naf n g.1 g'.1).true
  | eCofactor => exact ((edPar c).daa _ g g').true
  | ePow2 =>
    obtain ⟨P, k⟩ : EdPoint × ℕ := v
    obtain ⟨P', k'⟩ : EdPoint × ℕ := v'
    obtain rfl : k = k' := l.2
    exact ((edPar c).pow2 k g.1 g'.1).true
  | pAdd => exact ((projPar c).add (P := v.1) (Q := v.2) g.1 g.2 (P' := v'.1) (Q' := v'.2) g'.1 g'.2).true
  | pSub => exact ((projPar c).sub (P := v.1) (Q := v.2) g.1 g.2 (P' := v'.1) (Q' := v'.2) g'.1 g'.2).true
  | pNeg =>
    exact one (A := ProjPoint.Red) (B := ProjPoint.Red) (Leak.Proj.neg_ct c)
      (fun P h => val_ok (Leak.Proj.neg_val _ _) (by
        obtain ⟨_, _, _, N, _, _, _, k, e⟩ := Props.C89_projective_ops P P h h
        exact ⟨N, (e c).2.2.2, k⟩)) g g'
  | pDouble => exact ((projPar c).double (P := v) (P' := v') g g').true
  | pValid =>
    exact one (A := ProjPoint.Red) (B := fun _ : Bool => True) (Leak.Proj.isValid_ct c)
      (fun P h => val_ok (Leak.Proj.isValid_val _ _) (bOk (valid_ok c P h))) g g'
  | pOfExt => exact pure_par (A := ProjPoint.Red) ⟨g.1, g.2.1, g.2.2.1⟩ ⟨g'.1, g'.2.1, g'.2.2.1⟩
  | pMul =>
    obtain ⟨P, n⟩ : ProjPoint × Sc := v
    obtain ⟨P', n'⟩ : ProjPoint × Sc := v'
    obtain rfl : n = n' := l.2
    exact ((projPar c).daa n g.1 g'.1).true
  | pLtr =>
    obtain ⟨P, n⟩ : ProjPoint × Sc := v
    obtain ⟨P', n'⟩ : ProjPoint × Sc := v'
    obtain rfl : n = n' := l.2
    exact ((projPar c).ltr n g.1 g'.1).true
  | pNaf =>
    obtain ⟨P, n⟩ : ProjPoint × Sc := v
    obtain ⟨P', n'⟩ : ProjPoint × Sc := v'
    obtain rfl : n = n' := l.2
    exact ((projPar c).naf n g.1 g'.1).true
  | pCofactor => exact ((projPar c).daa _ g g').true
  | pPow2 =>
    obtain ⟨P, k⟩ : ProjPoint × ℕ := v
    obtain ⟨P', k'⟩ : ProjPoint × ℕ := v'
    obtain rfl : k = k' := l.2
    exact ((projPar c).pow2 k g.1 g'.1).true
  | aNeg =>
    exact one (A := fun A : AffPoint => A.X.Canon ∧ A.Y.Canon) (B := fun A : AffPoint => A.X.Canon ∧ A.Y.Canon)
      (Leak.Aff.neg_ct c) (fun P h => val_ok (Leak.Aff.neg_val _ _) (affNeg_ok c h)) g g'
  | aEq =>
    exact one (A := fun _ : AffPoint × AffPoint => True) (B := fun _ : Bool => True) (ex2 (Leak.Aff.ctEq_ct c))
      (fun v h => val_ok (Leak.Aff.ctEq_val _ _) ⟨_, rfl, trivial⟩) trivial trivial
  | aValid =>
    exact one (A := fun A : AffPoint => A.X.Canon ∧ A.Y.Canon) (B := fun _ : Bool => True) (Leak.Aff.isValid_ct c)
      (fun P h => val_ok (Leak.Aff.isValid_val _ _) (bOk (affValid_ok c P h))) g g'
  | rSub => exact ((risPar c).sub (P := v.1) (Q := v.2) g.1 g.2 (P' := v'.1) (Q' := v'.2) g'.1 g'.2).true
  | rEq =>
    exact one (A := fun v : EdPoint × EdPoint => v.1.Red ∧ v.2.Red) (B := fun _ : Bool => True)
      (ex2 (Leak.Ristretto.ctEq_ct c))
      (fun v h => val_ok (Leak.Ristretto.ctEq_val _ _ _) (bOk (rEq_ok c _ _ h.1 h.2))) g g'
  | rMul =>
    obtain ⟨P, n⟩ : EdPoint × Sc := v
    obtain ⟨P', n'⟩ : EdPoint × Sc := v'
    obtain rfl : n = n' := l.2
    exact ((risPar c).daa n g.1 g'.1).true
  | rLtr =>
    obtain ⟨P, n⟩ : EdPoint × Sc := v
    obtain ⟨P', n'⟩ : EdPoint × Sc := v'
    obtain rfl : n = n' := l.2
    exact ((risPar c).ltr n g.1 g'.1).true
  | rNaf =>
    obtain ⟨P, n⟩ : EdPoint × Sc := v
    obtain ⟨P', n'⟩ : EdPoint × Sc := v'
    obtain rfl : n = n' := l.2
    exact ((risPar c).naf n g.1 g'.1).true
  | rCofactor => exact ((risPar c).daa _ g g').true
  | rPow2 =>
    obtain ⟨P, k⟩ : EdPoint × ℕ := v
    obtain ⟨P', k'⟩ : EdPoint × ℕ := v'
    obtain rfl : k = k' := l.2
    exact ((risPar c).pow2 k g.1 g'.1).true
  | cNot => exact pure_par (α := Bool) (A := fun _ => True) trivial trivial
  | cAnd => exact pure_par (α := Bool) (A := fun _ => True) trivial trivial
  | cOr => exact pure_par (α := Bool) (A := fun _ => True) trivial trivial

theorem mul_vals {T : Type} {O : Leak.PointOps T} {O' : PointOps T} (h : O.erase = O') (c : Cfg) (P : T) (n : Sc) (k : ℕ) :
    (Leak.doubleAndAdd O c P n).val = doubleAndAdd O' c P n ∧ (Leak.ltrBinMul O c P n).val = ltrBinMul O' c P n ∧
    (Leak.binaryNafMul O c P n).val = binaryNafMul O' c P n ∧ (Leak.mulByCofactor O c P).val = mulByCofactor O' c P ∧
    (Leak.mulByPow2 O c P k).val = mulByPow2 O' c P k := by
  subst h
  exact ⟨Leak.doubleAndAdd_val _ c _ _, Leak.ltrBinMul_val _ c _ _, Leak.binaryNafMul_val _ c _ _,
    Leak.mulByCofactor_val _ c _, Leak.mulByPow2_val _ c _ _⟩

/-- Forgetting the record of a call gives the function of the model. -/
theorem op_val (c : Cfg) {s t : STy} (o : Op s t) (v : Val s) : (o.run c v).val = o.plain c v := by
  cases o with
  | fAdd => exact Leak.Field.add_val _ _ _
  | fSub => exact Leak.Field.sub_val _ _ _
  | fMul => exact Leak.Field.mul_val _ _ _
  | fNeg => exact Leak.Field.neg_val _ _
  | fSquare => exact Leak.Field.square_val _ _
  | fHalf => exact Leak.Field.half_val _ _
  | fEq => exact Leak.Field.ctEq_val _ _
  | fSelect => exact LM.val_pure _
  | fCondNeg => exact Leak.Field.condNegate_val _ _ _
  | fPow => exact Leak.Field.pow_val _ _ _
  | fLegendre => exact Leak.Field.legendre_val _ _
  | fIsEven => exact LM.val_pure _
  | fToBytes => exact LM.val_pure _
  | fRandom => exact LM.val_pure _
  | sAdd => exact Leak.Scalar.add_val _ _ _
  | sSub => exact Leak.Scalar.sub_val _ _ _
  | sMul => exact Leak.Scalar.mul_val _ _ _
  | sNeg => exact Leak.Scalar.neg_val _ _
  | sSquare => exact Leak.Scalar.square_val _ _
  | sHalf => exact Leak.Scalar.half_val _ _
  | sEq => exact Leak.Scalar.ctEq_val _ _
  | sPow => exact Leak.Scalar.pow_val _ _ _
  | sIsEven => exact LM.val_pure _
  | sToBytes => exact LM.val_pure _
  | eAdd => exact Leak.Ed.add_val _ _ _
  | eSub => exact Leak.Ed.sub_val _ _ _
  | eNeg => exact Leak.Ed.neg_val _ _
  | eDouble => exact Leak.Ed.double_val _ _
  | eValid => exact Leak.Ed.isValid_val _ _
  | eOfProj => exact Leak.Ed.ofProj_val _ _
  | eOfAff => exact Leak.Ed.ofAff_val _ _
  | eCoset4 => exact Leak.Ed.coset4_val _ _
  | eMul => exact (mul_vals Leak.Ed.ops_erase c v.1 v.2 0).1
  | eLtr => exact (mul_vals Leak.Ed.ops_erase c v.1 v.2 0).2.1
  | eNaf => exact (mul_vals Leak.Ed.ops_erase c v.1 v.2 0).2.2.1
  | eCofactor => exact (mul_vals Leak.Ed.ops_erase c v Scalar.zero 0).2.2.2.1
  | ePow2 => exact (mul_vals Leak.Ed.ops_erase c v.1 Scalar.zero v.2).2.2.2.2
  | pAdd => exact Leak.Proj.add_val _ _ _
  | pSub => exact Leak.Proj.sub_val _ _ _
  | pNeg => exact Leak.Proj.neg_val _ _
  | pDouble => exact Leak.Proj.double_val _ _
  | pValid => exact Leak.Proj.isValid_val _ _
  | pOfExt => exact LM.val_pure _
  | pMul => exact (mul_vals Leak.Proj.ops_erase c v.1 v.2 0).1
  | pLtr => exact (mul_vals Leak.Proj.ops_erase c v.1 v.2 0).2.1
  | pNaf => exact (mul_vals Leak.Proj.ops_erase c v.1 v.2 0).2.2.1
  | pCofactor => exact (mul_vals Leak.Proj.ops_erase c v Scalar.zero 0).2.2.2.1
  | pPow2 => exact (mul_vals Leak.Proj.ops_erase c v.1 Scalar.zero v.2).2.2.2.2
  | aNeg => exact Leak.Aff.neg_val _ _
  | aEq => exact Leak.Aff.ctEq_val _ _
  | aValid => exact Leak.Aff.isValid_val _ _
  | rSub => exact Leak.Ristretto.sub_val _ _ _
  | rEq => exact Leak.Ristretto.ctEq_val _ _ _
  | rMul => exact (mul_vals risOps_erase c v.1 v.2 0).1
  | rLtr => exact (mul_vals risOps_erase c v.1 v.2 0).2.1
  | rNaf => exact (mul_vals risOps_erase c v.1 v.2 0).2.2.1
  | rCofactor => exact (mul_vals risOps_erase c v Scalar.zero 0).2.2.2.1
  | rPow2 => exact (mul_vals risOps_erase c v.1 Scalar.zero v.2).2.2.2.2
  | cNot => exact LM.val_pure _
  | cAnd => exact LM.val_pure _
  | cOr => exact LM.val_pure _

/-! ### Programs -/

theorem shown_append (a b : List Obs) : shown (a ++ b) = shown a ++ shown b := by
  induction a with
  | nil => rfl
  | cons x l ih => cases x <;> simp only [List.cons_append, shown, ih]

theorem shown_lib (l : List Ev) : shown (l.map .lib) = [] := by
  induction l with
  | nil => rfl
  | cons x l ih => exact ih

/-- If two runs reveal the same values, up to what follows, they leave the same record and end in the same way. -/
def QSync {α β : Type} (m : QM α) (m' : QM β) (R : α → β → Prop) : Prop :=
  ∀ z z', shown m.obs ++ z = shown m'.obs ++ z' → m.obs = m'.obs ∧ ResRel R m.val m'.val

section QSync
variable {α β α' β' : Type}

theorem QM.bind_obs (m : QM α) (f : α → QM β) : ∃ r, (m.bind f).obs = m.obs ++ r := by
  unfold QM.bind
  cases m.val with
  | ok a => exact ⟨_, rfl⟩
  | panic => exact ⟨[], (List.append_nil _).symm⟩
  | diverge => exact ⟨[], (List.append_nil _).symm⟩

theorem QSync.bind {m : QM α} {m' : QM α'} {f : α → QM β} {f' : α' → QM β'} {R : α → α' → Prop} {S : β → β' → Prop}
    (h : QSync m m' R) (h' : ∀ a a', R a a' → QSync (f a) (f' a') S) : QSync (m.bind f) (m'.bind f') S := by
  intro z z' e
  obtain ⟨r, hr⟩ := QM.bind_obs m f
  obtain ⟨r', hr'⟩ := QM.bind_obs m' f'
  have e0 := e
  rw [hr, hr', shown_append, shown_append, List.append_assoc, List.append_assoc] at e0
  obtain ⟨ho, hv⟩ := h _ _ e0
  clear hr hr' e0
  unfold QM.bind at e ⊢
  generalize m.val = x at hv e
  generalize m'.val = y at hv e
  cases hv with
  | @ok a b k =>
    replace e : shown (m.obs ++ (f a).obs) ++ z = shown (m'.obs ++ (f' b).obs) ++ z' := e
    rw [shown_append, shown_append, List.append_assoc, List.append_assoc, ho] at e
    obtain ⟨h1, h2⟩ := h' a b k _ _ (List.append_cancel_left e)
    exact ⟨show m.obs ++ (f a).obs = m'.obs ++ (f' b).obs by rw [ho, h1], h2⟩
  | panic => exact ⟨ho, .panic⟩
  | diverge => exact ⟨ho, .diverge⟩

theorem QSync.pure {a : α} {b : β} {R : α → β → Prop} (h : R a b) : QSync (QM.pure a) (QM.pure b) R :=
  fun _ _ _ => ⟨rfl, .ok h⟩

theorem QSync.emit {a : α} {b : β} {R : α → β → Prop} (o : Obs) (h : R a b) : QSync (QM.emit o a) (QM.emit o b) R :=
  fun _ _ _ => ⟨rfl, .ok h⟩

theorem QSync.lib {m : LM α} {m' : LM β} {R : α → β → Prop} (h : Par m m' R) : QSync (QM.lib m) (QM.lib m') R :=
  fun _ _ _ => ⟨congrArg (List.map Obs.lib) h.1, h.2⟩

theorem QSync.mono {m : QM α} {m' : QM β} {R S : α → β → Prop} (h : QSync m m' R) (hs : ∀ a b, R a b → S a b) :
    QSync m m' S := fun z z' e => ⟨(h z z' e).1, (h z z' e).2.mono hs⟩

theorem loop_sync {f f' : α → QM α} {R : α → α → Prop} (h : ∀ a b, R a b → QSync (f a) (f' b) R) :
    ∀ (n : ℕ) (a b : α), R a b → QSync (loopQ f n a) (loopQ f' n b) R := by
  intro n
  induction n with
  | zero => intro a b r; exact .emit _ r
  | succ n ih => intro a b r; exact (QSync.emit _ r).bind fun a b r => (h a b r).bind fun a b r => ih a b r

theorem fold_sync {f : α → β → QM β} {f' : α' → β → QM β} {A : α → α' → Prop} {R : β → β → Prop}
    (h : ∀ a a' x y, A a a' → R x y → QSync (f a x) (f' a' y) R) :
    ∀ (l : List α) (l' : List α'), List.Forall₂ A l l' → ∀ x y, R x y → QSync (foldQ f l x) (foldQ f' l' y) R := by
  intro l l' hl
  induction hl with
  | nil => intro x y r; exact .emit _ r
  | cons ha _ ih =>
    intro x y r
    exact (QSync.emit _ r).bind fun x y r => (h _ _ x y ha r).bind fun x y r => ih x y r

end QSync

theorem low_refl : ∀ (s : STy) (v : Val s), Low s v v
  | .pub _, _ => rfl
  | .prod s t, (v : Val s × Val t) => ⟨low_refl s v.1, low_refl t v.2⟩
  | .list s, (_ : List (Val s)) => List.forall₂_same.2 fun v _ => low_refl s v
  | .field, _ => trivial
  | .scalar, _ => trivial
  | .ext, _ => trivial
  | .proj, _ => trivial
  | .aff, _ => trivial
  | .choice, _ => trivial
  | .bytes, _ => trivial

theorem both_list {s : STy} {l m : List (Val s)} (h : Both (.list s) l m) : List.Forall₂ (Both s) l m := by
  obtain ⟨g, g', r⟩ := h
  change ∀ v ∈ l, Good s v at g
  change ∀ v ∈ m, Good s v at g'
  change List.Forall₂ (Low s) l m at r
  induction r with
  | nil => exact .nil
  | cons h _ ih =>
    exact .cons ⟨g _ List.mem_cons_self, g' _ List.mem_cons_self, h⟩
      (ih (fun v hv => g v (List.mem_cons_of_mem _ hv)) fun v hv => g' v (List.mem_cons_of_mem _ hv))

theorem both_cons {s : STy} {v w : Val s} {l m : List (Val s)} (h : Both s v w) (k : Both (.list s) l m) :
    Both (.list s) (v :: l : List (Val s)) (w :: m : List (Val s)) := by
  refine ⟨fun x hx => ?_, fun x hx => ?_, List.Forall₂.cons h.2.2 k.2.2⟩
  · rcases List.mem_cons.1 hx with rfl | hx
    · exact h.1
    · exact k.1 x hx
  · rcases List.mem_cons.1 hx with rfl | hx
    · exact h.2.1
    · exact k.2.1 x hx

theorem forall_eq {α : Type} (l : List α) : List.Forall₂ (fun a b : α => a = b) l l := List.forall₂_same.2 fun _ _ => rfl

/-- Runs with equal public inputs: equal revealed values, equal records. -/
theorem run_sync (c : Cfg) {s t : STy} (f : Prog s t) :
    ∀ v w : Val s, Both s v w → QSync (f.run c v) (f.run c w) (Both t) := by
  induction f with
  | op o => intro v w h; exact .lib (op_par c o v w h.1 h.2.1 h.2.2)
  | host f =>
    intro v w h
    obtain rfl := h.2.2
    exact .pure ⟨trivial, trivial, rfl⟩
  | call f =>
    intro v w h
    obtain rfl := h.2.2
    exact .lib ((Par.refl _).mono fun a b e => ⟨trivial, trivial, e⟩)
  | @conceal s =>
    intro v w h
    obtain rfl := h.2.2
    exact .pure ⟨Subtype.property v, Subtype.property v, low_refl s _⟩
  | @reveal s =>
    intro v w h z z' e
    have e1 : (⟨s, v⟩ : Sigma Val) = ⟨s, w⟩ := (List.cons.inj e).1
    obtain rfl : v = w := eq_of_heq (Sigma.mk.inj e1).2
    exact ⟨rfl, .ok ⟨trivial, trivial, rfl⟩⟩
  | skip => intro v w h; exact .pure h
  | drop => intro v w h; exact .pure ⟨trivial, trivial, rfl⟩
  | seq f g hf hg => intro v w h; exact (hf v w h).bind fun a b k => hg a b k
  | pair f g hf hg =>
    intro v w h
    exact (hf v w h).bind fun a b k => (hg v w h).bind fun a' b' k' =>
      .pure ⟨⟨k.1, k'.1⟩, ⟨k.2.1, k'.2.1⟩, k.2.2, k'.2.2⟩
  | fst => intro v w h; exact .pure ⟨h.1.1, h.2.1.1, h.2.2.1⟩
  | snd => intro v w h; exact .pure ⟨h.1.2, h.2.1.2, h.2.2.2⟩
  | @join α β =>
    intro v w h
    obtain ⟨a, b⟩ : α × β := v
    obtain ⟨a', b'⟩ : α × β := w
    obtain rfl : a = a' := h.2.2.1
    obtain rfl : b = b' := h.2.2.2
    exact .pure ⟨trivial, trivial, rfl⟩
  | @nil s t =>
    intro v w h
    exact .pure ⟨fun x hx => absurd hx List.not_mem_nil, fun x hx => absurd hx List.not_mem_nil, List.Forall₂.nil⟩
  | cons => intro v w h; exact .pure (both_cons ⟨h.1.1, h.2.1.1, h.2.2.1⟩ ⟨h.1.2, h.2.1.2, h.2.2.2⟩)
  | length => intro v w h; exact .pure ⟨trivial, trivial, h.2.2.length_eq⟩
  | @ite s t f g hf hg =>
    intro v w h
    obtain ⟨b, v⟩ : Bool × Val s := v
    obtain ⟨b', w⟩ : Bool × Val s := w
    obtain rfl : b = b' := h.2.2.1
    have k : Both s v w := ⟨h.1.2, h.2.1.2, h.2.2.2⟩
    refine QSync.bind (R := fun x y : Bool × Val s => x.1 = y.1 ∧ Both s x.2 y.2) (.emit _ ⟨rfl, k⟩) fun x y r => ?_
    obtain ⟨b, x⟩ := x
    obtain ⟨b', y⟩ := y
    obtain ⟨e, k⟩ := r
    obtain rfl : b = b' := e
    cases b with
    | true => exact hf _ _ k
    | false => exact hg _ _ k
  | @matchOpt α s t f g hf hg =>
    intro v w h
    obtain ⟨b, v⟩ : Option α × Val s := v
    obtain ⟨b', w⟩ : Option α × Val s := w
    obtain rfl : b = b' := h.2.2.1
    have k : Both s v w := ⟨h.1.2, h.2.1.2, h.2.2.2⟩
    refine QSync.bind (R := fun x y : Option α × Val s => x.1 = y.1 ∧ Both s x.2 y.2) (.emit _ ⟨rfl, k⟩)
      fun x y r => ?_
    obtain ⟨b, x⟩ := x
    obtain ⟨b', y⟩ := y
    obtain ⟨e, k⟩ := r
    obtain rfl : b = b' := e
    cases b with
    | some a => exact hf ((a, x) : α × Val s) ((a, y) : α × Val s) ⟨⟨trivial, k.1⟩, ⟨trivial, k.2.1⟩, rfl, k.2.2⟩
    | none => exact hg _ _ k
  | @loop s f hf =>
    intro v w h
    obtain ⟨n, v⟩ : ℕ × Val s := v
    obtain ⟨n', w⟩ : ℕ × Val s := w
    obtain rfl : n = n' := h.2.2.1
    exact loop_sync (R := Both s) (fun a b r => hf a b r) n v w ⟨h.1.2, h.2.1.2, h.2.2.2⟩
  | @each α s f hf =>
    intro v w h
    obtain ⟨n, v⟩ : List α × Val s := v
    obtain ⟨n', w⟩ : List α × Val s := w
    obtain rfl : n = n' := h.2.2.1
    refine fold_sync (A := fun a b : α => a = b) (R := Both s) (fun a a' x y e r => ?_) n n (forall_eq n) v w
      ⟨h.1.2, h.2.1.2, h.2.2.2⟩
    subst e
    exact hf ((a, x) : α × Val s) ((a, y) : α × Val s) ⟨⟨trivial, r.1⟩, ⟨trivial, r.2.1⟩, rfl, r.2.2⟩
  | @fold s t f hf =>
    intro v w h
    exact fold_sync (A := Both s) (R := Both t) (fun a a' x y e r => hf ((a, x) : Val s × Val t)
      ((a', y) : Val s × Val t) ⟨⟨e.1, r.1⟩, ⟨e.2.1, r.2.1⟩, e.2.2, r.2.2⟩) _ _
      (both_list ⟨h.1.1, h.2.1.1, h.2.2.1⟩) _ _ ⟨h.1.2, h.2.1.2, h.2.2.2⟩

theorem bind_silent {α β : Type} {m : QM α} {f : α → QM β} (h : shown m.obs = []) (h' : ∀ a, shown (f a).obs = []) :
    shown (m.bind f).obs = [] := by
  unfold QM.bind
  cases m.val with
  | ok a =>
    show shown (m.obs ++ (f a).obs) = []
    rw [shown_append, h, h']; rfl
  | panic => exact h
  | diverge => exact h

theorem loop_silent {α : Type} {f : α → QM α} (h : ∀ a, shown (f a).obs = []) :
    ∀ (n : ℕ) (a : α), shown (loopQ f n a).obs = [] := by
  intro n
  induction n with
  | zero => intro a; rfl
  | succ n ih => intro a; exact bind_silent rfl fun a => bind_silent (h a) fun b => ih b

theorem fold_silent {α β : Type} {f : α → β → QM β} (h : ∀ a b, shown (f a b).obs = []) :
    ∀ (l : List α) (b : β), shown (foldQ f l b).obs = [] := by
  intro l
  induction l with
  | nil => intro b; rfl
  | cons a l ih => intro b; exact bind_silent rfl fun b => bind_silent (h a b) fun d => ih d

/-- A program without `reveal` shows nothing. -/
theorem silent_shown (c : Cfg) {s t : STy} (f : Prog s t) (h : f.Silent) : ∀ v, shown (f.run c v).obs = [] := by
  induction f with
  | op o => intro v; exact shown_lib _
  | call f => intro v; exact shown_lib _
  | reveal => exact absurd h id
  | seq f g hf hg => intro v; exact bind_silent (hf h.1 v) fun a => hg h.2 a
  | pair f g hf hg => intro v; exact bind_silent (hf h.1 v) fun a => bind_silent (hg h.2 v) fun b => rfl
  | ite f g hf hg =>
    intro v
    refine bind_silent rfl fun x => ?_
    obtain ⟨b, x⟩ := x
    cases b with
    | true => exact hf h.1 _
    | false => exact hg h.2 _
  | matchOpt f g hf hg =>
    intro v
    refine bind_silent rfl fun x => ?_
    obtain ⟨b, x⟩ := x
    cases b with
    | some a => exact hf h.1 _
    | none => exact hg h.2 _
  | loop f hf => intro v; exact loop_silent (fun a => hf h a) _ _
  | each f hf => intro v; exact fold_silent (fun a b => hf h _) _ _
  | fold f hf => intro v; exact fold_silent (fun a b => hf h _) _ _
  | host | conceal | skip | drop | fst | snd | join | nil | cons | length => intro v; rfl

theorem bind_val {α β : Type} (m : QM α) (f : α → QM β) : (m.bind f).val = m.val >>= fun a => (f a).val := by
  unfold QM.bind
  cases m.val <;> rfl

theorem loop_val {α : Type} {f : α → QM α} {g : α → Res α} (h : ∀ a, (f a).val = g a) :
    ∀ (n : ℕ) (a : α), (loopQ f n a).val = loopR g n a := by
  intro n
  induction n with
  | zero => intro a; rfl
  | succ n ih =>
    intro a
    rw [loopQ, loopR, bind_val]
    show (QM.bind (f a) fun b => loopQ f n b).val = _
    rw [bind_val, h]
    exact congrArg _ (funext fun b => ih b)

theorem fold_val {α β : Type} {f : α → β → QM β} {g : α → β → Res β} (h : ∀ a b, (f a b).val = g a b) :
    ∀ (l : List α) (b : β), (foldQ f l b).val = foldR g l b := by
  intro l
  induction l with
  | nil => intro b; rfl
  | cons a l ih =>
    intro b
    rw [foldQ, foldR, bind_val]
    show (QM.bind (f a b) fun d => foldQ f l d).val = _
    rw [bind_val, h]
    exact congrArg _ (funext fun d => ih d)

end Quiet

namespace Props

open Quiet

/-- C116: forgetting the record, a program computes with the functions of the model. -/
theorem C116_record_is_faithful (c : Cfg) {s t : STy} (f : Quiet.Prog s t) : ∀ v, (f.run c v).val = f.plain c v := by
  induction f with
  | op o => intro v; exact op_val c o v
  | seq f g hf hg =>
    intro v
    rw [Quiet.Prog.run, Quiet.Prog.plain, bind_val, hf]
    exact congrArg _ (funext fun w => hg w)
  | pair f g hf hg =>
    intro v
    rw [Quiet.Prog.run, Quiet.Prog.plain, bind_val, hf]
    refine congrArg _ (funext fun w => ?_)
    rw [bind_val, hg]
    rfl
  | ite f g hf hg =>
    intro v
    obtain ⟨b, x⟩ := v
    cases b with
    | true => exact hf _
    | false => exact hg _
  | matchOpt f g hf hg =>
    intro v
    obtain ⟨b, x⟩ := v
    cases b with
    | some a => exact hf _
    | none => exact hg _
  | loop f hf => intro v; exact loop_val (fun a => hf a) _ _
  | each f hf => intro v; exact fold_val (fun a b => hf _) _ _
  | fold f hf => intro v; exact fold_val (fun a b => hf _) _ _
  | host | call | conceal | reveal | skip | drop | fst | snd | join | nil | cons | length => intro v; rfl

/-- C116: for all secrets, two runs with the same public inputs leave the same record exactly if they reveal the same
values. -/
theorem C116_observation (c : Cfg) {s t : STy} (f : Quiet.Prog s t) (v w : Quiet.Val s) (hv : Good s v) (hw : Good s w)
    (h : Low s v w) : (f.run c v).obs = (f.run c w).obs ↔ shown (f.run c v).obs = shown (f.run c w).obs :=
  ⟨fun e => by rw [e], fun e => (run_sync c f v w ⟨hv, hw, h⟩ [] [] (by rw [e])).1⟩

/-- C116: and then both return, with the same public results, or both panic, or both run forever. -/
theorem C116_outcome (c : Cfg) {s t : STy} (f : Quiet.Prog s t) (v w : Quiet.Val s) (hv : Good s v) (hw : Good s w)
    (h : Low s v w) (e : shown (f.run c v).obs = shown (f.run c w).obs) :
    (∃ x y, f.plain c v = .ok x ∧ f.plain c w = .ok y ∧ Good t x ∧ Good t y ∧ Low t x y) ∨
    (f.plain c v = .panic ∧ f.plain c w = .panic) ∨ (f.plain c v = .diverge ∧ f.plain c w = .diverge) := by
  have k := (run_sync c f v w ⟨hv, hw, h⟩ [] [] (by rw [e])).2
  rw [C116_record_is_faithful, C116_record_is_faithful] at k
  generalize f.plain c v = x at k
  generalize f.plain c w = y at k
  cases k with
  | ok r => exact .inl ⟨_, _, rfl, rfl, r.1, r.2.1, r.2.2⟩
  | panic => exact .inr (.inl ⟨rfl, rfl⟩)
  | diverge => exact .inr (.inr ⟨rfl, rfl⟩)

/-- C116: a program that reveals nothing on purpose leaves the same record for all secrets. -/
theorem C116_silent (c : Cfg) {s t : STy} (f : Quiet.Prog s t) (hf : f.Silent) (v w : Quiet.Val s) (hv : Good s v)
    (hw : Good s w) (h : Low s v w) : (f.run c v).obs = (f.run c w).obs :=
  (C116_observation c f v w hv hw h).2 (by rw [silent_shown c f hf v, silent_shown c f hf w])

end Props

namespace Quiet

theorem loop_prefix {α : Type} (f : α → QM α) : ∀ (n : ℕ) (a b : α) (k : ℕ), (loopQ f n a).val = .ok b →
    (loopQ f n a).obs ≠ (loopQ f (n + k + 1) a).obs := by
  intro n
  induction n with
  | zero =>
    intro a b k _ h
    rw [Nat.zero_add] at h
    have h' := (List.cons.inj h).1
    cases h'
  | succ n ih =>
    intro a b k hv h
    have e : ∀ j, loopQ f (j + 1) a = ⟨.br true :: ((f a).bind fun b => loopQ f j b).obs,
      ((f a).bind fun b => loopQ f j b).val⟩ := fun j => rfl
    rw [show n + 1 + k + 1 = (n + k + 1) + 1 by omega, e, e] at h
    rw [e] at hv
    have h' := (List.cons.inj h).2
    unfold QM.bind at h' hv
    generalize f a = m at h' hv
    obtain ⟨o, x⟩ := m
    cases x with
    | ok d => exact ih d b k hv (List.append_cancel_left h')
    | panic => cases hv
    | diverge => cases hv

theorem fold_prefix {α β : Type} (f : α → β → QM β) (x : α) (l' : List α) : ∀ (l : List α) (b d : β),
    (foldQ f l b).val = .ok d → (foldQ f l b).obs ≠ (foldQ f (l ++ x :: l') b).obs := by
  intro l
  induction l with
  | nil =>
    intro b d _ h
    have h' := (List.cons.inj h).1
    cases h'
  | cons a l ih =>
    intro b d hv h
    have e : ∀ j, foldQ f (a :: j) b = ⟨.br true :: ((f a b).bind fun b => foldQ f j b).obs,
      ((f a b).bind fun b => foldQ f j b).val⟩ := fun j => rfl
    rw [List.cons_append, e, e] at h
    rw [e] at hv
    have h' := (List.cons.inj h).2
    unfold QM.bind at h' hv
    generalize f a b = m at h' hv
    obtain ⟨o, y⟩ := m
    cases y with
    | ok z => exact ih z d hv (List.append_cancel_left h')
    | panic => cases hv
    | diverge => cases hv

end Quiet

namespace Props

open Quiet

/-- C116: the record tells which branch was taken, how many rounds a loop took, and what was revealed. -/
theorem C116_record_sees (c : Cfg) :
    (∀ {s t : STy} (f g : Quiet.Prog s t) (v w : Quiet.Val s),
      ((Quiet.Prog.ite f g).run c ((true, v) : Bool × Quiet.Val s)).obs ≠
        ((Quiet.Prog.ite f g).run c ((false, w) : Bool × Quiet.Val s)).obs) ∧
    (∀ {α : Type} {s t : STy} (f : Quiet.Prog (.prod (.pub α) s) t) (g : Quiet.Prog s t) (a : α) (v w : Quiet.Val s),
      ((Quiet.Prog.matchOpt f g).run c ((some a, v) : Option α × Quiet.Val s)).obs ≠
        ((Quiet.Prog.matchOpt f g).run c ((none, w) : Option α × Quiet.Val s)).obs) ∧
    (∀ {s : STy} (v w : Quiet.Val s), v ≠ w →
      ((Quiet.Prog.reveal (s := s)).run c v).obs ≠ ((Quiet.Prog.reveal (s := s)).run c w).obs) ∧
    (∀ {s : STy} (f : Quiet.Prog s s) (n k : ℕ) (v w : Quiet.Val s),
      (Quiet.Prog.loop f).plain c ((n, v) : ℕ × Quiet.Val s) = .ok w →
      ((Quiet.Prog.loop f).run c ((n, v) : ℕ × Quiet.Val s)).obs ≠
        ((Quiet.Prog.loop f).run c ((n + k + 1, v) : ℕ × Quiet.Val s)).obs) ∧
    (∀ {α : Type} {s : STy} (f : Quiet.Prog (.prod (.pub α) s) s) (l l' : List α) (a : α) (v w : Quiet.Val s),
      (Quiet.Prog.each f).plain c ((l, v) : List α × Quiet.Val s) = .ok w →
      ((Quiet.Prog.each f).run c ((l, v) : List α × Quiet.Val s)).obs ≠
        ((Quiet.Prog.each f).run c ((l ++ a :: l', v) : List α × Quiet.Val s)).obs) ∧
    (∀ {s t : STy} (f : Quiet.Prog (.prod s t) t) (l l' : List (Quiet.Val s)) (a : Quiet.Val s) (v w : Quiet.Val t),
      (Quiet.Prog.fold f).plain c ((l, v) : List (Quiet.Val s) × Quiet.Val t) = .ok w →
      ((Quiet.Prog.fold f).run c ((l, v) : List (Quiet.Val s) × Quiet.Val t)).obs ≠
        ((Quiet.Prog.fold f).run c ((l ++ a :: l', v) : List (Quiet.Val s) × Quiet.Val t)).obs) ∧
    (∀ {s t : STy} (o : Op s t) (v : Quiet.Val s), ((Quiet.Prog.op o).run c v).obs = (o.run c v).tr.map .lib) := by
  refine ⟨?_, ?_, ?_, ?_, ?_, ?_, fun _ _ => rfl⟩
  · intro s t f g v w h
    have h' := (List.cons.inj h).1
    cases h'
  · intro α s t f g a v w h
    have h' := (List.cons.inj h).1
    cases h'
  · intro s v w hn h
    have h' := (List.cons.inj h).1
    injection h' with _ h''
    exact hn h''
  · intro s f n k v w h
    exact loop_prefix _ n v w k ((C116_record_is_faithful c f.loop (n, v)).trans h)
  · intro α s f l l' a v w h
    exact fold_prefix _ a l' l v w ((C116_record_is_faithful c f.each (l, v)).trans h)
  · intro s t f l l' a v w h
    exact fold_prefix _ a l' l v w ((C116_record_is_faithful c f.fold (l, v)).trans h)

/-! ### Instances -/

/-- The response `k + e·x` of a Schnorr proof: the nonce `k` and the key `x` are secret, the challenge `e` is public. -/
def respond : Quiet.Prog (.prod .scalar (.prod (.pub {a : Sc // a.SCanon}) .scalar)) .scalar :=
  .seq (.pair .fst (.seq .snd (.seq (.pair (.seq .fst (.conceal (s := .scalar))) .snd) (.op .sMul)))) (.op .sAdd)

example : respond.Silent := ⟨⟨trivial, trivial, ⟨⟨trivial, trivial⟩, trivial⟩, trivial⟩, trivial⟩

theorem respond_plain (c : Cfg) (k x : Sc) (e : {a : Sc // a.SCanon}) :
    respond.plain c (k, e, x) = Scalar.mul c e.1 x >>= fun y => Scalar.add c k y := by
  show (Scalar.mul c e.1 x >>= fun b => Res.ok ((k, b) : Sc × Sc)) >>= (fun w => Scalar.add c w.1 w.2) = _
  cases Scalar.mul c e.1 x <;> rfl

/-- Computing the response leaves the same record for all nonces and keys. -/
example (c : Cfg) (k x k' x' : Sc) (e : {a : Sc // a.SCanon}) (hk : k.SCanon) (hx : x.SCanon) (hk' : k'.SCanon)
    (hx' : x'.SCanon) : (respond.run c (k, e, x)).obs = (respond.run c (k', e, x')).obs :=
  C116_silent c respond ⟨⟨trivial, trivial, ⟨⟨trivial, trivial⟩, trivial⟩, trivial⟩, trivial⟩ _ _ ⟨hk, trivial, hx⟩
    ⟨hk', trivial, hx'⟩ ⟨trivial, rfl, trivial⟩

/-- The record is not empty and the response is the right one. -/
example : (respond.run dbg (Scalar.one, ⟨⟨3, 0, 0, 0, 0⟩, by decide +kernel⟩, ⟨5, 0, 0, 0, 0⟩)).obs ≠ [] ∧
    respond.plain dbg (Scalar.one, ⟨⟨3, 0, 0, 0, 0⟩, by decide +kernel⟩, ⟨5, 0, 0, 0, 0⟩) =
      .ok (⟨16, 0, 0, 0, 0⟩ : Sc) := by
  constructor
  · intro h
    have h' : (respond.run dbg (Scalar.one, ⟨⟨3, 0, 0, 0, 0⟩, by decide +kernel⟩, ⟨5, 0, 0, 0, 0⟩)).obs.length ≠ 0 := by
      decide +kernel
    exact h' (by rw [h]; rfl)
  · have h : (Scalar.mul dbg ⟨3, 0, 0, 0, 0⟩ ⟨5, 0, 0, 0, 0⟩ >>= fun y => Scalar.add dbg Scalar.one y) =
        .ok (⟨16, 0, 0, 0, 0⟩ : Sc) := by decide +kernel
    exact (respond_plain _ _ _ _).trans h

/-- Two secrets are compared, the outcome is revealed, and the program branches on it: on equality it doubles a secret
point, otherwise it returns it unchanged. -/
def compareThen : Quiet.Prog (.prod (.prod .field .field) .ext) .ext :=
  .seq (.pair (.seq .fst (.seq (.op .fEq) .reveal)) .snd) (.ite (.op .eDouble) .skip)

theorem seq_obs {c : Cfg} {s t u : STy} (f : Quiet.Prog s t) (g : Quiet.Prog t u) {v : Quiet.Val s} {w : Quiet.Val t}
    (h : f.plain c v = .ok w) : ((Quiet.Prog.seq f g).run c v).obs = (f.run c v).obs ++ (g.run c w).obs := by
  rw [← C116_record_is_faithful] at h
  rw [Quiet.Prog.run, QM.bind, h]

theorem bind_shown {α β : Type} {m : QM α} {f : α → QM β} (h : ∀ a, shown (f a).obs = []) :
    shown (m.bind f).obs = shown m.obs := by
  unfold QM.bind
  cases m.val with
  | ok a =>
    show shown (m.obs ++ (f a).obs) = _
    rw [shown_append, h, List.append_nil]
  | panic => rfl
  | diverge => rfl

theorem seq_shown {c : Cfg} {s t u : STy} (f : Quiet.Prog s t) {g : Quiet.Prog t u} (h : g.Silent) (v : Quiet.Val s) :
    shown ((Quiet.Prog.seq f g).run c v).obs = shown (f.run c v).obs := bind_shown fun w => silent_shown c g h w

theorem pair_shown {c : Cfg} {s t u : STy} (f : Quiet.Prog s t) {g : Quiet.Prog s u} (h : g.Silent) (v : Quiet.Val s) :
    shown ((Quiet.Prog.pair f g).run c v).obs = shown (f.run c v).obs :=
  bind_shown fun _ => bind_silent (silent_shown c g h v) fun _ => rfl

theorem compareThen_shown (c : Cfg) (v : Quiet.Val (.prod (.prod .field .field) .ext)) :
    shown (compareThen.run c v).obs = [(⟨.choice, Field.ctEq v.1.1 v.1.2⟩ : Sigma Quiet.Val)] := by
  have h := seq_obs (c := c) (.op .fEq) .reveal (v := v.1) (w := Field.ctEq v.1.1 v.1.2) rfl
  have h' := congrArg shown h
  rw [shown_append, silent_shown c (.op .fEq) trivial, List.nil_append] at h'
  have hi : (Quiet.Prog.ite (.op .eDouble) .skip).Silent := ⟨trivial, trivial⟩
  have hn : (Quiet.Prog.snd (s := .prod .field .field) (t := .ext)).Silent := trivial
  exact (seq_shown (.pair (.seq .fst (.seq (.op .fEq) .reveal)) .snd) hi v).trans
    ((pair_shown (.seq .fst (.seq (.op .fEq) .reveal)) hn v).trans h')

/-- Its record depends on whether the secrets are equal, and on nothing else. -/
example (c : Cfg) (a b a' b' : FE) (P P' : EdPoint) (ha : a.Canon) (hb : b.Canon) (ha' : a'.Canon) (hb' : b'.Canon)
    (hP : Good .ext P) (hP' : Good .ext P') :
    (compareThen.run c ((a, b), P)).obs = (compareThen.run c ((a', b'), P')).obs ↔
      Field.ctEq a b = Field.ctEq a' b' := by
  have h := compareThen_shown c ((a, b), P)
  have h' := compareThen_shown c ((a', b'), P')
  refine (C116_observation c compareThen (((a, b), P) : (FE × FE) × EdPoint) (((a', b'), P') : (FE × FE) × EdPoint)
    ⟨⟨ha, hb⟩, hP⟩ ⟨⟨ha', hb'⟩, hP'⟩ ⟨⟨trivial, trivial⟩, trivial⟩).trans ⟨fun e => ?_, fun e => ?_⟩
  · exact eq_of_heq (Sigma.mk.inj (List.cons.inj (h.symm.trans (e.trans h'))).1).2
  · rw [e] at h
    exact h.trans h'.symm

/-- And the two cases both occur. -/
example : Field.ctEq Field.one Field.one = true ∧ Field.ctEq Field.one Field.zero = false ∧
    Ed.BASEPOINT.X.Canon ∧ Ed.BASEPOINT.Y.Canon ∧ Ed.BASEPOINT.Z.Canon ∧ Ed.BASEPOINT.T.Canon := by decide +kernel

end Props
end Zerocaf
