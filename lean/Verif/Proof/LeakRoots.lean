import Verif.Model.LeakRoots
import Verif.Proof.LeakInv
import Verif.Proof.Encode

/-!
# The leakage model of square roots and encodings agrees with the model

The longer bodies are compared over arbitrary arithmetic (`Arith`), so that the kernel does not evaluate them.
-/

set_option exponentiation.threshold 600

namespace Zerocaf
namespace Leak

/-! ### Forgetting the trace gives the model -/

theorem lt_val (a b : L5) : (lt a b).val = .ok (Zerocaf.Field.lt a b) := by
  unfold lt
  rw [LM.val_bind, cmp_val, Res.ok_bind]
  rfl

theorem le_val (a b : L5) : (le a b).val = .ok (Zerocaf.Field.le a b) := by
  unfold le
  rw [LM.val_bind, cmp_val, Res.ok_bind]
  rfl

@[simp] theorem unwrap_val {α : Type} (o : Option α) : (unwrap o).val = Zerocaf.unwrap o :=
  Eq.trans (b := Zerocaf.unwrap o) (by rfl) (Eq.refl _)

namespace Field

theorem isPositive_val (a : FE) : (isPositive a).val = .ok (Zerocaf.Field.isPositive a) := by
  unfold isPositive Zerocaf.Field.isPositive
  rw [LM.val_bind, ge_val, Res.ok_bind, LM.val_bind, br_val, Res.ok_bind]
  cases Zerocaf.Field.ge a Zerocaf.Field.zero
  · rw [if_neg (by simp), LM.val_pure, Bool.false_and]
  · rw [if_pos rfl, LM.val_bind, le_val, Res.ok_bind, br_val, Bool.true_and]

theorem divRef_val (c : Cfg) (a b : FE) : (divRef c a b).val = Zerocaf.Field.divRef c a b := by
  simp only [divRef, Zerocaf.Field.divRef, LM.val_bind, ctEq_val, Res.ok_bind, rassert_val, inverse_val, mul_val]

theorem div_val (c : Cfg) (a b : FE) : (div c a b).val = Zerocaf.Field.div c a b := by
  simp only [div, Zerocaf.Field.div, LM.val_bind, inverse_val, mul_val]

theorem factorLoop_val (c : Cfg) : ∀ (n : ℕ) (s q : FE), (factorLoop c n s q).val = Zerocaf.Field.factorLoop c n s q := by
  intro n
  induction n with
  | zero => intro s q; rfl
  | succ n ih =>
    intro s q
    rw [factorLoop, Zerocaf.Field.factorLoop]
    simp only [LM.val_bind, br_val, Res.ok_bind, val_ite, add_val, ih, LM.val_pure]

theorem findILoop_val (c : Cfg) (t mm : FE) : ∀ (n : ℕ) (i e : FE),
    (findILoop c t mm n i e).val = Zerocaf.Field.findILoop c t mm n i e := by
  intro n
  induction n with
  | zero => intro i e; rfl
  | succ n ih =>
    intro i e
    rw [findILoop, Zerocaf.Field.findILoop]
    simp only [LM.val_bind, br_val, lt_val, Res.ok_bind, val_ite, add_val, pow_val, ctEq_val, mul_val, ih, LM.val_pure]

/-- One round of the loop of `mod_sqrt`, over arbitrary functions. -/
theorem ts_gen {F : Type} (find : F → F → LM F) (find' : F → F → Res F) (hf : ∀ a b, (find a b).val = find' a b)
    (sb pw ml : F → F → LM F) (sb' pw' ml' : F → F → Res F) (hs : ∀ a b, (sb a b).val = sb' a b)
    (hp : ∀ a b, (pw a b).val = pw' a b) (hm : ∀ a b, (ml a b).val = ml' a b) (sq : F → LM F) (sq' : F → Res F)
    (hq : ∀ a, (sq a).val = sq' a) (rec : F → F → F → F → LM F) (rec' : F → F → F → F → Res F)
    (hr : ∀ a b d e, (rec a b d e).val = rec' a b d e) (one two cc x t mm : F) : (do
      let i ← find t mm
      let mi ← sb mm i
      let mi1 ← sb mi one
      let e ← pw two mi1
      let b ← pw cc e
      let x' ← ml x b
      let b2 ← sq b
      let t' ← ml t b2
      let cc' ← sq b
      rec cc' x' t' i).val = (do
      let i ← find' t mm
      let mi ← sb' mm i
      let mi1 ← sb' mi one
      let e ← pw' two mi1
      let b ← pw' cc e
      let x' ← ml' x b
      let b2 ← sq' b
      let t' ← ml' t b2
      let cc' ← sq' b
      rec' cc' x' t' i) := by
  refine bindVal (hf _ _) fun _ => ?_
  refine bindVal (hs _ _) fun _ => bindVal (hs _ _) fun _ => ?_
  refine bindVal (hp _ _) fun _ => bindVal (hp _ _) fun _ => ?_
  refine bindVal (hm _ _) fun _ => bindVal (hq _) fun _ => ?_
  refine bindVal (hm _ _) fun _ => bindVal (hq _) fun _ => ?_
  exact hr _ _ _ _

theorem tonelliLoop_val (c : Cfg) : ∀ (n : ℕ) (cc x t mm : FE),
    (tonelliLoop c n cc x t mm).val = Zerocaf.Field.tonelliLoop c n cc x t mm := by
  intro n
  induction n with
  | zero => intro cc x t mm; rfl
  | succ n ih =>
    intro cc x t mm
    rw [tonelliLoop, Zerocaf.Field.tonelliLoop, LM.val_bind, ctEq_val, Res.ok_bind, LM.val_bind, br_val, Res.ok_bind]
    cases Zerocaf.Field.ctEq t Zerocaf.Field.one
    · rw [Bool.not_false, if_pos rfl, if_pos rfl]
      exact ts_gen (fun a b => findILoop c a b c.fuel Zerocaf.Field.zero (Zerocaf.Field.fromU32 2))
        (fun a b => Zerocaf.Field.findILoop c a b c.fuel Zerocaf.Field.zero (Zerocaf.Field.fromU32 2))
        (fun a b => findILoop_val c a b _ _ _) (sub c) (pow c) (mul c) (Zerocaf.Field.sub c) (Zerocaf.Field.pow c)
        (Zerocaf.Field.mul c) (sub_val c) (pow_val c) (mul_val c) (square c) (Zerocaf.Field.square c) (square_val c)
        (tonelliLoop c n) (Zerocaf.Field.tonelliLoop c n) ih Zerocaf.Field.one ⟨2, 0, 0, 0, 0⟩ cc x t mm
    · rw [Bool.not_true, if_neg (by simp), if_neg (by simp), LM.val_pure]

theorem modSqrt_val (c : Cfg) (a : FE) (sign : Bool) : (modSqrt c a sign).val = Zerocaf.Field.modSqrt c a sign := by
  unfold modSqrt Zerocaf.Field.modSqrt
  simp only [LM.val_bind, br_val, Res.ok_bind, val_ite, sub_val, pow_val, ctEq_val, legendre_val, add_val,
    factorLoop_val, tonelliLoop_val, LM.val_pure, Res.pure_eq]

theorem sqrtRatioI_val (c : Cfg) (u v : FE) : (sqrtRatioI c u v).val = Zerocaf.Field.sqrtRatioI c u v := by
  unfold sqrtRatioI Zerocaf.Field.sqrtRatioI
  simp only [LM.val_bind, br_val, Res.ok_bind, val_ite, ctEq_val, legendre_val, mul_val, divRef_val, modSqrt_val,
    unwrap_val, isPositive_val, condNegate_val, LM.val_pure, Res.pure_eq]

theorem invSqrt_val (c : Cfg) (v : FE) : (invSqrt c v).val = Zerocaf.Field.invSqrt c v := sqrtRatioI_val c _ v

end Field

theorem ite_or_bool {α : Type} (a b : Bool) (x y : α) :
    (if a = true then x else if b = true then x else y) = if (a || b) = true then x else y := by
  cases a <;> simp

/-- Arithmetic with and without traces. -/
structure Arith where
  neg : FE → LM FE
  sq : FE → LM FE
  add : FE → FE → LM FE
  sub : FE → FE → LM FE
  mul : FE → FE → LM FE
  pos : FE → LM Bool
  cneg : FE → Bool → LM FE
  sel : FE → FE → Bool → FE
  ratio : FE → FE → LM (Bool × FE)
  neg' : FE → Res FE
  sq' : FE → Res FE
  add' : FE → FE → Res FE
  sub' : FE → FE → Res FE
  mul' : FE → FE → Res FE
  pos' : FE → Bool
  cneg' : FE → Bool → Res FE
  ratio' : FE → FE → Res (Bool × FE)
  hneg : ∀ a, (neg a).val = neg' a
  hsq : ∀ a, (sq a).val = sq' a
  hadd : ∀ a b, (add a b).val = add' a b
  hsub : ∀ a b, (sub a b).val = sub' a b
  hmul : ∀ a b, (mul a b).val = mul' a b
  hpos : ∀ a, (pos a).val = .ok (pos' a)
  hcneg : ∀ a b, (cneg a b).val = cneg' a b
  hratio : ∀ a b, (ratio a b).val = ratio' a b

/-- The arithmetic of the library. -/
def arith (c : Cfg) : Arith where
  neg := Field.neg c
  sq := Field.square c
  add := Field.add c
  sub := Field.sub c
  mul := Field.mul c
  pos := Field.isPositive
  cneg := Field.condNegate c
  sel := Zerocaf.Field.condSelect
  ratio := Field.sqrtRatioI c
  neg' := Zerocaf.Field.neg c
  sq' := Zerocaf.Field.square c
  add' := Zerocaf.Field.add c
  sub' := Zerocaf.Field.sub c
  mul' := Zerocaf.Field.mul c
  pos' := Zerocaf.Field.isPositive
  cneg' := Zerocaf.Field.condNegate c
  ratio' := Zerocaf.Field.sqrtRatioI c
  hneg := Field.neg_val c
  hsq := Field.square_val c
  hadd := Field.add_val c
  hsub := Field.sub_val c
  hmul := Field.mul_val c
  hpos := Field.isPositive_val
  hcneg := Field.condNegate_val c
  hratio := Field.sqrtRatioI_val c

/-- `find_xx` over arbitrary arithmetic. -/
theorem xx_gen (O : Arith) (dv : FE → FE → LM FE) (dv' : FE → FE → Res FE) (hd : ∀ a b, (dv a b).val = dv' a b)
    (one d a y : FE) : (do
  let yy ← O.sq y
  let n ← O.sub yy one
  let yy' ← O.sq y
  let dyy ← O.mul d yy'
  let b ← O.sub dyy a
  dv n b).val = (do
  let yy ← O.sq' y
  let n ← O.sub' yy one
  let yy' ← O.sq' y
  let dyy ← O.mul' d yy'
  let b ← O.sub' dyy a
  dv' n b) := by
  simp only [LM.val_bind, O.hsq, O.hsub, O.hmul, hd]

theorem findXX_val (c : Cfg) (y : FE) : (findXX c y).val = Zerocaf.findXX c y :=
  xx_gen (arith c) (Field.div c) (Zerocaf.Field.div c) (Field.div_val c) Zerocaf.Field.one EDWARDS_D EDWARDS_A y

theorem Ed.compress_val (c : Cfg) (P : EdPoint) : (Ed.compress c P).val = Zerocaf.Ed.compress c P := by
  unfold Ed.compress Zerocaf.Ed.compress
  simp only [LM.val_bind, Aff.ofEd_val, findXX_val, Field.modSqrt_val, unwrap_val, Field.ctEq_val, br_val, Res.ok_bind,
    LM.val_pure, Res.pure_eq, Bool.if_true_left, Bool.or_false, Bool.decide_eq_true]

namespace Ristretto

/-- `CompressedRistretto::decompress` after the first test, over arbitrary arithmetic. -/
theorem dec_gen (O : Arith) (d one zero s : FE) : (do
  let ss ← O.sq s
  let u1 ← O.sub one ss
  let ss' ← O.sq s
  let u2 ← O.add one ss'
  let u2_sq ← O.sq u2
  let u1_sq ← O.sq u1
  let du1 ← O.mul d u1_sq
  let ndu1 ← O.neg du1
  let v ← O.sub ndu1 u2_sq
  let vu ← O.mul v u2_sq
  let okI ← O.ratio one vu
  let no ← br .decOk (okI.1 == false)
  if no then return none else
  let Dx ← O.mul okI.2 u2
  let IDx ← O.mul okI.2 Dx
  let Dy ← O.mul IDx v
  let s2 ← O.add s s
  let x ← O.mul s2 Dx
  let xPos ← O.pos x
  let x ← O.cneg x (!xPos)
  let y ← O.mul u1 Dy
  let t ← O.mul x y
  let tPos ← O.pos t
  let tNeg ← br .decT (tPos == false)
  if tNeg then return none else
  let y0 ← Field.ctEq y zero
  let y0 ← br .decY y0
  if y0 then return none else
  return some (⟨x, y, one, t⟩ : EdPoint)).val = (do
  let ss ← O.sq' s
  let u1 ← O.sub' one ss
  let ss' ← O.sq' s
  let u2 ← O.add' one ss'
  let u2_sq ← O.sq' u2
  let u1_sq ← O.sq' u1
  let du1 ← O.mul' d u1_sq
  let ndu1 ← O.neg' du1
  let v ← O.sub' ndu1 u2_sq
  let vu ← O.mul' v u2_sq
  let okI ← O.ratio' one vu
  if okI.1 == false then return none
  let Dx ← O.mul' okI.2 u2
  let IDx ← O.mul' okI.2 Dx
  let Dy ← O.mul' IDx v
  let s2 ← O.add' s s
  let x ← O.mul' s2 Dx
  let x ← O.cneg' x (!O.pos' x)
  let y ← O.mul' u1 Dy
  let t ← O.mul' x y
  if O.pos' t == false || Zerocaf.Field.ctEq y zero then return none
  return some (⟨x, y, one, t⟩ : EdPoint)) := by
  simp only [LM.val_bind, O.hneg, O.hsq, O.hadd, O.hsub, O.hmul, O.hpos, O.hcneg, O.hratio, Res.ok_bind, LM.val_pure,
    Res.pure_eq, br_val, val_ite, Field.ctEq_val, ite_or_bool]

theorem decompress_val (c : Cfg) (b : Bytes32) : (decompress c b).val = Zerocaf.Ristretto.decompress c b := by
  unfold decompress Zerocaf.Ristretto.decompress
  dsimp only
  rw [LM.val_bind, sliceEq_val, Res.ok_bind, LM.val_bind, Field.isPositive_val, Res.ok_bind, LM.val_bind, br_val,
    Res.ok_bind, val_ite, LM.val_pure, LM.val_bind, br_val, Res.ok_bind, val_ite, LM.val_pure, ite_or_bool]
  generalize (Zerocaf.Field.isPositive (Zerocaf.Field.fromBytes b) == false ||
    (Zerocaf.Field.toBytes (Zerocaf.Field.fromBytes b) == b) == false) = q
  cases q
  · rw [if_neg (by simp), if_neg (by simp)]
    exact dec_gen (arith c) EDWARDS_D Zerocaf.Field.one Zerocaf.Field.zero (Zerocaf.Field.fromBytes b)
  · rw [if_pos rfl, if_pos rfl, Res.pure_eq]

/-- `RistrettoPoint::compress` over arbitrary arithmetic. -/
theorem comp_gen (O : Arith) (one sm iv : FE) (pt : EdPoint) : (do
  let zy ← O.add pt.Z pt.Y
  let zmy ← O.sub pt.Z pt.Y
  let u1 ← O.mul zy zmy
  let u2 ← O.mul pt.X pt.Y
  let u2_sq ← O.sq u2
  let u1u2 ← O.mul u1 u2_sq
  let okI ← O.ratio one u1u2
  let D1 ← O.mul u1 okI.2
  let D2 ← O.mul u2 okI.2
  let D12 ← O.mul D1 D2
  let Zinv ← O.mul D12 pt.T
  let tz ← O.mul pt.T Zinv
  let tPos ← O.pos tz
  let rot ← br .encRot (tPos == false)
  let xyD ← (
    if rot then do
      let x ← O.mul sm pt.Y
      let y ← O.mul sm pt.X
      let D ← O.mul D1 iv
      pure (x, y, D)
    else pure (pt.X, pt.Y, D2) : LM (FE × FE × FE))
  let xz ← O.mul xyD.1 Zinv
  let xPos ← O.pos xz
  let y ← O.cneg xyD.2.1 (!xPos)
  let zy' ← O.sub pt.Z y
  let s ← O.mul zy' xyD.2.2
  let sPos ← O.pos s
  let s ← O.cneg s (!sPos)
  return Zerocaf.Field.toBytes s).val = (do
  let zy ← O.add' pt.Z pt.Y
  let zmy ← O.sub' pt.Z pt.Y
  let u1 ← O.mul' zy zmy
  let u2 ← O.mul' pt.X pt.Y
  let u2_sq ← O.sq' u2
  let u1u2 ← O.mul' u1 u2_sq
  let okI ← O.ratio' one u1u2
  let D1 ← O.mul' u1 okI.2
  let D2 ← O.mul' u2 okI.2
  let D12 ← O.mul' D1 D2
  let Zinv ← O.mul' D12 pt.T
  let tz ← O.mul' pt.T Zinv
  let xyD ← (
    if O.pos' tz == false then do
      let x ← O.mul' sm pt.Y
      let y ← O.mul' sm pt.X
      let D ← O.mul' D1 iv
      pure (x, y, D)
    else pure (pt.X, pt.Y, D2) : Res (FE × FE × FE))
  let xz ← O.mul' xyD.1 Zinv
  let y ← O.cneg' xyD.2.1 (!O.pos' xz)
  let zy' ← O.sub' pt.Z y
  let s ← O.mul' zy' xyD.2.2
  let s ← O.cneg' s (!O.pos' s)
  return Zerocaf.Field.toBytes s) := by
  simp only [LM.val_bind, O.hsq, O.hadd, O.hsub, O.hmul, O.hpos, O.hcneg, O.hratio, Res.ok_bind, LM.val_pure,
    Res.pure_eq, br_val, val_ite]

theorem compress_val (c : Cfg) (P : EdPoint) : (compress c P).val = Zerocaf.Ristretto.compress c P :=
  comp_gen (arith c) Zerocaf.Field.one Zerocaf.Field.SQRT_MINUS_ONE Zerocaf.Ristretto.INV_SQRT_A_MINUS_D P

/-- The Elligator map over arbitrary arithmetic. -/
theorem ell_gen (O : Arith) (d one sm qq r0 : FE) : (do
  let cc ← O.neg one
  let dsq ← O.sq d
  let one_minus_d_sq ← O.sub one dsq
  let r0sq ← O.sq r0
  let r ← O.mul sm r0sq
  let r1 ← O.add r one
  let N_s ← O.mul r1 one_minus_d_sq
  let dr ← O.mul d r
  let cdr ← O.sub cc dr
  let rd ← O.add r d
  let D ← O.mul cdr rd
  let sqs ← O.ratio N_s D
  let s_prim ← O.mul sqs.2 r0
  let pos ← O.pos s_prim
  let s_prim ← O.cneg s_prim pos
  let s := O.sel sqs.2 s_prim (!sqs.1)
  let cc := O.sel cc r (!sqs.1)
  let rm1 ← O.sub r one
  let crm1 ← O.mul cc rm1
  let dm1 ← O.sub d one
  let dm1sq ← O.sq dm1
  let nt ← O.mul crm1 dm1sq
  let N_t ← O.sub nt D
  let s_square ← O.sq s
  let ss ← O.add s s
  let W0 ← O.mul ss D
  let W1 ← O.mul N_t qq
  let W2 ← O.sub one s_square
  let W3 ← O.add one s_square
  let X ← O.mul W0 W3
  let Y ← O.mul W2 W1
  let Z ← O.mul W1 W3
  let T ← O.mul W0 W2
  return (⟨X, Y, Z, T⟩ : EdPoint)).val = (do
  let cc ← O.neg' one
  let dsq ← O.sq' d
  let one_minus_d_sq ← O.sub' one dsq
  let r0sq ← O.sq' r0
  let r ← O.mul' sm r0sq
  let r1 ← O.add' r one
  let N_s ← O.mul' r1 one_minus_d_sq
  let dr ← O.mul' d r
  let cdr ← O.sub' cc dr
  let rd ← O.add' r d
  let D ← O.mul' cdr rd
  let sqs ← O.ratio' N_s D
  let s_prim ← O.mul' sqs.2 r0
  let s_prim ← O.cneg' s_prim (O.pos' s_prim)
  let s := O.sel sqs.2 s_prim (!sqs.1)
  let cc := O.sel cc r (!sqs.1)
  let rm1 ← O.sub' r one
  let crm1 ← O.mul' cc rm1
  let dm1 ← O.sub' d one
  let dm1sq ← O.sq' dm1
  let nt ← O.mul' crm1 dm1sq
  let N_t ← O.sub' nt D
  let s_square ← O.sq' s
  let ss ← O.add' s s
  let W0 ← O.mul' ss D
  let W1 ← O.mul' N_t qq
  let W2 ← O.sub' one s_square
  let W3 ← O.add' one s_square
  let X ← O.mul' W0 W3
  let Y ← O.mul' W2 W1
  let Z ← O.mul' W1 W3
  let T ← O.mul' W0 W2
  return (⟨X, Y, Z, T⟩ : EdPoint)) := by
  simp only [LM.val_bind, O.hneg, O.hsq, O.hadd, O.hsub, O.hmul, O.hpos, O.hcneg, O.hratio, Res.ok_bind, LM.val_pure,
    Res.pure_eq]

theorem elligator_val (c : Cfg) (a : FE) : (elligator c a).val = Zerocaf.Ristretto.elligator c a :=
  ell_gen (arith c) EDWARDS_D Zerocaf.Field.one Zerocaf.Field.SQRT_MINUS_ONE Zerocaf.Ristretto.SQRT_AD_MINUS_ONE a

theorem fromUniformBytes_val (c : Cfg) (b : Bytes64) :
    (fromUniformBytes c b).val = Zerocaf.Ristretto.fromUniformBytes c b := by
  unfold fromUniformBytes Zerocaf.Ristretto.fromUniformBytes
  simp only [LM.val_bind, elligator_val, Ed.add_val, Zerocaf.Ristretto.add]

end Ristretto

end Leak
end Zerocaf
