import Verif.Model.LeakPoints
import Verif.Proof.LeakEnc

/-!
# Traces of the remaining functions on points
-/

set_option exponentiation.threshold 600

namespace Zerocaf
namespace Leak

/-! ### Forgetting the trace gives the model -/

theorem Scalar.twoPowK_val (e : ℕ) : (Scalar.twoPowK e).val = Zerocaf.Scalar.twoPowK e := by
  unfold Scalar.twoPowK Zerocaf.Scalar.twoPowK
  simp only [LM.val_bind, rassert_val, br_val, Res.ok_bind, LM.val_pure, Res.pure_eq]

theorem mulByCofactor_val {T : Type} (O : PointOps T) (c : Cfg) (P : T) :
    (mulByCofactor O c P).val = Zerocaf.mulByCofactor O.erase c P := doubleAndAdd_val O c P _

theorem mulByPow2_val {T : Type} (O : PointOps T) (c : Cfg) (P : T) (k : ℕ) :
    (mulByPow2 O c P k).val = Zerocaf.mulByPow2 O.erase c P k := by
  unfold mulByPow2 Zerocaf.mulByPow2
  simp only [LM.val_bind, Scalar.twoPowK_val, doubleAndAdd_val]

/-- Affine `is_valid` over arbitrary arithmetic. -/
theorem Aff.valid_gen (O : Arith) (m d one : FE) (P : AffPoint) : (do
  let x_sq ← O.sq P.X
  let y_sq ← O.sq P.Y
  let ax ← O.mul m x_sq
  let left ← O.add ax y_sq
  let dx ← O.mul d x_sq
  let dxy ← O.mul dx y_sq
  let right ← O.add one dxy
  Field.ctEq left right).val = (do
  let x_sq ← O.sq' P.X
  let y_sq ← O.sq' P.Y
  let ax ← O.mul' m x_sq
  let left ← O.add' ax y_sq
  let dx ← O.mul' d x_sq
  let dxy ← O.mul' dx y_sq
  let right ← O.add' one dxy
  return Zerocaf.Field.ctEq left right) := by
  simp only [LM.val_bind, O.hsq, O.hadd, O.hmul, Field.ctEq_val, Res.pure_eq]

theorem Aff.isValid_val (c : Cfg) (P : AffPoint) : (Aff.isValid c P).val = Zerocaf.Aff.isValid c P :=
  Aff.valid_gen (arith c) Zerocaf.Field.minusOne EDWARDS_D Zerocaf.Field.one P

theorem Aff.ofProj_val (c : Cfg) (P : ProjPoint) : (Aff.ofProj c P).val = Zerocaf.Aff.ofProj c P := by
  simp only [Aff.ofProj, Zerocaf.Aff.ofProj, LM.val_bind, Field.inverse_val, Field.mul_val, LM.val_pure, Res.pure_eq]

namespace Proj

theorem ctEq_val (c : Cfg) (P Q : ProjPoint) : (Proj.ctEq c P Q).val = Zerocaf.Proj.ctEq c P Q := by
  simp only [Proj.ctEq, Zerocaf.Proj.ctEq, LM.val_bind, Aff.ofProj_val, Aff.ctEq_val, Res.pure_eq]

/-- Projective `is_valid` over arbitrary arithmetic. -/
theorem valid_gen (O : Arith) (a d : FE) (P : ProjPoint) : (do
  let x_sq ← O.sq P.X
  let y_sq ← O.sq P.Y
  let z_sq ← O.sq P.Z
  let ax ← O.mul a x_sq
  let axy ← O.add ax y_sq
  let left ← O.mul axy z_sq
  let z4 ← O.sq z_sq
  let dx ← O.mul d x_sq
  let dxy ← O.mul dx y_sq
  let right ← O.add z4 dxy
  Field.ctEq left right).val = (do
  let x_sq ← O.sq' P.X
  let y_sq ← O.sq' P.Y
  let z_sq ← O.sq' P.Z
  let ax ← O.mul' a x_sq
  let axy ← O.add' ax y_sq
  let left ← O.mul' axy z_sq
  let z4 ← O.sq' z_sq
  let dx ← O.mul' d x_sq
  let dxy ← O.mul' dx y_sq
  let right ← O.add' z4 dxy
  return Zerocaf.Field.ctEq left right) := by
  simp only [LM.val_bind, O.hsq, O.hadd, O.hmul, Field.ctEq_val, Res.pure_eq]

theorem isValid_val (c : Cfg) (P : ProjPoint) : (Proj.isValid c P).val = Zerocaf.Proj.isValid c P :=
  valid_gen (arith c) EDWARDS_A EDWARDS_D P

/-- `new_from_y_coord` over arbitrary arithmetic. -/
theorem new_gen (O : Arith) (dv : FE → FE → LM FE) (dv' : FE → FE → Res FE) (hd : ∀ a b, (dv a b).val = dv' a b)
    (rt : FE → LM (Option FE)) (rt' : FE → Res (Option FE)) (hr : ∀ a, (rt a).val = rt' a) (one d a y : FE) : (do
  let yy ← O.sq y
  let num ← O.sub yy one
  let yy' ← O.sq y
  let dyy ← O.mul d yy'
  let den ← O.sub dyy a
  let xx ← dv num den
  let o ← rt xx
  let _ ← br .newRoot o.isSome
  return o.map fun x => (⟨x, y, one⟩ : ProjPoint) : LM (Option ProjPoint)).val = (do
  let yy ← O.sq' y
  let num ← O.sub' yy one
  let yy' ← O.sq' y
  let dyy ← O.mul' d yy'
  let den ← O.sub' dyy a
  let xx ← dv' num den
  let o ← rt' xx
  match o with
  | none => return none
  | some x => return some ⟨x, y, one⟩) := by
  simp only [LM.val_bind, O.hsq, O.hsub, O.hmul, hd, hr, br_val, Res.ok_bind, LM.val_pure, Res.pure_eq]
  iterate 7 (refine congrArg₂ _ rfl (funext fun _ => ?_))
  rename_i o
  cases o <;> rfl

theorem newFromY_val (c : Cfg) (y : FE) (s : Bool) : (Proj.newFromY c y s).val = Zerocaf.Proj.newFromY c y s :=
  new_gen (arith c) (Field.div c) (Zerocaf.Field.div c) (Field.div_val c) (fun a => Field.modSqrt c a s)
    (fun a => Zerocaf.Field.modSqrt c a s) (fun a => Field.modSqrt_val c a s) Zerocaf.Field.one EDWARDS_D EDWARDS_A y

theorem newRandomLoop_val (c : Cfg) (rng : ℕ → Bytes32) : ∀ n i : ℕ,
    (newRandomLoop c rng n i).val = Zerocaf.Proj.newRandomLoop c rng n i := by
  intro n
  induction n with
  | zero => intro i; rfl
  | succ n ih =>
    intro i
    rw [newRandomLoop, Zerocaf.Proj.newRandomLoop]
    rw [LM.val_bind, newFromY_val]
    refine congrArg₂ _ rfl (funext fun o => ?_)
    rw [LM.val_bind, br_val, Res.ok_bind]
    cases o with
    | none => exact ih (i + 1)
    | some P => rfl

theorem newRandom_val (c : Cfg) (rng : ℕ → Bytes32) : (newRandom c rng).val = Zerocaf.Proj.newRandom c rng :=
  newRandomLoop_val c rng _ _

end Proj

namespace Ed

theorem isValid_val (c : Cfg) (P : EdPoint) : (Ed.isValid c P).val = Zerocaf.Ed.isValid c P := Proj.isValid_val c _

theorem ofProj_val (c : Cfg) (P : ProjPoint) : (Ed.ofProj c P).val = Zerocaf.Ed.ofProj c P := by
  simp only [Ed.ofProj, Zerocaf.Ed.ofProj, LM.val_bind, Field.mul_val, Field.square_val, LM.val_pure, Res.pure_eq]

theorem ofAff_val (c : Cfg) (P : AffPoint) : (Ed.ofAff c P).val = Zerocaf.Ed.ofAff c P := by
  simp only [Ed.ofAff, Zerocaf.Ed.ofAff, LM.val_bind, Field.mul_val, LM.val_pure, Res.pure_eq]

theorem coset_gen (f : EdPoint → EdPoint → LM EdPoint) (f' : EdPoint → EdPoint → Res EdPoint)
    (h : ∀ a b, (f a b).val = f' a b) (P A B C : EdPoint) : (do
  let q1 ← f P A
  let q2 ← f P B
  let q3 ← f P C
  return (P, q1, q2, q3)).val = (do
  let q1 ← f' P A
  let q2 ← f' P B
  let q3 ← f' P C
  return (P, q1, q2, q3)) := by
  simp only [LM.val_bind, h, LM.val_pure, Res.pure_eq]

theorem coset4_val (c : Cfg) (P : EdPoint) : (Ed.coset4 c P).val = Zerocaf.Ed.coset4 c P :=
  coset_gen (Ed.add c) (Zerocaf.Ed.add c) (Ed.add_val c) P _ _ _

theorem newFromY_val (c : Cfg) (y : FE) (s : Bool) : (Ed.newFromY c y s).val = Zerocaf.Ed.newFromY c y s := by
  rw [Ed.newFromY, Zerocaf.Ed.newFromY, LM.val_bind, Proj.newFromY_val]
  refine congrArg₂ _ rfl (funext fun o => ?_)
  rw [LM.val_bind, br_val, Res.ok_bind]
  cases o with
  | none => rfl
  | some P => simp only [LM.val_bind, Ed.ofProj_val, LM.val_pure, Res.pure_eq]

theorem newRandom_val (c : Cfg) (rng : ℕ → Bytes32) : (Ed.newRandom c rng).val = Zerocaf.Ed.newRandom c rng := by
  simp only [Ed.newRandom, Zerocaf.Ed.newRandom, LM.val_bind, Proj.newRandom_val, Ed.ofProj_val]

theorem decompress_val (c : Cfg) (b : Bytes32) : (Ed.decompress c b).val = Zerocaf.Ed.decompress c b :=
  Ed.newFromY_val c _ _

theorem negCompressed_val (c : Cfg) (b : Bytes32) : (Ed.negCompressed c b).val = Zerocaf.Ed.negCompressed c b := by
  simp only [Ed.negCompressed, Zerocaf.Ed.negCompressed, LM.val_bind, Ed.decompress_val, unwrap_val, Ed.neg_val,
    Ed.compress_val]

end Ed

theorem Ristretto.isValid_val (c : Cfg) (P : EdPoint) :
    (Ristretto.isValid c P).val = Zerocaf.Ristretto.isValid c P := by
  simp only [Ristretto.isValid, Zerocaf.Ristretto.isValid, Zerocaf.Ed.mul, LM.val_bind, doubleAndAdd_val, Ed.ops_erase,
    Ed.ctEq_val, Ed.isValid_val, LM.val_pure, Res.pure_eq]

/-! ### Functions with a fixed trace -/

theorem Aff.isValid_ct (c : Cfg) : ∃ t, ∀ P, Const c (Aff.isValid c P) t := by
  obtain ⟨_, hm⟩ := Field.mul_ct c
  obtain ⟨_, ha⟩ := Field.add_ct c
  obtain ⟨_, hq⟩ := Field.square_ct c
  apply Exists.intro
  intro P
  unfold Aff.isValid
  apply Const.bind (hq _); intro _
  apply Const.bind (hq _); intro _
  apply Const.bind (hm _ _); intro _
  apply Const.bind (ha _ _); intro _
  apply Const.bind (hm _ _); intro _
  apply Const.bind (hm _ _); intro _
  apply Const.bind (ha _ _); intro _
  exact Field.ctEq_ct c _ _

theorem Proj.isValid_ct (c : Cfg) : ∃ t, ∀ P, Const c (Proj.isValid c P) t := by
  obtain ⟨_, hm⟩ := Field.mul_ct c
  obtain ⟨_, ha⟩ := Field.add_ct c
  obtain ⟨_, hq⟩ := Field.square_ct c
  apply Exists.intro
  intro P
  unfold Proj.isValid
  apply Const.bind (hq _); intro _
  apply Const.bind (hq _); intro _
  apply Const.bind (hq _); intro _
  apply Const.bind (hm _ _); intro _
  apply Const.bind (ha _ _); intro _
  apply Const.bind (hm _ _); intro _
  apply Const.bind (hq _); intro _
  apply Const.bind (hm _ _); intro _
  apply Const.bind (hm _ _); intro _
  apply Const.bind (ha _ _); intro _
  exact Field.ctEq_ct c _ _

theorem Ed.isValid_ct (c : Cfg) : ∃ t, ∀ P, Const c (Ed.isValid c P) t := by
  obtain ⟨t, ht⟩ := Proj.isValid_ct c
  exact ⟨t, fun P => ht _⟩

theorem Ed.ofProj_ct (c : Cfg) : ∃ t, ∀ P, Const c (Ed.ofProj c P) t := by
  obtain ⟨_, hm⟩ := Field.mul_ct c
  obtain ⟨_, hq⟩ := Field.square_ct c
  apply Exists.intro
  intro P
  unfold Ed.ofProj
  apply Const.bind (hm _ _); intro _
  apply Const.bind (hm _ _); intro _
  apply Const.bind (hq _); intro _
  apply Const.bind (hm _ _); intro _
  exact Const.pure c _

theorem Ed.ofAff_ct (c : Cfg) : ∃ t, ∀ P, Const c (Ed.ofAff c P) t := by
  obtain ⟨_, hm⟩ := Field.mul_ct c
  apply Exists.intro
  intro P
  unfold Ed.ofAff
  apply Const.bind (hm _ _); intro _
  exact Const.pure c _

theorem Ed.coset4_ct (c : Cfg) : ∃ t, ∀ P, Const c (Ed.coset4 c P) t := by
  obtain ⟨_, ha⟩ := Ed.add_ct c
  apply Exists.intro
  intro P
  unfold Ed.coset4
  apply Const.bind (ha _ _); intro _
  apply Const.bind (ha _ _); intro _
  apply Const.bind (ha _ _); intro _
  exact Const.pure c _

/-! ### Points from their `y` -/

/-- A computation with a fixed trace and known results. -/
theorem Lock.step {α β α' β' : Type} {m : LM α} {m' : LM α'} {f : α → LM β} {f' : α' → LM β'} {t : List Ev}
    {S : β → β' → Prop} {a : α} {a' : α'} (h : Ret m t) (h' : Ret m' t) (ha : m.val = .ok a) (ha' : m'.val = .ok a')
    (hf : Lock (f a) (f' a') S) : Lock (m >>= f) (m' >>= f') S := Lock.skip h h' fun b b' hb hb' => by
  rw [ha, Res.ok_inj] at hb
  rw [ha', Res.ok_inj] at hb'
  subst hb hb'
  exact hf

theorem modSqrt_isSome (c : Cfg) (hc : c.Enough) (x : Fp) (s : Bool) (o : Option FE)
    (h : Zerocaf.Field.modSqrt c (enc x) s = .ok o) : (o.isSome = true ↔ IsSquare x) := by
  by_cases h0 : x = 0
  · rw [h0, Zerocaf.Field.modSqrt_zero, Res.ok_inj] at h
    subst h
    rw [h0]
    exact ⟨fun _ => ⟨0, (mul_zero 0).symm⟩, fun _ => rfl⟩
  by_cases h1 : IsSquare x
  · rw [Zerocaf.Field.modSqrt_tsRoot x h0 h1 c s hc, Res.ok_inj] at h
    subst h
    exact ⟨fun _ => h1, fun _ => rfl⟩
  · rw [Zerocaf.Field.modSqrt_nonsquare c hc x s h1, Res.ok_inj] at h
    subst h
    exact ⟨fun k => (by cases k), fun k => absurd k h1⟩

open Zerocaf.Leak.Field (mulE subE sqE)

theorem den_ne (y : Fp) : dZ * (y * y) - -1 ≠ 0 := by rw [sub_neg_eq_add, add_comm]; exact dy_ne y

namespace Proj

theorem newFromY_sync (c : Cfg) (hc : c.Enough) (y y' : Fp) (s s' : Bool) :
    Sync (Proj.newFromY c (enc y) s) (Proj.newFromY c (enc y') s') fun _ _ => y * y = y' * y' := by
  unfold Proj.newFromY
  rw [Zerocaf.Field.one_enc, EDWARDS_D_enc, EDWARDS_A_enc]
  refine sqE (subE (sqE (mulE (subE ?_))))
  refine (Field.div_sync c _ _ _ _ (den_ne y) (den_ne y')).bind fun q q' hq hq' e => ?_
  rw [Field.div_val, Zerocaf.Field.div_enc c hc _ _ (den_ne _), Res.ok_inj] at hq hq'
  subst hq hq'
  refine (Field.modSqrt_sync c hc _ _ _ _).bind fun _ _ _ _ _ => Sync.branch _ fun _ => Sync.pure ?_
  have : dZ * (y * y - y' * y') = 0 := by linear_combination e
  exact sub_eq_zero.1 ((mul_eq_zero.1 this).resolve_left dZ_ne)

theorem newFromY_lock (c : Cfg) (hc : c.Enough) (y y' : Fp) (s s' : Bool) (e : y * y = y' * y') :
    Lock (Proj.newFromY c (enc y) s) (Proj.newFromY c (enc y') s') fun o o' => o.isSome = o'.isSome := by
  obtain ⟨_, hm⟩ := Field.mul_ct c
  obtain ⟨_, hs⟩ := Field.sub_ct c
  obtain ⟨_, hq⟩ := Field.square_ct c
  have vs : ∀ x : Fp, (Field.square c (enc x)).val = .ok (enc (x * x)) := fun x => by
    rw [Field.square_val, Zerocaf.Field.square_enc]
  have e1 := (Field.square c (enc y')).val
  unfold Proj.newFromY
  rw [Zerocaf.Field.one_enc, EDWARDS_D_enc, EDWARDS_A_enc]
  refine Lock.step (hq _).ret (hq _).ret (vs y) (vs y') ?_
  rw [← e]
  refine Lock.same fun a ha => Lock.step (hq _).ret (hq _).ret (vs y) (vs y') ?_
  rw [← e]
  refine Lock.same fun d hd => Lock.same fun f hf => Lock.same fun x hx => ?_
  rw [Field.sub_val, Zerocaf.Field.sub_enc, Res.ok_inj] at ha
  rw [Field.mul_val, Zerocaf.Field.mul_enc, Res.ok_inj] at hd
  subst ha hd
  rw [Field.sub_val, Zerocaf.Field.sub_enc, Res.ok_inj] at hf
  subst hf
  rw [Field.div_val, Zerocaf.Field.div_enc c hc _ _ (den_ne _), Res.ok_inj] at hx
  subst hx
  refine (Field.modSqrt_lock c hc _ _ s s' Iff.rfl Iff.rfl (.inl rfl)).bind fun o o' ho ho' _ => ?_
  rw [Field.modSqrt_val] at ho ho'
  have : o.isSome = o'.isSome := Bool.eq_iff_iff.2 ((modSqrt_isSome c hc _ _ _ ho).trans (modSqrt_isSome c hc _ _ _ ho').symm)
  rw [this]
  refine Lock.branch _ (Lock.pure ?_)
  rw [Option.isSome_map, Option.isSome_map, this]

theorem newRandomLoop_sync (c : Cfg) (hc : c.Enough) (g g' : ℕ → Bytes32) : ∀ n n' i i' : ℕ,
    Sync (newRandomLoop c g n i) (newRandomLoop c g' n' i') fun P P' => P = P' := by
  intro n
  induction n with
  | zero => intro n' i i'; exact Sync.stop fun x h => by simp [newRandomLoop] at h
  | succ n ih =>
    intro n' i i'
    cases n' with
    | zero => exact Sync.stop' fun x h => by simp [newRandomLoop] at h
    | succ n' =>
      rw [newRandomLoop, newRandomLoop]
      obtain ⟨k, k2⟩ := Zerocaf.Field.random_spec (g i)
      obtain ⟨k', k2'⟩ := Zerocaf.Field.random_spec (g' i')
      have e := k.eq_enc rfl
      have e' := k'.eq_enc rfl
      refine Sync.bind (R := fun _ _ => Zerocaf.Field.random (g i) = Zerocaf.Field.random (g' i')) ?_
        fun o o' ho ho' er => ?_
      · rw [e, e']
        refine (newFromY_sync c hc _ _ false false).mono fun _ _ h => ?_
        rcases sq_eq_cases h with h | h
        · rw [h]
        · rw [← e, ← e']
          have h2 : (((Zerocaf.Field.random (g i)).val + (Zerocaf.Field.random (g' i')).val : ℕ) : Fp) = 0 := by
            rw [Nat.cast_add]
            unfold L5.toZ at h
            rw [h, neg_add_cancel]
          rw [ZMod.natCast_eq_zero_iff] at h2
          have hp : (2 : ℕ) ^ 251 + 2 ^ 251 < p := by decide
          have h3 := Nat.eq_zero_of_dvd_of_lt h2 (lt_trans (Nat.add_lt_add k2 k2') hp)
          exact k.1.ext k'.1 (by omega)
      · rw [← er] at ho'
        rw [ho, Res.ok_inj] at ho'
        subst ho'
        refine Sync.branch _ fun _ => ?_
        cases o with
        | none => exact ih _ _ _
        | some P => exact Sync.pure rfl

end Proj

namespace Ed

theorem newFromY_sync (c : Cfg) (hc : c.Enough) (y y' : Fp) (s s' : Bool) :
    Sync (Ed.newFromY c (enc y) s) (Ed.newFromY c (enc y') s') fun _ _ => y * y = y' * y' := by
  obtain ⟨_, hp⟩ := Ed.ofProj_ct c
  unfold Ed.newFromY
  refine (Proj.newFromY_sync c hc y y' s s').bind fun o o' _ _ e => Sync.branch _ fun es => ?_
  cases o with
  | none =>
    cases o' with
    | none => exact Sync.pure e
    | some _ => cases es
  | some P =>
    cases o' with
    | none => cases es
    | some P' => exact Sync.skip (hp _).ret (hp _).ret fun _ _ => Sync.pure e

theorem newFromY_lock (c : Cfg) (hc : c.Enough) (y y' : Fp) (s s' : Bool) (e : y * y = y' * y') :
    Lock (Ed.newFromY c (enc y) s) (Ed.newFromY c (enc y') s') fun _ _ => True := by
  obtain ⟨_, hp⟩ := Ed.ofProj_ct c
  unfold Ed.newFromY
  refine (Proj.newFromY_lock c hc y y' s s' e).bind fun o o' _ _ es => ?_
  rw [es]
  refine Lock.branch _ ?_
  cases o with
  | none =>
    cases o' with
    | none => exact Lock.pure trivial
    | some _ => cases es
  | some P =>
    cases o' with
    | none => cases es
    | some P' => exact Lock.skip (hp _).ret (hp _).ret fun _ _ _ _ => Lock.pure trivial

theorem decompress_eq (c : Cfg) (b : Bytes32) :
    Ed.decompress c b = Ed.newFromY c (enc ((bytesVal b % 2 ^ 252 : ℕ) : Fp)) (b[31] >>> 7 == 1) := by
  have hy : Zerocaf.Field.fromBytes (b.set 31 (b[31] &&& 0b00001111)) = enc ((bytesVal b % 2 ^ 252 : ℕ) : Fp) := by
    obtain ⟨w, v⟩ := Zerocaf.Field.fromBytes_spec (b.set 31 (b[31] &&& 0b00001111))
    rw [mask_val] at v
    have hcan : (Zerocaf.Field.fromBytes (b.set 31 (b[31] &&& 0b00001111))).Canon := by
      refine ⟨w, ?_⟩
      rw [v]
      have : bytesVal b % 2 ^ 252 < 2 ^ 252 := Nat.mod_lt _ (by decide)
      exact lt_trans this (by decide)
    exact hcan.eq_enc (toZ_eq_iff.2 (by rw [v]))
  unfold Ed.decompress
  dsimp only
  rw [hy]

theorem newRandom_sync (c : Cfg) (hc : c.Enough) (g g' : ℕ → Bytes32) :
    Sync (Ed.newRandom c g) (Ed.newRandom c g') fun P P' => P = P' := by
  unfold Ed.newRandom Proj.newRandom
  refine (Proj.newRandomLoop_sync c hc g g' _ _ _ _).bind fun P P' _ _ e => ?_
  subst e
  intro x x' z z' hx hx' _
  rw [hx, Res.ok_inj] at hx'
  exact ⟨rfl, hx'⟩

end Ed

theorem findXX_lock (c : Cfg) (y y' : Fp) (e : y * y = y' * y') :
    Lock (findXX c (enc y)) (findXX c (enc y')) fun _ _ => True := by
  obtain ⟨_, hq⟩ := Field.square_ct c
  have vs : ∀ x : Fp, (Field.square c (enc x)).val = .ok (enc (x * x)) := fun x => by
    rw [Field.square_val, Zerocaf.Field.square_enc]
  unfold findXX
  refine Lock.step (hq _).ret (hq _).ret (vs y) (vs y') ?_
  rw [← e]
  refine Lock.same fun a ha => Lock.step (hq _).ret (hq _).ret (vs y) (vs y') ?_
  rw [← e]
  exact Lock.same fun d _ => Lock.same fun f _ => fun _ _ _ _ => ⟨rfl, trivial⟩

theorem unwrap_lock {α β : Type} (o : Option α) (o' : Option β) :
    Lock (unwrap o) (unwrap o') fun x x' => o = some x ∧ o' = some x' := by
  intro x x' hx hx'
  rw [unwrap_val] at hx hx'
  cases o <;> cases o' <;> simp [Zerocaf.unwrap] at hx hx'
  subst hx hx'
  exact ⟨rfl, rfl, rfl⟩

namespace Ed

theorem xxOf_congr {y y' : Fp} (e : y * y = y' * y') : xxOf y = xxOf y' := by
  unfold xxOf
  rw [e]

/-- Encodings in step have the same sign bit. -/
theorem compress_sign (c : Cfg) (hc : c.Enough) (X Y Z X' Y' Z' : Fp) (T T' : FE) (hZ : Z ≠ 0) (hZ' : Z' ≠ 0)
    (hq : IsSquare (xxOf (Y / Z))) (hq' : IsSquare (xxOf (Y' / Z'))) :
    Sync (Ed.compress c ⟨enc X, enc Y, enc Z, T⟩) (Ed.compress c ⟨enc X', enc Y', enc Z', T'⟩) fun _ _ =>
      (Zerocaf.Field.tsRoot (xxOf (Y / Z)) = X / Z ↔ Zerocaf.Field.tsRoot (xxOf (Y' / Z')) = X' / Z') := by
  obtain ⟨tm, hm⟩ := Field.mul_ct c
  unfold Ed.compress
  refine Sync.bind (R := fun _ _ => True) ?_ fun P P' hP hP' _ => ?_
  · unfold Aff.ofEd
    refine (Field.inverse_sync' c _ _).bind fun _ _ _ _ e => ?_
    exact Sync.skip (hm _ _).ret (hm _ _).ret fun _ _ => Sync.skip (hm _ _).ret (hm _ _).ret fun _ _ => Sync.pure trivial
  · rw [Aff.ofEd_val, Props.Aff_ofEd_enc c hc _ _ _ _ ‹_›, Res.ok_inj] at hP hP'
    subst hP hP'
    refine (findXX_sync c _ _).bind fun q q' hq1 hq2 e => ?_
    rw [findXX_val, findXX_enc c hc, Res.ok_inj] at hq1 hq2
    subst hq1 hq2
    refine (Field.modSqrt_sync c hc _ _ _ _).bind fun o o' ho ho' _ => (unwrap_sync _ _).bind fun r r' _ _ h => ?_
    rw [Field.modSqrt_val, modSqrt_of_square c hc false ‹_›, Res.ok_inj, if_neg Bool.false_ne_true] at ho ho'
    subst ho ho'
    obtain ⟨h1, h2⟩ := h
    rw [Option.some.injEq] at h1 h2
    subst h1 h2
    refine Field.eqE (Sync.branch _ fun es => Sync.pure ?_)
    rwa [Bool.not_inj_iff, decide_eq_decide] at es

/-- The traces of two encodings agree if `Z`, `y` up to sign and the sign bit do. -/
theorem compress_lock (c : Cfg) (hc : c.Enough) (X Y Z X' Y' : Fp) (T T' : FE) (hZ : Z ≠ 0) (e : Y * Y = Y' * Y')
    (hs : Zerocaf.Field.tsRoot (xxOf (Y / Z)) = X / Z ↔ Zerocaf.Field.tsRoot (xxOf (Y' / Z)) = X' / Z)
    (hq : IsSquare (xxOf (Y / Z))) :
    Lock (Ed.compress c ⟨enc X, enc Y, enc Z, T⟩) (Ed.compress c ⟨enc X', enc Y', enc Z, T'⟩) fun _ _ => True := by
  obtain ⟨tm, hm⟩ := Field.mul_ct c
  have e2 : Y / Z * (Y / Z) = Y' / Z * (Y' / Z) := by rw [div_mul_div_comm, div_mul_div_comm, e]
  have ex := xxOf_congr e2
  unfold Ed.compress
  refine Lock.bind (R := fun _ _ => True) ?_ fun P P' hP hP' _ => ?_
  · unfold Aff.ofEd
    exact Lock.same fun _ _ => Lock.skip (hm _ _).ret (hm _ _).ret fun _ _ _ _ =>
      Lock.skip (hm _ _).ret (hm _ _).ret fun _ _ _ _ => Lock.pure trivial
  · rw [Aff.ofEd_val, Props.Aff_ofEd_enc c hc _ _ _ _ hZ, Res.ok_inj] at hP hP'
    subst hP hP'
    refine (findXX_lock c _ _ e2).bind fun q q' hq1 hq2 _ => ?_
    rw [findXX_val, findXX_enc c hc, Res.ok_inj] at hq1 hq2
    rw [← ex] at hq2 hs
    subst hq1 hq2
    refine (Field.modSqrt_lock c hc _ _ _ _ Iff.rfl Iff.rfl (.inl rfl)).bind fun o o' ho ho' _ => ?_
    rw [Field.modSqrt_val, modSqrt_of_square c hc false hq, Res.ok_inj, if_neg Bool.false_ne_true] at ho ho'
    subst ho ho'
    refine (unwrap_lock _ _).bind fun r r' _ _ h => ?_
    obtain ⟨h1, h2⟩ := h
    rw [Option.some.injEq] at h1 h2
    subst h1 h2
    refine Lock.step (Field.ctEq_ret _ _) (Field.ctEq_ret _ _) (Field.ctEq_val _ _) (Field.ctEq_val _ _) ?_
    rw [Zerocaf.Field.ctEq_enc, Zerocaf.Field.ctEq_enc, decide_eq_decide.2 hs]
    exact Lock.branch _ (Lock.pure trivial)

end Ed

end Leak
end Zerocaf
