import Verif.Props.Forms
import Verif.Props.NafUnique

/-!
# Property C89: point functions on arbitrary reduced coordinates

The coordinates of the point types are public, so nothing forces a tuple to be a curve point. These theorems
say what the point functions do on every tuple of reduced coordinates: whether they return, and that the
value they return does not depend on the build profile.
-/

set_option exponentiation.threshold 600

namespace Zerocaf

/-- All coordinates are reduced. -/
def EdPoint.Red (P : EdPoint) : Prop := P.X.Canon ∧ P.Y.Canon ∧ P.Z.Canon ∧ P.T.Canon
def ProjPoint.Red (P : ProjPoint) : Prop := P.X.Canon ∧ P.Y.Canon ∧ P.Z.Canon

theorem EdPoint.Red.form {P : EdPoint} (h : P.Red) : P = ⟨enc P.X.val, enc P.Y.val, enc P.Z.val, enc P.T.val⟩ :=
  EdPoint.ext (h.1.eq_enc rfl) (h.2.1.eq_enc rfl) (h.2.2.1.eq_enc rfl) (h.2.2.2.eq_enc rfl)

theorem ProjPoint.Red.form {P : ProjPoint} (h : P.Red) : P = ⟨enc P.X.val, enc P.Y.val, enc P.Z.val⟩ :=
  ProjPoint.ext (h.1.eq_enc rfl) (h.2.1.eq_enc rfl) (h.2.2.eq_enc rfl)

theorem EdPoint.red_mk (X Y Z T : Fp) : (⟨enc X, enc Y, enc Z, enc T⟩ : EdPoint).Red :=
  ⟨enc_canon _, enc_canon _, enc_canon _, enc_canon _⟩

theorem ProjPoint.red_mk (X Y Z : Fp) : (⟨enc X, enc Y, enc Z⟩ : ProjPoint).Red :=
  ⟨enc_canon _, enc_canon _, enc_canon _⟩

/-- The operations return, in every build, a value that depends on the operands only. -/
structure TotSpec {T : Type} (O : PointOps T) (K : T → Prop) : Prop where
  identity : K O.identity
  add : ∀ {P Q}, K P → K Q → ∃ S, K S ∧ ∀ c, O.add c P Q = .ok S
  sub : ∀ {P Q}, K P → K Q → ∃ S, K S ∧ ∀ c, O.sub c P Q = .ok S
  double : ∀ {P}, K P → ∃ S, K S ∧ ∀ c, O.double c P = .ok S

section
variable {T : Type} {O : PointOps T} {K : T → Prop}

theorem TotSpec.daaLoop (hO : TotSpec O K) : ∀ (k : Nat) (N : T) (n : Sc) (Q : T), K N → K Q → n.WF →
    n.val < 2 ^ k → k ≤ 256 → ∃ S, K S ∧ ∀ c fuel, k < fuel → doubleAndAddLoop O c fuel N n Q = .ok S := by
  intro k
  induction k with
  | zero =>
    intro N n Q hN hQ wn hn _
    have h0 : n.val = 0 := by simpa using hn
    refine ⟨Q, hQ, fun c fuel hf => ?_⟩
    obtain ⟨f, rfl⟩ : ∃ f, fuel = f + 1 := ⟨fuel - 1, by omega⟩
    rw [doubleAndAddLoop, sctEq_zero n wn (by omega), h0]; rfl
  | succ k ih =>
    intro N n Q hN hQ wn hn hk
    have h256 : n.val < 2 ^ 256 := lt_of_lt_of_le hn (Nat.pow_le_pow_right (by omega) hk)
    by_cases h0 : n.val = 0
    · refine ⟨Q, hQ, fun c fuel hf => ?_⟩
      obtain ⟨f, rfl⟩ : ∃ f, fuel = f + 1 := ⟨fuel - 1, by omega⟩
      rw [doubleAndAddLoop, sctEq_zero n wn h256, decide_eq_true h0]; rfl
    · obtain ⟨N', kN', eN'⟩ := hO.double hN
      obtain ⟨wh, vh⟩ := halfWithoutMod_spec n wn
      have hlt : (Scalar.halfWithoutMod n).val < 2 ^ k := by
        show (Field.halfWithoutMod n).val < _; rw [vh]; rw [pow_succ] at hn; omega
      rcases he : Scalar.isEven n with _ | _
      · obtain ⟨Q', kQ', eQ'⟩ := hO.add hQ hN
        obtain ⟨S, kS, eS⟩ := ih N' (Scalar.halfWithoutMod n) Q' kN' kQ' wh hlt (by omega)
        refine ⟨S, kS, fun c fuel hf => ?_⟩
        obtain ⟨f, rfl⟩ : ∃ f, fuel = f + 1 := ⟨fuel - 1, by omega⟩
        rw [doubleAndAddLoop, sctEq_zero n wn h256, decide_eq_false h0]
        simp only [he, Bool.not_false, if_true, eQ' c, eN' c, Res.ok_bind, eS c f (by omega)]
      · obtain ⟨S, kS, eS⟩ := ih N' (Scalar.halfWithoutMod n) Q kN' hQ wh hlt (by omega)
        refine ⟨S, kS, fun c fuel hf => ?_⟩
        obtain ⟨f, rfl⟩ : ∃ f, fuel = f + 1 := ⟨fuel - 1, by omega⟩
        rw [doubleAndAddLoop, sctEq_zero n wn h256, decide_eq_false h0]
        simp only [he, Bool.not_false, Bool.not_true, Bool.false_eq_true, if_true, if_false, eN' c, Res.ok_bind,
          eS c f (by omega)]

theorem TotSpec.daa (hO : TotSpec O K) {P : T} (hP : K P) (n : Sc) (wn : n.WF) (hn : n.val < 2 ^ 256) :
    ∃ S, K S ∧ ∀ c : Cfg, c.Enough → doubleAndAdd O c P n = .ok S := by
  obtain ⟨S, kS, eS⟩ := hO.daaLoop 256 P n O.identity hP hO.identity wn hn le_rfl
  exact ⟨S, kS, fun c hc => eS c c.fuel (by unfold Cfg.Enough at hc; omega)⟩

theorem TotSpec.ltrLoop (hO : TotSpec O K) {P : T} (hP : K P) (bits : Vector UInt8 256) :
    ∀ (n : Nat) (hn : n ≤ 256) (Q : T), K Q → ∃ S, K S ∧ ∀ c, Zerocaf.ltrLoop O c P bits n hn Q = .ok S := by
  intro n
  induction n with
  | zero => exact fun hn Q hQ => ⟨Q, hQ, fun _ => rfl⟩
  | succ i ih =>
    intro hn Q hQ
    obtain ⟨Q1, k1, e1⟩ := hO.double hQ
    rcases hb : bits[i] == 1 with _ | _
    · obtain ⟨S, kS, eS⟩ := ih (by omega) Q1 k1
      refine ⟨S, kS, fun c => ?_⟩
      simp only [Zerocaf.ltrLoop, e1 c, Res.ok_bind, hb, Bool.false_eq_true, if_false, eS c]
    · obtain ⟨Q2, k2, e2⟩ := hO.add k1 hP
      obtain ⟨S, kS, eS⟩ := ih (by omega) Q2 k2
      refine ⟨S, kS, fun c => ?_⟩
      simp only [Zerocaf.ltrLoop, e1 c, Res.ok_bind, hb, if_true, e2 c, eS c]

theorem TotSpec.nafLoop (hO : TotSpec O K) {P : T} (hP : K P) (naf : Vector Int 256) :
    ∀ (n : Nat) (hn : n ≤ 256) (Q : T), K Q → ∃ S, K S ∧ ∀ c, nafMulLoop O c P naf n hn Q = .ok S := by
  intro n
  induction n with
  | zero => exact fun hn Q hQ => ⟨Q, hQ, fun _ => rfl⟩
  | succ i ih =>
    intro hn Q hQ
    obtain ⟨Q1, k1, e1⟩ := hO.double hQ
    by_cases h1 : naf[i] = 1
    · obtain ⟨Q2, k2, e2⟩ := hO.add k1 hP
      obtain ⟨S, kS, eS⟩ := ih (by omega) Q2 k2
      refine ⟨S, kS, fun c => ?_⟩
      simp only [nafMulLoop, e1 c, Res.ok_bind, h1, if_true, e2 c, eS c]
    · by_cases h2 : naf[i] = -1
      · obtain ⟨Q2, k2, e2⟩ := hO.sub k1 hP
        obtain ⟨S, kS, eS⟩ := ih (by omega) Q2 k2
        refine ⟨S, kS, fun c => ?_⟩
        simp only [nafMulLoop, e1 c, Res.ok_bind, if_neg h1, if_pos h2, e2 c, eS c]
      · obtain ⟨S, kS, eS⟩ := ih (by omega) Q1 k1
        refine ⟨S, kS, fun c => ?_⟩
        simp only [nafMulLoop, e1 c, Res.ok_bind, if_neg h1, if_neg h2, eS c]

/-- Every multiplication function of the API. -/
theorem TotSpec.muls (hO : TotSpec O K) {P : T} (hP : K P) (n : Sc) (hn : n.SCanon) (k : Nat) (hk : k ≤ 249) :
    ∃ S₁ S₂ S₃ S₄ S₅, K S₁ ∧ K S₂ ∧ K S₃ ∧ K S₄ ∧ K S₅ ∧ ∀ c : Cfg, c.Enough →
      doubleAndAdd O c P n = .ok S₁ ∧ ltrBinMul O c P n = .ok S₂ ∧ binaryNafMul O c P n = .ok S₃ ∧
      mulByCofactor O c P = .ok S₄ ∧ mulByPow2 O c P k = .ok S₅ := by
  obtain ⟨S₁, k1, e1⟩ := hO.daa hP n hn.1 (Scalar.scanon_lt256 hn)
  obtain ⟨S₂, k2, e2⟩ := hO.ltrLoop hP (Scalar.intoBits n) 249 (by omega) O.identity hO.identity
  obtain ⟨v, ev, nv, sv⟩ := Props.naf_isNAF Props.dbg (by decide) n hn
  obtain ⟨S₃, k3, e3⟩ := hO.nafLoop hP v 250 (by omega) O.identity hO.identity
  obtain ⟨h8, _⟩ := Scalar.fromU32_spec 8 (by decide)
  obtain ⟨S₄, k4, e4⟩ := hO.daa hP (Scalar.fromU32 8) h8.1 (Scalar.scanon_lt256 h8)
  obtain ⟨s, es, cs, vs⟩ := Scalar.twoPowK_ok k hk
  obtain ⟨S₅, k5, e5⟩ := hO.daa hP s cs.1 (Scalar.scanon_lt256 cs)
  refine ⟨S₁, S₂, S₃, S₄, S₅, k1, k2, k3, k4, k5, fun c hc => ⟨e1 c hc, e2 c, ?_, e4 c hc, ?_⟩⟩
  · unfold binaryNafMul
    rw [((Props.C91_naf c c hc hc n hn v).1).2 ⟨nv, sv⟩, Res.ok_bind, e3 c]
  · unfold mulByPow2
    rw [es, Res.ok_bind, e5 c hc]

end

theorem Ed.sub_enc (c : Cfg) (X Y Z T X' Y' Z' T' : Fp) :
    Ed.sub c ⟨enc X, enc Y, enc Z, enc T⟩ ⟨enc X', enc Y', enc Z', enc T'⟩ =
      Ed.add c ⟨enc X, enc Y, enc Z, enc T⟩ ⟨enc (-X'), enc Y', enc Z', enc (-T')⟩ := by
  rw [Ed.add_enc]
  simp only [Ed.sub, Ed.neg, EDWARDS_D_enc, EDWARDS_A_enc, Field.mul_enc, Field.add_enc, Field.sub_enc,
    Field.neg_enc, Res.ok_bind, Res.pure_eq, neg_one_mul, sub_neg_eq_add]

theorem Ed.totSpec : TotSpec Ed.ops EdPoint.Red := by
  have hadd : ∀ {P Q : EdPoint}, P.Red → Q.Red → ∃ S : EdPoint, S.Red ∧ ∀ c, Ed.add c P Q = .ok S := by
    intro P Q hP hQ
    rw [hP.form, hQ.form]
    exact ⟨_, EdPoint.red_mk _ _ _ _, fun c => Ed.add_enc c _ _ _ _ _ _ _ _⟩
  refine ⟨⟨by decide, by decide, by decide, by decide⟩, hadd, ?_, fun hP => hadd hP hP⟩
  intro P Q hP hQ
  rw [hP.form, hQ.form]
  exact ⟨_, EdPoint.red_mk _ _ _ _, fun c => (Ed.sub_enc c _ _ _ _ _ _ _ _).trans (Ed.add_enc c _ _ _ _ _ _ _ _)⟩

theorem Ristretto.totSpec : TotSpec Ristretto.ops EdPoint.Red := by
  refine ⟨Ed.totSpec.identity, Ed.totSpec.add, ?_, Ed.totSpec.double⟩
  intro P Q hP hQ
  rw [hP.form, hQ.form]
  have h : ∀ c (X Y Z T X' Y' Z' T' : Fp),
      Ristretto.sub c ⟨enc X, enc Y, enc Z, enc T⟩ ⟨enc X', enc Y', enc Z', enc T'⟩ =
        Ed.add c ⟨enc X, enc Y, enc Z, enc T⟩ ⟨enc (-X'), enc Y', enc Z', enc (-T')⟩ := by
    intros
    simp only [Ristretto.sub, Ristretto.neg, Ristretto.add, Ed.neg, Field.neg_enc, Res.ok_bind, Res.pure_eq]
  exact ⟨_, EdPoint.red_mk _ _ _ _, fun c => (h c _ _ _ _ _ _ _ _).trans (Ed.add_enc c _ _ _ _ _ _ _ _)⟩

theorem Proj.totSpec : TotSpec Proj.ops ProjPoint.Red := by
  refine ⟨⟨by decide, by decide, by decide⟩, ?_, ?_, ?_⟩
  · intro P Q hP hQ
    rw [hP.form, hQ.form]
    exact ⟨_, ProjPoint.red_mk _ _ _, fun c => Proj.add_enc c _ _ _ _ _ _⟩
  · intro P Q hP hQ
    rw [hP.form, hQ.form]
    have h : ∀ c (X Y Z X' Y' Z' : Fp), Proj.sub c ⟨enc X, enc Y, enc Z⟩ ⟨enc X', enc Y', enc Z'⟩ =
        Proj.add c ⟨enc X, enc Y, enc Z⟩ ⟨enc (-X'), enc Y', enc Z'⟩ := by
      intros
      simp only [Proj.sub, Proj.neg, Field.neg_enc, Res.ok_bind, Res.pure_eq]
    exact ⟨_, ProjPoint.red_mk _ _ _, fun c => (h c _ _ _ _ _ _).trans (Proj.add_enc c _ _ _ _ _ _)⟩
  · intro P hP
    rw [hP.form]
    exact ⟨_, ProjPoint.red_mk _ _ _, fun c => Proj.double_enc c _ _ _⟩

namespace Props

/-! ### C89 -/

/-- C89: addition, subtraction, doubling and negation of extended coordinates return reduced coordinates,
the same in every build, whatever the operands. -/
theorem C89_extended_ops (P Q : EdPoint) (hP : P.Red) (hQ : Q.Red) :
    ∃ S D T N : EdPoint, S.Red ∧ D.Red ∧ T.Red ∧ N.Red ∧ ∀ c,
      Ed.add c P Q = .ok S ∧ Ed.sub c P Q = .ok D ∧ Ed.double c P = .ok T ∧ Ed.neg c P = .ok N := by
  obtain ⟨S, kS, eS⟩ := Ed.totSpec.add hP hQ
  obtain ⟨D, kD, eD⟩ := Ed.totSpec.sub hP hQ
  obtain ⟨T, kT, eT⟩ := Ed.totSpec.double hP
  refine ⟨S, D, T, ⟨enc (-P.X.val), enc P.Y.val, enc P.Z.val, enc (-P.T.val)⟩, kS, kD, kT,
    EdPoint.red_mk _ _ _ _, fun c => ⟨eS c, eD c, eT c, ?_⟩⟩
  conv_lhs => rw [hP.form]
  simp only [Ed.neg, Field.neg_enc, Res.ok_bind, Res.pure_eq]

/-- C89: the same for projective coordinates. -/
theorem C89_projective_ops (P Q : ProjPoint) (hP : P.Red) (hQ : Q.Red) :
    ∃ S D T N : ProjPoint, S.Red ∧ D.Red ∧ T.Red ∧ N.Red ∧ ∀ c,
      Proj.add c P Q = .ok S ∧ Proj.sub c P Q = .ok D ∧ Proj.double c P = .ok T ∧ Proj.neg c P = .ok N := by
  obtain ⟨S, kS, eS⟩ := Proj.totSpec.add hP hQ
  obtain ⟨D, kD, eD⟩ := Proj.totSpec.sub hP hQ
  obtain ⟨T, kT, eT⟩ := Proj.totSpec.double hP
  refine ⟨S, D, T, ⟨enc (-P.X.val), enc P.Y.val, enc P.Z.val⟩, kS, kD, kT,
    ProjPoint.red_mk _ _ _, fun c => ⟨eS c, eD c, eT c, ?_⟩⟩
  conv_lhs => rw [hP.form]
  simp only [Proj.neg, Field.neg_enc, Res.ok_bind, Res.pure_eq]

/-- C89: every multiplication function returns reduced coordinates, the same in every build. -/
theorem C89_multiplication (P : EdPoint) (hP : P.Red) (Q : ProjPoint) (hQ : Q.Red) (n : Sc) (hn : n.SCanon)
    (k : Nat) (hk : k ≤ 249) :
    (∃ S₁ S₂ S₃ S₄ S₅ : EdPoint, S₁.Red ∧ S₂.Red ∧ S₃.Red ∧ S₄.Red ∧ S₅.Red ∧ ∀ c : Cfg, c.Enough →
      Ed.mul c P n = .ok S₁ ∧ ltrBinMul Ed.ops c P n = .ok S₂ ∧ binaryNafMul Ed.ops c P n = .ok S₃ ∧
      mulByCofactor Ed.ops c P = .ok S₄ ∧ mulByPow2 Ed.ops c P k = .ok S₅) ∧
    (∃ S₁ S₂ S₃ S₄ S₅ : EdPoint, S₁.Red ∧ S₂.Red ∧ S₃.Red ∧ S₄.Red ∧ S₅.Red ∧ ∀ c : Cfg, c.Enough →
      Ristretto.mul c P n = .ok S₁ ∧ ltrBinMul Ristretto.ops c P n = .ok S₂ ∧
      binaryNafMul Ristretto.ops c P n = .ok S₃ ∧
      mulByCofactor Ristretto.ops c P = .ok S₄ ∧ mulByPow2 Ristretto.ops c P k = .ok S₅) ∧
    (∃ S₁ S₂ S₃ S₄ S₅ : ProjPoint, S₁.Red ∧ S₂.Red ∧ S₃.Red ∧ S₄.Red ∧ S₅.Red ∧ ∀ c : Cfg, c.Enough →
      Proj.mul c Q n = .ok S₁ ∧ ltrBinMul Proj.ops c Q n = .ok S₂ ∧ binaryNafMul Proj.ops c Q n = .ok S₃ ∧
      mulByCofactor Proj.ops c Q = .ok S₄ ∧ mulByPow2 Proj.ops c Q k = .ok S₅) :=
  ⟨Ed.totSpec.muls hP n hn k hk, Ristretto.totSpec.muls hP n hn k hk, Proj.totSpec.muls hQ n hn k hk⟩

theorem Aff_ofEd_enc (c : Cfg) (hc : c.Enough) (X Y Z : Fp) (T : FE) (hz : Z ≠ 0) :
    Aff.ofEd c ⟨enc X, enc Y, enc Z, T⟩ = .ok ⟨enc (X / Z), enc (Y / Z)⟩ := by
  simp only [Aff.ofEd, Field.inverse_enc c hc Z hz, Field.mul_enc, Res.ok_bind, Res.pure_eq, div_eq_mul_inv]

theorem val_ne {a : FE} (ha : a.Canon) : (a.val : Fp) ≠ 0 ↔ a.val ≠ 0 := by
  rw [Ne, Ne, not_iff_not, ZMod.natCast_eq_zero_iff]
  exact ⟨fun h => Nat.eq_zero_of_dvd_of_lt h ha.2, fun h => by rw [h]; exact dvd_zero _⟩

theorem enc_valZ (x : Fp) : ((enc x).val : Fp) = x := enc_toZ x

/-- C89: converting to affine coordinates panics exactly when `Z` is zero. -/
theorem C89_affine (P : EdPoint) (hP : P.Red) :
    (P.Z.val = 0 → ∀ c, Aff.ofEd c P = .panic) ∧
    (P.Z.val ≠ 0 → ∃ a : AffPoint, a.X.Canon ∧ a.Y.Canon ∧ (a.X.val : Fp) = P.X.val / P.Z.val ∧
      (a.Y.val : Fp) = P.Y.val / P.Z.val ∧ ∀ c : Cfg, c.Enough → Aff.ofEd c P = .ok a) := by
  constructor
  · intro h c
    rw [hP.form, h, Nat.cast_zero]
    simp only [Aff.ofEd, Field.inverse_zero, Res.panic_bind]
  · intro h
    refine ⟨⟨enc (P.X.val / P.Z.val), enc (P.Y.val / P.Z.val)⟩, enc_canon _, enc_canon _, enc_valZ _, enc_valZ _,
      fun c hc => ?_⟩
    conv_lhs => rw [hP.form]
    exact Aff_ofEd_enc c hc _ _ _ _ ((val_ne hP.2.2.1).2 h)

/-- C89: comparing extended coordinates panics exactly when one of the `Z` is zero, and else compares
`X/Z` and `Y/Z`, on the curve or not. -/
theorem C89_equality (P Q : EdPoint) (hP : P.Red) (hQ : Q.Red) :
    (P.Z.val = 0 ∨ Q.Z.val = 0 → ∀ c : Cfg, c.Enough → Ed.ctEq c P Q = .panic) ∧
    (P.Z.val ≠ 0 → Q.Z.val ≠ 0 → ∃ b, (∀ c : Cfg, c.Enough → Ed.ctEq c P Q = .ok b) ∧
      (b = true ↔ (P.X.val : Fp) / P.Z.val = Q.X.val / Q.Z.val ∧ (P.Y.val : Fp) / P.Z.val = Q.Y.val / Q.Z.val)) := by
  constructor
  · intro h c hc
    unfold Ed.ctEq
    by_cases hz : P.Z.val = 0
    · rw [(C89_affine P hP).1 hz c]; rfl
    · obtain ⟨a, _, _, _, _, ea⟩ := (C89_affine P hP).2 hz
      rw [ea c hc, Res.ok_bind, (C89_affine Q hQ).1 (h.resolve_left hz) c]; rfl
  · intro h1 h2
    obtain ⟨a, ax, ay, vx, vy, ea⟩ := (C89_affine P hP).2 h1
    obtain ⟨b, bx, by', wx, wy, eb⟩ := (C89_affine Q hQ).2 h2
    refine ⟨Aff.ctEq a b, fun c hc => ?_, ?_⟩
    · unfold Ed.ctEq
      rw [ea c hc, Res.ok_bind, eb c hc]; rfl
    · rw [← vx, ← vy, ← wx, ← wy]
      unfold Aff.ctEq
      rw [Bool.and_eq_true, ax.eq_enc (x := (a.X.val : Fp)) rfl, ay.eq_enc (x := (a.Y.val : Fp)) rfl,
        bx.eq_enc (x := (b.X.val : Fp)) rfl, by'.eq_enc (x := (b.Y.val : Fp)) rfl, Field.ctEq_enc, Field.ctEq_enc,
        decide_eq_true_eq, decide_eq_true_eq, enc_valZ, enc_valZ, enc_valZ, enc_valZ]

/-- C89: the same for projective coordinates. -/
theorem C89_projective_equality (P Q : ProjPoint) (hP : P.Red) (hQ : Q.Red) :
    (P.Z.val = 0 ∨ Q.Z.val = 0 → ∀ c : Cfg, c.Enough → Proj.ctEq c P Q = .panic) ∧
    (P.Z.val ≠ 0 → Q.Z.val ≠ 0 → ∃ b, (∀ c : Cfg, c.Enough → Proj.ctEq c P Q = .ok b) ∧
      (b = true ↔ (P.X.val : Fp) / P.Z.val = Q.X.val / Q.Z.val ∧ (P.Y.val : Fp) / P.Z.val = Q.Y.val / Q.Z.val)) :=
  C89_equality ⟨P.X, P.Y, P.Z, Field.zero⟩ ⟨Q.X, Q.Y, Q.Z, Field.zero⟩
    ⟨hP.1, hP.2.1, hP.2.2, Field.zero_canon⟩ ⟨hQ.1, hQ.2.1, hQ.2.2, Field.zero_canon⟩

/-- C89: the validity check never panics; it decides the curve equation, and accepts a tuple with `Z = 0`
exactly when `X` or `Y` is zero. -/
theorem C89_valid (P : ProjPoint) (hP : P.Red) :
    ∃ b, (∀ c, Proj.isValid c P = .ok b) ∧
      (P.Z.val ≠ 0 → (b = true ↔ OnCurve ((P.X.val : Fp) / P.Z.val) ((P.Y.val : Fp) / P.Z.val))) ∧
      (P.Z.val = 0 → (b = true ↔ P.X.val = 0 ∨ P.Y.val = 0)) := by
  refine ⟨decide ((-1 * ((P.X.val : Fp) * P.X.val) + P.Y.val * P.Y.val) * (P.Z.val * P.Z.val) =
      P.Z.val * P.Z.val * (P.Z.val * P.Z.val) + dZ * (P.X.val * P.X.val) * (P.Y.val * P.Y.val)),
    fun c => ?_, fun h => ?_, fun h => ?_⟩
  · conv_lhs => rw [hP.form]
    exact Proj_isValid_enc c _ _ _
  · have hz := (val_ne hP.2.2).2 h
    rw [decide_eq_true_eq]
    unfold OnCurve
    generalize dZ = d at *
    field_simp
  · rw [decide_eq_true_eq, h, Nat.cast_zero, mul_zero, mul_zero, mul_zero, zero_add, eq_comm,
      mul_eq_zero, mul_eq_zero, mul_self_eq_zero, mul_self_eq_zero, or_iff_right dZ_ne]
    exact or_congr (not_iff_not.1 (val_ne hP.1)) (not_iff_not.1 (val_ne hP.2.1))

theorem u8_or (x : UInt8) (s : Bool) (h : x.toNat < 32) :
    (x ||| ((if s then 1 else 0 : UInt8) <<< 7)).toNat = x.toNat + 128 * (if s then 1 else 0 : Nat) := by
  have key : ∀ n : Fin 32, ∀ s : Bool,
      (UInt8.ofNat n ||| ((if s then 1 else 0 : UInt8) <<< 7)).toNat =
        (UInt8.ofNat n).toNat + 128 * (if s then 1 else 0 : Nat) := by decide
  have := key ⟨x.toNat, h⟩ s
  rwa [UInt8.ofNat_toNat] at this

/-- C89: compressing extended coordinates panics exactly when `Z` is zero or no curve point has the
`y` coordinate `Y/Z`; `X` never makes it panic. -/
theorem C89_compress (P : EdPoint) (hP : P.Red) :
    (P.Z.val = 0 ∨ (¬ ∃ A : E, A.y = P.Y.val / P.Z.val) → ∀ c : Cfg, c.Enough → Ed.compress c P = .panic) ∧
    (P.Z.val ≠ 0 → (∃ A : E, A.y = P.Y.val / P.Z.val) →
      ∃ b, (∀ c : Cfg, c.Enough → Ed.compress c P = .ok b) ∧
        bytesVal b % 2 ^ 253 = ((P.Y.val : Fp) / P.Z.val).val) := by
  constructor
  · intro h c hc
    unfold Ed.compress
    by_cases hz : P.Z.val = 0
    · rw [(C89_affine P hP).1 hz c]; rfl
    · have h' := h.resolve_left hz
      rw [exists_y_iff] at h'
      conv_lhs => rw [hP.form]
      rw [Aff_ofEd_enc c hc _ _ _ _ ((val_ne hP.2.2.1).2 hz), Res.ok_bind]
      dsimp only
      rw [findXX_enc c hc, Res.ok_bind, Field.modSqrt_nonsquare c hc _ false h', Res.ok_bind]
      rfl
  · intro hz h
    rw [exists_y_iff] at h
    generalize hy : (P.Y.val : Fp) / P.Z.val = y at *
    generalize hx : (P.X.val : Fp) / P.Z.val = x
    refine ⟨(Field.toBytes (enc y)).set 31 ((Field.toBytes (enc y))[31] |||
      ((if !decide (Field.tsRoot (xxOf y) = x) then 1 else 0 : UInt8) <<< 7)), fun c hc => ?_, ?_⟩
    · unfold Ed.compress
      conv_lhs => rw [hP.form]
      rw [Aff_ofEd_enc c hc _ _ _ _ ((val_ne hP.2.2.1).2 hz), Res.ok_bind]
      dsimp only
      rw [hy, hx, findXX_enc c hc, Res.ok_bind, modSqrt_of_square c hc false h, Res.ok_bind]
      unfold unwrap
      simp only [Res.ok_bind, Bool.false_eq_true, if_false, Field.ctEq_enc, Res.pure_eq]
      by_cases h : Field.tsRoot (xxOf y) = x
      · simp [h]
      · simp [h]
    · have hv := toBytes_enc_val y
      have ht := top_byte (Field.toBytes (enc y))
      have hlt : y.val < 2 ^ 253 := lt_trans (ZMod.val_lt y) (by decide)
      rw [hv] at ht
      have ht' : (Field.toBytes (enc y))[31].toNat < 32 := by omega
      rw [bytesVal_set31, u8_or _ _ ht', hv, ht]
      generalize (if (!decide (Field.tsRoot (xxOf y) = x)) = true then 1 else 0 : Nat) = s
      omega

/-- C89: Ristretto encoding and equality return for every tuple, in every build the same. -/
theorem C89_ristretto (P Q : EdPoint) (hP : P.Red) (hQ : Q.Red) :
    ∃ b t, ∀ c : Cfg, c.Enough → Ristretto.compress c P = .ok b ∧ Ristretto.ctEq c P Q = .ok t := by
  have h : ∀ c (X Y Z T X' Y' Z' T' : Fp),
      Ristretto.ctEq c ⟨enc X, enc Y, enc Z, enc T⟩ ⟨enc X', enc Y', enc Z', enc T'⟩ =
        .ok (decide (X * Y' = Y * X') || decide (X * X' = Y * Y')) := by
    intros
    simp only [Ristretto.ctEq, Field.mul_enc, Res.ok_bind, Res.pure_eq, Field.ctEq_enc]
  rw [hP.form, hQ.form]
  exact ⟨_, _, fun c hc => ⟨compress_enc c hc _ _ _ _, h c _ _ _ _ _ _ _ _⟩⟩

theorem elligator_total (a : FE) (ha : a.WF) :
    ∃ P : EdPoint, P.Red ∧ ∀ c : Cfg, c.Enough → Ristretto.elligator c a = .ok P := by
  generalize h0 : a.toZ = r0
  generalize hr : Field.iZ * (r0 * r0) = r
  have key := fun c hc => Ristretto.elligator_enc c hc a ha r0 r h0.symm hr.symm
  generalize Field.sqrtRatioZ _ _ = q at key
  obtain ⟨b, t⟩ := q
  have red : ∀ x y : Fp, (Ristretto.ellOut r x y).Red := fun x y => by
    unfold Ristretto.ellOut; exact EdPoint.red_mk _ _ _ _
  exact ⟨_, red _ _, fun c hc => key c hc b t rfl⟩

theorem Ed_newFromY_total (y : Fp) (s : Bool) :
    ∃ o, ∀ c : Cfg, c.Enough → Ed.newFromY c (enc y) s = .ok o := by
  by_cases h : IsSquare (xxOf y)
  · refine ⟨some ⟨enc ((yPt y s h).x * 1), enc (y * 1), enc (1 * 1), enc ((yPt y s h).x * y)⟩, fun c hc => ?_⟩
    obtain ⟨P, eP, _, rfl⟩ := Proj.newFromY_some c hc y s h
    unfold Ed.newFromY
    rw [eP, Res.ok_bind]
    simp only [Ed.ofProj, Field.mul_enc, Field.square_enc, Res.ok_bind, Res.pure_eq]
  · exact ⟨none, fun c hc => Ed.newFromY_none c hc y s h⟩

theorem decompress_total (b : Bytes32) :
    ∃ o, ∀ c : Cfg, c.Enough → Ristretto.decompress c b = .ok o := by
  by_cases h : 2 * bytesVal b ≤ p - 1
  · obtain ⟨s, hs, hb, _⟩ := Ristretto.toBytes_of_pos b h
    exact ⟨_, fun c hc => decompress_pos c hc b s hs hb⟩
  · exact ⟨none, fun c _ => decompress_neg c b (by omega)⟩

/-- C89: so do the decoders and the map to the group, for every byte string. -/
theorem C89_decoders (b : Bytes32) (a : FE) (ha : a.WF) (u : Bytes64) :
    ∃ o o' P R, ∀ c : Cfg, c.Enough → Ristretto.decompress c b = .ok o ∧ Ed.decompress c b = .ok o' ∧
      Ristretto.elligator c a = .ok P ∧ Ristretto.fromUniformBytes c u = .ok R := by
  obtain ⟨o, ho⟩ := decompress_total b
  obtain ⟨o', ho'⟩ := Ed_newFromY_total ((bytesVal b % 2 ^ 252 : ℕ) : Fp) (b[31] >>> 7 == 1)
  obtain ⟨P, _, hP⟩ := elligator_total a ha
  obtain ⟨R1, k1, h1⟩ := elligator_total _
    (Field.fromBytes_spec (Vector.ofFn fun i : Fin 32 => u[i.val]'(by omega))).1
  obtain ⟨R2, k2, h2⟩ := elligator_total _
    (Field.fromBytes_spec (Vector.ofFn fun i : Fin 32 => u[32 + i.val]'(by omega))).1
  obtain ⟨R, _, hR⟩ := Ed.totSpec.add k1 k2
  refine ⟨o, o', P, R, fun c hc => ⟨ho c hc, ?_, hP c hc, ?_⟩⟩
  · rw [decompress_eq]; exact ho' c hc
  · unfold Ristretto.fromUniformBytes
    dsimp only
    rw [h1 c hc, Res.ok_bind, h2 c hc, Res.ok_bind]
    exact hR c

/-- A tuple that represents no point, and one with `Z = 0`. -/
example : (⟨Field.one, Field.one, Field.one, Field.zero⟩ : EdPoint).Red ∧
    (⟨Field.one, Field.zero, Field.zero, Field.zero⟩ : EdPoint).Red ∧ Scalar.minusOne.SCanon ∧ dbg.Enough ∧
    Proj.isValid dbg ⟨Field.one, Field.one, Field.one⟩ = .ok false ∧
    Proj.isValid dbg ⟨Field.one, Field.zero, Field.zero⟩ = .ok true := by
  refine ⟨⟨by decide, by decide, by decide, by decide⟩, ⟨by decide, by decide, by decide, by decide⟩, by decide,
    by decide, by decide +kernel, by decide +kernel⟩

end Props
end Zerocaf
