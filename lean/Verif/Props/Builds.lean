import Verif.Props.Total
import Verif.Props.Random
import Verif.Props.Window

/-!
# Property C24 for the point functions that C89 leaves out

Windowed multiplication, the validity checks, conversions, the coset and random points: their results do not
depend on the build profile.
-/

set_option exponentiation.threshold 600

namespace Zerocaf

theorem EdPoint.Rep.red {P : EdPoint} {A : E} (h : P.Rep A) : P.Red := ⟨h.cX, h.cY, h.cZ, h.cT⟩

namespace Ristretto

theorem wnafMulLoop_build (v : Vector Int 256) (hd : ∀ j (hj : j < 256), |v[j]| ≤ 125) :
    ∀ (n : Nat) (hn : n ≤ 256) (Q : EdPoint), Q.Red → ∃ S : EdPoint, S.Red ∧ ∀ c, wnafMulLoop c v n hn Q = .ok S := by
  intro n
  induction n with
  | zero => exact fun hn Q hQ => ⟨Q, hQ, fun _ => rfl⟩
  | succ i ih =>
    intro hn Q hQ
    obtain ⟨Q1, k1, e1⟩ := Ed.totSpec.double hQ
    have e1' : ∀ c, double c Q = .ok Q1 := e1
    obtain ⟨b1, b2⟩ := abs_le.1 (hd i (by omega))
    simp only [wnafMulLoop, e1', Res.ok_bind]
    generalize v[i] = x at *
    rcases lt_trichotomy x 0 with h | h | h
    · have e3 : ∀ c, chkI8 c (-x) = .ok (-x) := fun c => by
        unfold chkI8; rw [if_pos (by omega)]
      have e4 : (-x % 2 ^ 64).toNat = (-x).toNat := by
        rw [Int.emod_eq_of_lt (by omega) (by norm_num; omega)]
      obtain ⟨P, eP, hP⟩ := tableAt_rep (-x).toNat (by omega) (by omega)
      obtain ⟨Q2, k2, e2⟩ := Ristretto.totSpec.sub k1 hP.red
      have e2' : ∀ c, sub c Q1 P = .ok Q2 := e2
      obtain ⟨S, kS, eS⟩ := ih (by omega) Q2 k2
      refine ⟨S, kS, fun c => ?_⟩
      simp only [if_neg (show ¬ x = 0 by omega), if_neg (show ¬ x > 0 by omega), e3, Res.ok_bind, e4, eP, e2', eS]
    · obtain ⟨S, kS, eS⟩ := ih (by omega) Q1 k1
      refine ⟨S, kS, fun c => ?_⟩
      simp only [if_pos h, eS]
    · obtain ⟨P, eP, hP⟩ := tableAt_rep x.toNat (by omega) (by omega)
      obtain ⟨Q2, k2, e2⟩ := Ristretto.totSpec.add k1 hP.red
      have e2' : ∀ c, add c Q1 P = .ok Q2 := e2
      obtain ⟨S, kS, eS⟩ := ih (by omega) Q2 k2
      refine ⟨S, kS, fun c => ?_⟩
      simp only [if_neg (show ¬ x = 0 by omega), if_pos (show x > 0 by omega), Res.ok_bind, eP, e2', eS]

end Ristretto

namespace Props

/-- C24: windowed multiplication of the base point gives the same coordinates in every build. -/
theorem C24_window (c c' : Cfg) (hc : c.Enough) (hc' : c'.Enough) (n : Sc) (hn : n.SCanon) (w : Nat) (h1 : 2 ≤ w)
    (h2 : w ≤ 5) : Agree (Ristretto.windowNafMul c n w) (Ristretto.windowNafMul c' n w) := by
  obtain ⟨v, ev, hv, sv⟩ := C33_window_naf c hc w h1 h2 n hn
  have ev' := (C91_window c' hc' w h1 h2 n hn v).2 ⟨hv, sv⟩
  have hd : ∀ j (hj : j < 256), |v[j]| ≤ 125 := by
    intro j hj
    rcases hv.1 ⟨j, hj⟩ with h | ⟨_, h⟩
    · have h' : v[j] = 0 := h
      rw [h']; decide
    · have h' : |v[j]| < 2 ^ (w - 1) := h
      have : (2 : ℤ) ^ (w - 1) ≤ 2 ^ 4 := pow_le_pow_right₀ (by norm_num) (by omega)
      omega
  obtain ⟨S, _, eS⟩ := Ristretto.wnafMulLoop_build v hd 250 (by omega) Ristretto.identity Ed.totSpec.identity
  refine ⟨S, ?_, ?_⟩
  · unfold Ristretto.windowNafMul; rw [ev, Res.ok_bind, eS]
  · unfold Ristretto.windowNafMul; rw [ev', Res.ok_bind, eS]

/-- C24: the conversions between coordinates and the coset agree, for all reduced coordinates. -/
theorem C24_conversions (c c' : Cfg) (P : EdPoint) (hP : P.Red) (Q : ProjPoint) (hQ : Q.Red) (A : AffPoint)
    (hx : A.X.Canon) (hy : A.Y.Canon) :
    Agree (Ed.ofProj c Q) (Ed.ofProj c' Q) ∧ Agree (Ed.ofAff c A) (Ed.ofAff c' A) ∧
    Agree (Aff.neg c A) (Aff.neg c' A) ∧ Agree (Aff.isValid c A) (Aff.isValid c' A) ∧
    Agree (Proj.isValid c Q) (Proj.isValid c' Q) ∧ Agree (Ed.isValid c P) (Ed.isValid c' P) ∧
    Agree (Ed.coset4 c P) (Ed.coset4 c' P) ∧ Agree (Ristretto.coset4 c P) (Ristretto.coset4 c' P) := by
  have hA : A = ⟨enc A.X.val, enc A.Y.val⟩ := AffPoint.ext (hx.eq_enc rfl) (hy.eq_enc rfl)
  obtain ⟨b1, e1, _⟩ := C89_valid Q hQ
  obtain ⟨b2, e2, _⟩ := C89_valid (Proj.ofEd P) ⟨hP.1, hP.2.1, hP.2.2.1⟩
  have r0 : Ed.COSET0.Red := by refine ⟨?_, ?_, ?_, ?_⟩ <;> decide
  have r1 : Ed.COSET1.Red := by refine ⟨?_, ?_, ?_, ?_⟩ <;> decide
  have r2 : Ed.COSET2.Red := by refine ⟨?_, ?_, ?_, ?_⟩ <;> decide
  obtain ⟨S0, _, f0⟩ := Ed.totSpec.add hP r0
  obtain ⟨S1, _, f1⟩ := Ed.totSpec.add hP r1
  obtain ⟨S2, _, f2⟩ := Ed.totSpec.add hP r2
  have hcos : ∀ c, Ed.coset4 c P = .ok (P, S0, S1, S2) := by
    intro c
    have g0 : Ed.add c P Ed.COSET0 = .ok S0 := f0 c
    have g1 : Ed.add c P Ed.COSET1 = .ok S1 := f1 c
    have g2 : Ed.add c P Ed.COSET2 = .ok S2 := f2 c
    simp only [Ed.coset4, g0, g1, g2, Res.ok_bind, Res.pure_eq]
  refine ⟨?_, ?_, ?_, ?_, ⟨b1, e1 c, e1 c'⟩, ⟨b2, e2 c, e2 c'⟩, ⟨_, hcos c, hcos c'⟩, ⟨_, hcos c, hcos c'⟩⟩
  · rw [hQ.form]
    unfold Ed.ofProj
    simp only [Field.mul_enc, Field.square_enc, Res.ok_bind, Res.pure_eq]
    exact ⟨_, rfl, rfl⟩
  · rw [hA]
    unfold Ed.ofAff
    simp only [Field.mul_enc, Res.ok_bind, Res.pure_eq]
    exact ⟨_, rfl, rfl⟩
  · rw [hA]
    unfold Aff.neg
    simp only [Field.neg_enc, Res.ok_bind, Res.pure_eq]
    exact ⟨_, rfl, rfl⟩
  · rw [hA]
    unfold Aff.isValid
    have em : Field.minusOne = enc (-1) := EDWARDS_A_enc
    have eo : Field.one = enc 1 := Field.one_canon.eq_enc (by decide)
    simp only [em, eo, EDWARDS_D_enc, Field.mul_enc, Field.add_enc, Field.square_enc, Res.ok_bind, Res.pure_eq]
    exact ⟨_, rfl, rfl⟩

theorem Ed_decompress_total (b : Bytes32) : ∃ o, ∀ c : Cfg, c.Enough → Ed.decompress c b = .ok o := by
  obtain ⟨o, ho⟩ := Ed_newFromY_total ((bytesVal b % 2 ^ 252 : ℕ) : Fp) (b[31] >>> 7 == 1)
  exact ⟨o, fun c hc => by rw [decompress_eq]; exact ho c hc⟩

theorem newFromY_build (c c' : Cfg) (hc : c.Enough) (hc' : c'.Enough) (y : FE) (hy : y.Canon) (s : Bool) :
    Agree (Ed.newFromY c y s) (Ed.newFromY c' y s) := by
  obtain ⟨o, ho⟩ := Ed_newFromY_total (y.val : Fp) s
  have e : y = enc (y.val : Fp) := hy.eq_enc rfl
  rw [← e] at ho
  exact ⟨o, ho c hc, ho c' hc'⟩

theorem compress_build (c c' : Cfg) (hc : c.Enough) (hc' : c'.Enough) (N : EdPoint) (kN : N.Red) :
    Ed.compress c N = Ed.compress c' N := by
  by_cases hz : N.Z.val = 0 ∨ ¬ ∃ A : E, A.y = N.Y.val / N.Z.val
  · rw [(C89_compress N kN).1 hz c hc, (C89_compress N kN).1 hz c' hc']
  · rw [not_or, not_not] at hz
    obtain ⟨r, er, _⟩ := (C89_compress N kN).2 hz.1 hz.2
    rw [er c hc, er c' hc']

theorem negCompressed_build (c c' : Cfg) (hc : c.Enough) (hc' : c'.Enough) (b : Bytes32) :
    Ed.negCompressed c b = Ed.negCompressed c' b := by
  obtain ⟨o, ho⟩ := Ed_decompress_total b
  obtain ⟨o', eo', ho', _⟩ := C55_decompress c hc b
  obtain rfl : o' = o := Res.ok.inj (eo'.symm.trans (ho c hc))
  unfold Ed.negCompressed
  rw [ho c hc, ho c' hc', Res.ok_bind, Res.ok_bind]
  cases o' with
  | none => unfold unwrap; rw [Res.panic_bind, Res.panic_bind]
  | some P =>
    obtain ⟨A, hA, _⟩ := ho' P rfl
    obtain ⟨_, _, _, N, _, _, _, kN, h⟩ := C89_extended_ops P P hA.red hA.red
    have e1 := (h c).2.2.2
    have e2 := (h c').2.2.2
    unfold unwrap
    rw [Res.ok_bind, Res.ok_bind, e1, e2, Res.ok_bind, Res.ok_bind]
    exact compress_build c c' hc hc' N kN

/-- C24: building a point from a `y` coordinate and negating an encoding agree; a panic is a panic in all builds. -/
theorem C24_from_y (c c' : Cfg) (hc : c.Enough) (hc' : c'.Enough) (y : FE) (hy : y.Canon) (s : Bool) (b : Bytes32) :
    Agree (Ed.newFromY c y s) (Ed.newFromY c' y s) ∧ Ed.negCompressed c b = Ed.negCompressed c' b :=
  ⟨newFromY_build c c' hc hc' y hy s, negCompressed_build c c' hc hc' b⟩

/-- C24: so does the validity check of Ristretto points, which panics for the same coordinates in all builds. -/
theorem C24_ristretto_valid (c c' : Cfg) (hc : c.Enough) (hc' : c'.Enough) (P : EdPoint) (hP : P.Red) :
    Ristretto.isValid c P = Ristretto.isValid c' P := by
  obtain ⟨S, kS, eS⟩ := Ed.totSpec.daa hP Scalar.L (by decide) (by decide)
  obtain ⟨b, eb, _⟩ := C89_valid (Proj.ofEd P) ⟨hP.1, hP.2.1, hP.2.2.1⟩
  have hid : Ed.identity.Red := Ed.totSpec.identity
  have key : ∃ r, ∀ c : Cfg, c.Enough → Ed.ctEq c S Ed.identity = r := by
    by_cases hz : S.Z.val = 0
    · exact ⟨_, fun c hc => (C89_equality S _ kS hid).1 (Or.inl hz) c hc⟩
    · obtain ⟨b, eb, _⟩ := (C89_equality S _ kS hid).2 hz (by decide)
      exact ⟨_, eb⟩
  obtain ⟨r, er⟩ := key
  have hm : ∀ c : Cfg, c.Enough → Ed.mul c P Scalar.L = .ok S := eS
  have hb : ∀ c : Cfg, Ed.isValid c P = .ok b := eb
  unfold Ristretto.isValid
  rw [hm c hc, hm c' hc', Res.ok_bind, Res.ok_bind]
  rw [er c hc, er c' hc', hb, hb]

/-- C24: mapping to the group agrees. -/
theorem C24_uniform (c c' : Cfg) (hc : c.Enough) (hc' : c'.Enough) (b : Bytes64) :
    Agree (Ristretto.fromUniformBytes c b) (Ristretto.fromUniformBytes c' b) := by
  obtain ⟨_, _, _, R, hR⟩ := C89_decoders (Vector.ofFn fun i : Fin 32 => b[i.val]) Field.one Field.one_canon.1 b
  exact ⟨R, (hR c hc).2.2.2, (hR c' hc').2.2.2⟩

/-- C24: the same generator output gives the same random point. -/
theorem C24_random (c c' : Cfg) (hc : c.Enough) (hc' : c'.Enough) (hf : c.fuel = c'.fuel) (rng : Nat → Bytes32) (b : Bytes64) :
    Ed.newRandom c rng = Ed.newRandom c' rng ∧ Agree (Ristretto.newRandom c b) (Ristretto.newRandom c' b) := by
  have hproj : ∀ y s, ∃ o : Option ProjPoint, (∀ P, o = some P → P.Red) ∧
      ∀ c : Cfg, c.Enough → Proj.newFromY c (enc y) s = .ok o := by
    intro y s
    by_cases h : IsSquare (xxOf y)
    · refine ⟨some ⟨enc ((yPt y s h).x), enc y, enc 1⟩, ?_, fun c hc => ?_⟩
      · rintro P h'
        obtain rfl := Option.some.inj h'
        exact ⟨enc_canon _, enc_canon _, enc_canon _⟩
      · obtain ⟨P, eP, _, rfl⟩ := Proj.newFromY_some c hc y s h
        exact eP
    · exact ⟨none, fun _ h => (by cases h), fun c hc => Proj.newFromY_none c hc y s h⟩
  have loop : ∀ fuel i, Proj.newRandomLoop c rng fuel i = Proj.newRandomLoop c' rng fuel i ∧
      ∀ P, Proj.newRandomLoop c rng fuel i = .ok P → P.Red := by
    intro fuel
    induction fuel with
    | zero => intro i; exact ⟨rfl, fun P h => by cases h⟩
    | succ f ih =>
      intro i
      have e : Field.random (rng i) = enc ((Field.random (rng i)).val : Fp) := (Field.random_spec _).1.eq_enc rfl
      obtain ⟨o, ro, ho⟩ := hproj ((Field.random (rng i)).val : Fp) false
      rw [← e] at ho
      unfold Proj.newRandomLoop
      dsimp only
      rw [ho c hc, ho c' hc', Res.ok_bind, Res.ok_bind]
      cases o with
      | none => exact ih (i + 1)
      | some P => exact ⟨rfl, fun Q h => by obtain rfl := Res.ok.inj h; exact ro P rfl⟩
  constructor
  · obtain ⟨l1, l2⟩ := loop c.fuel 0
    unfold Ed.newRandom Proj.newRandom
    rw [← hf, ← l1]
    cases h : Proj.newRandomLoop c rng c.fuel 0 with
    | ok P =>
      rw [Res.ok_bind, Res.ok_bind]
      obtain ⟨r, e1, e2⟩ := (C24_conversions c c' Ed.identity Ed.totSpec.identity P (l2 P h) ⟨Field.one, Field.one⟩
        Field.one_canon Field.one_canon).1
      rw [e1, e2]
    | panic => rw [Res.panic_bind, Res.panic_bind]
    | diverge => rw [Res.diverge_bind, Res.diverge_bind]
  · unfold Ristretto.newRandom
    exact C24_uniform c c' hc hc' b

/-- Reduced coordinates off the curve, the two build profiles, and an encoding whose negation panics in both. -/
example : (⟨Field.one, Field.one, Field.one, Field.zero⟩ : EdPoint).Red ∧ dbg.Enough ∧ rel.Enough ∧ dbg.fuel = rel.fuel ∧
    dbg ≠ rel ∧ Scalar.minusOne.SCanon := by
  refine ⟨⟨by decide, by decide, by decide, by decide⟩, by decide, by decide, by decide, by decide, by decide⟩

end Props
end Zerocaf
