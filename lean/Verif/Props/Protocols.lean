import Verif.Props.Hash

/-!
# Properties C93-C94: the Ristretto group as an abstract prime-order group, and protocols over it
-/

set_option exponentiation.threshold 600

namespace Zerocaf
namespace Props

open Ristretto

/-- The points the Ristretto functions hand out: representations of doubles of curve points. -/
def RPoint (P : EdPoint) : Prop := ∃ A, P.Rep A ∧ InEven A

/-- `P` is a Ristretto point with logarithm `k`. -/
def Lg (P : EdPoint) (k : ZMod ell) : Prop := ∃ A : {A : E // InEven A}, P.Rep A.1 ∧ dl A = k

theorem RPoint.lg {P : EdPoint} (h : RPoint P) : ∃ k, Lg P k := by
  obtain ⟨A, h1, h2⟩ := h
  exact ⟨_, ⟨A, h2⟩, h1, rfl⟩

theorem Lg.point {P : EdPoint} {k} (h : Lg P k) : RPoint P := by
  obtain ⟨A, h1, _⟩ := h
  exact ⟨A.1, h1, A.2⟩

theorem dl_smul (A : {A : E // InEven A}) (n : ℕ) : dl ⟨n • A.1, A.2.smul n⟩ = n * dl A := by
  have h := dl_spec ⟨n • A.1, A.2.smul n⟩
  have h2 := (dl_spec A).smul n
  rw [smul_smul] at h2
  have h3 := mod_ell_even Bpt_even (n * (dl A).val)
  have e : (n * (dl A).val) % ell = ((n : ZMod ell) * dl A).val := by
    rw [ZMod.val_mul, ZMod.val_natCast, Nat.mod_mul_mod]
  rw [e] at h3
  exact ZMod.val_injective _ (mult_class (ZMod.val_lt _) (ZMod.val_lt _) (h.symm.trans (h2.trans h3.symm)))

theorem dl_zero : dl ⟨0, inEven_zero⟩ = 0 := by
  have h := dl_smul ⟨0, inEven_zero⟩ 0
  simpa using h

theorem dl_neg (A : {A : E // InEven A}) : dl ⟨-A.1, A.2.neg⟩ = -dl A := by
  have h := dl_add A ⟨-A.1, A.2.neg⟩
  have h0 : dl ⟨A.1 + -A.1, A.2.add A.2.neg⟩ = 0 := by
    rw [← dl_zero, dl_eq_iff]
    show SameClass (A.1 + -A.1) 0
    rw [add_neg_cancel]
    exact SameClass.refl _
  rw [h0] at h
  exact (neg_eq_of_add_eq_zero_right h.symm).symm

theorem dl_base : dl ⟨Bpt, Bpt_even⟩ = 1 := by
  have h := dl_spec ⟨Bpt, Bpt_even⟩
  have h1 : SameClass (1 • Bpt) ((dl ⟨Bpt, Bpt_even⟩).val • Bpt) := by rwa [one_smul]
  have := mult_class (by decide) (ZMod.val_lt _) h1
  have e : ((dl ⟨Bpt, Bpt_even⟩).val : ZMod ell) = dl ⟨Bpt, Bpt_even⟩ := ZMod.natCast_zmod_val _
  rw [← e, ← this, Nat.cast_one]

namespace Lg

theorem add (c : Cfg) {P Q : EdPoint} {a b} (hP : Lg P a) (hQ : Lg Q b) :
    ∃ R, Ristretto.add c P Q = .ok R ∧ Lg R (a + b) := by
  obtain ⟨A, hA, rfl⟩ := hP
  obtain ⟨B, hB, rfl⟩ := hQ
  obtain ⟨R, e, hR⟩ := Ed.add_rep c hA hB
  exact ⟨R, e, ⟨_, A.2.add B.2⟩, hR, dl_add A B⟩

theorem neg (c : Cfg) {P : EdPoint} {a} (hP : Lg P a) : ∃ R, Ristretto.neg c P = .ok R ∧ Lg R (-a) := by
  obtain ⟨A, hA, rfl⟩ := hP
  obtain ⟨R, e, hR⟩ := Ed.neg_rep c hA
  exact ⟨R, e, ⟨_, A.2.neg⟩, hR, dl_neg A⟩

theorem sub (c : Cfg) {P Q : EdPoint} {a b} (hP : Lg P a) (hQ : Lg Q b) :
    ∃ R, Ristretto.sub c P Q = .ok R ∧ Lg R (a - b) := by
  obtain ⟨N, eN, hN⟩ := hQ.neg c
  obtain ⟨R, eR, hR⟩ := hP.add c hN
  refine ⟨R, ?_, by rw [sub_eq_add_neg]; exact hR⟩
  unfold Ristretto.sub
  rw [eN, Res.ok_bind, eR]

theorem double (c : Cfg) {P : EdPoint} {a} (hP : Lg P a) :
    ∃ R, Ristretto.double c P = .ok R ∧ Lg R (2 * a) := by
  obtain ⟨R, e, hR⟩ := hP.add c hP
  exact ⟨R, e, by rw [two_mul]; exact hR⟩

theorem mul (c : Cfg) (hc : c.Enough) {P : EdPoint} {a} (hP : Lg P a) (n : Sc) (wn : n.WF)
    (hn : n.val < 2 ^ 256) : ∃ R, Ristretto.mul c P n = .ok R ∧ Lg R (n.val * a) := by
  obtain ⟨A, hA, rfl⟩ := hP
  obtain ⟨R, e, hR⟩ := doubleAndAdd_rep Ristretto.opsSpec c hc hA n wn hn
  exact ⟨R, e, ⟨_, A.2.smul n.val⟩, hR, dl_smul A n.val⟩

theorem req (c : Cfg) {P Q : EdPoint} {a b} (hP : Lg P a) (hQ : Lg Q b) : REq c P Q ↔ a = b := by
  obtain ⟨A, hA, rfl⟩ := hP
  obtain ⟨B, hB, rfl⟩ := hQ
  rw [req_iff c hA hB, dl_eq_iff]

theorem enc_eq (c : Cfg) (hc : c.Enough) {P Q : EdPoint} {a b} (hP : Lg P a) (hQ : Lg Q b) :
    Ristretto.compress c P = Ristretto.compress c Q ↔ a = b := by
  rw [← hP.req c hQ]
  obtain ⟨A, hA, rfl⟩ := hP
  obtain ⟨B, hB, rfl⟩ := hQ
  exact C61_encoding_identifies c hc hA hB A.2 B.2

theorem unique {P : EdPoint} {a b} (h : Lg P a) (g : Lg P b) : a = b :=
  (h.req dbg g).1 ((h.req dbg h).2 rfl)

theorem wire (c : Cfg) (hc : c.Enough) {P : EdPoint} {a} (hP : Lg P a) :
    ∃ b Q, Ristretto.compress c P = .ok b ∧ Ristretto.decompress c b = .ok (some Q) ∧ Lg Q a := by
  obtain ⟨A, hA, _⟩ := id hP
  obtain ⟨b, Q, e1, e2, h⟩ := C60_encode_decode c hc hA A.2
  obtain ⟨k, hk⟩ := RPoint.lg (C63_decode_valid c hc b Q e2)
  refine ⟨b, Q, e1, e2, ?_⟩
  rwa [← (hk.req c hP).1 h]

theorem decoded (c : Cfg) (hc : c.Enough) {b : Bytes32} {Q : EdPoint}
    (h : Ristretto.decompress c b = .ok (some Q)) : ∃ k, Lg Q k :=
  RPoint.lg (C63_decode_valid c hc b Q h)

theorem base : Lg Ed.BASEPOINT 1 := ⟨⟨Bpt, Bpt_even⟩, BASEPOINT_rep, dl_base⟩

theorem identity : Lg Ristretto.identity 0 := ⟨⟨0, inEven_zero⟩, Ed.identity_rep, dl_zero⟩

end Lg

/-- The value of a scalar modulo `L`. -/
def sv (n : Sc) : ZMod ell := (n.val : ZMod ell)

theorem sv_add {c : Cfg} {m n s : Sc} (hm : m.SCanon) (hn : n.SCanon) (h : Scalar.add c m n = .ok s) :
    s.SCanon ∧ sv s = sv m + sv n := by
  obtain ⟨r, e, hr, v⟩ := C25_add c m n hm hn
  rw [e, Res.ok_inj] at h
  subst h
  refine ⟨hr, ?_⟩
  unfold sv
  rw [v, ZMod.natCast_mod, Nat.cast_add]

theorem sv_mul {c : Cfg} {m n s : Sc} (hm : m.WF) (hn : n.WF) (h : Scalar.mul c m n = .ok s) :
    s.SCanon ∧ sv s = sv m * sv n := by
  obtain ⟨r, e, hr, v⟩ := C27_mul c m n hm hn
  rw [e, Res.ok_inj] at h
  subst h
  refine ⟨hr, ?_⟩
  unfold sv
  rw [v, ZMod.natCast_mod, Nat.cast_mul]

theorem sv_sub {c : Cfg} {m n s : Sc} (hm : m.SCanon) (hn : n.SCanon) (h : Scalar.sub c m n = .ok s) :
    s.SCanon ∧ sv s = sv m - sv n := by
  obtain ⟨r, e, hr, v⟩ := C26_sub c m n hm hn
  rw [e, Res.ok_inj] at h
  subst h
  refine ⟨hr, ?_⟩
  have h2 : ((r.val : ℤ) : ZMod ell) = (((m.val : ℤ) - n.val : ℤ) : ZMod ell) := by
    rw [v, ZMod.intCast_mod]
  unfold sv
  push_cast at h2
  exact h2

theorem sv_inj {m n : Sc} (hm : m.SCanon) (hn : n.SCanon) : sv m = sv n ↔ m = n := by
  constructor
  · intro h
    have := (ZMod.natCast_eq_natCast_iff' _ _ _).1 h
    rw [Nat.mod_eq_of_lt hm.2, Nat.mod_eq_of_lt hn.2] at this
    exact hm.1.ext hn.1 this
  · rintro rfl; rfl

theorem sv_surj (k : ZMod ell) : ∃ n : Sc, n.SCanon ∧ sv n = k := by
  have h : (encNat k.val).val = k.val := encNat_val _ (lt_trans (ZMod.val_lt k) (by decide))
  refine ⟨encNat k.val, ⟨encNat_WF _, by rw [h]; exact ZMod.val_lt k⟩, ?_⟩
  unfold sv
  rw [h]
  exact ZMod.natCast_zmod_val k

/-! ### C93 -/

/-- C93: the Ristretto functions implement the group of integers modulo the prime `L`. There is one function
`log` to that group, the same for all builds, which turns every operation on points into the one on integers,
which two points share exactly when they compare equal and exactly when their encodings are equal, and whose
values on the points are all integers modulo `L`. -/
theorem C93_prime_order_group : ∃ log : EdPoint → ZMod ell,
    (∀ k, ∃ P, RPoint P ∧ log P = k) ∧
    RPoint Ristretto.identity ∧ log Ristretto.identity = 0 ∧
    RPoint Ed.BASEPOINT ∧ log Ed.BASEPOINT = 1 ∧
    ∀ c : Cfg, c.Enough →
      (∀ P Q, RPoint P → RPoint Q →
        (∃ R, Ristretto.add c P Q = .ok R ∧ RPoint R ∧ log R = log P + log Q) ∧
        (∃ R, Ristretto.sub c P Q = .ok R ∧ RPoint R ∧ log R = log P - log Q) ∧
        (REq c P Q ↔ log P = log Q) ∧
        (Ristretto.compress c P = Ristretto.compress c Q ↔ log P = log Q)) ∧
      (∀ P, RPoint P →
        (∃ R, Ristretto.neg c P = .ok R ∧ RPoint R ∧ log R = -log P) ∧
        (∃ R, Ristretto.double c P = .ok R ∧ RPoint R ∧ log R = 2 * log P) ∧
        (∃ b Q, Ristretto.compress c P = .ok b ∧ Ristretto.decompress c b = .ok (some Q) ∧ RPoint Q ∧
          log Q = log P) ∧
        (∀ n : Sc, n.SCanon → ∃ R, Ristretto.mul c P n = .ok R ∧ RPoint R ∧ log R = n.val * log P)) ∧
      (∀ b Q, Ristretto.decompress c b = .ok (some Q) → RPoint Q ∧ Ristretto.compress c Q = .ok b) ∧
      (∀ u, ∃ Q, Ristretto.fromUniformBytes c u = .ok Q ∧ RPoint Q) := by
  classical
  let log : EdPoint → ZMod ell := fun P => if h : ∃ k, Lg P k then h.choose else 0
  have hlog : ∀ {P k}, Lg P k → log P = k := by
    intro P k h
    have hex : ∃ k, Lg P k := ⟨k, h⟩
    show (if h : ∃ k, Lg P k then h.choose else 0) = k
    rw [dif_pos hex]
    exact hex.choose_spec.unique h
  have hlg : ∀ {P}, RPoint P → Lg P (log P) := by
    intro P h
    obtain ⟨k, hk⟩ := h.lg
    rw [hlog hk]
    exact hk
  clear_value log
  refine ⟨log, ?_, Lg.identity.point, hlog Lg.identity, Lg.base.point, hlog Lg.base, ?_⟩
  · intro k
    obtain ⟨n, hn, rfl⟩ := sv_surj k
    obtain ⟨R, _, hR⟩ := Lg.base.mul dbg (by decide) n hn.1 (Scalar.scanon_lt256 hn)
    rw [mul_one] at hR
    exact ⟨R, hR.point, hlog hR⟩
  · intro c hc
    refine ⟨fun P Q hP hQ => ⟨?_, ?_, ?_, ?_⟩, fun P hP => ⟨?_, ?_, ?_, fun n hn => ?_⟩, ?_, ?_⟩
    · obtain ⟨R, e, hR⟩ := (hlg hP).add c (hlg hQ)
      exact ⟨R, e, hR.point, hlog hR⟩
    · obtain ⟨R, e, hR⟩ := (hlg hP).sub c (hlg hQ)
      exact ⟨R, e, hR.point, hlog hR⟩
    · exact (hlg hP).req c (hlg hQ)
    · exact (hlg hP).enc_eq c hc (hlg hQ)
    · obtain ⟨R, e, hR⟩ := (hlg hP).neg c
      exact ⟨R, e, hR.point, hlog hR⟩
    · obtain ⟨R, e, hR⟩ := (hlg hP).double c
      exact ⟨R, e, hR.point, hlog hR⟩
    · obtain ⟨b, Q, e1, e2, hQ⟩ := (hlg hP).wire c hc
      exact ⟨b, Q, e1, e2, hQ.point, hlog hQ⟩
    · obtain ⟨R, e, hR⟩ := (hlg hP).mul c hc n hn.1 (Scalar.scanon_lt256 hn)
      exact ⟨R, e, hR.point, hlog hR⟩
    · intro b Q h
      exact ⟨C63_decode_valid c hc b Q h, C59_decode_encode c hc b Q h⟩
    · intro u
      obtain ⟨P, A, e, hP, hA⟩ := C65_from_uniform_bytes c hc u
      exact ⟨P, e, A, hP, hA⟩

example : RPoint Ed.BASEPOINT ∧ RPoint Ristretto.identity ∧ Scalar.minusOne.SCanon ∧ dbg.Enough :=
  ⟨Lg.base.point, Lg.identity.point, Scalar.minusOne_canon, by decide⟩

/-! ### C94 -/

/-- C94: Schnorr proofs verify. A prover with secret `x` and nonce `k` sends the encodings of `x G` and `k G`
and answers the challenge `e` with `s = k + e x`. The verifier decodes both points and finds
`s G = R + e P`. -/
theorem C94_schnorr_complete (c : Cfg) (hc : c.Enough) {G : EdPoint} (hG : RPoint G) (x k e : Sc)
    (hx : x.SCanon) (hk : k.SCanon) (he : e.SCanon) :
    ∃ P R bP bR ex s P' R' U V W,
      Ristretto.mul c G x = .ok P ∧ Ristretto.compress c P = .ok bP ∧
      Ristretto.mul c G k = .ok R ∧ Ristretto.compress c R = .ok bR ∧
      Scalar.mul c e x = .ok ex ∧ Scalar.add c k ex = .ok s ∧
      Ristretto.decompress c bP = .ok (some P') ∧ Ristretto.decompress c bR = .ok (some R') ∧
      Ristretto.mul c G s = .ok U ∧ Ristretto.mul c P' e = .ok V ∧ Ristretto.add c R' V = .ok W ∧
      REq c U W := by
  obtain ⟨g, hg⟩ := hG.lg
  obtain ⟨P, eP, hP⟩ := hg.mul c hc x hx.1 (Scalar.scanon_lt256 hx)
  obtain ⟨R, eR, hR⟩ := hg.mul c hc k hk.1 (Scalar.scanon_lt256 hk)
  obtain ⟨bP, P', ebP, edP, hP'⟩ := hP.wire c hc
  obtain ⟨bR, R', ebR, edR, hR'⟩ := hR.wire c hc
  obtain ⟨ex, eex, hex, _⟩ := C27_mul c e x he.1 hx.1
  obtain ⟨s, es, hs, _⟩ := C25_add c k ex hk hex
  obtain ⟨U, eU, hU⟩ := hg.mul c hc s hs.1 (Scalar.scanon_lt256 hs)
  obtain ⟨V, eV, hV⟩ := hP'.mul c hc e he.1 (Scalar.scanon_lt256 he)
  obtain ⟨W, eW, hW⟩ := hR'.add c hV
  refine ⟨P, R, bP, bR, ex, s, P', R', U, V, W, eP, ebP, eR, ebR, eex, es, edP, edR, eU, eV, eW, ?_⟩
  rw [hU.req c hW]
  have h1 := (sv_mul he.1 hx.1 eex).2
  have h2 := (sv_add hk hex es).2
  unfold sv at h1 h2
  rw [h2, h1]
  ring

/-- C94: a Schnorr answer is unique. For decoded points `P`, `R` and a challenge `e`, exactly one scalar in
range passes verification. -/
theorem C94_schnorr_unique (c : Cfg) (hc : c.Enough) (bP bR : Bytes32) (P R : EdPoint)
    (hP : Ristretto.decompress c bP = .ok (some P)) (hR : Ristretto.decompress c bR = .ok (some R)) (e : Sc)
    (he : e.SCanon) :
    ∃! s : Sc, s.SCanon ∧ ∃ U V W, Ristretto.mul c Ed.BASEPOINT s = .ok U ∧ Ristretto.mul c P e = .ok V ∧
      Ristretto.add c R V = .ok W ∧ REq c U W := by
  obtain ⟨p', hp⟩ := Lg.decoded c hc hP
  obtain ⟨r', hr⟩ := Lg.decoded c hc hR
  obtain ⟨V, eV, hV⟩ := hp.mul c hc e he.1 (Scalar.scanon_lt256 he)
  obtain ⟨W, eW, hW⟩ := hr.add c hV
  obtain ⟨s, hs, hv⟩ := sv_surj (r' + e.val * p')
  have key : ∀ t : Sc, t.SCanon → ∃ U, Ristretto.mul c Ed.BASEPOINT t = .ok U ∧ Lg U (sv t) := by
    intro t ht
    obtain ⟨U, eU, hU⟩ := Lg.base.mul c hc t ht.1 (Scalar.scanon_lt256 ht)
    rw [mul_one] at hU
    exact ⟨U, eU, hU⟩
  refine ⟨s, ⟨hs, ?_⟩, ?_⟩
  · obtain ⟨U, eU, hU⟩ := key s hs
    exact ⟨U, V, W, eU, eV, eW, (hU.req c hW).2 hv⟩
  · rintro t ⟨ht, U, V', W', eU, eV', eW', h⟩
    rw [eV, Res.ok_inj] at eV'
    subst eV'
    rw [eW, Res.ok_inj] at eW'
    subst eW'
    obtain ⟨U', eU', hU⟩ := key t ht
    rw [eU, Res.ok_inj] at eU'
    subst eU'
    exact (sv_inj ht hs).1 (((hU.req c hW).1 h).trans hv.symm)

/-- C94: special soundness. From two accepted answers `s`, `t` to different challenges `e`, `f` for the same
points, the library's scalar arithmetic recovers the secret: it is the only `x` with
`(e - f) x = s - t`. -/
theorem C94_schnorr_extract (c : Cfg) (hc : c.Enough) (x e f s t : Sc) (R : EdPoint)
    (hx : x.SCanon) (he : e.SCanon) (hf : f.SCanon) (hs : s.SCanon) (ht : t.SCanon) (hR : RPoint R) (hne : e ≠ f)
    {P U V W U' V' W' : EdPoint} (eP : Ristretto.mul c Ed.BASEPOINT x = .ok P)
    (eU : Ristretto.mul c Ed.BASEPOINT s = .ok U) (eV : Ristretto.mul c P e = .ok V)
    (eW : Ristretto.add c R V = .ok W) (h : REq c U W)
    (eU' : Ristretto.mul c Ed.BASEPOINT t = .ok U') (eV' : Ristretto.mul c P f = .ok V')
    (eW' : Ristretto.add c R V' = .ok W') (h' : REq c U' W') :
    ∃ ef st, Scalar.sub c e f = .ok ef ∧ Scalar.sub c s t = .ok st ∧ Scalar.mul c ef x = .ok st ∧
      ∀ y : Sc, y.SCanon → Scalar.mul c ef y = .ok st → y = x := by
  have key : ∀ {t : Sc} {U}, t.SCanon → Ristretto.mul c Ed.BASEPOINT t = .ok U → Lg U (sv t) := by
    intro t U ht e
    obtain ⟨U', eU, hU⟩ := Lg.base.mul c hc t ht.1 (Scalar.scanon_lt256 ht)
    rw [mul_one] at hU
    rw [e, Res.ok_inj] at eU
    subst eU
    exact hU
  have hP := key hx eP
  obtain ⟨r, hr⟩ := hR.lg
  have side : ∀ {e s : Sc} {U V W : EdPoint}, e.SCanon → s.SCanon → Ristretto.mul c Ed.BASEPOINT s = .ok U →
      Ristretto.mul c P e = .ok V → Ristretto.add c R V = .ok W → REq c U W → sv s = r + sv e * sv x := by
    intro e s U V W he hs eU eV eW h
    obtain ⟨V1, eV1, hV⟩ := hP.mul c hc e he.1 (Scalar.scanon_lt256 he)
    rw [eV, Res.ok_inj] at eV1
    subst eV1
    obtain ⟨W1, eW1, hW⟩ := hr.add c hV
    rw [eW, Res.ok_inj] at eW1
    subst eW1
    exact ((key hs eU).req c hW).1 h
  have a1 := side he hs eU eV eW h
  have a2 := side hf ht eU' eV' eW' h'
  obtain ⟨ef, eef, hef, _⟩ := C26_sub c e f he hf
  obtain ⟨st, est, hst, _⟩ := C26_sub c s t hs ht
  have b1 := (sv_sub he hf eef).2
  have b2 := (sv_sub hs ht est).2
  refine ⟨ef, st, eef, est, ?_, ?_⟩
  · obtain ⟨m, em, hm, _⟩ := C27_mul c ef x hef.1 hx.1
    rw [em, Res.ok_inj]
    rw [← sv_inj hm hst, (sv_mul hef.1 hx.1 em).2, b1, b2, a1, a2]
    ring
  · intro y hy ey
    have h1 := (sv_mul hef.1 hy.1 ey).2
    rw [b2, a1, a2, b1] at h1
    have hne' : sv e - sv f ≠ 0 := fun h0 => hne ((sv_inj he hf).1 (sub_eq_zero.1 h0))
    rw [← sv_inj hy hx]
    apply mul_left_cancel₀ hne'
    linear_combination -h1

/-- C94: ElGamal decryption inverts encryption. The sender encodes `k G` and `M + k P`; the owner of `x`, with
`P = x G`, decodes both and subtracts. -/
theorem C94_elgamal (c : Cfg) (hc : c.Enough) {G M : EdPoint} (hG : RPoint G) (hM : RPoint M) (x k : Sc)
    (hx : x.SCanon) (hk : k.SCanon) :
    ∃ P C K D bC bD C' D' S M' b, Ristretto.mul c G x = .ok P ∧ Ristretto.mul c G k = .ok C ∧
      Ristretto.mul c P k = .ok K ∧ Ristretto.add c M K = .ok D ∧
      Ristretto.compress c C = .ok bC ∧ Ristretto.compress c D = .ok bD ∧
      Ristretto.decompress c bC = .ok (some C') ∧ Ristretto.decompress c bD = .ok (some D') ∧
      Ristretto.mul c C' x = .ok S ∧ Ristretto.sub c D' S = .ok M' ∧ REq c M' M ∧
      Ristretto.compress c M' = .ok b ∧ Ristretto.compress c M = .ok b := by
  obtain ⟨g, hg⟩ := hG.lg
  obtain ⟨m, hm⟩ := hM.lg
  obtain ⟨P, eP, hP⟩ := hg.mul c hc x hx.1 (Scalar.scanon_lt256 hx)
  obtain ⟨C, eC, hC⟩ := hg.mul c hc k hk.1 (Scalar.scanon_lt256 hk)
  obtain ⟨K, eK, hK⟩ := hP.mul c hc k hk.1 (Scalar.scanon_lt256 hk)
  obtain ⟨D, eD, hD⟩ := hm.add c hK
  obtain ⟨bC, C', ebC, edC, hC'⟩ := hC.wire c hc
  obtain ⟨bD, D', ebD, edD, hD'⟩ := hD.wire c hc
  obtain ⟨S, eS, hS⟩ := hC'.mul c hc x hx.1 (Scalar.scanon_lt256 hx)
  obtain ⟨M', eM, hM'⟩ := hD'.sub c hS
  have hlog : m + k.val * (x.val * g) - x.val * (k.val * g) = m := by ring
  obtain ⟨b, _, eb, _, _⟩ := hm.wire c hc
  exact ⟨P, C, K, D, bC, bD, C', D', S, M', b, eP, eC, eK, eD, ebC, ebD, edC, edD, eS, eM,
    (hM'.req c hm).2 hlog, ((hM'.enc_eq c hc hm).2 hlog).trans eb, eb⟩

/-- C94: Pedersen commitments add up: the sum of commitments to `(a, r)` and `(b, s)` is the commitment to the
sums. -/
theorem C94_pedersen (c : Cfg) (hc : c.Enough) {G H : EdPoint} (hG : RPoint G) (hH : RPoint H) (a b r s : Sc)
    (ha : a.SCanon) (hb : b.SCanon) (hr : r.SCanon) (hs : s.SCanon) :
    ∃ ab rs aG rH C bG sH D S abG rsH T, Scalar.add c a b = .ok ab ∧ Scalar.add c r s = .ok rs ∧
      Ristretto.mul c G a = .ok aG ∧ Ristretto.mul c H r = .ok rH ∧ Ristretto.add c aG rH = .ok C ∧
      Ristretto.mul c G b = .ok bG ∧ Ristretto.mul c H s = .ok sH ∧ Ristretto.add c bG sH = .ok D ∧
      Ristretto.add c C D = .ok S ∧
      Ristretto.mul c G ab = .ok abG ∧ Ristretto.mul c H rs = .ok rsH ∧ Ristretto.add c abG rsH = .ok T ∧
      REq c S T := by
  obtain ⟨g, hg⟩ := hG.lg
  obtain ⟨h, hh⟩ := hH.lg
  obtain ⟨ab, eab, hab, _⟩ := C25_add c a b ha hb
  obtain ⟨rs, ers, hrs, _⟩ := C25_add c r s hr hs
  obtain ⟨aG, e1, h1⟩ := hg.mul c hc a ha.1 (Scalar.scanon_lt256 ha)
  obtain ⟨rH, e2, h2⟩ := hh.mul c hc r hr.1 (Scalar.scanon_lt256 hr)
  obtain ⟨C, e3, h3⟩ := h1.add c h2
  obtain ⟨bG, e4, h4⟩ := hg.mul c hc b hb.1 (Scalar.scanon_lt256 hb)
  obtain ⟨sH, e5, h5⟩ := hh.mul c hc s hs.1 (Scalar.scanon_lt256 hs)
  obtain ⟨D, e6, h6⟩ := h4.add c h5
  obtain ⟨S, e7, h7⟩ := h3.add c h6
  obtain ⟨abG, e8, h8⟩ := hg.mul c hc ab hab.1 (Scalar.scanon_lt256 hab)
  obtain ⟨rsH, e9, h9⟩ := hh.mul c hc rs hrs.1 (Scalar.scanon_lt256 hrs)
  obtain ⟨T, e10, h10⟩ := h8.add c h9
  refine ⟨ab, rs, aG, rH, C, bG, sH, D, S, abG, rsH, T, eab, ers, e1, e2, e3, e4, e5, e6, e7, e8, e9, e10, ?_⟩
  rw [h7.req c h10]
  have a1 := (sv_add ha hb eab).2
  have a2 := (sv_add hr hs ers).2
  unfold sv at a1 a2
  rw [a1, a2]
  ring

/-- C94: commitments hide perfectly: if `H` is not the identity, then for every commitment to one value and every
other value there is exactly one blinding scalar in range that opens it to the other value. -/
theorem C94_pedersen_hiding (c : Cfg) (hc : c.Enough) {G H C : EdPoint} (hG : RPoint G) (hH : RPoint H)
    (hC : RPoint C) (hne : ¬ REq c H Ristretto.identity) (b : Sc) (hb : b.SCanon) :
    ∃! s : Sc, s.SCanon ∧ ∃ bG sH D, Ristretto.mul c G b = .ok bG ∧ Ristretto.mul c H s = .ok sH ∧
      Ristretto.add c bG sH = .ok D ∧ REq c D C := by
  obtain ⟨g, hg⟩ := hG.lg
  obtain ⟨h, hh⟩ := hH.lg
  obtain ⟨k, hk⟩ := hC.lg
  have h0 : h ≠ 0 := fun e => hne ((hh.req c Lg.identity).2 e)
  obtain ⟨s, hs, hv⟩ := sv_surj ((k - b.val * g) / h)
  obtain ⟨bG, e4, h4⟩ := hg.mul c hc b hb.1 (Scalar.scanon_lt256 hb)
  have hv' : (b.val : ZMod ell) * g + sv s * h = k := by
    rw [hv, div_mul_cancel₀ _ h0]; ring
  refine ⟨s, ⟨hs, ?_⟩, ?_⟩
  · obtain ⟨sH, e5, h5⟩ := hh.mul c hc s hs.1 (Scalar.scanon_lt256 hs)
    obtain ⟨D, e6, h6⟩ := h4.add c h5
    exact ⟨bG, sH, D, e4, e5, e6, (h6.req c hk).2 hv'⟩
  · rintro t ⟨ht, bG', tH, D, e1, e2, e3, h'⟩
    rw [e4, Res.ok_inj] at e1
    subst e1
    obtain ⟨tH', e5, h5⟩ := hh.mul c hc t ht.1 (Scalar.scanon_lt256 ht)
    rw [e2, Res.ok_inj] at e5
    subst e5
    obtain ⟨D', e6, h6⟩ := h4.add c h5
    rw [e3, Res.ok_inj] at e6
    subst e6
    have h2 : (b.val : ZMod ell) * g + sv t * h = k := (h6.req c hk).1 h'
    rw [← sv_inj ht hs]
    apply mul_right_cancel₀ h0
    linear_combination h2 - hv'

example : RPoint Ed.BASEPOINT ∧ ¬ REq dbg Ed.BASEPOINT Ristretto.identity ∧
    (⟨5, 0, 0, 0, 0⟩ : Sc).SCanon ∧ Scalar.minusOne.SCanon := by
  refine ⟨Lg.base.point, ?_, by decide, Scalar.minusOne_canon⟩
  rw [Lg.base.req dbg Lg.identity]
  exact one_ne_zero

end Props
end Zerocaf
