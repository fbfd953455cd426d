import Verif.Proof.Classes
import Verif.Props.Compress

/-!
# Properties C58-C69: the Ristretto group
-/

set_option exponentiation.threshold 600

namespace Zerocaf
namespace Props

open Ristretto

/-! ### C58 -/

/-- C58: equality holds exactly for points of one class. -/
theorem C58_eq_iff (c : Cfg) {P Q : EdPoint} {A B : E} (hP : P.Rep A) (hQ : Q.Rep B) :
    ∃ t, Ristretto.ctEq c P Q = .ok t ∧ (t = true ↔ SameClass A B) := by
  obtain ⟨Z, hz, rfl⟩ := hP.form
  obtain ⟨W, hw, rfl⟩ := hQ.form
  refine ⟨decide (A.x * Z * (B.y * W) = A.y * Z * (B.x * W)) || decide (A.x * Z * (B.x * W) = A.y * Z * (B.y * W)), by
    unfold Ristretto.ctEq
    simp only [Field.mul_enc, Res.ok_bind, Res.pure_eq, Field.ctEq_enc], ?_⟩
  rw [sameClass_iff, Bool.or_eq_true, decide_eq_true_iff, decide_eq_true_iff]
  have hzw : Z * W ≠ 0 := mul_ne_zero hz hw
  apply or_congr
  · constructor
    · intro h; apply mul_right_cancel₀ hzw; linear_combination h
    · intro h; linear_combination Z * W * h
  · constructor
    · intro h; apply mul_right_cancel₀ hzw; linear_combination h
    · intro h; linear_combination Z * W * h

/-- C58: the points of one class are `A` plus the four points `(0, 1)`, `(0, -1)`, `(i, 0)`, `(-i, 0)`. -/
theorem C58_torsion (A B : E) : SameClass A B ↔
    ∃ U : E, A = B + U ∧ ((U.x = 0 ∧ (U.y = 1 ∨ U.y = -1)) ∨
      ((U.x = Field.iZ ∨ U.x = -Field.iZ) ∧ U.y = 0)) := by
  constructor
  · intro h
    refine ⟨A - B, by abel, ?_⟩
    have hon := on_fact (A - B)
    rcases (four_torsion_iff _).1 h with h0 | h0
    · left
      rw [h0] at hon
      refine ⟨h0, ?_⟩
      have := sq_eq_cases (r := (A - B).y) (s := 1) (by linear_combination hon)
      simpa using this
    · right
      rw [h0] at hon
      refine ⟨?_, h0⟩
      apply sq_eq_cases
      rw [Field.iZ_sq]; linear_combination -hon
  · rintro ⟨U, rfl, h⟩
    unfold SameClass
    rw [add_sub_cancel_left, four_torsion_iff]
    rcases h with ⟨h, _⟩ | ⟨_, h⟩
    · exact Or.inl h
    · exact Or.inr h

/-- Equality of Ristretto points, as observed by a caller. -/
def REq (c : Cfg) (P Q : EdPoint) : Prop := Ristretto.ctEq c P Q = .ok true

theorem req_iff (c : Cfg) {P Q : EdPoint} {A B : E} (hP : P.Rep A) (hQ : Q.Rep B) :
    REq c P Q ↔ SameClass A B := by
  obtain ⟨t, e, h⟩ := C58_eq_iff c hP hQ
  unfold REq
  rw [e, Res.ok_inj, h]

/-- C58: an equivalence relation on valid points. -/
theorem C58_equivalence (c : Cfg) (P Q R : EdPoint) (hP : P.Valid) (hQ : Q.Valid) (hR : R.Valid) :
    REq c P P ∧ (REq c P Q → REq c Q P) ∧ (REq c P Q → REq c Q R → REq c P R) := by
  obtain ⟨A, hA⟩ := hP
  obtain ⟨B, hB⟩ := hQ
  obtain ⟨C, hC⟩ := hR
  rw [req_iff c hA hA, req_iff c hA hB, req_iff c hB hA, req_iff c hB hC, req_iff c hA hC]
  exact ⟨SameClass.refl A, SameClass.symm, SameClass.trans⟩

/-- C58: the answer does not depend on the projective representatives. -/
theorem C58_representatives (c : Cfg) {P P' Q Q' : EdPoint} {A B : E} (hP : P.Rep A) (hP' : P'.Rep A)
    (hQ : Q.Rep B) (hQ' : Q'.Rep B) : Ristretto.ctEq c P Q = Ristretto.ctEq c P' Q' := by
  obtain ⟨t, e, h⟩ := C58_eq_iff c hP hQ
  obtain ⟨t', e', h'⟩ := C58_eq_iff c hP' hQ'
  rw [e, e', Res.ok_inj]
  rw [← h'] at h
  cases t <;> cases t' <;> simp_all

/-- Both answers occur on valid points. -/
example : SameClass Bpt (flipPt Bpt) ∧ ¬ SameClass Bpt 0 := by
  refine ⟨flip_same _, fun h => ?_⟩
  have := mult_class (j := 1) (k := 0) (by decide) (by decide) (by rw [one_smul, zero_smul]; exact h)
  omega

/-- C57: Ristretto equality accepts the entry of `coset4` that is not a curve point. -/
theorem C57_bad_entry_equal (c : Cfg) {P : EdPoint} (h : P.Valid) :
    ∃ Q R S, Ed.coset4 c P = .ok (P, Q, R, S) ∧ ¬ Q.Valid ∧ REq c P Q := by
  obtain ⟨A, h⟩ := h
  obtain ⟨Q, R, S, e, hz, hx, hy, _, hn, _⟩ := C57_coset4 c h
  refine ⟨Q, R, S, e, hn, ?_⟩
  obtain ⟨cx, cy⟩ : Q.X.Canon ∧ Q.Y.Canon := by
    obtain ⟨Z, hz', rfl⟩ := h.form
    have e0 : Ed.COSET0 = ⟨enc 1, enc 0, enc 1, enc 0⟩ := by
      rw [← Field.zero_enc, ← Field.one_enc]; rfl
    unfold Ed.coset4 at e
    rw [e0, Ed.add_enc, Res.ok_bind] at e
    obtain ⟨U, eU, _⟩ := Ed.add_rep c h COSET1_rep
    obtain ⟨V, eV, _⟩ := Ed.add_rep c h COSET2_rep
    rw [eU, Res.ok_bind, eV, Res.ok_bind, Res.pure_eq, Res.ok_inj] at e
    have := congrArg (fun t : EdPoint × EdPoint × EdPoint × EdPoint => t.2.1) e
    dsimp only at this
    rw [← this]
    exact ⟨enc_canon _, enc_canon _⟩
  obtain ⟨Z, hz', rfl⟩ := h.form
  rw [div_eq_iff hz] at hx hy
  have ex : Q.X = enc (A.y * (Q.Z.val : Fp)) := cx.eq_enc hx
  have ey : Q.Y = enc (A.x * (Q.Z.val : Fp)) := cy.eq_enc hy
  unfold REq Ristretto.ctEq
  simp only [ex, ey, Field.mul_enc, Res.ok_bind, Res.pure_eq, Field.ctEq_enc]
  rw [Res.ok_inj, Bool.or_eq_true, decide_eq_true_iff, decide_eq_true_iff]
  right; ring

/-! ### C59 -/

/-- C59: whatever is decoded is encoded back to the same bytes. -/
theorem C59_decode_encode (c : Cfg) (hc : c.Enough) (b : Bytes32) (P : EdPoint)
    (h : Ristretto.decompress c b = .ok (some P)) : Ristretto.compress c P = .ok b := by
  rcases decompress_cases c hc b with ⟨A, s, hA, hs, hb, e⟩ | ⟨e, _⟩
  · rw [e, Res.ok_inj] at h
    have hP : ofPt A = P := Option.some.inj h
    obtain ⟨A', s', h1, h2, h3, e2⟩ := Ristretto.compress_rep c hc (ofPt_rep A) hA.even
    have : A' = A := hA.unique h2 h1
    rw [this] at h3
    rw [← hP, e2, hb, h3.s_unique hs hA.y1]
  · rw [e, Res.ok_inj] at h
    exact absurd h (by simp)

/-- Strings that decode exist. -/
theorem base_decodes (c : Cfg) (hc : c.Enough) :
    Ristretto.decompress c Ristretto.BASEPOINT_COMPRESSED = .ok (some (ofPt (flipPt Bpt))) := by
  rw [← two_bytes]; exact decompress_of c hc flipB_canonical flipB_enc

example : ∃ P, Ristretto.decompress dbg Ristretto.BASEPOINT_COMPRESSED = .ok (some P) :=
  ⟨_, base_decodes dbg (by decide)⟩

/-! ### C60 -/

/-- C60: whatever is encoded from an even point decodes to an equal point. -/
theorem C60_encode_decode (c : Cfg) (hc : c.Enough) {P : EdPoint} {A : E} (h : P.Rep A) (hA : InEven A) :
    ∃ b Q, Ristretto.compress c P = .ok b ∧ Ristretto.decompress c b = .ok (some Q) ∧ REq c Q P := by
  obtain ⟨A', s, h1, h2, h3, e⟩ := Ristretto.compress_rep c hc h hA
  refine ⟨_, ofPt A', e, decompress_of c hc h2 h3, ?_⟩
  rw [req_iff c (ofPt_rep A') h]
  exact h1.symm

example : Ed.BASEPOINT.Rep Bpt ∧ InEven Bpt := ⟨BASEPOINT_rep, Bpt_even⟩

/-- C60: without evenness encoding still returns some bytes. -/
theorem C60_encode_total (c : Cfg) (hc : c.Enough) {P : EdPoint} (h : P.Valid) :
    ∃ b, Ristretto.compress c P = .ok b := by
  obtain ⟨A, h⟩ := h
  obtain ⟨Z, _, rfl⟩ := h.form
  exact ⟨_, compress_enc c hc _ _ _ _⟩

/-! ### C61 -/

/-- C61: on even points, equal encodings and equality coincide. -/
theorem C61_encoding_identifies (c : Cfg) (hc : c.Enough) {P Q : EdPoint} {A B : E} (hP : P.Rep A)
    (hQ : Q.Rep B) (hA : InEven A) (hB : InEven B) :
    Ristretto.compress c P = Ristretto.compress c Q ↔ REq c P Q := by
  obtain ⟨A', s, a1, a2, a3, ea⟩ := Ristretto.compress_rep c hc hP hA
  obtain ⟨B', t, b1, b2, b3, eb⟩ := Ristretto.compress_rep c hc hQ hB
  rw [ea, eb, Res.ok_inj, req_iff c hP hQ]
  constructor
  · intro h
    have := congrArg Field.fromBytes h
    rw [Field.fromBytes_toBytes _ (enc_WF _) (Field.canon_lt256 (enc_canon _)),
      Field.fromBytes_toBytes _ (enc_WF _) (Field.canon_lt256 (enc_canon _)), enc_inj] at this
    rw [← this] at b3
    have e := EncOf.A_unique a3 b3 a2 b2
    rw [← e] at b1
    exact a1.trans b1.symm
  · intro h
    have e : B' = A' := a2.unique b2 ((a1.symm.trans h).trans b1)
    rw [e] at b3
    rw [a3.s_unique b3 a2.y1]

/-! ### C62 -/

/-- C62: no value above `(p - 1) / 2` is decoded. -/
theorem C62_rejects (c : Cfg) (b : Bytes32) (h : (p - 1) / 2 < bytesVal b) :
    Ristretto.decompress c b = .ok none := decompress_neg c b (by omega)

/-- C62: decoding returns for every input. -/
theorem C62_total (c : Cfg) (hc : c.Enough) (b : Bytes32) : ∃ o, Ristretto.decompress c b = .ok o := by
  rcases decompress_cases c hc b with ⟨_, _, _, _, _, e⟩ | ⟨e, _⟩
  · exact ⟨_, e⟩
  · exact ⟨_, e⟩

example : (p - 1) / 2 < bytesVal (Vector.replicate 32 255) := by decide +kernel

/-! ### C63 -/

/-- C63: a decoded point is a curve point, even, and has consistent coordinates. -/
theorem C63_decode_valid (c : Cfg) (hc : c.Enough) (b : Bytes32) (P : EdPoint)
    (h : Ristretto.decompress c b = .ok (some P)) : ∃ A, P.Rep A ∧ InEven A := by
  rcases decompress_cases c hc b with ⟨A, s, hA, hs, hb, e⟩ | ⟨e, _⟩
  · rw [e, Res.ok_inj] at h
    exact ⟨A, by rw [← Option.some.inj h]; exact ofPt_rep A, hA.even⟩
  · rw [e, Res.ok_inj] at h
    exact absurd h (by simp)

/-- C63: exactly which strings decode: those of the numbers `s ≤ (p - 1) / 2` for which there is an even
point with `y = (1 - s^2) / (1 + s^2)`, `y ≠ 0`, `x` and `x y` at most `(p - 1) / 2`. The point decoded is
that point. -/
theorem C63_decode_exact (c : Cfg) (hc : c.Enough) (b : Bytes32) (A : E) :
    (∃ P, Ristretto.decompress c b = .ok (some P) ∧ P.Rep A) ↔
    (bytesVal b ≤ (p - 1) / 2 ∧ InEven A ∧ A.x.val ≤ (p - 1) / 2 ∧ (A.x * A.y).val ≤ (p - 1) / 2 ∧
      A.y ≠ 0 ∧ (1 + (bytesVal b : Fp) ^ 2) ≠ 0 ∧
      A.y = (1 - (bytesVal b : Fp) ^ 2) / (1 + (bytesVal b : Fp) ^ 2)) := by
  constructor
  · rintro ⟨P, e, hP⟩
    rcases decompress_cases c hc b with ⟨A', s, hA, hs, hb, e'⟩ | ⟨e', _⟩
    · rw [e', Res.ok_inj] at e
      rw [← Option.some.inj e] at hP
      have : A' = A := (ofPt_rep A').unique hP
      subst this
      have hv : bytesVal b = s.val := by
        rw [hb, toBytes_enc_val]
      have hsv : ((bytesVal b : ℕ) : Fp) = s := by rw [hv, ZMod.natCast_zmod_val]
      have hps := hs.ps
      have hpx := hA.px
      have hpt := hA.pt
      unfold Pos at hps hpx hpt
      have heq := hs.eq
      have h2 : (1 + s ^ 2) * (1 + A'.y) = 2 := by linear_combination heq
      have hu : 1 + s ^ 2 ≠ 0 := by
        intro h0; rw [h0, zero_mul] at h2; exact Field.two_ne_zero' h2.symm
      refine ⟨by omega, hA.even, by omega, by omega, hA.y0, by rw [hsv]; exact hu, ?_⟩
      rw [hsv, eq_div_iff hu]; linear_combination heq
    · rw [e', Res.ok_inj] at e
      exact absurd e (by simp)
  · rintro ⟨h1, h2, h3, h4, h5, h6, h7⟩
    obtain ⟨s, hs, hb, hsv⟩ := toBytes_of_pos b (by omega)
    rw [← hsv] at h6 h7
    rw [eq_div_iff h6] at h7
    have hy1 : 1 + A.y ≠ 0 := by
      intro h
      have : A.y = -1 := by linear_combination h
      rw [this] at h7
      exact Field.two_ne_zero' (by linear_combination -h7)
    have hA : Canonical A := ⟨h2, by unfold Pos; omega, by unfold Pos; omega, h5, hy1⟩
    refine ⟨ofPt A, ?_, ofPt_rep A⟩
    rw [hb]
    exact decompress_of c hc hA ⟨hs, by linear_combination h7⟩

/-! ### C64 -/

/-- C64: the Elligator map returns an even curve point for every argument, canonical or not. -/
theorem C64_elligator (c : Cfg) (hc : c.Enough) (r : FE) (hr : r.WF) :
    ∃ P A, Ristretto.elligator c r = .ok P ∧ P.Rep A ∧ InEven A := elligator_rep c hc r hr

/-- C64: it depends on its argument modulo `p` only. -/
theorem C64_mod_p (c : Cfg) (hc : c.Enough) (r r' : FE) (hr : r.WF) (hr' : r'.WF)
    (h : r.val % p = r'.val % p) : Ristretto.elligator c r = Ristretto.elligator c r' :=
  elligator_congr c hc r r' hr hr' (toZ_eq_iff.2 h)

/-- A non-canonical argument is covered. -/
example : (Field.fromBytes (Vector.replicate 32 255)).WF ∧ ¬ (Field.fromBytes (Vector.replicate 32 255)).Canon :=
  ⟨(Field.fromBytes_spec _).1, by decide +kernel⟩

/-! ### C65 -/

/-- C65: hashing 64 bytes to a point always returns an even curve point. -/
theorem C65_from_uniform_bytes (c : Cfg) (hc : c.Enough) (b : Bytes64) :
    ∃ P A, Ristretto.fromUniformBytes c b = .ok P ∧ P.Rep A ∧ InEven A := by
  unfold Ristretto.fromUniformBytes
  dsimp only
  obtain ⟨P, A, e1, hP, hA⟩ := elligator_rep c hc _
    (Field.fromBytes_spec (Vector.ofFn fun i : Fin 32 => b[i.val]'(by omega))).1
  obtain ⟨Q, B, e2, hQ, hB⟩ := elligator_rep c hc _
    (Field.fromBytes_spec (Vector.ofFn fun i : Fin 32 => b[32 + i.val]'(by omega))).1
  obtain ⟨R, e3, hR⟩ := Ed.add_rep c hP hQ
  rw [e1, Res.ok_bind, e2, Res.ok_bind]
  exact ⟨R, A + B, e3, hR, hA.add hB⟩

/-- C65: so does drawing a random point, whatever the generator writes. -/
theorem C65_new_random_point (c : Cfg) (hc : c.Enough) (b : Bytes64) :
    ∃ P A, Ristretto.newRandom c b = .ok P ∧ P.Rep A ∧ InEven A := C65_from_uniform_bytes c hc b

/-- C65: the result is the sum of the images of the two halves. -/
theorem C65_sum_of_halves (c : Cfg) (hc : c.Enough) (b : Bytes64) (lo hi : Bytes32)
    (hl : ∀ i (h : i < 32), lo[i] = b[i]) (hh : ∀ i (h : i < 32), hi[i] = b[32 + i]) :
    ∃ P Q R A B, Ristretto.elligator c (Field.fromBytes lo) = .ok P ∧
      Ristretto.elligator c (Field.fromBytes hi) = .ok Q ∧ Ristretto.fromUniformBytes c b = .ok R ∧
      P.Rep A ∧ Q.Rep B ∧ R.Rep (A + B) := by
  have el : lo = Vector.ofFn fun i : Fin 32 => b[i.val]'(by omega) := by
    ext i h; simp [hl i h]
  have eh : hi = Vector.ofFn fun i : Fin 32 => b[32 + i.val]'(by omega) := by
    ext i h; simp [hh i h]
  obtain ⟨P, A, e1, hP, hA⟩ := elligator_rep c hc _ (Field.fromBytes_spec lo).1
  obtain ⟨Q, B, e2, hQ, hB⟩ := elligator_rep c hc _ (Field.fromBytes_spec hi).1
  obtain ⟨R, e3, hR⟩ := Ed.add_rep c hP hQ
  refine ⟨P, Q, R, A, B, e1, e2, ?_, hP, hQ, hR⟩
  unfold Ristretto.fromUniformBytes
  dsimp only
  rw [← el, ← eh, e1, Res.ok_bind, e2, Res.ok_bind]
  exact e3

/-! ### C66 -/

/-- C66: the group operations respect equality. -/
theorem C66_ops_respect (c : Cfg) {P P' Q Q' : EdPoint} (hP : P.Valid) (hP' : P'.Valid) (hQ : Q.Valid)
    (hQ' : Q'.Valid) (h : REq c P P') (g : REq c Q Q') :
    (∃ R R', Ristretto.add c P Q = .ok R ∧ Ristretto.add c P' Q' = .ok R' ∧ REq c R R') ∧
    (∃ R R', Ristretto.sub c P Q = .ok R ∧ Ristretto.sub c P' Q' = .ok R' ∧ REq c R R') ∧
    (∃ R R', Ristretto.neg c P = .ok R ∧ Ristretto.neg c P' = .ok R' ∧ REq c R R') ∧
    (∃ R R', Ristretto.double c P = .ok R ∧ Ristretto.double c P' = .ok R' ∧ REq c R R') := by
  obtain ⟨A, hA⟩ := hP
  obtain ⟨A', hA'⟩ := hP'
  obtain ⟨B, hB⟩ := hQ
  obtain ⟨B', hB'⟩ := hQ'
  rw [req_iff c hA hA'] at h
  rw [req_iff c hB hB'] at g
  refine ⟨?_, ?_, ?_, ?_⟩
  · obtain ⟨R, e, hR⟩ := Ed.add_rep c hA hB
    obtain ⟨R', e', hR'⟩ := Ed.add_rep c hA' hB'
    exact ⟨R, R', e, e', (req_iff c hR hR').2 (h.add g)⟩
  · obtain ⟨R, e, hR⟩ := Ristretto.sub_rep c hA hB
    obtain ⟨R', e', hR'⟩ := Ristretto.sub_rep c hA' hB'
    refine ⟨R, R', e, e', (req_iff c hR hR').2 ?_⟩
    rw [sub_eq_add_neg, sub_eq_add_neg]; exact h.add g.neg
  · obtain ⟨R, e, hR⟩ := Ed.neg_rep c hA
    obtain ⟨R', e', hR'⟩ := Ed.neg_rep c hA'
    exact ⟨R, R', e, e', (req_iff c hR hR').2 h.neg⟩
  · obtain ⟨R, e, hR⟩ := Ed.double_rep c hA
    obtain ⟨R', e', hR'⟩ := Ed.double_rep c hA'
    exact ⟨R, R', e, e', (req_iff c hR hR').2 (h.add h)⟩

/-- C66: so does scalar multiplication. -/
theorem C66_mul_respects (c : Cfg) (hc : c.Enough) {P P' : EdPoint} (hP : P.Valid) (hP' : P'.Valid)
    (h : REq c P P') (n : Sc) (wn : n.WF) (hn : n.val < 2 ^ 256) :
    ∃ R R', Ristretto.mul c P n = .ok R ∧ Ristretto.mul c P' n = .ok R' ∧ REq c R R' := by
  obtain ⟨A, hA⟩ := hP
  obtain ⟨A', hA'⟩ := hP'
  rw [req_iff c hA hA'] at h
  obtain ⟨R, e, hR⟩ := doubleAndAdd_rep Ristretto.opsSpec c hc hA n wn hn
  obtain ⟨R', e', hR'⟩ := doubleAndAdd_rep Ristretto.opsSpec c hc hA' n wn hn
  exact ⟨R, R', e, e', (req_iff c hR hR').2 (h.smul _)⟩

/-- C66: the operations are those of the curve group. -/
theorem C66_ops (c : Cfg) (hc : c.Enough) {P Q : EdPoint} {A B : E} (hP : P.Rep A) (hQ : Q.Rep B)
    (n : Sc) (wn : n.WF) (hn : n.val < 2 ^ 256) :
    (∃ R, Ristretto.add c P Q = .ok R ∧ R.Rep (A + B)) ∧
    (∃ R, Ristretto.sub c P Q = .ok R ∧ R.Rep (A - B)) ∧
    (∃ R, Ristretto.neg c P = .ok R ∧ R.Rep (-A)) ∧
    (∃ R, Ristretto.double c P = .ok R ∧ R.Rep (2 • A)) ∧
    (∃ R, Ristretto.mul c P n = .ok R ∧ R.Rep (n.val • A)) := by
  refine ⟨Ed.add_rep c hP hQ, Ristretto.sub_rep c hP hQ, Ed.neg_rep c hP, ?_,
    doubleAndAdd_rep Ristretto.opsSpec c hc hP n wn hn⟩
  rw [two_nsmul]; exact Ed.double_rep c hP

example : ∃ P Q : EdPoint, P ≠ Q ∧ P.Valid ∧ Q.Valid ∧ REq dbg P Q := by
  refine ⟨ofPt Bpt, ofPt (flipPt Bpt), ?_, ⟨_, ofPt_rep _⟩, ⟨_, ofPt_rep _⟩, ?_⟩
  · intro h
    have h1 : Bpt = flipPt Bpt := (ofPt_rep Bpt).unique (by rw [h]; exact ofPt_rep _)
    have h2 := congrArg EdCurve.Pt.y h1
    rw [flipPt_y] at h2
    have h3 := Bpt_y5
    have : (2 : Fp) * 3 = 0 := by linear_combination 5 * h2 - 2 * h3
    exact mul_ne_zero Field.two_ne_zero' three_ne this
  · rw [req_iff _ (ofPt_rep _) (ofPt_rep _)]; exact flip_same _

/-! ### C67 -/

/-- C67: every even point equals exactly one of the first `L` multiples of the base point. -/
theorem C67_classes (A : E) (hA : InEven A) :
    ∃! k : ℕ, k < ell ∧ SameClass A (k • Bpt) := by
  obtain ⟨k, hk, h⟩ := even_class hA
  exact ⟨k, ⟨hk, h⟩, fun j ⟨hj, g⟩ => mult_class hj hk (g.symm.trans h)⟩

/-- C67: the same in terms of the library: for every even point there is exactly one scalar in range whose
product with the base point compares equal. -/
theorem C67_discrete_log (c : Cfg) (hc : c.Enough) {P : EdPoint} {A : E} (h : P.Rep A) (hA : InEven A) :
    ∃! n : Sc, n.SCanon ∧ ∃ R, Ristretto.mul c Ed.BASEPOINT n = .ok R ∧ REq c R P := by
  obtain ⟨k, hk, hS⟩ := even_class hA
  have hcan : (encNat k).SCanon := by
    refine ⟨encNat_WF k, ?_⟩
    rw [encNat_val k (lt_trans hk (by decide))]; exact hk
  have hval : (encNat k).val = k := encNat_val k (lt_trans hk (by decide))
  refine ⟨encNat k, ⟨hcan, ?_⟩, ?_⟩
  · obtain ⟨R, e, hR⟩ := doubleAndAdd_rep Ristretto.opsSpec c hc BASEPOINT_rep (encNat k) hcan.1
      (Scalar.scanon_lt256 hcan)
    rw [hval] at hR
    exact ⟨R, e, (req_iff c hR h).2 hS.symm⟩
  · rintro n ⟨hn, R, e, hR⟩
    obtain ⟨R', e', hR'⟩ := doubleAndAdd_rep Ristretto.opsSpec c hc BASEPOINT_rep n hn.1
      (Scalar.scanon_lt256 hn)
    unfold Ristretto.mul at e
    rw [e', Res.ok_inj] at e
    rw [← e, req_iff c hR' h] at hR
    apply hn.1.ext hcan.1
    rw [hval]
    exact mult_class hn.2 hk (hR.trans hS)

/-- C67: exactly `L` byte strings decode. -/
theorem C67_decodable_count (c : Cfg) (hc : c.Enough) :
    Nat.card {b : Bytes32 // ∃ P, Ristretto.decompress c b = .ok (some P)} = ell := by
  have hex : ∀ k : Fin ell, ∃ b : Bytes32, (∃ P, Ristretto.decompress c b = .ok (some P)) ∧
      Ristretto.compress c (ofPt (k.val • Bpt)) = .ok b := by
    intro k
    obtain ⟨b, Q, e1, e2, _⟩ := C60_encode_decode c hc (ofPt_rep (k.val • Bpt)) (Bpt_even.smul k)
    exact ⟨b, ⟨Q, e2⟩, e1⟩
  choose f hf1 hf2 using hex
  let g : Fin ell → {b : Bytes32 // ∃ P, Ristretto.decompress c b = .ok (some P)} := fun k => ⟨f k, hf1 k⟩
  have hg : Function.Bijective g := by
    constructor
    · intro j k h
      have h1 : f j = f k := congrArg Subtype.val h
      have h2 : Ristretto.compress c (ofPt (j.val • Bpt)) = Ristretto.compress c (ofPt (k.val • Bpt)) := by
        rw [hf2, hf2, h1]
      rw [C61_encoding_identifies c hc (ofPt_rep _) (ofPt_rep _) (Bpt_even.smul _) (Bpt_even.smul _),
        req_iff c (ofPt_rep _) (ofPt_rep _)] at h2
      exact Fin.ext (mult_class j.2 k.2 h2)
    · rintro ⟨b, P, hP⟩
      obtain ⟨A, hA, hE⟩ := C63_decode_valid c hc b P hP
      obtain ⟨k, hk, hS⟩ := even_class hE
      refine ⟨⟨k, hk⟩, Subtype.ext ?_⟩
      have h1 := C59_decode_encode c hc b P hP
      have h2 := (C61_encoding_identifies c hc hA (ofPt_rep (k • Bpt)) hE (Bpt_even.smul k)).2
        ((req_iff c hA (ofPt_rep _)).2 hS)
      rw [h1, hf2 ⟨k, hk⟩, Res.ok_inj] at h2
      exact h2.symm
  rw [← Nat.card_congr (Equiv.ofBijective g hg), Nat.card_fin]

/-! ### C68 -/

/-- C68: the Ristretto validity check is the test `L * P = 0`. -/
theorem C68_is_valid (c : Cfg) (hc : c.Enough) {P : EdPoint} {A : E} (h : P.Rep A) :
    ∃ t, Ristretto.isValid c P = .ok t ∧ (t = true ↔ ell • A = 0) := by
  have hL : Scalar.L.WF ∧ Scalar.L.val = ell := by decide
  obtain ⟨R, e, hR⟩ := doubleAndAdd_rep Ed.opsSpec c hc h Scalar.L hL.1 (by rw [hL.2]; decide)
  rw [hL.2] at hR
  obtain ⟨t, et, ht⟩ := Ed_ctEq_iff c hc hR Ed.identity_rep
  have hv : Ed.isValid c P = .ok true := by
    obtain ⟨Z, hz, rfl⟩ := h.form
    show Proj.isValid c ⟨enc (A.x * Z), enc (A.y * Z), enc Z⟩ = _
    rw [Proj_isValid_enc, decide_eq_true]
    have := on_fact A
    linear_combination Z ^ 4 * this
  refine ⟨t, ?_, ht⟩
  unfold Ristretto.isValid Ed.mul
  rw [e, Res.ok_bind, et, Res.ok_bind, hv, Res.ok_bind, Bool.and_true]
  rfl

/-- A point killed by `L` is the only one in its class. -/
theorem ell_class {A B : E} (hA : ell • A = 0) (hB : ell • B = 0) (h : SameClass A B) : A = B := by
  have h4 : 4 • (A - B) = 0 := h
  have h3 : ell • (A - B) = 0 := by rw [smul_sub, hA, hB, sub_zero]
  obtain ⟨q, hq⟩ : ∃ q, ell = q * 4 + 3 := ⟨ell / 4, by decide⟩
  rw [hq, add_smul, mul_smul, h4, smul_zero, zero_add] at h3
  have : (3 + 1) • (A - B) = 0 := h4
  rw [add_smul, h3, zero_add, one_smul] at this
  exact sub_eq_zero.1 this

theorem flipB_ne : flipPt Bpt ≠ Bpt := by
  intro h1
  have h2 := congrArg EdCurve.Pt.y h1
  rw [flipPt_y] at h2
  have h3 := Bpt_y5
  have : (2 : Fp) * 3 = 0 := by linear_combination -5 * h2 - 2 * h3
  exact mul_ne_zero Field.two_ne_zero' three_ne this

/-- C68: the check accepts exactly one of the representatives of each class of even points. -/
theorem C68_one_per_class (A : E) (hA : InEven A) : ∃! B : E, SameClass A B ∧ ell • B = 0 := by
  obtain ⟨k, _, h⟩ := even_class hA
  have hk : ell • (k • Bpt) = 0 := by rw [smul_comm, ell_Bpt, smul_zero]
  exact ⟨k • Bpt, ⟨h, hk⟩, fun C ⟨hC, eC⟩ => ell_class eC hk (hC.symm.trans h)⟩

/-- C68: it rejects the point obtained by decoding the published encoding of the base point. -/
theorem C68_rejects_decoded (c : Cfg) (hc : c.Enough) :
    ∃ P, Ristretto.decompress c Ristretto.BASEPOINT_COMPRESSED = .ok (some P) ∧
      Ristretto.isValid c P = .ok false ∧ REq c P Ed.BASEPOINT ∧
      Ristretto.isValid c Ed.BASEPOINT = .ok true := by
  refine ⟨_, base_decodes c hc, ?_, ?_, ?_⟩
  · obtain ⟨t, e, h⟩ := C68_is_valid c hc (ofPt_rep (flipPt Bpt))
    rw [e, Res.ok_inj, Bool.eq_false_iff]
    intro ht
    exact flipB_ne (ell_class (h.1 ht) ell_Bpt (flip_same Bpt).symm)
  · rw [req_iff c (ofPt_rep _) BASEPOINT_rep]; exact (flip_same Bpt).symm
  · obtain ⟨t, e, h⟩ := C68_is_valid c hc BASEPOINT_rep
    rw [e, Res.ok_inj]; exact h.2 ell_Bpt

/-! ### C69 -/

/-- C69: the Edwards base point is encoded as the published constant. -/
theorem C69_edwards_encode (c : Cfg) (hc : c.Enough) :
    Ed.compress c Ed.BASEPOINT = .ok Ed.BASEPOINT_COMPRESSED := by
  have hy : enc Bpt.y = Ed.BASEPOINT.Y := by
    refine (L5.Canon.eq_enc (by decide) ?_).symm
    rw [Bpt_y']
    exact congrArg _ (by decide +kernel : Ed.BASEPOINT.Y.val = by')
  rw [Zerocaf.compress_rep c hc BASEPOINT_rep, Bpt_sign, hy, Res.ok_inj]
  decide +kernel

/-- C69: the published constant decodes to the base point. -/
theorem C69_edwards_decode (c : Cfg) (hc : c.Enough) :
    ∃ P, Ed.decompress c Ed.BASEPOINT_COMPRESSED = .ok (some P) ∧ P.Rep Bpt := by
  obtain ⟨b, Q, e1, e2, hQ⟩ := roundtrip_low c hc BASEPOINT_rep (by
    rw [Bpt_y', ZMod.val_natCast]; decide)
  rw [C69_edwards_encode c hc, Res.ok_inj] at e1
  rw [e1]
  exact ⟨Q, e2, hQ⟩

/-- C69: the Ristretto base point is encoded as the published constant. -/
theorem C69_ristretto_encode (c : Cfg) (hc : c.Enough) :
    Ristretto.compress c Ed.BASEPOINT = .ok Ristretto.BASEPOINT_COMPRESSED := by
  have h1 := C59_decode_encode c hc _ _ (base_decodes c hc)
  rw [← h1, C61_encoding_identifies c hc BASEPOINT_rep (ofPt_rep _) Bpt_even flipB_canonical.even,
    req_iff c BASEPOINT_rep (ofPt_rep _)]
  exact flip_same Bpt

/-- C69: the published constant decodes to a point equal to the base point. -/
theorem C69_ristretto_decode (c : Cfg) (hc : c.Enough) :
    ∃ P, Ristretto.decompress c Ristretto.BASEPOINT_COMPRESSED = .ok (some P) ∧ REq c P Ed.BASEPOINT := by
  obtain ⟨P, h1, _, h2, _⟩ := C68_rejects_decoded c hc
  exact ⟨P, h1, h2⟩

/-- C69: the encodings of the identity. -/
theorem C69_identity (c : Cfg) (hc : c.Enough) :
    Ristretto.compress c Ristretto.identity = .ok Ristretto.compressedIdentity ∧
    ∃ P, Ristretto.decompress c Ristretto.compressedIdentity = .ok (some P) ∧ P.Rep 0 := by
  have hb : Field.toBytes (enc 0) = Ristretto.compressedIdentity := by
    rw [← Field.zero_enc]; decide
  have hd := decompress_of c hc canonical_zero encOf_zero
  rw [hb] at hd
  refine ⟨?_, _, hd, ofPt_rep 0⟩
  have hi : Ristretto.identity = Ed.identity := rfl
  rw [← C59_decode_encode c hc _ _ hd, hi,
    C61_encoding_identifies c hc Ed.identity_rep (ofPt_rep _) inEven_zero inEven_zero,
    req_iff c Ed.identity_rep (ofPt_rep _)]
  exact SameClass.refl 0

end Props
end Zerocaf
