import Verif.Props.EqualLogs
import Verif.Props.Blinding

/-!
# Property C130: proving that a committed value lies in a range

A value is committed bit by bit, each commitment comes with a proof that it holds zero or one, and the commitments
weighted with the powers of two add up to one of the value. The steps are the standard ones, written here with the
modelled operations. They are not in the code.
-/

set_option exponentiation.threshold 600

namespace Zerocaf
namespace Props

open Ristretto

/-! ### The steps -/

/-- What is sent to prove that a commitment holds a bit. -/
structure BitProof where
  r0 : Bytes32
  r1 : Bytes32
  e0 : Sc
  s0 : Sc
  e1 : Sc
  s1 : Sc

/-- The bit as a scalar. -/
def bitScalar (bit : Bool) : Sc := if bit then Scalar.one else Scalar.zero

/-- The encoding of the commitment minus the base point. -/
def lessBase (c : Cfg) (b : Bytes32) : Res (Option Bytes32) := do
  let o ← Ristretto.decompress c b
  match o with
  | none => return none
  | some C =>
    let K ← Ristretto.sub c C Ed.BASEPOINT
    let k ← Ristretto.compress c K
    return some k

/-- The check for one commitment. -/
def bitCheck (c : Cfg) (H : EdPoint) (b : Bytes32) (ch : Sc) (t : BitProof) : Res Bool := do
  let o ← lessBase c b
  match o with
  | none => return false
  | some k =>
    let u ← checkOne c H b t.r0 t.e0 t.s0
    let v ← checkOne c H k t.r1 t.e1 t.s1
    let e ← Scalar.add c t.e0 t.e1
    return u && v && Scalar.ctEq e ch

/-- The proof for the commitment `b` with blinding `r`: nonce `n`, made up challenge and answer `e` and `s`, challenge
`ch`. -/
def bitProve (c : Cfg) (H : EdPoint) (bit : Bool) (b : Bytes32) (r n e s ch : Sc) : Res (Option BitProof) := do
  let o ← lessBase c b
  match o with
  | none => return none
  | some k =>
    let f ← fitting c H (if bit then b else k) e s
    let N ← Ristretto.mul c H n
    let q ← Ristretto.compress c N
    let d ← Scalar.sub c ch e
    let dr ← Scalar.mul c d r
    let a ← Scalar.add c n dr
    match f with
    | none => return none
    | some f => if bit then return some ⟨f, q, e, s, d, a⟩ else return some ⟨q, f, d, a, e, s⟩

/-- Bit and blinding from two proofs with the same commitments. -/
def bitExtract (c : Cfg) (t u : BitProof) : Res (Bool × Sc) := do
  if Scalar.ctEq t.e0 u.e0 then
    let x ← equalSolve c t.e1 t.s1 u.e1 u.s1
    return (true, x)
  else
    let x ← equalSolve c t.e0 t.s0 u.e0 u.s0
    return (false, x)

/-- The commitments weighted with the powers of two. -/
def total (c : Cfg) : List Bytes32 → Res (Option EdPoint)
  | [] => .ok (some Ristretto.identity)
  | b :: bs => do
    let o ← Ristretto.decompress c b
    let t ← total c bs
    match o, t with
    | some C, some T =>
      let D ← Ristretto.double c T
      let R ← Ristretto.add c C D
      return some R
    | _, _ => return none

/-- The encoding of the sum. -/
def totalBytes (c : Cfg) (bs : List Bytes32) : Res (Option Bytes32) := do
  let o ← total c bs
  match o with
  | none => return none
  | some R =>
    let b ← Ristretto.compress c R
    return some b

/-- The scalars weighted with the powers of two. -/
def weigh (c : Cfg) : List Sc → Res Sc
  | [] => .ok Scalar.zero
  | r :: rs => do
    let t ← weigh c rs
    let d ← Scalar.add c t t
    Scalar.add c r d

/-- Commitments to bits. -/
def commitBits (c : Cfg) (H : EdPoint) : List (Bool × Sc) → Res (List Bytes32)
  | [] => .ok []
  | (bit, r) :: l => do
    let b ← commit c Ed.BASEPOINT H (bitScalar bit) r
    let t ← commitBits c H l
    return b :: t

/-- The lowest `n` bits of a scalar, by `into_bits`. -/
def lowBits (v : Sc) (n : ℕ) : List Bool := (List.range n).map fun j => (Scalar.intoBits v)[j]? == some 1

/-- Bits and blindings of all commitments. -/
def extractBits (c : Cfg) : List (BitProof × BitProof) → Res (List (Bool × Sc))
  | [] => .ok []
  | (t, u) :: l => do
    let x ← bitExtract c t u
    let r ← extractBits c l
    return x :: r

/-- The scalars of a proof are reduced. -/
def BitProof.Fine (t : BitProof) : Prop := t.e0.SCanon ∧ t.s0.SCanon ∧ t.e1.SCanon ∧ t.s1.SCanon

/-! ### What they compute -/

theorem equalSolve_ok (c : Cfg) (hc : c.Enough) (e s e' s' : Sc) (he : e.SCanon) (hs : s.SCanon) (he' : e'.SCanon)
    (hs' : s'.SCanon) (hne : sv e ≠ sv e') : ∃ x, equalSolve c e s e' s' = .ok x ∧ x.SCanon ∧
      ∀ g m k, sv s * g = m + sv e * k → sv s' * g = m + sv e' * k → sv x * g = k := by
  obtain ⟨st, est, -⟩ := C26_sub c s s' hs hs'
  obtain ⟨hst, vst⟩ := sv_sub hs hs' est
  obtain ⟨ef, eef, -⟩ := C26_sub c e e' he he'
  obtain ⟨hef, vef⟩ := sv_sub he he' eef
  have hx : (⟨Scalar.minusOne.l0 - 1, Scalar.minusOne.l1, Scalar.minusOne.l2, Scalar.minusOne.l3,
      Scalar.minusOne.l4⟩ : Sc).SCanon := by decide
  have hxv : (⟨Scalar.minusOne.l0 - 1, Scalar.minusOne.l1, Scalar.minusOne.l2, Scalar.minusOne.l3,
      Scalar.minusOne.l4⟩ : Sc).val = ell - 2 := by decide
  obtain ⟨i, ei, hi, vi⟩ := C29_pow c hc ef _ hef.1 hx
  rw [hxv] at vi
  have h0 : sv ef ≠ 0 := by
    rw [vef, sub_ne_zero]
    exact hne
  have hinv : sv i * sv ef = 1 := by
    unfold sv at h0 ⊢
    rw [vi, ZMod.natCast_mod, Nat.cast_pow, ← pow_succ, show ell - 2 + 1 = ell - 1 by decide]
    exact ZMod.pow_card_sub_one_eq_one h0
  obtain ⟨x, ex, -⟩ := C27_mul c st i hst.1 hi.1
  obtain ⟨hx', vx⟩ := sv_mul hst.1 hi.1 ex
  rw [vef] at hinv
  refine ⟨x, ?_, hx', ?_⟩
  · unfold equalSolve
    rw [est, Res.ok_bind, eef, Res.ok_bind, ei, Res.ok_bind, ex]
  · intro g m k p1 p2
    rw [vx, vst]
    linear_combination sv i * (p1 - p2) + k * hinv

theorem commit_enc (c : Cfg) (hc : c.Enough) {H : EdPoint} {h : ZMod ell} (hH : Lg H h) {a r : Sc} (ha : a.SCanon)
    (hr : r.SCanon) (b : Bytes32) : commit c Ed.BASEPOINT H a r = .ok b ↔ Enc c b (sv a + sv r * h) := by
  obtain ⟨A, eA, hA⟩ := lg_base_mul c hc ha
  obtain ⟨R, eR, hR⟩ := lg_mul c hc hH hr
  obtain ⟨C, eC, hC⟩ := hA.add c hR
  unfold commit
  rw [eA, Res.ok_bind, eR, Res.ok_bind, eC, Res.ok_bind, compress_enc c hc hC]

theorem commit_ok (c : Cfg) (hc : c.Enough) {H : EdPoint} {h : ZMod ell} (hH : Lg H h) {a r : Sc} (ha : a.SCanon)
    (hr : r.SCanon) : ∃ b, commit c Ed.BASEPOINT H a r = .ok b := by
  obtain ⟨A, eA, hA⟩ := lg_base_mul c hc ha
  obtain ⟨R, eR, hR⟩ := lg_mul c hc hH hr
  obtain ⟨C, eC, hC⟩ := hA.add c hR
  obtain ⟨b, _, eb, -⟩ := hC.wire c hc
  unfold commit
  rw [eA, Res.ok_bind, eR, Res.ok_bind, eC, Res.ok_bind]
  exact ⟨b, eb⟩

theorem bitScalar_canon (bit : Bool) : (bitScalar bit).SCanon := by
  cases bit <;> decide

theorem sv_bitScalar (bit : Bool) : sv (bitScalar bit) = if bit then 1 else 0 := by
  cases bit
  · exact sv_zero
  · exact sv_one

theorem lessBase_ok (c : Cfg) (hc : c.Enough) (b : Bytes32) :
    (lessBase c b = .ok none ∧ ∀ k, ¬ Enc c b k) ∨
      ∃ k b', Enc c b k ∧ lessBase c b = .ok (some b') ∧ Enc c b' (k - 1) := by
  unfold lessBase
  rcases enc_or c hc b with ⟨eb, nb⟩ | ⟨P, k, eb, hP⟩
  · rw [eb, Res.ok_bind]
    exact Or.inl ⟨rfl, nb⟩
  · obtain ⟨K, eK, hK⟩ := hP.sub c Lg.base
    obtain ⟨b', Q, eb', eQ, hQ⟩ := hK.wire c hc
    refine Or.inr ⟨k, b', ⟨P, eb, hP⟩, ?_, ⟨Q, eQ, hQ⟩⟩
    rw [eb, Res.ok_bind]
    dsimp only
    rw [eK, Res.ok_bind, eb', Res.ok_bind]
    rfl

/-- The equations behind an accepted proof. -/
def BitEqs (c : Cfg) (h : ZMod ell) (k : ZMod ell) (ch : Sc) (t : BitProof) : Prop :=
  (∃ m, Enc c t.r0 m ∧ sv t.s0 * h = m + sv t.e0 * k) ∧ (∃ m, Enc c t.r1 m ∧ sv t.s1 * h = m + sv t.e1 * (k - 1)) ∧
    sv t.e0 + sv t.e1 = sv ch

theorem bitCheck_ok (c : Cfg) (hc : c.Enough) {H : EdPoint} {h : ZMod ell} (hH : Lg H h) (b : Bytes32) (ch : Sc)
    (t : BitProof) (hch : ch.SCanon) (ht : t.Fine) : ∃ v, bitCheck c H b ch t = .ok v ∧
      (v = true ↔ ∃ k, Enc c b k ∧ BitEqs c h k ch t) := by
  unfold bitCheck
  rcases lessBase_ok c hc b with ⟨e, nb⟩ | ⟨k, b', hk, e, hb'⟩
  · rw [e, Res.ok_bind]
    refine ⟨false, rfl, ⟨fun h => by simp at h, ?_⟩⟩
    rintro ⟨k, h, _⟩
    exact absurd h (nb k)
  · obtain ⟨u, eu, hu⟩ := checkOne_ok c hc hH b t.r0 t.e0 t.s0 ht.1 ht.2.1
    obtain ⟨v, ev, hv⟩ := checkOne_ok c hc hH b' t.r1 t.e1 t.s1 ht.2.2.1 ht.2.2.2
    obtain ⟨s, es, -⟩ := C25_add c t.e0 t.e1 ht.1 ht.2.2.1
    obtain ⟨hs, vs⟩ := sv_add ht.1 ht.2.2.1 es
    rw [e, Res.ok_bind]
    dsimp only
    rw [eu, Res.ok_bind, ev, Res.ok_bind, es, Res.ok_bind]
    refine ⟨u && v && Scalar.ctEq s ch, rfl, ?_⟩
    rw [Bool.and_eq_true, Bool.and_eq_true, hu, hv, sctEq_iff hs hch, vs]
    constructor
    · rintro ⟨⟨⟨k1, m1, a1, a2, a3⟩, ⟨k2, m2, b1, b2, b3⟩⟩, h3⟩
      rw [a1.unique hk] at a3
      rw [b1.unique hb'] at b3
      exact ⟨k, hk, ⟨m1, a2, a3⟩, ⟨m2, b2, b3⟩, h3⟩
    · rintro ⟨k', hk', ⟨m1, a2, a3⟩, ⟨m2, b2, b3⟩, h3⟩
      rw [hk'.unique hk] at a3 b3
      exact ⟨⟨⟨k, m1, hk, a2, a3⟩, ⟨k - 1, m2, hb', b2, b3⟩⟩, h3⟩

/-- What a made proof consists of. -/
theorem bitProve_ok (c : Cfg) (hc : c.Enough) {H : EdPoint} {h : ZMod ell} (hH : Lg H h) (bit : Bool) (b : Bytes32)
    {k : ZMod ell} (hb : Enc c b k) (r n e s ch : Sc) (hr : r.SCanon) (hn : n.SCanon) (he : e.SCanon) (hs : s.SCanon)
    (hch : ch.SCanon) : ∃ f q d a, d.SCanon ∧ a.SCanon ∧ sv d = sv ch - sv e ∧ sv a = sv n + sv d * sv r ∧
      Enc c q (sv n * h) ∧ Enc c f (sv s * h - sv e * (if bit then k else k - 1)) ∧
      bitProve c H bit b r n e s ch = .ok (some (if bit then ⟨f, q, e, s, d, a⟩ else ⟨q, f, d, a, e, s⟩)) := by
  rcases lessBase_ok c hc b with ⟨_, nb⟩ | ⟨k', b', hk, eb, hb'⟩
  · exact absurd hb (nb k)
  obtain rfl := hk.unique hb
  have hkey : Enc c (if bit then b else b') (if bit then k' else k' - 1) := by
    cases bit
    · exact hb'
    · exact hb
  obtain ⟨f, ef, hf⟩ : ∃ f, fitting c H (if bit then b else b') e s = .ok (some f) ∧
      Enc c f (sv s * h - sv e * (if bit then k' else k' - 1)) := by
    obtain ⟨S, eS, hS⟩ := lg_mul c hc hH hs
    obtain ⟨P, eP, hP⟩ := hkey
    obtain ⟨V, eV, hV⟩ := lg_mul c hc hP he
    obtain ⟨R, eR, hR⟩ := hS.sub c hV
    obtain ⟨f, Q, ef, eQ, hQ⟩ := hR.wire c hc
    refine ⟨f, ?_, ⟨Q, eQ, hQ⟩⟩
    rw [fitting_ok c hc hH _ _ e s he hs]
    exact ⟨_, _, ⟨P, eP, hP⟩, ⟨Q, eQ, hQ⟩, by ring⟩
  obtain ⟨N, eN, hN⟩ := lg_mul c hc hH hn
  obtain ⟨q, Q, eq, eQ, hQ⟩ := hN.wire c hc
  obtain ⟨d, ed, -⟩ := C26_sub c ch e hch he
  obtain ⟨hd, vd⟩ := sv_sub hch he ed
  obtain ⟨m, em, -⟩ := C27_mul c d r hd.1 hr.1
  obtain ⟨hm, vm⟩ := sv_mul hd.1 hr.1 em
  obtain ⟨a, ea, -⟩ := C25_add c n m hn hm
  obtain ⟨ha, va⟩ := sv_add hn hm ea
  refine ⟨f, q, d, a, hd, ha, vd, by rw [va, vm], ⟨Q, eQ, hQ⟩, hf, ?_⟩
  unfold bitProve
  rw [eb, Res.ok_bind]
  dsimp only
  rw [ef, Res.ok_bind, eN, Res.ok_bind, eq, Res.ok_bind, ed, Res.ok_bind, em, Res.ok_bind, ea, Res.ok_bind]
  cases bit <;> rfl

/-! ### C130 -/

/-- C130: the honest proof for a bit is accepted. -/
theorem C130_bit_complete (c : Cfg) (hc : c.Enough) {H : EdPoint} (hH : RPoint H) (bit : Bool) (b : Bytes32)
    (r n e s ch : Sc) (hr : r.SCanon) (hn : n.SCanon) (he : e.SCanon) (hs : s.SCanon) (hch : ch.SCanon)
    (hb : commit c Ed.BASEPOINT H (bitScalar bit) r = .ok b) :
    ∃ t, bitProve c H bit b r n e s ch = .ok (some t) ∧ t.Fine ∧ bitCheck c H b ch t = .ok true := by
  obtain ⟨h, hh⟩ := hH.lg
  rw [commit_enc c hc hh (bitScalar_canon bit) hr, sv_bitScalar] at hb
  obtain ⟨f, q, d, a, hd, ha, vd, va, hq, hf, et⟩ := bitProve_ok c hc hh bit b hb r n e s ch hr hn he hs hch
  have hfine : (if bit then (⟨f, q, e, s, d, a⟩ : BitProof) else ⟨q, f, d, a, e, s⟩).Fine := by
    cases bit
    · exact ⟨hd, ha, he, hs⟩
    · exact ⟨he, hs, hd, ha⟩
  obtain ⟨v, ev, hv⟩ := bitCheck_ok c hc hh b ch _ hch hfine
  refine ⟨_, et, hfine, ?_⟩
  rw [ev, Res.ok_inj, hv]
  refine ⟨_, hb, ?_⟩
  cases bit
  · refine ⟨⟨_, hq, ?_⟩, ⟨_, hf, ?_⟩, ?_⟩
    · show sv a * h = _ + sv d * _
      rw [va]; simp only [Bool.false_eq_true, if_false]; ring
    · show sv s * h = _ + sv e * _
      simp only [Bool.false_eq_true, if_false]; ring
    · show sv d + sv e = sv ch
      rw [vd]; ring
  · refine ⟨⟨_, hf, ?_⟩, ⟨_, hq, ?_⟩, ?_⟩
    · show sv s * h = _ + sv e * _
      simp only [if_true]; ring
    · show sv a * h = _ + sv d * _
      rw [va]; simp only [if_true]; ring
    · show sv e + sv d = sv ch
      rw [vd]; ring

/-- C130: two accepted proofs with the same commitments for different challenges open the commitment to a bit. -/
theorem C130_bit_extract (c : Cfg) (hc : c.Enough) {H : EdPoint} (hH : RPoint H) (b : Bytes32) (ch ch' : Sc)
    (t u : BitProof) (hch : ch.SCanon) (hch' : ch'.SCanon) (ht : t.Fine) (hu : u.Fine) (hne : ch ≠ ch')
    (h0 : t.r0 = u.r0) (h1 : t.r1 = u.r1) (g1 : bitCheck c H b ch t = .ok true) (g2 : bitCheck c H b ch' u = .ok true) :
    ∃ bit x, bitExtract c t u = .ok (bit, x) ∧ x.SCanon ∧ commit c Ed.BASEPOINT H (bitScalar bit) x = .ok b := by
  obtain ⟨h, hh⟩ := hH.lg
  obtain ⟨v, ev, hv⟩ := bitCheck_ok c hc hh b ch t hch ht
  obtain ⟨v', ev', hv'⟩ := bitCheck_ok c hc hh b ch' u hch' hu
  rw [g1, Res.ok_inj] at ev
  rw [g2, Res.ok_inj] at ev'
  obtain ⟨k, hk, ⟨m1, a1, a2⟩, ⟨m2, b1, b2⟩, e1⟩ := hv.1 ev.symm
  obtain ⟨k', hk', ⟨m1', a1', a2'⟩, ⟨m2', b1', b2'⟩, e2⟩ := hv'.1 ev'.symm
  rw [← h0] at a1'
  rw [← h1] at b1'
  rw [hk'.unique hk, a1'.unique a1] at a2'
  rw [hk'.unique hk, b1'.unique b1] at b2'
  unfold bitExtract
  by_cases he : sv t.e0 = sv u.e0
  · have he1 : sv t.e1 ≠ sv u.e1 := by
      intro h
      apply hne
      rw [← sv_inj hch hch', ← e1, ← e2, he, h]
    obtain ⟨x, ex, hx, hxk⟩ := equalSolve_ok c hc t.e1 t.s1 u.e1 u.s1 ht.2.2.1 ht.2.2.2 hu.2.2.1 hu.2.2.2 he1
    refine ⟨true, x, ?_, hx, ?_⟩
    · rw [if_pos ((sctEq_iff ht.1 hu.1).2 he), ex, Res.ok_bind]
      rfl
    · rw [commit_enc c hc hh (bitScalar_canon _) hx, hxk h m2 (k - 1) b2 b2', sv_bitScalar, if_pos rfl,
        add_sub_cancel]
      exact hk
  · obtain ⟨x, ex, hx, hxk⟩ := equalSolve_ok c hc t.e0 t.s0 u.e0 u.s0 ht.1 ht.2.1 hu.1 hu.2.1 he
    refine ⟨false, x, ?_, hx, ?_⟩
    · rw [if_neg (fun h => he ((sctEq_iff ht.1 hu.1).1 h)), ex, Res.ok_bind]
      rfl
    · rw [commit_enc c hc hh (bitScalar_canon _) hx, hxk h m1 k a2 a2', sv_bitScalar, if_neg (by simp), zero_add]
      exact hk

theorem Enc.bytes {c : Cfg} (hc : c.Enough) {b b' : Bytes32} {k : ZMod ell} (h : Enc c b k) (h' : Enc c b' k) :
    b = b' := by
  obtain ⟨P, e, hP⟩ := h
  have h2 := (compress_enc c hc hP b').2 h'
  rw [(compress_enc c hc hP b).2 ⟨P, e, hP⟩, Res.ok_inj] at h2
  exact h2

/-- C130: an accepted proof does not tell which bit. If the second generator is not the identity, then for either bit
there is exactly one opening of the commitment to it together with one choice of the random scalars that makes this
proof. -/
theorem C130_bit_hiding (c : Cfg) (hc : c.Enough) {H : EdPoint} (hH : RPoint H) (hne : ¬ REq c H Ristretto.identity)
    (b : Bytes32) (ch : Sc) (t : BitProof) (hch : ch.SCanon) (ht : t.Fine) (g : bitCheck c H b ch t = .ok true)
    (bit : Bool) : ∃! w : Sc × Sc × Sc × Sc, (w.1.SCanon ∧ w.2.1.SCanon ∧ w.2.2.1.SCanon ∧ w.2.2.2.SCanon) ∧
      commit c Ed.BASEPOINT H (bitScalar bit) w.1 = .ok b ∧
      bitProve c H bit b w.1 w.2.1 w.2.2.1 w.2.2.2 ch = .ok (some t) := by
  obtain ⟨h, hh⟩ := hH.lg
  have h0 : h ≠ 0 := fun e => hne ((hh.req c Lg.identity).2 e)
  obtain ⟨v, ev, hv⟩ := bitCheck_ok c hc hh b ch t hch ht
  rw [g, Res.ok_inj] at ev
  obtain ⟨k, hk, ⟨m1, a1, a2⟩, ⟨m2, b1, b2⟩, e1⟩ := hv.1 ev.symm
  obtain ⟨r, hr, vr⟩ := sv_surj ((k - (if bit then 1 else 0)) / h)
  obtain ⟨n, hn, vn⟩ := sv_surj ((if bit then m2 else m1) / h)
  rw [eq_div_iff h0] at vr vn
  have hcom : commit c Ed.BASEPOINT H (bitScalar bit) r = .ok b := by
    rw [commit_enc c hc hh (bitScalar_canon bit) hr, sv_bitScalar, vr, add_sub_cancel]
    exact hk
  have hrest : ∀ r' n' e' s' : Sc, r'.SCanon → n'.SCanon → e'.SCanon → s'.SCanon →
      commit c Ed.BASEPOINT H (bitScalar bit) r' = .ok b → bitProve c H bit b r' n' e' s' ch = .ok (some t) →
      r' = r ∧ n' = n ∧ e' = (if bit then t.e0 else t.e1) ∧ s' = (if bit then t.s0 else t.s1) := by
    intro r' n' e' s' hr' hn' he' hs' hc' hp
    rw [commit_enc c hc hh (bitScalar_canon bit) hr', sv_bitScalar] at hc'
    have q1 : r' = r := by
      rw [← sv_inj hr' hr]
      apply mul_right_cancel₀ h0
      rw [vr, hk.unique hc', add_sub_cancel_left]
    obtain ⟨f, q, d, a, hd, ha, vd, va, hq, hf, et⟩ := bitProve_ok c hc hh bit b hk r' n' e' s' ch hr' hn' he' hs' hch
    rw [hp, Res.ok_inj, Option.some.injEq] at et
    cases bit
    · rw [if_neg (by simp)] at et vn ⊢
      rw [if_neg (by simp)]
      subst et
      refine ⟨q1, ?_, rfl, rfl⟩
      rw [← sv_inj hn' hn]
      apply mul_right_cancel₀ h0
      rw [vn]
      exact hq.unique a1
    · rw [if_pos rfl] at et vn ⊢
      rw [if_pos rfl]
      subst et
      refine ⟨q1, ?_, rfl, rfl⟩
      rw [← sv_inj hn' hn]
      apply mul_right_cancel₀ h0
      rw [vn]
      exact hq.unique b1
  have he : (if bit then t.e0 else t.e1).SCanon := by
    cases bit
    · exact ht.2.2.1
    · exact ht.1
  have hs : (if bit then t.s0 else t.s1).SCanon := by
    cases bit
    · exact ht.2.2.2
    · exact ht.2.1
  refine ⟨(r, n, if bit then t.e0 else t.e1, if bit then t.s0 else t.s1), ⟨⟨hr, hn, he, hs⟩, hcom, ?_⟩, ?_⟩
  · obtain ⟨f, q, d, a, hd, ha, vd, va, hq, hf, et⟩ := bitProve_ok c hc hh bit b hk r n _ _ ch hr hn he hs hch
    show bitProve c H bit b r n _ _ ch = .ok (some t)
    rw [et, Res.ok_inj, Option.some.injEq]
    obtain ⟨r0, r1, e0, s0, e1', s1⟩ := t
    dsimp only at *
    cases bit
    · simp only [Bool.false_eq_true, if_false] at *
      have q1 : d = e0 := by rw [← sv_inj hd ht.1, vd, ← e1]; ring
      have q2 : a = s0 := by
        rw [← sv_inj ha ht.2.1]
        apply mul_right_cancel₀ h0
        rw [va, a2, q1]
        linear_combination vn + sv e0 * vr
      rw [vn] at hq
      have q3 : f = r1 := by
        refine Enc.bytes hc hf ?_
        rw [b2, add_sub_cancel_right]
        exact b1
      rw [q1, q2, q3, hq.bytes hc a1]
    · simp only [if_true] at *
      have q1 : d = e1' := by rw [← sv_inj hd ht.2.2.1, vd, ← e1]; ring
      have q2 : a = s1 := by
        rw [← sv_inj ha ht.2.2.2]
        apply mul_right_cancel₀ h0
        rw [va, b2, q1]
        linear_combination vn + sv e1' * vr
      rw [vn] at hq
      have q3 : f = r0 := by
        refine Enc.bytes hc hf ?_
        rw [a2, add_sub_cancel_right]
        exact a1
      rw [q1, q2, q3, hq.bytes hc b1]
  · rintro ⟨r', n', e', s'⟩ ⟨⟨c1, c2, c3, c4⟩, c5, c6⟩
    obtain ⟨q1, q2, q3, q4⟩ := hrest r' n' e' s' c1 c2 c3 c4 c5 c6
    rw [q1, q2, q3, q4]

/-! ### C130: the sum of the commitments -/

/-- The sum weighted with the powers of two. -/
def wsum : List (ZMod ell) → ZMod ell
  | [] => 0
  | k :: ks => k + 2 * wsum ks

/-- The number with these bits, lowest first. -/
def bval : List Bool → ℕ
  | [] => 0
  | b :: l => (if b then 1 else 0) + 2 * bval l

theorem bval_lt (l : List Bool) : bval l < 2 ^ l.length := by
  induction l with
  | nil => simp [bval]
  | cons b l ih =>
    rw [bval, List.length_cons, pow_succ]
    split <;> omega

theorem bval_cast (l : List Bool) : (bval l : ZMod ell) = wsum (l.map fun b => sv (bitScalar b)) := by
  induction l with
  | nil => simp [bval, wsum]
  | cons b l ih =>
    rw [bval, List.map_cons, wsum, ← ih, sv_bitScalar]
    cases b <;> simp

theorem total_ok (c : Cfg) {bs : List Bytes32} {ks : List (ZMod ell)} (h : List.Forall₂ (Enc c) bs ks) :
    ∃ R, total c bs = .ok (some R) ∧ Lg R (wsum ks) := by
  induction h with
  | nil => exact ⟨_, rfl, Lg.identity⟩
  | @cons b k bs ks h1 _ ih =>
    obtain ⟨T, eT, hT⟩ := ih
    obtain ⟨C, eC, hC⟩ := h1
    obtain ⟨D, eD, hD⟩ := hT.double c
    obtain ⟨R, eR, hR⟩ := hC.add c hD
    refine ⟨R, ?_, hR⟩
    unfold total
    rw [eC, Res.ok_bind, eT, Res.ok_bind]
    dsimp only
    rw [eD, Res.ok_bind, eR, Res.ok_bind]
    rfl

theorem weigh_ok (c : Cfg) : ∀ rs : List Sc, (∀ r ∈ rs, r.SCanon) →
    ∃ s, weigh c rs = .ok s ∧ s.SCanon ∧ sv s = wsum (rs.map sv)
  | [], _ => ⟨_, rfl, zero_canon, sv_zero⟩
  | r :: rs, h => by
    obtain ⟨t, et, ht, vt⟩ := weigh_ok c rs fun x hx => h x (List.mem_cons_of_mem _ hx)
    have hr := h r List.mem_cons_self
    obtain ⟨d, ed, -⟩ := C25_add c t t ht ht
    obtain ⟨hd, vd⟩ := sv_add ht ht ed
    obtain ⟨s, es, -⟩ := C25_add c r d hr hd
    obtain ⟨hs, vs⟩ := sv_add hr hd es
    refine ⟨s, ?_, hs, ?_⟩
    · unfold weigh
      rw [et, Res.ok_bind, ed, Res.ok_bind, es]
    · rw [vs, vd, vt, List.map_cons, wsum, two_mul]

/-- C130: commitments to bits, weighted with the powers of two, add up to a commitment to the number with these bits,
which is below `2 ^ n`. -/
theorem C130_sum (c : Cfg) (hc : c.Enough) {H : EdPoint} (hH : RPoint H) (l : List (Bool × Sc)) (bs : List Bytes32)
    (hl : ∀ q ∈ l, q.2.SCanon) (hlen : l.length ≤ 249)
    (h : List.Forall₂ (fun q b => commit c Ed.BASEPOINT H (bitScalar q.1) q.2 = .ok b) l bs) :
    ∃ v r b, weigh c (l.map fun q => bitScalar q.1) = .ok v ∧ weigh c (l.map Prod.snd) = .ok r ∧ v.SCanon ∧ r.SCanon ∧
      v.val = bval (l.map Prod.fst) ∧ v.val < 2 ^ l.length ∧ totalBytes c bs = .ok (some b) ∧
      commit c Ed.BASEPOINT H v r = .ok b := by
  obtain ⟨g, hg⟩ := hH.lg
  obtain ⟨v, ev, hv, vv⟩ := weigh_ok c (l.map fun q => bitScalar q.1) (by
    intro x hx
    obtain ⟨q, _, rfl⟩ := List.mem_map.1 hx
    exact bitScalar_canon _)
  obtain ⟨r, er, hr, vr⟩ := weigh_ok c (l.map Prod.snd) (by
    intro x hx
    obtain ⟨q, hq, rfl⟩ := List.mem_map.1 hx
    exact hl q hq)
  have hval : v.val = bval (l.map Prod.fst) := by
    have hlt := bval_lt (l.map Prod.fst)
    rw [List.length_map] at hlt
    have hle : (2 : ℕ) ^ l.length ≤ 2 ^ 249 := Nat.pow_le_pow_right (by norm_num) hlen
    have h249 : (2 : ℕ) ^ 249 < ell := by decide
    have e : ((v.val : ℕ) : ZMod ell) = (bval (l.map Prod.fst) : ℕ) := by
      rw [bval_cast, List.map_map]
      rw [List.map_map] at vv
      exact vv
    have := (ZMod.natCast_eq_natCast_iff' _ _ _).1 e
    rwa [Nat.mod_eq_of_lt hv.2, Nat.mod_eq_of_lt (hlt.trans_le (hle.trans h249.le))] at this
  have hks : List.Forall₂ (Enc c) bs (l.map fun q => sv (bitScalar q.1) + sv q.2 * g) := by
    clear ev vv er vr hval hlen
    induction h with
    | nil => exact .nil
    | @cons q b l bs h1 _ ih =>
      rw [List.map_cons]
      exact .cons ((commit_enc c hc hg (bitScalar_canon _) (hl q List.mem_cons_self) b).1 h1)
        (ih fun x hx => hl x (List.mem_cons_of_mem _ hx))
  obtain ⟨R, eR, hR⟩ := total_ok c hks
  have hsum : wsum (l.map fun q => sv (bitScalar q.1) + sv q.2 * g) = sv v + sv r * g := by
    rw [vv, vr, List.map_map, List.map_map]
    clear ev vv er vr hval hlen h hks hR hl
    induction l with
    | nil => simp [wsum]
    | cons q l ih =>
      simp only [List.map_cons, wsum, Function.comp]
      rw [ih]
      simp only [Function.comp_def]
      ring
  rw [hsum] at hR
  obtain ⟨b, Q, eb, eQ, hQ⟩ := hR.wire c hc
  refine ⟨v, r, b, ev, er, hv, hr, hval, ?_, ?_, ?_⟩
  · rw [hval]
    have := bval_lt (l.map Prod.fst)
    rwa [List.length_map] at this
  · unfold totalBytes
    rw [eR, Res.ok_bind]
    dsimp only
    rw [eb, Res.ok_bind]
    rfl
  · rw [commit_enc c hc hg hv hr]
    exact ⟨Q, eQ, hQ⟩

/-- C130: accepted proofs for all of `n` commitments, for two challenges, open their weighted sum to a value below
`2 ^ n`. -/
theorem C130_range_extract (c : Cfg) (hc : c.Enough) {H : EdPoint} (hH : RPoint H) (bs : List Bytes32) (ch ch' : Sc)
    (hch : ch.SCanon) (hch' : ch'.SCanon) (hne : ch ≠ ch') (l : List (BitProof × BitProof)) (hlen : bs.length ≤ 249)
    (h : List.Forall₂ (fun b q => q.1.Fine ∧ q.2.Fine ∧ q.1.r0 = q.2.r0 ∧ q.1.r1 = q.2.r1 ∧
      bitCheck c H b ch q.1 = .ok true ∧ bitCheck c H b ch' q.2 = .ok true) bs l) :
    ∃ xs v r b, extractBits c l = .ok xs ∧ weigh c (xs.map fun q => bitScalar q.1) = .ok v ∧
      weigh c (xs.map Prod.snd) = .ok r ∧ v.SCanon ∧ r.SCanon ∧ v.val < 2 ^ bs.length ∧ totalBytes c bs = .ok (some b) ∧
      commit c Ed.BASEPOINT H v r = .ok b := by
  have hx : ∃ xs, extractBits c l = .ok xs ∧ (∀ q ∈ xs, q.2.SCanon) ∧
      List.Forall₂ (fun q b => commit c Ed.BASEPOINT H (bitScalar q.1) q.2 = .ok b) xs bs := by
    clear hlen
    induction h with
    | nil => exact ⟨[], rfl, by simp, .nil⟩
    | @cons b q bs l h1 _ ih =>
      obtain ⟨xs, ex, hxs, fx⟩ := ih
      obtain ⟨t, u⟩ := q
      obtain ⟨c1, c2, c3, c4, c5, c6⟩ := h1
      obtain ⟨bit, x, e, hx, hb⟩ := C130_bit_extract c hc hH b ch ch' t u hch hch' c1 c2 hne c3 c4 c5 c6
      refine ⟨(bit, x) :: xs, ?_, List.forall_mem_cons.2 ⟨hx, hxs⟩, .cons hb fx⟩
      unfold extractBits
      rw [e, Res.ok_bind, ex, Res.ok_bind]
      rfl
  obtain ⟨xs, ex, hxs, fx⟩ := hx
  have hl := fx.length_eq
  obtain ⟨v, r, b, ev, er, hv, hr, -, hlt, et, eb⟩ := C130_sum c hc hH xs bs hxs (by omega) fx
  exact ⟨xs, v, r, b, ex, ev, er, hv, hr, by rw [← hl]; exact hlt, et, eb⟩

theorem lowBits_val (v : Sc) (hv : v.SCanon) (n : ℕ) (hn : n ≤ 256) : bval (lowBits v n) = v.val % 2 ^ n := by
  have hbit : ∀ j, j < 256 → ((Scalar.intoBits v)[j]? == some 1) = decide (v.val / 2 ^ j % 2 = 1) := by
    intro j hj
    have e := (Scalar.intoBits_spec v hv.1 (Scalar.scanon_lt256 hv)).1 j hj
    rw [Vector.getElem?_eq_getElem hj]
    rcases Nat.mod_two_eq_zero_or_one (v.val / 2 ^ j) with h | h
    · have : (Scalar.intoBits v)[j] = 0 := UInt8.toNat_inj.1 (by rw [e, h]; rfl)
      rw [this, h]; decide
    · have : (Scalar.intoBits v)[j] = 1 := UInt8.toNat_inj.1 (by rw [e, h]; rfl)
      rw [this, h]; decide
  have app : ∀ (l : List Bool) (b : Bool), bval (l ++ [b]) = bval l + (if b then 1 else 0) * 2 ^ l.length := by
    intro l b
    induction l with
    | nil => simp [bval]
    | cons x l ih =>
      rw [List.cons_append, bval, bval, ih, List.length_cons, pow_succ]
      ring
  induction n with
  | zero => simp [lowBits, bval, Nat.mod_one]
  | succ n ih =>
    have e : lowBits v (n + 1) = lowBits v n ++ [(Scalar.intoBits v)[n]? == some 1] := by
      unfold lowBits
      rw [List.range_succ, List.map_append]
      rfl
    rw [e, app, ih (by omega), hbit n (by omega), show (lowBits v n).length = n by simp [lowBits], Nat.mod_pow_succ]
    rcases Nat.mod_two_eq_zero_or_one (v.val / 2 ^ n) with h | h
    · rw [h]; simp
    · rw [h]; simp

/-- C130: every value below `2 ^ n` has such commitments: those to its bits by `into_bits` with any blindings add up to a
commitment to the value. -/
theorem C130_range_complete (c : Cfg) (hc : c.Enough) {H : EdPoint} (hH : RPoint H) (v : Sc) (rs : List Sc)
    (hv : v.SCanon) (hrs : ∀ r ∈ rs, r.SCanon) (hn : rs.length ≤ 249) (hlt : v.val < 2 ^ rs.length) :
    ∃ bs r b, commitBits c H ((lowBits v rs.length).zip rs) = .ok bs ∧ bs.length = rs.length ∧
      weigh c rs = .ok r ∧ totalBytes c bs = .ok (some b) ∧ commit c Ed.BASEPOINT H v r = .ok b ∧
      List.Forall₂ (fun q b => commit c Ed.BASEPOINT H (bitScalar q.1) q.2 = .ok b) ((lowBits v rs.length).zip rs)
        bs := by
  obtain ⟨g, hg⟩ := hH.lg
  have hx : ∀ l : List (Bool × Sc), (∀ q ∈ l, q.2.SCanon) → ∃ bs, commitBits c H l = .ok bs ∧
      List.Forall₂ (fun q b => commit c Ed.BASEPOINT H (bitScalar q.1) q.2 = .ok b) l bs := by
    intro l hl
    induction l with
    | nil => exact ⟨[], rfl, .nil⟩
    | cons q l ih =>
      obtain ⟨bs, e, f⟩ := ih fun x hx => hl x (List.mem_cons_of_mem _ hx)
      obtain ⟨b, eb⟩ := commit_ok c hc hg (bitScalar_canon q.1) (hl q List.mem_cons_self)
      obtain ⟨bit, r⟩ := q
      refine ⟨b :: bs, ?_, .cons eb f⟩
      unfold commitBits
      rw [eb, Res.ok_bind, e, Res.ok_bind]
      rfl
  have hll : (lowBits v rs.length).length = rs.length := by simp [lowBits]
  have hz : ∀ q ∈ (lowBits v rs.length).zip rs, q.2.SCanon := fun q hq => hrs _ (List.of_mem_zip hq).2
  obtain ⟨bs, e, f⟩ := hx _ hz
  have hlz : ((lowBits v rs.length).zip rs).length = rs.length := by rw [List.length_zip, hll, Nat.min_self]
  obtain ⟨v', r, b, ev, er, hv', hr, hval, -, et, eb⟩ := C130_sum c hc hH _ bs hz (by omega) f
  rw [List.map_fst_zip (by omega), lowBits_val v hv _ (by omega), Nat.mod_eq_of_lt hlt] at hval
  rw [List.map_snd_zip (by omega)] at er
  refine ⟨bs, r, b, e, by rw [← f.length_eq, hlz], er, et, ?_, f⟩
  rw [← hv'.1.ext hv.1 hval]
  exact eb

example : RPoint Ed.BASEPOINT ∧ ¬ REq dbg Ed.BASEPOINT Ristretto.identity ∧ Scalar.minusOne.SCanon ∧
    Scalar.one ≠ Scalar.minusOne ∧ Scalar.one.val < 2 ^ [Scalar.minusOne, Scalar.one].length :=
  ⟨Lg.base.point, fun h => one_ne_zero ((Lg.base.req dbg Lg.identity).1 h), by decide, by decide, by decide⟩

end Props
end Zerocaf
