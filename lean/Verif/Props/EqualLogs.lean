import Verif.Props.Sharing

/-!
# Property C129: proofs of equal logarithms, and checking many proofs at once

The steps are the standard ones (Chaum and Pedersen; random linear combinations), written here with the modelled
operations. They are not in the code.
-/

set_option exponentiation.threshold 600

namespace Zerocaf
namespace Props

open Ristretto

/-! ### The steps -/

/-- The proof that `x G` and `x H` have the same logarithm, with nonce `k` and challenge `e`. -/
def equalProve (c : Cfg) (G H : EdPoint) (x k e : Sc) : Res (Bytes32 × Bytes32 × Sc) := do
  let R ← Ristretto.mul c G k
  let r ← Ristretto.compress c R
  let S ← Ristretto.mul c H k
  let q ← Ristretto.compress c S
  let ex ← Scalar.mul c e x
  let s ← Scalar.add c k ex
  return (r, q, s)

/-- One equation: `s G = R + e P` for the encodings `b` of `P` and `r` of `R`. -/
def checkOne (c : Cfg) (G : EdPoint) (b r : Bytes32) (e s : Sc) : Res Bool := do
  let o ← Ristretto.decompress c b
  let o' ← Ristretto.decompress c r
  match o, o' with
  | some P, some R =>
    let S ← Ristretto.mul c G s
    let V ← Ristretto.mul c P e
    let W ← Ristretto.add c R V
    Ristretto.ctEq c S W
  | _, _ => return false

/-- The check of both equations. -/
def equalCheck (c : Cfg) (G H : EdPoint) (a b r q : Bytes32) (e s : Sc) : Res Bool := do
  let u ← checkOne c G a r e s
  let v ← checkOne c H b q e s
  return u && v

/-- The logarithm from two answers. -/
def equalSolve (c : Cfg) (e s e' s' : Sc) : Res Sc := do
  let st ← Scalar.sub c s s'
  let ef ← Scalar.sub c e e'
  let i ← Scalar.pow c ef ⟨Scalar.minusOne.l0 - 1, Scalar.minusOne.l1, Scalar.minusOne.l2, Scalar.minusOne.l3,
    Scalar.minusOne.l4⟩
  Scalar.mul c st i

/-- The commitment that fits an answer. -/
def fitting (c : Cfg) (G : EdPoint) (b : Bytes32) (e s : Sc) : Res (Option Bytes32) := do
  let o ← Ristretto.decompress c b
  match o with
  | none => return none
  | some P =>
    let S ← Ristretto.mul c G s
    let V ← Ristretto.mul c P e
    let R ← Ristretto.sub c S V
    let r ← Ristretto.compress c R
    return some r

/-- A Schnorr proof in a batch: key, commitment, challenge, answer, weight. -/
structure Item where
  key : Bytes32
  com : Bytes32
  ch : Sc
  ans : Sc
  wt : Sc

/-- Both sides of the weighted sum of the equations. -/
def batchSums (c : Cfg) : List Item → Res (Option (Sc × EdPoint))
  | [] => .ok (some (Scalar.zero, Ristretto.identity))
  | t :: ts => do
    let o ← Ristretto.decompress c t.key
    let o' ← Ristretto.decompress c t.com
    let q ← batchSums c ts
    match o, o', q with
    | some P, some R, some (u, U) =>
      let zs ← Scalar.mul c t.wt t.ans
      let u ← Scalar.add c zs u
      let V ← Ristretto.mul c P t.ch
      let W ← Ristretto.add c R V
      let Z ← Ristretto.mul c W t.wt
      let U ← Ristretto.add c Z U
      return some (u, U)
    | _, _, _ => return none

/-- The check of the weighted sum. -/
def batchCheck (c : Cfg) (ts : List Item) : Res Bool := do
  let q ← batchSums c ts
  match q with
  | none => return false
  | some (u, U) =>
    let S ← Ristretto.mul c Ed.BASEPOINT u
    Ristretto.ctEq c S U

/-- The scalars of an item are reduced. -/
def Item.Fine (t : Item) : Prop := t.ch.SCanon ∧ t.ans.SCanon ∧ t.wt.SCanon

/-! ### What they compute -/

theorem ctEq_lg (c : Cfg) {S W : EdPoint} {a b : ZMod ell} (hS : Lg S a) (hW : Lg W b) :
    ∃ v, Ristretto.ctEq c S W = .ok v ∧ (v = true ↔ a = b) := by
  obtain ⟨A, hA, _⟩ := id hS
  obtain ⟨B, hB, _⟩ := id hW
  obtain ⟨v, ev, _⟩ := C58_eq_iff c hA hB
  refine ⟨v, ev, ?_⟩
  have h := hS.req c hW
  unfold REq at h
  rwa [ev, Res.ok_inj] at h

theorem lg_mul (c : Cfg) (hc : c.Enough) {G : EdPoint} {g : ZMod ell} (hG : Lg G g) {s : Sc} (hs : s.SCanon) :
    ∃ S, Ristretto.mul c G s = .ok S ∧ Lg S (sv s * g) :=
  hG.mul c hc s hs.1 (Scalar.scanon_lt256 hs)

/-- The bytes are the encoding of the group element with logarithm `k`. -/
def Enc (c : Cfg) (b : Bytes32) (k : ZMod ell) : Prop := ∃ P, Ristretto.decompress c b = .ok (some P) ∧ Lg P k

theorem Enc.unique {c : Cfg} {b : Bytes32} {k k' : ZMod ell} (h : Enc c b k) (h' : Enc c b k') : k = k' := by
  obtain ⟨P, e, hP⟩ := h
  obtain ⟨P', e', hP'⟩ := h'
  rw [e, Res.ok_inj, Option.some.injEq] at e'
  subst e'
  exact hP.unique hP'

theorem enc_or (c : Cfg) (hc : c.Enough) (b : Bytes32) :
    (Ristretto.decompress c b = .ok none ∧ ∀ k, ¬ Enc c b k) ∨
      ∃ P k, Ristretto.decompress c b = .ok (some P) ∧ Lg P k := by
  obtain ⟨o, eo⟩ := C62_total c hc b
  cases o with
  | none =>
    refine Or.inl ⟨eo, ?_⟩
    rintro k ⟨P, e, _⟩
    rw [eo, Res.ok_inj] at e
    exact absurd e (by simp)
  | some P =>
    obtain ⟨k, hk⟩ := Lg.decoded c hc eo
    exact Or.inr ⟨P, k, eo, hk⟩

theorem compress_enc (c : Cfg) (hc : c.Enough) {P : EdPoint} {k : ZMod ell} (h : Lg P k) (b : Bytes32) :
    Ristretto.compress c P = .ok b ↔ Enc c b k := by
  constructor
  · intro e
    obtain ⟨b', Q, e', eQ, hQ⟩ := h.wire c hc
    rw [e, Res.ok_inj] at e'
    subst e'
    exact ⟨Q, eQ, hQ⟩
  · rintro ⟨Q, eQ, hQ⟩
    rw [← C59_decode_encode c hc b Q eQ]
    exact (h.enc_eq c hc hQ).2 rfl

theorem mul_enc (c : Cfg) (hc : c.Enough) {G : EdPoint} {g : ZMod ell} (hG : Lg G g) {x : Sc} (hx : x.SCanon)
    (b : Bytes32) : (Ristretto.mul c G x >>= Ristretto.compress c) = .ok b ↔ Enc c b (sv x * g) := by
  obtain ⟨X, eX, hX⟩ := lg_mul c hc hG hx
  rw [eX, Res.ok_bind, compress_enc c hc hX]

theorem checkOne_ok (c : Cfg) (hc : c.Enough) {G : EdPoint} {g : ZMod ell} (hG : Lg G g) (b r : Bytes32) (e s : Sc)
    (he : e.SCanon) (hs : s.SCanon) : ∃ v, checkOne c G b r e s = .ok v ∧
      (v = true ↔ ∃ k m, Enc c b k ∧ Enc c r m ∧ sv s * g = m + sv e * k) := by
  unfold checkOne
  rcases enc_or c hc b with ⟨eb, nb⟩ | ⟨P, k, eb, hP⟩
  · obtain ⟨o', eo'⟩ := C62_total c hc r
    rw [eb, Res.ok_bind, eo', Res.ok_bind]
    refine ⟨false, rfl, ⟨fun h => by simp at h, ?_⟩⟩
    rintro ⟨k, _, h, _⟩
    exact absurd h (nb k)
  rcases enc_or c hc r with ⟨er, nr⟩ | ⟨R, m, er, hR⟩
  · rw [eb, Res.ok_bind, er, Res.ok_bind]
    refine ⟨false, rfl, ⟨fun h => by simp at h, ?_⟩⟩
    rintro ⟨_, m, _, h, _⟩
    exact absurd h (nr m)
  obtain ⟨S, eS, hS⟩ := lg_mul c hc hG hs
  obtain ⟨V, eV, hV⟩ := lg_mul c hc hP he
  obtain ⟨W, eW, hW⟩ := hR.add c hV
  obtain ⟨v, ev, hv⟩ := ctEq_lg c hS hW
  refine ⟨v, ?_, ?_⟩
  · rw [eb, Res.ok_bind, er, Res.ok_bind]
    dsimp only
    rw [eS, Res.ok_bind, eV, Res.ok_bind, eW, Res.ok_bind, ev]
  · rw [hv]
    constructor
    · intro h
      exact ⟨k, m, ⟨P, eb, hP⟩, ⟨R, er, hR⟩, h⟩
    · rintro ⟨k', m', h1, h2, h3⟩
      rw [Enc.unique ⟨P, eb, hP⟩ h1, Enc.unique ⟨R, er, hR⟩ h2]
      exact h3

theorem equalCheck_ok (c : Cfg) (hc : c.Enough) {G H : EdPoint} {g h : ZMod ell} (hG : Lg G g) (hH : Lg H h)
    (a b r q : Bytes32) (e s : Sc) (he : e.SCanon) (hs : s.SCanon) : ∃ v, equalCheck c G H a b r q e s = .ok v ∧
      (v = true ↔ (∃ k m, Enc c a k ∧ Enc c r m ∧ sv s * g = m + sv e * k) ∧
        ∃ k m, Enc c b k ∧ Enc c q m ∧ sv s * h = m + sv e * k) := by
  obtain ⟨u, eu, hu⟩ := checkOne_ok c hc hG a r e s he hs
  obtain ⟨v, ev, hv⟩ := checkOne_ok c hc hH b q e s he hs
  unfold equalCheck
  rw [eu, Res.ok_bind, ev, Res.ok_bind]
  exact ⟨u && v, rfl, by rw [Bool.and_eq_true, hu, hv]⟩

/-! ### C129: equal logarithms -/

/-- C129: an honest proof is accepted. -/
theorem C129_complete (c : Cfg) (hc : c.Enough) {G H : EdPoint} (hG : RPoint G) (hH : RPoint H) (x k e : Sc)
    (hx : x.SCanon) (hk : k.SCanon) (he : e.SCanon) (a b : Bytes32)
    (ha : (Ristretto.mul c G x >>= Ristretto.compress c) = .ok a)
    (hb : (Ristretto.mul c H x >>= Ristretto.compress c) = .ok b) :
    ∃ r q s, equalProve c G H x k e = .ok (r, q, s) ∧ s.SCanon ∧ equalCheck c G H a b r q e s = .ok true := by
  obtain ⟨g, hg⟩ := hG.lg
  obtain ⟨h, hh⟩ := hH.lg
  rw [mul_enc c hc hg hx] at ha
  rw [mul_enc c hc hh hx] at hb
  obtain ⟨R, eR, hR⟩ := lg_mul c hc hg hk
  obtain ⟨r, R', er, eR', hR'⟩ := hR.wire c hc
  obtain ⟨S, eS, hS⟩ := lg_mul c hc hh hk
  obtain ⟨q, S', eq, eS', hS'⟩ := hS.wire c hc
  obtain ⟨m, em, -⟩ := C27_mul c e x he.1 hx.1
  obtain ⟨hm, vm⟩ := sv_mul he.1 hx.1 em
  obtain ⟨s, es, -⟩ := C25_add c k m hk hm
  obtain ⟨hs, vs⟩ := sv_add hk hm es
  obtain ⟨v, ev, hv⟩ := equalCheck_ok c hc hg hh a b r q e s he hs
  refine ⟨r, q, s, ?_, hs, ?_⟩
  · unfold equalProve
    rw [eR, Res.ok_bind, er, Res.ok_bind, eS, Res.ok_bind, eq, Res.ok_bind, em, Res.ok_bind, es, Res.ok_bind]
    rfl
  · rw [ev, Res.ok_inj, hv]
    exact ⟨⟨_, _, ha, ⟨R', eR', hR'⟩, by rw [vs, vm]; ring⟩, ⟨_, _, hb, ⟨S', eS', hS'⟩, by rw [vs, vm]; ring⟩⟩

/-- C129: two accepted answers to different challenges give the common logarithm. -/
theorem C129_extract (c : Cfg) (hc : c.Enough) {G H : EdPoint} (hG : RPoint G) (hH : RPoint H) (a b r q : Bytes32)
    (e s e' s' : Sc) (he : e.SCanon) (hs : s.SCanon) (he' : e'.SCanon) (hs' : s'.SCanon) (hne : e ≠ e')
    (h1 : equalCheck c G H a b r q e s = .ok true) (h2 : equalCheck c G H a b r q e' s' = .ok true) :
    ∃ x, equalSolve c e s e' s' = .ok x ∧ x.SCanon ∧ (Ristretto.mul c G x >>= Ristretto.compress c) = .ok a ∧
      (Ristretto.mul c H x >>= Ristretto.compress c) = .ok b := by
  obtain ⟨g, hg⟩ := hG.lg
  obtain ⟨h, hh⟩ := hH.lg
  obtain ⟨v, ev, hv⟩ := equalCheck_ok c hc hg hh a b r q e s he hs
  obtain ⟨v', ev', hv'⟩ := equalCheck_ok c hc hg hh a b r q e' s' he' hs'
  rw [h1, Res.ok_inj] at ev
  rw [h2, Res.ok_inj] at ev'
  obtain ⟨⟨k, m, ka, mr, p1⟩, ⟨k2, m2, kb, mq, p2⟩⟩ := hv.1 ev.symm
  obtain ⟨⟨k', m', ka', mr', p3⟩, ⟨k2', m2', kb', mq', p4⟩⟩ := hv'.1 ev'.symm
  rw [ka'.unique ka, mr'.unique mr] at p3
  rw [kb'.unique kb, mq'.unique mq] at p4
  obtain ⟨st, est, -⟩ := C26_sub c s s' hs hs'
  obtain ⟨hst, vst⟩ := sv_sub hs hs' est
  obtain ⟨ef, eef, -⟩ := C26_sub c e e' he he'
  obtain ⟨hef, vef⟩ := sv_sub he he' eef
  have hx : (⟨Scalar.minusOne.l0 - 1, Scalar.minusOne.l1, Scalar.minusOne.l2, Scalar.minusOne.l3,
      Scalar.minusOne.l4⟩ : Sc).SCanon := by decide
  have hxv : (⟨Scalar.minusOne.l0 - 1, Scalar.minusOne.l1, Scalar.minusOne.l2, Scalar.minusOne.l3,
      Scalar.minusOne.l4⟩ : Sc).val = ell - 2 := by decide
  obtain ⟨i, ei, hi, vi⟩ := C29_pow c hc ef _ hef.1 hx
  rw [hxv] at vi
  have h0 : sv ef ≠ 0 := by
    rw [vef, sub_ne_zero]
    exact fun h => hne ((sv_inj he he').1 h)
  have hinv : sv i * sv ef = 1 := by
    unfold sv at h0 ⊢
    rw [vi, ZMod.natCast_mod, Nat.cast_pow, ← pow_succ, show ell - 2 + 1 = ell - 1 by decide]
    exact ZMod.pow_card_sub_one_eq_one h0
  obtain ⟨x, ex, -⟩ := C27_mul c st i hst.1 hi.1
  obtain ⟨hx', vx⟩ := sv_mul hst.1 hi.1 ex
  rw [vef] at hinv
  refine ⟨x, ?_, hx', ?_, ?_⟩
  · unfold equalSolve
    rw [est, Res.ok_bind, eef, Res.ok_bind, ei, Res.ok_bind, ex]
  · rw [mul_enc c hc hg hx', show sv x * g = k by rw [vx, vst]; linear_combination sv i * (p1 - p3) + k * hinv]
    exact ka
  · rw [mul_enc c hc hh hx', show sv x * h = k2 by rw [vx, vst]; linear_combination sv i * (p2 - p4) + k2 * hinv]
    exact kb

/-- C129: if the logarithms differ, then for any commitments at most one challenge can be answered. -/
theorem C129_sound (c : Cfg) (hc : c.Enough) {G H : EdPoint} (hG : RPoint G) (hH : RPoint H) (a b r q : Bytes32)
    (hno : ¬ ∃ x : Sc, x.SCanon ∧ (Ristretto.mul c G x >>= Ristretto.compress c) = .ok a ∧
      (Ristretto.mul c H x >>= Ristretto.compress c) = .ok b)
    (e s e' s' : Sc) (he : e.SCanon) (hs : s.SCanon) (he' : e'.SCanon) (hs' : s'.SCanon)
    (h1 : equalCheck c G H a b r q e s = .ok true) (h2 : equalCheck c G H a b r q e' s' = .ok true) : e = e' := by
  by_contra hne
  obtain ⟨x, -, hx, ha, hb⟩ := C129_extract c hc hG hH a b r q e s e' s' he hs he' hs' hne h1 h2
  exact hno ⟨x, hx, ha, hb⟩

theorem fitting_ok (c : Cfg) (hc : c.Enough) {G : EdPoint} {g : ZMod ell} (hG : Lg G g) (b r : Bytes32) (e s : Sc)
    (he : e.SCanon) (hs : s.SCanon) :
    fitting c G b e s = .ok (some r) ↔ ∃ k m, Enc c b k ∧ Enc c r m ∧ sv s * g = m + sv e * k := by
  unfold fitting
  rcases enc_or c hc b with ⟨eb, nb⟩ | ⟨P, k, eb, hP⟩
  · rw [eb, Res.ok_bind]
    constructor
    · intro h
      exact absurd ((Res.ok_inj _ _).mp h) (by simp)
    · rintro ⟨k, _, h, _⟩
      exact absurd h (nb k)
  · obtain ⟨S, eS, hS⟩ := lg_mul c hc hG hs
    obtain ⟨V, eV, hV⟩ := lg_mul c hc hP he
    obtain ⟨R, eR, hR⟩ := hS.sub c hV
    obtain ⟨r', Q, er, -, -⟩ := hR.wire c hc
    rw [eb, Res.ok_bind]
    dsimp only
    rw [eS, Res.ok_bind, eV, Res.ok_bind, eR, Res.ok_bind, er, Res.ok_bind, Res.pure_eq, Res.ok_inj, Option.some.injEq,
      ← Res.ok_inj, ← er, compress_enc c hc hR]
    constructor
    · intro h
      exact ⟨k, _, ⟨P, eb, hP⟩, h, by ring⟩
    · rintro ⟨k', m, h1, h2, h3⟩
      rw [h1.unique ⟨P, eb, hP⟩] at h3
      rw [h3, add_sub_cancel_right]
      exact h2

/-- C129: accepted proofs are exactly those computed backwards from challenge and answer, without the logarithm. -/
theorem C129_simulated (c : Cfg) (hc : c.Enough) {G H : EdPoint} (hG : RPoint G) (hH : RPoint H) (a b r q : Bytes32)
    (e s : Sc) (he : e.SCanon) (hs : s.SCanon) :
    equalCheck c G H a b r q e s = .ok true ↔
      fitting c G a e s = .ok (some r) ∧ fitting c H b e s = .ok (some q) := by
  obtain ⟨g, hg⟩ := hG.lg
  obtain ⟨h, hh⟩ := hH.lg
  obtain ⟨v, ev, hv⟩ := equalCheck_ok c hc hg hh a b r q e s he hs
  rw [ev, Res.ok_inj, hv, fitting_ok c hc hg a r e s he hs, fitting_ok c hc hh b q e s he hs]

/-! ### C129: many proofs at once -/

/-- By how much the equation of an item fails. -/
def Off (c : Cfg) (t : Item) (d : ZMod ell) : Prop :=
  ∃ k m, Enc c t.key k ∧ Enc c t.com m ∧ d = sv t.ans - m - sv t.ch * k

theorem batchSums_ok (c : Cfg) (hc : c.Enough) {ts : List Item} {ds : List (ZMod ell)}
    (h : List.Forall₂ (Off c) ts ds) (hf : ∀ t ∈ ts, t.Fine) :
    ∃ u U k, batchSums c ts = .ok (some (u, U)) ∧ u.SCanon ∧ Lg U k ∧
      sv u - k = ((ts.zip ds).map fun q => sv q.1.wt * q.2).sum := by
  induction h with
  | nil => exact ⟨_, _, _, rfl, zero_canon, Lg.identity, by rw [sv_zero]; simp⟩
  | @cons t d ts ds h1 _ ih =>
    obtain ⟨u, U, k, eu, hu, hU, hk⟩ := ih fun x hx => hf x (List.mem_cons_of_mem _ hx)
    obtain ⟨kp, kr, ⟨P, eP, hP⟩, ⟨R, eR, hR⟩, rfl⟩ := h1
    obtain ⟨f1, f2, f3⟩ := hf t List.mem_cons_self
    obtain ⟨zs, ez, -⟩ := C27_mul c t.wt t.ans f3.1 f2.1
    obtain ⟨hz, vz⟩ := sv_mul f3.1 f2.1 ez
    obtain ⟨u', eu', -⟩ := C25_add c zs u hz hu
    obtain ⟨hu', vu'⟩ := sv_add hz hu eu'
    obtain ⟨V, eV, hV⟩ := lg_mul c hc hP f1
    obtain ⟨W, eW, hW⟩ := hR.add c hV
    obtain ⟨Z, eZ, hZ⟩ := lg_mul c hc hW f3
    obtain ⟨U', eU', hU'⟩ := hZ.add c hU
    refine ⟨u', U', _, ?_, hu', hU', ?_⟩
    · unfold batchSums
      rw [eP, Res.ok_bind, eR, Res.ok_bind, eu, Res.ok_bind]
      dsimp only
      rw [ez, Res.ok_bind, eu', Res.ok_bind, eV, Res.ok_bind, eW, Res.ok_bind, eZ, Res.ok_bind, eU', Res.ok_bind]
      rfl
    · rw [List.zip_cons_cons, List.map_cons, List.sum_cons, ← hk, vu', vz]
      ring

theorem batchCheck_ok (c : Cfg) (hc : c.Enough) {ts : List Item} {ds : List (ZMod ell)}
    (h : List.Forall₂ (Off c) ts ds) (hf : ∀ t ∈ ts, t.Fine) :
    ∃ v, batchCheck c ts = .ok v ∧ (v = true ↔ ((ts.zip ds).map fun q => sv q.1.wt * q.2).sum = 0) := by
  obtain ⟨u, U, k, eu, hu, hU, hk⟩ := batchSums_ok c hc h hf
  obtain ⟨S, eS, hS⟩ := lg_base_mul c hc hu
  obtain ⟨v, ev, hv⟩ := ctEq_lg c hS hU
  refine ⟨v, ?_, ?_⟩
  · unfold batchCheck
    rw [eu, Res.ok_bind]
    dsimp only
    rw [eS, Res.ok_bind, ev]
  · rw [hv, ← hk, sub_eq_zero]

/-- The verifier for one item. -/
def Item.check (c : Cfg) (t : Item) : Res Bool := checkOne c Ed.BASEPOINT t.key t.com t.ch t.ans

theorem check_off (c : Cfg) (hc : c.Enough) {t : Item} {d : ZMod ell} (hf : t.Fine) (h : Off c t d) :
    t.check c = .ok true ↔ d = 0 := by
  obtain ⟨v, ev, hv⟩ := checkOne_ok c hc Lg.base t.key t.com t.ch t.ans hf.1 hf.2.1
  unfold Item.check
  rw [ev, Res.ok_inj, hv]
  obtain ⟨k, m, h1, h2, rfl⟩ := h
  constructor
  · rintro ⟨k', m', h3, h4, h5⟩
    rw [h3.unique h1, h4.unique h2] at h5
    linear_combination h5
  · intro h
    exact ⟨k, m, h1, h2, by linear_combination h⟩

theorem exists_off (c : Cfg) (hc : c.Enough) (t : Item) (h1 : Decodes c t.key) (h2 : Decodes c t.com) :
    ∃ d, Off c t d := by
  obtain ⟨P, eP⟩ := h1
  obtain ⟨R, eR⟩ := h2
  obtain ⟨k, hk⟩ := Lg.decoded c hc eP
  obtain ⟨m, hm⟩ := Lg.decoded c hc eR
  exact ⟨_, k, m, ⟨P, eP, hk⟩, ⟨R, eR, hm⟩, rfl⟩

theorem exists_offs (c : Cfg) (hc : c.Enough) (ts : List Item) (h : ∀ t ∈ ts, Decodes c t.key ∧ Decodes c t.com) :
    ∃ ds, List.Forall₂ (Off c) ts ds := by
  induction ts with
  | nil => exact ⟨[], .nil⟩
  | cons t ts ih =>
    obtain ⟨d, hd⟩ := exists_off c hc t (h t List.mem_cons_self).1 (h t List.mem_cons_self).2
    obtain ⟨ds, hds⟩ := ih fun x hx => h x (List.mem_cons_of_mem _ hx)
    exact ⟨d :: ds, .cons hd hds⟩

theorem check_decodes (c : Cfg) (hc : c.Enough) {t : Item} (hf : t.Fine) (h : t.check c = .ok true) :
    Decodes c t.key ∧ Decodes c t.com := by
  obtain ⟨v, ev, hv⟩ := checkOne_ok c hc Lg.base t.key t.com t.ch t.ans hf.1 hf.2.1
  unfold Item.check at h
  rw [h, Res.ok_inj] at ev
  obtain ⟨k, m, ⟨P, eP, _⟩, ⟨R, eR, _⟩, _⟩ := hv.1 ev.symm
  exact ⟨⟨P, eP⟩, ⟨R, eR⟩⟩

/-- C129: proofs that are all accepted one by one are accepted at once, whatever the weights. -/
theorem C129_batch_complete (c : Cfg) (hc : c.Enough) (ts : List Item) (hf : ∀ t ∈ ts, t.Fine)
    (h : ∀ t ∈ ts, t.check c = .ok true) : batchCheck c ts = .ok true := by
  obtain ⟨ds, hds⟩ := exists_offs c hc ts fun t ht => check_decodes c hc (hf t ht) (h t ht)
  obtain ⟨v, ev, hv⟩ := batchCheck_ok c hc hds hf
  rw [ev, Res.ok_inj, hv]
  clear ev hv
  induction hds with
  | nil => rfl
  | @cons t d ts ds h1 _ ih =>
    rw [List.zip_cons_cons, List.map_cons, List.sum_cons,
      ih (fun x hx => hf x (List.mem_cons_of_mem _ hx)) (fun x hx => h x (List.mem_cons_of_mem _ hx)),
      (check_off c hc (hf t List.mem_cons_self) h1).1 (h t List.mem_cons_self), mul_zero, add_zero]

/-- C129: a proof that is not accepted alone, at any place of a batch, is accepted with at most one of the `L` weights,
whatever the other proofs and their weights are. -/
theorem C129_batch_sound (c : Cfg) (hc : c.Enough) (pre post : List Item) (t : Item) (z z' : Sc)
    (hf : ∀ u ∈ pre ++ t :: post, u.Fine) (hz : z.SCanon) (hz' : z'.SCanon) (hbad : ¬ t.check c = .ok true)
    (h : batchCheck c (pre ++ { t with wt := z } :: post) = .ok true)
    (h' : batchCheck c (pre ++ { t with wt := z' } :: post) = .ok true) : z = z' := by
  have tot : ∀ ts : List Item, (∀ u ∈ ts, u.Fine) → batchCheck c ts = .ok true →
      ∀ u ∈ ts, Decodes c u.key ∧ Decodes c u.com := by
    intro ts hts hb
    have aux : ∀ ts : List Item, (∀ u ∈ ts, u.Fine) → batchSums c ts = .ok none ∨
        ∀ u ∈ ts, Decodes c u.key ∧ Decodes c u.com := by
      intro ts
      induction ts with
      | nil => intro _; right; simp
      | cons t ts ih =>
        intro hts
        obtain ⟨o, eo⟩ := C62_total c hc t.key
        obtain ⟨o', eo'⟩ := C62_total c hc t.com
        have step : batchSums c ts = .ok none → batchSums c (t :: ts) = .ok none := by
          intro e
          rw [batchSums, eo, Res.ok_bind, eo', Res.ok_bind, e, Res.ok_bind]
          cases o <;> cases o' <;> rfl
        rcases ih fun x hx => hts x (List.mem_cons_of_mem _ hx) with e | hd
        · exact Or.inl (step e)
        · obtain ⟨ds, hds⟩ := exists_offs c hc ts hd
          obtain ⟨u, U, k, eu, -⟩ := batchSums_ok c hc hds fun x hx => hts x (List.mem_cons_of_mem _ hx)
          rw [batchSums, eo, Res.ok_bind, eo', Res.ok_bind, eu, Res.ok_bind]
          cases o with
          | none => exact Or.inl rfl
          | some P =>
            cases o' with
            | none => exact Or.inl rfl
            | some R => exact Or.inr (List.forall_mem_cons.2 ⟨⟨⟨P, eo⟩, ⟨R, eo'⟩⟩, hd⟩)
    rcases aux ts hts with e | hd
    · unfold batchCheck at hb
      rw [e, Res.ok_bind] at hb
      exact absurd ((Res.ok_inj _ _).mp hb) (by decide)
    · exact hd
  have fine : ∀ w : Sc, w.SCanon → ∀ u ∈ pre ++ { t with wt := w } :: post, u.Fine := by
    intro w hw u hu
    rcases List.mem_append.1 hu with hu | hu
    · exact hf u (List.mem_append.2 (Or.inl hu))
    · rcases List.mem_cons.1 hu with rfl | hu
      · have := hf t (by simp)
        exact ⟨this.1, this.2.1, hw⟩
      · exact hf u (by simp [hu])
  have hd := tot _ (fine z hz) h
  obtain ⟨d1, o1⟩ := exists_offs c hc pre fun u hu => hd u (by simp [hu])
  obtain ⟨d3, o3⟩ := exists_offs c hc post fun u hu => hd u (by simp [hu])
  obtain ⟨d2, o2⟩ := exists_off c hc t (hd { t with wt := z } (by simp)).1 (hd { t with wt := z } (by simp)).2
  have d0 : d2 ≠ 0 := fun e => hbad ((check_off c hc (hf t (by simp)) o2).2 e)
  have val : ∀ w : Sc, w.SCanon → batchCheck c (pre ++ { t with wt := w } :: post) = .ok true →
      ((pre.zip d1).map fun q => sv q.1.wt * q.2).sum + (sv w * d2 + ((post.zip d3).map fun q => sv q.1.wt * q.2).sum) =
        0 := by
    intro w hw hb
    obtain ⟨v, ev, hv⟩ := batchCheck_ok c hc (ts := pre ++ { t with wt := w } :: post) (ds := d1 ++ d2 :: d3)
      (List.rel_append o1 (.cons o2 o3)) (fine w hw)
    rw [hb, Res.ok_inj] at ev
    have := hv.1 ev.symm
    rwa [List.zip_append o1.length_eq, List.zip_cons_cons, List.map_append, List.map_cons, List.sum_append,
      List.sum_cons] at this
  have e1 := val z hz h
  have e2 := val z' hz' h'
  rw [← sv_inj hz hz']
  have : (sv z - sv z') * d2 = 0 := by linear_combination e1 - e2
  rcases mul_eq_zero.1 this with h | h
  · exact sub_eq_zero.1 h
  · exact absurd h d0

/-- A proof that is not accepted alone and passes in a batch with weight zero. -/
example (c : Cfg) (hc : c.Enough) : ∃ t : Item, t.Fine ∧ ¬ t.check c = .ok true ∧
    batchCheck c ([] ++ { t with wt := Scalar.zero } :: []) = .ok true := by
  obtain ⟨b, Q, -, eQ, hQ⟩ := Lg.identity.wire c hc
  have hb : Enc c b 0 := ⟨Q, eQ, hQ⟩
  have hf : Item.Fine ⟨b, b, Scalar.zero, Scalar.one, Scalar.one⟩ := ⟨zero_canon, one_canon, one_canon⟩
  have ho : ∀ w, Off c ⟨b, b, Scalar.zero, Scalar.one, w⟩ 1 := fun w =>
    ⟨0, 0, hb, hb, by rw [sv_one, sub_zero, mul_zero, sub_zero]⟩
  refine ⟨⟨b, b, Scalar.zero, Scalar.one, Scalar.one⟩, hf, ?_, ?_⟩
  · rw [check_off c hc hf (ho _)]
    exact one_ne_zero
  · obtain ⟨v, ev, hv⟩ := batchCheck_ok c hc (.cons (ho Scalar.zero) .nil) (by
      intro t ht
      rw [List.mem_singleton] at ht
      subst ht
      exact ⟨zero_canon, one_canon, zero_canon⟩)
    refine ev.trans ((Res.ok_inj _ _).mpr (hv.2 ?_))
    simp [sv_zero]

/-- Encodings without common logarithm. -/
example (c : Cfg) (hc : c.Enough) : ∃ a b, ¬ ∃ x : Sc, x.SCanon ∧
    (Ristretto.mul c Ed.BASEPOINT x >>= Ristretto.compress c) = .ok a ∧
    (Ristretto.mul c Ed.BASEPOINT x >>= Ristretto.compress c) = .ok b := by
  obtain ⟨a, Q, -, eQ, hQ⟩ := Lg.identity.wire c hc
  obtain ⟨b, R, -, eR, hR⟩ := Lg.base.wire c hc
  refine ⟨a, b, ?_⟩
  rintro ⟨x, hx, h1, h2⟩
  rw [h1, Res.ok_inj] at h2
  subst h2
  exact zero_ne_one (Enc.unique ⟨Q, eQ, hQ⟩ ⟨R, eR, hR⟩)

example : Scalar.minusOne.SCanon ∧ Scalar.one ≠ Scalar.minusOne ∧ RPoint Ed.BASEPOINT ∧ dbg.Enough :=
  ⟨by decide, by decide, Lg.base.point, by decide⟩

end Props
end Zerocaf
