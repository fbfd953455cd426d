import Verif.Props.Protocols

/-!
# Property C120: proving that one owns one of many keys

The introduction of the library (`src/lib.rs:29-30`) names its purpose: proofs that a private key belongs to one of many
public keys. The steps of the standard proof (one honest answer, the others made up, challenges adding up to the one
received) are written here with the modelled operations. They are not in the code.
-/

set_option exponentiation.threshold 600

namespace Zerocaf
namespace Props

open Ristretto

/-- What is sent for one key: commitment, challenge, answer. -/
abbrev Part := Bytes32 × Sc × Sc

/-- Made up answers: for each key the commitment that fits the chosen challenge and answer. -/
def pretend (c : Cfg) : List Bytes32 → List (Sc × Sc) → Res (Option (List Part))
  | [], [] => .ok (some [])
  | b :: bs, (e, s) :: rs => do
    let o ← Ristretto.decompress c b
    match o with
    | none => return none
    | some P =>
      let S ← Ristretto.mul c Ed.BASEPOINT s
      let V ← Ristretto.mul c P e
      let R ← Ristretto.sub c S V
      let r ← Ristretto.compress c R
      let l ← pretend c bs rs
      match l with
      | none => return none
      | some l => return some ((r, e, s) :: l)
  | _, _ => .ok none

/-- The sum of the challenges, starting from `t`. -/
def sumFrom (c : Cfg) (t : Sc) : List (Sc × Sc) → Res Sc
  | [] => .ok t
  | (e, _) :: rs => do
    let t ← Scalar.add c t e
    sumFrom c t rs

/-- The proof of the owner of the secret `x`, whose key stands between `pre` and `post`, for the challenge `ch`. -/
def proveOne (c : Cfg) (pre post : List Bytes32) (x k ch : Sc) (rpre rpost : List (Sc × Sc)) :
    Res (Option (List Part)) := do
  let a ← pretend c pre rpre
  let z ← pretend c post rpost
  match a, z with
  | some a, some z =>
    let R ← Ristretto.mul c Ed.BASEPOINT k
    let r ← Ristretto.compress c R
    let t ← sumFrom c Scalar.zero (rpre ++ rpost)
    let e ← Scalar.sub c ch t
    let ex ← Scalar.mul c e x
    let s ← Scalar.add c k ex
    return some (a ++ (r, e, s) :: z)
  | _, _ => return none

/-- The check for one key. -/
def checkPart (c : Cfg) (b : Bytes32) (t : Part) : Res Bool := do
  let o ← Ristretto.decompress c b
  let o' ← Ristretto.decompress c t.1
  match o, o' with
  | some P, some R =>
    let S ← Ristretto.mul c Ed.BASEPOINT t.2.2
    let V ← Ristretto.mul c P t.2.1
    let W ← Ristretto.add c R V
    Ristretto.ctEq c S W
  | _, _ => return false

/-- The check for all keys. -/
def checkAll (c : Cfg) : List Bytes32 → List Part → Res Bool
  | [], [] => .ok true
  | b :: bs, t :: ts => do
    let v ← checkPart c b t
    if v then checkAll c bs ts else return false
  | _, _ => .ok false

/-- The verifier. -/
def verifyOne (c : Cfg) (keys : List Bytes32) (ch : Sc) (pf : List Part) : Res Bool := do
  let v ← checkAll c keys pf
  if v then do
    let t ← sumFrom c Scalar.zero (pf.map Prod.snd)
    return Scalar.ctEq t ch
  else return false

/-- The secret computed from two answers for one key. -/
def solve (c : Cfg) (t u : Part) : Res Sc := do
  let st ← Scalar.sub c t.2.2 u.2.2
  let ef ← Scalar.sub c t.2.1 u.2.1
  let i ← Scalar.pow c ef ⟨Scalar.minusOne.l0 - 1, Scalar.minusOne.l1, Scalar.minusOne.l2, Scalar.minusOne.l3,
    Scalar.minusOne.l4⟩
  Scalar.mul c st i

/-- The secret computed from two proofs: solved at the first key with different challenges. -/
def extractOne (c : Cfg) : List Part → List Part → Res (Option Sc)
  | t :: ts, u :: us =>
    if Scalar.ctEq t.2.1 u.2.1 then extractOne c ts us
    else do
      let w ← solve c t u
      return some w
  | _, _ => .ok none

/-- The bytes decode to a group element. -/
def Decodes (c : Cfg) (b : Bytes32) : Prop := ∃ P, Ristretto.decompress c b = .ok (some P)

/-- The two scalars are reduced. -/
def Fine (r : Sc × Sc) : Prop := r.1.SCanon ∧ r.2.SCanon

/-! ### The parts -/

/-- The equation behind one part. -/
def Answers (c : Cfg) (b : Bytes32) (t : Part) : Prop :=
  ∃ P R kp kr, Ristretto.decompress c b = .ok (some P) ∧ Ristretto.decompress c t.1 = .ok (some R) ∧ Lg P kp ∧
    Lg R kr ∧ sv t.2.2 = kr + sv t.2.1 * kp

theorem lg_base_mul (c : Cfg) (hc : c.Enough) {s : Sc} (hs : s.SCanon) :
    ∃ S, Ristretto.mul c Ed.BASEPOINT s = .ok S ∧ Lg S (sv s) := by
  obtain ⟨S, eS, hS⟩ := Lg.base.mul c hc s hs.1 (Scalar.scanon_lt256 hs)
  rw [mul_one] at hS
  exact ⟨S, eS, hS⟩

theorem checkPart_ok (c : Cfg) (hc : c.Enough) (b : Bytes32) (t : Part) (ht : Fine t.2) :
    ∃ v, checkPart c b t = .ok v ∧ (v = true ↔ Answers c b t) := by
  obtain ⟨o, eo⟩ := C62_total c hc b
  obtain ⟨o', eo'⟩ := C62_total c hc t.1
  unfold checkPart
  rw [eo, Res.ok_bind, eo', Res.ok_bind]
  rcases o with _ | P
  · refine ⟨false, rfl, ⟨fun h => by simp at h, ?_⟩⟩
    rintro ⟨P, R, _, _, h, _⟩
    rw [eo, Res.ok_inj] at h
    exact absurd h (by simp)
  rcases o' with _ | R
  · refine ⟨false, rfl, ⟨fun h => by simp at h, ?_⟩⟩
    rintro ⟨P, R, _, _, _, h, _⟩
    rw [eo', Res.ok_inj] at h
    exact absurd h (by simp)
  obtain ⟨kp, hp⟩ := Lg.decoded c hc eo
  obtain ⟨kr, hr⟩ := Lg.decoded c hc eo'
  obtain ⟨S, eS, hS⟩ := lg_base_mul c hc ht.2
  obtain ⟨V, eV, hV⟩ := hp.mul c hc t.2.1 ht.1.1 (Scalar.scanon_lt256 ht.1)
  obtain ⟨W, eW, hW⟩ := hr.add c hV
  obtain ⟨A, hA, _⟩ := id hS
  obtain ⟨B, hB, _⟩ := id hW
  obtain ⟨v, ev, _⟩ := C58_eq_iff c hA hB
  refine ⟨v, ?_, ?_⟩
  · dsimp only
    rw [eS, Res.ok_bind, eV, Res.ok_bind, eW, Res.ok_bind, ev]
  · have h := hS.req c hW
    unfold REq at h
    rw [ev, Res.ok_inj] at h
    rw [h]
    constructor
    · intro h
      exact ⟨P, R, kp, kr, eo, eo', hp, hr, h⟩
    · rintro ⟨P', R', kp', kr', h1, h2, h3, h4, h5⟩
      rw [eo, Res.ok_inj, Option.some.injEq] at h1
      rw [eo', Res.ok_inj, Option.some.injEq] at h2
      subst h1 h2
      rw [hp.unique h3, hr.unique h4]
      exact h5

theorem checkAll_ok (c : Cfg) (hc : c.Enough) : ∀ (keys : List Bytes32) (pf : List Part), (∀ t ∈ pf, Fine t.2) →
    ∃ v, checkAll c keys pf = .ok v ∧ (v = true ↔ List.Forall₂ (Answers c) keys pf)
  | [], [], _ => ⟨true, rfl, by simp⟩
  | [], t :: ts, _ => ⟨false, rfl, by simp⟩
  | b :: bs, [], _ => ⟨false, rfl, by simp⟩
  | b :: bs, t :: ts, h => by
    obtain ⟨v, ev, hv⟩ := checkPart_ok c hc b t (h t (by simp))
    obtain ⟨w, ew, hw⟩ := checkAll_ok c hc bs ts (fun u hu => h u (by simp [hu]))
    unfold checkAll
    rw [ev, Res.ok_bind, List.forall₂_cons, ← hv, ← hw]
    cases v
    · exact ⟨false, rfl, by simp⟩
    · exact ⟨w, ew, by simp⟩

theorem sumFrom_ok (c : Cfg) : ∀ (rs : List (Sc × Sc)) (t : Sc), t.SCanon → (∀ r ∈ rs, r.1.SCanon) →
    ∃ s, sumFrom c t rs = .ok s ∧ s.SCanon ∧ sv s = sv t + (rs.map fun r => sv r.1).sum
  | [], t, ht, _ => ⟨t, rfl, ht, by simp⟩
  | (e, s) :: rs, t, ht, h => by
    have he := h (e, s) (by simp)
    obtain ⟨u, eu, -⟩ := C25_add c t e ht he
    obtain ⟨hu, vu⟩ := sv_add ht he eu
    obtain ⟨w, ew, hw, vw⟩ := sumFrom_ok c rs u hu (fun r hr => h r (by simp [hr]))
    refine ⟨w, ?_, hw, ?_⟩
    · unfold sumFrom
      rw [eu, Res.ok_bind, ew]
    · rw [vw, vu, List.map_cons, List.sum_cons, add_assoc]

theorem sctEq_iff {a b : Sc} (ha : a.SCanon) (hb : b.SCanon) : Scalar.ctEq a b = true ↔ sv a = sv b := by
  rw [Scalar.ctEq_eq, C19_eq a b ha.1 hb.1 (Scalar.scanon_lt256 ha) (Scalar.scanon_lt256 hb), sv_inj ha hb]
  exact ⟨fun h => ha.1.ext hb.1 h, fun h => by rw [h]⟩

theorem zero_canon : Scalar.zero.SCanon := by decide

theorem sv_zero : sv Scalar.zero = 0 := by
  unfold sv
  rw [show Scalar.zero.val = 0 by decide, Nat.cast_zero]

/-- What the verifier accepts. -/
theorem verifyOne_ok (c : Cfg) (hc : c.Enough) (keys : List Bytes32) (ch : Sc) (pf : List Part) (hch : ch.SCanon)
    (hpf : ∀ t ∈ pf, Fine t.2) :
    ∃ v, verifyOne c keys ch pf = .ok v ∧
      (v = true ↔ List.Forall₂ (Answers c) keys pf ∧ (pf.map fun t => sv t.2.1).sum = sv ch) := by
  obtain ⟨v, ev, hv⟩ := checkAll_ok c hc keys pf hpf
  have hm : ∀ r ∈ pf.map Prod.snd, r.1.SCanon := by
    intro r hr
    obtain ⟨t, ht, rfl⟩ := List.mem_map.1 hr
    exact (hpf t ht).1
  obtain ⟨s, es, hs, vs⟩ := sumFrom_ok c (pf.map Prod.snd) Scalar.zero zero_canon hm
  rw [sv_zero, zero_add, List.map_map] at vs
  unfold verifyOne
  rw [ev, Res.ok_bind, ← hv]
  cases v
  · exact ⟨false, rfl, by simp⟩
  · refine ⟨Scalar.ctEq s ch, ?_, ?_⟩
    · rw [if_pos rfl, es, Res.ok_bind]
      rfl
    · rw [sctEq_iff hs hch, vs]
      simp [Function.comp_def]

theorem pretend_ok (c : Cfg) (hc : c.Enough) : ∀ (keys : List Bytes32) (rs : List (Sc × Sc)), (∀ b ∈ keys, Decodes c b) →
    (∀ r ∈ rs, Fine r) → keys.length = rs.length →
    ∃ l, pretend c keys rs = .ok (some l) ∧ l.map Prod.snd = rs ∧ List.Forall₂ (Answers c) keys l
  | [], [], _, _, _ => ⟨[], rfl, rfl, .nil⟩
  | [], r :: rs, _, _, h => by simp at h
  | b :: bs, [], _, _, h => by simp at h
  | b :: bs, (e, s) :: rs, hk, hr, hl => by
    obtain ⟨P, eP⟩ := hk b (by simp)
    obtain ⟨he, hs⟩ := hr (e, s) (by simp)
    obtain ⟨l, el, ml, fl⟩ := pretend_ok c hc bs rs (fun x hx => hk x (by simp [hx])) (fun x hx => hr x (by simp [hx]))
      (by simpa using hl)
    obtain ⟨kp, hp⟩ := Lg.decoded c hc eP
    obtain ⟨S, eS, hS⟩ := lg_base_mul c hc hs
    obtain ⟨V, eV, hV⟩ := hp.mul c hc e he.1 (Scalar.scanon_lt256 he)
    obtain ⟨R, eR, hR⟩ := hS.sub c hV
    obtain ⟨r, Q, er, eQ, hQ⟩ := hR.wire c hc
    refine ⟨(r, e, s) :: l, ?_, by rw [List.map_cons, ml], .cons ⟨P, Q, kp, _, eP, eQ, hp, hQ, ?_⟩ fl⟩
    · unfold pretend
      rw [eP, Res.ok_bind]
      dsimp only
      rw [eS, Res.ok_bind, eV, Res.ok_bind, eR, Res.ok_bind, er, Res.ok_bind, el, Res.ok_bind]
      rfl
    · show sv s = sv s - sv e * kp + sv e * kp
      ring

/-- Every list of parts that passes the checks is the made up one for its challenges and answers. -/
theorem pretend_all (c : Cfg) (hc : c.Enough) : ∀ (keys : List Bytes32) (pf : List Part), (∀ t ∈ pf, Fine t.2) →
    List.Forall₂ (Answers c) keys pf → pretend c keys (pf.map Prod.snd) = .ok (some pf)
  | [], [], _, _ => rfl
  | [], t :: ts, _, h => by simp at h
  | b :: bs, [], _, h => by simp at h
  | b :: bs, (r, e, s) :: ts, hf, h => by
    rw [List.forall₂_cons] at h
    obtain ⟨⟨P, Q, kp, kr, eP, eQ, hp, hQ, hv⟩, h⟩ := h
    obtain ⟨he, hs⟩ := hf (r, e, s) (by simp)
    have ih := pretend_all c hc bs ts (fun x hx => hf x (by simp [hx])) h
    obtain ⟨S, eS, hS⟩ := lg_base_mul c hc hs
    obtain ⟨V, eV, hV⟩ := hp.mul c hc e he.1 (Scalar.scanon_lt256 he)
    obtain ⟨R, eR, hR⟩ := hS.sub c hV
    have er : Ristretto.compress c R = .ok r := by
      rw [← C59_decode_encode c hc r Q eQ]
      refine (hR.enc_eq c hc hQ).2 ?_
      have hv : sv s = kr + sv e * kp := hv
      rw [hv]
      show kr + sv e * kp - sv e * kp = kr
      ring
    rw [List.map_cons]
    unfold pretend
    rw [eP, Res.ok_bind]
    dsimp only
    rw [eS, Res.ok_bind, eV, Res.ok_bind, eR, Res.ok_bind, er, Res.ok_bind, ih, Res.ok_bind]
    rfl

theorem forall₂_append {α β : Type} {R : α → β → Prop} {a b : List α} {l : List β}
    (h : List.Forall₂ R (a ++ b) l) : ∃ l₁ l₂, l = l₁ ++ l₂ ∧ List.Forall₂ R a l₁ ∧ List.Forall₂ R b l₂ := by
  induction a generalizing l with
  | nil => exact ⟨[], l, rfl, .nil, h⟩
  | cons x a ih =>
    rw [List.cons_append] at h
    cases h with
    | cons h1 h2 =>
      obtain ⟨l₁, l₂, rfl, g1, g2⟩ := ih h2
      exact ⟨_ :: l₁, l₂, rfl, .cons h1 g1, g2⟩

/-! ### C120 -/

/-- The proof of the owner, in full. -/
theorem proveOne_ok (c : Cfg) (hc : c.Enough) (pre post : List Bytes32) (own : Bytes32) (x k ch : Sc)
    (rpre rpost : List (Sc × Sc)) (hpre : ∀ b ∈ pre, Decodes c b) (hpost : ∀ b ∈ post, Decodes c b) (hx : x.SCanon)
    (hk : k.SCanon) (hch : ch.SCanon) (hr : ∀ r ∈ rpre, Fine r) (hr' : ∀ r ∈ rpost, Fine r)
    (hl : pre.length = rpre.length) (hl' : post.length = rpost.length)
    (hown : (Ristretto.mul c Ed.BASEPOINT x >>= Ristretto.compress c) = .ok own) :
    ∃ a z r e s, proveOne c pre post x k ch rpre rpost = .ok (some (a ++ (r, e, s) :: z)) ∧ a.map Prod.snd = rpre ∧
      z.map Prod.snd = rpost ∧ e.SCanon ∧ s.SCanon ∧ sv s = sv k + sv e * sv x ∧
      sv ch = sv e + ((rpre ++ rpost).map fun r => sv r.1).sum ∧ a.length = pre.length ∧
      List.Forall₂ (Answers c) (pre ++ own :: post) (a ++ (r, e, s) :: z) ∧ pretend c pre rpre = .ok (some a) ∧
      pretend c post rpost = .ok (some z) ∧ (Ristretto.mul c Ed.BASEPOINT k >>= Ristretto.compress c) = .ok r ∧
      Answers c own (r, e, s) := by
  obtain ⟨a, ea, ma, fa⟩ := pretend_ok c hc pre rpre hpre hr hl
  obtain ⟨z, ez, mz, fz⟩ := pretend_ok c hc post rpost hpost hr' hl'
  obtain ⟨K, eK, hK⟩ := lg_base_mul c hc hk
  obtain ⟨r, Q, er, eQ, hQ⟩ := hK.wire c hc
  obtain ⟨t, et, ht, vt⟩ := sumFrom_ok c (rpre ++ rpost) Scalar.zero zero_canon (by
    intro r h
    rcases List.mem_append.1 h with h | h
    · exact (hr r h).1
    · exact (hr' r h).1)
  rw [sv_zero, zero_add] at vt
  obtain ⟨e, ee, -⟩ := C26_sub c ch t hch ht
  obtain ⟨he, ve⟩ := sv_sub hch ht ee
  obtain ⟨m, em, -⟩ := C27_mul c e x he.1 hx.1
  obtain ⟨hm, vm⟩ := sv_mul he.1 hx.1 em
  obtain ⟨s, es, -⟩ := C25_add c k m hk hm
  obtain ⟨hs, vs⟩ := sv_add hk hm es
  obtain ⟨X, eX, hX⟩ := lg_base_mul c hc hx
  rw [eX, Res.ok_bind] at hown
  obtain ⟨own', P, eo, eP, hP⟩ := hX.wire c hc
  rw [hown, Res.ok_inj] at eo
  subst eo
  refine ⟨a, z, r, e, s, ?_, ma, mz, he, hs, by rw [vs, vm], by rw [ve, vt]; ring, fa.length_eq.symm,
    List.rel_append fa (.cons ⟨P, Q, _, _, eP, eQ, hP, hQ, by rw [vs, vm]⟩ fz), ea, ez, by rw [eK, Res.ok_bind, er],
    ⟨P, Q, _, _, eP, eQ, hP, hQ, by rw [vs, vm]⟩⟩
  unfold proveOne
  rw [ea, Res.ok_bind, ez, Res.ok_bind]
  dsimp only
  rw [eK, Res.ok_bind, er, Res.ok_bind, et, Res.ok_bind, ee, Res.ok_bind, em, Res.ok_bind, es, Res.ok_bind]
  rfl

/-- C120: the proof of an owner of any one of the keys is accepted, wherever the key stands, for every challenge and
all random choices. -/
theorem C120_complete (c : Cfg) (hc : c.Enough) (pre post : List Bytes32) (own : Bytes32) (x k ch : Sc)
    (rpre rpost : List (Sc × Sc)) (hpre : ∀ b ∈ pre, Decodes c b) (hpost : ∀ b ∈ post, Decodes c b) (hx : x.SCanon)
    (hk : k.SCanon) (hch : ch.SCanon) (hr : ∀ r ∈ rpre, Fine r) (hr' : ∀ r ∈ rpost, Fine r)
    (hl : pre.length = rpre.length) (hl' : post.length = rpost.length)
    (hown : (Ristretto.mul c Ed.BASEPOINT x >>= Ristretto.compress c) = .ok own) :
    ∃ pf, proveOne c pre post x k ch rpre rpost = .ok (some pf) ∧
      verifyOne c (pre ++ own :: post) ch pf = .ok true := by
  obtain ⟨a, z, r, e, s, e1, ma, mz, he, hs, -, vc, -, f, -⟩ := proveOne_ok c hc pre post own x k ch rpre rpost hpre hpost
    hx hk hch hr hr' hl hl' hown
  refine ⟨_, e1, ?_⟩
  have hf : ∀ t ∈ a ++ (r, e, s) :: z, Fine t.2 := by
    intro t ht
    rcases List.mem_append.1 ht with h | h
    · exact hr _ (ma ▸ List.mem_map_of_mem h)
    · rcases List.mem_cons.1 h with h | h
      · subst h
        exact ⟨he, hs⟩
      · exact hr' _ (mz ▸ List.mem_map_of_mem h)
  obtain ⟨v, ev, hv⟩ := verifyOne_ok c hc (pre ++ own :: post) ch _ hch hf
  rw [ev, Res.ok_inj, hv]
  refine ⟨f, ?_⟩
  rw [vc, ← ma, ← mz]
  simp only [List.map_append, List.map_cons, List.sum_append, List.sum_cons, List.map_map, Function.comp_def]
  ring

/-- C120: which key the prover owns is hidden completely. Every accepted proof is made by the owner of any of the keys
for exactly one choice of the random scalars. -/
theorem C120_hides_owner (c : Cfg) (hc : c.Enough) (pre post : List Bytes32) (own : Bytes32) (x ch : Sc)
    (hx : x.SCanon) (hch : ch.SCanon)
    (hown : (Ristretto.mul c Ed.BASEPOINT x >>= Ristretto.compress c) = .ok own) (pf : List Part)
    (hpf : ∀ t ∈ pf, Fine t.2) (hv : verifyOne c (pre ++ own :: post) ch pf = .ok true) :
    ∃! ρ : List (Sc × Sc) × Sc × List (Sc × Sc), (∀ r ∈ ρ.1, Fine r) ∧ ρ.2.1.SCanon ∧ (∀ r ∈ ρ.2.2, Fine r) ∧
      pre.length = ρ.1.length ∧ post.length = ρ.2.2.length ∧
      proveOne c pre post x ρ.2.1 ch ρ.1 ρ.2.2 = .ok (some pf) := by
  obtain ⟨v, ev, h⟩ := verifyOne_ok c hc (pre ++ own :: post) ch pf hch hpf
  rw [ev, Res.ok_inj] at hv
  obtain ⟨f, hs⟩ := h.1 hv
  have hdec : ∀ {bs : List Bytes32} {l : List Part}, List.Forall₂ (Answers c) bs l → ∀ b ∈ bs, Decodes c b := by
    intro bs l h
    induction h with
    | nil => intro b hb; simp at hb
    | cons h1 _ ih =>
      intro b hb
      rcases List.mem_cons.1 hb with rfl | hb
      · obtain ⟨P, _, _, _, e, _⟩ := h1
        exact ⟨P, e⟩
      · exact ih b hb
  have f0 := f
  obtain ⟨a, l, rfl, fa, f'⟩ := forall₂_append f
  cases f' with
  | @cons _ t _ z ht fz =>
  obtain ⟨r, e, s⟩ := t
  have hfa : ∀ t ∈ a, Fine t.2 := fun t h => hpf t (by simp [h])
  have hfz : ∀ t ∈ z, Fine t.2 := fun t h => hpf t (by simp [h])
  obtain ⟨he, hs'⟩ := hpf (r, e, s) (by simp)
  have hra : ∀ q ∈ a.map Prod.snd, Fine q := by
    intro q hq
    obtain ⟨t, ht, rfl⟩ := List.mem_map.1 hq
    exact hfa t ht
  have hrz : ∀ q ∈ z.map Prod.snd, Fine q := by
    intro q hq
    obtain ⟨t, ht, rfl⟩ := List.mem_map.1 hq
    exact hfz t ht
  obtain ⟨m, em, -⟩ := C27_mul c e x he.1 hx.1
  obtain ⟨hm, vm⟩ := sv_mul he.1 hx.1 em
  obtain ⟨k, ek, -⟩ := C26_sub c s m hs' hm
  obtain ⟨hk, vk⟩ := sv_sub hs' hm ek
  have la : pre.length = (a.map Prod.snd).length := by rw [List.length_map, fa.length_eq]
  have lz : post.length = (z.map Prod.snd).length := by rw [List.length_map, fz.length_eq]
  refine ⟨(a.map Prod.snd, k, z.map Prod.snd), ⟨hra, hk, hrz, la, lz, ?_⟩, ?_⟩
  · obtain ⟨a', z', r', e', s', e1, ma, mz, he', hs1, vs', vc, len, f1, -⟩ := proveOne_ok c hc pre post own x k ch
      (a.map Prod.snd) (z.map Prod.snd) (hdec fa) (hdec fz) hx hk hch hra hrz la lz hown
    have ee : e' = e := by
      rw [← sv_inj he' he]
      simp only [List.map_append, List.map_cons, List.sum_append, List.sum_cons, List.map_map, Function.comp_def] at vc hs
      rw [← hs] at vc
      linear_combination -vc
    subst ee
    have es : s' = s := by
      rw [← sv_inj hs1 hs', vs', vk, vm]
      ring
    subst es
    have q := pretend_all c hc _ _ (by
      intro t ht
      have : t.2 ∈ (a' ++ (r', e', s') :: z').map Prod.snd := List.mem_map_of_mem ht
      rw [List.map_append, List.map_cons, ma, mz] at this
      rcases List.mem_append.1 this with h | h
      · exact hra _ h
      · rcases List.mem_cons.1 h with h | h
        · rw [h]
          exact ⟨he, hs'⟩
        · exact hrz _ h) f1
    rw [List.map_append, List.map_cons, ma, mz] at q
    have q' := pretend_all c hc _ _ hpf f0
    rw [List.map_append, List.map_cons] at q'
    rw [e1, ← q, ← q']
  · rintro ⟨ra, k', rz⟩ ⟨h1, h2, h3, h4, h5, h6⟩
    dsimp only at h1 h2 h3 h4 h5 h6
    obtain ⟨a', z', r', e', s', e1, ma, mz, he', hs1, vs', vc, len, f1, -⟩ := proveOne_ok c hc pre post own x k' ch
      ra rz (hdec fa) (hdec fz) hx h2 hch h1 h3 h4 h5 hown
    rw [h6, Res.ok_inj, Option.some.injEq] at e1
    obtain ⟨ea, ez⟩ := List.append_inj e1 (by rw [len, fa.length_eq])
    rw [List.cons.injEq, Prod.mk.injEq, Prod.mk.injEq] at ez
    obtain ⟨⟨-, rfl, rfl⟩, rfl⟩ := ez
    subst ea
    have : k' = k := by
      rw [← sv_inj h2 hk, vk, vm, vs']
      ring
    rw [← ma, ← mz, this]

theorem solve_ok (c : Cfg) (hc : c.Enough) {b : Bytes32} {t u : Part} (ht : Fine t.2) (hu : Fine u.2)
    (hb : Answers c b t) (hb' : Answers c b u) (h1 : t.1 = u.1) (hne : sv t.2.1 ≠ sv u.2.1) :
    ∃ w, solve c t u = .ok w ∧ w.SCanon ∧
      (Ristretto.mul c Ed.BASEPOINT w >>= Ristretto.compress c) = .ok b := by
  obtain ⟨P, R, kp, kr, eP, eR, hP, hR, h⟩ := hb
  obtain ⟨P', R', kp', kr', eP', eR', hP', hR', h'⟩ := hb'
  rw [eP, Res.ok_inj, Option.some.injEq] at eP'
  rw [← h1, eR, Res.ok_inj, Option.some.injEq] at eR'
  subst eP' eR'
  rw [← hP.unique hP', ← hR.unique hR'] at h'
  obtain ⟨st, es, -⟩ := C26_sub c t.2.2 u.2.2 ht.2 hu.2
  obtain ⟨hs, vs⟩ := sv_sub ht.2 hu.2 es
  obtain ⟨ef, ee, -⟩ := C26_sub c t.2.1 u.2.1 ht.1 hu.1
  obtain ⟨hef, ve⟩ := sv_sub ht.1 hu.1 ee
  have hx : (⟨Scalar.minusOne.l0 - 1, Scalar.minusOne.l1, Scalar.minusOne.l2, Scalar.minusOne.l3,
      Scalar.minusOne.l4⟩ : Sc).SCanon ∧ L5.val ⟨Scalar.minusOne.l0 - 1, Scalar.minusOne.l1, Scalar.minusOne.l2,
      Scalar.minusOne.l3, Scalar.minusOne.l4⟩ = ell - 2 := by decide
  obtain ⟨i, ei, hi, vi⟩ := C29_pow c hc ef _ hef.1 hx.1
  rw [hx.2] at vi
  have h0 : sv ef ≠ 0 := by
    rw [ve]
    exact sub_ne_zero.2 hne
  have hinv : sv i * sv ef = 1 := by
    unfold sv at h0 ⊢
    rw [vi, ZMod.natCast_mod, Nat.cast_pow, ← pow_succ, show ell - 2 + 1 = ell - 1 by decide]
    exact ZMod.pow_card_sub_one_eq_one h0
  obtain ⟨w, ew, -⟩ := C27_mul c st i hs.1 hi.1
  obtain ⟨hw, vw⟩ := sv_mul hs.1 hi.1 ew
  have hwp : sv w = kp := by
    rw [vw, vs, h, h']
    rw [ve] at hinv
    linear_combination kp * hinv
  obtain ⟨W, eW, hW⟩ := lg_base_mul c hc hw
  rw [hwp] at hW
  refine ⟨w, ?_, hw, ?_⟩
  · unfold solve
    rw [es, Res.ok_bind, ee, Res.ok_bind, ei, Res.ok_bind, ew]
  · rw [eW, Res.ok_bind, (hW.enc_eq c hc hP).2 rfl]
    exact C59_decode_encode c hc b P eP

theorem extractOne_ok (c : Cfg) (hc : c.Enough) : ∀ (keys : List Bytes32) (pf qf : List Part), (∀ t ∈ pf, Fine t.2) →
    (∀ t ∈ qf, Fine t.2) → List.Forall₂ (Answers c) keys pf → List.Forall₂ (Answers c) keys qf →
    pf.map Prod.fst = qf.map Prod.fst → (pf.map fun t => sv t.2.1).sum ≠ (qf.map fun t => sv t.2.1).sum →
    ∃ w, extractOne c pf qf = .ok (some w) ∧ w.SCanon ∧ ∃ b ∈ keys,
      (Ristretto.mul c Ed.BASEPOINT w >>= Ristretto.compress c) = .ok b
  | _, [], [], _, _, _, _, _, h => absurd rfl h
  | _, [], _ :: _, _, _, _, _, h, _ => by simp at h
  | _, _ :: _, [], _, _, _, _, h, _ => by simp at h
  | [], _ :: _, _ :: _, _, _, h, _, _, _ => by simp at h
  | b :: bs, t :: ts, u :: us, h1, h2, h3, h4, h5, h6 => by
    rw [List.forall₂_cons] at h3 h4
    rw [List.map_cons, List.map_cons, List.cons.injEq] at h5
    have ht := h1 t (by simp)
    have hu := h2 u (by simp)
    unfold extractOne
    by_cases he : sv t.2.1 = sv u.2.1
    · rw [if_pos ((sctEq_iff ht.1 hu.1).2 he)]
      obtain ⟨w, ew, hw, b', hb', e⟩ := extractOne_ok c hc bs ts us (fun x hx => h1 x (by simp [hx]))
        (fun x hx => h2 x (by simp [hx])) h3.2 h4.2 h5.2 (by
          intro h
          apply h6
          simp only [List.map_cons, List.sum_cons]
          rw [he, h])
      exact ⟨w, ew, hw, b', by simp [hb'], e⟩
    · rw [if_neg (fun h => he ((sctEq_iff ht.1 hu.1).1 h))]
      obtain ⟨w, ew, hw, e⟩ := solve_ok c hc ht hu h3.1 h4.1 h5.1 he
      refine ⟨w, ?_, hw, b, by simp, e⟩
      rw [ew, Res.ok_bind]
      rfl

/-- C120: whoever can answer two challenges for the same commitments knows the secret of one of the keys: it is computed
from the two proofs. -/
theorem C120_extract (c : Cfg) (hc : c.Enough) (keys : List Bytes32) (ch ch' : Sc) (pf qf : List Part)
    (hch : ch.SCanon) (hch' : ch'.SCanon) (hpf : ∀ t ∈ pf, Fine t.2) (hqf : ∀ t ∈ qf, Fine t.2) (hne : ch ≠ ch')
    (hv : verifyOne c keys ch pf = .ok true) (hv' : verifyOne c keys ch' qf = .ok true)
    (hcom : pf.map Prod.fst = qf.map Prod.fst) :
    ∃ w, extractOne c pf qf = .ok (some w) ∧ w.SCanon ∧ ∃ b ∈ keys,
      (Ristretto.mul c Ed.BASEPOINT w >>= Ristretto.compress c) = .ok b := by
  obtain ⟨v, ev, h⟩ := verifyOne_ok c hc keys ch pf hch hpf
  obtain ⟨v', ev', h'⟩ := verifyOne_ok c hc keys ch' qf hch' hqf
  rw [ev, Res.ok_inj] at hv
  rw [ev', Res.ok_inj] at hv'
  obtain ⟨f, s⟩ := h.1 hv
  obtain ⟨f', s'⟩ := h'.1 hv'
  refine extractOne_ok c hc keys pf qf hpf hqf f f' hcom ?_
  rw [s, s']
  exact fun h => hne ((sv_inj hch hch').1 h)

/-- C120: an owner who uses the same random scalars for two challenges gives the secret away: the commitments are the
same, and what is computed from the two proofs is the secret of this owner. -/
theorem C120_reuse (c : Cfg) (hc : c.Enough) (pre post : List Bytes32) (x k ch ch' : Sc)
    (rpre rpost : List (Sc × Sc)) (hpre : ∀ b ∈ pre, Decodes c b) (hpost : ∀ b ∈ post, Decodes c b) (hx : x.SCanon)
    (hk : k.SCanon) (hch : ch.SCanon) (hch' : ch'.SCanon) (hne : ch ≠ ch') (hr : ∀ r ∈ rpre, Fine r)
    (hr' : ∀ r ∈ rpost, Fine r) (hl : pre.length = rpre.length) (hl' : post.length = rpost.length) :
    ∃ pf qf, proveOne c pre post x k ch rpre rpost = .ok (some pf) ∧
      proveOne c pre post x k ch' rpre rpost = .ok (some qf) ∧ pf.map Prod.fst = qf.map Prod.fst ∧
      extractOne c pf qf = .ok (some x) := by
  obtain ⟨X, eX, hX⟩ := lg_base_mul c hc hx
  obtain ⟨own, P, eo, eP, hP⟩ := hX.wire c hc
  have hown : (Ristretto.mul c Ed.BASEPOINT x >>= Ristretto.compress c) = .ok own := by rw [eX, Res.ok_bind, eo]
  obtain ⟨a, z, r, e, s, e1, ma, mz, he, hs, -, vc, -, -, ea, ez, er, han⟩ := proveOne_ok c hc pre post own x k ch rpre
    rpost hpre hpost hx hk hch hr hr' hl hl' hown
  obtain ⟨a', z', r', e', s', e1', -, -, he', hs', -, vc', -, -, ea', ez', er', han'⟩ := proveOne_ok c hc pre post own x
    k ch' rpre rpost hpre hpost hx hk hch' hr hr' hl hl' hown
  rw [ea, Res.ok_inj, Option.some.injEq] at ea'
  rw [ez, Res.ok_inj, Option.some.injEq] at ez'
  rw [er, Res.ok_inj] at er'
  subst ea' ez' er'
  have hd : sv e ≠ sv e' := by
    intro h
    apply hne
    rw [← sv_inj hch hch', vc, vc', h]
  refine ⟨_, _, e1, e1', by simp, ?_⟩
  obtain ⟨w, ew, hw, hb⟩ := solve_ok c hc (t := (r, e, s)) (u := (r, e', s')) ⟨he, hs⟩ ⟨he', hs'⟩ han han' rfl hd
  have hwx : w = x := by
    obtain ⟨W, eW, hW⟩ := lg_base_mul c hc hw
    rw [eW, Res.ok_bind, ← eo] at hb
    rw [← sv_inj hw hx]
    exact (hW.enc_eq c hc hX).1 hb
  have hfa : ∀ t ∈ a, t.2.1.SCanon := fun t ht => (hr _ (ma ▸ List.mem_map_of_mem ht)).1
  clear ea ma e1 e1'
  induction a with
  | nil =>
    rw [List.nil_append, List.nil_append]
    unfold extractOne
    rw [if_neg (fun h => hd ((sctEq_iff he he').1 h)), ew, Res.ok_bind, hwx]
    rfl
  | cons t a ih =>
    rw [List.cons_append, List.cons_append]
    unfold extractOne
    have ht := hfa t (by simp)
    rw [if_pos ((sctEq_iff ht ht).2 rfl)]
    exact ih (fun u hu => hfa u (by simp [hu]))

/-- C120: for a challenge known beforehand an accepted proof is made without any secret, for all keys that decode. -/
theorem C120_pretend (c : Cfg) (hc : c.Enough) (keys : List Bytes32) (rs : List (Sc × Sc))
    (hk : ∀ b ∈ keys, Decodes c b) (hr : ∀ r ∈ rs, Fine r) (hl : keys.length = rs.length) :
    ∃ pf ch, pretend c keys rs = .ok (some pf) ∧ sumFrom c Scalar.zero rs = .ok ch ∧
      verifyOne c keys ch pf = .ok true := by
  obtain ⟨pf, e, m, f⟩ := pretend_ok c hc keys rs hk hr hl
  obtain ⟨ch, ec, hch, vc⟩ := sumFrom_ok c rs Scalar.zero zero_canon (fun r h => (hr r h).1)
  refine ⟨pf, ch, e, ec, ?_⟩
  have hf : ∀ t ∈ pf, Fine t.2 := fun t ht => hr _ (m ▸ List.mem_map_of_mem ht)
  obtain ⟨v, ev, hv⟩ := verifyOne_ok c hc keys ch pf hch hf
  rw [ev, Res.ok_inj, hv]
  refine ⟨f, ?_⟩
  rw [vc, sv_zero, zero_add, ← m, List.map_map]
  rfl

/-- C120: the verifier returns on all byte strings and all reduced scalars, and rejects if a key or a commitment does not
decode or the number of parts is not that of the keys. -/
theorem C120_verifier (c : Cfg) (hc : c.Enough) (keys : List Bytes32) (ch : Sc) (pf : List Part) (hch : ch.SCanon)
    (hpf : ∀ t ∈ pf, Fine t.2) :
    ∃ v, verifyOne c keys ch pf = .ok v ∧
      (v = true → pf.length = keys.length ∧ (∀ b ∈ keys, Decodes c b) ∧ ∀ t ∈ pf, Decodes c t.1) := by
  obtain ⟨v, ev, hv⟩ := verifyOne_ok c hc keys ch pf hch hpf
  refine ⟨v, ev, fun h => ?_⟩
  obtain ⟨f, -⟩ := hv.1 h
  refine ⟨f.length_eq.symm, ?_⟩
  clear hv ev hpf
  induction f with
  | nil => simp
  | cons h1 _ ih =>
    obtain ⟨P, R, _, _, e1, e2, _⟩ := h1
    simp only [List.mem_cons, forall_eq_or_imp]
    exact ⟨⟨⟨P, e1⟩, ih.1⟩, ⟨R, e2⟩, ih.2⟩

/-- The hypotheses of completeness and reuse are met: the base point and the identity as other keys. The accepted proofs
that completeness gives meet those of the other theorems. -/
example : (∀ b ∈ [Ristretto.BASEPOINT_COMPRESSED, Ristretto.compressedIdentity], Decodes dbg b) ∧
    Fine (⟨5, 0, 0, 0, 0⟩, Scalar.minusOne) ∧
    ∃ own, (Ristretto.mul dbg Ed.BASEPOINT ⟨7, 0, 0, 0, 0⟩ >>= Ristretto.compress dbg) = .ok own := by
  refine ⟨?_, ⟨by decide, Scalar.minusOne_canon⟩, ?_⟩
  · have h : ∀ {P k}, Lg P k → ∀ b, Ristretto.compress dbg P = .ok b → Decodes dbg b := by
      intro P k hP b e
      obtain ⟨b', Q, e', eQ, -⟩ := hP.wire dbg (by decide)
      rw [e, Res.ok_inj] at e'
      subst e'
      exact ⟨Q, eQ⟩
    intro b hb
    rcases List.mem_cons.1 hb with rfl | hb
    · exact h Lg.base _ (by decide +kernel)
    · rw [List.mem_singleton] at hb
      subst hb
      exact h Lg.identity _ (by decide +kernel)
  · obtain ⟨S, eS, hS⟩ := lg_base_mul dbg (by decide) (s := ⟨7, 0, 0, 0, 0⟩) (by decide)
    obtain ⟨b, _, eb, -⟩ := hS.wire dbg (by decide)
    exact ⟨b, by rw [eS, Res.ok_bind, eb]⟩

end Props
end Zerocaf
