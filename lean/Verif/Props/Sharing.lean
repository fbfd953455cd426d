import Verif.Props.Membership
import Verif.Proof.Interpolate

/-!
# Property C128: sharing a secret scalar

Shares of a secret scalar (values of a polynomial), recovery from enough of them, checking a share against published
encodings and multiplying a point by a shared secret, written here with the modelled operations. These steps are not in
the code.
-/

set_option exponentiation.threshold 600

namespace Zerocaf
namespace Props

open Ristretto

/-! ### The steps -/

/-- The share of `i`: the value at `i` of the polynomial with these coefficients, the secret first. -/
def share (c : Cfg) : List Sc → Sc → Res Sc
  | [], _ => .ok Scalar.zero
  | a :: l, i => do
    let t ← share c l i
    let m ← Scalar.mul c t i
    Scalar.add c a m

/-- All shares. -/
def deal (c : Cfg) (l : List Sc) : List Sc → Res (List (Sc × Sc))
  | [] => .ok []
  | i :: is => do
    let s ← share c l i
    let r ← deal c l is
    return (i, s) :: r

/-- Numerator and denominator of the weight of `i`. -/
def weightLoop (c : Cfg) (i : Sc) : List Sc → Res (Sc × Sc)
  | [] => .ok (Scalar.one, Scalar.one)
  | j :: js => do
    let (n, d) ← weightLoop c i js
    if Scalar.ctEq j i then return (n, d)
    else
      let n ← Scalar.mul c j n
      let ji ← Scalar.sub c j i
      let d ← Scalar.mul c ji d
      return (n, d)

/-- The weight of `i` among `is`; the inverse is the power `L - 2`. -/
def weightOf (c : Cfg) (is : List Sc) (i : Sc) : Res Sc := do
  let (n, d) ← weightLoop c i is
  let v ← Scalar.pow c d ⟨Scalar.minusOne.l0 - 1, Scalar.minusOne.l1, Scalar.minusOne.l2, Scalar.minusOne.l3,
    Scalar.minusOne.l4⟩
  Scalar.mul c n v

/-- The weighted sum of shares. -/
def combine (c : Cfg) (is : List Sc) : List (Sc × Sc) → Res Sc
  | [] => .ok Scalar.zero
  | (i, s) :: r => do
    let t ← combine c is r
    let w ← weightOf c is i
    let m ← Scalar.mul c w s
    Scalar.add c m t

/-- The secret from shares. -/
def recover (c : Cfg) (sh : List (Sc × Sc)) : Res Sc := combine c (sh.map Prod.fst) sh

/-- The published encodings of the coefficients. -/
def publish (c : Cfg) : List Sc → Res (List Bytes32)
  | [] => .ok []
  | a :: l => do
    let A ← Ristretto.mul c Ed.BASEPOINT a
    let b ← Ristretto.compress c A
    let r ← publish c l
    return b :: r

/-- The point that belongs to `i`, from the published encodings. -/
def expected (c : Cfg) : List Bytes32 → Sc → Res (Option EdPoint)
  | [], _ => .ok (some Ristretto.identity)
  | b :: bs, i => do
    let o ← Ristretto.decompress c b
    let r ← expected c bs i
    match o, r with
    | some A, some R =>
      let M ← Ristretto.mul c R i
      let S ← Ristretto.add c A M
      return some S
    | _, _ => return none

/-- The check of a share. -/
def checkShare (c : Cfg) (pub : List Bytes32) (i s : Sc) : Res Bool := do
  let r ← expected c pub i
  match r with
  | none => return false
  | some R =>
    let S ← Ristretto.mul c Ed.BASEPOINT s
    Ristretto.ctEq c S R

/-- What the owners of shares send for a point. -/
def partials (c : Cfg) (P : EdPoint) : List (Sc × Sc) → Res (List (Sc × Bytes32))
  | [] => .ok []
  | (i, s) :: r => do
    let S ← Ristretto.mul c P s
    let b ← Ristretto.compress c S
    let t ← partials c P r
    return (i, b) :: t

/-- The weighted sum of what they sent. -/
def combinePoints (c : Cfg) (is : List Sc) : List (Sc × Bytes32) → Res (Option EdPoint)
  | [] => .ok (some Ristretto.identity)
  | (i, b) :: r => do
    let t ← combinePoints c is r
    let o ← Ristretto.decompress c b
    match o, t with
    | some S, some T =>
      let w ← weightOf c is i
      let M ← Ristretto.mul c S w
      let R ← Ristretto.add c M T
      return some R
    | _, _ => return none

/-- The encoding of the sum. -/
def recoverPoint (c : Cfg) (parts : List (Sc × Bytes32)) : Res (Option Bytes32) := do
  let o ← combinePoints c (parts.map Prod.fst) parts
  match o with
  | none => return none
  | some R =>
    let b ← Ristretto.compress c R
    return some b

/-! ### What they compute -/

theorem share_ok (c : Cfg) : ∀ (l : List Sc) (i : Sc), (∀ a ∈ l, a.SCanon) → i.SCanon →
    ∃ s, share c l i = .ok s ∧ s.SCanon ∧ sv s = Interpolate.value (l.map sv) (sv i)
  | [], i, _, _ => ⟨Scalar.zero, rfl, zero_canon, sv_zero⟩
  | a :: l, i, h, hi => by
    obtain ⟨t, et, ht, vt⟩ := share_ok c l i (fun x hx => h x (List.mem_cons_of_mem _ hx)) hi
    have ha := h a List.mem_cons_self
    obtain ⟨m, em, -⟩ := C27_mul c t i ht.1 hi.1
    obtain ⟨hm, vm⟩ := sv_mul ht.1 hi.1 em
    obtain ⟨s, es, -⟩ := C25_add c a m ha hm
    obtain ⟨hs, vs⟩ := sv_add ha hm es
    refine ⟨s, ?_, hs, ?_⟩
    · unfold share
      rw [et, Res.ok_bind, em, Res.ok_bind, es]
    · rw [vs, vm, vt, List.map_cons, Interpolate.value]

theorem deal_ok (c : Cfg) (l : List Sc) (h : ∀ a ∈ l, a.SCanon) : ∀ is : List Sc, (∀ i ∈ is, i.SCanon) →
    ∃ sh, deal c l is = .ok sh ∧ sh.map Prod.fst = is ∧
      ∀ t ∈ sh, t.1.SCanon ∧ t.2.SCanon ∧ sv t.2 = Interpolate.value (l.map sv) (sv t.1)
  | [], _ => ⟨[], rfl, rfl, by simp⟩
  | i :: is, hi => by
    obtain ⟨s, es, hs, vs⟩ := share_ok c l i h (hi i List.mem_cons_self)
    obtain ⟨r, er, mr, hr⟩ := deal_ok c l h is (fun x hx => hi x (List.mem_cons_of_mem _ hx))
    refine ⟨(i, s) :: r, ?_, by rw [List.map_cons, mr], ?_⟩
    · unfold deal
      rw [es, Res.ok_bind, er, Res.ok_bind]
      rfl
    · intro t ht
      rcases List.mem_cons.1 ht with rfl | ht
      · exact ⟨hi _ List.mem_cons_self, hs, vs⟩
      · exact hr t ht

theorem sv_enc (k : ZMod ell) : (encNat k.val).SCanon ∧ sv (encNat k.val) = k := by
  have h : (encNat k.val).val = k.val := encNat_val _ (lt_trans (ZMod.val_lt k) (by decide))
  refine ⟨⟨encNat_WF _, by rw [h]; exact ZMod.val_lt k⟩, ?_⟩
  unfold sv
  rw [h]
  exact ZMod.natCast_zmod_val k

theorem one_canon : Scalar.one.SCanon := by decide

theorem sv_one : sv Scalar.one = 1 := by
  unfold sv
  rw [show Scalar.one.val = 1 by decide, Nat.cast_one]

theorem weightLoop_ok (c : Cfg) (i : Sc) (hi : i.SCanon) : ∀ is : List Sc, (∀ j ∈ is, j.SCanon) →
    ∃ n d, weightLoop c i is = .ok (n, d) ∧ n.SCanon ∧ d.SCanon ∧
      sv n = ((is.map sv).filter (· ≠ sv i)).prod ∧ sv d = (((is.map sv).filter (· ≠ sv i)).map (· - sv i)).prod
  | [], _ => ⟨_, _, rfl, one_canon, one_canon, sv_one, sv_one⟩
  | j :: js, h => by
    obtain ⟨n, d, e, hn, hd, vn, vd⟩ := weightLoop_ok c i hi js (fun x hx => h x (List.mem_cons_of_mem _ hx))
    have hj := h j List.mem_cons_self
    unfold weightLoop
    rw [e, Res.ok_bind]
    dsimp only
    by_cases hji : sv j = sv i
    · rw [if_pos ((sctEq_iff hj hi).2 hji)]
      refine ⟨n, d, rfl, hn, hd, ?_, ?_⟩
      · rw [List.map_cons, List.filter_cons_of_neg (by simpa using hji), vn]
      · rw [List.map_cons, List.filter_cons_of_neg (by simpa using hji), vd]
    · rw [if_neg (fun h => hji ((sctEq_iff hj hi).1 h))]
      obtain ⟨n', en, -⟩ := C27_mul c j n hj.1 hn.1
      obtain ⟨hn', vn'⟩ := sv_mul hj.1 hn.1 en
      obtain ⟨ji, eji, -⟩ := C26_sub c j i hj hi
      obtain ⟨hji', vji⟩ := sv_sub hj hi eji
      obtain ⟨d', ed, -⟩ := C27_mul c ji d hji'.1 hd.1
      obtain ⟨hd', vd'⟩ := sv_mul hji'.1 hd.1 ed
      refine ⟨n', d', ?_, hn', hd', ?_, ?_⟩
      · rw [en, Res.ok_bind, eji, Res.ok_bind, ed, Res.ok_bind]
        rfl
      · rw [List.map_cons, List.filter_cons_of_pos (by simpa using hji), List.prod_cons, vn', vn]
      · rw [List.map_cons, List.filter_cons_of_pos (by simpa using hji), List.map_cons, List.prod_cons, vd', vd, vji]

theorem weightOf_ok (c : Cfg) (hc : c.Enough) (is : List Sc) (i : Sc) (h : ∀ j ∈ is, j.SCanon) (hi : i.SCanon) :
    ∃ w, weightOf c is i = .ok w ∧ w.SCanon ∧ sv w = Interpolate.weight (is.map sv) (sv i) := by
  obtain ⟨n, d, e, hn, hd, vn, vd⟩ := weightLoop_ok c i hi is h
  have hx : (⟨Scalar.minusOne.l0 - 1, Scalar.minusOne.l1, Scalar.minusOne.l2, Scalar.minusOne.l3,
      Scalar.minusOne.l4⟩ : Sc).SCanon := by decide
  have hxv : (⟨Scalar.minusOne.l0 - 1, Scalar.minusOne.l1, Scalar.minusOne.l2, Scalar.minusOne.l3,
      Scalar.minusOne.l4⟩ : Sc).val = ell - 2 := by decide
  obtain ⟨v, ev, hv, vv⟩ := C29_pow c hc d _ hd.1 hx
  rw [hxv] at vv
  obtain ⟨w, ew, -⟩ := C27_mul c n v hn.1 hv.1
  obtain ⟨hw, vw⟩ := sv_mul hn.1 hv.1 ew
  refine ⟨w, ?_, hw, ?_⟩
  · unfold weightOf
    rw [e, Res.ok_bind]
    dsimp only
    rw [ev, Res.ok_bind, ew]
  · have d0 : sv d ≠ 0 := by
      rw [vd]
      refine List.prod_ne_zero fun h0 => ?_
      obtain ⟨j, hj, h0⟩ := List.mem_map.1 h0
      have := (List.mem_filter.1 hj).2
      rw [sub_eq_zero] at h0
      simp [h0] at this
    have hinv : sv v = (sv d)⁻¹ := by
      refine eq_inv_of_mul_eq_one_left ?_
      unfold sv at d0 ⊢
      rw [vv, ZMod.natCast_mod, Nat.cast_pow, ← pow_succ, show ell - 2 + 1 = ell - 1 by decide]
      exact ZMod.pow_card_sub_one_eq_one d0
    rw [vw, hinv, vn, vd, Interpolate.weight]

theorem combine_ok (c : Cfg) (hc : c.Enough) (is : List Sc) (h : ∀ j ∈ is, j.SCanon) : ∀ sh : List (Sc × Sc),
    (∀ t ∈ sh, t.1.SCanon ∧ t.2.SCanon) →
    ∃ s, combine c is sh = .ok s ∧ s.SCanon ∧
      sv s = (sh.map fun t => Interpolate.weight (is.map sv) (sv t.1) * sv t.2).sum
  | [], _ => ⟨_, rfl, zero_canon, sv_zero⟩
  | (i, s) :: r, ht => by
    obtain ⟨hi, hs⟩ := ht (i, s) List.mem_cons_self
    obtain ⟨t, et, ht, vt⟩ := combine_ok c hc is h r (fun x hx => ht x (List.mem_cons_of_mem _ hx))
    obtain ⟨w, ew, hw, vw⟩ := weightOf_ok c hc is i h hi
    obtain ⟨m, em, -⟩ := C27_mul c w s hw.1 hs.1
    obtain ⟨hm, vm⟩ := sv_mul hw.1 hs.1 em
    obtain ⟨u, eu, -⟩ := C25_add c m t hm ht
    obtain ⟨hu, vu⟩ := sv_add hm ht eu
    refine ⟨u, ?_, hu, ?_⟩
    · unfold combine
      rw [et, Res.ok_bind, ew, Res.ok_bind, em, Res.ok_bind, eu]
    · rw [vu, vm, vw, vt, List.map_cons, List.sum_cons]

theorem sv_nodup {is : List Sc} (h : ∀ i ∈ is, i.SCanon) (hn : is.Nodup) : (is.map sv).Nodup :=
  hn.map_on fun x hx y hy e => (sv_inj (h x hx) (h y hy)).1 e

/-- The weighted sum of the values of a polynomial. -/
theorem weighted_sum {l : List (ZMod ell)} {is : List Sc} {sh : List (Sc × Sc)} (h : ∀ i ∈ is, i.SCanon) (hn : is.Nodup)
    (hm : sh.map Prod.fst = is) (hv : ∀ t ∈ sh, sv t.2 = Interpolate.value l (sv t.1)) (hl : l.length ≤ is.length) :
    (sh.map fun t => Interpolate.weight (is.map sv) (sv t.1) * sv t.2).sum = Interpolate.value l 0 := by
  rw [← Interpolate.value_zero (is.map sv) l (sv_nodup h hn) (by rw [List.length_map]; exact hl)]
  have e : (sh.map fun t => Interpolate.weight (is.map sv) (sv t.1) * sv t.2) =
      sh.map fun t => Interpolate.weight (is.map sv) (sv t.1) * Interpolate.value l (sv t.1) :=
    List.map_congr_left fun t ht => by rw [hv t ht]
  rw [e]
  have e2 : is.map sv = sh.map fun t => sv t.1 := by rw [← hm, List.map_map]; rfl
  generalize hw : Interpolate.weight (is.map sv) = W
  rw [e2, List.map_map]
  rfl

/-! ### C128 -/

/-- C128: as many shares as there are coefficients, for any distinct scalars, give the secret back. -/
theorem C128_recover (c : Cfg) (hc : c.Enough) (a : Sc) (l is : List Sc) (hl : ∀ x ∈ a :: l, x.SCanon)
    (hi : ∀ i ∈ is, i.SCanon) (hn : is.Nodup) (hlen : l.length < is.length) :
    ∃ sh, deal c (a :: l) is = .ok sh ∧ sh.map Prod.fst = is ∧ recover c sh = .ok a := by
  obtain ⟨sh, e, hm, hs⟩ := deal_ok c (a :: l) hl is hi
  refine ⟨sh, e, hm, ?_⟩
  unfold recover
  rw [hm]
  obtain ⟨s, es, hs', vs⟩ := combine_ok c hc is hi sh fun t ht => ⟨(hs t ht).1, (hs t ht).2.1⟩
  rw [es, Res.ok_inj, ← sv_inj hs' (hl a List.mem_cons_self), vs,
    weighted_sum hi hn hm (fun t ht => (hs t ht).2.2) (by rw [List.length_map, List.length_cons]; omega),
    List.map_cons, Interpolate.value, mul_zero, add_zero]

/-- C128: one share less tells nothing. For any values at distinct scalars other than zero and any secret, exactly one
choice of the other coefficients deals these shares. -/
theorem C128_hiding (c : Cfg) (a : Sc) (sh : List (Sc × Sc)) (ha : a.SCanon) (hs : ∀ t ∈ sh, t.1.SCanon ∧ t.2.SCanon)
    (hn : (sh.map Prod.fst).Nodup) (h0 : ∀ t ∈ sh, t.1.val ≠ 0) :
    ∃! l : List Sc, l.length = sh.length ∧ (∀ x ∈ l, x.SCanon) ∧ deal c (a :: l) (sh.map Prod.fst) = .ok sh := by
  have hi : ∀ i ∈ sh.map Prod.fst, i.SCanon := by
    intro i hi
    obtain ⟨t, ht, rfl⟩ := List.mem_map.1 hi
    exact (hs t ht).1
  have hdeal : ∀ l : List Sc, (∀ x ∈ l, x.SCanon) → (deal c (a :: l) (sh.map Prod.fst) = .ok sh ↔
      ∀ t ∈ sh, sv t.2 = Interpolate.value (sv a :: l.map sv) (sv t.1)) := by
    intro l hl
    have hl' : ∀ x ∈ a :: l, x.SCanon := by
      intro x hx
      rcases List.mem_cons.1 hx with rfl | hx
      · exact ha
      · exact hl x hx
    obtain ⟨r, er, mr, hr⟩ := deal_ok c (a :: l) hl' (sh.map Prod.fst) hi
    rw [er, Res.ok_inj]
    constructor
    · rintro rfl t ht
      exact (hr t ht).2.2
    · intro h
      have hlen : r.length = sh.length := by simpa using congrArg List.length mr
      apply List.ext_getElem hlen
      intro k h1 h2
      have e1 : r[k].1 = sh[k].1 := by
        have := List.getElem_of_eq mr (show k < (r.map Prod.fst).length by simpa using h1)
        simpa using this
      have h3 := hr r[k] (List.getElem_mem h1)
      have h4 := h sh[k] (List.getElem_mem h2)
      refine Prod.ext e1 ?_
      rw [← sv_inj h3.2.1 (hs _ (List.getElem_mem h2)).2, h3.2.2, h4, e1, List.map_cons]
  have z0 : ∀ t ∈ sh, sv t.1 ≠ 0 := by
    intro t ht h
    rw [← sv_zero, sv_inj (hs t ht).1 zero_canon] at h
    exact h0 t ht (by rw [h]; decide)
  have hnodes : ((0 : ZMod ell) :: (sh.map Prod.fst).map sv).Nodup := by
    rw [List.nodup_cons]
    refine ⟨fun h => ?_, sv_nodup hi hn⟩
    obtain ⟨i, h1, h2⟩ := List.mem_map.1 h
    obtain ⟨t, ht, rfl⟩ := List.mem_map.1 h1
    exact z0 t ht h2
  -- the values as a function
  have hfun : ∃ v : ZMod ell → ZMod ell, v 0 = sv a ∧ ∀ t ∈ sh, v (sv t.1) = sv t.2 := by
    classical
    refine ⟨fun x => if h : ∃ t ∈ sh, sv t.1 = x then sv h.choose.2 else sv a, ?_, fun t ht => ?_⟩
    · dsimp only
      rw [dif_neg]
      rintro ⟨t, ht, h⟩
      exact z0 t ht h
    · have h : ∃ u ∈ sh, sv u.1 = sv t.1 := ⟨t, ht, rfl⟩
      dsimp only
      rw [dif_pos h]
      have g := h.choose_spec
      have e : h.choose.1 = t.1 := (sv_inj (hs _ g.1).1 (hs t ht).1).1 g.2
      rw [List.inj_on_of_nodup_map hn g.1 ht e]
  obtain ⟨v, v0, hv⟩ := hfun
  obtain ⟨m, ⟨hm1, hm2⟩, hm3⟩ := Interpolate.exists_unique_value _ hnodes v
  have hval : ∀ m : List (ZMod ell), (∀ i ∈ (0 : ZMod ell) :: (sh.map Prod.fst).map sv, Interpolate.value m i = v i) ↔
      Interpolate.value m 0 = sv a ∧ ∀ t ∈ sh, sv t.2 = Interpolate.value m (sv t.1) := by
    intro m
    rw [List.forall_mem_cons, v0]
    refine and_congr_right fun _ => ⟨fun h t ht => ?_, fun h i hi => ?_⟩
    · rw [h (sv t.1) (List.mem_map_of_mem (List.mem_map_of_mem ht)), hv t ht]
    · obtain ⟨j, h1, rfl⟩ := List.mem_map.1 hi
      obtain ⟨t, ht, rfl⟩ := List.mem_map.1 h1
      rw [← h t ht, hv t ht]
  cases m with
  | nil => simp at hm1
  | cons b m =>
    rw [hval] at hm2
    have hb : b = sv a := by
      have := hm2.1
      rwa [Interpolate.value, mul_zero, add_zero] at this
    subst hb
    refine ⟨m.map fun k => encNat k.val, ⟨by simpa using hm1, ?_, ?_⟩, ?_⟩
    · intro x hx
      obtain ⟨k, _, rfl⟩ := List.mem_map.1 hx
      exact (sv_enc k).1
    · rw [hdeal _ (by
        intro x hx
        obtain ⟨k, _, rfl⟩ := List.mem_map.1 hx
        exact (sv_enc k).1), List.map_map]
      have e : m.map (sv ∘ fun k => encNat k.val) = m := by
        conv_rhs => rw [← List.map_id m]
        exact List.map_congr_left fun k _ => (sv_enc k).2
      rw [e]
      exact hm2.2
    · rintro l ⟨h1, h2, h3⟩
      have h4 := (hdeal l h2).1 h3
      have h5 := hm3 (sv a :: l.map sv) ⟨by simpa using h1, (hval _).2
        ⟨by rw [Interpolate.value, mul_zero, add_zero], h4⟩⟩
      rw [List.cons.injEq] at h5
      rw [← h5.2, List.map_map]
      conv_lhs => rw [← List.map_id l]
      refine List.map_congr_left fun x hx => ?_
      show x = encNat (sv x).val
      exact (sv_inj (h2 x hx) (sv_enc _).1).1 (sv_enc _).2.symm

/-- The published encodings of coefficients. -/
theorem publish_ok (c : Cfg) (hc : c.Enough) : ∀ l : List Sc, (∀ a ∈ l, a.SCanon) →
    ∃ pub, publish c l = .ok pub ∧
      List.Forall₂ (fun a b => ∃ A, Ristretto.decompress c b = .ok (some A) ∧ Lg A (sv a)) l pub
  | [], _ => ⟨[], rfl, .nil⟩
  | a :: l, h => by
    obtain ⟨r, er, hr⟩ := publish_ok c hc l (fun x hx => h x (List.mem_cons_of_mem _ hx))
    obtain ⟨A, eA, hA⟩ := lg_base_mul c hc (h a List.mem_cons_self)
    obtain ⟨b, Q, eb, eQ, hQ⟩ := hA.wire c hc
    refine ⟨b :: r, ?_, .cons ⟨Q, eQ, hQ⟩ hr⟩
    unfold publish
    rw [eA, Res.ok_bind, eb, Res.ok_bind, er, Res.ok_bind]
    rfl

/-- The published encodings are those of these coefficients only. -/
theorem publish_of (c : Cfg) (hc : c.Enough) {l : List Sc} {pub : List Bytes32} (hl : ∀ a ∈ l, a.SCanon)
    (h : List.Forall₂ (fun a b => ∃ A, Ristretto.decompress c b = .ok (some A) ∧ Lg A (sv a)) l pub) :
    publish c l = .ok pub := by
  induction h with
  | nil => rfl
  | @cons a b l r h1 _ ih =>
    obtain ⟨Q, eQ, hQ⟩ := h1
    obtain ⟨A, eA, hA⟩ := lg_base_mul c hc (hl a List.mem_cons_self)
    have eb : Ristretto.compress c A = .ok b := by
      rw [← C59_decode_encode c hc b Q eQ]
      exact (hA.enc_eq c hc hQ).2 rfl
    unfold publish
    rw [eA, Res.ok_bind, eb, Res.ok_bind, ih fun x hx => hl x (List.mem_cons_of_mem _ hx), Res.ok_bind]
    rfl

theorem expected_ok (c : Cfg) (hc : c.Enough) {l : List Sc} {pub : List Bytes32} {i : Sc} (hi : i.SCanon)
    (h : List.Forall₂ (fun a b => ∃ A, Ristretto.decompress c b = .ok (some A) ∧ Lg A (sv a)) l pub) :
    ∃ R, expected c pub i = .ok (some R) ∧ Lg R (Interpolate.value (l.map sv) (sv i)) := by
  induction h with
  | nil => exact ⟨_, rfl, Lg.identity⟩
  | @cons a b l r h1 _ ih =>
    obtain ⟨A, eA, hA⟩ := h1
    obtain ⟨R, eR, hR⟩ := ih
    obtain ⟨M, eM, hM⟩ := hR.mul c hc i hi.1 (Scalar.scanon_lt256 hi)
    obtain ⟨S, eS, hS⟩ := hA.add c hM
    refine ⟨S, ?_, ?_⟩
    · unfold expected
      rw [eA, Res.ok_bind, eR, Res.ok_bind]
      dsimp only
      rw [eM, Res.ok_bind, eS, Res.ok_bind]
      rfl
    · rw [List.map_cons, Interpolate.value, mul_comm]
      exact hS

/-- C128: a share is accepted against the published encodings exactly if it is the share dealt. -/
theorem C128_check (c : Cfg) (hc : c.Enough) (l : List Sc) (hl : ∀ a ∈ l, a.SCanon) :
    ∃ pub, publish c l = .ok pub ∧ ∀ i s : Sc, i.SCanon → s.SCanon →
      ∃ v, checkShare c pub i s = .ok v ∧ (v = true ↔ share c l i = .ok s) := by
  obtain ⟨pub, ep, hp⟩ := publish_ok c hc l hl
  refine ⟨pub, ep, fun i s hi hs => ?_⟩
  obtain ⟨R, eR, hR⟩ := expected_ok c hc hi hp
  obtain ⟨S, eS, hS⟩ := lg_base_mul c hc hs
  obtain ⟨A, hA, _⟩ := id hS
  obtain ⟨B, hB, _⟩ := id hR
  obtain ⟨v, ev, _⟩ := C58_eq_iff c hA hB
  obtain ⟨u, eu, hu, vu⟩ := share_ok c l i hl hi
  refine ⟨v, ?_, ?_⟩
  · unfold checkShare
    rw [eR, Res.ok_bind]
    dsimp only
    rw [eS, Res.ok_bind, ev]
  · have h := hS.req c hR
    unfold REq at h
    rw [ev, Res.ok_inj] at h
    rw [h, eu, Res.ok_inj, ← sv_inj hu hs, vu]
    exact eq_comm

/-- C128: whoever publishes encodings that all decode has committed to exactly one list of coefficients. -/
theorem C128_binding (c : Cfg) (hc : c.Enough) (pub : List Bytes32) (h : ∀ b ∈ pub, Decodes c b) :
    ∃! l : List Sc, (∀ a ∈ l, a.SCanon) ∧ publish c l = .ok pub := by
  have hex : ∃ l : List Sc, (∀ a ∈ l, a.SCanon) ∧
      List.Forall₂ (fun a b => ∃ A, Ristretto.decompress c b = .ok (some A) ∧ Lg A (sv a)) l pub := by
    induction pub with
    | nil => exact ⟨[], by simp, .nil⟩
    | cons b bs ih =>
      obtain ⟨l, h1, h2⟩ := ih fun x hx => h x (List.mem_cons_of_mem _ hx)
      obtain ⟨A, eA⟩ := h b List.mem_cons_self
      obtain ⟨k, hk⟩ := Lg.decoded c hc eA
      obtain ⟨a, ha, rfl⟩ := sv_surj k
      refine ⟨a :: l, ?_, .cons ⟨A, eA, hk⟩ h2⟩
      intro x hx
      rcases List.mem_cons.1 hx with rfl | hx
      · exact ha
      · exact h1 x hx
  obtain ⟨l, h1, h2⟩ := hex
  refine ⟨l, ⟨h1, publish_of c hc h1 h2⟩, ?_⟩
  rintro m ⟨h3, h4⟩
  obtain ⟨pub', e, h5⟩ := publish_ok c hc m h3
  rw [h4, Res.ok_inj] at e
  subst e
  clear h4 h
  induction h2 generalizing m with
  | nil => cases h5; rfl
  | @cons a b l r g1 g2 ih =>
    cases h5 with
    | @cons a' _ l' _ g3 g4 =>
      obtain ⟨A, eA, hA⟩ := g1
      obtain ⟨A', eA', hA'⟩ := g3
      rw [eA, Res.ok_inj, Option.some.injEq] at eA'
      subst eA'
      rw [(sv_inj (h3 a' List.mem_cons_self) (h1 a List.mem_cons_self)).1 (hA'.unique hA),
        ih (fun x hx => h1 x (List.mem_cons_of_mem _ hx)) l' (fun x hx => h3 x (List.mem_cons_of_mem _ hx)) g4]

/-- C128: if one of the published encodings does not decode, every share is rejected, without panic. -/
theorem C128_bad_encoding (c : Cfg) (hc : c.Enough) (pub : List Bytes32) (h : ∃ b ∈ pub, ¬ Decodes c b) (i s : Sc)
    (hi : i.SCanon) : checkShare c pub i s = .ok false := by
  have tot : ∀ pub : List Bytes32, expected c pub i = .ok none ∨
      ∃ R k, expected c pub i = .ok (some R) ∧ Lg R k ∧ ∀ b ∈ pub, Decodes c b := by
    intro pub
    induction pub with
    | nil => exact Or.inr ⟨_, _, rfl, Lg.identity, by simp⟩
    | cons b bs ih =>
      obtain ⟨o, eo⟩ := C62_total c hc b
      unfold expected
      rw [eo, Res.ok_bind]
      rcases ih with e | ⟨R, k, e, hR, hb⟩
      · left
        rw [e, Res.ok_bind]
        cases o <;> rfl
      · rw [e, Res.ok_bind]
        cases o with
        | none => exact Or.inl rfl
        | some A =>
          right
          obtain ⟨k', hA⟩ := Lg.decoded c hc eo
          obtain ⟨M, eM, hM⟩ := hR.mul c hc i hi.1 (Scalar.scanon_lt256 hi)
          obtain ⟨S, eS, hS⟩ := hA.add c hM
          refine ⟨S, _, ?_, hS, ?_⟩
          · dsimp only
            rw [eM, Res.ok_bind, eS, Res.ok_bind]
            rfl
          · rw [List.forall_mem_cons]
            exact ⟨⟨A, eo⟩, hb⟩
  rcases tot pub with e | ⟨R, k, _, _, hb⟩
  · unfold checkShare
    rw [e, Res.ok_bind]
    rfl
  · obtain ⟨b, h1, h2⟩ := h
    exact absurd (hb b h1) h2

/-- C128: any accepted shares, as many as there are published encodings, recover the scalar whose multiple of the base
point the first encoding is, whoever dealt them. So two such sets of shares recover the same secret. -/
theorem C128_accepted (c : Cfg) (hc : c.Enough) (b : Bytes32) (pub : List Bytes32) (sh : List (Sc × Sc))
    (hs : ∀ t ∈ sh, t.1.SCanon ∧ t.2.SCanon) (hn : (sh.map Prod.fst).Nodup) (hlen : pub.length < sh.length)
    (h : ∀ t ∈ sh, checkShare c (b :: pub) t.1 t.2 = .ok true) :
    ∃ a, a.SCanon ∧ recover c sh = .ok a ∧ (Ristretto.mul c Ed.BASEPOINT a >>= Ristretto.compress c) = .ok b := by
  have hd : ∀ x ∈ b :: pub, Decodes c x := by
    by_contra hx
    push Not at hx
    cases sh with
    | nil => simp at hlen
    | cons t sh =>
      have h1 := h t List.mem_cons_self
      rw [C128_bad_encoding c hc (b :: pub) hx t.1 t.2 (hs t List.mem_cons_self).1, Res.ok_inj] at h1
      exact absurd h1 (by decide)
  obtain ⟨l, ⟨hl, el⟩, -⟩ := C128_binding c hc (b :: pub) hd
  obtain ⟨pub', ep, hp⟩ := publish_ok c hc l hl
  rw [el, Res.ok_inj] at ep
  subst ep
  obtain ⟨pub', ep, hcheck⟩ := C128_check c hc l hl
  rw [el, Res.ok_inj] at ep
  subst ep
  cases l with
  | nil => cases hp
  | cons a l =>
    have hll := hp.length_eq
    rw [List.length_cons, List.length_cons] at hll
    have hi : ∀ i ∈ sh.map Prod.fst, i.SCanon := by
      intro i hi
      obtain ⟨t, ht, rfl⟩ := List.mem_map.1 hi
      exact (hs t ht).1
    have hv : ∀ t ∈ sh, sv t.2 = Interpolate.value ((a :: l).map sv) (sv t.1) := by
      intro t ht
      obtain ⟨v, ev, hv⟩ := hcheck t.1 t.2 (hs t ht).1 (hs t ht).2
      rw [h t ht, Res.ok_inj] at ev
      obtain ⟨s, es, -, vs⟩ := share_ok c (a :: l) t.1 hl (hs t ht).1
      rw [hv.1 ev.symm, Res.ok_inj] at es
      rw [es, vs]
    refine ⟨a, hl a List.mem_cons_self, ?_, ?_⟩
    · unfold recover
      obtain ⟨s, es, hs', vs⟩ := combine_ok c hc _ hi sh hs
      rw [es, Res.ok_inj, ← sv_inj hs' (hl a List.mem_cons_self), vs,
        weighted_sum hi hn rfl hv (by rw [List.length_map, List.length_map, List.length_cons]; omega),
        List.map_cons, Interpolate.value, mul_zero, add_zero]
    · cases hp with
      | cons h1 _ =>
        obtain ⟨Q, eQ, hQ⟩ := h1
        obtain ⟨A, eA, hA⟩ := lg_base_mul c hc (hl a List.mem_cons_self)
        rw [eA, Res.ok_bind, ← C59_decode_encode c hc b Q eQ]
        exact (hA.enc_eq c hc hQ).2 rfl

theorem combinePoints_ok (c : Cfg) (hc : c.Enough) (is : List Sc) (h : ∀ j ∈ is, j.SCanon) {P : EdPoint} {k : ZMod ell}
    (hP : Lg P k) : ∀ sh : List (Sc × Sc), (∀ t ∈ sh, t.1.SCanon ∧ t.2.SCanon) →
    ∃ parts R, partials c P sh = .ok parts ∧ parts.map Prod.fst = sh.map Prod.fst ∧
      combinePoints c is parts = .ok (some R) ∧
      Lg R ((sh.map fun t => Interpolate.weight (is.map sv) (sv t.1) * sv t.2).sum * k)
  | [], _ => ⟨[], _, rfl, rfl, rfl, by simpa using Lg.identity⟩
  | (i, s) :: r, ht => by
    obtain ⟨hi, hs⟩ := ht (i, s) List.mem_cons_self
    obtain ⟨parts, T, ep, hm, eT, hT⟩ := combinePoints_ok c hc is h hP r (fun x hx => ht x (List.mem_cons_of_mem _ hx))
    obtain ⟨w, ew, hw, vw⟩ := weightOf_ok c hc is i h hi
    obtain ⟨S, eS, hS⟩ := hP.mul c hc s hs.1 (Scalar.scanon_lt256 hs)
    obtain ⟨b, Q, eb, eQ, hQ⟩ := hS.wire c hc
    obtain ⟨M, eM, hM⟩ := hQ.mul c hc w hw.1 (Scalar.scanon_lt256 hw)
    obtain ⟨R, eR, hR⟩ := hM.add c hT
    refine ⟨(i, b) :: parts, R, ?_, by rw [List.map_cons, List.map_cons, hm], ?_, ?_⟩
    · unfold partials
      rw [eS, Res.ok_bind, eb, Res.ok_bind, ep, Res.ok_bind]
      rfl
    · unfold combinePoints
      rw [eT, Res.ok_bind, eQ, Res.ok_bind]
      dsimp only
      rw [ew, Res.ok_bind, eM, Res.ok_bind, eR, Res.ok_bind]
      rfl
    · have e : (w.val : ZMod ell) * ((s.val : ZMod ell) * k) +
          (r.map fun t => Interpolate.weight (is.map sv) (sv t.1) * sv t.2).sum * k =
          (((i, s) :: r).map fun t => Interpolate.weight (is.map sv) (sv t.1) * sv t.2).sum * k := by
        rw [List.map_cons, List.sum_cons, ← vw]
        unfold sv
        ring
      rw [← e]
      exact hR

/-- C128: multiplying a point by the shared secret. What the owners of enough shares send, each the encoding of the own
share times the point, combines to the encoding of the secret times the point. -/
theorem C128_threshold (c : Cfg) (hc : c.Enough) {P : EdPoint} (hP : RPoint P) (a : Sc) (l is : List Sc)
    (hl : ∀ x ∈ a :: l, x.SCanon) (hi : ∀ i ∈ is, i.SCanon) (hn : is.Nodup) (hlen : l.length < is.length) :
    ∃ sh parts A b, deal c (a :: l) is = .ok sh ∧ partials c P sh = .ok parts ∧ Ristretto.mul c P a = .ok A ∧
      Ristretto.compress c A = .ok b ∧ recoverPoint c parts = .ok (some b) := by
  obtain ⟨k, hk⟩ := hP.lg
  obtain ⟨sh, e, hm, hs⟩ := deal_ok c (a :: l) hl is hi
  obtain ⟨parts, R, ep, hm', eR, hR⟩ := combinePoints_ok c hc is hi hk sh fun t ht => ⟨(hs t ht).1, (hs t ht).2.1⟩
  rw [weighted_sum hi hn hm (fun t ht => (hs t ht).2.2) (by rw [List.length_map, List.length_cons]; omega),
    List.map_cons, Interpolate.value, mul_zero, add_zero] at hR
  have ha := hl a List.mem_cons_self
  obtain ⟨A, eA, hA⟩ := hk.mul c hc a ha.1 (Scalar.scanon_lt256 ha)
  obtain ⟨b, Q, eb, -, -⟩ := hA.wire c hc
  refine ⟨sh, parts, A, b, e, ep, eA, eb, ?_⟩
  unfold recoverPoint
  rw [hm', hm, eR, Res.ok_bind]
  dsimp only
  rw [(hR.enc_eq c hc hA).2 rfl, eb, Res.ok_bind]
  rfl

/-- C128: shares of two secrets add up to shares of the sum. -/
theorem C128_additive (c : Cfg) (l m n : List Sc) (i s t u : Sc) (hl : ∀ x ∈ l, x.SCanon) (hm : ∀ x ∈ m, x.SCanon)
    (hi : i.SCanon) (h : List.Forall₂ (fun q z => Scalar.add c q.1 q.2 = .ok z) (l.zip m) n) (hlen : l.length = m.length)
    (es : share c l i = .ok s) (et : share c m i = .ok t) (eu : share c n i = .ok u) : Scalar.add c s t = .ok u := by
  have key : (∀ x ∈ n, x.SCanon) ∧ Interpolate.value (n.map sv) (sv i) =
      Interpolate.value (l.map sv) (sv i) + Interpolate.value (m.map sv) (sv i) := by
    clear es et eu
    induction l generalizing m n with
    | nil =>
      cases m with
      | nil => cases h; exact ⟨by simp, by simp [Interpolate.value]⟩
      | cons y m => simp at hlen
    | cons x l ih =>
      cases m with
      | nil => simp at hlen
      | cons y m =>
        rw [List.zip_cons_cons] at h
        cases h with
        | @cons _ z _ n h1 h2 =>
          obtain ⟨hz, vz⟩ := sv_add (hl x List.mem_cons_self) (hm y List.mem_cons_self) h1
          obtain ⟨hn, vn⟩ := ih m n (fun x hx => hl x (List.mem_cons_of_mem _ hx))
            (fun x hx => hm x (List.mem_cons_of_mem _ hx)) h2 (by simpa using hlen)
          refine ⟨List.forall_mem_cons.2 ⟨hz, hn⟩, ?_⟩
          simp only [List.map_cons, Interpolate.value]
          rw [vz, vn]
          ring
  obtain ⟨s', e1, hs, vs⟩ := share_ok c l i hl hi
  obtain ⟨t', e2, ht, vt⟩ := share_ok c m i hm hi
  obtain ⟨u', e3, hu, vu⟩ := share_ok c n i key.1 hi
  rw [es, Res.ok_inj] at e1
  rw [et, Res.ok_inj] at e2
  rw [eu, Res.ok_inj] at e3
  subst e1 e2 e3
  obtain ⟨r, er, -⟩ := C25_add c s t hs ht
  obtain ⟨hr, vr⟩ := sv_add hs ht er
  rw [er, Res.ok_inj, ← sv_inj hr hu, vr, vs, vt, vu, key.2]

example : (∀ x ∈ [Scalar.minusOne, Scalar.one], x.SCanon) ∧ [Scalar.one, Scalar.minusOne].Nodup ∧
    Scalar.one.val ≠ 0 ∧ RPoint Ed.BASEPOINT ∧ dbg.Enough :=
  ⟨by decide, by decide, by decide, Lg.base.point, by decide⟩

end Props
end Zerocaf
