import Verif.Props.Range

/-!
# Property C131: the inner product argument

Two vectors of `2 ^ n` scalars are committed in one point together with their inner product; the argument halves the
vectors `n` times, sending two encodings each time. The steps are the standard ones, written here with the modelled
operations. They are not in the code.
-/

set_option exponentiation.threshold 600

namespace Zerocaf
namespace Props

open Ristretto

/-! ### The steps -/

/-- Vectors of length `2 ^ n`, by halves. -/
inductive Halves (α : Type) : ℕ → Type
  | one : α → Halves α 0
  | two {n : ℕ} : Halves α n → Halves α n → Halves α (n + 1)

/-- The inverse as a power. -/
def invSc (c : Cfg) (x : Sc) : Res Sc :=
  Scalar.pow c x ⟨Scalar.minusOne.l0 - 1, Scalar.minusOne.l1, Scalar.minusOne.l2, Scalar.minusOne.l3, Scalar.minusOne.l4⟩

/-- The inner product. -/
def innerSc (c : Cfg) : {n : ℕ} → Halves Sc n → Halves Sc n → Res Sc
  | _, .one a, .one b => Scalar.mul c a b
  | _, .two a a', .two b b' => do
    let u ← innerSc c a b
    let v ← innerSc c a' b'
    Scalar.add c u v

/-- The sum of the multiples. -/
def innerPt (c : Cfg) : {n : ℕ} → Halves Sc n → Halves EdPoint n → Res EdPoint
  | _, .one a, .one G => Ristretto.mul c G a
  | _, .two a a', .two G G' => do
    let u ← innerPt c a G
    let v ← innerPt c a' G'
    Ristretto.add c u v

/-- `x a + y b` entry by entry. -/
def mixSc (c : Cfg) (x y : Sc) : {n : ℕ} → Halves Sc n → Halves Sc n → Res (Halves Sc n)
  | _, .one a, .one b => do
    let u ← Scalar.mul c x a
    let v ← Scalar.mul c y b
    let w ← Scalar.add c u v
    return .one w
  | _, .two a a', .two b b' => do
    let u ← mixSc c x y a b
    let v ← mixSc c x y a' b'
    return .two u v

/-- `x G + y H` entry by entry. -/
def mixPt (c : Cfg) (x y : Sc) : {n : ℕ} → Halves EdPoint n → Halves EdPoint n → Res (Halves EdPoint n)
  | _, .one G, .one H => do
    let u ← Ristretto.mul c G x
    let v ← Ristretto.mul c H y
    let w ← Ristretto.add c u v
    return .one w
  | _, .two G G', .two H H' => do
    let u ← mixPt c x y G H
    let v ← mixPt c x y G' H'
    return .two u v

/-- The commitment to two vectors and their inner product. -/
def bind3 (c : Cfg) (U : EdPoint) {n m : ℕ} (a b : Halves Sc n) (G H : Halves EdPoint n) (a' b' : Halves Sc m) :
    Res EdPoint := do
  let p ← innerPt c a G
  let q ← innerPt c b H
  let s ← innerSc c a' b'
  let r ← Ristretto.mul c U s
  let t ← Ristretto.add c p q
  Ristretto.add c t r

/-- The prover: the encodings sent and the last two scalars, with challenge `ch n` for halving `2 ^ (n + 1)`. -/
def innerProve (c : Cfg) (U : EdPoint) (ch : ℕ → Sc) : {n : ℕ} → Halves Sc n → Halves Sc n → Halves EdPoint n →
    Halves EdPoint n → Res (List (Bytes32 × Bytes32) × Sc × Sc)
  | _, .one a, .one b, _, _ => .ok ([], a, b)
  | n + 1, .two a a', .two b b', .two G G', .two H H' => do
    let L ← bind3 c U a b' G' H a b'
    let l ← Ristretto.compress c L
    let R ← bind3 c U a' b G H' a' b
    let r ← Ristretto.compress c R
    let y ← invSc c (ch n)
    let a2 ← mixSc c (ch n) y a a'
    let b2 ← mixSc c y (ch n) b b'
    let G2 ← mixPt c y (ch n) G G'
    let H2 ← mixPt c (ch n) y H H'
    let t ← innerProve c U ch a2 b2 G2 H2
    return ((l, r) :: t.1, t.2)

/-- The commitment for the halved vectors. -/
def nextCommit (c : Cfg) (x y : Sc) (P L R : EdPoint) : Res EdPoint := do
  let xx ← Scalar.mul c x x
  let yy ← Scalar.mul c y y
  let u ← Ristretto.mul c L xx
  let v ← Ristretto.mul c R yy
  let w ← Ristretto.add c P u
  Ristretto.add c w v

/-- The verifier who halves the generators. -/
def innerCheck (c : Cfg) (U : EdPoint) (ch : ℕ → Sc) : {n : ℕ} → Halves EdPoint n → Halves EdPoint n → EdPoint →
    List (Bytes32 × Bytes32) → Sc → Sc → Res Bool
  | _, .one G, .one H, P, [], a, b => do
    let Q ← bind3 c U (.one a) (.one b) (.one G) (.one H) (.one a) (.one b)
    Ristretto.ctEq c P Q
  | n + 1, .two G G', .two H H', P, (l, r) :: t, a, b => do
    let o ← Ristretto.decompress c l
    let o' ← Ristretto.decompress c r
    match o, o' with
    | some L, some R =>
      let y ← invSc c (ch n)
      let P2 ← nextCommit c (ch n) y P L R
      let G2 ← mixPt c y (ch n) G G'
      let H2 ← mixPt c (ch n) y H H'
      innerCheck c U ch G2 H2 P2 t a b
    | _, _ => return false
  | _, _, _, _, _, _, _ => .ok false

/-- The factors of the generators: `w` times the challenges or their inverses, inverses first or last. -/
def factors (c : Cfg) (ch : ℕ → Sc) (inv : Bool) : (n : ℕ) → Sc → Res (Halves Sc n)
  | 0, w => .ok (.one w)
  | n + 1, w => do
    let y ← invSc c (ch n)
    let u ← Scalar.mul c w (if inv then y else ch n)
    let v ← Scalar.mul c w (if inv then ch n else y)
    let s ← factors c ch inv n u
    let t ← factors c ch inv n v
    return .two s t

/-- The commitment after all halvings, `none` if an encoding is not valid or their number is wrong. -/
def lastCommit (c : Cfg) (ch : ℕ → Sc) : ℕ → EdPoint → List (Bytes32 × Bytes32) → Res (Option EdPoint)
  | 0, P, [] => .ok (some P)
  | n + 1, P, (l, r) :: t => do
    let o ← Ristretto.decompress c l
    let o' ← Ristretto.decompress c r
    match o, o' with
    | some L, some R =>
      let y ← invSc c (ch n)
      let P2 ← nextCommit c (ch n) y P L R
      lastCommit c ch n P2 t
    | _, _ => return none
  | _, _, _ => .ok none

/-- The verifier with one sum over the given generators. -/
def innerCheckOnce (c : Cfg) (U : EdPoint) (ch : ℕ → Sc) {n : ℕ} (G H : Halves EdPoint n) (P : EdPoint)
    (t : List (Bytes32 × Bytes32)) (a b : Sc) : Res Bool := do
  let o ← lastCommit c ch n P t
  match o with
  | none => return false
  | some Z =>
    let s ← factors c ch true n a
    let s' ← factors c ch false n b
    let Q ← bind3 c U s s' G H (.one a) (.one b)
    Ristretto.ctEq c Z Q

/-! ### What they compute -/

/-- Entry by entry relation. -/
inductive Halves.Rel {α β : Type} (R : α → β → Prop) : {n : ℕ} → Halves α n → Halves β n → Prop
  | one {a : α} {b : β} : R a b → Halves.Rel R (.one a) (.one b)
  | two {n : ℕ} {a a' : Halves α n} {b b' : Halves β n} : Halves.Rel R a b → Halves.Rel R a' b' →
      Halves.Rel R (.two a a') (.two b b')

/-- A reduced scalar and its class. -/
def SvIs (a : Sc) (k : ZMod ell) : Prop := a.SCanon ∧ sv a = k

/-- The inner product of classes. -/
def dot : {n : ℕ} → Halves (ZMod ell) n → Halves (ZMod ell) n → ZMod ell
  | _, .one a, .one b => a * b
  | _, .two a a', .two b b' => dot a b + dot a' b'

/-- `x a + y b` for classes. -/
def mix (x y : ZMod ell) : {n : ℕ} → Halves (ZMod ell) n → Halves (ZMod ell) n → Halves (ZMod ell) n
  | _, .one a, .one b => .one (x * a + y * b)
  | _, .two a a', .two b b' => .two (mix x y a b) (mix x y a' b')

theorem dot_mix_left (x y : ZMod ell) : ∀ {n : ℕ} (a b g : Halves (ZMod ell) n),
    dot (mix x y a b) g = x * dot a g + y * dot b g
  | _, .one a, .one b, .one g => by simp only [mix, dot]; ring
  | _, .two a a', .two b b', .two g g' => by
    simp only [mix, dot]
    rw [dot_mix_left, dot_mix_left]; ring

theorem dot_mix_right (x y : ZMod ell) : ∀ {n : ℕ} (g a b : Halves (ZMod ell) n),
    dot g (mix x y a b) = x * dot g a + y * dot g b
  | _, .one g, .one a, .one b => by simp only [mix, dot]; ring
  | _, .two g g', .two a a', .two b b' => by
    simp only [mix, dot]
    rw [dot_mix_right, dot_mix_right]; ring

theorem mul_sv (c : Cfg) {a b : Sc} {k m : ZMod ell} (ha : SvIs a k) (hb : SvIs b m) :
    ∃ s, Scalar.mul c a b = .ok s ∧ SvIs s (k * m) := by
  obtain ⟨s, es, -⟩ := C27_mul c a b ha.1.1 hb.1.1
  obtain ⟨hs, vs⟩ := sv_mul ha.1.1 hb.1.1 es
  exact ⟨s, es, hs, by rw [vs, ha.2, hb.2]⟩

theorem add_sv (c : Cfg) {a b : Sc} {k m : ZMod ell} (ha : SvIs a k) (hb : SvIs b m) :
    ∃ s, Scalar.add c a b = .ok s ∧ SvIs s (k + m) := by
  obtain ⟨s, es, -⟩ := C25_add c a b ha.1 hb.1
  obtain ⟨hs, vs⟩ := sv_add ha.1 hb.1 es
  exact ⟨s, es, hs, by rw [vs, ha.2, hb.2]⟩

theorem mul_lg (c : Cfg) (hc : c.Enough) {G : EdPoint} {a : Sc} {k g : ZMod ell} (ha : SvIs a k) (hG : Lg G g) :
    ∃ S, Ristretto.mul c G a = .ok S ∧ Lg S (k * g) := by
  obtain ⟨S, e, h⟩ := lg_mul c hc hG ha.1
  rw [ha.2] at h
  exact ⟨S, e, h⟩

theorem inv_sv (c : Cfg) (hc : c.Enough) {x : Sc} {k : ZMod ell} (hx : SvIs x k) (h0 : k ≠ 0) :
    ∃ y, invSc c x = .ok y ∧ SvIs y k⁻¹ := by
  have hx' : (⟨Scalar.minusOne.l0 - 1, Scalar.minusOne.l1, Scalar.minusOne.l2, Scalar.minusOne.l3,
      Scalar.minusOne.l4⟩ : Sc).SCanon := by decide
  have hxv : (⟨Scalar.minusOne.l0 - 1, Scalar.minusOne.l1, Scalar.minusOne.l2, Scalar.minusOne.l3,
      Scalar.minusOne.l4⟩ : Sc).val = ell - 2 := by decide
  obtain ⟨i, ei, hi, vi⟩ := C29_pow c hc x _ hx.1.1 hx'
  rw [hxv] at vi
  refine ⟨i, ei, hi, ?_⟩
  rw [← hx.2] at h0 ⊢
  apply eq_inv_of_mul_eq_one_left
  unfold sv at h0 ⊢
  rw [vi, ZMod.natCast_mod, Nat.cast_pow, ← pow_succ, show ell - 2 + 1 = ell - 1 by decide]
  exact ZMod.pow_card_sub_one_eq_one h0

theorem innerSc_ok (c : Cfg) {n : ℕ} {a b : Halves Sc n} {k m : Halves (ZMod ell) n} (ha : Halves.Rel SvIs a k)
    (hb : Halves.Rel SvIs b m) : ∃ s, innerSc c a b = .ok s ∧ SvIs s (dot k m) := by
  induction ha with
  | one h =>
    cases hb with
    | one h' => exact mul_sv c h h'
  | two h1 h2 ih1 ih2 =>
    cases hb with
    | two k1 k2 =>
      obtain ⟨u, eu, hu⟩ := ih1 k1
      obtain ⟨v, ev, hv⟩ := ih2 k2
      obtain ⟨w, ew, hw⟩ := add_sv c hu hv
      exact ⟨w, by rw [innerSc, eu, Res.ok_bind, ev, Res.ok_bind, ew], hw⟩

theorem innerPt_ok (c : Cfg) (hc : c.Enough) {n : ℕ} {a : Halves Sc n} {G : Halves EdPoint n}
    {k g : Halves (ZMod ell) n} (ha : Halves.Rel SvIs a k) (hG : Halves.Rel Lg G g) :
    ∃ S, innerPt c a G = .ok S ∧ Lg S (dot k g) := by
  induction ha with
  | one h =>
    cases hG with
    | one h' => exact mul_lg c hc h h'
  | two h1 h2 ih1 ih2 =>
    cases hG with
    | two k1 k2 =>
      obtain ⟨u, eu, hu⟩ := ih1 k1
      obtain ⟨v, ev, hv⟩ := ih2 k2
      obtain ⟨w, ew, hw⟩ := hu.add c hv
      exact ⟨w, by rw [innerPt, eu, Res.ok_bind, ev, Res.ok_bind, ew], hw⟩

theorem mixSc_ok (c : Cfg) {x y : Sc} {p q : ZMod ell} (hx : SvIs x p) (hy : SvIs y q) {n : ℕ} {a b : Halves Sc n}
    {k m : Halves (ZMod ell) n} (ha : Halves.Rel SvIs a k) (hb : Halves.Rel SvIs b m) :
    ∃ s, mixSc c x y a b = .ok s ∧ Halves.Rel SvIs s (mix p q k m) := by
  induction ha with
  | one h =>
    cases hb with
    | one h' =>
      obtain ⟨u, eu, hu⟩ := mul_sv c hx h
      obtain ⟨v, ev, hv⟩ := mul_sv c hy h'
      obtain ⟨w, ew, hw⟩ := add_sv c hu hv
      exact ⟨.one w, by rw [mixSc, eu, Res.ok_bind, ev, Res.ok_bind, ew, Res.ok_bind]; rfl, .one hw⟩
  | two h1 h2 ih1 ih2 =>
    cases hb with
    | two k1 k2 =>
      obtain ⟨u, eu, hu⟩ := ih1 k1
      obtain ⟨v, ev, hv⟩ := ih2 k2
      exact ⟨.two u v, by rw [mixSc, eu, Res.ok_bind, ev, Res.ok_bind]; rfl, .two hu hv⟩

theorem mixPt_ok (c : Cfg) (hc : c.Enough) {x y : Sc} {p q : ZMod ell} (hx : SvIs x p) (hy : SvIs y q) {n : ℕ}
    {G H : Halves EdPoint n} {k m : Halves (ZMod ell) n} (hG : Halves.Rel Lg G k) (hH : Halves.Rel Lg H m) :
    ∃ s, mixPt c x y G H = .ok s ∧ Halves.Rel Lg s (mix p q k m) := by
  induction hG with
  | one h =>
    cases hH with
    | one h' =>
      obtain ⟨u, eu, hu⟩ := mul_lg c hc hx h
      obtain ⟨v, ev, hv⟩ := mul_lg c hc hy h'
      obtain ⟨w, ew, hw⟩ := hu.add c hv
      exact ⟨.one w, by rw [mixPt, eu, Res.ok_bind, ev, Res.ok_bind, ew, Res.ok_bind]; rfl, .one hw⟩
  | two h1 h2 ih1 ih2 =>
    cases hH with
    | two k1 k2 =>
      obtain ⟨u, eu, hu⟩ := ih1 k1
      obtain ⟨v, ev, hv⟩ := ih2 k2
      exact ⟨.two u v, by rw [mixPt, eu, Res.ok_bind, ev, Res.ok_bind]; rfl, .two hu hv⟩

theorem bind3_ok (c : Cfg) (hc : c.Enough) {U : EdPoint} {u : ZMod ell} (hU : Lg U u) {n m : ℕ} {a b : Halves Sc n}
    {G H : Halves EdPoint n} {a' b' : Halves Sc m} {k l g h : Halves (ZMod ell) n} {k' l' : Halves (ZMod ell) m}
    (ha : Halves.Rel SvIs a k) (hb : Halves.Rel SvIs b l) (hG : Halves.Rel Lg G g) (hH : Halves.Rel Lg H h)
    (ha' : Halves.Rel SvIs a' k') (hb' : Halves.Rel SvIs b' l') :
    ∃ S, bind3 c U a b G H a' b' = .ok S ∧ Lg S (dot k g + dot l h + dot k' l' * u) := by
  obtain ⟨p, ep, hp⟩ := innerPt_ok c hc ha hG
  obtain ⟨q, eq, hq⟩ := innerPt_ok c hc hb hH
  obtain ⟨s, es, hs⟩ := innerSc_ok c ha' hb'
  obtain ⟨r, er, hr⟩ := mul_lg c hc hs hU
  obtain ⟨t, et, ht⟩ := hp.add c hq
  obtain ⟨w, ew, hw⟩ := ht.add c hr
  refine ⟨w, ?_, hw⟩
  unfold bind3
  rw [ep, Res.ok_bind, eq, Res.ok_bind, es, Res.ok_bind, er, Res.ok_bind, et, Res.ok_bind, ew]

theorem nextCommit_ok (c : Cfg) (hc : c.Enough) {x y : Sc} {p q : ZMod ell} (hx : SvIs x p) (hy : SvIs y q)
    {P L R : EdPoint} {z l r : ZMod ell} (hP : Lg P z) (hL : Lg L l) (hR : Lg R r) :
    ∃ S, nextCommit c x y P L R = .ok S ∧ Lg S (z + p * p * l + q * q * r) := by
  obtain ⟨xx, e1, h1⟩ := mul_sv c hx hx
  obtain ⟨yy, e2, h2⟩ := mul_sv c hy hy
  obtain ⟨u, e3, h3⟩ := mul_lg c hc h1 hL
  obtain ⟨v, e4, h4⟩ := mul_lg c hc h2 hR
  obtain ⟨w, e5, h5⟩ := hP.add c h3
  obtain ⟨t, e6, h6⟩ := h5.add c h4
  refine ⟨t, ?_, h6⟩
  unfold nextCommit
  rw [e1, Res.ok_bind, e2, Res.ok_bind, e3, Res.ok_bind, e4, Res.ok_bind, e5, Res.ok_bind, e6]

/-- Challenges are reduced and not zero. -/
def Chals (ch : ℕ → Sc) : Prop := ∀ i, (ch i).SCanon ∧ ch i ≠ Scalar.zero

theorem Chals.sv {ch : ℕ → Sc} (h : Chals ch) (i : ℕ) : SvIs (ch i) (sv (ch i)) ∧ Props.sv (ch i) ≠ 0 := by
  refine ⟨⟨(h i).1, rfl⟩, fun e => (h i).2 ?_⟩
  rw [← sv_inj (h i).1 zero_canon, e, sv_zero]

/-- The honest run is accepted exactly for the right commitment. -/
theorem innerProve_ok (c : Cfg) (hc : c.Enough) {U : EdPoint} {u : ZMod ell} (hU : Lg U u) (ch : ℕ → Sc) (hch : Chals ch) :
    ∀ {n : ℕ} {a b : Halves Sc n} {G H : Halves EdPoint n} {k m g h : Halves (ZMod ell) n}, Halves.Rel SvIs a k →
      Halves.Rel SvIs b m → Halves.Rel Lg G g → Halves.Rel Lg H h → ∃ t x y, innerProve c U ch a b G H = .ok (t, x, y) ∧
        x.SCanon ∧ y.SCanon ∧ t.length = n ∧ ∀ P z, Lg P z → ∃ v, innerCheck c U ch G H P t x y = .ok v ∧
          (v = true ↔ z = dot k g + dot m h + dot k m * u) := by
  intro n
  induction n with
  | zero =>
    intro a b G H k m g h ha hb hG hH
    cases ha with
    | one ha =>
    cases hb with
    | one hb =>
    cases hG with
    | one hG =>
    cases hH with
    | one hH =>
    rename_i a k b m G g H h
    refine ⟨[], a, b, rfl, ha.1, hb.1, rfl, fun P z hP => ?_⟩
    obtain ⟨S, eS, hS⟩ := bind3_ok c hc hU (.one ha) (.one hb) (.one hG) (.one hH) (.one ha) (.one hb)
    obtain ⟨v, ev, hv⟩ := ctEq_lg c hP hS
    exact ⟨v, by rw [innerCheck, eS, Res.ok_bind, ev], hv⟩
  | succ n ih =>
    intro a b G H k m g h ha hb hG hH
    cases ha with
    | two ha ha' =>
    cases hb with
    | two hb hb' =>
    cases hG with
    | two hG hG' =>
    cases hH with
    | two hH hH' =>
    rename_i a a' k k' b b' m m' G G' g g' H H' h h'
    obtain ⟨hx, hx0⟩ := hch.sv n
    obtain ⟨y, ey, hy⟩ := inv_sv c hc hx hx0
    obtain ⟨L, eL, hL⟩ := bind3_ok c hc hU ha hb' hG' hH ha hb'
    obtain ⟨l, L', el, eL', hL'⟩ := hL.wire c hc
    obtain ⟨R, eR, hR⟩ := bind3_ok c hc hU ha' hb hG hH' ha' hb
    obtain ⟨r, R', er, eR', hR'⟩ := hR.wire c hc
    obtain ⟨a2, ea2, ha2⟩ := mixSc_ok c hx hy ha ha'
    obtain ⟨b2, eb2, hb2⟩ := mixSc_ok c hy hx hb hb'
    obtain ⟨G2, eG2, hG2⟩ := mixPt_ok c hc hy hx hG hG'
    obtain ⟨H2, eH2, hH2⟩ := mixPt_ok c hc hx hy hH hH'
    obtain ⟨t, x, z, et, hx1, hz1, hlen, hacc⟩ := ih ha2 hb2 hG2 hH2
    refine ⟨(l, r) :: t, x, z, ?_, hx1, hz1, by rw [List.length_cons, hlen], fun P w hP => ?_⟩
    · rw [innerProve, eL, Res.ok_bind, el, Res.ok_bind, eR, Res.ok_bind, er, Res.ok_bind, ey, Res.ok_bind, ea2,
        Res.ok_bind, eb2, Res.ok_bind, eG2, Res.ok_bind, eH2, Res.ok_bind, et, Res.ok_bind]
      rfl
    · obtain ⟨P2, eP2, hP2⟩ := nextCommit_ok c hc hx hy hP hL' hR'
      obtain ⟨v, ev, hv⟩ := hacc P2 _ hP2
      refine ⟨v, ?_, hv.trans ?_⟩
      · rw [innerCheck, eL', Res.ok_bind, eR', Res.ok_bind]
        dsimp only
        rw [ey, Res.ok_bind, eP2, Res.ok_bind, eG2, Res.ok_bind, eH2, Res.ok_bind, ev]
      · simp only [dot_mix_left, dot_mix_right, dot]
        have hi : Props.sv (ch n) * (Props.sv (ch n))⁻¹ = 1 := mul_inv_cancel₀ hx0
        generalize (Props.sv (ch n))⁻¹ = q at hi
        generalize Props.sv (ch n) = p at hi
        rw [← sub_eq_zero, ← sub_eq_zero (a := w)]
        refine Eq.congr ?_ rfl
        linear_combination -(dot k g + dot k' g' + dot m h + dot m' h' + (dot k m + dot k' m') * u) * hi

/-- The factors of the generators in classes. -/
def fac (ch : ℕ → Sc) (inv : Bool) : (n : ℕ) → ZMod ell → Halves (ZMod ell) n
  | 0, w => .one w
  | n + 1, w => .two (fac ch inv n (w * (if inv then (sv (ch n))⁻¹ else sv (ch n))))
      (fac ch inv n (w * (if inv then sv (ch n) else (sv (ch n))⁻¹)))

theorem fac_scale (ch : ℕ → Sc) (inv : Bool) (s : ZMod ell) : ∀ {n : ℕ} (w : ZMod ell) (g : Halves (ZMod ell) n),
    dot (fac ch inv n (w * s)) g = s * dot (fac ch inv n w) g
  | _, w, .one g => by simp only [fac, dot]; ring
  | _, w, .two g g' => by
    simp only [fac, dot]
    simp only [mul_right_comm w s]
    rw [fac_scale ch inv s _ g, fac_scale ch inv s _ g', mul_add]

theorem factors_ok (c : Cfg) (hc : c.Enough) (ch : ℕ → Sc) (hch : Chals ch) (inv : Bool) : ∀ (n : ℕ) {w : Sc} {k : ZMod ell},
    SvIs w k → ∃ s, factors c ch inv n w = .ok s ∧ Halves.Rel SvIs s (fac ch inv n k)
  | 0, w, k, h => ⟨_, rfl, .one h⟩
  | n + 1, w, k, h => by
    obtain ⟨hx, hx0⟩ := hch.sv n
    obtain ⟨y, ey, hy⟩ := inv_sv c hc hx hx0
    have h1 : SvIs (if inv then y else ch n) (if inv then (sv (ch n))⁻¹ else sv (ch n)) := by cases inv <;> assumption
    have h2 : SvIs (if inv then ch n else y) (if inv then sv (ch n) else (sv (ch n))⁻¹) := by cases inv <;> assumption
    obtain ⟨u, eu, hu⟩ := mul_sv c h h1
    obtain ⟨v, ev, hv⟩ := mul_sv c h h2
    obtain ⟨s, es, hs⟩ := factors_ok c hc ch hch inv n hu
    obtain ⟨t, et, ht⟩ := factors_ok c hc ch hch inv n hv
    refine ⟨.two s t, ?_, .two hs ht⟩
    rw [factors, ey, Res.ok_bind, eu, Res.ok_bind, ev, Res.ok_bind, es, Res.ok_bind, et, Res.ok_bind]
    rfl

/-- Both verifiers: either the encodings are refused, or they shift the commitment by a fixed amount. -/
theorem innerCheck_ok (c : Cfg) (hc : c.Enough) {U : EdPoint} {u : ZMod ell} (hU : Lg U u) (ch : ℕ → Sc) (hch : Chals ch)
    {a b : Sc} {x y : ZMod ell} (ha : SvIs a x) (hb : SvIs b y) : ∀ (n : ℕ) (t : List (Bytes32 × Bytes32)),
      (∀ P z, Lg P z → lastCommit c ch n P t = .ok none ∧ ∀ (G H : Halves EdPoint n) (g h : Halves (ZMod ell) n),
        Halves.Rel Lg G g → Halves.Rel Lg H h → innerCheck c U ch G H P t a b = .ok false) ∨
      ∃ d, ∀ P z, Lg P z → (∃ Z, lastCommit c ch n P t = .ok (some Z) ∧ Lg Z (z + d)) ∧
        ∀ (G H : Halves EdPoint n) (g h : Halves (ZMod ell) n), Halves.Rel Lg G g → Halves.Rel Lg H h →
          ∃ v, innerCheck c U ch G H P t a b = .ok v ∧
            (v = true ↔ z + d = dot (fac ch true n x) g + dot (fac ch false n y) h + x * y * u)
  | 0, [] => by
    refine Or.inr ⟨0, fun P z hP => ⟨⟨P, rfl, by rw [add_zero]; exact hP⟩, fun G H g h hG hH => ?_⟩⟩
    cases hG with
    | one hG =>
    cases hH with
    | one hH =>
    obtain ⟨S, eS, hS⟩ := bind3_ok c hc hU (.one ha) (.one hb) (.one hG) (.one hH) (.one ha) (.one hb)
    obtain ⟨v, ev, hv⟩ := ctEq_lg c hP hS
    refine ⟨v, by rw [innerCheck, eS, Res.ok_bind, ev], ?_⟩
    rw [add_zero]
    exact hv
  | 0, q :: t => by
    refine Or.inl fun P z hP => ⟨rfl, fun G H g h hG hH => ?_⟩
    cases hG with
    | one hG =>
    cases hH with
    | one hH => rfl
  | n + 1, [] => by
    refine Or.inl fun P z hP => ⟨rfl, fun G H g h hG hH => ?_⟩
    cases hG with
    | two hG =>
    cases hH with
    | two hH => rfl
  | n + 1, (l, r) :: t => by
    obtain ⟨hx, hx0⟩ := hch.sv n
    obtain ⟨y', ey, hy⟩ := inv_sv c hc hx hx0
    have hno : (Ristretto.decompress c l = .ok none ∨ Ristretto.decompress c r = .ok none) →
        ∀ P z, Lg P z → lastCommit c ch (n + 1) P ((l, r) :: t) = .ok none ∧
          ∀ (G H : Halves EdPoint (n + 1)) (g h : Halves (ZMod ell) (n + 1)),
            Halves.Rel Lg G g → Halves.Rel Lg H h → innerCheck c U ch G H P ((l, r) :: t) a b = .ok false := by
      intro hd P z hP
      obtain ⟨o, eo⟩ := C62_total c hc l
      obtain ⟨o', eo'⟩ := C62_total c hc r
      have hd' : o = none ∨ o' = none := by
        rcases hd with hd | hd
        · left; rw [eo, Res.ok_inj] at hd; exact hd
        · right; rw [eo', Res.ok_inj] at hd; exact hd
      refine ⟨?_, fun G H g h hG hH => ?_⟩
      · rw [lastCommit, eo, Res.ok_bind, eo', Res.ok_bind]
        rcases hd' with rfl | rfl
        · rfl
        · cases o <;> rfl
      · cases hG with
        | two hG =>
        cases hH with
        | two hH =>
        rw [innerCheck, eo, Res.ok_bind, eo', Res.ok_bind]
        rcases hd' with rfl | rfl
        · rfl
        · cases o <;> rfl
    rcases enc_or c hc l with ⟨el, -⟩ | ⟨L, kl, el, hL⟩
    · exact Or.inl (hno (Or.inl el))
    rcases enc_or c hc r with ⟨er, -⟩ | ⟨R, kr, er, hR⟩
    · exact Or.inl (hno (Or.inr er))
    have hl : ∀ P z, Lg P z → ∃ P2, Lg P2 (z + sv (ch n) * sv (ch n) * kl + (sv (ch n))⁻¹ * (sv (ch n))⁻¹ * kr) ∧
        lastCommit c ch (n + 1) P ((l, r) :: t) = lastCommit c ch n P2 t ∧
        ∀ (G H : Halves EdPoint (n + 1)) (g h : Halves (ZMod ell) (n + 1)), Halves.Rel Lg G g → Halves.Rel Lg H h →
          ∃ (G2 H2 : Halves EdPoint n) (g2 h2 : Halves (ZMod ell) n), Halves.Rel Lg G2 g2 ∧ Halves.Rel Lg H2 h2 ∧
            innerCheck c U ch G H P ((l, r) :: t) a b = innerCheck c U ch G2 H2 P2 t a b ∧
            dot (fac ch true n x) g2 = dot (fac ch true (n + 1) x) g ∧
            dot (fac ch false n y) h2 = dot (fac ch false (n + 1) y) h := by
      intro P z hP
      obtain ⟨P2, eP2, hP2⟩ := nextCommit_ok c hc hx hy hP hL hR
      refine ⟨P2, hP2, ?_, fun G H g h hG hH => ?_⟩
      · rw [lastCommit, el, Res.ok_bind, er, Res.ok_bind]
        dsimp only
        rw [ey, Res.ok_bind, eP2, Res.ok_bind]
      · cases hG with
        | two hG hG' =>
        cases hH with
        | two hH hH' =>
        obtain ⟨G2, eG2, hG2⟩ := mixPt_ok c hc hy hx hG hG'
        obtain ⟨H2, eH2, hH2⟩ := mixPt_ok c hc hx hy hH hH'
        refine ⟨G2, H2, _, _, hG2, hH2, ?_, ?_, ?_⟩
        · rw [innerCheck, el, Res.ok_bind, er, Res.ok_bind]
          dsimp only
          rw [ey, Res.ok_bind, eP2, Res.ok_bind, eG2, Res.ok_bind, eH2, Res.ok_bind]
        · rw [dot_mix_right]
          simp only [fac, dot, if_true]
          rw [fac_scale, fac_scale]
        · rw [dot_mix_right]
          simp only [fac, dot, Bool.false_eq_true, if_false]
          rw [fac_scale, fac_scale]
    rcases innerCheck_ok c hc hU ch hch ha hb n t with h | ⟨d, h⟩
    · refine Or.inl fun P z hP => ?_
      obtain ⟨P2, hP2, e1, e2⟩ := hl P z hP
      obtain ⟨k1, k2⟩ := h P2 _ hP2
      refine ⟨by rw [e1, k1], fun G H g h' hG hH => ?_⟩
      obtain ⟨G2, H2, g2, h2, r1, r2, r3, -, -⟩ := e2 G H g h' hG hH
      rw [r3]
      exact k2 G2 H2 g2 h2 r1 r2
    · refine Or.inr ⟨sv (ch n) * sv (ch n) * kl + (sv (ch n))⁻¹ * (sv (ch n))⁻¹ * kr + d, fun P z hP => ?_⟩
      obtain ⟨P2, hP2, e1, e2⟩ := hl P z hP
      obtain ⟨⟨Z, k1, k2⟩, k3⟩ := h P2 _ hP2
      have ez : z + (sv (ch n) * sv (ch n) * kl + (sv (ch n))⁻¹ * (sv (ch n))⁻¹ * kr + d) =
          z + sv (ch n) * sv (ch n) * kl + (sv (ch n))⁻¹ * (sv (ch n))⁻¹ * kr + d := by ring
      rw [ez]
      refine ⟨⟨Z, by rw [e1, k1], k2⟩, fun G H g h' hG hH => ?_⟩
      obtain ⟨G2, H2, g2, h2, r1, r2, r3, r4, r5⟩ := e2 G H g h' hG hH
      obtain ⟨v, ev, hv⟩ := k3 G2 H2 g2 h2 r1 r2
      rw [r4, r5] at hv
      exact ⟨v, by rw [r3, ev], hv⟩

/-! ### C131 -/

/-- Every entry has the property. -/
def Halves.All {α : Type} (p : α → Prop) : {n : ℕ} → Halves α n → Prop
  | _, .one a => p a
  | _, .two a b => a.All p ∧ b.All p

theorem all_canon : ∀ {n : ℕ} (a : Halves Sc n), a.All L5.SCanon → ∃ k, Halves.Rel SvIs a k
  | _, .one _, h => ⟨_, .one ⟨h, rfl⟩⟩
  | _, .two a b, h => by
    obtain ⟨k, hk⟩ := all_canon a h.1
    obtain ⟨m, hm⟩ := all_canon b h.2
    exact ⟨_, .two hk hm⟩

theorem all_point : ∀ {n : ℕ} (G : Halves EdPoint n), G.All RPoint → ∃ k, Halves.Rel Lg G k
  | _, .one _, h => by
    obtain ⟨k, hk⟩ := RPoint.lg h
    exact ⟨_, .one hk⟩
  | _, .two a b, h => by
    obtain ⟨k, hk⟩ := all_point a h.1
    obtain ⟨m, hm⟩ := all_point b h.2
    exact ⟨_, .two hk hm⟩

/-- C131: the honest run for two vectors sends `n` pairs of encodings and is accepted for exactly one group element,
the commitment to the vectors and their inner product. -/
theorem C131_complete (c : Cfg) (hc : c.Enough) {U : EdPoint} (hU : RPoint U) (ch : ℕ → Sc) (hch : Chals ch) {n : ℕ}
    (a b : Halves Sc n) (G H : Halves EdPoint n) (ha : a.All L5.SCanon) (hb : b.All L5.SCanon) (hG : G.All RPoint)
    (hH : H.All RPoint) : ∃ P t x y, bind3 c U a b G H a b = .ok P ∧ RPoint P ∧ innerProve c U ch a b G H = .ok (t, x, y) ∧
      x.SCanon ∧ y.SCanon ∧ t.length = n ∧ ∀ Q, RPoint Q → ∃ v, innerCheck c U ch G H Q t x y = .ok v ∧
        (v = true ↔ REq c Q P) := by
  obtain ⟨u, hu⟩ := hU.lg
  obtain ⟨k, hk⟩ := all_canon a ha
  obtain ⟨m, hm⟩ := all_canon b hb
  obtain ⟨g, hg⟩ := all_point G hG
  obtain ⟨h, hh⟩ := all_point H hH
  obtain ⟨P, eP, hP⟩ := bind3_ok c hc hu hk hm hg hh hk hm
  obtain ⟨t, x, y, et, hx, hy, hl, hacc⟩ := innerProve_ok c hc hu ch hch hk hm hg hh
  refine ⟨P, t, x, y, eP, hP.point, et, hx, hy, hl, fun Q hQ => ?_⟩
  obtain ⟨z, hz⟩ := hQ.lg
  obtain ⟨v, ev, hv⟩ := hacc Q z hz
  exact ⟨v, ev, by rw [hv, hz.req c hP]⟩

/-- C131: with another value than the inner product in the commitment the honest run is rejected, if the point for it is
not the identity. -/
theorem C131_wrong_product (c : Cfg) (hc : c.Enough) {U : EdPoint} (hU : RPoint U) (hne : ¬ REq c U Ristretto.identity)
    (ch : ℕ → Sc) (hch : Chals ch) {n : ℕ} (a b : Halves Sc n) (G H : Halves EdPoint n) (ha : a.All L5.SCanon)
    (hb : b.All L5.SCanon) (hG : G.All RPoint) (hH : H.All RPoint) (s : Sc) (hs : s.SCanon) :
    ∃ q P t x y v, innerSc c a b = .ok q ∧ bind3 c U a b G H (.one s) (.one Scalar.one) = .ok P ∧
      innerProve c U ch a b G H = .ok (t, x, y) ∧ innerCheck c U ch G H P t x y = .ok v ∧ (v = true ↔ s = q) := by
  obtain ⟨u, hu⟩ := hU.lg
  have u0 : u ≠ 0 := fun e => hne ((hu.req c Lg.identity).2 e)
  obtain ⟨k, hk⟩ := all_canon a ha
  obtain ⟨m, hm⟩ := all_canon b hb
  obtain ⟨g, hg⟩ := all_point G hG
  obtain ⟨h, hh⟩ := all_point H hH
  obtain ⟨q, eq, hq⟩ := innerSc_ok c hk hm
  have h1 : SvIs Scalar.one 1 := ⟨by decide, sv_one⟩
  obtain ⟨P, eP, hP⟩ := bind3_ok c hc hu hk hm hg hh (.one ⟨hs, rfl⟩) (.one h1)
  obtain ⟨t, x, y, et, hx, hy, hl, hacc⟩ := innerProve_ok c hc hu ch hch hk hm hg hh
  obtain ⟨v, ev, hv⟩ := hacc P _ hP
  refine ⟨q, P, t, x, y, v, eq, eP, et, ev, ?_⟩
  rw [hv, ← sv_inj hs hq.1, hq.2, add_right_inj]
  simp only [dot, mul_one]
  exact ⟨fun e => mul_right_cancel₀ u0 e, fun e => by rw [e]⟩

/-- C131: the verifier who halves the generators and the one with a single sum give the same answer, whatever was sent. -/
theorem C131_once (c : Cfg) (hc : c.Enough) {U : EdPoint} (hU : RPoint U) (ch : ℕ → Sc) (hch : Chals ch) {n : ℕ}
    (G H : Halves EdPoint n) (hG : G.All RPoint) (hH : H.All RPoint) (P : EdPoint) (hP : RPoint P)
    (t : List (Bytes32 × Bytes32)) (a b : Sc) (ha : a.SCanon) (hb : b.SCanon) :
    ∃ v, innerCheck c U ch G H P t a b = .ok v ∧ innerCheckOnce c U ch G H P t a b = .ok v := by
  obtain ⟨u, hu⟩ := hU.lg
  obtain ⟨z, hz⟩ := hP.lg
  obtain ⟨g, hg⟩ := all_point G hG
  obtain ⟨h, hh⟩ := all_point H hH
  have sa : SvIs a (sv a) := ⟨ha, rfl⟩
  have sb : SvIs b (sv b) := ⟨hb, rfl⟩
  unfold innerCheckOnce
  rcases innerCheck_ok c hc hu ch hch sa sb n t with k | ⟨d, k⟩
  · obtain ⟨k1, k2⟩ := k P z hz
    rw [k1, Res.ok_bind]
    exact ⟨false, k2 G H g h hg hh, rfl⟩
  · obtain ⟨⟨Z, k1, k2⟩, k3⟩ := k P z hz
    obtain ⟨v, ev, hv⟩ := k3 G H g h hg hh
    obtain ⟨s, es, hs⟩ := factors_ok c hc ch hch true n sa
    obtain ⟨s', es', hs'⟩ := factors_ok c hc ch hch false n sb
    obtain ⟨Q, eQ, hQ⟩ := bind3_ok c hc hu hs hs' hg hh (.one sa) (.one sb)
    obtain ⟨w, ew, hw⟩ := ctEq_lg c k2 hQ
    refine ⟨v, ev, ?_⟩
    rw [k1, Res.ok_bind]
    dsimp only
    rw [es, Res.ok_bind, es', Res.ok_bind, eQ, Res.ok_bind, ew, Res.ok_inj, Bool.eq_iff_iff, hv, hw]
    rfl

theorem ok_of_bind {α β : Type} {m : Res α} {f : α → Res β} {b : β} (h : (m >>= f) = .ok b) :
    ∃ a, m = .ok a ∧ f a = .ok b := by
  cases m with
  | ok a => exact ⟨a, rfl, h⟩
  | panic => cases h
  | diverge => cases h

/-- C131: no run is accepted for two different group elements. -/
theorem C131_one_commitment (c : Cfg) (hc : c.Enough) {U : EdPoint} (hU : RPoint U) (ch : ℕ → Sc) (hch : Chals ch) {n : ℕ}
    (G H : Halves EdPoint n) (hG : G.All RPoint) (hH : H.All RPoint) (P Q : EdPoint) (hP : RPoint P) (hQ : RPoint Q)
    (t : List (Bytes32 × Bytes32)) (a b : Sc) (ha : a.SCanon) (hb : b.SCanon)
    (h1 : innerCheck c U ch G H P t a b = .ok true) (h2 : innerCheck c U ch G H Q t a b = .ok true) :
    REq c P Q ∧ t.length = n := by
  obtain ⟨u, hu⟩ := hU.lg
  obtain ⟨z, hz⟩ := hP.lg
  obtain ⟨z', hz'⟩ := hQ.lg
  obtain ⟨g, hg⟩ := all_point G hG
  obtain ⟨h, hh⟩ := all_point H hH
  have sa : SvIs a (sv a) := ⟨ha, rfl⟩
  have sb : SvIs b (sv b) := ⟨hb, rfl⟩
  have hlen : ∀ (n : ℕ) (t : List (Bytes32 × Bytes32)) (P Z : EdPoint), lastCommit c ch n P t = .ok (some Z) →
      t.length = n := by
    intro n
    induction n with
    | zero =>
      intro t P Z e
      cases t with
      | nil => rfl
      | cons q t => cases e
    | succ n ih =>
      intro t P Z e
      cases t with
      | nil => cases e
      | cons q t =>
        obtain ⟨l, r⟩ := q
        rw [lastCommit] at e
        obtain ⟨o, -, e⟩ := ok_of_bind e
        obtain ⟨o', -, e⟩ := ok_of_bind e
        cases o with
        | none => cases e
        | some L =>
        cases o' with
        | none => cases e
        | some R =>
        obtain ⟨y, -, e⟩ := ok_of_bind e
        obtain ⟨P2, -, e⟩ := ok_of_bind e
        rw [List.length_cons, ih t P2 Z e]
  rcases innerCheck_ok c hc hu ch hch sa sb n t with k | ⟨d, k⟩
  · have := (k P z hz).2 G H g h hg hh
    rw [h1, Res.ok_inj] at this
    cases this
  · obtain ⟨⟨Z, e0, -⟩, k1⟩ := k P z hz
    obtain ⟨v, ev, hv⟩ := k1 G H g h hg hh
    obtain ⟨v', ev', hv'⟩ := (k Q z' hz').2 G H g h hg hh
    rw [h1, Res.ok_inj] at ev
    rw [h2, Res.ok_inj] at ev'
    refine ⟨?_, hlen n t P Z e0⟩
    rw [hz.req c hz']
    exact add_right_cancel ((hv.1 ev.symm).trans (hv'.1 ev'.symm).symm)

/-! ### Going back one halving -/

/-- What opens a commitment: two vectors and the value next to them. -/
structure Opening (n : ℕ) where
  a : Halves Sc n
  b : Halves Sc n
  s : Halves Sc 0

/-- Reduced scalars. -/
def Opening.Fine {n : ℕ} (o : Opening n) : Prop := o.a.All L5.SCanon ∧ o.b.All L5.SCanon ∧ o.s.All L5.SCanon

/-- The commitment of an opening. -/
def openTo (c : Cfg) (U : EdPoint) {n : ℕ} (G H : Halves EdPoint n) (o : Opening n) : Res EdPoint :=
  bind3 c U o.a o.b G H o.s (.one Scalar.one)

/-- Whether the opening fits the halved commitment for the challenge `x`. -/
def opensHalf (c : Cfg) (U : EdPoint) {n : ℕ} (G G' H H' : Halves EdPoint n) (P L R : EdPoint) (x : Sc) (o : Opening n) :
    Res Bool := do
  let y ← invSc c x
  let P2 ← nextCommit c x y P L R
  let G2 ← mixPt c y x G G'
  let H2 ← mixPt c x y H H'
  let Q ← openTo c U G2 H2 o
  Ristretto.ctEq c P2 Q

/-- The weight of the run with challenge `x` next to those with `y` and `z`. -/
def runWeight (c : Cfg) (x y z : Sc) : Res Sc := do
  let xx ← Scalar.mul c x x
  let yy ← Scalar.mul c y y
  let zz ← Scalar.mul c z z
  let t ← Scalar.add c yy zz
  let m ← Scalar.mul c xx t
  let d ← Scalar.sub c yy xx
  let e ← Scalar.sub c xx zz
  let f ← Scalar.mul c d e
  let i ← invSc c f
  Scalar.mul c m i

/-- `u a + v b + w d` entry by entry. -/
def three (c : Cfg) (u v w : Sc) {n : ℕ} (a b d : Halves Sc n) : Res (Halves Sc n) := do
  let t ← mixSc c u v a b
  mixSc c Scalar.one w t d

/-- The opening from three runs. -/
def innerExtract (c : Cfg) (x y z : Sc) {n : ℕ} (o o' o'' : Opening n) : Res (Opening (n + 1)) := do
  let u ← runWeight c x y z
  let v ← runWeight c y x z
  let w ← runWeight c z x y
  let xi ← invSc c x
  let yi ← invSc c y
  let zi ← invSc c z
  let ux ← Scalar.mul c u x
  let vy ← Scalar.mul c v y
  let wz ← Scalar.mul c w z
  let ui ← Scalar.mul c u xi
  let vi ← Scalar.mul c v yi
  let wi ← Scalar.mul c w zi
  let a ← three c ui vi wi o.a o'.a o''.a
  let a' ← three c ux vy wz o.a o'.a o''.a
  let b ← three c ux vy wz o.b o'.b o''.b
  let b' ← three c ui vi wi o.b o'.b o''.b
  let s ← three c u v w o.s o'.s o''.s
  return ⟨.two a a', .two b b', s⟩

theorem sub_sv (c : Cfg) {a b : Sc} {k m : ZMod ell} (ha : SvIs a k) (hb : SvIs b m) :
    ∃ s, Scalar.sub c a b = .ok s ∧ SvIs s (k - m) := by
  obtain ⟨s, es, -⟩ := C26_sub c a b ha.1 hb.1
  obtain ⟨hs, vs⟩ := sv_sub ha.1 hb.1 es
  exact ⟨s, es, hs, by rw [vs, ha.2, hb.2]⟩

/-- The weight in classes. -/
def wt (p q r : ZMod ell) : ZMod ell := p * p * (q * q + r * r) * ((q * q - p * p) * (p * p - r * r))⁻¹

theorem runWeight_ok (c : Cfg) (hc : c.Enough) {x y z : Sc} {p q r : ZMod ell} (hx : SvIs x p) (hy : SvIs y q)
    (hz : SvIs z r) (h1 : q * q ≠ p * p) (h2 : p * p ≠ r * r) : ∃ w, runWeight c x y z = .ok w ∧ SvIs w (wt p q r) := by
  obtain ⟨xx, e1, g1⟩ := mul_sv c hx hx
  obtain ⟨yy, e2, g2⟩ := mul_sv c hy hy
  obtain ⟨zz, e3, g3⟩ := mul_sv c hz hz
  obtain ⟨t, e4, g4⟩ := add_sv c g2 g3
  obtain ⟨m, e5, g5⟩ := mul_sv c g1 g4
  obtain ⟨d, e6, g6⟩ := sub_sv c g2 g1
  obtain ⟨e, e7, g7⟩ := sub_sv c g1 g3
  obtain ⟨f, e8, g8⟩ := mul_sv c g6 g7
  obtain ⟨i, e9, g9⟩ := inv_sv c hc g8 (mul_ne_zero (sub_ne_zero.2 h1) (sub_ne_zero.2 h2))
  obtain ⟨w, e10, g10⟩ := mul_sv c g5 g9
  refine ⟨w, ?_, g10⟩
  unfold runWeight
  rw [e1, Res.ok_bind, e2, Res.ok_bind, e3, Res.ok_bind, e4, Res.ok_bind, e5, Res.ok_bind, e6, Res.ok_bind, e7,
    Res.ok_bind, e8, Res.ok_bind, e9, Res.ok_bind, e10]

theorem wt_sums {p q r : ZMod ell} (hp : p ≠ 0) (hq : q ≠ 0) (hr : r ≠ 0) (h1 : q * q ≠ p * p) (h2 : p * p ≠ r * r)
    (h3 : q * q ≠ r * r) : wt p q r + wt q p r + wt r p q = 1 ∧
      wt p q r * (p * p) + wt q p r * (q * q) + wt r p q * (r * r) = 0 ∧
      wt p q r * (p⁻¹ * p⁻¹) + wt q p r * (q⁻¹ * q⁻¹) + wt r p q * (r⁻¹ * r⁻¹) = 0 := by
  have x0 := mul_ne_zero hp hp
  have y0 := mul_ne_zero hq hq
  have z0 := mul_ne_zero hr hr
  unfold wt
  rw [← mul_inv p, ← mul_inv q, ← mul_inv r]
  generalize p * p = X at *
  generalize q * q = Y at *
  generalize r * r = Z at *
  have a1 := sub_ne_zero.2 h1
  have a2 := sub_ne_zero.2 h2
  have a3 := sub_ne_zero.2 h3
  have i1 : (X - Y)⁻¹ = -(Y - X)⁻¹ := by rw [← inv_neg, neg_sub]
  have i2 : (Z - Y)⁻¹ = -(Y - Z)⁻¹ := by rw [← inv_neg, neg_sub]
  simp only [mul_inv]
  rw [i1, i2]
  refine ⟨?_, ?_, ?_⟩
  · field_simp
    ring
  · field_simp
    ring
  · field_simp
    ring

theorem three_ok (c : Cfg) {u v w : Sc} {p q r : ZMod ell} (hu : SvIs u p) (hv : SvIs v q) (hw : SvIs w r) {n : ℕ}
    {a b d : Halves Sc n} {k l m : Halves (ZMod ell) n} (ha : Halves.Rel SvIs a k) (hb : Halves.Rel SvIs b l)
    (hd : Halves.Rel SvIs d m) : ∃ t f, three c u v w a b d = .ok t ∧ Halves.Rel SvIs t f ∧
      ∀ g, dot f g = p * dot k g + q * dot l g + r * dot m g := by
  obtain ⟨t, et, ht⟩ := mixSc_ok c hu hv ha hb
  obtain ⟨s, es, hs⟩ := mixSc_ok c (⟨by decide, sv_one⟩ : SvIs Scalar.one 1) hw ht hd
  refine ⟨s, _, ?_, hs, fun g => ?_⟩
  · unfold three
    rw [et, Res.ok_bind, es]
  · rw [dot_mix_left, dot_mix_left, one_mul]

theorem canon_all {n : ℕ} {a : Halves Sc n} {k : Halves (ZMod ell) n} (h : Halves.Rel SvIs a k) : a.All L5.SCanon := by
  induction h with
  | one h => exact h.1
  | two _ _ h1 h2 => exact ⟨h1, h2⟩

theorem opensHalf_ok (c : Cfg) (hc : c.Enough) {U : EdPoint} {u : ZMod ell} (hU : Lg U u) {n : ℕ}
    {G G' H H' : Halves EdPoint n} {g g' h h' : Halves (ZMod ell) n} (hG : Halves.Rel Lg G g) (hG' : Halves.Rel Lg G' g')
    (hH : Halves.Rel Lg H h) (hH' : Halves.Rel Lg H' h') {P L R : EdPoint} {z l r : ZMod ell} (hP : Lg P z) (hL : Lg L l)
    (hR : Lg R r) {x : Sc} {p : ZMod ell} (hx : SvIs x p) (h0 : p ≠ 0) {o : Opening n} {k m : Halves (ZMod ell) n}
    {s : Halves (ZMod ell) 0} (ha : Halves.Rel SvIs o.a k) (hb : Halves.Rel SvIs o.b m) (hs : Halves.Rel SvIs o.s s) :
    ∃ v, opensHalf c U G G' H H' P L R x o = .ok v ∧ (v = true ↔ z + p * p * l + p⁻¹ * p⁻¹ * r =
      p⁻¹ * dot k g + p * dot k g' + (p * dot m h + p⁻¹ * dot m h') + dot s (.one 1) * u) := by
  obtain ⟨y, ey, hy⟩ := inv_sv c hc hx h0
  obtain ⟨P2, eP2, hP2⟩ := nextCommit_ok c hc hx hy hP hL hR
  obtain ⟨G2, eG2, hG2⟩ := mixPt_ok c hc hy hx hG hG'
  obtain ⟨H2, eH2, hH2⟩ := mixPt_ok c hc hx hy hH hH'
  have h1 : Halves.Rel SvIs (.one Scalar.one) (.one 1) := .one ⟨by decide, sv_one⟩
  obtain ⟨Q, eQ, hQ⟩ := bind3_ok c hc hU ha hb hG2 hH2 hs h1
  obtain ⟨v, ev, hv⟩ := ctEq_lg c hP2 hQ
  refine ⟨v, ?_, ?_⟩
  · unfold opensHalf openTo
    rw [ey, Res.ok_bind, eP2, Res.ok_bind, eG2, Res.ok_bind, eH2, Res.ok_bind, eQ, Res.ok_bind, ev]
  · rwa [dot_mix_right, dot_mix_right] at hv

/-- C131: openings of the halved commitment for three challenges with different squares give, by a computation with the
library, an opening of the commitment before halving. -/
theorem C131_extract_opening (c : Cfg) (hc : c.Enough) {U : EdPoint} (hU : RPoint U) {n : ℕ} (G G' H H' : Halves EdPoint n)
    (hG : G.All RPoint) (hG' : G'.All RPoint) (hH : H.All RPoint) (hH' : H'.All RPoint) (P L R : EdPoint)
    (hP : RPoint P) (hL : RPoint L) (hR : RPoint R) (x y z : Sc) (hx : x.SCanon) (hy : y.SCanon) (hz : z.SCanon)
    (hx0 : x ≠ Scalar.zero) (hy0 : y ≠ Scalar.zero) (hz0 : z ≠ Scalar.zero)
    (hxy : y.val * y.val % ell ≠ x.val * x.val % ell) (hxz : x.val * x.val % ell ≠ z.val * z.val % ell)
    (hyz : y.val * y.val % ell ≠ z.val * z.val % ell) (o o' o'' : Opening n) (ho : o.Fine) (ho' : o'.Fine)
    (ho'' : o''.Fine) (e : opensHalf c U G G' H H' P L R x o = .ok true)
    (e' : opensHalf c U G G' H H' P L R y o' = .ok true) (e'' : opensHalf c U G G' H H' P L R z o'' = .ok true) :
    ∃ w Q, innerExtract c x y z o o' o'' = .ok w ∧ w.Fine ∧ openTo c U (.two G G') (.two H H') w = .ok Q ∧
      REq c Q P := by
  obtain ⟨u, hu⟩ := hU.lg
  obtain ⟨g, hg⟩ := all_point G hG
  obtain ⟨g', hg'⟩ := all_point G' hG'
  obtain ⟨h, hh⟩ := all_point H hH
  obtain ⟨h', hh'⟩ := all_point H' hH'
  obtain ⟨zP, hzP⟩ := hP.lg
  obtain ⟨zL, hzL⟩ := hL.lg
  obtain ⟨zR, hzR⟩ := hR.lg
  have ne : ∀ {x : Sc}, x.SCanon → x ≠ Scalar.zero → sv x ≠ 0 := by
    intro x hx h0 e
    apply h0
    rw [← sv_inj hx zero_canon, e, sv_zero]
  have sq : ∀ {x y : Sc}, x.val * x.val % ell ≠ y.val * y.val % ell → sv x * sv x ≠ sv y * sv y := by
    intro x y hne e
    apply hne
    unfold sv at e
    rw [← Nat.cast_mul, ← Nat.cast_mul] at e
    exact (ZMod.natCast_eq_natCast_iff' _ _ _).1 e
  have sx : SvIs x (sv x) := ⟨hx, rfl⟩
  have sy : SvIs y (sv y) := ⟨hy, rfl⟩
  have sz : SvIs z (sv z) := ⟨hz, rfl⟩
  obtain ⟨ka, ra⟩ := all_canon o.a ho.1
  obtain ⟨kb, rb⟩ := all_canon o.b ho.2.1
  obtain ⟨ks, rs⟩ := all_canon o.s ho.2.2
  obtain ⟨ka', ra'⟩ := all_canon o'.a ho'.1
  obtain ⟨kb', rb'⟩ := all_canon o'.b ho'.2.1
  obtain ⟨ks', rs'⟩ := all_canon o'.s ho'.2.2
  obtain ⟨ka'', ra''⟩ := all_canon o''.a ho''.1
  obtain ⟨kb'', rb''⟩ := all_canon o''.b ho''.2.1
  obtain ⟨ks'', rs''⟩ := all_canon o''.s ho''.2.2
  obtain ⟨v1, ev1, E1⟩ := opensHalf_ok c hc hu hg hg' hh hh' hzP hzL hzR sx (ne hx hx0) ra rb rs
  rw [e, Res.ok_inj] at ev1
  replace E1 := E1.1 ev1.symm
  obtain ⟨v2, ev2, E2⟩ := opensHalf_ok c hc hu hg hg' hh hh' hzP hzL hzR sy (ne hy hy0) ra' rb' rs'
  rw [e', Res.ok_inj] at ev2
  replace E2 := E2.1 ev2.symm
  obtain ⟨v3, ev3, E3⟩ := opensHalf_ok c hc hu hg hg' hh hh' hzP hzL hzR sz (ne hz hz0) ra'' rb'' rs''
  rw [e'', Res.ok_inj] at ev3
  replace E3 := E3.1 ev3.symm
  obtain ⟨w1, f1, j1⟩ := runWeight_ok c hc sx sy sz (sq hxy) (sq hxz)
  obtain ⟨w2, f2, j2⟩ := runWeight_ok c hc sy sx sz (sq hxy).symm (sq hyz)
  obtain ⟨w3, f3, j3⟩ := runWeight_ok c hc sz sx sy (sq hxz) (sq hyz).symm
  obtain ⟨N1, N2, N3⟩ := wt_sums (ne hx hx0) (ne hy hy0) (ne hz hz0) (sq hxy) (sq hxz) (sq hyz)
  obtain ⟨xi, f4, j4⟩ := inv_sv c hc sx (ne hx hx0)
  obtain ⟨yi, f5, j5⟩ := inv_sv c hc sy (ne hy hy0)
  obtain ⟨zi, f6, j6⟩ := inv_sv c hc sz (ne hz hz0)
  obtain ⟨ux, f7, j7⟩ := mul_sv c j1 sx
  obtain ⟨vy, f8, j8⟩ := mul_sv c j2 sy
  obtain ⟨wz, f9, j9⟩ := mul_sv c j3 sz
  obtain ⟨ui, f10, j10⟩ := mul_sv c j1 j4
  obtain ⟨vi, f11, j11⟩ := mul_sv c j2 j5
  obtain ⟨wi, f12, j12⟩ := mul_sv c j3 j6
  obtain ⟨a, A, ea, hA, dA⟩ := three_ok c j10 j11 j12 ra ra' ra''
  obtain ⟨a', A', ea', hA', dA'⟩ := three_ok c j7 j8 j9 ra ra' ra''
  obtain ⟨b, B, eb, hB, dB⟩ := three_ok c j7 j8 j9 rb rb' rb''
  obtain ⟨b', B', eb', hB', dB'⟩ := three_ok c j10 j11 j12 rb rb' rb''
  obtain ⟨s, S, es, hS, dS⟩ := three_ok c j1 j2 j3 rs rs' rs''
  have h1 : Halves.Rel SvIs (.one Scalar.one) (.one 1) := .one ⟨by decide, sv_one⟩
  obtain ⟨Q, eQ, hQ⟩ := bind3_ok c hc hu (.two hA hA') (.two hB hB') (.two hg hg') (.two hh hh') hS h1
  refine ⟨⟨.two a a', .two b b', s⟩, Q, ?_, ⟨⟨canon_all hA, canon_all hA'⟩, ⟨canon_all hB, canon_all hB'⟩, canon_all hS⟩,
    eQ, ?_⟩
  · unfold innerExtract
    rw [f1, Res.ok_bind, f2, Res.ok_bind, f3, Res.ok_bind, f4, Res.ok_bind, f5, Res.ok_bind, f6, Res.ok_bind, f7,
      Res.ok_bind, f8, Res.ok_bind, f9, Res.ok_bind, f10, Res.ok_bind, f11, Res.ok_bind, f12, Res.ok_bind, ea, Res.ok_bind,
      ea', Res.ok_bind, eb, Res.ok_bind, eb', Res.ok_bind, es, Res.ok_bind]
    rfl
  · rw [hQ.req c hzP, dS]
    simp only [dot]
    rw [dA, dA', dB, dB']
    clear * - E1 E2 E3 N1 N2 N3
    generalize wt (sv x) (sv y) (sv z) = n1 at *
    generalize wt (sv y) (sv x) (sv z) = n2 at *
    generalize wt (sv z) (sv x) (sv y) = n3 at *
    linear_combination zP * N1 + zL * N2 + zR * N3 - n1 * E1 - n2 * E2 - n3 * E3

example : Chals (fun _ => Scalar.minusOne) ∧
    (Halves.two (Halves.one Scalar.one) (Halves.one Scalar.minusOne)).All L5.SCanon ∧
    (Halves.two (Halves.one Ed.BASEPOINT) (Halves.one Ristretto.identity)).All RPoint ∧
    ¬ REq dbg Ed.BASEPOINT Ristretto.identity :=
  ⟨fun _ => ⟨(by decide : Scalar.minusOne.SCanon), (by decide : Scalar.minusOne ≠ Scalar.zero)⟩,
    ⟨(by decide : Scalar.one.SCanon), (by decide : Scalar.minusOne.SCanon)⟩, ⟨Lg.base.point, Lg.identity.point⟩,
    fun h => one_ne_zero ((Lg.base.req dbg Lg.identity).1 h)⟩

example (x : Sc) (hx : x.SCanon) (h0 : x ≠ Scalar.zero) :
    opensHalf dbg Ed.BASEPOINT (.one Ed.BASEPOINT) (.one Ed.BASEPOINT) (.one Ed.BASEPOINT) (.one Ed.BASEPOINT) Ed.BASEPOINT
      Ristretto.identity Ristretto.identity x ⟨.one Scalar.zero, .one Scalar.zero, .one Scalar.one⟩ = .ok true := by
  have hz : Halves.Rel SvIs (.one Scalar.zero) (.one 0) := .one ⟨zero_canon, sv_zero⟩
  have h1 : Halves.Rel SvIs (.one Scalar.one) (.one 1) := .one ⟨by decide, sv_one⟩
  have hx0 : sv x ≠ 0 := fun e => h0 (by rw [← sv_inj hx zero_canon, e, sv_zero])
  obtain ⟨v, ev, hv⟩ := opensHalf_ok dbg (by decide) Lg.base (.one Lg.base) (.one Lg.base) (.one Lg.base) (.one Lg.base)
    Lg.base Lg.identity Lg.identity (⟨hx, rfl⟩ : SvIs x (sv x)) hx0
    (o := ⟨.one Scalar.zero, .one Scalar.zero, .one Scalar.one⟩) hz hz h1
  rw [ev, hv.2 (by simp [dot])]

example : ∃ x y z : Sc, (x.SCanon ∧ y.SCanon ∧ z.SCanon) ∧ (x ≠ Scalar.zero ∧ y ≠ Scalar.zero ∧ z ≠ Scalar.zero) ∧
    y.val * y.val % ell ≠ x.val * x.val % ell ∧ x.val * x.val % ell ≠ z.val * z.val % ell ∧
    y.val * y.val % ell ≠ z.val * z.val % ell :=
  ⟨⟨1, 0, 0, 0, 0⟩, ⟨2, 0, 0, 0, 0⟩, ⟨3, 0, 0, 0, 0⟩, by decide, by decide, by decide, by decide, by decide⟩

end Props
end Zerocaf
