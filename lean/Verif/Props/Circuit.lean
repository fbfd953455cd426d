import Verif.Model.Dalek
import Verif.Props.Edwards

/-!
# Property C121: the curve inside the scalars of Ristretto255

The introduction of the library (`src/lib.rs:25-34`) says that the curve is embedded into the scalar field of Ristretto, so
that statements about private keys become equations between such scalars for an argument system. The equations are
written here; they are not in the code. The conversions are.
-/

set_option exponentiation.threshold 600

namespace Zerocaf
namespace Props

open External

/-- A pair of Ristretto255 scalars, as coordinates of a point. -/
abbrev DPoint := DalekScalar × DalekScalar

/-- The scalar is reduced. -/
def Reduced (s : DalekScalar) : Prop := bytesVal s < p

def Reduced₂ (q : DPoint) : Prop := Reduced q.1 ∧ Reduced q.2

/-- The coordinates of a point by the conversions of the library: to affine, then to Ristretto255 scalars. -/
def coords (c : Cfg) (P : EdPoint) : Res DPoint := do
  let a ← Aff.ofEd c P
  let x ← intoDalek a.X
  let y ← intoDalek a.Y
  return (x, y)

/-- The equation of the curve. -/
def CurveEq (d : DalekScalar) (q : DPoint) : Prop :=
  dmul q.2 q.2 = dadd (dadd done (dmul q.1 q.1)) (dmul d (dmul (dmul q.1 q.1) (dmul q.2 q.2)))

/-- The equations for `s` being the sum of `a` and `b`. -/
def IsSum (d : DalekScalar) (a b s : DPoint) : Prop :=
  dmul s.1 (dadd done (dmul d (dmul (dmul a.1 b.1) (dmul a.2 b.2)))) = dadd (dmul a.1 b.2) (dmul a.2 b.1) ∧
  dmul s.2 (dsub done (dmul d (dmul (dmul a.1 b.1) (dmul a.2 b.2)))) = dadd (dmul a.2 b.2) (dmul a.1 b.1)

/-- The point of the table if the bit is one, else the identity. -/
def choose (b : DalekScalar) (q : DPoint) : DPoint := (dmul b q.1, dadd done (dmul b (dsub q.2 done)))

/-- The equations for multiplication: each bit is zero or one, and each of the points `ws` is the one before plus the
chosen point of the table. -/
def IsMul (d : DalekScalar) : List DPoint → DPoint → List DalekScalar → List DPoint → DPoint → Prop
  | [], acc, [], [], out => acc = out
  | q :: tab, acc, b :: bs, w :: ws, out => dmul b b = b ∧ IsSum d acc (choose b q) w ∧ IsMul d tab w bs ws out
  | _, _, _, _, _ => False

/-- The table of `P`, `2P`, `4P`, … by the doublings of the library. -/
def doubles (c : Cfg) : Nat → EdPoint → Res (List DPoint)
  | 0, _ => .ok []
  | n + 1, P => do
    let q ← coords c P
    let P ← Ed.double c P
    let l ← doubles c n P
    return q :: l

/-- The lowest `n` bits of a number as scalars. -/
def bitsOf : Nat → Nat → List DalekScalar
  | 0, _ => []
  | n + 1, k => (if k % 2 = 1 then done else dzero) :: bitsOf n (k / 2)

/-- Sum and scalar product. -/
def dsum : List DalekScalar → DalekScalar
  | [] => dzero
  | s :: l => dadd s (dsum l)

def ddot : List DalekScalar → List DalekScalar → DalekScalar
  | s :: l, t :: m => dadd (dmul s t) (ddot l m)
  | _, _ => dzero

/-- The equations for `q` being one of the points: selectors that are zero or one and have the sum one. -/
def IsMember (keys : List DPoint) (sel : List DalekScalar) (q : DPoint) : Prop :=
  sel.length = keys.length ∧ (∀ s ∈ sel, dmul s s = s) ∧ dsum sel = done ∧ ddot sel (keys.map Prod.fst) = q.1 ∧
    ddot sel (keys.map Prod.snd) = q.2

/-- The constant `d` of the library as scalar. -/
def dD : DalekScalar := Field.toBytes EDWARDS_D

/-! ### Scalars by residues -/

/-- The reduced scalar of a residue. -/
def dal (x : Fp) : DalekScalar := Field.toBytes (enc x)

theorem dal_val (x : Fp) : bytesVal (dal x) = x.val := by
  unfold dal
  rw [Field.toBytes_spec _ (enc_WF x) (Field.canon_lt256 (enc_canon x)), enc_val]

theorem dal_reduced (x : Fp) : Reduced (dal x) := by
  unfold Reduced
  rw [dal_val]
  exact ZMod.val_lt x

theorem dal_inj {x y : Fp} : dal x = dal y ↔ x = y := by
  constructor
  · intro h
    apply ZMod.val_injective
    rw [← dal_val, ← dal_val, h]
  · rintro rfl
    rfl

theorem dal_of {s : DalekScalar} (h : Reduced s) : s = dal (bytesVal s : Fp) := by
  apply bytesVal_inj
  rw [dal_val, ZMod.val_natCast, Nat.mod_eq_of_lt h]

theorem leBytes_dal (n : Nat) (h : n < p) : leBytes n = dal (n : Fp) := by
  have h2 : n < 2 ^ 256 := lt_trans h (by decide)
  apply bytesVal_inj
  rw [leBytes_val n h2, dal_val, ZMod.val_natCast, Nat.mod_eq_of_lt h]

theorem leBytes_mod (n : Nat) : leBytes (n % p) = dal (n : Fp) := by
  rw [leBytes_dal _ (Nat.mod_lt _ (by decide)), ZMod.natCast_mod]

theorem done_dal : done = dal 1 := by
  unfold done
  rw [leBytes_dal 1 (by decide), Nat.cast_one]

theorem dzero_dal : dzero = dal 0 := by
  unfold dzero
  rw [leBytes_dal 0 (by decide), Nat.cast_zero]

theorem cast_dal (x : Fp) : ((bytesVal (dal x) : ℕ) : Fp) = x := by rw [dal_val, ZMod.natCast_zmod_val]

theorem dadd_dal (x y : Fp) : dadd (dal x) (dal y) = dal (x + y) := by
  unfold dadd
  rw [leBytes_mod, Nat.cast_add, cast_dal, cast_dal]

theorem dmul_dal (x y : Fp) : dmul (dal x) (dal y) = dal (x * y) := by
  unfold dmul
  rw [leBytes_mod, Nat.cast_mul, cast_dal, cast_dal]

theorem cast_comp (x : Fp) : ((p - bytesVal (dal x) % p : ℕ) : Fp) = -x := by
  rw [Nat.cast_sub (Nat.mod_lt _ (by decide)).le, ZMod.natCast_self, ZMod.natCast_mod, cast_dal, zero_sub]

theorem dsub_dal (x y : Fp) : dsub (dal x) (dal y) = dal (x - y) := by
  unfold dsub
  rw [leBytes_mod, Nat.cast_add, cast_comp, cast_dal, sub_eq_add_neg]

theorem dneg_dal (x : Fp) : dneg (dal x) = dal (-x) := by
  unfold dneg
  rw [leBytes_mod, cast_comp]

theorem dD_dal : dD = dal dZ := by
  unfold dD dal
  rw [EDWARDS_D_enc]

theorem intoDalek_enc (x : Fp) : intoDalek (enc x) = .ok (dal x) := by
  have h := dal_reduced x
  unfold Reduced at h
  unfold intoDalek fromCanonicalBytes
  rw [← dal, if_pos h]
  rfl

theorem toField_dal (x : Fp) : toField (dal x) = enc x :=
  Field.fromBytes_toBytes _ (enc_WF x) (Field.canon_lt256 (enc_canon x))

/-- The coordinates of a point of the curve. -/
def at' (A : E) : DPoint := (dal A.x, dal A.y)

theorem at_reduced (A : E) : Reduced₂ (at' A) := ⟨dal_reduced _, dal_reduced _⟩

theorem at_inj {A B : E} : at' A = at' B ↔ A = B := by
  unfold at'
  rw [Prod.mk.injEq, dal_inj, dal_inj]
  exact ⟨fun h => EdCurve.Pt.ext h.1 h.2, fun h => by rw [h]; exact ⟨rfl, rfl⟩⟩

theorem coords_ok (c : Cfg) (hc : c.Enough) {P : EdPoint} {A : E} (h : P.Rep A) : coords c P = .ok (at' A) := by
  unfold coords
  rw [Aff.ofEd_rep c hc h, Res.ok_bind]
  dsimp only
  rw [intoDalek_enc, Res.ok_bind, intoDalek_enc, Res.ok_bind]
  rfl

theorem exists_rep (A : E) : ∃ P : EdPoint, P.Rep A := by
  obtain ⟨P, _, h⟩ := Ed.ofAff_rep dbg (AffPoint.rep_mk (A := A) rfl rfl)
  exact ⟨P, h⟩

/-! ### The sum -/

theorem isSum_iff (A B : E) {s : DPoint} (hs : Reduced₂ s) : IsSum dD (at' A) (at' B) s ↔ s = at' (A + B) := by
  obtain ⟨s1, s2⟩ := s
  obtain ⟨h1, h2⟩ := hs
  dsimp only at h1 h2
  rw [dal_of h1, dal_of h2]
  generalize ((bytesVal s1 : ℕ) : Fp) = x
  generalize ((bytesVal s2 : ℕ) : Fp) = y
  obtain ⟨f1, f2, f3, f4⟩ := add_facts A B
  unfold IsSum at'
  dsimp only
  rw [dD_dal, done_dal]
  simp only [dmul_dal, dadd_dal, dsub_dal, dal_inj, Prod.mk.injEq]
  have e : dZ * (A.x * B.x * (A.y * B.y)) = dZ * A.x * B.x * A.y * B.y := by ring
  rw [e, ← f3, ← f4]
  exact ⟨fun h => ⟨mul_right_cancel₀ f1 h.1, mul_right_cancel₀ f2 h.2⟩, fun h => by rw [h.1, h.2]; exact ⟨rfl, rfl⟩⟩

theorem onCurve_iff {q : DPoint} (hq : Reduced₂ q) : CurveEq dD q ↔ ∃ A, q = at' A := by
  obtain ⟨s1, s2⟩ := q
  obtain ⟨h1, h2⟩ := hq
  dsimp only at h1 h2
  rw [dal_of h1, dal_of h2]
  generalize ((bytesVal s1 : ℕ) : Fp) = x
  generalize ((bytesVal s2 : ℕ) : Fp) = y
  unfold CurveEq at'
  dsimp only
  rw [dD_dal, done_dal]
  simp only [dmul_dal, dadd_dal, dal_inj, Prod.mk.injEq]
  constructor
  · intro h
    refine ⟨⟨x, y, ?_⟩, rfl, rfl⟩
    show y ^ 2 - x ^ 2 = 1 + dZ * x ^ 2 * y ^ 2
    linear_combination h
  · rintro ⟨A, rfl, rfl⟩
    linear_combination on_fact A

theorem choose_one (A : E) : choose (dal 1) (at' A) = at' A := by
  unfold choose at'
  dsimp only
  rw [done_dal]
  simp only [dmul_dal, dadd_dal, dsub_dal]
  rw [one_mul, one_mul, add_sub_cancel]

theorem choose_zero (A : E) : choose (dal 0) (at' A) = at' 0 := by
  unfold choose at'
  dsimp only
  rw [done_dal, EdCurve.Pt.zero_x, EdCurve.Pt.zero_y]
  simp only [dmul_dal, dadd_dal, dsub_dal]
  rw [zero_mul, zero_mul, add_zero]

theorem bool_dal {s : DalekScalar} (hs : Reduced s) : dmul s s = s ↔ s = dal 0 ∨ s = dal 1 := by
  rw [dal_of hs]
  generalize ((bytesVal s : ℕ) : Fp) = x
  rw [dmul_dal, dal_inj, dal_inj, dal_inj]
  constructor
  · intro h
    have : x * (x - 1) = 0 := by linear_combination h
    rcases mul_eq_zero.1 this with h | h
    · exact .inl h
    · exact .inr (sub_eq_zero.1 h)
  · rintro (h | h) <;> rw [h] <;> ring

/-! ### Multiplication -/

/-- The table in terms of the curve. -/
def tabOf : Nat → E → List DPoint
  | 0, _ => []
  | n + 1, A => at' A :: tabOf n (A + A)

theorem doubles_ok (c : Cfg) (hc : c.Enough) : ∀ (n : Nat) {P : EdPoint} {A : E}, P.Rep A →
    doubles c n P = .ok (tabOf n A)
  | 0, _, _, _ => rfl
  | n + 1, P, A, h => by
    obtain ⟨Q, eQ, hQ⟩ := C39_extended c h
    unfold doubles
    rw [coords_ok c hc h, Res.ok_bind, eQ, Res.ok_bind, doubles_ok c hc n hQ, Res.ok_bind]
    rfl

theorem isMul_sound : ∀ (n : Nat) (A B : E) (bs : List DalekScalar) (ws : List DPoint) (out : DPoint),
    (∀ b ∈ bs, Reduced b) → (∀ w ∈ ws, Reduced₂ w) → IsMul dD (tabOf n A) (at' B) bs ws out →
    ∃ k, k < 2 ^ n ∧ bs = bitsOf n k ∧ out = at' (B + k • A)
  | 0, A, B, [], [], out, _, _, h => ⟨0, by norm_num, rfl, by rw [zero_nsmul, add_zero]; exact h.symm⟩
  | 0, _, _, _ :: _, _, _, _, _, h => by simp [tabOf, IsMul] at h
  | 0, _, _, [], _ :: _, _, _, _, h => by simp [tabOf, IsMul] at h
  | n + 1, _, _, [], _, _, _, _, h => by simp [tabOf, IsMul] at h
  | n + 1, _, _, _ :: _, [], _, _, _, h => by simp [tabOf, IsMul] at h
  | n + 1, A, B, b :: bs, w :: ws, out, hb, hw, h => by
    obtain ⟨h1, h2, h3⟩ := h
    rcases (bool_dal (hb b (by simp))).1 h1 with rfl | rfl
    · rw [choose_zero] at h2
      have h2 := (isSum_iff B 0 (hw w (by simp))).1 h2
      rw [h2] at h3
      obtain ⟨k, hk, hbs, ho⟩ := isMul_sound n (A + A) _ bs ws out (fun x hx => hb x (by simp [hx]))
        (fun x hx => hw x (by simp [hx])) h3
      refine ⟨2 * k, by rw [pow_succ]; omega, ?_, ?_⟩
      · rw [bitsOf, if_neg (by omega), Nat.mul_div_cancel_left _ (by norm_num), ← hbs, dzero_dal]
      · rw [ho, add_zero, mul_comm 2 k, mul_nsmul', two_nsmul]
    · rw [choose_one] at h2
      have h2 := (isSum_iff B A (hw w (by simp))).1 h2
      rw [h2] at h3
      obtain ⟨k, hk, hbs, ho⟩ := isMul_sound n (A + A) _ bs ws out (fun x hx => hb x (by simp [hx]))
        (fun x hx => hw x (by simp [hx])) h3
      refine ⟨2 * k + 1, by rw [pow_succ]; omega, ?_, ?_⟩
      · rw [bitsOf, if_pos (by omega), show (2 * k + 1) / 2 = k by omega, ← hbs, done_dal]
      · rw [ho, add_nsmul, one_nsmul, mul_comm 2 k, mul_nsmul', two_nsmul]
        congr 1
        abel

theorem bitsOf_reduced : ∀ (n k : Nat), ∀ b ∈ bitsOf n k, Reduced b
  | 0, _, b, h => by simp [bitsOf] at h
  | n + 1, k, b, h => by
    rw [bitsOf, List.mem_cons] at h
    rcases h with rfl | h
    · split
      · rw [done_dal]; exact dal_reduced _
      · rw [dzero_dal]; exact dal_reduced _
    · exact bitsOf_reduced n _ b h

theorem isMul_complete : ∀ (n : Nat) (A B : E) (k : Nat), k < 2 ^ n →
    ∃ ws, (∀ w ∈ ws, Reduced₂ w) ∧ IsMul dD (tabOf n A) (at' B) (bitsOf n k) ws (at' (B + k • A))
  | 0, A, B, k, h => by
    have : k = 0 := by omega
    subst this
    refine ⟨[], by simp, ?_⟩
    show at' B = _
    rw [zero_nsmul, add_zero]
  | n + 1, A, B, k, h => by
    rw [pow_succ] at h
    have hk : k / 2 < 2 ^ n := by omega
    rcases Nat.mod_two_eq_zero_or_one k with h0 | h0
    · obtain ⟨ws, hw, hm⟩ := isMul_complete n (A + A) B (k / 2) hk
      refine ⟨at' B :: ws, ?_, ?_⟩
      · intro w h
        rcases List.mem_cons.1 h with rfl | h
        · exact at_reduced B
        · exact hw w h
      · rw [bitsOf, if_neg (by omega)]
        refine ⟨?_, ?_, ?_⟩
        · rw [dzero_dal, dmul_dal, mul_zero]
        · rw [dzero_dal, choose_zero, isSum_iff B 0 (at_reduced B), add_zero]
        · convert hm using 2
          rw [← two_nsmul, ← mul_nsmul', Nat.div_mul_cancel (Nat.dvd_of_mod_eq_zero h0)]
    · obtain ⟨ws, hw, hm⟩ := isMul_complete n (A + A) (B + A) (k / 2) hk
      refine ⟨at' (B + A) :: ws, ?_, ?_⟩
      · intro w h
        rcases List.mem_cons.1 h with rfl | h
        · exact at_reduced _
        · exact hw w h
      · rw [bitsOf, if_pos h0]
        refine ⟨?_, ?_, ?_⟩
        · rw [done_dal, dmul_dal, mul_one]
        · rw [done_dal, choose_one, isSum_iff B A (at_reduced _)]
        · convert hm using 2
          rw [← two_nsmul, ← mul_nsmul', add_assoc]
          congr 1
          rw [← succ_nsmul']
          congr 1
          omega

/-! ### Selection -/

theorem dsum_reduced : ∀ l : List DalekScalar, Reduced (dsum l)
  | [] => by rw [dsum, dzero_dal]; exact dal_reduced _
  | s :: l => by
    unfold dsum dadd
    rw [leBytes_mod]
    exact dal_reduced _

theorem ddot_zero : ∀ (sel keys : List DalekScalar), (∀ s ∈ sel, s = dal 0) → (∀ t ∈ keys, Reduced t) →
    ddot sel keys = dal 0
  | [], _, _, _ => by rw [ddot, dzero_dal]; simp
  | _ :: _, [], _, _ => by rw [ddot, dzero_dal]; simp
  | s :: sel, t :: keys, h, hk => by
    rw [ddot, ddot_zero sel keys (fun x hx => h x (by simp [hx])) (fun x hx => hk x (by simp [hx])), h s (by simp),
      dal_of (hk t (by simp)), dmul_dal, dadd_dal, zero_mul, add_zero]

theorem dsum_count : ∀ sel : List DalekScalar, (∀ s ∈ sel, s = dal 0 ∨ s = dal 1) →
    ∃ m : ℕ, m ≤ sel.length ∧ dsum sel = dal (m : Fp) ∧ (m = 0 → ∀ s ∈ sel, s = dal 0)
  | [], _ => ⟨0, le_refl _, by rw [dsum, dzero_dal, Nat.cast_zero], by simp⟩
  | s :: sel, h => by
    obtain ⟨m, h1, h2, h3⟩ := dsum_count sel (fun x hx => h x (by simp [hx]))
    rcases h s (by simp) with rfl | rfl
    · refine ⟨m, by rw [List.length_cons]; omega, by rw [dsum, h2, dadd_dal, zero_add], fun h0 => ?_⟩
      intro x hx
      rcases List.mem_cons.1 hx with rfl | hx
      · rfl
      · exact h3 h0 x hx
    · exact ⟨m + 1, by rw [List.length_cons]; omega, by rw [dsum, h2, dadd_dal, Nat.cast_add, Nat.cast_one, add_comm],
        fun h0 => absurd h0 (by omega)⟩

theorem member_sound (keys : List DPoint) (sel : List DalekScalar) (q : DPoint) (hk : ∀ k ∈ keys, Reduced₂ k)
    (hl : keys.length < p) (hb : ∀ s ∈ sel, s = dal 0 ∨ s = dal 1) (hlen : sel.length = keys.length)
    (hs : dsum sel = dal 1) (h1 : ddot sel (keys.map Prod.fst) = q.1) (h2 : ddot sel (keys.map Prod.snd) = q.2) :
    q ∈ keys := by
  induction keys generalizing sel with
  | nil =>
    rw [List.length_nil, List.length_eq_zero_iff] at hlen
    subst hlen
    rw [dsum, dzero_dal, dal_inj] at hs
    exact absurd hs zero_ne_one
  | cons k keys ih =>
    obtain ⟨s, sel, rfl⟩ : ∃ s l, sel = s :: l := by
      cases sel with
      | nil => simp at hlen
      | cons s l => exact ⟨s, l, rfl⟩
    have hl' : keys.length + 1 < p := by rw [List.length_cons] at hl; exact hl
    have hlen' : sel.length = keys.length := by simpa using hlen
    have hk0 := hk k (by simp)
    have hb' : ∀ s ∈ sel, s = dal 0 ∨ s = dal 1 := fun x hx => hb x (by simp [hx])
    rw [List.map_cons, ddot, dal_of hk0.1] at h1
    rw [List.map_cons, ddot, dal_of hk0.2] at h2
    rw [dsum] at hs
    rcases hb s (by simp) with rfl | rfl
    · have hx := dal_of (dsum_reduced sel)
      rw [hx, dadd_dal, zero_add, ← hx] at hs
      have hd : ∀ l m, Reduced (ddot l m) := by
        intro l m
        match l, m with
        | [], _ => rw [ddot, dzero_dal]; exact dal_reduced _; simp
        | _ :: _, [] => rw [ddot, dzero_dal]; exact dal_reduced _; simp
        | s :: l, t :: m =>
          rw [ddot, dadd, leBytes_mod]
          exact dal_reduced _
      have z : ∀ (x : Fp) l m, dadd (dmul (dal 0) (dal x)) (ddot l m) = ddot l m := by
        intro x l m
        rw [dal_of (hd l m), dmul_dal, dadd_dal, zero_mul, zero_add]
      rw [z] at h1 h2
      exact List.mem_cons_of_mem _ (ih sel (fun x hx => hk x (by simp [hx])) (lt_trans (Nat.lt_succ_self _) hl') hb' hlen' hs h1
        h2)
    · obtain ⟨m, m1, m2, m3⟩ := dsum_count sel hb'
      rw [m2, dadd_dal, dal_inj] at hs
      have hm : (m : Fp) = 0 := by linear_combination hs
      have hm0 : m = 0 := by
        rw [ZMod.natCast_eq_zero_iff] at hm
        exact Nat.eq_zero_of_dvd_of_lt hm (lt_of_le_of_lt (m1.trans hlen'.le) (lt_trans (Nat.lt_succ_self _) hl'))
      have hz := m3 hm0
      rw [ddot_zero sel _ hz (by
        intro t ht
        obtain ⟨x, hx, rfl⟩ := List.mem_map.1 ht
        exact (hk x (by simp [hx])).1), dmul_dal, dadd_dal, one_mul, add_zero, ← dal_of hk0.1] at h1
      rw [ddot_zero sel _ hz (by
        intro t ht
        obtain ⟨x, hx, rfl⟩ := List.mem_map.1 ht
        exact (hk x (by simp [hx])).2), dmul_dal, dadd_dal, one_mul, add_zero, ← dal_of hk0.2] at h2
      rw [show q = k from (Prod.ext h1 h2).symm]
      simp

theorem dsum_replicate : ∀ n, dsum (List.replicate n (dal 0)) = dal 0
  | 0 => dzero_dal
  | n + 1 => by rw [List.replicate_succ, dsum, dsum_replicate n, dadd_dal, zero_add]

theorem member_complete : ∀ (keys : List DPoint) (q : DPoint), (∀ k ∈ keys, Reduced₂ k) → q ∈ keys →
    ∃ sel : List DalekScalar, (∀ s ∈ sel, s = dal 0 ∨ s = dal 1) ∧ sel.length = keys.length ∧ dsum sel = dal 1 ∧
      ddot sel (keys.map Prod.fst) = q.1 ∧ ddot sel (keys.map Prod.snd) = q.2
  | k :: keys, q, hk, h => by
    have hk0 := hk k (by simp)
    rcases List.mem_cons.1 h with rfl | h
    · refine ⟨dal 1 :: List.replicate keys.length (dal 0), ?_, by simp, ?_, ?_, ?_⟩
      · intro s hs
        rcases List.mem_cons.1 hs with rfl | hs
        · exact .inr rfl
        · exact .inl (List.eq_of_mem_replicate hs)
      · rw [dsum, dsum_replicate, dadd_dal, add_zero]
      · rw [List.map_cons, ddot, ddot_zero _ _ (fun s hs => List.eq_of_mem_replicate hs) (by
          intro t ht
          obtain ⟨x, hx, rfl⟩ := List.mem_map.1 ht
          exact (hk x (by simp [hx])).1), dal_of hk0.1, dmul_dal, dadd_dal, one_mul, add_zero]
      · rw [List.map_cons, ddot, ddot_zero _ _ (fun s hs => List.eq_of_mem_replicate hs) (by
          intro t ht
          obtain ⟨x, hx, rfl⟩ := List.mem_map.1 ht
          exact (hk x (by simp [hx])).2), dal_of hk0.2, dmul_dal, dadd_dal, one_mul, add_zero]
    · obtain ⟨sel, h1, h2, h3, h4, h5⟩ := member_complete keys q (fun x hx => hk x (by simp [hx])) h
      have hq := hk q (by simp [h])
      refine ⟨dal 0 :: sel, ?_, by simp [h2], ?_, ?_, ?_⟩
      · intro s hs
        rcases List.mem_cons.1 hs with rfl | hs
        · exact .inl rfl
        · exact h1 s hs
      · rw [dsum, h3, dadd_dal, zero_add]
      · rw [List.map_cons, ddot, h4, dal_of hk0.1, dal_of hq.1, dmul_dal, dadd_dal, zero_mul, zero_add]
      · rw [List.map_cons, ddot, h5, dal_of hk0.2, dal_of hq.2, dmul_dal, dadd_dal, zero_mul, zero_add]

/-! ### C121 -/

/-- C121: the conversions carry the arithmetic of the library to that of Ristretto255 scalars. -/
theorem C121_arithmetic (c : Cfg) (a b : FE) (ha : a.Canon) (hb : b.Canon) :
    ∃ s t, intoDalek a = .ok s ∧ intoDalek b = .ok t ∧ (Field.add c a b >>= intoDalek) = .ok (dadd s t) ∧
      (Field.sub c a b >>= intoDalek) = .ok (dsub s t) ∧ (Field.mul c a b >>= intoDalek) = .ok (dmul s t) ∧
      (Field.neg c a >>= intoDalek) = .ok (dneg s) ∧ (s = t ↔ a = b) ∧ refIntoDalek a = s := by
  rw [ha.eq_enc rfl, hb.eq_enc rfl]
  refine ⟨_, _, intoDalek_enc _, intoDalek_enc _, ?_, ?_, ?_, ?_, ?_, ?_⟩
  · rw [Field.add_enc, Res.ok_bind, intoDalek_enc, dadd_dal]
  · rw [Field.sub_enc, Res.ok_bind, intoDalek_enc, dsub_dal]
  · rw [Field.mul_enc, Res.ok_bind, intoDalek_enc, dmul_dal]
  · rw [Field.neg_enc, Res.ok_bind, intoDalek_enc, dneg_dal]
  · rw [dal_inj, enc_inj]
  · unfold refIntoDalek fromBytesModOrder
    rw [← dal, leBytes_mod, cast_dal]

/-- C121: every reduced Ristretto255 scalar is the conversion of exactly one canonical field element, the one it converts
to. -/
theorem C121_onto (s : DalekScalar) (hs : Reduced s) : (toField s).Canon ∧ intoDalek (toField s) = .ok s ∧
    ∀ a : FE, a.Canon → intoDalek a = .ok s → a = toField s := by
  rw [dal_of hs, toField_dal]
  refine ⟨enc_canon _, intoDalek_enc _, fun a ha h => ?_⟩
  rw [ha.eq_enc rfl, intoDalek_enc, Res.ok_inj, dal_inj] at h
  rw [← h]
  exact ha.eq_enc rfl

/-- C121: the pairs of reduced scalars on the curve are the coordinates of the points of the library. -/
theorem C121_on_curve (c : Cfg) (hc : c.Enough) (q : DPoint) (hq : Reduced₂ q) :
    CurveEq dD q ↔ ∃ P : EdPoint, P.Valid ∧ coords c P = .ok q := by
  rw [onCurve_iff hq]
  constructor
  · rintro ⟨A, rfl⟩
    obtain ⟨P, hP⟩ := exists_rep A
    exact ⟨P, ⟨A, hP⟩, coords_ok c hc hP⟩
  · rintro ⟨P, ⟨A, hP⟩, e⟩
    rw [coords_ok c hc hP, Res.ok_inj] at e
    exact ⟨A, e.symm⟩

/-- C121: the equations for a sum have exactly one solution, the coordinates of the sum that the library computes. -/
theorem C121_sum (c : Cfg) (hc : c.Enough) {P Q : EdPoint} (hP : P.Valid) (hQ : Q.Valid) :
    ∃ R a b r, Ed.add c P Q = .ok R ∧ coords c P = .ok a ∧ coords c Q = .ok b ∧ coords c R = .ok r ∧
      ∀ s, Reduced₂ s → (IsSum dD a b s ↔ s = r) := by
  obtain ⟨A, hP⟩ := hP
  obtain ⟨B, hQ⟩ := hQ
  obtain ⟨R, eR, hR⟩ := C37_add c hP hQ
  exact ⟨R, _, _, _, eR, coords_ok c hc hP, coords_ok c hc hQ, coords_ok c hc hR, fun s hs => isSum_iff A B hs⟩

/-- C121: the equations for multiplication hold, for some intermediate points, exactly when the bits are those of a scalar
and the result is the product that the library computes. -/
theorem C121_mul (c : Cfg) (hc : c.Enough) {P : EdPoint} (hP : P.Valid) (n : Nat) (hn : n ≤ 256) :
    ∃ tab o, doubles c n P = .ok tab ∧ coords c Ed.identity = .ok o ∧
      ∀ bs out, (∀ b ∈ bs, Reduced b) →
        ((∃ ws, (∀ w ∈ ws, Reduced₂ w) ∧ IsMul dD tab o bs ws out) ↔
          ∃ s : Sc, s.WF ∧ s.val < 2 ^ n ∧ bs = bitsOf n s.val ∧ (Ed.mul c P s >>= coords c) = .ok out) := by
  obtain ⟨A, hP⟩ := hP
  refine ⟨_, _, doubles_ok c hc n hP, coords_ok c hc Ed.identity_rep, fun bs out hb => ?_⟩
  have hpow : 2 ^ n ≤ 2 ^ 256 := Nat.pow_le_pow_right (by norm_num) hn
  constructor
  · rintro ⟨ws, hw, h⟩
    obtain ⟨k, hk, e1, e2⟩ := isMul_sound n A 0 bs ws out hb hw h
    have hv : (encNat k).val = k := encNat_val k (lt_trans (lt_of_lt_of_le hk hpow) (by norm_num))
    refine ⟨encNat k, encNat_WF k, by rw [hv]; exact hk, by rw [hv]; exact e1, ?_⟩
    obtain ⟨S, eS, hS⟩ := C45_extended c hc hP (encNat k) (encNat_WF k) (by rw [hv]; exact lt_of_lt_of_le hk hpow)
    rw [eS, Res.ok_bind, coords_ok c hc hS, e2, hv, zero_add]
  · rintro ⟨s, ws, hs, rfl, h⟩
    obtain ⟨S, eS, hS⟩ := C45_extended c hc hP s ws (lt_of_lt_of_le hs hpow)
    rw [eS, Res.ok_bind, coords_ok c hc hS, Res.ok_inj] at h
    obtain ⟨w, h1, h2⟩ := isMul_complete n A 0 s.val hs
    rw [zero_add, h] at h2
    exact ⟨w, h1, h2⟩

/-- C121: the equations for membership hold, for some selectors, exactly when the point is in the list. -/
theorem C121_member (keys : List DPoint) (hk : ∀ k ∈ keys, Reduced₂ k) (hl : keys.length < p) (q : DPoint) :
    (∃ sel, (∀ s ∈ sel, Reduced s) ∧ IsMember keys sel q) ↔ q ∈ keys := by
  constructor
  · rintro ⟨sel, hs, h1, h2, h3, h4, h5⟩
    exact member_sound keys sel q hk hl (fun s h => (bool_dal (hs s h)).1 (h2 s h)) h1 (by rw [h3, done_dal]) h4 h5
  · intro h
    obtain ⟨sel, h1, h2, h3, h4, h5⟩ := member_complete keys q hk h
    have hr : ∀ s ∈ sel, Reduced s := by
      intro s hs
      rcases h1 s hs with rfl | rfl <;> exact dal_reduced _
    exact ⟨sel, hr, h2, fun s hs => (bool_dal (hr s hs)).2 (h1 s hs), by rw [h3, done_dal], h4, h5⟩

/-- C121: the statement the library is made for. The equations for multiplication of the base point by `n ≥ 250` bits and
for membership of the result in a list of keys have a common solution exactly when some private key has a public key in
the list. -/
theorem C121_inclusion (c : Cfg) (hc : c.Enough) (n : Nat) (hn : 250 ≤ n) (keys : List DPoint)
    (hk : ∀ k ∈ keys, Reduced₂ k) (hl : keys.length < p) :
    ∃ tab o, doubles c n Ed.BASEPOINT = .ok tab ∧ coords c Ed.identity = .ok o ∧
      ((∃ bs ws out sel, (∀ b ∈ bs, Reduced b) ∧ (∀ w ∈ ws, Reduced₂ w) ∧ (∀ s ∈ sel, Reduced s) ∧
          IsMul dD tab o bs ws out ∧ IsMember keys sel out) ↔
        ∃ x : Sc, x.SCanon ∧ ∃ k ∈ keys, (Ed.mul c Ed.BASEPOINT x >>= coords c) = .ok k) := by
  refine ⟨_, _, doubles_ok c hc n BASEPOINT_rep, coords_ok c hc Ed.identity_rep, ?_⟩
  constructor
  · rintro ⟨bs, ws, out, sel, h1, h2, h4, h5, h6⟩
    obtain ⟨k, -, -, e⟩ := isMul_sound n Bpt 0 bs ws out h1 h2 h5
    have hlt : k % ell < ell := Nat.mod_lt _ (by decide)
    have hv : (encNat (k % ell)).val = k % ell := encNat_val _ (lt_trans hlt (by decide))
    have hx : (encNat (k % ell)).SCanon := ⟨encNat_WF _, by rw [hv]; exact hlt⟩
    refine ⟨encNat (k % ell), hx, out, (C121_member keys hk hl out).1 ⟨sel, h4, h6⟩, ?_⟩
    obtain ⟨S, eS, hS⟩ := C45_extended c hc BASEPOINT_rep _ hx.1 (Scalar.scanon_lt256 hx)
    rw [eS, Res.ok_bind, coords_ok c hc hS, e, hv, mod_ell, zero_add]
  · rintro ⟨x, hx, k, hm, e⟩
    obtain ⟨S, eS, hS⟩ := C45_extended c hc BASEPOINT_rep x hx.1 (Scalar.scanon_lt256 hx)
    rw [eS, Res.ok_bind, coords_ok c hc hS, Res.ok_inj] at e
    have hlt : x.val < 2 ^ n :=
      lt_of_lt_of_le (lt_trans hx.2 (by decide : ell < 2 ^ 250)) (Nat.pow_le_pow_right (by norm_num) hn)
    obtain ⟨ws, h1, h2⟩ := isMul_complete n Bpt 0 x.val hlt
    rw [zero_add, e] at h2
    obtain ⟨sel, h3, h4⟩ := (C121_member keys hk hl k).2 hm
    exact ⟨_, ws, k, sel, bitsOf_reduced n _, h1, h3, h2, h4⟩

/-- The hypotheses are met, and the equations for inclusion can be solved. The bound on the length of the list matters in
principle only: the sum of the selectors wraps around at `p` keys. -/
example : (∀ k ∈ [(dal 5, dal 1), at' Bpt], Reduced₂ k) ∧ [(dal 5, dal 1), at' Bpt].length < p ∧
    (∃ x : Sc, x.SCanon ∧ ∃ k ∈ [(dal 5, dal 1), at' Bpt],
      (Ed.mul dbg Ed.BASEPOINT x >>= coords dbg) = .ok k) := by
  refine ⟨?_, by decide, ⟨1, 0, 0, 0, 0⟩, by decide, at' Bpt, by simp, ?_⟩
  · intro k hk
    rcases List.mem_cons.1 hk with rfl | hk
    · exact ⟨dal_reduced _, dal_reduced _⟩
    · rw [List.mem_singleton] at hk
      rw [hk]
      exact at_reduced _
  · obtain ⟨S, eS, hS⟩ := C45_extended dbg (by decide) BASEPOINT_rep ⟨1, 0, 0, 0, 0⟩ (by decide) (by decide)
    rw [show L5.val ⟨1, 0, 0, 0, 0⟩ = 1 by decide, one_nsmul] at hS
    rw [eS, Res.ok_bind, coords_ok dbg (by decide) hS]

end Props
end Zerocaf
