import Verif.Props.Protocols
import Verif.Props.Exact

/-!
# C119: what hides behind random scalars

`Scalar::random` draws from `[0, 2^249)`, which is not all of `[0, L)`. Here the exact distance of its output from the
uniform distribution is computed, and what follows for protocols that hide a value behind a random scalar: no test of
their output, however computed, tells two hidden values apart with an advantage of `2^-125` or more. `Field::random`
misses half of its range.

A generator output is a uniform string of 32 bytes. The protocols are short programs over the library.
-/

set_option exponentiation.threshold 600

namespace Zerocaf
namespace Props

open Ristretto

/-- The probability, over a uniform generator output, that the computation returns a value that passes the test. -/
noncomputable def chance {α : Type} (m : Bytes32 → Res α) (T : Set α) : ℚ :=
  {b : Bytes32 | ∃ y ∈ T, m b = .ok y}.ncard / 2 ^ 256

theorem ncard_preimage_eq {α β : Type} [Finite α] [Finite β] (f : α → β) (S : Set β) (n : ℕ)
    (hf : ∀ y ∈ S, {x | f x = y}.ncard = n) : {x | f x ∈ S}.ncard = n * S.ncard := by
  classical
  have := Fintype.ofFinite α
  have := Fintype.ofFinite β
  have h := Finset.card_eq_sum_card_fiberwise (f := f) (s := Finset.univ.filter fun x => f x ∈ S)
    (t := Finset.univ.filter fun y => y ∈ S) (by
      intro x hx
      simpa using hx)
  have h1 : {x | f x ∈ S}.ncard = (Finset.univ.filter fun x => f x ∈ S).card := by
    rw [Set.ncard_eq_toFinset_card']
    congr 1
    ext x
    simp
  have h2 : S.ncard = (Finset.univ.filter fun y => y ∈ S).card := by
    rw [Set.ncard_eq_toFinset_card']
    congr 1
    ext x
    simp
  rw [h1, h, h2, mul_comm, ← smul_eq_mul, ← Finset.sum_const]
  refine Finset.sum_congr rfl fun y hy => ?_
  have hy' : y ∈ S := by simpa using hy
  rw [← hf y hy', Set.ncard_eq_toFinset_card']
  congr 1
  ext x
  simp only [Finset.mem_filter, Finset.mem_univ, true_and, Set.mem_toFinset, Set.mem_ofPred_eq]
  exact ⟨fun h => h.2, fun h => ⟨h ▸ hy', h⟩⟩

theorem count_low {N A B : ℕ} [NeZero N] (hAB : A * B = 2 ^ 256) (hAN : A ≤ N) (S : Set (ZMod N)) :
    {b : Bytes32 | ((bytesVal b % A : ℕ) : ZMod N) ∈ S}.ncard = B * {k : ZMod N | k ∈ S ∧ k.val < A}.ncard := by
  have hA : 0 < A := by
    rcases Nat.eq_zero_or_pos A with h | h
    · rw [h, Nat.zero_mul] at hAB
      exact absurd hAB.symm (by positivity)
    · exact h
  have hv : ∀ b : Bytes32, (((bytesVal b % A : ℕ) : ZMod N)).val = bytesVal b % A := fun b =>
    ZMod.val_cast_of_lt (lt_of_lt_of_le (Nat.mod_lt _ hA) hAN)
  rw [← ncard_preimage_eq (fun b : Bytes32 => ((bytesVal b % A : ℕ) : ZMod N)) {k | k ∈ S ∧ k.val < A} B]
  · congr 1
    ext b
    show _ ∈ S ↔ _ ∈ S ∧ _
    rw [hv]
    exact ⟨fun h => ⟨h, Nat.mod_lt _ hA⟩, fun h => h.1⟩
  · rintro k ⟨-, hk⟩
    rw [← ncard_low_bits A B k.val hAB hk]
    congr 1
    ext b
    show _ = k ↔ _ = k.val
    constructor
    · intro h
      rw [← h, hv]
    · intro h
      rw [h, ZMod.natCast_zmod_val]

theorem ncard_low {N A : ℕ} [NeZero N] (hAN : A ≤ N) : {k : ZMod N | k.val < A}.ncard = A := by
  have e : {k : ZMod N | k.val < A} = (fun n : Fin A => ((n.val : ℕ) : ZMod N)) '' Set.univ := by
    ext k
    constructor
    · intro hk
      exact ⟨⟨k.val, hk⟩, trivial, ZMod.natCast_zmod_val k⟩
    · rintro ⟨n, -, rfl⟩
      show ZMod.val _ < A
      rw [ZMod.val_cast_of_lt (lt_of_lt_of_le n.isLt hAN)]
      exact n.isLt
  rw [e, Set.ncard_image_of_injective, Set.ncard_univ, Nat.card_eq_fintype_card, Fintype.card_fin]
  intro a b h
  have h' := congrArg ZMod.val h
  dsimp only at h'
  rw [ZMod.val_cast_of_lt (lt_of_lt_of_le a.isLt hAN), ZMod.val_cast_of_lt (lt_of_lt_of_le b.isLt hAN)] at h'
  exact Fin.ext h'

/-- Of a set the share missed by a map from the low residues is at most the number of other residues. -/
theorem count_bij {N A : ℕ} [NeZero N] (hAN : A ≤ N) (π : ZMod N → ZMod N) (hπ : Function.Injective π)
    (S : Set (ZMod N)) :
    {k : ZMod N | π k ∈ S ∧ k.val < A}.ncard ≤ S.ncard ∧
      S.ncard ≤ {k : ZMod N | π k ∈ S ∧ k.val < A}.ncard + (N - A) := by
  have hs : Function.Surjective π := Finite.surjective_of_injective hπ
  have hlow : {k : ZMod N | ¬ k.val < A}.ncard = N - A := by
    have h1 : {k : ZMod N | k.val < A}.ncard = A := ncard_low hAN
    have h2 := Set.ncard_add_ncard_compl {k : ZMod N | k.val < A}
    rw [h1, Nat.card_zmod] at h2
    have h3 : {k : ZMod N | k.val < A}ᶜ = {k : ZMod N | ¬ k.val < A} := rfl
    rw [h3] at h2
    omega
  constructor
  · rw [← Set.ncard_image_of_injective {k : ZMod N | π k ∈ S ∧ k.val < A} hπ]
    refine Set.ncard_le_ncard ?_ (Set.toFinite _)
    rintro _ ⟨k, hk, rfl⟩
    exact hk.1
  · rw [← hlow, ← Set.ncard_image_of_injective {k : ZMod N | π k ∈ S ∧ k.val < A} hπ,
      ← Set.ncard_image_of_injective {k : ZMod N | ¬ k.val < A} hπ]
    refine (Set.ncard_le_ncard ?_ (Set.toFinite _)).trans (Set.ncard_union_le _ _)
    intro y hy
    obtain ⟨k, rfl⟩ := hs y
    by_cases h : k.val < A
    · exact Or.inl ⟨k, ⟨hy, h⟩, rfl⟩
    · exact Or.inr ⟨k, h, rfl⟩

instance : NeZero ell := ⟨by decide⟩

theorem random_scalar (b : Bytes32) :
    ∃ r, Scalar.random b = .ok r ∧ r.SCanon ∧ r.val = bytesVal b % 2 ^ 249 ∧
      sv r = ((bytesVal b % 2 ^ 249 : ℕ) : ZMod ell) := by
  have h' := mask_low b 1 0b00000001 (by decide +kernel)
  rw [show (2 : ℕ) ^ 248 * 2 ^ 1 = 2 ^ 249 by norm_num] at h'
  have hlt : bytesVal (b.set 31 (b[31] &&& 0b00000001)) < ell := by
    rw [h']
    exact lt_trans (Nat.mod_lt _ (by positivity)) ell_gt
  obtain ⟨r, er, hr, vr⟩ := Scalar.fromBytes_ok _ hlt
  refine ⟨r, er, hr, vr.trans h', ?_⟩
  unfold sv
  rw [vr, h']

theorem chance_scalar {α : Type} (m : Sc → Res α) (g : ZMod ell → α) (h : ∀ r : Sc, r.SCanon → m r = .ok (g (sv r)))
    (T : Set α) : chance (fun b => Scalar.random b >>= m) T =
      ({k : ZMod ell | g k ∈ T ∧ k.val < 2 ^ 249}.ncard : ℚ) / 2 ^ 249 := by
  have e : {b : Bytes32 | ∃ y ∈ T, (Scalar.random b >>= m) = .ok y} =
      {b : Bytes32 | ((bytesVal b % 2 ^ 249 : ℕ) : ZMod ell) ∈ {k | g k ∈ T}} := by
    ext b
    obtain ⟨r, er, hr, -, sr⟩ := random_scalar b
    show (∃ y ∈ T, (Scalar.random b >>= m) = .ok y) ↔ g _ ∈ T
    rw [er, Res.ok_bind, h r hr, sr]
    constructor
    · rintro ⟨y, hy, h⟩
      rw [Res.ok_inj] at h
      rwa [h]
    · intro h
      exact ⟨_, h, rfl⟩
  unfold chance
  rw [e, count_low (A := 2 ^ 249) (B := 2 ^ 7) (by norm_num) ell_gt.le]
  push_cast
  rw [show (2 : ℚ) ^ 256 = 2 ^ 7 * 2 ^ 249 by norm_num]
  exact mul_div_mul_left _ _ (by norm_num)

/-- The number of scalars that are never drawn. -/
def missed : ℕ := ell - 2 ^ 249

theorem missed_lt : (missed : ℚ) / 2 ^ 249 < 1 / 2 ^ 125 := by
  have : missed < 2 ^ 124 := by decide
  have h : (missed : ℚ) < 2 ^ 124 := by exact_mod_cast this
  rw [div_lt_div_iff₀ (by positivity) (by positivity)]
  calc (missed : ℚ) * 2 ^ 125 < 2 ^ 124 * 2 ^ 125 := by
        exact mul_lt_mul_of_pos_right h (by positivity)
    _ = 1 * 2 ^ 249 := by norm_num

/-- Two computations on a random scalar whose results are one function of two bijections of it are not told apart. -/
theorem chance_near {α : Type} (m m' : Sc → Res α) (g : ZMod ell → α) (π σ : ZMod ell → ZMod ell)
    (hπ : Function.Injective π) (hσ : Function.Injective σ) (h : ∀ r : Sc, r.SCanon → m r = .ok (g (π (sv r))))
    (h' : ∀ r : Sc, r.SCanon → m' r = .ok (g (σ (sv r)))) (T : Set α) :
    |chance (fun b => Scalar.random b >>= m) T - chance (fun b => Scalar.random b >>= m') T| < 1 / 2 ^ 125 := by
  rw [chance_scalar m (fun k => g (π k)) h T, chance_scalar m' (fun k => g (σ k)) h' T]
  obtain ⟨a1, a2⟩ := count_bij (A := 2 ^ 249) ell_gt.le π hπ {k | g k ∈ T}
  obtain ⟨b1, b2⟩ := count_bij (A := 2 ^ 249) ell_gt.le σ hσ {k | g k ∈ T}
  refine lt_of_le_of_lt ?_ missed_lt
  show |({k : ZMod ell | π k ∈ {k | g k ∈ T} ∧ k.val < 2 ^ 249}.ncard : ℚ) / 2 ^ 249 -
    ({k : ZMod ell | σ k ∈ {k | g k ∈ T} ∧ k.val < 2 ^ 249}.ncard : ℚ) / 2 ^ 249| ≤ _
  rw [← sub_div, abs_div, abs_of_pos (show (0 : ℚ) < 2 ^ 249 by positivity)]
  refine div_le_div_of_nonneg_right ?_ (by positivity)
  have e : ell - 2 ^ 249 = missed := rfl
  rw [e] at a2 b2
  generalize Set.ncard {k : ZMod ell | π k ∈ {k | g k ∈ T} ∧ k.val < 2 ^ 249} = x at *
  generalize Set.ncard {k : ZMod ell | σ k ∈ {k | g k ∈ T} ∧ k.val < 2 ^ 249} = y at *
  have c1 : x ≤ y + missed := a1.trans b2
  have c2 : y ≤ x + missed := b1.trans a2
  rw [abs_le]
  have d1 : (x : ℚ) ≤ y + missed := by exact_mod_cast c1
  have d2 : (y : ℚ) ≤ x + missed := by exact_mod_cast c2
  constructor <;> linarith

/-! ### The distance from uniform -/

/-- C119: whatever is tested about a random scalar, the probability differs from that for a uniform canonical scalar by
at most `(L - 2^249) / L`, which is below `2^-125`, and one test attains this. -/
theorem C119_scalar_distance :
    (∀ T : Set Sc, |chance Scalar.random T - ({s : Sc | s.SCanon ∧ s ∈ T}.ncard : ℚ) / ell| ≤
      ((ell : ℚ) - 2 ^ 249) / ell) ∧
    (∃ T : Set Sc, |chance Scalar.random T - ({s : Sc | s.SCanon ∧ s ∈ T}.ncard : ℚ) / ell| =
      ((ell : ℚ) - 2 ^ 249) / ell) ∧
    0 < ((ell : ℚ) - 2 ^ 249) / ell ∧ ((ell : ℚ) - 2 ^ 249) / ell < 1 / 2 ^ 125 := by
  have hcs : ∀ k : ZMod ell, (encNat k.val).SCanon ∧ sv (encNat k.val) = k := by
    intro k
    have h : (encNat k.val).val = k.val := encNat_val _ (lt_trans (ZMod.val_lt k) (by decide))
    refine ⟨⟨encNat_WF _, by rw [h]; exact ZMod.val_lt k⟩, ?_⟩
    unfold sv
    rw [h]
    exact ZMod.natCast_zmod_val k
  have hex : ∀ T : Set Sc, chance Scalar.random T =
      ({k : ZMod ell | encNat k.val ∈ T ∧ k.val < 2 ^ 249}.ncard : ℚ) / 2 ^ 249 := by
    intro T
    have h := chance_scalar (fun r => .ok r) (fun k => encNat k.val) (by
      intro r hr
      rw [Res.ok_inj]
      exact (sv_inj hr (hcs _).1).1 (hcs _).2.symm) T
    rw [← h]
    congr 1
    funext b
    cases Scalar.random b <;> rfl
  have hun : ∀ T : Set Sc, {s : Sc | s.SCanon ∧ s ∈ T}.ncard = {k : ZMod ell | encNat k.val ∈ T}.ncard := by
    intro T
    rw [← Set.ncard_image_of_injective (f := fun k : ZMod ell => encNat k.val) {k : ZMod ell | encNat k.val ∈ T}]
    · congr 1
      ext s
      constructor
      · rintro ⟨h1, h2⟩
        have e : encNat (sv s).val = s := (sv_inj (hcs _).1 h1).1 (hcs _).2
        exact ⟨sv s, by show encNat (sv s).val ∈ T; rwa [e], e⟩
      · rintro ⟨k, hk, rfl⟩
        exact ⟨(hcs k).1, hk⟩
    · intro a b h
      have h' : encNat a.val = encNat b.val := h
      rw [← (hcs a).2, ← (hcs b).2, h']
  have hpos : (0 : ℚ) < ell := by exact_mod_cast (show 0 < ell by decide)
  have hgt : (2 : ℚ) ^ 249 < ell := by exact_mod_cast ell_gt
  refine ⟨fun T => ?_, ⟨{s | s.val < 2 ^ 249}, ?_⟩, div_pos (by linarith) hpos, ?_⟩
  · rw [hex, hun]
    obtain ⟨a1, a2⟩ := count_bij (A := 2 ^ 249) ell_gt.le (fun k => k) (fun _ _ h => h) {k : ZMod ell | encNat k.val ∈ T}
    have e : {k : ZMod ell | k ∈ {k : ZMod ell | encNat k.val ∈ T} ∧ k.val < 2 ^ 249} =
        {k : ZMod ell | encNat k.val ∈ T ∧ k.val < 2 ^ 249} := rfl
    rw [e] at a1 a2
    have a3 : {k : ZMod ell | encNat k.val ∈ T ∧ k.val < 2 ^ 249}.ncard ≤ 2 ^ 249 := by
      have h := ncard_low (N := ell) ell_gt.le
      exact le_of_le_of_eq (Set.ncard_le_ncard (fun k hk => hk.2) (Set.toFinite _)) h
    generalize Set.ncard {k : ZMod ell | encNat k.val ∈ T ∧ k.val < 2 ^ 249} = n at *
    generalize Set.ncard {k : ZMod ell | encNat k.val ∈ T} = s at *
    have b1 : (n : ℚ) ≤ s := by exact_mod_cast a1
    have b3 : (n : ℚ) ≤ 2 ^ 249 := by exact_mod_cast a3
    have b2 : (s : ℚ) ≤ n + (ell - 2 ^ 249) := by
      have : s + 2 ^ 249 ≤ n + ell := by
        have := ell_gt
        omega
      have : (s : ℚ) + 2 ^ 249 ≤ n + ell := by exact_mod_cast this
      linarith
    have b0 : (0 : ℚ) ≤ n := Nat.cast_nonneg n
    generalize (ell : ℚ) = L at *
    have hA : (0 : ℚ) < 2 ^ 249 := by positivity
    generalize (2 : ℚ) ^ 249 = A at *
    have hLA : (0 : ℚ) < L * A := mul_pos hpos hA
    rw [abs_le]
    constructor
    · rw [← sub_nonneg]
      have : n / A - s / L - -((L - A) / L) = (n * (L - A) + A * (n + (L - A) - s)) / (L * A) := by
        field_simp
        ring
      rw [this]
      refine div_nonneg (add_nonneg (mul_nonneg b0 (by linarith)) (mul_nonneg hA.le (by linarith))) hLA.le
    · rw [← sub_nonneg]
      have : (L - A) / L - (n / A - s / L) = ((A - n) * (L - A) + A * (s - n)) / (L * A) := by
        field_simp
        ring
      rw [this]
      refine div_nonneg (add_nonneg (mul_nonneg (by linarith) (by linarith)) (mul_nonneg hA.le (by linarith))) hLA.le
  · rw [hex, hun]
    have hv : ∀ k : ZMod ell, (encNat k.val).val = k.val := fun k =>
      encNat_val _ (lt_trans (ZMod.val_lt k) (by decide))
    have e1 : {k : ZMod ell | encNat k.val ∈ {s : Sc | s.val < 2 ^ 249}} = {k : ZMod ell | k.val < 2 ^ 249} := by
      ext k
      show (encNat k.val).val < _ ↔ _
      rw [hv]
      rfl
    have e2 : {k : ZMod ell | encNat k.val ∈ {s : Sc | s.val < 2 ^ 249} ∧ k.val < 2 ^ 249} =
        {k : ZMod ell | k.val < 2 ^ 249} := by
      ext k
      show (encNat k.val).val < _ ∧ _ ↔ _
      rw [hv]
      exact ⟨fun h => h.1, fun h => ⟨h, h⟩⟩
    have h4 : {k : ZMod ell | k.val < 2 ^ 249}.ncard = 2 ^ 249 := ncard_low ell_gt.le
    rw [e1, e2, h4, Nat.cast_pow, Nat.cast_ofNat]
    rw [div_self (by positivity), abs_of_nonneg (by rw [sub_nonneg]; exact (div_le_one hpos).2 hgt.le), sub_div,
      div_self hpos.ne']
  · rw [div_lt_div_iff₀ hpos (by positivity)]
    have : (ell - 2 ^ 249) * 2 ^ 125 < ell := by decide
    have h : (((ell - 2 ^ 249) * 2 ^ 125 : ℕ) : ℚ) < (ell : ℚ) := by exact_mod_cast this
    rw [Nat.cast_mul, Nat.cast_sub ell_gt.le] at h
    push_cast at h
    linarith

/-- C119: random field elements are far from uniform: a test that every random element passes is passed by less than
half of all elements. -/
theorem C119_field_distance :
    chance (fun b => .ok (Field.random b)) {a : FE | a.val < 2 ^ 251} = 1 ∧
      ({a : FE | a.Canon ∧ a.val < 2 ^ 251}.ncard : ℚ) / p < 1 / 2 := by
  constructor
  · have e : {b : Bytes32 | ∃ y ∈ {a : FE | a.val < 2 ^ 251}, Res.ok (Field.random b) = .ok y} = Set.univ := by
      ext b
      refine ⟨fun _ => trivial, fun _ => ⟨_, ?_, rfl⟩⟩
      show (Field.random b).val < _
      rw [random_field_val]
      exact Nat.mod_lt _ (by positivity)
    unfold chance
    rw [e, Set.ncard_univ, Nat.card_congr bytesEquiv, Nat.card_eq_fintype_card, Fintype.card_fin, Nat.cast_pow,
      Nat.cast_ofNat, div_self (by positivity)]
  · have hp : 2 ^ 252 < p := by decide
    have e : {a : FE | a.Canon ∧ a.val < 2 ^ 251} = (fun n : Fin (2 ^ 251) => encNat n.val) '' Set.univ := by
      ext a
      constructor
      · rintro ⟨h1, h2⟩
        refine ⟨⟨a.val, h2⟩, trivial, ?_⟩
        exact (encNat_WF _).ext h1.1 (encNat_val _ (lt_trans h2 (by norm_num)))
      · rintro ⟨n, -, rfl⟩
        have hn := n.isLt
        have hv : (encNat n.val).val = n.val := encNat_val _ (lt_trans hn (by norm_num))
        refine ⟨⟨encNat_WF _, ?_⟩, ?_⟩
        · rw [hv]
          omega
        · rw [hv]
          exact hn
    rw [e, Set.ncard_image_of_injective, Set.ncard_univ, Nat.card_eq_fintype_card, Fintype.card_fin]
    · have h : ((2 ^ 252 : ℕ) : ℚ) < (p : ℚ) := by exact_mod_cast hp
      rw [Nat.cast_pow, Nat.cast_ofNat] at h ⊢
      rw [div_lt_div_iff₀ (by linarith [show (0 : ℚ) < 2 ^ 252 by positivity]) (by norm_num)]
      have e2 : (2 : ℚ) ^ 251 * 2 = 2 ^ 252 := (pow_succ _ _).symm
      rw [e2, one_mul]
      exact h
    · intro a b h
      have h' := congrArg L5.val h
      dsimp only at h'
      rw [encNat_val _ (lt_trans a.isLt (by norm_num)), encNat_val _ (lt_trans b.isLt (by norm_num))] at h'
      exact Fin.ext h'

/-! ### Hiding -/

/-- The bytes that encode the group element with a given logarithm. -/
theorem exists_enc (c : Cfg) (hc : c.Enough) :
    ∃ f : ZMod ell → Bytes32, ∀ P k, Lg P k → Ristretto.compress c P = .ok (f k) := by
  have h : ∀ k : ZMod ell, ∃ b, ∀ P, Lg P k → Ristretto.compress c P = .ok b := by
    intro k
    obtain ⟨n, hn, rfl⟩ := sv_surj k
    obtain ⟨R, _, hR⟩ := Lg.base.mul c hc n hn.1 (Scalar.scanon_lt256 hn)
    rw [mul_one] at hR
    obtain ⟨b, _, eb, _, _⟩ := hR.wire c hc
    refine ⟨b, fun P hP => ?_⟩
    rw [(hP.enc_eq c hc hR).2 rfl, eb]
  exact ⟨fun k => (h k).choose, fun P k hP => (h k).choose_spec P hP⟩

/-- A secret scalar is added to a random one, and the sum is published. -/
def padScalar (c : Cfg) (a r : Sc) : Res Bytes32 := do
  let s ← Scalar.add c a r
  return Scalar.toBytes s

/-- A Pedersen commitment to `a`: the encoding of `a G + r H`. -/
def commit (c : Cfg) (G H : EdPoint) (a r : Sc) : Res Bytes32 := do
  let A ← Ristretto.mul c G a
  let R ← Ristretto.mul c H r
  let C ← Ristretto.add c A R
  Ristretto.compress c C

/-- A point is multiplied by a random scalar and sent. -/
def blindPoint (c : Cfg) (P : EdPoint) (r : Sc) : Res Bytes32 := do
  let R ← Ristretto.mul c P r
  Ristretto.compress c R

/-- The commitment and the answer of a Schnorr prover with secret `x` and nonce `k` to the challenge `e`. -/
def schnorrProve (c : Cfg) (G : EdPoint) (x e k : Sc) : Res (Bytes32 × Bytes32) := do
  let R ← Ristretto.mul c G k
  let b ← Ristretto.compress c R
  let t ← Scalar.mul c e x
  let s ← Scalar.add c k t
  return (b, Scalar.toBytes s)

/-- The same from a random answer, the public key and the challenge, without the secret. -/
def schnorrSimulate (c : Cfg) (G P : EdPoint) (e s : Sc) : Res (Bytes32 × Bytes32) := do
  let S ← Ristretto.mul c G s
  let V ← Ristretto.mul c P e
  let R ← Ristretto.sub c S V
  let b ← Ristretto.compress c R
  return (b, Scalar.toBytes s)

theorem toBytes_sv {s : Sc} (hs : s.SCanon) : Scalar.toBytes s = Scalar.toBytes (encNat (sv s).val) := by
  congr 1
  unfold sv
  rw [ZMod.val_natCast, Nat.mod_eq_of_lt hs.2]
  exact hs.1.ext (encNat_WF _) (encNat_val _ (lt_trans hs.2 (by decide))).symm

/-- C119: a scalar hidden by adding a random one. -/
theorem C119_one_time_pad (c : Cfg) (a a' : Sc) (ha : a.SCanon) (ha' : a'.SCanon) (T : Set Bytes32) :
    |chance (fun b => Scalar.random b >>= padScalar c a) T -
      chance (fun b => Scalar.random b >>= padScalar c a') T| < 1 / 2 ^ 125 := by
  have key : ∀ a : Sc, a.SCanon → ∀ r : Sc, r.SCanon →
      padScalar c a r = .ok ((fun k : ZMod ell => Scalar.toBytes (encNat k.val)) (sv a + sv r)) := by
    intro a ha r hr
    obtain ⟨s, es, -⟩ := C25_add c a r ha hr
    obtain ⟨hs, vs⟩ := sv_add ha hr es
    unfold padScalar
    rw [es, Res.ok_bind, ← vs, toBytes_sv hs]
    rfl
  exact chance_near _ _ (fun k => Scalar.toBytes (encNat k.val)) (fun k => sv a + k) (fun k => sv a' + k)
    (add_right_injective _) (add_right_injective _) (key a ha) (key a' ha') T

/-- C119: a value hidden in a commitment. -/
theorem C119_pedersen (c : Cfg) (hc : c.Enough) {G H : EdPoint} (hG : RPoint G) (hH : RPoint H)
    (hne : ¬ REq c H Ristretto.identity) (a a' : Sc) (ha : a.SCanon) (ha' : a'.SCanon) (T : Set Bytes32) :
    |chance (fun b => Scalar.random b >>= commit c G H a) T -
      chance (fun b => Scalar.random b >>= commit c G H a') T| < 1 / 2 ^ 125 := by
  obtain ⟨f, hf⟩ := exists_enc c hc
  obtain ⟨g, hg⟩ := hG.lg
  obtain ⟨h, hh⟩ := hH.lg
  have h0 : h ≠ 0 := fun e => hne ((hh.req c Lg.identity).2 e)
  have key : ∀ a : Sc, a.SCanon → ∀ r : Sc, r.SCanon → commit c G H a r = .ok (f (sv a * g + sv r * h)) := by
    intro a ha r hr
    obtain ⟨A, eA, hA⟩ := hg.mul c hc a ha.1 (Scalar.scanon_lt256 ha)
    obtain ⟨R, eR, hR⟩ := hh.mul c hc r hr.1 (Scalar.scanon_lt256 hr)
    obtain ⟨C, eC, hC⟩ := hA.add c hR
    unfold commit
    rw [eA, Res.ok_bind, eR, Res.ok_bind, eC, Res.ok_bind]
    exact hf C _ hC
  have inj : ∀ z : ZMod ell, Function.Injective fun k : ZMod ell => z + k * h := by
    intro z x y e
    exact mul_right_cancel₀ h0 (add_left_cancel e)
  exact chance_near _ _ f (fun k => sv a * g + k * h) (fun k => sv a' * g + k * h) (inj _) (inj _) (key a ha)
    (key a' ha') T

/-- C119: a point hidden by a random factor. -/
theorem C119_blind_point (c : Cfg) (hc : c.Enough) {P Q : EdPoint} (hP : RPoint P) (hQ : RPoint Q)
    (hP0 : ¬ REq c P Ristretto.identity) (hQ0 : ¬ REq c Q Ristretto.identity) (T : Set Bytes32) :
    |chance (fun b => Scalar.random b >>= blindPoint c P) T -
      chance (fun b => Scalar.random b >>= blindPoint c Q) T| < 1 / 2 ^ 125 := by
  obtain ⟨f, hf⟩ := exists_enc c hc
  have key : ∀ {P : EdPoint} {k : ZMod ell}, Lg P k → ∀ r : Sc, r.SCanon →
      blindPoint c P r = .ok (f (sv r * k)) := by
    intro P k hP r hr
    obtain ⟨R, eR, hR⟩ := hP.mul c hc r hr.1 (Scalar.scanon_lt256 hr)
    unfold blindPoint
    rw [eR, Res.ok_bind]
    exact hf R _ hR
  obtain ⟨g, hg⟩ := hP.lg
  obtain ⟨h, hh⟩ := hQ.lg
  have g0 : g ≠ 0 := fun e => hP0 ((hg.req c Lg.identity).2 e)
  have h0 : h ≠ 0 := fun e => hQ0 ((hh.req c Lg.identity).2 e)
  exact chance_near _ _ f (fun k => k * g) (fun k => k * h) (mul_left_injective₀ g0) (mul_left_injective₀ h0) (key hg)
    (key hh) T

/-- C119: a Schnorr proof with a random nonce shows nothing about the secret beyond the public key: without the secret,
transcripts are made that no test tells apart. -/
theorem C119_schnorr_zero_knowledge (c : Cfg) (hc : c.Enough) {G P : EdPoint} (hG : RPoint G) (x e : Sc)
    (hx : x.SCanon) (he : e.SCanon) (hP : Ristretto.mul c G x = .ok P) (T : Set (Bytes32 × Bytes32)) :
    |chance (fun b => Scalar.random b >>= schnorrProve c G x e) T -
      chance (fun b => Scalar.random b >>= schnorrSimulate c G P e) T| < 1 / 2 ^ 125 := by
  obtain ⟨f, hf⟩ := exists_enc c hc
  obtain ⟨g, hg⟩ := hG.lg
  obtain ⟨P', eP', hP'⟩ := hg.mul c hc x hx.1 (Scalar.scanon_lt256 hx)
  rw [hP, Res.ok_inj] at eP'
  subst eP'
  refine chance_near _ _ (fun k : ZMod ell => (f (k * g - sv e * (sv x * g)), Scalar.toBytes (encNat k.val)))
    (fun k => k + sv e * sv x) (fun k => k) (add_left_injective _) (fun _ _ h => h) ?_ ?_ T
  · intro k hk
    obtain ⟨R, eR, hR⟩ := hg.mul c hc k hk.1 (Scalar.scanon_lt256 hk)
    obtain ⟨t, et, -⟩ := C27_mul c e x he.1 hx.1
    obtain ⟨ht, vt⟩ := sv_mul he.1 hx.1 et
    obtain ⟨s, es, -⟩ := C25_add c k t hk ht
    obtain ⟨hs, vs⟩ := sv_add hk ht es
    unfold schnorrProve
    rw [eR, Res.ok_bind, hf R _ hR, Res.ok_bind, et, Res.ok_bind, es, Res.ok_bind, Res.pure_eq, Res.ok_inj,
      toBytes_sv hs, vs, vt]
    refine Prod.ext ?_ rfl
    show f _ = f _
    congr 1
    unfold sv
    ring
  · intro s hs
    obtain ⟨S, eS, hS⟩ := hg.mul c hc s hs.1 (Scalar.scanon_lt256 hs)
    obtain ⟨V, eV, hV⟩ := hP'.mul c hc e he.1 (Scalar.scanon_lt256 he)
    obtain ⟨R, eR, hR⟩ := hS.sub c hV
    unfold schnorrSimulate
    rw [eS, Res.ok_bind, eV, Res.ok_bind, eR, Res.ok_bind, hf R _ hR, Res.ok_bind, Res.pure_eq, Res.ok_inj,
      toBytes_sv hs]
    rfl

/-- The hypotheses are met: base point, its multiples and small scalars. -/
example : RPoint Ed.BASEPOINT ∧ ¬ REq dbg Ed.BASEPOINT Ristretto.identity ∧ (⟨5, 0, 0, 0, 0⟩ : Sc).SCanon ∧
    Scalar.minusOne.SCanon ∧ ∃ P, Ristretto.mul dbg Ed.BASEPOINT Scalar.minusOne = .ok P := by
  refine ⟨Lg.base.point, ?_, by decide, Scalar.minusOne_canon, ?_⟩
  · rw [Lg.base.req dbg Lg.identity]
    exact one_ne_zero
  · obtain ⟨P, e, -⟩ := Lg.base.mul dbg (by decide) Scalar.minusOne Scalar.minusOne_canon.1
      (Scalar.scanon_lt256 Scalar.minusOne_canon)
    exact ⟨P, e⟩

/-- The identity is not hidden by a random factor. -/
example (T : Set Bytes32) (hT : Vector.replicate 32 0 ∉ T) :
    chance (fun b => Scalar.random b >>= blindPoint dbg Ristretto.identity) T = 0 := by
  have e : {b : Bytes32 | ∃ y ∈ T, (Scalar.random b >>= blindPoint dbg Ristretto.identity) = .ok y} = ∅ := by
    ext b
    refine ⟨?_, fun h => h.elim⟩
    rintro ⟨y, hy, h⟩
    obtain ⟨r, er, hr, -⟩ := random_scalar b
    obtain ⟨R, eR, hR⟩ := Lg.identity.mul dbg (by decide) r hr.1 (Scalar.scanon_lt256 hr)
    rw [mul_zero] at hR
    rw [er, Res.ok_bind] at h
    unfold blindPoint at h
    rw [eR, Res.ok_bind, (hR.enc_eq dbg (by decide) Lg.identity).2 rfl] at h
    have h0 : Ristretto.compress dbg Ristretto.identity = .ok (Vector.replicate 32 0) := by decide +kernel
    rw [h0, Res.ok_inj] at h
    exact hT (h ▸ hy)
  unfold chance
  rw [e, Set.ncard_empty, Nat.cast_zero, zero_div]

/-! ### Blinded evaluation -/

/-- What the owner of `r` makes of the answer `b` to a blinded point: the answer times `r^(L-2)`. -/
def unblind (c : Cfg) (r : Sc) (b : Bytes32) : Res (Option Bytes32) := do
  let o ← Ristretto.decompress c b
  match o with
  | none => return none
  | some Q =>
    let i ← Scalar.pow c r ⟨Scalar.minusOne.l0 - 1, Scalar.minusOne.l1, Scalar.minusOne.l2, Scalar.minusOne.l3,
      Scalar.minusOne.l4⟩
    let U ← Ristretto.mul c Q i
    let u ← Ristretto.compress c U
    return some u

/-- What the owner of the key `k` does with a blinded point. -/
def evaluate (c : Cfg) (k : Sc) (b : Bytes32) : Res (Option Bytes32) := do
  let o ← Ristretto.decompress c b
  match o with
  | none => return none
  | some Q =>
    let V ← Ristretto.mul c Q k
    let v ← Ristretto.compress c V
    return some v

/-- C119: blinding with a scalar that is not zero can be undone: evaluating a blinded point with a key and removing the
blinding gives the encoding of the key times the point. -/
theorem C119_blinded_evaluation (c : Cfg) (hc : c.Enough) {P : EdPoint} (hP : RPoint P) (r k : Sc) (hr : r.SCanon)
    (hk : k.SCanon) (h0 : r.val ≠ 0) :
    ∃ b v K u, blindPoint c P r = .ok b ∧ evaluate c k b = .ok (some v) ∧ Ristretto.mul c P k = .ok K ∧
      Ristretto.compress c K = .ok u ∧ unblind c r v = .ok (some u) := by
  obtain ⟨g, hg⟩ := hP.lg
  obtain ⟨R, eR, hR⟩ := hg.mul c hc r hr.1 (Scalar.scanon_lt256 hr)
  obtain ⟨b, Q, eb, eQ, hQ⟩ := hR.wire c hc
  obtain ⟨V, eV, hV⟩ := hQ.mul c hc k hk.1 (Scalar.scanon_lt256 hk)
  obtain ⟨v, W, ev, eW, hW⟩ := hV.wire c hc
  obtain ⟨K, eK, hK⟩ := hg.mul c hc k hk.1 (Scalar.scanon_lt256 hk)
  obtain ⟨u, _, eu, -, -⟩ := hK.wire c hc
  refine ⟨b, v, K, u, ?_, ?_, eK, eu, ?_⟩
  · unfold blindPoint
    rw [eR, Res.ok_bind, eb]
  · unfold evaluate
    rw [eQ, Res.ok_bind]
    dsimp only
    rw [eV, Res.ok_bind, ev, Res.ok_bind]
    rfl
  · have he : (⟨Scalar.minusOne.l0 - 1, Scalar.minusOne.l1, Scalar.minusOne.l2, Scalar.minusOne.l3,
        Scalar.minusOne.l4⟩ : Sc).SCanon ∧ L5.val ⟨Scalar.minusOne.l0 - 1, Scalar.minusOne.l1, Scalar.minusOne.l2,
        Scalar.minusOne.l3, Scalar.minusOne.l4⟩ = ell - 2 := by decide
    obtain ⟨i, ei, hi, vi⟩ := C29_pow c hc r _ hr.1 he.1
    rw [he.2] at vi
    obtain ⟨U, eU, hU⟩ := hW.mul c hc i hi.1 (Scalar.scanon_lt256 hi)
    have hr0 : (r.val : ZMod ell) ≠ 0 := by
      rw [Ne, ZMod.natCast_eq_zero_iff]
      exact fun h => absurd (Nat.le_of_dvd (by omega) h) (by have := hr.2; omega)
    have hinv : (i.val : ZMod ell) * r.val = 1 := by
      rw [vi, ZMod.natCast_mod, Nat.cast_pow, ← pow_succ, show ell - 2 + 1 = ell - 1 by decide]
      exact ZMod.pow_card_sub_one_eq_one hr0
    have e : (i.val : ZMod ell) * (k.val * (r.val * g)) = k.val * g := by
      linear_combination (k.val * g : ZMod ell) * hinv
    rw [e] at hU
    unfold unblind
    rw [eW, Res.ok_bind]
    dsimp only
    rw [ei, Res.ok_bind, eU, Res.ok_bind, (hU.enc_eq c hc hK).2 rfl, eu, Res.ok_bind]
    rfl

end Props
end Zerocaf
