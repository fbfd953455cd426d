import Verif.Props.Elligator
import Verif.Props.Group
import Mathlib.Combinatorics.Additive.CauchyDavenport

/-!
# Property C92: the distribution of hashing to the Ristretto group

The two halves of the input are mapped to points which are added. Each element of the group is the result for
at most `2^264` of the `2^512` inputs, and all elements but fewer than `2^124` are results.
-/

set_option exponentiation.threshold 600

namespace Zerocaf
namespace Props

open Ristretto

/-! ### Discrete logarithms of classes -/

/-- The logarithm of the class of an even point to the base `B`. -/
noncomputable def dl (A : {A : E // InEven A}) : ZMod ell := ((even_class A.2).choose : ℕ)

theorem dl_spec (A : {A : E // InEven A}) : SameClass A.1 ((dl A).val • Bpt) := by
  have h := (even_class A.2).choose_spec
  unfold dl
  rw [ZMod.val_natCast, Nat.mod_eq_of_lt h.1]
  exact h.2

theorem dl_eq_iff (A B : {A : E // InEven A}) : dl A = dl B ↔ SameClass A.1 B.1 := by
  constructor
  · intro h
    have := dl_spec A
    rw [h] at this
    exact this.trans (dl_spec B).symm
  · intro h
    have := mult_class (ZMod.val_lt (dl A)) (ZMod.val_lt (dl B)) ((dl_spec A).symm.trans (h.trans (dl_spec B)))
    exact ZMod.val_injective _ this

theorem dl_add (A B : {A : E // InEven A}) : dl ⟨A.1 + B.1, A.2.add B.2⟩ = dl A + dl B := by
  have h := dl_spec ⟨A.1 + B.1, A.2.add B.2⟩
  have h2 := (dl_spec A).add (dl_spec B)
  rw [← add_smul] at h2
  have h3 := mod_ell_even Bpt_even ((dl A).val + (dl B).val)
  rw [← ZMod.val_add] at h3
  exact ZMod.val_injective _ (mult_class (ZMod.val_lt _) (ZMod.val_lt _) (h.symm.trans (h2.trans h3.symm)))

/-! ### The map on residues -/

theorem ell_exists (t : Fp) : ∃ A : {A : E // InEven A}, RfcMap Field.iZ qZ t A.1 ∧
    ∀ c : Cfg, c.Enough → ∀ a : FE, a.WF → a.toZ = t → ∃ P, Ristretto.elligator c a = .ok P ∧ P.Rep A.1 := by
  obtain ⟨P, A, e, hP, hA⟩ := elligator_map dbg (by decide) _ (enc_WF t)
  obtain ⟨P', A', e', hP', hE⟩ := elligator_rep dbg (by decide) _ (enc_WF t)
  rw [e, Res.ok_inj] at e'
  subst e'
  rw [← hP.unique hP'] at hE
  rw [enc_toZ] at hA
  refine ⟨⟨A, hE⟩, hA, fun c hc a ha h => ?_⟩
  obtain ⟨Q, B, e2, hQ, hB⟩ := elligator_map c hc a ha
  rw [h] at hB
  rw [RfcMap.unique hB hA] at hQ
  exact ⟨Q, e2, hQ⟩

/-- The image of a residue. -/
noncomputable def ellPt (t : Fp) : {A : E // InEven A} := (ell_exists t).choose

theorem ellPt_map (t : Fp) : RfcMap Field.iZ qZ t (ellPt t).1 := (ell_exists t).choose_spec.1

theorem ellPt_run (c : Cfg) (hc : c.Enough) (a : FE) (ha : a.WF) :
    ∃ P, Ristretto.elligator c a = .ok P ∧ P.Rep (ellPt a.toZ).1 :=
  (ell_exists a.toZ).choose_spec.2 c hc a ha rfl

theorem ellPt_fibre (k : ZMod ell) : {t : Fp | dl (ellPt t) = k}.ncard ≤ 16 := by
  rcases Set.eq_empty_or_nonempty {t : Fp | dl (ellPt t) = k} with h | ⟨t, ht⟩
  · rw [h, Set.ncard_empty]; omega
  · have hs : {t : Fp | dl (ellPt t) = k} ⊆ {u | ∃ B, SameClass (ellPt t).1 B ∧ RfcMap Field.iZ qZ u B} := by
      intro u hu
      refine ⟨_, ?_, ellPt_map u⟩
      rw [← dl_eq_iff]
      exact ht.trans (Eq.symm hu)
    exact (Set.ncard_le_ncard hs (Set.toFinite _)).trans (fibre_class _)

theorem card_le_image {α β : Type} [Fintype α] [DecidableEq β] (f : α → β) (n : ℕ)
    (h : ∀ y, {x | f x = y}.ncard ≤ n) : Fintype.card α ≤ n * (Finset.univ.image f).card := by
  classical
  rw [← Finset.card_univ]
  refine Finset.card_le_mul_card_image _ n fun y _ => ?_
  refine le_trans (le_of_eq ?_) (h y)
  rw [Set.ncard_eq_toFinset_card']
  congr 1
  ext t
  simp

open scoped Pointwise in
/-- Sums of two values of a function with small fibres, by the theorem of Cauchy and Davenport. -/
theorem sums_cover {n : ℕ} (hn : n.Prime) {α : Type} [Finite α] [Nonempty α] (f : α → ZMod n) (m : ℕ)
    (h : ∀ y, {x | f x = y}.ncard ≤ m) :
    ∃ S : Finset (ZMod n), (∀ k ∈ S, ∃ s t, f s + f t = k) ∧
      (n ≤ S.card ∨ ∃ y, Nat.card α ≤ m * y ∧ 2 * y ≤ S.card + 1) := by
  classical
  have := Fintype.ofFinite α
  have hc := card_le_image f m h
  rw [← Nat.card_eq_fintype_card] at hc
  have hne : (Finset.univ.image f).Nonempty := Finset.univ_nonempty.image f
  have hcd := ZMod.cauchy_davenport hn hne hne
  refine ⟨Finset.univ.image f + Finset.univ.image f, ?_, ?_⟩
  · intro k hk
    obtain ⟨x, hx, y, hy, rfl⟩ := Finset.mem_add.1 hk
    obtain ⟨s, _, rfl⟩ := Finset.mem_image.1 hx
    obtain ⟨t, _, rfl⟩ := Finset.mem_image.1 hy
    exact ⟨s, t, rfl⟩
  · rcases min_le_iff.1 hcd with h | h
    · exact Or.inl h
    · exact Or.inr ⟨_, hc, by omega⟩

theorem hash_cover : ∃ S : Finset (ZMod ell), (∀ k ∈ S, ∃ s t, dl (ellPt s) + dl (ellPt t) = k) ∧
    ell < S.card + 2 ^ 124 := by
  obtain ⟨S, h1, h2⟩ := sums_cover ell_prime (fun t : Fp => dl (ellPt t)) 16 ellPt_fibre
  refine ⟨S, h1, ?_⟩
  have hp : 16 * ell < 2 * p + 16 * (2 ^ 124 - 1) := by decide +kernel
  rw [Nat.card_zmod] at h2
  generalize S.card = x at *
  rcases h2 with h | ⟨y, ha, hb⟩
  · exact lt_of_le_of_lt h (Nat.lt_add_of_pos_right (by decide))
  · omega

/-! ### Byte strings -/

/-- The residue that 32 bytes stand for. -/
def resOf (b : Bytes32) : Fp := (bytesVal b : Fp)

theorem resOf_fromBytes (b : Bytes32) : (Field.fromBytes b).toZ = resOf b := by
  unfold L5.toZ resOf
  rw [(Field.fromBytes_spec b).2]

noncomputable def bytesEquiv : Bytes32 ≃ Fin (2 ^ 256) :=
  Equiv.ofBijective (fun b => ⟨bytesVal b, bytesVal_lt b⟩) (by
    constructor
    · intro a b h
      exact bytesVal_inj (congrArg Fin.val h)
    · rintro ⟨n, hn⟩
      refine ⟨Field.toBytes (encNat n), Fin.ext ?_⟩
      have h : (encNat n).val = n := encNat_val n (lt_trans hn (by norm_num))
      show bytesVal (Field.toBytes (encNat n)) = n
      rw [Field.toBytes_spec _ (encNat_WF n) (by rw [h]; exact hn), h])

instance : Finite Bytes32 := Finite.of_equiv _ bytesEquiv.symm

theorem card_bytes : Nat.card Bytes32 = 2 ^ 256 := by
  rw [Nat.card_congr bytesEquiv, Nat.card_eq_fintype_card, Fintype.card_fin]

theorem resOf_fibre (t : Fp) : {b : Bytes32 | resOf b = t}.ncard ≤ 16 := by
  have hinj : Set.InjOn (fun b : Bytes32 => bytesVal b / p) {b | resOf b = t} := by
    intro a ha b hb h
    have h1 : bytesVal a % p = bytesVal b % p :=
      (ZMod.natCast_eq_natCast_iff' _ _ _).1 ((ha : resOf a = t).trans (Eq.symm hb))
    apply bytesVal_inj
    have h2 : bytesVal a / p = bytesVal b / p := h
    rw [← Nat.div_add_mod (bytesVal a) p, ← Nat.div_add_mod (bytesVal b) p, h1, h2]
  rw [← hinj.ncard_image]
  have hsub : (fun b : Bytes32 => bytesVal b / p) '' {b | resOf b = t} ⊆ ↑(Finset.range 16) := by
    rintro _ ⟨b, _, rfl⟩
    rw [Finset.coe_range, Set.mem_Iio]
    refine Nat.div_lt_of_lt_mul (lt_trans (bytesVal_lt b) ?_)
    decide +kernel
  refine (Set.ncard_le_ncard hsub (Set.toFinite _)).trans ?_
  rw [Set.ncard_coe_finset, Finset.card_range]

theorem ncard_preimage_le {α β : Type} [Finite α] [Finite β] (f : α → β) (S : Set β) (m n : ℕ)
    (hf : ∀ y, {x | f x = y}.ncard ≤ n) (hS : S.ncard ≤ m) : {x | f x ∈ S}.ncard ≤ n * m := by
  classical
  have := Fintype.ofFinite α
  have := Fintype.ofFinite β
  have h := Finset.card_le_mul_card_image (f := f) (Finset.univ.filter fun x => f x ∈ S) n (by
    intro y _
    refine le_trans ?_ (hf y)
    rw [Set.ncard_eq_toFinset_card']
    apply Finset.card_le_card
    intro x hx
    simp only [Finset.mem_filter] at hx
    simp [hx.2])
  have h1 : {x | f x ∈ S}.ncard = (Finset.univ.filter fun x => f x ∈ S).card := by
    rw [Set.ncard_eq_toFinset_card']
    congr 1
    ext x
    simp
  rw [h1]
  refine h.trans (Nat.mul_le_mul_left _ (le_trans ?_ hS))
  rw [Set.ncard_eq_toFinset_card']
  apply Finset.card_le_card
  intro y hy
  simp only [Finset.mem_image, Finset.mem_filter] at hy
  obtain ⟨x, hx, rfl⟩ := hy
  simp [hx.2]

/-- Byte strings mapped to one class. -/
theorem bytes_fibre (k : ZMod ell) : {b : Bytes32 | dl (ellPt (resOf b)) = k}.ncard ≤ 256 :=
  ncard_preimage_le resOf {t | dl (ellPt t) = k} 16 16 resOf_fibre (ellPt_fibre k)

theorem ncard_pairs_le {α G : Type} [Finite α] [AddCommGroup G] (g : α → G) (k : G) (n : ℕ)
    (h : ∀ k, {b | g b = k}.ncard ≤ n) : {x : α × α | g x.1 + g x.2 = k}.ncard ≤ n * Nat.card α := by
  classical
  have := Fintype.ofFinite α
  have h1 := Finset.card_le_mul_card_image (f := fun x : α × α => x.1)
    (Finset.univ.filter fun x => g x.1 + g x.2 = k) n (by
    intro a _
    refine le_trans ?_ (h (k - g a))
    rw [Set.ncard_eq_toFinset_card']
    refine Finset.card_le_card_of_injOn (fun x => x.2) ?_ ?_
    · rintro ⟨x, y⟩ hx
      simp only [Finset.coe_filter, Finset.mem_filter, Finset.mem_univ, true_and, Set.mem_ofPred_eq] at hx
      obtain ⟨hx, rfl⟩ := hx
      simp [← hx]
    · rintro ⟨x, y⟩ hx ⟨x', y'⟩ hx' e
      simp only [Finset.coe_filter, Finset.mem_filter, Finset.mem_univ, true_and, Set.mem_ofPred_eq] at hx hx'
      rw [hx.2, hx'.2]
      exact congrArg (Prod.mk a) e)
  have h2 : {x : α × α | g x.1 + g x.2 = k}.ncard =
      (Finset.univ.filter fun x : α × α => g x.1 + g x.2 = k).card := by
    rw [Set.ncard_eq_toFinset_card']
    congr 1
    ext x
    simp
  rw [h2]
  refine h1.trans (Nat.mul_le_mul_left _ ?_)
  rw [Nat.card_eq_fintype_card]
  exact Finset.card_le_univ _

/-- Pairs of byte strings mapped to one class. -/
theorem pairs_fibre (k : ZMod ell) :
    {x : Bytes32 × Bytes32 | dl (ellPt (resOf x.1)) + dl (ellPt (resOf x.2)) = k}.ncard ≤ 2 ^ 264 := by
  have := ncard_pairs_le (fun b : Bytes32 => dl (ellPt (resOf b))) k 256 bytes_fibre
  rw [card_bytes] at this
  exact this.trans (by norm_num)

/-! ### C92 -/

/-- The two halves of the input. -/
def loHalf (u : Bytes64) : Bytes32 := Vector.ofFn fun i : Fin 32 => u[i.val]'(by omega)
def hiHalf (u : Bytes64) : Bytes32 := Vector.ofFn fun i : Fin 32 => u[32 + i.val]'(by omega)

theorem halves_inj {u v : Bytes64} (h1 : loHalf u = loHalf v) (h2 : hiHalf u = hiHalf v) : u = v := by
  refine Vector.ext fun i hi => ?_
  rcases Nat.lt_or_ge i 32 with h | h
  · have := congrArg (fun b : Bytes32 => b[i]) h1
    simpa [loHalf] using this
  · have := congrArg (fun b : Bytes32 => b[i - 32]) h2
    simp only [hiHalf, Vector.getElem_ofFn] at this
    have e : 32 + (i - 32) = i := by omega
    simpa only [e] using this

/-- The pair of the halves. -/
def halves (u : Bytes64) : Bytes32 × Bytes32 := (loHalf u, hiHalf u)

theorem halves_injective : Function.Injective halves := by
  intro u v h
  unfold halves at h
  rw [Prod.mk.injEq] at h
  exact halves_inj h.1 h.2

instance : Finite Bytes64 := Finite.of_injective halves halves_injective

theorem halves_surj (a b : Bytes32) : ∃ u : Bytes64, loHalf u = a ∧ hiHalf u = b := by
  refine ⟨Vector.ofFn fun i : Fin 64 => if h : i.val < 32 then a[i.val] else b[i.val - 32]'(by omega), ?_, ?_⟩
  · refine Vector.ext fun i hi => ?_
    simp [loHalf]
  · refine Vector.ext fun i hi => ?_
    simp [hiHalf]

theorem hash_run (c : Cfg) (hc : c.Enough) (u : Bytes64) :
    ∃ P A, Ristretto.fromUniformBytes c u = .ok P ∧ P.Rep A.1 ∧
      dl A = dl (ellPt (resOf (loHalf u))) + dl (ellPt (resOf (hiHalf u))) := by
  obtain ⟨P, Q, R, A, B, e1, e2, e3, h1, h2, h3⟩ := C65_sum_of_halves c hc u (loHalf u) (hiHalf u)
    (fun i h => by simp [loHalf]) (fun i h => by simp [hiHalf])
  obtain ⟨P', e1', h1'⟩ := ellPt_run c hc _ (Field.fromBytes_spec (loHalf u)).1
  obtain ⟨Q', e2', h2'⟩ := ellPt_run c hc _ (Field.fromBytes_spec (hiHalf u)).1
  rw [e1, Res.ok_inj] at e1'
  rw [e2, Res.ok_inj] at e2'
  subst e1' e2'
  rw [resOf_fromBytes] at h1' h2'
  refine ⟨R, ⟨(ellPt (resOf (loHalf u))).1 + (ellPt (resOf (hiHalf u))).1,
    (ellPt (resOf (loHalf u))).2.add (ellPt (resOf (hiHalf u))).2⟩, e3, ?_, dl_add _ _⟩
  rw [h1.unique h1', h2.unique h2'] at h3
  exact h3

/-- The inputs whose result compares equal to `P`. -/
def HashPreimages (c : Cfg) (P : EdPoint) : Set Bytes64 :=
  {u | ∃ Q, Ristretto.fromUniformBytes c u = .ok Q ∧ REq c Q P}

theorem hash_fibre (c : Cfg) (hc : c.Enough) {P : EdPoint} (hP : P.Valid) (N : ℕ)
    (hN : ∀ k : ZMod ell,
      {x : Bytes32 × Bytes32 | dl (ellPt (resOf x.1)) + dl (ellPt (resOf x.2)) = k}.ncard ≤ N) :
    (HashPreimages c P).Finite ∧ (HashPreimages c P).ncard ≤ N := by
  obtain ⟨B, hB⟩ := hP
  refine ⟨Set.toFinite _, ?_⟩
  rcases Set.eq_empty_or_nonempty (HashPreimages c P) with h | ⟨u0, Q0, e0, h0⟩
  · rw [h, Set.ncard_empty]; exact Nat.zero_le _
  obtain ⟨Q0', A0, e0', hA0, _⟩ := hash_run c hc u0
  rw [e0, Res.ok_inj] at e0'
  subst e0'
  have hBA : SameClass A0.1 B := (req_iff c hA0 hB).1 h0
  have hs : halves '' HashPreimages c P ⊆
      {x | dl (ellPt (resOf x.1)) + dl (ellPt (resOf x.2)) = dl A0} := by
    rintro _ ⟨u, ⟨Q, e, h⟩, rfl⟩
    obtain ⟨Q', A, e', hA, hd⟩ := hash_run c hc u
    rw [e, Res.ok_inj] at e'
    subst e'
    rw [Set.mem_ofPred_eq]
    have h3 : dl A = dl A0 := (dl_eq_iff _ _).2 (((req_iff c hA hB).1 h).trans hBA.symm)
    exact hd.symm.trans h3
  rw [← Set.ncard_image_of_injective _ halves_injective]
  exact (Set.ncard_le_ncard hs (Set.toFinite _)).trans (hN _)

/-- C92: no group element is the result of more than `2^264` of the `2^512` inputs, that is of more than
`2^-248` of them. -/
theorem C92_min_entropy (c : Cfg) (hc : c.Enough) {P : EdPoint} (hP : P.Valid) :
    (HashPreimages c P).Finite ∧ (HashPreimages c P).ncard ≤ 2 ^ 264 :=
  hash_fibre c hc hP _ pairs_fibre

/-- The encodings of the results. -/
abbrev HashOutputs (c : Cfg) : Type :=
  {b : Bytes32 // ∃ u Q, Ristretto.fromUniformBytes c u = .ok Q ∧ Ristretto.compress c Q = .ok b}

/-- C92: all of the `L` group elements but fewer than `2^124` are results. -/
theorem C92_reaches_almost_all (c : Cfg) (hc : c.Enough) :
    Nat.card (HashOutputs c) ≤ ell ∧ ell < Nat.card (HashOutputs c) + 2 ^ 124 := by
  constructor
  · rw [← C67_decodable_count c hc]
    refine Nat.card_le_card_of_injective
      (fun b => ⟨b.1, ?_⟩ : HashOutputs c → {b : Bytes32 // ∃ P, Ristretto.decompress c b = .ok (some P)}) ?_
    · obtain ⟨b, u, Q, e, eb⟩ := b
      obtain ⟨P, A, e', hP, hA⟩ := C65_from_uniform_bytes c hc u
      rw [e, Res.ok_inj] at e'
      subst e'
      obtain ⟨b', Q', e1, e2, _⟩ := C60_encode_decode c hc hP hA
      rw [eb, Res.ok_inj] at e1
      subst e1
      exact ⟨Q', e2⟩
    · intro a b h
      exact Subtype.ext (congrArg (fun x : {b : Bytes32 // ∃ P, Ristretto.decompress c b = .ok (some P)} => x.1) h)
  · obtain ⟨S, hS, hlt⟩ := hash_cover
    refine lt_of_lt_of_le hlt (Nat.add_le_add_right ?_ _)
    have hex : ∀ k : {k // k ∈ S}, ∃ b : HashOutputs c, ∃ Q A,
        Ristretto.compress c Q = .ok b.1 ∧ Q.Rep A.1 ∧ dl A = k.1 := by
      rintro ⟨k, hk⟩
      obtain ⟨s, t, rfl⟩ := hS k hk
      have hres : ∀ t : Fp, resOf (Field.toBytes (enc t)) = t := by
        intro t
        unfold resOf
        rw [Field.toBytes_spec _ (enc_WF _) (Field.canon_lt256 (enc_canon _)), enc_val]
        exact ZMod.natCast_zmod_val t
      obtain ⟨u, hl, hh⟩ := halves_surj (Field.toBytes (enc s)) (Field.toBytes (enc t))
      obtain ⟨P, A, e, hP, hd⟩ := hash_run c hc u
      rw [hl, hh, hres, hres] at hd
      obtain ⟨b, eb⟩ := C60_encode_total c hc ⟨_, hP⟩
      exact ⟨⟨b, u, P, e, eb⟩, P, A, eb, hP, hd⟩
    choose b Q A h1 h2 h3 using hex
    have hinj : Function.Injective b := by
      intro j k h
      have e : Ristretto.compress c (Q j) = Ristretto.compress c (Q k) := by rw [h1, h1, h]
      rw [C61_encoding_identifies c hc (h2 j) (h2 k) (A j).2 (A k).2, req_iff c (h2 j) (h2 k),
        ← dl_eq_iff, h3, h3] at e
      exact Subtype.ext e
    have := Nat.card_le_card_of_injective b hinj
    rwa [Nat.card_eq_fintype_card, Fintype.card_coe] at this

/-- C92: a single application of the map to 32 uniform bytes has the same bound: at most `2^8` of the `2^256`
byte strings give any one element. -/
theorem C92_single (c : Cfg) (hc : c.Enough) {P : EdPoint} (hP : P.Valid) :
    {b : Bytes32 | ∃ Q, Ristretto.elligator c (Field.fromBytes b) = .ok Q ∧ REq c Q P}.ncard ≤ 2 ^ 8 := by
  obtain ⟨B, hB⟩ := hP
  rcases Set.eq_empty_or_nonempty
    {b : Bytes32 | ∃ Q, Ristretto.elligator c (Field.fromBytes b) = .ok Q ∧ REq c Q P} with h | ⟨b0, Q0, e0, h0⟩
  · rw [h, Set.ncard_empty]; exact Nat.zero_le _
  obtain ⟨Q0', e0', hA0⟩ := ellPt_run c hc _ (Field.fromBytes_spec b0).1
  rw [e0, Res.ok_inj] at e0'
  subst e0'
  refine (Set.ncard_le_ncard ?_ (Set.toFinite _)).trans (bytes_fibre (dl (ellPt (resOf b0))))
  rintro b ⟨Q, e, h⟩
  obtain ⟨Q', e', hA⟩ := ellPt_run c hc _ (Field.fromBytes_spec b).1
  rw [e, Res.ok_inj] at e'
  subst e'
  rw [resOf_fromBytes] at hA hA0
  show dl _ = dl _
  rw [dl_eq_iff]
  exact ((req_iff c hA hB).1 h).trans ((req_iff c hA0 hB).1 h0).symm

example : dbg.Enough ∧ Ed.BASEPOINT.Valid ∧ Nat.card Bytes32 = 2 ^ 256 :=
  ⟨by decide, ⟨_, BASEPOINT_rep⟩, card_bytes⟩

end Props
end Zerocaf
