import Verif.Proof.EllMap
import Verif.Props.Ristretto

/-!
# Properties C80-C81: the Elligator map
-/

set_option exponentiation.threshold 600

namespace Zerocaf
namespace Props

open Ristretto

/-! ### C80 -/

/-- C80: the library computes the map of RFC 9496 with the parameters of this curve. -/
theorem C80_rfc_map (c : Cfg) (hc : c.Enough) (a : FE) (ha : a.WF) :
    ∃ P A, Ristretto.elligator c a = .ok P ∧ P.Rep A ∧
      RfcMap (Field.SQRT_MINUS_ONE.val : Fp) (Ristretto.SQRT_AD_MINUS_ONE.val : Fp) (a.val : Fp) A :=
  elligator_map c hc a ha

/-- C80: the roots used are the smaller of the two roots of `-1` and of `-d - 1`. -/
theorem C80_roots :
    Field.SQRT_MINUS_ONE.Canon ∧ (Field.SQRT_MINUS_ONE.val : Fp) ^ 2 = -1 ∧
      Field.SQRT_MINUS_ONE.val ≤ (p - 1) / 2 ∧
    Ristretto.SQRT_AD_MINUS_ONE.Canon ∧ (Ristretto.SQRT_AD_MINUS_ONE.val : Fp) ^ 2 = -dZ - 1 ∧
      Ristretto.SQRT_AD_MINUS_ONE.val ≤ (p - 1) / 2 := by
  refine ⟨by decide, ?_, by decide, by decide, ?_, by decide⟩
  · have := Field.iZ_sq
    rw [pow_two]; exact this
  · have := qZ_sq
    rw [pow_two]; exact this.trans (by ring)

/-- C80: the specification determines the point. -/
theorem C80_unique {i q t : Fp} {A B : E} (hA : RfcMap i q t A) (hB : RfcMap i q t B) : A = B :=
  RfcMap.unique hA hB

/-- C80: opposite field elements are mapped to the same point. -/
theorem C80_sign (c : Cfg) (hc : c.Enough) (a : FE) (ha : a.Canon) :
    ∃ a' P P' A, Field.neg c a = .ok a' ∧ Ristretto.elligator c a = .ok P ∧
      Ristretto.elligator c a' = .ok P' ∧ P.Rep A ∧ P'.Rep A := by
  have e' : Field.neg c a = .ok (enc (-a.toZ)) := by
    conv_lhs => rw [ha.eq_enc rfl]
    rw [Field.neg_enc]
  obtain ⟨P, A, e, hP, hA⟩ := elligator_map c hc a ha.1
  obtain ⟨P', B, e2, hP', hB⟩ := elligator_map c hc _ (enc_WF (-a.toZ))
  rw [enc_toZ] at hB
  have hB' : RfcMap Field.iZ qZ a.toZ B := by
    obtain ⟨r, hB⟩ := hB
    rw [neg_sq] at hB
    exact ⟨r, hB⟩
  rw [RfcMap.unique hB' hA] at hP'
  exact ⟨_, P, P', A, e', e, e2, hP, hP'⟩

/-! ### C81 -/

/-- The arguments that the map sends to a point equal to `P`. -/
def Preimages (c : Cfg) (P : EdPoint) : Type :=
  {a : FE // a.Canon ∧ ∃ Q, Ristretto.elligator c a = .ok Q ∧ REq c Q P}

/-- C81: at most 16 field elements are mapped to any one Ristretto point. -/
theorem C81_fibres (c : Cfg) (hc : c.Enough) {P : EdPoint} (hP : P.Valid) :
    Finite (Preimages c P) ∧ Nat.card (Preimages c P) ≤ 16 := by
  obtain ⟨A, hP⟩ := hP
  have hmem : ∀ a : Preimages c P, a.1.toZ ∈ {t | ∃ B, SameClass A B ∧ RfcMap Field.iZ qZ t B} := by
    rintro ⟨a, ha, Q, e, hQ⟩
    obtain ⟨Q', B, e', hQ', hB⟩ := elligator_map c hc a ha.1
    rw [e, Res.ok_inj] at e'
    subst e'
    exact ⟨B, ((req_iff c hQ' hP).1 hQ).symm, hB⟩
  let f : Preimages c P → {t | ∃ B, SameClass A B ∧ RfcMap Field.iZ qZ t B} := fun a => ⟨a.1.toZ, hmem a⟩
  have hf : Function.Injective f := by
    rintro ⟨a, ha, _⟩ ⟨b, hb, _⟩ h
    have h1 : a.toZ = b.toZ := congrArg Subtype.val h
    exact Subtype.ext (by exact (ha.eq_enc h1).trans (hb.eq_enc rfl).symm)
  have hfin : Finite {t | ∃ B, SameClass A B ∧ RfcMap Field.iZ qZ t B} := Set.toFinite _
  refine ⟨Finite.of_injective f hf, ?_⟩
  exact (Nat.card_le_card_of_injective f hf).trans (fibre_class A)

/-- Counting by fibres. -/
theorem card_le_of_fibres {T : Type} [Finite T] (g : Fp → T) (hg : Function.Surjective g)
    (h : ∀ t, {u | g u = g t}.ncard ≤ 16) : p ≤ 16 * Nat.card T := by
  classical
  have hp : Nat.card Fp = p := Nat.card_zmod p
  have e : Fp ≃ Σ y : T, {u // g u = y} := (Equiv.sigmaFiberEquiv g).symm
  have := Fintype.ofFinite T
  rw [← hp, Nat.card_congr e, Nat.card_sigma, Nat.card_eq_fintype_card]
  refine (Finset.sum_le_card_nsmul _ _ 16 ?_).trans (by rw [smul_eq_mul, mul_comm]; rfl)
  intro y _
  obtain ⟨t, rfl⟩ := hg y
  exact h t

/-- C81: so the map reaches at least `p / 16` of the `L` Ristretto points, counted by their encodings. -/
theorem C81_image (c : Cfg) (hc : c.Enough) :
    p ≤ 16 * Nat.card {b : Bytes32 // ∃ a Q, a.Canon ∧ Ristretto.elligator c a = .ok Q ∧
      Ristretto.compress c Q = .ok b} := by
  have hex : ∀ t : Fp, ∃ b : Bytes32, ∃ Q A, Ristretto.elligator c (enc t) = .ok Q ∧ Q.Rep A ∧ InEven A ∧
      RfcMap Field.iZ qZ t A ∧ Ristretto.compress c Q = .ok b := by
    intro t
    obtain ⟨Q, A, e, hQ, hA⟩ := elligator_map c hc _ (enc_WF t)
    obtain ⟨Q', A', e', hQ', hE⟩ := elligator_rep c hc _ (enc_WF t)
    rw [e, Res.ok_inj] at e'
    subst e'
    rw [← hQ.unique hQ'] at hE
    rw [enc_toZ] at hA
    obtain ⟨b, eb⟩ := C60_encode_total c hc ⟨_, hQ⟩
    exact ⟨b, Q, A, e, hQ, hE, hA, eb⟩
  choose b Q A h1 h2 h3 h4 h5 using hex
  let g : Fp → {b : Bytes32 // ∃ a Q, a.Canon ∧ Ristretto.elligator c a = .ok Q ∧
      Ristretto.compress c Q = .ok b} := fun t => ⟨b t, enc t, Q t, enc_canon t, h1 t, h5 t⟩
  have hg : Function.Surjective g := by
    rintro ⟨b', a, Q', ha, e1, e2⟩
    refine ⟨a.toZ, Subtype.ext ?_⟩
    have h := h1 a.toZ
    rw [← ha.eq_enc rfl, e1, Res.ok_inj] at h
    rw [h, h5, Res.ok_inj] at e2
    exact e2
  have hT := Finite.of_surjective g hg
  have hb : ∀ t u, b t = b u → SameClass (A t) (A u) := by
    intro t u h
    rw [← req_iff c (h2 t) (h2 u), ← C61_encoding_identifies c hc (h2 t) (h2 u) (h3 t) (h3 u), h5, h5, h]
  have hfib : ∀ t, {u | g u = g t}.ncard ≤ 16 := by
    intro t
    have hs : {u | g u = g t} ⊆ {u | ∃ B, SameClass (A t) B ∧ RfcMap Field.iZ qZ u B} := by
      intro u hu
      exact ⟨A u, hb t u (congrArg Subtype.val (hu : g u = g t)).symm, h4 u⟩
    exact (Set.ncard_le_ncard hs (Set.toFinite _)).trans (fibre_class (A t))
  exact card_le_of_fibres g hg hfib

example : dbg.Enough ∧ (⟨5, 0, 0, 0, 0⟩ : FE).Canon ∧ Ed.BASEPOINT.Valid :=
  ⟨by decide, by decide, ⟨_, BASEPOINT_rep⟩⟩

end Props
end Zerocaf
