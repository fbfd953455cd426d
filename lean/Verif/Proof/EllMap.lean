import Verif.Proof.Classes
import Verif.Spec.Elligator
import Mathlib.Data.Set.Card

/-!
# The Elligator map against its specification, and its fibres
-/

set_option exponentiation.threshold 600

namespace Zerocaf

attribute [local irreducible] psqrt

theorem sqrtRatio_cases' {u v : Fp} (hu : u ≠ 0) :
    (v = 0 ∧ Field.sqrtRatioZ u v = (false, 0)) ∨
    (v ≠ 0 ∧ IsSquare (u / v) ∧ ∃ t, Field.sqrtRatioZ u v = (true, t) ∧ Pos t ∧ v * (t * t) = u) ∨
    (v ≠ 0 ∧ ¬ IsSquare (u / v) ∧ ∃ t, Field.sqrtRatioZ u v = (false, t) ∧ v * (t * t) = Field.iZ * u) := by
  unfold Field.sqrtRatioZ
  rw [if_neg hu]
  by_cases hv : v = 0
  · rw [if_pos hv]; exact Or.inl ⟨hv, rfl⟩
  · rw [if_neg hv]
    right
    by_cases hs : IsSquare (u / v)
    · rw [if_pos hs]
      refine Or.inl ⟨hv, hs, _, rfl, psqrt_pos _, ?_⟩
      rw [psqrt_sq hs, mul_div_cancel₀ _ hv]
    · rw [if_neg hs]
      refine Or.inr ⟨hv, hs, _, rfl, ?_⟩
      rw [psqrt_sq (Field.iZ_mul_square hs)]
      field_simp

namespace Ristretto

theorem ellOut_rep' {r s cc D t : Fp} (hD : D = (-1 - dZ * r) * (r + dZ)) (hD0 : D ≠ 0)
    (ht : t = cc * (r - 1) * ((dZ - 1) * (dZ - 1)) - D)
    (h : t ^ 2 * (dZ + 1) = (D + D * (s * s)) ^ 2 + dZ * (D - D * (s * s)) ^ 2) :
    ∃ A : E, (ellOut r s cc).Rep A ∧ t * qZ ≠ 0 ∧ 1 + s ^ 2 ≠ 0 ∧
      A.x = 2 * s * D / (t * qZ) ∧ A.y = (1 - s ^ 2) / (1 + s ^ 2) := by
  obtain ⟨ht0, hu2, A, hA, hx, hy⟩ := ell_point hD0 h
  have hn := mul_ne_zero ht0 qZ_ne
  refine ⟨A, ?_, hn, by rwa [pow_two], ?_, ?_⟩
  · unfold ellOut
    dsimp only
    rw [← hD, ← ht]
    refine EdPoint.rep_mk (mul_ne_zero hn hu2) ?_ ?_ ?_
    · linear_combination -(1 + s * s) * hx
    · linear_combination -(t * qZ) * hy
    · linear_combination -(1 - s * s) * hx - A.x * (t * qZ) * hy
  · rw [eq_div_iff hn]; linear_combination hx
  · rw [pow_two, eq_div_iff hu2]; exact hy

/-- The program computes the map of the specification. -/
theorem elligator_map (c : Cfg) (hc : c.Enough) (a : FE) (ha : a.WF) :
    ∃ P A, elligator c a = .ok P ∧ P.Rep A ∧ RfcMap Field.iZ qZ a.toZ A := by
  generalize h0 : a.toZ = r0
  generalize hr : Field.iZ * (r0 * r0) = r
  have hN : (r + 1) * (1 - dZ * dZ) ≠ 0 := by
    rw [← hr, show (1 : Fp) - dZ * dZ = (1 - dZ) * (1 + dZ) by ring]
    exact mul_ne_zero (r_add_one_ne r0) (mul_ne_zero one_sub_d_ne one_add_d_ne)
  have key := elligator_enc c hc a ha r0 r h0.symm hr.symm
  generalize hD : (-1 - dZ * r) * (r + dZ) = D at *
  have hr' : r = Field.iZ * r0 ^ 2 := by rw [← hr]; ring
  have hv' : D = (-1 - r * dZ) * (r + dZ) := by rw [← hD]; ring
  generalize hu : (r + 1) * (1 - dZ * dZ) = u at *
  have hu' : u = (r + 1) * (1 - dZ ^ 2) := by rw [← hu]; ring
  rcases sqrtRatio_cases' (v := D) hN with ⟨h1, e⟩ | ⟨h1, hsq, t, e, hpos, ht⟩ | ⟨h1, hsq, t, e, ht⟩
  · have e1 : ellPick false 0 r0 r = (0, r) := by
      unfold ellPick
      rw [if_neg Bool.false_ne_true, zero_mul, if_pos pos_zero, neg_zero]
    have hr0 : r ≠ 0 := by
      intro h
      rw [h, h1] at hD
      exact dZ_ne (by linear_combination -hD)
    have hr1 : r - 1 ≠ 0 := by
      intro h
      have h2 : r = 1 := by linear_combination h
      rw [h2, h1] at hD
      have : (1 + dZ) * (1 + dZ) = 0 := by linear_combination -hD
      exact mul_ne_zero one_add_d_ne one_add_d_ne this
    have hd : dZ - 1 ≠ 0 := fun h => one_sub_d_ne (by linear_combination -h)
    refine ⟨_, 0, key false 0 e.symm, ?_, r, u, D, 0, r, _, hr', hu', hv', Or.inr ⟨Or.inl h1, ?_, Or.inl rfl, rfl⟩,
      rfl, ?_, ?_, ?_, ?_⟩
    · rw [e1]
      unfold ellOut
      dsimp only
      rw [hD, h1]
      have hW : (r * (r - 1) * ((dZ - 1) * (dZ - 1)) - 0) * qZ * (1 + 0 * 0) ≠ 0 := by
        rw [sub_zero, mul_zero, add_zero, mul_one]
        exact mul_ne_zero (mul_ne_zero (mul_ne_zero hr0 hr1) (mul_ne_zero hd hd)) qZ_ne
      refine EdPoint.rep_mk hW ?_ ?_ ?_
      · rw [EdCurve.Pt.zero_x]; ring
      · rw [EdCurve.Pt.zero_y]; ring
      · rw [EdCurve.Pt.zero_x]; ring
    · rw [h1, div_zero, mul_zero]; ring
    · rw [h1, sub_zero]
      exact mul_ne_zero (mul_ne_zero (mul_ne_zero hr0 hr1) (pow_ne_zero 2 hd)) qZ_ne
    · simp
    · rw [EdCurve.Pt.zero_x]; simp
    · rw [EdCurve.Pt.zero_y]; simp
  · obtain ⟨A, hR, g1, g2, g3, g4⟩ := ellOut_rep' (r := r) (s := t) (cc := -1) hD.symm h1 rfl (by
      rw [ht, ← hu]; exact ell_id1 dZ r D hD.symm)
    have e1 : ellPick true t r0 r = (t, -1) := by
      unfold ellPick
      rw [if_pos rfl]
    refine ⟨_, A, key true t e.symm, by rw [e1]; exact hR, r, u, D, t, -1, _, hr', hu', hv',
      Or.inl ⟨h1, hsq, ?_, ?_, rfl⟩, rfl, ?_, g2, ?_, g4⟩
    · rw [eq_div_iff h1]; linear_combination ht
    · unfold Pos at hpos; omega
    · rw [pow_two]; exact g1
    · rw [pow_two]; exact g3
  · generalize hsv : (ellPick false t r0 r).1 = s
    have hss : s * s = t * r0 * (t * r0) := by
      rw [← hsv]
      unfold ellPick
      rw [if_neg Bool.false_ne_true]
      dsimp only
      by_cases hp : Pos (t * r0)
      · rw [if_pos hp, neg_mul_neg]
      · rw [if_neg hp]
    have hneg : s = 0 ∨ ¬ Pos s := by
      rw [← hsv]
      unfold ellPick
      rw [if_neg Bool.false_ne_true]
      dsimp only
      by_cases hp : Pos (t * r0)
      · rw [if_pos hp]
        by_cases h0 : t * r0 = 0
        · left; rw [h0, neg_zero]
        · right; rw [pos_neg h0]; exact fun h => h hp
      · rw [if_neg hp]; exact Or.inr hp
    have hs : D * (s * s) = r * u := by
      rw [hss, ← hr]
      linear_combination (r0 * r0) * ht
    obtain ⟨A, hR, g1, g2, g3, g4⟩ := ellOut_rep' (r := r) (s := s) (cc := r) hD.symm h1 rfl (by
      rw [hs, ← hu]
      exact ell_id2 dZ r D hD.symm)
    have e1 : (ellPick false t r0 r).2 = r := by
      unfold ellPick
      rw [if_neg Bool.false_ne_true]
    refine ⟨_, A, key false t e.symm, by rw [e1, hsv]; exact hR, r, u, D, s, r, _, hr', hu', hv',
      Or.inr ⟨Or.inr hsq, ?_, ?_, rfl⟩, rfl, ?_, g2, ?_, g4⟩
    · rw [← mul_div_assoc, eq_div_iff h1]; linear_combination hs
    · rcases hneg with h | h
      · exact Or.inl h
      · right; unfold Pos at h; omega
    · rw [pow_two]; exact g1
    · rw [pow_two]; exact g3

end Ristretto

/-- The map is a function. -/
theorem RfcMap.unique {i q t : Fp} {A B : E} (hA : RfcMap i q t A) (hB : RfcMap i q t B) : A = B := by
  obtain ⟨r, u, v, s, c, N, hr, hu, hv, hc, hN, h1, h2, hx, hy⟩ := hA
  obtain ⟨r', u', v', s', c', N', hr', hu', hv', hc', hN', h1', h2', hx', hy'⟩ := hB
  rw [← hr] at hr'
  subst hr'
  rw [← hu] at hu'
  subst hu'
  rw [← hv] at hv'
  subst hv'
  have hs : s = s' ∧ c = c' := by
    rcases hc with ⟨a1, a2, a3, a4, a5⟩ | ⟨a1, a3, a4, a5⟩ <;>
    rcases hc' with ⟨b1, b2, b3, b4, b5⟩ | ⟨b1, b3, b4, b5⟩
    · exact ⟨pos_unique (by unfold Pos; omega) (by unfold Pos; omega) (by rw [← pow_two, ← pow_two, a3, b3]),
        by rw [a5, b5]⟩
    · rcases b1 with b1 | b1
      · exact absurd b1 a1
      · exact absurd a2 b1
    · rcases a1 with a1 | a1
      · exact absurd a1 b1
      · exact absurd b2 a1
    · refine ⟨?_, by rw [a5, b5]⟩
      have h0 : s ^ 2 = s' ^ 2 := by rw [a3, b3]
      have key : ∀ x : Fp, (x = 0 ∨ (p - 1) / 2 < x.val) → Pos (-x) := by
        intro x hx
        rcases hx with hx | hx
        · rw [hx, neg_zero]; exact pos_zero
        · rcases pos_or_neg x with h | h
          · unfold Pos at h; omega
          · exact h
      have := pos_unique (key s a4) (key s' b4) (by linear_combination h0)
      exact neg_injective this
  obtain ⟨rfl, rfl⟩ := hs
  rw [← hN] at hN'
  subst hN'
  exact EdCurve.Pt.ext (by rw [hx, hx']) (by rw [hy, hy'])

/-! ### Fibres -/

/-- The data of one branch of the map, for `s ≠ 0`. -/
def EllCase (b : Bool) (t : Fp) (A : E) : Prop :=
  ∃ r v s N : Fp, r = Field.iZ * t ^ 2 ∧ v ≠ 0 ∧ s ≠ 0 ∧ A.x * (N * qZ) = 2 * s * v ∧
    A.y * (1 + s ^ 2) = 1 - s ^ 2 ∧
    if b then v * s ^ 2 = (r + 1) * (1 - dZ ^ 2) ∧ Pos s ∧ N = -1 * (r - 1) * (dZ - 1) ^ 2 - v
    else v * s ^ 2 = r * ((r + 1) * (1 - dZ ^ 2)) ∧ Pos (-s) ∧ N = r * (r - 1) * (dZ - 1) ^ 2 - v

theorem RfcMap.case {t : Fp} {A : E} (h : RfcMap Field.iZ qZ t A) (hA : A ≠ 0) :
    EllCase true t A ∨ EllCase false t A := by
  obtain ⟨r, u, v, s, c, N, hr, hu, hv, hc, hN, h1, h2, hx, hy⟩ := h
  rw [eq_div_iff h1] at hx
  rw [eq_div_iff h2] at hy
  have hs : s ≠ 0 := by
    intro hs
    rw [hs] at hx hy
    apply hA
    refine EdCurve.Pt.ext ?_ ?_
    · rw [EdCurve.Pt.zero_x]
      have : A.x * (N * qZ) = 0 := by rw [hx]; ring
      exact (mul_eq_zero.1 this).resolve_right h1
    · rw [EdCurve.Pt.zero_y]; linear_combination hy
  rcases hc with ⟨a1, a2, a3, a4, a5⟩ | ⟨a1, a3, a4, a5⟩
  · left
    rw [eq_div_iff a1] at a3
    refine ⟨r, v, s, N, hr, a1, hs, hx, hy, ?_⟩
    rw [if_pos rfl]
    exact ⟨by rw [← hu]; linear_combination a3, by unfold Pos; omega, by rw [hN, a5]⟩
  · right
    have hv0 : v ≠ 0 := by
      intro hv0
      rw [hv0, div_zero, mul_zero] at a3
      exact hs (pow_eq_zero_iff (two_ne_zero) |>.1 a3)
    rw [← mul_div_assoc, eq_div_iff hv0] at a3
    refine ⟨r, v, s, N, hr, hv0, hs, hx, hy, ?_⟩
    rw [if_neg Bool.false_ne_true]
    refine ⟨by rw [← hu]; linear_combination a3, ?_, by rw [hN, a5]⟩
    rw [pos_neg hs]
    unfold Pos
    rcases a4 with a4 | a4
    · exact absurd a4 hs
    · omega

theorem EllCase.pm {b : Bool} {t t' : Fp} {A : E} (h : EllCase b t A) (h' : EllCase b t' A) :
    t = t' ∨ t = -t' := by
  obtain ⟨r, v, s, N, hr, hv, hs, hx, hy, hb⟩ := h
  obtain ⟨r', v', s', N', hr', hv', hs', hx', hy', hb'⟩ := h'
  have two : (2 : Fp) ≠ 0 := Field.two_ne_zero'
  have hy1 : (1 + A.y) ≠ 0 := by
    intro h
    exact two (by linear_combination (1 + s ^ 2) * h - hy)
  have hss : s ^ 2 = s' ^ 2 := by
    apply mul_left_cancel₀ hy1
    linear_combination hy - hy'
  have hxn : A.x ≠ 0 := by
    intro h
    rw [h, zero_mul] at hx
    exact mul_ne_zero (mul_ne_zero two hs) hv hx.symm
  have hse : s = s' := by
    cases b
    · rw [if_neg Bool.false_ne_true] at hb hb'
      exact neg_injective (pos_unique hb.2.1 hb'.2.1 (by linear_combination hss))
    · rw [if_pos rfl] at hb hb'
      exact pos_unique hb.2.1 hb'.2.1 (by linear_combination hss)
  subst hse
  have hNv : N * v' = N' * v := by
    apply mul_left_cancel₀ (mul_ne_zero hxn qZ_ne)
    linear_combination v' * hx - v * hx'
  have hd : (dZ - 1) ^ 2 ≠ 0 := pow_ne_zero 2 (fun h => one_sub_d_ne (by linear_combination -h))
  have hd2 : 1 - dZ ^ 2 ≠ 0 := by
    rw [show 1 - dZ ^ 2 = (1 - dZ) * (1 + dZ) by ring]
    exact mul_ne_zero one_sub_d_ne one_add_d_ne
  have hrr : r = r' := by
    cases b
    · rw [if_neg Bool.false_ne_true] at hb hb'
      obtain ⟨e1, _, e2⟩ := hb
      obtain ⟨e1', _, e2'⟩ := hb'
      have k1 : r * (r - 1) * v' = r' * (r' - 1) * v := by
        apply mul_left_cancel₀ hd
        rw [e2, e2'] at hNv
        linear_combination hNv
      have k2 : r * (r + 1) * v' = r' * (r' + 1) * v := by
        apply mul_left_cancel₀ hd2
        linear_combination v * e1' - v' * e1
      have k3 : r * v' = r' * v := by
        apply mul_left_cancel₀ two
        linear_combination k2 - k1
      have hr0 : r' ≠ 0 := by
        intro h
        rw [h, zero_mul] at e1'
        exact mul_ne_zero hv' (pow_ne_zero 2 hs) e1'
      have k4 : r' * v * (r - r') = 0 := by linear_combination k1 - (r - 1) * k3
      have := (mul_eq_zero.1 k4).resolve_left (mul_ne_zero hr0 hv)
      linear_combination this
    · rw [if_pos rfl] at hb hb'
      obtain ⟨e1, _, e2⟩ := hb
      obtain ⟨e1', _, e2'⟩ := hb'
      have k1 : (r - 1) * v' = (r' - 1) * v := by
        apply mul_left_cancel₀ hd
        rw [e2, e2'] at hNv
        linear_combination -hNv
      have k2 : (r + 1) * v' = (r' + 1) * v := by
        apply mul_left_cancel₀ hd2
        linear_combination v * e1' - v' * e1
      have k3 : v' = v := by
        apply mul_left_cancel₀ two
        linear_combination k2 - k1
      rw [k3] at k1
      have := mul_right_cancel₀ hv k1
      linear_combination this
  rw [hr, hr'] at hrr
  apply sq_eq_cases
  apply mul_left_cancel₀ Field.iZ_ne
  linear_combination hrr

/-- A set whose elements agree up to sign has at most two elements. -/
theorem ncard_pm {S : Set Fp} (h : ∀ t ∈ S, ∀ u ∈ S, t = u ∨ t = -u) : S.ncard ≤ 2 := by
  by_cases h0 : S = ∅
  · rw [h0, Set.ncard_empty]; exact Nat.zero_le _
  · obtain ⟨u, hu⟩ := Set.nonempty_iff_ne_empty.2 h0
    have hs : S ⊆ {u, -u} := by
      intro t ht
      rcases h t ht u hu with e | e
      · left; exact e
      · right; exact e
    refine (Set.ncard_le_ncard hs (Set.toFinite _)).trans ((Set.ncard_insert_le _ _).trans ?_)
    rw [Set.ncard_singleton]

theorem fibre_ne {A : E} (hA : A ≠ 0) : {t | RfcMap Field.iZ qZ t A}.ncard ≤ 4 := by
  have hs : {t | RfcMap Field.iZ qZ t A} ⊆ {t | EllCase true t A} ∪ {t | EllCase false t A} :=
    fun t ht => RfcMap.case ht hA
  have h1 : {t | EllCase true t A}.ncard ≤ 2 := ncard_pm fun t ht u hu => EllCase.pm ht hu
  have h2 : {t | EllCase false t A}.ncard ≤ 2 := ncard_pm fun t ht u hu => EllCase.pm ht hu
  have h3 := Set.ncard_union_le {t | EllCase true t A} {t | EllCase false t A}
  have h4 := Set.ncard_le_ncard hs (Set.toFinite _)
  omega

theorem pm_of_sq {S : Set Fp} (k : Fp) (hk : ∀ t ∈ S, t * t = k) : S.ncard ≤ 2 :=
  ncard_pm fun t ht u hu => sq_eq_cases (by rw [hk t ht, hk u hu])

theorem fibre_zero : {t | RfcMap Field.iZ qZ t 0}.ncard ≤ 5 := by
  have hs : {t | RfcMap Field.iZ qZ t 0} ⊆
      {0} ∪ ({t | t * t = -dZ / Field.iZ} ∪ {t | t * t = -1 / (Field.iZ * dZ)}) := by
    rintro t ⟨r, u, v, s, c, N, hr, hu, hv, hc, hN, h1, h2, hx, hy⟩
    rw [eq_div_iff h2, EdCurve.Pt.zero_y] at hy
    have hs : s = 0 := by
      have : 2 * (s * s) = 0 := by linear_combination hy
      have := (mul_eq_zero.1 this).resolve_left Field.two_ne_zero'
      exact mul_self_eq_zero.1 this
    have hu0 : u ≠ 0 := by
      rw [hu, hr, show (1 : Fp) - dZ ^ 2 = (1 - dZ) * (1 + dZ) by ring, pow_two]
      exact mul_ne_zero (r_add_one_ne t) (mul_ne_zero one_sub_d_ne one_add_d_ne)
    have h0 : r = 0 ∨ v = 0 := by
      rcases hc with ⟨a1, a2, a3, a4, a5⟩ | ⟨a1, a3, a4, a5⟩
      · rw [hs, zero_pow two_ne_zero] at a3
        exact absurd a3.symm (div_ne_zero hu0 a1)
      · rw [hs, zero_pow two_ne_zero] at a3
        rcases mul_eq_zero.1 a3.symm with h | h
        · exact Or.inl h
        · right
          by_contra hv0
          exact div_ne_zero hu0 hv0 h
    rcases h0 with h0 | h0
    · left
      rw [h0] at hr
      have := (mul_eq_zero.1 hr.symm).resolve_left Field.iZ_ne
      exact (pow_eq_zero_iff two_ne_zero).1 this
    · right
      rw [h0] at hv
      rcases mul_eq_zero.1 hv.symm with h | h
      · right
        show t * t = -1 / (Field.iZ * dZ)
        rw [eq_div_iff (mul_ne_zero Field.iZ_ne dZ_ne)]
        rw [hr] at h
        linear_combination -h
      · left
        show t * t = -dZ / Field.iZ
        rw [eq_div_iff Field.iZ_ne]
        rw [hr] at h
        linear_combination h
  have h1 : {t : Fp | t * t = -dZ / Field.iZ}.ncard ≤ 2 := pm_of_sq _ fun t ht => ht
  have h2 : {t : Fp | t * t = -1 / (Field.iZ * dZ)}.ncard ≤ 2 := pm_of_sq _ fun t ht => ht
  have h3 := Set.ncard_union_le {t : Fp | t * t = -dZ / Field.iZ} {t : Fp | t * t = -1 / (Field.iZ * dZ)}
  have h4 := Set.ncard_union_le {(0 : Fp)} ({t : Fp | t * t = -dZ / Field.iZ} ∪ {t : Fp | t * t = -1 / (Field.iZ * dZ)})
  have h5 := Set.ncard_le_ncard hs (Set.toFinite _)
  have h6 := Set.ncard_singleton (0 : Fp)
  omega

theorem fibre_minus {A : E} (hA : A.y = -1) : {t | RfcMap Field.iZ qZ t A}.ncard = 0 := by
  have : {t | RfcMap Field.iZ qZ t A} = ∅ := by
    rw [Set.eq_empty_iff_forall_notMem]
    rintro t ⟨r, u, v, s, c, N, hr, hu, hv, hc, hN, h1, h2, hx, hy⟩
    rw [eq_div_iff h2, hA] at hy
    exact Field.two_ne_zero' (by linear_combination -hy)
  rw [this, Set.ncard_empty]

/-- At most 16 arguments are mapped to one class. -/
theorem fibre_class (A : E) : {t | ∃ B, SameClass A B ∧ RfcMap Field.iZ qZ t B}.ncard ≤ 16 := by
  have key : ∀ A : E, {t | ∃ B, SameClass A B ∧ RfcMap Field.iZ qZ t B}.ncard ≤
      {t | RfcMap Field.iZ qZ t A}.ncard + {t | RfcMap Field.iZ qZ t (flipPt A)}.ncard +
      ({t | RfcMap Field.iZ qZ t (rotPt A)}.ncard + {t | RfcMap Field.iZ qZ t (flipPt (rotPt A))}.ncard) := by
    intro A
    have hs : {t | ∃ B, SameClass A B ∧ RfcMap Field.iZ qZ t B} ⊆
        ({t | RfcMap Field.iZ qZ t A} ∪ {t | RfcMap Field.iZ qZ t (flipPt A)}) ∪
        ({t | RfcMap Field.iZ qZ t (rotPt A)} ∪ {t | RfcMap Field.iZ qZ t (flipPt (rotPt A))}) := by
      rintro t ⟨B, hB, ht⟩
      rcases class_cases hB with e | e | e | e <;> rw [e] at ht
      · exact Or.inl (Or.inl ht)
      · exact Or.inl (Or.inr ht)
      · exact Or.inr (Or.inl ht)
      · exact Or.inr (Or.inr ht)
    refine (Set.ncard_le_ncard hs (Set.toFinite _)).trans ((Set.ncard_union_le _ _).trans ?_)
    exact Nat.add_le_add (Set.ncard_union_le _ _) (Set.ncard_union_le _ _)
  by_cases h0 : SameClass A 0
  · have he : {t | ∃ B, SameClass A B ∧ RfcMap Field.iZ qZ t B} =
        {t | ∃ B, SameClass 0 B ∧ RfcMap Field.iZ qZ t B} := by
      ext t
      constructor
      · rintro ⟨B, h1, h2⟩; exact ⟨B, h0.symm.trans h1, h2⟩
      · rintro ⟨B, h1, h2⟩; exact ⟨B, h0.trans h1, h2⟩
    rw [he]
    have h1 := key 0
    have h2 := fibre_zero
    have h3 := fibre_minus (A := flipPt 0) (by rw [flipPt_y, EdCurve.Pt.zero_y])
    have hy : (rotPt 0).y = 0 := by rw [rotPt_y, EdCurve.Pt.zero_x, mul_zero]
    have h4 := fibre_ne (A := rotPt 0) (by
      intro h
      rw [h, EdCurve.Pt.zero_y] at hy
      exact one_ne_zero hy)
    have h5 := fibre_ne (A := flipPt (rotPt 0)) (by
      intro h
      have h6 : (flipPt (rotPt 0)).y = 0 := by rw [flipPt_y, hy, neg_zero]
      rw [h, EdCurve.Pt.zero_y] at h6
      exact one_ne_zero h6)
    omega
  · have h1 := key A
    have h2 := fibre_ne (A := A) (fun h => h0 (by rw [h]; exact SameClass.refl 0))
    have h3 := fibre_ne (A := flipPt A) (fun h => h0 (by rw [← h]; exact flip_same A))
    have h4 := fibre_ne (A := rotPt A) (fun h => h0 (by rw [← h]; exact rot_same A))
    have h5 := fibre_ne (A := flipPt (rotPt A)) (fun h => h0 (by
      rw [← h]; exact (rot_same A).trans (flip_same _)))
    omega

end Zerocaf
