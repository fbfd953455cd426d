import Verif.Props.Total
import Verif.Props.Docs
import Verif.Props.Compress

/-!
# C109: the contracts of `PartialEq`, `Eq` and `PartialOrd`

Rust asks of every implementation of these traits that equality is symmetric and transitive (and reflexive for `Eq`),
that comparison is dual and transitive, and that two values are equal exactly if they compare as `Equal`. Generic code
(sorting, searching, deduplication) relies on this for all values, not only for those the library produces.
-/

set_option exponentiation.threshold 600

namespace Zerocaf
namespace Props

/-! ### Order -/

theorem cmp_lt_iff (a b : FE) : Field.cmp a b = .lt ↔
    a.l4 < b.l4 ∨ a.l4 = b.l4 ∧ (a.l3 < b.l3 ∨ a.l3 = b.l3 ∧ (a.l2 < b.l2 ∨ a.l2 = b.l2 ∧
      (a.l1 < b.l1 ∨ a.l1 = b.l1 ∧ a.l0 < b.l0))) := by
  unfold Field.cmp
  split_ifs <;> simp <;> omega

theorem cmp_gt_iff (a b : FE) : Field.cmp a b = .gt ↔ Field.cmp b a = .lt := by
  rw [cmp_lt_iff]
  unfold Field.cmp
  split_ifs <;> simp <;> omega

theorem cmp_eq_iff (a b : FE) : Field.cmp a b = .eq ↔ a = b := by
  rw [L5.ext_iff]
  unfold Field.cmp
  split_ifs <;> simp <;> omega

/-- C109: the comparison of field elements is a total order on all limbs, reduced or not: dual, transitive, and
`Equal` only for identical limbs. -/
theorem C109_field_order (a b c : FE) :
    Field.cmp b a = (Field.cmp a b).swap ∧
    (Field.cmp a b = .lt → Field.cmp b c = .lt → Field.cmp a c = .lt) ∧
    (Field.cmp a b = .eq ↔ a = b) := by
  refine ⟨?_, fun h1 h2 => ?_, cmp_eq_iff a b⟩
  · rcases h : Field.cmp a b with _ | _ | _
    · exact (cmp_gt_iff b a).2 h
    · rw [cmp_eq_iff] at h
      exact (cmp_eq_iff b a).2 h.symm
    · exact (cmp_gt_iff a b).1 h
  · rw [cmp_lt_iff] at *
    omega

/-- C109: the same for scalars. -/
theorem C109_scalar_order (a b c : Sc) :
    Scalar.cmp b a = (Scalar.cmp a b).swap ∧
    (Scalar.cmp a b = .lt → Scalar.cmp b c = .lt → Scalar.cmp a c = .lt) ∧
    (Scalar.cmp a b = .eq ↔ a = b) := C109_field_order a b c

/-! ### Equality of elements -/

/-- C109: equality of field elements and of scalars is an equivalence relation on all limbs. -/
theorem C109_element_equality :
    Equivalence (fun a b : FE => Field.ctEq a b = true) ∧ Equivalence (fun a b : Sc => Scalar.ctEq a b = true) := by
  constructor
  · refine ⟨fun a => ?_, fun {a b} h => ?_, fun {a b c} h h' => ?_⟩
    · exact beq_self_eq_true _
    · exact beq_iff_eq.2 (beq_iff_eq.1 h).symm
    · exact beq_iff_eq.2 ((beq_iff_eq.1 h).trans (beq_iff_eq.1 h'))
  · refine ⟨fun a => ?_, fun {a b} h => ?_, fun {a b c} h h' => ?_⟩
    · exact beq_self_eq_true _
    · exact beq_iff_eq.2 (beq_iff_eq.1 h).symm
    · exact beq_iff_eq.2 ((beq_iff_eq.1 h).trans (beq_iff_eq.1 h'))

/-- C109: equality and order agree on elements that are numbers below `2^256` in 52 bit limbs, which are all that the
byte decoders return. -/
theorem C109_equality_order (a b : FE) (ha : a.WF) (hb : b.WF) (ha' : a.val < 2 ^ 256) (hb' : b.val < 2 ^ 256) :
    Field.ctEq a b = true ↔ Field.cmp a b = .eq := by
  rw [cmp_eq_iff]
  constructor
  · intro h
    have := congrArg Field.fromBytes (beq_iff_eq.1 h)
    rwa [Field.fromBytes_toBytes a ha ha', Field.fromBytes_toBytes b hb hb'] at this
  · rintro rfl
    exact beq_self_eq_true _

/-- C109: elsewhere they do not: the limbs `[2^56, 0, 0, 0, 0]` are equal to zero and greater than zero. -/
theorem C109_equality_order_fails :
    Field.ctEq ⟨2 ^ 56, 0, 0, 0, 0⟩ Field.zero = true ∧ Field.cmp ⟨2 ^ 56, 0, 0, 0, 0⟩ Field.zero = .gt ∧
    Scalar.ctEq ⟨2 ^ 56, 0, 0, 0, 0⟩ Scalar.zero = true ∧ Scalar.cmp ⟨2 ^ 56, 0, 0, 0, 0⟩ Scalar.zero = .gt := by
  decide +kernel

/-! ### Equality of points -/

/-- C109: equality of affine points is an equivalence relation on all coordinates. -/
theorem C109_affine_equality : Equivalence (fun P Q : AffPoint => Aff.ctEq P Q = true) := by
  obtain ⟨⟨r, s, t⟩, _⟩ := C109_element_equality
  refine ⟨fun P => ?_, fun {P Q} h => ?_, fun {P Q R} h h' => ?_⟩
  · rw [Aff.ctEq, Bool.and_eq_true]
    exact ⟨r _, r _⟩
  · rw [Aff.ctEq, Bool.and_eq_true] at *
    exact ⟨s h.1, s h.2⟩
  · rw [Aff.ctEq, Bool.and_eq_true] at *
    exact ⟨t h.1 h'.1, t h.2 h'.2⟩

/-- C109: equality of extended points is an equivalence relation on the reduced coordinates with nonzero `Z`, on the
curve or not. A tuple with `Z = 0` cannot even be compared with itself: this panics. -/
theorem C109_extended_equality (c : Cfg) (hc : c.Enough) :
    (∀ P : EdPoint, P.Red → P.Z.val = 0 → Ed.ctEq c P P = .panic) ∧
    (∀ P Q R : EdPoint, P.Red → Q.Red → R.Red → P.Z.val ≠ 0 → Q.Z.val ≠ 0 → R.Z.val ≠ 0 →
      Ed.ctEq c P P = .ok true ∧ Ed.ctEq c P Q = Ed.ctEq c Q P ∧
      (Ed.ctEq c P Q = .ok true → Ed.ctEq c Q R = .ok true → Ed.ctEq c P R = .ok true)) := by
  refine ⟨fun P h hz => (C89_equality P P h h).1 (.inl hz) c hc, fun P Q R hP hQ hR zP zQ zR => ?_⟩
  have g : ∀ {P Q : EdPoint}, P.Red → Q.Red → P.Z.val ≠ 0 → Q.Z.val ≠ 0 →
      Ed.ctEq c P Q = .ok (decide ((P.X.val : Fp) / P.Z.val = Q.X.val / Q.Z.val ∧
        (P.Y.val : Fp) / P.Z.val = Q.Y.val / Q.Z.val)) := fun h h' z z' => by
    obtain ⟨b, e, hb⟩ := (C89_equality _ _ h h').2 z z'
    rw [e c hc, Res.ok_inj, Bool.eq_iff_iff, hb, decide_eq_true_eq]
  rw [g hP hP zP zP, g hP hQ zP zQ, g hQ hP zQ zP, g hQ hR zQ zR, g hP hR zP zR]
  simp only [Res.ok_inj, decide_eq_true_eq, decide_eq_decide, and_self, true_and]
  exact ⟨⟨fun h => ⟨h.1.symm, h.2.symm⟩, fun h => ⟨h.1.symm, h.2.symm⟩⟩,
    fun h h' => ⟨h.1.trans h'.1, h.2.trans h'.2⟩⟩

/-- C109: the same for projective points. -/
theorem C109_projective_equality (c : Cfg) (hc : c.Enough) :
    (∀ P : ProjPoint, P.Red → P.Z.val = 0 → Proj.ctEq c P P = .panic) ∧
    (∀ P Q R : ProjPoint, P.Red → Q.Red → R.Red → P.Z.val ≠ 0 → Q.Z.val ≠ 0 → R.Z.val ≠ 0 →
      Proj.ctEq c P P = .ok true ∧ Proj.ctEq c P Q = Proj.ctEq c Q P ∧
      (Proj.ctEq c P Q = .ok true → Proj.ctEq c Q R = .ok true → Proj.ctEq c P R = .ok true)) := by
  have z := Field.zero_canon
  have l : ∀ P : ProjPoint, P.Red → (⟨P.X, P.Y, P.Z, Field.zero⟩ : EdPoint).Red := fun P h => ⟨h.1, h.2.1, h.2.2, z⟩
  obtain ⟨h1, h2⟩ := C109_extended_equality c hc
  exact ⟨fun P h hz => h1 ⟨P.X, P.Y, P.Z, Field.zero⟩ (l P h) hz, fun P Q R hP hQ hR zP zQ zR =>
    h2 ⟨P.X, P.Y, P.Z, Field.zero⟩ ⟨Q.X, Q.Y, Q.Z, Field.zero⟩ ⟨R.X, R.Y, R.Z, Field.zero⟩ (l P hP) (l Q hQ) (l R hR)
      zP zQ zR⟩

theorem Ristretto_ctEq_wf (c : Cfg) (P Q : EdPoint) (h1 : P.X.WF) (h2 : P.Y.WF) (h3 : Q.X.WF) (h4 : Q.Y.WF) :
    Ristretto.ctEq c P Q =
      .ok (decide (P.X.toZ * Q.Y.toZ = P.Y.toZ * Q.X.toZ) || decide (P.X.toZ * Q.X.toZ = P.Y.toZ * Q.Y.toZ)) := by
  unfold Ristretto.ctEq
  rw [Field.mul_wf c _ _ h1 h4, Res.ok_bind, Field.mul_wf c _ _ h2 h3, Res.ok_bind, Field.mul_wf c _ _ h1 h3, Res.ok_bind,
    Field.mul_wf c _ _ h2 h4, Res.ok_bind, Field.ctEq_enc, Field.ctEq_enc, Res.pure_eq]

/-- C109: equality of the prime order group looks at `X` and `Y` only. For coordinates in 52 bit limbs it is reflexive
and symmetric; it is transitive through every tuple whose `X` and `Y` are not both zero modulo `p`, on the curve or
not; and a tuple in which both are zero is equal to every tuple. -/
theorem C109_ristretto_equality (c : Cfg) (P Q R : EdPoint) (hP : P.X.WF ∧ P.Y.WF) (hQ : Q.X.WF ∧ Q.Y.WF)
    (hR : R.X.WF ∧ R.Y.WF) :
    Ristretto.ctEq c P P = .ok true ∧ Ristretto.ctEq c P Q = Ristretto.ctEq c Q P ∧
    (¬ (Q.X.val % p = 0 ∧ Q.Y.val % p = 0) →
      Ristretto.ctEq c P Q = .ok true → Ristretto.ctEq c Q R = .ok true → Ristretto.ctEq c P R = .ok true) ∧
    (Q.X.val % p = 0 ∧ Q.Y.val % p = 0 → Ristretto.ctEq c P Q = .ok true) := by
  have z : ∀ a : FE, a.val % p = 0 ↔ a.toZ = 0 := fun a => by
    rw [L5.toZ, ZMod.natCast_eq_zero_iff, Nat.dvd_iff_mod_eq_zero]
  rw [Ristretto_ctEq_wf c P P hP.1 hP.2 hP.1 hP.2, Ristretto_ctEq_wf c P Q hP.1 hP.2 hQ.1 hQ.2,
    Ristretto_ctEq_wf c Q P hQ.1 hQ.2 hP.1 hP.2, Ristretto_ctEq_wf c Q R hQ.1 hQ.2 hR.1 hR.2,
    Ristretto_ctEq_wf c P R hP.1 hP.2 hR.1 hR.2, z, z]
  simp only [Res.ok_inj, Bool.or_eq_true, decide_eq_true_eq]
  generalize P.X.toZ = a, P.Y.toZ = b, Q.X.toZ = u, Q.Y.toZ = v, R.X.toZ = r, R.Y.toZ = s
  refine ⟨.inl (mul_comm _ _), ?_, fun h0 h1 h2 => ?_, fun h => ?_⟩
  · rw [Bool.eq_iff_iff, Bool.or_eq_true, Bool.or_eq_true, decide_eq_true_eq, decide_eq_true_eq, decide_eq_true_eq,
      decide_eq_true_eq]
    constructor
    · rintro (h | h)
      · exact .inl (by linear_combination -h)
      · exact .inr (by linear_combination h)
    · rintro (h | h)
      · exact .inl (by linear_combination -h)
      · exact .inr (by linear_combination h)
  · have k : ∀ {t : Fp}, u * t = 0 → v * t = 0 → t = 0 := fun {t} e1 e2 => by
      by_contra ht
      exact h0 ⟨(mul_eq_zero.1 e1).resolve_right ht, (mul_eq_zero.1 e2).resolve_right ht⟩
    rcases h1 with h1 | h1 <;> rcases h2 with h2 | h2
    · exact .inl (sub_eq_zero.1 (k (by linear_combination a * h2 + r * h1) (by linear_combination b * h2 + s * h1)))
    · exact .inr (sub_eq_zero.1 (k (by linear_combination a * h2 + s * h1) (by linear_combination b * h2 + r * h1)))
    · exact .inr (sub_eq_zero.1 (k (by linear_combination r * h1 - b * h2) (by linear_combination s * h1 - a * h2)))
    · exact .inl (sub_eq_zero.1 (k (by linear_combination s * h1 - b * h2) (by linear_combination r * h1 - a * h2)))
  · rw [h.1, h.2]
    exact .inl (by ring)

/-- C109: so equality of the prime order group is not transitive on all values: the base point equals the tuple of
zeros, that equals the identity, and the base point is not the identity. -/
theorem C109_ristretto_not_transitive (c : Cfg) :
    let N : EdPoint := ⟨Field.zero, Field.zero, Field.zero, Field.zero⟩
    Ristretto.ctEq c Ed.BASEPOINT N = .ok true ∧ Ristretto.ctEq c N Ristretto.identity = .ok true ∧
      Ristretto.ctEq c Ed.BASEPOINT Ristretto.identity = .ok false := by
  intro N
  have wN : N.X.WF ∧ N.Y.WF := ⟨by decide, by decide⟩
  have wB : Ed.BASEPOINT.X.WF ∧ Ed.BASEPOINT.Y.WF := ⟨by decide, by decide⟩
  have wI : Ristretto.identity.X.WF ∧ Ristretto.identity.Y.WF := ⟨by decide, by decide⟩
  have h := C109_ristretto_equality c Ed.BASEPOINT N N wB wN wN
  have h' := C109_ristretto_equality c Ristretto.identity N N wI wN wN
  refine ⟨h.2.2.2 ⟨by decide, by decide⟩, h'.2.1 ▸ h'.2.2.2 ⟨by decide, by decide⟩, ?_⟩
  rw [Ristretto_ctEq_wf c _ _ wB.1 wB.2 wI.1 wI.2]
  decide +kernel

/-- C109: equality of compressed points is equality of bytes. -/
theorem C109_compressed_equality (a b : Bytes32) :
    (Misc.compressedCtEq a b = true ↔ a = b) ∧ (Montgomery.ctEq a b = true ↔ a = b) :=
  ⟨C85_eq a b, C71_montgomery_eq a b⟩

/-- Limbs from bytes that are not reduced, a tuple off the curve with nonzero `Z`, one with `Z = 0`, and coordinates
that satisfy the hypotheses of the last statements. -/
example : (Field.FIELD_L.WF ∧ Field.FIELD_L.val < 2 ^ 256 ∧ ¬ Field.FIELD_L.Canon) ∧
    ((⟨Field.one, Field.one, Field.one, Field.zero⟩ : EdPoint).Red ∧ Field.one.val ≠ 0) ∧
    (⟨Field.one, Field.zero, Field.zero, Field.zero⟩ : EdPoint).Red ∧
    (Ed.BASEPOINT.X.WF ∧ Ed.BASEPOINT.Y.WF ∧ ¬ (Ed.BASEPOINT.X.val % p = 0 ∧ Ed.BASEPOINT.Y.val % p = 0)) :=
  ⟨⟨by decide, by decide, by decide⟩, ⟨⟨by decide, by decide, by decide, by decide⟩, by decide⟩,
    ⟨by decide, by decide, by decide, by decide⟩, by decide, by decide, by decide⟩

end Props
end Zerocaf
