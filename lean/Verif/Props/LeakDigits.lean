import Verif.Proof.LeakDigits
import Verif.Props.Leak

/-!
# C107: what the control flow of digit expansions and powers reveals

`Model/LeakDigits.lean` runs the functions that work with signed digits, and the power of scalars, with a record of
their control flow and of the table indices. The record of the signed binary expansion determines the scalar, and so
does that of multiplication with it. The record of the windowed expansion shows the signs and positions of the digits,
not the digits; multiplication with them reads a table at the digits and so shows the scalar. The record of a power
shows the exponent.
-/

set_option exponentiation.threshold 600

namespace Zerocaf
namespace Props

open Leak

/-- C107: forgetting the record gives the functions of the model. -/
theorem C107_record_is_faithful (c : Cfg) (a e s : Sc) (w : ℕ) (P : EdPoint) (Q : ProjPoint) :
    (Leak.Scalar.computeNAF c s).val = Scalar.computeNAF c s ∧
    (Leak.Scalar.computeWindowNAF c s w).val = Scalar.computeWindowNAF c s w ∧
    (Leak.Scalar.pow c a e).val = Scalar.pow c a e ∧
    (Leak.binaryNafMul Leak.Ed.ops c P s).val = binaryNafMul Ed.ops c P s ∧
    (Leak.binaryNafMul Leak.Proj.ops c Q s).val = binaryNafMul Proj.ops c Q s ∧
    (Leak.Ristretto.windowNafMul c s w).val = Ristretto.windowNafMul c s w :=
  ⟨Leak.Scalar.computeNAF_val c s, Leak.Scalar.computeWindowNAF_val c s w, Leak.Scalar.pow_val c a e,
    by rw [binaryNafMul_val, Leak.Ed.ops_erase], by rw [binaryNafMul_val, Leak.Proj.ops_erase],
    Leak.Ristretto.windowNafMul_val c s w⟩

/-- C107: the record of the signed binary expansion determines the scalar. -/
theorem C107_naf (c : Cfg) (hc : c.Enough) (s s' : Sc) (hs : s.SCanon) (hs' : s'.SCanon) :
    SameFlow (Leak.Scalar.computeNAF c s) (Leak.Scalar.computeNAF c s') ↔ s = s' := by
  constructor
  · intro h
    refine (Leak.Scalar.computeNAF_inj c hc s s' hs hs' [] [] ?_).1
    rw [List.append_nil, List.append_nil]
    exact h
  · intro h
    rw [h]
    rfl

/-- C107: multiplication with signed digits leaves the same record exactly for equal scalars, whatever the points. -/
theorem C107_signed_multiplication (c : Cfg) (hc : c.Enough) (s s' : Sc) (hs : s.SCanon) (hs' : s'.SCanon) :
    (∀ P P' : EdPoint, P.Red → P'.Red →
      (SameFlow (Leak.binaryNafMul Leak.Ed.ops c P s) (Leak.binaryNafMul Leak.Ed.ops c P' s') ↔ s = s')) ∧
    (∀ P P' : ProjPoint, P.Red → P'.Red →
      (SameFlow (Leak.binaryNafMul Leak.Proj.ops c P s) (Leak.binaryNafMul Leak.Proj.ops c P' s') ↔ s = s')) := by
  have naf : ∀ s : Sc, s.SCanon → ∃ v, Scalar.computeNAF c s = .ok v := fun s hs =>
    (Scalar.computeNAF_spec c hc s hs).imp fun _ h => h.1
  refine ⟨fun P P' hP hP' => ?_, fun P P' hP hP' => ?_⟩
  · have ok : ∀ (P : EdPoint) (s : Sc), P.Red → s.SCanon → ∃ x, (Leak.binaryNafMul Leak.Ed.ops c P s).val = .ok x := by
      intro P s hP hs
      obtain ⟨v, ev⟩ := naf s hs
      obtain ⟨R, _, e⟩ := Ed.totSpec.nafLoop hP v 250 (by omega) Ed.identity Ed.totSpec.identity
      rw [binaryNafMul_val, Leak.Ed.ops_erase, binaryNafMul, ev, Res.ok_bind]
      exact ⟨R, e c⟩
    obtain ⟨x, hx⟩ := ok P s hP hs
    obtain ⟨x', hx'⟩ := ok P' s' hP' hs'
    obtain ⟨ta, ha⟩ := Leak.Ed.add_ct c
    obtain ⟨tb, hb⟩ := Leak.Ed.sub_ct c
    obtain ⟨td, hd⟩ := Leak.Ed.double_ct c
    exact binaryNafMul_iff Leak.Ed.ops c hc ta tb td (fun a b => (ha a b).1) (fun a b => (hb a b).1) (fun a => (hd a).1)
      P P' x x' s s' hs hs' hx hx'
  · have ok : ∀ (P : ProjPoint) (s : Sc), P.Red → s.SCanon →
        ∃ x, (Leak.binaryNafMul Leak.Proj.ops c P s).val = .ok x := by
      intro P s hP hs
      obtain ⟨v, ev⟩ := naf s hs
      obtain ⟨R, _, e⟩ := Proj.totSpec.nafLoop hP v 250 (by omega) Proj.identity Proj.totSpec.identity
      rw [binaryNafMul_val, Leak.Proj.ops_erase, binaryNafMul, ev, Res.ok_bind]
      exact ⟨R, e c⟩
    obtain ⟨x, hx⟩ := ok P s hP hs
    obtain ⟨x', hx'⟩ := ok P' s' hP' hs'
    obtain ⟨ta, ha⟩ := Leak.Proj.add_ct c
    obtain ⟨tb, hb⟩ := Leak.Proj.sub_ct c
    obtain ⟨td, hd⟩ := Leak.Proj.double_ct c
    exact binaryNafMul_iff Leak.Proj.ops c hc ta tb td (fun a b => (ha a b).1) (fun a b => (hb a b).1) (fun a => (hd a).1)
      P P' x x' s s' hs hs' hx hx'

/-- C107: for widths 2 to 5 the digits are the signed residues of what is left at each position. -/
theorem C107_window_digits (c : Cfg) (hc : c.Enough) (w : ℕ) (h1 : 2 ≤ w) (h2 : w ≤ 5) (s : Sc) (hs : s.SCanon) :
    ∃ v, Scalar.computeWindowNAF c s w = .ok v ∧ ∀ (j : ℕ) (hj : j < 256), v[j] = digitOf w (rest w s.val j) := by
  obtain ⟨tn, hn⟩ := Leak.Scalar.neg_ct c
  obtain ⟨ts, hsb⟩ := Leak.Scalar.sub_ct c
  obtain ⟨v, ev, hv⟩ := Scalar.computeWindowNAF_spec c hc w h1 h2 s hs
  refine ⟨v, ev, fun j hj => ?_⟩
  rw [← Leak.Scalar.computeWindowNAF_val] at ev
  have o := (Leak.Scalar.digitLoop_out w h1 h2 _ _ (Leak.Scalar.mods2PowK_fn c w h1 h2) c tn ts hn hsb _ _ 0 _ v hs
    (fun j _ => Scalar.dig_replicate j) ev).2 j (by omega)
  rw [Nat.zero_add, Scalar.dig, dif_pos hj] at o
  exact o

/-- C107: for widths 2 to 5 the record of the windowed expansion shows exactly the sign of every digit and, at every
position, whether zero, one or which leading limb is left. -/
theorem C107_window (c : Cfg) (hc : c.Enough) (w : ℕ) (h1 : 2 ≤ w) (h2 : w ≤ 5) (s s' : Sc) (hs : s.SCanon)
    (hs' : s'.SCanon) :
    SameFlow (Leak.Scalar.computeWindowNAF c s w) (Leak.Scalar.computeWindowNAF c s' w) ↔
      ∀ j, (digitOf w (rest w s.val j)).sign = (digitOf w (rest w s'.val j)).sign ∧
        sizeClass (rest w s.val j) = sizeClass (rest w s'.val j) := by
  obtain ⟨tn, hn⟩ := Leak.Scalar.neg_ct c
  obtain ⟨ts, hsb⟩ := Leak.Scalar.sub_ct c
  obtain ⟨v, ev, _⟩ := Scalar.computeWindowNAF_spec c hc w h1 h2 s hs
  obtain ⟨v', ev', _⟩ := Scalar.computeWindowNAF_spec c hc w h1 h2 s' hs'
  rw [← Leak.Scalar.computeWindowNAF_val] at ev ev'
  constructor
  · intro h
    refine (Leak.Scalar.digitLoop_inj w h1 h2 _ _ (Leak.Scalar.mods2PowK_fn c w h1 h2) (Leak.Scalar.mods2PowK_sep c) c tn
      ts hn hsb _ _ _ _ _ _ _ _ v v' [] [] hs hs' ev ev' ?_).1
    rw [List.append_nil, List.append_nil]
    exact h
  · intro h
    exact Leak.Scalar.digitLoop_same w h1 h2 _ _ (Leak.Scalar.mods2PowK_fn c w h1 h2) c tn ts hn hsb _ _ _ _ _ _ _ _ v v'
      hs hs' ev ev' h

/-- C107: the digits are not shown: with width 4, `2^240 + 1` and `2^240 + 7` leave the same record, in both builds. -/
theorem C107_window_hides (c : Cfg) (hc : c.Enough) :
    SameFlow (Leak.Scalar.computeWindowNAF c ⟨1, 0, 0, 0, 2 ^ 32⟩ 4)
      (Leak.Scalar.computeWindowNAF c ⟨7, 0, 0, 0, 2 ^ 32⟩ 4) := by
  rw [C107_window c hc 4 (by decide) (by decide) _ _ (by decide) (by decide)]
  have a : ((⟨1, 0, 0, 0, 2 ^ 32⟩ : Sc).val : ℤ) = 2 ^ 240 + 1 := by norm_num [L5.val]
  have b : ((⟨7, 0, 0, 0, 2 ^ 32⟩ : Sc).val : ℤ) = 2 ^ 240 + 7 := by norm_num [L5.val]
  rw [a, b]
  have d1 : digitOf 4 (2 ^ 240 + 1) = 1 := by decide
  have d7 : digitOf 4 (2 ^ 240 + 7) = 7 := by decide
  intro j
  cases j with
  | zero => rw [rest, rest, d1, d7]; exact ⟨rfl, by decide⟩
  | succ j => rw [rest, rest, d1, d7]; exact ⟨rfl, rfl⟩

/-- C107: windowed multiplication reads its table at the digits: for widths 2 to 5 the record with the indices
determines the scalar. -/
theorem C107_window_multiplication (c : Cfg) (hc : c.Enough) (w : ℕ) (h1 : 2 ≤ w) (h2 : w ≤ 5) (s s' : Sc)
    (hs : s.SCanon) (hs' : s'.SCanon) :
    SameFlow (Leak.Ristretto.windowNafMul c s w) (Leak.Ristretto.windowNafMul c s' w) ↔ s = s' := by
  constructor
  swap
  · intro h
    rw [h]
    rfl
  obtain ⟨tn, hn⟩ := Leak.Scalar.neg_ct c
  obtain ⟨ts, hsb⟩ := Leak.Scalar.sub_ct c
  obtain ⟨v, ev, xv⟩ := Scalar.computeWindowNAF_spec c hc w h1 h2 s hs
  obtain ⟨v', ev', xv'⟩ := Scalar.computeWindowNAF_spec c hc w h1 h2 s' hs'
  have bd : ∀ (n : ℕ) (v : Vector ℤ 256), Scalar.Expands w 251 0 n (Vector.replicate 256 0) v →
      ∀ (j : ℕ) (hj : j < 256), |v[j]| ≤ 125 := by
    intro n v xv j hj
    have := xv.digits j (by omega)
    rw [Scalar.dig, dif_pos hj] at this
    have hp : (2 ^ (w - 1) : ℤ) ≤ 2 ^ 6 := pow_le_pow_right₀ (by norm_num) (by omega)
    rw [abs_le]
    omega
  obtain ⟨x, hx, _⟩ := Zerocaf.Ristretto.windowNafMul_rep c s w v ev (bd _ v xv)
  obtain ⟨x', hx', _⟩ := Zerocaf.Ristretto.windowNafMul_rep c s' w v' ev' (bd _ v' xv')
  rw [← Leak.Ristretto.windowNafMul_val] at hx hx'
  rw [← Leak.Scalar.computeWindowNAF_val] at ev ev'
  intro h
  unfold SameFlow at h
  unfold Leak.Ristretto.windowNafMul at h hx hx'
  rw [LM.tr_bind _ _ _ ev, LM.tr_bind _ _ _ ev'] at h
  rw [LM.val_bind, ev, Res.ok_bind] at hx
  rw [LM.val_bind, ev', Res.ok_bind] at hx'
  have hz := (Leak.Scalar.digitLoop_inj w h1 h2 _ _ (Leak.Scalar.mods2PowK_fn c w h1 h2) (Leak.Scalar.mods2PowK_sep c) c tn
      ts hn hsb _ _ _ _ _ _ _ _ v v' _ _ hs hs' ev ev' h).2
  obtain ⟨ta, ha⟩ := Leak.Ed.add_ct c
  obtain ⟨tb, hb⟩ := Leak.Ristretto.sub_ct c
  obtain ⟨td, hd⟩ := Leak.Ed.double_ct c
  have hd := Leak.Ristretto.wnafMulLoop_inj c td hd ta ha tb hb v v' (bd _ v xv) (bd _ v' xv') 250 (by omega) _ _ x x' [] []
    hx hx' (by rw [List.append_nil, List.append_nil]; exact hz)
  have s1 := xv.sum
  have s2 := xv'.sum
  rw [Finset.sum_range_succ] at s1 s2
  have e : ∀ j ∈ Finset.range 250, Scalar.dig v (0 + j) * 2 ^ j = Scalar.dig v' (0 + j) * 2 ^ j := by
    intro j hj
    rw [Finset.mem_range] at hj
    rw [Nat.zero_add, Scalar.dig, Scalar.dig, dif_pos (by omega), dif_pos (by omega), hd j hj]
  rw [Finset.sum_congr rfl e] at s1
  refine hs.1.ext hs'.1 ?_
  have l1 : s.val < 2 ^ 250 := lt_trans hs.2 ell_lt
  have l2 : s'.val < 2 ^ 250 := lt_trans hs'.2 ell_lt
  generalize ∑ j ∈ Finset.range 250, Scalar.dig v' (0 + j) * 2 ^ j = A at *
  omega

/-- C107: the record of a power of scalars shows the exponent and nothing about the base. -/
theorem C107_scalar_power (c : Cfg) (hc : c.Enough) (a a' e e' : Sc) (ha : a.WF) (ha' : a'.WF) (he : e.SCanon)
    (he' : e'.SCanon) : SameFlow (Leak.Scalar.pow c a e) (Leak.Scalar.pow c a' e') ↔ e = e' := by
  obtain ⟨tm, hm⟩ := Leak.Scalar.mul_ct c
  obtain ⟨tq, hq⟩ := Leak.Scalar.square_ct c
  obtain ⟨th, hh⟩ := Leak.Scalar.half_ct c
  obtain ⟨ts, hs⟩ := Leak.Scalar.sub_ct c
  obtain ⟨x, ex, _⟩ := Scalar.pow_spec c hc a e ha he
  obtain ⟨x', ex', _⟩ := Scalar.pow_spec c hc a' e' ha' he'
  rw [← Leak.Scalar.pow_val] at ex ex'
  have := Leak.Scalar.powLoop_iff c tm tq th ts hm hq hh hs _ _ _ _ e _ _ e' x x' he he' ex ex'
  exact this.trans ⟨fun h => he.1.ext he'.1 h, fun h => by rw [h]⟩

/-- Different scalars meet the hypotheses; their signed expansions differ in the record, their windowed expansions do
not. -/
example : (⟨1, 0, 0, 0, 2 ^ 32⟩ : Sc).SCanon ∧ (⟨7, 0, 0, 0, 2 ^ 32⟩ : Sc).SCanon ∧ Ed.BASEPOINT.Red ∧ dbg.Enough ∧
    ¬SameFlow (Leak.Scalar.computeNAF dbg ⟨1, 0, 0, 0, 2 ^ 32⟩) (Leak.Scalar.computeNAF dbg ⟨7, 0, 0, 0, 2 ^ 32⟩) ∧
    SameFlow (Leak.Scalar.computeWindowNAF dbg ⟨1, 0, 0, 0, 2 ^ 32⟩ 4)
      (Leak.Scalar.computeWindowNAF dbg ⟨7, 0, 0, 0, 2 ^ 32⟩ 4) := by
  refine ⟨by decide, by decide, ⟨by decide, by decide, by decide, by decide⟩, by decide, ?_,
    C107_window_hides dbg (by decide)⟩
  rw [C107_naf dbg (by decide) _ _ (by decide) (by decide)]
  decide

end Props
end Zerocaf
