import Verif.Props.Wrapped
import Verif.Props.Window

/-!
# C50: windowed multiplication for every width and build
-/

set_option exponentiation.threshold 600

namespace Zerocaf
namespace Ristretto

theorem tableAt_panic (i : Nat) (h : 126 ≤ i) : tableAt i = .panic := by
  unfold tableAt
  rw [List.getElem?_eq_none (by rw [(Props.C70_table).1]; exact h)]
  rfl

theorem wnafMulLoop_panic (c : Cfg) (v : Vector Int 256) (hv : ∀ j (hj : j < 256), (-128 : Int) ≤ v[j] ∧ v[j] ≤ 127) :
    ∀ (n : Nat) (hn : n ≤ 256) (Q : EdPoint), (∃ A, Q.Rep A) → (∃ j, ∃ hj : j < n, 126 ≤ |v[j]|) →
      wnafMulLoop c v n hn Q = .panic := by
  intro n
  induction n with
  | zero => intro hn Q hQ ⟨j, hj, _⟩; omega
  | succ i ih =>
    intro hn Q ⟨A, hQ⟩ hex
    obtain ⟨Q1, e1, h1⟩ := Ed.double_rep c hQ
    have e1' : double c Q = .ok Q1 := e1
    have hrest : |v[i]| ≤ 125 → ∃ j, ∃ hj : j < i, 126 ≤ |v[j]| := by
      intro h
      obtain ⟨j, hj, hb⟩ := hex
      refine ⟨j, ?_, hb⟩
      rcases Nat.lt_or_ge j i with h' | h'
      · exact h'
      · have : j = i := by omega
        subst this; omega
    rw [wnafMulLoop, e1', Res.ok_bind]
    have hr := hv i (by omega)
    generalize v[i] = x at *
    dsimp only
    rcases lt_trichotomy x 0 with h | h | h
    · rw [if_neg (by omega), if_neg (by omega)]
      by_cases hx : |x| ≤ 125
      · obtain ⟨b1, b2⟩ := abs_le.1 hx
        have e3 : chkI8 c (-x) = .ok (-x) := by unfold chkI8; rw [if_pos (by omega)]
        have e4 : (-x % 2 ^ 64).toNat = (-x).toNat := by
          rw [Int.emod_eq_of_lt (by omega) (by norm_num; omega)]
        obtain ⟨P, eP, hP⟩ := tableAt_rep (-x).toNat (by omega) (by omega)
        obtain ⟨Q2, e2, h2⟩ := sub_rep c h1 hP
        rw [e3, Res.ok_bind]; rw [e4, eP, Res.ok_bind]; rw [e2, Res.ok_bind]
        exact ih (by omega) Q2 ⟨_, h2⟩ (hrest hx)
      · rw [abs_of_neg h] at hx
        by_cases h8 : x = -128
        · subst h8
          rcases hd : c.debug with _ | _
          · have e3 : chkI8 c (- -128) = .ok (-128) := by simp [chkI8, hd]
            rw [e3, Res.ok_bind, tableAt_panic _ (by decide)]; rfl
          · have e3 : chkI8 c (- -128) = .panic := by simp [chkI8, hd]
            rw [e3]; rfl
        · have e3 : chkI8 c (-x) = .ok (-x) := by unfold chkI8; rw [if_pos (by omega)]
          have e4 : (-x % 2 ^ 64).toNat = (-x).toNat := by
            rw [Int.emod_eq_of_lt (by omega) (by norm_num; omega)]
          rw [e3, Res.ok_bind]; rw [e4, tableAt_panic _ (by omega)]; rfl
    · rw [if_pos h, Res.ok_bind]
      exact ih (by omega) Q1 ⟨_, h1⟩ (hrest (by rw [h]; decide))
    · rw [if_neg (by omega), if_pos h]
      by_cases hx : |x| ≤ 125
      · obtain ⟨b1, b2⟩ := abs_le.1 hx
        obtain ⟨P, eP, hP⟩ := tableAt_rep x.toNat (by omega) (by omega)
        obtain ⟨Q2, e2, h2⟩ := Ed.add_rep c h1 hP
        have e2' : add c Q1 P = .ok Q2 := e2
        rw [eP, Res.ok_bind]; rw [e2', Res.ok_bind]
        exact ih (by omega) Q2 ⟨_, h2⟩ (hrest hx)
      · rw [abs_of_pos h] at hx
        rw [tableAt_panic _ (by omega)]; rfl

/-- Digits from 250 on are not read. -/
theorem wnafMulLoop_congr (c : Cfg) (v u : Vector Int 256) : ∀ (n : Nat) (hn : n ≤ 256) (Q : EdPoint),
    (∀ j (hj : j < n), v[j] = u[j]) → wnafMulLoop c v n hn Q = wnafMulLoop c u n hn Q := by
  intro n
  induction n with
  | zero => intros; rfl
  | succ i ih =>
    intro hn Q h
    rw [wnafMulLoop, wnafMulLoop, h i (by omega)]
    have : ∀ Q, wnafMulLoop c v i (by omega) Q = wnafMulLoop c u i (by omega) Q :=
      fun Q => ih (by omega) Q (fun j hj => h j (by omega))
    simp only [this]

end Ristretto

theorem Res.bind_ok {α β : Type} {x : Res α} {f : α → Res β} {b : β} (h : (x >>= f) = .ok b) :
    ∃ a, x = .ok a ∧ f a = .ok b := by
  cases x with
  | ok a => exact ⟨a, rfl, h⟩
  | panic => cases h
  | diverge => cases h

namespace Scalar

/-- Every digit is in the range of `i8`. -/
theorem mods2PowK_range (c : Cfg) (a : Sc) (w : Nat) (x : Int) (h : mods2PowK c a w = .ok x) : -128 ≤ x ∧ x ≤ 127 := by
  have hu : ∀ n : Nat, n < 256 → -128 ≤ u8AsI8 n ∧ u8AsI8 n ≤ 127 := by
    intro n hn; unfold u8AsI8; split_ifs <;> omega
  have hc : ∀ y z, chkI8 c y = .ok z → -128 ≤ z ∧ z ≤ 127 := by
    intro y z hz
    unfold chkI8 at hz
    split_ifs at hz with h1 h2
    · cases hz; omega
    · cases hz; omega
  unfold mods2PowK at h
  obtain ⟨_, _, h⟩ := Res.bind_ok h
  obtain ⟨md, hmd, h⟩ := Res.bind_ok h
  obtain ⟨w1, _, h⟩ := Res.bind_ok h
  obtain ⟨t, _, h⟩ := Res.bind_ok h
  have hmd' : md < 256 := by
    unfold mod2PowK at hmd
    split_ifs at hmd
    all_goals first | cases hmd; exact Nat.mod_lt _ (by omega) | cases hmd
  split_ifs at h
  · obtain ⟨y, _, h⟩ := Res.bind_ok h
    exact hc _ _ h
  · cases h
    exact hu md hmd'

theorem wnafLoop_range (c : Cfg) (w : Nat) : ∀ (fuel : Nat) (k : Sc) (i : Nat) (res out : Vector Int 256),
    (∀ j, -128 ≤ dig res j ∧ dig res j ≤ 127) → wnafLoop c w fuel k i res = .ok out →
    ∀ j, -128 ≤ dig out j ∧ dig out j ≤ 127 := by
  have hset : ∀ (res r' : Vector Int 256) (i : Nat) (x : Int), setDigit res i x = .ok r' → -128 ≤ x → x ≤ 127 →
      (∀ j, -128 ≤ dig res j ∧ dig res j ≤ 127) → ∀ j, -128 ≤ dig r' j ∧ dig r' j ≤ 127 := by
    intro res r' i x h h1 h2 hr j
    unfold setDigit at h
    split at h
    · rename_i hi
      cases h
      rw [dig_set _ _ _ _ hi]
      split_ifs
      · exact ⟨h1, h2⟩
      · exact hr j
    · cases h
  intro fuel
  induction fuel with
  | zero => intro k i res out _ h; cases h
  | succ f ih =>
    intro k i res out hr h
    rw [wnafLoop] at h
    split_ifs at h
    · obtain ⟨ki, hm, h⟩ := Res.bind_ok h
      obtain ⟨r', hs, h⟩ := Res.bind_ok h
      obtain ⟨s, _, h⟩ := Res.bind_ok h
      obtain ⟨k', _, h⟩ := Res.bind_ok h
      have hk := mods2PowK_range c k w ki hm
      exact ih _ _ _ _ (hset _ _ _ _ hs hk.1 hk.2 hr) h
    · obtain ⟨r', hs, h⟩ := Res.bind_ok h
      exact ih _ _ _ _ (hset _ _ _ _ hs (by omega) (by omega) hr) h
    · cases h; exact hr

end Scalar

namespace Props

/-- C50: for every width and build the outcome is settled by the digits of the expansion: a panic of the expansion is
a panic; otherwise the multiplication panics exactly if one of the first 250 digits is 126 or more in size, and
returns `(∑ ±(2|k| - 1) 2^j) B` if none is. -/
theorem C50_any_width (c : Cfg) (w : Nat) (n : Sc) :
    (Scalar.computeWindowNAF c n w = .panic → Ristretto.windowNafMul c n w = .panic) ∧
    (∀ v, Scalar.computeWindowNAF c n w = .ok v →
      ((∃ j : Fin 250, 126 ≤ |Scalar.dig v j|) → Ristretto.windowNafMul c n w = .panic) ∧
      ((∀ j : Fin 250, |Scalar.dig v j| ≤ 125) → ∃ S, Ristretto.windowNafMul c n w = .ok S ∧
        S.Rep ((∑ j ∈ Finset.range 250, tableCoeff (Scalar.dig v j) * 2 ^ j) • Bpt))) := by
  refine ⟨fun h => ?_, fun v hv => ⟨fun h => ?_, fun h => ?_⟩⟩
  · unfold Ristretto.windowNafMul; rw [h]; rfl
  · unfold Ristretto.windowNafMul
    rw [hv, Res.ok_bind]
    have hr := Scalar.wnafLoop_range c w _ _ _ _ _ (fun j => by rw [Scalar.dig_replicate]; omega) hv
    refine Ristretto.wnafMulLoop_panic c v (fun j hj => ?_) 250 (by omega) _ ⟨_, Ed.identity_rep⟩ ?_
    · have := hr j
      unfold Scalar.dig at this
      rwa [dif_pos hj] at this
    · obtain ⟨j, hj⟩ := h
      refine ⟨j.val, j.isLt, ?_⟩
      unfold Scalar.dig at hj
      rwa [dif_pos (by omega)] at hj
  · let u : Vector Int 256 := Vector.ofFn fun j : Fin 256 => if j.val < 250 then v[j] else 0
    have hu : ∀ j (hj : j < 256), u[j] = if j < 250 then v[j] else 0 := by
      intro j hj
      show (Vector.ofFn _)[j] = _
      rw [Vector.getElem_ofFn]; rfl
    have hd : ∀ j, j < 250 → Scalar.dig u j = Scalar.dig v j := by
      intro j hj
      unfold Scalar.dig
      rw [dif_pos (by omega), dif_pos (by omega), hu j (by omega), if_pos hj]
    obtain ⟨S, eS, hS⟩ := Ristretto.wnafMulLoop_rep c u (fun j hj => by
      rw [hu j hj]
      split_ifs with h1
      · have := h ⟨j, h1⟩
        unfold Scalar.dig at this
        rwa [dif_pos hj] at this
      · decide) 250 (by omega) Ristretto.identity 0 (by rw [zero_zsmul]; exact Ed.identity_rep)
    refine ⟨S, ?_, ?_⟩
    · unfold Ristretto.windowNafMul
      rw [hv, Res.ok_bind, Ristretto.wnafMulLoop_congr c v u 250 (by omega) _
        (fun j hj => by rw [hu j (by omega), if_pos hj])]
      exact eS
    · rw [zero_mul, zero_add, Finset.sum_congr rfl (fun j hj => by rw [hd j (Finset.mem_range.1 hj)])] at hS
      exact hS

/-- Digits that the table can serve and that make it return 251 or -7 times the base point, or a panic. -/
def wrongFor253 : Res (Vector Int 256) → Bool
  | .ok v => (List.range 250).all (fun j => (Scalar.dig v j).natAbs ≤ 125) &&
      (((List.range 250).map (fun j => tableCoeff (Scalar.dig v j) * 2 ^ j)).sum ∈ [(251 : Int), -7])
  | .panic => true
  | .diverge => false

/-- Digits with `x` at 0 and `y` at 8, zeros written between. -/
def twoDigits (x y : Int) : Vector Int 256 :=
  ((((((((((Vector.replicate 256 0).set 0 x).set 1 0).set 2 0).set 3 0).set 4 0).set 5 0).set 6 0).set 7 0).set 8 y)

theorem twoDigits_wrong : wrongFor253 (.ok (twoDigits (-3) 1)) = true ∧ wrongFor253 (.ok (twoDigits (-4) 0)) = true := by
  decide +kernel

theorem expansion_253 (c : Cfg) (hc : c.Enough) (w : Nat) (x y : Int) (s r s1 r1 : Sc)
    (h1 : Scalar.mods2PowK c ⟨253, 0, 0, 0, 0⟩ w = .ok x) (h2 : Scalar.fromI8 c x = .ok s)
    (h3 : Scalar.sub c ⟨253, 0, 0, 0, 0⟩ s = .ok r) (h4 : Scalar.halfWithoutMod r = ⟨128, 0, 0, 0, 0⟩)
    (h5 : Scalar.mods2PowK c ⟨1, 0, 0, 0, 0⟩ w = .ok y) (h6 : Scalar.fromI8 c y = .ok s1)
    (h7 : Scalar.sub c ⟨1, 0, 0, 0, 0⟩ s1 = .ok r1) (h8 : Scalar.halfWithoutMod r1 = ⟨0, 0, 0, 0, 0⟩) :
    Scalar.computeWindowNAF c ⟨253, 0, 0, 0, 0⟩ w = .ok (twoDigits x y) := by
  unfold Cfg.Enough at hc
  unfold Scalar.computeWindowNAF
  obtain ⟨f, hf⟩ : ∃ f, c.fuel = f + 1 + 1 + 1 + 1 + 1 + 1 + 1 + 1 + 1 + 1 := ⟨c.fuel - 10, by omega⟩
  have ev : ∀ (k k' : Sc) (g i : Nat) (res : Vector Int 256) (hi : i < 256), Scalar.ge k Scalar.one = true →
      Scalar.isEven k = true → Scalar.halfWithoutMod k = k' →
      Scalar.wnafLoop c w (g + 1) k i res = Scalar.wnafLoop c w g k' (i + 1) (res.set i 0) := by
    intro k k' g i res hi a b d
    rw [Scalar.wnafLoop, a, b, d]
    simp only [if_true, Bool.not_true, Bool.false_eq_true, if_false, Scalar.setDigit_ok _ _ _ hi, Res.ok_bind]
  have od : ∀ (k k' z t : Sc) (u : Int) (g i : Nat) (res : Vector Int 256) (hi : i < 256),
      Scalar.ge k Scalar.one = true → Scalar.isEven k = false → Scalar.mods2PowK c k w = .ok u →
      Scalar.fromI8 c u = .ok z → Scalar.sub c k z = .ok t → Scalar.halfWithoutMod t = k' →
      Scalar.wnafLoop c w (g + 1) k i res = Scalar.wnafLoop c w g k' (i + 1) (res.set i u) := by
    intro k k' z t u g i res hi a b d e e' e''
    rw [Scalar.wnafLoop, a, b, d]
    simp only [if_true, Bool.not_false, Scalar.setDigit_ok _ _ _ hi, Res.ok_bind, e, e', e'']
  rw [hf, od _ _ _ _ _ _ 0 _ (by omega) (by decide) (by decide) h1 h2 h3 h4,
    ev ⟨128, 0, 0, 0, 0⟩ ⟨64, 0, 0, 0, 0⟩ _ 1 _ (by omega) (by decide) (by decide) (by decide),
    ev ⟨64, 0, 0, 0, 0⟩ ⟨32, 0, 0, 0, 0⟩ _ 2 _ (by omega) (by decide) (by decide) (by decide),
    ev ⟨32, 0, 0, 0, 0⟩ ⟨16, 0, 0, 0, 0⟩ _ 3 _ (by omega) (by decide) (by decide) (by decide),
    ev ⟨16, 0, 0, 0, 0⟩ ⟨8, 0, 0, 0, 0⟩ _ 4 _ (by omega) (by decide) (by decide) (by decide),
    ev ⟨8, 0, 0, 0, 0⟩ ⟨4, 0, 0, 0, 0⟩ _ 5 _ (by omega) (by decide) (by decide) (by decide),
    ev ⟨4, 0, 0, 0, 0⟩ ⟨2, 0, 0, 0, 0⟩ _ 6 _ (by omega) (by decide) (by decide) (by decide),
    ev ⟨2, 0, 0, 0, 0⟩ ⟨1, 0, 0, 0, 0⟩ _ 7 _ (by omega) (by decide) (by decide) (by decide),
    od _ _ _ _ _ _ 8 _ (by omega) (by decide) (by decide) h5 h6 h7 h8,
    Scalar.wnafLoop, show Scalar.ge ⟨0, 0, 0, 0, 0⟩ Scalar.one = false by decide]
  rfl

theorem small_sub (c : Cfg) (k r : Sc) (d : Int) (hk : k.SCanon) (hr : r.SCanon) (h1 : -127 ≤ d) (h2 : d ≤ 127)
    (h3 : (r.val : Int) = k.val - d) : ∃ s, Scalar.fromI8 c d = .ok s ∧ Scalar.sub c k s = .ok r := by
  obtain ⟨s, t, es, et, ct, vt⟩ := Scalar.sub_small c k d hk h1 h2 (by omega)
  have := hr.2
  rw [if_pos (by omega)] at vt
  obtain rfl : t = r := ct.1.ext hr.1 (by omega)
  exact ⟨s, es, et⟩

theorem expansion_253_odd (c : Cfg) (hc : c.Enough) (w : Nat)
    (h1 : Scalar.mods2PowK c ⟨253, 0, 0, 0, 0⟩ w = .ok (-3)) (h5 : Scalar.mods2PowK c ⟨1, 0, 0, 0, 0⟩ w = .ok 1) :
    wrongFor253 (Scalar.computeWindowNAF c ⟨253, 0, 0, 0, 0⟩ w) = true := by
  obtain ⟨s, e1, e2⟩ := small_sub c ⟨253, 0, 0, 0, 0⟩ ⟨256, 0, 0, 0, 0⟩ (-3) (by decide) (by decide) (by decide) (by decide)
    (by decide)
  obtain ⟨s1, e3, e4⟩ := small_sub c ⟨1, 0, 0, 0, 0⟩ ⟨0, 0, 0, 0, 0⟩ 1 (by decide) (by decide) (by decide) (by decide)
    (by decide)
  rw [expansion_253 c hc w _ _ _ _ _ _ h1 e1 e2 (by decide) h5 e3 e4 (by decide)]
  exact twoDigits_wrong.1

theorem expansion_253_even (c : Cfg) (hc : c.Enough) (w : Nat)
    (h1 : Scalar.mods2PowK c ⟨253, 0, 0, 0, 0⟩ w = .ok (-4)) (h5 : Scalar.mods2PowK c ⟨1, 0, 0, 0, 0⟩ w = .ok 0) :
    wrongFor253 (Scalar.computeWindowNAF c ⟨253, 0, 0, 0, 0⟩ w) = true := by
  obtain ⟨s, e1, e2⟩ := small_sub c ⟨253, 0, 0, 0, 0⟩ ⟨257, 0, 0, 0, 0⟩ (-4) (by decide) (by decide) (by decide) (by decide)
    (by decide)
  obtain ⟨s1, e3, e4⟩ := small_sub c ⟨1, 0, 0, 0, 0⟩ ⟨1, 0, 0, 0, 0⟩ 0 (by decide) (by decide) (by decide) (by decide)
    (by decide)
  rw [expansion_253 c hc w _ _ _ _ _ _ h1 e1 e2 (by decide) h5 e3 e4 (by decide)]
  exact twoDigits_wrong.2

theorem expansion_253_seven (c : Cfg) (hc : c.Enough) (h : Scalar.mods2PowK c ⟨253, 0, 0, 0, 0⟩ 7 = .panic) :
    Scalar.computeWindowNAF c ⟨253, 0, 0, 0, 0⟩ 7 = .panic := by
  unfold Cfg.Enough at hc
  obtain ⟨f, hf⟩ : ∃ f, c.fuel = f + 1 := ⟨c.fuel - 1, by omega⟩
  unfold Scalar.computeWindowNAF
  rw [hf, Scalar.wnafLoop, h, show Scalar.ge ⟨253, 0, 0, 0, 0⟩ Scalar.one = true by decide,
    show Scalar.isEven ⟨253, 0, 0, 0, 0⟩ = false by decide]
  rfl

theorem expansions_253 (c : Cfg) (hc : c.Enough) (w : Nat) (hw : w ≠ 2) :
    wrongFor253 (Scalar.computeWindowNAF c ⟨253, 0, 0, 0, 0⟩ w) = true := by
  have h253 : (⟨253, 0, 0, 0, 0⟩ : Sc).SCanon ∧ (⟨253, 0, 0, 0, 0⟩ : Sc).val ≠ 0 := by decide
  have pan : ∀ {x : Res (Vector Int 256)}, x = .panic → wrongFor253 x = true := fun h => by rw [h]; rfl
  obtain ⟨d, f⟩ := c
  rcases Nat.lt_or_ge w 32 with h32 | h32
  · by_cases h0 : w = 0
    · subst h0; exact pan (C34_width_zero _ hc _ h253.1 h253.2)
    by_cases h1 : w = 1
    · subst h1; exact pan (C34_width_one _ hc _ h253.1 h253.2)
    rcases d with _ | _
    · by_cases h9 : w % 8 = 1
      · exact pan (C83_wrapped_panics _ hc rfl w (by omega) h32 h9 _ h253.1 h253.2)
      · by_cases h8 : w % 8 = 0
        · refine expansion_253_even _ hc w ?_ ?_
          · rw [Scalar.mods2PowK_eighth _ rfl _ w h32 (by omega) h8 (by decide)]; rfl
          · rw [Scalar.mods2PowK_eighth _ rfl _ w h32 (by omega) h8 (by decide)]; rfl
        · refine expansion_253_odd _ hc w ?_ ?_
          · interval_cases w <;> first | rfl | omega
          · interval_cases w <;> first | rfl | omega
    · rcases Nat.lt_or_ge w 8 with h8 | h8
      · by_cases h7 : w = 7
        · subst h7; exact pan (expansion_253_seven _ hc rfl)
        · refine expansion_253_odd _ hc w ?_ ?_
          · interval_cases w <;> first | rfl | omega
          · interval_cases w <;> first | rfl | omega
      · exact pan ((C83_panics _ hc _ h253.1 h253.2 w).1 rfl h8)
  · exact pan ((C83_panics _ hc _ h253.1 h253.2 w).2 h32)

/-- C50: width 2 is the only one that is right for all scalars: for every other width, in every build, the scalar 253
makes the multiplication panic or return a wrong point. -/
theorem C50_only_width_two (c : Cfg) (hc : c.Enough) (w : Nat) (hw : w ≠ 2) :
    Ristretto.windowNafMul c ⟨253, 0, 0, 0, 0⟩ w = .panic ∨
    ∃ S, Ristretto.windowNafMul c ⟨253, 0, 0, 0, 0⟩ w = .ok S ∧ S.Valid ∧ ¬ S.Rep (253 • Bpt) := by
  obtain ⟨h1, h2⟩ := C50_any_width c w ⟨253, 0, 0, 0, 0⟩
  have key := expansions_253 c hc w hw
  cases hv : Scalar.computeWindowNAF c ⟨253, 0, 0, 0, 0⟩ w with
  | diverge => rw [hv] at key; cases key
  | panic => exact Or.inl (h1 hv)
  | ok v =>
    right
    rw [hv] at key
    simp only [wrongFor253, Bool.and_eq_true, List.all_eq_true, List.mem_range, decide_eq_true_eq] at key
    obtain ⟨S, eS, hS⟩ := (h2 v hv).2 (fun j => by have := key.1 j.val j.isLt; rw [Int.abs_eq_natAbs]; omega)
    refine ⟨S, eS, ⟨_, hS⟩, fun hR => ?_⟩
    have hs : ∑ j ∈ Finset.range 250, tableCoeff (Scalar.dig v j) * 2 ^ j =
        ((List.range 250).map (fun j => tableCoeff (Scalar.dig v j) * 2 ^ j)).sum := rfl
    rw [hs] at hS
    have hpt := hS.unique hR
    have hm : ∀ k : ℤ, k • Bpt = 253 • Bpt → ¬ (k = 251 ∨ k = -7) := by
      intro k hk hor
      have h0 : (k - 253) • Bpt = 0 := by
        have e : (253 : ℤ) • Bpt = 253 • Bpt := by exact_mod_cast natCast_zsmul Bpt 253
        rw [sub_zsmul, hk, e, add_neg_cancel]
      have hdv := (addOrderOf_dvd_iff_zsmul_eq_zero).2 h0
      rw [Bpt_order] at hdv
      have hb := Scalar.ell_big
      rcases hor with rfl | rfl
      · have := Int.le_of_dvd (by norm_num : (0 : ℤ) < 2) ((dvd_neg (b := (2 : ℤ))).1 (by simpa using hdv))
        omega
      · have := Int.le_of_dvd (by norm_num : (0 : ℤ) < 260) ((dvd_neg (b := (260 : ℤ))).1 (by simpa using hdv))
        omega
    exact hm _ hpt (by simpa using key.2)

example : dbg.Enough ∧ Scalar.computeWindowNAF dbg ⟨253, 0, 0, 0, 0⟩ 7 = .panic ∧
    firstDigits 9 (Scalar.computeWindowNAF rel ⟨253, 0, 0, 0, 0⟩ 10) = [-3, 0, 0, 0, 0, 0, 0, 0, 1] := by decide +kernel

end Props
end Zerocaf
