import Verif.Model.SafeCurve
import Verif.Proof.Primality
import Mathlib.GroupTheory.OrderOfElement
import Mathlib.Data.Nat.Squarefree
import Mathlib.NumberTheory.Padics.PadicVal.Basic

/-!
# The loops of the safe curve script
-/

namespace Zerocaf
namespace SafeCurve

/-! ### Primes -/

/-- Pocklington's theorem. -/
theorem pocklington {n f b : ℕ} (hn : 1 < n) (hb : (b : ZMod n) ^ (n - 1) = 1) (hf : f ∣ n - 1)
    (hu : ∀ v, v.Prime → v ∣ f → IsUnit ((b : ZMod n) ^ ((n - 1) / v) - 1)) (hlt : n < f ^ 2) : n.Prime := by
  have hr : (n.minFac).Prime := Nat.minFac_prime (by omega)
  have : Fact n.minFac.Prime := ⟨hr⟩
  have hd : n.minFac ∣ n := Nat.minFac_dvd n
  have hz : (b : ZMod n.minFac) ^ (n - 1) = 1 := by
    have := congrArg (ZMod.castHom hd (ZMod n.minFac)) hb
    rwa [map_pow, map_natCast, map_one] at this
  have ho : orderOf (b : ZMod n.minFac) ∣ n - 1 := orderOf_dvd_of_pow_eq_one hz
  have hfo : f ∣ orderOf (b : ZMod n.minFac) := by
    have hf0 : f ≠ 0 := by rintro rfl; simp at hlt
    have ho0 : orderOf (b : ZMod n.minFac) ≠ 0 := fun h => by
      rw [h, zero_dvd_iff] at ho; omega
    refine (Nat.dvd_iff_prime_pow_dvd_dvd _ _).2 fun v k hv hk => ?_
    rcases Nat.eq_zero_or_pos k with rfl | hk0
    · rw [pow_zero]; exact one_dvd _
    have hvf : v ∣ f := (dvd_pow_self v hk0.ne').trans hk
    obtain ⟨m, hm⟩ := ho
    -- `v` does not divide the cofactor
    have hvm : ¬ v ∣ m := by
      rintro ⟨c, rfl⟩
      have h1 : (b : ZMod n.minFac) ^ ((n - 1) / v) = 1 := by
        rw [hm, show orderOf (b : ZMod n.minFac) * (v * c) / v = orderOf (b : ZMod n.minFac) * c by
          rw [show orderOf (b : ZMod n.minFac) * (v * c) = v * (orderOf (b : ZMod n.minFac) * c) by ring]
          exact Nat.mul_div_cancel_left _ hv.pos, pow_mul, pow_orderOf_eq_one, one_pow]
      have h2 := (hu v hv hvf).map (ZMod.castHom hd (ZMod n.minFac))
      rw [map_sub, map_pow, map_natCast, map_one, h1, sub_self] at h2
      exact not_isUnit_zero h2
    have h3 : v ^ k ∣ orderOf (b : ZMod n.minFac) * m := hm ▸ hk.trans hf
    exact (Nat.Coprime.pow_left k ((Nat.Prime.coprime_iff_not_dvd hv).2 hvm)).dvd_of_dvd_mul_right h3
  have hb0 : (b : ZMod n.minFac) ≠ 0 := by
    intro h
    rw [h, zero_pow (by omega)] at hz
    exact zero_ne_one hz
  have h4 : f ∣ n.minFac - 1 := hfo.trans (orderOf_dvd_of_pow_eq_one (ZMod.pow_card_sub_one_eq_one hb0))
  have h5 : f ≤ n.minFac - 1 := Nat.le_of_dvd (by have := hr.two_le; omega) h4
  by_contra hnp
  have h6 := Nat.minFac_sq_le_self (by omega) hnp
  have h7 : f ^ 2 ≤ n.minFac ^ 2 := Nat.pow_le_pow_left (by omega) 2
  omega

theorem factored_spec (n b : ℕ) (P : ℕ → Prop) (hP : ∀ v, IsUnit ((b : ZMod n) ^ ((n - 1) / v) - 1) → P v) :
    ∀ (L : List ℕ) (f : ℕ), (∀ v ∈ L, v.Prime) → (∀ v, v.Prime → v ∣ f → P v) →
      ∀ v, v.Prime → v ∣ factored n b L f → P v := by
  intro L
  induction L with
  | nil => intro f _ h; exact h
  | cons w L ih =>
    intro f hL h
    unfold factored
    refine ih _ (fun v hv => hL v (List.mem_cons_of_mem _ hv)) ?_
    split_ifs with hc
    · intro v hv hd
      rcases (Nat.Prime.dvd_mul hv).1 hd with hd | hd
      · exact h v hv hd
      · have := (Nat.prime_dvd_prime_iff_eq hv (hL w (List.mem_cons_self))).1 (hv.dvd_of_dvd_pow hd)
        subst this
        exact hP v hc.2.2
    · exact h

theorem factored_one (b : ℕ) : ∀ (L : List ℕ) (f : ℕ), factored 1 b L f = f := by
  intro L
  induction L with
  | nil => intro f; rfl
  | cons w L ih =>
    intro f
    unfold factored
    rw [Nat.sub_self, padicValNat_zero_right, pow_zero, mul_one, ite_self, ih]

theorem Proves.prime {V : List ℕ} {n b : ℕ} (hV : ∀ v ∈ V, v.Prime) (h : Proves V n b) : n.Prime := by
  obtain ⟨h1, h2, h3⟩ := h
  have hn : 1 < n := by
    rcases Nat.lt_trichotomy n 1 with h | h | h
    · have : n = 0 := by omega
      subst this
      rw [Nat.zero_mod] at h3; omega
    · subst h
      rw [factored_one] at h2; omega
    · exact h
  refine pocklington hn h1 ((Nat.modEq_iff_dvd' (by omega)).1 ?_) ?_ h2
  · show 1 % _ = n % _
    rw [h3]
    refine Nat.mod_eq_of_lt ?_
    by_contra hc
    have : factored n b V.reverse 1 ≤ 1 := by omega
    have : factored n b V.reverse 1 ^ 2 ≤ 1 := by
      calc _ ≤ 1 ^ 2 := Nat.pow_le_pow_left this 2
        _ = 1 := by norm_num
    omega
  · exact factored_spec n b _ (fun v h => h) V.reverse 1 (fun v hv => hV v (List.mem_reverse.1 hv))
      (fun v hv hd => absurd (Nat.le_of_dvd one_pos hd) (by have := hv.two_le; omega))

theorem addPrime_prime (sage : ℕ → Bool) (V : List ℕ) (n : ℕ) (hV : ∀ v ∈ V, v.Prime) (hN : V.Nodup) :
    (∀ v ∈ addPrime sage V n, v.Prime) ∧ (addPrime sage V n).Nodup := by
  have app : n.Prime → n ∉ V → (∀ v ∈ V ++ [n], v.Prime) ∧ (V ++ [n]).Nodup := by
    intro hn hm
    refine ⟨fun v hv => ?_, List.nodup_append.2 ⟨hN, List.nodup_singleton _, ?_⟩⟩
    · rcases List.mem_append.1 hv with h | h
      · exact hV v h
      · rw [List.mem_singleton.1 h]; exact hn
    · intro a ha b hb e
      rw [List.mem_singleton.1 hb] at e
      exact hm (e ▸ ha)
  unfold addPrime
  split_ifs with h1 h2 h3 h4 h5
  · exact ⟨hV, hN⟩
  · exact ⟨hV, hN⟩
  · exact app (h2 ▸ Nat.prime_two) h3
  · exact ⟨hV, hN⟩
  · obtain ⟨b, _, _, hb⟩ := h4
    exact app (hb.prime hV) h5
  · exact ⟨hV, hN⟩

theorem foldl_prime (sage : ℕ → Bool) : ∀ (s V : List ℕ), (∀ v ∈ V, v.Prime) → V.Nodup →
    (∀ v ∈ s.foldl (addPrime sage) V, v.Prime) ∧ (s.foldl (addPrime sage) V).Nodup := by
  intro s
  induction s with
  | nil => intro V h1 h2; exact ⟨h1, h2⟩
  | cons n s ih =>
    intro V h1 h2
    obtain ⟨a1, a2⟩ := addPrime_prime sage V n h1 h2
    exact ih _ a1 a2

theorem verified_prime (sage : ℕ → Bool) (s : List ℕ) : (∀ v ∈ verified sage s, v.Prime) ∧ (verified sage s).Nodup :=
  foldl_prime sage s [] (by simp) List.nodup_nil

/-! ### Loops over numbers -/

theorem strip_spec (v : ℤ) : ∀ (n : ℕ) (d e : ℤ), strip v n d = .ok e → ∃ k : ℕ, d = e * v ^ k ∧ e % v ≠ 0 := by
  intro n
  induction n with
  | zero => intro d e h; exact absurd h (by simp [strip])
  | succ n ih =>
    intro d e h
    unfold strip at h
    split_ifs at h with hd
    · obtain ⟨k, h1, h2⟩ := ih _ _ h
      refine ⟨k + 1, ?_, h2⟩
      have := Int.ediv_mul_cancel (Int.dvd_of_emod_eq_zero hd)
      rw [← this, h1, pow_succ, mul_assoc]
    · rw [Res.ok_inj] at h
      subst h
      exact ⟨0, by rw [pow_zero, mul_one], hd⟩

theorem stripAll_spec (fuel : ℕ) (g : ℕ → ℤ) : ∀ (V : List ℕ) (d e : ℤ), stripAll fuel g V d = .ok e →
    ∃ L : List ℕ, (∀ v ∈ L, v ∈ V) ∧ d = e * (L.map g).prod := by
  intro V
  induction V with
  | nil =>
    intro d e h
    rw [stripAll, Res.ok_inj] at h
    exact ⟨[], by simp, by simp [h]⟩
  | cons v V ih =>
    intro d e h
    rw [stripAll] at h
    cases hs : strip (g v) fuel d with
    | ok d' =>
      rw [hs, Res.ok_bind] at h
      obtain ⟨k, h1, _⟩ := strip_spec _ _ _ _ hs
      obtain ⟨L, h3, h4⟩ := ih _ _ h
      refine ⟨List.replicate k v ++ L, fun w hw => ?_, ?_⟩
      · rcases List.mem_append.1 hw with hw | hw
        · rw [List.eq_of_mem_replicate hw]; exact List.mem_cons_self
        · exact List.mem_cons_of_mem _ (h3 w hw)
      · rw [h1, h4, List.map_append, List.prod_append, List.map_replicate, List.prod_replicate]
        ring
    | panic => rw [hs, Res.panic_bind] at h; exact absurd h (by simp)
    | diverge => rw [hs, Res.diverge_bind] at h; exact absurd h (by simp)

theorem prime_mem_of_prod {V : List ℕ} (hV : ∀ v ∈ V, v.Prime) : ∀ (L : List ℕ), (∀ v ∈ L, v ∈ V) →
    ∀ q : ℕ, q.Prime → q ∣ L.prod → q ∈ V := by
  intro L
  induction L with
  | nil => intro _ q hq h; exact absurd (Nat.le_of_dvd one_pos h) (by have := hq.two_le; omega)
  | cons w L ih =>
    intro hL q hq h
    rw [List.prod_cons] at h
    rcases (Nat.Prime.dvd_mul hq).1 h with h | h
    · rw [(Nat.prime_dvd_prime_iff_eq hq (hV w (hL w List.mem_cons_self))).1 h]
      exact hL w List.mem_cons_self
    · exact ih (fun v hv => hL v (List.mem_cons_of_mem _ hv)) q hq h

theorem map_cast_prod (L : List ℕ) : (L.map fun v : ℕ => (v : ℤ)).prod = ((L.prod : ℕ) : ℤ) := by
  induction L with
  | nil => simp
  | cons v L ih => rw [List.map_cons, List.prod_cons, ih, List.prod_cons, Nat.cast_mul]

theorem map_sq_prod (L : List ℕ) : (L.map fun v : ℕ => (v : ℤ) ^ 2).prod = ((L.prod : ℕ) : ℤ) ^ 2 := by
  induction L with
  | nil => simp
  | cons v L ih => rw [List.map_cons, List.prod_cons, ih, List.prod_cons, Nat.cast_mul, mul_pow]

/-- Nothing but verified primes divides a number that they reduce to one. -/
theorem stripAll_one {fuel : ℕ} {V : List ℕ} (hV : ∀ v ∈ V, v.Prime) {m : ℤ}
    (h : stripAll fuel (fun v => v) V m = .ok 1) : 0 < m ∧ ∀ q : ℕ, q.Prime → (q : ℤ) ∣ m → q ∈ V := by
  obtain ⟨L, h1, h2⟩ := stripAll_spec _ _ _ _ _ h
  rw [one_mul, map_cast_prod] at h2
  subst h2
  refine ⟨?_, fun q hq hd => prime_mem_of_prod hV L h1 q hq (by exact_mod_cast hd)⟩
  have : 0 < L.prod := List.prod_pos fun v hv => (hV v (h1 v hv)).pos
  exact_mod_cast this

theorem lower_spec {m : ℕ} (u : ZMod m) (v : ℕ) : ∀ (n d e : ℕ), u ^ d = 1 → lower u v n d = .ok e →
    u ^ e = 1 ∧ e ∣ d ∧ (v ∣ e → u ^ (e / v) ≠ 1) := by
  intro n
  induction n with
  | zero => intro d e _ h; exact absurd h (by simp [lower])
  | succ n ih =>
    intro d e hu h
    unfold lower at h
    split_ifs at h with h1 h2
    · rw [Res.ok_inj] at h
      subst h
      exact ⟨hu, dvd_refl _, fun _ => h2⟩
    · obtain ⟨a1, a2, a3⟩ := ih _ _ (not_not.1 h2) h
      exact ⟨a1, a2.trans (Nat.div_dvd_of_dvd (Nat.dvd_of_mod_eq_zero h1)), a3⟩
    · rw [Res.ok_inj] at h
      subst h
      exact ⟨hu, dvd_refl _, fun hd => absurd (Nat.mod_eq_zero_of_dvd hd) h1⟩

theorem pow_div_of_dvd {m : ℕ} (u : ZMod m) {v d e : ℕ} (hd : d ∣ e) (hv : v ∣ d) (h0 : v ≠ 0) (h : u ^ (d / v) = 1) :
    u ^ (e / v) = 1 := by
  obtain ⟨a, rfl⟩ := hd
  obtain ⟨b, rfl⟩ := hv
  rw [Nat.mul_div_cancel_left _ (Nat.pos_of_ne_zero h0)] at h
  rw [mul_assoc, Nat.mul_div_cancel_left _ (Nat.pos_of_ne_zero h0), pow_mul, h, one_pow]

theorem lowerAll_spec {m : ℕ} (fuel : ℕ) (u : ZMod m) : ∀ (V : List ℕ) (d e : ℕ), (∀ v ∈ V, v ≠ 0) → u ^ d = 1 →
    lowerAll fuel u V d = .ok e → u ^ e = 1 ∧ e ∣ d ∧ ∀ v ∈ V, v ∣ e → u ^ (e / v) ≠ 1 := by
  intro V
  induction V with
  | nil =>
    intro d e _ hu h
    rw [lowerAll, Res.ok_inj] at h
    subst h
    exact ⟨hu, dvd_refl _, by simp⟩
  | cons v V ih =>
    intro d e hV hu h
    rw [lowerAll] at h
    cases hs : lower u v fuel d with
    | ok d' =>
      rw [hs, Res.ok_bind] at h
      obtain ⟨a1, a2, a3⟩ := lower_spec u v _ _ _ hu hs
      obtain ⟨b1, b2, b3⟩ := ih _ _ (fun w hw => hV w (List.mem_cons_of_mem _ hw)) a1 h
      refine ⟨b1, b2.trans a2, fun w hw hd => ?_⟩
      rcases List.mem_cons.1 hw with rfl | hw
      · exact fun h1 => a3 (hd.trans b2) (pow_div_of_dvd u b2 hd (hV w List.mem_cons_self) h1)
      · exact b3 w hw hd
    | panic => rw [hs, Res.panic_bind] at h; exact absurd h (by simp)
    | diverge => rw [hs, Res.diverge_bind] at h; exact absurd h (by simp)

/-- The embedding degree that is written is the multiplicative order. -/
theorem embedding_spec (sage : ℕ → Bool) (fuel : ℕ) (V : List ℕ) (hV : ∀ v ∈ V, v.Prime) (p l d : ℕ) (hl : l.Prime)
    (h : embedding sage fuel V p l = .ok (some d)) : Nat.Coprime l p ∧ orderOf (p : ZMod l) = d := by
  unfold embedding at h
  split_ifs at h with hc
  · cases hs : stripAll fuel (fun v => v) V ((l : ℤ) - 1) with
    | ok d' =>
      rw [hs, Res.ok_bind] at h
      split_ifs at h with h1
      · subst h1
        obtain ⟨_, h2⟩ := stripAll_one hV hs
        cases hs2 : lowerAll fuel (p : ZMod l) V (l - 1) with
        | ok e =>
          rw [hs2, Res.ok_bind, Res.ok_inj, Option.some_inj] at h
          subst h
          have : Fact l.Prime := ⟨hl⟩
          have hco : Nat.Coprime l p := hc.1
          have hp0 : (p : ZMod l) ≠ 0 := by
            rw [Ne, ZMod.natCast_eq_zero_iff]
            exact (Nat.Prime.coprime_iff_not_dvd hl).1 hco
          obtain ⟨b1, b2, b3⟩ := lowerAll_spec fuel (p : ZMod l) V _ _ (fun v hv => (hV v hv).ne_zero)
            (ZMod.pow_card_sub_one_eq_one hp0) hs2
          refine ⟨hco, orderOf_eq_of_pow_and_pow_div_prime ?_ b1 fun q hq hd => b3 q (h2 q hq ?_) hd⟩
          · refine Nat.pos_of_ne_zero fun h0 => ?_
            rw [h0, zero_dvd_iff] at b2
            have := hl.two_le
            omega
          · have := hl.two_le
            rw [show (l : ℤ) - 1 = ((l - 1 : ℕ) : ℤ) by omega]
            exact_mod_cast hd.trans b2
        | panic => rw [hs2, Res.panic_bind] at h; exact absurd h (by simp)
        | diverge => rw [hs2, Res.diverge_bind] at h; exact absurd h (by simp)
      · rw [Res.ok_inj] at h; exact absurd h (by simp)
    | panic => rw [hs, Res.panic_bind] at h; exact absurd h (by simp)
    | diverge => rw [hs, Res.diverge_bind] at h; exact absurd h (by simp)
  · rw [Res.ok_inj] at h; exact absurd h (by simp)

/-- Rounding finds the order of the group. -/
theorem trace_spec (p l N : ℕ) (hN : l ∣ N) (hasse : ((N : ℤ) - (p + 1)) ^ 2 ≤ 4 * p) (hl : 16 * p < l ^ 2) :
    trace p l = p + 1 - N := by
  obtain ⟨h, rfl⟩ := hN
  have hl' : (16 * p : ℤ) < (l : ℤ) ^ 2 := by exact_mod_cast hl
  have h1 : (2 * (((l * h : ℕ) : ℤ) - (p + 1))) ^ 2 < (l : ℤ) ^ 2 := by nlinarith
  have h2 := abs_lt_of_sq_lt_sq h1 (by positivity)
  rw [abs_lt] at h2
  unfold trace
  have hq : (2 * (p + 1) + l) / (2 * l) = h := by
    have hl0 : 0 < 2 * l := by
      rcases Nat.eq_zero_or_pos l with h0 | h0
      · subst h0; omega
      · omega
    rw [Nat.div_eq_iff hl0]
    have e : 2 * l * h = 2 * (l * h) := by ring
    have e' : h * (2 * l) = 2 * (l * h) := by ring
    generalize l * h = N at *
    omega
  rw [hq, Nat.cast_mul]

/-- The discriminant that is written is a fundamental one. -/
theorem disc_spec (fuel : ℕ) (V : List ℕ) (hV : ∀ v ∈ V, v.Prime) (hN : V.Nodup) (p : ℕ) (t D : ℤ)
    (h : disc fuel V p t = .ok (some D)) :
    ∃ m s : ℕ, Squarefree m ∧ t ^ 2 - 4 * p = -(m * (s : ℤ) ^ 2) ∧ D = if m % 4 = 3 then -(m : ℤ) else -4 * m := by
  unfold disc at h
  cases hs : stripAll fuel (fun v => (v : ℤ) ^ 2) V (t ^ 2 - 4 * p) with
  | ok D' =>
    rw [hs, Res.ok_bind] at h
    split_ifs at h with h1 h2
    · rw [Res.ok_inj] at h; exact absurd h (by simp)
    all_goals
      rw [Res.ok_inj, Option.some_inj] at h
      rw [not_not] at h1
      obtain ⟨L, _, hL⟩ := stripAll_spec _ _ _ _ _ hs
      have hsq := map_sq_prod L
      refine ⟨(V.filter fun v : ℕ => decide (D' % v = 0)).prod, L.prod, ?_, ?_, ?_⟩
      · have hp : ∀ W : List ℕ, (∀ v ∈ W, v.Prime) → W.Nodup → Squarefree W.prod := by
          intro W
          induction W with
          | nil => intro _ _; simp
          | cons w W ih =>
            intro hW hNW
            rw [List.prod_cons]
            have hw := hW w List.mem_cons_self
            have hc : Nat.Coprime w W.prod := by
              rw [Nat.Prime.coprime_iff_not_dvd hw]
              intro hd
              exact (List.nodup_cons.1 hNW).1 (prime_mem_of_prod (fun v hv => hW v (List.mem_cons_of_mem _ hv)) W
                (fun v hv => hv) w hw hd)
            rw [Nat.squarefree_mul hc]
            exact ⟨hw.prime.squarefree, ih (fun v hv => hW v (List.mem_cons_of_mem _ hv)) (List.nodup_cons.1 hNW).2⟩
        exact hp _ (fun v hv => hV v (List.mem_of_mem_filter hv)) (hN.filter _)
      · rw [hL, hsq, h1]; ring
      · rw [← h]
        generalize (V.filter fun v : ℕ => decide (D' % v = 0)).prod = m at *
        split_ifs <;> omega
  | panic => rw [hs, Res.panic_bind] at h; exact absurd h (by simp)
  | diverge => rw [hs, Res.diverge_bind] at h; exact absurd h (by simp)

theorem larger_spec (v : ℕ) (r : Option ℕ) : (larger v r = v ∨ r = some (larger v r)) ∧ v ≤ larger v r ∧
    ∀ w, r = some w → w ≤ larger v r := by
  cases r with
  | none => exact ⟨Or.inl rfl, le_refl _, fun w h => absurd h (by simp)⟩
  | some x =>
    show (((if v > x then v else x) = v) ∨ _) ∧ v ≤ (if v > x then v else x) ∧ ∀ w, some x = some w → w ≤ if v > x then v else x
    refine ⟨?_, by split_ifs <;> omega, fun w h => by rw [Option.some_inj] at h; split_ifs <;> omega⟩
    by_cases h : v > x
    · rw [if_pos h]; exact Or.inl rfl
    · right; show some x = some (if v > x then v else x); rw [if_neg h]

theorem largest_spec (d : ℤ) : ∀ (V : List ℕ) (r : Option ℕ) (q : ℕ), largest d V r = some q →
    (r = some q ∨ (q ∈ V ∧ (q : ℤ) ∣ d)) ∧ (∀ w, r = some w → w ≤ q) ∧ ∀ v ∈ V, (v : ℤ) ∣ d → v ≤ q := by
  intro V
  induction V with
  | nil =>
    intro r q h
    rw [largest] at h
    subst h
    exact ⟨Or.inl rfl, fun w h => by rw [Option.some_inj] at h; omega, by simp⟩
  | cons v V ih =>
    intro r q h
    rw [largest] at h
    obtain ⟨a1, a2, a3⟩ := ih _ _ h
    by_cases hd : d % v = 0
    · rw [if_pos hd] at a1 a2
      have hd' := Int.dvd_of_emod_eq_zero hd
      obtain ⟨l1, l2, l3⟩ := larger_spec v r
      have hq := a2 _ rfl
      refine ⟨?_, fun w hw => le_trans (l3 w hw) hq, fun w hw hwd => ?_⟩
      · rcases a1 with a1 | a1
        · rw [Option.some_inj] at a1
          rcases l1 with l1 | l1
          · right
            rw [← a1, l1]
            exact ⟨List.mem_cons_self, hd'⟩
          · left; rw [l1, a1]
        · exact Or.inr ⟨List.mem_cons_of_mem _ a1.1, a1.2⟩
      · rcases List.mem_cons.1 hw with rfl | hw
        · exact le_trans l2 hq
        · exact a3 w hw hwd
    · rw [if_neg hd] at a1 a2
      refine ⟨a1.imp id fun h => ⟨List.mem_cons_of_mem _ h.1, h.2⟩, a2, fun w hw hwd => ?_⟩
      rcases List.mem_cons.1 hw with rfl | hw
      · exact absurd (Int.emod_eq_zero_of_dvd hwd) hd
      · exact a3 w hw hwd

/-- The large prime of the twist that is written is the largest prime factor. -/
theorem twistL_spec (fuel : ℕ) (V : List ℕ) (hV : ∀ v ∈ V, v.Prime) (m : ℤ) (q : ℕ)
    (h : twistL fuel V m = .ok (some q)) :
    0 < m ∧ q ∈ V ∧ (q : ℤ) ∣ m ∧ ∀ r : ℕ, r.Prime → (r : ℤ) ∣ m → r ≤ q := by
  unfold twistL at h
  cases hs : stripAll fuel (fun v => v) V m with
  | ok d =>
    rw [hs, Res.ok_bind] at h
    split_ifs at h with h1
    · subst h1
      rw [Res.ok_inj] at h
      obtain ⟨a0, a1⟩ := stripAll_one hV hs
      obtain ⟨b1, _, b3⟩ := largest_spec m V none q h
      have b1 := b1.resolve_left (by simp)
      exact ⟨a0, b1.1, b1.2, fun r hr hd => b3 r (a1 r hr hd) hd⟩
    · rw [Res.ok_inj] at h; exact absurd h (by simp)
  | panic => rw [hs, Res.panic_bind] at h; exact absurd h (by simp)
  | diverge => rw [hs, Res.diverge_bind] at h; exact absurd h (by simp)

/-! ### Enough rounds -/

theorem strip_mono (v : ℤ) : ∀ (n m : ℕ) (d e : ℤ), n ≤ m → strip v n d = .ok e → strip v m d = .ok e := by
  intro n
  induction n with
  | zero => intro m d e _ h; exact absurd h (by simp [strip])
  | succ n ih =>
    intro m d e hm h
    obtain ⟨k, rfl⟩ : ∃ k, m = k + 1 := ⟨m - 1, by omega⟩
    unfold strip at h ⊢
    split_ifs at h ⊢ with hd
    · exact ih k _ _ (by omega) h
    · exact h

theorem stripAll_mono (g : ℕ → ℤ) {n m : ℕ} (hm : n ≤ m) : ∀ (V : List ℕ) (d e : ℤ), stripAll n g V d = .ok e →
    stripAll m g V d = .ok e := by
  intro V
  induction V with
  | nil => intro d e h; exact h
  | cons v V ih =>
    intro d e h
    rw [stripAll] at h ⊢
    cases hs : strip (g v) n d with
    | ok d' =>
      rw [hs, Res.ok_bind] at h
      rw [strip_mono _ _ _ _ _ hm hs, Res.ok_bind]
      exact ih _ _ h
    | panic => rw [hs, Res.panic_bind] at h; exact absurd h (by simp)
    | diverge => rw [hs, Res.diverge_bind] at h; exact absurd h (by simp)

theorem collect_mono (v : ℕ) : ∀ (n m : ℕ) (d : ℤ) (f : List ℕ) (r : ℤ × List ℕ), n ≤ m → collect v n d f = .ok r →
    collect v m d f = .ok r := by
  intro n
  induction n with
  | zero => intro m d f r _ h; exact absurd h (by simp [collect])
  | succ n ih =>
    intro m d f r hm h
    obtain ⟨k, rfl⟩ : ∃ k, m = k + 1 := ⟨m - 1, by omega⟩
    unfold collect at h ⊢
    split_ifs at h ⊢ with hd
    · exact ih k _ _ _ (by omega) h
    · exact h

theorem collectAll_mono {n m : ℕ} (hm : n ≤ m) : ∀ (V : List ℕ) (d : ℤ) (f r : List ℕ), collectAll n V d f = .ok r →
    collectAll m V d f = .ok r := by
  intro V
  induction V with
  | nil => intro d f r h; exact h
  | cons v V ih =>
    intro d f r h
    rw [collectAll] at h ⊢
    cases hs : collect v n d f with
    | ok x =>
      rw [hs, Res.ok_bind] at h
      rw [collect_mono _ _ _ _ _ _ hm hs, Res.ok_bind]
      exact ih _ _ _ h
    | panic => rw [hs, Res.panic_bind] at h; exact absurd h (by simp)
    | diverge => rw [hs, Res.diverge_bind] at h; exact absurd h (by simp)

theorem collect_spec (v : ℕ) : ∀ (n : ℕ) (d : ℤ) (f : List ℕ) (r : ℤ × List ℕ), collect v n d f = .ok r →
    ∃ k, r.2 = f ++ List.replicate k v ∧ d = r.1 * (v : ℤ) ^ k := by
  intro n
  induction n with
  | zero => intro d f r h; exact absurd h (by simp [collect])
  | succ n ih =>
    intro d f r h
    unfold collect at h
    split_ifs at h with hd
    · obtain ⟨k, h1, h2⟩ := ih _ _ _ h
      refine ⟨k + 1, by rw [h1, List.append_assoc, List.replicate_succ]; rfl, ?_⟩
      have := Int.ediv_mul_cancel (Int.dvd_of_emod_eq_zero hd)
      rw [← this, h2, pow_succ, mul_assoc]
    · rw [Res.ok_inj] at h
      subst h
      exact ⟨0, by simp, by rw [pow_zero, mul_one]⟩

/-- The factors that are written divide the number. -/
theorem collectAll_spec (n : ℕ) : ∀ (V : List ℕ) (d : ℤ) (f r : List ℕ), collectAll n V d f = .ok r →
    ∃ L : List ℕ, r = f ++ L ∧ (∀ v ∈ L, v ∈ V) ∧ ((L.prod : ℕ) : ℤ) ∣ d := by
  intro V
  induction V with
  | nil =>
    intro d f r h
    rw [collectAll, Res.ok_inj] at h
    exact ⟨[], by simp [h], by simp, by simp⟩
  | cons v V ih =>
    intro d f r h
    rw [collectAll] at h
    cases hs : collect v n d f with
    | ok x =>
      rw [hs, Res.ok_bind] at h
      obtain ⟨k, h1, h2⟩ := collect_spec _ _ _ _ _ hs
      obtain ⟨L, h3, h4, h5⟩ := ih _ _ _ h
      refine ⟨List.replicate k v ++ L, by rw [h3, h1, List.append_assoc], fun w hw => ?_, ?_⟩
      · rcases List.mem_append.1 hw with hw | hw
        · rw [List.eq_of_mem_replicate hw]; exact List.mem_cons_self
        · exact List.mem_cons_of_mem _ (h4 w hw)
      · rw [h2, List.prod_append, List.prod_replicate, Nat.cast_mul, Nat.cast_pow, mul_comm]
        exact mul_dvd_mul_right h5 _
    | panic => rw [hs, Res.panic_bind] at h; exact absurd h (by simp)
    | diverge => rw [hs, Res.diverge_bind] at h; exact absurd h (by simp)

theorem lower_total {m : ℕ} (u : ZMod m) (v : ℕ) (hv : 2 ≤ v) : ∀ (n d : ℕ), 0 < d → d < 2 ^ n →
    ∃ e, lower u v n d = .ok e ∧ 0 < e ∧ e ≤ d := by
  intro n
  induction n with
  | zero => intro d h0 h; omega
  | succ n ih =>
    intro d h0 h
    unfold lower
    split_ifs with h1 h2
    · exact ⟨d, rfl, h0, le_refl _⟩
    · have hd := Nat.dvd_of_mod_eq_zero h1
      have hpos : 0 < d / v := Nat.div_pos (Nat.le_of_dvd h0 hd) (by omega)
      have hlt : d / v < 2 ^ n := by
        rw [Nat.div_lt_iff_lt_mul (by omega)]
        calc d < 2 ^ n * 2 := by rwa [← pow_succ]
          _ ≤ 2 ^ n * v := Nat.mul_le_mul_left _ hv
      obtain ⟨e, h3, h4, h5⟩ := ih _ hpos hlt
      exact ⟨e, h3, h4, h5.trans (Nat.div_le_self _ _)⟩
    · exact ⟨d, rfl, h0, le_refl _⟩

theorem lowerAll_total {m : ℕ} (u : ZMod m) (n : ℕ) : ∀ (V : List ℕ) (d : ℕ), (∀ v ∈ V, 2 ≤ v) → 0 < d → d < 2 ^ n →
    ∃ e, lowerAll n u V d = .ok e := by
  intro V
  induction V with
  | nil => intro d _ _ _; exact ⟨d, rfl⟩
  | cons v V ih =>
    intro d hV h0 h
    obtain ⟨e, h1, h2, h3⟩ := lower_total u v (hV v List.mem_cons_self) n d h0 h
    rw [lowerAll, h1, Res.ok_bind]
    exact ih e (fun w hw => hV w (List.mem_cons_of_mem _ hw)) h2 (lt_of_le_of_lt h3 h)

/-- With all primes of `l - 1` verified the embedding degree is written. -/
theorem embedding_total (sage : ℕ → Bool) (n : ℕ) (V : List ℕ) (hV : ∀ v ∈ V, v.Prime) (p l : ℕ) (hl : l.Prime)
    (hn : l ≤ 2 ^ n) (hs : sage l = true) (hg : Nat.gcd l p = 1)
    (h : stripAll n (fun v => v) V ((l : ℤ) - 1) = .ok 1) :
    embedding sage n V p l = .ok (some (orderOf (p : ZMod l))) := by
  have h2 := hl.two_le
  obtain ⟨e, he⟩ := lowerAll_total (p : ZMod l) n V (l - 1) (fun v hv => (hV v hv).two_le) (by omega) (by omega)
  have hemb : embedding sage n V p l = .ok (some e) := by
    unfold embedding
    rw [if_pos ⟨hg, hs⟩, h, Res.ok_bind, if_pos rfl, he, Res.ok_bind]
  rw [hemb, (embedding_spec sage n V hV p l e hl hemb).2]

theorem jointAll_skip (n : ℕ) (d1 d2 : ℤ) : ∀ (V : List ℕ) (pre : ℕ) (j : ℝ),
    (∀ v ∈ V, ¬ (d1 % v = 0 ∨ d2 % v = 0)) → jointAll (n + 1) d1 d2 V pre j = .ok (pre, j) := by
  intro V
  induction V with
  | nil => intro pre j _; rfl
  | cons v V ih =>
    intro pre j h
    rw [jointAll, jointLoop, if_neg (h v List.mem_cons_self), Res.ok_bind]
    exact ih pre j (fun w hw => h w (List.mem_cons_of_mem _ hw))

theorem jointAll_append (n : ℕ) (d1 d2 : ℤ) : ∀ (V W : List ℕ) (pre : ℕ) (j : ℝ) (r : ℕ × ℝ),
    jointAll n d1 d2 V pre j = .ok r → jointAll n d1 d2 (V ++ W) pre j = jointAll n d1 d2 W r.1 r.2 := by
  intro V
  induction V with
  | nil =>
    intro W pre j r h
    rw [jointAll, Res.ok_inj] at h
    subst h
    rfl
  | cons v V ih =>
    intro W pre j r h
    rw [List.cons_append, jointAll]
    rw [jointAll] at h
    cases hs : jointLoop v n d1 d2 pre j with
    | ok x =>
      rw [hs, Res.ok_bind] at h
      rw [Res.ok_bind]
      exact ih W _ _ _ h
    | panic => rw [hs, Res.panic_bind] at h; exact absurd h (by simp)
    | diverge => rw [hs, Res.diverge_bind] at h; exact absurd h (by simp)

/-! ### A checker for lists of primes -/

/-- The exponent of `v` in `m`. -/
def valC (v : ℕ) : ℕ → ℕ → ℕ
  | 0, _ => 0
  | n + 1, m => if m % v = 0 then valC v n (m / v) + 1 else 0

theorem valC_spec (v : ℕ) (hv : v.Prime) : ∀ (n m : ℕ), 0 < m → m < 2 ^ n → valC v n m = padicValNat v m := by
  have : Fact v.Prime := ⟨hv⟩
  intro n
  induction n with
  | zero => intro m h0 h; omega
  | succ n ih =>
    intro m h0 h
    unfold valC
    split_ifs with hd
    · obtain ⟨c, rfl⟩ := Nat.dvd_of_mod_eq_zero hd
      have hc : c ≠ 0 := by rintro rfl; simp at h0
      rw [Nat.mul_div_cancel_left _ hv.pos, ih c (Nat.pos_of_ne_zero hc) ?_, padicValNat.mul hv.ne_zero hc,
        padicValNat.self hv.one_lt, add_comm]
      have := Nat.mul_le_mul_right c hv.two_le
      rw [pow_succ] at h
      omega
    · exact (padicValNat.eq_zero_of_not_dvd fun h => hd (Nat.mod_eq_zero_of_dvd h)).symm

/-- `factored`, computed. -/
def factoredC (n b : ℕ) : List ℕ → ℕ → ℕ
  | [], f => f
  | v :: vs, f => factoredC n b vs
      (if f ^ 2 ≤ n then
        if n % v = 1 then
          if Nat.gcd (Primality.powMod (n.log2 + 1) n b ((n - 1) / v) + n - 1) n = 1 then f * v ^ valC v (n.log2 + 1) (n - 1)
          else f
        else f
      else f)

theorem factoredC_spec (n b : ℕ) (hn : 1 < n) : ∀ (L : List ℕ) (f : ℕ), (∀ v ∈ L, v.Prime) →
    factored n b L f = factoredC n b L f := by
  intro L
  induction L with
  | nil => intro f _; rfl
  | cons v L ih =>
    intro f hL
    unfold factored factoredC
    have hu : IsUnit ((b : ZMod n) ^ ((n - 1) / v) - 1) ↔
        Nat.gcd (Primality.powMod (n.log2 + 1) n b ((n - 1) / v) + n - 1) n = 1 := by
      have hlt : (n - 1) / v < 2 ^ (n.log2 + 1) :=
        lt_of_le_of_lt ((Nat.div_le_self _ _).trans (Nat.sub_le _ _)) Nat.lt_log2_self
      rw [← Primality.powMod_spec (n.log2 + 1) n b _ hlt]
      have e : ((Primality.powMod (n.log2 + 1) n b ((n - 1) / v) : ℕ) : ZMod n) - 1 =
          ((Primality.powMod (n.log2 + 1) n b ((n - 1) / v) + n - 1 : ℕ) : ZMod n) := by
        rw [Nat.cast_sub (by omega), Nat.cast_add, ZMod.natCast_self, add_zero, Nat.cast_one]
      rw [e, ZMod.isUnit_iff_coprime]
    have hval := valC_spec v (hL v List.mem_cons_self) (n.log2 + 1) (n - 1) (by omega)
      (lt_of_le_of_lt (Nat.sub_le _ _) Nat.lt_log2_self)
    rw [ih _ (fun w hw => hL w (List.mem_cons_of_mem _ hw)), hval]
    congr 1
    by_cases h1 : f ^ 2 ≤ n
    · by_cases h2 : n % v = 1
      · by_cases h3 : IsUnit ((b : ZMod n) ^ ((n - 1) / v) - 1)
        · rw [if_pos ⟨h1, h2, h3⟩, if_pos h1, if_pos h2, if_pos (hu.1 h3)]
        · rw [if_neg (fun h => h3 h.2.2), if_pos h1, if_pos h2, if_neg (fun h => h3 (hu.2 h))]
      · rw [if_neg (fun h => h2 h.2.1), if_pos h1, if_neg h2]
    · rw [if_neg (fun h => h1 h.1), if_neg h1]

/-- One line of the list with the base that proves it. -/
def checkC (V : List ℕ) (n b : ℕ) : Bool :=
  decide (2 < n) && decide (b = 2 ∨ b = 3 ∨ b = 5) && decide (n ∉ V) &&
  decide (Primality.powMod (n.log2 + 1) n b (n - 1) % n = 1) &&
  decide (n < factoredC n b V.reverse 1 ^ 2) && decide (n % factoredC n b V.reverse 1 = 1)

/-- The whole list after `2`. -/
def chainC : List ℕ → List (ℕ × ℕ) → Bool
  | _, [] => true
  | V, x :: xs => checkC V x.1 x.2 && chainC (V ++ [x.1]) xs

theorem chainC_spec (sage : ℕ → Bool) (hs : ∀ n, n.Prime → sage n = true) : ∀ (xs : List (ℕ × ℕ)) (V : List ℕ),
    (∀ v ∈ V, v.Prime) → chainC V xs = true → (xs.map Prod.fst).foldl (addPrime sage) V = V ++ xs.map Prod.fst := by
  intro xs
  induction xs with
  | nil => intro V _ _; simp
  | cons x xs ih =>
    intro V hV h
    unfold chainC at h
    rw [Bool.and_eq_true] at h
    obtain ⟨h1, h2⟩ := h
    unfold checkC at h1
    simp only [Bool.and_eq_true, decide_eq_true_eq] at h1
    obtain ⟨⟨⟨⟨⟨c1, c2⟩, c3⟩, c4⟩, c5⟩, c6⟩ := h1
    have hf := factoredC_spec x.1 x.2 (by omega) V.reverse 1 (fun v hv => hV v (List.mem_reverse.1 hv))
    have hp : Proves V x.1 x.2 := by
      refine ⟨?_, by rw [hf]; exact c5, by rw [hf]; exact c6⟩
      rw [← Primality.powMod_spec (x.1.log2 + 1) x.1 x.2 _ (lt_of_le_of_lt (Nat.sub_le _ _) Nat.lt_log2_self)]
      exact (Primality.cast_mod_one (by omega)).2 c4
    have hprime := hp.prime hV
    have hstep : addPrime sage V x.1 = V ++ [x.1] := by
      unfold addPrime
      rw [if_neg (by rw [hs _ hprime]; simp), if_neg (by omega), if_pos, if_neg c3]
      refine ⟨x.2, ?_, ?_, hp⟩
      · rcases c2 with h | h | h <;> rw [h] <;> norm_num
      · omega
    rw [List.map_cons, List.foldl_cons, hstep, ih _ ?_ h2, List.append_assoc]
    · rfl
    · intro v hv
      rcases List.mem_append.1 hv with h | h
      · exact hV v h
      · rw [List.mem_singleton.1 h]; exact hprime

theorem verified_chain (sage : ℕ → Bool) (hs : ∀ n, n.Prime → sage n = true) (xs : List (ℕ × ℕ))
    (h : chainC [2] xs = true) : verified sage (2 :: xs.map Prod.fst) = 2 :: xs.map Prod.fst := by
  unfold verified
  have h2 : addPrime sage [] 2 = [2] := by
    unfold addPrime
    rw [if_neg (by rw [hs 2 Nat.prime_two]; simp), if_pos rfl, if_neg (by simp)]
    rfl
  rw [List.foldl_cons, h2, chainC_spec sage hs xs [2] (by simp [Nat.prime_two]) h]
  rfl

end SafeCurve
end Zerocaf
