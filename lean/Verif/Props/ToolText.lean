import Verif.Model.ToolText
import Verif.Spec.Numerals
import Verif.Props.Tools
import Verif.Props.Docs
import Verif.Props.Text
import Mathlib.Data.Nat.Digits.Lemmas

/-!
# C125: the texts that the number tools read and print

Which texts the tools accept, what number an accepted text stands for, and what is printed for it. Texts that are no
numerals panic. Splitting and joining are inverse as texts.
-/

set_option exponentiation.threshold 600
set_option maxRecDepth 100000

namespace Zerocaf
namespace Props

open ToolText Numerals

/-! ### Parsing -/

theorem digitVal_big {c : Char} (h : 128 ≤ c.toNat) : digitVal c = 255 := by
  unfold digitVal
  rw [if_neg (by omega), if_neg (by omega), if_neg (by omega)]

theorem isDigit_iff (c : Char) (d : ℕ) : IsDigit c d ↔ d < 36 ∧ digitVal c = d := by
  constructor
  · intro h
    have hd : d < 36 := by
      by_contra hn
      have h1 : smallDigits[d]? = none := List.getElem?_eq_none (le_trans (show smallDigits.length ≤ 36 by decide) (not_lt.1 hn))
      have h2 : capitalDigits[d]? = none :=
        List.getElem?_eq_none (le_trans (show capitalDigits.length ≤ 36 by decide) (not_lt.1 hn))
      unfold IsDigit at h
      rw [h1, h2] at h
      simp at h
    refine ⟨hd, ?_⟩
    have key : ∀ d < 36, (smallDigits[d]?.map digitVal = some d) ∧ (capitalDigits[d]?.map digitVal = some d) := by decide
    rcases h with h | h
    · have := (key d hd).1
      rw [h] at this
      exact Option.some.inj this
    · have := (key d hd).2
      rw [h] at this
      exact Option.some.inj this
  · rintro ⟨hd, rfl⟩
    by_cases hc : c.toNat < 128
    · have key : ∀ n < 128, digitVal (Char.ofNat n) < 36 →
          smallDigits[digitVal (Char.ofNat n)]? = some (Char.ofNat n) ∨
          capitalDigits[digitVal (Char.ofNat n)]? = some (Char.ofNat n) := by decide
      have := key c.toNat hc
      rw [Char.ofNat_toNat] at this
      exact this hd
    · rw [digitVal_big (not_lt.1 hc)] at hd
      omega

theorem digitLoop_iff (r : ℕ) (hr : r ≤ 36) : ∀ (s : List Char) (ds : List ℕ), digitLoop r s = some ds ↔
    List.Forall₂ IsDigit (s.filter (· ≠ '_')) ds ∧ ∀ d ∈ ds, d < r
  | [], ds => by
    simp only [digitLoop, List.filter_nil, List.forall₂_nil_left_iff, Option.some.injEq]
    exact ⟨fun h => by subst h; exact ⟨rfl, fun _ h => absurd h List.not_mem_nil⟩, fun h => h.1.symm⟩
  | b :: s, ds => by
    rw [digitLoop]
    by_cases hb : b = '_'
    · rw [if_pos hb, List.filter_cons_of_neg (by simp [hb])]
      exact digitLoop_iff r hr s ds
    · rw [if_neg hb, List.filter_cons_of_pos (by simp [hb])]
      by_cases hd : digitVal b < r
      · rw [if_pos hd, Option.map_eq_some_iff]
        constructor
        · rintro ⟨es, he, rfl⟩
          obtain ⟨h1, h2⟩ := (digitLoop_iff r hr s es).1 he
          refine ⟨List.Forall₂.cons ((isDigit_iff _ _).2 ⟨by omega, rfl⟩) h1, fun d h => ?_⟩
          rcases List.mem_cons.1 h with h | h
          · rw [h]; exact hd
          · exact h2 d h
        · rintro ⟨h1, h2⟩
          cases h1 with
          | @cons _ d _ es hd' ht =>
            obtain ⟨_, rfl⟩ := (isDigit_iff _ _).1 hd'
            exact ⟨es, (digitLoop_iff r hr s es).2 ⟨ht, fun d h => h2 d (List.mem_cons_of_mem _ h)⟩, rfl⟩
      · rw [if_neg hd]
        constructor
        · intro h; cases h
        · rintro ⟨h1, h2⟩
          cases h1 with
          | @cons _ d _ es hd' ht =>
            obtain ⟨_, rfl⟩ := (isDigit_iff _ _).1 hd'
            exact absurd (h2 _ List.mem_cons_self) hd

theorem horner (r : ℕ) : ∀ (ds : List ℕ) (a : ℕ), ds.foldl (fun a d => a * r + d) a =
    a * r ^ ds.length + Nat.ofDigits r ds.reverse
  | [], a => by simp
  | d :: ds, a => by
    rw [List.foldl_cons, horner r ds, List.reverse_cons, Nat.ofDigits_append, Nat.ofDigits_singleton, List.length_cons,
      List.length_reverse]
    ring

/-- What the body of a numeral is, for the parser. -/
theorem body_iff (r n : ℕ) (hr : r ≤ 36) (b : List Char) :
    (if b = [] then none else if b.head? = some '_' then none
      else (digitLoop r b).map (fun v => v.foldl (fun a d => a * r + d) 0)) = some n ↔
    ∃ ds : List ℕ, b.head? ≠ some '_' ∧ ds ≠ [] ∧ List.Forall₂ IsDigit (b.filter (· ≠ '_')) ds ∧ (∀ d ∈ ds, d < r) ∧
      n = Nat.ofDigits r ds.reverse := by
  by_cases h0 : b = []
  · rw [if_pos h0]
    constructor
    · intro h; cases h
    · rintro ⟨ds, _, h2, h3, _⟩
      rw [h0, List.filter_nil, List.forall₂_nil_left_iff] at h3
      exact absurd h3 h2
  · rw [if_neg h0]
    by_cases h1 : b.head? = some '_'
    · rw [if_pos h1]
      constructor
      · intro h; cases h
      · rintro ⟨ds, h, _⟩; exact absurd h1 h
    · rw [if_neg h1, Option.map_eq_some_iff]
      constructor
      · rintro ⟨ds, h, rfl⟩
        obtain ⟨h2, h3⟩ := (digitLoop_iff r hr b ds).1 h
        refine ⟨ds, h1, ?_, h2, h3, ?_⟩
        · rintro rfl
          rw [List.forall₂_nil_right_iff] at h2
          cases b with
          | nil => exact h0 rfl
          | cons x t =>
            rw [List.filter_cons_of_pos (by
              simp only [List.head?_cons, Option.some.injEq] at h1
              simpa using h1)] at h2
            cases h2
        · rw [horner, zero_mul, zero_add]
      · rintro ⟨ds, _, _, h3, h4, h5⟩
        refine ⟨ds, (digitLoop_iff r hr b ds).2 ⟨h3, h4⟩, ?_⟩
        rw [horner, zero_mul, zero_add, h5]

theorem not_numeral_plus {b : List Char} {ds : List ℕ}
    (h : List.Forall₂ IsDigit (('+' :: b).filter (· ≠ '_')) ds) : False := by
  rw [List.filter_cons_of_pos (by decide)] at h
  cases h with
  | cons h _ =>
    obtain ⟨h1, h2⟩ := (isDigit_iff _ _).1 h
    rw [show digitVal '+' = 255 by decide] at h2
    omega

theorem parseBig_iff (r n : ℕ) (hr : r ≤ 36) (s : List Char) : parseBig r s = some n ↔ Numeral r s n := by
  unfold parseBig Numeral
  rw [body_iff r n hr]
  by_cases hs : s.head? = some '+' ∧ s.tail.head? ≠ some '+'
  · have e : strip s = s.tail := if_pos hs
    have e' : s = '+' :: s.tail := by
      cases s with
      | nil => exact absurd hs.1 (by simp)
      | cons x t => rw [List.head?_cons, Option.some.injEq] at hs; rw [hs.1, List.tail_cons]
    rw [e]
    constructor
    · rintro ⟨ds, h⟩
      exact ⟨_, ds, Or.inr e', h⟩
    · rintro ⟨b, ds, rfl | h, h1⟩
      · rw [e'] at h1
        exact (not_numeral_plus h1.2.2.1).elim
      · rw [h, List.tail_cons]
        exact ⟨ds, h1⟩
  · have e : strip s = s := if_neg hs
    rw [e]
    constructor
    · rintro ⟨ds, h⟩
      exact ⟨_, ds, Or.inl rfl, h⟩
    · rintro ⟨b, ds, rfl | rfl, h1⟩
      · exact ⟨ds, h1⟩
      · rw [List.tail_cons, List.head?_cons, not_and_not_right] at hs
        have := hs rfl
        cases b with
        | nil => cases this
        | cons y u =>
          rw [List.head?_cons, Option.some.injEq] at this
          subst this
          exact (not_numeral_plus h1.2.2.1).elim

theorem readBig_of {s : List Char} {n : ℕ} (h : Numeral 10 s n) : readBig s = .ok n := by
  unfold readBig fromStrRadix
  rw [if_pos (by decide), Res.ok_bind, (parseBig_iff 10 n (by decide) s).2 h]
  rfl

theorem readBig_not {s : List Char} (h : ¬ ∃ n, Numeral 10 s n) : readBig s = .panic := by
  unfold readBig fromStrRadix
  rw [if_pos (by decide), Res.ok_bind]
  cases e : parseBig 10 s with
  | none => rfl
  | some n => exact absurd ⟨n, (parseBig_iff 10 n (by decide) s).1 e⟩ h

/-- Printed decimal numbers are numerals. -/
theorem numeral_num (n : ℕ) : Numeral 10 (Text.num n) n := by
  have dig : ∀ x ∈ Text.num n, x.isDigit = true := fun x hx => Nat.isDigit_of_mem_toDigits (by decide) (by decide) hx
  have us : ∀ x ∈ Text.num n, x ≠ '_' := fun x hx h => by
    have := dig x hx
    rw [h] at this
    exact absurd this (by decide)
  have ef : (Text.num n).filter (· ≠ '_') = Text.num n := List.filter_eq_self.2 (fun x hx => by simpa using us x hx)
  have val : ∀ x : Char, x.isDigit = true → digitVal x = x.toNat - '0'.toNat ∧ digitVal x < 10 := fun x h => by
    have h' : 48 ≤ x.toNat ∧ x.toNat ≤ 57 := by
      simp only [Char.isDigit, Bool.and_eq_true, decide_eq_true_eq, ge_iff_le, UInt32.le_iff_toNat_le] at h
      exact h
    unfold digitVal
    rw [if_pos h', show '0'.toNat = 48 from rfl]
    omega
  refine ⟨Text.num n, (Text.num n).map digitVal, Or.inl rfl, ?_, ?_, ?_, ?_, ?_⟩
  · intro h
    exact us _ (List.mem_of_head? h) rfl
  · intro h
    exact num_ne_nil n (List.map_eq_nil_iff.1 h)
  · rw [ef, List.forall₂_map_right_iff, List.forall₂_same]
    intro x hx
    exact (isDigit_iff _ _).2 ⟨by have := (val x (dig x hx)).2; omega, rfl⟩
  · intro d hd
    obtain ⟨x, hx, rfl⟩ := List.mem_map.1 hd
    exact (val x (dig x hx)).2
  · have h := @Nat.ofDigitChars_ten_toDigits n
    rw [Nat.ofDigitChars_eq_foldl] at h
    have hh := horner 10 ((Text.num n).map digitVal) 0
    rw [zero_mul, zero_add] at hh
    rw [← hh, List.foldl_map]
    conv_lhs => rw [← h]
    have : ∀ (l : List Char) (a : ℕ), (∀ x ∈ l, x.isDigit = true) →
        l.foldl (fun sofar c => 10 * sofar + (c.toNat - '0'.toNat)) a = l.foldl (fun a c => a * 10 + digitVal c) a := by
      intro l
      induction l with
      | nil => intro a _; rfl
      | cons x t ih =>
        intro a hx
        rw [List.foldl_cons, List.foldl_cons, (val x (hx x List.mem_cons_self)).1, mul_comm 10 a]
        exact ih _ (fun y hy => hx y (List.mem_cons_of_mem _ hy))
    exact this _ _ dig

/-- C125: parsing. For a radix from 2 to 36 a text is accepted exactly if it is a numeral, and gives the number it
stands for; any other text is an error and any other radix a panic. -/
theorem C125_parse (s : List Char) (r : ℕ) :
    ((2 ≤ r ∧ r ≤ 36) → (∀ n, fromStrRadix s r = .ok (some n) ↔ Numeral r s n) ∧
      (fromStrRadix s r = .ok none ↔ ¬ ∃ n, Numeral r s n)) ∧
    (¬ (2 ≤ r ∧ r ≤ 36) → fromStrRadix s r = .panic) := by
  unfold fromStrRadix
  refine ⟨fun hr => ?_, fun hr => if_neg hr⟩
  rw [if_pos hr]
  simp only [Res.ok_inj]
  refine ⟨fun n => parseBig_iff r n hr.2 s, ?_⟩
  rw [Option.eq_none_iff_forall_ne_some]
  exact ⟨fun h ⟨n, hn⟩ => h n ((parseBig_iff r n hr.2 s).2 hn), fun h n hn => h ⟨n, (parseBig_iff r n hr.2 s).1 hn⟩⟩

/-- No text is a numeral for two numbers. -/
theorem C125_numeral_unique {r : ℕ} {s : List Char} {n m : ℕ} (hr : r ≤ 36) (h : Numeral r s n) (h' : Numeral r s m) :
    n = m := Option.some.inj (((parseBig_iff r n hr s).2 h).symm.trans ((parseBig_iff r m hr s).2 h'))

example : Numeral 16 "+1a_01F".toList 106527 ∧ (¬ ∃ n, Numeral 10 "-1".toList n) ∧ (¬ ∃ n, Numeral 10 "".toList n) ∧
    (¬ ∃ n, Numeral 10 "++1".toList n) ∧ (¬ ∃ n, Numeral 10 "_1".toList n) ∧ ¬ ∃ n, Numeral 10 "0x1f".toList n := by
  refine ⟨(parseBig_iff _ _ (by decide) _).1 (by decide), ?_, ?_, ?_, ?_, ?_⟩ <;>
  · rw [← (C125_parse _ 10).1 (by decide) |>.2]
    decide

/-! ### Splitting and joining -/

theorem u64Loop_num : ∀ (l : List Char) (a : ℕ), (∀ x ∈ l, x.isDigit = true) →
    l.foldl (fun sofar c => 10 * sofar + (c.toNat - '0'.toNat)) a < 2 ^ 64 →
    u64Loop l a = some (l.foldl (fun sofar c => 10 * sofar + (c.toNat - '0'.toNat)) a)
  | [], a, _, _ => rfl
  | x :: t, a, hx, hl => by
    have h := hx x List.mem_cons_self
    have h' : 48 ≤ x.toNat ∧ x.toNat ≤ 57 := by
      simp only [Char.isDigit, Bool.and_eq_true, decide_eq_true_eq, ge_iff_le, UInt32.le_iff_toNat_le] at h
      exact h
    have mono : ∀ (l : List Char) (a : ℕ), a ≤ l.foldl (fun sofar c => 10 * sofar + (c.toNat - '0'.toNat)) a := by
      intro l
      induction l with
      | nil => intro a; exact le_rfl
      | cons y u ih => intro a; exact le_trans (by omega) (ih (10 * a + (y.toNat - '0'.toNat)))
    rw [List.foldl_cons, show '0'.toNat = 48 from rfl] at hl ⊢
    have hb := lt_of_le_of_lt (mono t _) hl
    rw [u64Loop, if_pos ⟨h'.1, h'.2, by omega⟩, mul_comm a 10]
    exact u64Loop_num t _ (fun y hy => hx y (List.mem_cons_of_mem _ hy)) hl

/-- The number of a list of decimal digits. -/
def decVal (l : List Char) : ℕ := l.foldl (fun sofar c => 10 * sofar + (c.toNat - '0'.toNat)) 0

theorem u64Loop_some : ∀ (l : List Char) (a n : ℕ), a < 2 ^ 64 → u64Loop l a = some n → (∀ x ∈ l, x.isDigit = true) ∧
    l.foldl (fun sofar c => 10 * sofar + (c.toNat - '0'.toNat)) a = n ∧ n < 2 ^ 64
  | [], a, n, ha, h => by
    rw [u64Loop, Option.some.injEq] at h
    exact ⟨by simp, h, by omega⟩
  | x :: t, a, n, _, h => by
    rw [u64Loop] at h
    split_ifs at h with hx
    obtain ⟨h1, h2, h3⟩ := u64Loop_some t _ n hx.2.2 h
    refine ⟨List.forall_mem_cons.2 ⟨?_, h1⟩, ?_, h3⟩
    · simp only [Char.isDigit, Bool.and_eq_true, decide_eq_true_eq, ge_iff_le, UInt32.le_iff_toNat_le]
      exact ⟨hx.1, hx.2.1⟩
    · rw [List.foldl_cons, show '0'.toNat = 48 from rfl, mul_comm 10 a]
      exact h2

/-- C125: limbs are read as the standard library reads them: decimal digits, at least one, after at most one plus sign,
with a value below `2 ^ 64`. -/
theorem C125_u64 (s : List Char) (n : ℕ) : parseU64 s = some n ↔
    n < 2 ^ 64 ∧ ∃ t, t ≠ [] ∧ (s = t ∨ s = '+' :: t) ∧ (∀ x ∈ t, x.isDigit = true) ∧ decVal t = n := by
  constructor
  · intro h
    unfold parseU64 at h
    split at h
    · cases h
    · cases h
    · rename_i t hne
      obtain ⟨h1, h2, h3⟩ := u64Loop_some _ 0 n (by decide) h
      exact ⟨h3, t, fun e => hne (by rw [e]), Or.inr rfl, h1, h2⟩
    · rename_i hne _ _
      obtain ⟨h1, h2, h3⟩ := u64Loop_some _ 0 n (by decide) h
      exact ⟨h3, s, hne, Or.inl rfl, h1, h2⟩
  · rintro ⟨hn, t, ht, hs, hd, hv⟩
    have hl := u64Loop_num t 0 hd (by rw [← hv] at hn; exact hn)
    have hl' : u64Loop t 0 = some n := by rw [hl]; exact congrArg some hv
    rcases hs with rfl | rfl
    · unfold parseU64
      split
      · exact absurd rfl ht
      · exact absurd (hd '+' List.mem_cons_self) (by decide)
      · exact absurd (hd '+' List.mem_cons_self) (by decide)
      · exact hl'
    · unfold parseU64
      split
      · rename_i h; cases h
      · rename_i h
        exact absurd (List.cons.inj h).2 ht
      · rename_i h
        rw [← (List.cons.inj h).2]
        exact hl'
      · rename_i h
        exact absurd rfl (h t)

example : parseU64 "+18446744073709551615".toList = some (2 ^ 64 - 1) ∧ parseU64 "18446744073709551616".toList = none ∧
    parseU64 "+".toList = none := by decide

theorem limb_ok {x : ℕ} (hx : x < 2 ^ 64) : limb x = .ok x := by
  have dig : ∀ y ∈ Text.num x, y.isDigit = true := fun y hy => Nat.isDigit_of_mem_toDigits (by decide) (by decide) hy
  have e : parseU64 (Text.num x) = u64Loop (Text.num x) 0 := by
    unfold parseU64
    split
    · rename_i h; exact absurd h (num_ne_nil x)
    · rename_i h
      have := dig '+' (by rw [h]; exact List.mem_cons_self)
      exact absurd this (by decide)
    · rename_i h
      have := dig '+' (by rw [h]; exact List.mem_cons_self)
      exact absurd this (by decide)
    · rfl
  have h := @Nat.ofDigitChars_ten_toDigits x
  rw [Nat.ofDigitChars_eq_foldl] at h
  unfold limb
  have := u64Loop_num (Text.num x) 0 dig (by unfold Text.num; rw [h]; exact hx)
  unfold Text.num at this e ⊢
  rw [e, this, h]
  rfl

theorem limbs_ok {a : L5} (h : a.WF) : limbs a = .ok a := by
  obtain ⟨h0, h1, h2, h3, h4⟩ := h
  unfold limbs
  rw [limb_ok (by omega), Res.ok_bind, limb_ok (by omega), Res.ok_bind, limb_ok (by omega), Res.ok_bind,
    limb_ok (by omega), Res.ok_bind, limb_ok (by omega), Res.ok_bind]
  rfl

theorem read52 : readBig "4503599627370496".toList = .ok 4503599627370496 := by decide
theorem read51 : readBig "2251799813685248".toList = .ok 2251799813685248 := by decide

theorem to52_of {s : List Char} {n : ℕ} (h : Numeral 10 s n) : toScalarBase52 s = .ok (Misc.toBase52 n) := by
  unfold toScalarBase52
  rw [read52, Res.ok_bind, readBig_of h, Res.ok_bind]
  exact limbs_ok (C90_base52 n (Misc.toBase52 n)).1

theorem to51_of {s : List Char} {n : ℕ} (h : Numeral 10 s n) : toFieldElem51 s = .ok (Tools.toBase51 n) := by
  unfold toFieldElem51
  rw [read51, Res.ok_bind, readBig_of h, Res.ok_bind]
  refine limbs_ok (a := Tools.toBase51 n) ?_
  unfold Tools.toBase51 L5.WF
  dsimp only
  omega

/-- C125: splitting a text into limbs of 52 bits. A numeral gives the limbs of its number modulo `2^260`, without panic
whatever the size; every other text panics. -/
theorem C125_split52 (s : List Char) :
    (∀ n, Numeral 10 s n → ∃ a : L5, toScalarBase52 s = .ok a ∧ a.WF ∧ a.val = n % 2 ^ 260) ∧
    ((¬ ∃ n, Numeral 10 s n) → toScalarBase52 s = .panic) := by
  refine ⟨fun n h => ⟨_, to52_of h, (C90_base52 n (Misc.toBase52 n)).1, (C90_base52 n (Misc.toBase52 n)).2.1⟩, fun h => ?_⟩
  unfold toScalarBase52
  rw [read52, Res.ok_bind, readBig_not h]
  rfl

/-- C125: splitting a text into limbs of 51 bits, likewise. -/
theorem C125_split51 (s : List Char) :
    (∀ n, Numeral 10 s n → ∃ a : L5, toFieldElem51 s = .ok a ∧
      (∀ x ∈ Text.limbs a, x < 2 ^ 51) ∧ Nat.ofDigits (2 ^ 51) (Text.limbs a) = n % 2 ^ 255) ∧
    ((¬ ∃ n, Numeral 10 s n) → toFieldElem51 s = .panic) := by
  refine ⟨fun n h => ⟨_, to51_of h, ?_, ?_⟩, fun h => ?_⟩
  · unfold Tools.toBase51 Text.limbs
    dsimp only
    simp only [List.forall_mem_cons, List.not_mem_nil, false_implies, implies_true, and_true]
    omega
  · unfold Tools.toBase51 Text.limbs
    dsimp only
    simp only [Nat.ofDigits_cons, Nat.ofDigits_nil]
    omega
  · unfold toFieldElem51
    rw [read51, Res.ok_bind, readBig_not h]
    rfl

/-- C125: joining limbs of 52 bits prints the decimal numeral of their number on a line, also for limbs that are not
reduced. -/
theorem C125_join52 (a : L5) : fromScalarBase52 a = .ok (Text.num a.val ++ ['\n']) := by
  unfold fromScalarBase52
  rw [read52, Res.ok_bind, Res.pure_eq]
  have := (C90_base52 0 a).2.2.1
  unfold Misc.fromBase52 at this
  rw [this]
  rfl

/-- C125: joining limbs of 51 bits, likewise. -/
theorem C125_join51 (a : L5) : fromFieldElem51 a = .ok (Text.num (Nat.ofDigits (2 ^ 51) (Text.limbs a)) ++ ['\n']) := by
  unfold fromFieldElem51
  rw [read51, Res.ok_bind, Res.pure_eq]
  unfold line
  rw [show Nat.ofDigits (2 ^ 51) (Text.limbs a) = 0 + 2251799813685248 ^ 0 * a.l0 + 2251799813685248 ^ 1 * a.l1 +
    2251799813685248 ^ 2 * a.l2 + 2251799813685248 ^ 3 * a.l3 + 2251799813685248 ^ 4 * a.l4 by
    unfold Text.limbs
    simp only [Nat.ofDigits_cons, Nat.ofDigits_nil]
    omega]

/-- C125: the round trips. Splitting the decimal text of a number below `2^260` and joining prints that text; joining
limbs of 52 bits and splitting what is printed gives the limbs. -/
theorem C125_round_trip (n : ℕ) (a : L5) :
    (n < 2 ^ 260 → (toScalarBase52 (Text.num n) >>= fromScalarBase52) = .ok (Text.num n ++ ['\n'])) ∧
    (n < 2 ^ 255 → (toFieldElem51 (Text.num n) >>= fromFieldElem51) = .ok (Text.num n ++ ['\n'])) ∧
    (a.WF → (fromScalarBase52 a >>= fun t => toScalarBase52 t.dropLast) = .ok a) := by
  refine ⟨fun h => ?_, fun h => ?_, fun h => ?_⟩
  · obtain ⟨b, e, _, hv⟩ := (C125_split52 _).1 n (numeral_num n)
    rw [e, Res.ok_bind, C125_join52, hv, Nat.mod_eq_of_lt h]
  · obtain ⟨b, e, _, hv⟩ := (C125_split51 _).1 n (numeral_num n)
    rw [e, Res.ok_bind, C125_join51, hv, Nat.mod_eq_of_lt h]
  · rw [C125_join52, Res.ok_bind, List.dropLast_concat]
    rw [to52_of (numeral_num a.val), ← (C90_base52 0 a).2.2.1, (C90_base52 0 a).2.2.2.2.2 h]

/-! ### Bytes and radixes -/

theorem bytesLoop_eq : ∀ (f n : ℕ), n < 2 ^ f → bytesLoop f n = Nat.digits 256 n
  | 0, n, h => by
    obtain rfl : n = 0 := by omega
    rw [bytesLoop, Nat.digits_zero]
  | f + 1, n, h => by
    rw [bytesLoop]
    split_ifs with h0
    · rw [h0, Nat.digits_zero]
    · rw [Nat.digits_def' (by decide) (Nat.pos_of_ne_zero h0), bytesLoop_eq f (n / 256) (by rw [pow_succ] at h; omega)]

theorem lt_bits (n : ℕ) : n < 2 ^ Misc.bits n := by
  unfold Misc.bits
  split_ifs with h
  · rw [h]; decide
  · exact Nat.lt_log2_self

theorem hexItems_eq : ∀ l : List ℕ, hexItems l = [',', ' '].intercalate (l.map (Nat.toDigits 16)) ++ [']']
  | [] => rfl
  | [x] => by
    rw [hexItems]
    simp [List.intercalate]
  | x :: y :: r => by
    rw [hexItems, hexItems_eq (y :: r)]
    simp [List.intercalate, List.append_assoc]

theorem foldr_bytes (l : List UInt8) :
    l.foldr (fun b a => b.toNat + 256 * a) 0 = Nat.ofDigits 256 (l.map UInt8.toNat) := by
  induction l with
  | nil => rfl
  | cons x t ih => rw [List.foldr_cons, ih, List.map_cons, Nat.ofDigits_cons]

/-- C125: the byte tools. For a numeral the first one prints the bytes of the number, least significant first, as a
bracketed list of hexadecimal numbers: the shortest nonempty list of bytes with that value. Any other text panics. The
second one prints the decimal numeral of the value of a list of bytes, so it takes those bytes back to the number. -/
theorem C125_bytes (s : List Char) :
    (∀ n, Numeral 10 s n → ∃ bs : List UInt8,
      hexBytesLe s = .ok ("Encoding result -> ".toList ++ bracketed (bs.map (fun b => Nat.toDigits 16 b.toNat)) ++ ['\n']) ∧
      bs ≠ [] ∧ Nat.ofDigits 256 (bs.map UInt8.toNat) = n ∧ numFromBytesLe bs = Text.num n ++ ['\n'] ∧
      ∀ cs : List UInt8, cs ≠ [] → Nat.ofDigits 256 (cs.map UInt8.toNat) = n → bs.length ≤ cs.length) ∧
    ((¬ ∃ n, Numeral 10 s n) → hexBytesLe s = .panic) := by
  refine ⟨fun n h => ?_, fun h => ?_⟩
  · have hlt : ∀ x ∈ toBytesLe n, x < 256 := by
      unfold toBytesLe
      split_ifs with h0
      · simp
      · rw [bytesLoop_eq _ _ (lt_bits n)]
        exact fun x hx => Nat.digits_lt_base (by decide) hx
    have hval : Nat.ofDigits 256 (toBytesLe n) = n := by
      unfold toBytesLe
      split_ifs with h0
      · rw [h0]; rfl
      · rw [bytesLoop_eq _ _ (lt_bits n), Nat.ofDigits_digits]
    have hm : ((toBytesLe n).map UInt8.ofNat).map UInt8.toNat = toBytesLe n := by
      rw [List.map_map]
      conv_rhs => rw [← List.map_id (toBytesLe n)]
      refine List.map_congr_left fun x hx => ?_
      exact UInt8.toNat_ofNat_of_lt' (hlt x hx)
    have hne : toBytesLe n ≠ [] := by
      unfold toBytesLe
      split_ifs with h0
      · simp
      · rw [bytesLoop_eq _ _ (lt_bits n)]
        exact Nat.digits_ne_nil_iff_ne_zero.2 h0
    refine ⟨(toBytesLe n).map UInt8.ofNat, ?_, ?_, ?_, ?_, ?_⟩
    · unfold hexBytesLe
      rw [readBig_of h, Res.ok_bind, Res.pure_eq, hexItems_eq]
      have e : ((toBytesLe n).map UInt8.ofNat).map (fun b => Nat.toDigits 16 b.toNat) =
          (((toBytesLe n).map UInt8.ofNat).map UInt8.toNat).map (Nat.toDigits 16) := by
        rw [List.map_map, List.map_map, List.map_map]; rfl
      rw [e, hm]
      rfl
    · intro e
      exact hne (List.map_eq_nil_iff.1 e)
    · rw [hm, hval]
    · unfold numFromBytesLe line
      rw [foldr_bytes, hm, hval]
    · intro cs hc hv
      rw [List.length_map]
      unfold toBytesLe
      split_ifs with h0
      · cases cs with
        | nil => exact absurd rfl hc
        | cons x t => simp
      · rw [bytesLoop_eq _ _ (lt_bits n), ← hv]
        have hl : ∀ x ∈ cs.map UInt8.toNat, x < 256 := by
          intro x hx
          obtain ⟨b, _, rfl⟩ := List.mem_map.1 hx
          exact b.toNat_lt
        have hb := Nat.ofDigits_lt_base_pow_length (b := 256) (by decide) hl
        rw [List.length_map] at hb
        exact (Nat.digits_length_le_iff (b := 256) (by decide) _).2 hb
  · unfold hexBytesLe
    rw [readBig_not h]
    rfl

/-- C125: the radix tool prints the decimal numeral of the number a text stands for, and panics on any other text and
on any radix outside 2 to 36. -/
theorem C125_radix (s : List Char) (r : ℕ) :
    (∀ n, 2 ≤ r → r ≤ 36 → Numeral r s n → fromRadixToRadix10 s r = .ok (Text.num n ++ ['\n'])) ∧
    (¬ (2 ≤ r ∧ r ≤ 36 ∧ ∃ n, Numeral r s n) → fromRadixToRadix10 s r = .panic) := by
  unfold fromRadixToRadix10
  refine ⟨fun n h1 h2 h => ?_, fun h => ?_⟩
  · rw [(((C125_parse s r).1 ⟨h1, h2⟩).1 n).2 h]
    rfl
  · by_cases hr : 2 ≤ r ∧ r ≤ 36
    · rw [((C125_parse s r).1 hr).2.2 (fun hn => h ⟨hr.1, hr.2, hn⟩)]
      rfl
    · rw [(C125_parse s r).2 hr]
      rfl

/-! ### Points, `reduction`, `main` and `phase1` -/

/-- C125: the point tool. Four numerals give the point with these coordinates modulo `2^260`, and it prints exactly as
the point of the library with these limbs does; if one text is no numeral the tool panics. -/
theorem C125_point (x y z t : List Char) :
    (∀ i j k l, Numeral 10 x i → Numeral 10 y j → Numeral 10 z k → Numeral 10 t l →
      ∃ P : EdPoint, newPoint x y z t = .ok P ∧ P.X.WF ∧ P.Y.WF ∧ P.Z.WF ∧ P.T.WF ∧ P.X.val = i % 2 ^ 260 ∧
        P.Y.val = j % 2 ^ 260 ∧ P.Z.val = k % 2 ^ 260 ∧ P.T.val = l % 2 ^ 260) ∧
    (∀ P : EdPoint, pointText P = Text.edwards P) ∧
    (¬ ((∃ n, Numeral 10 x n) ∧ (∃ n, Numeral 10 y n) ∧ (∃ n, Numeral 10 z n) ∧ ∃ n, Numeral 10 t n) →
      newPoint x y z t = .panic) := by
  refine ⟨fun i j k l hi hj hk hl => ?_, fun P => ?_, fun h => ?_⟩
  · obtain ⟨X, e1, w1, v1⟩ := (C125_split52 x).1 i hi
    obtain ⟨Y, e2, w2, v2⟩ := (C125_split52 y).1 j hj
    obtain ⟨Z, e3, w3, v3⟩ := (C125_split52 z).1 k hk
    obtain ⟨T, e4, w4, v4⟩ := (C125_split52 t).1 l hl
    refine ⟨⟨X, Y, Z, T⟩, ?_, w1, w2, w3, w4, v1, v2, v3, v4⟩
    unfold newPoint
    rw [e1, Res.ok_bind, e2, Res.ok_bind, e3, Res.ok_bind, e4]
    rfl
  · have e1 : "
        EdwardsPoint {
            X: FieldElement(".toList = "
        EdwardsPoint {
            X: ".toList ++ "FieldElement(".toList := by decide
    have e2 : "),
            Y: FieldElement(".toList = ")".toList ++ (",
            Y: ".toList ++ "FieldElement(".toList) := by decide
    have e3 : "),
            Z: FieldElement(".toList = ")".toList ++ (",
            Z: ".toList ++ "FieldElement(".toList) := by decide
    have e4 : "),
            T: FieldElement(".toList = ")".toList ++ (",
            T: ".toList ++ "FieldElement(".toList) := by decide
    have e5 : ")
        };".toList = ")".toList ++ "
        };".toList := by decide
    unfold pointText Text.edwards Text.field
    rw [e1, e2, e3, e4, e5]
    simp only [List.append_assoc]
  · unfold newPoint
    by_cases hx : ∃ n, Numeral 10 x n
    · obtain ⟨i, hi⟩ := hx
      rw [to52_of hi, Res.ok_bind]
      by_cases hy : ∃ n, Numeral 10 y n
      · obtain ⟨j, hj⟩ := hy
        rw [to52_of hj, Res.ok_bind]
        by_cases hz : ∃ n, Numeral 10 z n
        · obtain ⟨k, hk⟩ := hz
          rw [to52_of hk, Res.ok_bind, (C125_split52 t).2 (fun ht => h ⟨⟨i, hi⟩, ⟨j, hj⟩, ⟨k, hk⟩, ht⟩)]
          rfl
        · rw [(C125_split52 z).2 hz]; rfl
      · rw [(C125_split52 y).2 hy]; rfl
    · rw [(C125_split52 x).2 hx]; rfl

/-- C125: the Montgomery demonstration. It panics for even moduli. For an odd modulus of `n` bits and two residues it
prints their products with `2^n` modulo `m`, recovers the residues from them, and prints the power. -/
theorem C125_reduction (m x1 x2 : ℕ) :
    (m % 2 = 0 → reduction m x1 x2 = .panic) ∧
    (m % 2 = 1 → x1 < m → x2 < m → ∃ n, m < 2 ^ n ∧ 2 ^ n ≤ 2 * m ∧
      reduction m x1 x2 = .ok (entry "b = " 2 ++ entry "n = " n ++ entry "r = " (2 ^ n) ++ entry "m = " m ++
        entry "t1 = " (x1 * (2 ^ (2 * n) % m)) ++ entry "t2 = " (x2 * (2 ^ (2 * n) % m)) ++
        entry "r1 = " (x1 * 2 ^ n % m) ++ entry "r2 = " (x2 * 2 ^ n % m) ++ entry "Original x1: " x1 ++
        entry "Recovered from r1: " x1 ++ entry "Original x2: " x2 ++ entry "Recovered from r2: " x2 ++
        "Montgomery computation of x1 ^ x2 mod m :\n".toList ++ entry "" (x1 ^ x2 % m))) := by
  refine ⟨fun h => ?_, fun h h1 h2 => ?_⟩
  · unfold reduction
    rw [(C90_reduce m).1 h]
    rfl
  · obtain ⟨s, es, hn, _, _, hx⟩ := (C90_reduce m).2 h
    have es' := es
    rw [Misc.Mont.new, if_neg (by omega), Option.some.injEq] at es'
    have em : s.m = m := by rw [← es']
    have en : s.n = Misc.bits m := by rw [← es']
    have er : s.rrm = 2 ^ (2 * s.n) % m := by rw [en, ← es', Nat.shiftLeft_eq, one_mul, mul_comm]
    refine ⟨s.n, hn, ?_, ?_⟩
    · rw [en]
      unfold Misc.bits
      rw [if_neg (by omega), pow_succ, mul_comm]
      exact Nat.mul_le_mul_left 2 (Nat.log2_self_le (by omega))
    · unfold reduction
      rw [es]
      simp only [unwrap, Res.ok_bind, Res.pure_eq]
      rw [(hx x1 h1).2, (hx x2 h2).2, (hx x1 h1).1, (hx x2 h2).1, em, er, Nat.shiftLeft_eq, one_mul]

example : ∃ t, reduction 15 7 11 = .ok t ∧ ("r1 = 7\n\n".toList) <:+: t := ⟨_, rfl, by decide⟩

/-- C125: `main` prints the limbs of the constant by which scalars are halved, the inverse of two modulo `L`, and those
of `2^248`. -/
theorem C125_main : ∃ a b : L5, ToolText.main = .ok (Text.slice (Text.limbs a) ++ '\n' :: (Text.slice (Text.limbs b) ++ ['\n'])) ∧
    a.WF ∧ b.WF ∧ a = Scalar.INVERSE_MOD_TWO ∧ 2 * a.val % ell = 1 ∧ a.val < ell ∧ b.val = 2 ^ 248 :=
  ⟨Misc.toBase52 452312848583266388373324160190187140059081152887999797648174285421238281266,
    Misc.toBase52 452312848583266388373324160190187140051835877600158453279131187530910662656,
    by decide +kernel, by decide +kernel, by decide +kernel, by decide +kernel, by decide +kernel, by decide +kernel,
    by decide +kernel⟩

theorem limbText_ok (n : ℕ) : limbText n = .ok (Text.slice (Text.limbs (Misc.toBase52 n))) := by
  unfold limbText
  rw [to52_of (numeral_num n)]
  rfl

theorem roundText_ok (q : Tools.KState) : ∃ t, roundText q = .ok t := by
  unfold roundText
  rw [limbText_ok, limbText_ok, limbText_ok, limbText_ok]
  exact ⟨_, rfl⟩

theorem phase1Loop_iff : ∀ (n : ℕ) (q : Tools.KState), ∃ t,
    phase1Loop n q = (Tools.kLoop n q >>= fun q' => .ok (t, q'))
  | 0, q => ⟨[], rfl⟩
  | n + 1, q => by
    rw [phase1Loop, Tools.kLoop]
    split_ifs with h
    · obtain ⟨t, ht⟩ := roundText_ok (Tools.kStep q)
      obtain ⟨t', ht'⟩ := phase1Loop_iff n (Tools.kStep q)
      rw [ht, Res.ok_bind, ht']
      refine ⟨t ++ t', ?_⟩
      cases Tools.kLoop n (Tools.kStep q) <;> rfl
    · exact ⟨[], rfl⟩

theorem readP : readBig "7237005577332262213973186563042994240832148273380272487819684194273658967345".toList =
    .ok Tools.phase1Modulus := by decide +kernel

/-- C125: what `phase1` prints never makes it panic or stop: with its text it returns what the bare computation
returns, and its last line is the result. -/
theorem C125_phase1 (fuel x y : ℕ) :
    Tools.phase1 fuel x = .ok y ↔ ∃ t, ToolText.phase1 fuel x = .ok (t, y) ∧
      ("Outside if: ".toList ++ Text.num y ++ ['\n']) <:+ t := by
  unfold Tools.phase1 ToolText.phase1
  rw [readP, Res.ok_bind]
  obtain ⟨t, ht⟩ := phase1Loop_iff fuel ⟨Tools.phase1Modulus, x, 0, 1, 0⟩
  rw [ht]
  cases hk : Tools.kLoop fuel ⟨Tools.phase1Modulus, x, 0, 1, 0⟩ with
  | panic => exact ⟨(fun h => by cases h), (fun ⟨_, h, _⟩ => by cases h)⟩
  | diverge => exact ⟨(fun h => by cases h), (fun ⟨_, h, _⟩ => by cases h)⟩
  | ok q =>
    obtain ⟨t', ht'⟩ : ∃ t', phase1Reduce Tools.phase1Modulus q.r =
        .ok (t', if q.r ≥ Tools.phase1Modulus then q.r - Tools.phase1Modulus else q.r) := by
      unfold phase1Reduce
      split_ifs with hr
      · rw [limbText_ok, Res.ok_bind]; exact ⟨_, rfl⟩
      · exact ⟨_, rfl⟩
    simp only [Res.ok_bind, ht']
    generalize (if q.r ≥ Tools.phase1Modulus then q.r - Tools.phase1Modulus else q.r) = r
    by_cases hle : r ≤ Tools.phase1Modulus
    · rw [if_pos hle, if_pos hle]
      generalize Tools.phase1Modulus - r = z
      constructor
      · intro h
        rw [Res.ok_inj] at h
        subst h
        refine ⟨_, rfl, ⟨t ++ t', ?_⟩⟩
        unfold line
        simp only [List.append_assoc]
      · rintro ⟨t'', h, _⟩
        rw [Res.ok_inj, Prod.mk.injEq] at h
        rw [h.2]
    · rw [if_neg hle, if_neg hle]
      exact ⟨(fun h => by cases h), (fun ⟨_, h, _⟩ => by cases h)⟩

/-- The five digits of `n` to base `2 ^ 52` as they are printed. -/
def digits52 (n : ℕ) : List Char := Text.slice ((List.range 5).map fun i => n / 2 ^ (52 * i) % 2 ^ 52)

/-- The line for `name`. -/
def nameLine (name : List Char) (n : ℕ) : List Char := name ++ digits52 n ++ ['\n']

theorem limbText_digits (n : ℕ) : limbText n = .ok (digits52 n) := by
  rw [limbText_ok, Res.ok_inj]
  unfold digits52 Text.limbs Misc.toBase52
  simp [List.range_succ, Nat.div_div_eq_div_mul]

/-- The text of one round. -/
def roundLines (q : Tools.KState) : List Char :=
  "Values on iteration: ".toList ++ Text.num q.k ++ ": \n".toList ++ nameLine "r = ".toList q.r ++
    nameLine "s = ".toList q.s ++ nameLine "v = ".toList q.v ++ nameLine "u = ".toList q.u

theorem roundText_lines (q : Tools.KState) : roundText q = .ok (roundLines q) := by
  unfold roundText roundLines nameLine
  simp only [limbText_digits, Res.ok_bind, Res.pure_eq]
  rw [Res.ok_inj]
  have h1 : ": \nr = ".toList = ": \n".toList ++ "r = ".toList := by decide
  have h2 : "\ns = ".toList = ['\n'] ++ "s = ".toList := by decide
  have h3 : "\nv = ".toList = ['\n'] ++ "v = ".toList := by decide
  have h4 : "\nu = ".toList = ['\n'] ++ "u = ".toList := by decide
  rw [h1, h2, h3, h4]
  simp only [List.append_assoc]

theorem phase1Loop_text : ∀ (n : ℕ) (q q' : Tools.KState) (t : List Char), phase1Loop n q = .ok (t, q') →
    ∃ m, m < n ∧ q' = Tools.kStep^[m] q ∧ q'.v = 0 ∧ (∀ i < m, 0 < (Tools.kStep^[i] q).v) ∧
      t = (List.range m).flatMap fun i => roundLines (Tools.kStep^[i + 1] q)
  | 0, _, _, _, h => by cases h
  | n + 1, q, q', t, h => by
    rw [phase1Loop] at h
    split_ifs at h with hv
    · rw [roundText_lines, Res.ok_bind] at h
      cases e : phase1Loop n (Tools.kStep q) with
      | panic => rw [e] at h; cases h
      | diverge => rw [e] at h; cases h
      | ok z =>
        obtain ⟨t', z'⟩ := z
        rw [e] at h
        obtain ⟨m, hm, h1, h2, h3, h4⟩ := phase1Loop_text n _ _ _ e
        simp only [Res.ok_bind, Res.pure_eq] at h
        rw [Res.ok_inj, Prod.mk.injEq] at h
        refine ⟨m + 1, by omega, ?_, ?_, ?_, ?_⟩
        · rw [← h.2, h1, Function.iterate_succ_apply]
        · rw [← h.2, h2]
        · intro i hi
          rcases i with _ | i
          · exact hv
          · rw [Function.iterate_succ_apply]
            exact h3 i (by omega)
        · rw [← h.1, h4, List.range_succ_eq_map, List.flatMap_cons, List.flatMap_map]
          rfl
    · rw [Res.ok_inj, Prod.mk.injEq] at h
      refine ⟨0, by omega, h.2.symm, ?_, by simp, by simp [h.1.symm]⟩
      rw [← h.2]; omega

/-- C125: the whole text of `phase1`: the state after every round, the reduced value if there is one, the result. -/
theorem C125_phase1_text (fuel x y : ℕ) (t : List Char) (h : ToolText.phase1 fuel x = .ok (t, y)) :
    ∃ m, (Tools.kStep^[m] ⟨Tools.phase1Modulus, x, 0, 1, 0⟩).v = 0 ∧
      (∀ i < m, 0 < (Tools.kStep^[i] ⟨Tools.phase1Modulus, x, 0, 1, 0⟩).v) ∧
      t = ((List.range m).flatMap fun i => roundLines (Tools.kStep^[i + 1] ⟨Tools.phase1Modulus, x, 0, 1, 0⟩)) ++
        (if Tools.phase1Modulus ≤ (Tools.kStep^[m] ⟨Tools.phase1Modulus, x, 0, 1, 0⟩).r then
          nameLine "Inside if: ".toList
            ((Tools.kStep^[m] ⟨Tools.phase1Modulus, x, 0, 1, 0⟩).r - Tools.phase1Modulus) else []) ++
        ("Outside if: ".toList ++ Text.num y ++ ['\n']) := by
  unfold ToolText.phase1 at h
  rw [readP, Res.ok_bind] at h
  cases e : phase1Loop fuel ⟨Tools.phase1Modulus, x, 0, 1, 0⟩ with
  | panic => rw [e] at h; cases h
  | diverge => rw [e] at h; cases h
  | ok z =>
    obtain ⟨t1, q⟩ := z
    rw [e] at h
    obtain ⟨m, -, h1, h2, h3, h4⟩ := phase1Loop_text _ _ _ _ e
    refine ⟨m, by rw [← h1]; exact h2, h3, ?_⟩
    rw [← h1, ← h4]
    have hr : phase1Reduce Tools.phase1Modulus q.r = .ok (if Tools.phase1Modulus ≤ q.r then
        nameLine "Inside if: ".toList (q.r - Tools.phase1Modulus) else [],
        if Tools.phase1Modulus ≤ q.r then q.r - Tools.phase1Modulus else q.r) := by
      unfold phase1Reduce nameLine
      split_ifs
      · rw [limbText_digits, Res.ok_bind]
      · rfl
    simp only [Res.ok_bind, hr] at h
    generalize (if Tools.phase1Modulus ≤ q.r then q.r - Tools.phase1Modulus else q.r) = r at h
    by_cases hle : r ≤ Tools.phase1Modulus
    swap
    · rw [if_neg hle] at h; cases h
    rw [if_pos hle] at h
    generalize Tools.phase1Modulus - r = w at h
    rw [Res.ok_inj, Prod.mk.injEq] at h
    rw [← h.1, ← h.2]
    unfold line
    simp only [List.append_assoc]

example : ∃ t, ToolText.phase1 600 1 = .ok t := by
  obtain ⟨y, -, h, -⟩ := C96_phase1 1 600 (by decide) (by decide)
  obtain ⟨t, e, -⟩ := (C125_phase1 600 1 y).1 h
  exact ⟨_, e⟩

end Props
end Zerocaf
