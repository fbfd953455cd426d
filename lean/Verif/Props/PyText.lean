import Verif.Model.PyText
import Verif.Spec.Numerals
import Verif.Props.Tools

/-!
# C127: what the Python scripts print

The texts of both scripts for every number put in place of the one they contain.
-/

set_option exponentiation.threshold 600
set_option maxRecDepth 100000

namespace Zerocaf
namespace Props

open Numerals

/-! ### The texts, independent of the model -/

/-- A decimal numeral. -/
def dec (n : ℕ) : List Char := Nat.toDigits 10 n

/-- The digits of `n` in base `2 ^ 52`, the five lowest ones, in brackets. -/
def limbList (n : ℕ) : List Char := bracketed ((List.range 5).map fun i => dec (n / 2 ^ (52 * i) % 2 ^ 52))

/-- What the inversion script prints, if `y` is the almost inverse after `k` rounds and `r` the sequence of values in
the second phase. -/
def inverseLines (y k : ℕ) (r : ℕ → ℕ) : List Char :=
  "r:FieldElement".toList ++ limbList y ++ "\nr:FieldElement".toList ++ dec y ++ "\nk:".toList ++ dec k ++
    "\np:".toList ++ limbList p ++ "\n".toList ++
    (List.range (k - 253)).flatMap (fun i =>
      "iter: ".toList ++ dec i ++ ": FieldElement(".toList ++ limbList (r (i + 1)) ++ ")\n".toList) ++
    "(".toList ++ dec (r (k - 253)) ++ "L, ".toList ++ dec k ++ ")\nainv:FieldElement".toList ++
    limbList (r (k - 253)) ++ "\n".toList

/-! ### C127 -/

theorem py_modulus : PyText.modulus = p := by decide

/-- C127: the limbs that `fieldElement` prints. -/
theorem C127_field_element (a : ℕ) : PyText.fieldElement a = limbList a := by
  unfold PyText.fieldElement limbList bracketed dec Text.num
  simp only [List.range_succ, List.range_zero, List.nil_append, List.map_cons,
    List.map_nil, List.cons_append, Nat.div_div_eq_div_mul, ← pow_add, Nat.reduceAdd, Nat.reduceMul, pow_zero, Nat.div_one]
  simp [List.intercalate, List.intersperse]

theorem py_step_lt {p r : ℕ} (hp : p % 2 = 1) (h : r ≤ p) :
    (if r % 2 = 0 then (r >>> 1) % p else (r + p) >>> 1) ≤ p ∧
    2 * (if r % 2 = 0 then (r >>> 1) % p else (r + p) >>> 1) % p = r % p := by
  rw [Nat.shiftRight_eq_div_pow, Nat.shiftRight_eq_div_pow, pow_one]
  split
  · rename_i he
    rw [Nat.mod_eq_of_lt (show r / 2 < p by omega)]
    exact ⟨by omega, by rw [show 2 * (r / 2) = r by omega]⟩
  · rename_i he
    refine ⟨by omega, ?_⟩
    rw [show 2 * ((r + p) / 2) = r + p by omega, Nat.add_mod_right]

/-- The rounds of the second phase, as a sequence. -/
def pySeq (p y : ℕ) : ℕ → ℕ
  | 0 => y
  | i + 1 => if pySeq p y i % 2 = 0 then (pySeq p y i >>> 1) % p else (pySeq p y i + p) >>> 1

/-- The line of round `i`. -/
def pyLine (i r : ℕ) : List Char :=
  "iter: ".toList ++ dec i ++ ": FieldElement(".toList ++ limbList r ++ ")\n".toList

theorem py_line (i r : ℕ) : PyText.phase2Line i r = pyLine i r := by
  unfold PyText.phase2Line pyLine
  rw [C127_field_element]
  have e : ")\n".toList = [')', '\n'] := by decide
  rw [e]
  unfold dec Text.num
  rfl

theorem py_phase2 (p y n : ℕ) : ∀ i, PyText.phase2Loop p n i (pySeq p y i) =
    ((List.range n).flatMap (fun j => pyLine (i + j) (pySeq p y (i + j + 1))), pySeq p y (i + n)) := by
  induction n with
  | zero => intro i; rfl
  | succ n ih =>
    intro i
    have e : PyText.phase2Step p (pySeq p y i) = pySeq p y (i + 1) := by
      rw [pySeq, PyText.phase2Step]
    rw [PyText.phase2Loop, e, ih (i + 1), List.range_succ_eq_map, List.flatMap_cons, List.flatMap_map, py_line,
      show i + 1 + n = i + (n + 1) by omega, Nat.add_zero]
    have e2 : (fun j => pyLine (i + 1 + j) (pySeq p y (i + 1 + j + 1))) =
        (fun a => pyLine (i + a.succ) (pySeq p y (i + a.succ + 1))) := by
      funext j
      rw [show i + 1 + j = i + j.succ by omega]
    rw [e2]
    simp only [Nat.add_zero]

theorem py_loop (p n : ℕ) : ∀ r, Tools.phase2Loop p n r = pySeq p r n := by
  have key : ∀ n r, pySeq p r (n + 1) = pySeq p (if r % 2 = 0 then (r >>> 1) % p else (r + p) >>> 1) n := by
    intro n
    induction n with
    | zero => intro r; rfl
    | succ n ih => intro r; rw [pySeq, ih r]; rfl
  induction n with
  | zero => intro r; rfl
  | succ n ih => intro r; rw [Tools.phase2Loop, ih, key]

theorem py_script_text {fuel x y k : ℕ} (e : Tools.almostMontInv fuel x p = .ok ((y : ℤ), k)) :
    PyText.inverseScript fuel x = .ok (inverseLines y k (pySeq p y)) := by
  unfold PyText.inverseScript
  rw [py_modulus, e, Res.ok_bind]
  dsimp only
  rw [Int.toNat_natCast, show PyText.phase2Loop p (k - 253) 0 y = _ from py_phase2 p y (k - 253) 0, Res.pure_eq]
  dsimp only
  simp only [C127_field_element, Nat.zero_add]
  have e1 : "\nr:FieldElement".toList = ['\n'] ++ "r:FieldElement".toList := by decide
  have e2 : "\nk:".toList = ['\n'] ++ "k:".toList := by decide
  have e3 : "\np:".toList = ['\n'] ++ "p:".toList := by decide
  have e4 : ")\nainv:FieldElement".toList = [')', '\n'] ++ "ainv:FieldElement".toList := by decide
  have e5 : "(".toList = ['('] := by decide
  have e6 : "L, ".toList = ['L', ',', ' '] := by decide
  have e7 : "\n".toList = ['\n'] := by decide
  unfold inverseLines pyLine
  rw [e1, e2, e3, e4, e5, e6, e7]
  unfold dec Text.num
  simp only [List.append_assoc]

/-- C127: the inversion script. For every number below the prime it prints the almost inverse `y` and the number of
rounds `k`, then one line for each of the `k - 253` halvings, then the value that these end with; this is the inverse
times `2 ^ 253` and never the inverse, as which it is printed. -/
theorem C127_inverse_script (x fuel : ℕ) (hx : 0 < x) (hlt : x < p) (hf : 507 ≤ fuel) :
    ∃ (y k : ℕ) (r : ℕ → ℕ), PyText.inverseScript fuel x = .ok (inverseLines y k r) ∧
      253 ≤ k ∧ k ≤ 506 ∧ x * y % p = 2 ^ k % p ∧ y ≤ p ∧ r 0 = y ∧
      (∀ i < k - 253, r (i + 1) ≤ p ∧ 2 * r (i + 1) % p = r i % p) ∧
      r (k - 253) < p ∧ x * r (k - 253) % p = 2 ^ 253 % p ∧ x * r (k - 253) % p ≠ 1 := by
  obtain ⟨y, k, e, h1, h2, h3, h4⟩ := C96_script x fuel hx hlt hf
  have hc : Nat.Coprime p x := (Nat.Prime.coprime_iff_not_dvd p_prime).2 fun h => by
    have := Nat.le_of_dvd hx h; omega
  have hl : x.log2 ≤ 252 := by
    rw [← log2_p, Nat.le_log2 (by decide)]
    exact le_trans (Nat.log2_self_le (by omega)) hlt.le
  obtain ⟨y', k', e', _, b2, b3, _⟩ := C96_coprime p x fuel (by decide) (by decide) hc (by rw [log2_p]; omega)
  rw [e, Res.ok_inj, Prod.mk.injEq, Nat.cast_inj] at e'
  obtain ⟨rfl, rfl⟩ := e'
  have hs : Tools.phase2 p y k = pySeq p y (k - 253) := py_loop _ _ _
  rw [hs] at h3 h4
  have hb : ∀ i, pySeq p y i ≤ p := by
    intro i
    induction i with
    | zero => exact b2.le
    | succ i ih => exact (py_step_lt (by decide) ih).1
  refine ⟨y, k, pySeq p y, py_script_text e, h1, h2, b3, b2.le, rfl, fun i _ => ?_, h3, h4, ?_⟩
  · exact py_step_lt (by decide) (hb i)
  · rw [h4]; decide

/-- C127: for zero the script prints the prime itself and no error. -/
theorem C127_inverse_zero (fuel : ℕ) (hf : 0 < fuel) :
    PyText.inverseScript fuel 0 = .ok (inverseLines p 0 fun _ => p) := by
  rw [py_script_text (C96_zero p fuel hf)]
  unfold inverseLines
  rw [show 0 - 253 = 0 by omega, pySeq, List.range_zero, List.flatMap_nil, List.flatMap_nil]

example : 0 < PyText.inverseInput ∧ PyText.inverseInput < p := by decide

/-- C127: the number that the inversion script contains: it ends with this value. -/
theorem C127_inverse_committed (fuel : ℕ) (hf : 507 ≤ fuel) :
    ∃ (y k : ℕ) (r : ℕ → ℕ), PyText.inverseScript fuel PyText.inverseInput = .ok (inverseLines y k r) ∧
      r (k - 253) = 6212713543497218934774382636585403198179797233021777704721117439056971833167 := by
  obtain ⟨y, k, r, h1, -, -, -, -, -, -, h2, h3, -⟩ :=
    C127_inverse_script PyText.inverseInput fuel (by decide) (by decide) hf
  refine ⟨y, k, r, h1, ?_⟩
  have h4 : PyText.inverseInput * 6212713543497218934774382636585403198179797233021777704721117439056971833167 % p =
      2 ^ 253 % p := by decide
  have hc : Nat.gcd p PyText.inverseInput = 1 := by decide +kernel
  have h5 : PyText.inverseInput * r (k - 253) ≡
      PyText.inverseInput * 6212713543497218934774382636585403198179797233021777704721117439056971833167 [MOD p] :=
    h3.trans h4.symm
  exact Nat.ModEq.eq_of_lt_of_lt (Nat.ModEq.cancel_left_of_coprime hc h5) h2 (by decide)

/-- The list of the root script, unless the number is a multiple of the modulus. -/
theorem py_root_form {p fuel : ℕ} {y : ℤ} {l : List ℕ} (h2 : 2 < p) (h0 : ¬ y % (p : ℤ) = 0)
    (e : Tools.primeModSqrt fuel y p = .ok l) : l = [] ∨ ∃ x, l = [x, p - x] := by
  unfold Tools.primeModSqrt at e
  have hn := Int.emod_nonneg y (show (p : ℤ) ≠ 0 by omega)
  have h1 : ¬ (y % (p : ℤ)).toNat = 0 := by omega
  dsimp only at e
  rw [if_neg h1, if_neg (show ¬ p = 2 by omega)] at e
  split at e
  · exact Or.inl ((Res.ok_inj _ _).mp e).symm
  · right
    split at e
    · exact ⟨_, ((Res.ok_inj _ _).mp e).symm⟩
    · revert e
      generalize Tools.splitLoop fuel (p - 1) 0 = a
      cases a with
      | ok a =>
        rw [Res.ok_bind]
        obtain ⟨q, s⟩ := a
        dsimp only
        generalize Tools.nonResLoop p fuel 1 = b
        cases b with
        | ok b =>
          rw [Res.ok_bind]
          generalize Tools.sqrtLoop p fuel _ _ _ _ = d
          cases d with
          | ok d =>
            rw [Res.ok_bind]
            intro e
            exact ⟨d, ((Res.ok_inj _ _).mp e).symm⟩
          | panic => intro e; cases e
          | diverge => intro e; cases e
        | panic => intro e; cases e
        | diverge => intro e; cases e
      | panic => intro e; cases e
      | diverge => intro e; cases e

/-- C127: the root script. It prints `[0]` for the multiples of the prime, `[]` for numbers without root, and otherwise
both roots, as long integers. -/
theorem C127_root_script (y : ℤ) (fuel : ℕ) (hf : p ≤ fuel) :
    ((p : ℤ) ∣ y → PyText.rootScript fuel y = .ok "[0]\n".toList) ∧
    ((¬ ∃ r : ℤ, (p : ℤ) ∣ r ^ 2 - y) → PyText.rootScript fuel y = .ok "[]\n".toList) ∧
    (¬ (p : ℤ) ∣ y → (∃ r : ℤ, (p : ℤ) ∣ r ^ 2 - y) → ∃ r : ℕ, 0 < r ∧ r < p ∧ (p : ℤ) ∣ (r : ℤ) ^ 2 - y ∧
      PyText.rootScript fuel y = .ok ("[".toList ++ dec r ++ "L, ".toList ++ dec (p - r) ++ "L]\n".toList)) := by
  obtain ⟨l, e, hn, hl⟩ := C97_all_roots y p fuel p_prime hf
  have hp0 : (p : ℤ) ≠ 0 := by decide
  unfold PyText.rootScript
  rw [py_modulus, e, Res.ok_bind, Res.pure_eq]
  have hdvd : (p : ℤ) ∣ y ↔ y % p = 0 := Int.dvd_iff_emod_eq_zero
  -- a root below the prime for every root
  have hred : ∀ r : ℤ, (p : ℤ) ∣ r ^ 2 - y → (r % p).toNat ∈ l := by
    intro r hr
    have h0 := Int.emod_nonneg r hp0
    have h1 := Int.emod_lt_of_pos r (show (0 : ℤ) < p by decide)
    rw [hl]
    refine ⟨by omega, ?_⟩
    rw [Int.toNat_of_nonneg h0]
    have h2 : r % p ≡ r [ZMOD p] := Int.mod_modEq r p
    have h3 := (h2.pow 2).sub_right y
    exact (Int.ModEq.dvd_iff h3).2 hr
  refine ⟨fun h => ?_, fun h => ?_, fun h0 ⟨r, hr⟩ => ?_⟩
  · rw [if_pos (hdvd.1 h)]; rfl
  · have hne : ¬ (y % (p : ℤ) = 0) := fun h0 => h ⟨0, by rw [zero_pow two_ne_zero, zero_sub, dvd_neg]; exact hdvd.2 h0⟩
    rw [if_neg hne]
    have : l = [] := List.eq_nil_iff_forall_not_mem.2 fun z hz => h ⟨z, ((hl z).1 hz).2⟩
    rw [this]; rfl
  · rw [if_neg (fun h => h0 (hdvd.2 h))]
    -- the form of the list
    have form := py_root_form (by decide) (fun h => h0 (hdvd.2 h)) e
    rcases form with rfl | ⟨x, rfl⟩
    · exact absurd (hred r hr) List.not_mem_nil
    · have hx := (hl x).1 List.mem_cons_self
      refine ⟨x, ?_, hx.1, hx.2, ?_⟩
      · rcases Nat.eq_zero_or_pos x with rfl | h
        · exfalso
          apply h0
          have := hx.2
          rw [Nat.cast_zero, zero_pow two_ne_zero, zero_sub, dvd_neg] at this
          exact this
        · exact h
      · rw [PyText.longs, PyText.longs]
        have e1 : "[".toList = ['['] := by decide
        have e2 : "L, ".toList = ['L', ',', ' '] := by decide
        have e3 : "L]\n".toList = ['L', ']', '\n'] := by decide
        rw [e1, e2, e3]
        unfold dec Text.num
        simp only [List.append_assoc, List.cons_append, List.nil_append]

example : ∃ r : ℤ, (p : ℤ) ∣ r ^ 2 - 4 := ⟨2, by norm_num⟩

/-- C127: the number that the root script contains: it prints these two roots. -/
theorem C127_root_committed (fuel : ℕ) (hf : p ≤ fuel) :
    let r := 212143902466533654648692468339010321013769000075938027931554420146734895990
    PyText.rootScript fuel PyText.rootInput =
        .ok ("[".toList ++ dec r ++ "L, ".toList ++ dec (p - r) ++ "L]\n".toList) ∨
      PyText.rootScript fuel PyText.rootInput =
        .ok ("[".toList ++ dec (p - r) ++ "L, ".toList ++ dec r ++ "L]\n".toList) := by
  intro r
  have hr : (p : ℤ) ∣ (r : ℤ) ^ 2 - (PyText.rootInput : ℤ) := by decide
  have hrp : r < p := by decide
  obtain ⟨z, h1, h2, h3, h4⟩ := (C127_root_script (PyText.rootInput : ℤ) fuel hf).2.2 (by decide) ⟨r, hr⟩
  have h5 : (p : ℤ) ∣ ((z : ℤ) - r) * (z + r) := by
    have h := dvd_sub h3 hr
    have e : (z : ℤ) ^ 2 - (PyText.rootInput : ℤ) - ((r : ℤ) ^ 2 - (PyText.rootInput : ℤ)) = ((z : ℤ) - r) * (z + r) := by
      ring
    rwa [e] at h
  have h0 : 0 < r := by decide
  rcases (Nat.prime_iff_prime_int.1 p_prime).dvd_or_dvd h5 with h6 | h6
  · left
    have h7 := Int.eq_zero_of_abs_lt_dvd h6 (by rw [abs_lt]; constructor <;> omega)
    rw [show z = r by omega] at h4
    exact h4
  · right
    have h7 := Int.eq_zero_of_abs_lt_dvd (dvd_sub_self_right.2 h6) (by rw [abs_lt]; constructor <;> omega)
    rw [show z = p - r by omega, show p - (p - r) = r by omega] at h4
    exact h4

end Props
end Zerocaf
