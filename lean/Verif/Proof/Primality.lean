import Mathlib.NumberTheory.LucasPrimality
import Mathlib.Tactic.NormNum.Prime
import Verif.Spec.Basic

/-!
# Primality of the field modulus and of the subgroup order

Pratt certificates checked by the kernel.
-/

namespace Zerocaf
namespace Primality

/-- Modular exponentiation by repeated squaring. -/
def powModAux (m : Nat) : Nat → Nat → Nat → Nat → Nat
  | 0, _, _, acc => acc
  | f + 1, b, e, acc =>
    powModAux m f (b * b % m) (e / 2) (if e % 2 = 1 then acc * b % m else acc)

/-- `b ^ e mod m`, for exponents below `2^f`. -/
def powMod (f m b e : Nat) : Nat := powModAux m f b e 1

theorem powModAux_spec (m : Nat) : ∀ f b e acc, e < 2 ^ f →
    (powModAux m f b e acc : ZMod m) = (acc : ZMod m) * (b : ZMod m) ^ e := by
  intro f
  induction f with
  | zero =>
    intro b e acc h
    have : e = 0 := by simpa using h
    subst this
    simp [powModAux]
  | succ f ih =>
    intro b e acc h
    rw [powModAux, ih _ _ _ (by rw [pow_succ] at h; omega)]
    have he := Nat.div_add_mod e 2
    have hb : ((b * b % m : ℕ) : ZMod m) ^ (e / 2) = (b : ZMod m) ^ (2 * (e / 2)) := by
      rw [ZMod.natCast_mod, Nat.cast_mul, pow_mul, pow_two]
    rw [hb]
    split
    · rename_i h1
      rw [h1] at he
      rw [ZMod.natCast_mod, Nat.cast_mul, mul_assoc, ← pow_succ']
      rw [he]
    · have h0 : e % 2 = 0 := by omega
      rw [h0, add_zero] at he
      rw [he]

theorem powMod_spec (f m b e : Nat) (h : e < 2 ^ f) :
    (powMod f m b e : ZMod m) = (b : ZMod m) ^ e := by
  unfold powMod
  rw [powModAux_spec m f b e 1 h]
  simp

/-- The computational part of a Pratt certificate: `fs` lists prime factors with exponents. -/
def check (f n g : Nat) (fs : List (Nat × Nat)) : Bool :=
  decide (1 < n) && decide (n < 2 ^ f) && decide ((fs.map fun q => q.1 ^ q.2).prod = n - 1) &&
  decide (powMod f n g (n - 1) % n = 1) &&
  fs.all fun q => decide (powMod f n g ((n - 1) / q.1) % n ≠ 1)

theorem prime_dvd_of_prod {q : Nat} (hq : q.Prime) :
    ∀ fs : List (Nat × Nat), (∀ x ∈ fs, x.1.Prime) → q ∣ (fs.map fun q => q.1 ^ q.2).prod →
      ∃ x ∈ fs, x.1 = q
  | [], _, h => by simp at h; exact absurd h hq.one_lt.ne'
  | y :: fs, hp, h => by
    rw [List.map_cons, List.prod_cons] at h
    rcases (Nat.Prime.dvd_mul hq).1 h with h | h
    · have := (Nat.prime_dvd_prime_iff_eq hq (hp y (by simp))).1 (hq.dvd_of_dvd_pow h)
      exact ⟨y, by simp, this.symm⟩
    · obtain ⟨x, hx, e⟩ := prime_dvd_of_prod hq fs (fun x hx => hp x (by simp [hx])) h
      exact ⟨x, by simp [hx], e⟩

theorem cast_mod_one {n a : Nat} (h1 : 1 < n) : ((a : ZMod n) = 1) ↔ a % n = 1 := by
  have : ((a : ZMod n) = 1) ↔ ((a : ZMod n) = ((1 : ℕ) : ZMod n)) := by rw [Nat.cast_one]
  rw [this, ZMod.natCast_eq_natCast_iff']
  rw [Nat.mod_eq_of_lt h1]

theorem pratt (f n g : Nat) (fs : List (Nat × Nat)) (h : check f n g fs = true)
    (hp : ∀ x ∈ fs, x.1.Prime) : n.Prime := by
  unfold check at h
  simp only [Bool.and_eq_true, decide_eq_true_eq, List.all_eq_true] at h
  obtain ⟨⟨⟨⟨h1, hf⟩, h2⟩, h3⟩, h4⟩ := h
  refine lucas_primality n (g : ZMod n) ?_ ?_
  · rw [← powMod_spec f n g (n - 1) (by omega)]
    exact (cast_mod_one h1).2 h3
  · intro q hq hd
    obtain ⟨x, hx, rfl⟩ := prime_dvd_of_prod hq fs hp (by rw [h2]; exact hd)
    rw [← powMod_spec f n g _ (lt_of_le_of_lt (Nat.div_le_self _ _) (by omega))]
    intro e
    exact h4 x hx ((cast_mod_one h1).1 e)

theorem prime_14741173 : Nat.Prime 14741173 := by
  refine pratt 24 14741173 2
    [(2, 2), (3, 2), (409477, 1)] (by decide +kernel) ?_
  simp only [List.forall_mem_cons, List.not_mem_nil, false_implies, implies_true, and_true]
  exact ⟨by norm_num, by norm_num, by norm_num⟩

theorem prime_58964693 : Nat.Prime 58964693 := by
  refine pratt 26 58964693 2
    [(2, 2), (14741173, 1)] (by decide +kernel) ?_
  simp only [List.forall_mem_cons, List.not_mem_nil, false_implies, implies_true, and_true]
  exact ⟨by norm_num, prime_14741173⟩

theorem prime_3044861653679985063343 : Nat.Prime 3044861653679985063343 := by
  refine pratt 72 3044861653679985063343 5
    [(2, 1), (3, 1), (11, 1), (30703, 1), (82163, 1), (132667, 1), (137849, 1)] (by decide +kernel) ?_
  simp only [List.forall_mem_cons, List.not_mem_nil, false_implies, implies_true, and_true]
  exact ⟨by norm_num, by norm_num, by norm_num, by norm_num, by norm_num, by norm_num, by norm_num⟩

theorem prime_198211423230930754013084525763697 : Nat.Prime 198211423230930754013084525763697 := by
  refine pratt 108 198211423230930754013084525763697 5
    [(2, 4), (3, 1), (23, 1), (58964693, 1), (3044861653679985063343, 1)] (by decide +kernel) ?_
  simp only [List.forall_mem_cons, List.not_mem_nil, false_implies, implies_true, and_true]
  exact ⟨by norm_num, by norm_num, by norm_num, prime_58964693, prime_3044861653679985063343⟩

theorem prime_292386187 : Nat.Prime 292386187 := by
  refine pratt 29 292386187 2
    [(2, 1), (3, 4), (307, 1), (5879, 1)] (by decide +kernel) ?_
  simp only [List.forall_mem_cons, List.not_mem_nil, false_implies, implies_true, and_true]
  exact ⟨by norm_num, by norm_num, by norm_num, by norm_num⟩

theorem prime_213441916511 : Nat.Prime 213441916511 := by
  refine pratt 38 213441916511 13
    [(2, 1), (5, 1), (73, 1), (292386187, 1)] (by decide +kernel) ?_
  simp only [List.forall_mem_cons, List.not_mem_nil, false_implies, implies_true, and_true]
  exact ⟨by norm_num, by norm_num, by norm_num, prime_292386187⟩

theorem prime_1224481 : Nat.Prime 1224481 := by
  refine pratt 21 1224481 13
    [(2, 5), (3, 1), (5, 1), (2551, 1)] (by decide +kernel) ?_
  simp only [List.forall_mem_cons, List.not_mem_nil, false_implies, implies_true, and_true]
  exact ⟨by norm_num, by norm_num, by norm_num, by norm_num⟩

theorem prime_1257559732178653 : Nat.Prime 1257559732178653 := by
  refine pratt 51 1257559732178653 2
    [(2, 2), (3, 1), (7, 1), (23, 1), (531581, 1), (1224481, 1)] (by decide +kernel) ?_
  simp only [List.forall_mem_cons, List.not_mem_nil, false_implies, implies_true, and_true]
  exact ⟨by norm_num, by norm_num, by norm_num, by norm_num, by norm_num, prime_1224481⟩

theorem prime_4434155615661930479 : Nat.Prime 4434155615661930479 := by
  refine pratt 62 4434155615661930479 17
    [(2, 1), (41, 1), (43, 1), (1257559732178653, 1)] (by decide +kernel) ?_
  simp only [List.forall_mem_cons, List.not_mem_nil, false_implies, implies_true, and_true]
  exact ⟨by norm_num, by norm_num, by norm_num, prime_1257559732178653⟩

theorem prime_172054593956031949258510691 : Nat.Prime 172054593956031949258510691 := by
  refine pratt 88 172054593956031949258510691 2
    [(2, 1), (5, 1), (1361, 1), (2851, 1), (4434155615661930479, 1)] (by decide +kernel) ?_
  simp only [List.forall_mem_cons, List.not_mem_nil, false_implies, implies_true, and_true]
  exact ⟨by norm_num, by norm_num, by norm_num, by norm_num, prime_4434155615661930479⟩

theorem prime_19757330305831588566944191468367130476339 : Nat.Prime 19757330305831588566944191468367130476339 := by
  refine pratt 134 19757330305831588566944191468367130476339 2
    [(2, 1), (269, 1), (213441916511, 1), (172054593956031949258510691, 1)] (by decide +kernel) ?_
  simp only [List.forall_mem_cons, List.not_mem_nil, false_implies, implies_true, and_true]
  exact ⟨by norm_num, by norm_num, prime_213441916511, prime_172054593956031949258510691⟩

theorem prime_276602624281642239937218680557139826668747 : Nat.Prime 276602624281642239937218680557139826668747 := by
  refine pratt 138 276602624281642239937218680557139826668747 2
    [(2, 1), (7, 1), (19757330305831588566944191468367130476339, 1)] (by decide +kernel) ?_
  simp only [List.forall_mem_cons, List.not_mem_nil, false_implies, implies_true, and_true]
  exact ⟨by norm_num, by norm_num, prime_19757330305831588566944191468367130476339⟩

theorem prime_p_lit : Nat.Prime 7237005577332262213973186563042994240857116359379907606001950938285454250989 := by
  refine pratt 253 7237005577332262213973186563042994240857116359379907606001950938285454250989 2
    [(2, 2), (3, 1), (11, 1), (198211423230930754013084525763697, 1), (276602624281642239937218680557139826668747, 1)] (by decide +kernel) ?_
  simp only [List.forall_mem_cons, List.not_mem_nil, false_implies, implies_true, and_true]
  exact ⟨by norm_num, by norm_num, by norm_num, prime_198211423230930754013084525763697, prime_276602624281642239937218680557139826668747⟩

theorem prime_155385589 : Nat.Prime 155385589 := by
  refine pratt 28 155385589 10
    [(2, 2), (3, 1), (1973, 1), (6563, 1)] (by decide +kernel) ?_
  simp only [List.forall_mem_cons, List.not_mem_nil, false_implies, implies_true, and_true]
  exact ⟨by norm_num, by norm_num, by norm_num, by norm_num⟩

theorem prime_1510693 : Nat.Prime 1510693 := by
  refine pratt 21 1510693 2
    [(2, 2), (3, 1), (31, 2), (131, 1)] (by decide +kernel) ?_
  simp only [List.forall_mem_cons, List.not_mem_nil, false_implies, implies_true, and_true]
  exact ⟨by norm_num, by norm_num, by norm_num, by norm_num⟩

theorem prime_18128317 : Nat.Prime 18128317 := by
  refine pratt 25 18128317 2
    [(2, 2), (3, 1), (1510693, 1)] (by decide +kernel) ?_
  simp only [List.forall_mem_cons, List.not_mem_nil, false_implies, implies_true, and_true]
  exact ⟨by norm_num, by norm_num, prime_1510693⟩

theorem prime_54740093 : Nat.Prime 54740093 := by
  refine pratt 26 54740093 3
    [(2, 2), (11, 1), (23, 1), (54091, 1)] (by decide +kernel) ?_
  simp only [List.forall_mem_cons, List.not_mem_nil, false_implies, implies_true, and_true]
  exact ⟨by norm_num, by norm_num, by norm_num, by norm_num⟩

theorem prime_623489659271 : Nat.Prime 623489659271 := by
  refine pratt 40 623489659271 31
    [(2, 1), (5, 1), (17, 1), (67, 1), (54740093, 1)] (by decide +kernel) ?_
  simp only [List.forall_mem_cons, List.not_mem_nil, false_implies, implies_true, and_true]
  exact ⟨by norm_num, by norm_num, by norm_num, by norm_num, prime_54740093⟩

theorem prime_4987917274169 : Nat.Prime 4987917274169 := by
  refine pratt 43 4987917274169 3
    [(2, 3), (623489659271, 1)] (by decide +kernel) ?_
  simp only [List.forall_mem_cons, List.not_mem_nil, false_implies, implies_true, and_true]
  exact ⟨by norm_num, prime_623489659271⟩

theorem prime_1473397327204484414562622435849 : Nat.Prime 1473397327204484414562622435849 := by
  refine pratt 101 1473397327204484414562622435849 11
    [(2, 3), (3, 1), (751, 1), (904049, 1), (18128317, 1), (4987917274169, 1)] (by decide +kernel) ?_
  simp only [List.forall_mem_cons, List.not_mem_nil, false_implies, implies_true, and_true]
  exact ⟨by norm_num, by norm_num, by norm_num, by norm_num, prime_18128317, prime_4987917274169⟩

theorem prime_145621771 : Nat.Prime 145621771 := by
  refine pratt 28 145621771 3
    [(2, 1), (3, 1), (5, 1), (7, 1), (693437, 1)] (by decide +kernel) ?_
  simp only [List.forall_mem_cons, List.not_mem_nil, false_implies, implies_true, and_true]
  exact ⟨by norm_num, by norm_num, by norm_num, by norm_num, by norm_num⟩

theorem prime_294016471763383 : Nat.Prime 294016471763383 := by
  refine pratt 49 294016471763383 6
    [(2, 1), (3, 2), (223, 1), (503, 1), (145621771, 1)] (by decide +kernel) ?_
  simp only [List.forall_mem_cons, List.not_mem_nil, false_implies, implies_true, and_true]
  exact ⟨by norm_num, by norm_num, by norm_num, by norm_num, prime_145621771⟩

theorem prime_84399785055716745428129 : Nat.Prime 84399785055716745428129 := by
  refine pratt 77 84399785055716745428129 3
    [(2, 5), (7, 1), (31, 1), (67, 1), (617, 1), (294016471763383, 1)] (by decide +kernel) ?_
  simp only [List.forall_mem_cons, List.not_mem_nil, false_implies, implies_true, and_true]
  exact ⟨by norm_num, by norm_num, by norm_num, by norm_num, by norm_num, prime_294016471763383⟩

theorem prime_942815819693522402764397133329 : Nat.Prime 942815819693522402764397133329 := by
  refine pratt 100 942815819693522402764397133329 3
    [(2, 4), (241, 1), (2897, 1), (84399785055716745428129, 1)] (by decide +kernel) ?_
  simp only [List.forall_mem_cons, List.not_mem_nil, false_implies, implies_true, and_true]
  exact ⟨by norm_num, by norm_num, by norm_num, prime_84399785055716745428129⟩

theorem prime_194060402252303413788402286645422500134630096612112378773286921059 : Nat.Prime 194060402252303413788402286645422500134630096612112378773286921059 := by
  refine pratt 217 194060402252303413788402286645422500134630096612112378773286921059 2
    [(2, 1), (3, 3), (13, 1), (199, 1), (1473397327204484414562622435849, 1), (942815819693522402764397133329, 1)] (by decide +kernel) ?_
  simp only [List.forall_mem_cons, List.not_mem_nil, false_implies, implies_true, and_true]
  exact ⟨by norm_num, by norm_num, by norm_num, by norm_num, prime_1473397327204484414562622435849, prime_942815819693522402764397133329⟩

theorem prime_ell_lit : Nat.Prime 904625697166532776746648320380374280118162305775999595296348570842476562531 := by
  refine pratt 250 904625697166532776746648320380374280118162305775999595296348570842476562531 2
    [(2, 1), (3, 1), (5, 1), (155385589, 1), (194060402252303413788402286645422500134630096612112378773286921059, 1)] (by decide +kernel) ?_
  simp only [List.forall_mem_cons, List.not_mem_nil, false_implies, implies_true, and_true]
  exact ⟨by norm_num, by norm_num, by norm_num, prime_155385589, prime_194060402252303413788402286645422500134630096612112378773286921059⟩

end Primality

/-- The field modulus is prime. -/
theorem p_prime : Nat.Prime p := Primality.prime_p_lit

/-- The subgroup order is prime. -/
theorem ell_prime : Nat.Prime ell := Primality.prime_ell_lit

instance : Fact (Nat.Prime p) := ⟨p_prime⟩
instance : Fact (Nat.Prime ell) := ⟨ell_prime⟩

end Zerocaf
