import Verif.Model.Text
import Verif.Props.Leak
import Verif.Props.Ristretto

/-!
# C112: the texts of `Debug` and `Display`

The text of a value determines all its limbs or bytes. So two values print alike exactly if they are the same tuple of
machine words, which is finer than `==` for points, and the text of a scalar is the scalar.
-/

set_option exponentiation.threshold 600

namespace Zerocaf
namespace Props

open Text

/-- Splitting a text after a number. -/
theorem num_split {n m : ℕ} {c d : Char} {s t : List Char} (hc : c.isDigit = false) (hd : d.isDigit = false)
    (h : num n ++ c :: s = num m ++ d :: t) : n = m ∧ c :: s = d :: t := by
  have dig : ∀ n, ∀ x ∈ num n, x.isDigit = true := fun n x hx =>
    Nat.isDigit_of_mem_toDigits (by decide) (by decide) hx
  have tw : ∀ (n : ℕ) (c : Char) (s : List Char), c.isDigit = false → (num n ++ c :: s).takeWhile Char.isDigit = num n := by
    intro n c s hc
    rw [List.takeWhile_append_of_pos (dig n), List.takeWhile_cons_of_neg (by simp [hc]), List.append_nil]
  have e : num n = num m := by rw [← tw n c s hc, h, tw m d t hd]
  refine ⟨?_, ?_⟩
  · have h1 := @Nat.ofDigitChars_ten_toDigits n
    have h2 := @Nat.ofDigitChars_ten_toDigits m
    have e' : Nat.toDigits 10 n = Nat.toDigits 10 m := e
    rw [← h1, e', h2]
  · rw [e] at h
    exact List.append_cancel_left h

theorem num_ne_nil (n : ℕ) : num n ≠ [] := by
  intro h
  have := Nat.length_toDigits_pos (b := 10) (n := n)
  unfold num at h
  rw [h] at this
  exact absurd this (by decide)

theorem num_head {n : ℕ} {c : Char} {s t : List Char} (hc : c.isDigit = false) (h : num n ++ s = c :: t) : False := by
  cases e : num n with
  | nil => exact num_ne_nil n e
  | cons x r =>
    rw [e] at h
    have hx : x.isDigit = true := Nat.isDigit_of_mem_toDigits (b := 10) (n := n) (by decide) (by decide) (by
      have : x ∈ num n := by rw [e]; exact List.mem_cons_self
      exact this)
    rw [(List.cons.inj h).1] at hx
    rw [hx] at hc
    cases hc

theorem items_split : ∀ (l m : List ℕ) (s t : List Char), items l ++ s = items m ++ t → l = m ∧ s = t
  | [], [], s, t, h => ⟨rfl, by unfold items at h; exact List.append_cancel_left h⟩
  | [], [y], s, t, h => by
    unfold items at h
    rw [List.append_assoc] at h
    exact (num_head (by decide) h.symm).elim
  | [], y :: z :: r, s, t, h => by
    unfold items at h
    rw [List.append_assoc, List.append_assoc] at h
    exact (num_head (by decide) h.symm).elim
  | [x], [], s, t, h => by
    unfold items at h
    rw [List.append_assoc] at h
    exact (num_head (by decide) h).elim
  | x :: y :: l, [], s, t, h => by
    unfold items at h
    rw [List.append_assoc, List.append_assoc] at h
    exact (num_head (by decide) h).elim
  | [x], [y], s, t, h => by
    unfold items at h
    rw [List.append_assoc, List.append_assoc] at h
    obtain ⟨e1, e2⟩ := num_split (by decide) (by decide) h
    exact ⟨by rw [e1], (List.cons.inj e2).2⟩
  | [x], y :: z :: r, s, t, h => by
    unfold items at h
    rw [List.append_assoc, List.append_assoc, List.append_assoc] at h
    obtain ⟨_, e2⟩ := num_split (by decide) (by decide) h
    exact absurd (List.cons.inj e2).1 (by decide)
  | x :: y :: l, [z], s, t, h => by
    unfold items at h
    rw [List.append_assoc, List.append_assoc, List.append_assoc] at h
    obtain ⟨_, e2⟩ := num_split (by decide) (by decide) h
    exact absurd (List.cons.inj e2).1 (by decide)
  | x :: y :: l, z :: w :: r, s, t, h => by
    unfold items at h
    rw [List.append_assoc, List.append_assoc, List.append_assoc, List.append_assoc] at h
    obtain ⟨e1, e2⟩ := num_split (by decide) (by decide) h
    have e3 := (List.cons.inj (List.cons.inj e2).2).2
    obtain ⟨e4, e5⟩ := items_split (y :: l) (w :: r) s t e3
    exact ⟨by rw [e1, e4], e5⟩

theorem slice_split {l m : List ℕ} {s t : List Char} (h : slice l ++ s = slice m ++ t) : l = m ∧ s = t :=
  items_split l m s t (List.cons.inj h).2

theorem limbs_inj {a b : L5} (h : limbs a = limbs b) : a = b := by
  obtain ⟨a0, a1, a2, a3, a4⟩ := a
  obtain ⟨b0, b1, b2, b3, b4⟩ := b
  simpa [limbs] using h

theorem bytes_inj {a b : Bytes32} (h : bytes a = bytes b) : a = b := by
  have h1 : a.toList = b.toList := List.map_injective_iff.2 (fun x y e => UInt8.toNat_inj.1 e) h
  exact Vector.toList_inj.1 h1

theorem field_split {a b : FE} {s t : List Char} (h : field a ++ s = field b ++ t) : a = b ∧ s = t := by
  unfold field at h
  rw [List.append_assoc, List.append_assoc, List.append_assoc, List.append_assoc] at h
  obtain ⟨e1, e2⟩ := slice_split (List.append_cancel_left h)
  exact ⟨limbs_inj e1, List.append_cancel_left e2⟩

/-- C112: the text of a number determines all its limbs, reduced or not. -/
theorem C112_numbers (a b : L5) : (field a = field b ↔ a = b) ∧ (scalar a = scalar b ↔ a = b) := by
  refine ⟨⟨fun h => ?_, fun h => by rw [h]⟩, ⟨fun h => ?_, fun h => by rw [h]⟩⟩
  · have h' : field a ++ [] = field b ++ [] := by rw [h]
    exact (field_split h').1
  · unfold scalar at h
    have h' := List.append_cancel_left h
    have h2 : slice (limbs a) ++ [] = slice (limbs b) ++ [] := by rw [h']
    exact limbs_inj (slice_split h2).1

/-- C112: the text of an encoding determines its bytes. -/
theorem C112_encodings (a b : Bytes32) :
    (compressedEdwards a = compressedEdwards b ↔ a = b) ∧ (compressedRistretto a = compressedRistretto b ↔ a = b) ∧
    (montgomery a = montgomery b ↔ a = b) := by
  refine ⟨⟨fun h => ?_, fun h => by rw [h]⟩, ⟨fun h => ?_, fun h => by rw [h]⟩, ⟨fun h => ?_, fun h => by rw [h]⟩⟩
  · unfold compressedEdwards at h
    have h' := List.append_cancel_left h
    have h2 : slice (bytes a) ++ [] = slice (bytes b) ++ [] := by rw [h']
    exact bytes_inj (slice_split h2).1
  · exact bytes_inj (slice_split (List.append_cancel_left h)).1
  · exact bytes_inj (slice_split (List.append_cancel_left h)).1

/-- C112: the text of a point determines all its coordinates. -/
theorem C112_points (P Q : EdPoint) (R S : ProjPoint) (A B : AffPoint) :
    (edwards P = edwards Q ↔ P = Q) ∧ (projective R = projective S ↔ R = S) ∧ (affine A = affine B ↔ A = B) ∧
    (ristretto P = ristretto Q ↔ P = Q) := by
  have ed : edwards P = edwards Q ↔ P = Q := by
    refine ⟨fun h => ?_, fun h => by rw [h]⟩
    obtain ⟨h1, k1⟩ := field_split (List.append_cancel_left h)
    obtain ⟨h2, k2⟩ := field_split (List.append_cancel_left k1)
    obtain ⟨h3, k3⟩ := field_split (List.append_cancel_left k2)
    obtain ⟨h4, _⟩ := field_split (List.append_cancel_left k3)
    cases P; cases Q
    simp_all
  refine ⟨ed, ⟨fun h => ?_, fun h => by rw [h]⟩, ⟨fun h => ?_, fun h => by rw [h]⟩, ed⟩
  · obtain ⟨h1, k1⟩ := field_split (List.append_cancel_left h)
    obtain ⟨h2, k2⟩ := field_split (List.append_cancel_left k1)
    obtain ⟨h3, _⟩ := field_split (List.append_cancel_left k2)
    cases R; cases S
    simp_all
  · obtain ⟨h1, k1⟩ := field_split (List.append_cancel_left h)
    obtain ⟨h2, _⟩ := field_split (List.append_cancel_left k1)
    cases A; cases B
    simp_all

theorem altItems_split : ∀ l m : List ℕ, altItems l ++ "    ],\n)".toList = altItems m ++ "    ],\n)".toList → l = m
  | [], [], _ => rfl
  | [], y :: m, h => by
    unfold altItems at h
    have := congrArg (fun x : List Char => x[4]?) h
    simp at this
  | x :: l, [], h => by
    unfold altItems at h
    have := congrArg (fun x : List Char => x[4]?) h
    simp at this
  | x :: l, y :: m, h => by
    unfold altItems at h
    simp only [List.append_assoc] at h
    obtain ⟨e1, e2⟩ := num_split (c := ',') (d := ',') (by decide) (by decide) (List.append_cancel_left h)
    have e3 := (List.cons.inj (List.cons.inj e2).2).2
    rw [e1, altItems_split l m e3]

theorem num_count (n : ℕ) : (num n).count '\n' = 0 := by
  rw [List.count_eq_zero]
  intro h
  exact absurd (Nat.isDigit_of_mem_toDigits (b := 10) (n := n) (by decide) (by decide) h) (by decide)

theorem altItems_count : ∀ l : List ℕ, (altItems l).count '\n' = l.length
  | [] => rfl
  | x :: l => by
    unfold altItems
    rw [List.count_append, List.count_append, List.count_append, num_count, altItems_count l]
    have h1 : "        ".toList.count '\n' = 0 := by decide
    have h2 : ",\n".toList.count '\n' = 1 := by decide
    rw [h1, h2, List.length_cons]
    omega

/-- C112: the alternate form of the two types that derive `Debug` determines the bytes as well, differs between the
types and from the plain form, and has 36 lines. -/
theorem C112_alternate (a b : Bytes32) :
    (compressedRistrettoAlt a = compressedRistrettoAlt b ↔ a = b) ∧ (montgomeryAlt a = montgomeryAlt b ↔ a = b) ∧
    compressedRistrettoAlt a ≠ montgomeryAlt b ∧ compressedRistrettoAlt a ≠ compressedRistretto b ∧
    montgomeryAlt a ≠ montgomery b ∧ (compressedRistrettoAlt a).count '\n' = 35 ∧ (montgomeryAlt a).count '\n' = 35 := by
  have inj : ∀ (s : List Char), altTuple s (bytes a) = altTuple s (bytes b) → a = b := fun s h =>
    bytes_inj (altItems_split _ _ (List.append_cancel_left (List.append_cancel_left h)))
  have cnt : ∀ (s : List Char), s.count '\n' = 0 → (altTuple s (bytes a)).count '\n' = 35 := by
    intro s hs
    unfold altTuple
    rw [List.count_append, List.count_append, List.count_append, altItems_count, hs]
    have h1 : "(\n    [\n".toList.count '\n' = 2 := by decide
    have h2 : "    ],\n)".toList.count '\n' = 1 := by decide
    have h3 : (bytes a).length = 32 := by simp [bytes]
    rw [h1, h2, h3]
  refine ⟨⟨inj _, fun h => by rw [h]⟩, ⟨inj _, fun h => by rw [h]⟩, ?_, ?_, ?_, cnt _ (by decide), cnt _ (by decide)⟩
  · intro h
    have := congrArg (fun x : List Char => x[0]?) h
    simp [compressedRistrettoAlt, montgomeryAlt, altTuple] at this
  · intro h
    have e : "CompressedRistretto(".toList = "CompressedRistretto".toList ++ ['('] := by decide
    unfold compressedRistrettoAlt compressedRistretto altTuple at h
    rw [e, List.append_assoc] at h
    have h2 := (List.cons.inj (List.append_cancel_left h)).2
    exact absurd (List.cons.inj h2).1 (by decide)
  · intro h
    have e : "MontgomeryPoint(".toList = "MontgomeryPoint".toList ++ ['('] := by decide
    unfold montgomeryAlt montgomery altTuple at h
    rw [e, List.append_assoc] at h
    have h2 := (List.cons.inj (List.append_cancel_left h)).2
    exact absurd (List.cons.inj h2).1 (by decide)

example : altTuple "T".toList [0, 17] = "T(\n    [\n        0,\n        17,\n    ],\n)".toList := by decide

/-- C112: values of different types never print alike, except that a Ristretto point prints as the Edwards point
inside it. -/
theorem C112_types (a s : L5) (b b' b'' : Bytes32) (P : EdPoint) (R : ProjPoint) (A : AffPoint) :
    [field a, scalar s, compressedEdwards b, compressedRistretto b', montgomery b'', edwards P, projective R,
      affine A].Nodup ∧ ristretto P = edwards P := by
  refine ⟨?_, rfl⟩
  refine List.Nodup.of_map (fun x : List Char => (x[0]?, if x[0]? = some 'S' then none else x[9]?, if x[0]? = some 'S' then none else x[10]?)) ?_
  have e : [field a, scalar s, compressedEdwards b, compressedRistretto b', montgomery b'', edwards P, projective R,
      affine A].map (fun x : List Char => (x[0]?, if x[0]? = some 'S' then none else x[9]?, if x[0]? = some 'S' then none else x[10]?)) =
      [(some 'F', some 'e', some 'n'), (some 'S', none, none), (some 'C', some 'd', some 'E'), (some 'C', some 'd', some 'R'),
        (some 'M', some 'y', some 'P'), (some '\n', some 'E', some 'd'), (some '\n', some 'P', some 'r'),
        (some '\n', some 'A', some 'f')] := by rfl
  rw [e]
  decide

/-- C112: points that compare equal may print differently, here two forms of the identity. -/
theorem C112_finer (c : Cfg) (hc : c.Enough) : ∃ P Q : EdPoint, P.Valid ∧ Q.Valid ∧ Ed.ctEq c P Q = .ok true ∧
    Ristretto.ctEq c P Q = .ok true ∧ edwards P ≠ edwards Q := by
  have h : (⟨Field.zero, ⟨2, 0, 0, 0, 0⟩, ⟨2, 0, 0, 0, 0⟩, Field.zero⟩ : EdPoint).Rep 0 := by
    have z : (Field.zero.val : Fp) = 0 := by decide
    have n : ((⟨2, 0, 0, 0, 0⟩ : FE).val : Fp) ≠ 0 := by decide
    refine ⟨by decide, by decide, by decide, by decide, n, ?_, ?_, ?_⟩
    · rw [EdCurve.Pt.zero_x, z, zero_div]
    · rw [EdCurve.Pt.zero_y, div_self n]
    · rw [z, zero_mul, zero_div]
  refine ⟨_, _, ⟨0, Ed.identity_rep⟩, ⟨0, h⟩, Ed_ctEq_same c hc Ed.identity_rep h,
    (req_iff c Ed.identity_rep h).2 (SameClass.refl 0), fun k => ?_⟩
  have := (C112_points _ _ Proj.identity Proj.identity Aff.identity Aff.identity).1.1 k
  exact absurd this (by decide)

/-! ### Access to limbs -/

/-- C112: reading and writing a limb panics exactly for indices from five. -/
theorem C112_index_panics (a : L5) (i v : ℕ) :
    (limbAt a i = .panic ↔ 5 ≤ i) ∧ (setLimb a i v = .panic ↔ 5 ≤ i) ∧ limbAt a i ≠ .diverge ∧ setLimb a i v ≠ .diverge := by
  rcases i with _ | _ | _ | _ | _ | i
  all_goals simp [limbAt, setLimb, unwrap, limbs]

/-- C112: a number is the sum of its limbs with weights `2^(52 i)`; reading after writing gives the limb written and
leaves the others; writing changes the number by the weighted difference. -/
theorem C112_index (a b : L5) (i v x : ℕ) (h : setLimb a i v = .ok b) (hx : limbAt a i = .ok x) :
    a.val = (Finset.range 5).sum (fun j => (limbs a).getD j 0 * 2 ^ (52 * j)) ∧
    (∀ j, limbAt b j = if j = i then .ok v else limbAt a j) ∧ b.val + x * 2 ^ (52 * i) = a.val + v * 2 ^ (52 * i) := by
  refine ⟨?_, ?_, ?_⟩
  · simp only [Finset.sum_range_succ, Finset.sum_range_zero, limbs, L5.val]
    simp
    ring
  · intro j
    rcases i with _ | _ | _ | _ | _ | i
    all_goals cases h
    all_goals rcases j with _ | _ | _ | _ | _ | j
    all_goals simp [limbAt, unwrap, limbs]
  · rcases i with _ | _ | _ | _ | _ | i
    all_goals cases h
    all_goals cases hx
    all_goals unfold L5.val
    all_goals simp
    all_goals ring

/-- The texts of one, of the scalar minus one and of the first encoding. -/
example : String.ofList (field Field.one) = "FieldElement([1, 0, 0, 0, 0])" ∧
    String.ofList (scalar Scalar.minusOne) =
      "Scalar: [1129677152307298, 1363544697812651, 714439, 0, 2199023255552]" := by decide +kernel

end Props
end Zerocaf
