import Mathlib.LinearAlgebra.Lagrange

/-!
# Interpolation with lists, for C128
-/

namespace Zerocaf
namespace Interpolate

open Polynomial

variable {F : Type*} [Field F] [DecidableEq F]

/-- The value of the polynomial with the coefficients `l`, constant one first. -/
def value : List F → F → F
  | [], _ => 0
  | a :: l, x => a + value l x * x

/-- The polynomial. -/
noncomputable def poly : List F → F[X]
  | [] => 0
  | a :: l => C a + poly l * X

omit [DecidableEq F] in
theorem eval_poly (l : List F) (x : F) : (poly l).eval x = value l x := by
  induction l with
  | nil => simp [poly, value]
  | cons a l ih => simp [poly, value, ih]

omit [DecidableEq F] in
theorem coeff_poly (l : List F) : ∀ k, (poly l).coeff k = l.getD k 0 := by
  induction l with
  | nil => intro k; simp [poly]
  | cons a l ih =>
    intro k
    cases k with
    | zero => simp [poly]
    | succ k => rw [poly, coeff_add, coeff_C_succ, coeff_mul_X, ih, zero_add, List.getD_cons_succ]

omit [DecidableEq F] in
theorem degree_poly (l : List F) : (poly l).degree < l.length := by
  rw [degree_lt_iff_coeff_zero]
  intro k hk
  rw [coeff_poly]
  simp [List.getD, hk]

/-- The weight of the node `i`. -/
def weight (nodes : List F) (i : F) : F :=
  (nodes.filter (· ≠ i)).prod * ((nodes.filter (· ≠ i)).map (· - i)).prod⁻¹

omit [DecidableEq F] in
theorem prod_inv_map (l : List F) (f : F → F) : (l.map f).prod⁻¹ = (l.map fun j => (f j)⁻¹).prod := by
  induction l with
  | nil => simp
  | cons a l ih => rw [List.map_cons, List.prod_cons, mul_inv, ih, List.map_cons, List.prod_cons]

theorem eval_basis (nodes : List F) (hn : nodes.Nodup) (i : F) :
    (Lagrange.basis nodes.toFinset id i).eval 0 = weight nodes i := by
  have e : nodes.toFinset.erase i = (nodes.filter (· ≠ i)).toFinset := by
    ext j
    simp [and_comm]
  rw [Lagrange.basis, e, eval_prod, List.prod_toFinset _ (hn.filter _), weight, prod_inv_map]
  generalize nodes.filter (· ≠ i) = m
  induction m with
  | nil => simp
  | cons a m ih =>
    rw [List.map_cons, List.prod_cons, ih, List.map_cons, List.prod_cons, List.prod_cons, Lagrange.basisDivisor,
      eval_mul, eval_C, eval_sub, eval_X, eval_C, id, id, ← neg_sub a i, inv_neg]
    ring

theorem value_zero (nodes l : List F) (hn : nodes.Nodup) (h : l.length ≤ nodes.length) :
    (nodes.map fun i => weight nodes i * value l i).sum = value l 0 := by
  have hd : (poly l).degree < nodes.toFinset.card := by
    rw [List.toFinset_card_of_nodup hn]
    exact lt_of_lt_of_le (degree_poly l) (by exact_mod_cast h)
  have e := Lagrange.eq_interpolate (s := nodes.toFinset) (v := id) Function.injective_id.injOn hd
  rw [← eval_poly l 0, e, Lagrange.interpolate_apply, eval_finsetSum, List.sum_toFinset _ hn]
  congr 1
  apply List.map_congr_left
  intro i _
  rw [eval_mul, eval_C, eval_basis nodes hn, mul_comm, ← eval_poly]
  rfl

theorem exists_unique_value (nodes : List F) (hn : nodes.Nodup) (v : F → F) :
    ∃! l : List F, l.length = nodes.length ∧ ∀ i ∈ nodes, value l i = v i := by
  have hc := List.toFinset_card_of_nodup hn
  have hd := Lagrange.degree_interpolate_lt (s := nodes.toFinset) (v := id) v Function.injective_id.injOn
  have hv := fun i hi => Lagrange.eval_interpolate_at_node (s := nodes.toFinset) (v := id) v Function.injective_id.injOn
    (i := i) hi
  generalize Lagrange.interpolate nodes.toFinset id v = q at hd hv
  rw [hc] at hd
  have hp : poly ((List.range nodes.length).map q.coeff) = q := by
    ext k
    rw [coeff_poly]
    by_cases hk : k < nodes.length
    · simp [List.getD, hk]
    · rw [show ((List.range nodes.length).map q.coeff).getD k 0 = 0 by simp [List.getD, hk]]
      exact (((degree_lt_iff_coeff_zero _ _).1 hd) k (by omega)).symm
  refine ⟨(List.range nodes.length).map q.coeff, ⟨by simp, fun i hi => ?_⟩, fun l ⟨h1, h2⟩ => ?_⟩
  · rw [← eval_poly, hp]
    exact hv i (by simpa using hi)
  · have e : poly l = q := by
      refine eq_of_degrees_lt_of_eval_finset_eq nodes.toFinset (by rw [hc, ← h1]; exact degree_poly l)
        (by rw [hc]; exact hd) fun i hi => ?_
      rw [eval_poly, h2 i (by simpa using hi)]
      exact (hv i hi).symm
    apply List.ext_getElem (by simp [h1])
    intro k hk1 hk2
    have := coeff_poly l k
    rw [e, show l.getD k 0 = l[k] by simp [List.getD, hk1]] at this
    simp [this]

end Interpolate
end Zerocaf
