import Mathlib.RingTheory.RootsOfUnity.PrimitiveRoots
import Mathlib.Algebra.Polynomial.Roots
import Mathlib.Algebra.Polynomial.Eval.Degree
import Mathlib.Algebra.Field.GeomSum
import Mathlib.FieldTheory.Finite.Basic
import Mathlib.Data.List.GetD
import Verif.Model.Libprio
import Verif.Lemmas.Prime

/-!
# Lemmas about libprio's proof system
-/

namespace Mastic

open Finset Polynomial

/-! ### Field arithmetic -/

theorem fieldPow_eq : ∀ (f : Nat) (x : Field128) (n : Nat), n < 2 ^ f → fieldPow f x n = x ^ n
  | 0, x, n, h => by
    have : n = 0 := by simpa using h
    simp [fieldPow, this]
  | f + 1, x, n, h => by
    have hn : n / 2 < 2 ^ f := by rw [pow_succ] at h; omega
    rw [fieldPow, fieldPow_eq f _ _ hn, ← pow_two, ← pow_mul]
    split
    · next h1 => rw [← pow_succ']; congr 1; omega
    · next h1 => congr 1; omega

theorem fieldInv_eq (x : Field128) : fieldInv x = x⁻¹ := by
  unfold fieldInv
  rw [fieldPow_eq _ _ _ (by decide)]
  by_cases hx : x = 0
  · rw [hx, inv_zero]; exact zero_pow (by decide)
  · refine eq_inv_of_mul_eq_one_left ?_
    rw [← pow_succ]
    exact ZMod.pow_card_sub_one_eq_one hx

theorem iterate_sq (x : Field128) : ∀ k : Nat, (fun x => x * x)^[k] x = x ^ 2 ^ k
  | 0 => by simp
  | k + 1 => by
    rw [Function.iterate_succ_apply', iterate_sq x k, ← pow_two, ← pow_mul, pow_succ]

theorem fieldGen_sq : fieldGen ^ 2 ^ 65 = -1 := by
  rw [← iterate_sq]
  decide +kernel

theorem neg_one_ne_one : (-1 : Field128) ≠ 1 := by decide +kernel

/-- `Field128::root(l)` has order `2^l`. -/
theorem fieldRoot_primitive {l : Nat} (h : l ≤ 66) : IsPrimitiveRoot (fieldRoot l) (2 ^ l) := by
  have e : fieldRoot l = fieldGen ^ 2 ^ (66 - l) := iterate_sq _ _
  cases l with
  | zero =>
    have : fieldRoot 0 = 1 := by
      rw [e]
      have : (2 : Nat) ^ (66 - 0) = 2 ^ 65 * 2 := by norm_num
      rw [this, pow_mul, fieldGen_sq]
      exact neg_one_sq
    rw [this]
    exact IsPrimitiveRoot.one
  | succ l =>
    have h1 : fieldRoot (l + 1) ^ 2 ^ l = -1 := by
      rw [e, ← pow_mul, ← pow_add, show 66 - (l + 1) + l = 65 by omega, fieldGen_sq]
    have h2 : fieldRoot (l + 1) ^ 2 ^ (l + 1) = 1 := by
      rw [pow_succ 2 l, pow_mul, h1]; exact neg_one_sq
    have := orderOf_eq_prime_pow (p := 2) (x := fieldRoot (l + 1)) (n := l) (by rw [h1]; exact neg_one_ne_one) h2
    rw [← this]
    exact IsPrimitiveRoot.orderOf _

/-! ### Polynomials as lists -/

theorem polyEval_cons (a : Field128) (p : List Field128) (t : Field128) :
    polyEval (a :: p) t = a + t * polyEval p t := rfl

theorem polyEval_eq (t : Field128) : ∀ p : List Field128,
    polyEval p t = ∑ j ∈ range p.length, p.getD j 0 * t ^ j
  | [] => by simp [polyEval]
  | a :: p => by
    rw [polyEval_cons, List.length_cons, Finset.sum_range_succ', polyEval_eq t p, Finset.mul_sum, add_comm]
    simp only [List.getD_cons_zero, pow_zero, mul_one, List.getD_cons_succ, pow_succ]
    congr 1
    exact Finset.sum_congr rfl fun j _ => by ring

theorem getD_range_map (m : Nat) (g : Nat → Field128) (j : Nat) :
    ((List.range m).map g).getD j 0 = if j < m then g j else 0 := by
  by_cases h : j < m
  · rw [if_pos h, List.getD_eq_getElem _ _ (by simpa using h)]; simp
  · rw [if_neg h, List.getD_eq_default _ _ (by simpa using h)]

theorem polyEval_map (m : Nat) (g : Nat → Field128) (t : Field128) :
    polyEval ((List.range m).map g) t = ∑ j ∈ range m, g j * t ^ j := by
  rw [polyEval_eq]
  simp only [List.length_map, List.length_range]
  exact Finset.sum_congr rfl fun j hj => by rw [getD_range_map, if_pos (Finset.mem_range.1 hj)]

/-- The polynomial with the given coefficients. -/
noncomputable def listPoly (p : List Field128) : Field128[X] := ∑ j ∈ range p.length, C (p.getD j 0) * X ^ j

theorem listPoly_eval (p : List Field128) (t : Field128) : (listPoly p).eval t = polyEval p t := by
  unfold listPoly
  rw [polyEval_eq, Polynomial.eval_finsetSum]
  exact Finset.sum_congr rfl fun j _ => by simp

theorem listPoly_coeff (p : List Field128) (i : Nat) : (listPoly p).coeff i = p.getD i 0 := by
  unfold listPoly
  rw [Polynomial.finsetSum_coeff]
  simp only [coeff_C_mul, coeff_X_pow, mul_ite, mul_one, mul_zero]
  rw [Finset.sum_ite_eq]
  split
  · rfl
  · next h => rw [List.getD_eq_default _ _ (by simpa using h)]

theorem listPoly_degree (p : List Field128) : (listPoly p).natDegree ≤ p.length - 1 := by
  refine Polynomial.natDegree_le_iff_coeff_eq_zero.2 fun i hi => ?_
  rw [listPoly_coeff, List.getD_eq_default _ _ (by omega)]

theorem listPoly_mul_eval (a b : List Field128) (N : Nat) (hN : a.length - 1 + (b.length - 1) < N) (t : Field128) :
    ∑ i ∈ range N, (∑ k ∈ range (i + 1), a.getD k 0 * b.getD (i - k) 0) * t ^ i = polyEval a t * polyEval b t := by
  rw [← listPoly_eval, ← listPoly_eval, ← Polynomial.eval_mul]
  have hd : (listPoly a * listPoly b).natDegree < N :=
    (Polynomial.natDegree_mul_le.trans (add_le_add (listPoly_degree a) (listPoly_degree b))).trans_lt hN
  rw [Polynomial.eval_eq_sum_range' hd]
  refine Finset.sum_congr rfl fun i _ => ?_
  rw [Polynomial.coeff_mul, Finset.Nat.sum_antidiagonal_eq_sum_range_succ_mk]
  simp only [listPoly_coeff]

theorem gadgetPoly_eval (n c : Nat) (f : Nat → List Field128) (hf : ∀ w, (f w).length = wireLen n c) (t : Field128) :
    polyEval (gadgetPoly n c f) t = ∑ j ∈ range c, polyEval (f (2 * j)) t * polyEval (f (2 * j + 1)) t := by
  unfold gadgetPoly
  rw [polyEval_map]
  simp only [Finset.sum_mul]
  rw [Finset.sum_comm]
  refine Finset.sum_congr rfl fun j _ => ?_
  rw [← listPoly_mul_eval _ _ (2 * (wireLen n c - 1) + 1) (by rw [hf, hf]; omega)]
  refine Finset.sum_congr rfl fun i _ => ?_
  rw [Finset.sum_mul]

/-! ### Interpolation -/

/-- The polynomial that is 1 at the `k`-th power of the root and 0 at the others. -/
def lagrange (n c k : Nat) (t : Field128) : Field128 :=
  (wireLen n c : Field128)⁻¹ * ∑ j ∈ range (wireLen n c), ((fieldRoot (wireLog n c))⁻¹ ^ k * t) ^ j

theorem wirePoly_length (n c : Nat) (v : List Field128) : (wirePoly n c v).length = wireLen n c := by
  simp [wirePoly]

theorem wirePoly_eval (n c : Nat) (v : List Field128) (t : Field128) :
    polyEval (wirePoly n c v) t = ∑ k ∈ range (wireLen n c), v.getD k 0 * lagrange n c k t := by
  unfold wirePoly lagrange
  rw [polyEval_map]
  simp only [fieldInv_eq, Finset.mul_sum, Finset.sum_mul]
  rw [Finset.sum_comm]
  refine Finset.sum_congr rfl fun k _ => Finset.sum_congr rfl fun j _ => ?_
  rw [mul_pow, ← pow_mul, mul_comm k j]
  ring

theorem two_ne_zero' : (2 : Field128) ≠ 0 := by decide +kernel

theorem wireLen_ne (n c : Nat) : (wireLen n c : Field128) ≠ 0 := by
  unfold wireLen
  rw [Nat.cast_pow]
  exact pow_ne_zero _ two_ne_zero'

theorem wireLen_pos (n c : Nat) : 0 < wireLen n c := by unfold wireLen; positivity

theorem calls_lt_wireLen (n c : Nat) : gadgetCalls n c < wireLen n c := by
  have := Nat.le_pow_clog (b := 2) (by norm_num) (1 + gadgetCalls n c)
  unfold wireLen wireLog
  omega

/-- Values at the powers of the root. -/
theorem lagrange_root {n c k i : Nat} (hl : wireLog n c ≤ 66) (hk : k < wireLen n c) (hi : i < wireLen n c) :
    lagrange n c k (fieldRoot (wireLog n c) ^ i) = if i = k then 1 else 0 := by
  have hp := fieldRoot_primitive hl
  have h0 : fieldRoot (wireLog n c) ≠ 0 := hp.ne_zero (by positivity)
  unfold lagrange
  split
  · next h =>
    rw [h, inv_pow, inv_mul_cancel₀ (pow_ne_zero _ h0)]
    simp only [one_pow, Finset.sum_const, Finset.card_range, nsmul_eq_mul, mul_one]
    exact inv_mul_cancel₀ (wireLen_ne n c)
  · next h =>
    have hne : (fieldRoot (wireLog n c))⁻¹ ^ k * fieldRoot (wireLog n c) ^ i ≠ 1 := by
      intro e
      rw [inv_pow] at e
      have e2 : fieldRoot (wireLog n c) ^ i = fieldRoot (wireLog n c) ^ k := by
        rw [inv_mul_eq_one₀ (pow_ne_zero _ h0)] at e
        exact e.symm
      exact h (hp.pow_inj hi hk e2)
    rw [geom_sum_eq hne]
    have : ((fieldRoot (wireLog n c))⁻¹ ^ k * fieldRoot (wireLog n c) ^ i) ^ wireLen n c = 1 := by
      have e1 : fieldRoot (wireLog n c) ^ wireLen n c = 1 := hp.pow_eq_one
      rw [mul_pow, inv_pow, inv_pow, ← pow_mul, ← pow_mul, mul_comm k, mul_comm i, pow_mul, pow_mul, e1]
      simp
    rw [this]
    simp

/-- The basis polynomial of the seed does not vanish outside the powers of the root. -/
theorem lagrange_zero_ne {n c : Nat} {t : Field128} (ht : t ^ wireLen n c ≠ 1) : lagrange n c 0 t ≠ 0 := by
  unfold lagrange
  rw [pow_zero, one_mul]
  have h1 : t ≠ 1 := fun h => ht (by rw [h, one_pow])
  rw [geom_sum_eq h1]
  exact mul_ne_zero (inv_ne_zero (wireLen_ne n c)) (div_ne_zero (sub_ne_zero.2 ht) (sub_ne_zero.2 h1))

theorem wirePoly_root {n c i : Nat} (hl : wireLog n c ≤ 66) (v : List Field128) (hi : i < wireLen n c) :
    polyEval (wirePoly n c v) (fieldRoot (wireLog n c) ^ i) = v.getD i 0 := by
  rw [wirePoly_eval, Finset.sum_eq_single i]
  · rw [lagrange_root hl hi hi, if_pos rfl, mul_one]
  · intro k hk hne
    rw [lagrange_root hl (Finset.mem_range.1 hk) hi, if_neg (Ne.symm hne), mul_zero]
  · intro h
    exact absurd (Finset.mem_range.2 hi) h

end Mastic
