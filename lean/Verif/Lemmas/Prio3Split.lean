import Verif.Lemmas.Prio3

/-!
# Servers with different joint randomness
-/

namespace Mastic

open Finset Polynomial

/-- A wire of one server at the query point. -/
def wireShare (n c : Nat) (x p : List Field128) (r0 t : Field128) (w : Nat) : Field128 :=
  polyEval (wirePoly n c (wireVals n c x r0 ((2 : Nat) : Field128)⁻¹ p w)) t

/-- The output of the circuit on one server's shares. -/
def validShare (n c : Nat) (x p : List Field128) (r1 : Field128) : Field128 :=
  histValid n c x r1 ((2 : Nat) : Field128)⁻¹ fun k => polyEval (p.drop (2 * c)) (fieldRoot (wireLog n c) ^ (k + 1))

theorem histVer_getD {n c : Nat} (x p : List Field128) (t r0 r1 : Field128) :
    (histVer n c x p t r0 r1 ((2 : Nat) : Field128)⁻¹).length = 2 * c + 2 ∧
    (histVer n c x p t r0 r1 ((2 : Nat) : Field128)⁻¹).getD 0 0 = validShare n c x p r1 ∧
    (∀ w < 2 * c, (histVer n c x p t r0 r1 ((2 : Nat) : Field128)⁻¹).getD (w + 1) 0 = wireShare n c x p r0 t w) ∧
    (histVer n c x p t r0 r1 ((2 : Nat) : Field128)⁻¹).getD (2 * c + 1) 0 = polyEval (p.drop (2 * c)) t := by
  refine ⟨by simp [histVer], rfl, fun w hw => ?_, ?_⟩
  · unfold histVer
    rw [List.cons_append, List.getD_cons_succ, List.getD_append _ _ _ _ (by simpa using hw), getD_range_map, if_pos hw]
    rfl
  · unfold histVer
    rw [List.cons_append, List.getD_cons_succ, List.getD_append_right _ _ _ _ (by simp)]
    simp

/-- When the sum of two verifier shares is accepted, whatever joint randomness each server used. -/
theorem histDecide_split {n c : Nat} (x0 x1 p0 p1 : List Field128) (t r0 r1 s0 s1 : Field128) :
    histDecide c (Spec.addShares (histVer n c x0 p0 t r0 r1 ((2 : Nat) : Field128)⁻¹)
      (histVer n c x1 p1 t s0 s1 ((2 : Nat) : Field128)⁻¹)) = some true ↔
      validShare n c x0 p0 r1 + validShare n c x1 p1 s1 = 0 ∧
      ∑ j ∈ range c, (wireShare n c x0 p0 r0 t (2 * j) + wireShare n c x1 p1 s0 t (2 * j))
          * (wireShare n c x0 p0 r0 t (2 * j + 1) + wireShare n c x1 p1 s0 t (2 * j + 1))
        = polyEval (p0.drop (2 * c)) t + polyEval (p1.drop (2 * c)) t := by
  obtain ⟨l0, a0, b0, d0⟩ := histVer_getD (n := n) (c := c) x0 p0 t r0 r1
  obtain ⟨l1, a1, b1, d1⟩ := histVer_getD (n := n) (c := c) x1 p1 t s0 s1
  have hl := l0.trans l1.symm
  unfold histDecide
  rw [if_pos ((length_addShares' hl).trans l0), Option.some.injEq, Bool.and_eq_true, beq_iff_eq, beq_iff_eq]
  simp only [getD_addShares hl, a0, a1, d0, d1]
  have : ∑ j ∈ range c,
      ((histVer n c x0 p0 t r0 r1 ((2 : Nat) : Field128)⁻¹).getD (2 * j + 1) 0
        + (histVer n c x1 p1 t s0 s1 ((2 : Nat) : Field128)⁻¹).getD (2 * j + 1) 0)
      * ((histVer n c x0 p0 t r0 r1 ((2 : Nat) : Field128)⁻¹).getD (2 * j + 2) 0
        + (histVer n c x1 p1 t s0 s1 ((2 : Nat) : Field128)⁻¹).getD (2 * j + 2) 0)
      = ∑ j ∈ range c, (wireShare n c x0 p0 r0 t (2 * j) + wireShare n c x1 p1 s0 t (2 * j))
          * (wireShare n c x0 p0 r0 t (2 * j + 1) + wireShare n c x1 p1 s0 t (2 * j + 1)) := by
    refine Finset.sum_congr rfl fun j hj => ?_
    have := Finset.mem_range.1 hj
    rw [b0 (2 * j) (by omega), b1 (2 * j) (by omega), b0 (2 * j + 1) (by omega), b1 (2 * j + 1) (by omega)]
  rw [this]

theorem wireShare_root {n c : Nat} (hl : wireLog n c ≤ 66) (x p : List Field128) (r0 : Field128) {k : Nat}
    (hk : k < gadgetCalls n c) (w : Nat) :
    wireShare n c x p r0 (fieldRoot (wireLog n c) ^ (k + 1)) w = wireArg x r0 ((2 : Nat) : Field128)⁻¹ c k w := by
  have := calls_lt_wireLen n c
  unfold wireShare
  rw [wirePoly_root hl _ (by omega)]
  unfold wireVals
  rw [List.getD_cons_succ, getD_range_map, if_pos hk]

/-- The sum of the gadget's outputs when the servers use different joint randomness. -/
def splitCalls (n c : Nat) (x0 x1 : List Field128) (r0 s0 : Field128) : Field128 :=
  ∑ k ∈ range (gadgetCalls n c), ∑ j ∈ range c,
    (wireArg x0 r0 ((2 : Nat) : Field128)⁻¹ c k (2 * j) + wireArg x1 s0 ((2 : Nat) : Field128)⁻¹ c k (2 * j))
    * (wireArg x0 r0 ((2 : Nat) : Field128)⁻¹ c k (2 * j + 1) + wireArg x1 s0 ((2 : Nat) : Field128)⁻¹ c k (2 * j + 1))

/-- The sum of the helper's gadget polynomial over the points of the calls. -/
def callSum (n c : Nat) (p : List Field128) : Field128 :=
  ∑ k ∈ range (gadgetCalls n c), polyEval (p.drop (2 * c)) (fieldRoot (wireLog n c) ^ (k + 1))

theorem validShare_eq (n c : Nat) (x p : List Field128) (r1 : Field128) :
    validShare n c x p r1 = r1 * callSum n c p + r1 * r1 * (x.sum - ((2 : Nat) : Field128)⁻¹) := rfl

/-- For given vectors and joint randomness: unless a certain polynomial in the helper's randomness vanishes, there are few
query points at which the proof is accepted, whatever the leader's proof share. -/
theorem few_split {n c : Nat} (hl : wireLog n c ≤ 66) {x0 x1 p0 p1 : List Field128} {r0 r1 s0 s1 : Field128}
    (hp0 : p0.length = histProofLen n c) (hp1 : p1.length = histProofLen n c)
    (hne : s1 * s1 * (x1.sum - ((2 : Nat) : Field128)⁻¹) + s1 * callSum n c p1
      + (r1 * (splitCalls n c x0 x1 r0 s0 - callSum n c p1) + r1 * r1 * (x0.sum - ((2 : Nat) : Field128)⁻¹)) ≠ 0) :
    ∃ S : Finset Field128, S.card ≤ 2 * (wireLen n c - 1) ∧ ∀ t,
      histDecide c (Spec.addShares (histVer n c x0 p0 t r0 r1 ((2 : Nat) : Field128)⁻¹)
        (histVer n c x1 p1 t s0 s1 ((2 : Nat) : Field128)⁻¹)) = some true → t ∈ S := by
  classical
  let W0 := fun w => listPoly (wirePoly n c (wireVals n c x0 r0 ((2 : Nat) : Field128)⁻¹ p0 w))
  let W1 := fun w => listPoly (wirePoly n c (wireVals n c x1 s0 ((2 : Nat) : Field128)⁻¹ p1 w))
  let D : Field128[X] := ∑ j ∈ range c, (W0 (2 * j) + W1 (2 * j)) * (W0 (2 * j + 1) + W1 (2 * j + 1))
    - (listPoly (p0.drop (2 * c)) + listPoly (p1.drop (2 * c)))
  have hev : ∀ t, D.eval t = ∑ j ∈ range c, (wireShare n c x0 p0 r0 t (2 * j) + wireShare n c x1 p1 s0 t (2 * j))
      * (wireShare n c x0 p0 r0 t (2 * j + 1) + wireShare n c x1 p1 s0 t (2 * j + 1))
      - (polyEval (p0.drop (2 * c)) t + polyEval (p1.drop (2 * c)) t) := by
    intro t
    simp only [D, W0, W1, Polynomial.eval_sub, Polynomial.eval_add, Polynomial.eval_finsetSum, Polynomial.eval_mul,
      listPoly_eval]
    rfl
  have hW0 : ∀ w, (W0 w).natDegree ≤ wireLen n c - 1 := fun w => by
    have := listPoly_degree (wirePoly n c (wireVals n c x0 r0 ((2 : Nat) : Field128)⁻¹ p0 w))
    rwa [wirePoly_length] at this
  have hW1 : ∀ w, (W1 w).natDegree ≤ wireLen n c - 1 := fun w => by
    have := listPoly_degree (wirePoly n c (wireVals n c x1 s0 ((2 : Nat) : Field128)⁻¹ p1 w))
    rwa [wirePoly_length] at this
  have hG : ∀ {p : List Field128}, p.length = histProofLen n c →
      (listPoly (p.drop (2 * c))).natDegree ≤ 2 * (wireLen n c - 1) := by
    intro p hp
    refine (listPoly_degree _).trans ?_
    rw [List.length_drop, hp]
    unfold histProofLen
    omega
  have hdeg : D.natDegree ≤ 2 * (wireLen n c - 1) := by
    refine (Polynomial.natDegree_sub_le _ _).trans (max_le ?_ ?_)
    · refine Polynomial.natDegree_sum_le_of_forall_le _ _ fun j _ => ?_
      refine Polynomial.natDegree_mul_le.trans ?_
      have h1 := (Polynomial.natDegree_add_le (W0 (2 * j)) (W1 (2 * j))).trans (max_le (hW0 _) (hW1 _))
      have h2 := (Polynomial.natDegree_add_le (W0 (2 * j + 1)) (W1 (2 * j + 1))).trans (max_le (hW0 _) (hW1 _))
      omega
    · exact (Polynomial.natDegree_add_le _ _).trans (max_le (hG hp0) (hG hp1))
  by_cases hD : D = 0
  · refine ⟨∅, by simp, fun t ht => absurd ?_ hne⟩
    obtain ⟨h1, -⟩ := (histDecide_split x0 x1 p0 p1 t r0 r1 s0 s1).1 ht
    have hsum : callSum n c p0 + callSum n c p1 = splitCalls n c x0 x1 r0 s0 := by
      unfold callSum splitCalls
      rw [← Finset.sum_add_distrib]
      refine Finset.sum_congr rfl fun k hk => ?_
      have := hev (fieldRoot (wireLog n c) ^ (k + 1))
      rw [hD, Polynomial.eval_zero] at this
      rw [← sub_eq_zero.1 this.symm]
      have hk' := Finset.mem_range.1 hk
      exact Finset.sum_congr rfl fun j _ => by
        rw [wireShare_root hl _ _ _ hk', wireShare_root hl _ _ _ hk', wireShare_root hl _ _ _ hk',
          wireShare_root hl _ _ _ hk']
    rw [validShare_eq, validShare_eq] at h1
    rw [← hsum]
    linear_combination h1
  · refine ⟨D.roots.toFinset, (Multiset.toFinset_card_le _).trans ((Polynomial.card_roots' D).trans hdeg),
      fun t ht => ?_⟩
    obtain ⟨-, h2⟩ := (histDecide_split x0 x1 p0 p1 t r0 r1 s0 s1).1 ht
    rw [Multiset.mem_toFinset, Polynomial.mem_roots hD, Polynomial.IsRoot, hev, h2, sub_self]

/-- A quadratic has at most two roots. -/
theorem quadratic_roots {a : Field128} (ha : a ≠ 0) (b k : Field128) :
    {v : Field128 | v * v * a + v * b + k = 0}.ncard ≤ 2 := by
  classical
  have hne : (C a * X ^ 2 + C b * X + C k : Field128[X]) ≠ 0 := by
    intro h
    have := congrArg (fun p => Polynomial.coeff p 2) h
    simp [Polynomial.coeff_X, Polynomial.coeff_C] at this
    exact ha this
  have hd : (C a * X ^ 2 + C b * X + C k : Field128[X]).natDegree ≤ 2 := Polynomial.natDegree_quadratic_le
  have hsub : {v : Field128 | v * v * a + v * b + k = 0} ⊆ ↑(C a * X ^ 2 + C b * X + C k : Field128[X]).roots.toFinset := by
    intro v hv
    rw [Set.mem_setOf_eq] at hv
    rw [Finset.mem_coe, Multiset.mem_toFinset, Polynomial.mem_roots hne, Polynomial.IsRoot]
    simp only [Polynomial.eval_add, Polynomial.eval_mul, Polynomial.eval_C, Polynomial.eval_pow, Polynomial.eval_X]
    linear_combination hv
  refine (Set.ncard_le_ncard hsub (Finset.finite_toSet _)).trans ?_
  rw [Set.ncard_coe_finset]
  exact (Multiset.toFinset_card_le _).trans ((Polynomial.card_roots' _).trans hd)

end Mastic
