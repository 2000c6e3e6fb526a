import Verif.Lemmas.Libprio
import Verif.Spec.Libprio

/-!
# What the verification of a shared proof computes
-/

namespace Mastic

open Finset Polynomial

/-! ### Shares -/

theorem getD_addShares {a b : List Field128} (h : a.length = b.length) (i : Nat) :
    (Spec.addShares a b).getD i 0 = a.getD i 0 + b.getD i 0 := by
  unfold Spec.addShares
  by_cases hi : i < a.length
  · rw [List.getD_eq_getElem _ _ (by simp; omega), List.getD_eq_getElem _ _ hi, List.getD_eq_getElem _ _ (h ▸ hi)]
    simp
  · rw [List.getD_eq_default _ _ (by simp; omega), List.getD_eq_default _ _ (by omega),
      List.getD_eq_default _ _ (by omega), add_zero]

theorem length_addShares' {a b : List Field128} (h : a.length = b.length) :
    (Spec.addShares a b).length = a.length := by
  unfold Spec.addShares; simp [h]

theorem polyEval_addShares {a b : List Field128} (h : a.length = b.length) (t : Field128) :
    polyEval (Spec.addShares a b) t = polyEval a t + polyEval b t := by
  rw [polyEval_eq, polyEval_eq, polyEval_eq, length_addShares' h, ← h, ← Finset.sum_add_distrib]
  exact Finset.sum_congr rfl fun j _ => by rw [getD_addShares h, add_mul]

theorem drop_addShares (a b : List Field128) (k : Nat) :
    (Spec.addShares a b).drop k = Spec.addShares (a.drop k) (b.drop k) := by
  unfold Spec.addShares; rw [List.drop_zipWith]

theorem sum_addShares : ∀ {a b : List Field128}, a.length = b.length →
    (Spec.addShares a b).sum = a.sum + b.sum
  | [], [], _ => by simp [Spec.addShares]
  | x :: a, y :: b, h => by
    have := sum_addShares (a := a) (b := b) (by simpa using h)
    simp only [Spec.addShares, List.zipWith_cons_cons, List.sum_cons] at this ⊢
    rw [this]; ring

theorem map_addShares (l : List Nat) (f g : Nat → Field128) :
    Spec.addShares (l.map f) (l.map g) = l.map fun i => f i + g i := by
  unfold Spec.addShares
  induction l with
  | nil => rfl
  | cons a l ih => simp [ih]

/-! ### Verifier shares -/

/-- What a query answers; `si` is the server's share of one. -/
def histVer (n c : Nat) (x p : List Field128) (t r0 r1 si : Field128) : List Field128 :=
  histValid n c x r1 si (fun k => polyEval (p.drop (2 * c)) (fieldRoot (wireLog n c) ^ (k + 1)))
    :: (List.range (2 * c)).map (fun w => polyEval (wirePoly n c (wireVals n c x r0 si p w)) t)
    ++ [polyEval (p.drop (2 * c)) t]

theorem histQuery_some {n c : Nat} {x p : List Field128} {t r0 r1 : Field128} {s : Nat} {v : List Field128} :
    histQuery n c x p [t] [r0, r1] s = some v ↔
      x.length = n ∧ p.length = histProofLen n c ∧ t ^ wireLen n c ≠ 1 ∧
        v = histVer n c x p t r0 r1 (s : Field128)⁻¹ := by
  unfold histQuery histVer
  simp only [fieldInv_eq]
  by_cases h : x.length = n ∧ p.length = histProofLen n c ∧ t ^ wireLen n c ≠ 1
  · rw [if_pos h, Option.some.injEq]
    exact ⟨fun e => ⟨h.1, h.2.1, h.2.2, e.symm⟩, fun e => e.2.2.2.symm⟩
  · rw [if_neg h]
    constructor
    · intro e; exact absurd e (by simp)
    · rintro ⟨a, b, d, -⟩; exact absurd ⟨a, b, d⟩ h

theorem wireVals_add {n c : Nat} {x0 x1 p0 p1 : List Field128} (hx : x0.length = x1.length)
    (hp : p0.length = p1.length) (r0 s0 s1 : Field128) (w k : Nat) :
    (wireVals n c (Spec.addShares x0 x1) r0 (s0 + s1) (Spec.addShares p0 p1) w).getD k 0
      = (wireVals n c x0 r0 s0 p0 w).getD k 0 + (wireVals n c x1 r0 s1 p1 w).getD k 0 := by
  unfold wireVals
  cases k with
  | zero => simp only [List.getD_cons_zero, getD_addShares hp]
  | succ k =>
    simp only [List.getD_cons_succ, getD_range_map]
    split
    · unfold wireArg
      rw [getD_addShares hx]
      split <;> ring
    · simp

theorem histVer_add {n c : Nat} {x0 x1 p0 p1 : List Field128} (hx : x0.length = x1.length)
    (hp : p0.length = p1.length) (t r0 r1 s0 s1 : Field128) :
    Spec.addShares (histVer n c x0 p0 t r0 r1 s0) (histVer n c x1 p1 t r0 r1 s1)
      = histVer n c (Spec.addShares x0 x1) (Spec.addShares p0 p1) t r0 r1 (s0 + s1) := by
  have hd : (p0.drop (2 * c)).length = (p1.drop (2 * c)).length := by simp [hp]
  have e1 : ∀ w, polyEval (wirePoly n c (wireVals n c (Spec.addShares x0 x1) r0 (s0 + s1) (Spec.addShares p0 p1) w)) t
      = polyEval (wirePoly n c (wireVals n c x0 r0 s0 p0 w)) t
        + polyEval (wirePoly n c (wireVals n c x1 r0 s1 p1 w)) t := by
    intro w
    simp only [wirePoly_eval, wireVals_add hx hp, add_mul, Finset.sum_add_distrib]
  unfold histVer
  simp only [e1, drop_addShares, polyEval_addShares hd]
  rw [← map_addShares]
  unfold histValid
  rw [sum_addShares hx]
  simp only [Spec.addShares, List.cons_append, List.zipWith_cons_cons, Finset.sum_add_distrib]
  congr 1
  · ring
  · rw [List.zipWith_append (by simp)]
    rfl

/-- The wires at the query point. -/
def wireAt (n c : Nat) (x p : List Field128) (r0 t : Field128) (w : Nat) : Field128 :=
  polyEval (wirePoly n c (wireVals n c x r0 1 p w)) t

/-- The output of the circuit when the gadget polynomial is `g`. -/
def circuitOut (n c : Nat) (x g : List Field128) (r1 : Field128) : Field128 :=
  r1 * (∑ k ∈ range (gadgetCalls n c), polyEval g (fieldRoot (wireLog n c) ^ (k + 1))) + r1 * r1 * (x.sum - 1)

theorem histDecide_ver {n c : Nat} (x p : List Field128) (t r0 r1 : Field128) :
    histDecide c (histVer n c x p t r0 r1 1) = some true ↔
      circuitOut n c x (p.drop (2 * c)) r1 = 0 ∧
        ∑ j ∈ range c, wireAt n c x p r0 t (2 * j) * wireAt n c x p r0 t (2 * j + 1)
          = polyEval (p.drop (2 * c)) t := by
  have hl : (histVer n c x p t r0 r1 1).length = 2 * c + 2 := by simp [histVer]
  have h0 : (histVer n c x p t r0 r1 1).getD 0 0 = circuitOut n c x (p.drop (2 * c)) r1 := rfl
  have hw : ∀ w < 2 * c, (histVer n c x p t r0 r1 1).getD (w + 1) 0 = wireAt n c x p r0 t w := by
    intro w hw
    unfold histVer
    rw [List.cons_append, List.getD_cons_succ, List.getD_append _ _ _ _ (by simpa using hw), getD_range_map,
      if_pos hw]
    rfl
  have hlast : (histVer n c x p t r0 r1 1).getD (2 * c + 1) 0 = polyEval (p.drop (2 * c)) t := by
    unfold histVer
    rw [List.cons_append, List.getD_cons_succ, List.getD_append_right _ _ _ _ (by simp)]
    simp
  unfold histDecide
  rw [if_pos hl, Option.some.injEq, Bool.and_eq_true, beq_iff_eq, beq_iff_eq, h0, hlast]
  have : ∑ j ∈ range c, (histVer n c x p t r0 r1 1).getD (2 * j + 1) 0 * (histVer n c x p t r0 r1 1).getD (2 * j + 2) 0
      = ∑ j ∈ range c, wireAt n c x p r0 t (2 * j) * wireAt n c x p r0 t (2 * j + 1) := by
    refine Finset.sum_congr rfl fun j hj => ?_
    have := Finset.mem_range.1 hj
    rw [hw (2 * j) (by omega), hw (2 * j + 1) (by omega)]
  rw [this]

theorem half_add_half_field : ((2 : Nat) : Field128)⁻¹ + ((2 : Nat) : Field128)⁻¹ = 1 := by
  have h : ((2 : Nat) : Field128) ≠ 0 := by exact_mod_cast two_ne_zero'
  rw [← two_mul]
  exact mul_inv_cancel₀ h

/-- When two servers accept. -/
theorem accepts_iff {n c : Nat} {b0 b1 p0 p1 : List Field128} {t r0 r1 : Field128} (hx : b0.length = n)
    (hx' : b1.length = n) (hp : p0.length = histProofLen n c) (hp' : p1.length = histProofLen n c) :
    Spec.Accepts n c b0 b1 p0 p1 t r0 r1 ↔ t ^ wireLen n c ≠ 1 ∧
      circuitOut n c (Spec.addShares b0 b1) ((Spec.addShares p0 p1).drop (2 * c)) r1 = 0 ∧
        ∑ j ∈ range c, wireAt n c (Spec.addShares b0 b1) (Spec.addShares p0 p1) r0 t (2 * j)
          * wireAt n c (Spec.addShares b0 b1) (Spec.addShares p0 p1) r0 t (2 * j + 1)
          = polyEval ((Spec.addShares p0 p1).drop (2 * c)) t := by
  have key : histDecide c (Spec.addShares (histVer n c b0 p0 t r0 r1 ((2 : Nat) : Field128)⁻¹)
      (histVer n c b1 p1 t r0 r1 ((2 : Nat) : Field128)⁻¹))
      = histDecide c (histVer n c (Spec.addShares b0 b1) (Spec.addShares p0 p1) t r0 r1 1) := by
    rw [histVer_add (hx.trans hx'.symm) (hp.trans hp'.symm), half_add_half_field]
  rw [← histDecide_ver, ← key]
  constructor
  · rintro ⟨v0, v1, h0, h1, h2⟩
    obtain ⟨-, -, ht, rfl⟩ := histQuery_some.1 h0
    obtain ⟨-, -, -, rfl⟩ := histQuery_some.1 h1
    exact ⟨ht, h2⟩
  · rintro ⟨ht, h2⟩
    exact ⟨_, _, histQuery_some.2 ⟨hx, hp, ht, rfl⟩, histQuery_some.2 ⟨hx', hp', ht, rfl⟩, h2⟩

/-! ### The circuit -/

theorem wireAt_root {n c : Nat} (hl : wireLog n c ≤ 66) (x p : List Field128) (r0 : Field128) {k : Nat}
    (hk : k < gadgetCalls n c) (w : Nat) :
    wireAt n c x p r0 (fieldRoot (wireLog n c) ^ (k + 1)) w = wireArg x r0 1 c k w := by
  have := calls_lt_wireLen n c
  unfold wireAt
  rw [wirePoly_root hl _ (by omega)]
  unfold wireVals
  rw [List.getD_cons_succ, getD_range_map, if_pos hk]

theorem sum_chunks (c : Nat) (g : Nat → Field128) : ∀ K : Nat,
    ∑ k ∈ range K, ∑ j ∈ range c, g (k * c + j) = ∑ i ∈ range (K * c), g i
  | 0 => by simp
  | K + 1 => by
    rw [Finset.sum_range_succ, sum_chunks c g K, Nat.succ_mul, Finset.sum_range_add]

theorem calls_mul {n c : Nat} (hc : 1 ≤ c) : n ≤ gadgetCalls n c * c := by
  unfold gadgetCalls
  have := Nat.div_add_mod n c
  have h2 := Nat.mod_lt n hc
  split
  · next h => rw [add_zero, mul_comm]; omega
  · rw [Nat.succ_mul, mul_comm]; omega

theorem rangeFrom_eq (r : Field128) : ∀ (k : Nat) (x : List Field128),
    Spec.rangeFrom r k x = ∑ i ∈ range x.length, r ^ (k + i + 1) * (x.getD i 0 * (x.getD i 0 - 1))
  | _, [] => by simp [Spec.rangeFrom]
  | k, a :: x => by
    rw [Spec.rangeFrom, rangeFrom_eq r (k + 1) x, List.length_cons, Finset.sum_range_succ']
    simp only [List.getD_cons_zero, List.getD_cons_succ, add_zero]
    rw [add_comm]
    congr 1
    exact Finset.sum_congr rfl fun i _ => by rw [show k + 1 + i + 1 = k + (i + 1) + 1 by omega]

/-- If the gadget polynomial is the product of the wires at the points of the calls, the circuit computes the check of
the histogram. -/
theorem circuitOut_eq {n c : Nat} (hc : 1 ≤ c) {x g : List Field128} (hx : x.length = n) (r0 r1 : Field128)
    (hg : ∀ k < gadgetCalls n c, polyEval g (fieldRoot (wireLog n c) ^ (k + 1))
      = ∑ j ∈ range c, wireArg x r0 1 c k (2 * j) * wireArg x r0 1 c k (2 * j + 1)) :
    circuitOut n c x g r1 = Spec.histogramCheck r0 r1 x := by
  unfold circuitOut Spec.histogramCheck
  rw [pow_two]
  congr 2
  rw [Finset.sum_congr rfl fun k hk => hg k (Finset.mem_range.1 hk), rangeFrom_eq]
  have e : ∀ k j, wireArg x r0 1 c k (2 * j) * wireArg x r0 1 c k (2 * j + 1)
      = (fun i => r0 ^ (0 + i + 1) * (x.getD i 0 * (x.getD i 0 - 1))) (k * c + j) := by
    intro k j
    unfold wireArg
    rw [if_pos (by omega), if_neg (by omega), show 2 * j / 2 = j by omega, show (2 * j + 1) / 2 = j by omega]
    simp only [zero_add]
    ring
  rw [Finset.sum_congr rfl fun k _ => Finset.sum_congr rfl fun j _ => e k j,
    sum_chunks c (fun i => r0 ^ (0 + i + 1) * (x.getD i 0 * (x.getD i 0 - 1))) (gadgetCalls n c)]
  symm
  refine Finset.sum_subset (fun i hi => ?_) fun i _ hi => ?_
  · have := Finset.mem_range.1 hi
    have := calls_mul (n := n) hc
    exact Finset.mem_range.2 (by omega)
  · rw [List.getD_eq_default _ _ (by simpa using hi)]
    simp

/-! ### Proofs -/

theorem histProve_some {n c : Nat} {x pr : List Field128} {r0 r1 : Field128} {proof : List Field128} :
    histProve n c x pr [r0, r1] = some proof ↔ x.length = n ∧ pr.length = 2 * c ∧
      proof = pr ++ gadgetPoly n c fun w => wirePoly n c (wireVals n c x r0 1 pr w) := by
  unfold histProve
  simp only [fieldInv_eq, inv_one]
  by_cases h : x.length = n ∧ pr.length = 2 * c
  · rw [if_pos h, Option.some.injEq]
    exact ⟨fun e => ⟨h.1, h.2, e.symm⟩, fun e => e.2.2.symm⟩
  · rw [if_neg h]
    constructor
    · intro e; exact absurd e (by simp)
    · rintro ⟨a, b, -⟩; exact absurd ⟨a, b⟩ h

theorem gadgetPoly_length (n c : Nat) (f : Nat → List Field128) :
    (gadgetPoly n c f).length = 2 * (wireLen n c - 1) + 1 := by simp [gadgetPoly]

theorem proof_length {n c : Nat} {x pr : List Field128} {r0 r1 : Field128} {proof : List Field128}
    (h : histProve n c x pr [r0, r1] = some proof) : proof.length = histProofLen n c := by
  obtain ⟨-, hp, rfl⟩ := histProve_some.1 h
  rw [List.length_append, gadgetPoly_length, hp]
  rfl

theorem wireVals_seeds {n c : Nat} {x : List Field128} {r0 si : Field128} {p q : List Field128} {w : Nat}
    (h : p.getD w 0 = q.getD w 0) : wireVals n c x r0 si p w = wireVals n c x r0 si q w := by
  unfold wireVals; rw [h]

/-- A made proof has the wires and the gadget polynomial it should have. -/
theorem made_proof {n c : Nat} {x pr : List Field128} {r0 r1 : Field128} {proof : List Field128}
    (h : histProve n c x pr [r0, r1] = some proof) :
    (∀ t w, w < 2 * c → wireAt n c x proof r0 t w = wireAt n c x pr r0 t w) ∧
      ∀ t, polyEval (proof.drop (2 * c)) t
        = ∑ j ∈ range c, wireAt n c x pr r0 t (2 * j) * wireAt n c x pr r0 t (2 * j + 1) := by
  obtain ⟨-, hp, rfl⟩ := histProve_some.1 h
  constructor
  · intro t w hw
    unfold wireAt
    rw [wireVals_seeds (q := pr) (List.getD_append _ _ _ _ (by omega))]
  · intro t
    rw [List.drop_left' hp, gadgetPoly_eval _ _ _ fun w => wirePoly_length _ _ _]
    rfl

/-- Shares of a made proof are accepted exactly if the vector passes the circuit. -/
theorem made_accepts {n c : Nat} (hc : 1 ≤ c) (hl : wireLog n c ≤ 66) {x pr proof b0 b1 p0 p1 : List Field128}
    {t r0 r1 : Field128} (h : histProve n c x pr [r0, r1] = some proof) (hb : Spec.Shares x b0 b1)
    (hp : Spec.Shares proof p0 p1) :
    Spec.Accepts n c b0 b1 p0 p1 t r0 r1 ↔ t ^ wireLen n c ≠ 1 ∧ Spec.histogramCheck r0 r1 x = 0 := by
  obtain ⟨hx, -, -⟩ := histProve_some.1 h
  have hlen := proof_length h
  rw [accepts_iff (hb.1.trans hx) (hb.2.1.trans hx) (hp.1.trans hlen) (hp.2.1.trans hlen), hb.2.2, hp.2.2]
  obtain ⟨h1, h2⟩ := made_proof h
  have e1 : circuitOut n c x (proof.drop (2 * c)) r1 = Spec.histogramCheck r0 r1 x := by
    refine circuitOut_eq hc hx r0 r1 fun k hk => ?_
    rw [h2]
    exact Finset.sum_congr rfl fun j _ => by rw [wireAt_root hl _ _ _ hk, wireAt_root hl _ _ _ hk]
  rw [e1, h2]
  have e2 : ∑ j ∈ range c, wireAt n c x proof r0 t (2 * j) * wireAt n c x proof r0 t (2 * j + 1)
      = ∑ j ∈ range c, wireAt n c x pr r0 t (2 * j) * wireAt n c x pr r0 t (2 * j + 1) := by
    refine Finset.sum_congr rfl fun j hj => ?_
    have := Finset.mem_range.1 hj
    rw [h1 t _ (by omega), h1 t _ (by omega)]
  rw [e2]
  simp

/-! ### Arbitrary and changed proofs -/

theorem wireAt_eq (n c : Nat) (x p : List Field128) (r0 t : Field128) (w : Nat) :
    wireAt n c x p r0 t w = (listPoly (wirePoly n c (wireVals n c x r0 1 p w))).eval t := (listPoly_eval _ _).symm

/-- For a vector that does not pass the circuit, the servers accept any given proof at few query points only. -/
theorem few_accepted {n c : Nat} (hc : 1 ≤ c) (hl : wireLog n c ≤ 66) {b0 b1 p0 p1 : List Field128} {r0 r1 : Field128}
    (hb0 : b0.length = n) (hb1 : b1.length = n) (hp0 : p0.length = histProofLen n c)
    (hp1 : p1.length = histProofLen n c) (hck : Spec.histogramCheck r0 r1 (Spec.addShares b0 b1) ≠ 0) :
    ∃ S : Finset Field128, S.card ≤ 2 * (wireLen n c - 1) ∧
      ∀ t, Spec.Accepts n c b0 b1 p0 p1 t r0 r1 → t ∈ S := by
  classical
  set x := Spec.addShares b0 b1 with hx
  set p := Spec.addShares p0 p1 with hp
  have hxl : x.length = n := (length_addShares' (hb0.trans hb1.symm)).trans hb0
  have hpl : p.length = histProofLen n c := (length_addShares' (hp0.trans hp1.symm)).trans hp0
  let W := fun w => listPoly (wirePoly n c (wireVals n c x r0 1 p w))
  let D : Field128[X] := ∑ j ∈ range c, W (2 * j) * W (2 * j + 1) - listPoly (p.drop (2 * c))
  have hev : ∀ t, D.eval t = ∑ j ∈ range c, wireAt n c x p r0 t (2 * j) * wireAt n c x p r0 t (2 * j + 1)
      - polyEval (p.drop (2 * c)) t := by
    intro t
    simp only [D, W, Polynomial.eval_sub, Polynomial.eval_finsetSum, Polynomial.eval_mul, listPoly_eval]
    rfl
  have hdeg : D.natDegree ≤ 2 * (wireLen n c - 1) := by
    refine (Polynomial.natDegree_sub_le _ _).trans (max_le ?_ ?_)
    · refine Polynomial.natDegree_sum_le_of_forall_le _ _ fun j _ => ?_
      refine Polynomial.natDegree_mul_le.trans ?_
      have h1 := listPoly_degree (wirePoly n c (wireVals n c x r0 1 p (2 * j)))
      have h2 := listPoly_degree (wirePoly n c (wireVals n c x r0 1 p (2 * j + 1)))
      rw [wirePoly_length] at h1 h2
      simp only [W]
      omega
    · refine (listPoly_degree _).trans ?_
      rw [List.length_drop, hpl]
      unfold histProofLen
      omega
  by_cases hD : D = 0
  · refine ⟨∅, by simp, fun t ht => ?_⟩
    obtain ⟨-, h1, -⟩ := (accepts_iff hb0 hb1 hp0 hp1).1 ht
    refine absurd ?_ hck
    rw [← h1]
    refine (circuitOut_eq hc hxl r0 r1 fun k hk => ?_).symm
    have := hev (fieldRoot (wireLog n c) ^ (k + 1))
    rw [hD, Polynomial.eval_zero] at this
    rw [← sub_eq_zero.1 this.symm]
    exact Finset.sum_congr rfl fun j _ => by rw [wireAt_root hl _ _ _ hk, wireAt_root hl _ _ _ hk]
  · refine ⟨D.roots.toFinset, (Multiset.toFinset_card_le _).trans ((Polynomial.card_roots' D).trans hdeg),
      fun t ht => ?_⟩
    obtain ⟨-, -, h2⟩ := (accepts_iff hb0 hb1 hp0 hp1).1 ht
    rw [Multiset.mem_toFinset, Polynomial.mem_roots hD, Polynomial.IsRoot, hev, h2, sub_self]

/-- Changing the first wire seed. -/
theorem wireAt_bump (n c : Nat) (x : List Field128) (a δ : Field128) (p : List Field128) (r0 t : Field128) :
    wireAt n c x ((a + δ) :: p) r0 t 0 = wireAt n c x (a :: p) r0 t 0 + δ * lagrange n c 0 t := by
  unfold wireAt
  rw [wirePoly_eval, wirePoly_eval]
  obtain ⟨m, hm⟩ : ∃ m, wireLen n c = m + 1 := ⟨_, (Nat.succ_pred_eq_of_pos (wireLen_pos n c)).symm⟩
  rw [hm, Finset.sum_range_succ', Finset.sum_range_succ']
  simp only [wireVals, List.getD_cons_zero, List.getD_cons_succ]
  ring

/-- A made proof whose first entry is changed is accepted exactly if the second wire polynomial vanishes at the query
point. -/
theorem bumped_accepts {n c : Nat} (hc : 1 ≤ c) (hl : wireLog n c ≤ 66) {x pr proof b0 b1 p0 ps : List Field128}
    {t r0 r1 p δ : Field128} (h : histProve n c x pr [r0, r1] = some proof) (hb : Spec.Shares x b0 b1)
    (hp : Spec.Shares proof p0 (p :: ps)) (hck : Spec.histogramCheck r0 r1 x = 0) (hδ : δ ≠ 0) :
    Spec.Accepts n c b0 b1 p0 ((p + δ) :: ps) t r0 r1 ↔
      t ^ wireLen n c ≠ 1 ∧ wireAt n c x pr r0 t 1 = 0 := by
  obtain ⟨hx, -, -⟩ := histProve_some.1 h
  have hlen := proof_length h
  obtain ⟨hp0, hp1, hsum⟩ := hp
  match p0, hp0, hsum with
  | [], hp0, _ => rw [← hp0] at hp1; simp at hp1
  | a :: as, hp0, hsum =>
    have hl0 : (a :: as).length = histProofLen n c := hp0.trans hlen
    have hl1 : ((p + δ) :: ps).length = histProofLen n c := by rw [List.length_cons] at hp1 ⊢; exact hp1.trans hlen
    have e : Spec.addShares (a :: as) ((p + δ) :: ps) = (a + p + δ) :: Spec.addShares as ps := by
      simp only [Spec.addShares, List.zipWith_cons_cons]
      rw [add_assoc]
    have e' : proof = (a + p) :: Spec.addShares as ps := hsum.symm
    have hdrop : (Spec.addShares (a :: as) ((p + δ) :: ps)).drop (2 * c) = proof.drop (2 * c) := by
      rw [e, e']
      obtain ⟨k, hk⟩ : ∃ k, 2 * c = k + 1 := ⟨2 * c - 1, by omega⟩
      rw [hk, List.drop_succ_cons, List.drop_succ_cons]
    rw [accepts_iff (hb.1.trans hx) (hb.2.1.trans hx) hl0 hl1, hb.2.2, hdrop]
    obtain ⟨h1, h2⟩ := made_proof h
    have e1 : circuitOut n c x (proof.drop (2 * c)) r1 = 0 := by
      rw [← hck]
      refine circuitOut_eq hc hx r0 r1 fun k hk => ?_
      rw [h2]
      exact Finset.sum_congr rfl fun j _ => by rw [wireAt_root hl _ _ _ hk, wireAt_root hl _ _ _ hk]
    have hw : ∀ w, 0 < w → w < 2 * c →
        wireAt n c x (Spec.addShares (a :: as) ((p + δ) :: ps)) r0 t w = wireAt n c x pr r0 t w := by
      intro w hw hw'
      rw [← h1 t w hw']
      unfold wireAt
      rw [wireVals_seeds (q := proof)]
      rw [e, e']
      obtain ⟨k, rfl⟩ : ∃ k, w = k + 1 := ⟨w - 1, by omega⟩
      rw [List.getD_cons_succ, List.getD_cons_succ]
    have hw0 : wireAt n c x (Spec.addShares (a :: as) ((p + δ) :: ps)) r0 t 0
        = wireAt n c x pr r0 t 0 + δ * lagrange n c 0 t := by
      rw [← h1 t 0 (by omega), e, e', wireAt_bump]
    obtain ⟨c', rfl⟩ : ∃ c', c = c' + 1 := ⟨c - 1, by omega⟩
    rw [h2, e1, Finset.sum_range_succ', Finset.sum_range_succ' _ c']
    have hs : ∑ j ∈ range c', wireAt n (c' + 1) x (Spec.addShares (a :: as) ((p + δ) :: ps)) r0 t (2 * (j + 1))
          * wireAt n (c' + 1) x (Spec.addShares (a :: as) ((p + δ) :: ps)) r0 t (2 * (j + 1) + 1)
        = ∑ j ∈ range c', wireAt n (c' + 1) x pr r0 t (2 * (j + 1))
          * wireAt n (c' + 1) x pr r0 t (2 * (j + 1) + 1) := by
      refine Finset.sum_congr rfl fun j hj => ?_
      have := Finset.mem_range.1 hj
      rw [hw _ (by omega) (by omega), hw _ (by omega) (by omega)]
    rw [hs, mul_zero, hw0, zero_add, hw 1 (by omega) (by omega)]
    constructor
    · rintro ⟨ht, -, h3⟩
      refine ⟨ht, ?_⟩
      have h4 := add_left_cancel h3
      rw [add_mul, add_eq_left] at h4
      rcases mul_eq_zero.1 h4 with h5 | h5
      · exact absurd h5 (mul_ne_zero hδ (lagrange_zero_ne ht))
      · exact h5
    · rintro ⟨ht, h3⟩
      refine ⟨ht, rfl, ?_⟩
      rw [h3]
      ring

/-- The second wire polynomial is zero at few points, unless all its values are zero. -/
theorem few_roots {n c : Nat} (hl : wireLog n c ≤ 66) (v : List Field128) {i : Nat} (hi : i < wireLen n c)
    (hv : v.getD i 0 ≠ 0) :
    ∃ S : Finset Field128, S.card ≤ wireLen n c - 1 ∧ ∀ t, polyEval (wirePoly n c v) t = 0 → t ∈ S := by
  classical
  have hne : listPoly (wirePoly n c v) ≠ 0 := by
    intro h
    have := wirePoly_root hl v hi
    rw [← listPoly_eval, h, Polynomial.eval_zero] at this
    exact hv this.symm
  refine ⟨(listPoly (wirePoly n c v)).roots.toFinset, (Multiset.toFinset_card_le _).trans
    ((Polynomial.card_roots' _).trans ((listPoly_degree _).trans (by rw [wirePoly_length]))), fun t ht => ?_⟩
  rw [Multiset.mem_toFinset, Polynomial.mem_roots hne, Polynomial.IsRoot, listPoly_eval, ht]

end Mastic
