import Mathlib.Data.Set.Card
import Verif.Lemmas.LibprioRun
import Verif.Props.Forge
import Verif.Props.Main
import Verif.Spec.Wire

/-!
# C81–C83: the proof system that `prove`, `query` and `decide` stand for
-/

namespace Mastic

open Finset Polynomial

variable {P : Prims}

/-! ### Sizes -/

theorem calls_eq {n c : Nat} (hc : 1 ≤ c) : gadgetCalls n c = (n + c - 1) / c := by
  unfold gadgetCalls
  have h1 := Nat.div_add_mod n c
  have h2 := Nat.mod_lt n hc
  split
  · next h =>
    symm
    rw [add_zero, Nat.div_eq_iff hc]
    rw [h, mul_comm] at h1
    omega
  · symm
    rw [Nat.div_eq_iff hc, Nat.succ_mul]
    rw [mul_comm] at h1
    omega

theorem wireLen_points {n c : Nat} (hc : 1 ≤ c) : wireLen n c = Spec.points n c := by
  unfold wireLen wireLog Spec.points
  rw [calls_eq hc, add_comm]

theorem wireLog_le {n c : Nat} (hc : 1 ≤ c) (hn : n < 2 ^ 64) : wireLog n c ≤ 66 := by
  unfold wireLog
  have : gadgetCalls n c ≤ n := by
    rw [calls_eq hc]
    refine Nat.lt_succ_iff.1 ((Nat.div_lt_iff_lt_mul hc).2 ?_)
    have : n * 1 ≤ n * c := Nat.mul_le_mul_left n hc
    rw [Nat.succ_mul]
    omega
  exact (Nat.clog_le_of_le_pow (by omega : 1 + gadgetCalls n c ≤ 2 ^ 64)).trans (by norm_num)

theorem points_two {n : Nat} : 2 * (Spec.points n 2 - 1) ≤ 2 * n := by
  have hlt : Nat.clog 2 ((n + 2 - 1) / 2 + 1) = 0 ∨ 0 < Nat.clog 2 ((n + 2 - 1) / 2 + 1) := by omega
  unfold Spec.points
  rcases hlt with h | h
  · rw [h]; simp
  · have h1 := Nat.pow_pred_clog_lt_self (b := 2) (by norm_num) (x := (n + 2 - 1) / 2 + 1) (by
      by_contra h0
      have : (n + 2 - 1) / 2 + 1 = 1 := by omega
      rw [this] at h
      simp at h)
    obtain ⟨k, hk⟩ : ∃ k, Nat.clog 2 ((n + 2 - 1) / 2 + 1) = k + 1 := ⟨_, (Nat.succ_pred_eq_of_pos h).symm⟩
    rw [hk] at h1 ⊢
    rw [Nat.pred_succ] at h1
    rw [pow_succ]
    omega

/-! ### Completeness -/

/-- **C81.**  For every vector of every length and every sharing of vector and proof: two servers accept a proof made by
the prover exactly if the vector passes the circuit and the query point is not one of the interpolation points. -/
theorem C81_made_proofs {n c : Nat} (hc : 1 ≤ c) (hn : n < 2 ^ 64) {x pr proof b0 b1 p0 p1 : List Field128}
    {t r0 r1 : Field128} (h : histProve n c x pr [r0, r1] = some proof) (hb : Spec.Shares x b0 b1)
    (hp : Spec.Shares proof p0 p1) :
    Spec.Accepts n c b0 b1 p0 p1 t r0 r1 ↔ t ^ Spec.points n c ≠ 1 ∧ Spec.histogramCheck r0 r1 x = 0 := by
  rw [← wireLen_points hc]
  exact made_accepts hc (wireLog_le hc hn) h hb hp

/-- **C81.**  The prover succeeds exactly on vectors of the right length with randomness of the right length. -/
theorem C81_prover {n c : Nat} {x pr jr : List Field128} :
    (∃ proof, histProve n c x pr jr = some proof) ↔ x.length = n ∧ pr.length = 2 * c ∧ jr.length = 2 := by
  constructor
  · rintro ⟨proof, h⟩
    match jr, h with
    | [r0, r1], h =>
      obtain ⟨a, b, -⟩ := histProve_some.1 h
      exact ⟨a, b, rfl⟩
  · rintro ⟨a, b, d⟩
    match jr, d with
    | [r0, r1], _ => exact ⟨_, histProve_some.2 ⟨a, b, rfl⟩⟩

/-- **C81, what the other theorems assume: completeness for vectors that pass the circuit.** -/
theorem C81_circuit {n : Nat} (hn : n < 2 ^ 64) {t : Field128} (ht : t ^ Spec.points n 2 ≠ 1) :
    Spec.CircuitCompleteAt P.withHistogram n [t] := by
  intro r0 r1 x pr proof b0 b1 p0 p1 hx hck hpr hb0 hb1 hb hp0 hp1 hp
  obtain ⟨v0, v1, h0, h1, h2⟩ := (C81_made_proofs (c := 2) (t := t) (by norm_num) hn hpr
    ⟨hb0.trans hx.symm, hb1.trans hx.symm, hb⟩ ⟨hp0, hp1, hp⟩).2 ⟨ht, hck⟩
  exact ⟨v0, v1, h0, h1, h2⟩

/-- **C81, what the other theorems assume: completeness for the weights of clients.** -/
theorem C81_complete {n : Nat} (hn : n < 2 ^ 64) {t : Field128} (ht : t ^ Spec.points n 2 ≠ 1) :
    Spec.FlpCompleteAt P.withHistogram n [t] := by
  intro bucket beta pr j proof b0 b1 p0 p1 hbeta hpr hb0 hb1 hb hp0 hp1 hp
  have hpr' : histProve n 2 beta pr j = some proof := hpr
  obtain ⟨hx, -, hj⟩ := C81_prover.1 ⟨_, hpr'⟩
  match j, hj with
  | [r0, r1], _ =>
    obtain ⟨v0, v1, h0, h1, h2⟩ := (C81_made_proofs (c := 2) (t := t) (by norm_num) hn hpr' ⟨hb0, hb1, hb⟩
      ⟨hp0, hp1, hp⟩).2 ⟨ht, histogramCheck_oneHot (oneHot_iff.2 ⟨_, hbeta⟩) r0 r1⟩
    refine ⟨v0, v1, h0, h1, ?_, h2⟩
    obtain ⟨-, -, -, rfl⟩ := histQuery_some.1 h0
    obtain ⟨-, -, -, rfl⟩ := histQuery_some.1 h1
    simp [histVer]

/-- **C81.**  Proofs and verifier shares have one length per number of buckets: the lengths the repository's artifact
description implies. -/
theorem C81_lengths (n : Nat) :
    Spec.ProofLen P.withHistogram n (4 + (2 * (Spec.points n 2 - 1) + 1)) ∧ Spec.VerifierLen P.withHistogram n 6 := by
  constructor
  · intro beta rand joint proof h
    have h : histProve n 2 beta rand joint = some proof := h
    obtain ⟨-, -, hj⟩ := C81_prover.1 ⟨_, h⟩
    match joint, hj with
    | [r0, r1], _ =>
      rw [proof_length h, histProofLen, wireLen_points (by norm_num)]
  · intro x p q j v h
    have h : histQuery n 2 x p q j 2 = some v := h
    match q, j, h with
    | [t], [r0, r1], h =>
      obtain ⟨-, -, -, rfl⟩ := histQuery_some.1 h
      simp [histVer]

/-! ### Soundness -/

/-- **C82.**  Whatever proof is shared, honestly made or not: for a vector that does not pass the circuit there are at
most `2 (points - 1)` query points at which two servers accept. -/
theorem C82_sound {n c : Nat} (hc : 1 ≤ c) (hn : n < 2 ^ 64) {b0 b1 p0 p1 : List Field128} {r0 r1 : Field128}
    (hb : b0.length = b1.length) (hp : p0.length = p1.length)
    (hck : Spec.histogramCheck r0 r1 (Spec.addShares b0 b1) ≠ 0) :
    {t | Spec.Accepts n c b0 b1 p0 p1 t r0 r1}.ncard ≤ 2 * (Spec.points n c - 1) := by
  by_cases h : b0.length = n ∧ p0.length = histProofLen n c
  · obtain ⟨S, h1, h2⟩ := few_accepted hc (wireLog_le hc hn) h.1 (hb ▸ h.1) h.2 (hp ▸ h.2) hck
    rw [wireLen_points hc] at h1
    refine le_trans ?_ h1
    rw [← Set.ncard_coe_finset]
    exact Set.ncard_le_ncard (fun t ht => h2 t ht) (Finset.finite_toSet S)
  · have : {t | Spec.Accepts n c b0 b1 p0 p1 t r0 r1} = ∅ := by
      refine Set.eq_empty_of_forall_notMem fun t ht => ?_
      obtain ⟨v0, v1, h0, -, -⟩ := ht
      obtain ⟨a, b, -, -⟩ := histQuery_some.1 h0
      exact h ⟨a, b⟩
    rw [this]
    simp

/-- Counting pairs: all of those with first component in `A`, few for the others. -/
theorem ncard_pairs_le {R T : Type} [Fintype R] [Fintype T] (acc : R → T → Prop) (A : Set R) (k : Nat)
    (h : ∀ r, r ∉ A → {t | acc r t}.ncard ≤ k) :
    {x : R × T | acc x.1 x.2}.ncard ≤ A.ncard * Fintype.card T + Fintype.card R * k := by
  classical
  let U : Finset (R × T) := A.toFinset ×ˢ univ ∪ (univ.filter fun r => r ∉ A).biUnion fun r =>
    (univ.filter fun t => acc r t).image fun t => (r, t)
  have hU : U.card ≤ A.ncard * Fintype.card T + Fintype.card R * k := by
    refine (Finset.card_union_le _ _).trans (add_le_add ?_ ?_)
    · rw [Finset.card_product, Finset.card_univ, Set.ncard_eq_toFinset_card']
    · refine (Finset.card_biUnion_le_card_mul _ _ k fun r hr => ?_).trans
        (Nat.mul_le_mul_right _ (Finset.card_le_univ _))
      refine Finset.card_image_le.trans (le_trans (le_of_eq ?_) (h r (Finset.mem_filter.1 hr).2))
      rw [← Set.ncard_coe_finset]
      refine congrArg Set.ncard ?_
      ext t
      simp
  refine le_trans ?_ hU
  rw [← Set.ncard_coe_finset]
  refine Set.ncard_le_ncard (fun r hr => ?_) (Finset.finite_toSet U)
  by_cases hr1 : r.1 ∈ A
  · exact Finset.mem_coe.2 (Finset.mem_union_left _ (Finset.mem_product.2 ⟨by simpa using hr1, Finset.mem_univ _⟩))
  · refine Finset.mem_coe.2 (Finset.mem_union_right _ (Finset.mem_biUnion.2 ⟨r.1, by simpa using hr1, ?_⟩))
    exact Finset.mem_image.2 ⟨r.2, by simpa using hr, rfl⟩

/-- **C82, with the joint randomness.**  A client fixes the shares of a vector that is not one-hot; the shares of its
proof may depend on the joint randomness in any way.  Of the `fieldModulus ^ 3` values of joint randomness and query
point at most `(3 n + 1) fieldModulus ^ 2` make two servers accept. -/
theorem C82_strategy {n : Nat} (hn : 1 ≤ n) (hn64 : n < 2 ^ 64) {b0 b1 : List Field128} (hb0 : b0.length = n)
    (hb1 : b1.length = n) (hx : ¬ Spec.OneHot n (Spec.addShares b0 b1)) (p0 p1 : Field128 → Field128 → List Field128)
    (hp : ∀ r0 r1, (p0 r0 r1).length = (p1 r0 r1).length) :
    {r : (Field128 × Field128) × Field128 | Spec.Accepts n 2 b0 b1 (p0 r.1.1 r.1.2) (p1 r.1.1 r.1.2) r.2 r.1.1 r.1.2}.ncard
      ≤ (3 * n + 1) * fieldModulus ^ 2 := by
  have hcard : Fintype.card Field128 = fieldModulus := ZMod.card _
  have key := ncard_pairs_le (fun (r : Field128 × Field128) t =>
      Spec.Accepts n 2 b0 b1 (p0 r.1 r.2) (p1 r.1 r.2) t r.1 r.2)
    {r | Spec.histogramCheck r.1 r.2 (Spec.addShares b0 b1) = 0} (2 * n) fun r hr =>
      (C82_sound (c := 2) (by norm_num) hn64 (hb0.trans hb1.symm) (hp _ _) hr).trans points_two
  have hA := C65_fixed_weight_partial hn (lt_trans hn64 (by decide))
    ((length_addShares' (hb0.trans hb1.symm)).trans hb0) hx
  refine key.trans ?_
  rw [Fintype.card_prod, hcard]
  generalize {r : Field128 × Field128 | Spec.histogramCheck r.1 r.2 (Spec.addShares b0 b1) = 0}.ncard = a at hA ⊢
  generalize fieldModulus = q at hA ⊢
  calc _ ≤ (n + 1) * q * q + q * q * (2 * n) := add_le_add (Nat.mul_le_mul_right _ hA) le_rfl
    _ = (3 * n + 1) * q ^ 2 := by ring

/-- **C82, the driver's simulated misbehaviour.**  A made proof whose first entry is changed in one share (the driver
adds 1337, `src/bin/driver.rs:300-309`) is accepted at fewer query points than there are interpolation points, unless the
second prover random value happens to be zero. -/
theorem C82_tampered {n c : Nat} (hc : 1 ≤ c) (hn : n < 2 ^ 64) {x pr proof b0 b1 p0 ps : List Field128}
    {r0 r1 p δ w : Field128} (h : histProve n c x pr [r0, r1] = some proof) (hb : Spec.Shares x b0 b1)
    (hp : Spec.Shares proof p0 (p :: ps)) (hck : Spec.histogramCheck r0 r1 x = 0) (hδ : δ ≠ 0)
    (hw : pr[1]? = some w) (hw0 : w ≠ 0) :
    {t | Spec.Accepts n c b0 b1 p0 ((p + δ) :: ps) t r0 r1}.ncard ≤ Spec.points n c - 1 := by
  have hl := wireLog_le hc hn
  obtain ⟨S, h1, h2⟩ := few_roots hl (wireVals n c x r0 1 pr 1) (wireLen_pos n c) (by
    simpa [wireVals, List.getD_eq_getElem?_getD, hw] using hw0)
  rw [wireLen_points hc] at h1
  refine le_trans ?_ h1
  rw [← Set.ncard_coe_finset]
  exact Set.ncard_le_ncard (fun t ht => h2 t ((bumped_accepts hc hl h hb hp hck hδ).1 ht).2) (Finset.finite_toSet S)

/-- With a zero the misbehaviour goes unnoticed: bucket 0 of at most two, at every query point. -/
theorem C82_tampered_unnoticed {n : Nat} (hn : 1 ≤ n) (hn2 : n ≤ 2) {x proof b0 b1 p0 ps : List Field128}
    {r0 r1 p δ a b d t : Field128} (hx : encodeMeasurement n 0 = some x)
    (h : histProve n 2 x [a, 0, b, d] [r0, r1] = some proof) (hb : Spec.Shares x b0 b1)
    (hp : Spec.Shares proof p0 (p :: ps)) (hδ : δ ≠ 0) (ht : t ^ Spec.points n 2 ≠ 1) :
    Spec.Accepts n 2 b0 b1 p0 ((p + δ) :: ps) t r0 r1 := by
  refine (bumped_accepts (by norm_num) (wireLog_le (by norm_num) (by omega)) h hb hp
    (histogramCheck_oneHot (oneHot_iff.2 ⟨_, hx⟩) r0 r1) hδ).2 ⟨by rwa [wireLen_points (by norm_num)], ?_⟩
  unfold wireAt
  rw [wirePoly_eval]
  refine Finset.sum_eq_zero fun k _ => ?_
  rw [show (wireVals n 2 x r0 1 [a, 0, b, d] 1).getD k 0 = 0 from ?_, zero_mul]
  have hx' : x = (List.replicate n 0).set 0 1 := by
    unfold encodeMeasurement at hx
    rw [if_pos (show 0 < n from hn)] at hx
    exact (Option.some.inj hx).symm
  subst hx'
  have hc1 : gadgetCalls n 2 = 1 := by
    interval_cases n <;> rfl
  unfold wireVals
  cases k with
  | zero => rfl
  | succ k =>
    rw [List.getD_cons_succ, getD_range_map, hc1]
    split
    · next hk =>
      have : k = 0 := by omega
      subst this
      interval_cases n <;> simp [wireArg]
    · rfl

/-! ### Zero knowledge -/

/-- **C83.**  The two verifier shares add up to the verifier message of the unshared vector and proof. -/
theorem C83_sum {n c : Nat} {x proof b0 b1 p0 p1 q jr v0 v1 : List Field128} (hb : Spec.Shares x b0 b1)
    (hp : Spec.Shares proof p0 p1) (h0 : histQuery n c b0 p0 q jr 2 = some v0)
    (h1 : histQuery n c b1 p1 q jr 2 = some v1) : histQuery n c x proof q jr 1 = some (Spec.addShares v0 v1) := by
  match q, jr, h0, h1 with
  | [t], [r0, r1], h0, h1 =>
    obtain ⟨a0, c0, ht, rfl⟩ := histQuery_some.1 h0
    obtain ⟨a1, c1, -, rfl⟩ := histQuery_some.1 h1
    refine histQuery_some.2 ⟨hb.1.symm.trans a0, hp.1.symm.trans c0, ht, ?_⟩
    rw [histVer_add (a0.trans a1.symm) (c0.trans c1.symm), half_add_half_field, hb.2.2, hp.2.2, Nat.cast_one, inv_one]

theorem made_verifier {n c : Nat} (hc : 1 ≤ c) (hl : wireLog n c ≤ 66) {x pr proof : List Field128} {t r0 r1 : Field128}
    (h : histProve n c x pr [r0, r1] = some proof) (hck : Spec.histogramCheck r0 r1 x = 0) :
    histVer n c x proof t r0 r1 1 = 0 :: (List.range (2 * c)).map (wireAt n c x pr r0 t)
      ++ [∑ j ∈ range c, wireAt n c x pr r0 t (2 * j) * wireAt n c x pr r0 t (2 * j + 1)] := by
  obtain ⟨hx, -, -⟩ := histProve_some.1 h
  obtain ⟨h1, h2⟩ := made_proof h
  have e1 : circuitOut n c x (proof.drop (2 * c)) r1 = 0 := by
    rw [← hck]
    refine circuitOut_eq hc hx r0 r1 fun k hk => ?_
    rw [h2]
    exact Finset.sum_congr rfl fun j _ => by rw [wireAt_root hl _ _ _ hk, wireAt_root hl _ _ _ hk]
  have e2 : (List.range (2 * c)).map (fun w => polyEval (wirePoly n c (wireVals n c x r0 1 proof w)) t)
      = (List.range (2 * c)).map (wireAt n c x pr r0 t) :=
    List.map_congr_left fun w hw => h1 t w (List.mem_range.1 hw)
  have e3 : histValid n c x r1 1 (fun k => polyEval (proof.drop (2 * c)) (fieldRoot (wireLog n c) ^ (k + 1))) = 0 := e1
  unfold histVer
  rw [e2, e3, h2]

/-- A wire at the query point is the seed times a constant plus something that does not depend on the seeds. -/
theorem wireAt_seed (n c : Nat) (x p : List Field128) (r0 t : Field128) (w : Nat) :
    wireAt n c x p r0 t w = p.getD w 0 * lagrange n c 0 t + wireAt n c x [] r0 t w := by
  unfold wireAt
  rw [wirePoly_eval, wirePoly_eval]
  obtain ⟨m, hm⟩ : ∃ m, wireLen n c = m + 1 := ⟨_, (Nat.succ_pred_eq_of_pos (wireLen_pos n c)).symm⟩
  rw [hm, Finset.sum_range_succ', Finset.sum_range_succ']
  simp only [wireVals, List.getD_cons_zero, List.getD_cons_succ, List.getD_nil]
  ring

/-- **C83.**  What the servers see of a vector that passes the circuit, once they have added up their verifier shares,
they would see of every other such vector, for exactly one value of the prover randomness: with uniform prover randomness
the verifier message has the same distribution for all of them. -/
theorem C83_verifier_hides {n c : Nat} (hc : 1 ≤ c) (hn : n < 2 ^ 64) {x x' : List Field128} {t r0 r1 : Field128}
    (hx : x.length = n) (hx' : x'.length = n) (hck : Spec.histogramCheck r0 r1 x = 0)
    (hck' : Spec.histogramCheck r0 r1 x' = 0) (ht : t ^ Spec.points n c ≠ 1) {pr : List Field128}
    (hpr : pr.length = 2 * c) :
    ∃! pr' : List Field128, pr'.length = 2 * c ∧ ∃ proof proof' v,
      histProve n c x pr [r0, r1] = some proof ∧ histProve n c x' pr' [r0, r1] = some proof' ∧
      histQuery n c x proof [t] [r0, r1] 1 = some v ∧ histQuery n c x' proof' [t] [r0, r1] 1 = some v := by
  have hl := wireLog_le hc hn
  rw [← wireLen_points hc] at ht
  have h0 := lagrange_zero_ne ht
  obtain ⟨proof, hproof⟩ := C81_prover.2 ⟨hx, hpr, (rfl : [r0, r1].length = 2)⟩
  have same : ∀ pr' proof', pr'.length = 2 * c → histProve n c x' pr' [r0, r1] = some proof' →
      ((∃ v, histQuery n c x proof [t] [r0, r1] 1 = some v ∧ histQuery n c x' proof' [t] [r0, r1] 1 = some v) ↔
        ∀ w < 2 * c, wireAt n c x' pr' r0 t w = wireAt n c x pr r0 t w) := by
    intro pr' proof' hl' hproof'
    have e1 : histQuery n c x proof [t] [r0, r1] 1 = some (histVer n c x proof t r0 r1 1) :=
      histQuery_some.2 ⟨hx, proof_length hproof, ht, by simp⟩
    have e2 : histQuery n c x' proof' [t] [r0, r1] 1 = some (histVer n c x' proof' t r0 r1 1) :=
      histQuery_some.2 ⟨hx', proof_length hproof', ht, by simp⟩
    rw [e1, e2, made_verifier hc hl hproof hck, made_verifier hc hl hproof' hck']
    constructor
    · rintro ⟨v, hv, hv'⟩ w hw
      have e := (Option.some.inj hv').trans (Option.some.inj hv).symm
      have := congrArg (fun l => l.getD (w + 1) 0) e
      simp only [List.cons_append, List.getD_cons_succ] at this
      rw [List.getD_append _ _ _ _ (by simpa using hw), List.getD_append _ _ _ _ (by simpa using hw), getD_range_map,
        getD_range_map, if_pos hw, if_pos hw] at this
      exact this
    · intro h
      refine ⟨_, rfl, ?_⟩
      have e4 : (List.range (2 * c)).map (wireAt n c x' pr' r0 t) = (List.range (2 * c)).map (wireAt n c x pr r0 t) :=
        List.map_congr_left fun w hw => h w (List.mem_range.1 hw)
      have e5 : ∑ j ∈ range c, wireAt n c x' pr' r0 t (2 * j) * wireAt n c x' pr' r0 t (2 * j + 1)
          = ∑ j ∈ range c, wireAt n c x pr r0 t (2 * j) * wireAt n c x pr r0 t (2 * j + 1) := by
        refine Finset.sum_congr rfl fun j hj => ?_
        have := Finset.mem_range.1 hj
        rw [h _ (by omega), h _ (by omega)]
      rw [e4, e5]
  let pr' := (List.range (2 * c)).map fun w =>
    (wireAt n c x pr r0 t w - wireAt n c x' [] r0 t w) / lagrange n c 0 t
  have hl' : pr'.length = 2 * c := by simp [pr']
  obtain ⟨proof', hproof'⟩ := C81_prover.2 ⟨hx', hl', (rfl : [r0, r1].length = 2)⟩
  refine ⟨pr', ⟨hl', ?_⟩, ?_⟩
  · obtain ⟨v, hv, hv'⟩ := (same pr' proof' hl' hproof').2 fun w hw => by
      rw [wireAt_seed n c x' pr', getD_range_map, if_pos hw, div_mul_cancel₀ _ h0]
      ring
    exact ⟨proof, proof', v, hproof, hproof', hv, hv'⟩
  · rintro pr'' ⟨hl'', q, q', v, hq, hq', hv, hv'⟩
    rw [hproof] at hq
    cases hq
    have h := (same pr'' q' hl'' hq').1 ⟨v, hv, hv'⟩
    refine List.ext_getElem (by rw [hl'', hl']) fun w hw _ => ?_
    rw [hl''] at hw
    have hs := h w hw
    rw [wireAt_seed n c x' pr''] at hs
    have e1 : pr''.getD w 0 = pr''[w] := List.getD_eq_getElem _ _ _
    simp only [pr', List.getElem_map, List.getElem_range]
    rw [← e1, ← hs]
    rw [add_sub_cancel_right, mul_div_cancel_right₀ _ h0]

/-! ### Whole runs -/

/-- What the servers query for the keys of a client that runs the code, whatever proof shares come with them. -/
theorem gen_verifiers {n : Nat} {id0 id1 : Int} (h0 : id0 = 0) (h1 : id1 ≠ 0) {alpha : List Bool}
    {beta : List Field128} (ha : alpha ≠ []) (hbl : beta.length = n) (nonce : Block) (rs : Block × Block) :
    ∃ b0 b1, Spec.Shares beta b0 b1 ∧ ∀ (vk : Block) (p0 p1 : List Field128) (parts : Block × Block),
      parts = clientJointRandParts P nonce (VidpfKey.gen P rs alpha beta).1 (VidpfKey.gen P rs alpha beta).2 →
      Spec.verifierOf P n id0 vk (.mastic nonce (VidpfKey.gen P rs alpha beta).1 p0 parts)
        = P.flpQuery n b0 p0 (P.xofField vk nonce.toList (P.queryRandLen n))
            (P.xofField parts.1 parts.2.toList (P.jointRandLen n)) ∧
      Spec.verifierOf P n id1 vk (.mastic nonce (VidpfKey.gen P rs alpha beta).2 p1 parts)
        = P.flpQuery n b1 p1 (P.xofField vk nonce.toList (P.queryRandLen n))
            (P.xofField parts.1 parts.2.toList (P.jointRandLen n)) := by
  have hal : 1 ≤ alpha.length := by cases alpha <;> simp at ha ⊢
  obtain ⟨u0, u1, g0, g1, gs⟩ := honest_values P rs alpha beta [false] (by simp) (by simpa using hal)
  obtain ⟨w0, w1, q0, q1, qs⟩ := honest_values P rs alpha beta [true] (by simp) (by simpa using hal)
  rw [hbl] at g0 g1 q0 q1
  have lu0 := valueAt_length (by simp) g0
  have lu1 := valueAt_length (by simp) g1
  have lw0 := valueAt_length (by simp) q0
  have lw1 := valueAt_length (by simp) q1
  refine ⟨(Spec.addShares u0 w0).take n, (Spec.addShares u1 w1).take n,
    ⟨by rw [List.length_take, addShares_length lu0 lw0, hbl]; omega,
      by rw [List.length_take, addShares_length lu1 lw1, hbl]; omega,
      betaShares_sum ha hbl lu0 lw0 lu1 lw1 gs qs⟩, ?_⟩
  rintro vk p0 p1 parts rfl
  constructor
  · simp only [Spec.verifierOf, g0, q0, h0, if_true, Option.bind_eq_bind, Option.bind_some]
    rfl
  · simp only [Spec.verifierOf, g1, q1, h1, if_false, Option.bind_eq_bind, Option.bind_some]
    rfl

/-- A tampered proof is rejected at all but few query points. -/
theorem bump_rejected {n : Nat} (hn : n < 2 ^ 64) {id0 id1 : Int} (h0 : id0 = 0) (h1 : id1 ≠ 0)
    (hxof : ∀ seed binder l, (P.xofField seed binder l).length = l) {alpha : List Bool} (ha : alpha ≠ [])
    {bucket : Nat} {rand : ClientRand} {w : Field128} (hw : rand.proveRand[1]? = some w) (hw0 : w ≠ 0)
    {nonce : Block} {ks : VidpfKey × VidpfKey} {p0 ps : List Field128} {p : Field128} {jr : Block × Block}
    {alpha' : List Bool}
    (hg : genMasticReport P.withHistogram n alpha bucket rand = .ok (.mastic nonce ks (p0, p :: ps) jr alpha')) :
    ∃ S : Finset Field128, S.card ≤ Spec.points n 2 - 1 ∧ ∀ vk t, P.xofField vk nonce.toList 1 = [t] →
      t ^ Spec.points n 2 ≠ 1 → t ∉ S →
      Spec.FlpRejected P.withHistogram n id0 id1 vk (.mastic nonce ks.1 p0 jr)
        (.mastic nonce ks.2 ((p + 1337) :: ps) jr) := by
  unfold genMasticReport at hg
  obtain ⟨beta, hb, hg⟩ := bind_eq_ok.1 hg
  have hb := unwrapO_eq_ok.1 hb
  obtain ⟨proof, hp, hg⟩ := bind_eq_ok.1 hg
  have hp := unwrapO_eq_ok.1 hp
  simp only [Except.ok.injEq, PlaintextReport.mastic.injEq] at hg
  obtain ⟨rfl, rfl, hsp, rfl, -⟩ := hg
  have hsp0 : (shareProof proof rand.proofRand).1 = p0 := by rw [hsp]
  have hsp1 : (shareProof proof rand.proofRand).2 = p :: ps := by rw [hsp]
  have hone := oneHot_iff.2 ⟨_, hb⟩
  have hbl : beta.length = n := (encodeMeasurement_length hb).1
  obtain ⟨b0, b1, hsh, hver⟩ := gen_verifiers (P := P.withHistogram) h0 h1 ha hbl rand.nonce rand.rootSeeds
  have hjl := hxof (clientJointRandParts P.withHistogram rand.nonce
    (VidpfKey.gen P.withHistogram rand.rootSeeds alpha beta).1
    (VidpfKey.gen P.withHistogram rand.rootSeeds alpha beta).2).1 (clientJointRandParts P.withHistogram rand.nonce
    (VidpfKey.gen P.withHistogram rand.rootSeeds alpha beta).1
    (VidpfKey.gen P.withHistogram rand.rootSeeds alpha beta).2).2.toList 2
  obtain ⟨r0, r1, hj⟩ := List.length_eq_two.1 hjl
  have hj' : P.withHistogram.xofField (clientJointRandParts P.withHistogram rand.nonce
    (VidpfKey.gen P.withHistogram rand.rootSeeds alpha beta).1
    (VidpfKey.gen P.withHistogram rand.rootSeeds alpha beta).2).1 (clientJointRandParts P.withHistogram rand.nonce
    (VidpfKey.gen P.withHistogram rand.rootSeeds alpha beta).1
    (VidpfKey.gen P.withHistogram rand.rootSeeds alpha beta).2).2.toList (P.withHistogram.jointRandLen n) = [r0, r1] := hj
  rw [hj'] at hp
  have hproof : histProve n 2 beta rand.proveRand [r0, r1] = some proof := hp
  have hshares : Spec.Shares proof p0 (p :: ps) := by
    rw [← hsp0, ← hsp1]
    exact ⟨(shareProof_length _ _).1, (shareProof_length _ _).2, shareProof_add _ _⟩
  have hck := histogramCheck_oneHot hone r0 r1
  have h1337 : (1337 : Field128) ≠ 0 := by decide +kernel
  have hl := wireLog_le (n := n) (c := 2) (by norm_num) hn
  obtain ⟨S, g1, g2⟩ := few_roots hl (wireVals n 2 beta r0 1 rand.proveRand 1) (wireLen_pos n 2) (by
    simpa [wireVals, List.getD_eq_getElem?_getD, hw] using hw0)
  rw [wireLen_points (by norm_num)] at g1
  refine ⟨S, g1, fun vk t hq ht hS => ?_⟩
  have hq' : P.withHistogram.xofField vk rand.nonce.toList (P.withHistogram.queryRandLen n) = [t] := hq
  obtain ⟨e0, e1⟩ := hver vk p0 ((p + 1337) :: ps) _ rfl
  rw [hj', hq'] at e0 e1
  have hlen := proof_length hproof
  have hlp : ((p + 1337) :: ps).length = histProofLen n 2 := by
    rw [← hlen, ← hshares.2.1, List.length_cons, List.length_cons]
  have ht' : t ^ wireLen n 2 ≠ 1 := by rwa [wireLen_points (by norm_num)]
  have q0 := histQuery_some (r0 := r0) (r1 := r1) (s := 2).2 ⟨hsh.1.trans hbl, hshares.1.trans hlen, ht', rfl⟩
  have q1 := histQuery_some (r0 := r0) (r1 := r1) (s := 2).2 ⟨hsh.2.1.trans hbl, hlp, ht', rfl⟩
  refine ⟨_, _, e0.trans q0, e1.trans q1, ?_⟩
  have hno : ¬ Spec.Accepts n 2 b0 b1 p0 ((p + 1337) :: ps) t r0 r1 := fun hacc =>
    hS (g2 t ((bumped_accepts (by norm_num) hl hproof hsh hshares hck h1337).1 hacc).2)
  have hdec : ∀ v : List Field128, v.length = 6 → histDecide 2 v ≠ some true → histDecide 2 v = some false := by
    intro v hv hne
    unfold histDecide at hne ⊢
    rw [if_pos (by omega)] at hne ⊢
    simpa using hne
  refine hdec _ ?_ fun hacc => hno ⟨_, _, q0, q1, hacc⟩
  simp [Spec.addShares, histVer]

theorem proves_libprio {cfg : Config} {draw : MainDraw}
    (hxof : ∀ seed binder l, (P.xofField seed binder l).length = l)
    (hpr : ∀ i < cfg.uniqueBuckets, (draw.reports i).rand.proveRand.length = 4) :
    Spec.Proves P.withHistogram cfg draw := by
  intro i hi bucket beta seed binder hb
  obtain ⟨proof, h⟩ := (C81_prover (n := cfg.histBuckets) (c := 2)).2
    ⟨(encodeMeasurement_length hb).1, hpr i hi, hxof seed binder 2⟩
  refine ⟨proof, h, ?_⟩
  obtain ⟨r0, r1, hj⟩ := List.length_eq_two.1 (hxof seed binder 2)
  rw [hj] at h
  have := proof_length h
  rintro rfl
  simp [histProofLen] at this

/-- Outside at most `2 buckets + 1` query points per client, fixed before the verify key, libprio's proof system meets the
assumptions of C62. -/
theorem libprio_ready {c0 c1 : ServerCfg} {cfg : Config} {draw : MainDraw} {n d : Nat}
    (hs : Spec.Sensible P.withHistogram cfg draw n) (hb64 : cfg.histBuckets < 2 ^ 64)
    (hxof : ∀ seed binder l, (P.xofField seed binder l).length = l)
    (hpr : ∀ i < cfg.uniqueBuckets, (draw.reports i).rand.proveRand.length = 4)
    (hpr1 : ∀ i < n, (draw.picks i).2 = some .flp → (Spec.MainDraw.of draw i).rand.proveRand[1]? ≠ some 0)
    (hd1 : 1 ≤ d) (h0 : c0.serverId = 0) (h1 : c1.serverId ≠ 0) :
    ∃ bad : Nat → Finset Field128, (∀ i, (bad i).card ≤ 2 * cfg.histBuckets + 1) ∧
      ∀ vk, (∀ i < n, ∀ t ∈ P.xofField vk (Spec.MainDraw.of draw i).rand.nonce.toList 1, t ∉ bad i) →
        Spec.Sensible P.withHistogram cfg { draw with verifyKey := vk } n ∧
        Spec.Proves P.withHistogram cfg { draw with verifyKey := vk } ∧
        (∀ i < n, Spec.FlpCompleteAt P.withHistogram cfg.histBuckets (P.withHistogram.xofField vk
          (Spec.MainDraw.of draw i).rand.nonce.toList (P.withHistogram.queryRandLen cfg.histBuckets))) ∧
        Spec.BumpsRejected P.withHistogram cfg.histBuckets d c0.serverId c1.serverId
          { draw with verifyKey := vk } n := by
  classical
  have hpt := points_two (n := cfg.histBuckets)
  have hppos : 1 ≤ Spec.points cfg.histBuckets 2 := by unfold Spec.points; exact Nat.one_le_two_pow
  have hbump : ∀ i, ∃ S : Finset Field128, S.card ≤ Spec.points cfg.histBuckets 2 - 1 ∧
      (i < n → (draw.picks i).2 = some .flp →
        ∀ (nonce : Block) (ks : VidpfKey × VidpfKey) (p0 ps : List Field128) (p : Field128) (jr : Block × Block)
          (alpha : List Bool), genMasticReport P.withHistogram cfg.histBuckets
            (Spec.drawn cfg.histBuckets d (Spec.MainDraw.of draw i)).1
            (Spec.drawn cfg.histBuckets d (Spec.MainDraw.of draw i)).2 (Spec.MainDraw.of draw i).rand
            = .ok (.mastic nonce ks (p0, p :: ps) jr alpha) →
          ∀ vk t, P.xofField vk nonce.toList 1 = [t] → t ^ Spec.points cfg.histBuckets 2 ≠ 1 → t ∉ S →
            Spec.FlpRejected P.withHistogram cfg.histBuckets c0.serverId c1.serverId vk (.mastic nonce ks.1 p0 jr)
              (.mastic nonce ks.2 ((p + 1337) :: ps) jr)) := by
    intro i
    by_cases hi : i < n ∧ (draw.picks i).2 = some .flp
    · have hlen4 : (Spec.MainDraw.of draw i).rand.proveRand.length = 4 := by
        have := hs.picks i hi.1
        exact hpr _ (by omega)
      have hw : (Spec.MainDraw.of draw i).rand.proveRand[1]?
          = some (Spec.MainDraw.of draw i).rand.proveRand[1] := List.getElem?_eq_getElem _
      have hw0 : (Spec.MainDraw.of draw i).rand.proveRand[1] ≠ 0 := fun h => hpr1 i hi.1 hi.2 (by rw [hw, h])
      have ha : (Spec.drawn cfg.histBuckets d (Spec.MainDraw.of draw i)).1 ≠ [] := by
        intro h
        have := congrArg List.length h
        simp [Spec.drawn] at this
        omega
      cases hg : genMasticReport P.withHistogram cfg.histBuckets
          (Spec.drawn cfg.histBuckets d (Spec.MainDraw.of draw i)).1
          (Spec.drawn cfg.histBuckets d (Spec.MainDraw.of draw i)).2 (Spec.MainDraw.of draw i).rand with
      | error e => exact ⟨∅, by simp, fun _ _ _ _ _ _ _ _ _ h => by cases h⟩
      | ok rep =>
        by_cases hrep : ∃ nonce ks p0 p ps jr alpha, rep = .mastic nonce ks (p0, p :: ps) jr alpha
        · obtain ⟨nonce, ks, p0, p, ps, jr, alpha, rfl⟩ := hrep
          obtain ⟨S, g1, g2⟩ := bump_rejected hb64 h0 h1 hxof ha hw hw0 hg
          refine ⟨S, g1, fun _ _ nonce' ks' p0' ps' p' jr' alpha' h => ?_⟩
          simp only [Except.ok.injEq, PlaintextReport.mastic.injEq, Prod.mk.injEq, List.cons.injEq] at h
          obtain ⟨rfl, rfl, ⟨rfl, rfl, rfl⟩, rfl, -⟩ := h
          exact g2
        · exact ⟨∅, by simp, fun _ _ nonce' ks' p0' ps' p' jr' alpha' h =>
            absurd ⟨_, _, _, _, _, _, _, Except.ok.inj h⟩ hrep⟩
    · exact ⟨∅, by simp, fun a b => absurd ⟨a, b⟩ hi⟩
  choose S hS1 hS2 using hbump
  let R : Finset Field128 := (nthRoots (Spec.points cfg.histBuckets 2) 1).toFinset
  have hR : R.card ≤ Spec.points cfg.histBuckets 2 :=
    (Multiset.toFinset_card_le _).trans (card_nthRoots _ _)
  have hRm : ∀ t, t ∉ R → t ^ Spec.points cfg.histBuckets 2 ≠ 1 := by
    intro t ht h
    exact ht (Multiset.mem_toFinset.2 ((mem_nthRoots hppos).2 h))
  refine ⟨fun i => R ∪ S i, fun i => ?_, fun vk hvk => ?_⟩
  · have := hS1 i
    exact (Finset.card_union_le _ _).trans (by omega)
  · have hone : ∀ i < n, ∃ t, P.xofField vk (Spec.MainDraw.of draw i).rand.nonce.toList 1 = [t] ∧
        t ^ Spec.points cfg.histBuckets 2 ≠ 1 ∧ t ∉ S i := by
      intro i hi
      obtain ⟨t, ht⟩ := List.length_eq_one_iff.1 (hxof vk (Spec.MainDraw.of draw i).rand.nonce.toList 1)
      have := hvk i hi t (by rw [ht]; simp)
      rw [Finset.mem_union, not_or] at this
      exact ⟨t, ht, hRm t this.1, this.2⟩
    have hs' : Spec.Sensible P.withHistogram cfg { draw with verifyKey := vk } n :=
      ⟨hs.malicious, hs.zipf, hs.hist, hs.buckets, hs.unique, hs.addBatch, hs.queryBatch, hs.picks⟩
    refine ⟨hs', proves_libprio hxof hpr, fun i hi => ?_, fun i nonce ks p0 ps p jr alpha hi ht hg => ?_⟩
    · obtain ⟨t, e1, e2, -⟩ := hone i hi
      have e1' : P.withHistogram.xofField vk (Spec.MainDraw.of draw i).rand.nonce.toList
        (P.withHistogram.queryRandLen cfg.histBuckets) = [t] := e1
      rw [e1']
      exact C81_complete hb64 e2
    · obtain ⟨t, e1, e2, e3⟩ := hone i hi
      have hnonce : nonce = (Spec.MainDraw.of draw i).rand.nonce := by
        unfold genMasticReport at hg
        obtain ⟨_, -, hg⟩ := bind_eq_ok.1 hg
        obtain ⟨_, -, hg⟩ := bind_eq_ok.1 hg
        simp only [Except.ok.injEq, PlaintextReport.mastic.injEq] at hg
        exact hg.1.symm
      exact hS2 i hi ht nonce ks p0 ps p jr alpha hg vk t (by rw [hnonce]; exact e1) e2 e3

/-- **C81, C82 in a whole run.**  With libprio's proof system in place of the assumed one: before the verify key is drawn,
each client `i` has at most `2 buckets + 1` bad query points.  Whenever the verify key avoids them, the driver reports
exactly the heavy hitters among the clients whose proof was not tampered with, and excludes exactly the others. -/
theorem C81_run {c0 c1 : ServerCfg} {bld : Build} {cfg : Config} {draw : MainDraw} {n d : Nat}
    {kcs : Pair2 P.withHistogram} (hs : Spec.Sensible P.withHistogram cfg draw n) (hb64 : cfg.histBuckets < 2 ^ 64)
    (hxof : ∀ seed binder l, (P.xofField seed binder l).length = l)
    (hpr : ∀ i < cfg.uniqueBuckets, (draw.reports i).rand.proveRand.length = 4)
    (hpr1 : ∀ i < n, (draw.picks i).2 = some .flp → (Spec.MainDraw.of draw i).rand.proveRand[1]? ≠ some 0)
    (hd : cfg.dataBits = some d) (hs0 : c0.dataBits = some d) (hs1 : c1.dataBits = some d) (hd2 : 2 ≤ d)
    (h0 : c0.serverId = 0) (h1 : c1.serverId ≠ 0) {clients : List (List Bool × Nat)}
    (hcl : clients = (Spec.mainClients cfg.histBuckets d draw n).filterMap id) (hne : clients ≠ []) (hlt : n < 2 ^ 64)
    (hpre : d = 2 ∨ ∃ s : List Bool, s.length = d - 2 ∧
      max 1 cfg.threshold ≤ (clients.filter fun c => s.isPrefixOf c.1).length) :
    ∃ bad : Nat → Finset Field128, (∀ i, (bad i).card ≤ 2 * cfg.histBuckets + 1) ∧
      ∀ vk, (∀ i < n, ∀ t ∈ P.xofField vk (Spec.MainDraw.of draw i).rand.nonce.toList 1, t ∉ bad i) →
        ∃ out, driverMain c0 c1 bld cfg .weightedHeavyHitters { draw with verifyKey := vk } n kcs = .ok (.whh out) ∧
          out.results.map (fun r => (r.path, r.value))
            = Spec.heavyHitters cfg.histBuckets (max 1 cfg.threshold) d clients ∧
          out.printed = out.results.filter (fun r => decide (r.value.getD (cfg.histBuckets - 1) 0 ≠ 0)) ∧
          out.kcs.1.reportShares.map Prod.fst = (List.range n).map fun i => (draw.picks i).2 matches none | some .key := by
  obtain ⟨bad, hbad, hok⟩ := libprio_ready (P := P) (c0 := c0) (c1 := c1) (d := d) hs hb64 hxof hpr hpr1 (by omega) h0 h1
  refine ⟨bad, hbad, fun vk hvk => ?_⟩
  obtain ⟨hs', hprove, hcomp, hrej⟩ := hok vk hvk
  exact (C62_weighted_heavy_hitters (P := P.withHistogram) (c0 := c0) (c1 := c1) (bld := bld) (cfg := cfg)
    (draw := { draw with verifyKey := vk }) (n := n) (d := d) (kcs := kcs) hs' hprove hd hs0 hs1 hd2 h0 h1 hcomp hrej
    hcl hne hlt).1 hpre

/-- **C81, C82 in an attribute-based-metrics run.**  The same for the other mode: whenever the verify key avoids the bad
query points, two debug servers list exactly the tampering clients and count the others, and two release servers list the
same clients but count everybody. -/
theorem C81_attribute_run {c0 c1 : ServerCfg} {bld : Build} {cfg : Config} {draw : MainDraw} {n d num : Nat}
    {kcs : Pair2 P.withHistogram} (hs : Spec.Sensible P.withHistogram cfg draw n) (hb64 : cfg.histBuckets < 2 ^ 64)
    (hxof : ∀ seed binder l, (P.xofField seed binder l).length = l)
    (hpr : ∀ i < cfg.uniqueBuckets, (draw.reports i).rand.proveRand.length = 4)
    (hpr1 : ∀ i < n, (draw.picks i).2 = some .flp → (Spec.MainDraw.of draw i).rand.proveRand[1]? ≠ some 0)
    (hd : cfg.dataBits = some d) (hd1 : 1 ≤ d) (h0 : c0.serverId = 0) (h1 : c1.serverId ≠ 0)
    (hattr : ∀ j < num, draw.attributes j < cfg.uniqueBuckets)
    {clients : List ((List Bool × Nat) × Bool)}
    (hcl : clients = (List.range n).map fun i => (Spec.drawn cfg.histBuckets d (Spec.MainDraw.of draw i),
      Spec.bumps (draw.picks i).2)) :
    ∃ bad : Nat → Finset Field128, (∀ i, (bad i).card ≤ 2 * cfg.histBuckets + 1) ∧
      ∀ vk, (∀ i < n, ∀ t ∈ P.xofField vk (Spec.MainDraw.of draw i).rand.nonce.toList 1, t ∉ bad i) →
      ∃ attributes, attributes.Nodup ∧
      (∀ a, a ∈ attributes ↔ ∃ j < num, a = (List.range d).map (draw.reports (draw.attributes j)).bits) ∧
      (c0.build = .debug → c1.build = .debug → ∃ ranges,
        driverMain c0 c1 bld cfg (.attributeBasedMetrics num) { draw with verifyKey := vk } n kcs = .ok (.abm attributes
          (ranges.map fun r => ⟨(List.range' r.1 (r.2 - r.1)).filter fun i => (clients[i]?.map Prod.snd) == some true,
            Spec.attributeHistograms cfg.histBuckets attributes
              (((clients.take r.2).filter fun c => !c.2).map Prod.fst)⟩)) ∧
        Spec.Partitions n ranges ∧ ∀ r ∈ ranges, r.2 ≤ r.1 + cfg.queryBatch) ∧
      (c0.build = .release → c1.build = .release → ∃ ranges,
        driverMain c0 c1 bld cfg (.attributeBasedMetrics num) { draw with verifyKey := vk } n kcs = .ok (.abm attributes
          (ranges.map fun r => ⟨(List.range' r.1 (r.2 - r.1)).filter fun i => (clients[i]?.map Prod.snd) == some true,
            Spec.attributeHistograms cfg.histBuckets attributes ((clients.take r.2).map Prod.fst)⟩)) ∧
        Spec.Partitions n ranges ∧ ∀ r ∈ ranges, r.2 ≤ r.1 + cfg.queryBatch) := by
  obtain ⟨bad, hbad, hok⟩ := libprio_ready (P := P) (c0 := c0) (c1 := c1) (d := d) hs hb64 hxof hpr hpr1 hd1 h0 h1
  refine ⟨bad, hbad, fun vk hvk => ?_⟩
  obtain ⟨hs', hprove, hcomp, hrej⟩ := hok vk hvk
  exact C62_attribute_tampering (P := P.withHistogram) (draw := { draw with verifyKey := vk }) hs' hprove hd hd1 h0 h1
    hcomp hrej (C81_lengths _).2 hattr hcl

/-! ### Concrete cases -/

/-- Three buckets, the third one chosen; any sharing is accepted at query point 5. -/
example {pr b0 b1 p0 p1 proof : List Field128} (h : histProve 3 2 [0, 0, 1] pr [11, 13] = some proof)
    (hb : Spec.Shares [0, 0, 1] b0 b1) (hp : Spec.Shares proof p0 p1) : Spec.Accepts 3 2 b0 b1 p0 p1 5 11 13 :=
  (C81_made_proofs (by norm_num) (by norm_num) h hb hp).2 ⟨by decide +kernel, by decide +kernel⟩

/-- There is such a proof, of 11 elements. -/
example : ∃ proof, histProve 3 2 [0, 0, 1] [1, 2, 3, 4] [11, 13] = some proof ∧ proof.length = 11 := by
  obtain ⟨proof, h⟩ := (C81_prover (n := 3) (c := 2) (x := [0, 0, 1]) (pr := [1, 2, 3, 4]) (jr := [11, 13])).2
    ⟨rfl, rfl, rfl⟩
  exact ⟨proof, h, (C81_lengths (P := toy) 3).1 [0, 0, 1] [1, 2, 3, 4] [11, 13] _ h⟩

/-- The proof length for four buckets printed in `artifact/README.md:173` (272 bytes: a length of 8 bytes and 11 field
elements of 24). -/
example : Spec.ProofLen toy.withHistogram 4 11 := (C81_lengths 4).1

/-- A vector with two ones, no matter which proof: at most 6 query points. -/
example {p0 p1 : List Field128} (hp : p0.length = p1.length) :
    {t | Spec.Accepts 3 2 [1, 0, 7] [0, 1, -7] p0 p1 t 11 13}.ncard ≤ 6 := by
  refine (C82_sound (n := 3) (c := 2) (b0 := [1, 0, 7]) (b1 := [0, 1, -7]) (r0 := 11) (r1 := 13) (by norm_num)
    (by norm_num) rfl hp (by decide +kernel)).trans ?_
  decide +kernel

example (p0 p1 : Field128 → Field128 → List Field128) (hp : ∀ r0 r1, (p0 r0 r1).length = (p1 r0 r1).length) :
    {r : (Field128 × Field128) × Field128 |
      Spec.Accepts 3 2 [1, 0, 7] [0, 1, -7] (p0 r.1.1 r.1.2) (p1 r.1.1 r.1.2) r.2 r.1.1 r.1.2}.ncard
      ≤ (3 * 3 + 1) * fieldModulus ^ 2 := by
  refine C82_strategy (n := 3) (b0 := [1, 0, 7]) (b1 := [0, 1, -7]) (by norm_num) (by norm_num) rfl rfl ?_ p0 p1 hp
  · rintro ⟨b, hb, -, h⟩
    have h0 := h 0 (by norm_num)
    have h1 := h 1 (by norm_num)
    have e0 : (Spec.addShares [1, 0, 7] [0, 1, -7])[0]? = some 1 := by decide +kernel
    have e1 : (Spec.addShares [1, 0, 7] [0, 1, -7])[1]? = some 1 := by decide +kernel
    rw [e0] at h0
    rw [e1] at h1
    have g0 : 0 = b := by
      by_contra hne
      rw [if_neg hne] at h0
      exact absurd h0 (by decide +kernel)
    have g1 : 1 = b := by
      by_contra hne
      rw [if_neg hne] at h1
      exact absurd h1 (by decide +kernel)
    omega

/-- The tampered proof of the first bucket of three. -/
example {b0 b1 p0 ps proof : List Field128} {p : Field128}
    (h : histProve 3 2 [1, 0, 0] [1, 2, 3, 4] [11, 13] = some proof) (hb : Spec.Shares [1, 0, 0] b0 b1)
    (hp : Spec.Shares proof p0 (p :: ps)) :
    {t | Spec.Accepts 3 2 b0 b1 p0 ((p + 1337) :: ps) t 11 13}.ncard ≤ 3 :=
  C82_tampered (by norm_num) (by norm_num) h hb hp (by decide +kernel) (by decide +kernel) rfl (by decide +kernel)

example {pr : List Field128} (hpr : pr.length = 4) :
    ∃! pr' : List Field128, pr'.length = 4 ∧ ∃ proof proof' v,
      histProve 3 2 [1, 0, 0] pr [11, 13] = some proof ∧ histProve 3 2 [0, 0, 1] pr' [11, 13] = some proof' ∧
      histQuery 3 2 [1, 0, 0] proof [5] [11, 13] 1 = some v ∧ histQuery 3 2 [0, 0, 1] proof' [5] [11, 13] 1 = some v :=
  C83_verifier_hides (n := 3) (c := 2) (x := [1, 0, 0]) (x' := [0, 0, 1]) (t := 5) (r0 := 11) (r1 := 13) (by norm_num)
    (by norm_num) rfl rfl (by decide +kernel) (by decide +kernel) (by decide +kernel) hpr

/-- The draws of `toyDraw` with prover randomness of the right length. -/
def libDraw : MainDraw :=
  { toyDraw with reports := fun i =>
      { toyDraw.reports i with rand := { (toyDraw.reports i).rand with proveRand := [1, 2, 3, 4] } } }

/-- Some verify key avoids the at most 15 bad query points of the three clients. -/
theorem libDraw_key (bad : Nat → Finset Field128) (hbad : ∀ i, (bad i).card ≤ 5) :
    ∃ vk, ∀ i < 3, ∀ t ∈ toy.xofField vk (Spec.MainDraw.of libDraw i).rand.nonce.toList 1, t ∉ bad i := by
  classical
  let key : Fin 256 → Block := fun k => Block.ofList [BitVec.ofNat 8 k]
  let point : Nat → Fin 256 → Field128 := fun i k =>
    (((key k).toList.foldl (fun a b => a + b.toNat) 0 +
      (Spec.MainDraw.of libDraw i).rand.nonce.toList.foldl (fun a b => a + b.toNat) 0 : Nat) : Field128)
  have hkey : ∀ k : Fin 256, (key k).toList.foldl (fun a b => a + b.toNat) 0 = (k : Nat) := by decide +kernel
  have hinj : ∀ i, Function.Injective (point i) := by
    intro i a b hab
    simp only [point, hkey, Nat.cast_add] at hab
    have h1 := add_right_cancel hab
    rw [ZMod.natCast_eq_natCast_iff', Nat.mod_eq_of_lt (lt_trans a.2 (by decide)),
      Nat.mod_eq_of_lt (lt_trans b.2 (by decide))] at h1
    exact Fin.ext h1
  let B : Nat → Finset (Fin 256) := fun i => univ.filter fun k => point i k ∈ bad i
  have hB : ∀ i, (B i).card ≤ 5 := by
    intro i
    refine (Finset.card_le_card_of_injOn (point i) (fun k hk => ?_) (hinj i).injOn).trans (hbad i)
    exact (Finset.mem_filter.1 hk).2
  have hex : ∃ k, k ∉ B 0 ∪ B 1 ∪ B 2 := by
    by_contra hall
    push Not at hall
    have h1 : (univ : Finset (Fin 256)).card ≤ (B 0 ∪ B 1 ∪ B 2).card :=
      Finset.card_le_card fun k _ => hall k
    have h2 := Finset.card_union_le (B 0 ∪ B 1) (B 2)
    have h3 := Finset.card_union_le (B 0) (B 1)
    have := hB 0
    have := hB 1
    have := hB 2
    rw [Finset.card_univ, Fintype.card_fin] at h1
    omega
  obtain ⟨k, hk⟩ := hex
  simp only [Finset.mem_union, not_or, B, Finset.mem_filter, Finset.mem_univ, true_and] at hk
  refine ⟨key k, fun i hi t ht => ?_⟩
  have ht' : t = point i k := List.eq_of_mem_replicate ht
  rw [ht']
  rcases (by omega : i = 0 ∨ i = 1 ∨ i = 2) with rfl | rfl | rfl
  · exact hk.1.1
  · exact hk.1.2
  · exact hk.2

example (kcs : Pair2 toy.withHistogram) : ∃ vk out,
    driverMain (toyCfg 0 (some 2) .debug) (toyCfg 1 (some 2) .release) .debug ⟨some 2, 2, 2, 2, 2, 2⟩
      .weightedHeavyHitters { libDraw with verifyKey := vk } 3 kcs = .ok (.whh out) ∧
    out.results.map (fun r => (r.path, r.value)) = [([true, false], [0, 2, 2])] ∧
    out.kcs.1.reportShares.map Prod.fst = [true, true, false] := by
  obtain ⟨bad, hbad, hrun⟩ := C81_run (P := toy) (c0 := toyCfg 0 (some 2) .debug) (c1 := toyCfg 1 (some 2) .release)
    (bld := .debug) (cfg := ⟨some 2, 2, 2, 2, 2, 2⟩) (draw := libDraw) (n := 3) (d := 2) (kcs := kcs)
    ⟨rfl, rfl, rfl, by decide, by decide, by decide, by decide, by decide⟩ (by norm_num)
    (fun _ _ _ => List.length_replicate) (fun _ _ => rfl)
    (fun i _ _ => show ([1, 2, 3, 4] : List Field128)[1]? ≠ some 0 by decide +kernel) rfl rfl rfl le_rfl rfl (by decide)
    rfl (by decide) (by decide) (.inl rfl)
  obtain ⟨vk, hvk⟩ := libDraw_key bad hbad
  obtain ⟨out, g1, g2, -, g3⟩ := hrun vk hvk
  exact ⟨vk, out, g1, g2.trans (by decide +kernel), g3.trans (by decide)⟩

/-- Two release servers list the third client, who tampers, and count it. -/
example (kcs : Pair2 toy.withHistogram) : ∃ vk attributes ranges,
    driverMain (toyCfg 0 none .release) (toyCfg 1 none .release) .debug ⟨some 2, 2, 2, 2, 2, 2⟩
      (.attributeBasedMetrics 1) { libDraw with verifyKey := vk } 3 kcs = .ok (.abm attributes
        (List.map (fun r => ⟨(List.range' r.1 (r.2 - r.1)).filter (fun i => i == 2),
          Spec.attributeHistograms 2 attributes ((((List.range 3).map fun i =>
            Spec.drawn 2 2 (Spec.MainDraw.of libDraw i)).take r.2))⟩) ranges)) ∧ Spec.Partitions 3 ranges := by
  obtain ⟨bad, hbad, hrun⟩ := C81_attribute_run (P := toy) (c0 := toyCfg 0 none .release) (c1 := toyCfg 1 none .release)
    (bld := .debug) (cfg := ⟨some 2, 2, 2, 2, 2, 2⟩) (draw := libDraw) (n := 3) (d := 2) (num := 1) (kcs := kcs)
    ⟨rfl, rfl, rfl, by decide, by decide, by decide, by decide, by decide⟩ (by norm_num)
    (fun _ _ _ => List.length_replicate) (fun _ _ => rfl)
    (fun i _ _ => show ([1, 2, 3, 4] : List Field128)[1]? ≠ some 0 by decide +kernel) rfl (by decide) rfl (by decide)
    (by decide) rfl
  obtain ⟨vk, hvk⟩ := libDraw_key bad hbad
  obtain ⟨attributes, -, -, -, hrel⟩ := hrun vk hvk
  obtain ⟨ranges, g1, g2, -⟩ := hrel rfl rfl
  refine ⟨vk, attributes, ranges, ?_, g2⟩
  rw [g1]
  have hf : ∀ i : Nat, (((((List.range 3).map fun i => (Spec.drawn 2 2 (Spec.MainDraw.of libDraw i),
      Spec.bumps (libDraw.picks i).2))[i]?).map Prod.snd) == some true) = (i == 2) := by
    intro i
    match i with
    | 0 => rfl
    | 1 => rfl
    | 2 => rfl
    | i + 3 => rfl
  simp only [hf, ← List.map_take, List.map_map]
  rfl

end Mastic
