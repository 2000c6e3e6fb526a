import Verif.Lemmas.Prio3Split
import Verif.Props.Libprio
import Verif.Props.Forge
import Verif.Spec.Copies

/-!
# Proof shares that two servers with different joint randomness accept
-/

namespace Mastic

open Finset

variable {P : Prims}

theorem calls_pos {n c : Nat} (hc : 1 ≤ c) (hn : 1 ≤ n) : 0 < gadgetCalls n c := by
  have := calls_mul (n := n) hc
  by_contra h
  rw [Nat.eq_zero_of_not_pos h] at this
  omega

theorem calls_cast_ne {n c : Nat} (hc : 1 ≤ c) (hn : 1 ≤ n) (hn64 : n < 2 ^ 64) :
    (gadgetCalls n c : Field128) ≠ 0 := by
  have h := calls_pos hc hn
  have hle : gadgetCalls n c ≤ n := by
    rw [calls_eq hc]
    refine Nat.lt_succ_iff.1 ((Nat.div_lt_iff_lt_mul hc).2 ?_)
    obtain ⟨n, rfl⟩ : ∃ m, n = m + 1 := ⟨n - 1, by omega⟩
    obtain ⟨c, rfl⟩ : ∃ m, c = m + 1 := ⟨c - 1, by omega⟩
    have : (n + 1).succ * (c + 1) = n * c + n + 2 * c + 2 := by rw [Nat.succ_eq_add_one]; ring
    have := Nat.zero_le (n * c)
    omega
  intro h0
  rw [ZMod.natCast_eq_zero_iff] at h0
  have := Nat.le_of_dvd h h0
  have : (2 : Nat) ^ 64 < fieldModulus := by decide
  omega

theorem wireShare_seeds {n c w : Nat} (x g : List Field128) (r0 t : Field128) (hw : w < 2 * c) :
    wireShare n c x (List.replicate (2 * c) 0 ++ g) r0 t w = wireShare n c x [] r0 t w := by
  unfold wireShare wireVals
  rw [List.getD_append _ _ _ _ (by simpa using hw), List.getD_replicate _ hw]
  rfl

/-- Two servers whose joint randomness differs in the second entry accept any vector. -/
theorem split_forged {n c : Nat} (hc : 1 ≤ c) (hn : 1 ≤ n) (hn64 : n < 2 ^ 64) {b0 b1 : List Field128}
    (hb0 : b0.length = n) (hb1 : b1.length = n) {r0 r1 s0 s1 : Field128} (hne : r1 ≠ s1) :
    ∃ p0 p1, p0.length = histProofLen n c ∧ p1.length = histProofLen n c ∧ ∀ t, t ^ wireLen n c ≠ 1 →
      ∃ v0 v1, histQuery n c b0 p0 [t] [r0, r1] 2 = some v0 ∧ histQuery n c b1 p1 [t] [s0, s1] 2 = some v1 ∧
        histDecide c (Spec.addShares v0 v1) = some true := by
  obtain ⟨vals, hvals⟩ : ∃ vals, vals = fun w => Spec.addShares (wireVals n c b0 r0 ((2 : Nat) : Field128)⁻¹ [] w)
    (wireVals n c b1 s0 ((2 : Nat) : Field128)⁻¹ [] w) := ⟨_, rfl⟩
  have hw : ∀ w t, polyEval (wirePoly n c (vals w)) t = wireShare n c b0 [] r0 t w + wireShare n c b1 [] s0 t w := by
    intro w t
    unfold wireShare
    rw [wirePoly_eval, wirePoly_eval, wirePoly_eval, ← Finset.sum_add_distrib]
    refine Finset.sum_congr rfl fun k _ => ?_
    rw [hvals, getD_addShares (by simp [wireVals]), add_mul]
  obtain ⟨g, hg⟩ : ∃ g, g = gadgetPoly n c fun w => wirePoly n c (vals w) := ⟨_, rfl⟩
  have hgl : g.length = 2 * (wireLen n c - 1) + 1 := by rw [hg, gadgetPoly_length]
  have hge : ∀ t, polyEval g t = ∑ j ∈ range c, (wireShare n c b0 [] r0 t (2 * j) + wireShare n c b1 [] s0 t (2 * j))
      * (wireShare n c b0 [] r0 t (2 * j + 1) + wireShare n c b1 [] s0 t (2 * j + 1)) := by
    intro t
    rw [hg, gadgetPoly_eval n c _ (fun w => wirePoly_length n c _)]
    simp only [hw]
  obtain ⟨S, hS⟩ : ∃ S, S = ∑ k ∈ range (gadgetCalls n c), polyEval g (fieldRoot (wireLog n c) ^ (k + 1)) := ⟨_, rfl⟩
  obtain ⟨K, hK⟩ : ∃ K, K = r1 * r1 * (b0.sum - ((2 : Nat) : Field128)⁻¹) + s1 * s1 * (b1.sum - ((2 : Nat) : Field128)⁻¹) :=
    ⟨_, rfl⟩
  have hcalls := calls_cast_ne hc hn hn64
  have hsub : r1 - s1 ≠ 0 := sub_ne_zero.2 hne
  obtain ⟨a, ha⟩ : ∃ a, a = -(s1 * S + K) / ((r1 - s1) * (gadgetCalls n c : Field128)) := ⟨_, rfl⟩
  obtain ⟨g0, hg0⟩ : ∃ g0, g0 = a :: List.replicate (2 * (wireLen n c - 1)) (0 : Field128) := ⟨_, rfl⟩
  have hg0l : g0.length = g.length := by rw [hg0, hgl]; simp
  have hg0e : ∀ t, polyEval g0 t = a := by
    intro t
    rw [hg0, polyEval_cons]
    have : ∀ m, polyEval (List.replicate m (0 : Field128)) t = 0 := by
      intro m
      induction m with
      | zero => rfl
      | succ m ih => rw [List.replicate_succ, polyEval_cons, ih]; ring
    rw [this]; ring
  have hg1e : ∀ t, polyEval (vecSub g g0) t = polyEval g t - a := by
    intro t
    have h := polyEval_addShares (a := g0) (b := vecSub g g0) (by simp [hg0l]) t
    have he : Spec.addShares g0 (vecSub g g0) = g := by
      refine List.ext_getElem (by simp [Spec.addShares, hg0l]) fun j h1 h2 => ?_
      simp only [Spec.addShares, List.getElem_zipWith]
      rw [vecSub_getElem h2 (by omega)]
      ring
    rw [he, hg0e] at h
    rw [h]; ring
  refine ⟨List.replicate (2 * c) 0 ++ g0, List.replicate (2 * c) 0 ++ vecSub g g0, by simp [histProofLen, hg0l, hgl],
    by simp [histProofLen, hg0l, hgl], fun t ht => ⟨_, _, histQuery_some.2 ⟨hb0, by simp [histProofLen, hg0l, hgl], ht, rfl⟩,
      histQuery_some.2 ⟨hb1, by simp [histProofLen, hg0l, hgl], ht, rfl⟩, ?_⟩⟩
  rw [histDecide_split]
  have d0 : (List.replicate (2 * c) 0 ++ g0).drop (2 * c) = g0 := by
    rw [List.drop_append_of_le_length (by simp)]; simp
  have d1 : (List.replicate (2 * c) 0 ++ vecSub g g0).drop (2 * c) = vecSub g g0 := by
    rw [List.drop_append_of_le_length (by simp)]; simp
  constructor
  · rw [validShare_eq, validShare_eq]
    unfold callSum
    rw [d0, d1]
    simp only [hg0e, hg1e, Finset.sum_const, Finset.card_range, nsmul_eq_mul, Finset.sum_sub_distrib]
    rw [← hS]
    have hmul : a * ((r1 - s1) * (gadgetCalls n c : Field128)) = -(s1 * S + K) := by
      rw [ha, div_mul_cancel₀ _ (mul_ne_zero hsub hcalls)]
    rw [hK] at hmul
    linear_combination hmul
  · rw [d0, d1, hg0e, hg1e, hge]
    rw [show ∀ u : Field128, a + (u - a) = u by intro u; ring]
    refine Finset.sum_congr rfl fun j hj => ?_
    have := Finset.mem_range.1 hj
    rw [wireShare_seeds _ _ _ _ (by omega), wireShare_seeds _ _ _ _ (by omega), wireShare_seeds _ _ _ _ (by omega),
      wireShare_seeds _ _ _ _ (by omega)]

/-! ### In the servers -/

/-- What the servers query for the keys of a client that runs the code, whatever else comes with them. -/
theorem copies_verifiers {n : Nat} {id0 id1 : Int} (h0 : id0 = 0) (h1 : id1 ≠ 0) {alpha : List Bool}
    {beta : List Field128} (ha : alpha ≠ []) (hbl : beta.length = n) (nonce : Block) (rs : Block × Block) :
    ∃ b0 b1, Spec.Shares beta b0 b1 ∧ ∀ (vk : Block) (p0 p1 : List Field128) (copy0 copy1 : Block × Block),
      Spec.verifierOf P n id0 vk (Spec.copiesReport P alpha beta nonce rs p0 p1 copy0 copy1).1
        = P.flpQuery n b0 p0 (P.xofField vk nonce.toList (P.queryRandLen n))
            (P.xofField (Spec.jointPart P 0 rs.1 nonce) copy0.2.toList (P.jointRandLen n)) ∧
      Spec.verifierOf P n id1 vk (Spec.copiesReport P alpha beta nonce rs p0 p1 copy0 copy1).2
        = P.flpQuery n b1 p1 (P.xofField vk nonce.toList (P.queryRandLen n))
            (P.xofField copy1.1 (Spec.jointPart P 1 rs.2 nonce).toList (P.jointRandLen n)) := by
  have hal : 1 ≤ alpha.length := by cases alpha <;> simp at ha ⊢
  obtain ⟨u0, u1, g0, g1, gs⟩ := honest_values P rs alpha beta [false] (by simp) (by simpa using hal)
  obtain ⟨w0, w1, q0, q1, qs⟩ := honest_values P rs alpha beta [true] (by simp) (by simpa using hal)
  rw [hbl] at g0 g1 q0 q1
  have lu0 := valueAt_length (by simp) g0
  have lu1 := valueAt_length (by simp) g1
  have lw0 := valueAt_length (by simp) q0
  have lw1 := valueAt_length (by simp) q1
  refine ⟨(Spec.addShares u0 w0).take n, (Spec.addShares u1 w1).take n,
    ⟨by rw [List.length_take, addShares_length lu0 lw0, hbl]; omega,
      by rw [List.length_take, addShares_length lu1 lw1, hbl]; omega,
      betaShares_sum ha hbl lu0 lw0 lu1 lw1 gs qs⟩, ?_⟩
  intro vk p0 p1 copy0 copy1
  constructor
  · simp only [Spec.copiesReport, Spec.verifierOf, g0, q0, h0, if_true, Option.bind_eq_bind, Option.bind_some]
    rfl
  · simp only [Spec.copiesReport, Spec.verifierOf, g1, q1, h1, if_false, Option.bind_eq_bind, Option.bind_some]
    rfl

theorem copies_facts {n : Nat} {alpha : List Bool} {beta : List Field128} (hl : beta.length = n) {nonce : Block}
    {rs : Block × Block} {p0 p1 : List Field128} {copy0 copy1 : Block × Block} {s0 s1 : ReportShare}
    (h : (s0, s1) = Spec.copiesReport P alpha beta nonce rs p0 p1 copy0 copy1) :
    ∃ k0 k1, Spec.keyOf s0 = some k0 ∧ Spec.keyOf s1 = some k1 ∧
      Spec.QuietPair P n alpha.length k0 k1 ∧ PairOfVec P n alpha.length (k0, k1) (alpha, beta) ∧
      Spec.WellFormed alpha.length s0 ∧ Spec.WellFormed alpha.length s1 := by
  obtain ⟨e0, e1⟩ := Prod.mk.inj h
  obtain ⟨g0, g1⟩ := gen_lengths P rs alpha beta false
  obtain ⟨g2, g3⟩ := gen_lengths P rs alpha beta true
  simp only [Pair.get] at g0 g1 g2 g3
  exact ⟨_, _, by rw [e0]; rfl, by rw [e1]; rfl, hl ▸ honest_quiet rs alpha beta,
    ⟨hl, fun p hp hpl => hl ▸ honest_recon rs alpha beta p hp hpl⟩,
    ⟨_, by rw [e0]; rfl, by omega, by omega⟩, ⟨_, by rw [e1]; rfl, by omega, by omega⟩⟩

theorem accepted_lists {n d : Nat} {id0 id1 : Int} {vk : Block} :
    ∀ {cs : List (List Bool × List Field128)} {r0 r1 : List (Bool × ReportShare)},
    Spec.AcceptedReports P n d id0 id1 vk cs r0 r1 →
    Spec.QuietReports P n d r0 r1 ∧ (∀ br ∈ r0, br.1 = true ∧ Spec.WellFormed d br.2) ∧
      (∀ br ∈ r1, br.1 = true ∧ Spec.WellFormed d br.2) ∧
      List.Forall₂ (PairOfVec P n d) (Spec.keyPairs r0 r1) cs
  | [], r0, r1, h => by
    obtain ⟨h0, h1, -⟩ := h
    rw [List.eq_nil_of_length_eq_zero h0, List.eq_nil_of_length_eq_zero h1]
    exact ⟨⟨rfl, by simp⟩, by simp, by simp, .nil⟩
  | c :: cs, [], _, h => by simp [Spec.AcceptedReports] at h
  | c :: cs, _ :: _, [], h => by simp [Spec.AcceptedReports] at h
  | c :: cs, (b0, s0) :: r0, (b1, s1) :: r1, h => by
    obtain ⟨h0, h1, h2⟩ := h
    obtain ⟨⟨i1, i2⟩, i3, i4, i5⟩ := accepted_lists (cs := cs) (r0 := r0) (r1 := r1)
      ⟨by simpa using h0, by simpa using h1, fun i c b0 b1 s0 s1 g0 g1 g2 =>
        h2 (i + 1) c b0 b1 s0 s1 (by simpa using g0) (by simpa using g1) (by simpa using g2)⟩
    obtain ⟨rfl, rfl, hd, hl, -, _, _, _, _, _, _, hh⟩ := h2 0 c b0 b1 s0 s1 rfl rfl rfl
    obtain ⟨k0, k1, e0, e1, q, pr, w0, w1⟩ := copies_facts hl hh
    rw [hd] at q pr w0 w1
    refine ⟨⟨by simp [i1], ?_⟩, ?_, ?_, ?_⟩
    · rintro (_ | i) t0 t1 h0 h1
      · cases h0; cases h1; exact ⟨k0, k1, e0, e1, q⟩
      · exact i2 i t0 t1 (by simpa using h0) (by simpa using h1)
    · intro br hbr
      rcases List.mem_cons.1 hbr with rfl | hbr
      · exact ⟨rfl, w0⟩
      · exact i3 br hbr
    · intro br hbr
      rcases List.mem_cons.1 hbr with rfl | hbr
      · exact ⟨rfl, w1⟩
      · exact i4 br hbr
    · have : Spec.keyPairs ((true, s0) :: r0) ((true, s1) :: r1) = (k0, k1) :: Spec.keyPairs r0 r1 := by
        simp [Spec.keyPairs, e0, e1]
      rw [this]
      exact .cons pr i5

end Mastic
