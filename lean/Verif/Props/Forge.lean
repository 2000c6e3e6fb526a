import Mathlib.Algebra.Polynomial.Roots
import Verif.Lemmas.Forge
import Verif.Props.Whh
import Verif.Lemmas.Toy

/-!
# C65: the joint randomness of the FLP does not depend on the weight
-/

namespace Mastic

open Polynomial in
/-- The range check as a polynomial in the joint randomness. -/
noncomputable def rangePoly : Nat → List Field128 → Polynomial Field128
  | _, [] => 0
  | k, x :: xs => C (x * (x - 1)) * X ^ (k + 1) + rangePoly (k + 1) xs

theorem rangePoly_eval (r : Field128) : ∀ (k : Nat) (x : List Field128),
    (rangePoly k x).eval r = Spec.rangeFrom r k x
  | _, [] => by simp [rangePoly, Spec.rangeFrom]
  | k, x :: xs => by
    simp only [rangePoly, Spec.rangeFrom, Polynomial.eval_add, Polynomial.eval_mul, Polynomial.eval_C,
      Polynomial.eval_pow, Polynomial.eval_X, rangePoly_eval r (k + 1) xs]
    ring

theorem rangePoly_degree : ∀ (k : Nat) (x : List Field128), (rangePoly k x).natDegree ≤ k + x.length
  | _, [] => by simp [rangePoly]
  | k, x :: xs => by
    unfold rangePoly
    refine (Polynomial.natDegree_add_le _ _).trans (max_le ?_ ?_)
    · refine (Polynomial.natDegree_C_mul_X_pow_le _ _).trans ?_
      simp
    · refine (rangePoly_degree (k + 1) xs).trans ?_
      simp only [List.length_cons]; omega

theorem rangePoly_low : ∀ (k : Nat) (x : List Field128) (j : Nat), j ≤ k → (rangePoly k x).coeff j = 0
  | _, [], _, _ => by simp [rangePoly]
  | k, x :: xs, j, h => by
    unfold rangePoly
    rw [Polynomial.coeff_add, rangePoly_low (k + 1) xs j (by omega), Polynomial.coeff_C_mul_X_pow,
      if_neg (by omega), add_zero]

theorem rangePoly_ne : ∀ (k : Nat) (x : List Field128), (∃ v ∈ x, v ≠ 0 ∧ v ≠ 1) → rangePoly k x ≠ 0
  | _, [], h => by simp at h
  | k, x :: xs, h => by
    unfold rangePoly
    by_cases hx : x * (x - 1) = 0
    · rw [hx]
      have hx' : x = 0 ∨ x = 1 := by
        rcases mul_eq_zero.1 hx with h | h
        · exact .inl h
        · exact .inr (sub_eq_zero.1 h)
      have := rangePoly_ne (k + 1) xs (by
        obtain ⟨v, hv, h0, h1⟩ := h
        rcases List.mem_cons.1 hv with rfl | hv
        · exact absurd hx' (by simp [h0, h1])
        · exact ⟨v, hv, h0, h1⟩)
      simpa using this
    · intro h0
      have := congrArg (fun p => Polynomial.coeff p (k + 1)) h0
      simp only [Polynomial.coeff_add, rangePoly_low (k + 1) xs (k + 1) le_rfl,
        Polynomial.coeff_C_mul_X_pow, if_true, add_zero, Polynomial.coeff_zero] at this
      exact hx this

theorem sum_bits : ∀ {x : List Field128}, (∀ v ∈ x, v = 0 ∨ v = 1) →
    x.sum = ((x.countP fun v => v == 1 : Nat) : Field128)
  | [], _ => by simp
  | v :: vs, h => by
    rw [List.sum_cons, sum_bits fun w hw => h w (List.mem_cons_of_mem _ hw), List.countP_cons]
    rcases h v (by simp) with rfl | rfl
    · simp
    · simp [add_comm]

/-- Entries 0 or 1 that add up to 1 in the field: a single 1, if there are fewer entries than field elements. -/
theorem oneHot_of_bits {n : Nat} {x : List Field128} (hn : n < fieldModulus) (hl : x.length = n)
    (h01 : ∀ v ∈ x, v = 0 ∨ v = 1) (hs : x.sum = 1) : Spec.OneHot n x := by
  have hc : x.countP (fun v => v == 1) = 1 := by
    have hle : x.countP (fun v => v == 1) ≤ n := hl ▸ List.countP_le_length
    have h := sum_bits h01
    rw [hs] at h
    have h1 : ((1 : Nat) : Field128) = ((x.countP fun v => v == 1 : Nat) : Field128) := by simpa using h
    rw [ZMod.natCast_eq_natCast_iff', Nat.mod_eq_of_lt (by decide), Nat.mod_eq_of_lt (by omega)] at h1
    exact h1.symm
  have hpos : 0 < x.countP (fun v => v == 1) := by omega
  obtain ⟨a, ha, ha1⟩ := List.countP_pos_iff.1 hpos
  obtain ⟨b, hb, hbe⟩ := List.getElem_of_mem ha
  have hval : x[b] = 1 := by rw [hbe]; simpa using ha1
  refine ⟨b, hl ▸ hb, hl, fun i hi => ?_⟩
  have hi' : i < x.length := by omega
  rw [List.getElem?_eq_getElem hi']
  split
  · rename_i h; subst h; rw [hval]
  · rename_i hne
    rcases h01 _ (List.getElem_mem hi') with h | h
    · rw [h]
    · exfalso
      have h2 : 2 ≤ x.countP (fun v => v == 1) := by
        have hsplit := List.countP_set (p := fun v : Field128 => v == 1) (l := x) (a := 0) (i := b) hb
        have hi2 : i < (x.set b 0).length := by simpa using hi'
        have hmem : (1 : Field128) ∈ x.set b 0 := by
          rw [List.mem_iff_getElem]
          refine ⟨i, hi2, ?_⟩
          rw [List.getElem_set_ne (by omega), h]
        have hp : 0 < (x.set b 0).countP (fun v => v == 1) := List.countP_pos_iff.2 ⟨1, hmem, by simp⟩
        rw [hval] at hsplit
        simp at hsplit
        omega
      omega

variable {P : Prims}

/-- **C65 fails: the joint randomness is the same for all weights.**  For the same client randomness the two
servers derive the same joint randomness, `jointRandOf` of nonce and root seeds alone, whatever string and weight
vector the client's keys encode: a client knows it before it has to choose its weight. -/
theorem C65_false_unbound {n : Nat} {rand : ClientRand} {alpha : List Bool} {beta : List Field128}
    {rep : PlaintextReport} (h : Spec.vectorReport P n alpha beta rand = .ok rep)
    {kc : KeyCollection P} (hn : kc.inputLen = n) {i : Nat} {b : Bool} :
    (kc.serverId = 0 → kc.reportShares[i]? = some (b, rep.toShares.1) →
      kc.flpJointRand i = .ok (Spec.jointRandOf P n rand.nonce rand.rootSeeds)) ∧
    (kc.serverId ≠ 0 → kc.reportShares[i]? = some (b, rep.toShares.2) →
      kc.flpJointRand i = .ok (Spec.jointRandOf P n rand.nonce rand.rootSeeds)) := by
  unfold Spec.vectorReport at h
  dsimp only at h
  obtain ⟨proof, -, h⟩ := bind_eq_ok.1 h
  simp only [Except.ok.injEq] at h
  subst h
  constructor
  · intro h0 hr
    unfold KeyCollection.flpJointRand
    rw [idx_eq_ok.2 hr]
    simp only [ok_bind, PlaintextReport.toShares, ReportShare.unwrapFlpJointRandParts, ReportShare.unwrapVidpfKey,
      ReportShare.nonce, h0, if_true, hn]
    rfl
  · intro h1 hr
    unfold KeyCollection.flpJointRand
    rw [idx_eq_ok.2 hr]
    simp only [ok_bind, PlaintextReport.toShares, ReportShare.unwrapFlpJointRandParts, ReportShare.unwrapVidpfKey,
      ReportShare.nonce, h1, if_false, hn]
    rfl

/-- The vector `-r1/r0, 0, ..., 0` passes the circuit and is not one-hot. -/
theorem forged_passes {n : Nat} (hn : 1 ≤ n) {r0 r1 : Field128} (h0 : r0 ≠ 0) (h1 : r0 + r1 ≠ 0) :
    let x := (-r1 / r0) :: List.replicate (n - 1) 0
    x.length = n ∧ Spec.histogramCheck r0 r1 x = 0 ∧ ¬ Spec.OneHot n x := by
  intro x
  refine ⟨by simp [x]; omega, ?_, ?_⟩
  · simp only [x, Spec.histogramCheck, Spec.rangeFrom, rangeFrom_replicate, List.sum_cons, List.sum_replicate,
      smul_zero, add_zero, zero_add, pow_one]
    field_simp
    ring
  · intro h
    obtain ⟨b, hb⟩ := oneHot_iff.1 h
    obtain ⟨-, hs⟩ := encodeMeasurement_mem hb
    simp only [x, List.sum_cons, List.sum_replicate, smul_zero, add_zero] at hs
    apply h1
    field_simp at hs
    linear_combination -hs

/-- **C65 fails.**  For every client randomness whose joint randomness `r0`, `r1` has `r0 ≠ 0` and `r0 + r1 ≠ 0`
and every string, a client can report a weight that is not one-hot (its first entry is `-r1/r0`), such that the
report passes the FLP verification and none of the crawl's checks on any level tells its two keys apart. -/
theorem C65_false_forgery {n : Nat} (hn : 1 ≤ n) {id0 id1 : Int} {vk : Block} (h0 : id0 = 0) (h1 : id1 ≠ 0)
    {rand : ClientRand} {r0 r1 : Field128} (hj : Spec.jointRandOf P n rand.nonce rand.rootSeeds = [r0, r1])
    (hr0 : r0 ≠ 0) (hr1 : r0 + r1 ≠ 0) {alpha : List Bool} (ha : alpha ≠ [])
    (hp : ∀ x : List Field128, x.length = n → (P.flpProve n x rand.proveRand [r0, r1]).isSome)
    (hc : Spec.CircuitCompleteAt P n (P.xofField vk rand.nonce.toList (P.queryRandLen n))) :
    ∃ (x : List Field128) (rep : PlaintextReport) (k0 k1 : VidpfKey), x.length = n ∧ ¬ Spec.OneHot n x ∧
      Spec.vectorReport P n alpha x rand = .ok rep ∧
      Spec.FlpAccepted P n id0 id1 vk rep.toShares.1 rep.toShares.2 ∧
      Spec.keyOf rep.toShares.1 = some k0 ∧ Spec.keyOf rep.toShares.2 = some k1 ∧
      Spec.QuietPair P n alpha.length k0 k1 ∧
      ∀ p, p ≠ [] → p.length ≤ alpha.length → Spec.reconAt P k0 k1 n p = some (Spec.pointValue alpha x p) := by
  obtain ⟨f1, f2, f3⟩ := forged_passes hn hr0 hr1
  obtain ⟨proof, hpr⟩ := Option.isSome_iff_exists.1 (hp _ f1)
  have hrep : ∃ rep, Spec.vectorReport P n alpha (-r1 / r0 :: List.replicate (n - 1) 0) rand = .ok rep ∧
      rep.toShares.1.nonce = rand.nonce := by
    unfold Spec.vectorReport
    dsimp only
    have hj' : P.xofField (clientJointRandParts P rand.nonce
        (VidpfKey.gen P rand.rootSeeds alpha (-r1 / r0 :: List.replicate (n - 1) 0)).1
        (VidpfKey.gen P rand.rootSeeds alpha (-r1 / r0 :: List.replicate (n - 1) 0)).2).1
        (clientJointRandParts P rand.nonce
        (VidpfKey.gen P rand.rootSeeds alpha (-r1 / r0 :: List.replicate (n - 1) 0)).1
        (VidpfKey.gen P rand.rootSeeds alpha (-r1 / r0 :: List.replicate (n - 1) 0)).2).2.toList
        (P.jointRandLen n) = [r0, r1] := hj
    rw [hj', hpr]
    exact ⟨_, rfl, rfl⟩
  obtain ⟨rep, hrep, hnonce⟩ := hrep
  have hpass : Spec.PassingPair P n alpha (-r1 / r0 :: List.replicate (n - 1) 0) rep.toShares.1 rep.toShares.2 :=
    ⟨rand, rep, r0, r1, hrep, rfl, f1, hj, f2⟩
  obtain ⟨k0, k1, e0, e1, hq, hv, -, -⟩ := passing_facts hpass
  exact ⟨_, rep, k0, k1, f1, f3, hrep, passing_verifiers h0 h1 ha hpass (hnonce.symm ▸ hc), e0, e1, hq, hv.2⟩

/-- Honest reports are among the passing ones. -/
theorem C65_honest_passes {n : Nat} {alpha : List Bool} {bucket : Nat} {rand : ClientRand} {rep : PlaintextReport}
    {r0 r1 : Field128} (h : genMasticReport P n alpha bucket rand = .ok rep)
    (hj : Spec.jointRandOf P n rand.nonce rand.rootSeeds = [r0, r1]) :
    ∃ x, Spec.OneHot n x ∧ Spec.PassingPair P n alpha x rep.toShares.1 rep.toShares.2 := by
  unfold genMasticReport at h
  obtain ⟨beta, hb, h⟩ := bind_eq_ok.1 h
  have hb := unwrapO_eq_ok.1 hb
  have h1 := oneHot_iff.2 ⟨_, hb⟩
  exact ⟨beta, h1, rand, rep, r0, r1, h, rfl, (encodeMeasurement_length hb).1, hj, histogramCheck_oneHot h1 r0 r1⟩

/-- **C65 fails, in a whole run.**  Clients that report any vectors passing the circuit for their own joint
randomness, one-hot or not: if some string is held by at least `max 1 threshold` of them, the run completes,
excludes nobody, and its results are the sums of these vectors. -/
theorem C65_false_run {c0 c1 : ServerCfg} {bld : Build} {cfg : Config} {kcs : Pair2 P}
    {d : Nat} {clients : List (List Bool × List Field128)}
    (hd : cfg.dataBits = some d) (hd2 : 2 ≤ d) (hb : 1 ≤ cfg.queryBatch) (hn : 1 ≤ cfg.histBuckets)
    (hn0 : kcs.1.inputLen = cfg.histBuckets) (hn1 : kcs.2.inputLen = cfg.histBuckets)
    (h0 : kcs.1.serverId = 0) (h1 : kcs.2.serverId ≠ 0) (hvk : kcs.1.verifyKey = kcs.2.verifyKey)
    (d0 : kcs.1.depth = some d) (d1 : kcs.2.depth = some d)
    (hp : Spec.PassingReports P cfg.histBuckets d kcs.1.verifyKey clients kcs.1.reportShares kcs.2.reportShares)
    (hlt : clients.length < 2 ^ 64)
    (hheavy : Spec.heavySums cfg.histBuckets (max 1 cfg.threshold) d clients ≠ []) :
    ∃ out, runWhh c0 c1 bld cfg kcs clients.length = .ok out ∧
      out.results.map (fun r => (r.path, r.value))
        = Spec.heavySums cfg.histBuckets (max 1 cfg.threshold) d clients ∧
      out.kcs.1.reportShares = kcs.1.reportShares ∧ out.kcs.2.reportShares = kcs.2.reportShares := by
  obtain ⟨hq, hw0, hw1, hF⟩ := passing_lists hp
  have hm0 := masked_all hp.1
  have hm1 := masked_all hp.2.1
  have hcl : ∀ c ∈ clients, c.1.length = d := by
    intro c hc
    obtain ⟨i, hi⟩ := List.getElem?_of_mem hc
    have hil := (List.getElem?_eq_some_iff.1 hi).1
    obtain ⟨-, -, -, hlen, -⟩ := hp.2.2 i c _ _ _ _ hi
      (List.getElem?_eq_getElem (hp.1 ▸ hil)) (List.getElem?_eq_getElem (hp.2.1 ▸ hil))
    exact hlen
  obtain ⟨s, hs, hs'⟩ : ∃ s, s.length = d ∧ max 1 cfg.threshold ≤ clients.countP fun c => c.1 == s := by
    unfold Spec.heavySums at hheavy
    obtain ⟨y, hy⟩ := List.exists_mem_of_ne_nil _ hheavy
    obtain ⟨s, hs, -⟩ := List.mem_map.1 hy
    obtain ⟨hs1, hs2⟩ := List.mem_filter.1 hs
    exact ⟨s, mem_allPaths.1 hs1, by simpa using hs2⟩
  have hpos : 0 < clients.length := by
    have : clients.countP (fun c => c.1 == s) ≤ clients.length := List.countP_le_length
    omega
  have hrun := whh_decided (c0 := c0) (c1 := c1) (bld := bld) (cfg := cfg) hd hd2 hb hn hn0 hn1 h0 h1 hvk d0 d1
    hp.1 hp.2.1 (fun br hbr => (hw0 br hbr).2) (fun br hbr => (hw1 br hbr).2)
    (keep := List.replicate clients.length true) (by simp) (by
      intro i b0 b1 s0 s1 g0 g1
      have hil : i < clients.length := hp.1 ▸ (List.getElem?_eq_some_iff.1 g0).1
      obtain ⟨-, -, hh, hlen, hcomp⟩ := hp.2.2 i clients[i] b0 b1 s0 s1 (List.getElem?_eq_getElem hil) g0 g1
      obtain ⟨v0, v1, q0, q1, qd⟩ := passing_verifiers h0 h1 (by
        intro he; rw [he, List.length_nil] at hlen; omega) hh hcomp
      exact ⟨v0, v1, true, q0, q1, qd, by simp [hil]⟩)
    (by rw [hm0, hm1]; exact quiet_inner hq) (.inl (by rw [hm0, hm1]; exact hq))
    (by
      rw [hm0]
      cases hr : kcs.1.reportShares with
      | nil => rw [← hp.1, hr] at hpos; simp at hpos
      | cons r rs =>
        obtain ⟨hb, -⟩ := hw0 r (by rw [hr]; simp)
        simp [Spec.included, List.zipIdx_cons, hb])
  rw [hm0, hm1] at hrun
  have hheavy2 : Spec.heavyPaths P cfg.histBuckets (max 1 cfg.threshold)
      (Spec.keyPairs kcs.1.reportShares kcs.2.reportShares) (d - 2) ≠ [] := by
    refine List.ne_nil_of_mem (a := s.take (d - 2)) (List.mem_filter.2 ⟨mem_allPaths.2 (by simp [hs]), ?_⟩)
    by_cases hsne : s.take (d - 2) = []
    · rw [hsne]; simp [Spec.heavy]
    · rw [heavy_vecs hF hlt hsne (by simp), decide_eq_true_eq]
      refine hs'.trans ?_
      rw [List.countP_eq_length_filter]
      refine (List.monotone_filter_right clients fun c hc => ?_).length_le
      simp only [beq_iff_eq] at hc
      rw [List.isPrefixOf_iff_prefix, hc]
      exact List.take_prefix _ _
  obtain ⟨out, g1, g2, g3, g4, -⟩ := hrun.1 hheavy2
  exact ⟨out, g1, by rw [g4]; exact results_vecs hF (by omega) hlt hcl, g2, g3⟩

/-- **C65, for a weight fixed in advance.**  A vector that is not one-hot, chosen before the joint randomness is
known, passes the circuit for at most `n + 1` in `fieldModulus` of the possible joint randomness.  Missing: in
the code the client may choose after. -/
theorem C65_fixed_weight_partial {n : Nat} (hn : 1 ≤ n) (hm : n < fieldModulus) {x : List Field128}
    (hl : x.length = n) (hx : ¬ Spec.OneHot n x) :
    {r : Field128 × Field128 | Spec.histogramCheck r.1 r.2 x = 0}.ncard ≤ (n + 1) * fieldModulus := by
  classical
  have : NeZero fieldModulus := ⟨by decide⟩
  have hcard : Fintype.card Field128 = fieldModulus := ZMod.card _
  let A : Finset (Field128 × Field128) := Finset.univ.image fun r0 : Field128 => (r0, 0)
  have hA : A.card ≤ fieldModulus := by
    refine Finset.card_image_le.trans ?_
    rw [Finset.card_univ, hcard]
  have main : ∃ B : Finset (Field128 × Field128), B.card ≤ n * fieldModulus ∧
      ∀ r : Field128 × Field128, Spec.rangeFrom r.1 0 x + r.2 * (x.sum - 1) = 0 → r ∈ B := by
    by_cases hs : x.sum - 1 = 0
    · have hne : rangePoly 0 x ≠ 0 := by
        apply rangePoly_ne
        by_contra hcon
        apply hx
        refine oneHot_of_bits hm hl (fun v hv => ?_) (sub_eq_zero.1 hs)
        by_contra h
        exact hcon ⟨v, hv, fun h0 => h (.inl h0), fun h1 => h (.inr h1)⟩
      refine ⟨(rangePoly 0 x).roots.toFinset ×ˢ Finset.univ, ?_, fun r hr => ?_⟩
      · rw [Finset.card_product, Finset.card_univ, hcard]
        refine Nat.mul_le_mul_right _ ?_
        refine (Multiset.toFinset_card_le _).trans ((Polynomial.card_roots' _).trans ?_)
        simpa [hl] using rangePoly_degree 0 x
      · rw [hs, mul_zero, add_zero] at hr
        simp only [Finset.mem_product, Multiset.mem_toFinset, Finset.mem_univ, and_true]
        rw [Polynomial.mem_roots hne, Polynomial.IsRoot, rangePoly_eval]
        exact hr
    · refine ⟨Finset.univ.image fun r0 : Field128 => (r0, -Spec.rangeFrom r0 0 x / (x.sum - 1)), ?_, fun r hr => ?_⟩
      · refine Finset.card_image_le.trans ?_
        rw [Finset.card_univ, hcard]
        exact Nat.le_mul_of_pos_left _ hn
      · simp only [Finset.mem_image, Finset.mem_univ, true_and]
        refine ⟨r.1, Prod.ext rfl ?_⟩
        show -Spec.rangeFrom r.1 0 x / (x.sum - 1) = r.2
        rw [div_eq_iff hs]
        linear_combination -hr
  obtain ⟨B, hB, hmem⟩ := main
  have hsub : {r : Field128 × Field128 | Spec.histogramCheck r.1 r.2 x = 0} ⊆ ↑(A ∪ B) := by
    intro r hr
    simp only [Set.mem_ofPred_eq, Spec.histogramCheck] at hr
    have : r.2 * (Spec.rangeFrom r.1 0 x + r.2 * (x.sum - 1)) = 0 := by linear_combination hr
    rw [Finset.coe_union]
    rcases mul_eq_zero.1 this with h | h
    · exact .inl (by
        simp only [A, Finset.coe_image, Finset.coe_univ, Set.image_univ, Set.mem_range]
        exact ⟨r.1, Prod.ext rfl h.symm⟩)
    · exact .inr (hmem r h)
  refine (Set.ncard_le_ncard hsub (Finset.finite_toSet _)).trans ?_
  rw [Set.ncard_coe_finset]
  refine (Finset.card_union_le _ _).trans ?_
  rw [Nat.add_mul, one_mul]
  omega

/-! ### A toy FLP with this circuit -/

/-- One half. -/
def half : Field128 := ((fieldModulus + 1) / 2 : Nat)

theorem half_double (r : Field128) : half * (r + r) = r := by
  have h : half * 2 = 1 := by decide +kernel
  linear_combination r * h

/-- A toy FLP that checks the histogram circuit: the verifier share is the input share and the joint randomness. -/
def circToy : Prims :=
  { toy with
    jointRandLen := fun _ => 2
    xofField := fun s d n => if n = 2 then [1, (toy.xofField s d 1).sum] else toy.xofField s d n
    flpQuery := fun n b _ _ jr => if b.length = n ∧ jr.length = 2 then some (b ++ jr) else none
    flpDecide := fun n v => match v.drop n with
      | [a, b] => some (decide (Spec.histogramCheck (half * a) (half * b) (v.take n) = 0))
      | _ => none }

theorem circToy_complete (n : Nat) (q : List Field128) : Spec.CircuitCompleteAt circToy n q := by
  intro r0 r1 x pr proof b0 b1 p0 p1 hl hz hp l0 l1 hb _ _ _
  refine ⟨b0 ++ [r0, r1], b1 ++ [r0, r1], if_pos ⟨l0, rfl⟩, if_pos ⟨l1, rfl⟩, ?_⟩
  have e : Spec.addShares (b0 ++ [r0, r1]) (b1 ++ [r0, r1]) = x ++ [r0 + r0, r1 + r1] := by
    rw [← hb]
    unfold Spec.addShares
    rw [List.zipWith_append (by rw [l0, l1])]
    rfl
  show (match (Spec.addShares (b0 ++ [r0, r1]) (b1 ++ [r0, r1])).drop n with
      | [a, b] => some (decide (Spec.histogramCheck (half * a) (half * b)
          ((Spec.addShares (b0 ++ [r0, r1]) (b1 ++ [r0, r1])).take n) = 0))
      | _ => none) = some true
  rw [e, ← hl, List.drop_left, List.take_left]
  simp only [half_double, hz, decide_true]

/-- The toy's joint randomness for `toyRand k`, computed. -/
example : Spec.jointRandOf circToy 2 (toyRand 0).nonce (toyRand 0).rootSeeds = [1, 7] := by decide +kernel

/-- The hypotheses of `C65_false_forgery` can be met: a forged weight with two buckets, namely `-7, 0`. -/
example : ∃ (x : List Field128) (rep : PlaintextReport), ¬ Spec.OneHot 2 x ∧
    Spec.vectorReport circToy 2 [true, false] x (toyRand 0) = .ok rep ∧
    Spec.FlpAccepted circToy 2 0 1 Block.zero rep.toShares.1 rep.toShares.2 := by
  obtain ⟨x, rep, -, -, -, h2, h3, h4, -⟩ := C65_false_forgery (P := circToy) (n := 2) (by omega) (id0 := 0)
    (id1 := 1) (vk := Block.zero) rfl (by decide) (rand := toyRand 0) (r0 := 1) (r1 := 7) (by decide +kernel)
    (by decide +kernel) (by decide +kernel) (alpha := [true, false]) (by simp) (fun _ _ => rfl)
    (circToy_complete _ _)
  exact ⟨x, rep, h2, h3, h4⟩

/-- A run evaluated: one forged client with the vector `-7, 0` and one honest client, both with string `10`,
threshold 2: the run reports the "histogram" `-7, 1` for `10`, with count 2. -/
example : (do
    let r1 ← Spec.vectorReport circToy 2 [true, false] [-7, 0] (toyRand 0)
    let r2 ← genMasticReport circToy 2 [true, false] 1 (toyRand 1)
    let kcs ← upload ⟨some 2, 2, 1, 2, 1, 2⟩ [r1, r2] (KeyCollection.new circToy 2 0 (some 2) Block.zero,
      KeyCollection.new circToy 2 1 (some 2) Block.zero) [(1, none), (2, none)]
    let out ← runWhh (toyCfg 0 (some 2) .debug) (toyCfg 1 (some 2) .debug) .debug
      ⟨some 2, 2, 1, 2, 1, 2⟩ kcs 2
    .ok (out.kcs.1.reportShares.map Prod.fst, out.results.map fun r => (r.path, r.value)) : Exec _)
    = .ok ([true, true], [([true, false], [-7, 1, 2])]) := by decide +kernel

/-- For comparison: a vector that does not fit the joint randomness is excluded. -/
example : (do
    let r1 ← Spec.vectorReport circToy 2 [true, false] [-8, 0] (toyRand 0)
    let r2 ← genMasticReport circToy 2 [true, false] 1 (toyRand 1)
    let kcs ← upload ⟨some 2, 2, 1, 2, 1, 1⟩ [r1, r2] (KeyCollection.new circToy 2 0 (some 2) Block.zero,
      KeyCollection.new circToy 2 1 (some 2) Block.zero) [(1, none), (2, none)]
    let out ← runWhh (toyCfg 0 (some 2) .debug) (toyCfg 1 (some 2) .debug) .debug
      ⟨some 2, 2, 1, 2, 1, 1⟩ kcs 2
    .ok (out.kcs.1.reportShares.map Prod.fst, out.results.map fun r => (r.path, r.value)) : Exec _)
    = .ok ([false, true], [([true, false], [0, 1, 1])]) := by decide +kernel

/-- The hypotheses of `C65_false_run` can be met, with a forged and an honest vector. -/
example (r1 r2 : PlaintextReport) (h1 : Spec.vectorReport circToy 2 [true, false] [-7, 0] (toyRand 0) = .ok r1)
    (h2 : Spec.vectorReport circToy 2 [true, false] [0, 1] (toyRand 1) = .ok r2) :
    Spec.PassingReports circToy 2 2 Block.zero [([true, false], [-7, 0]), ([true, false], [0, 1])]
      [(true, r1.toShares.1), (true, r2.toShares.1)] [(true, r1.toShares.2), (true, r2.toShares.2)] := by
  refine ⟨rfl, rfl, ?_⟩
  intro i c b0 b1 s0 s1 hc g0 g1
  match i with
  | 0 =>
    cases hc; cases g0; cases g1
    exact ⟨rfl, rfl, ⟨_, _, 1, 7, h1, rfl, rfl, by decide +kernel, by decide +kernel⟩, rfl, circToy_complete _ _⟩
  | 1 =>
    cases hc; cases g0; cases g1
    exact ⟨rfl, rfl, ⟨_, _, 1, 12, h2, rfl, rfl, by decide +kernel, by decide +kernel⟩, rfl, circToy_complete _ _⟩
  | _ + 2 => cases hc

/-- The hypotheses of `C65_fixed_weight_partial` can be met: all entries zero. -/
example : {r : Field128 × Field128 | Spec.histogramCheck r.1 r.2 [0, 0] = 0}.ncard ≤ 3 * fieldModulus := by
  refine C65_fixed_weight_partial (n := 2) (by omega) (by decide) rfl ?_
  rintro ⟨b, hb, -, h⟩
  have := h b hb
  simp only [if_true] at this
  match b, hb with
  | 0, _ => simp at this
  | 1, _ => simp at this

end Mastic
