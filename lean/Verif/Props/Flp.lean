import Verif.Lemmas.FlpInit
import Verif.Lemmas.Toy

/-!
# FLP verification in the weighted-heavy-hitters mode

C39 – C42.
-/

namespace Mastic

variable {P : Prims}

/-! ### C39 -/

/-- **C39.** For an honest report both servers derive the joint randomness the client used for its
proof, whatever the XOF, the nonce and the other reports. -/
theorem C39_joint_rand {n bucket : Nat} {alpha : List Bool} {rand : ClientRand} {rep : PlaintextReport}
    {s0 s1 : ReportShare} (hg : genMasticReport P n alpha bucket rand = .ok rep)
    (hs : (s0, s1) = rep.toShares) {c0 c1 : KeyCollection P} (hn0 : c0.inputLen = n)
    (hn1 : c1.inputLen = n) (h0 : c0.serverId = 0) (h1 : c1.serverId ≠ 0) {i j : Nat} {b0 b1 : Bool}
    (hr0 : c0.reportShares[i]? = some (b0, s0)) (hr1 : c1.reportShares[j]? = some (b1, s1)) :
    ∃ beta proof jointRand, encodeMeasurement n bucket = some beta ∧
      P.flpProve n beta rand.proveRand jointRand = some proof ∧
      (∃ nonce keys jr, rep = .mastic nonce keys (shareProof proof rand.proofRand) jr alpha) ∧
      c0.flpJointRand i = .ok jointRand ∧ c1.flpJointRand j = .ok jointRand := by
  unfold genMasticReport at hg
  obtain ⟨beta, hb, hg⟩ := bind_eq_ok.1 hg
  dsimp only at hg
  obtain ⟨proof, hp, hg⟩ := bind_eq_ok.1 hg
  simp only [Except.ok.injEq] at hg
  subst hg
  simp only [PlaintextReport.toShares, Prod.mk.injEq] at hs
  refine ⟨beta, proof, _, unwrapO_eq_ok.1 hb, unwrapO_eq_ok.1 hp, ⟨_, _, _, rfl⟩, ?_, ?_⟩
  · unfold KeyCollection.flpJointRand
    rw [idx_eq_ok.2 hr0, hs.1]
    simp only [ok_bind, ReportShare.unwrapFlpJointRandParts, ReportShare.unwrapVidpfKey,
      ReportShare.nonce, h0, if_true, hn0]
    rfl
  · unfold KeyCollection.flpJointRand
    rw [idx_eq_ok.2 hr1, hs.2]
    simp only [ok_bind, ReportShare.unwrapFlpJointRandParts, ReportShare.unwrapVidpfKey,
      ReportShare.nonce, h1, if_false, hn1]
    rfl

/-- **C39.** Two servers with the same verify key and bucket number derive the same query randomness
for shares with the same nonce; in particular for the two shares of one report, honest or not. -/
theorem C39_query_rand {rep : PlaintextReport} {s0 s1 : ReportShare} (hs : (s0, s1) = rep.toShares)
    {c0 c1 : KeyCollection P} (hn : c0.inputLen = c1.inputLen) (hv : c0.verifyKey = c1.verifyKey)
    {i j : Nat} {b0 b1 : Bool} (hr0 : c0.reportShares[i]? = some (b0, s0))
    (hr1 : c1.reportShares[j]? = some (b1, s1)) :
    ∃ q, c0.flpQueryRand i = .ok q ∧ c1.flpQueryRand j = .ok q := by
  have hnonce : s0.nonce = s1.nonce := by
    cases rep <;> (simp only [PlaintextReport.toShares, Prod.mk.injEq] at hs; rw [hs.1, hs.2]; rfl)
  exact ⟨_, queryRand_eq hr0, by rw [queryRand_eq hr1, hn, hv, hnonce]⟩

/-- A concrete honest report on both toy servers. -/
example : (do
    let kcs ← toyPair 2 3 [([true, false], 1)]
    let a ← kcs.1.flpJointRand 0
    let b ← kcs.2.flpJointRand 0
    .ok (a.length, decide (a = b), decide (a = [0])) : Exec _) =
    .ok (1, true, false) := by decide +kernel

/-! ### C41 -/

/-- **C41.** After `tree_init`, for an honest report number `i`, the two servers answer the FLP request
for that report by one FLP query each, and the two inputs of these queries add up to the client's
encoded weight (the proofs add up to the client's proof; the randomness is the same).  The other
reports are arbitrary well-formed ones. -/
theorem C41_beta_shares {kcs0 kcs : Pair2 P} {n i bucket : Nat} {alpha : List Bool}
    {s0 s1 : ReportShare} {b0 b1 : Bool} {B0 B1 : Build}
    (hi : driverTreeInit kcs0 = .ok kcs) (hn0 : kcs.1.inputLen = n) (hn1 : kcs.2.inputLen = n)
    (h0 : kcs.1.serverId = 0) (h1 : kcs.2.serverId ≠ 0) (hvk : kcs.1.verifyKey = kcs.2.verifyKey)
    (hk0 : ∀ br ∈ kcs.1.reportShares, ∃ key, Spec.keyOf br.2 = some key ∧
      key.cs.length = key.corWords.length ∧ 0 < key.corWords.length)
    (hk1 : ∀ br ∈ kcs.2.reportShares, ∃ key, Spec.keyOf br.2 = some key ∧
      key.cs.length = key.corWords.length ∧ 0 < key.corWords.length)
    (ha : alpha ≠ []) (hh : Spec.HonestPair P n alpha bucket s0 s1)
    (hr0 : kcs.1.reportShares[i]? = some (b0, s0)) (hr1 : kcs.2.reportShares[i]? = some (b1, s1)) :
    ∃ beta x0 x1 p0 p1 q J proof pr, encodeMeasurement n bucket = some beta ∧
      P.flpProve n beta pr J = some proof ∧
      x0.length = n ∧ x1.length = n ∧ Spec.addShares x0 x1 = beta ∧
      p0.length = proof.length ∧ p1.length = proof.length ∧ Spec.addShares p0 p1 = proof ∧
      kcs.1.runFlpQueries B0 i (i + 1) =
        (unwrapO (P.flpQuery n x0 p0 q J) >>= fun v => .ok [v]) ∧
      kcs.2.runFlpQueries B1 i (i + 1) =
        (unwrapO (P.flpQuery n x1 p1 q J) >>= fun v => .ok [v]) := by
  obtain ⟨i0, i1⟩ := driverTreeInit_ok hi
  obtain ⟨root0, f0, -⟩ := treeInit_fresh i0
  obtain ⟨root1, f1, -⟩ := treeInit_fresh i1
  obtain ⟨l0, a0⟩ := f0.children hk0 false
  obtain ⟨r0, d0⟩ := f0.children hk0 true
  obtain ⟨l1, a1⟩ := f1.children hk1 false
  obtain ⟨r1, d1⟩ := f1.children hk1 true
  have hx0 := hn0 ▸ (f0.child a0).2
  have hy0 := hn0 ▸ (f0.child d0).2
  have hx1 := hn1 ▸ (f1.child a1).2
  have hy1 := hn1 ▸ (f1.child d1).2
  obtain ⟨beta, pr, J, proof, x0, x1, p0, p1, hb, hp, l0', l1', hx, m0, m1, hpp, e0, e1⟩ :=
    honest_flp_queries hn0 hn1 h0 h1 hvk ha hh hr0 hr1 hx0 (f0.child a0).1 hy0 (f0.child d0).1
      hx1 (f1.child a1).1 hy1 (f1.child d1).1
  have hl0 : i < kcs.1.reportShares.length := (List.getElem?_eq_some_iff.1 hr0).1
  have hl1 : i < kcs.2.reportShares.length := (List.getElem?_eq_some_iff.1 hr1).1
  have R0 := f0.ready rfl a0 d0
  have R1 := f1.ready rfl a1 d1
  refine ⟨beta, x0, x1, p0, p1,
    P.xofField kcs.1.verifyKey s0.nonce.toList (P.queryRandLen n), J, proof, pr, hb, hp, l0', l1', hx, m0, m1, hpp, ?_, ?_⟩
  · rw [runFlp_eq R0.frontier R0.path R0.left R0.right R0.values R0.reports hl0, ← e0,
      show i + 1 - i = 1 by omega]
    rfl
  · rw [runFlp_eq R1.frontier R1.path R1.left R1.right R1.values R1.reports hl1, ← e1,
      show i + 1 - i = 1 by omega]
    rfl

/-- Toy instance: the query inputs of the two servers (the toy verifier is input followed by proof share)
add up to the one-hot weight and the proof. -/
example : (do
    let kcs ← toyPair 2 3 [([true, false], 1), ([false, true], 2)]
    let kcs ← driverTreeInit kcs
    let a ← kcs.1.runFlpQueries .debug 0 2
    let b ← kcs.2.runFlpQueries .debug 0 2
    .ok (List.zipWith Spec.addShares a b) : Exec _) =
    .ok [[0, 1, 0, 7, 9], [0, 0, 1, 7, 9]] := by decide +kernel

/-! ### C40 -/

/-- **C40.** If the driver's FLP phase completes on servers that just ran `tree_init`, for arbitrary
reports and any batch size, it has computed one `keep` entry per report, namely the decision on the sum
of the two verifier shares of that report, and both servers end with exactly the reports whose decision
is `false` additionally excluded. -/
theorem C40_exact {c0 c1 : ServerCfg} {bld : Build} {cfg : Config} {kcs0 kcs kcs' : Pair2 P} {n : Nat}
    (hi : driverTreeInit kcs0 = .ok kcs) (hn0 : kcs.1.reportShares.length = n)
    (hn1 : kcs.2.reportShares.length = n) (hb : 1 ≤ cfg.queryBatch)
    (h : driverFlp c0 c1 bld cfg kcs n = .ok kcs') :
    ∃ keep : List Bool, keep.length = n ∧
      kcs' = ({ kcs.1 with reportShares := Spec.masked kcs.1.reportShares keep },
          { kcs.2 with reportShares := Spec.masked kcs.2.reportShares keep }) ∧
      ∀ (i : Nat) (b0 b1 : Bool) (s0 s1 : ReportShare), kcs.1.reportShares[i]? = some (b0, s0) →
        kcs.2.reportShares[i]? = some (b1, s1) → ∃ v0 v1 d,
          Spec.verifierOf P kcs.1.inputLen kcs.1.serverId kcs.1.verifyKey s0 = some v0 ∧
          Spec.verifierOf P kcs.2.inputLen kcs.2.serverId kcs.2.verifyKey s1 = some v1 ∧
          P.flpDecide cfg.histBuckets (Spec.addShares v0 v1) = some d ∧ keep[i]? = some d := by
  obtain ⟨i0, i1⟩ := driverTreeInit_ok hi
  obtain ⟨root0, f0, -⟩ := treeInit_fresh i0
  obtain ⟨root1, f1, -⟩ := treeInit_fresh i1
  obtain ⟨l0, r0, l1, r1, R0, R1⟩ := driverFlp_children f0 f1 hn0 hn1 h
  obtain ⟨keep, hk, rfl⟩ := (driverFlp_iff R0 R1 hb).1 h
  refine ⟨keep, by rw [mapE_length hk, List.length_range], rfl, ?_⟩
  intro i b0 b1 s0 s1 hs0 hs1
  have hin : i < n := by rw [← hn0]; exact (List.getElem?_eq_some_iff.1 hs0).1
  rw [mapE_eq_ok_iff_getElem] at hk
  obtain ⟨d, hd, hfd⟩ := hk.2 i i (by simp [hin])
  have x0 := f0.child R0.left
  have y0 := f0.child R0.right
  have x1 := f1.child R1.left
  have y1 := f1.child R1.right
  obtain ⟨v0, v1, e0, e1, e⟩ := (flpDecision_iff hs0 hs1 x0.2 x0.1 y0.2 y0.1 x1.2 x1.1 y1.2 y1.1).1 hfd
  exact ⟨v0, v1, d, e0, e1, e, hd⟩

/-- **C40.** The outcome does not depend on the batch size (nor on the kind of build). -/
theorem C40_batch_independent {c0 c1 c0' c1' : ServerCfg} {bld bld' : Build} {cfg cfg' : Config}
    {kcs0 kcs kcs' : Pair2 P} {n : Nat} (hi : driverTreeInit kcs0 = .ok kcs)
    (hn0 : kcs.1.reportShares.length = n) (hn1 : kcs.2.reportShares.length = n)
    (hb : 1 ≤ cfg.queryBatch) (hb' : 1 ≤ cfg'.queryBatch) (hc : cfg'.histBuckets = cfg.histBuckets)
    (h : driverFlp c0 c1 bld cfg kcs n = .ok kcs') : driverFlp c0' c1' bld' cfg' kcs n = .ok kcs' := by
  obtain ⟨i0, i1⟩ := driverTreeInit_ok hi
  obtain ⟨root0, f0, -⟩ := treeInit_fresh i0
  obtain ⟨root1, f1, -⟩ := treeInit_fresh i1
  obtain ⟨l0, r0, l1, r1, R0, R1⟩ := driverFlp_children f0 f1 hn0 hn1 h
  rw [driverFlp_iff R0 R1 hb', hc]
  exact (driverFlp_iff R0 R1 hb).1 h

/-- **C40.** An honest report keeps its flag, whatever the other reports are, provided the external FLP is
complete at this report's query randomness. -/
theorem C40_honest_kept {c0 c1 : ServerCfg} {bld : Build} {cfg : Config} {kcs0 kcs kcs' : Pair2 P}
    {n i bucket : Nat} {alpha : List Bool} {s0 s1 : ReportShare} {b0 b1 : Bool}
    (hi : driverTreeInit kcs0 = .ok kcs) (hn0 : kcs.1.reportShares.length = n)
    (hn1 : kcs.2.reportShares.length = n) (hb : 1 ≤ cfg.queryBatch)
    (hl0 : kcs.1.inputLen = cfg.histBuckets) (hl1 : kcs.2.inputLen = cfg.histBuckets)
    (h0 : kcs.1.serverId = 0) (h1 : kcs.2.serverId ≠ 0) (hvk : kcs.1.verifyKey = kcs.2.verifyKey)
    (ha : alpha ≠ []) (hh : Spec.HonestPair P cfg.histBuckets alpha bucket s0 s1)
    (hc : Spec.FlpCompleteAt P cfg.histBuckets
      (P.xofField kcs.1.verifyKey s0.nonce.toList (P.queryRandLen cfg.histBuckets)))
    (hr0 : kcs.1.reportShares[i]? = some (b0, s0)) (hr1 : kcs.2.reportShares[i]? = some (b1, s1))
    (h : driverFlp c0 c1 bld cfg kcs n = .ok kcs') :
    kcs'.1.reportShares[i]? = some (b0, s0) ∧ kcs'.2.reportShares[i]? = some (b1, s1) := by
  obtain ⟨i0, i1⟩ := driverTreeInit_ok hi
  obtain ⟨root0, f0, -⟩ := treeInit_fresh i0
  obtain ⟨root1, f1, -⟩ := treeInit_fresh i1
  obtain ⟨l0, r0, l1, r1, R0, R1⟩ := driverFlp_children f0 f1 hn0 hn1 h
  have x0 := f0.child R0.left
  have y0 := f0.child R0.right
  have x1 := f1.child R1.left
  have y1 := f1.child R1.right
  obtain ⟨v0, v1, q0, q1, -, hd⟩ := honest_flp_accepted hl0 hl1 h0 h1 hvk ha hh hc hr0 hr1
    (hl0 ▸ x0.2) x0.1 (hl0 ▸ y0.2) y0.1 (hl1 ▸ x1.2) x1.1 (hl1 ▸ y1.2) y1.1
  obtain ⟨keep, hk, rfl, hall⟩ := C40_exact hi hn0 hn1 hb h
  obtain ⟨w0, w1, d, e0, e1, ed, hki⟩ := hall i b0 b1 s0 s1 hr0 hr1
  rw [(flpQueryClient_iff hr0 x0.2 x0.1 y0.2 y0.1).1 q0] at e0
  rw [(flpQueryClient_iff hr1 x1.2 x1.1 y1.2 y1.1).1 q1] at e1
  cases e0; cases e1
  rw [hd] at ed
  cases ed
  constructor
  · simp [Spec.masked, List.getElem?_zipWith, hr0, hki]
  · simp [Spec.masked, List.getElem?_zipWith, hr1, hki]

/-- **C40.** If all reports are honest (and the FLP is complete at every report's query randomness) the
phase completes and excludes nobody. -/
theorem C40_all_honest {c0 c1 : ServerCfg} {bld : Build} {cfg : Config} {kcs0 kcs : Pair2 P} {n : Nat}
    (hi : driverTreeInit kcs0 = .ok kcs) (hn0 : kcs.1.reportShares.length = n)
    (hn1 : kcs.2.reportShares.length = n) (hb : 1 ≤ cfg.queryBatch)
    (hl0 : kcs.1.inputLen = cfg.histBuckets) (hl1 : kcs.2.inputLen = cfg.histBuckets)
    (h0 : kcs.1.serverId = 0) (h1 : kcs.2.serverId ≠ 0) (hvk : kcs.1.verifyKey = kcs.2.verifyKey)
    (hh : ∀ (i : Nat) (b0 b1 : Bool) (s0 s1 : ReportShare), kcs.1.reportShares[i]? = some (b0, s0) →
      kcs.2.reportShares[i]? = some (b1, s1) → ∃ alpha bucket, alpha ≠ [] ∧
        Spec.HonestPair P cfg.histBuckets alpha bucket s0 s1 ∧
        Spec.FlpCompleteAt P cfg.histBuckets
          (P.xofField kcs.1.verifyKey s0.nonce.toList (P.queryRandLen cfg.histBuckets))) :
    driverFlp c0 c1 bld cfg kcs n = .ok kcs := by
  obtain ⟨i0, i1⟩ := driverTreeInit_ok hi
  obtain ⟨root0, f0, -⟩ := treeInit_fresh i0
  obtain ⟨root1, f1, -⟩ := treeInit_fresh i1
  have hpair : ∀ i, i < n → ∃ b0 b1 s0 s1, kcs.1.reportShares[i]? = some (b0, s0) ∧
      kcs.2.reportShares[i]? = some (b1, s1) := fun i hi =>
    ⟨_, _, _, _, List.getElem?_eq_getElem (by omega), List.getElem?_eq_getElem (by omega)⟩
  have key : ∀ {alpha : List Bool} {bucket : Nat} {s0 s1 : ReportShare}, alpha ≠ [] →
      Spec.HonestPair P cfg.histBuckets alpha bucket s0 s1 →
      (∃ k, Spec.keyOf s0 = some k ∧ k.cs.length = k.corWords.length ∧ 0 < k.corWords.length) ∧
      (∃ k, Spec.keyOf s1 = some k ∧ k.cs.length = k.corWords.length ∧ 0 < k.corWords.length) := by
    intro alpha bucket s0 s1 ha hp
    obtain ⟨nonce, rs, beta, pr, proof, rand, -, -, e0, e1⟩ := honestPair_parts hp
    obtain ⟨g0, g1⟩ := gen_lengths P rs alpha beta false
    obtain ⟨g2, g3⟩ := gen_lengths P rs alpha beta true
    simp only [Pair.get] at g0 g1 g2 g3
    have hal : 0 < alpha.length := List.length_pos_of_ne_nil ha
    rw [e0, e1]
    refine ⟨⟨_, rfl, ?_, ?_⟩, ⟨_, rfl, ?_, ?_⟩⟩ <;> omega
  have hk0 : KeysReach 0 kcs.1.reportShares := by
    intro br hbr
    obtain ⟨i, hi⟩ := List.getElem?_of_mem hbr
    obtain ⟨b0, b1, s0, s1, e0, e1⟩ := hpair i (by rw [← hn0]; exact (List.getElem?_eq_some_iff.1 hi).1)
    obtain ⟨alpha, bucket, ha, hp, -⟩ := hh i _ _ _ _ e0 e1
    rw [hi] at e0; cases e0
    exact (key ha hp).1
  have hk1 : KeysReach 0 kcs.2.reportShares := by
    intro br hbr
    obtain ⟨i, hi⟩ := List.getElem?_of_mem hbr
    obtain ⟨b0, b1, s0, s1, e0, e1⟩ := hpair i (by rw [← hn1]; exact (List.getElem?_eq_some_iff.1 hi).1)
    obtain ⟨alpha, bucket, ha, hp, -⟩ := hh i _ _ _ _ e0 e1
    rw [hi] at e1; cases e1
    exact (key ha hp).2
  obtain ⟨l0, a0⟩ := f0.children hk0 false
  obtain ⟨r0, d0⟩ := f0.children hk0 true
  obtain ⟨l1, a1⟩ := f1.children hk1 false
  obtain ⟨r1, d1⟩ := f1.children hk1 true
  have x0 := f0.child a0
  have y0 := f0.child d0
  have x1 := f1.child a1
  have y1 := f1.child d1
  rw [driverFlp_iff (f0.ready hn0 a0 d0) (f1.ready hn1 a1 d1) hb]
  have hmask : ∀ rs : List (Bool × ReportShare), rs.length = n →
      Spec.masked rs (List.replicate n true) = rs := by
    intro rs hrs
    refine List.ext_getElem? fun i => ?_
    unfold Spec.masked
    rw [List.getElem?_zipWith, List.getElem?_replicate]
    by_cases hin : i < n
    · rw [if_pos hin, List.getElem?_eq_getElem (by omega)]; simp
    · rw [if_neg hin, List.getElem?_eq_none (by omega)]
  refine ⟨List.replicate n true, ?_, by rw [hmask _ hn0, hmask _ hn1]⟩
  rw [mapE_eq_ok_iff_getElem]
  refine ⟨by simp, fun i a hia => ?_⟩
  have hin : i < n := by simpa using (List.getElem?_eq_some_iff.1 hia).1
  have : a = i := by simpa [hin] using hia.symm
  subst this
  refine ⟨true, by simp [hin], ?_⟩
  obtain ⟨b0, b1, s0, s1, e0, e1⟩ := hpair a hin
  obtain ⟨alpha, bucket, ha, hp, hc⟩ := hh a _ _ _ _ e0 e1
  obtain ⟨v0, v1, q0, q1, -, hd⟩ := honest_flp_accepted hl0 hl1 h0 h1 hvk ha hp hc e0 e1
    (hl0 ▸ x0.2) x0.1 (hl0 ▸ y0.2) y0.1 (hl1 ▸ x1.2) x1.1 (hl1 ▸ y1.2) y1.1
  unfold flpDecision decideShares
  rw [q0, ok_bind, q1, ok_bind]
  exact unwrapO_eq_ok.2 hd

theorem count_oneHot : ∀ n b : Nat, b < n →
    (((List.replicate n (0 : Field128)).set b 1).filter (fun x => x == 1)).length = 1
  | n + 1, 0, _ => by
    have h01 : ((0 : Field128) == 1) = false := by decide +kernel
    rw [List.replicate_succ, List.set_cons_zero, List.filter_cons_of_pos (by simp),
      List.filter_replicate_of_neg (by simp [h01])]
    rfl
  | n + 1, b + 1, h => by
    have h01 : ((0 : Field128) == 1) = false := by decide +kernel
    rw [List.replicate_succ, List.set_cons_succ, List.filter_cons_of_neg (by simp [h01])]
    exact count_oneHot n b (by omega)

/-- The toy FLP is complete, so the hypotheses of the C40 theorems can be met. -/
theorem toy_flpComplete (n : Nat) (q : List Field128) : Spec.FlpCompleteAt toy n q := by
  intro bucket beta pr j proof b0 b1 p0 p1 hb hp hb0 hb1 hbs hp0 hp1 hps
  simp only [toy, Option.some.injEq] at hp
  subst hp
  obtain ⟨hbl, hbn⟩ := encodeMeasurement_length hb
  have q0 : p0.length = 2 := by simpa using hp0
  have q1 : p1.length = 2 := by simpa using hp1
  refine ⟨b0 ++ p0, b1 ++ p1, ?_, ?_, ?_, ?_⟩
  · simp [toy, hb0, hbl, q0]
  · simp [toy, hb1, hbl, q1]
  · simp [hb0, hb1, q0, q1]
  · have hsum : Spec.addShares (b0 ++ p0) (b1 ++ p1) = beta ++ [7, 9] := by
      rw [← hbs, ← hps]
      unfold Spec.addShares
      rw [List.zipWith_append (by rw [hb0, hb1])]
    rw [hsum]
    simp only [toy, Option.some.injEq, Bool.and_eq_true, beq_iff_eq]
    rw [← hbl, List.take_left, List.drop_left]
    refine ⟨?_, rfl⟩
    unfold encodeMeasurement at hb
    rw [if_pos hbn] at hb
    cases hb
    simp only [toyDecide, Bool.and_eq_true, beq_iff_eq, List.all_eq_true, Bool.or_eq_true]
    refine ⟨⟨by simp, ?_⟩, ?_⟩
    · intro x hx
      rcases List.mem_or_eq_of_mem_set hx with hx | rfl
      · rw [List.eq_of_mem_replicate hx]; simp
      · simp
    · exact count_oneHot n bucket hbn

/-- Four toy clients, the third of which sends a tampered proof: with any batch size exactly the third is
excluded, on both servers. -/
def toyFlpRun (batch : Nat) : Exec (List Bool × List Bool) := do
  let rs ← mapE (fun c => toyReport 2 c.1.1 c.1.2 c.2)
    [([true, false], 1), ([false, true], 0), ([true, true], 1), ([true, true], 0)].zipIdx
  let kcs ← upload ⟨some 2, 2, 3, batch, 1, 1⟩ rs (KeyCollection.new toy 2 0 (some 2) Block.zero,
    KeyCollection.new toy 2 1 (some 2) Block.zero) [(1, none), (2, none), (3, some .flp), (4, none)]
  let kcs ← driverTreeInit kcs
  let kcs ← driverFlp (toyCfg 0 (some 2) .debug) (toyCfg 1 (some 2) .debug) .debug
    ⟨some 2, 2, 3, batch, 1, 1⟩ kcs 4
  .ok (kcs.1.reportShares.map Prod.fst, kcs.2.reportShares.map Prod.fst)

example : toyFlpRun 1 = .ok ([true, true, false, true], [true, true, false, true]) := by
  decide +kernel
example : toyFlpRun 3 = .ok ([true, true, false, true], [true, true, false, true]) := by
  decide +kernel

/-! ### C42 -/

/-- **C42 is false of the code.** With `data_bits = 1` a weighted-heavy-hitters run never excludes
anybody: the level loop, which contains the FLP phase, is empty.  This holds for every FLP, also for one
that rejects every report. -/
theorem C42_false_one_bit {c0 c1 : ServerCfg} {bld : Build} {cfg : Config} {kcs : Pair2 P} {n : Nat}
    {out : WhhOut P} (hd : cfg.dataBits = some 1) (h : runWhh c0 c1 bld cfg kcs n = .ok out) :
    out.kcs.1.reportShares = kcs.1.reportShares ∧ out.kcs.2.reportShares = kcs.2.reportShares := by
  unfold runWhh at h
  obtain ⟨k, hk, h⟩ := bind_eq_ok.1 h
  obtain ⟨m, hm, h⟩ := bind_eq_ok.1 h
  unfold levelCount at hm
  rw [hd] at hm
  cases hm
  obtain ⟨k', hk', h⟩ := bind_eq_ok.1 h
  cases hk'
  obtain ⟨i0, i1⟩ := driverTreeInit_ok hk
  obtain ⟨_, -, e0⟩ := treeInit_fresh i0
  obtain ⟨_, -, e1⟩ := treeInit_fresh i1
  obtain ⟨⟨-, a⟩, -, b⟩ := runLevelLast_frame h
  rw [a, b, e0, e1]
  exact ⟨rfl, rfl⟩

/-- **C42 is false of the code**, concretely: one client, strings of one bit, a tampered FLP proof.  The
decision on this report is "reject", yet the run completes and counts it. -/
def toyOneBit : Exec (Bool × List HHResult) := do
  let rep ← toyReport 2 [true] 1 0
  let kcs ← upload ⟨some 1, 2, 3, 3, 1, 1⟩ [rep] (KeyCollection.new toy 2 0 (some 1) Block.zero,
    KeyCollection.new toy 2 1 (some 1) Block.zero) [(1, some .flp)]
  let init ← driverTreeInit kcs
  let a ← init.1.runFlpQueries .debug 0 1
  let b ← init.2.runFlpQueries .debug 0 1
  let d ← mapE (decideShares toy 2) (a.zip b)
  let d0 ← idx d 0
  let out ← runWhh (toyCfg 0 (some 1) .debug) (toyCfg 1 (some 1) .debug) .debug
    ⟨some 1, 2, 3, 3, 1, 1⟩ kcs 1
  .ok (d0, out.results)

theorem C42_false_witness : toyOneBit = .ok (false, [⟨[true], [0, 1, 1]⟩]) := by decide +kernel

/-- **C42, the part that holds.** For `data_bits ≥ 2`, when a run completes, every report that is still
included on a server was accepted by the FLP phase, and every aggregate the servers end with sums the
values of exactly their included reports.  Missing: `data_bits = 1`, where it is false. -/
theorem C42_partial {c0 c1 : ServerCfg} {bld : Build} {cfg : Config} {kcs : Pair2 P} {n d : Nat}
    {out : WhhOut P} {buckets0 buckets1 : Nat} (hr0 : Spec.Reachable P c0 buckets0 kcs.1)
    (hr1 : Spec.Reachable P c1 buckets1 kcs.2) (hd : cfg.dataBits = some d) (hd2 : 2 ≤ d)
    (hb : 1 ≤ cfg.queryBatch) (hn0 : kcs.1.reportShares.length = n)
    (hn1 : kcs.2.reportShares.length = n) (h : runWhh c0 c1 bld cfg kcs n = .ok out) :
    (∀ (i : Nat) (b0 b1 : Bool) (s0 s1 : ReportShare), out.kcs.1.reportShares[i]? = some (b0, s0) →
      out.kcs.2.reportShares[i]? = some (b1, s1) → (b0 = true ∨ b1 = true) → ∃ v0 v1,
        Spec.verifierOf P kcs.1.inputLen kcs.1.serverId kcs.1.verifyKey s0 = some v0 ∧
        Spec.verifierOf P kcs.2.inputLen kcs.2.serverId kcs.2.verifyKey s1 = some v1 ∧
        P.flpDecide cfg.histBuckets (Spec.addShares v0 v1) = some true) ∧
    (∀ node ∈ out.kcs.1.frontier, Spec.NodeSum P kcs.1.inputLen out.kcs.1.reportShares node) ∧
    (∀ node ∈ out.kcs.2.frontier, Spec.NodeSum P kcs.2.inputLen out.kcs.2.reportShares node) := by
  unfold runWhh at h
  obtain ⟨k, hk, h⟩ := bind_eq_ok.1 h
  obtain ⟨m, hm, h⟩ := bind_eq_ok.1 h
  unfold levelCount at hm
  rw [hd] at hm
  simp only [unwrapO, ok_bind, show d ≠ 0 by omega, if_false, Except.ok.injEq] at hm
  obtain ⟨m', rfl⟩ : ∃ m', m = m' + 1 := ⟨m - 1, by omega⟩
  obtain ⟨k2, hk2, h⟩ := bind_eq_ok.1 h
  rw [List.range_succ_eq_map, foldE_cons] at hk2
  obtain ⟨k1, hk1, hk2⟩ := bind_eq_ok.1 hk2
  unfold levelStep at hk1
  simp only [if_true] at hk1
  obtain ⟨kf, hkf, hk1⟩ := bind_eq_ok.1 hk1
  obtain ⟨i0, i1⟩ := driverTreeInit_ok hk
  obtain ⟨_, -, e0⟩ := treeInit_fresh i0
  obtain ⟨_, -, e1⟩ := treeInit_fresh i1
  have ri0 : k.1.reportShares = kcs.1.reportShares := by rw [e0]
  have ri1 : k.2.reportShares = kcs.2.reportShares := by rw [e1]
  obtain ⟨keep, hkl, rfl, hall⟩ := C40_exact hk (by rw [ri0, hn0]) (by rw [ri1, hn1]) hb hkf
  obtain ⟨g0, g1⟩ := runLevel_frame hk1
  obtain ⟨q0, q1⟩ := levels_frame hk2
  obtain ⟨⟨z0, w0⟩, z1, w1⟩ := runLevelLast_frame h
  have F0 := g0.trans q0
  have F1 := g1.trans q1
  have T0 := treeInit_frame i0
  have T1 := treeInit_frame i1
  refine ⟨?_, ?_⟩
  · intro i b0 b1 s0 s1 hs0 hs1 hor
    rw [w0] at hs0
    rw [w1] at hs1
    have m0 : (Spec.masked k.1.reportShares keep).map Prod.snd = k.1.reportShares.map Prod.snd :=
      masked_snd (by rw [ri0, hn0, hkl])
    have m1 : (Spec.masked k.2.reportShares keep).map Prod.snd = k.2.reportShares.map Prod.snd :=
      masked_snd (by rw [ri1, hn1, hkl])
    have t0 := congrArg (fun l => l[i]?) (F0.shares.trans m0)
    have t1 := congrArg (fun l => l[i]?) (F1.shares.trans m1)
    simp only [List.getElem?_map, hs0, hs1, Option.map_some] at t0 t1
    obtain ⟨⟨c0', s0'⟩, u0, rfl⟩ := Option.map_eq_some_iff.1 t0.symm
    obtain ⟨⟨c1', s1'⟩, u1, rfl⟩ := Option.map_eq_some_iff.1 t1.symm
    obtain ⟨v0, v1, dd, e0', e1', ed, hki⟩ := hall i _ _ _ _ u0 u1
    rw [T0.inputLen, T0.serverId, T0.verifyKey] at e0'
    rw [T1.inputLen, T1.serverId, T1.verifyKey] at e1'
    refine ⟨v0, v1, e0', e1', ?_⟩
    cases dd with
    | true => exact ed
    | false =>
      exfalso
      have z0' := F0.evolves.2 i s0' (by simp [Spec.masked, List.getElem?_zipWith, u0, hki])
      have z1' := F1.evolves.2 i s1' (by simp [Spec.masked, List.getElem?_zipWith, u1, hki])
      rw [hs0] at z0'
      rw [hs1] at z1'
      cases z0'; cases z1'
      simp at hor
  · have G0 := ((T0.trans (driverFlp_frame hkf).1).trans F0)
    have G1 := ((T1.trans (driverFlp_frame hkf).2).trans F1)
    have := runLevelLast_sums (G0.good (reachable_inv hr0)) (G1.good (reachable_inv hr1)) h
    rw [G0.inputLen, G1.inputLen] at this
    exact this

/-- The hypotheses of `C42_partial` are met by a two-bit toy run with one tampered report. -/
example : (do
    let rs ← mapE (fun c => toyReport 2 c.1.1 c.1.2 c.2) [([true, false], 1), ([true, false], 0)].zipIdx
    let kcs ← upload ⟨some 2, 2, 3, 3, 1, 1⟩ rs (KeyCollection.new toy 2 0 (some 2) Block.zero,
      KeyCollection.new toy 2 1 (some 2) Block.zero) [(1, none), (2, some .flp)]
    let out ← runWhh (toyCfg 0 (some 2) .debug) (toyCfg 1 (some 2) .debug) .debug
      ⟨some 2, 2, 3, 3, 1, 1⟩ kcs 2
    .ok (out.kcs.1.reportShares.map Prod.fst, out.results) : Exec _) =
    .ok ([true, false], [⟨[true, false], [0, 1, 1]⟩]) := by decide +kernel

end Mastic
