import Verif.Lemmas.DeviateAbm
import Verif.Props.AbmCollude

/-!
# C99: a server that deviates from its code, attribute-based metrics
-/

namespace Mastic

variable {P Q : Prims} {c0 c1 : ServerCfg} {bld : Build} {cfg : Config} {draw : MainDraw} {n d : Nat}

theorem runAttributes_length {num : Nat} (hd1 : 1 ≤ d) : ∀ p ∈ runAttributes d num draw, p ≠ [] ∧ p.length = d := by
  intro p hp
  unfold runAttributes at hp
  rw [(draw.setOrder_perm _).mem_iff, List.mem_dedup, List.mem_map] at hp
  obtain ⟨j, -, rfl⟩ := hp
  refine ⟨fun h => ?_, by simp [Spec.stringOf]⟩
  have := congrArg List.length h
  simp [Spec.stringOf] at this
  omega

/-- The parts of an attribute-based-metrics run: the reports, the shares, and what the servers compute from them. -/
theorem abm_parts {weight : Nat → Nat} {aes : Block → Block} (hQ : Q = { P with aes := aes }.withHistogram)
    (w : Spec.RunCoins P.withHistogram cfg.uniqueBuckets cfg.histBuckets d draw) {num : Nat}
    (hs : Spec.Sensible P.withHistogram cfg draw n) (hb64 : cfg.histBuckets < 2 ^ 64)
    (hxof : ∀ seed binder l, (P.xofField seed binder l).length = l)
    (hroot : ∀ i < n, ∀ t ∈ P.xofField draw.verifyKey (Spec.MainDraw.of draw i).rand.nonce.toList 1,
      t ^ Spec.points cfg.histBuckets 2 ≠ 1)
    (htam : ∀ i < n, (draw.picks i).2 ≠ some .flp) (hd : cfg.dataBits = some d) (hd1 : 1 ≤ d) (h0 : c0.serverId = 0)
    (h1 : c1.serverId ≠ 0) (hattr : ∀ j < num, draw.attributes j < cfg.uniqueBuckets)
    (hw : ∀ i < cfg.uniqueBuckets, weight i < cfg.histBuckets) {r : Nat → Field128 × Field128}
    (hj : ∀ i < cfg.uniqueBuckets, P.xofField
      (seedParts P (draw.reports i).rand.rootSeeds (draw.reports i).rand.nonce).1
      (seedParts P (draw.reports i).rand.rootSeeds (draw.reports i).rand.nonce).2.toList 2 = [(r i).1, (r i).2]) :
    ∃ (reports : List PlaintextReport) (sh : List (ReportShare × ReportShare))
      (V0 V1 : Nat → List (List Field128)) (q0 q1 : Nat → List Field128) (dg : Nat → Vector Byte 32),
      Spec.Sensible Q cfg (Spec.runDraw draw weight w) n ∧
      generateReports Q cfg (.attributeBasedMetrics num) (Spec.runDraw draw weight w).reports = .ok reports ∧
      mapE (pickShares reports) ((List.range n).map draw.picks) = .ok sh ∧
      mainAttributes reports (Spec.runDraw draw weight w) num = .ok (runAttributes d num draw) ∧
      sh.length = n ∧
      (∀ (own : Bool), ∀ i < n, ∀ j (hj : j < cfg.uniqueBuckets), j = (draw.picks i).1 - 1 →
        (sh.map fun s => Pair.get s own)[i]? = some (.mastic (draw.reports j).rand.nonce
          (Pair.get (VidpfKey.gen Q (draw.reports j).rand.rootSeeds (Spec.stringOf d (draw.reports j))
            (Spec.bucketVec cfg.histBuckets (weight j))) own)
          (Pair.get (shareProof (proofOf cfg.histBuckets 2 (Spec.bucketVec cfg.histBuckets (weight j))
              (List.ofFn (w ⟨j, hj⟩).2.1) (r j).1)
            (Spec.coinsRand (draw.reports j).rand.nonce (w ⟨j, hj⟩)).proofRand) own)
          (seedParts P (draw.reports j).rand.rootSeeds (draw.reports j).rand.nonce))) ∧
      (∀ own, AbmSide (Pair.get (uploaded Q c0 c1 cfg draw.verifyKey sh) own) (runAttributes d num draw) n
        (Pair.get (V0, V1) own) (Pair.get (q0, q1) own) dg) ∧
      (∀ own, ∀ i < n, ∃ s, (sh.map fun s => Pair.get s own)[i]? = some s ∧
        Spec.tableOf Q cfg.histBuckets (runAttributes d num draw) s = some (Pair.get (V0, V1) own i) ∧
        Spec.verifierOf Q cfg.histBuckets (Pair.get (c0.serverId, c1.serverId) own) draw.verifyKey s
          = some (Pair.get (q0, q1) own i) ∧
        Spec.digestOf Q cfg.histBuckets (runAttributes d num draw) s = some (dg i)) := by
  obtain ⟨hs', hprove, hcomp, hrej⟩ := run_ready (weight := weight) hQ w hs hb64 hxof hroot htam c0.serverId c1.serverId
  obtain ⟨reports, sh, hg, hrl, hra, hp, hlen, hsh, hown⟩ := run_shares (mode := .attributeBasedMetrics num) hQ w
    (by simp) hd hs' hprove htam hw hj
  have hpop := main_population (c0 := c0) (c1 := c1) hs'.buckets hcomp hrej hlen hsh
  rw [runDraw_mainClients w hs.picks htam hw] at hpop
  have ha : mainAttributes reports (Spec.runDraw draw weight w) num = .ok (runAttributes d num draw) :=
    (mainAttributes_ok (draw := Spec.runDraw draw weight w) (num := num) hs'.zipf hrl hra).1 hattr
  have hcn : (Spec.runClients d draw weight n).length = n := by simp [Spec.runClients]
  have hH := honestAbm_of_population (P := Q) (c0 := c0) (c1 := c1) (attrs := runAttributes d num draw) hd1 h0 h1
    (fun p hp => ⟨(runAttributes_length hd1 p hp).1, (runAttributes_length hd1 p hp).2.le⟩) (by
      intro c hc
      unfold Spec.runClients at hc
      obtain ⟨i, -, rfl⟩ := List.mem_map.1 hc
      simp [Spec.stringOf]) hpop
  have key : ∀ i, ∃ (x : List (List Field128) × List (List Field128) × List Field128 × List Field128 × Vector Byte 32),
      i < n →
        abmValidateClient (uploaded Q c0 c1 cfg draw.verifyKey sh).1 (runAttributes d num draw) i
          = .ok (i, x.1, x.2.2.1, x.2.2.2.2) ∧
        abmValidateClient (uploaded Q c0 c1 cfg draw.verifyKey sh).2 (runAttributes d num draw) i
          = .ok (i, x.2.1, x.2.2.2.1, x.2.2.2.2) := by
    intro i
    by_cases hi : i < n
    · obtain ⟨c, beta, v0, v1, q0, q1, dg, e1, e2, e3, e4, e5, -⟩ := hH.client (i := i) (by omega)
      exact ⟨(v0, v1, q0, q1, dg), fun _ => ⟨e3, e4⟩⟩
    · exact ⟨([], [], [], [], P.blake3 []), fun h => absurd h hi⟩
  choose X hX using key
  refine ⟨reports, sh, fun i => (X i).1, fun i => (X i).2.1, fun i => (X i).2.2.1, fun i => (X i).2.2.2.1,
    fun i => (X i).2.2.2.2, hs', hg, hp, ha, hlen, hown, fun own i hi => ?_, fun own i hi => ?_⟩
  · cases own
    · exact (hX i hi).1
    · exact (hX i hi).2
  · obtain ⟨e0, e1⟩ := hX i hi
    have hi' : i < sh.length := by omega
    refine ⟨Pair.get sh[i] own, by rw [List.getElem?_map, List.getElem?_eq_getElem hi']; rfl, ?_⟩
    cases own with
    | false => exact validate_parts (b := true) (s := sh[i].1) (by simp [uploaded, hi']) e0
    | true => exact validate_parts (b := true) (s := sh[i].2) (by simp [uploaded, hi']) e1

/-- **C99, attribute-based metrics.**  With libprio's proof system, clients that do not tamper with their proofs and any two
assignments of weights: the values that server `own` does not know correspond one to one so that, for corresponding
values, the collector sends the server the same requests in both runs whatever it answers.  A lying server learns
nothing about the weights. -/
theorem C99_abm_partial {weight weight' : Nat → Nat} {num : Nat} (own : Bool)
    (hs : Spec.Sensible P.withHistogram cfg draw n) (hb64 : cfg.histBuckets < 2 ^ 64)
    (hxof : ∀ seed binder l, (P.xofField seed binder l).length = l)
    (hroot : ∀ i < n, ∀ t ∈ P.xofField draw.verifyKey (Spec.MainDraw.of draw i).rand.nonce.toList 1,
      t ^ Spec.points cfg.histBuckets 2 ≠ 1)
    (htam : ∀ i < n, (draw.picks i).2 ≠ some .flp) (hd : cfg.dataBits = some d) (hd1 : 1 ≤ d) (h0 : c0.serverId = 0)
    (h1 : c1.serverId ≠ 0) (hattr : ∀ j < num, draw.attributes j < cfg.uniqueBuckets)
    (hw : ∀ i < cfg.uniqueBuckets, weight i < cfg.histBuckets)
    (hw' : ∀ i < cfg.uniqueBuckets, weight' i < cfg.histBuckets)
    (hf : Spec.FreshRun P.withHistogram cfg.uniqueBuckets cfg.histBuckets d draw own)
    (he : Spec.FreshEvals P.withHistogram cfg.uniqueBuckets cfg.histBuckets d draw own
      (Spec.attributePaths (runAttributes d num draw))) :
    ∃ F : Spec.RunCoins P.withHistogram cfg.uniqueBuckets cfg.histBuckets d draw
        ≃ Spec.RunCoins P.withHistogram cfg.uniqueBuckets cfg.histBuckets d draw,
      ∀ (w : Spec.RunCoins P.withHistogram cfg.uniqueBuckets cfg.histBuckets d draw) (Q Q' : Prims),
        Q = Spec.setRun P.withHistogram cfg.uniqueBuckets cfg.histBuckets d draw (!own) w →
        Q' = Spec.setRun P.withHistogram cfg.uniqueBuckets cfg.histBuckets d draw (!own) (F w) →
        ∀ (kc : KeyCollection Q) (kc' : KeyCollection Q') (lie : List Req → Resp),
          (Spec.against own (Pair.get (c0, c1) !own) lie
            (mainP Q bld cfg (.attributeBasedMetrics num) (Spec.runDraw draw weight w) n) (.running kc) []).1
          = (Spec.against own (Pair.get (c0, c1) !own) lie
            (mainP Q' bld cfg (.attributeBasedMetrics num) (Spec.runDraw draw weight' (F w)) n) (.running kc') []).1 := by
  obtain ⟨r, hj⟩ := run_points hxof draw
  obtain ⟨t, ht⟩ : ∃ t : Nat → Field128, ∀ i, P.xofField draw.verifyKey (draw.reports i).rand.nonce.toList 1 = [t i] := by
    have := fun i => List.length_eq_one_iff.1 (hxof draw.verifyKey (draw.reports i).rand.nonce.toList 1)
    choose t ht using this
    exact ⟨t, ht⟩
  obtain ⟨sizes, hsz, hsum, -⟩ := uploadBatches_spec hs.addBatch n n le_rfl
  refine ⟨⟨moveRun own weight weight' (fun i => (r i).1) t, moveRun own weight' weight (fun i => (r i).1) t,
    moveRun_back _ _ _ _ _, moveRun_back _ _ _ _ _⟩, fun w Q Q' hQ hQ' kc kc' lie => ?_⟩
  have hQ' : Q' = Spec.setRun P.withHistogram cfg.uniqueBuckets cfg.histBuckets d draw (!own)
    (moveRun own weight weight' (fun i => (r i).1) t w) := hQ'
  show _ = (Spec.against own (Pair.get (c0, c1) !own) lie (mainP Q' bld cfg (.attributeBasedMetrics num)
    (Spec.runDraw draw weight' (moveRun own weight weight' (fun i => (r i).1) t w)) n) (.running kc') []).1
  obtain ⟨w', hw1⟩ : ∃ w', w' = moveRun own weight weight' (fun i => (r i).1) t w := ⟨_, rfl⟩
  rw [← hw1] at hQ' ⊢
  obtain ⟨reports, sh, V0, V1, q0, q1, dg, a1, a2, a3, aa, a4, a6, a8, a7⟩ := abm_parts (c0 := c0) (c1 := c1)
    (weight := weight) (num := num) (Q := Q) (aes := Q.aes) (by rw [hQ]; rfl) w hs hb64 hxof hroot htam hd hd1 h0 h1
    hattr hw (fun i _ => hj i)
  obtain ⟨reports', sh', V0', V1', q0', q1', dg', b1, b2, b3, bb, b4, b6, b8, b7⟩ := abm_parts (c0 := c0) (c1 := c1)
    (weight := weight') (num := num) (Q := Q') (aes := Q'.aes) (by rw [hQ']; rfl) w' hs hb64 hxof hroot htam hd hd1
    h0 h1 hattr hw' (fun i _ => hj i)
  have hmv : (sh'.map fun s => Pair.get s own) = sh.map fun s => Pair.get s own := by
    subst hw1
    exact shares_moved hf hQ hQ' hs.picks a4 b4 (a6 own) (b6 own)
  have hal := runAttributes_length (draw := draw) (num := num) hd1
  have hfirst : ∀ b : Bool, [b] ∈ Spec.attributePaths (runAttributes d num draw) := by
    intro b; cases b <;> simp [Spec.attributePaths]
  have hev : ∀ i < n, ∀ s, (sh.map fun s => Pair.get s own)[i]? = some s → ∀ key, Spec.keyOf s = some key →
      ∀ p ∈ Spec.attributePaths (runAttributes d num draw),
        Spec.evalPath Q' key cfg.histBuckets p = Spec.evalPath Q key cfg.histBuckets p := by
    intro i hi s hsi key hk p hp
    obtain ⟨g1, g2⟩ := hs.picks i hi
    have hju : (draw.picks i).1 - 1 < cfg.uniqueBuckets := by omega
    rw [a6 own i hi _ hju rfl] at hsi
    obtain rfl := Option.some.inj hsi
    obtain rfl := Option.some.inj hk
    exact own_evalPath hf he w w' ⟨_, hju⟩ hp
      (attributePaths_length hd1 (fun p hp => (hal p hp).2.le) hp).2 hQ hQ'
  have hver := fun o => verifiers_moved hb64 hd1 hf he hfirst hQ hQ' hw1 hs.picks hw hw' hj ht h0 h1 a4 b4 a6 b6 hmv o
  have hq : ∀ i < n, Pair.get (q0', q1') (!own) i = Pair.get (q0, q1) (!own) i := by
    intro i hi
    obtain ⟨s, e1, -, e2, -⟩ := a7 (!own) i hi
    obtain ⟨s', e1', -, e2', -⟩ := b7 (!own) i hi
    have := congrArg (·[i]?) (hver (!own))
    rw [List.getElem?_map (l := sh'.map fun s => Pair.get s !own),
      List.getElem?_map (l := sh.map fun s => Pair.get s !own), e1, e1', Option.map_some, Option.map_some, e2, e2'] at this
    simpa using this
  have hdg : ∀ i < n, dg' i = dg i := by
    intro i hi
    obtain ⟨s, e1, e2, -, e3⟩ := a7 own i hi
    obtain ⟨s', e1', e2', -, e3'⟩ := b7 own i hi
    rw [hmv, e1] at e1'
    obtain rfl := Option.some.inj e1'
    rw [digestOf_congr (by rw [hQ', hQ]; rfl) (fun p hp => (hal p hp).1) (hev i hi s e1), e3] at e3'
    exact (Option.some.inj e3').symm
  have hside : AbmSide (Pair.get (uploaded Q' c0 c1 cfg draw.verifyKey sh') !own) (runAttributes d num draw) n
      (Pair.get (V0', V1') !own) (Pair.get (q0, q1) !own) dg := by
    intro i hi
    rw [b8 (!own) i hi, hq i hi, hdg i hi]
  obtain ⟨rs, hrs, ⟨hp1, -⟩, -⟩ := stepByRanges_spec (n := n) hs.queryBatch
  have hsame := same_main own (bld := bld) (c0 := c0) (c1 := c1) (kcs := (kc, kc)) (kcs' := (kc', kc')) a1 a2 a3 b1 b2 b3 hsz rfl hmv.symm (by
    unfold collectP
    refine same_ok aa bb (same_ok hrs hrs ?_)
    refine same_abmLoop own (by rw [hQ, hQ']; rfl) rs (a8 !own) hside ?_ hp1 (fun _ => ⟨_, rfl⟩) (fun _ => ⟨_, rfl⟩)
    cases own <;> rfl)
  have hkc : ∀ {R : Prims} (k : KeyCollection R), Pair.get (k, k) (!own) = k := fun k => by cases own <;> rfl
  have := hsame lie []
  rwa [hkc, hkc] at this

/-- Two clients that hold the attribute, with weights 0 and 1 or both 1: the histograms differ, and yet a lying server gets
the same requests. -/
example (own : Bool) :
    ∃ F : Spec.RunCoins squareToy.withHistogram 2 2 2 pairDraw
        ≃ Spec.RunCoins squareToy.withHistogram 2 2 2 pairDraw,
      ∀ (w : Spec.RunCoins squareToy.withHistogram 2 2 2 pairDraw) (Q Q' : Prims),
        Q = Spec.setRun squareToy.withHistogram 2 2 2 pairDraw (!own) w →
        Q' = Spec.setRun squareToy.withHistogram 2 2 2 pairDraw (!own) (F w) →
        ∀ (kc : KeyCollection Q) (kc' : KeyCollection Q') (lie : List Req → Resp),
          (Spec.against own (Pair.get (toyCfg 0 (some 2) .debug, toyCfg 1 (some 2) .debug) !own) lie
            (mainP Q .debug ⟨some 2, 2, 2, 2, 2, 2⟩ (.attributeBasedMetrics 1) (Spec.runDraw pairDraw (fun i => i) w) 2)
            (.running kc) []).1
          = (Spec.against own (Pair.get (toyCfg 0 (some 2) .debug, toyCfg 1 (some 2) .debug) !own) lie
            (mainP Q' .debug ⟨some 2, 2, 2, 2, 2, 2⟩ (.attributeBasedMetrics 1) (Spec.runDraw pairDraw (fun _ => 1) (F w)) 2)
            (.running kc') []).1 :=
  C99_abm_partial (P := squareToy) (c0 := toyCfg 0 (some 2) .debug)
    (c1 := toyCfg 1 (some 2) .debug) (bld := .debug) (cfg := ⟨some 2, 2, 2, 2, 2, 2⟩) (draw := pairDraw) (n := 2) (d := 2)
    (weight := fun i => i) (weight' := fun _ => 1) (num := 1) own pair_sensible (by norm_num)
    (fun _ _ _ => List.length_replicate) pair_points (fun _ _ h => nomatch h) rfl (by decide) rfl (by decide)
    (by decide) (by decide) (by decide) (pair_fresh own)
    (by
      have := pair_evals own
      rw [pair_asked] at this
      intro q i p hp
      rw [pair_paths] at hp
      exact this q i p (paths_sub hp))

end Mastic
