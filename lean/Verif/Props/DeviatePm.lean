import Verif.Lemmas.DeviatePm
import Verif.Props.PmCollude

/-!
# C99: a server that deviates from its code, plain metrics
-/

namespace Mastic

variable {P : Prims} {c0 c1 : ServerCfg} {bld : Build} {cfg : Config} {draw : MainDraw} {n : Nat}

/-- The parts of a plain-metrics run: the reports, the shares, and what the servers compute from them. -/
theorem pm_parts {Z : Prio3Xof} {bucket : Nat → Nat}
    (hs : Spec.Sensible (P.withPrio3 Z) cfg draw n) (hok : P.prio3Ok cfg.histBuckets = true)
    (hb64 : cfg.histBuckets < 2 ^ 64)
    (hq : ∀ i < n, Spec.queryPoint Z draw.verifyKey (Spec.MainDraw.of draw i).rand.nonce
      ^ Spec.points cfg.histBuckets (Spec.chunk cfg.histBuckets) ≠ 1)
    (h0 : c0.serverId = 0) (h1 : c1.serverId = 1)
    (htam : ∀ i < n, (draw.picks i).2 = none) (hw : ∀ i < cfg.uniqueBuckets, bucket i < cfg.histBuckets) :
    ∃ (reports : List PlaintextReport) (sh : List (ReportShare × ReportShare)) (F G : Nat → Prio3State × Prio3Share),
      generateReports (P.withPrio3 Z) cfg .plainMetrics (Spec.bucketDraw draw bucket).reports = .ok reports ∧
      mapE (pickShares reports) ((List.range n).map draw.picks) = .ok sh ∧ sh.length = n ∧
      (∀ own, PmPrep (P := P.withPrio3 Z) (Pair.get (c0, c1) own)
        (Pair.get (uploaded (P.withPrio3 Z) c0 c1 cfg draw.verifyKey sh) own) n (Pair.get (F, G) own)) ∧
      ∀ i < n, ∃ pub in0 in1 O0 O1, Z.shard cfg.histBuckets (Spec.chunk cfg.histBuckets) (bucket ((draw.picks i).1 - 1))
          (Spec.MainDraw.of draw i).rand.nonce (Spec.MainDraw.of draw i).prio3 = some (pub, in0, in1) ∧
        sh[i]? = some (.prio3 (Spec.MainDraw.of draw i).rand.nonce pub in0,
          .prio3 (Spec.MainDraw.of draw i).rand.nonce pub in1) ∧
        Z.prepare cfg.histBuckets (Spec.chunk cfg.histBuckets) 0 draw.verifyKey (Spec.MainDraw.of draw i).rand.nonce pub in0
          = some (F i) ∧
        Z.prepare cfg.histBuckets (Spec.chunk cfg.histBuckets) 1 draw.verifyKey (Spec.MainDraw.of draw i).rand.nonce pub in1
          = some (G i) ∧
        ((Z.combine (Spec.chunk cfg.histBuckets) (F i).2 (G i).2).bind fun m => prio3Next (F i).1 m) = some O0 ∧
        ((Z.combine (Spec.chunk cfg.histBuckets) (F i).2 (G i).2).bind fun m => prio3Next (G i).1 m) = some O1 ∧
        O0.length = cfg.histBuckets ∧ O1.length = cfg.histBuckets := by
  have hrep : ∀ i < cfg.uniqueBuckets, ∃ pub in0 in1,
      Z.shard cfg.histBuckets (Spec.chunk cfg.histBuckets) (bucket i) (draw.reports i).rand.nonce (draw.reports i).prio3
        = some (pub, in0, in1) ∧
      genPrio3Report (P.withPrio3 Z) cfg.histBuckets (bucket i) (draw.reports i).rand.nonce (draw.reports i).prio3
        = .ok (.prio3 (draw.reports i).rand.nonce pub (in0, in1)) ∧
      generateReport (P.withPrio3 Z) cfg .plainMetrics ((Spec.bucketDraw draw bucket).reports i)
        = .ok (.prio3 (draw.reports i).rand.nonce pub (in0, in1)) := by
    intro i hi
    obtain ⟨⟨pub, in0, in1⟩, e⟩ := Option.isSome_iff_exists.1
      ((C85_shard (P := P) (X := Z) cfg.histBuckets (bucket i) (draw.reports i).rand.nonce (draw.reports i).prio3).2
        (hw i hi))
    have hok' : (P.withPrio3 Z).prio3Ok cfg.histBuckets = true := hok
    have hg : genPrio3Report (P.withPrio3 Z) cfg.histBuckets (bucket i) (draw.reports i).rand.nonce
        (draw.reports i).prio3 = .ok (.prio3 (draw.reports i).rand.nonce pub (in0, in1)) := by
      simp [genPrio3Report, hok', e, unwrapO]
    refine ⟨pub, in0, in1, e, hg, ?_⟩
    unfold generateReport genRange
    rw [if_neg (by have := hs.buckets; omega), ok_bind]
    show genPrio3Report (P.withPrio3 Z) cfg.histBuckets (bucket i % cfg.histBuckets) (draw.reports i).rand.nonce
      (draw.reports i).prio3 = _
    rw [Nat.mod_eq_of_lt (hw i hi), hg]
  obtain ⟨reports, hg, hrl, hr⟩ := generateReports_ok (P := P.withPrio3 Z) (mode := .plainMetrics)
    (draws := (Spec.bucketDraw draw bucket).reports) hs.unique (fun i hi => by
      obtain ⟨_, _, _, -, -, h⟩ := hrep i hi
      exact ⟨_, h⟩)
  have hpick : ∀ i < n, ∃ s : ReportShare × ReportShare, pickShares reports (draw.picks i) = .ok s ∧
      Spec.HonestPrio3 (P.withPrio3 Z) cfg.histBuckets (bucket ((draw.picks i).1 - 1)) s.1 s.2 ∧
      s.1.nonce = (Spec.MainDraw.of draw i).rand.nonce ∧
      ∃ pub in0 in1, Z.shard cfg.histBuckets (Spec.chunk cfg.histBuckets) (bucket ((draw.picks i).1 - 1))
          (Spec.MainDraw.of draw i).rand.nonce (Spec.MainDraw.of draw i).prio3 = some (pub, in0, in1) ∧
        s = (.prio3 (Spec.MainDraw.of draw i).rand.nonce pub in0,
          .prio3 (Spec.MainDraw.of draw i).rand.nonce pub in1) := by
    intro i hi
    obtain ⟨g1, g2⟩ := hs.picks i hi
    have hju : (draw.picks i).1 - 1 < cfg.uniqueBuckets := by omega
    obtain ⟨r, hr1, hr2⟩ := hr ((draw.picks i).1 - 1) hju
    obtain ⟨pub, in0, in1, e1, e2, e3⟩ := hrep _ hju
    rw [e3] at hr2
    cases hr2
    refine ⟨(.prio3 (Spec.MainDraw.of draw i).rand.nonce pub in0, .prio3 (Spec.MainDraw.of draw i).rand.nonce pub in1),
      ?_, ⟨_, _, _, e2, rfl⟩, rfl, pub, in0, in1, e1, rfl⟩
    unfold pickShares
    rw [if_neg (by omega), idx_eq_ok.2 hr1, ok_bind, htam i hi]
    rfl
  have : Nonempty (ReportShare × ReportShare) := ⟨(.prio3 Block.zero [] [], .prio3 Block.zero [] [])⟩
  choose! f hf hf1 hf2 hf3 using hpick
  have hp : mapE (pickShares reports) ((List.range n).map (Spec.bucketDraw draw bucket).picks)
      = .ok ((List.range n).map f) := by
    rw [mapE_map]
    exact mapE_ok_of_forall fun i hi => hf i (List.mem_range.1 hi)
  have key : ∀ i < n, ∃ (x : (Prio3State × Prio3Share) × (Prio3State × Prio3Share)) (pub in0 in1 : List Byte)
      (O0 O1 : List Field128), Z.shard cfg.histBuckets (Spec.chunk cfg.histBuckets) (bucket ((draw.picks i).1 - 1))
          (Spec.MainDraw.of draw i).rand.nonce (Spec.MainDraw.of draw i).prio3 = some (pub, in0, in1) ∧
        ((List.range n).map f)[i]? = some (.prio3 (Spec.MainDraw.of draw i).rand.nonce pub in0,
          .prio3 (Spec.MainDraw.of draw i).rand.nonce pub in1) ∧
        Z.prepare cfg.histBuckets (Spec.chunk cfg.histBuckets) 0 draw.verifyKey (Spec.MainDraw.of draw i).rand.nonce pub in0
          = some x.1 ∧
        Z.prepare cfg.histBuckets (Spec.chunk cfg.histBuckets) 1 draw.verifyKey (Spec.MainDraw.of draw i).rand.nonce pub in1
          = some x.2 ∧
        ((Z.combine (Spec.chunk cfg.histBuckets) x.1.2 x.2.2).bind fun m => prio3Next x.1.1 m) = some O0 ∧
        ((Z.combine (Spec.chunk cfg.histBuckets) x.1.2 x.2.2).bind fun m => prio3Next x.2.1 m) = some O1 ∧
        O0.length = cfg.histBuckets ∧ O1.length = cfg.histBuckets := by
    intro i hi
    obtain ⟨pub, in0, in1, e1, e2⟩ := hf3 i hi
    obtain ⟨x0, x1, o0, o1, q0, q1, q2, q3, q4, q5, -⟩ := C85_complete (P := P) (X := Z) (vk := draw.verifyKey) hb64
      (hf1 i hi) (by rw [hf2 i hi]; exact hq i hi)
    rw [e2] at q0 q1
    exact ⟨(x0, x1), pub, in0, in1, o0, o1, e1, by rw [List.getElem?_map, List.getElem?_range hi, Option.map_some, e2],
      q0, q1, q2, q3, q4, q5⟩
  have : Nonempty ((Prio3State × Prio3Share) × (Prio3State × Prio3Share)) :=
    ⟨((⟨[], Block.zero, 0⟩, ⟨[], Block.zero⟩), (⟨[], Block.zero, 0⟩, ⟨[], Block.zero⟩))⟩
  choose! X hX using key
  refine ⟨reports, _, fun i => (X i).1, fun i => (X i).2, hg, hp, by simp, fun own i hi => ?_, hX⟩
  obtain ⟨pub, in0, in1, -, -, -, e2, e3, e4, -⟩ := hX i hi
  cases own with
  | false =>
    unfold pmValidateClient
    rw [idx_eq_ok.2 (show (Pair.get (uploaded (P.withPrio3 Z) c0 c1 cfg draw.verifyKey ((List.range n).map f))
      false).reportShares[i]? = some (true, .prio3 (Spec.MainDraw.of draw i).rand.nonce pub in0) by
        simp only [uploaded, Pair.get]; rw [List.getElem?_map, e2]; rfl), ok_bind]
    show (unwrapO (Z.prepare cfg.histBuckets (Spec.chunk cfg.histBuckets) c0.serverId.toNat draw.verifyKey _ pub in0) >>= _) = _
    rw [h0]
    rw [show (0 : Int).toNat = 0 from rfl, e3]
    rfl
  | true =>
    unfold pmValidateClient
    rw [idx_eq_ok.2 (show (Pair.get (uploaded (P.withPrio3 Z) c0 c1 cfg draw.verifyKey ((List.range n).map f))
      true).reportShares[i]? = some (true, .prio3 (Spec.MainDraw.of draw i).rand.nonce pub in1) by
        simp only [uploaded, Pair.get]; rw [List.getElem?_map, e2]; rfl), ok_bind]
    show (unwrapO (Z.prepare cfg.histBuckets (Spec.chunk cfg.histBuckets) c1.serverId.toNat draw.verifyKey _ pub in1) >>= _) = _
    rw [h1]
    rw [show (1 : Int).toNat = 1 from rfl, e4]
    rfl

theorem prep_len {Z : Prio3Xof} {N id : Nat} {vk nonce : Block} {pub inp : List Byte} {x : Prio3State × Prio3Share}
    (h : Z.prepare N (Spec.chunk N) id vk nonce pub inp = some x) : x.1.verifierLen = x.2.verifier.length :=
  (prepare_lens h).2.1.trans (prepare_lens h).2.2.symm

/-- Equal shares and successful preparations are alike. -/
theorem prepAlike_of {N : Nat} {x x' : Prio3State × Prio3Share} {msg : Option (List Byte)}
    {O O' : List Field128} (h : x.2 = x'.2) (hl : x.1.verifierLen = x.2.verifier.length)
    (hl' : x'.1.verifierLen = x'.2.verifier.length) (ho : (msg.bind fun m => prio3Next x.1 m) = some O)
    (ho' : (msg.bind fun m => prio3Next x'.1 m) = some O') (hO : O.length = N) (hO' : O'.length = N) :
    PrepAlike N x x' := by
  obtain ⟨m, rfl, hm⟩ := Option.bind_eq_some_iff.1 ho
  rw [Option.bind_some] at ho ho'
  unfold prio3Next at ho ho'
  split at ho
  · rename_i e
    split at ho'
    · rename_i e'
      cases ho
      cases ho'
      exact ⟨h, Vector.toList_inj.1 (e.trans e'.symm), by rw [hl, hl', h], hO, hO'⟩
    · cases ho'
  · cases ho

/-- **C99, plain metrics, leader.**  With libprio's Prio3 and any two assignments of buckets: the values that the leader does
not know correspond one to one so that, for corresponding values, the collector sends the leader the same requests in
both runs whatever it answers. -/
theorem C99_plain_leader_same_partial {X : Prio3Xof} {bucket bucket' : Nat → Nat}
    (hs : Spec.Sensible (P.withPrio3 X) cfg draw n) (hok : P.prio3Ok cfg.histBuckets = true)
    (hb64 : cfg.histBuckets < 2 ^ 64)
    (hq : ∀ i < n, Spec.queryPoint X draw.verifyKey (Spec.MainDraw.of draw i).rand.nonce
      ^ Spec.points cfg.histBuckets (Spec.chunk cfg.histBuckets) ≠ 1)
    (h0 : c0.serverId = 0) (h1 : c1.serverId = 1)
    (htam : ∀ i < n, (draw.picks i).2 = none) (hw : ∀ i < cfg.uniqueBuckets, bucket i < cfg.histBuckets)
    (hw' : ∀ i < cfg.uniqueBuckets, bucket' i < cfg.histBuckets) (hf : Spec.FreshSeeds cfg.uniqueBuckets draw) :
    ∃ F : (Fin cfg.uniqueBuckets → Spec.HelperCoins cfg.histBuckets (Spec.chunk cfg.histBuckets))
        ≃ (Fin cfg.uniqueBuckets → Spec.HelperCoins cfg.histBuckets (Spec.chunk cfg.histBuckets)),
      ∀ (w : Fin cfg.uniqueBuckets → Spec.HelperCoins cfg.histBuckets (Spec.chunk cfg.histBuckets)) (Q Q' : Prims),
        Q = P.withPrio3 (Spec.setHelpers X draw w) → Q' = P.withPrio3 (Spec.setHelpers X draw (F w)) →
        ∀ (kc : KeyCollection Q) (kc' : KeyCollection Q') (lie : List Req → Resp),
          (Spec.against false c1 lie (mainP Q bld cfg .plainMetrics (Spec.bucketDraw draw bucket) n) (.running kc) []).1
          = (Spec.against false c1 lie (mainP Q' bld cfg .plainMetrics (Spec.bucketDraw draw bucket') n)
            (.running kc') []).1 := by
  obtain ⟨sizes, hsz, hsum, -⟩ := uploadBatches_spec hs.addBatch n n le_rfl
  have hc : 1 ≤ Spec.chunk cfg.histBuckets := chunk_pos hs.buckets
  refine ⟨⟨moveHelpers draw.verifyKey draw bucket bucket' X, moveHelpers draw.verifyKey draw bucket' bucket X,
    moveHelpers_back _ _ _ _ _ hf, moveHelpers_back _ _ _ _ _ hf⟩, fun w Q Q' hQ hQ' kc kc' lie => ?_⟩
  have hQ' : Q' = P.withPrio3 (Spec.setHelpers X draw (moveHelpers draw.verifyKey draw bucket bucket' X w)) := hQ'
  subst hQ hQ'
  have hpt : ∀ w : Fin cfg.uniqueBuckets → Spec.HelperCoins cfg.histBuckets (Spec.chunk cfg.histBuckets),
      ∀ i < n, Spec.queryPoint (Spec.setHelpers X draw w) draw.verifyKey (Spec.MainDraw.of draw i).rand.nonce
        ^ Spec.points cfg.histBuckets (Spec.chunk cfg.histBuckets) ≠ 1 := by
    intro w i hi
    have := (foldHelpers_keeps X (fun i : Fin cfg.uniqueBuckets => (draw.reports i).rand.nonce)
      (fun i => Spec.clientSeed (draw.reports i).prio3) w (List.finRange _)).1 draw.verifyKey
      (Spec.MainDraw.of draw i).rand.nonce.toList
    have := hq i hi
    unfold Spec.queryPoint at this ⊢
    simp_all [setHelpers_fold, dstQueryRand]
  obtain ⟨reports, sh, F, G, a1, a2, a3, a4, a5⟩ := pm_parts (P := P) (c0 := c0) (c1 := c1) (cfg := cfg) (bucket := bucket)
    (Z := Spec.setHelpers X draw w)
    ⟨hs.malicious, hs.zipf, hs.hist, hs.buckets, hs.unique, hs.addBatch, hs.queryBatch, hs.picks⟩ hok hb64 (hpt w)
    h0 h1 htam hw
  obtain ⟨reports', sh', F', G', b1, b2, b3, b4, b5⟩ := pm_parts (P := P) (c0 := c0) (c1 := c1) (cfg := cfg)
    (bucket := bucket') (Z := Spec.setHelpers X draw (moveHelpers draw.verifyKey draw bucket bucket' X w))
    ⟨hs.malicious, hs.zipf, hs.hist, hs.buckets, hs.unique, hs.addBatch, hs.queryBatch, hs.picks⟩ hok hb64 (hpt _)
    h0 h1 htam hw'
  have key : ∀ i < n, (sh[i]?.map Prod.fst) = (sh'[i]?.map Prod.fst) ∧ PrepAlike cfg.histBuckets (G i) (G' i) ∧
      ∀ a b, (Spec.setHelpers X draw (moveHelpers draw.verifyKey draw bucket bucket' X w)).jointSeed a b
        = (Spec.setHelpers X draw w).jointSeed a b := by
    intro i hi
    obtain ⟨g1, g2⟩ := hs.picks i hi
    have hju : (draw.picks i).1 - 1 < cfg.uniqueBuckets := by omega
    obtain ⟨pub, in0, in1, O0, O1, e1, e2, e3, e4, e5, e6, e7, e8⟩ := a5 i hi
    obtain ⟨pub', in0', in1', O0', O1', e1', e2', e3', e4', e5', e6', e7', e8'⟩ := b5 i hi
    have hm := helpersMoved draw.verifyKey draw bucket bucket' X hf w ⟨_, hju⟩
    obtain ⟨p, i0, i1, s1, s2, s3, s4⟩ := leader_same hc (wireLog_le hc hb64) (encode_bucketVec (hw _ hju))
      (encode_bucketVec (hw' _ hju)) (rand := (Spec.MainDraw.of draw i).prio3) rfl hm
    cases e1.symm.trans s1
    cases e1'.symm.trans s2
    have hF : F i = F' i := Option.some.inj (e3.symm.trans (s3.symm.trans e3'))
    have hG : (G i).2 = (G' i).2 := by
      have : Option.map Prod.snd (some (G' i)) = Option.map Prod.snd (some (G i)) := e4' ▸ e4 ▸ s4
      exact (Option.some.inj this).symm
    refine ⟨by rw [e2, e2'], ?_, hm.seed⟩
    rw [← hF, ← hG, combine_congr hm.seed] at e6'
    exact prepAlike_of hG (prep_len e4) (prep_len e4') e6 e6' e8 e8'
  obtain ⟨rs, hrs, ⟨hp1, -⟩, -⟩ := stepByRanges_spec (n := n) hs.queryBatch
  have hmv : (sh.map fun s => Pair.get s false) = sh'.map fun s => Pair.get s false := by
    refine List.ext_getElem? fun i => ?_
    by_cases hi : i < n
    · rw [List.getElem?_map, List.getElem?_map]
      exact (key i hi).1
    · rw [List.getElem?_eq_none (by simpa [a3] using hi), List.getElem?_eq_none (by simpa [b3] using hi)]
  have hseed : ∀ a b, (Spec.setHelpers X draw (moveHelpers draw.verifyKey draw bucket bucket' X w)).jointSeed a b
      = (Spec.setHelpers X draw w).jointSeed a b :=
    (helpersMoved draw.verifyKey draw bucket bucket' X hf w ⟨0, hs.unique⟩).seed
  have hsame := same_main false (bld := bld) (c0 := c0) (c1 := c1) (kcs := (kc, kc)) (kcs' := (kc', kc'))
    (draw := Spec.bucketDraw draw bucket) (draw' := Spec.bucketDraw draw bucket')
    ⟨hs.malicious, hs.zipf, hs.hist, hs.buckets, hs.unique, hs.addBatch, hs.queryBatch, hs.picks⟩ a1 a2
    ⟨hs.malicious, hs.zipf, hs.hist, hs.buckets, hs.unique, hs.addBatch, hs.queryBatch, hs.picks⟩ b1 b2 hsz rfl hmv (by
    have hok1 : ∀ Z : Prio3Xof, (P.withPrio3 Z).prio3Ok cfg.histBuckets = true := fun _ => hok
    unfold collectP
    simp only [hok1, Bool.not_true, Bool.false_eq_true, if_false]
    refine same_ok hrs hrs ?_
    exact same_pmLoop false hseed (show 0 ≤ c1.serverId by rw [h1]; decide) hok
      (fun i hi => (key i hi).2.1) rs rfl rfl (a4 true) (b4 true) .nil hp1 (fun _ => ⟨_, rfl⟩) (fun _ => ⟨_, rfl⟩))
  exact hsame lie []

/-- **C99, plain metrics, helper.**  The same for the helper. -/
theorem C99_plain_helper_same_partial {X : Prio3Xof} {bucket bucket' : Nat → Nat}
    (hs : Spec.Sensible (P.withPrio3 X) cfg draw n) (hok : P.prio3Ok cfg.histBuckets = true)
    (hb64 : cfg.histBuckets < 2 ^ 64)
    (hq : ∀ i < n, Spec.queryPoint X draw.verifyKey (Spec.MainDraw.of draw i).rand.nonce
      ^ Spec.points cfg.histBuckets (Spec.chunk cfg.histBuckets) ≠ 1)
    (h0 : c0.serverId = 0) (h1 : c1.serverId = 1)
    (htam : ∀ i < n, (draw.picks i).2 = none) (hw : ∀ i < cfg.uniqueBuckets, bucket i < cfg.histBuckets)
    (hw' : ∀ i < cfg.uniqueBuckets, bucket' i < cfg.histBuckets) (hf : Spec.FreshSeeds cfg.uniqueBuckets draw) :
    ∃ F : (Fin cfg.uniqueBuckets → Spec.LeaderCoins (Spec.chunk cfg.histBuckets))
        ≃ (Fin cfg.uniqueBuckets → Spec.LeaderCoins (Spec.chunk cfg.histBuckets)),
      ∀ (w : Fin cfg.uniqueBuckets → Spec.LeaderCoins (Spec.chunk cfg.histBuckets)) (Q Q' : Prims),
        Q = P.withPrio3 (Spec.setLeaders X cfg.histBuckets draw bucket w) →
        Q' = P.withPrio3 (Spec.setLeaders X cfg.histBuckets draw bucket' (F w)) →
        ∀ (kc : KeyCollection Q) (kc' : KeyCollection Q') (lie : List Req → Resp),
          (Spec.against true c0 lie (mainP Q bld cfg .plainMetrics (Spec.bucketDraw draw bucket) n) (.running kc) []).1
          = (Spec.against true c0 lie (mainP Q' bld cfg .plainMetrics (Spec.bucketDraw draw bucket') n)
            (.running kc') []).1 := by
  obtain ⟨sizes, hsz, hsum, -⟩ := uploadBatches_spec hs.addBatch n n le_rfl
  have hc : 1 ≤ Spec.chunk cfg.histBuckets := chunk_pos hs.buckets
  refine ⟨⟨moveLeaders (n := cfg.histBuckets) draw.verifyKey draw bucket bucket' X,
    moveLeaders (n := cfg.histBuckets) draw.verifyKey draw bucket' bucket X,
    moveLeaders_back _ _ _ _ _ hf, moveLeaders_back _ _ _ _ _ hf⟩, fun w Q Q' hQ hQ' kc kc' lie => ?_⟩
  have hQ' : Q' = P.withPrio3 (Spec.setLeaders X cfg.histBuckets draw bucket'
    (moveLeaders (n := cfg.histBuckets) draw.verifyKey draw bucket bucket' X w)) := hQ'
  subst hQ hQ'
  have hpt : ∀ (bucket : Nat → Nat) (w : Fin cfg.uniqueBuckets → Spec.LeaderCoins (Spec.chunk cfg.histBuckets)),
      ∀ i < n, Spec.queryPoint (Spec.setLeaders X cfg.histBuckets draw bucket w) draw.verifyKey
        (Spec.MainDraw.of draw i).rand.nonce ^ Spec.points cfg.histBuckets (Spec.chunk cfg.histBuckets) ≠ 1 := by
    intro bucket w i hi
    have := (foldLeaders_keeps (n := cfg.histBuckets) X (fun i : Fin cfg.uniqueBuckets => (draw.reports i).rand.nonce)
      (fun i => Spec.clientSeed (draw.reports i).prio3) (fun i => Spec.bucketVec cfg.histBuckets (bucket i)) w
      (List.finRange _)).1 5 (by decide) draw.verifyKey (Spec.MainDraw.of draw i).rand.nonce.toList 0
    have := hq i hi
    unfold Spec.queryPoint at this ⊢
    simp_all [setLeaders_fold]
  obtain ⟨reports, sh, F, G, a1, a2, a3, a4, a5⟩ := pm_parts (P := P) (c0 := c0) (c1 := c1) (cfg := cfg) (bucket := bucket)
    (Z := Spec.setLeaders X cfg.histBuckets draw bucket w)
    ⟨hs.malicious, hs.zipf, hs.hist, hs.buckets, hs.unique, hs.addBatch, hs.queryBatch, hs.picks⟩ hok hb64 (hpt bucket w)
    h0 h1 htam hw
  obtain ⟨reports', sh', F', G', b1, b2, b3, b4, b5⟩ := pm_parts (P := P) (c0 := c0) (c1 := c1) (cfg := cfg)
    (bucket := bucket') (Z := Spec.setLeaders X cfg.histBuckets draw bucket'
      (moveLeaders (n := cfg.histBuckets) draw.verifyKey draw bucket bucket' X w))
    ⟨hs.malicious, hs.zipf, hs.hist, hs.buckets, hs.unique, hs.addBatch, hs.queryBatch, hs.picks⟩ hok hb64
    (hpt bucket' _) h0 h1 htam hw'
  have key : ∀ i < n, (sh[i]?.map Prod.snd) = (sh'[i]?.map Prod.snd) ∧ PrepAlike cfg.histBuckets (F i) (F' i) := by
    intro i hi
    obtain ⟨g1, g2⟩ := hs.picks i hi
    have hju : (draw.picks i).1 - 1 < cfg.uniqueBuckets := by omega
    obtain ⟨pub, in0, in1, O0, O1, e1, e2, e3, e4, e5, e6, e7, e8⟩ := a5 i hi
    obtain ⟨pub', in0', in1', O0', O1', e1', e2', e3', e4', e5', e6', e7', e8'⟩ := b5 i hi
    have hm := leadersMoved (n := cfg.histBuckets) draw.verifyKey draw bucket bucket' X hf w ⟨_, hju⟩
    obtain ⟨p, i0, i0', i1, s1, s2, s3, s4⟩ := helper_same hc (wireLog_le hc hb64) (encode_bucketVec (hw _ hju))
      (encode_bucketVec (hw' _ hju)) (rand := (Spec.MainDraw.of draw i).prio3) rfl hm
    cases e1.symm.trans s1
    cases e1'.symm.trans s2
    have hG : G i = G' i := Option.some.inj (e4.symm.trans (s3.symm.trans e4'))
    have hF : (F i).2 = (F' i).2 := by
      have : Option.map Prod.snd (some (F' i)) = Option.map Prod.snd (some (F i)) := e3' ▸ e3 ▸ s4
      exact (Option.some.inj this).symm
    refine ⟨by rw [e2, e2']; rfl, ?_⟩
    rw [← hF, ← hG, combine_congr hm.seed] at e5'
    exact prepAlike_of hF (prep_len e3) (prep_len e3') e5 e5' e7 e7'
  obtain ⟨rs, hrs, ⟨hp1, -⟩, -⟩ := stepByRanges_spec (n := n) hs.queryBatch
  have hmv : (sh.map fun s => Pair.get s true) = sh'.map fun s => Pair.get s true := by
    refine List.ext_getElem? fun i => ?_
    by_cases hi : i < n
    · rw [List.getElem?_map, List.getElem?_map]
      exact (key i hi).1
    · rw [List.getElem?_eq_none (by simpa [a3] using hi), List.getElem?_eq_none (by simpa [b3] using hi)]
  have hseed := (leadersMoved (n := cfg.histBuckets) draw.verifyKey draw bucket bucket' X hf w ⟨0, hs.unique⟩).seed
  have hsame := same_main true (bld := bld) (c0 := c0) (c1 := c1) (kcs := (kc, kc)) (kcs' := (kc', kc'))
    (draw := Spec.bucketDraw draw bucket) (draw' := Spec.bucketDraw draw bucket')
    ⟨hs.malicious, hs.zipf, hs.hist, hs.buckets, hs.unique, hs.addBatch, hs.queryBatch, hs.picks⟩ a1 a2
    ⟨hs.malicious, hs.zipf, hs.hist, hs.buckets, hs.unique, hs.addBatch, hs.queryBatch, hs.picks⟩ b1 b2 hsz rfl hmv (by
    have hok1 : ∀ Z : Prio3Xof, (P.withPrio3 Z).prio3Ok cfg.histBuckets = true := fun _ => hok
    unfold collectP
    simp only [hok1, Bool.not_true, Bool.false_eq_true, if_false]
    refine same_ok hrs hrs ?_
    exact same_pmLoop true hseed (show 0 ≤ c0.serverId by rw [h0]) hok
      (fun i hi => (key i hi).2) rs rfl rfl (a4 false) (b4 false) .nil hp1 (fun _ => ⟨_, rfl⟩) (fun _ => ⟨_, rfl⟩))
  exact hsame lie []

/-! ### A concrete run -/

/-- Two clients with the reports for bucket 0 and 1 or twice for bucket 0: the results differ, and yet a lying leader gets
the same requests. -/
example : ∃ F : (Fin 2 → Spec.HelperCoins 2 (Spec.chunk 2)) ≃ (Fin 2 → Spec.HelperCoins 2 (Spec.chunk 2)),
    ∀ (w : Fin 2 → Spec.HelperCoins 2 (Spec.chunk 2)) (Q Q' : Prims), Q = toy.withPrio3 (Spec.setHelpers toyXof seedsDraw w) →
      Q' = toy.withPrio3 (Spec.setHelpers toyXof seedsDraw (F w)) →
      ∀ (kc : KeyCollection Q) (kc' : KeyCollection Q') (lie : List Req → Resp),
        (Spec.against false (toyCfg 1 none .release) lie (mainP Q .debug ⟨none, 2, 2, 2, 2, 2⟩ .plainMetrics
          (Spec.bucketDraw seedsDraw id) 2) (.running kc) []).1
        = (Spec.against false (toyCfg 1 none .release) lie (mainP Q' .debug ⟨none, 2, 2, 2, 2, 2⟩ .plainMetrics
          (Spec.bucketDraw seedsDraw fun _ => 0) 2) (.running kc') []).1 := by
  have h := C99_plain_leader_same_partial (P := toy) (X := toyXof) (c0 := toyCfg 0 none .debug) (c1 := toyCfg 1 none .release)
    (bld := .debug) (cfg := ⟨none, 2, 2, 2, 2, 2⟩) (draw := seedsDraw) (n := 2) (bucket := id)
    (bucket' := fun _ => 0)
    ⟨rfl, rfl, rfl, by decide, by decide, by decide, by decide, fun i _ =>
      ⟨Nat.le_add_left _ _, Nat.succ_le_of_lt (Nat.mod_lt i (by decide))⟩⟩ rfl (by norm_num)
    (fun i _ => show (3 : Field128) ^ Spec.points 2 (Spec.chunk 2) ≠ 1 by decide +kernel) rfl rfl
    (fun _ _ => rfl) (fun i hi => hi) (fun i hi => (by decide : 0 < 2)) seeds_fresh
  exact h

/-- The same for the helper. -/
example : ∃ F : (Fin 2 → Spec.LeaderCoins (Spec.chunk 2)) ≃ (Fin 2 → Spec.LeaderCoins (Spec.chunk 2)),
    ∀ (w : Fin 2 → Spec.LeaderCoins (Spec.chunk 2)) (Q Q' : Prims),
      Q = toy.withPrio3 (Spec.setLeaders toyXof 2 seedsDraw id w) →
      Q' = toy.withPrio3 (Spec.setLeaders toyXof 2 seedsDraw (fun _ => 0) (F w)) →
      ∀ (kc : KeyCollection Q) (kc' : KeyCollection Q') (lie : List Req → Resp),
        (Spec.against true (toyCfg 0 none .debug) lie (mainP Q .debug ⟨none, 2, 2, 2, 2, 2⟩ .plainMetrics
          (Spec.bucketDraw seedsDraw id) 2) (.running kc) []).1
        = (Spec.against true (toyCfg 0 none .debug) lie (mainP Q' .debug ⟨none, 2, 2, 2, 2, 2⟩ .plainMetrics
          (Spec.bucketDraw seedsDraw fun _ => 0) 2) (.running kc') []).1 := by
  have h := C99_plain_helper_same_partial (P := toy) (X := toyXof) (c0 := toyCfg 0 none .debug) (c1 := toyCfg 1 none .release)
    (bld := .debug) (cfg := ⟨none, 2, 2, 2, 2, 2⟩) (draw := seedsDraw) (n := 2) (bucket := id)
    (bucket' := fun _ => 0)
    ⟨rfl, rfl, rfl, by decide, by decide, by decide, by decide, fun i _ =>
      ⟨Nat.le_add_left _ _, Nat.succ_le_of_lt (Nat.mod_lt i (by decide))⟩⟩ rfl (by norm_num)
    (fun i _ => show (3 : Field128) ^ Spec.points 2 (Spec.chunk 2) ≠ 1 by decide +kernel) rfl rfl
    (fun _ _ => rfl) (fun i hi => hi) (fun i hi => (by decide : 0 < 2)) seeds_fresh
  exact h

end Mastic
