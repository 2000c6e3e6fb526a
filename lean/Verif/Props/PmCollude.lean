import Verif.Lemmas.PmReplies

/-!
# C96: one server and the collector together in plain metrics
-/

namespace Mastic

variable {P : Prims} {c0 c1 : ServerCfg} {bld : Build} {cfg : Config} {draw : MainDraw} {n : Nat}

theorem rangeFrom_map {B : Nat → Nat} {s e : Nat} (he : e ≤ n) :
    (rangeFrom s e).map B = (((List.range n).map B).drop s).take (e - s) := by
  refine List.ext_getElem (by simp [rangeFrom]; omega) fun j g1 g2 => ?_
  simp [rangeFrom]

/-- The two servers' sums of a batch add up to the counts. -/
theorem outSum_add {N : Nat} {B : Nat → Nat} {O0 O1 : Nat → List Field128}
    (h : ∀ i < n, (O0 i).length = N ∧ (O1 i).length = N ∧ encodeMeasurement N (B i) = some (Spec.addShares (O0 i) (O1 i)))
    {r : Nat × Nat} (hr : r.2 ≤ n) :
    Spec.addShares (outSum N O0 r) (outSum N O1 r)
      = (Spec.bucketCounts N ((((List.range n).map B).drop r.1).take (r.2 - r.1))).map Nat.cast := by
  refine List.ext_getElem (by simp [Spec.addShares, outSum, Spec.bucketCounts]) fun k g1 g2 => ?_
  have hk : k < N := by simpa [Spec.bucketCounts] using g2
  have := entrySum_add hk (O0 := O0) (O1 := O1) (B := B) (rangeFrom r.1 r.2) (fun i hi => by
    obtain ⟨-, b⟩ := rangeFrom_mem.1 hi
    exact h i (by omega))
  rw [rangeFrom_map hr] at this
  simpa [Spec.addShares, outSum, Spec.bucketCounts] using this

theorem addShares_cancel_left {a b b' : List Field128} (hb : b.length = a.length) (hb' : b'.length = a.length)
    (h : Spec.addShares a b = Spec.addShares a b') : b = b' := by
  refine List.ext_getElem (hb.trans hb'.symm) fun k g1 g2 => ?_
  have ha : k < a.length := by omega
  have := congrArg (fun l => l[k]?) h
  simpa [Spec.addShares, List.getElem?_zipWith, ha, g1, g2] using this

theorem addShares_cancel_right {a a' b : List Field128} (ha : a.length = b.length) (ha' : a'.length = b.length)
    (h : Spec.addShares a b = Spec.addShares a' b) : a = a' := by
  refine List.ext_getElem (ha.trans ha'.symm) fun k g1 g2 => ?_
  have hb : k < b.length := by omega
  have := congrArg (fun l => l[k]?) h
  simpa [Spec.addShares, List.getElem?_zipWith, hb, g1, g2] using this

theorem outSum_length {N : Nat} {O : Nat → List Field128} {r : Nat × Nat} : (outSum N O r).length = N := by simp [outSum]

theorem encoded_congr {Z Z' : Prio3Xof} {F F' : Nat → Prio3State × Prio3Share}
    (h : ∀ i < n, (F i).2 = (F' i).2) {r : Nat × Nat} (hr : r.2 ≤ n) :
    encoded (P.withPrio3 Z) F r = encoded (P.withPrio3 Z') F' r := by
  refine List.map_congr_left fun i hi => ?_
  obtain ⟨-, b⟩ := rangeFrom_mem.1 hi
  exact congrArg prio3EncodeShare (h i (by omega))

theorem outSum_congr {N : Nat} {O O' : Nat → List Field128} (h : ∀ i < n, O i = O' i) {r : Nat × Nat} (hr : r.2 ≤ n) :
    outSum N O r = outSum N O' r := by
  have : (rangeFrom r.1 r.2).map O = (rangeFrom r.1 r.2).map O' := List.map_congr_left fun i hi => by
    obtain ⟨-, b⟩ := rangeFrom_mem.1 hi
    exact h i (by omega)
  unfold outSum
  rw [this]

theorem pmReplies_congr {Z Z' : Prio3Xof} {F F' : Nat → Prio3State × Prio3Share} {O O' : Nat → List Field128}
    {sizes : List Nat} (hq : 1 ≤ cfg.queryBatch) (hF : ∀ i < n, (F i).2 = (F' i).2)
    (hO : ∀ r ∈ Spec.batches n cfg.queryBatch, outSum cfg.histBuckets O r = outSum cfg.histBuckets O' r) :
    pmReplies (P.withPrio3 Z) cfg n sizes F O = pmReplies (P.withPrio3 Z') cfg n sizes F' O' := by
  unfold pmReplies
  congr 2
  refine List.flatMap_congr fun r hr => ?_
  rw [encoded_congr (Z' := Z') hF (mem_batches hq hr).2, hO r hr]

theorem pmReceived_eq {Z Z' : Prio3Xof} {F F' : Nat → Prio3State × Prio3Share} {sizes : List Nat}
    {shares : List ReportShare} (hq : 1 ≤ cfg.queryBatch) (hF : ∀ i < n, (F i).2 = (F' i).2) :
    pmReceived cfg draw n sizes shares (encoded (P.withPrio3 Z) F)
      = pmReceived cfg draw n sizes shares (encoded (P.withPrio3 Z') F') := by
  unfold pmReceived
  congr 1
  refine List.flatMap_congr fun r hr => ?_
  rw [encoded_congr (Z' := Z') hF (mem_batches hq hr).2]

theorem pmReceived_rest {Z Z' : Prio3Xof} {F F' : Nat → Prio3State × Prio3Share} {sizes : List Nat}
    {shares shares' : List ReportShare} (hq : 1 ≤ cfg.queryBatch) (hF : ∀ i < n, (F i).2 = (F' i).2) :
    (pmReceived cfg draw n sizes shares (encoded (P.withPrio3 Z) F)).filter Spec.notUpload
      = (pmReceived cfg draw n sizes shares' (encoded (P.withPrio3 Z') F')).filter Spec.notUpload := by
  rw [pmReceived_eq (Z' := Z') hq hF]
  unfold pmReceived runReceived
  have h : ∀ l : List (List ReportShare), (l.map Req.addReportShares).filter Spec.notUpload = [] := by
    intro l
    rw [List.filter_eq_nil_iff]
    intro a ha
    obtain ⟨x, -, rfl⟩ := List.mem_map.1 ha
    simp [Spec.notUpload]
  simp only [List.filter_cons, List.filter_append, h, List.nil_append]

/-- Equal counts are equal results. -/
theorem pmShown_inj {bucket bucket' : Nat → Nat} {N b : Nat}
    (h : Spec.pmShown N b n draw bucket = Spec.pmShown N b n draw bucket') : ∀ r ∈ Spec.batches n b,
    Spec.bucketCounts N ((((List.range n).map fun i => bucket ((draw.picks i).1 - 1)).drop r.1).take (r.2 - r.1))
      = Spec.bucketCounts N ((((List.range n).map fun i => bucket' ((draw.picks i).1 - 1)).drop r.1).take (r.2 - r.1)) := by
  unfold Spec.pmShown at h
  injection h with h
  intro r hr
  have := List.map_eq_map_iff.1 h r hr
  injection this

/-- **C96.**  A whole plain-metrics run with libprio's Prio3 for any two assignments of buckets that give the same
printed result: the values that the leader does not know correspond one to one so that for corresponding values both runs
complete, the leader gets the same requests, shares included, and the collector sends the helper the same requests
after the upload and gets the same answers from both servers. -/
theorem C96_leader {X : Prio3Xof} {bucket bucket' : Nat → Nat}
    (hs : Spec.Sensible (P.withPrio3 X) cfg draw n) (hok : P.prio3Ok cfg.histBuckets = true)
    (hb64 : cfg.histBuckets < 2 ^ 64)
    (hq : ∀ i < n, Spec.queryPoint X draw.verifyKey (Spec.MainDraw.of draw i).rand.nonce
      ^ Spec.points cfg.histBuckets (Spec.chunk cfg.histBuckets) ≠ 1)
    (h0 : c0.serverId = 0) (h1 : c1.serverId = 1) (hsmall : n < fieldModulus)
    (htam : ∀ i < n, (draw.picks i).2 = none) (hw : ∀ i < cfg.uniqueBuckets, bucket i < cfg.histBuckets)
    (hw' : ∀ i < cfg.uniqueBuckets, bucket' i < cfg.histBuckets) (hf : Spec.FreshSeeds cfg.uniqueBuckets draw)
    (hsame : Spec.pmShown cfg.histBuckets cfg.queryBatch n draw bucket
      = Spec.pmShown cfg.histBuckets cfg.queryBatch n draw bucket') :
    ∃ F : (Fin cfg.uniqueBuckets → Spec.HelperCoins cfg.histBuckets (Spec.chunk cfg.histBuckets))
        ≃ (Fin cfg.uniqueBuckets → Spec.HelperCoins cfg.histBuckets (Spec.chunk cfg.histBuckets)),
      ∀ (w : Fin cfg.uniqueBuckets → Spec.HelperCoins cfg.histBuckets (Spec.chunk cfg.histBuckets)) (Q Q' : Prims),
        Q = P.withPrio3 (Spec.setHelpers X draw w) → Q' = P.withPrio3 (Spec.setHelpers X draw (F w)) →
        ∀ (kcs : Pair2 Q) (kcs' : Pair2 Q'),
        ∃ (sent sent' : List (Req × Req)) (got : List (Resp × Resp)) (t0 t1 : Server Q) (t0' t1' : Server Q'),
          Spec.Hears c0 c1 (mainP Q bld cfg .plainMetrics (Spec.bucketDraw draw bucket) n) (.running kcs.1)
            (.running kcs.2) sent got (Spec.pmShown cfg.histBuckets cfg.queryBatch n draw bucket) t0 t1 ∧
          Spec.Hears c0 c1 (mainP Q' bld cfg .plainMetrics (Spec.bucketDraw draw bucket') n) (.running kcs'.1)
            (.running kcs'.2) sent' got (Spec.pmShown cfg.histBuckets cfg.queryBatch n draw bucket') t0' t1' ∧
          Spec.received false sent = Spec.received false sent' ∧
          (Spec.received true sent).filter Spec.notUpload = (Spec.received true sent').filter Spec.notUpload := by
  obtain ⟨sizes, hsz, hsum, -⟩ := uploadBatches_spec hs.addBatch n n le_rfl
  have hc : 1 ≤ Spec.chunk cfg.histBuckets := chunk_pos hs.buckets
  refine ⟨⟨moveHelpers draw.verifyKey draw bucket bucket' X, moveHelpers draw.verifyKey draw bucket' bucket X,
    moveHelpers_back _ _ _ _ _ hf, moveHelpers_back _ _ _ _ _ hf⟩, fun w Q Q' hQ hQ' kcs kcs' => ?_⟩
  have hQ' : Q' = P.withPrio3 (Spec.setHelpers X draw (moveHelpers draw.verifyKey draw bucket bucket' X w)) := hQ'
  subst hQ hQ'
  have hpt : ∀ w : Fin cfg.uniqueBuckets → Spec.HelperCoins cfg.histBuckets (Spec.chunk cfg.histBuckets),
      ∀ i < n, Spec.queryPoint (Spec.setHelpers X draw w) draw.verifyKey (Spec.MainDraw.of draw i).rand.nonce
        ^ Spec.points cfg.histBuckets (Spec.chunk cfg.histBuckets) ≠ 1 := by
    intro w i hi
    have := (foldHelpers_keeps X (fun i : Fin cfg.uniqueBuckets => (draw.reports i).rand.nonce)
      (fun i => Spec.clientSeed (draw.reports i).prio3) w (List.finRange _)).1 draw.verifyKey
      (Spec.MainDraw.of draw i).rand.nonce.toList
    have := hq i hi
    unfold Spec.queryPoint at this ⊢
    simp_all [setHelpers_fold, dstQueryRand]
  obtain ⟨sh, sent, t0, t1, F, G, O0, O1, a1, a2, a2', a3, a4⟩ := pm_hears (c0 := c0) (c1 := c1) (bld := bld)
    (bucket := bucket) kcs
    ⟨hs.malicious, hs.zipf, hs.hist, hs.buckets, hs.unique, hs.addBatch, hs.queryBatch, hs.picks⟩ hok hb64 (hpt w)
    h0 h1 hsmall htam hw hsz hsum
  obtain ⟨sh', sent', t0', t1', F', G', O0', O1', b1, b2, b2', b3, b4⟩ := pm_hears (c0 := c0) (c1 := c1) (bld := bld)
    (bucket := bucket')
    kcs' ⟨hs.malicious, hs.zipf, hs.hist, hs.buckets, hs.unique, hs.addBatch, hs.queryBatch, hs.picks⟩ hok hb64
    (hpt _) h0 h1 hsmall htam hw' hsz hsum
  have key : ∀ i < n, (sh[i]?.map Prod.fst) = (sh'[i]?.map Prod.fst) ∧ F i = F' i ∧ (G i).2 = (G' i).2 ∧
      O0 i = O0' i := by
    intro i hi
    obtain ⟨g1, g2⟩ := hs.picks i hi
    have hju : (draw.picks i).1 - 1 < cfg.uniqueBuckets := by omega
    obtain ⟨pub, in0, in1, e1, e2, e3, e4, e5, e6, -⟩ := a4 i hi
    obtain ⟨pub', in0', in1', e1', e2', e3', e4', e5', e6', -⟩ := b4 i hi
    have hm := helpersMoved draw.verifyKey draw bucket bucket' X hf w ⟨_, hju⟩
    obtain ⟨p, i0, i1, s1, s2, s3, s4⟩ := leader_same hc (wireLog_le hc hb64) (encode_bucketVec (hw _ hju))
      (encode_bucketVec (hw' _ hju)) (rand := (Spec.MainDraw.of draw i).prio3) rfl hm
    cases e1.symm.trans s1
    cases e1'.symm.trans s2
    have hF : F i = F' i := Option.some.inj (e3.symm.trans (s3.symm.trans e3'))
    have hG : (G i).2 = (G' i).2 := by
      have : Option.map Prod.snd (some (G' i)) = Option.map Prod.snd (some (G i)) := e4' ▸ e4 ▸ s4
      exact (Option.some.inj this).symm
    refine ⟨by rw [e2, e2'], hF, hG, ?_⟩
    rw [← hF, ← hG, combine_congr hm.seed] at e5'
    exact Option.some.inj (e5.symm.trans e5')
  have hF : ∀ i < n, (F i).2 = (F' i).2 := fun i hi => congrArg Prod.snd (key i hi).2.1
  have hsum0 : ∀ r ∈ Spec.batches n cfg.queryBatch,
      outSum cfg.histBuckets O0 r = outSum cfg.histBuckets O0' r := fun r hr =>
    outSum_congr (fun i hi => (key i hi).2.2.2) (mem_batches hs.queryBatch hr).2
  have hsum1 : ∀ r ∈ Spec.batches n cfg.queryBatch,
      outSum cfg.histBuckets O1 r = outSum cfg.histBuckets O1' r := fun r hr => by
    have x := outSum_add (n := n) (N := cfg.histBuckets) (B := fun i => bucket ((draw.picks i).1 - 1)) (O0 := O0)
      (O1 := O1) (fun i hi => by obtain ⟨_, _, _, -, -, -, -, -, -, e7, e8, e9⟩ := a4 i hi; exact ⟨e7, e8, e9⟩)
      (mem_batches hs.queryBatch hr).2
    have x' := outSum_add (n := n) (N := cfg.histBuckets) (B := fun i => bucket' ((draw.picks i).1 - 1)) (O0 := O0')
      (O1 := O1') (fun i hi => by obtain ⟨_, _, _, -, -, -, -, -, -, e7, e8, e9⟩ := b4 i hi; exact ⟨e7, e8, e9⟩)
      (mem_batches hs.queryBatch hr).2
    rw [pmShown_inj hsame r hr, ← x', ← hsum0 r hr] at x
    exact addShares_cancel_left (by rw [outSum_length, outSum_length]) (by rw [outSum_length, outSum_length]) x
  have hgot0 := pmReplies_congr (P := P) (Z := Spec.setHelpers X draw w) (Z' := Spec.setHelpers X draw
    (moveHelpers draw.verifyKey draw bucket bucket' X w)) (sizes := sizes) hs.queryBatch hF hsum0
  have hgot1 := pmReplies_congr (P := P) (Z := Spec.setHelpers X draw w) (Z' := Spec.setHelpers X draw
    (moveHelpers draw.verifyKey draw bucket bucket' X w)) (sizes := sizes) hs.queryBatch
    (fun i hi => (key i hi).2.2.1) hsum1
  refine ⟨sent, sent', _, t0, t1, t0', t1', a1, ?_, ?_, ?_⟩
  · rw [hgot0, hgot1]
    exact b1
  · rw [a2, b2, pmReceived_eq (Z' := Spec.setHelpers X draw (moveHelpers draw.verifyKey draw bucket bucket' X w))
      hs.queryBatch fun i hi => (key i hi).2.2.1]
    congr 1
    refine List.ext_getElem? fun i => ?_
    by_cases hi : i < n
    · rw [List.getElem?_map, List.getElem?_map]
      exact (key i hi).1
    · rw [List.getElem?_eq_none (by simpa [a3] using hi), List.getElem?_eq_none (by simpa [b3] using hi)]
  · rw [a2', b2']
    exact pmReceived_rest hs.queryBatch hF

/-- **C96.**  The same for the helper. -/
theorem C96_helper {X : Prio3Xof} {bucket bucket' : Nat → Nat}
    (hs : Spec.Sensible (P.withPrio3 X) cfg draw n) (hok : P.prio3Ok cfg.histBuckets = true)
    (hb64 : cfg.histBuckets < 2 ^ 64)
    (hq : ∀ i < n, Spec.queryPoint X draw.verifyKey (Spec.MainDraw.of draw i).rand.nonce
      ^ Spec.points cfg.histBuckets (Spec.chunk cfg.histBuckets) ≠ 1)
    (h0 : c0.serverId = 0) (h1 : c1.serverId = 1) (hsmall : n < fieldModulus)
    (htam : ∀ i < n, (draw.picks i).2 = none) (hw : ∀ i < cfg.uniqueBuckets, bucket i < cfg.histBuckets)
    (hw' : ∀ i < cfg.uniqueBuckets, bucket' i < cfg.histBuckets) (hf : Spec.FreshSeeds cfg.uniqueBuckets draw)
    (hsame : Spec.pmShown cfg.histBuckets cfg.queryBatch n draw bucket
      = Spec.pmShown cfg.histBuckets cfg.queryBatch n draw bucket') :
    ∃ F : (Fin cfg.uniqueBuckets → Spec.LeaderCoins (Spec.chunk cfg.histBuckets))
        ≃ (Fin cfg.uniqueBuckets → Spec.LeaderCoins (Spec.chunk cfg.histBuckets)),
      ∀ (w : Fin cfg.uniqueBuckets → Spec.LeaderCoins (Spec.chunk cfg.histBuckets)) (Q Q' : Prims),
        Q = P.withPrio3 (Spec.setLeaders X cfg.histBuckets draw bucket w) →
        Q' = P.withPrio3 (Spec.setLeaders X cfg.histBuckets draw bucket' (F w)) →
        ∀ (kcs : Pair2 Q) (kcs' : Pair2 Q'),
        ∃ (sent sent' : List (Req × Req)) (got : List (Resp × Resp)) (t0 t1 : Server Q) (t0' t1' : Server Q'),
          Spec.Hears c0 c1 (mainP Q bld cfg .plainMetrics (Spec.bucketDraw draw bucket) n) (.running kcs.1)
            (.running kcs.2) sent got (Spec.pmShown cfg.histBuckets cfg.queryBatch n draw bucket) t0 t1 ∧
          Spec.Hears c0 c1 (mainP Q' bld cfg .plainMetrics (Spec.bucketDraw draw bucket') n) (.running kcs'.1)
            (.running kcs'.2) sent' got (Spec.pmShown cfg.histBuckets cfg.queryBatch n draw bucket') t0' t1' ∧
          Spec.received true sent = Spec.received true sent' ∧
          (Spec.received false sent).filter Spec.notUpload = (Spec.received false sent').filter Spec.notUpload := by
  obtain ⟨sizes, hsz, hsum, -⟩ := uploadBatches_spec hs.addBatch n n le_rfl
  have hc : 1 ≤ Spec.chunk cfg.histBuckets := chunk_pos hs.buckets
  refine ⟨⟨moveLeaders (n := cfg.histBuckets) draw.verifyKey draw bucket bucket' X,
    moveLeaders (n := cfg.histBuckets) draw.verifyKey draw bucket' bucket X,
    moveLeaders_back _ _ _ _ _ hf, moveLeaders_back _ _ _ _ _ hf⟩, fun w Q Q' hQ hQ' kcs kcs' => ?_⟩
  have hQ' : Q' = P.withPrio3 (Spec.setLeaders X cfg.histBuckets draw bucket'
    (moveLeaders (n := cfg.histBuckets) draw.verifyKey draw bucket bucket' X w)) := hQ'
  subst hQ hQ'
  have hpt : ∀ (bucket : Nat → Nat) (w : Fin cfg.uniqueBuckets → Spec.LeaderCoins (Spec.chunk cfg.histBuckets)),
      ∀ i < n, Spec.queryPoint (Spec.setLeaders X cfg.histBuckets draw bucket w) draw.verifyKey
        (Spec.MainDraw.of draw i).rand.nonce ^ Spec.points cfg.histBuckets (Spec.chunk cfg.histBuckets) ≠ 1 := by
    intro bucket w i hi
    have := (foldLeaders_keeps (n := cfg.histBuckets) X (fun i : Fin cfg.uniqueBuckets => (draw.reports i).rand.nonce)
      (fun i => Spec.clientSeed (draw.reports i).prio3) (fun i => Spec.bucketVec cfg.histBuckets (bucket i)) w
      (List.finRange _)).1 5 (by decide) draw.verifyKey (Spec.MainDraw.of draw i).rand.nonce.toList 0
    have := hq i hi
    unfold Spec.queryPoint at this ⊢
    simp_all [setLeaders_fold]
  obtain ⟨sh, sent, t0, t1, F, G, O0, O1, a1, a2, a2', a3, a4⟩ := pm_hears (c0 := c0) (c1 := c1) (bld := bld)
    (bucket := bucket) kcs
    ⟨hs.malicious, hs.zipf, hs.hist, hs.buckets, hs.unique, hs.addBatch, hs.queryBatch, hs.picks⟩ hok hb64 (hpt bucket w)
    h0 h1 hsmall htam hw hsz hsum
  obtain ⟨sh', sent', t0', t1', F', G', O0', O1', b1, b2, b2', b3, b4⟩ := pm_hears (c0 := c0) (c1 := c1) (bld := bld)
    (bucket := bucket')
    kcs' ⟨hs.malicious, hs.zipf, hs.hist, hs.buckets, hs.unique, hs.addBatch, hs.queryBatch, hs.picks⟩ hok hb64
    (hpt bucket' _) h0 h1 hsmall htam hw' hsz hsum
  have key : ∀ i < n, (sh[i]?.map Prod.snd) = (sh'[i]?.map Prod.snd) ∧ (F i).2 = (F' i).2 ∧ G i = G' i ∧
      O1 i = O1' i := by
    intro i hi
    obtain ⟨g1, g2⟩ := hs.picks i hi
    have hju : (draw.picks i).1 - 1 < cfg.uniqueBuckets := by omega
    obtain ⟨pub, in0, in1, e1, e2, e3, e4, e5, e6, -⟩ := a4 i hi
    obtain ⟨pub', in0', in1', e1', e2', e3', e4', e5', e6', -⟩ := b4 i hi
    have hm := leadersMoved (n := cfg.histBuckets) draw.verifyKey draw bucket bucket' X hf w ⟨_, hju⟩
    obtain ⟨p, i0, i0', i1, s1, s2, s3, s4⟩ := helper_same hc (wireLog_le hc hb64) (encode_bucketVec (hw _ hju))
      (encode_bucketVec (hw' _ hju)) (rand := (Spec.MainDraw.of draw i).prio3) rfl hm
    cases e1.symm.trans s1
    cases e1'.symm.trans s2
    have hG : G i = G' i := Option.some.inj (e4.symm.trans (s3.symm.trans e4'))
    have hF : (F i).2 = (F' i).2 := by
      have : Option.map Prod.snd (some (F' i)) = Option.map Prod.snd (some (F i)) := e3' ▸ e3 ▸ s4
      exact (Option.some.inj this).symm
    refine ⟨by rw [e2, e2']; rfl, hF, hG, ?_⟩
    rw [← hF, ← hG, combine_congr hm.seed] at e6'
    exact Option.some.inj (e6.symm.trans e6')
  have hG : ∀ i < n, (G i).2 = (G' i).2 := fun i hi => congrArg Prod.snd (key i hi).2.2.1
  have hsum1 : ∀ r ∈ Spec.batches n cfg.queryBatch,
      outSum cfg.histBuckets O1 r = outSum cfg.histBuckets O1' r := fun r hr =>
    outSum_congr (fun i hi => (key i hi).2.2.2) (mem_batches hs.queryBatch hr).2
  have hsum0 : ∀ r ∈ Spec.batches n cfg.queryBatch,
      outSum cfg.histBuckets O0 r = outSum cfg.histBuckets O0' r := fun r hr => by
    have x := outSum_add (n := n) (N := cfg.histBuckets) (B := fun i => bucket ((draw.picks i).1 - 1)) (O0 := O0)
      (O1 := O1) (fun i hi => by obtain ⟨_, _, _, -, -, -, -, -, -, e7, e8, e9⟩ := a4 i hi; exact ⟨e7, e8, e9⟩)
      (mem_batches hs.queryBatch hr).2
    have x' := outSum_add (n := n) (N := cfg.histBuckets) (B := fun i => bucket' ((draw.picks i).1 - 1)) (O0 := O0')
      (O1 := O1') (fun i hi => by obtain ⟨_, _, _, -, -, -, -, -, -, e7, e8, e9⟩ := b4 i hi; exact ⟨e7, e8, e9⟩)
      (mem_batches hs.queryBatch hr).2
    rw [pmShown_inj hsame r hr, ← x', ← hsum1 r hr] at x
    exact addShares_cancel_right (by rw [outSum_length, outSum_length]) (by rw [outSum_length, outSum_length]) x
  have hgot0 := pmReplies_congr (P := P) (Z := Spec.setLeaders X cfg.histBuckets draw bucket w) (Z' := Spec.setLeaders X
    cfg.histBuckets draw bucket' (moveLeaders (n := cfg.histBuckets) draw.verifyKey draw bucket bucket' X w))
    (sizes := sizes) hs.queryBatch (fun i hi => (key i hi).2.1) hsum0
  have hgot1 := pmReplies_congr (P := P) (Z := Spec.setLeaders X cfg.histBuckets draw bucket w) (Z' := Spec.setLeaders X
    cfg.histBuckets draw bucket' (moveLeaders (n := cfg.histBuckets) draw.verifyKey draw bucket bucket' X w))
    (sizes := sizes) hs.queryBatch hG hsum1
  refine ⟨sent, sent', _, t0, t1, t0', t1', a1, ?_, ?_, ?_⟩
  · rw [hgot0, hgot1]
    exact b1
  · rw [a2', b2', pmReceived_eq (Z' := Spec.setLeaders X cfg.histBuckets draw bucket'
      (moveLeaders (n := cfg.histBuckets) draw.verifyKey draw bucket bucket' X w)) hs.queryBatch
      fun i hi => (key i hi).2.1]
    congr 1
    refine List.ext_getElem? fun i => ?_
    by_cases hi : i < n
    · rw [List.getElem?_map, List.getElem?_map]
      exact (key i hi).1
    · rw [List.getElem?_eq_none (by simpa [a3] using hi), List.getElem?_eq_none (by simpa [b3] using hi)]
  · rw [a2, b2]
    exact pmReceived_rest hs.queryBatch hG

/-! ### A concrete run -/

/-- Two clients with the reports for bucket 0 and 1 or for 1 and 0: the leader and the collector cannot tell. -/
example : ∃ F : (Fin 2 → Spec.HelperCoins 2 (Spec.chunk 2)) ≃ (Fin 2 → Spec.HelperCoins 2 (Spec.chunk 2)),
    ∀ (w : Fin 2 → Spec.HelperCoins 2 (Spec.chunk 2)) (Q Q' : Prims), Q = toy.withPrio3 (Spec.setHelpers toyXof seedsDraw w) →
      Q' = toy.withPrio3 (Spec.setHelpers toyXof seedsDraw (F w)) →
      ∀ (kcs : Pair2 Q) (kcs' : Pair2 Q'),
      ∃ (sent sent' : List (Req × Req)) (got : List (Resp × Resp)) (t0 t1 : Server Q) (t0' t1' : Server Q'),
        Spec.Hears (toyCfg 0 none .debug) (toyCfg 1 none .release) (mainP Q .debug ⟨none, 2, 2, 2, 2, 2⟩ .plainMetrics
          (Spec.bucketDraw seedsDraw id) 2) (.running kcs.1) (.running kcs.2) sent got (.pm [⟨0, [1, 1]⟩]) t0 t1 ∧
        Spec.Hears (toyCfg 0 none .debug) (toyCfg 1 none .release) (mainP Q' .debug ⟨none, 2, 2, 2, 2, 2⟩ .plainMetrics
          (Spec.bucketDraw seedsDraw fun i => 1 - i) 2) (.running kcs'.1) (.running kcs'.2) sent' got
          (.pm [⟨0, [1, 1]⟩]) t0' t1' ∧
        Spec.received false sent = Spec.received false sent' ∧
        (Spec.received true sent).filter Spec.notUpload = (Spec.received true sent').filter Spec.notUpload := by
  have h := C96_leader (P := toy) (X := toyXof) (c0 := toyCfg 0 none .debug) (c1 := toyCfg 1 none .release)
    (bld := .debug) (cfg := ⟨none, 2, 2, 2, 2, 2⟩) (draw := seedsDraw) (n := 2) (bucket := id)
    (bucket' := fun i => 1 - i)
    ⟨rfl, rfl, rfl, by decide, by decide, by decide, by decide, fun i _ =>
      ⟨Nat.le_add_left _ _, Nat.succ_le_of_lt (Nat.mod_lt i (by decide))⟩⟩ rfl (by norm_num)
    (fun i _ => show (3 : Field128) ^ Spec.points 2 (Spec.chunk 2) ≠ 1 by decide +kernel) rfl rfl (by decide)
    (fun _ _ => rfl) (fun i hi => hi) (fun i hi => (by omega : 1 - i < 2)) seeds_fresh rfl
  exact h

/-- The same for the helper. -/
example : ∃ F : (Fin 2 → Spec.LeaderCoins (Spec.chunk 2)) ≃ (Fin 2 → Spec.LeaderCoins (Spec.chunk 2)),
    ∀ (w : Fin 2 → Spec.LeaderCoins (Spec.chunk 2)) (Q Q' : Prims), Q = toy.withPrio3 (Spec.setLeaders toyXof 2 seedsDraw id w) →
      Q' = toy.withPrio3 (Spec.setLeaders toyXof 2 seedsDraw (fun i => 1 - i) (F w)) →
      ∀ (kcs : Pair2 Q) (kcs' : Pair2 Q'),
      ∃ (sent sent' : List (Req × Req)) (got : List (Resp × Resp)) (t0 t1 : Server Q) (t0' t1' : Server Q'),
        Spec.Hears (toyCfg 0 none .debug) (toyCfg 1 none .release) (mainP Q .debug ⟨none, 2, 2, 2, 2, 2⟩ .plainMetrics
          (Spec.bucketDraw seedsDraw id) 2) (.running kcs.1) (.running kcs.2) sent got (.pm [⟨0, [1, 1]⟩]) t0 t1 ∧
        Spec.Hears (toyCfg 0 none .debug) (toyCfg 1 none .release) (mainP Q' .debug ⟨none, 2, 2, 2, 2, 2⟩ .plainMetrics
          (Spec.bucketDraw seedsDraw fun i => 1 - i) 2) (.running kcs'.1) (.running kcs'.2) sent' got
          (.pm [⟨0, [1, 1]⟩]) t0' t1' ∧
        Spec.received true sent = Spec.received true sent' ∧
        (Spec.received false sent).filter Spec.notUpload = (Spec.received false sent').filter Spec.notUpload := by
  have h := C96_helper (P := toy) (X := toyXof) (c0 := toyCfg 0 none .debug) (c1 := toyCfg 1 none .release)
    (bld := .debug) (cfg := ⟨none, 2, 2, 2, 2, 2⟩) (draw := seedsDraw) (n := 2) (bucket := id)
    (bucket' := fun i => 1 - i)
    ⟨rfl, rfl, rfl, by decide, by decide, by decide, by decide, fun i _ =>
      ⟨Nat.le_add_left _ _, Nat.succ_le_of_lt (Nat.mod_lt i (by decide))⟩⟩ rfl (by norm_num)
    (fun i _ => show (3 : Field128) ^ Spec.points 2 (Spec.chunk 2) ≠ 1 by decide +kernel) rfl rfl (by decide)
    (fun _ _ => rfl) (fun i hi => hi) (fun i hi => (by omega : 1 - i < 2)) seeds_fresh rfl
  exact h

end Mastic
