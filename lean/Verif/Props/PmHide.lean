import Verif.Lemmas.PmHide
import Verif.Props.RunHide
import Verif.Props.Prio3

/-!
# C94: neither server learns the buckets from a whole plain-metrics run
-/

namespace Mastic

variable {P : Prims} {c0 c1 : ServerCfg} {bld : Build} {cfg : Config} {draw : MainDraw} {n : Nat}

/-- What server `own` gets in a plain-metrics run: the reset, its shares, and for every batch the two requests, the second
with the other server's preparation shares. -/
def pmReceived (cfg : Config) (draw : MainDraw) (n : Nat) (sizes : List Nat) (shares : List ReportShare)
    (others : Nat × Nat → List (List Byte)) : List Req :=
  runReceived cfg draw sizes shares ((Spec.batches n cfg.queryBatch).flatMap fun r =>
    [.pmValidate r.1 r.2, .pmResult (others r) r.1 r.2])

/-- The aggregator number of a server. -/
def aggOf (server : Bool) : Nat := if server then 1 else 0

/-- One plain-metrics run. -/
theorem run_pm {Z : Prio3Xof} {bucket : Nat → Nat} (kcs : Pair2 (P.withPrio3 Z))
    (hs : Spec.Sensible (P.withPrio3 Z) cfg draw n) (hok : P.prio3Ok cfg.histBuckets = true)
    (hb64 : cfg.histBuckets < 2 ^ 64)
    (hq : ∀ i < n, Spec.queryPoint Z draw.verifyKey (Spec.MainDraw.of draw i).rand.nonce
      ^ Spec.points cfg.histBuckets (Spec.chunk cfg.histBuckets) ≠ 1)
    (h0 : c0.serverId = 0) (h1 : c1.serverId = 1) (hsmall : n < fieldModulus)
    (htam : ∀ i < n, (draw.picks i).2 = none) (hw : ∀ i < cfg.uniqueBuckets, bucket i < cfg.histBuckets)
    {sizes : List Nat} (hsz : uploadBatches cfg.addBatch n n = .ok sizes) :
    ∃ (sh : List (ReportShare × ReportShare)) (sent : List (Req × Req)) (t0 t1 : Server (P.withPrio3 Z)),
      Spec.Talk c0 c1 (mainP (P.withPrio3 Z) bld cfg .plainMetrics (Spec.bucketDraw draw bucket) n) (.running kcs.1)
        (.running kcs.2) sent (Spec.pmShown cfg.histBuckets cfg.queryBatch n draw bucket) t0 t1 ∧
      (∀ own, Spec.received own sent = pmReceived cfg draw n sizes (sh.map fun s => Pair.get s own)
        (sharesOf (P.withPrio3 Z) cfg.histBuckets (aggOf !own) draw.verifyKey
          (sh.map fun s => (true, Pair.get s !own)))) ∧
      sh.length = n ∧
      ∀ i < n, ∃ pub in0 in1, Z.shard cfg.histBuckets (Spec.chunk cfg.histBuckets) (bucket ((draw.picks i).1 - 1))
          (Spec.MainDraw.of draw i).rand.nonce (Spec.MainDraw.of draw i).prio3 = some (pub, in0, in1) ∧
        sh[i]? = some (.prio3 (Spec.MainDraw.of draw i).rand.nonce pub in0,
          .prio3 (Spec.MainDraw.of draw i).rand.nonce pub in1) ∧
        Spec.Prio3Complete (P.withPrio3 Z) cfg.histBuckets 1 draw.verifyKey draw.verifyKey (bucket ((draw.picks i).1 - 1))
          (.prio3 (Spec.MainDraw.of draw i).rand.nonce pub in0) (.prio3 (Spec.MainDraw.of draw i).rand.nonce pub in1) := by
  have hs' : Spec.Sensible (P.withPrio3 Z) cfg (Spec.bucketDraw draw bucket) n :=
    ⟨hs.malicious, hs.zipf, hs.hist, hs.buckets, hs.unique, hs.addBatch, hs.queryBatch, hs.picks⟩
  have hrep : ∀ i < cfg.uniqueBuckets, ∃ pub in0 in1,
      Z.shard cfg.histBuckets (Spec.chunk cfg.histBuckets) (bucket i) (draw.reports i).rand.nonce (draw.reports i).prio3
        = some (pub, in0, in1) ∧
      genPrio3Report (P.withPrio3 Z) cfg.histBuckets (bucket i) (draw.reports i).rand.nonce (draw.reports i).prio3
        = .ok (.prio3 (draw.reports i).rand.nonce pub (in0, in1)) ∧
      generateReport (P.withPrio3 Z) cfg .plainMetrics ((Spec.bucketDraw draw bucket).reports i)
        = .ok (.prio3 (draw.reports i).rand.nonce pub (in0, in1)) := by
    intro i hi
    obtain ⟨⟨pub, in0, in1⟩, e⟩ := Option.isSome_iff_exists.1
      ((C85_shard (P := P) (X := Z) cfg.histBuckets (bucket i) (draw.reports i).rand.nonce (draw.reports i).prio3).2
        (hw i hi))
    have hok' : (P.withPrio3 Z).prio3Ok cfg.histBuckets = true := hok
    have hg : genPrio3Report (P.withPrio3 Z) cfg.histBuckets (bucket i) (draw.reports i).rand.nonce
        (draw.reports i).prio3 = .ok (.prio3 (draw.reports i).rand.nonce pub (in0, in1)) := by
      simp [genPrio3Report, hok', e, unwrapO]
    refine ⟨pub, in0, in1, e, hg, ?_⟩
    unfold generateReport genRange
    rw [if_neg (by have := hs.buckets; omega), ok_bind]
    show genPrio3Report (P.withPrio3 Z) cfg.histBuckets (bucket i % cfg.histBuckets) (draw.reports i).rand.nonce
      (draw.reports i).prio3 = _
    rw [Nat.mod_eq_of_lt (hw i hi), hg]
  obtain ⟨reports, hg, hrl, hr⟩ := generateReports_ok (P := P.withPrio3 Z) (mode := .plainMetrics)
    (draws := (Spec.bucketDraw draw bucket).reports) hs.unique (fun i hi => by
      obtain ⟨_, _, _, -, -, h⟩ := hrep i hi
      exact ⟨_, h⟩)
  have hpick : ∀ i < n, ∃ s : ReportShare × ReportShare, pickShares reports (draw.picks i) = .ok s ∧
      Spec.HonestPrio3 (P.withPrio3 Z) cfg.histBuckets (bucket ((draw.picks i).1 - 1)) s.1 s.2 ∧
      s.1.nonce = (Spec.MainDraw.of draw i).rand.nonce ∧
      ∃ pub in0 in1, Z.shard cfg.histBuckets (Spec.chunk cfg.histBuckets) (bucket ((draw.picks i).1 - 1))
          (Spec.MainDraw.of draw i).rand.nonce (Spec.MainDraw.of draw i).prio3 = some (pub, in0, in1) ∧
        s = (.prio3 (Spec.MainDraw.of draw i).rand.nonce pub in0,
          .prio3 (Spec.MainDraw.of draw i).rand.nonce pub in1) := by
    intro i hi
    obtain ⟨g1, g2⟩ := hs.picks i hi
    have hju : (draw.picks i).1 - 1 < cfg.uniqueBuckets := by omega
    obtain ⟨r, hr1, hr2⟩ := hr ((draw.picks i).1 - 1) hju
    obtain ⟨pub, in0, in1, e1, e2, e3⟩ := hrep _ hju
    rw [e3] at hr2
    cases hr2
    refine ⟨(.prio3 (Spec.MainDraw.of draw i).rand.nonce pub in0, .prio3 (Spec.MainDraw.of draw i).rand.nonce pub in1),
      ?_, ⟨_, _, _, e2, rfl⟩, rfl, pub, in0, in1, e1, rfl⟩
    unfold pickShares
    rw [if_neg (by omega), idx_eq_ok.2 hr1, ok_bind, htam i hi]
    rfl
  have : Nonempty (ReportShare × ReportShare) := ⟨(.prio3 Block.zero [] [], .prio3 Block.zero [] [])⟩
  choose! f hf hf1 hf2 hf3 using hpick
  have hp : mapE (pickShares reports) ((List.range n).map (Spec.bucketDraw draw bucket).picks)
      = .ok ((List.range n).map f) := by
    rw [mapE_map]
    exact mapE_ok_of_forall fun i hi => hf i (List.mem_range.1 hi)
  obtain ⟨buckets, hbk⟩ : ∃ l, l = (List.range n).map fun i => bucket ((draw.picks i).1 - 1) := ⟨_, rfl⟩
  have hbl : buckets.length = n := by rw [hbk]; simp
  obtain ⟨K, hK⟩ : ∃ K, K = uploaded (P.withPrio3 Z) c0 c1 cfg draw.verifyKey ((List.range n).map f) := ⟨_, rfl⟩
  have hre := uploaded_reachable (P := P.withPrio3 Z) (c0 := c0) (c1 := c1) hs.hist draw.verifyKey ((List.range n).map f)
  have hh : ∀ (i b : Nat) (r0 r1 : Bool × ReportShare), buckets[i]? = some b →
      K.1.reportShares[i]? = some r0 → K.2.reportShares[i]? = some r1 →
      Spec.Prio3Complete (P.withPrio3 Z) cfg.histBuckets c1.serverId.toNat K.1.verifyKey K.2.verifyKey b r0.2 r1.2 := by
    intro i b r0 r1 hb g0 g1
    have hi : i < n := hbl ▸ (List.getElem?_eq_some_iff.1 hb).1
    rw [hbk, List.getElem?_map, List.getElem?_range hi] at hb
    simp only [Option.map_some, Option.some.injEq] at hb
    subst hb
    rw [hK] at g0 g1
    simp only [uploaded, List.getElem?_map, List.getElem?_range hi, Option.map_some, Option.some.injEq] at g0 g1
    subst g0; subst g1
    rw [h1, hK]
    exact C85_complete hb64 (hf1 i hi) (by rw [hf2 i hi]; exact hq i hi)
  have hst : stepByRanges n cfg.queryBatch = .ok (Spec.batches n cfg.queryBatch) := by
    unfold stepByRanges
    rw [if_neg (by have := hs.queryBatch; omega)]
    rfl
  obtain ⟨rs, hrs, ⟨hp1, -⟩, -⟩ := stepByRanges_spec (n := n) hs.queryBatch
  rw [hst] at hrs
  cases hrs
  obtain ⟨k', hl⟩ := honest_pmLoop (P := P.withPrio3 Z) (c0 := c0) (c1 := c1) (cfg := cfg) (kcs := K)
    (buckets := buckets) (C85_reads _) (fun a b m ha hb => C85_unshard a b m ha hb) h0 (by omega) (hbl.symm ▸ hsmall)
    (Spec.batches n cfg.queryBatch)
    ⟨by rw [hK]; rfl, by rw [hK]; rfl, hok, by rw [hK]; exact (reachable_maps hre.1).2,
      by rw [hK]; exact (reachable_maps hre.2).2, by simp [hK, uploaded, hbl], by simp [hK, uploaded, hbl], hh⟩
    (by rw [hbl]; exact hp1)
  obtain ⟨sent, ht⟩ := tells_exec ((exec_pmLoop (c0 := c0) (c1 := c1) cfg (Spec.batches n cfg.queryBatch) K _).2
    (by rw [hl, ok_bind]))
  have hsent := tells_pmLoop (fun r hr => (hp1 r hr).1) ht
  have hc : Tells c0 c1 (collectP (P.withPrio3 Z) bld cfg .plainMetrics (Spec.bucketDraw draw bucket) n reports) K
      ([] ++ (sent ++ [])) (Spec.pmShown cfg.histBuckets cfg.queryBatch n draw bucket) k' := by
    have hok' : (P.withPrio3 Z).prio3Ok cfg.histBuckets = true := hok
    unfold collectP
    simp only [hok', Bool.not_true, Bool.false_eq_true, if_false]
    unfold Spec.pmShown
    rw [← hbk]
    exact (tells_pure _ hst).bind (ht.bind (.ret _ _ _))
  rw [List.nil_append, List.append_nil] at hc
  rw [hK] at hc
  have hmain := tells_main (bld := bld) (kcs := kcs) hs' hg hp hsz hc
  refine ⟨(List.range n).map f, _, _, _, hmain, fun own => ?_, by simp, fun i hi => ?_⟩
  · rw [hsent, hK]
    unfold Spec.received pmReceived runReceived
    cases own
    · simp [splitBatches_map, List.map_flatMap, Function.comp_def, addSent, pmSent, uploaded, Pair.get, aggOf,
        Spec.bucketDraw, h1, KeyCollection.new]
    · simp [splitBatches_map, List.map_flatMap, Function.comp_def, addSent, pmSent, uploaded, Pair.get, aggOf,
        Spec.bucketDraw, h0, KeyCollection.new]
  · obtain ⟨pub, in0, in1, e1, e2⟩ := hf3 i hi
    refine ⟨pub, in0, in1, e1, ?_, ?_⟩
    · rw [List.getElem?_map, List.getElem?_range hi, Option.map_some, e2]
    · have := hf1 i hi
      rw [e2] at this
      exact C85_complete hb64 this (hq i hi)

/-- Equal shares of the two servers, client by client, give equal requests. -/
theorem pmReceived_congr {Z Z' : Prio3Xof} {own : Bool} {sizes : List Nat} {sh sh' : List (ReportShare × ReportShare)}
    (hl : sh.length = n) (hl' : sh'.length = n)
    (h : ∀ i < n, ∃ a b a' b', sh[i]? = some (a, b) ∧ sh'[i]? = some (a', b') ∧ Pair.get (a, b) own = Pair.get (a', b') own ∧
      (Spec.prepOf (P.withPrio3 Z) cfg.histBuckets (aggOf !own) draw.verifyKey (Pair.get (a, b) !own)).map Prod.snd
        = (Spec.prepOf (P.withPrio3 Z') cfg.histBuckets (aggOf !own) draw.verifyKey (Pair.get (a', b') !own)).map
            Prod.snd) :
    pmReceived cfg draw n sizes (sh.map fun s => Pair.get s own)
        (sharesOf (P.withPrio3 Z) cfg.histBuckets (aggOf !own) draw.verifyKey (sh.map fun s => (true, Pair.get s !own)))
      = pmReceived cfg draw n sizes (sh'.map fun s => Pair.get s own)
        (sharesOf (P.withPrio3 Z') cfg.histBuckets (aggOf !own) draw.verifyKey
          (sh'.map fun s => (true, Pair.get s !own))) := by
  have e1 : (sh.map fun s => Pair.get s own) = sh'.map fun s => Pair.get s own := by
    refine List.ext_getElem? fun i => ?_
    by_cases hi : i < n
    · obtain ⟨a, b, a', b', g1, g2, g3, -⟩ := h i hi
      rw [List.getElem?_map, List.getElem?_map, g1, g2, Option.map_some, Option.map_some, g3]
    · rw [List.getElem?_eq_none (by simpa [hl] using hi), List.getElem?_eq_none (by simpa [hl'] using hi)]
  have e2 : sharesOf (P.withPrio3 Z) cfg.histBuckets (aggOf !own) draw.verifyKey
        (sh.map fun s => (true, Pair.get s !own))
      = sharesOf (P.withPrio3 Z') cfg.histBuckets (aggOf !own) draw.verifyKey
        (sh'.map fun s => (true, Pair.get s !own)) := by
    funext r
    refine List.filterMap_congr fun i _ => ?_
    by_cases hi : i < n
    · obtain ⟨a, b, a', b', g1, g2, -, g4⟩ := h i hi
      simp only [List.getElem?_map, g1, g2, Option.map_some, Option.bind_some]
      generalize Spec.prepOf (P.withPrio3 Z) cfg.histBuckets (aggOf !own) draw.verifyKey (Pair.get (a, b) !own) = A at *
      generalize Spec.prepOf (P.withPrio3 Z') cfg.histBuckets (aggOf !own) draw.verifyKey (Pair.get (a', b') !own) = B
        at *
      match A, B, g4 with
      | none, none, _ => rfl
      | some A, some B, g4 =>
        have : A.2 = B.2 := Option.some.inj g4
        exact congrArg (fun x => some (prio3EncodeShare x)) this
    · rw [List.getElem?_eq_none (by simpa [hl] using hi), List.getElem?_eq_none (by simpa [hl'] using hi)]
      rfl
  rw [e1, e2]

/-- **C94.**  A whole plain-metrics run with libprio's Prio3, servers 0 and 1, clients that do not tamper and no query
point among the interpolation points, for any two assignments of buckets to the generated reports: the values that the
leader does not know correspond one to one so that for corresponding values both runs complete, each printing the exact
counts of its buckets, and the leader gets exactly the same requests in both, its shares and all preparation shares of the
helper included. -/
theorem C94_leader {X : Prio3Xof} {bucket bucket' : Nat → Nat}
    (hs : Spec.Sensible (P.withPrio3 X) cfg draw n) (hok : P.prio3Ok cfg.histBuckets = true)
    (hb64 : cfg.histBuckets < 2 ^ 64)
    (hq : ∀ i < n, Spec.queryPoint X draw.verifyKey (Spec.MainDraw.of draw i).rand.nonce
      ^ Spec.points cfg.histBuckets (Spec.chunk cfg.histBuckets) ≠ 1)
    (h0 : c0.serverId = 0) (h1 : c1.serverId = 1) (hsmall : n < fieldModulus)
    (htam : ∀ i < n, (draw.picks i).2 = none) (hw : ∀ i < cfg.uniqueBuckets, bucket i < cfg.histBuckets)
    (hw' : ∀ i < cfg.uniqueBuckets, bucket' i < cfg.histBuckets) (hf : Spec.FreshSeeds cfg.uniqueBuckets draw) :
    ∃ F : (Fin cfg.uniqueBuckets → Spec.HelperCoins cfg.histBuckets (Spec.chunk cfg.histBuckets))
        ≃ (Fin cfg.uniqueBuckets → Spec.HelperCoins cfg.histBuckets (Spec.chunk cfg.histBuckets)),
      ∀ (w : Fin cfg.uniqueBuckets → Spec.HelperCoins cfg.histBuckets (Spec.chunk cfg.histBuckets)) (Q Q' : Prims),
        Q = P.withPrio3 (Spec.setHelpers X draw w) → Q' = P.withPrio3 (Spec.setHelpers X draw (F w)) →
        ∀ (kcs : Pair2 Q) (kcs' : Pair2 Q'),
        ∃ (sent sent' : List (Req × Req)) (t0 t1 : Server Q) (t0' t1' : Server Q'),
          Spec.Talk c0 c1 (mainP Q bld cfg .plainMetrics (Spec.bucketDraw draw bucket) n) (.running kcs.1)
            (.running kcs.2) sent (Spec.pmShown cfg.histBuckets cfg.queryBatch n draw bucket) t0 t1 ∧
          Spec.Talk c0 c1 (mainP Q' bld cfg .plainMetrics (Spec.bucketDraw draw bucket') n) (.running kcs'.1)
            (.running kcs'.2) sent' (Spec.pmShown cfg.histBuckets cfg.queryBatch n draw bucket') t0' t1' ∧
          Spec.received false sent = Spec.received false sent' := by
  obtain ⟨sizes, hsz, -⟩ := uploadBatches_spec hs.addBatch n n le_rfl
  have hc : 1 ≤ Spec.chunk cfg.histBuckets := chunk_pos hs.buckets
  refine ⟨⟨moveHelpers draw.verifyKey draw bucket bucket' X, moveHelpers draw.verifyKey draw bucket' bucket X,
    moveHelpers_back _ _ _ _ _ hf, moveHelpers_back _ _ _ _ _ hf⟩, fun w Q Q' hQ hQ' kcs kcs' => ?_⟩
  have hQ' : Q' = P.withPrio3 (Spec.setHelpers X draw (moveHelpers draw.verifyKey draw bucket bucket' X w)) := hQ'
  subst hQ hQ'
  have hpt : ∀ w : Fin cfg.uniqueBuckets → Spec.HelperCoins cfg.histBuckets (Spec.chunk cfg.histBuckets),
      ∀ i < n, Spec.queryPoint (Spec.setHelpers X draw w) draw.verifyKey (Spec.MainDraw.of draw i).rand.nonce
        ^ Spec.points cfg.histBuckets (Spec.chunk cfg.histBuckets) ≠ 1 := by
    intro w i hi
    have := (foldHelpers_keeps X (fun i : Fin cfg.uniqueBuckets => (draw.reports i).rand.nonce)
      (fun i => Spec.clientSeed (draw.reports i).prio3) w (List.finRange _)).1 draw.verifyKey
      (Spec.MainDraw.of draw i).rand.nonce.toList
    have := hq i hi
    unfold Spec.queryPoint at this ⊢
    simp_all [setHelpers_fold, dstQueryRand]
  obtain ⟨sh, sent, t0, t1, a1, a2, a3, a4⟩ := run_pm (c0 := c0) (c1 := c1) (bld := bld) (bucket := bucket) kcs
    ⟨hs.malicious, hs.zipf, hs.hist, hs.buckets, hs.unique, hs.addBatch, hs.queryBatch, hs.picks⟩ hok hb64 (hpt w)
    h0 h1 hsmall htam hw hsz
  obtain ⟨sh', sent', t0', t1', b1, b2, b3, b4⟩ := run_pm (c0 := c0) (c1 := c1) (bld := bld) (bucket := bucket')
    kcs' ⟨hs.malicious, hs.zipf, hs.hist, hs.buckets, hs.unique, hs.addBatch, hs.queryBatch, hs.picks⟩ hok hb64
    (hpt _) h0 h1 hsmall htam hw' hsz
  refine ⟨sent, sent', t0, t1, t0', t1', a1, b1, ?_⟩
  rw [a2, b2]
  refine pmReceived_congr a3 b3 fun i hi => ?_
  obtain ⟨g1, g2⟩ := hs.picks i hi
  have hju : (draw.picks i).1 - 1 < cfg.uniqueBuckets := by omega
  obtain ⟨pub, in0, in1, e1, e2, -⟩ := a4 i hi
  obtain ⟨pub', in0', in1', e1', e2', -⟩ := b4 i hi
  obtain ⟨p, i0, i1, s1, s2, s3, s4⟩ := leader_same hc (wireLog_le hc hb64) (encode_bucketVec (hw _ hju))
    (encode_bucketVec (hw' _ hju)) (rand := (Spec.MainDraw.of draw i).prio3) rfl
    (helpersMoved draw.verifyKey draw bucket bucket' X hf w ⟨_, hju⟩)
  cases e1.symm.trans s1
  cases e1'.symm.trans s2
  exact ⟨_, _, _, _, e2, e2', rfl, s4.symm⟩

/-- **C94.**  The same for the helper. -/
theorem C94_helper {X : Prio3Xof} {bucket bucket' : Nat → Nat}
    (hs : Spec.Sensible (P.withPrio3 X) cfg draw n) (hok : P.prio3Ok cfg.histBuckets = true)
    (hb64 : cfg.histBuckets < 2 ^ 64)
    (hq : ∀ i < n, Spec.queryPoint X draw.verifyKey (Spec.MainDraw.of draw i).rand.nonce
      ^ Spec.points cfg.histBuckets (Spec.chunk cfg.histBuckets) ≠ 1)
    (h0 : c0.serverId = 0) (h1 : c1.serverId = 1) (hsmall : n < fieldModulus)
    (htam : ∀ i < n, (draw.picks i).2 = none) (hw : ∀ i < cfg.uniqueBuckets, bucket i < cfg.histBuckets)
    (hw' : ∀ i < cfg.uniqueBuckets, bucket' i < cfg.histBuckets) (hf : Spec.FreshSeeds cfg.uniqueBuckets draw) :
    ∃ F : (Fin cfg.uniqueBuckets → Spec.LeaderCoins (Spec.chunk cfg.histBuckets))
        ≃ (Fin cfg.uniqueBuckets → Spec.LeaderCoins (Spec.chunk cfg.histBuckets)),
      ∀ (w : Fin cfg.uniqueBuckets → Spec.LeaderCoins (Spec.chunk cfg.histBuckets)) (Q Q' : Prims),
        Q = P.withPrio3 (Spec.setLeaders X cfg.histBuckets draw bucket w) →
        Q' = P.withPrio3 (Spec.setLeaders X cfg.histBuckets draw bucket' (F w)) →
        ∀ (kcs : Pair2 Q) (kcs' : Pair2 Q'),
        ∃ (sent sent' : List (Req × Req)) (t0 t1 : Server Q) (t0' t1' : Server Q'),
          Spec.Talk c0 c1 (mainP Q bld cfg .plainMetrics (Spec.bucketDraw draw bucket) n) (.running kcs.1)
            (.running kcs.2) sent (Spec.pmShown cfg.histBuckets cfg.queryBatch n draw bucket) t0 t1 ∧
          Spec.Talk c0 c1 (mainP Q' bld cfg .plainMetrics (Spec.bucketDraw draw bucket') n) (.running kcs'.1)
            (.running kcs'.2) sent' (Spec.pmShown cfg.histBuckets cfg.queryBatch n draw bucket') t0' t1' ∧
          Spec.received true sent = Spec.received true sent' := by
  obtain ⟨sizes, hsz, -⟩ := uploadBatches_spec hs.addBatch n n le_rfl
  have hc : 1 ≤ Spec.chunk cfg.histBuckets := chunk_pos hs.buckets
  refine ⟨⟨moveLeaders (n := cfg.histBuckets) draw.verifyKey draw bucket bucket' X,
    moveLeaders (n := cfg.histBuckets) draw.verifyKey draw bucket' bucket X,
    moveLeaders_back _ _ _ _ _ hf, moveLeaders_back _ _ _ _ _ hf⟩, fun w Q Q' hQ hQ' kcs kcs' => ?_⟩
  have hQ' : Q' = P.withPrio3 (Spec.setLeaders X cfg.histBuckets draw bucket'
    (moveLeaders (n := cfg.histBuckets) draw.verifyKey draw bucket bucket' X w)) := hQ'
  subst hQ hQ'
  have hpt : ∀ (bucket : Nat → Nat) (w : Fin cfg.uniqueBuckets → Spec.LeaderCoins (Spec.chunk cfg.histBuckets)),
      ∀ i < n, Spec.queryPoint (Spec.setLeaders X cfg.histBuckets draw bucket w) draw.verifyKey
        (Spec.MainDraw.of draw i).rand.nonce ^ Spec.points cfg.histBuckets (Spec.chunk cfg.histBuckets) ≠ 1 := by
    intro bucket w i hi
    have := (foldLeaders_keeps (n := cfg.histBuckets) X (fun i : Fin cfg.uniqueBuckets => (draw.reports i).rand.nonce)
      (fun i => Spec.clientSeed (draw.reports i).prio3) (fun i => Spec.bucketVec cfg.histBuckets (bucket i)) w
      (List.finRange _)).1 5 (by decide) draw.verifyKey (Spec.MainDraw.of draw i).rand.nonce.toList 0
    have := hq i hi
    unfold Spec.queryPoint at this ⊢
    simp_all [setLeaders_fold]
  obtain ⟨sh, sent, t0, t1, a1, a2, a3, a4⟩ := run_pm (c0 := c0) (c1 := c1) (bld := bld) (bucket := bucket) kcs
    ⟨hs.malicious, hs.zipf, hs.hist, hs.buckets, hs.unique, hs.addBatch, hs.queryBatch, hs.picks⟩ hok hb64 (hpt bucket w)
    h0 h1 hsmall htam hw hsz
  obtain ⟨sh', sent', t0', t1', b1, b2, b3, b4⟩ := run_pm (c0 := c0) (c1 := c1) (bld := bld) (bucket := bucket')
    kcs' ⟨hs.malicious, hs.zipf, hs.hist, hs.buckets, hs.unique, hs.addBatch, hs.queryBatch, hs.picks⟩ hok hb64
    (hpt bucket' _) h0 h1 hsmall htam hw' hsz
  refine ⟨sent, sent', t0, t1, t0', t1', a1, b1, ?_⟩
  rw [a2, b2]
  refine pmReceived_congr a3 b3 fun i hi => ?_
  obtain ⟨g1, g2⟩ := hs.picks i hi
  have hju : (draw.picks i).1 - 1 < cfg.uniqueBuckets := by omega
  obtain ⟨pub, in0, in1, e1, e2, -⟩ := a4 i hi
  obtain ⟨pub', in0', in1', e1', e2', -⟩ := b4 i hi
  obtain ⟨p, i0, i0', i1, s1, s2, s3, s4⟩ := helper_same hc (wireLog_le hc hb64) (encode_bucketVec (hw _ hju))
    (encode_bucketVec (hw' _ hju)) (rand := (Spec.MainDraw.of draw i).prio3) rfl
    (leadersMoved (n := cfg.histBuckets) draw.verifyKey draw bucket bucket' X hf w ⟨_, hju⟩)
  cases e1.symm.trans s1
  cases e1'.symm.trans s2
  exact ⟨_, _, _, _, e2, e2', rfl, s4.symm⟩

/-! ### A concrete run -/

/-- Two generated reports with five different seeds each, three clients. -/
def seedsDraw : MainDraw :=
  { toyPlainDraw with
    reports := fun i => ⟨i, fun _ => false, toyRand i, i * (1 + 2 ^ 128 + 2 ^ 256 + 2 ^ 384 + 2 ^ 512)⟩
    picks := fun i => (i % 2 + 1, none) }

theorem seeds_fresh : Spec.FreshSeeds 2 seedsDraw := by
  unfold Spec.FreshSeeds
  decide +kernel

theorem seeds_shown : Spec.pmShown 2 2 3 seedsDraw id = .pm [⟨0, [1, 1]⟩, ⟨0, [1, 0]⟩] ∧
    Spec.pmShown 2 2 3 seedsDraw (fun i => 1 - i) = .pm [⟨0, [1, 1]⟩, ⟨0, [0, 1]⟩] := ⟨rfl, rfl⟩

/-- Three clients in two batches and two buckets: whether the first report is for bucket 0 and the second for bucket 1 or
the other way round, the leader gets the same requests, while the counts are `[1, 1]`, `[1, 0]` or `[1, 1]`, `[0, 1]`. -/
example : ∃ F : (Fin 2 → Spec.HelperCoins 2 (Spec.chunk 2)) ≃ (Fin 2 → Spec.HelperCoins 2 (Spec.chunk 2)),
    ∀ (w : Fin 2 → Spec.HelperCoins 2 (Spec.chunk 2)) (Q Q' : Prims),
      Q = toy.withPrio3 (Spec.setHelpers toyXof seedsDraw w) → Q' = toy.withPrio3 (Spec.setHelpers toyXof seedsDraw (F w)) →
      ∀ (kcs : Pair2 Q) (kcs' : Pair2 Q'),
      ∃ (sent sent' : List (Req × Req)) (t0 t1 : Server Q) (t0' t1' : Server Q'),
        Spec.Talk (toyCfg 0 none .debug) (toyCfg 1 none .release) (mainP Q .debug ⟨none, 2, 2, 2, 2, 2⟩ .plainMetrics
          (Spec.bucketDraw seedsDraw id) 3) (.running kcs.1) (.running kcs.2) sent (.pm [⟨0, [1, 1]⟩, ⟨0, [1, 0]⟩]) t0 t1 ∧
        Spec.Talk (toyCfg 0 none .debug) (toyCfg 1 none .release) (mainP Q' .debug ⟨none, 2, 2, 2, 2, 2⟩ .plainMetrics
          (Spec.bucketDraw seedsDraw fun i => 1 - i) 3) (.running kcs'.1) (.running kcs'.2) sent'
          (.pm [⟨0, [1, 1]⟩, ⟨0, [0, 1]⟩]) t0' t1' ∧
        Spec.received false sent = Spec.received false sent' := by
  have h := C94_leader (P := toy) (X := toyXof) (c0 := toyCfg 0 none .debug) (c1 := toyCfg 1 none .release)
    (bld := .debug) (cfg := ⟨none, 2, 2, 2, 2, 2⟩) (draw := seedsDraw) (n := 3) (bucket := id)
    (bucket' := fun i => 1 - i)
    ⟨rfl, rfl, rfl, by decide, by decide, by decide, by decide, fun i _ =>
      ⟨Nat.le_add_left _ _, Nat.succ_le_of_lt (Nat.mod_lt i (by decide))⟩⟩ rfl (by norm_num)
    (fun i _ => show (3 : Field128) ^ Spec.points 2 (Spec.chunk 2) ≠ 1 by decide +kernel) rfl rfl (by decide)
    (fun _ _ => rfl) (fun i hi => hi) (fun i hi => (by omega : 1 - i < 2)) seeds_fresh
  rw [seeds_shown.1, seeds_shown.2] at h
  exact h

/-- The same for the helper. -/
example : ∃ F : (Fin 2 → Spec.LeaderCoins (Spec.chunk 2)) ≃ (Fin 2 → Spec.LeaderCoins (Spec.chunk 2)),
    ∀ (w : Fin 2 → Spec.LeaderCoins (Spec.chunk 2)) (Q Q' : Prims),
      Q = toy.withPrio3 (Spec.setLeaders toyXof 2 seedsDraw id w) →
      Q' = toy.withPrio3 (Spec.setLeaders toyXof 2 seedsDraw (fun i => 1 - i) (F w)) →
      ∀ (kcs : Pair2 Q) (kcs' : Pair2 Q'),
      ∃ (sent sent' : List (Req × Req)) (t0 t1 : Server Q) (t0' t1' : Server Q'),
        Spec.Talk (toyCfg 0 none .debug) (toyCfg 1 none .release) (mainP Q .debug ⟨none, 2, 2, 2, 2, 2⟩ .plainMetrics
          (Spec.bucketDraw seedsDraw id) 3) (.running kcs.1) (.running kcs.2) sent (.pm [⟨0, [1, 1]⟩, ⟨0, [1, 0]⟩]) t0 t1 ∧
        Spec.Talk (toyCfg 0 none .debug) (toyCfg 1 none .release) (mainP Q' .debug ⟨none, 2, 2, 2, 2, 2⟩ .plainMetrics
          (Spec.bucketDraw seedsDraw fun i => 1 - i) 3) (.running kcs'.1) (.running kcs'.2) sent'
          (.pm [⟨0, [1, 1]⟩, ⟨0, [0, 1]⟩]) t0' t1' ∧
        Spec.received true sent = Spec.received true sent' := by
  have h := C94_helper (P := toy) (X := toyXof) (c0 := toyCfg 0 none .debug) (c1 := toyCfg 1 none .release)
    (bld := .debug) (cfg := ⟨none, 2, 2, 2, 2, 2⟩) (draw := seedsDraw) (n := 3) (bucket := id)
    (bucket' := fun i => 1 - i)
    ⟨rfl, rfl, rfl, by decide, by decide, by decide, by decide, fun i _ =>
      ⟨Nat.le_add_left _ _, Nat.succ_le_of_lt (Nat.mod_lt i (by decide))⟩⟩ rfl (by norm_num)
    (fun i _ => show (3 : Field128) ^ Spec.points 2 (Spec.chunk 2) ≠ 1 by decide +kernel) rfl rfl (by decide)
    (fun _ _ => rfl) (fun i hi => hi) (fun i hi => (by omega : 1 - i < 2)) seeds_fresh
  rw [seeds_shown.1, seeds_shown.2] at h
  exact h

end Mastic
