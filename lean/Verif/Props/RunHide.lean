import Verif.Lemmas.RunHide

/-!
# C93: neither server learns the weights from a whole run
-/

namespace Mastic

variable {P : Prims} {c0 c1 : ServerCfg} {bld : Build} {cfg : Config} {draw : MainDraw} {n d : Nat}

/-- What server `own` gets in a run: the reset, its shares, and the requests of the mode. -/
def runReceived (cfg : Config) (draw : MainDraw) (sizes : List Nat) (shares : List ReportShare) (script : List Req) :
    List Req :=
  .reset draw.verifyKey cfg.histBuckets :: ((splitBatches sizes shares).map .addReportShares ++ script)

theorem received_main {sizes : List Nat} {sh : List (ReportShare × ReportShare)} {script : List Req} (own : Bool) :
    Spec.received own ((.reset draw.verifyKey cfg.histBuckets, .reset draw.verifyKey cfg.histBuckets)
        :: ((splitBatches sizes sh).map addSent ++ Spec.toBoth script))
      = runReceived cfg draw sizes (sh.map fun s => Pair.get s own) script := by
  unfold Spec.received runReceived
  rw [splitBatches_map]
  simp only [List.map_cons, List.map_append, List.map_map, Spec.toBoth]
  cases own <;> simp [Function.comp_def, addSent, Pair.get]

/-- One run with given values, weighted heavy hitters. -/
theorem run_whh {weight : Nat → Nat} {aes : Block → Block} {Q : Prims} (hQ : Q = { P with aes := aes }.withHistogram)
    (w : Spec.RunCoins P.withHistogram cfg.uniqueBuckets cfg.histBuckets d draw) (kcs : Pair2 Q)
    (hs : Spec.Sensible P.withHistogram cfg draw n) (hb64 : cfg.histBuckets < 2 ^ 64)
    (hxof : ∀ seed binder l, (P.xofField seed binder l).length = l)
    (hroot : ∀ i < n, ∀ t ∈ P.xofField draw.verifyKey (Spec.MainDraw.of draw i).rand.nonce.toList 1,
      t ^ Spec.points cfg.histBuckets 2 ≠ 1)
    (htam : ∀ i < n, (draw.picks i).2 ≠ some .flp) (hd : cfg.dataBits = some d) (hs0 : c0.dataBits = some d)
    (hs1 : c1.dataBits = some d) (hd2 : 2 ≤ d) (h0 : c0.serverId = 0) (h1 : c1.serverId ≠ 0) (hn : 1 ≤ n)
    (hlt : n < 2 ^ 64) (hw : ∀ i < cfg.uniqueBuckets, weight i < cfg.histBuckets)
    (hheavy : ∃ s : List Bool, s.length = d - 2 ∧
      (s ≠ [] → max 1 cfg.threshold ≤ (Spec.runStrings d draw n).countP fun a => s.isPrefixOf a))
    {r : Nat → Field128 × Field128}
    (hj : ∀ i < cfg.uniqueBuckets, P.xofField
      (seedParts P (draw.reports i).rand.rootSeeds (draw.reports i).rand.nonce).1
      (seedParts P (draw.reports i).rand.rootSeeds (draw.reports i).rand.nonce).2.toList 2 = [(r i).1, (r i).2])
    {sizes : List Nat} (hsz : uploadBatches cfg.addBatch n n = .ok sizes) :
    ∃ (sh : List (ReportShare × ReportShare)) (sent : List (Req × Req)) (results printed : List HHResult)
      (t0 t1 : Server Q),
      Spec.Talk c0 c1 (mainP Q bld cfg .weightedHeavyHitters (Spec.runDraw draw weight w) n) (.running kcs.1)
        (.running kcs.2) sent (.whh results printed) t0 t1 ∧
      (∀ own, Spec.received own sent = runReceived cfg draw sizes (sh.map fun s => Pair.get s own)
        (Spec.whhScript (max 1 cfg.threshold) cfg.queryBatch d ((Spec.runStrings d draw n).map some))) ∧
      results.map (fun r => (r.path, r.value))
        = Spec.heavyHitters cfg.histBuckets (max 1 cfg.threshold) d (Spec.runClients d draw weight n) ∧
      sh.length = n ∧
      Spec.Population Q cfg.histBuckets d c0.serverId c1.serverId draw.verifyKey
        ((Spec.runClients d draw weight n).map some) (sh.map fun s => (true, s.1)) (sh.map fun s => (true, s.2)) ∧
      ∀ (own : Bool), ∀ i < n, ∀ j (hj : j < cfg.uniqueBuckets), j = (draw.picks i).1 - 1 →
        (sh.map fun s => Pair.get s own)[i]? = some (.mastic (draw.reports j).rand.nonce
          (Pair.get (VidpfKey.gen Q (draw.reports j).rand.rootSeeds (Spec.stringOf d (draw.reports j))
            (Spec.bucketVec cfg.histBuckets (weight j))) own)
          (Pair.get (shareProof (proofOf cfg.histBuckets 2 (Spec.bucketVec cfg.histBuckets (weight j))
              (List.ofFn (w ⟨j, hj⟩).2.1) (r j).1)
            (Spec.coinsRand (draw.reports j).rand.nonce (w ⟨j, hj⟩)).proofRand) own)
          (seedParts P (draw.reports j).rand.rootSeeds (draw.reports j).rand.nonce)) := by
  obtain ⟨hs', hprove, hcomp, hrej⟩ := run_ready (weight := weight) hQ w hs hb64 hxof hroot htam c0.serverId c1.serverId
  obtain ⟨reports, sh, hg, -, -, hp, hlen, hsh, hown⟩ := run_shares (mode := .weightedHeavyHitters) hQ w (by simp) hd
    hs' hprove htam hw hj
  have hpop := main_population (c0 := c0) (c1 := c1) hs'.buckets hcomp hrej hlen hsh
  rw [runDraw_mainClients w hs.picks htam hw] at hpop
  have hfm : ((Spec.runClients d draw weight n).map some).filterMap id = Spec.runClients d draw weight n := by
    simp [List.filterMap_map]
  have hcn : (Spec.runClients d draw weight n).length = n := by simp [Spec.runClients]
  have hstr : ((Spec.runClients d draw weight n).map some).map (Option.map Prod.fst)
      = (Spec.runStrings d draw n).map some := by
    simp [Spec.runClients, Spec.runStrings, Function.comp_def]
  obtain ⟨results, printed, t0, t1, ht, hres⟩ := C92_script (P := Q) (c0 := c0) (c1 := c1) (bld := bld) (cfg := cfg)
    (kcs := uploaded Q c0 c1 cfg draw.verifyKey sh) (d := d) hd hd2 hs.queryBatch rfl rfl h0 h1 rfl hs0 hs1 hpop
    (by rw [hfm, ← List.length_pos_iff, hcn]; exact hn) (by rw [hfm, hcn]; exact hlt) (by
      obtain ⟨s, g1, g2⟩ := hheavy
      refine ⟨s, g1, fun hne => (g2 hne).trans (le_of_eq ?_)⟩
      rw [← countOf_holders, hstr]
      unfold Spec.countOf
      rw [List.countP_map]
      rfl)
  rw [hfm] at hres
  rw [hstr, List.length_map, hcn] at ht
  obtain ⟨k, rfl, rfl, -⟩ := talk_running ht _ rfl rfl
  have hmain := tells_main (bld := bld) (mode := .weightedHeavyHitters) (kcs := kcs) hs' hg hp hsz ht
  exact ⟨sh, _, results, printed, _, _, hmain, fun own => received_main own, hres, hlen, hpop, hown⟩

/-- The attributes of a run: the sampled strings without repetitions, in the order of the hash set. -/
def runAttributes (d num : Nat) (draw : MainDraw) : List (List Bool) :=
  draw.setOrder (((List.range num).map fun j => Spec.stringOf d (draw.reports (draw.attributes j))).dedup)

/-- One run with given values, attribute-based metrics. -/
theorem run_abm {weight : Nat → Nat} {aes : Block → Block} {Q : Prims} (hQ : Q = { P with aes := aes }.withHistogram)
    (w : Spec.RunCoins P.withHistogram cfg.uniqueBuckets cfg.histBuckets d draw) (kcs : Pair2 Q) {num : Nat}
    (hs : Spec.Sensible P.withHistogram cfg draw n) (hb64 : cfg.histBuckets < 2 ^ 64)
    (hxof : ∀ seed binder l, (P.xofField seed binder l).length = l)
    (hroot : ∀ i < n, ∀ t ∈ P.xofField draw.verifyKey (Spec.MainDraw.of draw i).rand.nonce.toList 1,
      t ^ Spec.points cfg.histBuckets 2 ≠ 1)
    (htam : ∀ i < n, (draw.picks i).2 ≠ some .flp) (hd : cfg.dataBits = some d) (hd1 : 1 ≤ d) (h0 : c0.serverId = 0)
    (h1 : c1.serverId ≠ 0) (hattr : ∀ j < num, draw.attributes j < cfg.uniqueBuckets)
    (hw : ∀ i < cfg.uniqueBuckets, weight i < cfg.histBuckets) {r : Nat → Field128 × Field128}
    (hj : ∀ i < cfg.uniqueBuckets, P.xofField
      (seedParts P (draw.reports i).rand.rootSeeds (draw.reports i).rand.nonce).1
      (seedParts P (draw.reports i).rand.rootSeeds (draw.reports i).rand.nonce).2.toList 2 = [(r i).1, (r i).2])
    {sizes : List Nat} (hsz : uploadBatches cfg.addBatch n n = .ok sizes) :
    ∃ (sh : List (ReportShare × ReportShare)) (sent : List (Req × Req)) (t0 t1 : Server Q),
      Spec.Talk c0 c1 (mainP Q bld cfg (.attributeBasedMetrics num) (Spec.runDraw draw weight w) n) (.running kcs.1)
        (.running kcs.2) sent (.abm (runAttributes d num draw) ((Spec.batches n cfg.queryBatch).map fun r =>
          ⟨[], Spec.attributeHistograms cfg.histBuckets (runAttributes d num draw)
            ((Spec.runClients d draw weight n).take r.2)⟩)) t0 t1 ∧
      (∀ own, Spec.received own sent = runReceived cfg draw sizes (sh.map fun s => Pair.get s own)
        (Spec.abmScript (runAttributes d num draw) (Spec.batches n cfg.queryBatch)
          ((Spec.batches n cfg.queryBatch).map fun _ => []))) ∧
      sh.length = n ∧
      Spec.Population Q cfg.histBuckets d c0.serverId c1.serverId draw.verifyKey
        ((Spec.runClients d draw weight n).map some) (sh.map fun s => (true, s.1)) (sh.map fun s => (true, s.2)) ∧
      ∀ (own : Bool), ∀ i < n, ∀ j (hj : j < cfg.uniqueBuckets), j = (draw.picks i).1 - 1 →
        (sh.map fun s => Pair.get s own)[i]? = some (.mastic (draw.reports j).rand.nonce
          (Pair.get (VidpfKey.gen Q (draw.reports j).rand.rootSeeds (Spec.stringOf d (draw.reports j))
            (Spec.bucketVec cfg.histBuckets (weight j))) own)
          (Pair.get (shareProof (proofOf cfg.histBuckets 2 (Spec.bucketVec cfg.histBuckets (weight j))
              (List.ofFn (w ⟨j, hj⟩).2.1) (r j).1)
            (Spec.coinsRand (draw.reports j).rand.nonce (w ⟨j, hj⟩)).proofRand) own)
          (seedParts P (draw.reports j).rand.rootSeeds (draw.reports j).rand.nonce)) := by
  obtain ⟨hs', hprove, hcomp, hrej⟩ := run_ready (weight := weight) hQ w hs hb64 hxof hroot htam c0.serverId c1.serverId
  obtain ⟨reports, sh, hg, hrl, hra, hp, hlen, hsh, hown⟩ := run_shares (mode := .attributeBasedMetrics num) hQ w
    (by simp) hd hs' hprove htam hw hj
  have hpop := main_population (c0 := c0) (c1 := c1) hs'.buckets hcomp hrej hlen hsh
  rw [runDraw_mainClients w hs.picks htam hw] at hpop
  have ha : mainAttributes reports (Spec.runDraw draw weight w) num = .ok (runAttributes d num draw) :=
    (mainAttributes_ok (draw := Spec.runDraw draw weight w) (num := num) hs'.zipf hrl hra).1 hattr
  have hst : stepByRanges n cfg.queryBatch = .ok (Spec.batches n cfg.queryBatch) := by
    unfold stepByRanges
    rw [if_neg (by have := hs.queryBatch; omega)]
    rfl
  obtain ⟨k, hrun⟩ := main_abm (P := Q) (c0 := c0) (c1 := c1) (draw := Spec.runDraw draw weight w)
    (attrs := runAttributes d num draw) hs.queryBatch hd1 h0 h1
    hcomp htam hlen hsh (by
      intro p hp
      unfold runAttributes at hp
      rw [(draw.setOrder_perm _).mem_iff, List.mem_dedup, List.mem_map] at hp
      obtain ⟨j, -, rfl⟩ := hp
      refine ⟨fun h => ?_, by simp [Spec.stringOf]⟩
      have := congrArg List.length h
      simp [Spec.stringOf] at this
      omega) rfl hst
  rw [runDraw_clients w hs.picks hw] at hrun
  have ht := C92_abm hs.queryBatch hrun
  have hc : Tells c0 c1 (collectP Q bld cfg (.attributeBasedMetrics num) (Spec.runDraw draw weight w) n reports)
      (uploaded Q c0 c1 cfg draw.verifyKey sh) ([] ++ ([] ++ (Spec.toBoth (Spec.abmScript (runAttributes d num draw)
        (Spec.batches n cfg.queryBatch) (((Spec.batches n cfg.queryBatch).map fun r => (⟨[], Spec.attributeHistograms cfg.histBuckets
          (runAttributes d num draw) ((Spec.runClients d draw weight n).take r.2)⟩ : AbmOut)).map AbmOut.rejected)) ++ [])))
      (.abm (runAttributes d num draw) ((Spec.batches n cfg.queryBatch).map fun r => ⟨[], Spec.attributeHistograms cfg.histBuckets
          (runAttributes d num draw) ((Spec.runClients d draw weight n).take r.2)⟩)) k := by
    unfold collectP
    refine (tells_pure _ ha).bind ((tells_pure _ hst).bind ?_)
    exact Tells.bind (show Tells c0 c1 _ (uploaded Q c0 c1 cfg draw.verifyKey sh) _ _ k from ht) (.ret _ _ _)
  rw [List.nil_append, List.nil_append, List.append_nil, List.map_map] at hc
  have hmain := tells_main (bld := bld) (kcs := kcs) hs' hg hp hsz hc
  exact ⟨sh, _, _, _, hmain, fun own => received_main own, hlen, hpop, hown⟩

/-- The shares that a server gets for two assignments of weights. -/
theorem shares_moved {own : Bool} {weight weight' : Nat → Nat} {r : Nat → Field128 × Field128} {t : Nat → Field128}
    {w : Spec.RunCoins P.withHistogram cfg.uniqueBuckets cfg.histBuckets d draw}
    (hf : Spec.FreshRun P.withHistogram cfg.uniqueBuckets cfg.histBuckets d draw own) {Q Q' : Prims}
    (hQ : Q = Spec.setRun P.withHistogram cfg.uniqueBuckets cfg.histBuckets d draw (!own) w)
    (hQ' : Q' = Spec.setRun P.withHistogram cfg.uniqueBuckets cfg.histBuckets d draw (!own)
      (moveRun own weight weight' (fun i => (r i).1) t w))
    (hpick : ∀ i < n, 1 ≤ (draw.picks i).1 ∧ (draw.picks i).1 ≤ cfg.uniqueBuckets)
    {sh sh' : List (ReportShare × ReportShare)} (hl : sh.length = n) (hl' : sh'.length = n)
    (h : ∀ i < n, ∀ j (hj : j < cfg.uniqueBuckets), j = (draw.picks i).1 - 1 →
        (sh.map fun s => Pair.get s own)[i]? = some (.mastic (draw.reports j).rand.nonce
          (Pair.get (VidpfKey.gen Q (draw.reports j).rand.rootSeeds (Spec.stringOf d (draw.reports j))
            (Spec.bucketVec cfg.histBuckets (weight j))) own)
          (Pair.get (shareProof (proofOf cfg.histBuckets 2 (Spec.bucketVec cfg.histBuckets (weight j))
              (List.ofFn (w ⟨j, hj⟩).2.1) (r j).1)
            (Spec.coinsRand (draw.reports j).rand.nonce (w ⟨j, hj⟩)).proofRand) own)
          (seedParts P (draw.reports j).rand.rootSeeds (draw.reports j).rand.nonce)))
    (h' : ∀ i < n, ∀ j (hj : j < cfg.uniqueBuckets), j = (draw.picks i).1 - 1 →
        (sh'.map fun s => Pair.get s own)[i]? = some (.mastic (draw.reports j).rand.nonce
          (Pair.get (VidpfKey.gen Q' (draw.reports j).rand.rootSeeds (Spec.stringOf d (draw.reports j))
            (Spec.bucketVec cfg.histBuckets (weight' j))) own)
          (Pair.get (shareProof (proofOf cfg.histBuckets 2 (Spec.bucketVec cfg.histBuckets (weight' j))
              (List.ofFn (moveRun own weight weight' (fun i => (r i).1) t w ⟨j, hj⟩).2.1) (r j).1)
            (Spec.coinsRand (draw.reports j).rand.nonce
              (moveRun own weight weight' (fun i => (r i).1) t w ⟨j, hj⟩)).proofRand) own)
          (seedParts P (draw.reports j).rand.rootSeeds (draw.reports j).rand.nonce))) :
    (sh'.map fun s => Pair.get s own) = sh.map fun s => Pair.get s own := by
  refine List.ext_getElem? fun i => ?_
  by_cases hi : i < n
  · obtain ⟨g1, g2⟩ := hpick i hi
    have hju : (draw.picks i).1 - 1 < cfg.uniqueBuckets := by omega
    rw [h i hi _ hju rfl, h' i hi _ hju rfl, moveRun_gen hf hQ hQ' ⟨_, hju⟩]
    have := shareProof_moved own (Spec.bucketVec cfg.histBuckets (weight ((draw.picks i).1 - 1)))
      (Spec.bucketVec cfg.histBuckets (weight' ((draw.picks i).1 - 1))) (r ((draw.picks i).1 - 1)).1
      (t ((draw.picks i).1 - 1)) (draw.reports ((draw.picks i).1 - 1)).rand.nonce (w ⟨_, hju⟩)
    unfold moveRun
    rw [this]
  · rw [List.getElem?_eq_none (by simpa [hl'] using hi), List.getElem?_eq_none (by simpa [hl] using hi)]

/-- The joint randomness and the query points of the reports. -/
theorem run_points (hxof : ∀ seed binder l, (P.xofField seed binder l).length = l) (draw : MainDraw) :
    ∃ r : Nat → Field128 × Field128, ∀ i, P.xofField
      (seedParts P (draw.reports i).rand.rootSeeds (draw.reports i).rand.nonce).1
      (seedParts P (draw.reports i).rand.rootSeeds (draw.reports i).rand.nonce).2.toList 2 = [(r i).1, (r i).2] := by
  have : ∀ i, ∃ r : Field128 × Field128, P.xofField
      (seedParts P (draw.reports i).rand.rootSeeds (draw.reports i).rand.nonce).1
      (seedParts P (draw.reports i).rand.rootSeeds (draw.reports i).rand.nonce).2.toList 2 = [r.1, r.2] := by
    intro i
    obtain ⟨r0, r1, h⟩ := List.length_eq_two.1 (hxof
      (seedParts P (draw.reports i).rand.rootSeeds (draw.reports i).rand.nonce).1
      (seedParts P (draw.reports i).rand.rootSeeds (draw.reports i).rand.nonce).2.toList 2)
    exact ⟨(r0, r1), h⟩
  choose r h using this
  exact ⟨r, h⟩

/-- **C93, weighted heavy hitters.**  A whole run of the program with libprio's proof system, clients that do not tamper
with their proofs, any two assignments of weights to the generated reports: the values that server `own` does not know
correspond one to one so that for corresponding values both runs complete, each with the results of its weights, and the
server gets exactly the same requests in both, shares included. -/
theorem C93_weighted_heavy_hitters {weight weight' : Nat → Nat} (own : Bool)
    (hs : Spec.Sensible P.withHistogram cfg draw n) (hb64 : cfg.histBuckets < 2 ^ 64)
    (hxof : ∀ seed binder l, (P.xofField seed binder l).length = l)
    (hroot : ∀ i < n, ∀ t ∈ P.xofField draw.verifyKey (Spec.MainDraw.of draw i).rand.nonce.toList 1,
      t ^ Spec.points cfg.histBuckets 2 ≠ 1)
    (htam : ∀ i < n, (draw.picks i).2 ≠ some .flp) (hd : cfg.dataBits = some d) (hs0 : c0.dataBits = some d)
    (hs1 : c1.dataBits = some d) (hd2 : 2 ≤ d) (h0 : c0.serverId = 0) (h1 : c1.serverId ≠ 0) (hn : 1 ≤ n)
    (hlt : n < 2 ^ 64) (hw : ∀ i < cfg.uniqueBuckets, weight i < cfg.histBuckets)
    (hw' : ∀ i < cfg.uniqueBuckets, weight' i < cfg.histBuckets)
    (hheavy : ∃ s : List Bool, s.length = d - 2 ∧
      (s ≠ [] → max 1 cfg.threshold ≤ (Spec.runStrings d draw n).countP fun a => s.isPrefixOf a))
    (hf : Spec.FreshRun P.withHistogram cfg.uniqueBuckets cfg.histBuckets d draw own) :
    ∃ F : Spec.RunCoins P.withHistogram cfg.uniqueBuckets cfg.histBuckets d draw
        ≃ Spec.RunCoins P.withHistogram cfg.uniqueBuckets cfg.histBuckets d draw,
      ∀ (w : Spec.RunCoins P.withHistogram cfg.uniqueBuckets cfg.histBuckets d draw) (Q Q' : Prims),
        Q = Spec.setRun P.withHistogram cfg.uniqueBuckets cfg.histBuckets d draw (!own) w →
        Q' = Spec.setRun P.withHistogram cfg.uniqueBuckets cfg.histBuckets d draw (!own) (F w) →
        ∀ (kcs : Pair2 Q) (kcs' : Pair2 Q'),
        ∃ (sent sent' : List (Req × Req)) (results printed results' printed' : List HHResult) (t0 t1 : Server Q)
          (t0' t1' : Server Q'),
          Spec.Talk c0 c1 (mainP Q bld cfg .weightedHeavyHitters (Spec.runDraw draw weight w) n) (.running kcs.1)
            (.running kcs.2) sent (.whh results printed) t0 t1 ∧
          Spec.Talk c0 c1 (mainP Q' bld cfg .weightedHeavyHitters (Spec.runDraw draw weight' (F w)) n)
            (.running kcs'.1) (.running kcs'.2) sent' (.whh results' printed') t0' t1' ∧
          Spec.received own sent = Spec.received own sent' ∧
          results.map (fun r => (r.path, r.value))
            = Spec.heavyHitters cfg.histBuckets (max 1 cfg.threshold) d (Spec.runClients d draw weight n) ∧
          results'.map (fun r => (r.path, r.value))
            = Spec.heavyHitters cfg.histBuckets (max 1 cfg.threshold) d (Spec.runClients d draw weight' n) := by
  obtain ⟨r, hj⟩ := run_points hxof draw
  obtain ⟨sizes, hsz, -⟩ := uploadBatches_spec hs.addBatch n n le_rfl
  refine ⟨⟨moveRun own weight weight' (fun i => (r i).1) 0, moveRun own weight' weight (fun i => (r i).1) 0,
    moveRun_back _ _ _ _ _, moveRun_back _ _ _ _ _⟩, fun w Q Q' hQ hQ' kcs kcs' => ?_⟩
  have hQ' : Q' = Spec.setRun P.withHistogram cfg.uniqueBuckets cfg.histBuckets d draw (!own)
    (moveRun own weight weight' (fun i => (r i).1) 0 w) := hQ'
  obtain ⟨sh, sent, results, printed, t0, t1, a1, a2, a3, a4, -, a5⟩ := run_whh (c0 := c0) (c1 := c1) (bld := bld)
    (weight := weight) (Q := Q) (aes := Q.aes) (by rw [hQ]; rfl) w kcs hs hb64 hxof hroot htam hd hs0 hs1 hd2 h0 h1
    hn hlt hw hheavy (fun i _ => hj i) hsz
  obtain ⟨sh', sent', results', printed', t0', t1', b1, b2, b3, b4, -, b5⟩ := run_whh (c0 := c0) (c1 := c1) (bld := bld)
    (weight := weight') (Q := Q') (aes := Q'.aes) (by rw [hQ']; rfl) (moveRun own weight weight' (fun i => (r i).1) 0 w)
    kcs' hs hb64 hxof hroot htam hd hs0 hs1 hd2 h0 h1 hn hlt hw' hheavy (fun i _ => hj i) hsz
  refine ⟨sent, sent', results, printed, results', printed', t0, t1, t0', t1', a1, b1, ?_, a3, b3⟩
  rw [a2 own, b2 own, shares_moved hf hQ hQ' hs.picks a4 b4 (a5 own) (b5 own)]

/-- **C93, attribute-based metrics.**  The same for the other mode: the server gets the same requests for any two
assignments of weights, while each run prints the histograms of its weights. -/
theorem C93_attribute_based_metrics {weight weight' : Nat → Nat} {num : Nat} (own : Bool)
    (hs : Spec.Sensible P.withHistogram cfg draw n) (hb64 : cfg.histBuckets < 2 ^ 64)
    (hxof : ∀ seed binder l, (P.xofField seed binder l).length = l)
    (hroot : ∀ i < n, ∀ t ∈ P.xofField draw.verifyKey (Spec.MainDraw.of draw i).rand.nonce.toList 1,
      t ^ Spec.points cfg.histBuckets 2 ≠ 1)
    (htam : ∀ i < n, (draw.picks i).2 ≠ some .flp) (hd : cfg.dataBits = some d) (hd1 : 1 ≤ d) (h0 : c0.serverId = 0)
    (h1 : c1.serverId ≠ 0) (hattr : ∀ j < num, draw.attributes j < cfg.uniqueBuckets)
    (hw : ∀ i < cfg.uniqueBuckets, weight i < cfg.histBuckets)
    (hw' : ∀ i < cfg.uniqueBuckets, weight' i < cfg.histBuckets)
    (hf : Spec.FreshRun P.withHistogram cfg.uniqueBuckets cfg.histBuckets d draw own) :
    ∃ F : Spec.RunCoins P.withHistogram cfg.uniqueBuckets cfg.histBuckets d draw
        ≃ Spec.RunCoins P.withHistogram cfg.uniqueBuckets cfg.histBuckets d draw,
      ∀ (w : Spec.RunCoins P.withHistogram cfg.uniqueBuckets cfg.histBuckets d draw) (Q Q' : Prims),
        Q = Spec.setRun P.withHistogram cfg.uniqueBuckets cfg.histBuckets d draw (!own) w →
        Q' = Spec.setRun P.withHistogram cfg.uniqueBuckets cfg.histBuckets d draw (!own) (F w) →
        ∀ (kcs : Pair2 Q) (kcs' : Pair2 Q'),
        ∃ (sent sent' : List (Req × Req)) (attributes : List (List Bool)) (t0 t1 : Server Q)
          (t0' t1' : Server Q'),
          Spec.Talk c0 c1 (mainP Q bld cfg (.attributeBasedMetrics num) (Spec.runDraw draw weight w) n) (.running kcs.1)
            (.running kcs.2) sent (.abm attributes ((Spec.batches n cfg.queryBatch).map fun r =>
              ⟨[], Spec.attributeHistograms cfg.histBuckets attributes
                ((Spec.runClients d draw weight n).take r.2)⟩)) t0 t1 ∧
          Spec.Talk c0 c1 (mainP Q' bld cfg (.attributeBasedMetrics num) (Spec.runDraw draw weight' (F w)) n)
            (.running kcs'.1) (.running kcs'.2) sent' (.abm attributes ((Spec.batches n cfg.queryBatch).map fun r =>
              ⟨[], Spec.attributeHistograms cfg.histBuckets attributes
                ((Spec.runClients d draw weight' n).take r.2)⟩)) t0' t1' ∧
          Spec.received own sent = Spec.received own sent' := by
  obtain ⟨r, hj⟩ := run_points hxof draw
  obtain ⟨sizes, hsz, -⟩ := uploadBatches_spec hs.addBatch n n le_rfl
  refine ⟨⟨moveRun own weight weight' (fun i => (r i).1) 0, moveRun own weight' weight (fun i => (r i).1) 0,
    moveRun_back _ _ _ _ _, moveRun_back _ _ _ _ _⟩, fun w Q Q' hQ hQ' kcs kcs' => ?_⟩
  have hQ' : Q' = Spec.setRun P.withHistogram cfg.uniqueBuckets cfg.histBuckets d draw (!own)
    (moveRun own weight weight' (fun i => (r i).1) 0 w) := hQ'
  obtain ⟨sh, sent, t0, t1, a1, a2, a4, -, a5⟩ := run_abm (c0 := c0) (c1 := c1) (bld := bld)
    (weight := weight) (Q := Q) (aes := Q.aes) (by rw [hQ]; rfl) w kcs hs hb64 hxof hroot htam hd hd1 h0 h1
    hattr hw (fun i _ => hj i) hsz
  obtain ⟨sh', sent', t0', t1', b1, b2, b4, -, b5⟩ := run_abm (c0 := c0) (c1 := c1) (bld := bld)
    (weight := weight') (Q := Q') (aes := Q'.aes) (by rw [hQ']; rfl) (moveRun own weight weight' (fun i => (r i).1) 0 w)
    kcs' hs hb64 hxof hroot htam hd hd1 h0 h1 hattr hw' (fun i _ => hj i) hsz
  refine ⟨sent, sent', _, t0, t1, t0', t1', a1, b1, ?_⟩
  rw [a2 own, b2 own, shares_moved hf hQ hQ' hs.picks a4 b4 (a5 own) (b5 own)]

/-! ### A concrete run -/

/-- Two generated reports, three clients. -/
def squareDraw : MainDraw where
  maliciousOk := true
  zipfOk := true
  reports := fun i => ⟨i, fun j => decide (i = 1 ∧ j = 0), { toyRand i with
    rootSeeds := if i = 0 then squareSeeds else (Vector.replicate 16 0x15#8, Vector.replicate 16 0x62#8) }, 3 + i⟩
  verifyKey := Block.zero.set 0 2#8
  picks := fun i => if i = 0 then (1, none) else (2, none)
  attributes := fun _ => 1
  setOrder := id
  setOrder_perm := fun l => List.Perm.refl l

/-- A number for a block; small enough to compute with. -/
def blockTag (b : Block) : Nat := b.toList.foldl (fun a x => 256 * a + x.toNat) 0 % 65521

/-- The blocks of `Spec.UsedInput`. -/
def usedInputs (P : Prims) (rs : Block × Block) (alpha : List Bool) (own : Bool) (n : Nat) : List Block :=
  ((Spec.clientPath P rs alpha).flatMap fun e => [maskKey e.1.1, incBe P.arch (maskKey e.1.1), maskKey e.1.2,
      incBe P.arch (maskKey e.1.2), e.2.1, e.2.2] ++
        (List.range (n + 2)).map fun j => Spec.cipherInput P (Pair.get e.2 own) j) ++
    (List.range (n + 2)).map fun j => Spec.cipherInput P (Spec.child P rs.1 (!alpha.headD false)) j

theorem mem_usedInputs {P : Prims} {rs : Block × Block} {alpha : List Bool} {own : Bool} {n : Nat} {c : Block}
    (h : Spec.UsedInput P rs alpha own n c) : c ∈ usedInputs P rs alpha own n := by
  unfold usedInputs
  rcases h with ⟨e, he, h | ⟨j, hj, rfl⟩⟩ | ⟨j, hj, rfl⟩
  · exact List.mem_append_left _ (List.mem_flatMap.mpr ⟨e, he, List.mem_append_left _ h⟩)
  · exact List.mem_append_left _ (List.mem_flatMap.mpr ⟨e, he, List.mem_append_right _
      (List.mem_map.mpr ⟨j, List.mem_range.mpr hj, rfl⟩)⟩)
  · exact List.mem_append_right _ (List.mem_map.mpr ⟨j, List.mem_range.mpr hj, rfl⟩)

/-- The numbers of the cipher inputs behind the other server's values. -/
def squareTags (own : Bool) (k : Fin 12) : Nat :=
  (if own then #v[40842, 53069, 65296, 27572, 39799, 52026, 3151, 15378, 27605, 17680, 29907, 42134]
    else #v[34325, 46552, 58779, 32563, 44790, 57017, 52540, 64767, 11473, 64245, 10951, 23178])[k]

theorem squareTags_inj (own : Bool) : Function.Injective (squareTags own) := by
  cases own <;> decide +kernel

theorem squareTags_eq (own : Bool) (i : Fin 2) (l : Fin (Spec.clientPath squareToy.withHistogram
    (squareDraw.reports i).rand.rootSeeds (Spec.stringOf 2 (squareDraw.reports i))).length) (k : Fin 3) :
    ∃ h : 6 * i.val + 3 * l.val + k.val < 12,
      blockTag (Spec.runInput squareToy.withHistogram 2 2 2 squareDraw (!own) ⟨i, l, k⟩) = squareTags own ⟨_, h⟩ := by
  revert i l k
  cases own <;> decide +kernel

/-- The numbers of the blocks of `Spec.UsedInput`. -/
def squareUsed (own : Bool) (i : Fin 2) : List Nat :=
  match own, i with
  | true, 0 => [24373, 36600, 29794, 42021, 28615, 22098, 22098, 34325, 46552, 58779, 7791, 20018, 36468, 48695, 15345,
        20336, 20336, 32563, 44790, 57017, 54473, 1179, 13406, 25633]
  | true, 1 => [16556, 28783, 29868, 42095, 56445, 40313, 40313, 52540, 64767, 11473, 9165, 21392, 16612, 28839, 5453, 52018,
        52018, 64245, 10951, 23178, 59318, 6024, 18251, 30478]
  | false, 0 => [24373, 36600, 29794, 42021, 28615, 22098, 28615, 40842, 53069, 65296, 7791, 20018, 36468, 48695, 15345,
        20336, 15345, 27572, 39799, 52026, 54473, 1179, 13406, 25633]
  | false, 1 => [16556, 28783, 29868, 42095, 56445, 40313, 56445, 3151, 15378, 27605, 9165, 21392, 16612, 28839, 5453, 52018,
        5453, 17680, 29907, 42134, 59318, 6024, 18251, 30478]

theorem squareUsed_eq (own : Bool) (i : Fin 2) : (usedInputs squareToy.withHistogram
    (squareDraw.reports i).rand.rootSeeds (Spec.stringOf 2 (squareDraw.reports i)) own 2).map blockTag
      = squareUsed own i := by
  revert i
  cases own <;> decide +kernel

theorem squareTags_used (own : Bool) (i : Fin 2) : ∀ t ∈ squareUsed own i, ∀ k, t ≠ squareTags own k := by
  revert i
  cases own <;> decide +kernel

theorem square_fresh (own : Bool) : Spec.FreshRun squareToy.withHistogram 2 2 2 squareDraw own := by
  refine ⟨?_, fun ⟨i, l, k⟩ i' h => ?_⟩
  · rintro ⟨i, l, k⟩ ⟨i', l', k'⟩ h
    obtain ⟨g, e⟩ := squareTags_eq own i l k
    obtain ⟨g', e'⟩ := squareTags_eq own i' l' k'
    have hk := congrArg Fin.val (squareTags_inj own (e.symm.trans ((congrArg blockTag h).trans e')))
    have hl : ∀ (j : Fin 2) (m : Fin (Spec.clientPath squareToy.withHistogram (squareDraw.reports j).rand.rootSeeds
        (Spec.stringOf 2 (squareDraw.reports j))).length), m.val < 2 := fun _ m => m.isLt
    have := hl i l
    have := hl i' l'
    have := k.isLt
    have := k'.isLt
    dsimp only at hk
    obtain rfl : i = i' := Fin.ext (by omega)
    obtain rfl : l = l' := Fin.ext (by omega)
    obtain rfl : k = k' := Fin.ext (by omega)
    rfl
  · obtain ⟨_, e⟩ := squareTags_eq own i l k
    exact squareTags_used own i' _ (squareUsed_eq own i' ▸ List.mem_map_of_mem (mem_usedInputs h)) _ e

theorem square_sensible : Spec.Sensible squareToy.withHistogram ⟨some 2, 2, 2, 2, 2, 2⟩ squareDraw 3 :=
  ⟨rfl, rfl, rfl, by decide, by decide, by decide, by decide, by decide⟩

theorem square_points : ∀ i < 3, ∀ t ∈ squareToy.xofField squareDraw.verifyKey
    (Spec.MainDraw.of squareDraw i).rand.nonce.toList 1, t ^ Spec.points 2 2 ≠ 1 := by
  have hp : Spec.points 2 2 = 2 := by decide
  have h : ∀ i < 3, squareDraw.verifyKey.toList.foldl (fun a b => a + b.toNat) 0 +
      (Spec.MainDraw.of squareDraw i).rand.nonce.toList.foldl (fun a b => a + b.toNat) 0 = if i = 0 then 2 else 3 := by
    decide +kernel
  rw [hp]
  intro i hi t ht
  obtain rfl := List.eq_of_mem_replicate ht
  rw [h i hi]
  interval_cases i <;> decide +kernel

theorem square_honest : ∀ i < 3, (squareDraw.picks i).2 ≠ some Tamper.flp := fun i _ => by
  unfold squareDraw
  dsimp only
  split <;> simp

/-- Three clients in two batches, threshold 2: whether all weights are 0 or 1, each server gets the same requests, while
the result is `[2, 0, 2]` or `[0, 2, 2]` at the heavy string. -/
example (own : Bool) : ∃ F : Spec.RunCoins squareToy.withHistogram 2 2 2 squareDraw
      ≃ Spec.RunCoins squareToy.withHistogram 2 2 2 squareDraw,
    ∀ (w : Spec.RunCoins squareToy.withHistogram 2 2 2 squareDraw) (Q Q' : Prims),
      Q = Spec.setRun squareToy.withHistogram 2 2 2 squareDraw (!own) w →
      Q' = Spec.setRun squareToy.withHistogram 2 2 2 squareDraw (!own) (F w) →
      ∀ (kcs : Pair2 Q) (kcs' : Pair2 Q'),
      ∃ (sent sent' : List (Req × Req)) (results printed results' printed' : List HHResult) (t0 t1 : Server Q)
        (t0' t1' : Server Q'),
        Spec.Talk (toyCfg 0 (some 2) .debug) (toyCfg 1 (some 2) .debug) (mainP Q .debug ⟨some 2, 2, 2, 2, 2, 2⟩
          .weightedHeavyHitters (Spec.runDraw squareDraw (fun _ => 0) w) 3) (.running kcs.1) (.running kcs.2) sent
          (.whh results printed) t0 t1 ∧
        Spec.Talk (toyCfg 0 (some 2) .debug) (toyCfg 1 (some 2) .debug) (mainP Q' .debug ⟨some 2, 2, 2, 2, 2, 2⟩
          .weightedHeavyHitters (Spec.runDraw squareDraw (fun _ => 1) (F w)) 3) (.running kcs'.1) (.running kcs'.2) sent'
          (.whh results' printed') t0' t1' ∧
        Spec.received own sent = Spec.received own sent' ∧
        results.map (fun r => (r.path, r.value)) = [([true, false], [2, 0, 2])] ∧
        results'.map (fun r => (r.path, r.value)) = [([true, false], [0, 2, 2])] := by
  obtain ⟨F, hF⟩ := C93_weighted_heavy_hitters (P := squareToy) (c0 := toyCfg 0 (some 2) .debug)
    (c1 := toyCfg 1 (some 2) .debug) (bld := .debug) (cfg := ⟨some 2, 2, 2, 2, 2, 2⟩) (draw := squareDraw) (n := 3) (d := 2)
    (weight := fun _ => 0) (weight' := fun _ => 1) own square_sensible (by norm_num) (fun _ _ _ => List.length_replicate)
    square_points square_honest rfl rfl rfl le_rfl rfl (by decide) (by decide) (by norm_num) (by decide) (by decide)
    ⟨[], rfl, fun h => absurd rfl h⟩ (square_fresh own)
  have e : Spec.heavyHitters 2 2 2 (Spec.runClients 2 squareDraw (fun _ => 0) 3) = [([true, false], [2, 0, 2])] := by
    decide +kernel
  have e' : Spec.heavyHitters 2 2 2 (Spec.runClients 2 squareDraw (fun _ => 1) 3) = [([true, false], [0, 2, 2])] := by
    decide +kernel
  refine ⟨F, fun w Q Q' hQ hQ' kcs kcs' => ?_⟩
  obtain ⟨sent, sent', r, p, r', p', t0, t1, t0', t1', g1, g2, g3, g4, g5⟩ := hF w Q Q' hQ hQ' kcs kcs'
  exact ⟨sent, sent', r, p, r', p', t0, t1, t0', t1', g1, g2, g3, g4.trans e, g5.trans e'⟩

/-- The same run of attribute-based metrics meets the hypotheses. -/
example (own : Bool) : ∃ F : Spec.RunCoins squareToy.withHistogram 2 2 2 squareDraw
      ≃ Spec.RunCoins squareToy.withHistogram 2 2 2 squareDraw,
    ∀ (w : Spec.RunCoins squareToy.withHistogram 2 2 2 squareDraw) (Q Q' : Prims),
      Q = Spec.setRun squareToy.withHistogram 2 2 2 squareDraw (!own) w →
      Q' = Spec.setRun squareToy.withHistogram 2 2 2 squareDraw (!own) (F w) →
      ∀ (kcs : Pair2 Q) (kcs' : Pair2 Q'),
      ∃ (sent sent' : List (Req × Req)) (out out' : Shown) (t0 t1 : Server Q) (t0' t1' : Server Q'),
        Spec.Talk (toyCfg 0 (some 2) .debug) (toyCfg 1 (some 2) .debug) (mainP Q .debug ⟨some 2, 2, 2, 2, 2, 2⟩
          (.attributeBasedMetrics 1) (Spec.runDraw squareDraw (fun _ => 0) w) 3) (.running kcs.1) (.running kcs.2) sent
          out t0 t1 ∧
        Spec.Talk (toyCfg 0 (some 2) .debug) (toyCfg 1 (some 2) .debug) (mainP Q' .debug ⟨some 2, 2, 2, 2, 2, 2⟩
          (.attributeBasedMetrics 1) (Spec.runDraw squareDraw (fun _ => 1) (F w)) 3) (.running kcs'.1) (.running kcs'.2)
          sent' out' t0' t1' ∧
        Spec.received own sent = Spec.received own sent' := by
  obtain ⟨F, hF⟩ := C93_attribute_based_metrics (P := squareToy) (c0 := toyCfg 0 (some 2) .debug)
    (c1 := toyCfg 1 (some 2) .debug) (bld := .debug) (cfg := ⟨some 2, 2, 2, 2, 2, 2⟩) (draw := squareDraw) (n := 3) (d := 2)
    (num := 1) (weight := fun _ => 0) (weight' := fun _ => 1) own square_sensible (by norm_num)
    (fun _ _ _ => List.length_replicate) square_points square_honest rfl (by norm_num) rfl (by decide) (by decide)
    (by decide) (by decide) (square_fresh own)
  refine ⟨F, fun w Q Q' hQ hQ' kcs kcs' => ?_⟩
  obtain ⟨sent, sent', a, t0, t1, t0', t1', g1, g2, g3⟩ := hF w Q Q' hQ hQ' kcs kcs'
  exact ⟨sent, sent', _, _, t0, t1, t0', t1', g1, g2, g3⟩

end Mastic
