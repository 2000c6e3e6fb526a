import Verif.Lemmas.Main
import Verif.Props.AbmRun
import Verif.Props.PmRun

/-!
# C62: what a whole run of the driver program prints
-/

namespace Mastic

variable {P : Prims}

/-- The clients of a run form a population in the sense of C26. -/
theorem main_population {c0 c1 : ServerCfg} {cfg : Config} {draw : MainDraw} {n d : Nat}
    {sh : List (ReportShare × ReportShare)} (hb : 1 ≤ cfg.histBuckets)
    (hcomp : ∀ i < n, Spec.FlpCompleteAt P cfg.histBuckets (P.xofField draw.verifyKey
      (Spec.MainDraw.of draw i).rand.nonce.toList (P.queryRandLen cfg.histBuckets)))
    (hrej : Spec.BumpsRejected P cfg.histBuckets d c0.serverId c1.serverId draw n)
    (hlen : sh.length = n)
    (hsh : ∀ i < n, ∃ ks p0 p ps jr, genMasticReport P cfg.histBuckets
          (Spec.drawn cfg.histBuckets d (Spec.MainDraw.of draw i)).1
          (Spec.drawn cfg.histBuckets d (Spec.MainDraw.of draw i)).2 (Spec.MainDraw.of draw i).rand
          = .ok (.mastic (Spec.MainDraw.of draw i).rand.nonce ks (p0, p :: ps) jr
              (Spec.drawn cfg.histBuckets d (Spec.MainDraw.of draw i)).1) ∧
        sh[i]? = some (.mastic (Spec.MainDraw.of draw i).rand.nonce ks.1 p0 jr,
          .mastic (Spec.MainDraw.of draw i).rand.nonce ks.2 (sentProof (draw.picks i).2 p ps) jr)) :
    Spec.Population P cfg.histBuckets d c0.serverId c1.serverId draw.verifyKey
      (Spec.mainClients cfg.histBuckets d draw n)
      (uploaded P c0 c1 cfg draw.verifyKey sh).1.reportShares
      (uploaded P c0 c1 cfg draw.verifyKey sh).2.reportShares := by
  refine ⟨by simp [uploaded, Spec.mainClients, hlen], by simp [uploaded, Spec.mainClients, hlen], ?_⟩
  intro i c b0 b1 s0 s1 hc g0 g1
  have hi : i < n := by
    have := (List.getElem?_eq_some_iff.1 hc).1
    simpa [Spec.mainClients] using this
  obtain ⟨ks, p0, p, ps, jr, hgen, e⟩ := hsh i hi
  simp only [uploaded, List.getElem?_map, e, Option.map_some, Option.some.injEq, Prod.mk.injEq] at g0 g1
  obtain ⟨rfl, rfl⟩ := g0
  obtain ⟨rfl, rfl⟩ := g1
  refine ⟨rfl, rfl, ?_⟩
  have hpair : Spec.HonestPair P cfg.histBuckets (Spec.drawn cfg.histBuckets d (Spec.MainDraw.of draw i)).1
      (Spec.drawn cfg.histBuckets d (Spec.MainDraw.of draw i)).2
      (.mastic (Spec.MainDraw.of draw i).rand.nonce ks.1 p0 jr)
      (.mastic (Spec.MainDraw.of draw i).rand.nonce ks.2 (p :: ps) jr) := ⟨_, _, hgen, rfl⟩
  have hdl : (Spec.drawn cfg.histBuckets d (Spec.MainDraw.of draw i)).1.length = d := by simp [Spec.drawn]
  have hhon : (draw.picks i).2 ≠ some .flp → c = some (Spec.drawn cfg.histBuckets d (Spec.MainDraw.of draw i)) ∧
      sentProof (draw.picks i).2 p ps = p :: ps := by
    intro hne
    simp only [Spec.mainClients, List.getElem?_map, List.getElem?_range hi, Option.map_some,
      Option.some.injEq] at hc
    rw [← hc]
    cases ht : (draw.picks i).2 with
    | none => exact ⟨rfl, rfl⟩
    | some t =>
      cases t with
      | key => exact ⟨rfl, rfl⟩
      | flp => exact absurd ht hne
  by_cases ht : (draw.picks i).2 = some .flp
  · have : c = none := by
      simp only [Spec.mainClients, List.getElem?_map, List.getElem?_range hi, Option.map_some,
        Option.some.injEq, ht] at hc
      exact hc.symm
    subst this
    obtain ⟨k0, k1, -, -, -, -, w0, w1, -⟩ := honestPair_facts hpair
    rw [hdl] at w0 w1
    rw [ht]
    refine ⟨w0, ?_, hrej i _ ks p0 ps p jr _ hi ht hgen⟩
    obtain ⟨k, hk, hk'⟩ := w1
    exact ⟨k, by simpa [Spec.keyOf] using hk, hk'⟩
  · obtain ⟨rfl, e2⟩ := hhon ht
    rw [e2]
    exact ⟨hpair, hdl, hcomp i hi⟩

/-- **C62, weighted heavy hitters.**  With a sensible configuration, honest report generation and the two kinds of
simulated misbehaviour, the program prints exactly the heavy hitters among the clients whose FLP proof was not
tampered with (those who "tamper with the key" count as honest, see C52) if some prefix of length `d - 2` is
heavy, whatever the batch sizes and builds; otherwise it panics. -/
theorem C62_weighted_heavy_hitters {c0 c1 : ServerCfg} {bld : Build} {cfg : Config} {draw : MainDraw}
    {n d : Nat} {kcs : Pair2 P} (hs : Spec.Sensible P cfg draw n) (hprove : Spec.Proves P cfg draw)
    (hd : cfg.dataBits = some d) (hs0 : c0.dataBits = some d) (hs1 : c1.dataBits = some d) (hd2 : 2 ≤ d)
    (h0 : c0.serverId = 0) (h1 : c1.serverId ≠ 0)
    (hcomp : ∀ i < n, Spec.FlpCompleteAt P cfg.histBuckets (P.xofField draw.verifyKey
      (Spec.MainDraw.of draw i).rand.nonce.toList (P.queryRandLen cfg.histBuckets)))
    (hrej : Spec.BumpsRejected P cfg.histBuckets d c0.serverId c1.serverId draw n)
    {clients : List (List Bool × Nat)}
    (hcl : clients = (Spec.mainClients cfg.histBuckets d draw n).filterMap id) (hne : clients ≠ [])
    (hlt : n < 2 ^ 64) :
    ((d = 2 ∨ ∃ s : List Bool, s.length = d - 2 ∧
        max 1 cfg.threshold ≤ (clients.filter fun c => s.isPrefixOf c.1).length) →
      ∃ out, driverMain c0 c1 bld cfg .weightedHeavyHitters draw n kcs = .ok (.whh out) ∧
        out.results.map (fun r => (r.path, r.value))
          = Spec.heavyHitters cfg.histBuckets (max 1 cfg.threshold) d clients ∧
        out.printed = out.results.filter (fun r => decide (r.value.getD (cfg.histBuckets - 1) 0 ≠ 0)) ∧
        out.kcs.1.reportShares.map Prod.fst = (List.range n).map fun i => (draw.picks i).2 matches none | some .key) ∧
    ((∀ s : List Bool, s.length = d - 2 →
        (clients.filter fun c => s.isPrefixOf c.1).length < max 1 cfg.threshold) → 3 ≤ d →
      driverMain c0 c1 bld cfg .weightedHeavyHitters draw n kcs = .error .index) := by
  obtain ⟨reports, sh, hg, -, -, hp, hlen, hsh⟩ := mastic_picks (P := P) (mode := .weightedHeavyHitters) hs
    hprove (by simp) hd
  rw [driverMain_eq hs hg hp]
  have hpop := main_population (c0 := c0) (c1 := c1) hs.buckets hcomp hrej hlen hsh
  have hcn : (Spec.mainClients cfg.histBuckets d draw n).length = n := by simp [Spec.mainClients]
  obtain ⟨w1, w2⟩ := whh_population (c0 := c0) (c1 := c1) (bld := bld) (cfg := cfg)
    (kcs := uploaded P c0 c1 cfg draw.verifyKey sh) hd hd2 hs.queryBatch rfl rfl h0 h1 rfl hs0 hs1 hpop
    (hcl ▸ hne) (lt_of_le_of_lt (List.length_filterMap_le _ _) (hcn.symm ▸ hlt))
  rw [hcn, ← hcl] at w1 w2
  constructor
  · intro hpre
    obtain ⟨out, g1, g2, g3, g4, -⟩ := w1 (by
      rcases hpre with rfl | ⟨s, a, b⟩
      · exact ⟨[], rfl, fun h => absurd rfl h⟩
      · exact ⟨s, a, fun _ => b⟩)
    refine ⟨out, by simp only [g1, ok_bind], g2, g3, ?_⟩
    rw [g4]
    apply List.ext_getElem?
    intro i
    by_cases hi : i < n
    · obtain ⟨ks, p0, p, ps, jr, -, e⟩ := hsh i hi
      simp only [Spec.masked, uploaded, List.getElem?_map, List.getElem?_zipWith, e, Spec.mainClients,
        List.getElem?_range hi, Option.map_some, Bool.true_and]
      cases (draw.picks i).2 with
      | none => rfl
      | some t => cases t <;> rfl
    · rw [List.getElem?_eq_none (by simp [Spec.masked, uploaded, hlen, Spec.mainClients]; omega),
        List.getElem?_eq_none (by simpa using hi)]
  · intro hpre hd3
    simp only [(w2 (by
      rintro ⟨s, a, b⟩
      have := hpre s a
      have := b (by rintro rfl; simp at a; omega)
      simp only [Spec.holders] at this
      omega)).run, error_bind]

/-- Where the run of the second part of C62 stops. -/
theorem main_whh_stops {c0 c1 : ServerCfg} {bld : Build} {cfg : Config} {draw : MainDraw}
    {n d : Nat} (hs : Spec.Sensible P cfg draw n) (hprove : Spec.Proves P cfg draw)
    (hd : cfg.dataBits = some d) (hs0 : c0.dataBits = some d) (hs1 : c1.dataBits = some d) (hd3 : 3 ≤ d)
    (h0 : c0.serverId = 0) (h1 : c1.serverId ≠ 0)
    (hcomp : ∀ i < n, Spec.FlpCompleteAt P cfg.histBuckets (P.xofField draw.verifyKey
      (Spec.MainDraw.of draw i).rand.nonce.toList (P.queryRandLen cfg.histBuckets)))
    (hrej : Spec.BumpsRejected P cfg.histBuckets d c0.serverId c1.serverId draw n)
    {clients : List (List Bool × Nat)}
    (hcl : clients = (Spec.mainClients cfg.histBuckets d draw n).filterMap id) (hne : clients ≠ [])
    (hlt : n < 2 ^ 64)
    (hpre : ∀ s : List Bool, s.length = d - 2 →
        (clients.filter fun c => s.isPrefixOf c.1).length < max 1 cfg.threshold) :
    ∃ reports sh, generateReports P cfg .weightedHeavyHitters draw.reports = .ok reports ∧
      mapE (pickShares reports) ((List.range n).map draw.picks) = .ok sh ∧
      WhhStops c0 c1 bld cfg (uploaded P c0 c1 cfg draw.verifyKey sh) n .index := by
  obtain ⟨reports, sh, hg, -, -, hp, hlen, hsh⟩ := mastic_picks (P := P) (mode := .weightedHeavyHitters) hs
    hprove (by simp) hd
  have hpop := main_population (c0 := c0) (c1 := c1) hs.buckets hcomp hrej hlen hsh
  have hcn : (Spec.mainClients cfg.histBuckets d draw n).length = n := by simp [Spec.mainClients]
  obtain ⟨-, w2⟩ := whh_population (c0 := c0) (c1 := c1) (bld := bld) (cfg := cfg)
    (kcs := uploaded P c0 c1 cfg draw.verifyKey sh) hd (by omega) hs.queryBatch rfl rfl h0 h1 rfl hs0 hs1 hpop
    (hcl ▸ hne) (lt_of_le_of_lt (List.length_filterMap_le _ _) (hcn.symm ▸ hlt))
  rw [hcn, ← hcl] at w2
  refine ⟨reports, sh, hg, hp, w2 ?_⟩
  rintro ⟨s, a, b⟩
  have := hpre s a
  have := b (by rintro rfl; simp at a; omega)
  simp only [Spec.holders] at this
  omega

/-- What the sampling of attributes returns. -/
theorem mainAttributes_ok {draw : MainDraw} {reports : List PlaintextReport} {num u : Nat}
    {alpha : Nat → List Bool} (hz : draw.zipfOk = true) (hl : reports.length = u)
    (hr : ∀ i < u, ∃ r, reports[i]? = some r ∧ r.unwrapAlpha = .ok (alpha i)) :
    ((∀ j < num, draw.attributes j < u) → mainAttributes reports draw num
      = .ok (draw.setOrder (((List.range num).map fun j => alpha (draw.attributes j)).dedup))) ∧
    ((∃ j < num, u ≤ draw.attributes j) → mainAttributes reports draw num = .error .index) := by
  unfold mainAttributes sampleAttributes
  rw [hz, if_neg (by simp), mapE_map]
  have hok : ∀ s, s < u → (idx reports s >>= fun r => r.unwrapAlpha) = .ok (alpha s) := by
    intro s hs
    obtain ⟨r, h1, h2⟩ := hr s hs
    rw [idx_eq_ok.2 h1, ok_bind, h2]
  have herr : ∀ s, u ≤ s → (idx reports s >>= fun r => r.unwrapAlpha) = .error .index := by
    intro s hs
    rw [idx_error_of_ge (by omega)]; rfl
  constructor
  · intro h
    rw [mapE_ok_of_forall (g := fun j => alpha (draw.attributes j)) fun j hj => hok _ (h j (List.mem_range.1 hj)),
      ok_bind]
  · rintro ⟨j, hj, hu⟩
    have : ∀ l : List Nat, j ∈ l →
        mapE (fun a => idx reports (draw.attributes a) >>= fun r => r.unwrapAlpha) l = .error .index := by
      intro l hm
      induction l with
      | nil => simp at hm
      | cons a l ih =>
        rw [mapE_cons]
        rcases Nat.lt_or_ge (draw.attributes a) u with h | h
        · rw [hok _ h, ok_bind, ih (by
            rcases List.mem_cons.1 hm with rfl | hm
            · omega
            · exact hm)]
          rfl
        · rw [herr _ h]; rfl
    rw [this _ (List.mem_range.2 hj)]
    rfl

/-- The attribute-based-metrics run on the uploaded shares of clients who do not tamper with their proofs. -/
theorem main_abm {c0 c1 : ServerCfg} {cfg : Config} {draw : MainDraw} {n d : Nat} {attrs : List (List Bool)}
    {rs : List (Nat × Nat)} {sh : List (ReportShare × ReportShare)} (hb : 1 ≤ cfg.queryBatch) (hd1 : 1 ≤ d)
    (h0 : c0.serverId = 0) (h1 : c1.serverId ≠ 0)
    (hcomp : ∀ i < n, Spec.FlpCompleteAt P cfg.histBuckets (P.xofField draw.verifyKey
      (Spec.MainDraw.of draw i).rand.nonce.toList (P.queryRandLen cfg.histBuckets)))
    (htam : ∀ i < n, (draw.picks i).2 ≠ some .flp) (hlen : sh.length = n)
    (hsh : ∀ i < n, ∃ ks p0 p ps jr, genMasticReport P cfg.histBuckets
          (Spec.drawn cfg.histBuckets d (Spec.MainDraw.of draw i)).1
          (Spec.drawn cfg.histBuckets d (Spec.MainDraw.of draw i)).2 (Spec.MainDraw.of draw i).rand
          = .ok (.mastic (Spec.MainDraw.of draw i).rand.nonce ks (p0, p :: ps) jr
              (Spec.drawn cfg.histBuckets d (Spec.MainDraw.of draw i)).1) ∧
        sh[i]? = some (.mastic (Spec.MainDraw.of draw i).rand.nonce ks.1 p0 jr,
          .mastic (Spec.MainDraw.of draw i).rand.nonce ks.2 (sentProof (draw.picks i).2 p ps) jr))
    (hattr : ∀ p ∈ attrs, p ≠ [] ∧ p.length ≤ d) {clients : List (List Bool × Nat)}
    (hcl : clients = (List.range n).map fun i => Spec.drawn cfg.histBuckets d (Spec.MainDraw.of draw i))
    (hrs : stepByRanges n cfg.queryBatch = .ok rs) :
    ∃ kcs', runAbm c0 c1 cfg (uploaded P c0 c1 cfg draw.verifyKey sh) attrs n = .ok (kcs', rs.map fun r =>
      ⟨[], Spec.attributeHistograms cfg.histBuckets attrs (clients.take r.2)⟩) := by
  have hcn : clients.length = n := by rw [hcl]; simp
  have hget : ∀ (i : Nat) (c : List Bool × Nat), clients[i]? = some c → i < n ∧
      c = Spec.drawn cfg.histBuckets d (Spec.MainDraw.of draw i) := by
    intro i c hc
    have hi : i < n := hcn ▸ (List.getElem?_eq_some_iff.1 hc).1
    rw [hcl, List.getElem?_map, List.getElem?_range hi] at hc
    exact ⟨hi, by simpa using hc.symm⟩
  obtain ⟨kcs', q⟩ := abm_batches (c0 := c0) (c1 := c1) (cfg := cfg)
    (kcs := uploaded P c0 c1 cfg draw.verifyKey sh) (clients := clients) (attrs := attrs) (rs := rs) hb rfl rfl h0 h1
    rfl (by
      refine ⟨by simp [uploaded, hlen, hcn], by simp [uploaded, hlen, hcn], ?_⟩
      intro i c r0 r1 hc g0 g1
      obtain ⟨hi, rfl⟩ := hget i c hc
      obtain ⟨ks, p0, p, ps, jr, hgen, e⟩ := hsh i hi
      simp only [uploaded, List.getElem?_map, e, Option.map_some, Option.some.injEq] at g0 g1
      subst g0; subst g1
      refine ⟨_, _, hgen, ?_⟩
      have : sentProof (draw.picks i).2 p ps = p :: ps := by
        have := htam i hi
        unfold sentProof
        split
        · contradiction
        · rfl
      rw [this]; rfl)
    (by
      intro r hr
      obtain ⟨i, hi⟩ := List.mem_iff_getElem?.1 hr
      have hin : i < n := by
        have := (List.getElem?_eq_some_iff.1 hi).1
        simpa [uploaded, hlen] using this
      obtain ⟨ks, p0, p, ps, jr, hgen, e⟩ := hsh i hin
      simp only [uploaded, List.getElem?_map, e, Option.map_some, Option.some.injEq] at hi
      subst hi
      exact hcomp i hin)
    (by
      intro c hc
      obtain ⟨i, hi⟩ := List.mem_iff_getElem?.1 hc
      obtain ⟨-, rfl⟩ := hget i c hi
      refine ⟨fun h => ?_, fun p hp => ⟨(hattr p hp).1, by simpa [Spec.drawn] using (hattr p hp).2⟩⟩
      have := congrArg List.length h
      simp [Spec.drawn] at this
      omega) rfl rfl (by rw [hcn]; exact hrs)
  rw [hcn] at q
  exact ⟨kcs', q⟩

/-- **C62, attribute-based metrics.**  With a sensible configuration and no tampered FLP proofs the program panics
if one of the Zipf samples for the attributes is the largest one.  Otherwise the attributes are the strings of the
reports *after* the sampled ones, without repetition, and for every batch the program prints for every attribute
the histogram of the weights of the clients below the end of the batch holding it. -/
theorem C62_attribute_based_metrics {c0 c1 : ServerCfg} {bld : Build} {cfg : Config} {draw : MainDraw}
    {n d num : Nat} {kcs : Pair2 P} (hs : Spec.Sensible P cfg draw n) (hprove : Spec.Proves P cfg draw)
    (hd : cfg.dataBits = some d) (hd1 : 1 ≤ d) (h0 : c0.serverId = 0) (h1 : c1.serverId ≠ 0)
    (hcomp : ∀ i < n, Spec.FlpCompleteAt P cfg.histBuckets (P.xofField draw.verifyKey
      (Spec.MainDraw.of draw i).rand.nonce.toList (P.queryRandLen cfg.histBuckets)))
    (htam : ∀ i < n, (draw.picks i).2 ≠ some .flp)
    (hattr : ∀ j < num, draw.attributes j ≤ cfg.uniqueBuckets)
    {clients : List (List Bool × Nat)}
    (hcl : clients = (List.range n).map fun i => Spec.drawn cfg.histBuckets d (Spec.MainDraw.of draw i)) :
    ((∃ j < num, draw.attributes j = cfg.uniqueBuckets) →
      driverMain c0 c1 bld cfg (.attributeBasedMetrics num) draw n kcs = .error .index) ∧
    ((∀ j < num, draw.attributes j ≠ cfg.uniqueBuckets) → ∃ attributes ranges,
      driverMain c0 c1 bld cfg (.attributeBasedMetrics num) draw n kcs = .ok (.abm attributes
        (ranges.map fun r => ⟨[], Spec.attributeHistograms cfg.histBuckets attributes (clients.take r.2)⟩)) ∧
      attributes.Nodup ∧
      (∀ a, a ∈ attributes ↔ ∃ j < num, a = (List.range d).map (draw.reports (draw.attributes j)).bits) ∧
      Spec.Partitions n ranges ∧ ∀ r ∈ ranges, r.2 ≤ r.1 + cfg.queryBatch) := by
  obtain ⟨reports, sh, hg, hrl, hra, hp, hlen, hsh⟩ := mastic_picks (P := P)
    (mode := .attributeBasedMetrics num) hs hprove (by simp) hd
  rw [driverMain_eq hs hg hp]
  obtain ⟨a1, a2⟩ := mainAttributes_ok (num := num) hs.zipf hrl hra
  constructor
  · rintro ⟨j, hj, e⟩
    simp only [a2 ⟨j, hj, e.ge⟩, error_bind]
  · intro hne
    have ha := a1 fun j hj => lt_of_le_of_ne (hattr j hj) (hne j hj)
    have hmem : ∀ a, a ∈ draw.setOrder (((List.range num).map fun j =>
        (Spec.drawn cfg.histBuckets d (draw.reports (draw.attributes j))).1).dedup) ↔
        ∃ j < num, a = (List.range d).map (draw.reports (draw.attributes j)).bits := by
      intro a
      rw [(draw.setOrder_perm _).mem_iff, List.mem_dedup, List.mem_map]
      constructor
      · rintro ⟨j, hj, rfl⟩; exact ⟨j, List.mem_range.1 hj, rfl⟩
      · rintro ⟨j, hj, rfl⟩; exact ⟨j, List.mem_range.2 hj, rfl⟩
    obtain ⟨ranges, hrs, q1, q2⟩ := stepByRanges_spec (n := n) hs.queryBatch
    obtain ⟨kcs', q3⟩ := main_abm (c0 := c0) (c1 := c1) hs.queryBatch hd1 h0 h1 hcomp htam hlen hsh
      (attrs := draw.setOrder (((List.range num).map fun j =>
        (Spec.drawn cfg.histBuckets d (draw.reports (draw.attributes j))).1).dedup)) (by
        intro p hp
        obtain ⟨j, -, rfl⟩ := (hmem p).1 hp
        refine ⟨fun h => ?_, by simp⟩
        have := congrArg List.length h
        simp at this
        omega) hcl hrs
    refine ⟨_, ranges, ?_, ?_, hmem, q1, q2⟩
    · simp only [ha, ok_bind, q3]
    · exact (draw.setOrder_perm _).nodup_iff.2 (List.nodup_dedup _)

/-- The clients of a run have honest keys. -/
theorem main_honestKeys {c0 c1 : ServerCfg} {cfg : Config} {draw : MainDraw} {n d : Nat}
    {sh : List (ReportShare × ReportShare)}
    (hcomp : ∀ i < n, Spec.FlpCompleteAt P cfg.histBuckets (P.xofField draw.verifyKey
      (Spec.MainDraw.of draw i).rand.nonce.toList (P.queryRandLen cfg.histBuckets)))
    (hrej : Spec.BumpsRejected P cfg.histBuckets d c0.serverId c1.serverId draw n)
    (hlen : sh.length = n)
    (hsh : ∀ i < n, ∃ ks p0 p ps jr, genMasticReport P cfg.histBuckets
          (Spec.drawn cfg.histBuckets d (Spec.MainDraw.of draw i)).1
          (Spec.drawn cfg.histBuckets d (Spec.MainDraw.of draw i)).2 (Spec.MainDraw.of draw i).rand
          = .ok (.mastic (Spec.MainDraw.of draw i).rand.nonce ks (p0, p :: ps) jr
              (Spec.drawn cfg.histBuckets d (Spec.MainDraw.of draw i)).1) ∧
        sh[i]? = some (.mastic (Spec.MainDraw.of draw i).rand.nonce ks.1 p0 jr,
          .mastic (Spec.MainDraw.of draw i).rand.nonce ks.2 (sentProof (draw.picks i).2 p ps) jr)) :
    Spec.HonestKeys P cfg.histBuckets d c0.serverId c1.serverId draw.verifyKey
      ((List.range n).map fun i => (Spec.drawn cfg.histBuckets d (Spec.MainDraw.of draw i),
        Spec.bumps (draw.picks i).2))
      (uploaded P c0 c1 cfg draw.verifyKey sh).1.reportShares
      (uploaded P c0 c1 cfg draw.verifyKey sh).2.reportShares := by
  refine ⟨by simp [uploaded, hlen], by simp [uploaded, hlen], ?_⟩
  intro i c r0 r1 hc g0 g1
  have hi : i < n := by
    have := (List.getElem?_eq_some_iff.1 hc).1
    simpa using this
  rw [List.getElem?_map, List.getElem?_range hi, Option.map_some, Option.some.injEq] at hc
  subst hc
  obtain ⟨ks, p0, p, ps, jr, hgen, e⟩ := hsh i hi
  simp only [uploaded, List.getElem?_map, e, Option.map_some, Option.some.injEq] at g0 g1
  subst g0; subst g1
  have hpair : Spec.HonestPair P cfg.histBuckets (Spec.drawn cfg.histBuckets d (Spec.MainDraw.of draw i)).1
      (Spec.drawn cfg.histBuckets d (Spec.MainDraw.of draw i)).2
      (.mastic (Spec.MainDraw.of draw i).rand.nonce ks.1 p0 jr)
      (.mastic (Spec.MainDraw.of draw i).rand.nonce ks.2 (p :: ps) jr) := ⟨_, _, hgen, rfl⟩
  refine ⟨by simp [Spec.drawn], hcomp i hi, ?_⟩
  by_cases ht : (draw.picks i).2 = some .flp
  · rw [if_pos (by rw [ht]; rfl)]
    refine ⟨⟨_, hpair, rfl, rfl, rfl⟩, ?_⟩
    rw [ht]
    exact hrej i _ ks p0 ps p jr _ hi ht hgen
  · rw [if_neg (by
      unfold Spec.bumps
      split
      · rename_i h; exact absurd h ht
      · simp)]
    have : sentProof (draw.picks i).2 p ps = p :: ps := by
      unfold sentProof
      split
      · rename_i h; exact absurd h ht
      · rfl
    rw [this]
    exact hpair

/-- **C62, attribute-based metrics with tampered FLP proofs.**  Debug servers print the tampering clients of each batch
and count the others; release servers print the same lists and count everybody, so that "rejected" clients are part of
the printed histograms. -/
theorem C62_attribute_tampering {c0 c1 : ServerCfg} {bld : Build} {cfg : Config} {draw : MainDraw}
    {n d num L : Nat} {kcs : Pair2 P} (hs : Spec.Sensible P cfg draw n) (hprove : Spec.Proves P cfg draw)
    (hd : cfg.dataBits = some d) (hd1 : 1 ≤ d) (h0 : c0.serverId = 0) (h1 : c1.serverId ≠ 0)
    (hcomp : ∀ i < n, Spec.FlpCompleteAt P cfg.histBuckets (P.xofField draw.verifyKey
      (Spec.MainDraw.of draw i).rand.nonce.toList (P.queryRandLen cfg.histBuckets)))
    (hrej : Spec.BumpsRejected P cfg.histBuckets d c0.serverId c1.serverId draw n)
    (hL : Spec.VerifierLen P cfg.histBuckets L)
    (hattr : ∀ j < num, draw.attributes j < cfg.uniqueBuckets)
    {clients : List ((List Bool × Nat) × Bool)}
    (hcl : clients = (List.range n).map fun i => (Spec.drawn cfg.histBuckets d (Spec.MainDraw.of draw i),
      Spec.bumps (draw.picks i).2)) :
    ∃ attributes, attributes.Nodup ∧
      (∀ a, a ∈ attributes ↔ ∃ j < num, a = (List.range d).map (draw.reports (draw.attributes j)).bits) ∧
      (c0.build = .debug → c1.build = .debug → ∃ ranges,
        driverMain c0 c1 bld cfg (.attributeBasedMetrics num) draw n kcs = .ok (.abm attributes
          (ranges.map fun r => ⟨(List.range' r.1 (r.2 - r.1)).filter fun i => (clients[i]?.map Prod.snd) == some true,
            Spec.attributeHistograms cfg.histBuckets attributes
              (((clients.take r.2).filter fun c => !c.2).map Prod.fst)⟩)) ∧
        Spec.Partitions n ranges ∧ ∀ r ∈ ranges, r.2 ≤ r.1 + cfg.queryBatch) ∧
      (c0.build = .release → c1.build = .release → ∃ ranges,
        driverMain c0 c1 bld cfg (.attributeBasedMetrics num) draw n kcs = .ok (.abm attributes
          (ranges.map fun r => ⟨(List.range' r.1 (r.2 - r.1)).filter fun i => (clients[i]?.map Prod.snd) == some true,
            Spec.attributeHistograms cfg.histBuckets attributes ((clients.take r.2).map Prod.fst)⟩)) ∧
        Spec.Partitions n ranges ∧ ∀ r ∈ ranges, r.2 ≤ r.1 + cfg.queryBatch) := by
  obtain ⟨reports, sh, hg, hrl, hra, hp, hlen, hsh⟩ := mastic_picks (P := P)
    (mode := .attributeBasedMetrics num) hs hprove (by simp) hd
  rw [driverMain_eq hs hg hp]
  have ha := (mainAttributes_ok (num := num) hs.zipf hrl hra).1 hattr
  have hmem : ∀ a, a ∈ draw.setOrder (((List.range num).map fun j =>
      (Spec.drawn cfg.histBuckets d (draw.reports (draw.attributes j))).1).dedup) ↔
      ∃ j < num, a = (List.range d).map (draw.reports (draw.attributes j)).bits := by
    intro a
    rw [(draw.setOrder_perm _).mem_iff, List.mem_dedup, List.mem_map]
    constructor
    · rintro ⟨j, hj, rfl⟩; exact ⟨j, List.mem_range.1 hj, rfl⟩
    · rintro ⟨j, hj, rfl⟩; exact ⟨j, List.mem_range.2 hj, rfl⟩
  set attrs := draw.setOrder (((List.range num).map fun j =>
      (Spec.drawn cfg.histBuckets d (draw.reports (draw.attributes j))).1).dedup)
  have hkeys := main_honestKeys (c0 := c0) (c1 := c1) hcomp hrej hlen hsh
  rw [← hcl] at hkeys
  have hcn : clients.length = n := by rw [hcl]; simp
  have hal : ∀ p ∈ attrs, p ≠ [] ∧ p.length ≤ d := by
    intro p hp
    obtain ⟨j, -, rfl⟩ := (hmem p).1 hp
    refine ⟨fun h => ?_, by simp⟩
    have := congrArg List.length h
    simp at this; omega
  refine ⟨attrs, (draw.setOrder_perm _).nodup_iff.2 (List.nodup_dedup _), hmem, fun hb0 hb1 => ?_, fun hb0 hb1 => ?_⟩
  · obtain ⟨kcs', ranges, q1, q2, q3⟩ := C63_debug_exact (c0 := c0) (c1 := c1) (cfg := cfg)
      (kcs := uploaded P c0 c1 cfg draw.verifyKey sh) hs.queryBatch hd1 rfl rfl h0 h1 rfl hal hb0 hb1
      (HonestKeys.population hd1 hal hL hkeys) rfl rfl
    rw [List.length_map, hcn] at q1 q2
    refine ⟨ranges, ?_, q2, q3⟩
    simp only [ha, ok_bind, q1]
    congr 3
    funext r
    congr 1
    · refine List.filter_congr fun i _ => ?_
      rw [List.getElem?_map]
      cases clients[i]? with
      | none => rfl
      | some c => rcases c with ⟨c, t⟩; cases t <;> rfl
    · congr 1
      rw [← List.map_take, List.filterMap_map]
      induction clients.take r.2 with
      | nil => rfl
      | cons c l ih =>
        rcases c with ⟨c, t⟩
        cases t
        · rw [List.filterMap_cons_some (b := c) (by rfl), List.filter_cons_of_pos (by rfl), ih]; rfl
        · rw [List.filterMap_cons_none (by rfl), List.filter_cons_of_neg (by simp), ih]
  · obtain ⟨kcs', ranges, q1, q2, q3⟩ := C63_release_counts_all (c0 := c0) (c1 := c1) (cfg := cfg)
      (kcs := uploaded P c0 c1 cfg draw.verifyKey sh) hs.queryBatch hd1 rfl rfl h0 h1 rfl hal hL hb0 hb1
      hkeys rfl rfl
    rw [hcn] at q1 q2
    refine ⟨ranges, ?_, q2, q3⟩
    simp only [ha, ok_bind, q1]

/-- After reset and upload both servers are in reachable states. -/
theorem uploaded_reachable {c0 c1 : ServerCfg} {cfg : Config} (h : P.histOk cfg.histBuckets = true)
    (vk : Block) (sh : List (ReportShare × ReportShare)) :
    Spec.Reachable P c0 cfg.histBuckets (uploaded P c0 c1 cfg vk sh).1 ∧
    Spec.Reachable P c1 cfg.histBuckets (uploaded P c0 c1 cfg vk sh).2 := by
  constructor
  · refine ⟨[.reset vk cfg.histBuckets, .addReportShares (sh.map Prod.fst)], ?_⟩
    simp [Server.run, Server.start, Server.handle, preLock, locked, srvReset, h, srvAdd_eq, uploaded,
      KeyCollection.new]
  · refine ⟨[.reset vk cfg.histBuckets, .addReportShares (sh.map Prod.snd)], ?_⟩
    simp [Server.run, Server.start, Server.handle, preLock, locked, srvReset, h, srvAdd_eq, uploaded,
      KeyCollection.new]

/-- A generated plain-metrics report carries the nonce it is generated with. -/
theorem prio3_nonce {n bucket rand : Nat} {nonce : Block} {rep : PlaintextReport}
    (h : genPrio3Report P n bucket nonce rand = .ok rep) : rep.toShares.1.nonce = nonce := by
  unfold genPrio3Report at h
  split at h
  · cases h
  obtain ⟨_, -, h⟩ := bind_eq_ok.1 h
  cases h
  rfl

/-- **C62, plain metrics.**  With a sensible configuration, no tampering and a complete Prio3, the program prints
for every batch the exact number of clients of the batch in every bucket, and rejects nobody. -/
theorem C62_plain_metrics {c0 c1 : ServerCfg} {bld : Build} {cfg : Config} {draw : MainDraw} {n : Nat}
    {kcs : Pair2 P} (hs : Spec.Sensible P cfg draw n)
    (hok : P.prio3Ok cfg.histBuckets = true)
    (hshard : ∀ (bucket : Nat) (nonce : Block) (rand : Nat), bucket < cfg.histBuckets →
      (P.prio3Shard cfg.histBuckets bucket nonce rand).isSome)
    (hrt : Spec.SharesRead P cfg.histBuckets)
    (hun : ∀ (a b : List Field128) (m : Nat), a.length = cfg.histBuckets → b.length = cfg.histBuckets →
      P.prio3Unshard cfg.histBuckets a b m = some ((Spec.addShares a b).map ZMod.val))
    (hcomp : ∀ i < n, ∀ (bucket : Nat) (s0 s1 : ReportShare), s0.nonce = (Spec.MainDraw.of draw i).rand.nonce →
      Spec.HonestPrio3 P cfg.histBuckets bucket s0 s1 →
      Spec.Prio3Complete P cfg.histBuckets c1.serverId.toNat draw.verifyKey draw.verifyKey bucket s0 s1)
    (h0 : c0.serverId = 0) (h1 : 0 < c1.serverId) (hsmall : n < fieldModulus)
    (htam : ∀ i < n, (draw.picks i).2 = none) {buckets : List Nat}
    (hbk : buckets = (List.range n).map fun i => (Spec.MainDraw.of draw i).bucket % cfg.histBuckets) :
    ∃ ranges, driverMain c0 c1 bld cfg .plainMetrics draw n kcs = .ok (.pm (ranges.map fun r =>
        ⟨0, Spec.bucketCounts cfg.histBuckets ((buckets.drop r.1).take (r.2 - r.1))⟩)) ∧
      Spec.Partitions n ranges ∧ ∀ r ∈ ranges, r.2 ≤ r.1 + cfg.queryBatch := by
  have hgen : ∀ r : ReportDraw, ∃ rep, genPrio3Report P cfg.histBuckets (r.bucket % cfg.histBuckets)
      r.rand.nonce r.prio3 = .ok rep := by
    intro r
    obtain ⟨⟨pub, i0, i1⟩, e⟩ := Option.isSome_iff_exists.1
      (hshard (r.bucket % cfg.histBuckets) r.rand.nonce r.prio3 (Nat.mod_lt _ hs.buckets))
    exact ⟨.prio3 r.rand.nonce pub (i0, i1), by simp [genPrio3Report, hok, e, unwrapO]⟩
  have hrep : ∀ r : ReportDraw, generateReport P cfg .plainMetrics r
      = genPrio3Report P cfg.histBuckets (r.bucket % cfg.histBuckets) r.rand.nonce r.prio3 := by
    intro r
    unfold generateReport genRange
    rw [if_neg (by have := hs.buckets; omega), ok_bind]
  obtain ⟨reports, hg, hrl, hr⟩ := generateReports_ok (P := P) (mode := .plainMetrics) (draws := draw.reports)
    hs.unique (fun i _ => by rw [hrep]; exact hgen _)
  have hpick : ∀ i < n, ∃ s, pickShares reports (draw.picks i) = .ok s ∧
      Spec.HonestPrio3 P cfg.histBuckets ((Spec.MainDraw.of draw i).bucket % cfg.histBuckets) s.1 s.2 ∧
      s.1.nonce = (Spec.MainDraw.of draw i).rand.nonce := by
    intro i hi
    obtain ⟨g1, g2⟩ := hs.picks i hi
    obtain ⟨r, hr1, hr2⟩ := hr ((draw.picks i).1 - 1) (by omega)
    rw [hrep] at hr2
    refine ⟨r.toShares, ?_, ⟨_, _, r, hr2, rfl⟩, prio3_nonce hr2⟩
    unfold pickShares
    rw [if_neg (by omega), idx_eq_ok.2 hr1, ok_bind, htam i hi]
  have : Nonempty (ReportShare × ReportShare) := ⟨(.prio3 Block.zero [] [], .prio3 Block.zero [] [])⟩
  choose! f hf hf' using hpick
  have hmap : mapE (pickShares reports) ((List.range n).map draw.picks) = .ok ((List.range n).map f) := by
    rw [mapE_map]
    exact mapE_ok_of_forall fun i hi => hf i (List.mem_range.1 hi)
  rw [driverMain_eq hs hg hmap]
  have hbl : buckets.length = n := by rw [hbk]; simp
  have hre := uploaded_reachable (c0 := c0) (c1 := c1) hs.hist draw.verifyKey ((List.range n).map f)
  obtain ⟨kcs', ranges, q1, q2, q3⟩ := C58_honest_exact (c0 := c0) (c1 := c1) (cfg := cfg) (buckets := buckets)
    hre.1 hre.2 hrt hun (fun bucket s0 s1 hm hh => by
      simp only [uploaded, List.map_map, List.mem_map, List.mem_range, Function.comp_apply] at hm
      obtain ⟨i, hi, rfl⟩ := hm
      exact hcomp i hi bucket _ s1 (hf' i hi).2 hh)
    h0 h1 rfl rfl hok hs.queryBatch (hbl.symm ▸ hsmall) (by simp [uploaded, hbl])
    (by simp [uploaded, hbl]) (by
      intro i b r0 r1 hb g0 g1
      have hi : i < n := hbl ▸ (List.getElem?_eq_some_iff.1 hb).1
      rw [hbk, List.getElem?_map, List.getElem?_range hi] at hb
      simp only [Option.map_some, Option.some.injEq] at hb
      subst hb
      simp only [uploaded, List.getElem?_map, List.getElem?_range hi, Option.map_some, Option.some.injEq] at g0 g1
      subst g0; subst g1
      exact (hf' i hi).1)
  rw [hbl] at q1 q3
  exact ⟨ranges, by simp only [q3, ok_bind], q1, q2⟩

/-- **C62, plain metrics with tampered input shares.**  If Prio3 is complete and rejects the tampered reports, the
program prints for every batch the number of tampering clients of the batch and the exact bucket counts of the others. -/
theorem C62_plain_tampering {c0 c1 : ServerCfg} {bld : Build} {cfg : Config} {draw : MainDraw} {n : Nat}
    {kcs : Pair2 P} (hs : Spec.Sensible P cfg draw n)
    (hok : P.prio3Ok cfg.histBuckets = true)
    (hshard : ∀ (bucket : Nat) (nonce : Block) (rand : Nat), bucket < cfg.histBuckets →
      (P.prio3Shard cfg.histBuckets bucket nonce rand).isSome)
    (hrt : Spec.SharesRead P cfg.histBuckets)
    (hun : ∀ (a b : List Field128) (m : Nat), a.length = cfg.histBuckets → b.length = cfg.histBuckets →
      P.prio3Unshard cfg.histBuckets a b m = some ((Spec.addShares a b).map ZMod.val))
    (hcomp : ∀ i < n, ∀ (bucket : Nat) (s0 s1 : ReportShare), s0.nonce = (Spec.MainDraw.of draw i).rand.nonce →
      Spec.HonestPrio3 P cfg.histBuckets bucket s0 s1 →
      Spec.Prio3Complete P cfg.histBuckets c1.serverId.toNat draw.verifyKey draw.verifyKey bucket s0 s1)
    (hrej : Spec.FlipsRejected P cfg.histBuckets c1.serverId.toNat draw n)
    (h0 : c0.serverId = 0) (h1 : 0 < c1.serverId) (hsmall : n < fieldModulus) {clients : List (Option Nat)}
    (hcl : clients = Spec.plainClients cfg.histBuckets draw n) :
    ∃ ranges, driverMain c0 c1 bld cfg .plainMetrics draw n kcs = .ok (.pm (ranges.map fun r =>
        ⟨((clients.drop r.1).take (r.2 - r.1)).countP Option.isNone,
          Spec.bucketCounts cfg.histBuckets (((clients.drop r.1).take (r.2 - r.1)).filterMap id)⟩)) ∧
      Spec.Partitions n ranges ∧ ∀ r ∈ ranges, r.2 ≤ r.1 + cfg.queryBatch := by
  have hgen : ∀ r : ReportDraw, ∃ nonce pub in0 in1, genPrio3Report P cfg.histBuckets
      (r.bucket % cfg.histBuckets) r.rand.nonce r.prio3 = .ok (.prio3 nonce pub (in0, in1)) := by
    intro r
    obtain ⟨⟨pub, i0, i1⟩, e⟩ := Option.isSome_iff_exists.1
      (hshard (r.bucket % cfg.histBuckets) r.rand.nonce r.prio3 (Nat.mod_lt _ hs.buckets))
    exact ⟨r.rand.nonce, pub, i0, i1, by simp [genPrio3Report, hok, e, unwrapO]⟩
  have hrep : ∀ r : ReportDraw, generateReport P cfg .plainMetrics r
      = genPrio3Report P cfg.histBuckets (r.bucket % cfg.histBuckets) r.rand.nonce r.prio3 := by
    intro r
    unfold generateReport genRange
    rw [if_neg (by have := hs.buckets; omega), ok_bind]
  obtain ⟨reports, hg, hrl, hr⟩ := generateReports_ok (P := P) (mode := .plainMetrics) (draws := draw.reports)
    hs.unique (fun i _ => by
      rw [hrep]
      obtain ⟨_, _, _, _, e⟩ := hgen (draw.reports i)
      exact ⟨_, e⟩)
  have hpick : ∀ i < n, ∃ s, pickShares reports (draw.picks i) = .ok s ∧
      s.1.nonce = (Spec.MainDraw.of draw i).rand.nonce ∧ match (if (draw.picks i).2.isSome then none
        else some ((Spec.MainDraw.of draw i).bucket % cfg.histBuckets) : Option Nat) with
      | some bucket => Spec.HonestPrio3 P cfg.histBuckets bucket s.1 s.2
      | none => Spec.Prepared P cfg.histBuckets c1.serverId.toNat draw.verifyKey draw.verifyKey s.1 s.2
          ⟨none, none⟩ := by
    intro i hi
    obtain ⟨g1, g2⟩ := hs.picks i hi
    obtain ⟨r, hr1, hr2⟩ := hr ((draw.picks i).1 - 1) (by omega)
    rw [hrep] at hr2
    cases ht : (draw.picks i).2 with
    | none =>
      refine ⟨r.toShares, ?_, prio3_nonce hr2, _, _, r, hr2, rfl⟩
      unfold pickShares
      rw [if_neg (by omega), idx_eq_ok.2 hr1, ok_bind, ht]
    | some t =>
      obtain ⟨nonce, pub, in0, in1, e⟩ := hgen (Spec.MainDraw.of draw i)
      have : r = .prio3 nonce pub (in0, in1) := by
        have h2 : genPrio3Report P cfg.histBuckets ((Spec.MainDraw.of draw i).bucket % cfg.histBuckets)
          (Spec.MainDraw.of draw i).rand.nonce (Spec.MainDraw.of draw i).prio3 = .ok r := hr2
        rw [e] at h2; injection h2 with h2; exact h2.symm
      subst this
      obtain ⟨b, bs, rfl, hprep⟩ := hrej i nonce pub in0 in1 hi (by rw [ht]; rfl) e
      refine ⟨(.prio3 nonce pub in0, .prio3 nonce pub ((b ^^^ 1) :: bs)), ?_, prio3_nonce e, hprep⟩
      unfold pickShares
      rw [if_neg (by omega), idx_eq_ok.2 hr1, ok_bind, ht]
      rfl
  have : Nonempty (ReportShare × ReportShare) := ⟨(.prio3 Block.zero [] [], .prio3 Block.zero [] [])⟩
  choose! f hf hf' using hpick
  have hmap : mapE (pickShares reports) ((List.range n).map draw.picks) = .ok ((List.range n).map f) := by
    rw [mapE_map]
    exact mapE_ok_of_forall fun i hi => hf i (List.mem_range.1 hi)
  rw [driverMain_eq hs hg hmap]
  have hbl : clients.length = n := by rw [hcl]; simp [Spec.plainClients]
  have hre := uploaded_reachable (c0 := c0) (c1 := c1) hs.hist draw.verifyKey ((List.range n).map f)
  obtain ⟨kcs', ranges, q1, q2, q3⟩ := C64_exact_despite_rejected (c0 := c0) (c1 := c1) (cfg := cfg)
    (clients := clients) hre.1 hre.2 hrt hun (fun bucket s0 s1 hm hh => by
      simp only [uploaded, List.map_map, List.mem_map, List.mem_range, Function.comp_apply] at hm
      obtain ⟨i, hi, rfl⟩ := hm
      exact hcomp i hi bucket _ s1 (hf' i hi).1 hh) h0 h1 rfl rfl hok hs.queryBatch (hbl.symm ▸ hsmall)
    ⟨by simp [uploaded, hbl], by simp [uploaded, hbl], by
      intro i c r0 r1 hb g0 g1
      have hi : i < n := hbl ▸ (List.getElem?_eq_some_iff.1 hb).1
      rw [hcl, Spec.plainClients, List.getElem?_map, List.getElem?_range hi] at hb
      simp only [Option.map_some, Option.some.injEq] at hb
      subst hb
      simp only [uploaded, List.getElem?_map, List.getElem?_range hi, Option.map_some, Option.some.injEq] at g0 g1
      subst g0; subst g1
      exact (hf' i hi).2⟩
  rw [hbl] at q1 q3
  exact ⟨ranges, by simp only [q3, ok_bind], q1, q2⟩

/-- **C62, what a run needs.**  If the program completes, in whatever mode and with whatever draws, then the share
of malicious clients was accepted, the histogram type exists, there are at least one bucket and one generated
report, the string length is configured unless the mode is plain metrics, and with at least one client the upload
batch is not empty and the Zipf exponent is valid. -/
theorem C62_requires {c0 c1 : ServerCfg} {bld : Build} {cfg : Config} {mode : DriverMode} {draw : MainDraw}
    {n : Nat} {kcs : Pair2 P} {out : MainOut P} (h : driverMain c0 c1 bld cfg mode draw n kcs = .ok out) :
    draw.maliciousOk = true ∧ P.histOk cfg.histBuckets = true ∧ 1 ≤ cfg.histBuckets ∧ 1 ≤ cfg.uniqueBuckets ∧
    (mode ≠ .plainMetrics → cfg.dataBits.isSome) ∧ (0 < n → 1 ≤ cfg.addBatch ∧ draw.zipfOk = true) ∧
    (mode ≠ .weightedHeavyHitters → 1 ≤ cfg.queryBatch) ∧
    ∀ i < n, 1 ≤ (draw.picks i).1 ∧ (draw.picks i).1 ≤ cfg.uniqueBuckets := by
  unfold driverMain at h
  obtain ⟨_, hm, h⟩ := bind_eq_ok.1 h
  split at h
  · cases h
  rename_i hh
  obtain ⟨reports, hg, h⟩ := bind_eq_ok.1 h
  obtain ⟨kcs1, hr, h⟩ := bind_eq_ok.1 h
  obtain ⟨kcs2, hu, h⟩ := bind_eq_ok.1 h
  have hmal : draw.maliciousOk = true := by
    unfold assertE at hm
    split at hm
    · assumption
    · cases hm
  unfold generateReports at hg
  obtain ⟨_, ha, hg⟩ := bind_eq_ok.1 hg
  obtain ⟨reports', hmap, hg⟩ := bind_eq_ok.1 hg
  obtain ⟨_, -, hg⟩ := bind_eq_ok.1 hg
  cases hg
  have hub : 1 ≤ cfg.uniqueBuckets := by
    unfold assertE at ha
    split at ha
    · rename_i hx; exact of_decide_eq_true hx
    · cases ha
  have hlen : reports.length = cfg.uniqueBuckets := by rw [mapE_length hmap]; simp
  have hfirst : generateReport P cfg mode (draw.reports 0) = .ok reports[0] := by
    have := mapE_getElem hmap 0 (by rw [List.length_range]; exact hub) (by omega)
    simpa using this
  unfold generateReport at hfirst
  obtain ⟨b, hgr, hfirst⟩ := bind_eq_ok.1 hfirst
  have hbk : 1 ≤ cfg.histBuckets := by
    unfold genRange at hgr
    split at hgr
    · cases hgr
    · omega
  have hdb : mode ≠ .plainMetrics → cfg.dataBits.isSome := by
    intro hne
    cases mode with
    | plainMetrics => exact absurd rfl hne
    | _ =>
      obtain ⟨d, hd, -⟩ := bind_eq_ok.1 hfirst
      cases hx : cfg.dataBits with
      | none => rw [hx] at hd; cases hd
      | some d => rfl
  unfold mainUpload at hu
  split at hu
  · cases hu
  rename_i hz
  have hab : 0 < n → 1 ≤ cfg.addBatch := by
    intro hn
    by_contra hc
    unfold upload at hu
    have hz : cfg.addBatch = 0 := by omega
    rw [hz, (C50_zero_batch _ _ (by simpa using hn)).1] at hu
    cases hu
  refine ⟨hmal, by simpa using hh, hbk, hub, hdb, fun hn => ⟨hab hn, ?_⟩, ?_, ?_⟩
  · by_contra hx
    exact hz ⟨by simpa using hx, hn, hab hn⟩
  · intro hne
    have hstep : ∀ r, stepByRanges n cfg.queryBatch = .ok r → 1 ≤ cfg.queryBatch := by
      intro r hr
      unfold stepByRanges at hr
      split at hr
      · cases hr
      · omega
    cases mode with
    | weightedHeavyHitters => exact absurd rfl hne
    | attributeBasedMetrics num =>
      obtain ⟨attrs, -, h⟩ := bind_eq_ok.1 h
      obtain ⟨o, ho, -⟩ := bind_eq_ok.1 h
      unfold runAbm at ho
      obtain ⟨r, hr, -⟩ := bind_eq_ok.1 ho
      exact hstep r hr
    | plainMetrics =>
      obtain ⟨o, ho, -⟩ := bind_eq_ok.1 h
      unfold runPm at ho
      split at ho
      · cases ho
      obtain ⟨r, hr, -⟩ := bind_eq_ok.1 ho
      exact hstep r hr
  · intro i hi
    rw [upload_eq cfg (hab (by omega))] at hu
    obtain ⟨sh, hsh, -⟩ := bind_eq_ok.1 hu
    have hl := mapE_length hsh
    have := mapE_getElem hsh i (by simpa using hi) (by rw [hl]; simpa using hi)
    obtain ⟨g1, r, g2, -⟩ := pickShares_ok this
    simp only [List.getElem_map, List.getElem_range] at g1 g2
    have := (List.getElem?_eq_some_iff.1 g2).1
    omega

/-! ### The hypotheses of C62 can be met -/

/-- Draws of a toy run: two generated reports, `00` with weight 0 and `10` with weight 1; the first and second of
three clients use the second one (the second client "tampers with the key"), the third one uses the first with a
tampered FLP proof. -/
def toyDraw : MainDraw where
  maliciousOk := true
  zipfOk := true
  reports := fun i => ⟨i, fun j => decide (i = 1 ∧ j = 0), toyRand i, 3 + i⟩
  verifyKey := Block.zero
  picks := fun i => if i = 0 then (2, none) else if i = 1 then (2, some .key) else (1, some .flp)
  attributes := fun _ => 1
  setOrder := id
  setOrder_perm := fun l => List.Perm.refl l

/-- The FLP decision on a report whose proof is bumped. -/
def toyBumpRejected (r : Exec PlaintextReport) : Bool :=
  match r with
  | .ok (.mastic nonce ks (p0, p :: ps) jr _) =>
    match Spec.verifierOf toy 2 0 Block.zero (.mastic nonce ks.1 p0 jr),
      Spec.verifierOf toy 2 1 Block.zero (.mastic nonce ks.2 ((p + 1337) :: ps) jr) with
    | some v0, some v1 => decide (toy.flpDecide 2 (Spec.addShares v0 v1) = some false)
    | _, _ => false
  | _ => false

theorem toy_proves {cfg : Config} {draw : MainDraw} : Spec.Proves toy cfg draw :=
  fun _ _ _ _ _ _ _ => ⟨[7, 9], rfl, by simp⟩

theorem toy_sensible : Spec.Sensible toy ⟨some 2, 2, 2, 2, 2, 2⟩ toyDraw 3 :=
  ⟨rfl, rfl, rfl, by decide, by decide, by decide, by decide, by decide⟩

theorem toy_bumpsRejected : Spec.BumpsRejected toy 2 2 0 1 toyDraw 3 := by
  intro i nonce ks p0 ps p jr alpha hi ht hg
  have h2 : i = 2 := by
    simp only [toyDraw] at ht
    split at ht
    · cases ht
    · split at ht
      · cases ht
      · omega
  subst h2
  have key : toyBumpRejected (genMasticReport toy 2 (Spec.drawn 2 2 (Spec.MainDraw.of toyDraw 2)).1
      (Spec.drawn 2 2 (Spec.MainDraw.of toyDraw 2)).2 (Spec.MainDraw.of toyDraw 2).rand) = true := by
    decide +kernel
  rw [hg] at key
  unfold toyBumpRejected at key
  dsimp only at key
  split at key
  · rename_i v0 v1 e0 e1
    exact ⟨v0, v1, e0, e1, by simpa using key⟩
  · cases key

example (kcs : Pair2 toy) : ∃ out,
    driverMain (toyCfg 0 (some 2) .debug) (toyCfg 1 (some 2) .release) .debug ⟨some 2, 2, 2, 2, 2, 2⟩
      .weightedHeavyHitters toyDraw 3 kcs = .ok (.whh out) ∧
    out.results.map (fun r => (r.path, r.value)) = [([true, false], [0, 2, 2])] ∧
    out.kcs.1.reportShares.map Prod.fst = [true, true, false] := by
  obtain ⟨out, g1, g2, -, g3⟩ := (C62_weighted_heavy_hitters (P := toy) (c0 := toyCfg 0 (some 2) .debug)
    (c1 := toyCfg 1 (some 2) .release) (bld := .debug) (cfg := ⟨some 2, 2, 2, 2, 2, 2⟩) (draw := toyDraw)
    (n := 3) (d := 2) (kcs := kcs) toy_sensible toy_proves rfl rfl rfl le_rfl rfl (by decide)
    (fun _ _ => toy_flpComplete _ _) toy_bumpsRejected rfl (by decide) (by decide)).1 (.inl rfl)
  exact ⟨out, g1, g2.trans (by decide +kernel), g3.trans (by decide)⟩

/-- The same draws without the third client, with one attribute sample: the attribute is the string of the report
after the sampled one. -/
example (kcs : Pair2 toy) : ∃ (attributes : List (List Bool)) (ranges : List (Nat × Nat)),
    driverMain (toyCfg 0 (some 2) .debug) (toyCfg 1 (some 2) .release) .debug ⟨some 2, 2, 2, 2, 2, 2⟩
      (.attributeBasedMetrics 1) toyDraw 2 kcs = .ok (.abm attributes (ranges.map fun r =>
        ⟨[], Spec.attributeHistograms 2 attributes ([([true, false], 1), ([true, false], 1)].take r.2)⟩)) ∧
    ∀ a, a ∈ attributes ↔ a = [true, false] := by
  obtain ⟨attributes, ranges, g1, -, g2, -⟩ := (C62_attribute_based_metrics (P := toy)
    (c0 := toyCfg 0 (some 2) .debug) (c1 := toyCfg 1 (some 2) .release) (bld := .debug)
    (cfg := ⟨some 2, 2, 2, 2, 2, 2⟩) (draw := toyDraw) (n := 2) (d := 2) (num := 1) (kcs := kcs)
    ⟨rfl, rfl, rfl, by decide, by decide, by decide, by decide, by decide⟩ toy_proves rfl (by decide) rfl
    (by decide) (fun _ _ => toy_flpComplete _ _)
    (by
      intro i hi h
      simp only [toyDraw] at h
      split at h
      · cases h
      · split at h
        · cases h
        · omega)
    (by decide) rfl).2 (by decide)
  refine ⟨attributes, ranges, g1, fun a => (g2 a).trans ⟨?_, ?_⟩⟩
  · rintro ⟨j, -, rfl⟩; rfl
  · rintro rfl; exact ⟨0, by decide, rfl⟩

/-- The three clients of `toyDraw` with one attribute sample: the third one tampers with its proof.  Debug servers leave
it out, release servers count it. -/
example (kcs : Pair2 toy) : ∃ attributes : List (List Bool), (∀ a, a ∈ attributes ↔ a = [true, false]) ∧
    (∃ ranges : List (Nat × Nat),
      driverMain (toyCfg 0 (some 2) .debug) (toyCfg 1 (some 2) .debug) .debug ⟨some 2, 2, 2, 2, 2, 2⟩
        (.attributeBasedMetrics 1) toyDraw 3 kcs = .ok (.abm attributes (ranges.map fun r =>
          ⟨(List.range' r.1 (r.2 - r.1)).filter fun i => ([false, false, true][i]?) == some true,
            Spec.attributeHistograms 2 attributes ((([([true, false], 1), ([true, false], 1)].take r.2)))⟩)) ∧
      Spec.Partitions 3 ranges) := by
  obtain ⟨attributes, -, g2, g3, -⟩ := C62_attribute_tampering (P := toy)
    (c0 := toyCfg 0 (some 2) .debug) (c1 := toyCfg 1 (some 2) .debug) (bld := .debug)
    (cfg := ⟨some 2, 2, 2, 2, 2, 2⟩) (draw := toyDraw) (n := 3) (d := 2) (num := 1) (L := 4) (kcs := kcs)
    toy_sensible toy_proves rfl (by decide) rfl
    (by decide) (fun _ _ => toy_flpComplete _ _) toy_bumpsRejected
    (by
      intro x p q j v h
      simp only [toy] at h
      split at h
      · rename_i hl
        cases h
        simp [hl.1, hl.2]
      · cases h) (by decide) rfl
  obtain ⟨ranges, q1, q2, -⟩ := g3 rfl rfl
  refine ⟨attributes, fun a => (g2 a).trans ⟨?_, ?_⟩, ranges, ?_, q2⟩
  · rintro ⟨j, -, rfl⟩; rfl
  · rintro rfl; exact ⟨0, by decide, rfl⟩
  · refine q1.trans (congrArg Except.ok (congrArg (MainOut.abm attributes) (List.map_congr_left fun r hr => ?_)))
    refine congrArg₂ AbmOut.mk (List.filter_congr fun i _ => ?_)
      (congrArg (Spec.attributeHistograms 2 attributes) ?_)
    · match i with
      | 0 => rfl
      | 1 => rfl
      | 2 => rfl
      | (i + 3) => rfl
    · match r.2 with
      | 0 => rfl
      | 1 => rfl
      | 2 => rfl
      | (k + 3) =>
        rw [List.take_of_length_le (by simp), List.take_of_length_le (by simp)]
        rfl

/-- A plain-metrics run evaluated, in batches of two. -/
example : (driverMain (P := toy) (toyCfg 0 none .debug) (toyCfg 1 none .release) .debug
      ⟨none, 2, 2, 2, 2, 2⟩ .plainMetrics { toyDraw with picks := fun i => (i % 2 + 1, none) } 3
      (KeyCollection.new toy 1 0 none Block.zero, KeyCollection.new toy 1 1 none Block.zero)).map
    (fun o => match o with
      | .pm outs => outs.map fun o => (o.rejected, o.result)
      | _ => []) = .ok [(0, [1, 1]), (0, [1, 0])] := by decide +kernel

/-- Odd sharing randomness, and the second of three clients tampers: the toy Prio3 rejects its report, and the run
prints one rejected report in the first batch. -/
def toyPlainDraw : MainDraw :=
  { toyDraw with
    reports := fun i => ⟨i, fun _ => false, toyRand i, 5⟩
    picks := fun i => if i = 1 then (2, some .key) else (2 - i / 2, none) }

theorem toy_flipsRejected : Spec.FlipsRejected toy 2 1 toyPlainDraw 3 := by
  intro i nonce pub in0 in1 hi ht hg
  have h1 : i = 1 := by
    by_contra h
    simp [toyPlainDraw, h] at ht
  subst h1
  have : genPrio3Report toy 2 1 (toyRand 1).nonce 5 = .ok (.prio3 (toyRand 1).nonce [] ([5#8], [252#8])) := by
    rfl
  have hg' : genPrio3Report toy 2 1 (toyRand 1).nonce 5 = .ok (.prio3 nonce pub (in0, in1)) := hg
  rw [this] at hg'
  cases hg'
  exact ⟨252#8, [], rfl, ((0, 5#8), 5#8), ((1, 253#8), 253#8), rfl, rfl, by decide, by decide, by simp, by simp⟩

example (kcs : Pair2 toy) : ∃ ranges : List (Nat × Nat),
    driverMain (toyCfg 0 none .debug) (toyCfg 1 none .release) .debug ⟨none, 2, 2, 2, 2, 2⟩ .plainMetrics
      toyPlainDraw 3 kcs = .ok (.pm (ranges.map fun r =>
        ⟨(([some 1, none, some 0].drop r.1).take (r.2 - r.1)).countP Option.isNone,
          Spec.bucketCounts 2 ((([some 1, none, some 0].drop r.1).take (r.2 - r.1)).filterMap id)⟩)) ∧
      Spec.Partitions 3 ranges := by
  obtain ⟨ranges, h1, h2, -⟩ := C62_plain_tampering (P := toy) (c0 := toyCfg 0 none .debug)
    (c1 := toyCfg 1 none .release) (bld := .debug) (cfg := ⟨none, 2, 2, 2, 2, 2⟩) (draw := toyPlainDraw) (n := 3)
    (kcs := kcs) (clients := [some 1, none, some 0])
    ⟨rfl, rfl, rfl, by decide, by decide, by decide, by decide, by decide⟩ rfl
    (fun b nonce rand hb => by
      have hb : b < 2 := hb
      simp [toy, hb])
    toy_prio3.1 (fun a b m _ _ => toy_prio3.2.1 a b m) (fun _ _ b s0 s1 _ h => toy_prio3.2.2 _ _ b s0 s1 h)
    toy_flipsRejected rfl (by decide) (by decide) rfl
  exact ⟨ranges, h1, h2⟩

/-- Attribute sampling panics on the largest sample. -/
example (kcs : Pair2 toy) :
    driverMain (toyCfg 0 (some 2) .debug) (toyCfg 1 (some 2) .release) .debug ⟨some 2, 2, 2, 2, 2, 2⟩
      (.attributeBasedMetrics 1) { toyDraw with attributes := fun _ => 2 } 0 kcs = .error .index := by
  refine (C62_attribute_based_metrics (P := toy) (d := 2)
    ⟨rfl, rfl, rfl, by decide, by decide, by decide, by decide, fun i hi => absurd hi (by omega)⟩
    toy_proves rfl (by decide) rfl (by decide) (fun i hi => absurd hi (by omega))
    (fun i hi => absurd hi (by omega)) (by decide) rfl).1 ⟨0, by decide, rfl⟩

end Mastic
