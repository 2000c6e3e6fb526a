import Verif.Lemmas.AbmReplies
import Verif.Props.Collude

/-!
# C97: one server and the collector together, attribute-based metrics
-/

namespace Mastic.Spec

/-- What attribute-based metrics prints: for every batch no rejections and the histograms of the clients so far. -/
def abmShown (n batch num : Nat) (attrs : List (List Bool)) (clients : List (List Bool × Nat)) : Shown :=
  .abm attrs ((batches num batch).map fun r => ⟨[], attributeHistograms n attrs (clients.take r.2)⟩)

end Mastic.Spec

namespace Mastic

variable {P : Prims} {c0 c1 : ServerCfg} {bld : Build} {cfg : Config} {draw : MainDraw} {n d : Nat}

theorem abmShown_inj {N b : Nat} {attrs : List (List Bool)} {clients clients' : List (List Bool × Nat)}
    (h : Spec.abmShown N b n attrs clients = Spec.abmShown N b n attrs clients') : ∀ r ∈ Spec.batches n b,
    Spec.attributeHistograms N attrs (clients.take r.2) = Spec.attributeHistograms N attrs (clients'.take r.2) := by
  unfold Spec.abmShown at h
  injection h with _ h
  intro r hr
  have := List.map_eq_map_iff.1 h r hr
  injection this

theorem abmScript_notUpload (cfg : Config) (draw : MainDraw) (sizes : List Nat) (shares : List ReportShare)
    (attrs : List (List Bool)) (rs : List (Nat × Nat)) (rej : List (List Nat)) :
    (runReceived cfg draw sizes shares (Spec.abmScript attrs rs rej)).filter Spec.notUpload
      = .reset draw.verifyKey cfg.histBuckets :: Spec.abmScript attrs rs rej := by
  unfold runReceived
  rw [List.filter_cons_of_pos rfl, List.filter_append]
  have h1 : ((splitBatches sizes shares).map Req.addReportShares).filter Spec.notUpload = [] := by
    rw [List.filter_eq_nil_iff]
    intro r hr
    obtain ⟨_, -, rfl⟩ := List.mem_map.1 hr
    simp [Spec.notUpload]
  have h2 : (Spec.abmScript attrs rs rej).filter Spec.notUpload = Spec.abmScript attrs rs rej := by
    rw [List.filter_eq_self]
    intro r hr
    unfold Spec.abmScript at hr
    obtain ⟨x, -, hx⟩ := List.mem_flatMap.1 hr
    simp only [List.mem_cons, List.not_mem_nil, or_false] at hx
    rcases hx with rfl | rfl <;> rfl
  rw [h1, h2, List.nil_append]

/-- If the sums of two pairs of tables agree and one table of each pair agrees, so does the other. -/
theorem addRows_cancel {m k : Nat} {a0 a1 b0 b1 : List (List Field128)} (ha0 : Spec.IsTable m k a0)
    (ha1 : Spec.IsTable m k a1) (hb0 : Spec.IsTable m k b0) (hb1 : Spec.IsTable m k b1)
    (h : addRows a0 a1 = addRows b0 b1) : (a0 = b0 → a1 = b1) ∧ (a1 = b1 → a0 = b0) := by
  have hc : ∀ j < m, ∀ c < k, Spec.cell a0 j c + Spec.cell a1 j c = Spec.cell b0 j c + Spec.cell b1 j c := by
    intro j hj c hc
    rw [← (cell_addRows ha0 a1).2 j hj c hc, ← (cell_addRows hb0 b1).2 j hj c hc, h]
  constructor
  · rintro rfl
    exact isTable_ext ha1 hb1 fun j hj c hcc => by have := hc j hj c hcc; exact add_left_cancel this
  · rintro rfl
    exact isTable_ext ha0 hb0 fun j hj c hcc => by have := hc j hj c hcc; exact add_right_cancel this

theorem rowSum_congr {m k : Nat} {V V' : Nat → List (List Field128)} {e : Nat} (h : ∀ i < e, V i = V' i) :
    rowSum m k V e = rowSum m k V' e := by
  unfold rowSum
  refine List.map_congr_left fun j _ => List.map_congr_left fun c _ => congrArg List.sum ?_
  exact List.map_congr_left fun i hi => by rw [h i (List.mem_range.1 hi)]

theorem abmReplies_congr {attrs : List (List Bool)} {sizes : List Nat} {V V' : Nat → List (List Field128)}
    {q q' : Nat → List Field128} {dg dg' : Nat → Vector Byte 32} (hb : 1 ≤ cfg.queryBatch)
    (hV : ∀ r ∈ Spec.batches n cfg.queryBatch, rowSum attrs.length cfg.histBuckets V r.2
      = rowSum attrs.length cfg.histBuckets V' r.2)
    (hq : ∀ i < n, q i = q' i) (hd : ∀ i < n, dg i = dg' i) :
    abmReplies cfg n attrs sizes V q dg = abmReplies cfg n attrs sizes V' q' dg' := by
  unfold abmReplies abmAnswers
  congr 2
  refine List.flatMap_congr fun r hr => ?_
  rw [hV r hr]
  congr 2
  refine List.map_congr_left fun i hi => ?_
  have := (mem_batches hb hr).2
  have := (rangeFrom_mem.1 hi).2
  rw [hq i (by omega), hd i (by omega)]

/-- **C97.**  A whole attribute-based-metrics run of the program with libprio's proof system, clients that do not tamper
with their proofs, and two assignments of weights that give the same printed result: the values that server `own` does
not know correspond one to one so that for corresponding values both runs complete, the server gets the same requests
in both, shares included, and the collector sends the other server the same requests after the upload and gets the same
answers from both servers. -/
theorem C97_aggregates {weight weight' : Nat → Nat} {num : Nat} (own : Bool)
    (hs : Spec.Sensible P.withHistogram cfg draw n) (hb64 : cfg.histBuckets < 2 ^ 64)
    (hxof : ∀ seed binder l, (P.xofField seed binder l).length = l)
    (hroot : ∀ i < n, ∀ t ∈ P.xofField draw.verifyKey (Spec.MainDraw.of draw i).rand.nonce.toList 1,
      t ^ Spec.points cfg.histBuckets 2 ≠ 1)
    (htam : ∀ i < n, (draw.picks i).2 ≠ some .flp) (hd : cfg.dataBits = some d) (hd1 : 1 ≤ d) (h0 : c0.serverId = 0)
    (h1 : c1.serverId ≠ 0) (hattr : ∀ j < num, draw.attributes j < cfg.uniqueBuckets)
    (hw : ∀ i < cfg.uniqueBuckets, weight i < cfg.histBuckets)
    (hw' : ∀ i < cfg.uniqueBuckets, weight' i < cfg.histBuckets)
    (hf : Spec.FreshRun P.withHistogram cfg.uniqueBuckets cfg.histBuckets d draw own)
    (he : Spec.FreshEvals P.withHistogram cfg.uniqueBuckets cfg.histBuckets d draw own
      (Spec.attributePaths (runAttributes d num draw)))
    (hsame : Spec.abmShown cfg.histBuckets cfg.queryBatch n (runAttributes d num draw) (Spec.runClients d draw weight n)
      = Spec.abmShown cfg.histBuckets cfg.queryBatch n (runAttributes d num draw) (Spec.runClients d draw weight' n)) :
    ∃ F : Spec.RunCoins P.withHistogram cfg.uniqueBuckets cfg.histBuckets d draw
        ≃ Spec.RunCoins P.withHistogram cfg.uniqueBuckets cfg.histBuckets d draw,
      ∀ (w : Spec.RunCoins P.withHistogram cfg.uniqueBuckets cfg.histBuckets d draw) (Q Q' : Prims),
        Q = Spec.setRun P.withHistogram cfg.uniqueBuckets cfg.histBuckets d draw (!own) w →
        Q' = Spec.setRun P.withHistogram cfg.uniqueBuckets cfg.histBuckets d draw (!own) (F w) →
        ∀ (kcs : Pair2 Q) (kcs' : Pair2 Q'),
        ∃ (sent sent' : List (Req × Req)) (got : List (Resp × Resp)) (t0 t1 : Server Q) (t0' t1' : Server Q'),
          Spec.Hears c0 c1 (mainP Q bld cfg (.attributeBasedMetrics num) (Spec.runDraw draw weight w) n)
            (.running kcs.1) (.running kcs.2) sent got (Spec.abmShown cfg.histBuckets cfg.queryBatch n
              (runAttributes d num draw) (Spec.runClients d draw weight n)) t0 t1 ∧
          Spec.Hears c0 c1 (mainP Q' bld cfg (.attributeBasedMetrics num) (Spec.runDraw draw weight' (F w)) n)
            (.running kcs'.1) (.running kcs'.2) sent' got (Spec.abmShown cfg.histBuckets cfg.queryBatch n
              (runAttributes d num draw) (Spec.runClients d draw weight' n)) t0' t1' ∧
          Spec.received own sent = Spec.received own sent' ∧
          (Spec.received (!own) sent).filter Spec.notUpload = (Spec.received (!own) sent').filter Spec.notUpload := by
  obtain ⟨r, hj⟩ := run_points hxof draw
  obtain ⟨t, ht⟩ : ∃ t : Nat → Field128, ∀ i, P.xofField draw.verifyKey (draw.reports i).rand.nonce.toList 1 = [t i] := by
    have := fun i => List.length_eq_one_iff.1 (hxof draw.verifyKey (draw.reports i).rand.nonce.toList 1)
    choose t ht using this
    exact ⟨t, ht⟩
  obtain ⟨sizes, hsz, hsum, -⟩ := uploadBatches_spec hs.addBatch n n le_rfl
  refine ⟨⟨moveRun own weight weight' (fun i => (r i).1) t, moveRun own weight' weight (fun i => (r i).1) t,
    moveRun_back _ _ _ _ _, moveRun_back _ _ _ _ _⟩, fun w Q Q' hQ hQ' kcs kcs' => ?_⟩
  have hQ' : Q' = Spec.setRun P.withHistogram cfg.uniqueBuckets cfg.histBuckets d draw (!own)
    (moveRun own weight weight' (fun i => (r i).1) t w) := hQ'
  show ∃ (sent sent' : List (Req × Req)) (got : List (Resp × Resp)) (t0 t1 : Server Q)
      (t0' t1' : Server Q'), _ ∧ Spec.Hears c0 c1 (mainP Q' bld cfg (.attributeBasedMetrics num) (Spec.runDraw draw weight'
        (moveRun own weight weight' (fun i => (r i).1) t w)) n) _ _ _ _ _ _ _ ∧ _
  obtain ⟨w', hw1⟩ : ∃ w', w' = moveRun own weight weight' (fun i => (r i).1) t w := ⟨_, rfl⟩
  rw [← hw1] at hQ' ⊢
  obtain ⟨sh, sent, t0, t1, V0, V1, q0, q1, dg, hx, a2, a4, a6, a7, a8⟩ := abm_hears (c0 := c0) (c1 := c1) (bld := bld)
    (weight := weight) (Q := Q) (aes := Q.aes) (by rw [hQ]; rfl) w kcs hs hb64 hxof hroot htam hd hd1 h0 h1
    hattr hw (fun i _ => hj i) hsz hsum
  obtain ⟨sh', sent', t0', t1', V0', V1', q0', q1', dg', hx', b2, b4, b6, b7, b8⟩ := abm_hears (c0 := c0) (c1 := c1)
    (bld := bld) (weight := weight') (Q := Q') (aes := Q'.aes) (by rw [hQ']; rfl) w' kcs' hs hb64 hxof hroot htam hd hd1
    h0 h1 hattr hw' (fun i _ => hj i) hsz hsum
  have hmv : (sh'.map fun s => Pair.get s own) = sh.map fun s => Pair.get s own := by
    subst hw1
    exact shares_moved hf hQ hQ' hs.picks a4 b4 (a6 own) (b6 own)
  have hal : ∀ p ∈ runAttributes d num draw, p ≠ [] ∧ p.length = d := by
    intro p hp
    unfold runAttributes at hp
    rw [(draw.setOrder_perm _).mem_iff, List.mem_dedup, List.mem_map] at hp
    obtain ⟨j, -, rfl⟩ := hp
    refine ⟨fun h => ?_, by simp [Spec.stringOf]⟩
    have := congrArg List.length h
    simp [Spec.stringOf] at this
    omega
  have hfirst : ∀ b : Bool, [b] ∈ Spec.attributePaths (runAttributes d num draw) := by
    intro b; cases b <;> simp [Spec.attributePaths]
  -- the evaluations of the server
  have hev : ∀ i < n, ∀ s, (sh.map fun s => Pair.get s own)[i]? = some s → ∀ key, Spec.keyOf s = some key →
      ∀ p ∈ Spec.attributePaths (runAttributes d num draw),
        Spec.evalPath Q' key cfg.histBuckets p = Spec.evalPath Q key cfg.histBuckets p := by
    intro i hi s hsi key hk p hp
    obtain ⟨g1, g2⟩ := hs.picks i hi
    have hju : (draw.picks i).1 - 1 < cfg.uniqueBuckets := by omega
    rw [a6 own i hi _ hju rfl] at hsi
    obtain rfl := Option.some.inj hsi
    obtain rfl := Option.some.inj hk
    exact own_evalPath hf he w w' ⟨_, hju⟩ hp
      (attributePaths_length hd1 (fun p hp => (hal p hp).2.le) hp).2 hQ hQ'
  have hver := fun o => verifiers_moved hb64 hd1 hf he hfirst hQ hQ' hw1 hs.picks hw hw' hj ht h0 h1 a4 b4 a6 b6 hmv o
  have hq : ∀ o, ∀ i < n, Pair.get (q0', q1') o i = Pair.get (q0, q1) o i := by
    intro o i hi
    obtain ⟨s, e1, -, e2, -⟩ := a7 o i hi
    obtain ⟨s', e1', -, e2', -⟩ := b7 o i hi
    have := congrArg (·[i]?) (hver o)
    rw [List.getElem?_map (l := sh'.map fun s => Pair.get s o),
      List.getElem?_map (l := sh.map fun s => Pair.get s o), e1, e1', Option.map_some, Option.map_some, e2, e2'] at this
    simpa using this
  have hown : ∀ i < n, Pair.get (V0', V1') own i = Pair.get (V0, V1) own i ∧ dg' i = dg i := by
    intro i hi
    obtain ⟨s, e1, e2, -, e3⟩ := a7 own i hi
    obtain ⟨s', e1', e2', -, e3'⟩ := b7 own i hi
    rw [hmv, e1] at e1'
    obtain rfl := Option.some.inj e1'
    rw [tableOf_congr (fun p hp => (hal p hp).1) (hev i hi s e1), e2] at e2'
    rw [digestOf_congr (by rw [hQ', hQ]; rfl) (fun p hp => (hal p hp).1) (hev i hi s e1), e3] at e3'
    exact ⟨(Option.some.inj e2').symm, (Option.some.inj e3').symm⟩
  have hrow : ∀ r ∈ Spec.batches n cfg.queryBatch,
      rowSum (runAttributes d num draw).length cfg.histBuckets V0' r.2
        = rowSum (runAttributes d num draw).length cfg.histBuckets V0 r.2 ∧
      rowSum (runAttributes d num draw).length cfg.histBuckets V1' r.2
        = rowSum (runAttributes d num draw).length cfg.histBuckets V1 r.2 := by
    intro r hr
    have hle := (mem_batches hs.queryBatch hr).2
    have hc := addRows_cancel (rowSum_isSum _ _ V0' r.2).1 (rowSum_isSum _ _ V1' r.2).1 (rowSum_isSum _ _ V0 r.2).1
      (rowSum_isSum _ _ V1 r.2).1 ((b8 r.2 hle).trans ((abmShown_inj hsame r hr).symm.trans (a8 r.2 hle).symm))
    cases own with
    | false =>
      have e := rowSum_congr (m := (runAttributes d num draw).length) (k := cfg.histBuckets) (V := V0') (V' := V0)
        (e := r.2) fun i hi => (hown i (by omega)).1
      exact ⟨e, hc.1 e⟩
    | true =>
      have e := rowSum_congr (m := (runAttributes d num draw).length) (k := cfg.histBuckets) (V := V1') (V' := V1)
        (e := r.2) fun i hi => (hown i (by omega)).1
      exact ⟨hc.2 e, e⟩
  rw [abmReplies_congr (q := q0') (q' := q0) hs.queryBatch (fun r hr => (hrow r hr).1) (hq false) fun i hi => (hown i hi).2,
    abmReplies_congr (q := q1') (q' := q1) hs.queryBatch (fun r hr => (hrow r hr).2) (hq true) fun i hi => (hown i hi).2] at hx'
  refine ⟨sent, sent', _, t0, t1, t0', t1', hx, hx', ?_, ?_⟩
  · rw [a2 own, b2 own, hmv]
  · rw [a2, b2, abmScript_notUpload, abmScript_notUpload]

/-- **C97, clients outside the attributes.**  The weights of clients that hold none of the attributes do not matter: if two
assignments agree on the reports that hold an attribute, a server and the collector together cannot tell them apart. -/
theorem C97_outside {weight weight' : Nat → Nat} {num : Nat} (own : Bool)
    (hs : Spec.Sensible P.withHistogram cfg draw n) (hb64 : cfg.histBuckets < 2 ^ 64)
    (hxof : ∀ seed binder l, (P.xofField seed binder l).length = l)
    (hroot : ∀ i < n, ∀ t ∈ P.xofField draw.verifyKey (Spec.MainDraw.of draw i).rand.nonce.toList 1,
      t ^ Spec.points cfg.histBuckets 2 ≠ 1)
    (htam : ∀ i < n, (draw.picks i).2 ≠ some .flp) (hd : cfg.dataBits = some d) (hd1 : 1 ≤ d) (h0 : c0.serverId = 0)
    (h1 : c1.serverId ≠ 0) (hattr : ∀ j < num, draw.attributes j < cfg.uniqueBuckets)
    (hw : ∀ i < cfg.uniqueBuckets, weight i < cfg.histBuckets)
    (hw' : ∀ i < cfg.uniqueBuckets, weight' i < cfg.histBuckets)
    (hf : Spec.FreshRun P.withHistogram cfg.uniqueBuckets cfg.histBuckets d draw own)
    (he : Spec.FreshEvals P.withHistogram cfg.uniqueBuckets cfg.histBuckets d draw own
      (Spec.attributePaths (runAttributes d num draw)))
    (hout : ∀ i < cfg.uniqueBuckets, Spec.stringOf d (draw.reports i) ∈ runAttributes d num draw → weight i = weight' i) :
    ∃ F : Spec.RunCoins P.withHistogram cfg.uniqueBuckets cfg.histBuckets d draw
        ≃ Spec.RunCoins P.withHistogram cfg.uniqueBuckets cfg.histBuckets d draw,
      ∀ (w : Spec.RunCoins P.withHistogram cfg.uniqueBuckets cfg.histBuckets d draw) (Q Q' : Prims),
        Q = Spec.setRun P.withHistogram cfg.uniqueBuckets cfg.histBuckets d draw (!own) w →
        Q' = Spec.setRun P.withHistogram cfg.uniqueBuckets cfg.histBuckets d draw (!own) (F w) →
        ∀ (kcs : Pair2 Q) (kcs' : Pair2 Q'),
        ∃ (sent sent' : List (Req × Req)) (got : List (Resp × Resp)) (t0 t1 : Server Q) (t0' t1' : Server Q'),
          Spec.Hears c0 c1 (mainP Q bld cfg (.attributeBasedMetrics num) (Spec.runDraw draw weight w) n)
            (.running kcs.1) (.running kcs.2) sent got (Spec.abmShown cfg.histBuckets cfg.queryBatch n
              (runAttributes d num draw) (Spec.runClients d draw weight n)) t0 t1 ∧
          Spec.Hears c0 c1 (mainP Q' bld cfg (.attributeBasedMetrics num) (Spec.runDraw draw weight' (F w)) n)
            (.running kcs'.1) (.running kcs'.2) sent' got (Spec.abmShown cfg.histBuckets cfg.queryBatch n
              (runAttributes d num draw) (Spec.runClients d draw weight' n)) t0' t1' ∧
          Spec.received own sent = Spec.received own sent' ∧
          (Spec.received (!own) sent).filter Spec.notUpload = (Spec.received (!own) sent').filter Spec.notUpload := by
  refine C97_aggregates own hs hb64 hxof hroot htam hd hd1 h0 h1 hattr hw hw' hf he ?_
  unfold Spec.abmShown
  congr 1
  refine List.map_congr_left fun r hr => ?_
  have hle := (mem_batches hs.queryBatch hr).2
  congr 1
  unfold Spec.attributeHistograms
  refine List.map_congr_left fun p hp => ?_
  congr 1
  have hpl : p.length = d := by
    have hp := hp
    unfold runAttributes at hp
    rw [(draw.setOrder_perm _).mem_iff, List.mem_dedup, List.mem_map] at hp
    obtain ⟨j, -, rfl⟩ := hp
    simp [Spec.stringOf]
  unfold Spec.runClients
  rw [← List.map_take, ← List.map_take, List.filter_map, List.filter_map, List.map_map, List.map_map]
  refine List.map_congr_left fun i hi => ?_
  obtain ⟨h2, h3⟩ := List.mem_filter.1 hi
  have hin : i < n := List.mem_range.1 (List.mem_of_mem_take h2)
  obtain ⟨g1, g2⟩ := hs.picks i hin
  refine hout _ (by omega) ?_
  have hpre := List.isPrefixOf_iff_prefix.1 h3
  have := hpre.eq_of_length (by simp [hpl, Spec.stringOf])
  rwa [this] at hp

/-! ### Concrete runs -/

theorem paths_sub {p : List Bool} (h : p ∈ [[false], [true], [false], [true], [true, false], [true, true]]) :
    p ∈ [[false], [true], [true, false], [true, true]] := by
  simp only [List.mem_cons, List.not_mem_nil, or_false] at h ⊢
  tauto

theorem pair_paths : Spec.attributePaths (runAttributes 2 1 pairDraw)
    = [[false], [true], [false], [true], [true, false], [true, true]] := by decide +kernel

/-- Two clients that hold the attribute: one server and the collector cannot tell weights 0 and 1 from weights 1 and 0. -/
example (own : Bool) :
    ∃ F : Spec.RunCoins squareToy.withHistogram 2 2 2 pairDraw
        ≃ Spec.RunCoins squareToy.withHistogram 2 2 2 pairDraw,
      ∀ (w : Spec.RunCoins squareToy.withHistogram 2 2 2 pairDraw) (Q Q' : Prims),
        Q = Spec.setRun squareToy.withHistogram 2 2 2 pairDraw (!own) w →
        Q' = Spec.setRun squareToy.withHistogram 2 2 2 pairDraw (!own) (F w) →
        ∀ (kcs : Pair2 Q) (kcs' : Pair2 Q'),
        ∃ (sent sent' : List (Req × Req)) (got : List (Resp × Resp)) (t0 t1 : Server Q) (t0' t1' : Server Q'),
          Spec.Hears (toyCfg 0 (some 2) .debug) (toyCfg 1 (some 2) .debug) (mainP Q .debug ⟨some 2, 2, 2, 2, 2, 2⟩ (.attributeBasedMetrics 1) (Spec.runDraw pairDraw (fun i => i) w) 2)
            (.running kcs.1) (.running kcs.2) sent got (Spec.abmShown 2 2 2
              (runAttributes 2 1 pairDraw) (Spec.runClients 2 pairDraw (fun i => i) 2)) t0 t1 ∧
          Spec.Hears (toyCfg 0 (some 2) .debug) (toyCfg 1 (some 2) .debug) (mainP Q' .debug ⟨some 2, 2, 2, 2, 2, 2⟩ (.attributeBasedMetrics 1) (Spec.runDraw pairDraw (fun i => 1 - i) (F w)) 2)
            (.running kcs'.1) (.running kcs'.2) sent' got (Spec.abmShown 2 2 2
              (runAttributes 2 1 pairDraw) (Spec.runClients 2 pairDraw (fun i => 1 - i) 2)) t0' t1' ∧
          Spec.received own sent = Spec.received own sent' ∧
          (Spec.received (!own) sent).filter Spec.notUpload = (Spec.received (!own) sent').filter Spec.notUpload :=
  C97_aggregates (P := squareToy) (c0 := toyCfg 0 (some 2) .debug)
    (c1 := toyCfg 1 (some 2) .debug) (bld := .debug) (cfg := ⟨some 2, 2, 2, 2, 2, 2⟩) (draw := pairDraw) (n := 2) (d := 2)
    (weight := fun i => i) (weight' := fun i => 1 - i) (num := 1) own pair_sensible (by norm_num)
    (fun _ _ _ => List.length_replicate) pair_points (fun _ _ h => nomatch h) rfl (by decide) rfl (by decide)
    (by decide) (by decide) (by decide) (pair_fresh own)
    (by
      have := pair_evals own
      rw [pair_asked] at this
      intro q i p hp
      rw [pair_paths] at hp
      exact this q i p (paths_sub hp))
    (by
      unfold Spec.abmShown
      congr 1)

theorem square_paths : Spec.attributePaths (runAttributes 2 1 squareDraw)
    = [[false], [true], [false], [true], [true, false], [true, true]] := by decide +kernel

/-- The numbers of the blocks of `Spec.evalInputs` at these strings. -/
def squareEvals (own : Bool) (i : Fin 2) : List Nat :=
  match own, i with
  | true, 0 => [29794, 22098, 34325, 46552, 58779, 42021, 54473, 1179, 13406, 25633, 42021, 54473, 1179, 13406, 25633,
        62862, 20088, 32315, 44542, 56769, 42021, 54473, 1179, 13406, 25633, 9568, 60987, 7693, 19920, 32147]
  | true, 1 => [29868, 59318, 6024, 18251, 30478, 42095, 40313, 52540, 64767, 11473, 42095, 40313, 52540, 64767, 11473,
        16612, 52018, 64245, 10951, 23178, 42095, 40313, 52540, 64767, 11473, 28839, 43414, 55641, 2347, 14574]
  | false, 0 => [24373, 28615, 40842, 53069, 65296, 36600, 54473, 1179, 13406, 25633, 36600, 54473, 1179, 13406, 25633,
        62862, 20088, 32315, 44542, 56769, 36600, 54473, 1179, 13406, 25633, 9568, 60987, 7693, 19920, 32147]
  | false, 1 => [16556, 59318, 6024, 18251, 30478, 28783, 56445, 3151, 15378, 27605, 28783, 56445, 3151, 15378, 27605,
        9165, 5453, 17680, 29907, 42134, 28783, 56445, 3151, 15378, 27605, 21392, 43414, 55641, 2347, 14574]

theorem squareEvals_eq (own : Bool) (i : Fin 2) : ([[false], [true], [true, false], [true, true]].flatMap fun p =>
    (Spec.evalInputs squareToy.withHistogram 2 (Spec.seedWords squareToy.withHistogram
      (squareDraw.reports i).rand.rootSeeds (Spec.stringOf 2 (squareDraw.reports i)) 2) p own
      (Pair.get (squareDraw.reports i).rand.rootSeeds own))).map blockTag = squareEvals own i := by
  revert i
  cases own <;> decide +kernel

theorem squareTags_evals (own : Bool) (i : Fin 2) : ∀ t ∈ squareEvals own i, ∀ k, t ≠ squareTags own k := by
  revert i
  cases own <;> decide +kernel

theorem square_evals (own : Bool) : Spec.FreshEvals squareToy.withHistogram 2 2 2 squareDraw own
    (Spec.attributePaths (runAttributes 2 1 squareDraw)) := by
  rw [square_paths]
  rintro ⟨i, l, k⟩ i' p hp h
  obtain ⟨_, e⟩ := squareTags_eq own i l k
  exact squareTags_evals own i' _ (squareEvals_eq own i' ▸ List.mem_map_of_mem
    (List.mem_flatMap.2 ⟨p, paths_sub hp, h⟩)) _ e

/-- Three clients, one of which does not hold the attribute: its weight may be 0 or 1. -/
example (own : Bool) :
    ∃ F : Spec.RunCoins squareToy.withHistogram 2 2 2 squareDraw
        ≃ Spec.RunCoins squareToy.withHistogram 2 2 2 squareDraw,
      ∀ (w : Spec.RunCoins squareToy.withHistogram 2 2 2 squareDraw) (Q Q' : Prims),
        Q = Spec.setRun squareToy.withHistogram 2 2 2 squareDraw (!own) w →
        Q' = Spec.setRun squareToy.withHistogram 2 2 2 squareDraw (!own) (F w) →
        ∀ (kcs : Pair2 Q) (kcs' : Pair2 Q'),
        ∃ (sent sent' : List (Req × Req)) (got : List (Resp × Resp)) (t0 t1 : Server Q) (t0' t1' : Server Q'),
          Spec.Hears (toyCfg 0 (some 2) .debug) (toyCfg 1 (some 2) .debug) (mainP Q .debug ⟨some 2, 2, 2, 2, 2, 2⟩ (.attributeBasedMetrics 1) (Spec.runDraw squareDraw (fun i => i) w) 3)
            (.running kcs.1) (.running kcs.2) sent got (Spec.abmShown 2 2 3
              (runAttributes 2 1 squareDraw) (Spec.runClients 2 squareDraw (fun i => i) 3)) t0 t1 ∧
          Spec.Hears (toyCfg 0 (some 2) .debug) (toyCfg 1 (some 2) .debug) (mainP Q' .debug ⟨some 2, 2, 2, 2, 2, 2⟩ (.attributeBasedMetrics 1) (Spec.runDraw squareDraw (fun _ => 1) (F w)) 3)
            (.running kcs'.1) (.running kcs'.2) sent' got (Spec.abmShown 2 2 3
              (runAttributes 2 1 squareDraw) (Spec.runClients 2 squareDraw (fun _ => 1) 3)) t0' t1' ∧
          Spec.received own sent = Spec.received own sent' ∧
          (Spec.received (!own) sent).filter Spec.notUpload = (Spec.received (!own) sent').filter Spec.notUpload :=
  C97_outside (P := squareToy) (c0 := toyCfg 0 (some 2) .debug)
    (c1 := toyCfg 1 (some 2) .debug) (bld := .debug) (cfg := ⟨some 2, 2, 2, 2, 2, 2⟩) (draw := squareDraw) (n := 3) (d := 2)
    (weight := fun i => i) (weight' := fun _ => 1) (num := 1) own square_sensible (by norm_num)
    (fun _ _ _ => List.length_replicate) square_points square_honest rfl (by decide) rfl (by decide)
    (by decide) (by decide) (by decide) (square_fresh own) (square_evals own) (by decide +kernel)

end Mastic
