import Verif.Props.Consistency
import Verif.Props.Prio3
import Verif.Spec.Modes

/-!
# C105: the three modes agree
-/

namespace Mastic

theorem partitions_ends {n : Nat} {ranges : List (Nat × Nat)} (h : Spec.Partitions n ranges) (hn : 1 ≤ n) :
    ∃ r, ranges.getLast? = some r ∧ r.2 = n := by
  rcases List.eq_nil_or_concat ranges with rfl | ⟨l, r, rfl⟩
  · have := congrArg List.length h.2
    simp at this; omega
  · rw [List.concat_eq_append] at h ⊢
    refine ⟨r, by simp, ?_⟩
    obtain ⟨h1, h2⟩ := h.1 r (by simp)
    have e := congrArg List.getLast? h.2
    rw [List.flatMap_append, List.flatMap_cons, List.flatMap_nil, List.append_nil, List.getLast?_append,
      List.getLast?_range', List.getLast?_range, if_neg (by omega), if_neg (by omega), Option.some_or,
      Option.some.injEq] at e
    omega

theorem slice_eq {α : Type} (l : List α) : ∀ k a : Nat,
    (List.range' a k).filterMap (fun i => l[i]?) = (l.drop a).take k
  | 0, a => by simp
  | k + 1, a => by
    rw [List.range'_succ]
    by_cases h : a < l.length
    · rw [List.filterMap_cons_some (List.getElem?_eq_getElem h), slice_eq l k (a + 1), List.drop_eq_getElem_cons h,
        List.take_succ_cons]
    · rw [List.filterMap_cons_none (List.getElem?_eq_none (by omega)), slice_eq l k (a + 1),
        List.drop_eq_nil_of_le (by omega), List.drop_eq_nil_of_le (by omega)]
      simp

/-- Cutting a list into the batches of a partition and counting in each of them counts in the list. -/
theorem partitions_count {α : Type} (l : List α) (p : α → Bool) {ranges : List (Nat × Nat)}
    (h : Spec.Partitions l.length ranges) :
    (ranges.map fun r => ((l.drop r.1).take (r.2 - r.1)).countP p).sum = l.countP p := by
  have e : ranges.flatMap (fun r => (l.drop r.1).take (r.2 - r.1)) = l := by
    have := congrArg (List.filterMap fun i => l[i]?) h.2
    rw [List.filterMap_flatMap] at this
    simp only [slice_eq] at this
    rw [this, List.range_eq_range', slice_eq]
    simp
  conv_rhs => rw [← e, List.countP_flatMap]
  rfl

/-- The clients of one bucket, string by string. -/
theorem sum_strings (L : List (List Bool)) (hL : L.Nodup) (k : Nat) (l : List (List Bool × Nat)) :
    (L.map fun s => ((l.filter fun c => c.1 == s).map Prod.snd).countP fun b => b == k).sum
      ≤ (l.map Prod.snd).countP (fun b => b == k) ∧
    ((∀ c ∈ l, c.1 ∈ L) →
      (L.map fun s => ((l.filter fun c => c.1 == s).map Prod.snd).countP fun b => b == k).sum
        = (l.map Prod.snd).countP fun b => b == k) := by
  induction l with
  | nil => simp
  | cons a l ih =>
    have h1 : ∀ s, (((a :: l).filter fun c => c.1 == s).map Prod.snd).countP (fun b => b == k)
        = ((l.filter fun c => c.1 == s).map Prod.snd).countP (fun b => b == k)
          + (if a.2 = k then 1 else 0) * if s = a.1 then 1 else 0 := by
      intro s
      by_cases hs : s = a.1
      · subst hs
        simp [List.countP_cons]
      · rw [List.filter_cons_of_neg (by simpa using fun h => hs h.symm)]
        simp [hs]
    have h2 : (L.map fun s => (if a.2 = k then 1 else 0) * if s = a.1 then 1 else 0).sum
        = (if a.2 = k then 1 else 0) * L.count a.1 := by
      rw [List.sum_map_mul_left, sum_indicator]
    have h3 : ((a :: l).map Prod.snd).countP (fun b => b == k)
        = (l.map Prod.snd).countP (fun b => b == k) + if a.2 = k then 1 else 0 := by
      simp [List.countP_cons]
    simp only [h1, List.sum_map_add, h2, h3]
    have h4 := List.nodup_iff_count_le_one.1 hL a.1
    constructor
    · have := Nat.mul_le_mul_left (if a.2 = k then 1 else 0) h4
      have := ih.1
      omega
    · intro hm
      rw [ih.2 fun c hc => hm c (by simp [hc]), List.count_eq_one_of_mem hL (hm a (by simp)), Nat.mul_one]

section
variable {P P' : Prims} {X : Prio3Xof} {c0 c1 c0' c1' : ServerCfg} {bld bld' : Build} {cfg cfg' : Config}
  {draw draw' : MainDraw} {n n' d num : Nat} {clients clients' : List (List Bool × Nat)} {buckets : List Nat}

theorem AttrRun.shown {kcs : Pair2 P} {attributes : List (List Bool)} {outs : List AbmOut}
    (h : Spec.AttrRun P c0 c1 cfg draw n d num clients)
    (hout : driverMain c0 c1 bld cfg (.attributeBasedMetrics num) draw n kcs = .ok (.abm attributes outs)) :
    attributes.Nodup ∧ (∀ a ∈ attributes, a.length = d) ∧
    ∃ o, outs.getLast? = some o ∧ o.results = Spec.attributeHistograms cfg.histBuckets attributes clients := by
  obtain ⟨as, ranges, g1, g2, g3, g4, -⟩ := (C62_attribute_based_metrics (kcs := kcs) (bld := bld) h.sensible h.proves h.bits
    h.one h.id0 h.id1 h.complete h.honest (fun j hj => (h.samples j hj).le) h.clients_eq).2
    fun j hj => (h.samples j hj).ne
  rw [g1] at hout
  cases hout
  obtain ⟨r, hr, hrn⟩ := partitions_ends g4 h.nonempty
  refine ⟨g2, fun a ha => ?_, ?_⟩
  · obtain ⟨j, -, rfl⟩ := (g3 a).1 ha
    simp
  · rw [List.getLast?_map, hr]
    refine ⟨_, rfl, ?_⟩
    dsimp only
    rw [List.take_of_length_le (by rw [hrn, h.clients_eq]; simp)]

theorem AttrRun.strings (h : Spec.AttrRun P c0 c1 cfg draw n d num clients) : ∀ c ∈ clients, c.1.length = d := by
  intro c hc
  rw [h.clients_eq] at hc
  obtain ⟨i, -, rfl⟩ := List.mem_map.1 hc
  simp [Spec.drawn]

theorem WhhRun.strings (h : Spec.WhhRun P c0 c1 cfg draw n d clients) : ∀ c ∈ clients, c.1.length = d := by
  intro c hc
  rw [h.clients_eq, List.mem_filterMap] at hc
  obtain ⟨o, ho, e⟩ := hc
  obtain ⟨i, -, rfl⟩ := List.mem_map.1 ho
  split at e
  · cases e
  · cases e
    simp [Spec.drawn]

theorem PlainRun.shown {kcs : Pair2 (P.withPrio3 X)} {outs : List PmOut}
    (h : Spec.PlainRun P X c0 c1 cfg draw n buckets)
    (hout : driverMain c0 c1 bld cfg .plainMetrics draw n kcs = .ok (.pm outs)) :
    (∀ o ∈ outs, o.result.length = cfg.histBuckets) ∧
    ∀ k < cfg.histBuckets, Spec.plainTotal outs k = buckets.countP fun b => b == k := by
  obtain ⟨ranges, g1, g2, -⟩ := C85_run (kcs := kcs) (bld := bld) h.sensible h.prio3 h.buckets_lt h.query h.id0 h.id1
    h.small h.honest h.buckets_eq
  rw [g1] at hout
  cases hout
  have hl : buckets.length = n := by rw [h.buckets_eq]; simp
  refine ⟨fun o ho => ?_, fun k hk => ?_⟩
  · obtain ⟨r, -, rfl⟩ := List.mem_map.1 ho
    simp [Spec.bucketCounts]
  · rw [← partitions_count buckets _ (hl.symm ▸ g2), Spec.plainTotal, List.map_map]
    congr 1
    refine List.map_congr_left fun r _ => ?_
    simp [Spec.bucketCounts, hk]

theorem histogram_row {B : Nat} (l : List Nat) (k : Nat) (hk : k < B) (hl : l.length < fieldModulus) :
    (((Spec.histogram B l)[k]?).map ZMod.val).getD 0 = l.countP fun b => b == k := by
  have : l.countP (fun b => b == k) < fieldModulus := lt_of_le_of_lt List.countP_le_length hl
  simp [Spec.histogram, hk, ZMod.val_cast_of_lt this]

/-- **C105, heavy hitters and attributes.**  Take a run of weighted heavy hitters and a run of attribute-based metrics
over the same clients (in any order, with any primitives, seeds, batches, builds and servers).  For every attribute,
either heavy hitters reports it, with exactly the histogram that the last batch of the other run shows for it and its
sum; or heavy hitters does not report it, and the histogram sums to less than the threshold. -/
theorem C105_attributes {kcs : Pair2 P} {kcs' : Pair2 P'} {out : WhhOut P} {attributes : List (List Bool)}
    {outs : List AbmOut} (h : Spec.WhhRun P c0 c1 cfg draw n d clients)
    (h' : Spec.AttrRun P' c0' c1' cfg' draw' n' d num clients')
    (hout : driverMain c0 c1 bld cfg .weightedHeavyHitters draw n kcs = .ok (.whh out))
    (hout' : driverMain c0' c1' bld' cfg' (.attributeBasedMetrics num) draw' n' kcs' = .ok (.abm attributes outs))
    (hb : cfg.histBuckets = cfg'.histBuckets) (hp : clients.Perm clients') :
    ∃ o, outs.getLast? = some o ∧ o.results.length = attributes.length ∧
      ∀ e ∈ attributes.zip o.results, e.2.length = cfg.histBuckets ∧
        ((∃ r ∈ out.results, r.path = e.1 ∧ r.value = e.2 ++ [(((e.2.map ZMod.val).sum : Nat) : Field128)]) ∨
         (∀ r ∈ out.results, r.path ≠ e.1) ∧ (e.2.map ZMod.val).sum < max 1 cfg.threshold) := by
  obtain ⟨-, hlen, o, ho, hres⟩ := AttrRun.shown h' hout'
  have hw := WhhRun.results h hout
  refine ⟨o, ho, by rw [hres]; simp [Spec.attributeHistograms], ?_⟩
  rintro ⟨a, row⟩ he
  rw [hres, Spec.attributeHistograms, ← hb] at he
  obtain ⟨i, hi⟩ := List.mem_iff_getElem?.1 he
  rw [List.getElem?_zip_eq_some, List.getElem?_map] at hi
  obtain ⟨ha, hrow⟩ := hi
  dsimp only at ha hrow
  rw [ha, Option.map_some, Option.some.injEq] at hrow
  have had : a.length = d := hlen a (List.mem_of_getElem? ha)
  have hfil : ∀ c ∈ clients', (a.isPrefixOf c.1) = (c.1 == a) := by
    intro c hc
    have hcl := AttrRun.strings h' c hc
    rw [Bool.eq_iff_iff, List.isPrefixOf_iff_prefix, beq_iff_eq]
    constructor
    · intro hpre; exact (hpre.eq_of_length (by omega)).symm
    · rintro rfl; exact List.prefix_rfl
  rw [List.filter_congr hfil] at hrow
  have hrow' : row = Spec.histogram cfg.histBuckets ((clients.filter fun c => c.1 == a).map Prod.snd) := by
    rw [← hrow]
    unfold Spec.histogram
    refine List.map_congr_left fun k _ => ?_
    rw [((hp.filter _).map Prod.snd).countP_eq]
  have hbk := WhhRun.bucket_lt h
  have hle := WhhRun.length_le h
  have hsm := h.small
  have hsum : (row.map ZMod.val).sum = clients.countP fun c => c.1 == a := by
    rw [hrow', Spec.histogram, List.map_map]
    have : ∀ k ∈ List.range cfg.histBuckets, (ZMod.val ∘ fun c => ((((clients.filter fun c => c.1 == a).map
        Prod.snd).countP fun b => b == c : Nat) : Field128)) k
        = ((clients.filter fun c => c.1 == a).map Prod.snd).countP fun b => b == k := by
      intro k _
      refine ZMod.val_cast_of_lt (lt_of_le_of_lt (List.countP_le_length.trans ?_) (lt_trans hsm (by decide)))
      rw [List.length_map]
      exact (List.length_filter_le _ _).trans hle
    rw [List.map_congr_left this, sum_counts_le _ _ fun x hx => by
      obtain ⟨c, hc, rfl⟩ := List.mem_map.1 hx
      exact hbk c (List.mem_of_mem_filter hc)]
    rw [List.length_map, List.countP_eq_length_filter]
  refine ⟨by rw [hrow']; simp [Spec.histogram], ?_⟩
  dsimp only
  rw [hsum]
  by_cases hT : max 1 cfg.threshold ≤ clients.countP fun c => c.1 == a
  · left
    have : (a, row ++ [((clients.countP fun c => c.1 == a : Nat) : Field128)])
        ∈ out.results.map fun r => (r.path, r.value) := by
      rw [hw, Spec.heavyHitters, List.mem_map]
      exact ⟨a, List.mem_filter.2 ⟨mem_allPaths.2 had, by simpa using hT⟩, by rw [hrow']⟩
    obtain ⟨r, hr, e⟩ := List.mem_map.1 this
    exact ⟨r, hr, congrArg Prod.fst e, congrArg Prod.snd e⟩
  · right
    refine ⟨fun r hr e => hT ?_, by omega⟩
    have : (r.path, r.value) ∈ out.results.map fun r => (r.path, r.value) := List.mem_map_of_mem hr
    rw [hw, Spec.heavyHitters, List.mem_map] at this
    obtain ⟨s, hs, e'⟩ := this
    have := (List.mem_filter.1 hs).2
    rw [show s = a from (congrArg Prod.fst e').trans e] at this
    simpa using this

/-- **C105, heavy hitters and plain metrics.**  Over clients with the same weights, the reported values of weighted
heavy hitters do not exceed, bucket by bucket, what plain metrics shows in all its batches together; with a threshold of
at most one they add up to it. -/
theorem C105_heavy_plain {kcs : Pair2 P} {kcs' : Pair2 (P'.withPrio3 X)} {out : WhhOut P} {outs : List PmOut}
    (h : Spec.WhhRun P c0 c1 cfg draw n d clients) (h' : Spec.PlainRun P' X c0' c1' cfg' draw' n' buckets)
    (hout : driverMain c0 c1 bld cfg .weightedHeavyHitters draw n kcs = .ok (.whh out))
    (hout' : driverMain c0' c1' bld' cfg' .plainMetrics draw' n' kcs' = .ok (.pm outs))
    (hb : cfg.histBuckets = cfg'.histBuckets) (hp : (clients.map Prod.snd).Perm buckets) :
    ∀ k < cfg.histBuckets, Spec.rowTotal (out.results.map (·.value)) k ≤ Spec.plainTotal outs k ∧
      (cfg.threshold ≤ 1 → Spec.rowTotal (out.results.map (·.value)) k = Spec.plainTotal outs k) := by
  intro k hk
  have hw := WhhRun.results h hout
  have hle := WhhRun.length_le h
  have hsm := h.small
  rw [(PlainRun.shown h' hout').2 k (hb ▸ hk), ← hp.countP_eq]
  have hL : ((Spec.allPaths d).filter fun s => decide (max 1 cfg.threshold ≤ clients.countP fun c => c.1 == s)).Nodup :=
    (allPaths_nodup d).filter _
  have e : Spec.rowTotal (out.results.map (·.value)) k
      = (((Spec.allPaths d).filter fun s => decide (max 1 cfg.threshold ≤ clients.countP fun c => c.1 == s)).map fun s =>
        ((clients.filter fun c => c.1 == s).map Prod.snd).countP fun b => b == k).sum := by
    have := congrArg (List.map Prod.snd) hw
    rw [List.map_map] at this
    rw [show out.results.map (·.value) = _ from this, Spec.rowTotal, Spec.heavyHitters, List.map_map, List.map_map]
    congr 1
    refine List.map_congr_left fun s _ => ?_
    simp only [Function.comp]
    rw [List.getElem?_append_left (by simp [Spec.histogram, hk]), histogram_row _ k hk]
    refine lt_of_le_of_lt ?_ (lt_trans hsm (by decide))
    rw [List.length_map]
    exact (List.length_filter_le _ _).trans hle
  rw [e]
  obtain ⟨s1, s2⟩ := sum_strings _ hL k clients
  refine ⟨s1, fun hT => s2 fun c hc => List.mem_filter.2 ⟨mem_allPaths.2 (WhhRun.strings h c hc), ?_⟩⟩
  have : 0 < clients.countP fun x => x.1 == c.1 := List.countP_pos_iff.2 ⟨c, hc, by simp⟩
  simp only [decide_eq_true_eq]
  omega

/-- **C105, attributes and plain metrics.**  Over clients with the same weights, the histograms that the last batch of
attribute-based metrics shows do not exceed together, bucket by bucket, what plain metrics shows in all its batches
together; if every client's string is an attribute, they add up to it. -/
theorem C105_attributes_plain {kcs : Pair2 P} {kcs' : Pair2 (P'.withPrio3 X)} {attributes : List (List Bool)}
    {outs : List AbmOut} {outs' : List PmOut} (h : Spec.AttrRun P c0 c1 cfg draw n d num clients)
    (h' : Spec.PlainRun P' X c0' c1' cfg' draw' n' buckets)
    (hout : driverMain c0 c1 bld cfg (.attributeBasedMetrics num) draw n kcs = .ok (.abm attributes outs))
    (hout' : driverMain c0' c1' bld' cfg' .plainMetrics draw' n' kcs' = .ok (.pm outs'))
    (hb : cfg.histBuckets = cfg'.histBuckets) (hp : (clients.map Prod.snd).Perm buckets) :
    ∃ o, outs.getLast? = some o ∧ ∀ k < cfg.histBuckets, Spec.rowTotal o.results k ≤ Spec.plainTotal outs' k ∧
      ((∀ c ∈ clients, c.1 ∈ attributes) → Spec.rowTotal o.results k = Spec.plainTotal outs' k) := by
  obtain ⟨hnd, hlen, o, ho, hres⟩ := AttrRun.shown h hout
  refine ⟨o, ho, fun k hk => ?_⟩
  rw [(PlainRun.shown h' hout').2 k (hb ▸ hk), ← hp.countP_eq]
  have hcl : clients.length = n := by rw [h.clients_eq]; simp
  have e : Spec.rowTotal o.results k
      = (attributes.map fun s => ((clients.filter fun c => c.1 == s).map Prod.snd).countP fun b => b == k).sum := by
    rw [hres, Spec.rowTotal, Spec.attributeHistograms, List.map_map]
    congr 1
    refine List.map_congr_left fun a ha => ?_
    have had := hlen a ha
    have hfil : ∀ c ∈ clients, (a.isPrefixOf c.1) = (c.1 == a) := by
      intro c hc
      have hcl := AttrRun.strings h c hc
      rw [Bool.eq_iff_iff, List.isPrefixOf_iff_prefix, beq_iff_eq]
      constructor
      · intro hpre; exact (hpre.eq_of_length (by omega)).symm
      · rintro rfl; exact List.prefix_rfl
    simp only [Function.comp]
    rw [List.filter_congr hfil, histogram_row _ k hk]
    rw [List.length_map]
    exact lt_of_le_of_lt (List.length_filter_le _ _) (by rw [hcl]; exact h.small)
  rw [e]
  exact sum_strings _ hnd k clients

end

/-! ### Cases that meet the hypotheses -/

/-- The first two clients of `toyDraw`, who hold `10` with weight 1, as a run of attribute-based metrics. -/
theorem few_attrRun : Spec.AttrRun toy (toyCfg 0 (some 2) .debug) (toyCfg 1 (some 2) .release)
    ⟨some 2, 2, 2, 1, 2, 2⟩ toyDraw 2 2 1 [([true, false], 1), ([true, false], 1)] where
  sensible := ⟨rfl, rfl, rfl, by decide, by decide, by decide, by decide, by decide⟩
  proves := toy_proves
  bits := rfl
  one := by decide
  id0 := rfl
  id1 := by decide
  complete := fun _ _ => toy_flpComplete _ _
  honest := by
    intro i hi
    have : i = 0 ∨ i = 1 := by omega
    rcases this with rfl | rfl <;> simp [toyDraw]
  samples := by decide
  clients_eq := rfl
  nonempty := by decide
  small := by decide

/-- Two clients with weight 1 as a run of plain metrics. -/
theorem few_plainRun : Spec.PlainRun toy toyXof (toyCfg 0 none .debug) (toyCfg 1 none .release)
    ⟨none, 2, 2, 1, 2, 2⟩ { toyPlainDraw with picks := fun _ => (2, none) } 2 [1, 1] where
  sensible := ⟨rfl, rfl, rfl, by decide, by decide, by decide, by decide, fun _ _ =>
    ⟨show 1 ≤ 2 by decide, show 2 ≤ 2 by decide⟩⟩
  prio3 := rfl
  buckets_lt := by norm_num
  query := fun i _ => show (3 : Field128) ^ Spec.points 2 (Spec.chunk 2) ≠ 1 by decide +kernel
  id0 := rfl
  id1 := rfl
  small := by decide
  honest := fun _ _ => rfl
  buckets_eq := rfl

/-- The three runs with threshold 1 end, and their results are related as C105 says: the attribute is reported, its
histogram is the value, and the totals are those of plain metrics. -/
example (k k' : Pair2 toy) (k'' : Pair2 (toy.withPrio3 toyXof)) :
    ∃ (out : WhhOut toy) (attributes : List (List Bool)) (outs : List AbmOut) (outs' : List PmOut) (o : AbmOut),
    driverMain (toyCfg 0 (some 2) .debug) (toyCfg 1 (some 2) .release) .debug ⟨some 2, 2, 2, 2, 2, 1⟩
      .weightedHeavyHitters toyDraw 2 k = .ok (.whh out) ∧
    driverMain (toyCfg 0 (some 2) .debug) (toyCfg 1 (some 2) .release) .debug ⟨some 2, 2, 2, 1, 2, 2⟩
      (.attributeBasedMetrics 1) toyDraw 2 k' = .ok (.abm attributes outs) ∧
    driverMain (toyCfg 0 none .debug) (toyCfg 1 none .release) .debug ⟨none, 2, 2, 1, 2, 2⟩ .plainMetrics
      { toyPlainDraw with picks := fun _ => (2, none) } 2 k'' = .ok (.pm outs') ∧
    out.results.map (fun r => (r.path, r.value)) = [([true, false], [0, 2, 2])] ∧
    outs.getLast? = some o ∧ attributes ≠ [] ∧
    (∀ e ∈ attributes.zip o.results, ∃ r ∈ out.results, r.path = e.1 ∧
      r.value = e.2 ++ [(((e.2.map ZMod.val).sum : Nat) : Field128)]) ∧
    (∀ j < 2, Spec.rowTotal (out.results.map (·.value)) j = Spec.plainTotal outs' j) ∧
    ∀ j < 2, Spec.rowTotal o.results j = Spec.plainTotal outs' j := by
  obtain ⟨out, h1, e1⟩ := few_ends 1 2 (.inr rfl) k
  have hA := few_attrRun
  obtain ⟨attributes, ranges, h2, -, g3, -, -⟩ := (C62_attribute_based_metrics (kcs := k') (bld := .debug) hA.sensible
    hA.proves hA.bits hA.one hA.id0 hA.id1 hA.complete hA.honest (fun j hj => (hA.samples j hj).le) hA.clients_eq).2
    fun j hj => (hA.samples j hj).ne
  have hP := few_plainRun
  obtain ⟨ranges', h3, -⟩ := C85_run (kcs := k'') (bld := .debug) hP.sensible hP.prio3 hP.buckets_lt hP.query hP.id0
    hP.id1 hP.small hP.honest hP.buckets_eq
  have hW := few_whhRun 1 2 (.inr rfl)
  have hmem : [true, false] ∈ attributes := (g3 _).2 ⟨0, by decide, rfl⟩
  have hall : ∀ a ∈ attributes, a = [true, false] := by
    intro a ha
    obtain ⟨j, -, rfl⟩ := (g3 a).1 ha
    rfl
  have e1 : out.results.map (fun r => (r.path, r.value)) = [([true, false], [0, 2, 2])] := e1.trans (by decide +kernel)
  obtain ⟨o, ho, -, q1⟩ := C105_attributes hW hA h1 h2 rfl (.refl _)
  obtain ⟨o', ho', q3⟩ := C105_attributes_plain hA hP h2 h3 rfl (.refl _)
  rw [ho] at ho'
  cases ho'
  refine ⟨out, attributes, _, _, o, h1, h2, h3, e1, ho, List.ne_nil_of_mem hmem, fun e he => ?_,
    fun j hj => (C105_heavy_plain hW hP h1 h3 rfl (.refl _) j hj).2 (by decide), fun j hj => (q3 j hj).2 ?_⟩
  · rcases (q1 e he).2 with h | ⟨h, -⟩
    · exact h
    · exfalso
      have : (([true, false], [0, 2, 2]) : List Bool × List Field128) ∈ out.results.map fun r => (r.path, r.value) := by
        rw [e1]; simp
      obtain ⟨r, hr, er⟩ := List.mem_map.1 this
      exact h r hr ((congrArg Prod.fst er).trans (hall _ (List.of_mem_zip he).1).symm)
  · intro c hc
    have : c.1 = [true, false] := by
      simp only [List.mem_cons, List.not_mem_nil, or_false, or_self] at hc
      rw [hc]
    rw [this]; exact hmem

end Mastic
