import Verif.Lemmas.Spy
import Verif.Props.Consistency
import Verif.Props.Prio3

/-!
# C98: a collector that asks what it likes
-/

namespace Mastic

variable {P : Prims} {c0 c1 : ServerCfg}

/-! ### Excluding clients -/

theorem keepOf_only {α : Type} : ∀ (cs : List α) (i k : Nat), (keepOf (cs.map some)
    ((List.range' k cs.length).map fun j => decide (j = k + i))).filterMap id = (cs[i]?).toList
  | [], i, k => rfl
  | c :: cs, 0, k => by
    have : ∀ (cs : List α) (m : Nat), k < m → (keepOf (cs.map some)
        ((List.range' m cs.length).map fun j => decide (j = k + 0))).filterMap id = [] := by
      intro cs
      induction cs with
      | nil => intro m _; rfl
      | cons c cs ih =>
        intro m hm
        rw [List.length_cons, List.range'_succ]
        simp only [keepOf, List.map_cons, List.zipWith_cons_cons]
        rw [if_neg (by simp; omega), List.filterMap_cons]
        exact ih (m + 1) (by omega)
    rw [List.length_cons, List.range'_succ]
    simp only [keepOf, List.map_cons, List.zipWith_cons_cons]
    rw [if_pos (by simp), List.filterMap_cons]
    show c :: _ = _
    rw [show (List.zipWith (fun (c : Option α) (k : Bool) => if k = true then c else none) (cs.map some)
      ((List.range' (k + 1) cs.length).map fun j => decide (j = k + 0))).filterMap id = []
      from this cs (k + 1) (by omega)]
    rfl
  | c :: cs, i + 1, k => by
    rw [List.length_cons, List.range'_succ]
    simp only [keepOf, List.map_cons, List.zipWith_cons_cons]
    rw [if_neg (by simp), List.filterMap_cons]
    have := keepOf_only cs i (k + 1)
    rw [show k + 1 + i = k + (i + 1) by omega] at this
    exact this

/-- The clients from `k` on. -/
def fromOn {α : Type} (k : Nat) (cs : List α) : List (Option α) :=
  List.replicate (min k cs.length) none ++ (cs.drop k).map some

theorem fromOn_zero {α : Type} (cs : List α) : fromOn 0 cs = cs.map some := by simp [fromOn]

theorem fromOn_filterMap {α : Type} (k : Nat) (cs : List α) : (fromOn k cs).filterMap id = cs.drop k := by
  unfold fromOn
  rw [List.filterMap_append, List.filterMap_replicate_of_none rfl, List.filterMap_map, List.nil_append]
  exact List.filterMap_some

theorem fromOn_length {α : Type} (k : Nat) (cs : List α) : (fromOn k cs).length = cs.length := by
  simp only [fromOn, List.length_append, List.length_replicate, List.length_map, List.length_drop]
  omega

theorem fromOn_getElem {α : Type} (k : Nat) (cs : List α) (i : Nat) :
    (fromOn k cs)[i]? = (cs[i]?).map fun c => if k ≤ i then some c else none := by
  unfold fromOn
  by_cases hi : i < cs.length
  · rw [List.getElem?_eq_getElem hi]
    by_cases hk : k ≤ i
    · rw [List.getElem?_append_right (by simp; omega)]
      simp only [List.length_replicate, List.getElem?_map, List.getElem?_drop, Option.map_some, if_pos hk]
      rw [show k + (i - min k cs.length) = i by omega, List.getElem?_eq_getElem hi]
      rfl
    · rw [List.getElem?_append_left (by simp; omega), List.getElem?_replicate, if_pos (by omega)]
      simp [hk]
  · have hl := fromOn_length k cs
    unfold fromOn at hl
    rw [List.getElem?_eq_none (by omega), List.getElem?_eq_none (by omega)]
    rfl

theorem keepOf_fromOn {α : Type} (cs : List α) (k : Nat) :
    keepOf (fromOn k cs) ((List.range cs.length).map fun j => decide (k < j)) = fromOn (k + 1) cs := by
  refine List.ext_getElem? fun i => ?_
  rw [keepOf, List.getElem?_zipWith, fromOn_getElem, fromOn_getElem, List.getElem?_map]
  by_cases hi : i < cs.length
  · rw [List.getElem?_eq_getElem hi, List.getElem?_range hi]
    simp only [Option.map_some, decide_eq_true_eq]
    by_cases h1 : k < i
    · rw [if_pos h1, if_pos (by omega), if_pos (by omega)]
    · rw [if_neg h1, if_neg (by omega)]
  · rw [List.getElem?_eq_none (by omega)]
    rfl

/-- Excluding clients by `apply_flp_results`. -/
theorem tells_exclude {n d : Nat} {cs : List (Option (List Bool × Nat))} {kcs : Pair2 P} (h : Watched P n d cs kcs)
    {keep : List Bool} (hl : keep.length = cs.length) :
    ∃ (sent : List (Req × Req)) (kcs' : Pair2 P),
      Tells c0 c1 (callDone (.applyFlpResults keep) (.applyFlpResults keep)) kcs sent () kcs' ∧
      Watched P n d (keepOf cs keep) kcs' := by
  obtain ⟨l0, l1, -⟩ := h.mixed.lengths
  have e0 := applyFlp_exact kcs.1 keep (by omega)
  have e1 := applyFlp_exact kcs.2 keep (by omega)
  obtain ⟨sent, ht⟩ := tells_exec (c0 := c0) (c1 := c1) (kcs := kcs) (a := ())
    (p := callDone (.applyFlpResults keep) (.applyFlpResults keep))
    (kcs' := ({ kcs.1 with reportShares := Spec.masked kcs.1.reportShares keep },
      { kcs.2 with reportShares := Spec.masked kcs.2.reportShares keep }))
    (by rw [exec_apply, e0, ok_bind, e1, ok_bind])
  exact ⟨sent, _, ht, h.in0, h.in1, h.id0, h.id1, h.d0, h.d1, mixed_mask h.mixed keep⟩

theorem heavyHitters_alone {n d : Nat} {c : List Bool × Nat} (hc : c.1.length = d) :
    Spec.heavyHitters n 1 d [c] = [(c.1, Spec.histogram n [c.2] ++ [1])] := by
  have hf : ∀ l : List (List Bool), l.Nodup → c.1 ∈ l →
      l.filter (fun s => decide (1 ≤ [c].countP fun c => c.1 == s)) = [c.1] := by
    intro l hl hm
    have : (fun s => decide (1 ≤ [c].countP fun c => c.1 == s)) = fun s => s == c.1 := by
      funext s
      by_cases hs : c.1 = s
      · simp [hs]
      · have : (s == c.1) = false := by simp [Ne.symm hs]
        simp [hs, this]
    rw [this, List.filter_beq, List.count_eq_one_of_mem hl hm]
    rfl
  unfold Spec.heavyHitters
  rw [hf _ (allPaths_nodup d) (mem_allPaths.2 hc)]
  simp

/-- **C98 is false of the code (1).**  The collector can have any one client's string and weight: it leaves out all other
clients with `apply_flp_results` and crawls with threshold one, which the servers answer for every honest report. -/
theorem C98_false_isolate {n d : Nat} {bld : Build} {cfg : Config} {kcs : Pair2 P} {clients : List (List Bool × Nat)}
    {c : List Bool × Nat} {i : Nat}
    (hdb : cfg.dataBits = some d) (hd2 : 2 ≤ d) (hb : 1 ≤ cfg.queryBatch) (hT : cfg.threshold ≤ 1)
    (hn : cfg.histBuckets = n) (hn0 : kcs.1.inputLen = n) (hn1 : kcs.2.inputLen = n)
    (h0 : kcs.1.serverId = 0) (h1 : kcs.2.serverId ≠ 0) (d0 : kcs.1.depth = some d) (d1 : kcs.2.depth = some d)
    (hh : Spec.HonestReports P n clients kcs.1.reportShares kcs.2.reportShares)
    (hf0 : ∀ r ∈ kcs.1.reportShares, r.1 = true) (hf1 : ∀ r ∈ kcs.2.reportShares, r.1 = true)
    (hl : ∀ c ∈ clients, c.1.length = d) (hi : clients[i]? = some c) :
    ∃ (sent : List (Req × Req)) (out : Shown) (t0 t1 : Server P),
      Spec.Talk c0 c1 (Spec.isolateP P bld cfg clients.length d i) (.running kcs.1) (.running kcs.2) sent out t0 t1 ∧
      Spec.seen out = [(c.1, Spec.histogram n [c.2] ++ [1])] := by
  have hW : Watched P n d (clients.map some) kcs :=
    ⟨hn0, hn1, h0, h1, d0, d1, mixed_of_honest hh hl hf0 hf1⟩
  obtain ⟨x, k1, t1, W1⟩ := tells_exclude (c0 := c0) (c1 := c1) hW
    (keep := (List.range clients.length).map fun j => decide (j = i)) (by simp)
  have hk : (keepOf (clients.map some) ((List.range clients.length).map fun j => decide (j = i))).filterMap id
      = [c] := by
    have := keepOf_only clients i 0
    rw [← List.range_eq_range', Nat.zero_add, hi] at this
    exact this
  obtain ⟨y, out, k2, t2, g, -⟩ := tells_spyCrawl (c0 := c0) (c1 := c1) (num := clients.length) (bld := bld) W1 hn hd2 hb
    hT hdb (by rw [hk]; simp) (by rw [hk, List.length_singleton]; decide)
  rw [hk, heavyHitters_alone (hl c (List.mem_of_getElem? hi))] at g
  exact ⟨_, out, _, _, t1.bind (f := fun _ => Spec.crawlP P bld cfg clients.length d) t2, g⟩

/-! ### Everybody -/

theorem tells_spy {n d : Nat} {bld : Build} {cfg : Config} {clients : List (List Bool × Nat)}
    (hdb : cfg.dataBits = some d) (hd2 : 2 ≤ d) (hb : 1 ≤ cfg.queryBatch) (hT : cfg.threshold ≤ 1)
    (hn : cfg.histBuckets = n) (hlt : clients.length < 2 ^ 64) : ∀ (m k : Nat) (kcs : Pair2 P), k + m = clients.length →
    Watched P n d (fromOn k clients) kcs →
    ∃ (sent : List (Req × Req)) (outs : List Shown) (kcs' : Pair2 P),
      Tells c0 c1 (Spec.spyP P bld cfg clients.length d k m) kcs sent outs kcs' ∧
      outs.map Spec.seen = Spec.spied n d (clients.drop k)
  | 0, k, kcs, hk, _ => ⟨[], [], kcs, .ret _ _ _, by
      rw [List.drop_eq_nil_of_le (by omega)]; rfl⟩
  | m + 1, k, kcs, hk, hW => by
    have hfm := fromOn_filterMap k clients
    have hkl : k < clients.length := by omega
    obtain ⟨x, o, k1, t1, g1, W1⟩ := tells_spyCrawl (c0 := c0) (c1 := c1) (num := clients.length) (bld := bld) hW hn hd2 hb
      hT hdb (by rw [hfm]; simpa using hkl) (by rw [hfm, List.length_drop]; omega)
    obtain ⟨y, k2, t2, W2⟩ := tells_exclude (c0 := c0) (c1 := c1) W1
      (keep := (List.range clients.length).map fun j => decide (k < j)) (by simp [fromOn_length])
    rw [keepOf_fromOn] at W2
    obtain ⟨z, os, k3, t3, g3⟩ := tells_spy hdb hd2 hb hT hn hlt m (k + 1) k2 (by omega) W2
    refine ⟨_, o :: os, k3, t1.bind (f := fun o => do
      callDone (.applyFlpResults ((List.range clients.length).map fun j => decide (k < j)))
        (.applyFlpResults ((List.range clients.length).map fun j => decide (k < j)))
      let os ← Spec.spyP P bld cfg clients.length d (k + 1) m
      .ret (o :: os)) (t2.bind (f := fun _ => do
        let os ← Spec.spyP P bld cfg clients.length d (k + 1) m
        .ret (o :: os)) (t3.bind (f := fun os => .ret (o :: os)) (.ret _ _ _))), ?_⟩
    rw [List.map_cons, g1, hfm, g3, List.drop_eq_getElem_cons hkl]
    rfl

theorem hh_lookup {n d : Nat} {clients : List (List Bool × Nat)} {s : List Bool} {v : List Field128}
    (h : (s, v) ∈ Spec.heavyHitters n 1 d clients) :
    v = Spec.histogram n ((clients.filter fun c => c.1 == s).map Prod.snd)
      ++ [((clients.countP fun c => c.1 == s : Nat) : Field128)] := by
  unfold Spec.heavyHitters at h
  obtain ⟨s', -, e⟩ := List.mem_map.1 h
  obtain ⟨rfl, rfl⟩ := Prod.mk.inj e
  rfl

theorem spied_injective {n d : Nat} : ∀ {cs cs' : List (List Bool × Nat)}, (∀ c ∈ cs, c.1.length = d ∧ c.2 < n) →
    (∀ c ∈ cs', c.1.length = d ∧ c.2 < n) → Spec.spied n d cs = Spec.spied n d cs' → cs = cs'
  | [], [], _, _, _ => rfl
  | [], c :: cs, _, _, h => by cases h
  | c :: cs, [], _, _, h => by cases h
  | c :: cs, c' :: cs', h, h', e => by
    obtain ⟨e1, e2⟩ := List.cons.inj e
    obtain rfl := spied_injective (fun c hc => h c (by simp [hc])) (fun c hc => h' c (by simp [hc])) e2
    congr 1
    by_contra hne
    obtain ⟨hd, hn⟩ := h c (by simp)
    have hm : (c.1, Spec.histogram n (((c :: cs).filter fun x => x.1 == c.1).map Prod.snd)
        ++ [(((c :: cs).countP fun x => x.1 == c.1 : Nat) : Field128)]) ∈ Spec.heavyHitters n 1 d (c :: cs) :=
      List.mem_map.2 ⟨c.1, List.mem_filter.2 ⟨mem_allPaths.2 hd, by simp⟩, rfl⟩
    rw [e1] at hm
    have hv := hh_lookup hm
    have := congrArg (·[c.2]?) hv
    simp only at this
    have hg : ∀ (l : List Nat) (x : Field128), (Spec.histogram n l ++ [x])[c.2]?
        = some ((l.countP fun b => b == c.2 : Nat) : Field128) := by
      intro l x
      rw [List.getElem?_append_left (by simp [Spec.histogram, hn])]
      simp [Spec.histogram, List.getElem?_range hn]
    rw [hg, hg, Option.some.injEq] at this
    have hcnt : ∀ l : List (List Bool × Nat), ((l.filter fun x => x.1 == c.1).map Prod.snd).countP (fun b => b == c.2)
        = l.countP fun x => x == c := by
      intro l
      rw [List.countP_map, List.countP_filter]
      refine List.countP_congr fun x _ => ?_
      simp only [Function.comp_apply, Bool.and_eq_true, beq_iff_eq]
      exact ⟨fun hx => Prod.ext hx.2 hx.1, fun hx => by simp [hx]⟩
    rw [hcnt, hcnt, List.countP_cons, List.countP_cons, if_pos (by simp), if_neg (by simpa using Ne.symm hne)] at this
    push_cast at this
    have h10 : (1 : Field128) = 0 := by simpa using this
    revert h10
    decide +kernel

/-- **C98 is false of the code (2).**  The collector can have the string and the weight of every client: it crawls with
threshold one, leaves out one more client with `apply_flp_results`, starts a new tree and crawls again, and so on.  The
servers answer all this, and what the crawls show determines all clients. -/
theorem C98_false_everyone {n d : Nat} {bld : Build} {cfg : Config} {kcs : Pair2 P} {clients : List (List Bool × Nat)}
    (hdb : cfg.dataBits = some d) (hd2 : 2 ≤ d) (hb : 1 ≤ cfg.queryBatch) (hT : cfg.threshold ≤ 1)
    (hn : cfg.histBuckets = n) (hn0 : kcs.1.inputLen = n) (hn1 : kcs.2.inputLen = n)
    (h0 : kcs.1.serverId = 0) (h1 : kcs.2.serverId ≠ 0) (d0 : kcs.1.depth = some d) (d1 : kcs.2.depth = some d)
    (hh : Spec.HonestReports P n clients kcs.1.reportShares kcs.2.reportShares)
    (hf0 : ∀ r ∈ kcs.1.reportShares, r.1 = true) (hf1 : ∀ r ∈ kcs.2.reportShares, r.1 = true)
    (hl : ∀ c ∈ clients, c.1.length = d) (hlt : clients.length < 2 ^ 64) :
    ∃ (sent : List (Req × Req)) (outs : List Shown) (t0 t1 : Server P),
      Spec.Talk c0 c1 (Spec.spyP P bld cfg clients.length d 0 clients.length) (.running kcs.1) (.running kcs.2) sent outs
        t0 t1 ∧
      outs.map Spec.seen = Spec.spied n d clients ∧
      ∀ clients' : List (List Bool × Nat), (∀ c ∈ clients', c.1.length = d ∧ c.2 < n) →
        Spec.spied n d clients' = outs.map Spec.seen → clients' = clients := by
  have hW : Watched P n d (fromOn 0 clients) kcs := by
    rw [fromOn_zero]
    exact ⟨hn0, hn1, h0, h1, d0, d1, mixed_of_honest hh hl hf0 hf1⟩
  obtain ⟨sent, outs, k', ht, hs⟩ := tells_spy (c0 := c0) (c1 := c1) (bld := bld) hdb hd2 hb hT hn hlt clients.length 0
    kcs (by omega) hW
  rw [List.drop_zero] at hs
  refine ⟨sent, outs, _, _, ht, hs, fun clients' hc he => ?_⟩
  rw [hs] at he
  refine spied_injective hc (fun c hc => ?_) he
  have := hW.mixed.lengths.2.2 c (by rw [fromOn_filterMap]; simpa using hc)
  exact this

/-- **C98 for the driver's own requests and what it prints** (what is missing: other requests, for which
`C98_false_isolate` and `C98_false_everyone` show that the claim fails, and the answers that the driver gets but does not
print, for which C95 says exactly what they reveal).  Every result of a run of honest clients is the histogram of the
weights of at least `max 1 threshold` clients, all with the reported string. -/
theorem C98_printed_partial {cfg : Config} {bld : Build} {draw : MainDraw} {n d : Nat}
    {clients : List (List Bool × Nat)} {kcs : Pair2 P} {out : WhhOut P}
    (h : Spec.WhhRun P c0 c1 cfg draw n d clients)
    (hout : driverMain c0 c1 bld cfg .weightedHeavyHitters draw n kcs = .ok (.whh out)) :
    ∀ r ∈ out.results, ∃ group : List (List Bool × Nat), group.Sublist clients ∧ max 1 cfg.threshold ≤ group.length ∧
      (∀ c ∈ group, c.1 = r.path) ∧
      r.value = Spec.histogram cfg.histBuckets (group.map Prod.snd) ++ [(group.length : Field128)] := by
  intro r hr
  have hres := WhhRun.results h hout
  have hm : (r.path, r.value) ∈ out.results.map fun r => (r.path, r.value) := List.mem_map_of_mem hr
  rw [hres] at hm
  unfold Spec.heavyHitters at hm
  obtain ⟨s, hs, e⟩ := List.mem_map.1 hm
  obtain ⟨rfl, e⟩ := Prod.mk.inj e
  refine ⟨clients.filter fun c => c.1 == r.path, List.filter_sublist, ?_, ?_, ?_⟩
  · rw [← List.countP_eq_length_filter]
    exact of_decide_eq_true (List.mem_filter.1 hs).2
  · intro c hc
    simpa using (List.mem_filter.1 hc).2
  · rw [← List.countP_eq_length_filter, ← e]

/-- **C98 is false of the code (3).**  Plain metrics with the driver's own requests: if a batch holds one client only, which
happens for every client if the batch size is one, the weight of this client is printed. -/
theorem C98_false_batch {X : Prio3Xof} {bld : Build} {cfg : Config} {draw : MainDraw} {n : Nat}
    {kcs : Pair2 (P.withPrio3 X)} (hs : Spec.Sensible (P.withPrio3 X) cfg draw n)
    (hok : P.prio3Ok cfg.histBuckets = true) (hb64 : cfg.histBuckets < 2 ^ 64)
    (hq : ∀ i < n, Spec.queryPoint X draw.verifyKey (Spec.MainDraw.of draw i).rand.nonce
      ^ Spec.points cfg.histBuckets (Spec.chunk cfg.histBuckets) ≠ 1)
    (h0 : c0.serverId = 0) (h1 : c1.serverId = 1) (hsmall : n < fieldModulus)
    (htam : ∀ i < n, (draw.picks i).2 = none) (hone : cfg.queryBatch = 1) :
    ∃ outs, driverMain c0 c1 bld cfg .plainMetrics draw n kcs = .ok (.pm outs) ∧ ∀ i < n,
      ⟨0, Spec.bucketCounts cfg.histBuckets [(Spec.MainDraw.of draw i).bucket % cfg.histBuckets]⟩ ∈ outs := by
  obtain ⟨ranges, g1, ⟨g2, g3⟩, g4⟩ := C85_run (c0 := c0) (c1 := c1) (bld := bld) (kcs := kcs) hs hok hb64 hq h0 h1 hsmall
    htam rfl
  refine ⟨_, g1, fun i hi => ?_⟩
  have hm : i ∈ ranges.flatMap fun r => List.range' r.1 (r.2 - r.1) := by rw [g3]; exact List.mem_range.2 hi
  obtain ⟨r, hr, hir⟩ := List.mem_flatMap.1 hm
  have := g2 r hr
  have := g4 r hr
  rw [List.mem_range'_1] at hir
  refine List.mem_map.2 ⟨r, hr, ?_⟩
  rw [show r.1 = i by omega, show r.2 - i = 1 by omega, List.take_one, List.head?_drop, List.getElem?_map,
    List.getElem?_range hi]
  rfl

/-- Three toy clients: the servers let the collector see the second one alone, although the driver's threshold is two. -/
example : ∃ (kcs : Pair2 toy) (sent : List (Req × Req)) (out : Shown) (t0 t1 : Server toy),
    Spec.Talk (toyCfg 0 (some 3) .debug) (toyCfg 1 (some 3) .debug)
      (Spec.isolateP toy .debug ⟨some 3, 2, 2, 2, 1, 1⟩ 3 3 1) (.running kcs.1) (.running kcs.2) sent out t0 t1 ∧
    Spec.seen out = [([true, true, false], [0, 1, 1])] ∧
    Spec.heavyHitters 2 2 3 [([true, false, false], 0), ([true, true, false], 1), ([true, false, false], 1)]
      = [([true, false, false], [1, 1, 2])] := by
  obtain ⟨kcs, h1, h2, h3, h4, h5, h6, h7, h8, h9, h10⟩ :=
    toy_honest 2 3 [([true, false, false], 0), ([true, true, false], 1), ([true, false, false], 1)] (by decide)
  obtain ⟨sent, out, t0, t1, g1, g2⟩ := C98_false_isolate (c0 := toyCfg 0 (some 3) .debug)
    (c1 := toyCfg 1 (some 3) .debug) (bld := .debug) (cfg := ⟨some 3, 2, 2, 2, 1, 1⟩) (d := 3) (i := 1) rfl
    (by decide) (by decide) (by decide) rfl h1 h2 h3 (by rw [h4]; decide) h6 h7 h8 h9 h10 (by decide) rfl
  exact ⟨kcs, sent, out, t0, t1, g1, g2.trans (by decide +kernel), by decide +kernel⟩

/-- The same clients: the three crawls of the collector that wants to know everybody. -/
example : ∃ (kcs : Pair2 toy) (sent : List (Req × Req)) (outs : List Shown) (t0 t1 : Server toy),
    Spec.Talk (toyCfg 0 (some 3) .debug) (toyCfg 1 (some 3) .debug)
      (Spec.spyP toy .debug ⟨some 3, 2, 2, 2, 1, 1⟩ 3 3 0 3) (.running kcs.1) (.running kcs.2) sent outs t0 t1 ∧
    outs.map Spec.seen = [[([true, false, false], [1, 1, 2]), ([true, true, false], [0, 1, 1])],
      [([true, false, false], [0, 1, 1]), ([true, true, false], [0, 1, 1])], [([true, false, false], [0, 1, 1])]] := by
  obtain ⟨kcs, h1, h2, h3, h4, h5, h6, h7, h8, h9, h10⟩ :=
    toy_honest 2 3 [([true, false, false], 0), ([true, true, false], 1), ([true, false, false], 1)] (by decide)
  obtain ⟨sent, outs, t0, t1, g1, g2, -⟩ := C98_false_everyone (c0 := toyCfg 0 (some 3) .debug)
    (c1 := toyCfg 1 (some 3) .debug) (bld := .debug) (cfg := ⟨some 3, 2, 2, 2, 1, 1⟩) (d := 3) rfl
    (by decide) (by decide) (by decide) rfl h1 h2 h3 (by rw [h4]; decide) h6 h7 h8 h9 h10 (by decide) (by decide)
  exact ⟨kcs, sent, outs, t0, t1, g1, g2.trans (by decide +kernel)⟩

/-- Three plain-metrics clients in batches of one: the weight of the second client is printed. -/
example (kcs : Pair2 (toy.withPrio3 toyXof)) : ∃ outs,
    driverMain (toyCfg 0 none .debug) (toyCfg 1 none .release) .debug ⟨none, 2, 2, 1, 2, 2⟩ .plainMetrics
      { toyPlainDraw with picks := fun i => (i % 2 + 1, none) } 3 kcs = .ok (.pm outs) ∧ ⟨0, [0, 1]⟩ ∈ outs := by
  obtain ⟨outs, h1, h2⟩ := C98_false_batch (P := toy) (X := toyXof) (c0 := toyCfg 0 none .debug)
    (c1 := toyCfg 1 none .release) (bld := .debug) (cfg := ⟨none, 2, 2, 1, 2, 2⟩)
    (draw := { toyPlainDraw with picks := fun i => (i % 2 + 1, none) }) (n := 3) (kcs := kcs)
    ⟨rfl, rfl, rfl, by decide, by decide, by decide, by decide, fun i _ =>
      ⟨Nat.le_add_left _ _, Nat.succ_le_of_lt (Nat.mod_lt i (by decide))⟩⟩ rfl (by norm_num)
    (fun i _ => show (3 : Field128) ^ Spec.points 2 (Spec.chunk 2) ≠ 1 by decide +kernel) rfl rfl (by decide)
    (fun _ _ => rfl) rfl
  exact ⟨outs, h1, h2 1 (by decide)⟩

/-- Two toy clients with the same string and threshold two: the one result covers both. -/
example (kcs : Pair2 toy) : ∃ out : WhhOut toy, out.results.length = 1 ∧
    ∀ r ∈ out.results, ∃ group : List (List Bool × Nat), 2 ≤ group.length ∧ ∀ c ∈ group, c.1 = r.path := by
  obtain ⟨out, h, e⟩ := few_ends 2 2 (.inr rfl) kcs
  have hl := congrArg List.length e
  rw [List.length_map] at hl
  refine ⟨out, hl.trans (by decide +kernel), fun r hr => ?_⟩
  obtain ⟨group, -, g2, g3, -⟩ := C98_printed_partial (few_whhRun 2 2 (.inr rfl)) h r hr
  exact ⟨group, g2, g3⟩

end Mastic
