import Verif.Props.Script
import Verif.Props.Flat

/-!
# C101: how many prefixes the servers have to keep
-/

namespace Mastic

variable {P : Prims}

/-- Every string begins with at most one of different prefixes of one length. -/
theorem prefixes_le_one {s : List Bool} {m : Nat} : ∀ {ps : List (List Bool)}, ps.Nodup → (∀ p ∈ ps, p.length = m) →
    (ps.countP fun p => p.isPrefixOf s) ≤ 1
  | [], _, _ => by simp
  | p :: ps, hn, hl => by
    obtain ⟨h1, h2⟩ := List.nodup_cons.1 hn
    rw [List.countP_cons]
    have ih := prefixes_le_one (s := s) h2 fun q hq => hl q (List.mem_cons_of_mem _ hq)
    by_cases hp : p.isPrefixOf s = true
    · have h0 : (ps.countP fun p => p.isPrefixOf s) = 0 := by
        rw [List.countP_eq_zero]
        intro q hq hqs
        have e1 := List.prefix_iff_eq_take.1 (List.isPrefixOf_iff_prefix.1 hp)
        have e2 := List.prefix_iff_eq_take.1 (List.isPrefixOf_iff_prefix.1 hqs)
        rw [hl p List.mem_cons_self] at e1
        rw [hl q (List.mem_cons_of_mem _ hq)] at e2
        exact h1 (by rwa [e1, ← e2])
      rw [h0, if_pos hp]
    · rw [if_neg hp]
      exact ih

/-- Different prefixes of one length have together at most as many holders as there are strings. -/
theorem countOf_sum {ps : List (List Bool)} {m : Nat} (hn : ps.Nodup) (hl : ∀ p ∈ ps, p.length = m) :
    ∀ strings : List (Option (List Bool)), (ps.map (Spec.countOf strings)).sum ≤ (strings.filterMap id).length
  | [] => by
    have : ps.map (Spec.countOf []) = ps.map fun _ => 0 := List.map_congr_left fun p _ => rfl
    rw [this]
    simp
  | none :: strings => by
    have : ps.map (Spec.countOf (none :: strings)) = ps.map (Spec.countOf strings) :=
      List.map_congr_left fun p _ => by simp [Spec.countOf]
    rw [this]
    exact countOf_sum hn hl strings
  | some s :: strings => by
    have : (ps.map (Spec.countOf (some s :: strings))).sum
        = (ps.map (Spec.countOf strings)).sum + ps.countP fun p => p.isPrefixOf s := by
      clear hn hl
      induction ps with
      | nil => rfl
      | cons p ps ih =>
        rw [List.map_cons, List.sum_cons, ih, List.map_cons, List.sum_cons, List.countP_cons]
        have : Spec.countOf (some s :: strings) p = Spec.countOf strings p + if p.isPrefixOf s = true then 1 else 0 := by
          unfold Spec.countOf
          rw [List.countP_cons]
        omega
    rw [this]
    have h1 := countOf_sum hn hl strings
    have h2 := prefixes_le_one (s := s) hn hl
    have hc : (some s :: strings).filterMap id = s :: strings.filterMap id := rfl
    rw [hc, List.length_cons]
    omega

/-- There are at most as many heavy prefixes of a length as groups of `T` strings. -/
theorem heavyAt_le {T m : Nat} (hT : 1 ≤ T) (hm : 1 ≤ m) (strings : List (Option (List Bool))) :
    (Spec.heavyAt T strings m).length ≤ (strings.filterMap id).length / T := by
  have hn : (Spec.heavyAt T strings m).Nodup := (allPaths_nodup m).filter _
  have hl : ∀ p ∈ Spec.heavyAt T strings m, p.length = m := fun p hp => mem_allPaths.1 (List.mem_filter.1 hp).1
  rw [Nat.le_div_iff_mul_le (by omega)]
  refine le_trans ?_ (countOf_sum hn hl strings)
  have : ∀ ps : List (List Bool), (∀ p ∈ ps, T ≤ Spec.countOf strings p) →
      ps.length * T ≤ (ps.map (Spec.countOf strings)).sum := by
    intro ps
    induction ps with
    | nil => intro _; simp
    | cons p ps ih =>
      intro h
      rw [List.length_cons, List.map_cons, List.sum_cons, Nat.add_mul, Nat.one_mul]
      have := ih fun q hq => h q (List.mem_cons_of_mem _ hq)
      have := h p List.mem_cons_self
      omega
  refine this _ fun p hp => ?_
  have h := (List.mem_filter.1 hp).2
  have hne : p.isEmpty = false := by
    have := hl p hp
    cases p with
    | nil => simp at this; omega
    | cons => rfl
  rw [hne, Bool.false_or, decide_eq_true_eq] at h
  exact h

/-- **C101 for honest clients and clients that the FLP verification rejects** (what is missing: clients that pass it with
other keys, for which `C101_false` shows that the claim fails).  In every pruning request of the run, at most
`N / max 1 threshold` prefixes are kept, `N` being the number of accepted clients, and at most twice as many, or two, have
been crawled. -/
theorem C101_honest_partial {c0 c1 : ServerCfg} {bld : Build} {cfg : Config} {kcs : Pair2 P} {d : Nat}
    {clients : List (Option (List Bool × Nat))}
    (hd : cfg.dataBits = some d) (hd2 : 2 ≤ d) (hb : 1 ≤ cfg.queryBatch)
    (hn0 : kcs.1.inputLen = cfg.histBuckets) (hn1 : kcs.2.inputLen = cfg.histBuckets)
    (h0 : kcs.1.serverId = 0) (h1 : kcs.2.serverId ≠ 0) (hvk : kcs.1.verifyKey = kcs.2.verifyKey)
    (d0 : kcs.1.depth = some d) (d1 : kcs.2.depth = some d)
    (hp : Spec.Population P cfg.histBuckets d kcs.1.serverId kcs.2.serverId kcs.1.verifyKey clients
      kcs.1.reportShares kcs.2.reportShares)
    (hne : clients.filterMap id ≠ []) (hlt : (clients.filterMap id).length < 2 ^ 64)
    (hheavy : ∃ s, s.length = d - 2 ∧ (s ≠ [] →
      max 1 cfg.threshold ≤ (Spec.holders (clients.filterMap id) s).length)) :
    ∃ (sent : List (Req × Req)) (out : Shown) (t0 t1 : Server P),
      Spec.Talk c0 c1 (whhP P bld cfg clients.length) (.running kcs.1) (.running kcs.2) sent out t0 t1 ∧
      ∀ (r0 r1 : Req), (r0, r1) ∈ sent → r1 = r0 ∧ ∀ keep, r0 = .treePrune keep →
        keep.count true ≤ (clients.filterMap id).length / max 1 cfg.threshold ∧
        keep.length ≤ 2 * max 1 ((clients.filterMap id).length / max 1 cfg.threshold) := by
  obtain ⟨results, printed, t0, t1, ht, -⟩ := C92_script (c0 := c0) (c1 := c1) (bld := bld) hd hd2 hb hn0 hn1 h0 h1 hvk
    d0 d1 hp hne hlt hheavy
  refine ⟨_, _, t0, t1, ht, ?_⟩
  intro r0 r1 hmem
  obtain ⟨r, hr, he⟩ := List.mem_map.1 hmem
  cases he
  refine ⟨rfl, ?_⟩
  rintro keep rfl
  have hk : ∃ m, keep = Spec.decisions (max 1 cfg.threshold) (clients.map (Option.map Prod.fst)) m := by
    simp only [Spec.whhScript, List.mem_append, List.mem_map, List.mem_flatMap, List.mem_cons,
      List.not_mem_nil, or_false, reduceCtorEq, false_or, or_self, and_false, exists_false, Req.treePrune.injEq] at hr
    rcases hr with ⟨m, -, h⟩ | h
    · exact ⟨m, h⟩
    · exact ⟨_, h⟩
  obtain ⟨m, rfl⟩ := hk
  have hN : ((clients.map (Option.map Prod.fst)).filterMap id).length = (clients.filterMap id).length := by
    rw [List.filterMap_map, ← List.length_map (f := Prod.fst), List.map_filterMap]
    rfl
  have hT : 1 ≤ max 1 cfg.threshold := by omega
  have h2 := heavyAt_le hT (m := m + 1) (by omega) (clients.map (Option.map Prod.fst))
  rw [hN] at h2
  constructor
  · refine le_trans (le_of_eq ?_) h2
    rw [heavyAt_succ, Spec.decisions, List.count, List.countP_map, List.countP_eq_length_filter]
    congr 1
    refine List.filter_congr fun q _ => ?_
    simp
  · have hlen : (Spec.decisions (max 1 cfg.threshold) (clients.map (Option.map Prod.fst)) m).length
        = 2 * (Spec.heavyAt (max 1 cfg.threshold) (clients.map (Option.map Prod.fst)) m).length := by
      rw [Spec.decisions, List.length_map]
      generalize Spec.heavyAt _ _ m = L
      induction L with
      | nil => rfl
      | cons p L ih => rw [List.flatMap_cons, List.length_append, ih, List.length_cons]; simp; omega
    rw [hlen]
    refine Nat.mul_le_mul_left 2 ?_
    cases m with
    | zero => rw [heavyAt_zero]; exact Nat.le_max_left _ _
    | succ m =>
      have := heavyAt_le hT (m := m + 1) (by omega) (clients.map (Option.map Prod.fst))
      rw [hN] at this
      exact this.trans (Nat.le_max_right _ _)

/-- The results of the last level come from the prefixes that the servers keep. -/
theorem results_le_frontier {c0 c1 : ServerCfg} {bld : Build} {cfg : Config} {kcs : Pair2 P} {n : Nat} {out : WhhOut P}
    (h : runWhh c0 c1 bld cfg kcs n = .ok out) :
    out.results.length ≤ out.kcs.1.frontier.length ∧ out.results.length ≤ out.kcs.2.frontier.length := by
  unfold runWhh at h
  obtain ⟨k1, -, h⟩ := bind_eq_ok.1 h
  obtain ⟨lv, -, h⟩ := bind_eq_ok.1 h
  obtain ⟨k2, -, h⟩ := bind_eq_ok.1 h
  unfold runLevelLast at h
  obtain ⟨⟨x0, v0⟩, -, h⟩ := bind_eq_ok.1 h
  obtain ⟨⟨x1, v1⟩, -, h⟩ := bind_eq_ok.1 h
  obtain ⟨_, -, h⟩ := bind_eq_ok.1 h
  obtain ⟨keep, -, h⟩ := bind_eq_ok.1 h
  obtain ⟨rs, -, h⟩ := bind_eq_ok.1 h
  obtain ⟨_, -, h⟩ := bind_eq_ok.1 h
  obtain ⟨k3, -, h⟩ := bind_eq_ok.1 h
  obtain ⟨_, -, h⟩ := bind_eq_ok.1 h
  obtain ⟨results, hr, h⟩ := bind_eq_ok.1 h
  obtain ⟨pr, -, h⟩ := bind_eq_ok.1 h
  cases h
  unfold finalValues at hr
  obtain ⟨_, -, hr⟩ := bind_eq_ok.1 hr
  obtain ⟨l, hl, hr⟩ := bind_eq_ok.1 hr
  cases hr
  have h1 := mapE_length hl
  have h2 := List.length_filter_le Prod.snd l
  rw [List.length_zip, KeyCollection.finalShares, KeyCollection.finalShares, List.length_map, List.length_map] at h1
  simp only [List.length_map]
  omega

/-- **C101 is false of the code.**  One client whose two root seeds are equal can make both servers keep all `2^d` strings
(in the runs of `C73_false_run`): the run completes, nobody is excluded, and the last frontier has `2^d` entries, however
few clients there are. -/
theorem C101_false {c0 c1 : ServerCfg} {bld : Build} {cfg : Config} {kcs : Pair2 P}
    {d : Nat} {before after : List (List Bool × Nat)} {alpha : List Bool} {bucket : Nat}
    {A0 A1 B0 B1 : List (Bool × ReportShare)} {s0 s1 : ReportShare} {k0 k1 : VidpfKey}
    (hd : cfg.dataBits = some d) (hd2 : 2 ≤ d) (hb : 1 ≤ cfg.queryBatch) (hn : 1 ≤ cfg.histBuckets)
    (hn0 : kcs.1.inputLen = cfg.histBuckets) (hn1 : kcs.2.inputLen = cfg.histBuckets)
    (h0 : kcs.1.serverId = 0) (h1 : kcs.2.serverId ≠ 0) (hvk : kcs.1.verifyKey = kcs.2.verifyKey)
    (d0 : kcs.1.depth = some d) (d1 : kcs.2.depth = some d)
    (hr0 : kcs.1.reportShares = A0 ++ (true, s0) :: B0) (hr1 : kcs.2.reportShares = A1 ++ (true, s1) :: B1)
    (hA0 : A0.length = before.length) (hA1 : A1.length = before.length)
    (hh : Spec.HonestReports P cfg.histBuckets (before ++ (alpha, bucket) :: after) kcs.1.reportShares
      kcs.2.reportShares)
    (hc : Spec.FlpCompleteFor P cfg.histBuckets kcs.1.verifyKey kcs.1.reportShares)
    (hf0 : ∀ r ∈ kcs.1.reportShares, r.1 = true) (hf1 : ∀ r ∈ kcs.2.reportShares, r.1 = true)
    (hl : ∀ c ∈ before ++ (alpha, bucket) :: after, c.1.length = d)
    (hk0 : Spec.keyOf s0 = some k0) (hk1 : Spec.keyOf s1 = some k1) (hs : k0.rootSeed = k1.rootSeed)
    (hlt : (before ++ after).length + max 1 cfg.threshold < 2 ^ 64)
    (hhalf : ∀ b : Bool, max 1 cfg.threshold ≤ (Spec.holders (before ++ after) [b]).length + 1) :
    ∃ (f0 f1 : ReportShare) (out : WhhOut P),
      runWhh c0 c1 bld cfg
        ({ kcs.1 with reportShares := A0 ++ (true, f0) :: B0 }, { kcs.2 with reportShares := A1 ++ (true, f1) :: B1 })
        (before ++ (alpha, bucket) :: after).length = .ok out ∧
      2 ^ d ≤ out.kcs.1.frontier.length ∧ 2 ^ d ≤ out.kcs.2.frontier.length := by
  obtain ⟨beta, ctr, out, -, hrun, -, -, hres⟩ := C73_false_run (c0 := c0) (c1 := c1) (bld := bld) hd hd2 hb hn hn0 hn1 h0
    h1 hvk d0 d1 hr0 hr1 hA0 hA1 hh hc hf0 hf1 hl hk0 hk1 hs hlt hhalf
  refine ⟨_, _, out, hrun, ?_⟩
  have := congrArg List.length hres
  rw [List.length_map, List.length_map, allPaths_length] at this
  rw [← this]
  exact results_le_frontier hrun

/-! ### Concrete runs -/

/-- Three toy clients, threshold 2: at most one prefix is kept and two are crawled at a time. -/
example : ∃ (kcs : Pair2 toy) (sent : List (Req × Req)) (out : Shown) (t0 t1 : Server toy),
    Spec.Talk (toyCfg 0 (some 3) .debug) (toyCfg 1 (some 3) .debug) (whhP toy .debug ⟨some 3, 2, 2, 2, 1, 2⟩ 3)
      (.running kcs.1) (.running kcs.2) sent out t0 t1 ∧
    ∀ (r0 r1 : Req), (r0, r1) ∈ sent → r1 = r0 ∧ ∀ keep, r0 = .treePrune keep →
      keep.count true ≤ 1 ∧ keep.length ≤ 2 := by
  obtain ⟨kcs, h1, h2, h3, h4, h5, h6, h7, h8, h9, h10⟩ :=
    toy_honest 2 3 [([true, false, false], 0), ([true, false, false], 1), ([true, true, false], 1)] (by decide)
  exact ⟨kcs, C101_honest_partial (c0 := toyCfg 0 (some 3) .debug)
    (c1 := toyCfg 1 (some 3) .debug) (bld := .debug) (cfg := ⟨some 3, 2, 2, 2, 1, 2⟩) (d := 3)
    (clients := [([true, false, false], 0), ([true, false, false], 1), ([true, true, false], 1)].map some) rfl
    (by decide) (by decide) h1 h2 h3 (by rw [h4]; decide) h5 h6 h7
    (population_honest h8 (fun _ _ => toy_flpComplete _ _) (by decide) h9 h10) (by decide) (by decide)
    ⟨[true], rfl, by decide⟩⟩

/-- Three toy clients, threshold 2, of which the first is dishonest: eight strings are kept, not one. -/
example : ∃ (kcs : Pair2 toy) (out : WhhOut toy),
    runWhh (toyCfg 0 (some 3) .debug) (toyCfg 1 (some 3) .debug) .debug ⟨some 3, 1, 1, 2, 1, 2⟩ kcs 3
      = .ok out ∧ 8 ≤ out.kcs.1.frontier.length ∧ 8 ≤ out.kcs.2.frontier.length := by
  obtain ⟨kcs, h1, h2, h3, h4, h5, h6, h7, ⟨h8, h8', h8''⟩, h9, h10⟩ :=
    toy_honest 1 3 [([true, true, true], 0), ([false, false, true], 0)] (by decide)
  obtain ⟨s0, s1, k0, k1, h, hk0, hk1, hs⟩ := toy_equal_seeds (n := 1) (bucket := 0) (by omega) [true, false, true]
  obtain ⟨f0, f1, out, g1, g2⟩ := C101_false (c0 := toyCfg 0 (some 3) .debug)
    (c1 := toyCfg 1 (some 3) .debug) (bld := .debug) (cfg := ⟨some 3, 1, 1, 2, 1, 2⟩) (d := 3)
    (kcs := ({ kcs.1 with reportShares := (true, s0) :: kcs.1.reportShares },
      { kcs.2 with reportShares := (true, s1) :: kcs.2.reportShares }))
    (before := []) (after := [([true, true, true], 0), ([false, false, true], 0)]) (alpha := [true, false, true])
    (bucket := 0) (A0 := []) (A1 := []) (B0 := kcs.1.reportShares) (B1 := kcs.2.reportShares)
    rfl (by decide) (by decide) (by decide) h1 h2 h3 (by dsimp only; rw [h4]; decide) h5 h6 h7 rfl rfl rfl rfl
    ⟨by simp [h8], by simp [h8'], by
      rintro (_ | i) c' q0 q1 e0 e1 e2
      · cases e0; cases e1; cases e2
        exact h
      · exact h8'' i c' q0 q1 (by simpa using e0) (by simpa using e1) (by simpa using e2)⟩
    (fun _ _ => toy_flpComplete _ _) (by simpa using h9) (by simpa using h10) (by decide) hk0 hk1 hs
    (by decide) (by decide +kernel)
  exact ⟨_, out, g1, g2⟩

end Mastic
