import Verif.Props.Threshold

/-!
# C71: the reported heavy hitters are consistent
-/

namespace Mastic

namespace Spec

/-- A weighted-heavy-hitters run of the driver with a sensible configuration, complete FLP and rejected tampering;
`clients` are the string and weight of those not rejected. -/
structure WhhRun (P : Prims) (c0 c1 : ServerCfg) (cfg : Config) (draw : MainDraw) (n d : Nat)
    (clients : List (List Bool × Nat)) : Prop where
  sensible : Sensible P cfg draw n
  proves : Proves P cfg draw
  bits : cfg.dataBits = some d
  bits0 : c0.dataBits = some d
  bits1 : c1.dataBits = some d
  two : 2 ≤ d
  id0 : c0.serverId = 0
  id1 : c1.serverId ≠ 0
  complete : ∀ i < n, FlpCompleteAt P cfg.histBuckets (P.xofField draw.verifyKey
    (MainDraw.of draw i).rand.nonce.toList (P.queryRandLen cfg.histBuckets))
  rejected : BumpsRejected P cfg.histBuckets d c0.serverId c1.serverId draw n
  clients_eq : clients = (mainClients cfg.histBuckets d draw n).filterMap id
  nonempty : clients ≠ []
  small : n < 2 ^ 64

end Spec

section
variable {P P' : Prims} {c0 c1 c0' c1' : ServerCfg} {bld bld' : Build} {cfg cfg' : Config} {draw draw' : MainDraw}
  {n n' d : Nat} {kcs : Pair2 P} {kcs' : Pair2 P'} {clients clients' : List (List Bool × Nat)} {out : WhhOut P}
  {out' : WhhOut P'}

theorem WhhRun.results (h : Spec.WhhRun P c0 c1 cfg draw n d clients)
    (hout : driverMain c0 c1 bld cfg .weightedHeavyHitters draw n kcs = .ok (.whh out)) :
    out.results.map (fun r => (r.path, r.value))
      = Spec.heavyHitters cfg.histBuckets (max 1 cfg.threshold) d clients := by
  obtain ⟨w1, w2⟩ := C62_weighted_heavy_hitters (P := P) (c0 := c0) (c1 := c1) (bld := bld) (cfg := cfg)
    (draw := draw) (n := n) (d := d) (kcs := kcs) h.sensible h.proves h.bits h.bits0 h.bits1 h.two h.id0 h.id1
    h.complete h.rejected h.clients_eq h.nonempty h.small
  by_cases hex : d = 2 ∨ ∃ s : List Bool, s.length = d - 2 ∧
      max 1 cfg.threshold ≤ (clients.filter fun c => s.isPrefixOf c.1).length
  · obtain ⟨out', g1, g2, -⟩ := w1 hex
    rw [g1] at hout
    cases hout
    exact g2
  · have := w2 (fun s hsl => by
      by_contra h
      exact hex (.inr ⟨s, hsl, not_lt.1 h⟩)) (by
      have := h.two
      by_contra h
      exact hex (.inl (by omega)))
    rw [this] at hout
    cases hout

theorem WhhRun.bucket_lt (h : Spec.WhhRun P c0 c1 cfg draw n d clients) : ∀ c ∈ clients, c.2 < cfg.histBuckets := by
  intro c hc
  rw [h.clients_eq, List.mem_filterMap] at hc
  obtain ⟨o, ho, e⟩ := hc
  obtain ⟨i, -, rfl⟩ := List.mem_map.1 ho
  split at e
  · cases e
  · cases e
    exact Nat.mod_lt _ h.sensible.buckets

theorem WhhRun.length_le (h : Spec.WhhRun P c0 c1 cfg draw n d clients) : clients.length ≤ n := by
  rw [h.clients_eq]
  refine (List.length_filterMap_le _ _).trans ?_
  simp [Spec.mainClients]

theorem heavyHitters_perm {b T d : Nat} (hp : clients.Perm clients') :
    Spec.heavyHitters b T d clients = Spec.heavyHitters b T d clients' := by
  unfold Spec.heavyHitters Spec.histogram
  have hc : ∀ s : List Bool, clients.countP (fun c => c.1 == s) = clients'.countP (fun c => c.1 == s) :=
    fun s => hp.countP_eq _
  have hh : ∀ (s : List Bool) (k : Nat),
      ((clients.filter fun c => c.1 == s).map Prod.snd).countP (fun x => x == k)
        = ((clients'.filter fun c => c.1 == s).map Prod.snd).countP (fun x => x == k) :=
    fun s k => ((hp.filter _).map _).countP_eq _
  simp only [hc, hh]

/-- C71. The results depend on nothing but the multiset of the clients' strings and weights, the numbers of bits and
buckets and the effective threshold: not on the cipher and the other primitives, the seeds, the order of the clients, the
batch sizes, the builds, the previous states of the servers or the number of rejected clients. -/
theorem C71_depends_only (h : Spec.WhhRun P c0 c1 cfg draw n d clients)
    (h' : Spec.WhhRun P' c0' c1' cfg' draw' n' d clients')
    (hout : driverMain c0 c1 bld cfg .weightedHeavyHitters draw n kcs = .ok (.whh out))
    (hout' : driverMain c0' c1' bld' cfg' .weightedHeavyHitters draw' n' kcs' = .ok (.whh out'))
    (hb : cfg.histBuckets = cfg'.histBuckets) (hT : max 1 cfg.threshold = max 1 cfg'.threshold)
    (hp : clients.Perm clients') :
    out.results.map (fun r => (r.path, r.value)) = out'.results.map (fun r => (r.path, r.value)) := by
  rw [WhhRun.results h hout, WhhRun.results h' hout', hb, hT, heavyHitters_perm hp]

/-- C71. With a higher threshold the results are some of those with the lower one, with the same values, in the same
order. -/
theorem C71_threshold (h : Spec.WhhRun P c0 c1 cfg draw n d clients)
    (h' : Spec.WhhRun P' c0' c1' cfg' draw' n' d clients')
    (hout : driverMain c0 c1 bld cfg .weightedHeavyHitters draw n kcs = .ok (.whh out))
    (hout' : driverMain c0' c1' bld' cfg' .weightedHeavyHitters draw' n' kcs' = .ok (.whh out'))
    (hb : cfg.histBuckets = cfg'.histBuckets) (hT : cfg.threshold ≤ cfg'.threshold)
    (hp : clients.Perm clients') :
    (out'.results.map (fun r => (r.path, r.value))).Sublist (out.results.map (fun r => (r.path, r.value))) := by
  rw [WhhRun.results h hout, WhhRun.results h' hout', hb, ← heavyHitters_perm hp]
  unfold Spec.heavyHitters
  refine List.Sublist.map _ ?_
  refine List.monotone_filter_right _ fun s hs => ?_
  simp only [decide_eq_true_eq] at hs ⊢
  omega

theorem sum_indicator {α : Type} [DecidableEq α] [BEq α] [LawfulBEq α] (L : List α) (a : α) :
    (L.map fun k => if k = a then 1 else 0).sum = L.count a := by
  induction L with
  | nil => rfl
  | cons x L ih => simp only [List.map_cons, List.sum_cons, ih, List.count_cons, beq_iff_eq]; omega

theorem sum_counts_le (l : List Nat) (b : Nat) (h : ∀ x ∈ l, x < b) :
    ((List.range b).map fun k => l.countP fun x => x == k).sum = l.length := by
  induction l with
  | nil => simp
  | cons a l ih =>
    have h1 : ∀ k, (a :: l).countP (fun x => x == k) = l.countP (fun x => x == k) + if k = a then 1 else 0 := by
      intro k; rw [List.countP_cons]; simp [@eq_comm _ a]
    simp only [h1, List.sum_map_add]
    rw [ih fun x hx => h x (by simp [hx])]
    have : ((List.range b).map fun k => if k = a then 1 else 0).sum = 1 := by
      have ha := h a (by simp)
      rw [sum_indicator]
      rw [List.count_eq_one_of_mem List.nodup_range (List.mem_range.2 ha)]
    rw [this]
    simp

theorem sum_holders_le (L : List (List Bool)) (hL : L.Nodup) (l : List (List Bool × Nat)) :
    (L.map fun s => l.countP fun c => c.1 == s).sum ≤ l.length := by
  induction l with
  | nil => simp
  | cons a l ih =>
    have h1 : ∀ s, (a :: l).countP (fun x => x.1 == s) = l.countP (fun x => x.1 == s) + if s = a.1 then 1 else 0 := by
      intro k; rw [List.countP_cons]; simp [@eq_comm _ a.1]
    simp only [h1, List.sum_map_add]
    have : (L.map fun k => if k = a.1 then 1 else 0).sum ≤ 1 := by
      rw [sum_indicator]
      exact List.nodup_iff_count_le_one.1 hL a.1
    simp only [List.length_cons]
    omega

/-- C71. Every reported value has one entry per bucket and the number of holders last; the entries add up to the number
of holders, which reaches the threshold; the strings are different; and all the numbers of holders together do not
exceed the number of clients. -/
theorem C71_totals (h : Spec.WhhRun P c0 c1 cfg draw n d clients)
    (hout : driverMain c0 c1 bld cfg .weightedHeavyHitters draw n kcs = .ok (.whh out)) :
    (∀ r ∈ out.results, r.path.length = d ∧ r.value.length = cfg.histBuckets + 1 ∧
      ∃ k : Nat, r.value[cfg.histBuckets]? = some (k : Field128) ∧ max 1 cfg.threshold ≤ k ∧ k ≤ n ∧
        ((r.value.take cfg.histBuckets).map ZMod.val).sum = k) ∧
    (out.results.map (·.path)).Nodup ∧
    (out.results.map fun r => ((r.value.drop cfg.histBuckets).map ZMod.val).sum).sum ≤ clients.length ∧
    out.results.length * max 1 cfg.threshold ≤ clients.length := by
  have hres := WhhRun.results h hout
  have hbk := WhhRun.bucket_lt h
  have hle := WhhRun.length_le h
  have hsm := h.small
  have hcast : ∀ k : Nat, k ≤ n → ((k : Nat) : Field128).val = k := fun k hk =>
    ZMod.val_cast_of_lt (lt_of_le_of_lt hk (lt_trans hsm (by decide)))
  have hcnt : ∀ s : List Bool, clients.countP (fun c => c.1 == s) ≤ n := fun s => (List.countP_le_length).trans hle
  have hpath : out.results.map (·.path)
      = (Spec.allPaths d).filter fun s => decide (max 1 cfg.threshold ≤ clients.countP fun c => c.1 == s) := by
    have : out.results.map (·.path) = (out.results.map (fun r => (r.path, r.value))).map Prod.fst := by
      rw [List.map_map]; rfl
    rw [this, hres]
    unfold Spec.heavyHitters
    rw [List.map_map]
    exact List.map_id _
  have hnd : (out.results.map (·.path)).Nodup := by
    rw [hpath]; exact (allPaths_nodup d).filter _
  have hval : ∀ r ∈ out.results, r.path.length = d ∧
      max 1 cfg.threshold ≤ clients.countP (fun c => c.1 == r.path) ∧
      r.value = Spec.histogram cfg.histBuckets ((clients.filter fun c => c.1 == r.path).map Prod.snd)
        ++ [((clients.countP fun c => c.1 == r.path : Nat) : Field128)] := by
    intro r hr
    have hm : (r.path, r.value) ∈ out.results.map (fun r => (r.path, r.value)) := List.mem_map.2 ⟨r, hr, rfl⟩
    rw [hres] at hm
    obtain ⟨s, hs, e⟩ := List.mem_map.1 hm
    obtain ⟨e1, e2⟩ := Prod.mk.inj e
    subst e1
    obtain ⟨a, b⟩ := List.mem_filter.1 hs
    exact ⟨mem_allPaths.1 a, of_decide_eq_true b, e2.symm⟩
  have hhl : ∀ l, (Spec.histogram cfg.histBuckets l).length = cfg.histBuckets := by simp [Spec.histogram]
  have htail : ∀ r ∈ out.results, ((r.value.drop cfg.histBuckets).map ZMod.val).sum
      = clients.countP fun c => c.1 == r.path := by
    intro r hr
    obtain ⟨-, -, e⟩ := hval r hr
    rw [e, List.drop_left' (hhl _)]
    simp only [List.map_cons, List.map_nil, List.sum_cons, List.sum_nil, add_zero]
    exact hcast _ (hcnt _)
  have hsum : (out.results.map fun r => ((r.value.drop cfg.histBuckets).map ZMod.val).sum).sum ≤ clients.length := by
    rw [List.map_congr_left htail]
    have : out.results.map (fun r => clients.countP fun c => c.1 == r.path)
        = (out.results.map (·.path)).map fun s => clients.countP fun c => c.1 == s := by
      rw [List.map_map]; rfl
    rw [this]
    exact sum_holders_le _ hnd _
  refine ⟨fun r hr => ?_, hnd, hsum, ?_⟩
  · obtain ⟨a, b, e⟩ := hval r hr
    refine ⟨a, by rw [e]; simp [hhl], clients.countP fun c => c.1 == r.path, ?_, b, hcnt _, ?_⟩
    · rw [e, List.getElem?_append_right (by rw [hhl]), hhl]; simp
    · rw [e, List.take_left' (hhl _)]
      unfold Spec.histogram
      rw [List.map_map]
      have : ∀ k ∈ List.range cfg.histBuckets, (ZMod.val ∘ fun k : Nat =>
          ((((clients.filter fun c => c.1 == r.path).map Prod.snd).countP fun x => x == k : Nat) : Field128)) k
          = ((clients.filter fun c => c.1 == r.path).map Prod.snd).countP fun x => x == k := by
        intro k _
        refine hcast _ ?_
        refine List.countP_le_length.trans ?_
        rw [List.length_map]
        exact (List.length_filter_le _ _).trans hle
      rw [List.map_congr_left this, sum_counts_le _ _ (by
        intro x hx
        obtain ⟨c, hc, rfl⟩ := List.mem_map.1 hx
        exact hbk c (List.mem_filter.1 hc).1)]
      rw [List.length_map, List.countP_eq_length_filter]
  · refine le_trans ?_ hsum
    have : ∀ x ∈ out.results.map (fun r => ((r.value.drop cfg.histBuckets).map ZMod.val).sum),
        max 1 cfg.threshold ≤ x := by
      intro x hx
      obtain ⟨r, hr, rfl⟩ := List.mem_map.1 hx
      rw [htail r hr]
      exact (hval r hr).2.1
    have := List.card_nsmul_le_sum _ _ this
    simpa using this

/-- C71. More clients with the same threshold: every string reported before is reported again, with no entry smaller. -/
theorem C71_more_clients (h : Spec.WhhRun P c0 c1 cfg draw n d clients)
    (h' : Spec.WhhRun P' c0' c1' cfg' draw' n' d clients')
    (hout : driverMain c0 c1 bld cfg .weightedHeavyHitters draw n kcs = .ok (.whh out))
    (hout' : driverMain c0' c1' bld' cfg' .weightedHeavyHitters draw' n' kcs' = .ok (.whh out'))
    (hb : cfg.histBuckets = cfg'.histBuckets) (hT : cfg.threshold = cfg'.threshold)
    (hsub : clients.Subperm clients') :
    ∀ r ∈ out.results, ∃ r' ∈ out'.results, r'.path = r.path ∧
      List.Forall₂ (fun x y : Field128 => x.val ≤ y.val) r.value r'.value := by
  intro r hr
  have hm : (r.path, r.value) ∈ out.results.map (fun r => (r.path, r.value)) := List.mem_map.2 ⟨r, hr, rfl⟩
  rw [WhhRun.results h hout] at hm
  obtain ⟨s, hs, e⟩ := List.mem_map.1 hm
  obtain ⟨e1, e2⟩ := Prod.mk.inj e
  have e1 : s = r.path := e1
  obtain ⟨a, b⟩ := List.mem_filter.1 hs
  have b := of_decide_eq_true b
  have hmono : ∀ p : List Bool × Nat → Bool, clients.countP p ≤ clients'.countP p := fun p => hsub.countP_le p
  have hm' : (s, Spec.histogram cfg'.histBuckets ((clients'.filter fun c => c.1 == s).map Prod.snd)
      ++ [((clients'.countP fun c => c.1 == s : Nat) : Field128)]) ∈ out'.results.map (fun r => (r.path, r.value)) := by
    rw [WhhRun.results h' hout']
    refine List.mem_map.2 ⟨s, List.mem_filter.2 ⟨a, decide_eq_true ?_⟩, rfl⟩
    rw [← hT]
    exact b.trans (hmono _)
  obtain ⟨r', hr', e'⟩ := List.mem_map.1 hm'
  obtain ⟨e1', e2'⟩ := Prod.mk.inj e'
  refine ⟨r', hr', e1'.trans e1, ?_⟩
  rw [← e2, e2', ← hb]
  have hcast : ∀ {i j : Nat}, i ≤ j → j ≤ clients'.length → ((i : Nat) : Field128).val ≤ ((j : Nat) : Field128).val := by
    intro i j hij hj
    have := WhhRun.length_le h'
    have hlt : j < fieldModulus := lt_of_le_of_lt (hj.trans this) (lt_trans h'.small (by decide))
    rw [ZMod.val_cast_of_lt hlt, ZMod.val_cast_of_lt (lt_of_le_of_lt hij hlt)]
    exact hij
  refine List.rel_append ?_ ?_
  · unfold Spec.histogram
    rw [List.forall₂_map_left_iff, List.forall₂_map_right_iff, List.forall₂_same]
    intro k _
    rw [List.countP_map, List.countP_map, List.countP_filter, List.countP_filter]
    exact hcast (hmono _) List.countP_le_length
  · exact .cons (hcast (hmono _) List.countP_le_length) .nil

end

/-- The hypotheses of C71: three clients, two of whom hold `10`, and the threshold 1. -/
theorem half_whhRun : Spec.WhhRun toy (toyCfg 0 (some 2) .debug) (toyCfg 1 (some 2) .release) (halfFile.toConfig 3)
    halfDraw 3 2 ((Spec.mainClients 2 2 halfDraw 3).filterMap id) where
  sensible := half_sensible
  proves := toy_proves
  bits := rfl
  bits0 := rfl
  bits1 := rfl
  two := le_rfl
  id0 := rfl
  id1 := by decide
  complete := fun _ _ => toy_flpComplete _ _
  rejected := half_bumps
  clients_eq := rfl
  nonempty := by decide
  small := by decide

/-- The run of C71 ends. -/
theorem half_ends (kcs : Pair2 toy) : ∃ out : WhhOut toy,
    driverMain (toyCfg 0 (some 2) .debug) (toyCfg 1 (some 2) .release) .debug (halfFile.toConfig 3)
      .weightedHeavyHitters halfDraw 3 kcs = .ok (.whh out) := by
  obtain ⟨out, h1, -⟩ := C69_false_below (P := toy) (c0 := toyCfg 0 (some 2) .debug)
    (c1 := toyCfg 1 (some 2) .release) (bld := .debug) (c := halfFile) (draw := halfDraw) (n := 3) (d := 2)
    (kcs := kcs) rfl (by decide) rfl half_sensible toy_proves rfl rfl rfl le_rfl rfl (by decide)
    (fun _ _ => toy_flpComplete _ _) half_bumps rfl (by decide) (s := [false, false]) rfl (by decide) (by decide)
  exact ⟨out, h1⟩

/-- Two runs on servers with different histories: the same results, of at most three holders. -/
example (kcs kcs' : Pair2 toy) : ∃ out out' : WhhOut toy,
    out.results.map (fun r => (r.path, r.value)) = out'.results.map (fun r => (r.path, r.value)) ∧
    out.results.length ≤ 3 := by
  obtain ⟨out, h⟩ := half_ends kcs
  obtain ⟨out', h'⟩ := half_ends kcs'
  refine ⟨out, out', C71_depends_only half_whhRun half_whhRun h h' rfl rfl (.refl _), ?_⟩
  have := (C71_totals half_whhRun h).2.2.2
  have h3 := WhhRun.length_le half_whhRun
  have h1 : 1 ≤ max 1 (halfFile.toConfig 3).threshold := le_max_left _ _
  nlinarith

/-- The first one or two clients of `toyDraw`, who hold `10`, with any threshold. -/
theorem few_whhRun (T n : Nat) (hn : n = 1 ∨ n = 2) : Spec.WhhRun toy (toyCfg 0 (some 2) .debug)
    (toyCfg 1 (some 2) .release) ⟨some 2, 2, 2, 2, 2, T⟩ toyDraw n 2
    ((Spec.mainClients 2 2 toyDraw n).filterMap id) where
  sensible := by
    refine ⟨rfl, rfl, rfl, show 1 ≤ 2 by decide, show 1 ≤ 2 by decide, show 1 ≤ 2 by decide, show 1 ≤ 2 by decide, ?_⟩
    show ∀ i < n, 1 ≤ (toyDraw.picks i).1 ∧ (toyDraw.picks i).1 ≤ 2
    rcases hn with rfl | rfl <;> decide
  proves := toy_proves
  bits := rfl
  bits0 := rfl
  bits1 := rfl
  two := le_rfl
  id0 := rfl
  id1 := by decide
  complete := fun _ _ => toy_flpComplete _ _
  rejected := fun i nonce ks p0 ps p jr alpha hi ht hg =>
    toy_bumpsRejected i nonce ks p0 ps p jr alpha (by omega) ht hg
  clients_eq := rfl
  nonempty := by rcases hn with rfl | rfl <;> decide
  small := by rcases hn with rfl | rfl <;> decide

theorem few_ends (T n : Nat) (hn : n = 1 ∨ n = 2) (kcs : Pair2 toy) : ∃ out : WhhOut toy,
    driverMain (toyCfg 0 (some 2) .debug) (toyCfg 1 (some 2) .release) .debug ⟨some 2, 2, 2, 2, 2, T⟩
      .weightedHeavyHitters toyDraw n kcs = .ok (.whh out) ∧
    out.results.map (fun r => (r.path, r.value))
      = Spec.heavyHitters 2 (max 1 T) 2 ((Spec.mainClients 2 2 toyDraw n).filterMap id) := by
  have h := few_whhRun T n hn
  obtain ⟨out, h1, h2, -⟩ := (C62_weighted_heavy_hitters (kcs := kcs) (bld := .debug) h.sensible h.proves h.bits
    h.bits0 h.bits1 h.two h.id0 h.id1 h.complete h.rejected h.clients_eq h.nonempty h.small).1 (.inl rfl)
  exact ⟨out, h1, h2⟩

/-- Two clients and the thresholds 2 and 3: a result disappears. -/
example (kcs kcs' : Pair2 toy) : ∃ out out' : WhhOut toy,
    out.results.map (fun r => (r.path, r.value)) = [([true, false], [0, 2, 2])] ∧
    out'.results.map (fun r => (r.path, r.value)) = [] ∧
    (out'.results.map (fun r => (r.path, r.value))).Sublist (out.results.map (fun r => (r.path, r.value))) := by
  obtain ⟨out, h, e⟩ := few_ends 2 2 (.inr rfl) kcs
  obtain ⟨out', h', e'⟩ := few_ends 3 2 (.inr rfl) kcs'
  exact ⟨out, out', e.trans (by decide +kernel), e'.trans (by decide +kernel),
    C71_threshold (few_whhRun 2 2 (.inr rfl)) (few_whhRun 3 2 (.inr rfl)) h h' rfl
      (show 2 ≤ 3 by decide) (.refl _)⟩

/-- One client and two clients, with the threshold 1: the value grows. -/
example (kcs kcs' : Pair2 toy) : ∃ out out' : WhhOut toy,
    out.results.map (fun r => (r.path, r.value)) = [([true, false], [0, 1, 1])] ∧
    out'.results.map (fun r => (r.path, r.value)) = [([true, false], [0, 2, 2])] ∧
    ∀ r ∈ out.results, ∃ r' ∈ out'.results, r'.path = r.path ∧
      List.Forall₂ (fun x y : Field128 => x.val ≤ y.val) r.value r'.value := by
  obtain ⟨out, h, e⟩ := few_ends 1 1 (.inl rfl) kcs
  obtain ⟨out', h', e'⟩ := few_ends 1 2 (.inr rfl) kcs'
  exact ⟨out, out', e.trans (by decide +kernel), e'.trans (by decide +kernel),
    C71_more_clients (few_whhRun 1 1 (.inl rfl)) (few_whhRun 1 2 (.inr rfl)) h h' rfl rfl
      (List.Sublist.subperm (by decide))⟩

end Mastic
