import Verif.Props.Libprio

/-!
# C88: plain heavy hitters

`README.md:173-176`: "This branch can do Plain Heavy Hitters by setting the histogram size to 1".
-/

namespace Mastic

variable {P : Prims}

theorem mainClients_lt {n d num : Nat} (hn : 1 ≤ n) {draw : MainDraw} {c : List Bool × Nat}
    (hc : c ∈ (Spec.mainClients n d draw num).filterMap id) : c.2 < n := by
  obtain ⟨o, ho, rfl⟩ := List.mem_filterMap.1 hc
  obtain ⟨i, -, hi⟩ := List.mem_map.1 ho
  split at hi
  · cases hi
  · cases hi; exact Nat.mod_lt _ hn

theorem mainClients_length (n d num : Nat) (draw : MainDraw) :
    ((Spec.mainClients n d draw num).filterMap id).length ≤ num := by
  refine (List.length_filterMap_le _ _).trans ?_
  simp [Spec.mainClients]

theorem mainClients_untampered (n d num : Nat) (draw : MainDraw) :
    (Spec.mainClients n d draw num).filterMap id = ((List.range num).filter fun i => !Spec.bumps (draw.picks i).2).map
      fun i => Spec.drawn n d (Spec.MainDraw.of draw i) := by
  unfold Spec.mainClients
  generalize List.range num = l
  induction l with
  | nil => rfl
  | cons i l ih =>
    rw [List.map_cons, List.filterMap_cons, ih, List.filter_cons]
    rcases hp : (draw.picks i).2 with _ | _ | _ <;> rfl

/-- With one bucket the reported vector is the number of holders, twice. -/
theorem heavyHitters_one {T d : Nat} {clients : List (List Bool × Nat)} (hc : ∀ c ∈ clients, c.2 < 1) :
    Spec.heavyHitters 1 T d clients = ((Spec.allPaths d).filter fun s =>
      decide (T ≤ clients.countP fun c => c.1 == s)).map fun s =>
        (s, [((clients.countP fun c => c.1 == s : Nat) : Field128), ((clients.countP fun c => c.1 == s : Nat) : Field128)]) := by
  unfold Spec.heavyHitters
  refine List.map_congr_left fun s _ => ?_
  have h : ((clients.filter fun c => c.1 == s).map Prod.snd).countP (fun b => b == 0) = clients.countP fun c => c.1 == s := by
    rw [List.countP_eq_length_filter (l := clients), ← List.length_map (f := Prod.snd), List.countP_eq_length]
    intro b hb
    obtain ⟨c, hc', rfl⟩ := List.mem_map.1 hb
    have := hc c (List.mem_filter.1 hc').1
    simp; omega
  simp only [Spec.histogram, List.range_one, List.map_cons, List.map_nil, h, List.singleton_append]

theorem count_ne_zero {k : Nat} (h1 : 1 ≤ k) (h2 : k < 2 ^ 64) : ((k : Nat) : Field128) ≠ 0 := by
  intro h
  have := (ZMod.natCast_eq_zero_iff k fieldModulus).1 h
  exact absurd (Nat.le_of_dvd h1 this) (by have : 2 ^ 64 < fieldModulus := by decide
                                           omega)

/-- **C88.**  With one bucket per histogram the driver finds plain heavy hitters: it prints every string that at least
`max 1 threshold` of the clients with untampered proofs hold, in lexicographic order, with their number; nothing else, and
nothing is left out (as it is with more buckets, C53).  The proof system is libprio's; each client has at most three bad
query points. -/
theorem C88_plain_heavy_hitters {c0 c1 : ServerCfg} {bld : Build} {cfg : Config} {draw : MainDraw} {n d : Nat}
    {kcs : Pair2 P.withHistogram} (hone : cfg.histBuckets = 1) (hs : Spec.Sensible P.withHistogram cfg draw n)
    (hxof : ∀ seed binder l, (P.xofField seed binder l).length = l)
    (hpr : ∀ i < cfg.uniqueBuckets, (draw.reports i).rand.proveRand.length = 4)
    (hpr1 : ∀ i < n, (draw.picks i).2 = some .flp → (Spec.MainDraw.of draw i).rand.proveRand[1]? ≠ some 0)
    (hd : cfg.dataBits = some d) (hs0 : c0.dataBits = some d) (hs1 : c1.dataBits = some d) (hd2 : 2 ≤ d)
    (h0 : c0.serverId = 0) (h1 : c1.serverId ≠ 0) {strings : List (List Bool)}
    (hst : strings = ((List.range n).filter fun i => !Spec.bumps (draw.picks i).2).map fun i =>
      (List.range d).map (Spec.MainDraw.of draw i).bits) (hne : strings ≠ []) (hlt : n < 2 ^ 64)
    (hpre : d = 2 ∨ ∃ s : List Bool, s.length = d - 2 ∧
      max 1 cfg.threshold ≤ (strings.filter fun c => s.isPrefixOf c).length) :
    ∃ bad : Nat → Finset Field128, (∀ i, (bad i).card ≤ 3) ∧
      ∀ vk, (∀ i < n, ∀ t ∈ P.xofField vk (Spec.MainDraw.of draw i).rand.nonce.toList 1, t ∉ bad i) →
        ∃ out, driverMain c0 c1 bld cfg .weightedHeavyHitters { draw with verifyKey := vk } n kcs = .ok (.whh out) ∧
          out.printed.map (fun r => (r.path, r.value)) = ((Spec.allPaths d).filter fun s =>
            decide (max 1 cfg.threshold ≤ strings.count s)).map fun s =>
              (s, [((strings.count s : Nat) : Field128), ((strings.count s : Nat) : Field128)]) := by
  have hfst : ((Spec.mainClients cfg.histBuckets d draw n).filterMap id).map Prod.fst = strings := by
    rw [hst, mainClients_untampered, List.map_map]; rfl
  have hcount : ∀ s, ((Spec.mainClients cfg.histBuckets d draw n).filterMap id).countP (fun c => c.1 == s)
      = strings.count s := by
    intro s
    rw [← hfst, List.count, List.countP_map]; rfl
  have hl := mainClients_length cfg.histBuckets d n draw
  obtain ⟨bad, hbad, hok⟩ := C81_run (P := P) (c0 := c0) (c1 := c1) (bld := bld) (kcs := kcs) hs (by rw [hone]; norm_num)
    hxof hpr hpr1 hd hs0 hs1 hd2 h0 h1 rfl (by rw [← hfst] at hne; simpa using hne) hlt (by
      refine hpre.imp id ?_
      rintro ⟨s, e1, e2⟩
      refine ⟨s, e1, ?_⟩
      rwa [← hfst, List.filter_map, List.length_map] at e2)
  refine ⟨bad, fun i => (hbad i).trans (by rw [hone]), fun vk hvk => ?_⟩
  obtain ⟨out, g1, g2, g3, -⟩ := hok vk hvk
  refine ⟨out, g1, ?_⟩
  have hall : ∀ r ∈ out.results, decide (r.value.getD (cfg.histBuckets - 1) 0 ≠ 0) = true := by
    intro r hr
    have hm : (r.path, r.value) ∈ Spec.heavyHitters 1 (max 1 cfg.threshold) d
        ((Spec.mainClients cfg.histBuckets d draw n).filterMap id) := by
      have := List.mem_map_of_mem (f := fun r : HHResult => (r.path, r.value)) hr
      rwa [g2, show Spec.heavyHitters cfg.histBuckets = Spec.heavyHitters 1 by rw [hone]] at this
    rw [heavyHitters_one fun c hc => (mainClients_lt hs.buckets hc).trans_eq hone] at hm
    obtain ⟨s, hsm, e⟩ := List.mem_map.1 hm
    have hT := of_decide_eq_true (List.mem_filter.1 hsm).2
    have hle := List.countP_le_length (p := fun c => c.1 == s)
      (l := (Spec.mainClients cfg.histBuckets d draw n).filterMap id)
    rw [← (Prod.mk.inj e).2, show cfg.histBuckets - 1 = 0 by omega]
    exact decide_eq_true (count_ne_zero (by omega) (by omega))
  rw [g3, List.filter_eq_self.2 hall, g2, hone,
    heavyHitters_one fun c hc => mainClients_lt le_rfl hc]
  rw [hone] at hcount
  simp only [hcount]

/-- **C88, more buckets.**  With two or more buckets such a run prints only the strings of which some holder has the last
bucket; if nobody has, it prints nothing, however many clients hold a string. -/
theorem C88_nothing_printed {c0 c1 : ServerCfg} {bld : Build} {cfg : Config} {draw : MainDraw}
    {n d : Nat} {kcs : Pair2 P} (hs : Spec.Sensible P cfg draw n) (hprove : Spec.Proves P cfg draw)
    (hd : cfg.dataBits = some d) (hs0 : c0.dataBits = some d) (hs1 : c1.dataBits = some d) (hd2 : 2 ≤ d)
    (h0 : c0.serverId = 0) (h1 : c1.serverId ≠ 0)
    (hcomp : ∀ i < n, Spec.FlpCompleteAt P cfg.histBuckets (P.xofField draw.verifyKey
      (Spec.MainDraw.of draw i).rand.nonce.toList (P.queryRandLen cfg.histBuckets)))
    (hhon : ∀ i < n, (draw.picks i).2 = none) (hn : 1 ≤ n) (hlt : n < 2 ^ 64)
    (hlast : ∀ i < n, (Spec.MainDraw.of draw i).bucket % cfg.histBuckets ≠ cfg.histBuckets - 1)
    {T : Nat} {s : List Bool} (hsl : s.length = d) (hT : T = max 1 cfg.threshold)
    (hheavy : T ≤ ((List.range n).filter fun i => (List.range d).map (Spec.MainDraw.of draw i).bits == s).length) :
    ∃ out, driverMain c0 c1 bld cfg .weightedHeavyHitters draw n kcs = .ok (.whh out) ∧
      (∃ r ∈ out.results, r.path = s) ∧ out.printed = [] := by
  have hcl : Spec.mainClients cfg.histBuckets d draw n
      = (List.range n).map fun i => some (Spec.drawn cfg.histBuckets d (Spec.MainDraw.of draw i)) := by
    refine List.map_congr_left fun i hi => ?_
    rw [hhon i (List.mem_range.1 hi)]
  have hcl' : (Spec.mainClients cfg.histBuckets d draw n).filterMap id
      = (List.range n).map fun i => Spec.drawn cfg.histBuckets d (Spec.MainDraw.of draw i) := by
    rw [hcl, List.filterMap_map]
    exact List.filterMap_eq_map (f := fun i => Spec.drawn cfg.histBuckets d (Spec.MainDraw.of draw i)) ▸ rfl
  have hcnt : T ≤ ((Spec.mainClients cfg.histBuckets d draw n).filterMap id).countP fun c => c.1 == s := by
    rw [hcl', List.countP_map, List.countP_eq_length_filter]; exact hheavy
  have hpre : max 1 cfg.threshold ≤ (((Spec.mainClients cfg.histBuckets d draw n).filterMap id).filter
      fun c => (s.take (d - 2)).isPrefixOf c.1).length := by
    rw [← hT]
    refine hcnt.trans ?_
    rw [List.countP_eq_length_filter]
    refine List.Sublist.length_le (List.monotone_filter_right _ fun c hc => ?_)
    rw [eq_of_beq hc, List.isPrefixOf_iff_prefix]
    exact List.take_prefix _ _
  obtain ⟨out, g1, g2, g3, -⟩ := (C62_weighted_heavy_hitters (P := P) (c0 := c0) (c1 := c1) (bld := bld) (kcs := kcs) hs
    hprove hd hs0 hs1 hd2 h0 h1 hcomp (fun i nonce ks p0 ps p jr alpha hi ht => by rw [hhon i hi] at ht; cases ht)
    rfl (by rw [hcl']; simp; omega) hlt).1 (.inr ⟨s.take (d - 2), by simp; omega, hpre⟩)
  refine ⟨out, g1, ?_, ?_⟩
  · have hm : s ∈ (out.results.map fun r => (r.path, r.value)).map Prod.fst := by
      rw [g2, Spec.heavyHitters, List.map_map]
      refine List.mem_map.2 ⟨s, List.mem_filter.2 ⟨?_, decide_eq_true (hT ▸ hcnt)⟩, rfl⟩
      exact mem_allPaths.2 hsl
    rw [List.map_map] at hm
    obtain ⟨r, hr, e⟩ := List.mem_map.1 hm
    exact ⟨r, hr, e⟩
  · rw [g3, List.filter_eq_nil_iff]
    intro r hr
    have hm : (r.path, r.value) ∈ out.results.map (fun r => (r.path, r.value)) := List.mem_map.2 ⟨r, hr, rfl⟩
    rw [g2] at hm
    obtain ⟨s', -, e⟩ := List.mem_map.1 hm
    rw [← (Prod.mk.inj e).2]
    have hz : ((((Spec.mainClients cfg.histBuckets d draw n).filterMap id).filter fun c => c.1 == s').map
        Prod.snd).countP (fun b => b == cfg.histBuckets - 1) = 0 := by
      rw [List.countP_eq_zero]
      intro b hb
      obtain ⟨c, hc, rfl⟩ := List.mem_map.1 hb
      have hc := (List.mem_filter.1 hc).1
      rw [hcl'] at hc
      obtain ⟨i, hi, rfl⟩ := List.mem_map.1 hc
      simpa [Spec.drawn] using hlast i (List.mem_range.1 hi)
    have hb := hs.buckets
    rw [List.getD_eq_getElem?_getD, List.getElem?_append_left (by simp [Spec.histogram]; omega), Spec.histogram,
      List.getElem?_map, List.getElem?_range (by omega), Option.map_some, hz]
    simp

/-! ### Concrete cases -/

/-- Two of the three clients hold `10`, the third one tampers with its proof. -/
example (kcs : Pair2 toy.withHistogram) : ∃ vk out,
    driverMain (toyCfg 0 (some 2) .debug) (toyCfg 1 (some 2) .release) .debug ⟨some 2, 1, 2, 2, 2, 2⟩
      .weightedHeavyHitters { libDraw with verifyKey := vk } 3 kcs = .ok (.whh out) ∧
    out.printed.map (fun r => (r.path, r.value)) = [([true, false], [2, 2])] := by
  obtain ⟨bad, hbad, hrun⟩ := C88_plain_heavy_hitters (P := toy) (c0 := toyCfg 0 (some 2) .debug)
    (c1 := toyCfg 1 (some 2) .release) (bld := .debug) (cfg := ⟨some 2, 1, 2, 2, 2, 2⟩) (draw := libDraw) (n := 3)
    (d := 2) (kcs := kcs) rfl ⟨rfl, rfl, rfl, by decide, by decide, by decide, by decide, by decide⟩
    (fun _ _ _ => List.length_replicate) (fun _ _ => rfl)
    (fun i _ _ => show ([1, 2, 3, 4] : List Field128)[1]? ≠ some 0 by decide +kernel) rfl rfl rfl le_rfl rfl (by decide)
    rfl (by decide) (by decide) (.inl rfl)
  obtain ⟨vk, hvk⟩ := libDraw_key bad fun i => (hbad i).trans (by norm_num)
  obtain ⟨out, g1, g2⟩ := hrun vk hvk
  exact ⟨vk, out, g1, g2.trans (by decide +kernel)⟩

/-- Three buckets, everybody holds `10` with the middle bucket: found, but not printed. -/
example (kcs : Pair2 toy) : ∃ out,
    driverMain (toyCfg 0 (some 2) .debug) (toyCfg 1 (some 2) .release) .debug ⟨some 2, 3, 2, 2, 2, 5⟩
      .weightedHeavyHitters { toyDraw with picks := fun _ => (2, none) } 5 kcs = .ok (.whh out) ∧
    (∃ r ∈ out.results, r.path = [true, false]) ∧ out.printed = [] :=
  C88_nothing_printed (P := toy) (d := 2) (T := 5)
    ⟨rfl, rfl, rfl, by decide, by decide, by decide, by decide, by decide⟩
    toy_proves rfl rfl rfl le_rfl rfl (by decide) (fun _ _ => toy_flpComplete _ _)
    (fun _ _ => rfl) (by decide) (by decide) (by decide) rfl rfl (by decide)

end Mastic
