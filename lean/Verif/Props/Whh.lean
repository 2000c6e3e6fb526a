import Verif.Lemmas.Whh
import Verif.Props.Driver

/-!
# C26, C27: weighted heavy hitters from upload to result
-/

namespace Mastic

variable {P : Prims}

theorem included_masked_le (rs : List (Bool × ReportShare)) (keep : List Bool) :
    (Spec.included (Spec.masked rs keep)).length ≤ keep.countP id := by
  have key : ∀ (rs : List (Bool × ReportShare)) (keep : List Bool) (k : Nat),
      (((Spec.masked rs keep).zipIdx k).filterMap fun r => if r.1.1 then some (r.2, r.1.2) else none).length
        ≤ keep.countP id := by
    intro rs
    induction rs with
    | nil => intro keep k; simp [Spec.masked]
    | cons r rs ih =>
      intro keep k
      cases keep with
      | nil => simp [Spec.masked]
      | cons b keep =>
        have := ih keep (k + 1)
        unfold Spec.masked at this ⊢
        obtain ⟨f, r⟩ := r
        simp only [List.zipWith_cons_cons, List.zipIdx_cons, List.filterMap_cons]
        cases f <;> cases b <;> simp <;> omega
  exact key rs keep 0

/-- A run on arbitrary reports, given the FLP decisions and that the crawl's checks do not tell the
accepted reports' keys apart (on the last level: or that so many reports were rejected that no batch of
proofs is compared, see C36): exactly the rejected reports are excluded, and the results are the tallies of the
values that the accepted reports share, at the strings all of whose prefixes reach the threshold; or the run
panics because no prefix of length `d - 2` is left. -/
theorem whh_decided {c0 c1 : ServerCfg} {bld : Build} {cfg : Config} {kcs : Pair2 P} {d num : Nat}
    (hd : cfg.dataBits = some d) (hd2 : 2 ≤ d) (hb : 1 ≤ cfg.queryBatch) (hn : 1 ≤ cfg.histBuckets)
    (hn0 : kcs.1.inputLen = cfg.histBuckets) (hn1 : kcs.2.inputLen = cfg.histBuckets)
    (h0 : kcs.1.serverId = 0) (h1 : kcs.2.serverId ≠ 0) (hvk : kcs.1.verifyKey = kcs.2.verifyKey)
    (d0 : kcs.1.depth = some d) (d1 : kcs.2.depth = some d)
    (l0 : kcs.1.reportShares.length = num) (l1 : kcs.2.reportShares.length = num)
    (hw0 : ∀ br ∈ kcs.1.reportShares, Spec.WellFormed d br.2)
    (hw1 : ∀ br ∈ kcs.2.reportShares, Spec.WellFormed d br.2)
    {keep : List Bool} (hkl : keep.length = num)
    (hdec : ∀ (i : Nat) (b0 b1 : Bool) (s0 s1 : ReportShare), kcs.1.reportShares[i]? = some (b0, s0) →
      kcs.2.reportShares[i]? = some (b1, s1) → ∃ v0 v1 b,
        Spec.verifierOf P cfg.histBuckets kcs.1.serverId kcs.1.verifyKey s0 = some v0 ∧
        Spec.verifierOf P cfg.histBuckets kcs.2.serverId kcs.1.verifyKey s1 = some v1 ∧
        P.flpDecide cfg.histBuckets (Spec.addShares v0 v1) = some b ∧ keep[i]? = some b)
    (hq : Spec.AllPairs (Spec.QuietInner P cfg.histBuckets d) (Spec.masked kcs.1.reportShares keep)
      (Spec.masked kcs.2.reportShares keep))
    (hlast : Spec.QuietReports P cfg.histBuckets d (Spec.masked kcs.1.reportShares keep)
        (Spec.masked kcs.2.reportShares keep) ∨
      keep.countP id < min num cfg.queryBatch)
    (hne : Spec.included (Spec.masked kcs.1.reportShares keep) ≠ []) :
    let pairs := Spec.keyPairs (Spec.masked kcs.1.reportShares keep) (Spec.masked kcs.2.reportShares keep)
    let heavy := Spec.heavyPaths P cfg.histBuckets (max 1 cfg.threshold) pairs
    (heavy (d - 2) ≠ [] →
      ∃ out, runWhh c0 c1 bld cfg kcs num = .ok out ∧
        out.kcs.1.reportShares = Spec.masked kcs.1.reportShares keep ∧
        out.kcs.2.reportShares = Spec.masked kcs.2.reportShares keep ∧
        out.results = resultsOf P cfg.histBuckets pairs (heavy d) ∧
        out.printed = out.results.filter fun r => decide (r.value.getD (cfg.histBuckets - 1) 0 ≠ 0)) ∧
    (heavy (d - 2) = [] → WhhStops c0 c1 bld cfg kcs num .index) := by
  intro pairs heavy
  have m0 : (Spec.masked kcs.1.reportShares keep).map Prod.snd
      = kcs.1.reportShares.map Prod.snd := masked_snd (by rw [l0, hkl])
  have m1 : (Spec.masked kcs.2.reportShares keep).map Prod.snd
      = kcs.2.reportShares.map Prod.snd := masked_snd (by rw [l1, hkl])
  have reach : ∀ {r : List (Bool × ReportShare)} {r' : List (Bool × ReportShare)},
      r'.map Prod.snd = r.map Prod.snd → (∀ br ∈ r', Spec.WellFormed d br.2) →
      ∀ br ∈ r, Spec.WellFormed d br.2 := by
    intro r r' he hw br hbr
    have : br.2 ∈ r'.map Prod.snd := he ▸ List.mem_map_of_mem hbr
    obtain ⟨br', hbr', e⟩ := List.mem_map.1 this
    rw [← e]; exact hw br' hbr'
  obtain ⟨a0, a1, hi, ⟨e0r, e0n, e0s, -, e0d⟩, ⟨e1r, e1n, e1s, -, e1d⟩, hflp⟩ := whh_flp (c0 := c0) (c1 := c1)
    (bld := bld) (cfg := cfg) (d := d) (by omega) hb hn0 hn1 hvk l0 l1 hw0 hw1 hkl hdec
  exact runWhh_quiet (c0 := c0) (c1 := c1) (bld := bld) (cfg := cfg) hi rfl hn hd hd2 hb
    (e0n.trans hn0) (e1n.trans hn1) (e0s.trans h0) (by show a1.serverId ≠ 0; rw [e1s]; exact h1)
    (e0d.trans d0) (e1d.trans d1) (by rw [m0]; simp only [e0r]) (by rw [m1]; simp only [e1r]) hflp hq
    (hlast.imp_right fun h => ⟨(included_masked_le _ _).trans_lt h, (included_masked_le _ _).trans_lt h⟩)
    hne (wellFormed_reach (by omega) (reach m0.symm hw0)) (wellFormed_reach (by omega) (reach m1.symm hw1))

/-- Both parts of C26/C27 at once, for populations with FLP-rejected members. -/
theorem whh_population {c0 c1 : ServerCfg} {bld : Build} {cfg : Config} {kcs : Pair2 P} {d : Nat}
    {clients : List (Option (List Bool × Nat))}
    (hd : cfg.dataBits = some d) (hd2 : 2 ≤ d) (hb : 1 ≤ cfg.queryBatch)
    (hn0 : kcs.1.inputLen = cfg.histBuckets) (hn1 : kcs.2.inputLen = cfg.histBuckets)
    (h0 : kcs.1.serverId = 0) (h1 : kcs.2.serverId ≠ 0) (hvk : kcs.1.verifyKey = kcs.2.verifyKey)
    (d0 : kcs.1.depth = some d) (d1 : kcs.2.depth = some d)
    (hp : Spec.Population P cfg.histBuckets d kcs.1.serverId kcs.2.serverId kcs.1.verifyKey clients
      kcs.1.reportShares kcs.2.reportShares)
    (hne : clients.filterMap id ≠ []) (hlt : (clients.filterMap id).length < 2 ^ 64) :
    ((∃ s, s.length = d - 2 ∧ (s ≠ [] →
        max 1 cfg.threshold ≤ (Spec.holders (clients.filterMap id) s).length)) →
      ∃ out, runWhh c0 c1 bld cfg kcs clients.length = .ok out ∧
        out.results.map (fun r => (r.path, r.value))
          = Spec.heavyHitters cfg.histBuckets (max 1 cfg.threshold) d (clients.filterMap id) ∧
        out.printed = out.results.filter (fun r => decide (r.value.getD (cfg.histBuckets - 1) 0 ≠ 0)) ∧
        out.kcs.1.reportShares = Spec.masked kcs.1.reportShares (clients.map Option.isSome) ∧
        out.kcs.2.reportShares = Spec.masked kcs.2.reportShares (clients.map Option.isSome)) ∧
    ((¬ ∃ s, s.length = d - 2 ∧ (s ≠ [] →
        max 1 cfg.threshold ≤ (Spec.holders (clients.filterMap id) s).length)) →
      WhhStops c0 c1 bld cfg kcs clients.length .index) := by
  have hM := mixed_of_population hp
  obtain ⟨hq, hw0, hw1, hF⟩ := hM.facts
  have m0 : (Spec.masked kcs.1.reportShares (clients.map Option.isSome)).map Prod.snd
      = kcs.1.reportShares.map Prod.snd := masked_snd (by rw [hp.1, List.length_map])
  have m1 : (Spec.masked kcs.2.reportShares (clients.map Option.isSome)).map Prod.snd
      = kcs.2.reportShares.map Prod.snd := masked_snd (by rw [hp.2.1, List.length_map])
  have reach : ∀ {r : List (Bool × ReportShare)} {r' : List (Bool × ReportShare)},
      r'.map Prod.snd = r.map Prod.snd → (∀ br ∈ r', Spec.WellFormed d br.2) →
      ∀ br ∈ r, Spec.WellFormed d br.2 := by
    intro r r' he hw br hbr
    have : br.2 ∈ r'.map Prod.snd := he ▸ List.mem_map_of_mem hbr
    obtain ⟨br', hbr', e⟩ := List.mem_map.1 this
    rw [← e]; exact hw br' hbr'
  have hdec : ∀ (i : Nat) (b0 b1 : Bool) (s0 s1 : ReportShare), kcs.1.reportShares[i]? = some (b0, s0) →
      kcs.2.reportShares[i]? = some (b1, s1) → ∃ v0 v1 b,
        Spec.verifierOf P cfg.histBuckets kcs.1.serverId kcs.1.verifyKey s0 = some v0 ∧
        Spec.verifierOf P cfg.histBuckets kcs.2.serverId kcs.1.verifyKey s1 = some v1 ∧
        P.flpDecide cfg.histBuckets (Spec.addShares v0 v1) = some b ∧
        (clients.map Option.isSome)[i]? = some b := by
    intro i b0 b1 s0 s1 g0 g1
    have hil : i < clients.length := hp.1 ▸ (List.getElem?_eq_some_iff.1 g0).1
    obtain ⟨c, hc⟩ : ∃ c, clients[i]? = some c := ⟨_, List.getElem?_eq_getElem hil⟩
    obtain ⟨-, -, hpop⟩ := hp.2.2 i c b0 b1 s0 s1 hc g0 g1
    cases c with
    | none =>
      obtain ⟨-, -, v0, v1, q0, q1, qd⟩ := hpop
      exact ⟨v0, v1, false, q0, q1, qd, by simp [hc]⟩
    | some c =>
      obtain ⟨hh, hlen, hcomp⟩ := hpop
      have ha : c.1 ≠ [] := by
        intro he
        have : c.1.length = d := hlen
        rw [he, List.length_nil] at this
        omega
      obtain ⟨v0, v1, q0, q1, qd⟩ := honest_verifiers h0 h1 ha hh hcomp
      exact ⟨v0, v1, true, q0, q1, qd, by simp [hc]⟩
  have hlen : ∀ c ∈ clients.filterMap id, c.1.length = d ∧ 1 ≤ cfg.histBuckets := by
    clear hdec hF hq hw0 hw1 m0 m1 hne hlt
    intro c hc
    simp only [List.mem_filterMap, id_eq, exists_eq_right] at hc
    obtain ⟨i, hi⟩ := List.getElem?_of_mem hc
    have hil := (List.getElem?_eq_some_iff.1 hi).1
    obtain ⟨-, -, hh, hlen, -⟩ := hp.2.2 i (some c) _ _ _ _ hi
      (List.getElem?_eq_getElem (hp.1 ▸ hil)) (List.getElem?_eq_getElem (hp.2.1 ▸ hil))
    obtain ⟨_, _, -, -, -, -, -, -, hbn⟩ := honestPair_facts hh
    exact ⟨hlen, by omega⟩
  obtain ⟨c, hc⟩ := List.exists_mem_of_ne_nil _ hne
  have hrun := whh_decided (c0 := c0) (c1 := c1) (bld := bld) (cfg := cfg) hd hd2 hb (hlen c hc).2 hn0 hn1 h0
    h1 hvk d0 d1 hp.1 hp.2.1 (reach m0 hw0) (reach m1 hw1) (keep := clients.map Option.isSome) (by simp) hdec
    (quiet_inner hq) (.inl hq) (included_ne hM hne)
  have hiff : Spec.heavyPaths P cfg.histBuckets (max 1 cfg.threshold)
      (Spec.keyPairs (Spec.masked kcs.1.reportShares (clients.map Option.isSome))
        (Spec.masked kcs.2.reportShares (clients.map Option.isSome))) (d - 2) ≠ [] ↔
      ∃ s, s.length = d - 2 ∧ (s ≠ [] →
        max 1 cfg.threshold ≤ (Spec.holders (clients.filterMap id) s).length) := by
    constructor
    · intro h
      obtain ⟨s, hs⟩ := List.exists_mem_of_ne_nil _ h
      obtain ⟨hs1, hs2⟩ := List.mem_filter.1 hs
      refine ⟨s, mem_allPaths.1 hs1, fun hsne => ?_⟩
      rwa [heavy_clients hF hlt hsne (by rw [mem_allPaths.1 hs1]; omega), decide_eq_true_eq] at hs2
    · rintro ⟨s, hs1, hs2⟩
      refine List.ne_nil_of_mem (a := s) (List.mem_filter.2 ⟨mem_allPaths.2 hs1, ?_⟩)
      by_cases hsne : s = []
      · subst hsne; simp [Spec.heavy]
      · rw [heavy_clients hF hlt hsne (by omega), decide_eq_true_eq]
        exact hs2 hsne
  constructor
  · intro h
    obtain ⟨out, g1, g2, g3, g4, g5⟩ := hrun.1 (hiff.2 h)
    refine ⟨out, g1, ?_, g5, g2, g3⟩
    rw [g4]
    exact results_clients hF (by omega) hlt fun c hc => (hlen c hc).1
  · intro h
    exact hrun.2 (not_not.1 fun h' => h (hiff.1 h'))

/-! ## C26 -/

theorem heavyHitters_prefix {n T d : Nat} {clients : List (List Bool × Nat)}
    (h : Spec.heavyHitters n T d clients ≠ []) (k : Nat) (hk : k ≤ d) :
    ∃ s, s.length = k ∧ (s ≠ [] → T ≤ (Spec.holders clients s).length) := by
  unfold Spec.heavyHitters at h
  obtain ⟨x, hx⟩ := List.exists_mem_of_ne_nil _ h
  obtain ⟨s, hs, -⟩ := List.mem_map.1 hx
  obtain ⟨hs1, hs2⟩ := List.mem_filter.1 hs
  refine ⟨s.take k, by simp [mem_allPaths.1 hs1, hk], fun _ => ?_⟩
  simp only [decide_eq_true_eq] at hs2
  refine hs2.trans ?_
  rw [List.countP_eq_length_filter]
  refine (List.monotone_filter_right clients fun c hc => ?_).length_le
  simp only [beq_iff_eq] at hc
  rw [List.isPrefixOf_iff_prefix, hc]
  exact List.take_prefix _ _

/-- **C26.** Honest clients and clients that the FLP verification rejects, in any mixture: if some string
is held by enough honest clients (at least `max 1 threshold`), the run completes, exactly the rejected
clients are excluded, and the results are exactly the strings that enough honest clients hold, in
lexicographic order, each with the histogram of its holders' weights followed by their number. -/
theorem C26_exact_despite_cheaters {c0 c1 : ServerCfg} {bld : Build} {cfg : Config} {kcs : Pair2 P}
    {d : Nat} {clients : List (Option (List Bool × Nat))}
    (hd : cfg.dataBits = some d) (hd2 : 2 ≤ d) (hb : 1 ≤ cfg.queryBatch)
    (hn0 : kcs.1.inputLen = cfg.histBuckets) (hn1 : kcs.2.inputLen = cfg.histBuckets)
    (h0 : kcs.1.serverId = 0) (h1 : kcs.2.serverId ≠ 0) (hvk : kcs.1.verifyKey = kcs.2.verifyKey)
    (d0 : kcs.1.depth = some d) (d1 : kcs.2.depth = some d)
    (hp : Spec.Population P cfg.histBuckets d kcs.1.serverId kcs.2.serverId kcs.1.verifyKey clients
      kcs.1.reportShares kcs.2.reportShares)
    (hlt : (clients.filterMap id).length < 2 ^ 64)
    (hheavy : Spec.heavyHitters cfg.histBuckets (max 1 cfg.threshold) d (clients.filterMap id) ≠ []) :
    ∃ out, runWhh c0 c1 bld cfg kcs clients.length = .ok out ∧
      out.results.map (fun r => (r.path, r.value))
        = Spec.heavyHitters cfg.histBuckets (max 1 cfg.threshold) d (clients.filterMap id) ∧
      out.kcs.1.reportShares = Spec.masked kcs.1.reportShares (clients.map Option.isSome) ∧
      out.kcs.2.reportShares = Spec.masked kcs.2.reportShares (clients.map Option.isSome) := by
  have hne : clients.filterMap id ≠ [] := by
    intro he
    rw [he] at hheavy
    apply hheavy
    simp only [Spec.heavyHitters, List.countP_nil, List.map_eq_nil_iff, List.filter_eq_nil_iff]
    intro s _
    simp
  obtain ⟨out, g1, g2, -, g3, g4⟩ := (whh_population (c0 := c0) (c1 := c1) (bld := bld) hd hd2 hb hn0 hn1
    h0 h1 hvk d0 d1 hp hne hlt).1 (heavyHitters_prefix hheavy (d - 2) (by omega))
  exact ⟨out, g1, g2, g3, g4⟩

theorem population_honest {n d : Nat} {id0 id1 : Int} {vk : Block} {clients : List (List Bool × Nat)}
    {rs0 rs1 : List (Bool × ReportShare)} (hh : Spec.HonestReports P n clients rs0 rs1)
    (hc : Spec.FlpCompleteFor P n vk rs0) (hl : ∀ c ∈ clients, c.1.length = d)
    (hf0 : ∀ r ∈ rs0, r.1 = true) (hf1 : ∀ r ∈ rs1, r.1 = true) :
    Spec.Population P n d id0 id1 vk (clients.map some) rs0 rs1 := by
  obtain ⟨l0, l1, hh⟩ := hh
  refine ⟨by simpa using l0, by simpa using l1, ?_⟩
  intro i c b0 b1 s0 s1 g0 g1 g2
  rw [List.getElem?_map, Option.map_eq_some_iff] at g0
  obtain ⟨cl, gc, rfl⟩ := g0
  exact ⟨hf0 _ (List.mem_of_getElem? g1), hf1 _ (List.mem_of_getElem? g2), hh i cl _ _ gc g1 g2,
    hl cl (List.mem_of_getElem? gc), hc _ (List.mem_of_getElem? g1)⟩

theorem masked_all {n : Nat} {rs : List (Bool × ReportShare)} (h : rs.length = n) :
    Spec.masked rs (List.replicate n true) = rs := by
  refine List.ext_getElem? fun i => ?_
  unfold Spec.masked
  rw [List.getElem?_zipWith, List.getElem?_replicate]
  by_cases hin : i < n
  · rw [if_pos hin, List.getElem?_eq_getElem (by omega)]; simp
  · rw [if_neg hin, List.getElem?_eq_none (by omega)]

/-- **C26.** With honest clients only, if some string is held by at least `max 1 threshold` of them, the
run completes without a panic, excludes nobody, and returns exactly the strings held by that many
clients, in lexicographic order, each with the histogram of its holders' weights and their number. -/
theorem C26_exact {c0 c1 : ServerCfg} {bld : Build} {cfg : Config} {kcs : Pair2 P}
    {d : Nat} {clients : List (List Bool × Nat)}
    (hd : cfg.dataBits = some d) (hd2 : 2 ≤ d) (hb : 1 ≤ cfg.queryBatch)
    (hn0 : kcs.1.inputLen = cfg.histBuckets) (hn1 : kcs.2.inputLen = cfg.histBuckets)
    (h0 : kcs.1.serverId = 0) (h1 : kcs.2.serverId ≠ 0) (hvk : kcs.1.verifyKey = kcs.2.verifyKey)
    (d0 : kcs.1.depth = some d) (d1 : kcs.2.depth = some d)
    (hh : Spec.HonestReports P cfg.histBuckets clients kcs.1.reportShares kcs.2.reportShares)
    (hc : Spec.FlpCompleteFor P cfg.histBuckets kcs.1.verifyKey kcs.1.reportShares)
    (hf0 : ∀ r ∈ kcs.1.reportShares, r.1 = true) (hf1 : ∀ r ∈ kcs.2.reportShares, r.1 = true)
    (hl : ∀ c ∈ clients, c.1.length = d) (hlt : clients.length < 2 ^ 64)
    (hheavy : Spec.heavyHitters cfg.histBuckets (max 1 cfg.threshold) d clients ≠ []) :
    ∃ out, runWhh c0 c1 bld cfg kcs clients.length = .ok out ∧
      out.results.map (fun r => (r.path, r.value))
        = Spec.heavyHitters cfg.histBuckets (max 1 cfg.threshold) d clients ∧
      out.kcs.1.reportShares = kcs.1.reportShares ∧ out.kcs.2.reportShares = kcs.2.reportShares := by
  have hid : (clients.map some).filterMap id = clients := by simp [List.filterMap_map]
  have hrep : (clients.map some).map Option.isSome = List.replicate clients.length true := by
    rw [List.map_map, List.eq_replicate_iff]
    simp
  have := C26_exact_despite_cheaters (c0 := c0) (c1 := c1) (bld := bld) hd hd2 hb hn0 hn1 h0 h1 hvk d0 d1
    (population_honest (d := d) hh hc hl hf0 hf1) (by rw [hid]; exact hlt) (by rw [hid]; exact hheavy)
  rwa [hid, hrep, List.length_map, masked_all hh.1, masked_all hh.2.1] at this

/-- **C26, from reset to result.**  After a reset and the upload of one honest report per client, picked
from honestly generated reports (any batch sizes), the run returns exactly the heavy hitters among the
picked strings. -/
theorem C26_from_reset {c0 c1 : ServerCfg} {bld : Build} {cfg : Config} {kcs kcs1 : Pair2 P}
    {vk : Block} {d : Nat} {reports : List PlaintextReport} {strings : List (List Bool × Nat)}
    {samples : List Nat}
    (hd : cfg.dataBits = some d) (hs0 : c0.dataBits = some d) (hs1 : c1.dataBits = some d) (hd2 : 2 ≤ d)
    (hb : 1 ≤ cfg.queryBatch) (hab : 1 ≤ cfg.addBatch) (h0 : c0.serverId = 0) (h1 : c1.serverId ≠ 0)
    (hreset : resetServers c0 c1 cfg kcs vk = .ok kcs1)
    (hgen : List.Forall₂ (fun (r : PlaintextReport) (s : List Bool × Nat) =>
      ∃ rand, genMasticReport P cfg.histBuckets s.1 s.2 rand = .ok r) reports strings)
    (hl : ∀ s ∈ strings, s.1.length = d)
    (hcomp : ∀ nonce : List Byte, Spec.FlpCompleteAt P cfg.histBuckets
      (P.xofField vk nonce (P.queryRandLen cfg.histBuckets)))
    (hsam : ∀ s ∈ samples, 1 ≤ s ∧ s ≤ reports.length) (hlt : samples.length < 2 ^ 64)
    (hheavy : Spec.heavyHitters cfg.histBuckets (max 1 cfg.threshold) d
      (samples.filterMap fun s => strings[s - 1]?) ≠ []) :
    ∃ kcs2 out, upload cfg reports kcs1 (samples.map fun s => (s, none)) = .ok kcs2 ∧
      runWhh c0 c1 bld cfg kcs2 samples.length = .ok out ∧
      out.results.map (fun r => (r.path, r.value))
        = Spec.heavyHitters cfg.histBuckets (max 1 cfg.threshold) d
            (samples.filterMap fun s => strings[s - 1]?) ∧
      (∀ r ∈ out.kcs.1.reportShares, r.1 = true) ∧ ∀ r ∈ out.kcs.2.reportShares, r.1 = true := by
  obtain ⟨kcs2, hup⟩ := C51_upload_returns cfg hab reports kcs1 samples hsam
  have hk1 : kcs1 = (KeyCollection.new P cfg.histBuckets c0.serverId c0.dataBits vk,
      KeyCollection.new P cfg.histBuckets c1.serverId c1.dataBits vk) := by
    unfold resetServers srvReset at hreset
    split at hreset
    · simpa using hreset.symm
    · cases hreset
  have hadd : ∃ sh : List (ReportShare × ReportShare), kcs2
      = ({ kcs1.1 with reportShares := kcs1.1.reportShares ++ sh.map (fun s => (true, s.1)) },
        { kcs1.2 with reportShares := kcs1.2.reportShares ++ sh.map (fun s => (true, s.2)) }) := by
    rw [upload_eq cfg hab] at hup
    obtain ⟨sh, -, h⟩ := bind_eq_ok.1 hup
    cases h
    exact ⟨sh, by simp [srvAdd_eq]⟩
  obtain ⟨sh, hlen, hr0, hr1, hF⟩ := C51_matching_shares cfg hab reports kcs1 kcs2 _ hup
  obtain ⟨sh', hk2⟩ := hadd
  have x0 : kcs1.1.reportShares = [] := by rw [hk1]; rfl
  have x1 : kcs1.2.reportShares = [] := by rw [hk1]; rfl
  rw [x0, List.nil_append] at hr0
  rw [x1, List.nil_append] at hr1
  -- the clients
  have hcl : (samples.filterMap fun s => strings[s - 1]?).length = samples.length ∧
      ∀ i (h : i < samples.length), ∃ c, strings[samples[i] - 1]? = some c ∧
        (samples.filterMap fun s => strings[s - 1]?)[i]? = some c := by
    clear hheavy hup hlen hr0 hr1 hF hlt
    induction samples with
    | nil => exact ⟨rfl, fun i h => absurd h (by simp)⟩
    | cons s rest ih =>
      obtain ⟨i1, i2⟩ := ih fun s hs => hsam s (List.mem_cons_of_mem _ hs)
      have hs := hsam s (by simp)
      have hlt : s - 1 < strings.length := by rw [← hgen.length_eq]; omega
      have e : strings[s - 1]? = some strings[s - 1] := List.getElem?_eq_getElem hlt
      rw [List.filterMap_cons, e]
      refine ⟨by simp [i1], ?_⟩
      rintro (_ | i) h
      · exact ⟨_, e, rfl⟩
      · obtain ⟨c, g1, g2⟩ := i2 i (by simpa using h)
        exact ⟨c, by simpa using g1, by simpa using g2⟩
  obtain ⟨hcl1, hcl2⟩ := hcl
  have hhon : Spec.HonestReports P cfg.histBuckets (samples.filterMap fun s => strings[s - 1]?)
      kcs2.1.reportShares kcs2.2.reportShares := by
    refine ⟨by simp [hr0, hlen, hcl1], by simp [hr1, hlen, hcl1], ?_⟩
    intro i c q0 q1 hc g0 g1
    have hi : i < samples.length := hcl1 ▸ (List.getElem?_eq_some_iff.1 hc).1
    obtain ⟨c', hc1, hc2⟩ := hcl2 i hi
    rw [hc] at hc2
    cases hc2
    have hish : i < sh.length := by simpa [hlen] using hi
    obtain ⟨r, -, hrr, -, hnone⟩ := (List.forall₂_iff_get.1 hF).2 i (by simpa using hi) hish
    simp only [List.get_eq_getElem, List.getElem_map] at hrr hnone
    have hsr := hnone trivial
    obtain ⟨hk, hg⟩ := List.getElem?_eq_some_iff.1 hrr
    obtain ⟨hk', hg'⟩ := List.getElem?_eq_some_iff.1 hc1
    have hgr := (List.forall₂_iff_get.1 hgen).2 _ hk hk'
    simp only [List.get_eq_getElem] at hgr
    rw [hg, hg'] at hgr
    obtain ⟨rand, hrand⟩ := hgr
    rw [hr0, List.getElem?_map, List.getElem?_eq_getElem hish] at g0
    rw [hr1, List.getElem?_map, List.getElem?_eq_getElem hish] at g1
    cases g0; cases g1
    refine ⟨rand, r, hrand, ?_⟩
    rw [← hsr]
  have hall0 : ∀ r ∈ kcs2.1.reportShares, r.1 = true := by
    rw [hr0]; intro r hr; obtain ⟨_, _, rfl⟩ := List.mem_map.1 hr; rfl
  have hall1 : ∀ r ∈ kcs2.2.reportShares, r.1 = true := by
    rw [hr1]; intro r hr; obtain ⟨_, _, rfl⟩ := List.mem_map.1 hr; rfl
  have f0 : kcs2.1.inputLen = cfg.histBuckets ∧ kcs2.1.serverId = c0.serverId ∧
      kcs2.1.depth = c0.dataBits ∧ kcs2.1.verifyKey = vk := by
    rw [hk2, hk1]; exact ⟨rfl, rfl, rfl, rfl⟩
  have f1 : kcs2.2.inputLen = cfg.histBuckets ∧ kcs2.2.serverId = c1.serverId ∧
      kcs2.2.depth = c1.dataBits ∧ kcs2.2.verifyKey = vk := by
    rw [hk2, hk1]; exact ⟨rfl, rfl, rfl, rfl⟩
  obtain ⟨out, g1, g2, g3, g4⟩ := C26_exact (c0 := c0) (c1 := c1) (bld := bld) (cfg := cfg) (kcs := kcs2)
    hd hd2 hb f0.1 f1.1 (f0.2.1.trans h0) (by rw [f1.2.1]; exact h1) (f0.2.2.2.trans f1.2.2.2.symm)
    (f0.2.2.1.trans hs0) (f1.2.2.1.trans hs1) hhon (fun r _ => f0.2.2.2.symm ▸ hcomp _) hall0 hall1
    (by
      intro c hc
      obtain ⟨s, -, hs⟩ := List.mem_filterMap.1 hc
      exact hl c (List.mem_of_getElem? hs))
    (by rw [hcl1]; exact hlt) hheavy
  rw [hcl1] at g1
  exact ⟨kcs2, out, hup, g1, g2, by rw [g3]; exact hall0, by rw [g4]; exact hall1⟩

/-- The toy client code succeeds on every valid weight. -/
theorem toy_gen_ok {n bucket : Nat} (h : bucket < n) (alpha : List Bool) (rand : ClientRand) :
    ∃ r, genMasticReport toy n alpha bucket rand = .ok r := by
  unfold genMasticReport encodeMeasurement
  rw [if_pos h]
  exact ⟨_, rfl⟩

/-- The hypotheses of C26 can be met: three toy clients, two of which hold `10`, threshold 2. -/
example : ∃ (reports : List PlaintextReport) (kcs1 kcs2 : Pair2 toy) (out : WhhOut toy),
    upload ⟨some 2, 2, 1, 2, 1, 2⟩ reports kcs1 ([1, 2, 1].map fun s => (s, none)) = .ok kcs2 ∧
    runWhh (toyCfg 0 (some 2) .debug) (toyCfg 1 (some 2) .debug) .debug ⟨some 2, 2, 1, 2, 1, 2⟩ kcs2 3
      = .ok out ∧
    out.results.map (fun r => (r.path, r.value)) = [([true, false], [0, 2, 2])] := by
  obtain ⟨r1, e1⟩ := toy_gen_ok (n := 2) (bucket := 1) (by omega) [true, false] (toyRand 0)
  obtain ⟨r2, e2⟩ := toy_gen_ok (n := 2) (bucket := 0) (by omega) [false, false] (toyRand 1)
  obtain ⟨kcs2, out, g1, g2, g3, -⟩ := C26_from_reset (P := toy) (bld := .debug) (vk := Block.zero)
    (c0 := toyCfg 0 (some 2) .debug) (c1 := toyCfg 1 (some 2) .debug) (cfg := ⟨some 2, 2, 1, 2, 1, 2⟩)
    (kcs := (KeyCollection.new toy 1 0 none Block.zero, KeyCollection.new toy 1 1 none Block.zero))
    (reports := [r1, r2]) (strings := [([true, false], 1), ([false, false], 0)]) (samples := [1, 2, 1])
    (d := 2) rfl rfl rfl le_rfl (by decide) (by decide) rfl (by decide) rfl
    (.cons ⟨_, e1⟩ (.cons ⟨_, e2⟩ .nil)) (by decide) (fun _ => toy_flpComplete _ _) (by simp) (by decide)
    (by decide +kernel)
  refine ⟨_, _, kcs2, out, g1, g2, g3.trans ?_⟩
  decide +kernel

/-- A run evaluated: an honest client and one whose FLP proof was tampered with, which is excluded and changes
nothing (threshold 1). -/
example : (do
    let r1 ← toyReport 2 [true, false] 1 0
    let r2 ← toyReport 2 [false, false] 0 1
    let kcs ← upload ⟨some 2, 2, 1, 2, 1, 2⟩ [r1, r2] (KeyCollection.new toy 2 0 (some 2) Block.zero,
      KeyCollection.new toy 2 1 (some 2) Block.zero) [(1, none), (2, some .flp)]
    let out ← runWhh (toyCfg 0 (some 2) .debug) (toyCfg 1 (some 2) .debug) .debug
      ⟨some 2, 2, 1, 2, 1, 1⟩ kcs 2
    .ok (out.kcs.1.reportShares.map Prod.fst, out.results.map fun r => (r.path, r.value)) : Exec _)
    = .ok ([true, false], [([true, false], [0, 1, 1])]) := by decide +kernel

/-! ## C27 -/

/-- **C27 (partial).** Honest clients: if some prefix of length `d - 2` is still held by enough clients
but no string is, the run completes and returns (and prints) nothing. -/
theorem C27_empty_partial {c0 c1 : ServerCfg} {bld : Build} {cfg : Config} {kcs : Pair2 P}
    {d : Nat} {clients : List (List Bool × Nat)}
    (hd : cfg.dataBits = some d) (hd2 : 2 ≤ d) (hb : 1 ≤ cfg.queryBatch)
    (hn0 : kcs.1.inputLen = cfg.histBuckets) (hn1 : kcs.2.inputLen = cfg.histBuckets)
    (h0 : kcs.1.serverId = 0) (h1 : kcs.2.serverId ≠ 0) (hvk : kcs.1.verifyKey = kcs.2.verifyKey)
    (d0 : kcs.1.depth = some d) (d1 : kcs.2.depth = some d)
    (hh : Spec.HonestReports P cfg.histBuckets clients kcs.1.reportShares kcs.2.reportShares)
    (hc : Spec.FlpCompleteFor P cfg.histBuckets kcs.1.verifyKey kcs.1.reportShares)
    (hf0 : ∀ r ∈ kcs.1.reportShares, r.1 = true) (hf1 : ∀ r ∈ kcs.2.reportShares, r.1 = true)
    (hl : ∀ c ∈ clients, c.1.length = d) (hne : clients ≠ []) (hlt : clients.length < 2 ^ 64)
    (hpre : ∃ s, s.length = d - 2 ∧ max 1 cfg.threshold ≤ (Spec.holders clients s).length)
    (hnone : ∀ s, (clients.countP fun c => c.1 == s) < max 1 cfg.threshold) :
    ∃ out, runWhh c0 c1 bld cfg kcs clients.length = .ok out ∧ out.results = [] ∧ out.printed = [] := by
  have hid : (clients.map some).filterMap id = clients := by simp [List.filterMap_map]
  obtain ⟨s, hs1, hs2⟩ := hpre
  obtain ⟨out, g1, g2, g3, -⟩ := (whh_population (c0 := c0) (c1 := c1) (bld := bld) hd hd2 hb hn0 hn1 h0 h1
    hvk d0 d1 (population_honest (d := d) hh hc hl hf0 hf1) (by rw [hid]; exact hne)
    (by rw [hid]; exact hlt)).1 ⟨s, hs1, fun _ => by rw [hid]; exact hs2⟩
  rw [hid] at g2
  have hr : out.results = [] := by
    rw [← List.map_eq_nil_iff (f := fun r : HHResult => (r.path, r.value)), g2]
    unfold Spec.heavyHitters
    rw [List.map_eq_nil_iff, List.filter_eq_nil_iff]
    intro s _
    have := hnone s
    simp only [decide_eq_true_eq]
    omega
  exact ⟨out, by rw [List.length_map] at g1; exact g1, hr, by rw [g3, hr]; rfl⟩

/-- **C27 is false of the code.** Honest clients whose prefixes of length `d - 2` are all held by fewer
than `max 1 threshold` clients (`d ≥ 3`) make the run panic: the frontier is empty before the last level
and the next crawl indexes it. -/
theorem C27_false_panics {c0 c1 : ServerCfg} {bld : Build} {cfg : Config} {kcs : Pair2 P}
    {d : Nat} {clients : List (List Bool × Nat)}
    (hd : cfg.dataBits = some d) (hd3 : 3 ≤ d) (hb : 1 ≤ cfg.queryBatch)
    (hn0 : kcs.1.inputLen = cfg.histBuckets) (hn1 : kcs.2.inputLen = cfg.histBuckets)
    (h0 : kcs.1.serverId = 0) (h1 : kcs.2.serverId ≠ 0) (hvk : kcs.1.verifyKey = kcs.2.verifyKey)
    (d0 : kcs.1.depth = some d) (d1 : kcs.2.depth = some d)
    (hh : Spec.HonestReports P cfg.histBuckets clients kcs.1.reportShares kcs.2.reportShares)
    (hc : Spec.FlpCompleteFor P cfg.histBuckets kcs.1.verifyKey kcs.1.reportShares)
    (hf0 : ∀ r ∈ kcs.1.reportShares, r.1 = true) (hf1 : ∀ r ∈ kcs.2.reportShares, r.1 = true)
    (hl : ∀ c ∈ clients, c.1.length = d) (hne : clients ≠ []) (hlt : clients.length < 2 ^ 64)
    (hpre : ∀ s, s.length = d - 2 → (Spec.holders clients s).length < max 1 cfg.threshold) :
    runWhh c0 c1 bld cfg kcs clients.length = .error .index := by
  have hid : (clients.map some).filterMap id = clients := by simp [List.filterMap_map]
  have := (whh_population (c0 := c0) (c1 := c1) (bld := bld) hd (by omega) hb hn0 hn1 h0 h1
    hvk d0 d1 (population_honest (d := d) hh hc hl hf0 hf1) (by rw [hid]; exact hne)
    (by rw [hid]; exact hlt)).2 ?_
  · rw [List.length_map] at this
    exact this.run
  · rintro ⟨s, hs1, hs2⟩
    rw [hid] at hs2
    have := hpre s hs1
    have := hs2 (by rintro rfl; simp at hs1; omega)
    omega

/-- Toy servers holding the honest reports of any clients. -/
theorem toy_honest (n d : Nat) : ∀ clients : List (List Bool × Nat), (∀ c ∈ clients, c.2 < n) →
    ∃ kcs : Pair2 toy, kcs.1.inputLen = n ∧ kcs.2.inputLen = n ∧ kcs.1.serverId = 0 ∧
      kcs.2.serverId = 1 ∧ kcs.1.verifyKey = kcs.2.verifyKey ∧ kcs.1.depth = some d ∧
      kcs.2.depth = some d ∧
      Spec.HonestReports toy n clients kcs.1.reportShares kcs.2.reportShares ∧
      (∀ r ∈ kcs.1.reportShares, r.1 = true) ∧ ∀ r ∈ kcs.2.reportShares, r.1 = true
  | [], _ => ⟨(KeyCollection.new toy n 0 (some d) Block.zero,
      KeyCollection.new toy n 1 (some d) Block.zero), rfl, rfl, rfl, rfl, rfl, rfl, rfl,
      ⟨rfl, rfl, by simp⟩, by simp [KeyCollection.new], by simp [KeyCollection.new]⟩
  | c :: cs, h => by
    obtain ⟨kcs, h1, h2, h3, h4, h5, h6, h7, ⟨h8, h9, h10⟩, h11, h12⟩ :=
      toy_honest n d cs fun c hc => h c (List.mem_cons_of_mem _ hc)
    obtain ⟨r, hr⟩ := toy_gen_ok (h c (by simp)) c.1 (toyRand cs.length)
    refine ⟨({ kcs.1 with reportShares := (true, r.toShares.1) :: kcs.1.reportShares },
      { kcs.2 with reportShares := (true, r.toShares.2) :: kcs.2.reportShares }), h1, h2, h3, h4, h5, h6,
      h7, ⟨by simp [h8], by simp [h9], ?_⟩, ?_, ?_⟩
    · rintro (_ | i) c' q0 q1 e0 e1 e2
      · cases e0; cases e1; cases e2
        exact ⟨_, r, hr, rfl⟩
      · exact h10 i c' q0 q1 (by simpa using e0) (by simpa using e1) (by simpa using e2)
    · simpa using h11
    · simpa using h12

/-- Threshold 2, three-bit strings: two clients share the prefix `1` but not the string. -/
example : ∃ (kcs : Pair2 toy) (out : WhhOut toy),
    runWhh (toyCfg 0 (some 3) .debug) (toyCfg 1 (some 3) .debug) .debug ⟨some 3, 2, 1, 2, 1, 2⟩ kcs 2
      = .ok out ∧ out.results = [] := by
  obtain ⟨kcs, h1, h2, h3, h4, h5, h6, h7, h8, h9, h10⟩ :=
    toy_honest 2 3 [([true, false, false], 0), ([true, true, false], 1)] (by decide)
  obtain ⟨out, g1, g2, -⟩ := C27_empty_partial (c0 := toyCfg 0 (some 3) .debug)
    (c1 := toyCfg 1 (some 3) .debug) (bld := .debug) (cfg := ⟨some 3, 2, 1, 2, 1, 2⟩) (d := 3) rfl
    (by decide) (by decide) h1 h2 h3 (by rw [h4]; decide) h5 h6 h7 h8 (fun _ _ => toy_flpComplete _ _) h9
    h10 (by decide) (by decide) (by decide) ⟨[true], rfl, by decide⟩ (by
      intro s
      by_cases e1 : s = [true, false, false]
      · subst e1; decide
      · by_cases e2 : s = [true, true, false]
        · subst e2; decide
        · simp [Ne.symm e1, Ne.symm e2])
  exact ⟨kcs, out, g1, g2⟩

/-- The same two clients with different first bits: the run panics. -/
example : ∃ kcs : Pair2 toy,
    runWhh (toyCfg 0 (some 3) .debug) (toyCfg 1 (some 3) .debug) .debug ⟨some 3, 2, 1, 2, 1, 2⟩ kcs 2
      = .error .index := by
  obtain ⟨kcs, h1, h2, h3, h4, h5, h6, h7, h8, h9, h10⟩ :=
    toy_honest 2 3 [([true, false, false], 0), ([false, true, false], 1)] (by decide)
  have g := C27_false_panics (c0 := toyCfg 0 (some 3) .debug)
    (c1 := toyCfg 1 (some 3) .debug) (bld := .debug) (cfg := ⟨some 3, 2, 1, 2, 1, 2⟩) (d := 3) rfl
    (by decide) (by decide) h1 h2 h3 (by rw [h4]; decide) h5 h6 h7 h8 (fun _ _ => toy_flpComplete _ _) h9
    h10 (by decide) (by decide) (by decide) (by
      intro s hs
      match s, hs with
      | [true], _ => decide
      | [false], _ => decide)
  exact ⟨kcs, g⟩

end Mastic
