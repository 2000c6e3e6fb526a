import Verif.Lemmas.Final
import Verif.Lemmas.Batch
import Verif.Props.Serve

/-!
# C36: the comparison of the last-level proofs
-/

namespace Mastic

variable {P : Prims}

/-- For the examples: flip a bit of the correction seed of level `l`. -/
def changeSeed (l : Nat) : Bool × ReportShare → Bool × ReportShare
  | (b, .mastic nonce key proof parts) =>
    (b, .mastic nonce { key with cs := key.cs.modify l fun c => c.set 0 (c[0] + 1) } proof parts)
  | x => x

/-- **C36 (partial).** For server states any request histories lead to, if `run_level_last` completes then
the two servers' last-level proofs agree for every included client that sits in a batch which ends within
both lists of included clients (`j` is the position among the included clients; its batch ends at
`min num ((j / batch + 1) * batch)`).  Missing: clients in later batches, see `C36_false_run`. -/
theorem C36_compared_partial {s0 s1 : ServerCfg} {b0 b1 : Nat} {c0 c1 : ServerCfg} {cfg : Config}
    {kcs : Pair2 P} {num : Nat} {out : WhhOut P}
    (hr0 : Spec.Reachable P s0 b0 kcs.1) (hr1 : Spec.Reachable P s1 b1 kcs.2)
    (hb : 1 ≤ cfg.queryBatch) (h : runLevelLast c0 c1 cfg kcs num = .ok out)
    (j : Nat) (hj : j < num)
    (h0 : min num ((j / cfg.queryBatch + 1) * cfg.queryBatch) ≤ (Spec.included kcs.1.reportShares).length)
    (h1 : min num ((j / cfg.queryBatch + 1) * cfg.queryBatch) ≤ (Spec.included kcs.2.reportShares).length)
    (ir0 ir1 : Nat × ReportShare) (k0 k1 : VidpfKey)
    (g0 : (Spec.included kcs.1.reportShares)[j]? = some ir0)
    (g1 : (Spec.included kcs.2.reportShares)[j]? = some ir1)
    (e0 : Spec.keyOf ir0.2 = some k0) (e1 : Spec.keyOf ir1.2 = some k1) :
    Spec.proofsAt P kcs.1.inputLen k0 (kcs.1.frontier.map TreeNode.path)
      = Spec.proofsAt P kcs.2.inputLen k1 (kcs.2.frontier.map TreeNode.path) := by
  obtain ⟨m0, hi0⟩ := reachable_inv hr0
  obtain ⟨m1, hi1⟩ := reachable_inv hr1
  unfold runLevelLast at h
  obtain ⟨⟨a0, v0⟩, t0, h⟩ := bind_eq_ok.1 h
  dsimp only at h
  obtain ⟨⟨a1, v1⟩, t1, h⟩ := bind_eq_ok.1 h
  dsimp only at h
  obtain ⟨-, -, h⟩ := bind_eq_ok.1 h
  obtain ⟨keep, -, h⟩ := bind_eq_ok.1 h
  obtain ⟨rs, hrs, h⟩ := bind_eq_ok.1 h
  obtain ⟨us, hus, -⟩ := bind_eq_ok.1 h
  obtain ⟨l0, p0⟩ := treeCrawlLast_proofs hi0.frontier.1 t0
  obtain ⟨l1, p1⟩ := treeCrawlLast_proofs hi1.frontier.1 t1
  have hdiv : j / cfg.queryBatch * cfg.queryBatch ≤ j := Nat.div_mul_le_self _ _
  have hlt : j < (j / cfg.queryBatch + 1) * cfg.queryBatch := by
    rw [Nat.add_mul, Nat.one_mul]
    have := Nat.mod_lt j hb
    have := Nat.div_add_mod j cfg.queryBatch
    rw [Nat.mul_comm] at this
    omega
  have hmem : (j / cfg.queryBatch * cfg.queryBatch,
      min num ((j / cfg.queryBatch + 1) * cfg.queryBatch)) ∈ rs := by
    refine (whileRanges_mem hb num 0 rs (by omega) hrs _).2 ⟨j / cfg.queryBatch, ?_, by omega⟩
    rw [Nat.zero_add, Nat.add_mul, Nat.one_mul]
  have hcmp : compareProofs c0 c1 (a0, a1) (j / cfg.queryBatch * cfg.queryBatch,
      min num ((j / cfg.queryBatch + 1) * cfg.queryBatch)) = .ok () := by
    obtain ⟨-, hF⟩ := mapE_eq_ok_iff_getElem.1 hus
    obtain ⟨i, hi⟩ := List.getElem?_of_mem hmem
    obtain ⟨u, -, hu⟩ := hF i _ hi
    exact hu
  have := compareProofs_ok hcmp (by rw [l0]; exact h0) (by rw [l1]; exact h1) hdiv (lt_min hj hlt)
  rw [p0 j ir0 k0 g0 e0, p1 j ir1 k1 g1 e1] at this
  exact Option.some.inj this

/-- **C36 holds when nobody was excluded**: if both servers include all `num` clients and
`run_level_last` completes, all last-level proofs agree. -/
theorem C36_nobody_excluded {s0 s1 : ServerCfg} {b0 b1 : Nat} {c0 c1 : ServerCfg} {cfg : Config}
    {kcs : Pair2 P} {num : Nat} {out : WhhOut P}
    (hr0 : Spec.Reachable P s0 b0 kcs.1) (hr1 : Spec.Reachable P s1 b1 kcs.2)
    (hb : 1 ≤ cfg.queryBatch) (h : runLevelLast c0 c1 cfg kcs num = .ok out)
    (h0 : kcs.1.reportShares.length = num) (h1 : kcs.2.reportShares.length = num)
    (f0 : ∀ r ∈ kcs.1.reportShares, r.1 = true) (f1 : ∀ r ∈ kcs.2.reportShares, r.1 = true)
    (i : Nat) (r0 r1 : ReportShare) (k0 k1 : VidpfKey)
    (g0 : kcs.1.reportShares[i]? = some (true, r0)) (g1 : kcs.2.reportShares[i]? = some (true, r1))
    (e0 : Spec.keyOf r0 = some k0) (e1 : Spec.keyOf r1 = some k1) :
    Spec.proofsAt P kcs.1.inputLen k0 (kcs.1.frontier.map TreeNode.path)
      = Spec.proofsAt P kcs.2.inputLen k1 (kcs.2.frontier.map TreeNode.path) := by
  have hall : ∀ rs : List (Bool × ReportShare), (∀ r ∈ rs, r.1 = true) →
      Spec.included rs = rs.zipIdx.map fun r => (r.2, r.1.2) := by
    intro rs hrs
    unfold Spec.included
    rw [← List.filterMap_eq_map]
    refine List.filterMap_congr fun x hx => ?_
    have := hrs x.1 (List.mem_of_getElem? (List.mem_zipIdx_iff_getElem?.1 hx))
    simp [this]
  have hi : i < num := h0 ▸ (List.getElem?_eq_some_iff.1 g0).1
  refine C36_compared_partial hr0 hr1 hb h i hi ?_ ?_ (i, r0) (i, r1) k0 k1 ?_ ?_ e0 e1
  · rw [hall _ f0, List.length_map, List.length_zipIdx, h0]; exact min_le_left _ _
  · rw [hall _ f1, List.length_map, List.length_zipIdx, h1]; exact min_le_left _ _
  · rw [hall _ f0, List.getElem?_map, List.getElem?_zipIdx, g0]; simp
  · rw [hall _ f1, List.getElem?_map, List.getElem?_zipIdx, g1]; simp

/-- The hypotheses of `C36_nobody_excluded` (and so those of `C36_compared_partial`) are met by the states before
the last level of the toy session of C60, with three included clients. -/
example : ∃ (kcs : Pair2 toy) (out : WhhOut toy),
    Spec.Reachable toy (toyCfg 0 (some 2) .debug) 1 kcs.1 ∧ Spec.Reachable toy (toyCfg 1 (some 2) .debug) 1 kcs.2 ∧
    runLevelLast (toyCfg 0 (some 2) .debug) (toyCfg 1 (some 2) .debug) ⟨some 2, 2, 1, 2, 1, 2⟩ kcs 3
      = .ok out ∧
    out.results.map (fun r => (r.path, r.value)) = [([true, false], [0, 2, 2])] ∧
    (∀ r ∈ kcs.1.reportShares, r.1 = true) ∧ ∀ r ∈ kcs.2.reportShares, r.1 = true := by
  obtain ⟨kcs, out, r0, r1, h, hres, f0, f1⟩ := toy_session
  unfold runWhh at h
  obtain ⟨k1, h1, h⟩ := bind_eq_ok.1 h
  obtain ⟨m, -, h⟩ := bind_eq_ok.1 h
  obtain ⟨k2, h2, h⟩ := bind_eq_ok.1 h
  obtain ⟨q0, q1⟩ := C60_reachable (C60_before_last h1 h2) r0 r1
  have hk := runLevelLast_reports h
  exact ⟨k2, out, q0, q1, h, hres, by rw [← hk.1]; exact f0, by rw [← hk.2]; exact f1⟩

theorem countP_isSome {α : Type} (l : List (Option α)) :
    (l.map Option.isSome).countP id = (l.filterMap id).length := by
  induction l with
  | nil => rfl
  | cons c cs ih => cases c <;> simp only [List.map_cons, List.countP_cons, List.filterMap_cons, ih] <;> simp

/-- **C36 is false of the code.** Take honest clients and clients the FLP verification rejects, at least
one of them, no more than fit into one batch altogether (or generally: fewer accepted clients than clients
in the first batch).  Replace the last-level correction words and seeds of any reports by anything at all,
independently for the two servers.  The run still completes, nobody is excluded for it, and the results are
computed from the altered keys. -/
theorem C36_false_run {c0 c1 : ServerCfg} {bld : Build} {cfg : Config} {kcs : Pair2 P} {d : Nat}
    {clients : List (Option (List Bool × Nat))} {r0 r1 : List (Bool × ReportShare)}
    (hd : cfg.dataBits = some d) (hd2 : 2 ≤ d) (hb : 1 ≤ cfg.queryBatch)
    (hn0 : kcs.1.inputLen = cfg.histBuckets) (hn1 : kcs.2.inputLen = cfg.histBuckets)
    (h0 : kcs.1.serverId = 0) (h1 : kcs.2.serverId ≠ 0) (hvk : kcs.1.verifyKey = kcs.2.verifyKey)
    (d0 : kcs.1.depth = some d) (d1 : kcs.2.depth = some d)
    (hp : Spec.Population P cfg.histBuckets d kcs.1.serverId kcs.2.serverId kcs.1.verifyKey clients r0 r1)
    (hs0 : Spec.SameReports (d - 1) r0 kcs.1.reportShares)
    (hs1 : Spec.SameReports (d - 1) r1 kcs.2.reportShares)
    (hfew : (clients.filterMap id).length < min clients.length cfg.queryBatch)
    (hne : clients.filterMap id ≠ []) (hlt : (clients.filterMap id).length < 2 ^ 64)
    (hheavy : ∃ s, s.length = d - 2 ∧ (s ≠ [] →
        max 1 cfg.threshold ≤ (Spec.holders (clients.filterMap id) s).length)) :
    ∃ out, runWhh c0 c1 bld cfg kcs clients.length = .ok out ∧
      out.kcs.1.reportShares = Spec.masked kcs.1.reportShares (clients.map Option.isSome) ∧
      out.kcs.2.reportShares = Spec.masked kcs.2.reportShares (clients.map Option.isSome) ∧
      out.results.map (fun r => (r.path, r.value))
        = (Spec.heavyPaths P cfg.histBuckets (max 1 cfg.threshold)
            (Spec.keyPairs out.kcs.1.reportShares out.kcs.2.reportShares) d).map fun p =>
          (p, Spec.tally P cfg.histBuckets
            (Spec.keyPairs out.kcs.1.reportShares out.kcs.2.reportShares) p) := by
  have hM := mixed_of_population hp
  obtain ⟨hq, hw0, hw1, hF⟩ := hM.facts
  set keep := clients.map Option.isSome with hkeep
  have hm0 := sameReports_masked hs0 keep
  have hm1 := sameReports_masked hs1 keep
  have hpairs := sameReports_pairs hm0 hm1
  have hl0 : kcs.1.reportShares.length = clients.length := by rw [← hs0.length_eq, hp.1]
  have hl1 : kcs.2.reportShares.length = clients.length := by rw [← hs1.length_eq, hp.2.1]
  have wf : ∀ {r r' : List (Bool × ReportShare)}, r.length = clients.length →
      Spec.SameReports (d - 1) r r' →
      (∀ br ∈ Spec.masked r keep, Spec.WellFormed d br.2) → ∀ br ∈ r', Spec.WellFormed d br.2 := by
    intro r r' hl hs hw br hbr
    obtain ⟨i, hi⟩ := List.getElem?_of_mem hbr
    obtain ⟨s, hs1, hs2⟩ := sameReports_get hs (b := br.1) (s' := br.2) hi
    have hm : s ∈ (Spec.masked r keep).map Prod.snd := by
      rw [masked_snd (by rw [hl, hkeep, List.length_map])]
      exact List.mem_map.2 ⟨_, List.mem_of_getElem? hs1, rfl⟩
    obtain ⟨x, hx1, hx2⟩ := List.mem_map.1 hm
    exact wellFormed_same hs2 (hx2 ▸ hw x hx1)
  have hdec : ∀ (i : Nat) (b0 b1 : Bool) (s0 s1 : ReportShare), kcs.1.reportShares[i]? = some (b0, s0) →
      kcs.2.reportShares[i]? = some (b1, s1) → ∃ v0 v1 b,
        Spec.verifierOf P cfg.histBuckets kcs.1.serverId kcs.1.verifyKey s0 = some v0 ∧
        Spec.verifierOf P cfg.histBuckets kcs.2.serverId kcs.1.verifyKey s1 = some v1 ∧
        P.flpDecide cfg.histBuckets (Spec.addShares v0 v1) = some b ∧ keep[i]? = some b := by
    intro i b0 b1 s0' s1' g0' g1'
    obtain ⟨s0, g0, z0⟩ := sameReports_get hs0 g0'
    obtain ⟨s1, g1, z1⟩ := sameReports_get hs1 g1'
    rw [verifierOf_same z0 (by omega), verifierOf_same z1 (by omega)]
    have hil : i < clients.length := hp.1 ▸ (List.getElem?_eq_some_iff.1 g0).1
    obtain ⟨c, hc⟩ : ∃ c, clients[i]? = some c := ⟨_, List.getElem?_eq_getElem hil⟩
    obtain ⟨-, -, hpop⟩ := hp.2.2 i c b0 b1 s0 s1 hc g0 g1
    cases c with
    | none =>
      obtain ⟨-, -, v0, v1, q0, q1, qd⟩ := hpop
      exact ⟨v0, v1, false, q0, q1, qd, by simp [hkeep, hc]⟩
    | some c =>
      obtain ⟨hh, hlen, hcomp⟩ := hpop
      have ha : c.1 ≠ [] := by
        intro he
        have : c.1.length = d := hlen
        rw [he, List.length_nil] at this
        omega
      obtain ⟨v0, v1, q0, q1, qd⟩ := honest_verifiers h0 h1 ha hh hcomp
      exact ⟨v0, v1, true, q0, q1, qd, by simp [hkeep, hc]⟩
  have hqi : Spec.AllPairs (Spec.QuietInner P cfg.histBuckets d) (Spec.masked kcs.1.reportShares keep)
      (Spec.masked kcs.2.reportShares keep) := by
    refine ⟨?_, ?_⟩
    · rw [sameReports_flags hm0, sameReports_flags hm1]; exact hq.1
    · intro i s0' s1' g0' g1'
      obtain ⟨s0, g0, z0⟩ := sameReports_get hm0 g0'
      obtain ⟨s1, g1, z1⟩ := sameReports_get hm1 g1'
      obtain ⟨k0, k1, e0, e1, hqq⟩ := hq.2 i s0 s1 g0 g1
      obtain ⟨x0, k0', f0, f0', y0⟩ := sameShare_key z0
      obtain ⟨x1, k1', f1, f1', y1⟩ := sameShare_key z1
      rw [e0] at f0; rw [e1] at f1
      cases f0; cases f1
      exact ⟨k0', k1', f0', f1', quietInner_same y0 y1 hqq.1⟩
  have hcnt : keep.countP id = (clients.filterMap id).length := by
    rw [hkeep]; exact countP_isSome clients
  have hinc : Spec.included (Spec.masked kcs.1.reportShares keep) ≠ [] := by
    have : Spec.included (Spec.masked r0 keep) ≠ [] := included_ne hM hne
    obtain ⟨ir, hir⟩ := List.exists_mem_of_ne_nil _ this
    have hr := mem_included hir
    have hfl := sameReports_flags hm0
    have h2 : ((Spec.masked kcs.1.reportShares keep).map Prod.fst)[ir.1]? = some true := by
      rw [hfl, List.getElem?_map, hr]; rfl
    rw [List.getElem?_map, Option.map_eq_some_iff] at h2
    obtain ⟨x, hx, hx2⟩ := h2
    intro he
    have hmem : (x, ir.1) ∈ (Spec.masked kcs.1.reportShares keep).zipIdx := by
      rw [List.mem_zipIdx_iff_getElem?]; exact hx
    unfold Spec.included at he
    rw [List.filterMap_eq_nil_iff] at he
    have := he _ hmem
    simp [hx2] at this
  have hrange : ∀ c ∈ clients.filterMap id, c.1.length = d ∧ 1 ≤ cfg.histBuckets := by
    intro c hc
    simp only [List.mem_filterMap, id_eq, exists_eq_right] at hc
    obtain ⟨i, hi⟩ := List.getElem?_of_mem hc
    have hil := (List.getElem?_eq_some_iff.1 hi).1
    obtain ⟨-, -, hh, hlen, -⟩ := hp.2.2 i (some c) _ _ _ _ hi
      (List.getElem?_eq_getElem (hp.1 ▸ hil)) (List.getElem?_eq_getElem (hp.2.1 ▸ hil))
    obtain ⟨_, _, -, -, -, -, -, -, hbn⟩ := honestPair_facts hh
    exact ⟨hlen, by omega⟩
  obtain ⟨c, hc⟩ := List.exists_mem_of_ne_nil _ hne
  have hh2 : Spec.heavyPaths P cfg.histBuckets (max 1 cfg.threshold)
      (Spec.keyPairs (Spec.masked kcs.1.reportShares keep) (Spec.masked kcs.2.reportShares keep))
      (d - 2) ≠ [] := by
    obtain ⟨s, hs1, hs2⟩ := hheavy
    refine List.ne_nil_of_mem (a := s) (List.mem_filter.2 ⟨mem_allPaths.2 hs1, ?_⟩)
    by_cases hsne : s = []
    · subst hsne; simp [Spec.heavy]
    · have hh := heavy_clients (T := max 1 cfg.threshold) hF hlt hsne (by omega)
      have he : Spec.heavy P cfg.histBuckets (max 1 cfg.threshold)
          (Spec.keyPairs (Spec.masked kcs.1.reportShares keep) (Spec.masked kcs.2.reportShares keep)) s
          = Spec.heavy P cfg.histBuckets (max 1 cfg.threshold)
          (Spec.keyPairs (Spec.masked r0 keep) (Spec.masked r1 keep)) s := by
        unfold Spec.heavy
        rw [Bool.eq_iff_iff]
        simp only [List.all_eq_true, List.mem_inits]
        refine forall_congr' fun q => forall_congr' fun hq => ?_
        unfold Spec.countAt
        rw [tally_same hpairs (by have := hq.length_le; omega)]
      rw [he, hh, decide_eq_true_eq]
      exact hs2 hsne
  obtain ⟨out, o1, o2, o3, o4, -⟩ := (whh_decided (c0 := c0) (c1 := c1) (bld := bld) (cfg := cfg) hd hd2 hb
    (hrange c hc).2 hn0 hn1 h0 h1 hvk d0 d1 hl0 hl1 (wf hp.1 hs0 hw0) (wf hp.2.1 hs1 hw1) (keep := keep)
    (by simp [hkeep]) hdec hqi (.inr (by rw [hcnt]; exact hfew)) hinc).1 hh2
  refine ⟨out, o1, o2, o3, ?_⟩
  rw [o4, o2, o3]
  unfold resultsOf
  rw [List.map_map]
  rfl

/-- A toy run: client 1 is honest with string `10`, except that server 0's copy of its last-level correction seed
was replaced; client 2's FLP proof was tampered with.  Client 2 is excluded, and the run completes although
the last-level proofs of client 1 differ. -/
example : (do
    let r1 ← toyReport 2 [true, false] 1 0
    let r2 ← toyReport 2 [true, false] 0 1
    let kcs ← upload ⟨some 2, 2, 2, 2, 1, 1⟩ [r1, r2] (KeyCollection.new toy 2 0 (some 2) Block.zero,
      KeyCollection.new toy 2 1 (some 2) Block.zero) [(1, none), (2, some .flp)]
    let k0 := { kcs.1 with reportShares := kcs.1.reportShares.modify 0 (changeSeed 1) }
    let out ← runWhh (toyCfg 0 (some 2) .debug) (toyCfg 1 (some 2) .debug) .debug
      ⟨some 2, 2, 2, 2, 1, 1⟩ (k0, kcs.2) 2
    .ok (out.kcs.1.reportShares.map Prod.fst, out.results.map fun r => (r.path, r.value),
      out.kcs.1.finalProofs == out.kcs.2.finalProofs) : Exec _)
    = .ok ([true, false], [([true, false], [0, 1, 1])], false) := by decide +kernel

/-- With client 2 honest, the comparison notices. -/
example : (do
    let r1 ← toyReport 2 [true, false] 1 0
    let r2 ← toyReport 2 [true, false] 0 1
    let kcs ← upload ⟨some 2, 2, 2, 2, 1, 1⟩ [r1, r2] (KeyCollection.new toy 2 0 (some 2) Block.zero,
      KeyCollection.new toy 2 1 (some 2) Block.zero) [(1, none), (2, none)]
    let k0 := { kcs.1 with reportShares := kcs.1.reportShares.modify 0 (changeSeed 1) }
    let out ← runWhh (toyCfg 0 (some 2) .debug) (toyCfg 1 (some 2) .debug) .debug
      ⟨some 2, 2, 2, 2, 1, 1⟩ (k0, kcs.2) 2
    .ok (out.kcs.1.reportShares.map Prod.fst) : Exec _)
    = .error .assertion := by decide +kernel

end Mastic
