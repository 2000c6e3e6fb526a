import Verif.Lemmas.Serve
import Verif.Props.Whh

/-!
# C60: driver phases are request scripts
-/

namespace Mastic

variable {P : Prims}

/-- **C60.** Reset and upload: each completed phase of the driver is a script of matching requests to the two
servers, every one of them answered, that leads to the states the driver model computes. -/
theorem C60_setup {c0 c1 : ServerCfg} {cfg : Config} {kcs kcs1 kcs2 : Pair2 P} {vk : Block}
    {reports : List PlaintextReport} {picks : List (Nat × Option Tamper)}
    (h1 : resetServers c0 c1 cfg kcs vk = .ok kcs1) (h2 : upload cfg reports kcs1 picks = .ok kcs2) :
    Spec.Serves P c0 c1 (fun r => r = .reset vk cfg.histBuckets) kcs kcs1 ∧
    Spec.Serves P c0 c1 (fun r => ∃ rs, r = .addReportShares rs) kcs1 kcs2 :=
  ⟨serves_reset h1, serves_upload h2⟩

/-- **C60.** The same for a completed weighted-heavy-hitters run: only tree, FLP, proof and share requests. -/
theorem C60_whh {c0 c1 : ServerCfg} {bld : Build} {cfg : Config} {kcs : Pair2 P} {n : Nat} {out : WhhOut P}
    (h : runWhh c0 c1 bld cfg kcs n = .ok out) : Spec.Serves P c0 c1 Spec.isWhh kcs out.kcs :=
  serves_whh h

/-- **C60.** The same for a completed attribute-based-metrics run. -/
theorem C60_abm {c0 c1 : ServerCfg} {cfg : Config} {kcs kcs' : Pair2 P} {attributes : List (List Bool)}
    {n : Nat} {outs : List AbmOut} (h : runAbm c0 c1 cfg kcs attributes n = .ok (kcs', outs)) :
    Spec.Serves P c0 c1 Spec.isAbm kcs kcs' :=
  serves_abm h

/-- **C60.** The same for a completed plain-metrics run. -/
theorem C60_pm {c0 c1 : ServerCfg} {cfg : Config} {kcs kcs' : Pair2 P}
    {n : Nat} {outs : List PmOut} (h : runPm c0 c1 cfg kcs n = .ok (kcs', outs)) :
    Spec.Serves P c0 c1 Spec.isPm kcs kcs' :=
  serves_pm h

/-- **C60.** The same for everything before the last level of a weighted-heavy-hitters run (initialisation and
`m` levels). -/
theorem C60_before_last {c0 c1 : ServerCfg} {bld : Build} {cfg : Config} {kcs kcs1 kcs2 : Pair2 P} {n m : Nat}
    (h1 : driverTreeInit kcs = .ok kcs1)
    (h2 : foldE (levelStep c0 c1 bld cfg n) kcs1 (List.range m) = .ok kcs2) :
    Spec.Serves P c0 c1 Spec.isWhh kcs kcs2 :=
  Serves.trans (serves_treeInit h1) (serves_levels _ h2)

/-- **C60.** So what is proved of every reachable server state holds of the states of a driver run: scripts
lead from reachable states to reachable states. -/
theorem C60_reachable {c0 c1 : ServerCfg} {Q : Req → Prop} {b0 b1 : Nat} {kcs kcs' : Pair2 P}
    (h : Spec.Serves P c0 c1 Q kcs kcs') (h0 : Spec.Reachable P c0 b0 kcs.1)
    (h1 : Spec.Reachable P c1 b1 kcs.2) :
    Spec.Reachable P c0 b0 kcs'.1 ∧ Spec.Reachable P c1 b1 kcs'.2 :=
  Serves.reachable h h0 h1

/-- A complete toy session from the start of the servers: reset, upload of three clients' reports, run.  All
states are reachable and linked by scripts, and the run finds the string two clients hold. -/
theorem toy_session : ∃ (kcs : Pair2 toy) (out : WhhOut toy),
    Spec.Reachable toy (toyCfg 0 (some 2) .debug) 1 kcs.1 ∧ Spec.Reachable toy (toyCfg 1 (some 2) .debug) 1 kcs.2 ∧
    runWhh (toyCfg 0 (some 2) .debug) (toyCfg 1 (some 2) .debug) .debug ⟨some 2, 2, 1, 2, 1, 2⟩ kcs 3
      = .ok out ∧
    out.results.map (fun r => (r.path, r.value)) = [([true, false], [0, 2, 2])] ∧
    (∀ r ∈ out.kcs.1.reportShares, r.1 = true) ∧ ∀ r ∈ out.kcs.2.reportShares, r.1 = true := by
  obtain ⟨r1, e1⟩ := toy_gen_ok (n := 2) (bucket := 1) (by omega) [true, false] (toyRand 0)
  obtain ⟨r2, e2⟩ := toy_gen_ok (n := 2) (bucket := 0) (by omega) [false, false] (toyRand 1)
  set s0 : Pair2 toy := (KeyCollection.new toy 1 0 (some 2) Block.zero,
    KeyCollection.new toy 1 1 (some 2) Block.zero) with hs0
  obtain ⟨kcs1, hr⟩ : ∃ k, resetServers (toyCfg 0 (some 2) .debug) (toyCfg 1 (some 2) .debug)
      ⟨some 2, 2, 1, 2, 1, 2⟩ s0 Block.zero = .ok k := ⟨_, rfl⟩
  obtain ⟨kcs2, out, g1, g2, g3, g4, g5⟩ := C26_from_reset (P := toy) (bld := .debug) (vk := Block.zero)
    (c0 := toyCfg 0 (some 2) .debug) (c1 := toyCfg 1 (some 2) .debug) (cfg := ⟨some 2, 2, 1, 2, 1, 2⟩)
    (kcs := s0)
    (reports := [r1, r2]) (strings := [([true, false], 1), ([false, false], 0)]) (samples := [1, 2, 1])
    (d := 2) rfl rfl rfl le_rfl (by decide) (by decide) rfl (by decide) hr
    (.cons ⟨_, e1⟩ (.cons ⟨_, e2⟩ .nil)) (by decide) (fun _ => toy_flpComplete _ _) (by simp) (by decide)
    (by decide +kernel)
  obtain ⟨q1, q2⟩ := C60_setup hr g1
  obtain ⟨a0, a1⟩ := C60_reachable (b0 := 1) (b1 := 1) q1 ⟨[], rfl⟩ ⟨[], rfl⟩
  obtain ⟨b0, b1⟩ := C60_reachable q2 a0 a1
  refine ⟨kcs2, out, b0, b1, g2, g3.trans ?_, g4, g5⟩
  decide +kernel

example : ∃ (kcs : Pair2 toy) (out : WhhOut toy),
    Spec.Serves toy (toyCfg 0 (some 2) .debug) (toyCfg 1 (some 2) .debug) Spec.isWhh kcs out.kcs ∧
    out.results.map HHResult.path = [[true, false]] := by
  obtain ⟨kcs, out, -, -, h, h', -⟩ := toy_session
  refine ⟨kcs, out, C60_whh h, ?_⟩
  have := congrArg (List.map Prod.fst) h'
  simpa [List.map_map, Function.comp_def] using this

end Mastic
