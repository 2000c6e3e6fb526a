import Verif.Lemmas.Certain
import Verif.Lemmas.Float
import Verif.Model.Configs
import Mathlib.Data.Nat.Cast.Order.Field

/-!
# C111: configurations with which no population makes a weighted-heavy-hitters run panic
-/

namespace Mastic

variable {P : Prims} {c0 c1 : ServerCfg} {bld : Build}

section
variable {cfg : Config} {draw : MainDraw} {n d : Nat} {kcs : Pair2 P}

/-- **C111.**  If the clients with untampered proofs are more than `threshold - 1` per prefix of length `d - 2` that the
generated strings can have, the run comes to its end and finds exactly the heavy hitters, whatever strings were drawn. -/
theorem C111_enough (hs : Spec.Sensible P cfg draw n) (hprove : Spec.Proves P cfg draw)
    (hd : cfg.dataBits = some d) (hs0 : c0.dataBits = some d) (hs1 : c1.dataBits = some d) (hd2 : 2 ≤ d)
    (h0 : c0.serverId = 0) (h1 : c1.serverId ≠ 0)
    (hcomp : ∀ i < n, Spec.FlpCompleteAt P cfg.histBuckets (P.xofField draw.verifyKey
      (Spec.MainDraw.of draw i).rand.nonce.toList (P.queryRandLen cfg.histBuckets)))
    (hrej : Spec.BumpsRejected P cfg.histBuckets d c0.serverId c1.serverId draw n)
    {clients : List (List Bool × Nat)}
    (hcl : clients = (Spec.mainClients cfg.histBuckets d draw n).filterMap id) (hlt : n < 2 ^ 64)
    (hroom : (max 1 cfg.threshold - 1) * Spec.room cfg.uniqueBuckets d < clients.length) :
    ∃ out, driverMain c0 c1 bld cfg .weightedHeavyHitters draw n kcs = .ok (.whh out) ∧
      out.results.map (fun r => (r.path, r.value))
        = Spec.heavyHitters cfg.histBuckets (max 1 cfg.threshold) d clients := by
  have hne : clients ≠ [] := by rintro rfl; simp at hroom
  obtain ⟨out, g1, g2, -⟩ := (C62_weighted_heavy_hitters (P := P) (c0 := c0) (c1 := c1) (bld := bld) (cfg := cfg)
    (draw := draw) (n := n) (d := d) (kcs := kcs) hs hprove hd hs0 hs1 hd2 h0 h1 hcomp hrej hcl hne hlt).1
    (.inr (heavy_of_room hcl hs.picks hroom))
  exact ⟨out, g1, g2⟩

theorem population_sensible (hs : Spec.Sensible P cfg draw n) {pick : Nat → Nat} {bits : Nat → Nat → Bool}
    (hp : ∀ i < n, 1 ≤ pick i ∧ pick i ≤ cfg.uniqueBuckets) : Spec.Sensible P cfg (Spec.population draw pick bits) n :=
  ⟨hs.malicious, hs.zipf, hs.hist, hs.buckets, hs.unique, hs.addBatch, hs.queryBatch, hp⟩

theorem population_length {b : Nat} {pick : Nat → Nat} {bits : Nat → Nat → Bool} :
    ((Spec.mainClients b d (Spec.population draw pick bits) n).filterMap id).length = n := by
  rw [mainClients_untampered, List.length_map, List.filter_eq_self.2, List.length_range]
  exact fun i _ => rfl

/-- **C111, the other populations.**  With fewer honest clients there are strings and choices of reports that make the run
panic: nothing else about the run has to change. -/
theorem C111_panics (hs : Spec.Sensible P cfg draw n) (hprove : Spec.Proves P cfg draw)
    (hd : cfg.dataBits = some d) (hs0 : c0.dataBits = some d) (hs1 : c1.dataBits = some d) (hd3 : 3 ≤ d)
    (h0 : c0.serverId = 0) (h1 : c1.serverId ≠ 0)
    (hcomp : ∀ j < cfg.uniqueBuckets, Spec.FlpCompleteAt P cfg.histBuckets (P.xofField draw.verifyKey
      (draw.reports j).rand.nonce.toList (P.queryRandLen cfg.histBuckets)))
    (hn : 1 ≤ n) (hlt : n < 2 ^ 64)
    (hroom : n ≤ (max 1 cfg.threshold - 1) * Spec.room cfg.uniqueBuckets d) :
    ∃ (pick : Nat → Nat) (bits : Nat → Nat → Bool), (∀ i < n, 1 ≤ pick i ∧ pick i ≤ cfg.uniqueBuckets) ∧
      driverMain c0 c1 bld cfg .weightedHeavyHitters (Spec.population draw pick bits) n kcs = .error .index := by
  have hK : 0 < Spec.room cfg.uniqueBuckets d := lt_min hs.unique (by positivity)
  have hp : ∀ i < n, 1 ≤ i % Spec.room cfg.uniqueBuckets d + 1 ∧
      i % Spec.room cfg.uniqueBuckets d + 1 ≤ cfg.uniqueBuckets := fun i _ =>
    ⟨by omega, (Nat.mod_lt i hK).trans_le (min_le_left _ _)⟩
  refine ⟨_, fun j k => j.testBit k, hp, ?_⟩
  refine (C62_weighted_heavy_hitters (P := P) (c0 := c0) (c1 := c1) (bld := bld) (cfg := cfg)
    (draw := Spec.population draw _ fun j k => j.testBit k) (n := n) (d := d) (kcs := kcs) (population_sensible hs hp) hprove hd hs0 hs1
    (by omega) h0 h1 ?_ ?_ rfl ?_ hlt).2 ?_ hd3
  · intro i hi
    have := hp i hi
    exact hcomp _ (by show i % _ + 1 - 1 < _; omega)
  · intro i nonce ks p0 ps p jr alpha _ h
    cases h
  · intro h
    have := population_length (b := cfg.histBuckets) (d := d) (n := n) (draw := draw)
      (pick := fun i => i % Spec.room cfg.uniqueBuckets d + 1) (bits := fun j k => j.testBit k)
    rw [h] at this
    simp at this
    omega
  · exact fun s hsl => spread_light hs.unique rfl hroom (le_max_left _ _) s hsl

/-- **C111, exactly.**  No population of `n` honest clients makes the run panic if and only if `n` exceeds
`threshold - 1` times the number of prefixes of length `d - 2` that the generated strings can have. -/
theorem C111_exact (hs : Spec.Sensible P cfg draw n) (hprove : Spec.Proves P cfg draw)
    (hd : cfg.dataBits = some d) (hs0 : c0.dataBits = some d) (hs1 : c1.dataBits = some d) (hd3 : 3 ≤ d)
    (h0 : c0.serverId = 0) (h1 : c1.serverId ≠ 0)
    (hcomp : ∀ j < cfg.uniqueBuckets, Spec.FlpCompleteAt P cfg.histBuckets (P.xofField draw.verifyKey
      (draw.reports j).rand.nonce.toList (P.queryRandLen cfg.histBuckets)))
    (hn : 1 ≤ n) (hlt : n < 2 ^ 64) :
    (∀ (pick : Nat → Nat) (bits : Nat → Nat → Bool), (∀ i < n, 1 ≤ pick i ∧ pick i ≤ cfg.uniqueBuckets) →
      ∃ out, driverMain c0 c1 bld cfg .weightedHeavyHitters (Spec.population draw pick bits) n kcs = .ok out) ↔
    (max 1 cfg.threshold - 1) * Spec.room cfg.uniqueBuckets d < n := by
  constructor
  · intro h
    by_contra hc
    obtain ⟨pick, bits, hp, he⟩ := C111_panics (bld := bld) (kcs := kcs) hs hprove hd hs0 hs1 hd3 h0 h1 hcomp hn hlt
      (not_lt.1 hc)
    obtain ⟨out, ho⟩ := h pick bits hp
    rw [he] at ho
    cases ho
  · intro h pick bits hp
    obtain ⟨out, g, -⟩ := C111_enough (P := P) (c0 := c0) (c1 := c1) (bld := bld) (cfg := cfg)
      (draw := Spec.population draw pick bits) (n := n) (d := d) (kcs := kcs) (population_sensible hs hp) hprove hd hs0 hs1
      (by omega) h0 h1 (fun i hi => by
        have := hp i hi
        exact hcomp _ (by show pick i - 1 < _; omega))
      (by intro i nonce ks p0 ps p jr alpha _ h; cases h) rfl hlt (by rw [population_length]; exact h)
    exact ⟨_, g⟩

end

/-! ### The configuration files -/

section
variable {c : FileConfig} {draw : MainDraw} {n d : Nat} {kcs : Pair2 P}

/-- A fraction `q` and enough untampered clients: `q` times the number of prefixes, of all clients. -/
theorem room_of_fraction {q : ℚ} {n m K : Nat} (hq : 0 ≤ q) (hn : n < 2 ^ 53) (hq53 : q * n < 2 ^ 53) (hm : 1 ≤ m)
    (hK : 0 < K) (h : q * K * n ≤ m) : (max 1 (scaledThreshold (.fin q) n) - 1) * K < m := by
  obtain ⟨-, b2⟩ := scaledThreshold_between hq hn hq53
  generalize scaledThreshold (.fin q) n = T at *
  by_cases hT : T ≤ 1
  · rw [max_eq_left hT]; omega
  · rw [max_eq_right (by omega)]
    have h1 : ((T : ℤ) : ℚ) < q * n + 1 := lt_of_le_of_lt (by exact_mod_cast b2) (Int.ceil_lt_add_one _)
    have h2 : ((T - 1 : ℕ) : ℚ) < q * n := by
      rw [Nat.cast_sub (by omega)]
      push_cast at h1 ⊢
      linarith
    have hK' : (0 : ℚ) < K := by exact_mod_cast hK
    have h3 : (((T - 1) * K : ℕ) : ℚ) < m := by
      push_cast
      calc ((T - 1 : ℕ) : ℚ) * K < q * n * K := mul_lt_mul_of_pos_right h2 hK'
        _ = q * K * n := by ring
        _ ≤ m := h
    exact_mod_cast h3

/-- **C111, thresholds in a file.**  With a threshold `q`, the run ends whatever the strings if the clients with untampered
proofs are at least the fraction `q` times the number of possible prefixes. -/
theorem C111_fraction {q : ℚ} (hmode : c.mode = .weightedHeavyHitters (.fin q)) (hq : 0 ≤ q)
    (hn : n < 2 ^ 53) (hq53 : q * n < 2 ^ 53) (hs : Spec.Sensible P (c.toConfig n) draw n)
    (hprove : Spec.Proves P (c.toConfig n) draw) (hd : c.dataBits = some d) (hs0 : c0.dataBits = some d)
    (hs1 : c1.dataBits = some d) (hd2 : 2 ≤ d) (h0 : c0.serverId = 0) (h1 : c1.serverId ≠ 0)
    (hcomp : ∀ i < n, Spec.FlpCompleteAt P c.histBuckets (P.xofField draw.verifyKey
      (Spec.MainDraw.of draw i).rand.nonce.toList (P.queryRandLen c.histBuckets)))
    (hrej : Spec.BumpsRejected P c.histBuckets d c0.serverId c1.serverId draw n)
    {clients : List (List Bool × Nat)}
    (hcl : clients = (Spec.mainClients c.histBuckets d draw n).filterMap id) (hne : clients ≠ [])
    (hm : q * Spec.room c.uniqueBuckets d * n ≤ clients.length) :
    ∃ out, driverMain c0 c1 bld (c.toConfig n) c.mode.toDriverMode draw n kcs = .ok (.whh out) ∧
      out.results.map (fun r => (r.path, r.value))
        = Spec.heavyHitters c.histBuckets (max 1 (scaledThreshold (.fin q) n)) d clients := by
  have hT : (c.toConfig n).threshold = scaledThreshold (.fin q) n := by simp [FileConfig.toConfig, hmode]
  have hmd : c.mode.toDriverMode = .weightedHeavyHitters := by rw [hmode]; rfl
  rw [hmd, ← hT]
  refine C111_enough (P := P) (cfg := c.toConfig n) hs hprove hd hs0 hs1 hd2 h0 h1 hcomp hrej hcl (by omega) ?_
  rw [hT]
  exact room_of_fraction hq hn hq53 (List.length_pos_iff.2 hne) (lt_min hs.unique (by positivity)) hm

/-- `0.01` as an `f64`. -/
theorem round_hundredth : F64.round (1 / 100) = .fin (5764607523034235 / 2 ^ 59) := by decide +kernel

/-- **C111, `src/configs/weighted-heavy-hitters.toml`.**  With the file as it is and any number of clients, at most 35% of
whom tamper with their proofs, the run ends and finds the heavy hitters, whatever strings are drawn. -/
theorem C111_shipped (hn : n < 2 ^ 53) (hs : Spec.Sensible P (fileWhh.toConfig n) draw n)
    (hprove : Spec.Proves P (fileWhh.toConfig n) draw) (hs0 : c0.dataBits = some 8)
    (hs1 : c1.dataBits = some 8) (h0 : c0.serverId = 0) (h1 : c1.serverId ≠ 0)
    (hcomp : ∀ i < n, Spec.FlpCompleteAt P 4 (P.xofField draw.verifyKey
      (Spec.MainDraw.of draw i).rand.nonce.toList (P.queryRandLen 4)))
    (hrej : Spec.BumpsRejected P 4 8 c0.serverId c1.serverId draw n)
    {clients : List (List Bool × Nat)}
    (hcl : clients = (Spec.mainClients 4 8 draw n).filterMap id) (hne : clients ≠ [])
    (hm : 65 * n ≤ 100 * clients.length) :
    ∃ out, driverMain c0 c1 bld (fileWhh.toConfig n) .weightedHeavyHitters draw n kcs = .ok (.whh out) ∧
      out.results.map (fun r => (r.path, r.value))
        = Spec.heavyHitters 4 (max 1 (scaledThreshold (F64.round (1 / 100)) n)) 8 clients := by
  have hmode : fileWhh.mode = .weightedHeavyHitters (.fin (5764607523034235 / 2 ^ 59)) := by
    rw [← round_hundredth]; rfl
  have hnq : (n : ℚ) < 2 ^ 53 := by exact_mod_cast hn
  have hn0 : (0 : ℚ) ≤ n := by positivity
  rw [round_hundredth]
  refine C111_fraction (P := P) (c := fileWhh) (d := 8) hmode (by norm_num) hn ?_ hs hprove rfl hs0 hs1 (by norm_num) h0 h1
    hcomp hrej hcl hne ?_
  · have : (5764607523034235 / 2 ^ 59 : ℚ) ≤ 1 := by norm_num
    nlinarith
  · have hr : Spec.room fileWhh.uniqueBuckets 8 = 64 := rfl
    rw [hr]
    have hmq : (65 : ℚ) * n ≤ 100 * clients.length := by exact_mod_cast hm
    have : (5764607523034235 / 2 ^ 59 : ℚ) * (64 : ℕ) ≤ 65 / 100 := by norm_num
    nlinarith

theorem artifactWhh_facts : ∀ c ∈ artifactWhh, c.mode = .weightedHeavyHitters (F64.round (1 / 100)) ∧
    c.uniqueBuckets = 1000 ∧ ∃ d, c.dataBits = some d ∧ 64 ≤ d := by
  simp only [artifactWhh, List.forall_mem_cons]
  repeat' apply And.intro
  all_goals first
    | rfl
    | exact ⟨_, rfl, by norm_num⟩
    | simp

theorem hundredth_table : ∀ n < 200, scaledThreshold (F64.round (1 / 100)) n ≤ 1 := by decide +kernel

theorem hundredth_ge {n : Nat} (hn : n < 2 ^ 53) : n / 100 ≤ scaledThreshold (F64.round (1 / 100)) n := by
  have hnq : (n : ℚ) < 2 ^ 53 := by exact_mod_cast hn
  have hn0 : (0 : ℚ) ≤ n := by positivity
  rw [round_hundredth]
  obtain ⟨b1, -⟩ := scaledThreshold_between (q := 5764607523034235 / 2 ^ 59) (n := n) (by norm_num) hn (by
    have : (5764607523034235 / 2 ^ 59 : ℚ) ≤ 1 := by norm_num
    nlinarith)
  have : ((n / 100 : ℕ) : ℤ) ≤ ⌊(5764607523034235 / 2 ^ 59 : ℚ) * n⌋ := by
    rw [Int.le_floor]
    have h1 : (((n / 100 : ℕ) : ℤ) : ℚ) ≤ n / 100 := by
      have := Nat.cast_div_le (α := ℚ) (m := n) (n := 100)
      exact_mod_cast this
    have h2 : (1 / 100 : ℚ) ≤ 5764607523034235 / 2 ^ 59 := by norm_num
    nlinarith
  omega

/-- **C111, the artifact's files.**  With the weighted-heavy-hitters files of `artifact/configs` no population of fewer than
200 honest clients makes the run panic, and for every number of clients from 200 on there is one that does. -/
theorem C111_artifact (hc : c ∈ artifactWhh) (hd : c.dataBits = some d) (hn : 1 ≤ n) (hlt : n < 2 ^ 53)
    (hs : Spec.Sensible P (c.toConfig n) draw n) (hprove : Spec.Proves P (c.toConfig n) draw)
    (hs0 : c0.dataBits = some d) (hs1 : c1.dataBits = some d) (h0 : c0.serverId = 0) (h1 : c1.serverId ≠ 0)
    (hcomp : ∀ j < 1000, Spec.FlpCompleteAt P c.histBuckets (P.xofField draw.verifyKey
      (draw.reports j).rand.nonce.toList (P.queryRandLen c.histBuckets))) :
    (∀ (pick : Nat → Nat) (bits : Nat → Nat → Bool), (∀ i < n, 1 ≤ pick i ∧ pick i ≤ 1000) →
      ∃ out, driverMain c0 c1 bld (c.toConfig n) .weightedHeavyHitters (Spec.population draw pick bits) n kcs = .ok out) ↔
    n < 200 := by
  obtain ⟨hmode, hu, d', hd', h64⟩ := artifactWhh_facts c hc
  rw [hd] at hd'
  cases hd'
  have hT : (c.toConfig n).threshold = scaledThreshold (F64.round (1 / 100)) n := by simp [FileConfig.toConfig, hmode]
  have hu' : (c.toConfig n).uniqueBuckets = 1000 := hu
  have key := C111_exact (P := P) (c0 := c0) (c1 := c1) (bld := bld) (cfg := c.toConfig n) (draw := draw) (n := n) (d := d)
    (kcs := kcs) hs hprove hd hs0 hs1 (by omega) h0 h1 (by rw [hu']; exact hcomp) hn (by omega)
  rw [hu', hT] at key
  rw [key]
  have hroom : Spec.room 1000 d = 1000 := by
    unfold Spec.room
    refine min_eq_left ((by norm_num : 1000 ≤ 2 ^ 62).trans (Nat.pow_le_pow_right (by norm_num) (by omega)))
  rw [hroom]
  have hge := hundredth_ge hlt
  have htab := hundredth_table n
  clear key
  generalize scaledThreshold (F64.round (1 / 100)) n = T at *
  constructor
  · intro h
    by_contra hc
    have h2 : 2 ≤ n / 100 := by omega
    omega
  · intro h
    have := htab h
    rw [max_eq_left this, Nat.sub_self, Nat.zero_mul]
    exact hn

end

/-! Examples -/

theorem toy_whh_sensible {c : FileConfig} {n : Nat} (hb : 1 ≤ c.histBuckets) (hu : 1 ≤ c.uniqueBuckets) (ha : 1 ≤ c.addBatch)
    (hq : 1 ≤ c.queryBatch) {pick : Nat → Nat} {bits : Nat → Nat → Bool}
    (hp : ∀ i < n, 1 ≤ pick i ∧ pick i ≤ c.uniqueBuckets) :
    Spec.Sensible toy (c.toConfig n) (Spec.population toyDraw pick bits) n :=
  ⟨rfl, rfl, decide_eq_true hb, hb, hu, ha, hq, hp⟩

/-- `-n 100` with the shipped file, everybody with the report of a random number: the hypotheses of `C111_shipped` -/
example (pick : Nat → Nat) (bits : Nat → Nat → Bool) (hp : ∀ i < 100, 1 ≤ pick i ∧ pick i ≤ 1000) (kcs : Pair2 toy) :
    ∃ out, driverMain (toyCfg 0 (some 8) .debug) (toyCfg 1 (some 8) .release) .debug (fileWhh.toConfig 100)
      .weightedHeavyHitters (Spec.population toyDraw pick bits) 100 kcs = .ok (.whh out) ∧
      out.results.map (fun r => (r.path, r.value))
        = Spec.heavyHitters 4 1 8 ((Spec.mainClients 4 8 (Spec.population toyDraw pick bits) 100).filterMap id) := by
  have hlen := population_length (b := 4) (d := 8) (n := 100) (draw := toyDraw) (pick := pick) (bits := bits)
  obtain ⟨out, g1, g2⟩ := C111_shipped (P := toy) (n := 100) (draw := Spec.population toyDraw pick bits)
    (c0 := toyCfg 0 (some 8) .debug) (c1 := toyCfg 1 (some 8) .release) (bld := .debug) (kcs := kcs) (by norm_num)
    (toy_whh_sensible (by decide) (by decide) (by decide) (by decide) hp) toy_proves rfl rfl rfl (by decide)
    (fun _ _ => toy_flpComplete _ _) (by intro i nonce ks p0 ps p jr alpha _ h; cases h) rfl
    (by intro h; rw [h] at hlen; simp at hlen) (by rw [hlen]; norm_num)
  have hT : max 1 (scaledThreshold (F64.round (1 / 100)) 100) = 1 := by decide +kernel
  rw [hT] at g2
  exact ⟨out, g1, g2⟩

/-- 200 clients and the file of figure 4 with one bucket: some population makes the run panic -/
example (kcs : Pair2 toy) : ¬ ∀ (pick : Nat → Nat) (bits : Nat → Nat → Bool), (∀ i < 200, 1 ≤ pick i ∧ pick i ≤ 1000) →
    ∃ out, driverMain (toyCfg 0 (some 256) .debug) (toyCfg 1 (some 256) .release) .debug (fig4Masticm1.toConfig 200)
      .weightedHeavyHitters (Spec.population (Spec.population toyDraw (fun _ => 1) fun _ _ => true) pick bits) 200 kcs
        = .ok out := by
  rw [C111_artifact (P := toy) (c := fig4Masticm1) (d := 256) (n := 200) (by simp [artifactWhh]) rfl (by norm_num)
    (by norm_num) (toy_whh_sensible (by decide) (by decide) (by decide) (by decide) fun _ _ => ⟨le_rfl, by decide⟩)
    toy_proves rfl rfl rfl (by decide) (fun _ _ => toy_flpComplete _ _)]
  norm_num

end Mastic
