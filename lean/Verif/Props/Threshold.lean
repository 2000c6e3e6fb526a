import Verif.Lemmas.Float
import Verif.Props.Startup

/-!
# C69: the configured threshold is a fraction of the clients
-/

namespace Mastic

variable {P : Prims}

/-- C69. The threshold computed in floating point is the fraction of the clients, rounded down or up. -/
theorem C69_between {q : ℚ} {n : Nat} (h0 : 0 ≤ q) (hn : n < 2 ^ 53) (h : q * n < 2 ^ 53) :
    (scaledThreshold (.fin q) n : ℤ) = ⌊q * n⌋ ∨ (scaledThreshold (.fin q) n : ℤ) = ⌈q * n⌉ := by
  obtain ⟨h1, h2⟩ := scaledThreshold_between h0 hn h
  have : ⌈q * n⌉ ≤ ⌊q * n⌋ + 1 := Int.ceil_le_floor_add_one _
  omega

/-- both cases occur, the lower one also when the decimal product is a whole number -/
example : scaledThreshold (F64.round (1 / 100)) 150 = 1 ∧ scaledThreshold (F64.round (29 / 100)) 100 = 28 ∧
    scaledThreshold (.fin (1 / 3)) 3 = 1 := by decide +kernel

/-- C69. Thresholds that are no positive number: not a number and negative ones count as zero; infinity
saturates. -/
theorem C69_special (n : Nat) :
    scaledThreshold .nan n = 0 ∧ (n < 2 ^ 53 → ∀ q : ℚ, q ≤ 0 → scaledThreshold (.fin q) n = 0) ∧
    (n < 2 ^ 53 → scaledThreshold (.inf true) n = 0) ∧
    (0 < n → n < 2 ^ 53 → scaledThreshold (.inf false) n = 2 ^ 64 - 1) := by
  refine ⟨?_, fun hn q hq => ?_, fun hn => ?_, fun h0 hn => ?_⟩
  · unfold scaledThreshold F64.mul
    split <;> simp_all [F64.toU64]
  · unfold scaledThreshold
    rw [F64_ofNat_exact hn]
    simp only [F64.mul]
    have hp : q * n ≤ 0 := mul_nonpos_of_nonpos_of_nonneg hq (by positivity)
    have hpos : ∀ x : ℚ, 0 ≤ x → 0 ≤ roundPos x := by
      intro x hx
      unfold roundPos
      split
      · exact le_rfl
      have h2 : (0 : ℚ) < ulpAt x := zpow_pos (by norm_num) _
      have h1 := roundEven_mono (a := ((0 : ℤ) : ℚ)) (b := x / ulpAt x) (by push_cast; exact div_nonneg hx h2.le)
      rw [roundEven_int] at h1
      have : (0 : ℚ) ≤ roundEven (x / ulpAt x) := by exact_mod_cast h1
      positivity
    unfold F64.round
    split
    · split
      · rfl
      · simp only [F64.toU64]
        have := hpos (-(q * n)) (by linarith)
        have : ⌊-roundPos (-(q * n))⌋ ≤ 0 := Int.floor_nonpos (by linarith)
        omega
    · have : q * n = 0 := by linarith
      rw [this, roundPos, if_pos rfl, if_neg (not_le.2 (by positivity))]
      simp [F64.toU64]
  · unfold scaledThreshold
    rw [F64_ofNat_exact hn]
    simp only [F64.mul]
    split
    · rfl
    · have : ¬ ((n : ℚ) < 0) := by simp
      simp [this, F64.toU64]
  · unfold scaledThreshold
    rw [F64_ofNat_exact hn]
    simp only [F64.mul]
    rw [if_neg (by positivity)]
    have : ¬ ((n : ℚ) < 0) := by simp
    simp [this, F64.toU64]

section
variable {c0 c1 : ServerCfg} {bld : Build} {c : FileConfig} {draw : MainDraw} {n d : Nat} {kcs : Pair2 P} {t : F64}
  {out : WhhOut P}

/-- A run that ends printed the heavy hitters for the effective threshold. -/
theorem whh_results (hmode : c.mode = .weightedHeavyHitters t) (hs : Spec.Sensible P (c.toConfig n) draw n)
    (hprove : Spec.Proves P (c.toConfig n) draw) (hd : c.dataBits = some d) (hs0 : c0.dataBits = some d)
    (hs1 : c1.dataBits = some d) (hd2 : 2 ≤ d) (h0 : c0.serverId = 0) (h1 : c1.serverId ≠ 0)
    (hcomp : ∀ i < n, Spec.FlpCompleteAt P c.histBuckets (P.xofField draw.verifyKey
      (Spec.MainDraw.of draw i).rand.nonce.toList (P.queryRandLen c.histBuckets)))
    (hrej : Spec.BumpsRejected P c.histBuckets d c0.serverId c1.serverId draw n)
    {clients : List (List Bool × Nat)}
    (hcl : clients = (Spec.mainClients c.histBuckets d draw n).filterMap id) (hne : clients ≠ []) (hlt : n < 2 ^ 64)
    (hout : driverMain c0 c1 bld (c.toConfig n) c.mode.toDriverMode draw n kcs = .ok (.whh out)) (s : List Bool) :
    s ∈ out.results.map (·.path) ↔
      s.length = d ∧ max 1 (scaledThreshold t n) ≤ clients.countP fun c => c.1 == s := by
  have hT : (c.toConfig n).threshold = scaledThreshold t n := by simp [FileConfig.toConfig, hmode]
  have hm : c.mode.toDriverMode = .weightedHeavyHitters := by rw [hmode]; rfl
  rw [hm] at hout
  obtain ⟨w1, w2⟩ := C62_weighted_heavy_hitters (P := P) (c0 := c0) (c1 := c1) (bld := bld) (cfg := c.toConfig n)
    (draw := draw) (n := n) (d := d) (kcs := kcs) hs hprove hd hs0 hs1 hd2 h0 h1 hcomp hrej hcl hne hlt
  have hres : out.results.map (fun r => (r.path, r.value))
      = Spec.heavyHitters c.histBuckets (max 1 (scaledThreshold t n)) d clients := by
    by_cases hex : d = 2 ∨ ∃ s : List Bool, s.length = d - 2 ∧
        max 1 (c.toConfig n).threshold ≤ (clients.filter fun c => s.isPrefixOf c.1).length
    · obtain ⟨out', g1, g2, -⟩ := w1 hex
      rw [g1] at hout
      cases hout
      rw [hT] at g2
      exact g2
    · have := w2 (fun s hsl => by
        by_contra h
        exact hex (.inr ⟨s, hsl, not_lt.1 h⟩)) (by
        by_contra h
        exact hex (.inl (by omega)))
      rw [this] at hout
      cases hout
  have : out.results.map (·.path) = (out.results.map (fun r => (r.path, r.value))).map Prod.fst := by
    rw [List.map_map]; rfl
  rw [this, hres]
  unfold Spec.heavyHitters
  rw [List.map_map]
  constructor
  · intro h
    obtain ⟨s', h', e⟩ := List.mem_map.1 h
    have e' : s' = s := e
    subst e'
    obtain ⟨a, b⟩ := List.mem_filter.1 h'
    exact ⟨mem_allPaths.1 a, of_decide_eq_true b⟩
  · rintro ⟨a, b⟩
    exact List.mem_map.2 ⟨s, List.mem_filter.2 ⟨mem_allPaths.2 a, decide_eq_true b⟩, rfl⟩

/-- **C69, what does hold.**  A run with threshold `q` reports every string that at least the fraction `q` of all clients
hold (and somebody holds), and only strings whose number of holders reaches the fraction rounded down.  Missing: the
strings between the fraction rounded down and the fraction itself. -/
theorem C69_fraction_partial {q : ℚ} (hmode : c.mode = .weightedHeavyHitters (.fin q)) (hq : 0 ≤ q)
    (hq53 : q * n < 2 ^ 53) (hn : n < 2 ^ 53)
    (hs : Spec.Sensible P (c.toConfig n) draw n)
    (hprove : Spec.Proves P (c.toConfig n) draw) (hd : c.dataBits = some d) (hs0 : c0.dataBits = some d)
    (hs1 : c1.dataBits = some d) (hd2 : 2 ≤ d) (h0 : c0.serverId = 0) (h1 : c1.serverId ≠ 0)
    (hcomp : ∀ i < n, Spec.FlpCompleteAt P c.histBuckets (P.xofField draw.verifyKey
      (Spec.MainDraw.of draw i).rand.nonce.toList (P.queryRandLen c.histBuckets)))
    (hrej : Spec.BumpsRejected P c.histBuckets d c0.serverId c1.serverId draw n)
    {clients : List (List Bool × Nat)}
    (hcl : clients = (Spec.mainClients c.histBuckets d draw n).filterMap id) (hne : clients ≠ [])
    (hout : driverMain c0 c1 bld (c.toConfig n) c.mode.toDriverMode draw n kcs = .ok (.whh out)) (s : List Bool) :
    (s.length = d → 1 ≤ clients.countP (fun c => c.1 == s) → q * n ≤ (clients.countP fun c => c.1 == s : ℕ) →
      s ∈ out.results.map (·.path)) ∧
    (s ∈ out.results.map (·.path) → s.length = d ∧ 1 ≤ clients.countP (fun c => c.1 == s) ∧
      q * n < (clients.countP fun c => c.1 == s : ℕ) + 1) := by
  have key := whh_results hmode hs hprove hd hs0 hs1 hd2 h0 h1 hcomp hrej hcl hne (by omega) hout s
  obtain ⟨b1, b2⟩ := scaledThreshold_between hq hn hq53
  generalize hk : (clients.countP fun c => c.1 == s) = k at *
  constructor
  · intro hl hk1 hge
    refine key.2 ⟨hl, max_le hk1 ?_⟩
    have : ⌈q * n⌉ ≤ (k : ℤ) := Int.ceil_le.2 (by exact_mod_cast hge)
    omega
  · intro hm
    obtain ⟨hl, hge⟩ := key.1 hm
    refine ⟨hl, by omega, ?_⟩
    have : ⌊q * n⌋ ≤ (k : ℤ) := by omega
    have h2 : q * n < ⌊q * n⌋ + 1 := Int.lt_floor_add_one _
    have h3 : ((⌊q * n⌋ : ℤ) : ℚ) ≤ k := by exact_mod_cast this
    linarith

/-- **C69 fails.**  With the threshold one half and an odd number of clients, a string that fewer than half of the
clients hold is reported. -/
theorem C69_false_below (hmode : c.mode = .weightedHeavyHitters (.fin (1 / 2))) (hn : n < 2 ^ 53)
    (hodd : n % 2 = 1) (hs : Spec.Sensible P (c.toConfig n) draw n)
    (hprove : Spec.Proves P (c.toConfig n) draw) (hd : c.dataBits = some d) (hs0 : c0.dataBits = some d)
    (hs1 : c1.dataBits = some d) (hd2 : 2 ≤ d) (h0 : c0.serverId = 0) (h1 : c1.serverId ≠ 0)
    (hcomp : ∀ i < n, Spec.FlpCompleteAt P c.histBuckets (P.xofField draw.verifyKey
      (Spec.MainDraw.of draw i).rand.nonce.toList (P.queryRandLen c.histBuckets)))
    (hrej : Spec.BumpsRejected P c.histBuckets d c0.serverId c1.serverId draw n)
    {clients : List (List Bool × Nat)}
    (hcl : clients = (Spec.mainClients c.histBuckets d draw n).filterMap id) (hne : clients ≠ [])
    {s : List Bool} (hsl : s.length = d) (hcount : 1 ≤ clients.countP (fun c => c.1 == s))
    (hhalf : 2 * clients.countP (fun c => c.1 == s) + 1 = n) :
    ∃ out : WhhOut P, driverMain c0 c1 bld (c.toConfig n) c.mode.toDriverMode draw n kcs = .ok (.whh out) ∧
      s ∈ out.results.map (·.path) ∧ ((clients.countP fun c => c.1 == s : ℕ) : ℚ) < 1 / 2 * n := by
  have hT : (c.toConfig n).threshold = n / 2 := by
    simp only [FileConfig.toConfig, hmode, scaledThreshold_half hn]
  have hm : c.mode.toDriverMode = .weightedHeavyHitters := by rw [hmode]; rfl
  obtain ⟨w1, -⟩ := C62_weighted_heavy_hitters (P := P) (c0 := c0) (c1 := c1) (bld := bld) (cfg := c.toConfig n)
    (draw := draw) (n := n) (d := d) (kcs := kcs) hs hprove hd hs0 hs1 hd2 h0 h1 hcomp hrej hcl hne (by omega)
  obtain ⟨out, g1, -⟩ := w1 (.inr ⟨s.take (d - 2), by simp [hsl], by
    rw [hT, ← List.countP_eq_length_filter]
    have : clients.countP (fun c => c.1 == s) ≤ clients.countP fun c => (s.take (d - 2)).isPrefixOf c.1 := by
      refine List.countP_mono_left fun x _ hx => ?_
      have hx : x.1 = s := by simpa using hx
      rw [hx]
      simpa using List.take_prefix _ _
    omega⟩)
  have hrun : driverMain c0 c1 bld (c.toConfig n) c.mode.toDriverMode draw n kcs = .ok (.whh out) := by
    rw [hm]; exact g1
  refine ⟨out, hrun, (whh_results hmode hs hprove hd hs0 hs1 hd2 h0 h1 hcomp hrej hcl hne (by omega) hrun s).2
    ⟨hsl, ?_⟩, ?_⟩
  · rw [scaledThreshold_half hn]; omega
  · have : (n : ℚ) = 2 * (clients.countP fun c => c.1 == s : ℕ) + 1 := by exact_mod_cast hhalf.symm
    rw [this]; linarith

end

/-- `toyFile` with the threshold one half. -/
def halfFile : FileConfig := { toyFile with mode := .weightedHeavyHitters (.fin (1 / 2)) }

/-- Three clients with threshold one half; the string of the third one is reported although only a third of the
clients hold it. -/
def halfDraw : MainDraw :=
  { toyDraw with picks := fun i => if i = 2 then (1, none) else (2, none) }

theorem half_sensible : Spec.Sensible toy (halfFile.toConfig 3) halfDraw 3 :=
  ⟨rfl, rfl, rfl, by decide, by decide, by decide, by decide, by decide⟩

theorem half_bumps : Spec.BumpsRejected toy 2 2 0 1 halfDraw 3 := by
  intro i nonce ks p0 ps p jr alpha hi ht hg
  exfalso
  simp only [halfDraw] at ht
  split at ht <;> cases ht

example (kcs : Pair2 toy) : ∃ out : WhhOut toy,
    driverMain (toyCfg 0 (some 2) .debug) (toyCfg 1 (some 2) .release) .debug (halfFile.toConfig 3)
      .weightedHeavyHitters halfDraw 3 kcs = .ok (.whh out) ∧ [false, false] ∈ out.results.map (·.path) := by
  obtain ⟨out, h1, h2, -⟩ := C69_false_below (P := toy) (c0 := toyCfg 0 (some 2) .debug)
    (c1 := toyCfg 1 (some 2) .release) (bld := .debug) (c := halfFile) (draw := halfDraw) (n := 3) (d := 2)
    (kcs := kcs) rfl (by decide) rfl half_sensible toy_proves rfl rfl rfl le_rfl rfl (by decide)
    (fun _ _ => toy_flpComplete _ _) half_bumps rfl (by decide) (s := [false, false]) rfl (by decide) (by decide)
  exact ⟨out, h1, h2⟩

/-- The hypotheses of `C69_fraction_partial`: the string `10` of two of the three clients. -/
example (kcs : Pair2 toy) (out : WhhOut toy)
    (h : driverMain (toyCfg 0 (some 2) .debug) (toyCfg 1 (some 2) .release) .debug (halfFile.toConfig 3)
      .weightedHeavyHitters halfDraw 3 kcs = .ok (.whh out)) : [true, false] ∈ out.results.map (·.path) :=
  (C69_fraction_partial (P := toy) (c := halfFile) rfl (by norm_num) (by norm_num) (by decide) half_sensible
    toy_proves rfl rfl rfl le_rfl rfl (by decide) (fun _ _ => toy_flpComplete _ _) half_bumps rfl (by decide) h
    [true, false]).1 rfl (by decide) (by
      have : ((Spec.mainClients 2 2 halfDraw 3).filterMap id).countP (fun c => c.1 == [true, false]) = 2 := by decide
      show (1 / 2 : ℚ) * (3 : ℕ) ≤ (((Spec.mainClients 2 2 halfDraw 3).filterMap id).countP
        (fun c => c.1 == [true, false]) : ℕ)
      rw [this]; norm_num)

end Mastic
