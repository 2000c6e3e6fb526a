import Verif.Props.Lengths
import Verif.Props.Certain
import Verif.Props.Libprio

/-!
# C112: which runs the frame limit of the transport allows
-/

namespace Mastic

variable {P : Prims} {X : Prio3Xof} {c0 c1 : ServerCfg} {bld : Build} {cfg : Config} {draw : MainDraw}
  {n d l v num : Nat} {clients : List (List Bool × Nat)} {buckets : List Nat} {n0 n1 : Net}

theorem driverMain_of_hears {mode : DriverMode} {kcs : Pair2 P} {sent : List (Req × Req)} {got : List (Resp × Resp)}
    {x : Shown} {t0 t1 : Server P}
    (h : Spec.Hears c0 c1 (mainP P bld cfg mode draw n) (.running kcs.1) (.running kcs.2) sent got x t0 t1) :
    ∃ out, driverMain c0 c1 bld cfg mode draw n kcs = .ok out ∧ x = out.shown := by
  obtain ⟨k, hk⟩ := hears_exec h
  obtain ⟨out, h1, h2⟩ := bind_eq_ok.1
    ((exec_main (c0 := c0) (c1 := c1) bld cfg mode draw n kcs x).1 (by rw [hk]; rfl))
  cases h2
  exact ⟨out, h1, rfl⟩

/-- **C112, weighted heavy hitters.**  A run that ends on values ends over the two connections, with the same result, if
all the lengths of C106 are within the frame limits; otherwise the driver panics. -/
theorem C112_whh (kcs : Pair2 P) (h : Spec.WhhRun P c0 c1 cfg draw n d clients)
    (hhon : ∀ i < n, (draw.picks i).2 ≠ some .flp)
    (hheavy : ∃ s : List Bool, s.length = d - 2 ∧
      (s ≠ [] → max 1 cfg.threshold ≤ clients.countP fun c => s.isPrefixOf c.1))
    (hl : Spec.ProofLen P cfg.histBuckets l) (hv : Spec.VerifierLen P cfg.histBuckets v)
    (hb : cfg.histBuckets < 2 ^ 64) (hl0 : n0.limit < 2 ^ 64) (hl1 : n1.limit < 2 ^ 64) {lens : List (Nat × Nat)}
    (hlens : lens = Spec.whhLens .varint cfg.histBuckets n d cfg.addBatch cfg.queryBatch l v
      fun m => (Spec.heavyAt (max 1 cfg.threshold) (clients.map fun c => some c.1) m).length) :
    ∃ out, driverMain c0 c1 bld cfg .weightedHeavyHitters draw n kcs = .ok out ∧
      (Spec.inFrames n0 lens ∧ Spec.inFrames n1 lens → ∃ t, (mainP P bld cfg .weightedHeavyHitters draw n).netRun n0 n1
        c0 c1 (.running kcs.1, .running kcs.2) = .ok (out.shown, t)) ∧
      (¬ (Spec.inFrames n0 lens ∧ Spec.inFrames n1 lens) → (mainP P bld cfg .weightedHeavyHitters draw n).netRun n0 n1
        c0 c1 (.running kcs.1, .running kcs.2) = .error .unwrap) := by
  obtain ⟨sent, got, results, printed, t0, t1, h1, h2, h3, h4⟩ := whh_conversation (bld := bld) .varint kcs h hhon hheavy
    hl hv
  obtain ⟨out, g1, g2⟩ := driverMain_of_hears h1
  have key := netRun_of_hears (n0 := n0) (n1 := n1) h1 hl0 hl1 (h2 hb) h3
  rw [h4, h4, ← hlens, g2] at key
  exact ⟨out, g1, fun h => ⟨_, key.1 h⟩, key.2⟩

/-- **C112, attribute-based metrics.** -/
theorem C112_abm (kcs : Pair2 P) (h : Spec.AttrRun P c0 c1 cfg draw n d num clients)
    (hl : Spec.ProofLen P cfg.histBuckets l) (hv : Spec.VerifierLen P cfg.histBuckets v)
    (hb : cfg.histBuckets < 2 ^ 64) (hn : n < 2 ^ 64) (hnum : num < 2 ^ 64) (hl0 : n0.limit < 2 ^ 64)
    (hl1 : n1.limit < 2 ^ 64) :
    ∃ attributes outs, driverMain c0 c1 bld cfg (.attributeBasedMetrics num) draw n kcs = .ok (.abm attributes outs) ∧
      attributes.length ≤ num ∧ ∀ lens, lens = Spec.abmLens .varint cfg.histBuckets n d cfg.addBatch cfg.queryBatch l v
        attributes.length →
      (Spec.inFrames n0 lens ∧ Spec.inFrames n1 lens → ∃ t, (mainP P bld cfg (.attributeBasedMetrics num) draw n).netRun n0
        n1 c0 c1 (.running kcs.1, .running kcs.2) = .ok (.abm attributes outs, t)) ∧
      (¬ (Spec.inFrames n0 lens ∧ Spec.inFrames n1 lens) → (mainP P bld cfg (.attributeBasedMetrics num) draw n).netRun n0
        n1 c0 c1 (.running kcs.1, .running kcs.2) = .error .unwrap) := by
  obtain ⟨sent, got, attributes, outs, t0, t1, h1, h2, h3, h5, h4⟩ := abm_conversation (bld := bld) .varint kcs h hl hv
  have hle : attributes.length ≤ num := by
    rw [h5, runAttributes, (draw.setOrder_perm _).length_eq]
    exact (List.dedup_sublist _).length_le.trans (by simp)
  obtain ⟨out, g1, g2⟩ := driverMain_of_hears h1
  have key := netRun_of_hears (n0 := n0) (n1 := n1) h1 hl0 hl1 (h2 hb hn (by omega)) h3
  rw [h4, h4] at key
  cases out with
  | abm a o =>
    cases g2
    exact ⟨_, _, g1, hle, fun lens hlens => by rw [hlens]; exact ⟨fun h => ⟨_, key.1 h⟩, key.2⟩⟩
  | whh _ => cases g2
  | pm _ => cases g2

/-- **C112, plain metrics.** -/
theorem C112_pm (kcs : Pair2 (P.withPrio3 X)) (h : Spec.PlainRun P X c0 c1 cfg draw n buckets) (hn : n < 2 ^ 64)
    (hl0 : n0.limit < 2 ^ 64) (hl1 : n1.limit < 2 ^ 64) {lens : Bool → List (Nat × Nat)}
    (hlens : lens = Spec.pmLens .varint cfg.histBuckets n cfg.addBatch cfg.queryBatch) :
    ∃ out, driverMain c0 c1 bld cfg .plainMetrics draw n kcs = .ok out ∧
      (Spec.inFrames n0 (lens false) ∧ Spec.inFrames n1 (lens true) → ∃ t, (mainP (P.withPrio3 X) bld cfg .plainMetrics draw
        n).netRun n0 n1 c0 c1 (.running kcs.1, .running kcs.2) = .ok (out.shown, t)) ∧
      (¬ (Spec.inFrames n0 (lens false) ∧ Spec.inFrames n1 (lens true)) → (mainP (P.withPrio3 X) bld cfg .plainMetrics draw
        n).netRun n0 n1 c0 c1 (.running kcs.1, .running kcs.2) = .error .unwrap) := by
  obtain ⟨sent, got, outs, t0, t1, h1, h2, h3, h4⟩ := pm_conversation (bld := bld) .varint kcs h
  obtain ⟨out, g1, g2⟩ := driverMain_of_hears h1
  have key := netRun_of_hears (n0 := n0) (n1 := n1) h1 hl0 hl1 (h2 hn) h3
  rw [h4, h4, ← hlens, g2] at key
  exact ⟨out, g1, fun h => ⟨_, key.1 h⟩, key.2⟩

/-! ### The files in `src/configs` -/

theorem intLen_le (k : Nat) : Spec.intLen .varint k ≤ 9 := by
  simp only [Spec.intLen]
  split_ifs <;> omega

theorem batches_le {n q : Nat} {r : Nat × Nat} (hr : r ∈ Spec.batches n q) : r.2 - r.1 ≤ q ∧ r.2 - r.1 ≤ n := by
  obtain ⟨k, -, rfl⟩ := List.mem_map.1 hr
  dsimp only
  omega

theorem first_batch {n q : Nat} (hn : 1 ≤ n) (hq : 1 ≤ q) : (0, min n q) ∈ Spec.batches n q := by
  refine List.mem_map.2 ⟨0, List.mem_range.2 ?_, by simp⟩
  exact Nat.div_pos (by omega) (by omega)

theorem vecLen_le {k m s : Nat} (h : k ≤ m) : Spec.vecLen .varint k s ≤ 9 + m * s := by
  have := intLen_le k
  have := Nat.mul_le_mul_right s h
  unfold Spec.vecLen
  omega

theorem le_vecLen {k m s : Nat} (h : m ≤ k) : m * s ≤ Spec.vecLen .varint k s := by
  have := Nat.mul_le_mul_right s h
  unfold Spec.vecLen
  omega

theorem inFrames_of_le {net : Net} (h : Spec.plainNet net) {lens : List (Nat × Nat)}
    (hx : ∀ x ∈ lens, x.1 ≤ 8387608 ∧ x.2 ≤ 8387608) : Spec.inFrames net lens := by
  intro x hxl
  obtain ⟨h1, h2, h3⟩ := h
  obtain ⟨h4, h5⟩ := hx x hxl
  rw [h1, maxFrame]
  omega

theorem not_inFrames {net : Net} (h : Spec.plainNet net) {lens : List (Nat × Nat)} {x : Nat × Nat} (hx : x ∈ lens)
    (hbig : 8388608 < x.2) : ¬ Spec.inFrames net lens := by
  intro hf
  have := (hf x hx).2
  rw [h.1, maxFrame] at this
  omega

theorem startLens_le {b n share : Nat} (hs : share ≤ 8000) :
    ∀ x ∈ Spec.startLens .varint b n 1000 share, x.1 ≤ 8387608 ∧ x.2 ≤ 8387608 := by
  intro x hx
  have hd : Spec.doneLen .varint = 6 := by decide
  rcases List.mem_cons.1 hx with rfl | hx
  · have := intLen_le b
    simp only [hd, Spec.tagLen]
    omega
  · obtain ⟨r, hr, rfl⟩ := List.mem_map.1 hx
    have h1 := vecLen_le (s := share) (batches_le hr).1
    simp only [hd, Spec.tagLen]
    omega

theorem masticLen_shipped (hl : l ≤ 100) : Spec.masticLen .varint 8 4 l ≤ 8000 := by
  have := intLen_le l
  have h1 : Spec.keyLen .varint 8 4 = 979 := by decide
  have h2 : Spec.fieldLen .varint = 17 := by decide
  simp only [Spec.masticLen, h1, h2, Spec.tagLen]
  omega

theorem heavy_shipped {T : Nat} {strings : List (Option (List Bool))} {m : Nat} (hm : m ≤ 8) :
    (Spec.heavyAt T strings m).length ≤ 256 :=
  (List.length_filter_le _ _).trans (by
    rw [allPaths_length]
    exact (Nat.pow_le_pow_right (by norm_num) hm).trans (by norm_num))

theorem whhLens_shipped {h : Nat → Nat} (hl : l ≤ 100) (hh : ∀ m ≤ 8, h m ≤ 256) (hn : n ≤ 81400) :
    ∀ x ∈ Spec.whhLens .varint 4 n 8 1000 100000 l 6 h, x.1 ≤ 8387608 ∧ x.2 ≤ 8387608 := by
  have hd : Spec.doneLen .varint = 6 := by decide
  have f5 : Spec.fieldsLen .varint 5 = 86 := by decide
  have f6 : Spec.fieldsLen .varint 6 = 103 := by decide
  have v8 : Spec.vecLen .varint 8 1 = 9 := by decide
  have r1 : Spec.vecLen .varint 1 (Spec.intLen .varint 16 + 16) = 18 := by decide
  have i0 : Spec.intLen .varint 0 = 1 := by decide
  have i1 : Spec.intLen .varint 1 = 1 := by decide
  have v1 : Spec.vecLen .varint 1 1 = 2 := by decide
  intro x hx
  simp only [Spec.whhLens, List.mem_append, List.mem_cons, List.mem_map, List.mem_flatMap, List.not_mem_nil, or_false,
    List.mem_range] at hx
  rcases hx with (((((((hx | rfl) | ⟨r, hr, rfl⟩) | rfl) | ⟨m, hm, rfl | rfl⟩) | rfl) | ⟨r, hr, rfl⟩) | rfl | rfl)
  · exact startLens_le (masticLen_shipped hl) x hx
  · simp only [hd, Spec.tagLen]; omega
  · have h1 := vecLen_le (s := 103) ((batches_le hr).2.trans hn)
    have := intLen_le r.1
    have := intLen_le r.2
    simp only [Spec.rangeLen, f6, Spec.tagLen]
    omega
  · have h1 := vecLen_le (s := 1) hn
    simp only [hd, Spec.tagLen]
    omega
  · have h1 := vecLen_le (s := 86) (Nat.mul_le_mul_left 2 (hh m (by omega)))
    simp only [Spec.tagLen, i0, i1, v1, r1, f5]
    omega
  · have h1 := vecLen_le (s := 1) (Nat.mul_le_mul_left 2 (hh m (by omega)))
    simp only [hd, Spec.tagLen]
    omega
  · have h1 := vecLen_le (s := 86) (Nat.mul_le_mul_left 2 (hh (8 - 1) (by omega)))
    simp only [Spec.tagLen, f5]
    omega
  · have h1 := vecLen_le (s := 16) ((batches_le hr).2.trans hn)
    have := intLen_le r.1
    have := intLen_le r.2
    simp only [Spec.rangeLen, Spec.tagLen]
    omega
  · have h1 := vecLen_le (s := 1) (Nat.mul_le_mul_left 2 (hh (8 - 1) (by omega)))
    simp only [hd, Spec.tagLen]
    omega
  · have h1 := vecLen_le (s := 95) (hh 8 le_rfl)
    simp only [Spec.tagLen, f5, v8, Nat.reduceAdd]
    omega

/-- **C112, `src/configs/weighted-heavy-hitters.toml`.**  With the file as it is, no tampered proofs and connections with
tokio's limit, a run with up to 81400 clients ends, whatever the strings; with 81443 clients or more it panics, because
the answers of the FLP phase do not fit into a frame. -/
theorem C112_shipped_whh (kcs : Pair2 P) (h : Spec.WhhRun P c0 c1 (fileWhh.toConfig n) draw n 8 clients)
    (hn : n < 2 ^ 53) (hhon : ∀ i < n, (draw.picks i).2 ≠ some .flp) (hl : Spec.ProofLen P 4 l) (hl' : l ≤ 100)
    (hv : Spec.VerifierLen P 4 6) (h0 : Spec.plainNet n0) (h1 : Spec.plainNet n1) :
    (n ≤ 81400 → ∃ out t, driverMain c0 c1 bld (fileWhh.toConfig n) .weightedHeavyHitters draw n kcs = .ok out ∧
      (mainP P bld (fileWhh.toConfig n) .weightedHeavyHitters draw n).netRun n0 n1 c0 c1 (.running kcs.1, .running kcs.2)
        = .ok (out.shown, t)) ∧
    (81443 ≤ n → (mainP P bld (fileWhh.toConfig n) .weightedHeavyHitters draw n).netRun n0 n1 c0 c1
      (.running kcs.1, .running kcs.2) = .error .unwrap) := by
  have hlim : ∀ {net : Net}, Spec.plainNet net → net.limit < 2 ^ 64 := fun h => by rw [h.1, maxFrame]; norm_num
  have hcn : clients.length = n := by
    rw [h.clients_eq, mainClients_honest hhon]
    simp [List.filterMap_map, Spec.runClients]
  have hn1 : 1 ≤ n := by
    have := List.length_pos_iff.2 h.nonempty
    omega
  have hroom : (max 1 (fileWhh.toConfig n).threshold - 1) * Spec.room (fileWhh.toConfig n).uniqueBuckets 8
      < clients.length := by
    have hT : (fileWhh.toConfig n).threshold = scaledThreshold (.fin (5764607523034235 / 2 ^ 59)) n := by
      rw [← round_hundredth]; rfl
    have hnq : (n : ℚ) < 2 ^ 53 := by exact_mod_cast hn
    have hn0 : (0 : ℚ) ≤ n := by positivity
    rw [hT, hcn]
    have hr : Spec.room (fileWhh.toConfig n).uniqueBuckets 8 = 64 := rfl
    rw [hr]
    refine room_of_fraction (by norm_num) hn ?_ hn1 (by norm_num) ?_
    · have : (5764607523034235 / 2 ^ 59 : ℚ) ≤ 1 := by norm_num
      nlinarith
    · have : (5764607523034235 / 2 ^ 59 : ℚ) * (64 : ℕ) ≤ 1 := by norm_num
      nlinarith
  obtain ⟨s, hs1, hs2⟩ := heavy_of_room h.clients_eq h.sensible.picks hroom
  obtain ⟨out, g1, g2, g3⟩ := C112_whh (bld := bld) (n0 := n0) (n1 := n1) kcs h hhon
    ⟨s, hs1, fun _ => by rw [List.countP_eq_length_filter]; exact hs2⟩ hl hv (by show 4 < 2 ^ 64; norm_num) (hlim h0)
    (hlim h1) rfl
  constructor
  · intro hle
    have hx := whhLens_shipped (n := n) hl' (fun m hm => heavy_shipped (T := max 1 (fileWhh.toConfig n).threshold)
      (strings := clients.map fun c => some c.1) hm) hle
    obtain ⟨t, ht⟩ := g2 ⟨inFrames_of_le h0 hx, inFrames_of_le h1 hx⟩
    exact ⟨out, t, g1, ht⟩
  · intro hge
    refine g3 fun hf => not_inFrames h0 (x := (Spec.rangeLen .varint (0, min n 100000),
      Spec.tagLen .varint + Spec.vecLen .varint (min n 100000 - 0) (Spec.fieldsLen .varint 6))) ?_ ?_ hf.1
    · simp only [Spec.whhLens, List.mem_append]
      exact .inl (.inl (.inl (.inl (.inl (.inr (List.mem_map.2 ⟨(0, min n 100000), first_batch (q := 100000) hn1 (by norm_num), rfl⟩))))))
    · have f6 : Spec.fieldsLen .varint 6 = 103 := by decide
      have := le_vecLen (m := 81443) (k := min n 100000 - 0) (s := 103) (by omega)
      simp only [f6, Spec.tagLen]
      omega

/-- **C112, `src/configs/attribute-based-metrics.toml`.**  Up to 62100 clients without tampered proofs the run ends, from
62138 clients on it panics. -/
theorem C112_shipped_abm (kcs : Pair2 P) (h : Spec.AttrRun P c0 c1 (fileAbm.toConfig n) draw n 8 10 clients)
    (hn : n < 2 ^ 64) (hl : Spec.ProofLen P 4 l) (hl' : l ≤ 100) (hv : Spec.VerifierLen P 4 6) (h0 : Spec.plainNet n0)
    (h1 : Spec.plainNet n1) :
    (n ≤ 62100 → ∃ out t, driverMain c0 c1 bld (fileAbm.toConfig n) (.attributeBasedMetrics 10) draw n kcs = .ok out ∧
      (mainP P bld (fileAbm.toConfig n) (.attributeBasedMetrics 10) draw n).netRun n0 n1 c0 c1
        (.running kcs.1, .running kcs.2) = .ok (out.shown, t)) ∧
    (62138 ≤ n → (mainP P bld (fileAbm.toConfig n) (.attributeBasedMetrics 10) draw n).netRun n0 n1 c0 c1
      (.running kcs.1, .running kcs.2) = .error .unwrap) := by
  have hlim : ∀ {net : Net}, Spec.plainNet net → net.limit < 2 ^ 64 := fun h => by rw [h.1, maxFrame]; norm_num
  obtain ⟨attributes, outs, g1, g4, g⟩ := C112_abm (bld := bld) (n0 := n0) (n1 := n1) kcs h hl hv
    (by show 4 < 2 ^ 64; norm_num) hn (by norm_num) (hlim h0) (hlim h1)
  obtain ⟨g2, g3⟩ := g _ rfl
  have f4 : Spec.fieldsLen .varint 4 = 69 := by decide
  have f6 : Spec.fieldsLen .varint 6 = 103 := by decide
  have v8 : Spec.vecLen .varint 8 1 = 9 := by decide
  have i0 : Spec.intLen .varint 0 = 1 := by decide
  constructor
  · intro hle
    have hx : ∀ x ∈ Spec.abmLens .varint 4 n 8 1000 100000 l 6 attributes.length, x.1 ≤ 8387608 ∧ x.2 ≤ 8387608 := by
      intro x hx
      simp only [Spec.abmLens, List.mem_append, List.mem_cons, List.mem_flatMap, List.not_mem_nil, or_false] at hx
      rcases hx with hx | ⟨r, hr, rfl | rfl⟩
      · exact startLens_le (masticLen_shipped hl') x hx
      · have := vecLen_le (s := 135) ((batches_le hr).2.trans hle)
        have := vecLen_le (s := 9) g4
        have := intLen_le r.1
        have := intLen_le r.2
        simp only [f6, v8, Spec.tagLen, Nat.reduceAdd]
        omega
      · have := vecLen_le (s := 69) g4
        have := intLen_le attributes.length
        have := intLen_le r.1
        have := intLen_le r.2
        simp only [f4, i0, Spec.tagLen]
        omega
    obtain ⟨t, ht⟩ := g2 ⟨inFrames_of_le h0 hx, inFrames_of_le h1 hx⟩
    exact ⟨_, t, g1, ht⟩
  · intro hge
    refine g3 fun hf => not_inFrames h0 (x := (Spec.tagLen .varint + (Spec.vecLen .varint attributes.length
      (Spec.vecLen .varint 8 1) + (Spec.intLen .varint 0 + Spec.intLen .varint (min n 100000))),
      Spec.tagLen .varint + Spec.vecLen .varint (min n 100000 - 0) (Spec.fieldsLen .varint 6 + 32))) ?_ ?_ hf.1
    · refine List.mem_append.2 (.inr (List.mem_flatMap.2 ⟨(0, min n 100000), first_batch (q := 100000) (by omega) (by norm_num), ?_⟩))
      exact List.mem_cons_self
    · have := le_vecLen (m := 62138) (k := min n 100000 - 0) (s := 135) (by omega)
      simp only [f6, Spec.tagLen, Nat.reduceAdd]
      omega

/-- **C112, `src/configs/plain-metrics.toml`.**  Up to 74200 clients without tampered reports the run ends, from 74236
clients on it panics. -/
theorem C112_shipped_pm (kcs : Pair2 (P.withPrio3 X)) (h : Spec.PlainRun P X c0 c1 (filePm.toConfig n) draw n buckets)
    (hn : n < 2 ^ 64) (h0 : Spec.plainNet n0) (h1 : Spec.plainNet n1) :
    (n ≤ 74200 → ∃ out t, driverMain c0 c1 bld (filePm.toConfig n) .plainMetrics draw n kcs = .ok out ∧
      (mainP (P.withPrio3 X) bld (filePm.toConfig n) .plainMetrics draw n).netRun n0 n1 c0 c1
        (.running kcs.1, .running kcs.2) = .ok (out.shown, t)) ∧
    (74236 ≤ n → (mainP (P.withPrio3 X) bld (filePm.toConfig n) .plainMetrics draw n).netRun n0 n1 c0 c1
      (.running kcs.1, .running kcs.2) = .error .unwrap) := by
  have hlim : ∀ {net : Net}, Spec.plainNet net → net.limit < 2 ^ 64 := fun h => by rw [h.1, maxFrame]; norm_num
  obtain ⟨out, g1, g2, g3⟩ := C112_pm (bld := bld) (n0 := n0) (n1 := n1) kcs h hn (hlim h0) (hlim h1) rfl
  have f4 : Spec.fieldsLen .varint 4 = 69 := by decide
  have i0 : Spec.intLen .varint 0 = 1 := by decide
  have p4 : Spec.vecLen .varint (Spec.prepLen 4) 1 = 113 := by decide +kernel
  have s4 : ∀ own, Spec.prio3Len .varint 4 own ≤ 8000 := by decide +kernel
  constructor
  · intro hle
    have hx : ∀ own, ∀ x ∈ Spec.pmLens .varint 4 n 1000 100000 own, x.1 ≤ 8387608 ∧ x.2 ≤ 8387608 := by
      intro own x hx
      simp only [Spec.pmLens, List.mem_append, List.mem_cons, List.mem_flatMap, List.not_mem_nil, or_false] at hx
      rcases hx with hx | ⟨r, hr, rfl | rfl⟩
      · exact startLens_le (s4 own) x hx
      · have := vecLen_le (s := 113) ((batches_le hr).2.trans hle)
        have := intLen_le r.1
        have := intLen_le r.2
        simp only [p4, Spec.rangeLen, Spec.tagLen]
        omega
      · have := vecLen_le (s := 113) ((batches_le hr).2.trans hle)
        have := intLen_le r.1
        have := intLen_le r.2
        simp only [p4, f4, i0, Spec.tagLen]
        omega
    obtain ⟨t, ht⟩ := g2 ⟨inFrames_of_le h0 (hx false), inFrames_of_le h1 (hx true)⟩
    exact ⟨_, t, g1, ht⟩
  · intro hge
    refine g3 fun hf => not_inFrames h0 (x := (Spec.rangeLen .varint (0, min n 100000),
      Spec.tagLen .varint + Spec.vecLen .varint (min n 100000 - 0) (Spec.vecLen .varint (Spec.prepLen 4) 1))) ?_ ?_ hf.1
    · refine List.mem_append.2 (.inr (List.mem_flatMap.2 ⟨(0, min n 100000), first_batch (q := 100000) (by omega) (by norm_num), ?_⟩))
      exact List.mem_cons_self
    · have := le_vecLen (m := 74236) (k := min n 100000 - 0) (s := 113) (by omega)
      simp only [p4, Spec.tagLen]
      omega

/-- libprio's histograms with 4 buckets meet the conditions on lengths. -/
theorem shipped_lengths : Spec.ProofLen P.withHistogram 4 11 ∧ Spec.VerifierLen P.withHistogram 4 6 := by
  have h := C81_lengths (P := P) 4
  have : 4 + (2 * (Spec.points 4 2 - 1) + 1) = 11 := by decide +kernel
  rwa [this] at h

/-! Examples -/

theorem toy_shippedRun {n : Nat} (hn : 1 ≤ n) (hlt : n < 2 ^ 64) {pick : Nat → Nat} {bits : Nat → Nat → Bool}
    (hp : ∀ i < n, 1 ≤ pick i ∧ pick i ≤ 1000) : Spec.WhhRun toy (toyCfg 0 (some 8) .debug) (toyCfg 1 (some 8) .release)
    (fileWhh.toConfig n) (Spec.population toyDraw pick bits) n 8
    ((Spec.mainClients 4 8 (Spec.population toyDraw pick bits) n).filterMap id) where
  sensible := toy_whh_sensible (by decide) (by decide) (by decide) (by decide) hp
  proves := toy_proves
  bits := rfl
  bits0 := rfl
  bits1 := rfl
  two := by decide
  id0 := rfl
  id1 := by decide
  complete := fun _ _ => toy_flpComplete _ _
  rejected := by intro i nonce ks p0 ps p jr alpha _ h; cases h
  clients_eq := rfl
  nonempty := by
    intro h
    have := population_length (b := 4) (d := 8) (n := n) (draw := toyDraw) (pick := pick) (bits := bits)
    rw [h] at this
    simp at this
    omega
  small := hlt

/-- The shipped file, a proof system with verifiers of the right length, and arbitrary strings: 80000 clients are not too
many, 100000 are. -/
example (pick : Nat → Nat) (bits : Nat → Nat → Bool) (hp : ∀ i, 1 ≤ pick i ∧ pick i ≤ 1000) (kcs : Pair2 toy) :
    (∃ x t, (mainP toy .debug (fileWhh.toConfig 80000) .weightedHeavyHitters (Spec.population toyDraw pick bits)
      80000).netRun ⟨60, 20, maxFrame⟩ ⟨60, 20, maxFrame⟩ (toyCfg 0 (some 8) .debug) (toyCfg 1 (some 8) .release)
      (.running kcs.1, .running kcs.2) = .ok (x, t)) ∧
    (mainP toy .debug (fileWhh.toConfig 100000) .weightedHeavyHitters (Spec.population toyDraw pick bits) 100000).netRun
      ⟨60, 20, maxFrame⟩ ⟨60, 20, maxFrame⟩ (toyCfg 0 (some 8) .debug) (toyCfg 1 (some 8) .release)
      (.running kcs.1, .running kcs.2) = .error .unwrap := by
  have hnet : Spec.plainNet ⟨60, 20, maxFrame⟩ := ⟨rfl, by decide, by decide⟩
  have key : ∀ n, 1 ≤ n → n < 2 ^ 53 → _ := fun n h1 h2 => C112_shipped_whh (bld := .debug) (n0 := ⟨60, 20, maxFrame⟩)
    (n1 := ⟨60, 20, maxFrame⟩) kcs (toy_shippedRun (n := n) (bits := bits) h1 (by omega) fun i _ => hp i) h2
    (fun _ _ => by simp [Spec.population]) (toy_proofLen 4) (by decide) (toy_verifierLen 4) hnet hnet
  constructor
  · obtain ⟨out, t, -, h⟩ := (key 80000 (by norm_num) (by norm_num)).1 (by norm_num)
    exact ⟨_, t, h⟩
  · exact (key 100000 (by norm_num) (by norm_num)).2 (by norm_num)

/-- Attribute-based metrics with the shipped file, attributes number 0 to 9. -/
example (pick : Nat → Nat) (bits : Nat → Nat → Bool) (hp : ∀ i, 1 ≤ pick i ∧ pick i ≤ 1000) (kcs : Pair2 toy)
    {draw : MainDraw} (hdraw : draw = { Spec.population toyDraw pick bits with attributes := fun j => j }) :
    (∃ x t, (mainP toy .debug (fileAbm.toConfig 62000) (.attributeBasedMetrics 10) draw 62000).netRun ⟨60, 20, maxFrame⟩
      ⟨60, 20, maxFrame⟩ (toyCfg 0 (some 8) .debug) (toyCfg 1 (some 8) .release) (.running kcs.1, .running kcs.2)
      = .ok (x, t)) ∧
    (mainP toy .debug (fileAbm.toConfig 80000) (.attributeBasedMetrics 10) draw 80000).netRun ⟨60, 20, maxFrame⟩
      ⟨60, 20, maxFrame⟩ (toyCfg 0 (some 8) .debug) (toyCfg 1 (some 8) .release) (.running kcs.1, .running kcs.2)
      = .error .unwrap := by
  subst hdraw
  have hnet : Spec.plainNet ⟨60, 20, maxFrame⟩ := ⟨rfl, by decide, by decide⟩
  have hrun : ∀ n, 1 ≤ n → n < 2 ^ 53 → Spec.AttrRun toy (toyCfg 0 (some 8) .debug) (toyCfg 1 (some 8) .release)
      (fileAbm.toConfig n) { Spec.population toyDraw pick bits with attributes := fun j => j } n 8 10 _ := fun n h1 h2 =>
    { sensible := ⟨rfl, rfl, rfl, show 1 ≤ 4 by norm_num, show 1 ≤ 1000 by norm_num, show 1 ≤ 1000 by norm_num,
        show 1 ≤ 100000 by norm_num, fun i _ => hp i⟩
      proves := toy_proves
      bits := rfl
      one := by decide
      id0 := rfl
      id1 := by decide
      complete := fun _ _ => toy_flpComplete _ _
      honest := fun _ _ => by simp [Spec.population]
      samples := fun j hj => show j < 1000 by omega
      clients_eq := rfl
      nonempty := h1
      small := by unfold fieldModulus; omega }
  have key : ∀ n, 1 ≤ n → n < 2 ^ 53 → _ := fun n h1 h2 => C112_shipped_abm (bld := .debug) (n0 := ⟨60, 20, maxFrame⟩)
    (n1 := ⟨60, 20, maxFrame⟩) kcs (hrun n h1 h2) (by omega) (toy_proofLen 4) (by decide) (toy_verifierLen 4) hnet hnet
  constructor
  · obtain ⟨out, t, -, h⟩ := (key 62000 (by norm_num) (by norm_num)).1 (by norm_num)
    exact ⟨_, t, h⟩
  · exact (key 80000 (by norm_num) (by norm_num)).2 (by norm_num)

/-- Plain metrics with the shipped file. -/
example (pick : Nat → Nat) (hp : ∀ i, 1 ≤ pick i ∧ pick i ≤ 1000) (kcs : Pair2 (toy.withPrio3 toyXof)) {draw : MainDraw}
    (hdraw : draw = { toyPlainDraw with picks := fun i => (pick i, none) }) :
    (∃ x t, (mainP (toy.withPrio3 toyXof) .debug (filePm.toConfig 74000) .plainMetrics draw 74000).netRun
      ⟨60, 20, maxFrame⟩ ⟨60, 20, maxFrame⟩ (toyCfg 0 none .debug) (toyCfg 1 none .release)
      (.running kcs.1, .running kcs.2) = .ok (x, t)) ∧
    (mainP (toy.withPrio3 toyXof) .debug (filePm.toConfig 80000) .plainMetrics draw 80000).netRun
      ⟨60, 20, maxFrame⟩ ⟨60, 20, maxFrame⟩ (toyCfg 0 none .debug) (toyCfg 1 none .release)
      (.running kcs.1, .running kcs.2) = .error .unwrap := by
  subst hdraw
  have hnet : Spec.plainNet ⟨60, 20, maxFrame⟩ := ⟨rfl, by decide, by decide⟩
  have hrun : ∀ n, n < 2 ^ 53 → Spec.PlainRun toy toyXof (toyCfg 0 none .debug) (toyCfg 1 none .release)
      (filePm.toConfig n) { toyPlainDraw with picks := fun i => (pick i, none) } n _ := fun n h =>
    { sensible := ⟨rfl, rfl, rfl, show 1 ≤ 4 by norm_num, show 1 ≤ 1000 by norm_num, show 1 ≤ 1000 by norm_num,
        show 1 ≤ 100000 by norm_num, fun i _ => hp i⟩
      prio3 := rfl
      buckets_lt := show 4 < 2 ^ 64 by norm_num
      query := fun i _ => show (3 : Field128) ^ Spec.points 4 (Spec.chunk 4) ≠ 1 by decide +kernel
      id0 := rfl
      id1 := rfl
      small := by unfold fieldModulus; omega
      honest := fun _ _ => rfl
      buckets_eq := rfl }
  have key : ∀ n, n < 2 ^ 53 → _ := fun n h => C112_shipped_pm (bld := .debug) (n0 := ⟨60, 20, maxFrame⟩)
    (n1 := ⟨60, 20, maxFrame⟩) kcs (hrun n h) (by omega) hnet hnet
  constructor
  · obtain ⟨out, t, -, h⟩ := (key 74000 (by norm_num)).1 (by norm_num)
    exact ⟨_, t, h⟩
  · exact (key 80000 (by norm_num)).2 (by norm_num)

end Mastic
