import Verif.Props.Frames
import Verif.Spec.Batches

/-!
# C113: whether smaller batches make a run possible

artifact/README.md:324-336 says that runs which crash because of the sizes of the messages "can be simply resolved by
reducing the batch sizes".
-/

namespace Mastic

variable {P : Prims} {X : Prio3Xof} {c0 c1 : ServerCfg} {bld : Build} {cfg : Config} {draw : MainDraw}
  {n d l v num : Nat} {clients : List (List Bool × Nat)} {buckets : List Nat} {n0 n1 : Net}

theorem plainNet_limit {net : Net} (h : Spec.plainNet net) : net.limit < 2 ^ 64 := by
  rw [h.1, maxFrame]
  norm_num

/-- Different prefixes of one length belong to different clients. -/
theorem heavyAt_mul_le {T : Nat} (hT : 1 ≤ T) (strings : List (List Bool)) {m H : Nat} (hH : strings.length ≤ T * H)
    (hH1 : 1 ≤ H) : (Spec.heavyAt T (strings.map some) m).length ≤ H := by
  rcases Nat.eq_zero_or_pos m with rfl | hm
  · exact (List.length_filter_le _ _).trans (by rw [allPaths_length]; simpa using hH1)
  · have hnd : (Spec.heavyAt T (strings.map some) m).Nodup := (allPaths_nodup m).filter _
    have hmem : ∀ p ∈ Spec.heavyAt T (strings.map some) m, T ≤ strings.countP fun s => s.take m = p := by
      intro p hp
      obtain ⟨h1, h2⟩ := List.mem_filter.1 hp
      have hlen : p.length = m := mem_allPaths.1 h1
      have hne : p.isEmpty = false := by
        cases p with
        | nil => simp at hlen; omega
        | cons a p => rfl
      simp only [hne, Bool.false_or, decide_eq_true_eq, Spec.countOf, List.countP_map] at h2
      refine h2.trans (List.countP_mono_left fun s _ hs => ?_)
      have := isPrefixOf_iff_take.1 (show p.isPrefixOf s = true from hs)
      rw [hlen] at this
      simpa using this
    have hsum := sum_countP_fibres (fun s : List Bool => s.take m)
      ((strings.map fun s => s.take m).toFinset ∪ (Spec.heavyAt T (strings.map some) m).toFinset) strings fun a ha => by
        simp only [Finset.mem_union, List.mem_toFinset, List.mem_map]
        exact .inl ⟨a, ha, rfl⟩
    have h1 : ∑ p ∈ (Spec.heavyAt T (strings.map some) m).toFinset, T
        ≤ ∑ p ∈ (Spec.heavyAt T (strings.map some) m).toFinset, strings.countP (fun s => s.take m = p) :=
      Finset.sum_le_sum fun p hp => hmem p (List.mem_toFinset.1 hp)
    have h2 := h1.trans (Finset.sum_le_sum_of_subset (Finset.subset_union_right
      (s₁ := (strings.map fun s => s.take m).toFinset)))
    rw [hsum, Finset.sum_const, List.toFinset_card_of_nodup hnd, smul_eq_mul, Nat.mul_comm] at h2
    exact Nat.le_of_mul_le_mul_left (h2.trans hH) hT

theorem startLens_fit {b n add share : Nat} (hs : add * share ≤ 8387500) :
    ∀ x ∈ Spec.startLens .varint b n add share, x.1 ≤ 8387608 ∧ x.2 ≤ 8387608 := by
  intro x hx
  have hd : Spec.doneLen .varint = 6 := by decide
  rcases List.mem_cons.1 hx with rfl | hx
  · have := intLen_le b
    simp only [hd, Spec.tagLen]
    omega
  · obtain ⟨r, hr, rfl⟩ := List.mem_map.1 hx
    have h1 := vecLen_le (s := share) (batches_le hr).1
    simp only [hd, Spec.tagLen]
    omega

theorem whhLens_fit {b add q H : Nat} {h : Nat → Nat} (ha : add * Spec.masticLen .varint d b l ≤ 8387500)
    (hq : min n q * Spec.fieldsLen .varint v ≤ 8387500) (hq' : min n q ≤ 500000) (hn : n ≤ 8387500) (hh : ∀ m, h m ≤ H)
    (hH : H * (2 * (Spec.fieldsLen .varint (b + 1) + d + 9)) ≤ 8387500) :
    ∀ x ∈ Spec.whhLens .varint b n d add q l v h, x.1 ≤ 8387608 ∧ x.2 ≤ 8387608 := by
  have hd : Spec.doneLen .varint = 6 := by decide
  have r1 : Spec.vecLen .varint 1 (Spec.intLen .varint 16 + 16) = 18 := by decide
  have i0 : Spec.intLen .varint 0 = 1 := by decide
  have i1 : Spec.intLen .varint 1 = 1 := by decide
  have v1 : Spec.vecLen .varint 1 1 = 2 := by decide
  have hA : 2 * H * Spec.fieldsLen .varint (b + 1) ≤ 8387500 := by nlinarith
  have hB : 2 * H * 1 ≤ 8387500 := by nlinarith
  have hC : H * (Spec.vecLen .varint d 1 + Spec.fieldsLen .varint (b + 1)) ≤ 8387500 := by
    have := vecLen_le (s := 1) (le_refl d)
    have : H * (Spec.vecLen .varint d 1 + Spec.fieldsLen .varint (b + 1))
      ≤ H * (2 * (Spec.fieldsLen .varint (b + 1) + d + 9)) := Nat.mul_le_mul_left _ (by omega)
    omega
  intro x hx
  simp only [Spec.whhLens, List.mem_append, List.mem_cons, List.mem_map, List.mem_flatMap, List.not_mem_nil, or_false,
    List.mem_range] at hx
  rcases hx with (((((((hx | rfl) | ⟨r, hr, rfl⟩) | rfl) | ⟨m, hm, rfl | rfl⟩) | rfl) | ⟨r, hr, rfl⟩) | rfl | rfl)
  · exact startLens_fit ha x hx
  · simp only [hd, Spec.tagLen]; omega
  · have h1 := vecLen_le (s := Spec.fieldsLen .varint v) (Nat.le_min.2 (batches_le hr).symm)
    have := intLen_le r.1
    have := intLen_le r.2
    simp only [Spec.rangeLen, Spec.tagLen]
    omega
  · have h1 := vecLen_le (s := 1) hn
    simp only [hd, Spec.tagLen]
    omega
  · have h1 := vecLen_le (s := Spec.fieldsLen .varint (b + 1)) (Nat.mul_le_mul_left 2 (hh m))
    simp only [Spec.tagLen, i0, i1, v1, r1]
    omega
  · have h1 := vecLen_le (s := 1) (Nat.mul_le_mul_left 2 (hh m))
    simp only [hd, Spec.tagLen]
    omega
  · have h1 := vecLen_le (s := Spec.fieldsLen .varint (b + 1)) (Nat.mul_le_mul_left 2 (hh (d - 1)))
    simp only [Spec.tagLen]
    omega
  · have h1 := vecLen_le (s := 16) (Nat.le_min.2 (batches_le hr).symm)
    have := intLen_le r.1
    have := intLen_le r.2
    simp only [Spec.rangeLen, Spec.tagLen]
    omega
  · have h1 := vecLen_le (s := 1) (Nat.mul_le_mul_left 2 (hh (d - 1)))
    simp only [hd, Spec.tagLen]
    omega
  · have h1 := vecLen_le (s := Spec.vecLen .varint d 1 + Spec.fieldsLen .varint (b + 1)) (hh d)
    simp only [Spec.tagLen]
    omega

/-- **C113, plain metrics: the advice works.**  If a batch of uploads and a batch of preparation shares fit into a frame, and
the histogram does, then the run ends over the network for any number of clients. -/
theorem C113_pm (kcs : Pair2 (P.withPrio3 X)) (h : Spec.PlainRun P X c0 c1 cfg draw n buckets) (hn : n < 2 ^ 64)
    (ha : ∀ own, cfg.addBatch * Spec.prio3Len .varint cfg.histBuckets own ≤ 8387500)
    (hq : min n cfg.queryBatch * Spec.vecLen .varint (Spec.prepLen cfg.histBuckets) 1 ≤ 8387500)
    (hf : Spec.fieldsLen .varint cfg.histBuckets ≤ 8387500) (h0 : Spec.plainNet n0) (h1 : Spec.plainNet n1) :
    ∃ out t, driverMain c0 c1 bld cfg .plainMetrics draw n kcs = .ok out ∧
      (mainP (P.withPrio3 X) bld cfg .plainMetrics draw n).netRun n0 n1 c0 c1 (.running kcs.1, .running kcs.2)
        = .ok (out.shown, t) := by
  obtain ⟨out, g1, g2, -⟩ := C112_pm (bld := bld) (n0 := n0) (n1 := n1) kcs h hn (plainNet_limit h0) (plainNet_limit h1) rfl
  have hx : ∀ own, ∀ x ∈ Spec.pmLens .varint cfg.histBuckets n cfg.addBatch cfg.queryBatch own,
      x.1 ≤ 8387608 ∧ x.2 ≤ 8387608 := by
    intro own x hx
    simp only [Spec.pmLens, List.mem_append, List.mem_cons, List.mem_flatMap, List.not_mem_nil, or_false] at hx
    have i0 : Spec.intLen .varint 0 = 1 := by decide
    rcases hx with hx | ⟨r, hr, rfl | rfl⟩
    · exact startLens_fit (ha own) x hx
    all_goals
      have := vecLen_le (s := Spec.vecLen .varint (Spec.prepLen cfg.histBuckets) 1) (Nat.le_min.2 (batches_le hr).symm)
      have := intLen_le r.1
      have := intLen_le r.2
      simp only [i0, Spec.rangeLen, Spec.tagLen]
      omega
  obtain ⟨t, ht⟩ := g2 ⟨inFrames_of_le h0 (hx false), inFrames_of_le h1 (hx true)⟩
  exact ⟨_, t, g1, ht⟩

/-- **C113, attribute-based metrics: the advice works.**  If a batch of uploads, a batch of answers and what is sent for the
attributes fit into a frame, then the run ends over the network for any number of clients. -/
theorem C113_abm (kcs : Pair2 P) (h : Spec.AttrRun P c0 c1 cfg draw n d num clients)
    (hl : Spec.ProofLen P cfg.histBuckets l) (hv : Spec.VerifierLen P cfg.histBuckets v) (hb : cfg.histBuckets < 2 ^ 64)
    (hn : n < 2 ^ 64) (ha : cfg.addBatch * Spec.masticLen .varint d cfg.histBuckets l ≤ 8387500)
    (hq : min n cfg.queryBatch * (Spec.fieldsLen .varint v + 32) ≤ 8387500)
    (hk : num * (Spec.vecLen .varint d 1 + Spec.fieldsLen .varint cfg.histBuckets) ≤ 8387500)
    (h0 : Spec.plainNet n0) (h1 : Spec.plainNet n1) :
    ∃ out t, driverMain c0 c1 bld cfg (.attributeBasedMetrics num) draw n kcs = .ok out ∧
      (mainP P bld cfg (.attributeBasedMetrics num) draw n).netRun n0 n1 c0 c1 (.running kcs.1, .running kcs.2)
        = .ok (out.shown, t) := by
  have hfl : 1 ≤ Spec.fieldsLen .varint cfg.histBuckets := by
    have : 1 ≤ Spec.intLen .varint cfg.histBuckets := by simp only [Spec.intLen]; split_ifs <;> omega
    simp only [Spec.fieldsLen, Spec.vecLen]
    omega
  have hnum : num < 2 ^ 64 := by nlinarith
  obtain ⟨attributes, outs, g1, g4, g⟩ := C112_abm (bld := bld) (n0 := n0) (n1 := n1) kcs h hl hv hb hn hnum
    (plainNet_limit h0) (plainNet_limit h1)
  obtain ⟨g2, -⟩ := g _ rfl
  have i0 : Spec.intLen .varint 0 = 1 := by decide
  have hx : ∀ x ∈ Spec.abmLens .varint cfg.histBuckets n d cfg.addBatch cfg.queryBatch l v attributes.length,
      x.1 ≤ 8387608 ∧ x.2 ≤ 8387608 := by
    intro x hx
    rw [Nat.mul_add] at hk
    simp only [Spec.abmLens, List.mem_append, List.mem_cons, List.mem_flatMap, List.not_mem_nil, or_false] at hx
    rcases hx with hx | ⟨r, hr, rfl | rfl⟩
    · exact startLens_fit ha x hx
    · have := vecLen_le (s := Spec.fieldsLen .varint v + 32) (Nat.le_min.2 (batches_le hr).symm)
      have := vecLen_le (s := Spec.vecLen .varint d 1) g4
      have := intLen_le r.1
      have := intLen_le r.2
      simp only [Spec.tagLen]
      omega
    · have := vecLen_le (s := Spec.fieldsLen .varint cfg.histBuckets) g4
      have := intLen_le attributes.length
      have := intLen_le r.1
      have := intLen_le r.2
      simp only [i0, Spec.tagLen]
      omega
  obtain ⟨t, ht⟩ := g2 ⟨inFrames_of_le h0 hx, inFrames_of_le h1 hx⟩
  exact ⟨_, t, g1, ht⟩

/-- **C113, weighted heavy hitters, partial: the advice works for up to 8387500 clients.**  Batches that fit into frames are
enough if the threshold is high enough for the prefixes to fit (`H` bounds the number of heavy prefixes of one length).
For more clients see `C113_whh_not`. -/
theorem C113_whh_partial (kcs : Pair2 P) (h : Spec.WhhRun P c0 c1 cfg draw n d clients)
    (hhon : ∀ i < n, (draw.picks i).2 ≠ some .flp)
    (hheavy : ∃ s : List Bool, s.length = d - 2 ∧
      (s ≠ [] → max 1 cfg.threshold ≤ clients.countP fun c => s.isPrefixOf c.1))
    (hl : Spec.ProofLen P cfg.histBuckets l) (hv : Spec.VerifierLen P cfg.histBuckets v) (hb : cfg.histBuckets < 2 ^ 64)
    (hn : n ≤ 8387500) (ha : cfg.addBatch * Spec.masticLen .varint d cfg.histBuckets l ≤ 8387500)
    (hq : min n cfg.queryBatch * Spec.fieldsLen .varint v ≤ 8387500) (hq' : min n cfg.queryBatch ≤ 500000) {H : Nat} (hH1 : 1 ≤ H)
    (hnH : n ≤ max 1 cfg.threshold * H)
    (hH : H * (2 * (Spec.fieldsLen .varint (cfg.histBuckets + 1) + d + 9)) ≤ 8387500)
    (h0 : Spec.plainNet n0) (h1 : Spec.plainNet n1) :
    ∃ out t, driverMain c0 c1 bld cfg .weightedHeavyHitters draw n kcs = .ok out ∧
      (mainP P bld cfg .weightedHeavyHitters draw n).netRun n0 n1 c0 c1 (.running kcs.1, .running kcs.2)
        = .ok (out.shown, t) := by
  have hcn : clients.length = n := by
    rw [h.clients_eq, mainClients_honest hhon]
    simp [List.filterMap_map, Spec.runClients]
  obtain ⟨out, g1, g2, -⟩ := C112_whh (bld := bld) (n0 := n0) (n1 := n1) kcs h hhon hheavy hl hv hb (plainNet_limit h0)
    (plainNet_limit h1) rfl
  have hx := whhLens_fit (n := n) (h := fun m =>
    (Spec.heavyAt (max 1 cfg.threshold) (clients.map fun c => some c.1) m).length) ha hq hq' hn (fun m => by
      have := heavyAt_mul_le (m := m) (le_max_left 1 cfg.threshold) (clients.map fun c => c.1) (H := H)
        (by simpa [hcn] using hnH) hH1
      simpa [Function.comp_def] using this) hH
  obtain ⟨t, ht⟩ := g2 ⟨inFrames_of_le h0 hx, inFrames_of_le h1 hx⟩
  exact ⟨out, t, g1, ht⟩

/-- **C113 is false of weighted heavy hitters with more clients.**  The verdicts about all clients are sent in one message
(src/bin/driver.rs:372-382), so from 8388604 clients on the run panics whatever the batch sizes. -/
theorem C113_whh_not (kcs : Pair2 P) (h : Spec.WhhRun P c0 c1 cfg draw n d clients)
    (hhon : ∀ i < n, (draw.picks i).2 ≠ some .flp)
    (hheavy : ∃ s : List Bool, s.length = d - 2 ∧
      (s ≠ [] → max 1 cfg.threshold ≤ clients.countP fun c => s.isPrefixOf c.1))
    (hl : Spec.ProofLen P cfg.histBuckets l) (hv : Spec.VerifierLen P cfg.histBuckets v) (hb : cfg.histBuckets < 2 ^ 64)
    (hn : 8388604 ≤ n) (h0 : Spec.plainNet n0) (h1 : Spec.plainNet n1) :
    (∃ out, driverMain c0 c1 bld cfg .weightedHeavyHitters draw n kcs = .ok out) ∧
      (mainP P bld cfg .weightedHeavyHitters draw n).netRun n0 n1 c0 c1 (.running kcs.1, .running kcs.2)
        = .error .unwrap := by
  obtain ⟨out, g1, -, g3⟩ := C112_whh (bld := bld) (n0 := n0) (n1 := n1) kcs h hhon hheavy hl hv hb (plainNet_limit h0)
    (plainNet_limit h1) rfl
  refine ⟨⟨out, g1⟩, g3 fun hf => ?_⟩
  have := (hf.1 (Spec.tagLen .varint + Spec.vecLen .varint n 1, Spec.doneLen .varint) (by simp [Spec.whhLens])).1
  have hi : 5 ≤ Spec.intLen .varint n := by
    simp only [Spec.intLen]
    split_ifs <;> omega
  rw [h0.1, maxFrame] at this
  simp only [Spec.vecLen] at this
  omega

/-! ### `src/configs/weighted-heavy-hitters.toml` with other batch sizes -/

theorem shipped_room (hn : n < 2 ^ 53) (hn1 : 1 ≤ n) (a q : Nat) :
    (max 1 ((Spec.rebatched fileWhh a q).toConfig n).threshold - 1) * Spec.room ((Spec.rebatched fileWhh a q).toConfig n).uniqueBuckets 8
      < n := by
  have hT : ((Spec.rebatched fileWhh a q).toConfig n).threshold = scaledThreshold (.fin (5764607523034235 / 2 ^ 59)) n := by
    rw [← round_hundredth]; rfl
  have hnq : (n : ℚ) < 2 ^ 53 := by exact_mod_cast hn
  have hn0 : (0 : ℚ) ≤ n := by positivity
  have hr : Spec.room ((Spec.rebatched fileWhh a q).toConfig n).uniqueBuckets 8 = 64 := rfl
  rw [hT, hr]
  refine room_of_fraction (by norm_num) hn ?_ hn1 (by norm_num) ?_
  · have : (5764607523034235 / 2 ^ 59 : ℚ) ≤ 1 := by norm_num
    nlinarith
  · have : (5764607523034235 / 2 ^ 59 : ℚ) * (64 : ℕ) ≤ 1 := by norm_num
    nlinarith

/-- **C113, the shipped file.**  With at most 1000 uploads and 81000 answers in a batch the run ends with up to 8387500
clients, whatever the strings; from 8388604 clients on no batch sizes help. -/
theorem C113_shipped_whh {a q : Nat} (kcs : Pair2 P)
    (h : Spec.WhhRun P c0 c1 ((Spec.rebatched fileWhh a q).toConfig n) draw n 8 clients) (hn : n < 2 ^ 53)
    (hhon : ∀ i < n, (draw.picks i).2 ≠ some .flp) (hl : Spec.ProofLen P 4 l) (hl' : l ≤ 100)
    (hv : Spec.VerifierLen P 4 6) (h0 : Spec.plainNet n0) (h1 : Spec.plainNet n1) :
    (n ≤ 8387500 → a ≤ 1000 → q ≤ 81000 →
      ∃ out t, driverMain c0 c1 bld ((Spec.rebatched fileWhh a q).toConfig n) .weightedHeavyHitters draw n kcs = .ok out ∧
        (mainP P bld ((Spec.rebatched fileWhh a q).toConfig n) .weightedHeavyHitters draw n).netRun n0 n1 c0 c1
          (.running kcs.1, .running kcs.2) = .ok (out.shown, t)) ∧
    (8388604 ≤ n → (mainP P bld ((Spec.rebatched fileWhh a q).toConfig n) .weightedHeavyHitters draw n).netRun n0 n1 c0 c1
      (.running kcs.1, .running kcs.2) = .error .unwrap) := by
  have hcn : clients.length = n := by
    rw [h.clients_eq, mainClients_honest hhon]
    simp [List.filterMap_map, Spec.runClients]
  have hn1 : 1 ≤ n := by
    have := List.length_pos_iff.2 h.nonempty
    omega
  obtain ⟨s, hs1, hs2⟩ := heavy_of_room h.clients_eq h.sensible.picks (by rw [hcn]; exact shipped_room hn hn1 a q)
  have hheavy : ∃ s : List Bool, s.length = 8 - 2 ∧ (s ≠ [] →
      max 1 ((Spec.rebatched fileWhh a q).toConfig n).threshold ≤ clients.countP fun c => s.isPrefixOf c.1) :=
    ⟨s, hs1, fun _ => by rw [List.countP_eq_length_filter]; exact hs2⟩
  constructor
  · intro hle ha hq
    have f6 : Spec.fieldsLen .varint 6 = 103 := by decide
    have f5 : Spec.fieldsLen .varint 5 = 86 := by decide
    refine C113_whh_partial kcs h hhon hheavy hl hv (by show 4 < 2 ^ 64; norm_num) hle ?_ ?_ ?_ (H := 200) (by norm_num) ?_ ?_
      h0 h1
    · have := Nat.mul_le_mul ha (masticLen_shipped hl')
      exact this.trans (by norm_num)
    · show min n q * Spec.fieldsLen .varint 6 ≤ 8387500
      rw [f6]
      omega
    · show min n q ≤ 500000
      omega
    · have : n / 100 ≤ ((Spec.rebatched fileWhh a q).toConfig n).threshold := hundredth_ge hn
      omega
    · show 200 * (2 * (Spec.fieldsLen .varint 5 + 8 + 9)) ≤ 8387500
      rw [f5]
      norm_num
  · intro hge
    exact (C113_whh_not kcs h hhon hheavy hl hv (by show 4 < 2 ^ 64; norm_num) hge h0 h1).2

/-! ### Batches that are too large -/

/-- **C113, the converse for plain metrics.**  If the first batch of preparation shares does not fit into a frame, the run
panics. -/
theorem C113_crash_pm (kcs : Pair2 (P.withPrio3 X)) (h : Spec.PlainRun P X c0 c1 cfg draw n buckets) (hn : n < 2 ^ 64)
    (hbig : 8388608 < min n cfg.queryBatch * Spec.vecLen .varint (Spec.prepLen cfg.histBuckets) 1)
    (h0 : Spec.plainNet n0) (h1 : Spec.plainNet n1) :
    (∃ out, driverMain c0 c1 bld cfg .plainMetrics draw n kcs = .ok out) ∧
      (mainP (P.withPrio3 X) bld cfg .plainMetrics draw n).netRun n0 n1 c0 c1 (.running kcs.1, .running kcs.2)
        = .error .unwrap := by
  obtain ⟨out, g1, -, g3⟩ := C112_pm (bld := bld) (n0 := n0) (n1 := n1) kcs h hn (plainNet_limit h0) (plainNet_limit h1) rfl
  have hmin : 1 ≤ min n cfg.queryBatch := by
    rcases Nat.eq_zero_or_pos (min n cfg.queryBatch) with h | h
    · rw [h] at hbig; omega
    · exact h
  refine ⟨⟨out, g1⟩, g3 fun hf => not_inFrames h0 (x := (Spec.rangeLen .varint (0, min n cfg.queryBatch),
    Spec.tagLen .varint + Spec.vecLen .varint (min n cfg.queryBatch - 0)
      (Spec.vecLen .varint (Spec.prepLen cfg.histBuckets) 1))) ?_ ?_ hf.1⟩
  · refine List.mem_append.2 (.inr (List.mem_flatMap.2 ⟨_, first_batch (q := cfg.queryBatch) (by omega) (by omega), ?_⟩))
    exact List.mem_cons_self
  · have := le_vecLen (s := Spec.vecLen .varint (Spec.prepLen cfg.histBuckets) 1)
      (Nat.le_of_eq (Nat.sub_zero (min n cfg.queryBatch)).symm)
    dsimp only
    omega

/-- **C113, the converse for attribute-based metrics.** -/
theorem C113_crash_abm (kcs : Pair2 P) (h : Spec.AttrRun P c0 c1 cfg draw n d num clients)
    (hl : Spec.ProofLen P cfg.histBuckets l) (hv : Spec.VerifierLen P cfg.histBuckets v) (hb : cfg.histBuckets < 2 ^ 64)
    (hn : n < 2 ^ 64) (hnum : num < 2 ^ 64)
    (hbig : 8388608 < min n cfg.queryBatch * (Spec.fieldsLen .varint v + 32)) (h0 : Spec.plainNet n0)
    (h1 : Spec.plainNet n1) :
    (∃ out, driverMain c0 c1 bld cfg (.attributeBasedMetrics num) draw n kcs = .ok out) ∧
      (mainP P bld cfg (.attributeBasedMetrics num) draw n).netRun n0 n1 c0 c1 (.running kcs.1, .running kcs.2)
        = .error .unwrap := by
  obtain ⟨attributes, outs, g1, -, g⟩ := C112_abm (bld := bld) (n0 := n0) (n1 := n1) kcs h hl hv hb hn hnum
    (plainNet_limit h0) (plainNet_limit h1)
  have hmin : 1 ≤ min n cfg.queryBatch := by
    rcases Nat.eq_zero_or_pos (min n cfg.queryBatch) with h | h
    · rw [h] at hbig; omega
    · exact h
  refine ⟨⟨_, g1⟩, (g _ rfl).2 fun hf => not_inFrames h0 (x := (Spec.tagLen .varint + (Spec.vecLen .varint
    attributes.length (Spec.vecLen .varint d 1) + (Spec.intLen .varint 0 + Spec.intLen .varint (min n cfg.queryBatch))),
    Spec.tagLen .varint + Spec.vecLen .varint (min n cfg.queryBatch - 0) (Spec.fieldsLen .varint v + 32))) ?_ ?_ hf.1⟩
  · refine List.mem_append.2 (.inr (List.mem_flatMap.2 ⟨_, first_batch (q := cfg.queryBatch) (by omega) (by omega), ?_⟩))
    exact List.mem_cons_self
  · have := le_vecLen (s := Spec.fieldsLen .varint v + 32) (Nat.le_of_eq (Nat.sub_zero (min n cfg.queryBatch)).symm)
    dsimp only
    omega

/-- **C113, the converse for weighted heavy hitters.** -/
theorem C113_crash_whh (kcs : Pair2 P) (h : Spec.WhhRun P c0 c1 cfg draw n d clients)
    (hhon : ∀ i < n, (draw.picks i).2 ≠ some .flp)
    (hheavy : ∃ s : List Bool, s.length = d - 2 ∧
      (s ≠ [] → max 1 cfg.threshold ≤ clients.countP fun c => s.isPrefixOf c.1))
    (hl : Spec.ProofLen P cfg.histBuckets l) (hv : Spec.VerifierLen P cfg.histBuckets v) (hb : cfg.histBuckets < 2 ^ 64)
    (hbig : 8388608 < min n cfg.queryBatch * Spec.fieldsLen .varint v) (h0 : Spec.plainNet n0) (h1 : Spec.plainNet n1) :
    (∃ out, driverMain c0 c1 bld cfg .weightedHeavyHitters draw n kcs = .ok out) ∧
      (mainP P bld cfg .weightedHeavyHitters draw n).netRun n0 n1 c0 c1 (.running kcs.1, .running kcs.2)
        = .error .unwrap := by
  obtain ⟨out, g1, -, g3⟩ := C112_whh (bld := bld) (n0 := n0) (n1 := n1) kcs h hhon hheavy hl hv hb (plainNet_limit h0)
    (plainNet_limit h1) rfl
  have hmin : 1 ≤ min n cfg.queryBatch := by
    rcases Nat.eq_zero_or_pos (min n cfg.queryBatch) with h | h
    · rw [h] at hbig; omega
    · exact h
  refine ⟨⟨out, g1⟩, g3 fun hf => not_inFrames h0 (x := (Spec.rangeLen .varint (0, min n cfg.queryBatch),
    Spec.tagLen .varint + Spec.vecLen .varint (min n cfg.queryBatch - 0) (Spec.fieldsLen .varint v))) ?_ ?_ hf.1⟩
  · simp only [Spec.whhLens, List.mem_append]
    exact .inl (.inl (.inl (.inl (.inl (.inr (List.mem_map.2 ⟨_, first_batch (q := cfg.queryBatch) (by omega) (by omega), rfl⟩))))))
  · have := le_vecLen (s := Spec.fieldsLen .varint v) (Nat.le_of_eq (Nat.sub_zero (min n cfg.queryBatch)).symm)
    dsimp only
    omega

/-- **C113, the Prio files of figure 6.**  With 128 attributes the run ends with up to 2287 clients and panics with more, with
1024 attributes it ends with up to 815 clients and panics with more. -/
theorem C113_prio (kcs : Pair2 (P.withPrio3 X)) (hn : n < 2 ^ 64) (h0 : Spec.plainNet n0) (h1 : Spec.plainNet n1)
    {f : FileConfig} {k : Nat} (hf : (f, k) = (fig6PrioA128, 2287) ∨ (f, k) = (fig6PrioA1024, 815))
    (h : Spec.PlainRun P X c0 c1 (f.toConfig n) draw n buckets) :
    (n ≤ k → ∃ out t, driverMain c0 c1 bld (f.toConfig n) .plainMetrics draw n kcs = .ok out ∧
      (mainP (P.withPrio3 X) bld (f.toConfig n) .plainMetrics draw n).netRun n0 n1 c0 c1 (.running kcs.1, .running kcs.2)
        = .ok (out.shown, t)) ∧
    (k < n → (mainP (P.withPrio3 X) bld (f.toConfig n) .plainMetrics draw n).netRun n0 n1 c0 c1
      (.running kcs.1, .running kcs.2) = .error .unwrap) := by
  obtain ⟨s, hs, hq, ha, hff, hk, hk', hk1⟩ : ∃ s, Spec.vecLen .varint (Spec.prepLen f.histBuckets) 1 = s ∧
      f.queryBatch = 10000 ∧ (∀ own, f.addBatch * Spec.prio3Len .varint f.histBuckets own ≤ 8387500) ∧
      Spec.fieldsLen .varint f.histBuckets ≤ 8387500 ∧ k * s ≤ 8387500 ∧ 8388608 < (k + 1) * s ∧ k < 10000 := by
    rcases hf with hf | hf <;> cases hf
    · exact ⟨3667, by decide +kernel, rfl, by decide +kernel, by decide +kernel, by norm_num, by norm_num, by norm_num⟩
    · exact ⟨10291, by decide +kernel, rfl, by decide +kernel, by decide +kernel, by norm_num, by norm_num, by norm_num⟩
  · refine ⟨fun hle => C113_pm kcs h hn ha ?_ hff h0 h1, fun hlt => (C113_crash_pm kcs h hn ?_ h0 h1).2⟩
    · show min n f.queryBatch * Spec.vecLen .varint (Spec.prepLen f.histBuckets) 1 ≤ 8387500
      rw [hs]
      exact (Nat.mul_le_mul_right _ ((Nat.min_le_left _ _).trans hle)).trans hk
    · show 8388608 < min n f.queryBatch * Spec.vecLen .varint (Spec.prepLen f.histBuckets) 1
      rw [hs, hq]
      exact hk'.trans_le (Nat.mul_le_mul_right _ (by omega))

/-- **C113, the weighted-heavy-hitters files of the artifact** (figures 3 to 5), with libprio's histograms.  A run with a heavy
prefix ends with up to 8387500 clients if the batches have up to 81432 answers, and panics if one has 81443 or more. -/
theorem C113_artifact {f : FileConfig} (hf : f ∈ artifactWhh) (hfd : f.dataBits = some d) (kcs : Pair2 P.withHistogram)
    (h : Spec.WhhRun P.withHistogram c0 c1 (f.toConfig n) draw n d clients) (hn : n < 2 ^ 53)
    (hhon : ∀ i < n, (draw.picks i).2 ≠ some .flp)
    (hheavy : ∃ s : List Bool, s.length = d - 2 ∧
      (s ≠ [] → max 1 (f.toConfig n).threshold ≤ clients.countP fun c => s.isPrefixOf c.1))
    (h0 : Spec.plainNet n0) (h1 : Spec.plainNet n1) :
    (n ≤ 8387500 → min n f.queryBatch ≤ 81432 →
      ∃ out t, driverMain c0 c1 bld (f.toConfig n) .weightedHeavyHitters draw n kcs = .ok out ∧
        (mainP P.withHistogram bld (f.toConfig n) .weightedHeavyHitters draw n).netRun n0 n1 c0 c1
          (.running kcs.1, .running kcs.2) = .ok (out.shown, t)) ∧
    (81443 ≤ min n f.queryBatch →
      (mainP P.withHistogram bld (f.toConfig n) .weightedHeavyHitters draw n).netRun n0 n1 c0 c1
        (.running kcs.1, .running kcs.2) = .error .unwrap) := by
  have f6 : Spec.fieldsLen .varint 6 = 103 := by decide
  have hl := C81_lengths (P := P) (f.toConfig n).histBuckets
  have htab : ∀ f ∈ artifactWhh, f.histBuckets < 2 ^ 64 ∧ f.addBatch * Spec.masticLen .varint (f.dataBits.getD 0)
      f.histBuckets (4 + (2 * (Spec.points f.histBuckets 2 - 1) + 1)) ≤ 8387500 ∧
      200 * (2 * (Spec.fieldsLen .varint (f.histBuckets + 1) + f.dataBits.getD 0 + 9)) ≤ 8387500 := by decide +kernel
  obtain ⟨hb, ha, hH⟩ := htab f hf
  rw [hfd, Option.getD_some] at ha hH
  constructor
  · intro hle hq
    refine C113_whh_partial kcs h hhon hheavy hl.1 hl.2 hb hle ha ?_ ?_ (H := 200) (by norm_num) ?_ hH h0 h1
    · show min n f.queryBatch * Spec.fieldsLen .varint 6 ≤ 8387500
      rw [f6]
      omega
    · show min n f.queryBatch ≤ 500000
      omega
    · have : n / 100 ≤ (f.toConfig n).threshold := by
        have hT : (f.toConfig n).threshold = scaledThreshold (F64.round (1 / 100)) n := by
          simp [FileConfig.toConfig, (artifactWhh_facts f hf).1]
        rw [hT]
        exact hundredth_ge hn
      omega
  · intro hbig
    refine (C113_crash_whh kcs h hhon hheavy hl.1 hl.2 hb ?_ h0 h1).2
    show 8388608 < min n f.queryBatch * Spec.fieldsLen .varint 6
    rw [f6]
    omega

/-! Examples -/

theorem toy_batchesRun {a q : Nat} (ha : 1 ≤ a) (hq : 1 ≤ q) (hn : 1 ≤ n) (hlt : n < 2 ^ 64) {pick : Nat → Nat}
    {bits : Nat → Nat → Bool} (hp : ∀ i < n, 1 ≤ pick i ∧ pick i ≤ 1000) :
    Spec.WhhRun toy (toyCfg 0 (some 8) .debug) (toyCfg 1 (some 8) .release)
      ((Spec.rebatched fileWhh a q).toConfig n) (Spec.population toyDraw pick bits) n 8
      ((Spec.mainClients 4 8 (Spec.population toyDraw pick bits) n).filterMap id) :=
  { toy_shippedRun hn hlt hp with
    sensible := toy_whh_sensible (c := Spec.rebatched fileWhh a q) (show 1 ≤ 4 by norm_num) (show 1 ≤ 1000 by norm_num)
      ha hq hp
    proves := toy_proves }

/-- Arbitrary strings: with batches of 1000 uploads and 80000 answers eight million clients are not too many; nine million are
too many for all batch sizes. -/
example (pick : Nat → Nat) (bits : Nat → Nat → Bool) (hp : ∀ i, 1 ≤ pick i ∧ pick i ≤ 1000) (kcs : Pair2 toy) :
    (∃ x t, (mainP toy .debug ((Spec.rebatched fileWhh 1000 80000).toConfig 8000000) .weightedHeavyHitters
      (Spec.population toyDraw pick bits) 8000000).netRun ⟨60, 20, maxFrame⟩ ⟨60, 20, maxFrame⟩
      (toyCfg 0 (some 8) .debug) (toyCfg 1 (some 8) .release) (.running kcs.1, .running kcs.2) = .ok (x, t)) ∧
    ∀ a q, 1 ≤ a → 1 ≤ q → (mainP toy .debug ((Spec.rebatched fileWhh a q).toConfig 9000000) .weightedHeavyHitters
      (Spec.population toyDraw pick bits) 9000000).netRun ⟨60, 20, maxFrame⟩ ⟨60, 20, maxFrame⟩
      (toyCfg 0 (some 8) .debug) (toyCfg 1 (some 8) .release) (.running kcs.1, .running kcs.2) = .error .unwrap := by
  have hnet : Spec.plainNet ⟨60, 20, maxFrame⟩ := ⟨rfl, by decide, by decide⟩
  have key : ∀ a q n, 1 ≤ a → 1 ≤ q → 1 ≤ n → n < 2 ^ 53 → _ := fun a q n ha hq h1 h2 =>
    C113_shipped_whh (bld := .debug) (n0 := ⟨60, 20, maxFrame⟩) (n1 := ⟨60, 20, maxFrame⟩) kcs
      (toy_batchesRun (n := n) (bits := bits) ha hq h1 (by omega) fun i _ => hp i) h2
      (fun _ _ => by simp [Spec.population]) (toy_proofLen 4) (by decide) (toy_verifierLen 4) hnet hnet
  constructor
  · obtain ⟨out, t, -, h⟩ := (key 1000 80000 8000000 (by norm_num) (by norm_num) (by norm_num) (by norm_num)).1 (by norm_num)
      (by norm_num) (by norm_num)
    exact ⟨_, t, h⟩
  · exact fun a q ha hq => (key a q 9000000 ha hq (by norm_num) (by norm_num)).2 (by norm_num)

/-- Attribute-based metrics with the shipped file, batches of 60000 answers and any number of clients. -/
example (pick : Nat → Nat) (bits : Nat → Nat → Bool) (hp : ∀ i, 1 ≤ pick i ∧ pick i ≤ 1000) (kcs : Pair2 toy)
    {draw : MainDraw} (hdraw : draw = { Spec.population toyDraw pick bits with attributes := fun j => j })
    (hn1 : 1 ≤ n) (hn : n < 2 ^ 53) :
    ∃ x t, (mainP toy .debug ((Spec.rebatched fileAbm 1000 60000).toConfig n) (.attributeBasedMetrics 10) draw n).netRun
      ⟨60, 20, maxFrame⟩ ⟨60, 20, maxFrame⟩ (toyCfg 0 (some 8) .debug) (toyCfg 1 (some 8) .release)
      (.running kcs.1, .running kcs.2) = .ok (x, t) := by
  subst hdraw
  have hnet : Spec.plainNet ⟨60, 20, maxFrame⟩ := ⟨rfl, by decide, by decide⟩
  have hrun : Spec.AttrRun toy (toyCfg 0 (some 8) .debug) (toyCfg 1 (some 8) .release)
      ((Spec.rebatched fileAbm 1000 60000).toConfig n) { Spec.population toyDraw pick bits with attributes := fun j => j }
      n 8 10 _ :=
    { sensible := ⟨rfl, rfl, rfl, show 1 ≤ 4 by norm_num, show 1 ≤ 1000 by norm_num, show 1 ≤ 1000 by norm_num,
        show 1 ≤ 60000 by norm_num, fun i _ => hp i⟩
      proves := toy_proves
      bits := rfl
      one := by decide
      id0 := rfl
      id1 := by decide
      complete := fun _ _ => toy_flpComplete _ _
      honest := fun _ _ => by simp [Spec.population]
      samples := fun j hj => show j < 1000 by omega
      clients_eq := rfl
      nonempty := hn1
      small := by unfold fieldModulus; omega }
  have f6 : Spec.fieldsLen .varint 6 = 103 := by decide
  obtain ⟨out, t, -, h⟩ := C113_abm (bld := .debug) kcs hrun (toy_proofLen 4) (toy_verifierLen 4)
    (by show 4 < 2 ^ 64; norm_num) (by omega) (show 1000 * Spec.masticLen .varint 8 4 _ ≤ 8387500 by decide)
    (show min n 60000 * (Spec.fieldsLen .varint 6 + 32) ≤ 8387500 by rw [f6]; omega)
    (show 10 * (Spec.vecLen .varint 8 1 + Spec.fieldsLen .varint 4) ≤ 8387500 by decide) hnet hnet
  exact ⟨_, t, h⟩

/-- Plain metrics with the shipped file, batches of 70000 preparation shares and any number of clients. -/
example (pick : Nat → Nat) (hp : ∀ i, 1 ≤ pick i ∧ pick i ≤ 1000) (kcs : Pair2 (toy.withPrio3 toyXof)) {draw : MainDraw}
    (hdraw : draw = { toyPlainDraw with picks := fun i => (pick i, none) }) (hn : n < 2 ^ 53) :
    ∃ x t, (mainP (toy.withPrio3 toyXof) .debug ((Spec.rebatched filePm 1000 70000).toConfig n) .plainMetrics draw n).netRun
      ⟨60, 20, maxFrame⟩ ⟨60, 20, maxFrame⟩ (toyCfg 0 none .debug) (toyCfg 1 none .release)
      (.running kcs.1, .running kcs.2) = .ok (x, t) := by
  subst hdraw
  have hnet : Spec.plainNet ⟨60, 20, maxFrame⟩ := ⟨rfl, by decide, by decide⟩
  have hrun : Spec.PlainRun toy toyXof (toyCfg 0 none .debug) (toyCfg 1 none .release)
      ((Spec.rebatched filePm 1000 70000).toConfig n) { toyPlainDraw with picks := fun i => (pick i, none) } n _ :=
    { sensible := ⟨rfl, rfl, rfl, show 1 ≤ 4 by norm_num, show 1 ≤ 1000 by norm_num, show 1 ≤ 1000 by norm_num,
        show 1 ≤ 70000 by norm_num, fun i _ => hp i⟩
      prio3 := rfl
      buckets_lt := show 4 < 2 ^ 64 by norm_num
      query := fun i _ => show (3 : Field128) ^ Spec.points 4 (Spec.chunk 4) ≠ 1 by decide +kernel
      id0 := rfl
      id1 := rfl
      small := by unfold fieldModulus; omega
      honest := fun _ _ => rfl
      buckets_eq := rfl }
  have p4 : Spec.vecLen .varint (Spec.prepLen 4) 1 = 113 := by decide +kernel
  have s4 : ∀ own, 1000 * Spec.prio3Len .varint 4 own ≤ 8387500 := by decide +kernel
  obtain ⟨out, t, -, h⟩ := C113_pm (bld := .debug) kcs hrun (by omega) s4
    (show min n 70000 * Spec.vecLen .varint (Spec.prepLen 4) 1 ≤ 8387500 by rw [p4]; omega)
    (show Spec.fieldsLen .varint 4 ≤ 8387500 by decide) hnet hnet
  exact ⟨_, t, h⟩

/-- Figure 6 with 1024 attributes and any weights: 815 clients are not too many, 816 are. -/
example (pick : Nat → Nat) (hp : ∀ i, 1 ≤ pick i ∧ pick i ≤ 1000) (kcs : Pair2 (toy.withPrio3 toyXof)) {draw : MainDraw}
    (hdraw : draw = { toyPlainDraw with picks := fun i => (pick i, none) }) :
    (∃ x t, (mainP (toy.withPrio3 toyXof) .debug (fig6PrioA1024.toConfig 815) .plainMetrics draw 815).netRun
      ⟨60, 20, maxFrame⟩ ⟨60, 20, maxFrame⟩ (toyCfg 0 none .debug) (toyCfg 1 none .release)
      (.running kcs.1, .running kcs.2) = .ok (x, t)) ∧
    (mainP (toy.withPrio3 toyXof) .debug (fig6PrioA1024.toConfig 816) .plainMetrics draw 816).netRun
      ⟨60, 20, maxFrame⟩ ⟨60, 20, maxFrame⟩ (toyCfg 0 none .debug) (toyCfg 1 none .release)
      (.running kcs.1, .running kcs.2) = .error .unwrap := by
  subst hdraw
  have hnet : Spec.plainNet ⟨60, 20, maxFrame⟩ := ⟨rfl, by decide, by decide⟩
  have hpt : (3 : Field128) ^ Spec.points 102400 (Spec.chunk 102400) ≠ 1 := by decide +kernel
  have hrun : ∀ n, n < 2 ^ 53 → Spec.PlainRun toy toyXof (toyCfg 0 none .debug) (toyCfg 1 none .release)
      (fig6PrioA1024.toConfig n) { toyPlainDraw with picks := fun i => (pick i, none) } n _ := fun n h =>
    { sensible := ⟨rfl, rfl, rfl, show 1 ≤ 102400 by norm_num, show 1 ≤ 1000 by norm_num, show 1 ≤ 5 by norm_num,
        show 1 ≤ 10000 by norm_num, fun i _ => hp i⟩
      prio3 := rfl
      buckets_lt := show 102400 < 2 ^ 64 by norm_num
      query := fun i _ => hpt
      id0 := rfl
      id1 := rfl
      small := by unfold fieldModulus; omega
      honest := fun _ _ => rfl
      buckets_eq := rfl }
  have key : ∀ n, n < 2 ^ 53 → _ := fun n h => C113_prio (bld := .debug) (n0 := ⟨60, 20, maxFrame⟩)
    (n1 := ⟨60, 20, maxFrame⟩) kcs (by omega) hnet hnet (.inr rfl) (hrun n h)
  constructor
  · obtain ⟨out, t, -, h⟩ := (key 815 (by norm_num)).1 (by norm_num)
    exact ⟨_, t, h⟩
  · exact (key 816 (by norm_num)).2 (by norm_num)

/-- Everybody has the first report. -/
def sameDraw : MainDraw :=
  { toyDraw with
    reports := fun i => { toyDraw.reports i with rand := { toyRand 0 with proveRand := [1, 2, 3, 4] } }
    picks := fun _ => (1, none)
    verifyKey := Block.zero.set 0 2#8 }

theorem same_point : toy.xofField (Block.zero.set 0 2#8) (toyRand 0).nonce.toList 1 = [2] := by decide +kernel

/-- Figure 3 with one bucket and 64 bits, libprio's histograms, everybody with the same string: 80000 clients are not too many,
100000 are. -/
example (kcs : Pair2 toy.withHistogram) :
    (∃ x t, (mainP toy.withHistogram .debug (fig3Masticm1n64.toConfig 80000) .weightedHeavyHitters sameDraw 80000).netRun
      ⟨60, 20, maxFrame⟩ ⟨60, 20, maxFrame⟩ (toyCfg 0 (some 64) .debug) (toyCfg 1 (some 64) .release)
      (.running kcs.1, .running kcs.2) = .ok (x, t)) ∧
    (mainP toy.withHistogram .debug (fig3Masticm1n64.toConfig 100000) .weightedHeavyHitters sameDraw 100000).netRun
      ⟨60, 20, maxFrame⟩ ⟨60, 20, maxFrame⟩ (toyCfg 0 (some 64) .debug) (toyCfg 1 (some 64) .release)
      (.running kcs.1, .running kcs.2) = .error .unwrap := by
  have hnet : Spec.plainNet ⟨60, 20, maxFrame⟩ := ⟨rfl, by decide, by decide⟩
  have hhon : ∀ n, ∀ i < n, (sameDraw.picks i).2 ≠ some .flp := fun n i _ => nofun
  have hlen : ∀ n, ((Spec.mainClients 1 64 sameDraw n).filterMap id).length = n := fun n => by
    rw [mainClients_untampered, List.length_map, List.filter_eq_self.2, List.length_range]
    exact fun i _ => rfl
  have hrun : ∀ n, 1 ≤ n → n < 2 ^ 53 → Spec.WhhRun toy.withHistogram (toyCfg 0 (some 64) .debug)
      (toyCfg 1 (some 64) .release) (fig3Masticm1n64.toConfig n) sameDraw n 64
      ((Spec.mainClients 1 64 sameDraw n).filterMap id) := fun n h1 h2 =>
    { sensible := ⟨rfl, rfl, rfl, show 1 ≤ 1 by norm_num, show 1 ≤ 1000 by norm_num, show 1 ≤ 100 by norm_num,
        show 1 ≤ 100000 by norm_num, fun i _ => ⟨le_rfl, show 1 ≤ 1000 by norm_num⟩⟩
      proves := proves_libprio (fun _ _ _ => by simp [toy]) fun _ _ => rfl
      bits := rfl
      bits0 := rfl
      bits1 := rfl
      two := by norm_num
      id0 := rfl
      id1 := by decide
      complete := fun i _ => by
        have ht : toy.withHistogram.xofField sameDraw.verifyKey (Spec.MainDraw.of sameDraw i).rand.nonce.toList
            (toy.withHistogram.queryRandLen (fig3Masticm1n64.toConfig n).histBuckets) = [2] := by
          exact same_point
        rw [ht]
        exact C81_complete (n := 1) (by norm_num) (by decide +kernel)
      rejected := by intro i nonce ks p0 ps p jr alpha _ h; cases h
      clients_eq := rfl
      nonempty := List.ne_nil_of_length_pos (by rw [hlen]; omega)
      small := by omega }
  have hheavy : ∀ n, 1 ≤ n → n < 2 ^ 53 → ∃ s : List Bool, s.length = 64 - 2 ∧ (s ≠ [] →
      max 1 (fig3Masticm1n64.toConfig n).threshold
        ≤ ((Spec.mainClients 1 64 sameDraw n).filterMap id).countP fun c => s.isPrefixOf c.1) := by
    intro n h1 h2
    have hr : Spec.room 1 64 = 1 := by decide
    obtain ⟨s, hs1, hs2⟩ := heavy_of_room (b := 1) (u := 1) (T := max 1 (fig3Masticm1n64.toConfig n).threshold) rfl
      (fun i _ => ⟨le_rfl, le_rfl⟩) (d := 64) (n := n) (draw := sameDraw) (by
        have hT : (fig3Masticm1n64.toConfig n).threshold = scaledThreshold (.fin (5764607523034235 / 2 ^ 59)) n := by
          rw [← round_hundredth]; rfl
        have hnq : (n : ℚ) < 2 ^ 53 := by exact_mod_cast h2
        have hn0 : (0 : ℚ) ≤ n := by positivity
        have hc : (5764607523034235 / 2 ^ 59 : ℚ) ≤ 1 := by norm_num
        rw [hlen, hT, hr]
        refine room_of_fraction (by norm_num) h2 (by nlinarith) h1 (by norm_num) ?_
        rw [Nat.cast_one]
        nlinarith)
    exact ⟨s, hs1, fun _ => by rw [List.countP_eq_length_filter]; exact hs2⟩
  have key : ∀ n, 1 ≤ n → n < 2 ^ 53 → _ := fun n h1 h2 => C113_artifact (bld := .debug) (n0 := ⟨60, 20, maxFrame⟩)
    (n1 := ⟨60, 20, maxFrame⟩) (f := fig3Masticm1n64) (by simp [artifactWhh]) rfl kcs (hrun n h1 h2) h2 (hhon n)
    (hheavy n h1 h2) hnet hnet
  have hq : fig3Masticm1n64.queryBatch = 100000 := rfl
  constructor
  · obtain ⟨out, t, -, h⟩ := (key 80000 (by norm_num) (by norm_num)).1 (by norm_num) (by rw [hq]; norm_num)
    exact ⟨_, t, h⟩
  · exact (key 100000 (by norm_num) (by norm_num)).2 (by rw [hq]; norm_num)

end Mastic
