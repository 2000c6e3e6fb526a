import Verif.Lemmas.Small
import Verif.Props.Main

/-!
# C84: the configurations left out by C62

`C62_weighted_heavy_hitters` needs at least two bits and one accepted client.  Here: one bit, no bit, no
`data_bits` at all, and nobody left after the FLP verification.
-/

namespace Mastic

variable {P : Prims}

/-- **C84, one bit.**  With `data_bits = 1` the FLP verification is never run (it is part of the first iteration
of a loop with no iterations): the program prints the heavy hitters among *all* clients, including those
whose FLP proof was tampered with, and also works without clients. -/
theorem C84_one_bit {c0 c1 : ServerCfg} {bld : Build} {cfg : Config} {draw : MainDraw}
    {n : Nat} {kcs : Pair2 P} (hs : Spec.Sensible P cfg draw n) (hprove : Spec.Proves P cfg draw)
    (hd : cfg.dataBits = some 1) (hs0 : c0.dataBits = some 1) (hs1 : c1.dataBits = some 1)
    (h0 : c0.serverId = 0) (h1 : c1.serverId ≠ 0)
    {clients : List (List Bool × Nat)}
    (hcl : clients = (List.range n).map fun i => Spec.drawn cfg.histBuckets 1 (Spec.MainDraw.of draw i))
    (hlt : n < 2 ^ 64) :
    ∃ out, driverMain c0 c1 bld cfg .weightedHeavyHitters draw n kcs = .ok (.whh out) ∧
      out.results.map (fun r => (r.path, r.value))
        = Spec.heavyHitters cfg.histBuckets (max 1 cfg.threshold) 1 clients ∧
      out.printed = out.results.filter (fun r => decide (r.value.getD (cfg.histBuckets - 1) 0 ≠ 0)) ∧
      out.kcs.1.reportShares.map Prod.fst = List.replicate n true := by
  obtain ⟨reports, sh, hg, -, -, hp, hlen, hsh⟩ := mastic_picks (P := P) (mode := .weightedHeavyHitters) hs
    hprove (by simp) hd
  rw [driverMain_eq hs hg hp]
  have hcn : clients.length = n := by simp [hcl]
  have hK := keyed_of (P := P) (n := cfg.histBuckets) (d := 1) (cs := clients) (sh := sh) (hlen.trans hcn.symm) (by
    intro i c s hc hsi
    have hi : i < n := hcn ▸ (List.getElem?_eq_some_iff.1 hc).1
    obtain ⟨ks, p0, p, ps, jr, hgen, e⟩ := hsh i hi
    rw [e, Option.some.injEq] at hsi
    simp only [hcl, List.getElem?_map, List.getElem?_range hi, Option.map_some, Option.some.injEq] at hc
    subst hc hsi
    exact ⟨by simp [Spec.drawn], _, _, ⟨_, _, hgen, rfl⟩, rfl, rfl⟩)
  obtain ⟨hq, hw0, hw1, hF⟩ := hK.facts
  have k0 := wellFormed_reach (le_refl 1) hw0
  have k1 := wellFormed_reach (le_refl 1) hw1
  set u := uploaded P c0 c1 cfg draw.verifyKey sh with hu
  obtain ⟨a0, t0⟩ := treeInit_progress (kc := u.1) k0
  obtain ⟨a1, t1⟩ := treeInit_progress (kc := u.2) k1
  have hi : driverTreeInit u = .ok (a0, a1) := by
    simp only [driverTreeInit, t0, t1, ok_bind]
  obtain ⟨root0, f0, -⟩ := treeInit_fresh t0
  obtain ⟨root1, f1, -⟩ := treeInit_fresh t1
  have e0 : a0.reportShares = u.1.reportShares ∧ a0.inputLen = u.1.inputLen ∧ a0.serverId = u.1.serverId ∧
      a0.depth = u.1.depth := by
    unfold KeyCollection.treeInit at t0
    obtain ⟨keys, -, t0⟩ := bind_eq_ok.1 t0
    cases t0; exact ⟨rfl, rfl, rfl, rfl⟩
  have e1 : a1.reportShares = u.2.reportShares ∧ a1.inputLen = u.2.inputLen ∧ a1.serverId = u.2.serverId ∧
      a1.depth = u.2.depth := by
    unfold KeyCollection.treeInit at t1
    obtain ⟨keys, -, t1⟩ := bind_eq_ok.1 t1
    cases t1; exact ⟨rfl, rfl, rfl, rfl⟩
  have hB : Both cfg.histBuckets 1 0 u.1.reportShares u.2.reportShares
      (Spec.heavyPaths P cfg.histBuckets (max 1 cfg.threshold)
        (Spec.keyPairs u.1.reportShares u.2.reportShares) 0) ((a0, a1) : Pair2 P) := by
    rw [heavyPaths_zero]
    have b0 := f0.at (n := cfg.histBuckets) (d := 1) (first := true) (reports := u.1.reportShares)
      (e0.2.1.trans rfl) (by simpa [e0.2.2.1, hu, uploaded, KeyCollection.new] using h0) (e0.2.2.2.trans hs0) (by rw [e0.1])
    have b1 := f1.at (n := cfg.histBuckets) (d := 1) (first := false) (reports := u.2.reportShares)
      (e1.2.1.trans rfl) (by simpa [e1.2.2.1, hu, uploaded, KeyCollection.new] using h1) (e1.2.2.2.trans hs1) (by rw [e1.1])
    rw [← e0.1] at b0 ⊢
    rw [← e1.1] at b1 ⊢
    exact ⟨b0, b1⟩
  obtain ⟨out, e3, g0, g1, g2, g3⟩ := runLevelLast_quiet hB c0 c1 cfg n rfl hs.buckets (by simp [hd])
    hs.queryBatch k0 k1 hq.1 (.inl (proofs_quiet hq (heavyPaths_nodup _ _ _ _)
        fun p hp => by rw [heavyPaths_len p hp]))
  refine ⟨out, ?_, ?_, g3, ?_⟩
  · have hlev : levelCount bld cfg.dataBits = .ok 0 := by simp [levelCount, hd, unwrapO]
    unfold runWhh
    rw [hi, ok_bind, hlev, ok_bind]
    simp only [List.range_zero, foldE, ok_bind, e3]
  · rw [g2, survivors_heavyPaths]
    exact results_clients hF (le_refl 1) (hcn ▸ hlt) fun c hc => by
      rw [hcl] at hc
      obtain ⟨i, -, rfl⟩ := List.mem_map.1 hc
      simp [Spec.drawn]
  · rw [g0]
    simp [hu, uploaded, Function.comp_def, List.map_const', hlen]

/-- **C84, nobody left.**  With at least two bits, if the FLP proof of every client was tampered with – in
particular if there are no clients – the program panics in the first level. -/
theorem C84_nobody {c0 c1 : ServerCfg} {bld : Build} {cfg : Config} {draw : MainDraw}
    {n d : Nat} {kcs : Pair2 P} (hs : Spec.Sensible P cfg draw n) (hprove : Spec.Proves P cfg draw)
    (hd : cfg.dataBits = some d) (hs0 : c0.dataBits = some d) (hs1 : c1.dataBits = some d) (hd2 : 2 ≤ d)
    (h0 : c0.serverId = 0) (h1 : c1.serverId ≠ 0)
    (hrej : Spec.BumpsRejected P cfg.histBuckets d c0.serverId c1.serverId draw n)
    (hall : ∀ i < n, (draw.picks i).2 = some .flp) :
    driverMain c0 c1 bld cfg .weightedHeavyHitters draw n kcs = .error .index := by
  obtain ⟨reports, sh, hg, -, -, hp, hlen, hsh⟩ := mastic_picks (P := P) (mode := .weightedHeavyHitters) hs
    hprove (by simp) hd
  rw [driverMain_eq hs hg hp]
  have hK := keyed_of (P := P) (n := cfg.histBuckets) (d := d) (sh := sh)
    (cs := (List.range n).map fun i => Spec.drawn cfg.histBuckets d (Spec.MainDraw.of draw i)) (by simp [hlen]) (by
    intro i c s hc hsi
    have hi : i < n := by simpa using (List.getElem?_eq_some_iff.1 hc).1
    obtain ⟨ks, p0, p, ps, jr, hgen, e⟩ := hsh i hi
    rw [e, Option.some.injEq] at hsi
    simp only [List.getElem?_map, List.getElem?_range hi, Option.map_some, Option.some.injEq] at hc
    subst hc hsi
    exact ⟨by simp [Spec.drawn], _, _, ⟨_, _, hgen, rfl⟩, rfl, rfl⟩)
  obtain ⟨-, hw0, hw1, -⟩ := hK.facts
  set u := uploaded P c0 c1 cfg draw.verifyKey sh with hu
  obtain ⟨a0, a1, hi, ⟨e0r, e0n, e0s, -, e0d⟩, ⟨e1r, e1n, e1s, -, e1d⟩, hflp⟩ := whh_flp (c0 := c0) (c1 := c1)
    (bld := bld) (cfg := cfg) (d := d) (kcs := u) (num := n) (by omega) hs.queryBatch rfl rfl rfl
    (by simp [hu, uploaded, hlen]) (by simp [hu, uploaded, hlen]) hw0 hw1
    (keep := List.replicate n false) (by simp) (by
      intro i b0 b1 s0 s1 g0 g1
      have hi : i < n := by simpa [hu, uploaded, hlen] using (List.getElem?_eq_some_iff.1 g0).1
      obtain ⟨ks, p0, p, ps, jr, hgen, e⟩ := hsh i hi
      simp only [hu, uploaded, List.getElem?_map, e, Option.map_some, Option.some.injEq, Prod.mk.injEq] at g0 g1
      obtain ⟨rfl, rfl⟩ := g0
      obtain ⟨rfl, rfl⟩ := g1
      have hr := hrej i _ ks p0 ps p jr _ hi (hall i hi) hgen
      rw [hall i hi]
      obtain ⟨v0, v1, q0, q1, q2⟩ := hr
      exact ⟨v0, v1, false, q0, q1, q2, by simp [hi]⟩)
  obtain ⟨t0, t1⟩ := driverTreeInit_ok hi
  obtain ⟨root0, f0, -⟩ := treeInit_fresh t0
  obtain ⟨root1, f1, -⟩ := treeInit_fresh t1
  set r0 := Spec.masked u.1.reportShares (List.replicate n false) with hr0
  set r1 := Spec.masked u.2.reportShares (List.replicate n false) with hr1
  have m0 : r0.map Prod.snd = u.1.reportShares.map Prod.snd := masked_snd (by simp [hu, uploaded, hlen])
  have m1 : r1.map Prod.snd = u.2.reportShares.map Prod.snd := masked_snd (by simp [hu, uploaded, hlen])
  have hB : Both cfg.histBuckets d 0 r0 r1 [[]]
      (({ a0 with reportShares := r0 }, { a1 with reportShares := r1 }) : Pair2 P) :=
    ⟨f0.at (e0n.trans rfl) (by simpa [e0s, hu, uploaded, KeyCollection.new] using h0) (e0d.trans hs0) (by rw [m0]; simp only [e0r]),
      f1.at (e1n.trans rfl) (by simpa [e1s, hu, uploaded, KeyCollection.new] using h1) (e1d.trans hs1) (by rw [m1]; simp only [e1r])⟩
  have hk : KeysReach 0 r0 := by
    intro br hbr
    have : br.2 ∈ u.1.reportShares.map Prod.snd := m0 ▸ List.mem_map_of_mem hbr
    obtain ⟨br', hbr', e⟩ := List.mem_map.1 this
    obtain ⟨key, hkey, w1, w2⟩ := hw0 br' hbr'
    exact ⟨key, e ▸ hkey, w1, by omega⟩
  have hnob : ∀ r ∈ r0, r.1 = false := by
    intro r hr
    obtain ⟨i, hi⟩ := List.getElem?_of_mem hr
    simp only [hr0, Spec.masked, List.getElem?_zipWith] at hi
    split at hi
    · rename_i a b ha hb
      have : b = false := by
        have := List.mem_of_getElem? hb
        simpa using (List.mem_replicate.1 this).2
      simp only [Option.some.injEq] at hi
      rw [← hi, this]; simp
    · cases hi
  have hl := runLevel_nobody hB c0 c1 cfg n (by simp) (by omega) hk hnob
  have hlev : levelCount bld cfg.dataBits = .ok (d - 1) := by
    simp only [levelCount, hd, unwrapO, ok_bind]
    rw [if_neg (by omega)]
  have hrange : List.range (d - 1) = 0 :: List.range' 1 (d - 2) := by
    rw [List.range_eq_range', show d - 1 = (d - 2) + 1 by omega, List.range'_succ]
  have hstep : levelStep c0 c1 bld cfg n (a0, a1) 0 = .error .index := by
    simp only [levelStep, if_true, hflp, ok_bind, hl]
  unfold runWhh
  simp only [hi, ok_bind, hlev, hrange, foldE_cons, hstep, error_bind]

/-- **C84, no bits.**  With `data_bits = 0` no run with the driver's own clients completes: a debug driver fails
on `data_bits - 1`; in a release driver the subtraction wraps and the first of 2^64 - 1 levels panics. -/
theorem C84_no_bits {c0 c1 : ServerCfg} {bld : Build} {cfg : Config} {draw : MainDraw}
    {n : Nat} {kcs : Pair2 P} (hs : Spec.Sensible P cfg draw n) (hprove : Spec.Proves P cfg draw)
    (hd : cfg.dataBits = some 0) :
    (bld = .debug → driverMain c0 c1 bld cfg .weightedHeavyHitters draw n kcs = .error .overflow) ∧
    ∀ out, driverMain c0 c1 bld cfg .weightedHeavyHitters draw n kcs ≠ .ok out := by
  obtain ⟨reports, sh, hg, -, -, hp, hlen, hsh⟩ := mastic_picks (P := P) (mode := .weightedHeavyHitters) hs
    hprove (by simp) hd
  rw [driverMain_eq hs hg hp]
  set u := uploaded P c0 c1 cfg draw.verifyKey sh with hu
  have hkey : ∀ i < n, ∃ ks : VidpfKey × VidpfKey, ks.2.corWords = [] ∧ ks.2.keyIdx = true ∧
      ∃ s : ReportShare × ReportShare, sh[i]? = some s ∧ s.1.unwrapVidpfKey = .ok ks.1 ∧
        s.2.unwrapVidpfKey = .ok ks.2 := by
    intro i hi
    obtain ⟨ks, p0, p, ps, jr, hgen, e⟩ := hsh i hi
    have : Spec.HonestPair P cfg.histBuckets (Spec.drawn cfg.histBuckets 0 (Spec.MainDraw.of draw i)).1
        (Spec.drawn cfg.histBuckets 0 (Spec.MainDraw.of draw i)).2
        (.mastic (Spec.MainDraw.of draw i).rand.nonce ks.1 p0 jr)
        (.mastic (Spec.MainDraw.of draw i).rand.nonce ks.2 (p :: ps) jr) := ⟨_, _, hgen, rfl⟩
    obtain ⟨nonce, rs, beta, pr, proof, rand, -, -, -, e1⟩ := honestPair_parts this
    simp only [ReportShare.mastic.injEq] at e1
    refine ⟨ks, ?_, ?_, _, e, rfl, rfl⟩
    · rw [e1.2.1]; simp [Spec.drawn, VidpfKey.gen, genLoop]
    · rw [e1.2.1]; rfl
  have hshare : ∀ s ∈ sh, Returns s.1.unwrapVidpfKey ∧ Returns s.2.unwrapVidpfKey := by
    intro s hsm
    obtain ⟨i, hi⟩ := List.getElem?_of_mem hsm
    obtain ⟨ks, -, -, s', e, e1, e2⟩ := hkey i (hlen ▸ (List.getElem?_eq_some_iff.1 hi).1)
    rw [hi, Option.some.injEq] at e
    exact ⟨⟨_, e ▸ e1⟩, ⟨_, e ▸ e2⟩⟩
  obtain ⟨keys0, q0⟩ : Returns (mapE (fun r : Bool × ReportShare => r.2.unwrapVidpfKey) u.1.reportShares) := by
    rw [mapE_returns_iff]
    intro r hr
    obtain ⟨s, hsm, rfl⟩ := List.mem_map.1 hr
    exact (hshare s hsm).1
  obtain ⟨keys1, q1⟩ : Returns (mapE (fun r : Bool × ReportShare => r.2.unwrapVidpfKey) u.2.reportShares) := by
    rw [mapE_returns_iff]
    intro r hr
    obtain ⟨s, hsm, rfl⟩ := List.mem_map.1 hr
    exact (hshare s hsm).2
  obtain ⟨a0, t0⟩ : ∃ a0, u.1.treeInit = .ok a0 := ⟨_, by unfold KeyCollection.treeInit; rw [q0, ok_bind]⟩
  obtain ⟨a1, t1⟩ : ∃ a1, u.2.treeInit = .ok a1 := ⟨_, by unfold KeyCollection.treeInit; rw [q1, ok_bind]⟩
  have hi : driverTreeInit u = .ok (a0, a1) := by simp only [driverTreeInit, t0, t1, ok_bind]
  have hdebug : bld = .debug → (runWhh c0 c1 bld cfg u n >>= fun out => Except.ok (MainOut.whh out))
      = .error .overflow := by
    rintro rfl
    unfold runWhh
    rw [hi, ok_bind]
    simp [levelCount, hd, unwrapO, error_bind]
  refine ⟨hdebug, ?_⟩
  intro out hout
  cases bld with
  | debug => rw [hdebug rfl] at hout; cases hout
  | release =>
    obtain ⟨o, ho, -⟩ := bind_eq_ok.1 hout
    unfold runWhh at ho
    rw [hi, ok_bind] at ho
    obtain ⟨lv, hlv, ho⟩ := bind_eq_ok.1 ho
    have hpos : lv ≠ 0 := by
      rintro rfl
      simp [levelCount, hd, unwrapO] at hlv
    clear hlv
    obtain ⟨lv, rfl⟩ := Nat.exists_eq_succ_of_ne_zero hpos
    rw [List.range_succ_eq_map, foldE_cons] at ho
    obtain ⟨_, ho, -⟩ := bind_eq_ok.1 ho
    obtain ⟨k1, ho, -⟩ := bind_eq_ok.1 ho
    unfold levelStep at ho
    obtain ⟨k2, hf, hl⟩ := bind_eq_ok.1 ho
    simp only [if_true] at hf
    unfold driverFlp at hf
    obtain ⟨rs, hrs, hf⟩ := bind_eq_ok.1 hf
    obtain ⟨keeps, hkeeps, hf'⟩ := bind_eq_ok.1 hf
    dsimp only at hf'
    clear hf ho
    obtain ⟨root0, f0, w0⟩ := treeInit_fresh t0
    rcases Nat.eq_zero_or_pos n with rfl | hn
    · obtain ⟨k0', g0, hf2⟩ := bind_eq_ok.1 hf'
      obtain ⟨k1', -, hf3⟩ := bind_eq_ok.1 hf2
      cases hf3
      have hsh0 : sh = [] := List.eq_nil_of_length_eq_zero hlen
      have hkc : a0.reportShares = [] := by rw [w0]; simp [hu, uploaded, hsh0]
      simp only [whileRanges, Nat.lt_irrefl, if_false, Except.ok.injEq] at hrs
      subst hrs
      simp only [mapE, Except.ok.injEq] at hkeeps
      subst hkeeps
      have hk0 : k0' = a0 := by
        simp only [KeyCollection.applyFlpResults, hkc, List.flatten_nil, List.zipIdx_nil, foldE, ok_bind, assertE,
          List.length_nil, beq_self_eq_true, if_true, Except.ok.injEq] at g0
        rw [← g0, ← hkc]
      unfold runLevel searchLevel at hl
      obtain ⟨x, hl, -⟩ := bind_eq_ok.1 hl
      rw [show 0 + 3 = 2 + 1 from rfl, runLevelLoop] at hl
      obtain ⟨x, hl, -⟩ := bind_eq_ok.1 hl
      unfold crawlBoth at hl
      obtain ⟨x, hl, -⟩ := bind_eq_ok.1 hl
      unfold KeyCollection.treeCrawl at hl
      obtain ⟨x, hp', hl⟩ := bind_eq_ok.1 hl
      simp only [KeyCollection.crawlPrep, List.isEmpty_nil, if_true, Except.ok.injEq, hk0] at hp'
      subst hp'
      obtain ⟨⟨next, comb⟩, hc, hl⟩ := bind_eq_ok.1 hl
      obtain ⟨rs, hm, -⟩ := bind_eq_ok.1 hl
      unfold KeyCollection.crawlLevel at hc
      obtain ⟨_, -, hc⟩ := bind_eq_ok.1 hc
      obtain ⟨_, -, hc⟩ := bind_eq_ok.1 hc
      obtain ⟨_, -, hc⟩ := bind_eq_ok.1 hc
      obtain ⟨_, -, hc⟩ := bind_eq_ok.1 hc
      obtain ⟨comb', hcomb, hc⟩ := bind_eq_ok.1 hc
      simp only [includedIndices, hkc, List.zipIdx_nil, List.filter_nil, List.map_nil, mapE, Except.ok.injEq] at hcomb
      subst hcomb
      cases hc
      rw [merkleRoots_first_empty] at hm
      cases hm
    · obtain ⟨ks, hc, hki, s, hsi, -, hs2⟩ := hkey 0 hn
      have hmem := (whileRanges_mem hs.queryBatch n 0 rs (by omega) hrs (0, min n cfg.queryBatch)).2
        ⟨0, by simp, by simpa using hn⟩
      obtain ⟨j, hj⟩ := List.getElem?_of_mem hmem
      obtain ⟨b, -, hb⟩ := (mapE_eq_ok_iff_getElem.1 hkeeps).2 j _ hj
      unfold flpBatch at hb
      obtain ⟨_, -, hb⟩ := bind_eq_ok.1 hb
      obtain ⟨_, -, hb⟩ := bind_eq_ok.1 hb
      obtain ⟨_, -, hb⟩ := bind_eq_ok.1 hb
      obtain ⟨_, hb, -⟩ := bind_eq_ok.1 hb
      obtain ⟨keys, hkeys, ha1⟩ := treeInit_ok t1
      unfold KeyCollection.runFlpQueries at hb
      obtain ⟨root, hroot, hb⟩ := bind_eq_ok.1 hb
      obtain ⟨_, -, hb⟩ := bind_eq_ok.1 hb
      obtain ⟨_, -, hb⟩ := bind_eq_ok.1 hb
      obtain ⟨_, hb, -⟩ := bind_eq_ok.1 hb
      unfold KeyCollection.makeTreeNode at hb
      obtain ⟨evs, hb, -⟩ := bind_eq_ok.1 hb
      have hr0 : a1.reportShares[0]? = some (true, s.2) := by
        rw [ha1]; simp [hu, uploaded, hsi]
      obtain ⟨ev, -, hev⟩ := (mapE_eq_ok_iff_getElem.1 hb).2 0 ((true, s.2), 0) (by simp [hr0])
      unfold KeyCollection.evalClient at hev
      simp only [hs2, ok_bind] at hev
      obtain ⟨st, hst, hev⟩ := bind_eq_ok.1 hev
      have : st = ks.2.evalInit := by
        rw [ha1] at hroot
        simp only [idx, List.getElem?_cons_zero, Except.ok.injEq] at hroot
        rw [← hroot] at hst
        have hk := (mapE_eq_ok_iff_getElem.1 hkeys).2 0 (true, s.2) (by simp [hu, uploaded, hsi])
        obtain ⟨key, hk0, hk1⟩ := hk
        rw [hs2, Except.ok.injEq] at hk1
        simp only [idx_eq_ok, List.getElem?_map, hk0, Option.map_some, Option.some.injEq] at hst
        rw [← hst, ← hk1]
      rw [this, evalBit_no_bits hc hki] at hev
      cases hev

/-- **C84, no `data_bits`.**  Without `data_bits` the two Mastic modes fail while the reports are generated. -/
theorem C84_unset {c0 c1 : ServerCfg} {bld : Build} {cfg : Config} {mode : DriverMode} {draw : MainDraw}
    {n : Nat} {kcs : Pair2 P} (hs : Spec.Sensible P cfg draw n) (hm : mode ≠ .plainMetrics)
    (hd : cfg.dataBits = none) : driverMain c0 c1 bld cfg mode draw n kcs = .error .unwrap := by
  have hg : generateReport P cfg mode (draw.reports 0) = .error .unwrap := by
    have hb : cfg.histBuckets ≠ 0 := by have := hs.buckets; omega
    unfold generateReport
    rw [genRange, if_neg hb, ok_bind]
    cases mode with
    | plainMetrics => exact absurd rfl hm
    | weightedHeavyHitters => simp [hd, unwrapO, error_bind]
    | attributeBasedMetrics => simp [hd, unwrapO, error_bind]
  obtain ⟨m, hu⟩ := Nat.exists_eq_succ_of_ne_zero (show cfg.uniqueBuckets ≠ 0 by have := hs.unique; omega)
  have hr : generateReports P cfg mode draw.reports = .error .unwrap := by
    unfold generateReports
    rw [hu, List.range_succ_eq_map, mapE_cons, hg]
    simp [assertE, error_bind, ok_bind]
  unfold driverMain
  simp [assertE, hs.malicious, hs.hist, ok_bind, hr, error_bind]

/-! ## Non-vacuity -/

/-- One bit, three clients, the third with a tampered FLP proof: its string `0` is a heavy hitter for threshold 1,
and it stays included. -/
example (kcs : Pair2 toy) : ∃ out,
    driverMain (toyCfg 0 (some 1) .debug) (toyCfg 1 (some 1) .release) .debug ⟨some 1, 2, 2, 2, 2, 1⟩
      .weightedHeavyHitters toyDraw 3 kcs = .ok (.whh out) ∧
    out.results.map (fun r => (r.path, r.value)) = [([false], [1, 0, 1]), ([true], [0, 2, 2])] ∧
    out.kcs.1.reportShares.map Prod.fst = [true, true, true] := by
  obtain ⟨out, g1, g2, -, g3⟩ := C84_one_bit (P := toy) (c0 := toyCfg 0 (some 1) .debug)
    (c1 := toyCfg 1 (some 1) .release) (bld := .debug) (cfg := ⟨some 1, 2, 2, 2, 2, 1⟩) (draw := toyDraw)
    (n := 3) (kcs := kcs) ⟨rfl, rfl, rfl, by decide, by decide, by decide, by decide, by decide⟩ toy_proves rfl rfl
    rfl rfl (by decide) rfl (by decide)
  exact ⟨out, g1, g2.trans (by decide +kernel), g3⟩

/-- One bit, no clients: nothing is printed. -/
example (kcs : Pair2 toy) : ∃ out,
    driverMain (toyCfg 0 (some 1) .debug) (toyCfg 1 (some 1) .release) .debug ⟨some 1, 2, 2, 2, 2, 1⟩
      .weightedHeavyHitters toyDraw 0 kcs = .ok (.whh out) ∧ out.results = [] := by
  obtain ⟨out, g1, g2, -, -⟩ := C84_one_bit (P := toy) (c0 := toyCfg 0 (some 1) .debug)
    (c1 := toyCfg 1 (some 1) .release) (bld := .debug) (cfg := ⟨some 1, 2, 2, 2, 2, 1⟩) (draw := toyDraw)
    (n := 0) (kcs := kcs) ⟨rfl, rfl, rfl, by decide, by decide, by decide, by decide, by decide⟩ toy_proves rfl rfl
    rfl rfl (by decide) rfl (by decide)
  refine ⟨out, g1, ?_⟩
  have : out.results.map (fun r => (r.path, r.value)) = [] := g2.trans (by decide +kernel)
  simpa using this

/-- The draws of `toyDraw` with every client tampering with its FLP proof. -/
def tamperDraw : MainDraw := { toyDraw with picks := fun _ => (1, some .flp) }

theorem tamper_bumpsRejected (n : Nat) : Spec.BumpsRejected toy 2 2 0 1 tamperDraw n := by
  intro i nonce ks p0 ps p jr alpha hi ht hg
  have key : toyBumpRejected (genMasticReport toy 2 (Spec.drawn 2 2 (toyDraw.reports 0)).1
      (Spec.drawn 2 2 (toyDraw.reports 0)).2 (toyDraw.reports 0).rand) = true := by
    decide +kernel
  have hg' : genMasticReport toy 2 (Spec.drawn 2 2 (toyDraw.reports 0)).1
      (Spec.drawn 2 2 (toyDraw.reports 0)).2 (toyDraw.reports 0).rand = .ok (.mastic nonce ks (p0, p :: ps) jr alpha) := hg
  rw [hg'] at key
  unfold toyBumpRejected at key
  dsimp only at key
  split at key
  · rename_i v0 v1 e0 e1
    exact ⟨v0, v1, e0, e1, by simpa using key⟩
  · cases key

/-- Two bits and any number of clients, all with tampered proofs. -/
example (n : Nat) (kcs : Pair2 toy) :
    driverMain (toyCfg 0 (some 2) .debug) (toyCfg 1 (some 2) .release) .debug ⟨some 2, 2, 2, 2, 2, 2⟩
      .weightedHeavyHitters tamperDraw n kcs = .error .index :=
  C84_nobody (P := toy) (d := 2) ⟨rfl, rfl, rfl, by decide, by decide, by decide, by decide,
    fun i _ => ⟨le_refl 1, show 1 ≤ 2 by decide⟩⟩ toy_proves rfl rfl rfl le_rfl rfl (by decide)
    (tamper_bumpsRejected n) fun _ _ => rfl

/-- No bits, three clients. -/
example (bld : Build) (kcs : Pair2 toy) (out : MainOut toy) :
    driverMain (toyCfg 0 (some 0) .debug) (toyCfg 1 (some 0) .release) bld ⟨some 0, 2, 2, 2, 2, 2⟩
      .weightedHeavyHitters toyDraw 3 kcs ≠ .ok out :=
  (C84_no_bits (P := toy) ⟨rfl, rfl, rfl, by decide, by decide, by decide, by decide, by decide⟩ toy_proves
    rfl).2 out

end Mastic
