import Verif.Lemmas.Run

/-!
# Whole runs on arbitrary reports: C61

`Spec.wholeRun` is a small machine over the two report lists and the list of prefixes: it knows nothing about
frontiers, evaluation states, Merkle trees, batches of requests or the servers' other fields.  `keep` holds the
decisions of the FLP verification.  `hsep`: no truncated BLAKE3 collision between the digests that the machine
meets.
-/

namespace Mastic

variable {P : Prims}

/-- **C61.** A whole run on arbitrary well-formed reports, cheaters anywhere, panics included, is the run of the
machine: the same panic, or else the same report lists and the same results. -/
theorem C61_run_refines {c0 c1 : ServerCfg} {bld : Build} {cfg : Config} {kcs : Pair2 P} {d num : Nat}
    (hd : cfg.dataBits = some d) (hd2 : 2 ≤ d) (hb : 1 ≤ cfg.queryBatch) (hn : 1 ≤ cfg.histBuckets)
    (hn0 : kcs.1.inputLen = cfg.histBuckets) (hn1 : kcs.2.inputLen = cfg.histBuckets)
    (h0 : kcs.1.serverId = 0) (h1 : kcs.2.serverId ≠ 0) (hvk : kcs.1.verifyKey = kcs.2.verifyKey)
    (d0 : kcs.1.depth = some d) (d1 : kcs.2.depth = some d)
    (l0 : kcs.1.reportShares.length = num) (l1 : kcs.2.reportShares.length = num)
    (hf : kcs.1.reportShares.map Prod.fst = kcs.2.reportShares.map Prod.fst)
    (hw0 : ∀ br ∈ kcs.1.reportShares, Spec.WellFormed d br.2)
    (hw1 : ∀ br ∈ kcs.2.reportShares, Spec.WellFormed d br.2)
    {keep : List Bool} (hkl : keep.length = num)
    (hdec : ∀ (i : Nat) (b0 b1 : Bool) (s0 s1 : ReportShare), kcs.1.reportShares[i]? = some (b0, s0) →
      kcs.2.reportShares[i]? = some (b1, s1) → ∃ v0 v1 b,
        Spec.verifierOf P cfg.histBuckets kcs.1.serverId kcs.1.verifyKey s0 = some v0 ∧
        Spec.verifierOf P cfg.histBuckets kcs.2.serverId kcs.1.verifyKey s1 = some v1 ∧
        P.flpDecide cfg.histBuckets (Spec.addShares v0 v1) = some b ∧ keep[i]? = some b)
    (hlog : ∀ x ≤ num, P.ceilLog2 x = Nat.clog 2 x)
    (hsep : Spec.SeparatedRun P cfg.histBuckets (max 1 cfg.threshold) d
      (Spec.masked kcs.1.reportShares keep) (Spec.masked kcs.2.reportShares keep)) :
    match Spec.wholeRun P cfg.histBuckets (max 1 cfg.threshold) cfg.queryBatch d
      (Spec.masked kcs.1.reportShares keep) (Spec.masked kcs.2.reportShares keep) with
    | .error e => runWhh c0 c1 bld cfg kcs num = .error e
    | .ok (s, res) => ∃ out, runWhh c0 c1 bld cfg kcs num = .ok out ∧
        out.kcs.1.reportShares = s.r0 ∧ out.kcs.2.reportShares = s.r1 ∧
        out.results.map (fun r => (r.path, r.value)) = res ∧
        out.printed = out.results.filter fun r => decide (r.value.getD (cfg.histBuckets - 1) 0 ≠ 0) := by
  have m0 : (Spec.masked kcs.1.reportShares keep).map Prod.snd
      = kcs.1.reportShares.map Prod.snd := masked_snd (by rw [l0, hkl])
  have m1 : (Spec.masked kcs.2.reportShares keep).map Prod.snd
      = kcs.2.reportShares.map Prod.snd := masked_snd (by rw [l1, hkl])
  have ml : (Spec.masked kcs.1.reportShares keep).length = num := by
    rw [← List.length_map (f := Prod.snd), m0, List.length_map, l0]
  have mf : (Spec.masked kcs.1.reportShares keep).map Prod.fst
      = (Spec.masked kcs.2.reportShares keep).map Prod.fst := by
    refine List.ext_getElem? fun i => ?_
    have := congrArg (fun l => l[i]?) hf
    simp only [List.getElem?_map] at this
    simp only [Spec.masked, List.getElem?_map, List.getElem?_zipWith]
    cases h0 : kcs.1.reportShares[i]? <;> cases h1 : kcs.2.reportShares[i]? <;> cases keep[i]? <;>
      simp_all
  obtain ⟨a0, a1, hi, ⟨e0r, e0n, e0s, -, e0d⟩, ⟨e1r, e1n, e1s, -, e1d⟩, hflp⟩ := whh_flp (c0 := c0) (c1 := c1)
    (bld := bld) (cfg := cfg) (d := d) (by omega) hb hn0 hn1 hvk l0 l1 hw0 hw1 hkl hdec
  have hL := C30_start hi ⟨hn0, hn1⟩ ⟨h0, h1⟩ ⟨d0, d1⟩ m0 m1 mf (by
    intro r hr
    have : ∃ br ∈ kcs.1.reportShares ++ kcs.2.reportShares, br.2 = r.2 := by
      have : r.2 ∈ (kcs.1.reportShares ++ kcs.2.reportShares).map Prod.snd := by
        rw [List.map_append, ← m0, ← m1, ← List.map_append]
        exact List.mem_map_of_mem hr
      exact List.mem_map.1 this
    obtain ⟨br, hbr, he⟩ := this
    rw [← he]
    rcases List.mem_append.1 hbr with hbr | hbr
    · exact hw0 br hbr
    · exact hw1 br hbr)
  have hR : RunAt cfg.histBuckets d 0 ⟨Spec.masked kcs.1.reportShares keep,
      Spec.masked kcs.2.reportShares keep, [[]]⟩ (P := P)
      ({ a0 with reportShares := Spec.masked kcs.1.reportShares keep },
        { a1 with reportShares := Spec.masked kcs.2.reportShares keep }) := ⟨hL, rfl, rfl⟩
  have hlev : levelCount bld cfg.dataBits = .ok (d - 1) := by
    simp only [levelCount, hd, unwrapO, ok_bind]
    rw [if_neg (by omega)]
  have hrange : List.range (d - 1) = 0 :: List.range' 1 (d - 2) := by
    rw [List.range_eq_range', show d - 1 = (d - 2) + 1 by omega, List.range'_succ]
  have hstep : levelStep c0 c1 bld cfg num (a0, a1) 0 = runLevel c0 c1 cfg
      ({ a0 with reportShares := Spec.masked kcs.1.reportShares keep },
        { a1 with reportShares := Spec.masked kcs.2.reportShares keep }) num := by
    simp only [levelStep, if_true, hflp, ok_bind]
  have hrun : runWhh c0 c1 bld cfg kcs num = (do
      let kcs ← runLevel c0 c1 cfg
        ({ a0 with reportShares := Spec.masked kcs.1.reportShares keep },
          { a1 with reportShares := Spec.masked kcs.2.reportShares keep }) num
      let kcs ← foldE (levelStep c0 c1 bld cfg num) kcs (List.range' 1 (d - 2))
      runLevelLast c0 c1 cfg kcs num) := by
    unfold runWhh
    rw [hi, ok_bind, hlev, ok_bind, hrange, foldE_cons, hstep]
    cases runLevel c0 c1 cfg
      (({ a0 with reportShares := Spec.masked kcs.1.reportShares keep },
        { a1 with reportShares := Spec.masked kcs.2.reportShares keep }) : Pair2 P) num <;> rfl
  rw [hrun]
  clear hrun hstep hrange hlev
  have hfirst := hR.level_run (cfg := cfg) c0 c1 rfl (by omega) (by simpa only [ml] using hlog) (hsep 0 (by omega) _ rfl)
  dsimp only at hfirst
  rw [ml] at hfirst
  unfold Spec.wholeRun
  rw [show d - 1 = (d - 2) + 1 by omega, levelsRun_first]
  have hsep' : ∀ t, Spec.levelRun P cfg.histBuckets (max 1 cfg.threshold) ⟨Spec.masked kcs.1.reportShares keep,
      Spec.masked kcs.2.reportShares keep, [[]]⟩ = .ok t → ∀ j < d - 2, ∀ t',
      Spec.levelsRun P cfg.histBuckets (max 1 cfg.threshold) j t = .ok t' →
      Spec.SeparatedAt P cfg.histBuckets t' := by
    intro t ht j hj t' ht'
    refine hsep (j + 1) (by omega) t' ?_
    rw [levelsRun_first, ht]
    exact ht'
  cases hs : Spec.levelRun P cfg.histBuckets (max 1 cfg.threshold) ⟨Spec.masked kcs.1.reportShares keep,
      Spec.masked kcs.2.reportShares keep, [[]]⟩ with
  | error e =>
    rw [hs] at hfirst
    dsimp only at hfirst
    rw [hfirst]
    rfl
  | ok s1 =>
    rw [hs] at hfirst
    obtain ⟨kcs1, e1, hR1⟩ := hfirst
    rw [e1, ok_bind]
    have hl1 := (levelRun_length hs).trans ml
    have hmid := hR1.levels_run (cfg := cfg) c0 c1 bld rfl (by omega) num hlog hl1 (d - 2) (by omega)
      (hsep' s1 hs)
    dsimp only [Except.bind]
    cases hs2 : Spec.levelsRun P cfg.histBuckets (max 1 cfg.threshold) (d - 2) s1 with
    | error e =>
      rw [hs2] at hmid
      dsimp only at hmid
      rw [hmid]
      rfl
    | ok s2 =>
      rw [hs2] at hmid
      obtain ⟨kcs2, e2, hR2, hl2⟩ := hmid
      rw [e2, ok_bind]
      have hlast := hR2.last_run (cfg := cfg) c0 c1 rfl hn (by omega) (by simp [hd]) hb
      rw [hl2] at hlast
      dsimp only [Except.bind]
      cases hs3 : Spec.lastRun P cfg.histBuckets (max 1 cfg.threshold) cfg.queryBatch s2 with
      | error e =>
        rw [hs3] at hlast
        exact hlast
      | ok res =>
        rw [hs3] at hlast
        exact hlast

/-- The FLP verification accepts every toy report. -/
def mixAccepted (r0 r1 : List (Bool × ReportShare)) : Bool :=
  (r0.zip r1).all fun x => decide ((do
    let v0 ← Spec.verifierOf mixToy 2 0 Block.zero x.1.2
    let v1 ← Spec.verifierOf mixToy 2 1 Block.zero x.2.2
    mixToy.flpDecide 2 (Spec.addShares v0 v1)) = some true)

/-- The hypotheses of `C61_run_refines` for the toy reports, by computation. -/
theorem mix_run {flags : List Bool} {cheat : List Nat} {batch thr num : Nat} (hb : 1 ≤ batch)
    (h : twoLevels (mixR flags cheat false ++ mixR flags cheat true) = true)
    (hf : (mixR flags cheat false).map Prod.fst = (mixR flags cheat true).map Prod.fst)
    (hl : (mixR flags cheat false).length = num)
    (ha : mixAccepted (mixR flags cheat false) (mixR flags cheat true) = true)
    (hs : Spec.Separated mixToy (Spec.digests mixToy 2 true [[]] (mixR flags cheat false))
      (Spec.digests mixToy 2 false [[]] (mixR flags cheat true))) :
    ∃ kcs : Pair2 mixToy, kcs.1.reportShares = mixR flags cheat false ∧
      kcs.2.reportShares = mixR flags cheat true ∧
      match Spec.wholeRun mixToy 2 (max 1 thr) batch 2 (mixR flags cheat false) (mixR flags cheat true) with
      | .error e => runWhh (toyCfg 0 (some 2) .debug) (toyCfg 1 (some 2) .debug) .debug
          ⟨some 2, 2, 1, batch, 1, thr⟩ kcs num = .error e
      | .ok (s, res) => ∃ out, runWhh (toyCfg 0 (some 2) .debug) (toyCfg 1 (some 2) .debug) .debug
          ⟨some 2, 2, 1, batch, 1, thr⟩ kcs num = .ok out ∧
        out.kcs.1.reportShares = s.r0 ∧ out.kcs.2.reportShares = s.r1 ∧
        out.results.map (fun r => (r.path, r.value)) = res ∧
        out.printed = out.results.filter fun r => decide (r.value.getD 1 0 ≠ 0) := by
  have hk := twoLevels_iff h
  have hl1 : (mixR flags cheat true).length = num := by
    rw [← hl, ← List.length_map (f := Prod.fst), ← hf, List.length_map]
  have := C61_run_refines (P := mixToy) (c0 := toyCfg 0 (some 2) .debug) (c1 := toyCfg 1 (some 2) .debug)
    (bld := .debug) (cfg := ⟨some 2, 2, 1, batch, 1, thr⟩) (d := 2) (num := num)
    (kcs := ({ KeyCollection.new mixToy 2 0 (some 2) Block.zero with reportShares := mixR flags cheat false },
      { KeyCollection.new mixToy 2 1 (some 2) Block.zero with reportShares := mixR flags cheat true }))
    (keep := List.replicate num true) rfl le_rfl hb (by show 1 ≤ 2; omega) rfl rfl rfl (by show (1 : Int) ≠ 0; decide)
    rfl rfl rfl hl hl1 hf
    (fun br hbr => hk br (List.mem_append_left _ hbr)) (fun br hbr => hk br (List.mem_append_right _ hbr))
    (by simp) (by
      intro i b0 b1 s0 s1 g0 g1
      have hm : ((b0, s0), (b1, s1)) ∈ (mixR flags cheat false).zip (mixR flags cheat true) := by
        refine List.mem_of_getElem? (i := i) ?_
        rw [List.getElem?_zip_eq_some]
        exact ⟨g0, g1⟩
      have := List.all_eq_true.1 ha _ hm
      rw [decide_eq_true_iff] at this
      have hi : i < num := hl ▸ (List.getElem?_eq_some_iff.1 g0).1
      obtain ⟨v0, e0, this⟩ := Option.bind_eq_some_iff.1 this
      obtain ⟨v1, e1, this⟩ := Option.bind_eq_some_iff.1 this
      exact ⟨v0, v1, true, e0, e1, this, by simp [hi]⟩) (fun x _ => toy_clog x) (by
      intro k hk t ht _
      obtain rfl : k = 0 := by omega
      cases ht
      dsimp only
      rw [masked_all hl, masked_all hl1]
      exact hs)
  dsimp only at this
  rw [masked_all hl, masked_all hl1] at this
  exact ⟨_, rfl, rfl, this⟩

/-- Four included clients holding `10` with weight 1, two of them with an altered correction seed on one server:
the run excludes these two and reports the string with two holders. -/
example : ∃ (kcs : Pair2 mixToy) (out : WhhOut mixToy), kcs.1.reportShares.length = 4 ∧
    runWhh (toyCfg 0 (some 2) .debug) (toyCfg 1 (some 2) .debug) .debug ⟨some 2, 2, 1, 2, 1, 2⟩ kcs 4 = .ok out ∧
    out.kcs.1.reportShares.map Prod.fst = [true, false, true, false] ∧
    out.results.map (fun r => (r.path, r.value)) = [([true, false], [0, 2, 2])] := by
  obtain ⟨kcs, e0, -, h⟩ := mix_run (flags := [true, true, true, true]) (cheat := [1, 3]) (batch := 2) (thr := 2)
    (num := 4) (by decide) (by decide +kernel) (by decide +kernel) (by decide +kernel) (by decide +kernel)
    (separated_of (by decide +kernel))
  have hw : (Spec.wholeRun mixToy 2 (max 1 2) 2 2 (mixR [true, true, true, true] [1, 3] false)
      (mixR [true, true, true, true] [1, 3] true)).map (fun x => (x.1.r0.map Prod.fst, x.2))
      = .ok ([true, false, true, false], [([true, false], [0, 2, 2])]) := by decide +kernel
  generalize Spec.wholeRun mixToy 2 (max 1 2) 2 2 (mixR [true, true, true, true] [1, 3] false)
      (mixR [true, true, true, true] [1, 3] true) = w at h hw
  rcases w with e | ⟨s, res⟩
  · cases hw
  · obtain ⟨out, g, g0, -, g2, -⟩ := h
    simp only [Except.map, Except.ok.injEq, Prod.mk.injEq] at hw
    exact ⟨kcs, out, by rw [e0]; decide +kernel, g, by rw [g0]; exact hw.1, g2.trans hw.2⟩

/-- One cheater, the fourth client, and the first client was excluded before the run: the run excludes the honest
third client and counts the cheater. -/
example : ∃ (kcs : Pair2 mixToy) (out : WhhOut mixToy),
    kcs.1.reportShares.map Prod.fst = [false, true, true, true] ∧
    runWhh (toyCfg 0 (some 2) .debug) (toyCfg 1 (some 2) .debug) .debug ⟨some 2, 2, 1, 2, 1, 2⟩ kcs 4 = .ok out ∧
    out.kcs.1.reportShares.map Prod.fst = [false, true, false, true] ∧
    out.results.map (fun r => (r.path, r.value)) = [([true, false], [0, 2, 2])] := by
  obtain ⟨kcs, e0, -, h⟩ := mix_run (flags := [false, true, true, true]) (cheat := [3]) (batch := 2) (thr := 2)
    (num := 4) (by decide) (by decide +kernel) (by decide +kernel) (by decide +kernel) (by decide +kernel)
    (separated_of (by decide +kernel))
  have hw : (Spec.wholeRun mixToy 2 (max 1 2) 2 2 (mixR [false, true, true, true] [3] false)
      (mixR [false, true, true, true] [3] true)).map (fun x => (x.1.r0.map Prod.fst, x.2))
      = .ok ([false, true, false, true], [([true, false], [0, 2, 2])]) := by decide +kernel
  generalize Spec.wholeRun mixToy 2 (max 1 2) 2 2 (mixR [false, true, true, true] [3] false)
      (mixR [false, true, true, true] [3] true) = w at h hw
  rcases w with e | ⟨s, res⟩
  · cases hw
  · obtain ⟨out, g, g0, -, g2, -⟩ := h
    simp only [Except.map, Except.ok.injEq, Prod.mk.injEq] at hw
    exact ⟨kcs, out, by rw [e0]; decide +kernel, g, by rw [g0]; exact hw.1, g2.trans hw.2⟩

/-- **C61, builds and batches.** The panic or the results and exclusions of a run do not depend on the build
profiles of the driver and the servers, nor on the servers' own configurations. -/
theorem C61_build_independent {c0 c1 c0' c1' : ServerCfg} {bld bld' : Build} {cfg : Config} {kcs : Pair2 P}
    {d num : Nat}
    (hd : cfg.dataBits = some d) (hd2 : 2 ≤ d) (hb : 1 ≤ cfg.queryBatch) (hn : 1 ≤ cfg.histBuckets)
    (hn0 : kcs.1.inputLen = cfg.histBuckets) (hn1 : kcs.2.inputLen = cfg.histBuckets)
    (h0 : kcs.1.serverId = 0) (h1 : kcs.2.serverId ≠ 0) (hvk : kcs.1.verifyKey = kcs.2.verifyKey)
    (d0 : kcs.1.depth = some d) (d1 : kcs.2.depth = some d)
    (l0 : kcs.1.reportShares.length = num) (l1 : kcs.2.reportShares.length = num)
    (hf : kcs.1.reportShares.map Prod.fst = kcs.2.reportShares.map Prod.fst)
    (hw0 : ∀ br ∈ kcs.1.reportShares, Spec.WellFormed d br.2)
    (hw1 : ∀ br ∈ kcs.2.reportShares, Spec.WellFormed d br.2)
    {keep : List Bool} (hkl : keep.length = num)
    (hdec : ∀ (i : Nat) (b0 b1 : Bool) (s0 s1 : ReportShare), kcs.1.reportShares[i]? = some (b0, s0) →
      kcs.2.reportShares[i]? = some (b1, s1) → ∃ v0 v1 b,
        Spec.verifierOf P cfg.histBuckets kcs.1.serverId kcs.1.verifyKey s0 = some v0 ∧
        Spec.verifierOf P cfg.histBuckets kcs.2.serverId kcs.1.verifyKey s1 = some v1 ∧
        P.flpDecide cfg.histBuckets (Spec.addShares v0 v1) = some b ∧ keep[i]? = some b)
    (hlog : ∀ x ≤ num, P.ceilLog2 x = Nat.clog 2 x)
    (hsep : Spec.SeparatedRun P cfg.histBuckets (max 1 cfg.threshold) d
      (Spec.masked kcs.1.reportShares keep) (Spec.masked kcs.2.reportShares keep)) :
    (runWhh c0 c1 bld cfg kcs num).map (fun out =>
        (out.results.map (fun r => (r.path, r.value)), out.kcs.1.reportShares, out.kcs.2.reportShares))
      = (runWhh c0' c1' bld' cfg kcs num).map (fun out =>
        (out.results.map (fun r => (r.path, r.value)), out.kcs.1.reportShares, out.kcs.2.reportShares)) := by
  have a := C61_run_refines (c0 := c0) (c1 := c1) (bld := bld) hd hd2 hb hn hn0 hn1 h0 h1 hvk d0 d1 l0 l1 hf
    hw0 hw1 hkl hdec hlog hsep
  have b := C61_run_refines (c0 := c0') (c1 := c1') (bld := bld') hd hd2 hb hn hn0 hn1 h0 h1 hvk d0 d1 l0 l1 hf
    hw0 hw1 hkl hdec hlog hsep
  generalize Spec.wholeRun P cfg.histBuckets (max 1 cfg.threshold) cfg.queryBatch d
      (Spec.masked kcs.1.reportShares keep) (Spec.masked kcs.2.reportShares keep) = w at a b
  rcases w with e | ⟨s, res⟩
  · dsimp only at a b
    rw [a, b]
  · obtain ⟨out, x0, x1, x2, x3, -⟩ := a
    obtain ⟨out', y0, y1, y2, y3, -⟩ := b
    rw [x0, y0]
    simp only [Except.map, x1, x2, x3, y1, y2, y3]

/-! ### Cheaters that the first digests expose -/

theorem mixed_of_caught {n d : Nat} {id0 id1 : Int} {vk : Block} :
    ∀ {cs : List (Option (List Bool × Nat))} {rs0 rs1 : List (Bool × ReportShare)},
    Spec.CaughtPopulation P n d id0 id1 vk cs rs0 rs1 →
    Mixed P n d cs (Spec.masked rs0 (cs.map Option.isSome)) (Spec.masked rs1 (cs.map Option.isSome))
  | [], rs0, rs1, h => by
    obtain ⟨h0, h1, -⟩ := h
    rw [List.eq_nil_of_length_eq_zero h0, List.eq_nil_of_length_eq_zero h1]
    exact .nil
  | c :: cs, [], _, h => by simp [Spec.CaughtPopulation] at h
  | c :: cs, _ :: _, [], h => by simp [Spec.CaughtPopulation] at h
  | c :: cs, (b0, s0) :: rs0, (b1, s1) :: rs1, h => by
    obtain ⟨h0, h1, h2⟩ := h
    have ih := mixed_of_caught (cs := cs) (rs0 := rs0) (rs1 := rs1)
      ⟨by simpa using h0, by simpa using h1, fun i c b0 b1 s0 s1 g0 g1 g2 =>
        h2 (i + 1) c b0 b1 s0 s1 (by simpa using g0) (by simpa using g1) (by simpa using g2)⟩
    obtain ⟨rfl, rfl, h3⟩ := h2 0 c b0 b1 s0 s1 rfl rfl rfl
    cases c with
    | none => exact .out h3.1 h3.2.1 ih
    | some c => exact .honest (c := c) h3.1 h3.2.1 ih

theorem Mixed.any {n d : Nat} {cs : List (Option (List Bool × Nat))}
    {r0 r1 : List (Bool × ReportShare)} (h : Mixed P n d cs r0 r1) (hne : cs.filterMap id ≠ []) :
    Spec.anyIncluded r0 = true := by
  have := included_ne h hne
  rw [← List.length_pos_iff, included_count, List.countP_pos_iff] at this
  exact anyIncluded_iff.2 this

/-- **C61, cheaters exposed at once.** Honest clients and clients that pass the FLP verification but whose first
check digests differ, in any mixture: if some string is held by enough honest clients, the run completes, exactly
the cheaters are excluded, and the results are exactly the heavy hitters of the honest clients. -/
theorem C61_exact_despite_caught {c0 c1 : ServerCfg} {bld : Build} {cfg : Config} {kcs : Pair2 P}
    {d : Nat} {clients : List (Option (List Bool × Nat))}
    (hd : cfg.dataBits = some d) (hd2 : 2 ≤ d) (hb : 1 ≤ cfg.queryBatch)
    (hn0 : kcs.1.inputLen = cfg.histBuckets) (hn1 : kcs.2.inputLen = cfg.histBuckets)
    (h0 : kcs.1.serverId = 0) (h1 : kcs.2.serverId ≠ 0) (hvk : kcs.1.verifyKey = kcs.2.verifyKey)
    (d0 : kcs.1.depth = some d) (d1 : kcs.2.depth = some d)
    (hp : Spec.CaughtPopulation P cfg.histBuckets d kcs.1.serverId kcs.2.serverId kcs.1.verifyKey clients
      kcs.1.reportShares kcs.2.reportShares)
    (hlog : ∀ x ≤ clients.length, P.ceilLog2 x = Nat.clog 2 x)
    (hsep : Spec.Separated P (Spec.digests P cfg.histBuckets true [[]] kcs.1.reportShares)
      (Spec.digests P cfg.histBuckets false [[]] kcs.2.reportShares))
    (hlt : (clients.filterMap id).length < 2 ^ 64)
    (hheavy : Spec.heavyHitters cfg.histBuckets (max 1 cfg.threshold) d (clients.filterMap id) ≠ []) :
    ∃ out, runWhh c0 c1 bld cfg kcs clients.length = .ok out ∧
      out.results.map (fun r => (r.path, r.value))
        = Spec.heavyHitters cfg.histBuckets (max 1 cfg.threshold) d (clients.filterMap id) ∧
      out.kcs.1.reportShares = Spec.masked kcs.1.reportShares (clients.map Option.isSome) ∧
      out.kcs.2.reportShares = Spec.masked kcs.2.reportShares (clients.map Option.isSome) := by
  have hne : clients.filterMap id ≠ [] := by
    intro he
    rw [he] at hheavy
    apply hheavy
    simp only [Spec.heavyHitters, List.countP_nil, List.map_eq_nil_iff, List.filter_eq_nil_iff]
    intro s _
    simp
  have hM := mixed_of_caught hp
  obtain ⟨hq, hw0, hw1, hF⟩ := hM.facts
  have hany := hM.any hne
  have wf : ∀ {r r' : List (Bool × ReportShare)},
      r'.map Prod.snd = r.map Prod.snd → (∀ br ∈ r', Spec.WellFormed d br.2) →
      ∀ br ∈ r, Spec.WellFormed d br.2 := by
    intro r r' he hw br hbr
    have : br.2 ∈ r'.map Prod.snd := he ▸ List.mem_map_of_mem hbr
    obtain ⟨br', hbr', e⟩ := List.mem_map.1 this
    rw [← e]; exact hw br' hbr'
  replace hw0 := wf (masked_snd (by rw [hp.1, List.length_map])) hw0
  replace hw1 := wf (masked_snd (by rw [hp.2.1, List.length_map])) hw1
  -- every report, by index
  have hget : ∀ i, i < clients.length → ∃ c s0 s1, clients[i]? = some c ∧
      kcs.1.reportShares[i]? = some (true, s0) ∧ kcs.2.reportShares[i]? = some (true, s1) := by
    intro i hi
    obtain ⟨⟨b0, s0⟩, g0⟩ : ∃ x, kcs.1.reportShares[i]? = some x := ⟨_, List.getElem?_eq_getElem (hp.1 ▸ hi)⟩
    obtain ⟨⟨b1, s1⟩, g1⟩ : ∃ x, kcs.2.reportShares[i]? = some x := ⟨_, List.getElem?_eq_getElem (hp.2.1 ▸ hi)⟩
    have g := List.getElem?_eq_getElem hi
    obtain ⟨rfl, rfl, -⟩ := hp.2.2 i _ _ _ _ _ g g0 g1
    exact ⟨_, s0, s1, g, g0, g1⟩
  have hall : ∀ x ∈ kcs.1.reportShares, x.1 = true := by
    intro x hx
    obtain ⟨i, hi⟩ := List.getElem?_of_mem hx
    obtain ⟨c, s0, s1, -, g0, -⟩ := hget i (hp.1 ▸ (List.getElem?_eq_some_iff.1 hi).1)
    rw [g0] at hi; cases hi; rfl
  have hall1 : ∀ x ∈ kcs.2.reportShares, x.1 = true := by
    intro x hx
    obtain ⟨i, hi⟩ := List.getElem?_of_mem hx
    obtain ⟨c, s0, s1, -, -, g1⟩ := hget i (hp.2.1 ▸ (List.getElem?_eq_some_iff.1 hi).1)
    rw [g1] at hi; cases hi; rfl
  have hflags : kcs.1.reportShares.map Prod.fst = kcs.2.reportShares.map Prod.fst := by
    rw [List.map_congr_left (g := fun _ => true) hall, List.map_congr_left (g := fun _ => true) hall1]
    simp [hp.1, hp.2.1]
  have hbuckets : 1 ≤ cfg.histBuckets ∧ ∀ c ∈ clients.filterMap id, c.1.length = d := by
    have hc : ∀ c ∈ clients.filterMap id, c.1.length = d ∧ 1 ≤ cfg.histBuckets := by
      intro c hc
      simp only [List.mem_filterMap, id_eq, exists_eq_right] at hc
      obtain ⟨i, hi⟩ := List.getElem?_of_mem hc
      obtain ⟨c', s0, s1, g, g0, g1⟩ := hget i (List.getElem?_eq_some_iff.1 hi).1
      obtain ⟨-, -, hh, hlen, -⟩ := hp.2.2 i (some c) _ _ _ _ hi g0 g1
      obtain ⟨_, _, -, -, -, -, -, -, hbn⟩ := honestPair_facts hh
      exact ⟨hlen, by omega⟩
    obtain ⟨c, hcm⟩ := List.exists_mem_of_ne_nil _ hne
    exact ⟨(hc c hcm).2, fun c h => (hc c h).1⟩
  have hdec : ∀ (i : Nat) (b0 b1 : Bool) (s0 s1 : ReportShare), kcs.1.reportShares[i]? = some (b0, s0) →
      kcs.2.reportShares[i]? = some (b1, s1) → ∃ v0 v1 b,
        Spec.verifierOf P cfg.histBuckets kcs.1.serverId kcs.1.verifyKey s0 = some v0 ∧
        Spec.verifierOf P cfg.histBuckets kcs.2.serverId kcs.1.verifyKey s1 = some v1 ∧
        P.flpDecide cfg.histBuckets (Spec.addShares v0 v1) = some b ∧
        (List.replicate clients.length true)[i]? = some b := by
    intro i b0 b1 s0 s1 g0 g1
    have hil : i < clients.length := hp.1 ▸ (List.getElem?_eq_some_iff.1 g0).1
    have hrep : (List.replicate clients.length true)[i]? = some true := by simp [hil]
    obtain ⟨c, hc⟩ : ∃ c, clients[i]? = some c := ⟨_, List.getElem?_eq_getElem hil⟩
    obtain ⟨-, -, hpop⟩ := hp.2.2 i c b0 b1 s0 s1 hc g0 g1
    cases c with
    | none =>
      obtain ⟨-, -, ⟨v0, v1, q0, q1, qd⟩, -⟩ := hpop
      exact ⟨v0, v1, true, q0, q1, qd, hrep⟩
    | some c =>
      obtain ⟨hh, hlen, hcomp⟩ := hpop
      have ha : c.1 ≠ [] := by
        intro he
        have : c.1.length = d := hlen
        rw [he, List.length_nil] at this
        omega
      obtain ⟨v0, v1, q0, q1, qd⟩ := honest_verifiers h0 h1 ha hh hcomp
      exact ⟨v0, v1, true, q0, q1, qd, hrep⟩
  -- who disagrees at the first level
  have hdis : ∀ i, Spec.disagree P cfg.histBuckets [[]] kcs.1.reportShares kcs.2.reportShares i
      = decide (clients[i]? = some none) := by
    intro i
    by_cases hi : i < clients.length
    · obtain ⟨c, s0, s1, g, g0, g1⟩ := hget i hi
      obtain ⟨-, -, hpop⟩ := hp.2.2 i c _ _ _ _ g g0 g1
      unfold Spec.disagree
      rw [g0, g1, g]
      dsimp only
      cases c with
      | none => simpa using hpop.2.2.2
      | some c =>
        obtain ⟨k0, k1, e0, e1, q, -⟩ := honestPair_facts hpop.1
        rw [e0, e1, Option.map_some, Option.map_some,
          q.1 0 [[]] (by rw [show c.1.length = d from hpop.2.1]; omega) (by simp) (by simp)]
        simp
    · rw [List.getElem?_eq_none (by omega)]
      have : Spec.disagree P cfg.histBuckets [[]] kcs.1.reportShares kcs.2.reportShares i ≠ true :=
        fun h => hi (hp.1 ▸ disagree_lt h)
      simpa using this
  have hrank : ∀ i, i < clients.length → Spec.rank kcs.1.reportShares i = i := by
    intro i hi
    rw [Spec.rank, List.countP_eq_length.2 fun x hx => hall x (List.mem_of_mem_take hx), List.length_take, hp.1]
    omega
  have hblame : ∀ i, i < clients.length → Spec.blamed P cfg.histBuckets
      ⟨kcs.1.reportShares, kcs.2.reportShares, [[]]⟩ i = decide (clients[i]? = some none) := by
    intro i hi
    rw [Bool.eq_iff_iff, blamed_iff, decide_eq_true_iff]
    constructor
    · rintro ⟨c, hc, hr⟩
      dsimp only at hc hr
      rw [hrank c (hp.1 ▸ disagree_lt hc)] at hr
      rw [hdis, decide_eq_true_iff, hr] at hc
      exact hc
    · intro hc
      exact ⟨i, by dsimp only; rw [hdis]; exact decide_eq_true hc, hrank i hi⟩
  have hdrop : ∀ r : List (Bool × ReportShare), r.length = clients.length →
      Spec.dropClients (Spec.blamed P cfg.histBuckets ⟨kcs.1.reportShares, kcs.2.reportShares, [[]]⟩) r
        = Spec.masked r (clients.map Option.isSome) := by
    intro r hr
    refine List.ext_getElem? fun i => ?_
    unfold Spec.dropClients Spec.masked
    rw [List.getElem?_mapIdx, List.getElem?_zipWith]
    by_cases hi : i < clients.length
    · rw [List.getElem?_eq_getElem (hr ▸ hi), List.getElem?_map, List.getElem?_eq_getElem hi]
      simp only [Option.map_some, Option.some.injEq]
      rw [hblame i hi, List.getElem?_eq_getElem hi]
      cases clients[i] <;> simp
    · rw [List.getElem?_eq_none (by omega)]
      rfl
  -- the state after the first level
  have hlevel : Spec.levelRun P cfg.histBuckets (max 1 cfg.threshold)
      ⟨kcs.1.reportShares, kcs.2.reportShares, [[]]⟩
      = .ok ⟨Spec.masked kcs.1.reportShares (clients.map Option.isSome),
          Spec.masked kcs.2.reportShares (clients.map Option.isSome),
          Spec.heavyPaths P cfg.histBuckets (max 1 cfg.threshold)
            (Spec.keyPairs (Spec.masked kcs.1.reportShares (clients.map Option.isSome))
              (Spec.masked kcs.2.reportShares (clients.map Option.isSome))) 1⟩ := by
    have hclen : clients ≠ [] := by rintro rfl; exact hne rfl
    have hpos : 0 < clients.length := List.length_pos_iff.2 hclen
    obtain ⟨-, s0, -, -, g0, -⟩ := hget 0 hpos
    have hinc : Spec.anyIncluded kcs.1.reportShares = true :=
      anyIncluded_iff.2 ⟨_, List.mem_of_getElem? g0, rfl⟩
    unfold Spec.levelRun
    rw [if_neg (by simp [hinc])]
    have hch : ∀ r0 r1 : List (Bool × ReportShare),
        Spec.heavyChildren P cfg.histBuckets (max 1 cfg.threshold) r0 r1 [[]]
          = Spec.heavyPaths P cfg.histBuckets (max 1 cfg.threshold) (Spec.keyPairs r0 r1) 1 := by
      intro r0 r1
      rw [← heavyPaths_zero (P := P) cfg.histBuckets (max 1 cfg.threshold) (Spec.keyPairs r0 r1)]
      exact heavyChildren_heavyPaths ..
    by_cases hcheat : ∃ i : Nat, clients[i]? = some none
    · rw [if_neg, if_neg]
      · dsimp only
        rw [hdrop _ hp.1, hdrop _ hp.2.1, if_pos hany, hch]
      · rw [not_lt]
        dsimp only
        rw [List.countP_eq_length.2 hall]
        exact Nat.le_pow_clog (by omega) _
      · rw [List.all_eq_true]
        intro h
        obtain ⟨i, hi⟩ := hcheat
        have := h i (List.mem_range.2 (hp.1 ▸ (List.getElem?_eq_some_iff.1 hi).1))
        dsimp only at this
        rw [hdis, hi] at this
        simp at this
    · have hmask : ∀ r : List (Bool × ReportShare), r.length = clients.length →
          Spec.masked r (clients.map Option.isSome) = r := by
        intro r hr
        have : clients.map Option.isSome = List.replicate clients.length true := by
          rw [List.eq_replicate_iff]
          refine ⟨by simp, fun b hb => ?_⟩
          obtain ⟨c, hc, rfl⟩ := List.mem_map.1 hb
          obtain ⟨i, hi⟩ := List.getElem?_of_mem hc
          cases c with
          | none => exact absurd ⟨i, hi⟩ hcheat
          | some _ => rfl
        rw [this, masked_all hr]
      rw [if_pos, hmask _ hp.1, hmask _ hp.2.1]
      · dsimp only
        rw [hch]
      · rw [List.all_eq_true]
        intro i _
        dsimp only
        rw [hdis, Bool.not_eq_true', decide_eq_false_iff_not]
        exact fun h => hcheat ⟨i, h⟩
  have hhp : Spec.heavyPaths P cfg.histBuckets (max 1 cfg.threshold)
      (Spec.keyPairs (Spec.masked kcs.1.reportShares (clients.map Option.isSome))
        (Spec.masked kcs.2.reportShares (clients.map Option.isSome))) (d - 2) ≠ [] := by
    obtain ⟨s, hs1, hs2⟩ := heavyHitters_prefix hheavy (d - 2) (by omega)
    refine List.ne_nil_of_mem (a := s) (List.mem_filter.2 ⟨mem_allPaths.2 hs1, ?_⟩)
    by_cases hsne : s = []
    · subst hsne; simp [Spec.heavy]
    · rw [heavy_clients hF hlt hsne (by omega), decide_eq_true_eq]
      exact hs2 hsne
  have hlevels : ∀ k ≤ d - 2, Spec.levelsRun P cfg.histBuckets (max 1 cfg.threshold) (k + 1)
      ⟨kcs.1.reportShares, kcs.2.reportShares, [[]]⟩
      = .ok ⟨Spec.masked kcs.1.reportShares (clients.map Option.isSome),
          Spec.masked kcs.2.reportShares (clients.map Option.isSome),
          Spec.heavyPaths P cfg.histBuckets (max 1 cfg.threshold)
            (Spec.keyPairs (Spec.masked kcs.1.reportShares (clients.map Option.isSome))
              (Spec.masked kcs.2.reportShares (clients.map Option.isSome))) (k + 1)⟩ := by
    intro k hk
    rw [levelsRun_first, hlevel]
    show Spec.levelsRun P cfg.histBuckets (max 1 cfg.threshold) k _ = _
    rw [levelsRun_quiet (quiet_inner hq) hany k (by omega) fun l hl => heavyPaths_ne_le (by omega) hhp,
      Nat.add_comm]
  have hrun := C61_run_refines (c0 := c0) (c1 := c1) (bld := bld) (num := clients.length) hd hd2 hb hbuckets.1
    hn0 hn1 h0 h1 hvk d0 d1 hp.1 hp.2.1 hflags hw0 hw1 (by simp) hdec hlog (by
      rw [masked_all hp.1, masked_all hp.2.1]
      intro k hk t ht hd
      cases k with
      | zero =>
        cases ht
        exact hsep
      | succ k =>
        rw [hlevels k (by omega)] at ht
        cases ht
        obtain ⟨c, hc⟩ := hd
        dsimp only at hc
        rw [disagree_quiet (quiet_inner hq) (by omega) (heavyPaths_nodup _ _ _ _) heavyPaths_len] at hc
        cases hc)
  rw [masked_all hp.1, masked_all hp.2.1] at hrun
  unfold Spec.wholeRun at hrun
  have hl := hlevels (d - 2) (by omega)
  rw [show d - 2 + 1 = d - 1 by omega] at hl
  rw [hl] at hrun
  dsimp only [Except.bind] at hrun
  rw [lastRun_quiet (by omega) hq] at hrun
  obtain ⟨out, g, g0, g1, g2, -⟩ := hrun
  refine ⟨out, g, ?_, g0, g1⟩
  rw [g2, ← results_clients hF (by omega) hlt hbuckets.2, resultsOf, List.map_map]
  rfl

/-! ### The hypotheses can be met -/

theorem mix_flpComplete (n : Nat) (q : List Field128) : Spec.FlpCompleteAt mixToy n q := by
  have := toy_flpComplete n q
  unfold Spec.FlpCompleteAt at this ⊢
  exact this

theorem mix_gen (k : Nat) (alpha : List Bool) : ∃ s, mixShares k alpha 1 = some s := by
  obtain ⟨r, hr⟩ : ∃ r, genMasticReport mixToy 2 alpha 1 (toyRand k) = .ok r := by
    unfold genMasticReport encodeMeasurement
    rw [if_pos (by omega)]
    exact ⟨_, rfl⟩
  unfold mixShares
  rw [hr]
  exact ⟨_, rfl⟩

theorem mix_honest {k : Nat} {alpha : List Bool} {s0 s1 : ReportShare}
    (e : mixShares k alpha 1 = some (s0, s1)) : Spec.HonestPair mixToy 2 alpha 1 s0 s1 := by
  unfold mixShares at e
  split at e
  · rename_i r hr
    exact ⟨_, r, hr, by simpa using e.symm⟩
  · cases e

theorem mix_caught {s0 s1 t0 t1 : ReportShare} (hon : Spec.HonestPair mixToy 2 [true, false] 1 s0 s1)
    (w0 : Spec.WellFormed 2 t0) (w1 : Spec.WellFormed 2 t1)
    (hacc : Spec.FlpAccepted mixToy 2 0 1 Block.zero t0 t1)
    (hdis : (Spec.keyOf t0).map (Spec.digestAt mixToy 2 true [[]])
      ≠ (Spec.keyOf t1).map (Spec.digestAt mixToy 2 false [[]])) :
    Spec.CaughtPopulation mixToy 2 2 0 1 Block.zero [some ([true, false], 1), none]
      [(true, s0), (true, t0)] [(true, s1), (true, t1)] := by
  refine ⟨rfl, rfl, ?_⟩
  rintro (_ | _ | i) c b0 b1 x0 x1 g g0 g1
  · simp only [List.getElem?_cons_zero, Option.some.injEq, Prod.mk.injEq] at g g0 g1
    obtain ⟨rfl, rfl⟩ := g0
    obtain ⟨rfl, rfl⟩ := g1
    subst g
    exact ⟨rfl, rfl, hon, rfl, mix_flpComplete _ _⟩
  · simp only [List.getElem?_cons_zero, List.getElem?_cons_succ, Option.some.injEq, Prod.mk.injEq] at g g0 g1
    obtain ⟨rfl, rfl⟩ := g0
    obtain ⟨rfl, rfl⟩ := g1
    subst g
    exact ⟨rfl, rfl, w0, w1, hacc, hdis⟩
  · simp at g

/-- An honest client and one with an altered correction seed on one server: the hypotheses of
`C61_exact_despite_caught` are met. -/
example : ∃ (kcs : Pair2 mixToy) (out : WhhOut mixToy),
    runWhh (toyCfg 0 (some 2) .debug) (toyCfg 1 (some 2) .debug) .debug ⟨some 2, 2, 1, 2, 1, 1⟩ kcs 2 = .ok out ∧
    out.results.map (fun r => (r.path, r.value)) = [([true, false], [0, 1, 1])] ∧
    out.kcs.1.reportShares.map Prod.fst = [true, false] := by
  have hk := twoLevels_iff (l := mixR [true, true] [1] false ++ mixR [true, true] [1] true) (by decide +kernel)
  have hacc : mixAccepted (mixR [true, true] [1] false) (mixR [true, true] [1] true) = true := by decide +kernel
  have hdis : Spec.disagree mixToy 2 [[]] (mixR [true, true] [1] false) (mixR [true, true] [1] true) 1 = true := by
    decide +kernel
  have hsep := separated_of (P := mixToy) (a := Spec.digests mixToy 2 true [[]] (mixR [true, true] [1] false))
    (b := Spec.digests mixToy 2 false [[]] (mixR [true, true] [1] true)) (by decide +kernel)
  obtain ⟨⟨s0, s1⟩, e⟩ := mix_gen 0 [true, false]
  obtain ⟨⟨t0, t1⟩, e'⟩ := mix_gen 1 [true, false]
  have hr0 : mixR [true, true] [1] false = [(true, s0), (true, t0)] := by
    simp [mixR, mixReports, e, e']
  obtain ⟨t1', hr1⟩ : ∃ t1', mixR [true, true] [1] true = [(true, s1), (true, t1')] := by
    simp [mixR, mixReports, e, e']
  rw [hr0, hr1] at hk hacc hdis hsep
  have hp := mix_caught (mix_honest e) (hk (true, t0) (by simp)) (hk (true, t1') (by simp)) (by
    have := List.all_eq_true.1 hacc ((true, t0), (true, t1')) (by simp)
    rw [decide_eq_true_iff] at this
    obtain ⟨v0, e0, this⟩ := Option.bind_eq_some_iff.1 this
    obtain ⟨v1, e1, this⟩ := Option.bind_eq_some_iff.1 this
    exact ⟨v0, v1, e0, e1, this⟩) (by simpa [Spec.disagree] using hdis)
  clear hk hacc hdis e e' hr0 hr1
  obtain ⟨out, g, g1, g2, -⟩ := C61_exact_despite_caught (P := mixToy) (c0 := toyCfg 0 (some 2) .debug)
    (c1 := toyCfg 1 (some 2) .debug) (bld := .debug) (cfg := ⟨some 2, 2, 1, 2, 1, 1⟩) (d := 2)
    (clients := [some ([true, false], 1), none])
    (kcs := ({ KeyCollection.new mixToy 2 0 (some 2) Block.zero with reportShares := [(true, s0), (true, t0)] },
      { KeyCollection.new mixToy 2 1 (some 2) Block.zero with reportShares := [(true, s1), (true, t1')] }))
    rfl le_rfl (by decide) rfl rfl rfl (by show (1 : Int) ≠ 0; decide) rfl rfl rfl
    hp (fun x _ => toy_clog x) hsep (by decide) (by decide +kernel)
  refine ⟨_, out, g, g1.trans (by decide +kernel), ?_⟩
  rw [g2]
  rfl
end Mastic
