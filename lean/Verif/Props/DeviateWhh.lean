import Verif.Lemmas.PeerSheet
import Verif.Props.DeviateAbm

/-!
# C99: a server that deviates from its code, weighted heavy hitters
-/

namespace Mastic

variable {P Q : Prims} {c0 c1 : ServerCfg} {bld : Build} {cfg : Config} {draw : MainDraw} {n d : Nat}

/-- The parts of a weighted-heavy-hitters run: the reports, the shares, and the verifier shares. -/
theorem whh_parts {weight : Nat → Nat} {aes : Block → Block} (hQ : Q = { P with aes := aes }.withHistogram)
    (w : Spec.RunCoins P.withHistogram cfg.uniqueBuckets cfg.histBuckets d draw)
    (hs : Spec.Sensible P.withHistogram cfg draw n) (hb64 : cfg.histBuckets < 2 ^ 64)
    (hxof : ∀ seed binder l, (P.xofField seed binder l).length = l)
    (hroot : ∀ i < n, ∀ t ∈ P.xofField draw.verifyKey (Spec.MainDraw.of draw i).rand.nonce.toList 1,
      t ^ Spec.points cfg.histBuckets 2 ≠ 1)
    (htam : ∀ i < n, (draw.picks i).2 ≠ some .flp) (hd : cfg.dataBits = some d) (hd1 : 1 ≤ d) (h0 : c0.serverId = 0)
    (h1 : c1.serverId ≠ 0) (hw : ∀ i < cfg.uniqueBuckets, weight i < cfg.histBuckets) {r : Nat → Field128 × Field128}
    (hj : ∀ i < cfg.uniqueBuckets, P.xofField
      (seedParts P (draw.reports i).rand.rootSeeds (draw.reports i).rand.nonce).1
      (seedParts P (draw.reports i).rand.rootSeeds (draw.reports i).rand.nonce).2.toList 2 = [(r i).1, (r i).2]) :
    ∃ (reports : List PlaintextReport) (sh : List (ReportShare × ReportShare)),
      Spec.Sensible Q cfg (Spec.runDraw draw weight w) n ∧
      generateReports Q cfg .weightedHeavyHitters (Spec.runDraw draw weight w).reports = .ok reports ∧
      mapE (pickShares reports) ((List.range n).map draw.picks) = .ok sh ∧
      sh.length = n ∧
      (∀ (own : Bool), ∀ i < n, ∀ j (hj : j < cfg.uniqueBuckets), j = (draw.picks i).1 - 1 →
        (sh.map fun s => Pair.get s own)[i]? = some (.mastic (draw.reports j).rand.nonce
          (Pair.get (VidpfKey.gen Q (draw.reports j).rand.rootSeeds (Spec.stringOf d (draw.reports j))
            (Spec.bucketVec cfg.histBuckets (weight j))) own)
          (Pair.get (shareProof (proofOf cfg.histBuckets 2 (Spec.bucketVec cfg.histBuckets (weight j))
              (List.ofFn (w ⟨j, hj⟩).2.1) (r j).1)
            (Spec.coinsRand (draw.reports j).rand.nonce (w ⟨j, hj⟩)).proofRand) own)
          (seedParts P (draw.reports j).rand.rootSeeds (draw.reports j).rand.nonce))) ∧
      (1 ≤ n → ∀ own, KeysReach 0 ((sh.map fun s => Pair.get s own).map fun s => (true, s)) ∧ ∃ ver : List (List Field128),
        (sh.map fun s => Pair.get s own).map (Spec.verifierOf Q cfg.histBuckets
          (Pair.get (c0.serverId, c1.serverId) own) draw.verifyKey) = ver.map some) := by
  obtain ⟨hs', hprove, hcomp, hrej⟩ := run_ready (weight := weight) hQ w hs hb64 hxof hroot htam c0.serverId c1.serverId
  obtain ⟨reports, sh, hg, hrl, hra, hp, hlen, hsh, hown⟩ := run_shares (mode := .weightedHeavyHitters) hQ w
    (by simp) hd hs' hprove htam hw hj
  have hpop := main_population (c0 := c0) (c1 := c1) hs'.buckets hcomp hrej hlen hsh
  rw [runDraw_mainClients w hs.picks htam hw] at hpop
  refine ⟨reports, sh, hs', hg, hp, hlen, hown, fun hn own => ?_⟩
  obtain ⟨ver0, ver1, rs, W⟩ := world_of_population (T := 1)
    (clients := Spec.runClients d draw weight n) (s0 := sh.map Prod.fst) (s1 := sh.map Prod.snd) h0 h1 hd1
    (by
      intro e
      have := congrArg List.length e
      simp [Spec.runClients] at this
      omega) (by simpa [uploaded, List.map_map, Function.comp_def] using hpop)
  cases own with
  | false => exact ⟨W.reach0.mono (Nat.zero_le _), ver0, W.ver0⟩
  | true => exact ⟨W.reach1.mono (Nat.zero_le _), ver1, W.ver1⟩

/-- **C99, weighted heavy hitters.**  With libprio's proof system, clients that do not tamper with their proofs and any two
assignments of weights: the values that server `own` does not know correspond one to one so that, for corresponding
values, the collector sends the server the same requests in both runs whatever it answers.  A lying server can find out
strings below the threshold (`C99_false`), but nothing about the weights. -/
theorem C99_whh_partial {weight weight' : Nat → Nat} (own : Bool)
    (hs : Spec.Sensible P.withHistogram cfg draw n) (hb64 : cfg.histBuckets < 2 ^ 64)
    (hxof : ∀ seed binder l, (P.xofField seed binder l).length = l)
    (hroot : ∀ i < n, ∀ t ∈ P.xofField draw.verifyKey (Spec.MainDraw.of draw i).rand.nonce.toList 1,
      t ^ Spec.points cfg.histBuckets 2 ≠ 1)
    (htam : ∀ i < n, (draw.picks i).2 ≠ some .flp) (hd : cfg.dataBits = some d) (hs0 : c0.dataBits = some d)
    (hs1 : c1.dataBits = some d) (hd1 : 1 ≤ d) (h0 : c0.serverId = 0) (h1 : c1.serverId ≠ 0)
    (hw : ∀ i < cfg.uniqueBuckets, weight i < cfg.histBuckets)
    (hw' : ∀ i < cfg.uniqueBuckets, weight' i < cfg.histBuckets)
    (hf : Spec.FreshRun P.withHistogram cfg.uniqueBuckets cfg.histBuckets d draw own)
    (he : Spec.FreshEvals P.withHistogram cfg.uniqueBuckets cfg.histBuckets d draw own (Spec.upTo d)) :
    ∃ F : Spec.RunCoins P.withHistogram cfg.uniqueBuckets cfg.histBuckets d draw
        ≃ Spec.RunCoins P.withHistogram cfg.uniqueBuckets cfg.histBuckets d draw,
      ∀ (w : Spec.RunCoins P.withHistogram cfg.uniqueBuckets cfg.histBuckets d draw) (Q Q' : Prims),
        Q = Spec.setRun P.withHistogram cfg.uniqueBuckets cfg.histBuckets d draw (!own) w →
        Q' = Spec.setRun P.withHistogram cfg.uniqueBuckets cfg.histBuckets d draw (!own) (F w) →
        ∀ (kc : KeyCollection Q) (kc' : KeyCollection Q') (lie : List Req → Resp),
          (Spec.against own (Pair.get (c0, c1) !own) lie
            (mainP Q bld cfg .weightedHeavyHitters (Spec.runDraw draw weight w) n) (.running kc) []).1
          = (Spec.against own (Pair.get (c0, c1) !own) lie
            (mainP Q' bld cfg .weightedHeavyHitters (Spec.runDraw draw weight' (F w)) n) (.running kc') []).1 := by
  obtain ⟨r, hj⟩ := run_points hxof draw
  obtain ⟨t, ht⟩ : ∃ t : Nat → Field128, ∀ i, P.xofField draw.verifyKey (draw.reports i).rand.nonce.toList 1 = [t i] := by
    have := fun i => List.length_eq_one_iff.1 (hxof draw.verifyKey (draw.reports i).rand.nonce.toList 1)
    choose t ht using this
    exact ⟨t, ht⟩
  obtain ⟨sizes, hsz, hsum, -⟩ := uploadBatches_spec hs.addBatch n n le_rfl
  refine ⟨⟨moveRun own weight weight' (fun i => (r i).1) t, moveRun own weight' weight (fun i => (r i).1) t,
    moveRun_back _ _ _ _ _, moveRun_back _ _ _ _ _⟩, fun w Q Q' hQ hQ' kc kc' lie => ?_⟩
  have hQ' : Q' = Spec.setRun P.withHistogram cfg.uniqueBuckets cfg.histBuckets d draw (!own)
    (moveRun own weight weight' (fun i => (r i).1) t w) := hQ'
  show _ = (Spec.against own (Pair.get (c0, c1) !own) lie (mainP Q' bld cfg .weightedHeavyHitters
    (Spec.runDraw draw weight' (moveRun own weight weight' (fun i => (r i).1) t w)) n) (.running kc') []).1
  have hgen := fun j : Fin cfg.uniqueBuckets => moveRun_gen (weight := weight) (weight' := weight')
    (r0 := fun i => (r i).1) (t := t) (w := w) hf hQ hQ' j
  obtain ⟨w', hw1⟩ : ∃ w', w' = moveRun own weight weight' (fun i => (r i).1) t w := ⟨_, rfl⟩
  rw [← hw1] at hQ' ⊢
  obtain ⟨reports, sh, a1, a2, a3, a4, a6, a7⟩ := whh_parts (c0 := c0) (c1 := c1)
    (weight := weight) (Q := Q) (aes := Q.aes) (by rw [hQ]; rfl) w hs hb64 hxof hroot htam hd hd1 h0 h1
    hw (fun i _ => hj i)
  obtain ⟨reports', sh', b1, b2, b3, b4, b6, b7⟩ := whh_parts (c0 := c0) (c1 := c1)
    (weight := weight') (Q := Q') (aes := Q'.aes) (by rw [hQ']; rfl) w' hs hb64 hxof hroot htam hd hd1
    h0 h1 hw' (fun i _ => hj i)
  have hmv : (sh'.map fun s => Pair.get s own) = sh.map fun s => Pair.get s own := by
    subst hw1
    exact shares_moved hf hQ hQ' hs.picks a4 b4 (a6 own) (b6 own)
  have hfirst : ∀ b : Bool, [b] ∈ Spec.upTo d := fun b => mem_upTo.2 ⟨by simp, by simpa using hd1⟩
  have hver := fun o => verifiers_moved hb64 hd1 hf he hfirst hQ hQ' hw1 hs.picks hw hw' hj ht h0 h1 a4 b4 a6 b6 hmv o
  -- the keys of the other server
  obtain ⟨g, hg⟩ : ∃ g : Nat → VidpfKey × VidpfKey, ∀ j, g j = VidpfKey.gen Q (draw.reports j).rand.rootSeeds
    (Spec.stringOf d (draw.reports j)) (Spec.bucketVec cfg.histBuckets (weight j)) := ⟨_, fun _ => rfl⟩
  obtain ⟨g', hg'⟩ : ∃ g' : Nat → VidpfKey × VidpfKey, ∀ j, g' j = VidpfKey.gen Q' (draw.reports j).rand.rootSeeds
    (Spec.stringOf d (draw.reports j)) (Spec.bucketVec cfg.histBuckets (weight' j)) := ⟨_, fun _ => rfl⟩
  have hpick : ∀ i < n, (draw.picks i).1 - 1 < cfg.uniqueBuckets := fun i hi => by have := hs.picks i hi; omega
  have hbv : ∀ x, (Spec.bucketVec cfg.histBuckets x).length = cfg.histBuckets := fun x => by simp [Spec.bucketVec]
  have hsl : ∀ j, (Spec.stringOf d (draw.reports j)).length = d := fun j => by simp [Spec.stringOf]
  have hup : ∀ {R : Prims} (sh : List (ReportShare × ReportShare)),
      (Pair.get (uploaded R c0 c1 cfg draw.verifyKey sh) !own).reportShares
        = (sh.map fun s => Pair.get s !own).map fun s => (true, s) := by
    intro R sh
    cases own <;> simp [uploaded, Pair.get]
  have hid : ∀ {R : Prims} (sh : List (ReportShare × ReportShare)),
      (Pair.get (uploaded R c0 c1 cfg draw.verifyKey sh) !own).serverId = Pair.get (c0.serverId, c1.serverId) !own := by
    intro R sh
    cases own <;> rfl
  have holds : ∀ {R : Prims} {sh : List (ReportShare × ReportShare)} {g : Nat → VidpfKey × VidpfKey}
      (hl : sh.length = n) (a : ∀ i < n, ∃ nonce pr seeds, (sh.map fun s => Pair.get s !own)[i]?
        = some (.mastic nonce (Pair.get (g ((draw.picks i).1 - 1)) !own) pr seeds)),
      HoldsKeys ((List.range n).map fun i => sheetOf R cfg.histBuckets (Pair.get (g ((draw.picks i).1 - 1)) !own))
        ((sh.map fun s => Pair.get s !own).map fun s => (true, s)) := by
    intro R sh g hl a
    unfold HoldsKeys
    rw [List.forall₂_iff_get]
    refine ⟨by simp [hl], fun i h1 h2 => ?_⟩
    have hi : i < n := by simpa using h1
    obtain ⟨nonce, pr, seeds, e⟩ := a i hi
    have hsi : i < (sh.map fun s => Pair.get s !own).length := by simpa [hl] using hi
    rw [List.getElem?_eq_getElem hsi] at e
    simp only [List.get_eq_getElem, List.getElem_map (f := fun s => (true, s)), Option.some.inj e]
    simp [ReportShare.unwrapVidpfKey, sheetOf]
  have htwin : ∀ j, j < cfg.uniqueBuckets → SheetTwin cfg.histBuckets d (sheetOf Q cfg.histBuckets (Pair.get (g j) !own))
      (sheetOf Q' cfg.histBuckets (Pair.get (g' j) !own)) := by
    intro j hju
    have h1 : VidpfKey.gen Q' (draw.reports j).rand.rootSeeds (Spec.stringOf d (draw.reports j))
          (Spec.bucketVec cfg.histBuckets (weight' j))
        = VidpfKey.gen Q (draw.reports j).rand.rootSeeds (Spec.stringOf d (draw.reports j))
          (Spec.bucketVec cfg.histBuckets (weight j)) := hgen ⟨j, hju⟩
    have h2 : ∀ p : List Bool, p ≠ [] → p.length ≤ d →
        Spec.evalPath Q' (Pair.get (VidpfKey.gen Q (draw.reports j).rand.rootSeeds (Spec.stringOf d (draw.reports j))
          (Spec.bucketVec cfg.histBuckets (weight j))) own) cfg.histBuckets p
        = Spec.evalPath Q (Pair.get (VidpfKey.gen Q (draw.reports j).rand.rootSeeds (Spec.stringOf d (draw.reports j))
          (Spec.bucketVec cfg.histBuckets (weight j))) own) cfg.histBuckets p := fun p hne hl =>
      own_evalPath hf he w w' ⟨j, hju⟩ (mem_upTo.2 ⟨hne, hl⟩) hl hQ hQ'
    rw [hg, hg']
    exact peer_twin (hbv _) (hbv _) (hsl _) own h1 h2
  have hsame := same_main own (bld := bld) (c0 := c0) (c1 := c1) (kcs := (kc, kc)) (kcs' := (kc', kc')) a1 a2 a3 b1 b2 b3 hsz
    rfl hmv.symm (by
      show SameTold own _ (.running (Pair.get (uploaded Q c0 c1 cfg draw.verifyKey sh) !own)) (whhP Q bld cfg n)
        (.running (Pair.get (uploaded Q' c0 c1 cfg draw.verifyKey sh') !own)) (whhP Q' bld cfg n)
      refine same_whh (n := cfg.histBuckets) (d := d)
        (C := (List.range n).map fun i => sheetOf Q cfg.histBuckets (Pair.get (g ((draw.picks i).1 - 1)) !own))
        (C' := (List.range n).map fun i => sheetOf Q' cfg.histBuckets (Pair.get (g' ((draw.picks i).1 - 1)) !own))
        ?_ ?_ ?_ (by rw [hQ, hQ']; rfl) (by
          funext l s ms last
          exact merkleRoots_congr (by rw [hQ, hQ']; rfl) (by rw [hQ, hQ']; rfl) l s ms last)
        (by rw [hQ, hQ']; rfl) hs.queryBatch rfl hd hd1 ?_ ?_
      · rw [List.forall₂_map_left_iff, List.forall₂_map_right_iff, List.forall₂_same]
        intro i hi
        have hju := hpick i (List.mem_range.1 hi)
        exact htwin _ hju
      · intro s hsm
        obtain ⟨i, -, rfl⟩ := List.mem_map.1 hsm
        rw [hg]
        exact peer_fits (hbv _) (hsl _) own
      · intro s hsm
        obtain ⟨i, -, rfl⟩ := List.mem_map.1 hsm
        rw [hg']
        exact peer_fits (hbv _) (hsl _) own
      · refine ⟨by cases own <;> rfl, by cases own <;> rfl, by rw [hid, hid], ?_, ?_, ?_, ?_, ?_, by cases own <;> rfl⟩
        · cases own
          · exact hs1
          · exact hs0
        · cases own
          · exact hs1
          · exact hs0
        · rw [hup]
          exact holds a4 fun i hi => ⟨_, _, _, by rw [a6 (!own) i hi _ (hpick i hi) rfl, hg]⟩
        · rw [hup]
          exact holds b4 fun i hi => ⟨_, _, _, by rw [b6 (!own) i hi _ (hpick i hi) rfl, hg']⟩
        · rw [hup, hup, List.map_map, List.map_map, List.map_map, List.map_map]
          refine List.ext_getElem (by simp [a4, b4]) fun i h1 h2 => ?_
          simp
      · intro k k' e e' s u hsu hun
        obtain ⟨x1, ver, x2⟩ := a7 (by omega) (!own)
        obtain ⟨y1, -⟩ := b7 (by omega) (!own)
        have y2 := (hver (!own)).trans x2
        have hvk : ∀ {R : Prims} (sh : List (ReportShare × ReportShare)),
            (Pair.get (uploaded R c0 c1 cfg draw.verifyKey sh) !own).verifyKey = draw.verifyKey := by
          intro R sh; cases own <;> rfl
        have hil : ∀ {R : Prims} (sh : List (ReportShare × ReportShare)),
            (Pair.get (uploaded R c0 c1 cfg draw.verifyKey sh) !own).inputLen = cfg.histBuckets := by
          intro R sh; cases own <;> rfl
        exact ⟨_, flp_reply (hup sh) (hil sh) (by rw [hup]; exact x1) (by rw [hid, hvk]; exact x2) e (by simpa [a4] using hun),
          flp_reply (hup sh') (hil sh') (by rw [hup]; exact y1) (by rw [hid, hvk]; exact y2) e' (by simpa [b4] using hun)⟩)
  have hkc : ∀ {R : Prims} (k : KeyCollection R), Pair.get (k, k) (!own) = k := fun k => by cases own <;> rfl
  have := hsame lie []
  rwa [hkc, hkc] at this

/-- The numbers of the blocks of `Spec.evalInputs` at the strings below the bit 0. -/
def pairMore (own : Bool) (i : Fin 2) : List Nat :=
  match own, i with
  | true, 0 => [29794, 28615, 40842, 53069, 65296, 7791, 4173, 16400, 28627, 40854, 29794, 28615, 40842, 53069, 65296,
        20018, 28154, 40381, 52608, 64835]
  | true, 1 => [29868, 59318, 6024, 18251, 30478, 30038, 37029, 49256, 61483, 8189, 29868, 59318, 6024, 18251, 30478,
        42265, 43626, 55853, 2559, 14786]
  | false, 0 => [24373, 28615, 40842, 53069, 65296, 7791, 4173, 16400, 28627, 40854, 24373, 28615, 40842, 53069, 65296,
        20018, 28154, 40381, 52608, 64835]
  | false, 1 => [16556, 59318, 6024, 18251, 30478, 30038, 37029, 49256, 61483, 8189, 16556, 59318, 6024, 18251, 30478,
        42265, 43626, 55853, 2559, 14786]

theorem pairMore_eq (own : Bool) (i : Fin 2) : ([[false, false], [false, true]].flatMap fun p =>
    (Spec.evalInputs squareToy.withHistogram 2 (Spec.seedWords squareToy.withHistogram
      (pairDraw.reports i).rand.rootSeeds (Spec.stringOf 2 (pairDraw.reports i)) 2) p own
      (Pair.get (pairDraw.reports i).rand.rootSeeds own))).map blockTag = pairMore own i := by
  revert i
  cases own <;> decide +kernel

theorem pairTags_more (own : Bool) (i : Fin 2) : ∀ t ∈ pairMore own i, ∀ k, t ≠ pairTags own k := by
  revert i
  cases own <;> decide +kernel

theorem pair_everywhere (own : Bool) :
    Spec.FreshEvals squareToy.withHistogram 2 2 2 pairDraw own (Spec.upTo 2) := by
  have h := pair_evals own
  rw [pair_asked] at h
  rintro ⟨i, l, k⟩ i' p hp hx
  have hp' : p ∈ [[false], [true], [false, false], [false, true], [true, false], [true, true]] := hp
  by_cases hm : p ∈ [[false, false], [false, true]]
  · obtain ⟨_, e⟩ := pairTags_eq own i l k
    exact pairTags_more own i' _ (pairMore_eq own i' ▸ List.mem_map_of_mem (List.mem_flatMap.2 ⟨p, hm, hx⟩)) _ e
  · refine h ⟨i, l, k⟩ i' p ?_ hx
    simp only [List.mem_cons, List.not_mem_nil, or_false] at hp' hm ⊢
    tauto

/-- Two clients with the same string, with weights 0 and 1 or both 1: a lying server gets the same requests. -/
example (own : Bool) :
    ∃ F : Spec.RunCoins squareToy.withHistogram 2 2 2 pairDraw
        ≃ Spec.RunCoins squareToy.withHistogram 2 2 2 pairDraw,
      ∀ (w : Spec.RunCoins squareToy.withHistogram 2 2 2 pairDraw) (Q Q' : Prims),
        Q = Spec.setRun squareToy.withHistogram 2 2 2 pairDraw (!own) w →
        Q' = Spec.setRun squareToy.withHistogram 2 2 2 pairDraw (!own) (F w) →
        ∀ (kc : KeyCollection Q) (kc' : KeyCollection Q') (lie : List Req → Resp),
          (Spec.against own (Pair.get (toyCfg 0 (some 2) .debug, toyCfg 1 (some 2) .debug) !own) lie
            (mainP Q .debug ⟨some 2, 2, 2, 2, 2, 2⟩ .weightedHeavyHitters (Spec.runDraw pairDraw (fun i => i) w) 2)
            (.running kc) []).1
          = (Spec.against own (Pair.get (toyCfg 0 (some 2) .debug, toyCfg 1 (some 2) .debug) !own) lie
            (mainP Q' .debug ⟨some 2, 2, 2, 2, 2, 2⟩ .weightedHeavyHitters (Spec.runDraw pairDraw (fun _ => 1) (F w)) 2)
            (.running kc') []).1 :=
  C99_whh_partial (P := squareToy) (c0 := toyCfg 0 (some 2) .debug)
    (c1 := toyCfg 1 (some 2) .debug) (bld := .debug) (cfg := ⟨some 2, 2, 2, 2, 2, 2⟩) (draw := pairDraw) (n := 2) (d := 2)
    (weight := fun i => i) (weight' := fun _ => 1) own pair_sensible (by norm_num)
    (fun _ _ _ => List.length_replicate) pair_points (fun _ _ h => nomatch h) rfl rfl rfl (by decide) rfl (by decide)
    (by decide) (by decide) (pair_fresh own) (pair_everywhere own)

end Mastic
