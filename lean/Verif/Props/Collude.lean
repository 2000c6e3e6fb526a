import Verif.Lemmas.World

/-!
# C95: one server and the collector together
-/

namespace Mastic

variable {P : Prims} {c0 c1 : ServerCfg} {bld : Build} {cfg : Config} {draw : MainDraw} {n d : Nat}

/-- **C95.**  A whole weighted-heavy-hitters run of the program with libprio's proof system, clients that do not tamper
with their proofs, and two assignments of weights to the generated reports for which, at every prefix that the servers
evaluate, the total weights of the clients below it are the same: the values that server `own` does not know correspond one
to one so that for corresponding values both runs complete, the server gets the same requests in both, shares included,
and the collector sends the other server the same requests after the upload and gets the same answers from both servers. -/
theorem C95_aggregates {weight weight' : Nat → Nat} (own : Bool)
    (hs : Spec.Sensible P.withHistogram cfg draw n) (hb64 : cfg.histBuckets < 2 ^ 64)
    (hxof : ∀ seed binder l, (P.xofField seed binder l).length = l)
    (hroot : ∀ i < n, ∀ t ∈ P.xofField draw.verifyKey (Spec.MainDraw.of draw i).rand.nonce.toList 1,
      t ^ Spec.points cfg.histBuckets 2 ≠ 1)
    (htam : ∀ i < n, (draw.picks i).2 ≠ some .flp) (hd : cfg.dataBits = some d) (hs0 : c0.dataBits = some d)
    (hs1 : c1.dataBits = some d) (hd2 : 2 ≤ d) (h0 : c0.serverId = 0) (h1 : c1.serverId ≠ 0) (hn : 1 ≤ n)
    (hlt : n < 2 ^ 64) (hw : ∀ i < cfg.uniqueBuckets, weight i < cfg.histBuckets)
    (hw' : ∀ i < cfg.uniqueBuckets, weight' i < cfg.histBuckets)
    (hheavy : ∃ s : List Bool, s.length = d - 2 ∧
      (s ≠ [] → max 1 cfg.threshold ≤ (Spec.runStrings d draw n).countP fun a => s.isPrefixOf a))
    (hf : Spec.FreshRun P.withHistogram cfg.uniqueBuckets cfg.histBuckets d draw own)
    (he : Spec.FreshEvals P.withHistogram cfg.uniqueBuckets cfg.histBuckets d draw own
      (Spec.askedAt (max 1 cfg.threshold) d ((Spec.runStrings d draw n).map some)))
    (hsame : ∀ p ∈ Spec.askedAt (max 1 cfg.threshold) d ((Spec.runStrings d draw n).map some),
      Spec.weightsBelow cfg.histBuckets d draw weight n p = Spec.weightsBelow cfg.histBuckets d draw weight' n p) :
    ∃ F : Spec.RunCoins P.withHistogram cfg.uniqueBuckets cfg.histBuckets d draw
        ≃ Spec.RunCoins P.withHistogram cfg.uniqueBuckets cfg.histBuckets d draw,
      ∀ (w : Spec.RunCoins P.withHistogram cfg.uniqueBuckets cfg.histBuckets d draw) (Q Q' : Prims),
        Q = Spec.setRun P.withHistogram cfg.uniqueBuckets cfg.histBuckets d draw (!own) w →
        Q' = Spec.setRun P.withHistogram cfg.uniqueBuckets cfg.histBuckets d draw (!own) (F w) →
        ∀ (kcs : Pair2 Q) (kcs' : Pair2 Q'),
        ∃ (sent sent' : List (Req × Req)) (got : List (Resp × Resp)) (out out' : Shown) (t0 t1 : Server Q)
          (t0' t1' : Server Q'),
          Spec.Hears c0 c1 (mainP Q bld cfg .weightedHeavyHitters (Spec.runDraw draw weight w) n) (.running kcs.1)
            (.running kcs.2) sent got out t0 t1 ∧
          Spec.Hears c0 c1 (mainP Q' bld cfg .weightedHeavyHitters (Spec.runDraw draw weight' (F w)) n)
            (.running kcs'.1) (.running kcs'.2) sent' got out' t0' t1' ∧
          Spec.received own sent = Spec.received own sent' ∧
          (Spec.received (!own) sent).filter Spec.notUpload = (Spec.received (!own) sent').filter Spec.notUpload := by
  obtain ⟨r, hj⟩ := run_points hxof draw
  obtain ⟨t, ht⟩ : ∃ t : Nat → Field128, ∀ i, P.xofField draw.verifyKey (draw.reports i).rand.nonce.toList 1 = [t i] := by
    have := fun i => List.length_eq_one_iff.1 (hxof draw.verifyKey (draw.reports i).rand.nonce.toList 1)
    choose t ht using this
    exact ⟨t, ht⟩
  obtain ⟨sizes, hsz, hsum, -⟩ := uploadBatches_spec hs.addBatch n n le_rfl
  refine ⟨⟨moveRun own weight weight' (fun i => (r i).1) t, moveRun own weight' weight (fun i => (r i).1) t,
    moveRun_back _ _ _ _ _, moveRun_back _ _ _ _ _⟩, fun w Q Q' hQ hQ' kcs kcs' => ?_⟩
  have hQ' : Q' = Spec.setRun P.withHistogram cfg.uniqueBuckets cfg.histBuckets d draw (!own)
    (moveRun own weight weight' (fun i => (r i).1) t w) := hQ'
  show ∃ (sent sent' : List (Req × Req)) (got : List (Resp × Resp)) (out out' : Shown) (t0 t1 : Server Q)
      (t0' t1' : Server Q'), _ ∧ Spec.Hears c0 c1 (mainP Q' bld cfg .weightedHeavyHitters (Spec.runDraw draw weight'
        (moveRun own weight weight' (fun i => (r i).1) t w)) n) _ _ _ _ _ _ _ ∧ _
  obtain ⟨w', hw1⟩ : ∃ w', w' = moveRun own weight weight' (fun i => (r i).1) t w := ⟨_, rfl⟩
  rw [← hw1] at hQ' ⊢
  obtain ⟨sh, sent, results, printed, t0, t1, v0, v1, rs, hx, -, a2, a4, W, a6⟩ := run_hears (c0 := c0) (c1 := c1) (bld := bld)
    (weight := weight) (Q := Q) (aes := Q.aes) (by rw [hQ]; rfl) w kcs hs hb64 hxof hroot htam hd hs0 hs1 hd2 h0 h1
    hn hlt hw hheavy (fun i _ => hj i) hsz hsum
  obtain ⟨sh', sent', results', printed', t0', t1', v0', v1', rs', hx', -, b2, b4, W', b6⟩ := run_hears (c0 := c0) (c1 := c1) (bld := bld)
    (weight := weight') (Q := Q') (aes := Q'.aes) (by rw [hQ']; rfl) w'
    kcs' hs hb64 hxof hroot htam hd hs0 hs1 hd2 h0 h1 hn hlt hw' hheavy (fun i _ => hj i) hsz hsum
  have hmv : (sh'.map fun s => Pair.get s own) = sh.map fun s => Pair.get s own := by
    subst hw1
    exact shares_moved hf hQ hQ' hs.picks a4 b4 (a6 own) (b6 own)
  have hgetown : ∀ (l : List (ReportShare × ReportShare)) (o : Bool),
      Pair.get (l.map Prod.fst, l.map Prod.snd) o = l.map fun s => Pair.get s o := by
    intro l o; cases o <;> rfl
  -- the evaluations of the server
  have hev : SameEvals Q Q' cfg.histBuckets ((sh.map fun s => Pair.get s own).map fun s => (true, s))
      (Spec.askedAt (max 1 cfg.threshold) d ((Spec.runStrings d draw n).map some)) := by
    intro br hbr key hk p hp
    obtain ⟨s, hsm, rfl⟩ := List.mem_map.1 hbr
    obtain ⟨i, hi⟩ := List.getElem?_of_mem hsm
    have hin : i < n := by
      have := (List.getElem?_eq_some_iff.1 hi).1
      simpa [a4] using this
    obtain ⟨g1, g2⟩ := hs.picks i hin
    have hju : (draw.picks i).1 - 1 < cfg.uniqueBuckets := by omega
    rw [a6 own i hin _ hju rfl] at hi
    obtain rfl := Option.some.inj hi
    obtain rfl := Option.some.inj hk
    exact own_evalPath hf he w w' ⟨_, hju⟩ hp (askedAt_length hp).2 hQ hQ'
  have hfirst : ∀ b : Bool, [b] ∈ Spec.askedAt (max 1 cfg.threshold) d ((Spec.runStrings d draw n).map some) := fun b =>
    askedAt_child (p := []) (m := 0) (by omega) (by rw [heavyAt_zero]; exact List.mem_singleton_self _) b
  -- the verifier shares
  have hver : ∀ o, (sh'.map fun s => Pair.get s o).map (Spec.verifierOf Q' cfg.histBuckets
        (Pair.get (c0.serverId, c1.serverId) o) draw.verifyKey)
      = (sh.map fun s => Pair.get s o).map (Spec.verifierOf Q cfg.histBuckets
        (Pair.get (c0.serverId, c1.serverId) o) draw.verifyKey) :=
    verifiers_moved hb64 (by omega) hf he hfirst hQ hQ' hw1 hs.picks hw hw' hj ht h0 h1 a4 b4 a6 b6 hmv
  obtain ⟨g0, g1⟩ := worlds_same (b := cfg.queryBatch) own (by omega) W W'
    (by rw [runClients_strings, runClients_strings]) (by rw [hgetown, hgetown, hmv])
    (by rw [hgetown, runClients_some]; exact hev) (by rw [hQ', hQ]; rfl) (by rw [hQ', hQ]; rfl)
    (hver false) (hver true) (by rw [runClients_some]; exact fun p hp => (hsame p hp).symm)
  rw [runClients_some] at g0 g1
  unfold runReplies at hx hx'
  rw [g0, g1] at hx'
  refine ⟨sent, sent', _, _, _, t0, t1, t0', t1', hx, hx', ?_, ?_⟩
  · rw [a2 own, b2 own, hmv]
  · rw [a2, b2, script_notUpload, script_notUpload]

/-- **C95, exactness.**  The answers that the collector gets determine the total weights below the prefixes that the
servers evaluate: if the answers are the same in two runs, so are these weights. -/
theorem C95_exact {weight weight' : Nat → Nat} (server : Bool)
    (hs : Spec.Sensible P.withHistogram cfg draw n) (hb64 : cfg.histBuckets < 2 ^ 64)
    (hxof : ∀ seed binder l, (P.xofField seed binder l).length = l)
    (hroot : ∀ i < n, ∀ t ∈ P.xofField draw.verifyKey (Spec.MainDraw.of draw i).rand.nonce.toList 1,
      t ^ Spec.points cfg.histBuckets 2 ≠ 1)
    (htam : ∀ i < n, (draw.picks i).2 ≠ some .flp) (hd : cfg.dataBits = some d) (hs0 : c0.dataBits = some d)
    (hs1 : c1.dataBits = some d) (hd2 : 2 ≤ d) (h0 : c0.serverId = 0) (h1 : c1.serverId ≠ 0) (hn : 1 ≤ n)
    (hlt : n < 2 ^ 64) (hw : ∀ i < cfg.uniqueBuckets, weight i < cfg.histBuckets)
    (hw' : ∀ i < cfg.uniqueBuckets, weight' i < cfg.histBuckets)
    (hheavy : ∃ s : List Bool, s.length = d - 2 ∧
      (s ≠ [] → max 1 cfg.threshold ≤ (Spec.runStrings d draw n).countP fun a => s.isPrefixOf a))
    (w w' : Spec.RunCoins P.withHistogram cfg.uniqueBuckets cfg.histBuckets d draw) {Q Q' : Prims}
    (hQ : Q = Spec.setRun P.withHistogram cfg.uniqueBuckets cfg.histBuckets d draw server w)
    (hQ' : Q' = Spec.setRun P.withHistogram cfg.uniqueBuckets cfg.histBuckets d draw server w')
    (kcs : Pair2 Q) (kcs' : Pair2 Q') :
    ∃ (sent sent' : List (Req × Req)) (got got' : List (Resp × Resp)) (results printed results' printed' : List HHResult)
      (t0 t1 : Server Q)
      (t0' t1' : Server Q'),
      Spec.Hears c0 c1 (mainP Q bld cfg .weightedHeavyHitters (Spec.runDraw draw weight w) n) (.running kcs.1)
        (.running kcs.2) sent got (.whh results printed) t0 t1 ∧
      Spec.Hears c0 c1 (mainP Q' bld cfg .weightedHeavyHitters (Spec.runDraw draw weight' w') n)
        (.running kcs'.1) (.running kcs'.2) sent' got' (.whh results' printed') t0' t1' ∧
      results.map (fun r => (r.path, r.value))
        = Spec.heavyHitters cfg.histBuckets (max 1 cfg.threshold) d (Spec.runClients d draw weight n) ∧
      results'.map (fun r => (r.path, r.value))
        = Spec.heavyHitters cfg.histBuckets (max 1 cfg.threshold) d (Spec.runClients d draw weight' n) ∧
      (got = got' → ∀ p ∈ Spec.askedAt (max 1 cfg.threshold) d ((Spec.runStrings d draw n).map some),
        Spec.weightsBelow cfg.histBuckets d draw weight n p = Spec.weightsBelow cfg.histBuckets d draw weight' n p) := by
  obtain ⟨r, hj⟩ := run_points hxof draw
  obtain ⟨sizes, hsz, hsum, -⟩ := uploadBatches_spec hs.addBatch n n le_rfl
  obtain ⟨sh, sent, results, printed, t0, t1, v0, v1, rs, hx, hr, -, -, W, -⟩ := run_hears (c0 := c0) (c1 := c1) (bld := bld)
    (weight := weight) (Q := Q) (aes := Q.aes) (by rw [hQ]; rfl) w kcs hs hb64 hxof hroot htam hd hs0 hs1 hd2 h0 h1
    hn hlt hw hheavy (fun i _ => hj i) hsz hsum
  obtain ⟨sh', sent', results', printed', t0', t1', v0', v1', rs', hx', hr', -, -, W', -⟩ := run_hears (c0 := c0) (c1 := c1) (bld := bld)
    (weight := weight') (Q := Q') (aes := Q'.aes) (by rw [hQ']; rfl) w'
    kcs' hs hb64 hxof hroot htam hd hs0 hs1 hd2 h0 h1 hn hlt hw' hheavy (fun i _ => hj i) hsz hsum
  refine ⟨sent, sent', _, _, results, printed, results', printed', t0, t1, t0', t1', hx, hx', hr, hr', fun hg p hp => ?_⟩
  have hg0 := congrArg (List.map Prod.fst) hg
  have hg1 := congrArg (List.map Prod.snd) hg
  rw [List.map_fst_zip (by rw [runReplies_length]), List.map_fst_zip (by rw [runReplies_length])] at hg0
  rw [List.map_snd_zip (by rw [runReplies_length]), List.map_snd_zip (by rw [runReplies_length])] at hg1
  obtain ⟨a, b⟩ := askedAt_length hp
  have e := W.sums p a b
  rw [runReplies_inj hg0 p hp, runReplies_inj hg1 p hp, W'.sums p a b] at e
  exact (List.append_inj' e rfl).1.symm

/-! ### A concrete run -/

/-- Two generated reports with the same string. -/
def pairDraw : MainDraw where
  maliciousOk := true
  zipfOk := true
  reports := fun i => ⟨i, fun j => decide (j = 0), { toyRand i with
    rootSeeds := if i = 0 then squareSeeds else (Vector.replicate 16 0x15#8, Vector.replicate 16 0x62#8) }, 3 + i⟩
  verifyKey := Block.zero.set 0 2#8
  picks := fun i => (i % 2 + 1, none)
  attributes := fun _ => 1
  setOrder := id
  setOrder_perm := fun l => List.Perm.refl l

/-- The numbers of the cipher inputs behind the other server's values. -/
def pairTags (own : Bool) (k : Fin 12) : Nat :=
  (if own then #v[1179, 13406, 25633, 28591, 40818, 53045, 3151, 15378, 27605, 17680, 29907, 42134]
    else #v[9558, 21785, 34012, 41899, 54126, 832, 52540, 64767, 11473, 64245, 10951, 23178])[k]

theorem pairTags_inj (own : Bool) : Function.Injective (pairTags own) := by
  cases own <;> decide +kernel

theorem pairTags_eq (own : Bool) (i : Fin 2) (l : Fin (Spec.clientPath squareToy.withHistogram
    (pairDraw.reports i).rand.rootSeeds (Spec.stringOf 2 (pairDraw.reports i))).length) (k : Fin 3) :
    ∃ h : 6 * i.val + 3 * l.val + k.val < 12,
      blockTag (Spec.runInput squareToy.withHistogram 2 2 2 pairDraw (!own) ⟨i, l, k⟩) = pairTags own ⟨_, h⟩ := by
  revert i l k
  cases own <;> decide +kernel

/-- The numbers of the blocks of `Spec.UsedInput`. -/
def pairUsed (own : Bool) (i : Fin 2) : List Nat :=
  match own, i with
  | true, 0 => [24373, 36600, 29794, 42021, 54473, 62852, 62852, 9558, 21785, 34012, 62862, 9568, 19289, 31516, 16364,
        29672, 29672, 41899, 54126, 832, 28615, 40842, 53069, 65296]
  | true, 1 => [16556, 28783, 29868, 42095, 56445, 40313, 40313, 52540, 64767, 11473, 9165, 21392, 16612, 28839, 5453,
        52018, 52018, 64245, 10951, 23178, 59318, 6024, 18251, 30478]
  | false, 0 => [24373, 36600, 29794, 42021, 54473, 62852, 54473, 1179, 13406, 25633, 62862, 9568, 19289, 31516, 16364,
        29672, 16364, 28591, 40818, 53045, 28615, 40842, 53069, 65296]
  | false, 1 => [16556, 28783, 29868, 42095, 56445, 40313, 56445, 3151, 15378, 27605, 9165, 21392, 16612, 28839, 5453,
        52018, 5453, 17680, 29907, 42134, 59318, 6024, 18251, 30478]

theorem pairUsed_eq (own : Bool) (i : Fin 2) : (usedInputs squareToy.withHistogram
    (pairDraw.reports i).rand.rootSeeds (Spec.stringOf 2 (pairDraw.reports i)) own 2).map blockTag = pairUsed own i := by
  revert i
  cases own <;> decide +kernel

theorem pairTags_used (own : Bool) (i : Fin 2) : ∀ t ∈ pairUsed own i, ∀ k, t ≠ pairTags own k := by
  revert i
  cases own <;> decide +kernel

theorem pair_fresh (own : Bool) : Spec.FreshRun squareToy.withHistogram 2 2 2 pairDraw own := by
  refine ⟨?_, fun ⟨i, l, k⟩ i' h => ?_⟩
  · rintro ⟨i, l, k⟩ ⟨i', l', k'⟩ h
    obtain ⟨g, e⟩ := pairTags_eq own i l k
    obtain ⟨g', e'⟩ := pairTags_eq own i' l' k'
    have hk := congrArg Fin.val (pairTags_inj own (e.symm.trans ((congrArg blockTag h).trans e')))
    have hl : ∀ (j : Fin 2) (m : Fin (Spec.clientPath squareToy.withHistogram (pairDraw.reports j).rand.rootSeeds
        (Spec.stringOf 2 (pairDraw.reports j))).length), m.val < 2 := fun _ m => m.isLt
    have := hl i l
    have := hl i' l'
    have := k.isLt
    have := k'.isLt
    dsimp only at hk
    obtain rfl : i = i' := Fin.ext (by omega)
    obtain rfl : l = l' := Fin.ext (by omega)
    obtain rfl : k = k' := Fin.ext (by omega)
    rfl
  · obtain ⟨_, e⟩ := pairTags_eq own i l k
    exact pairTags_used own i' _ (pairUsed_eq own i' ▸ List.mem_map_of_mem (mem_usedInputs h)) _ e

theorem pair_asked : Spec.askedAt 2 2 ((Spec.runStrings 2 pairDraw 2).map some)
    = [[false], [true], [true, false], [true, true]] := by decide +kernel

/-- The numbers of the blocks of `Spec.evalInputs` at the evaluated prefixes. -/
def pairEvals (own : Bool) (i : Fin 2) : List Nat :=
  match own, i with
  | true, 0 => [29794, 28615, 40842, 53069, 65296, 42021, 62852, 9558, 21785, 34012, 42021, 62852, 9558, 21785, 34012,
        19289, 29672, 41899, 54126, 832, 42021, 62852, 9558, 21785, 34012, 31516, 6638, 18865, 31092, 43319]
  | true, 1 => [29868, 59318, 6024, 18251, 30478, 42095, 40313, 52540, 64767, 11473, 42095, 40313, 52540, 64767, 11473,
        16612, 52018, 64245, 10951, 23178, 42095, 40313, 52540, 64767, 11473, 28839, 43414, 55641, 2347, 14574]
  | false, 0 => [24373, 28615, 40842, 53069, 65296, 36600, 54473, 1179, 13406, 25633, 36600, 54473, 1179, 13406, 25633,
        62862, 16364, 28591, 40818, 53045, 36600, 54473, 1179, 13406, 25633, 9568, 6638, 18865, 31092, 43319]
  | false, 1 => [16556, 59318, 6024, 18251, 30478, 28783, 56445, 3151, 15378, 27605, 28783, 56445, 3151, 15378, 27605,
        9165, 5453, 17680, 29907, 42134, 28783, 56445, 3151, 15378, 27605, 21392, 43414, 55641, 2347, 14574]

theorem pairEvals_eq (own : Bool) (i : Fin 2) : ([[false], [true], [true, false], [true, true]].flatMap fun p =>
    (Spec.evalInputs squareToy.withHistogram 2 (Spec.seedWords squareToy.withHistogram
      (pairDraw.reports i).rand.rootSeeds (Spec.stringOf 2 (pairDraw.reports i)) 2) p own
      (Pair.get (pairDraw.reports i).rand.rootSeeds own))).map blockTag = pairEvals own i := by
  revert i
  cases own <;> decide +kernel

theorem pairTags_evals (own : Bool) (i : Fin 2) : ∀ t ∈ pairEvals own i, ∀ k, t ≠ pairTags own k := by
  revert i
  cases own <;> decide +kernel

theorem pair_evals (own : Bool) : Spec.FreshEvals squareToy.withHistogram 2 2 2 pairDraw own
    (Spec.askedAt 2 2 ((Spec.runStrings 2 pairDraw 2).map some)) := by
  rw [pair_asked]
  rintro ⟨i, l, k⟩ i' p hp h
  obtain ⟨_, e⟩ := pairTags_eq own i l k
  exact pairTags_evals own i' _ (pairEvals_eq own i' ▸ List.mem_map_of_mem (List.mem_flatMap.2 ⟨p, hp, h⟩)) _ e

theorem pair_sensible : Spec.Sensible squareToy.withHistogram ⟨some 2, 2, 2, 2, 2, 2⟩ pairDraw 2 :=
  ⟨rfl, rfl, rfl, by decide, by decide, by decide, by decide, by decide⟩

theorem pair_points : ∀ i < 2, ∀ t ∈ squareToy.xofField pairDraw.verifyKey
    (Spec.MainDraw.of pairDraw i).rand.nonce.toList 1, t ^ Spec.points 2 2 ≠ 1 := by
  have hp : Spec.points 2 2 = 2 := by decide
  have h : ∀ i < 2, pairDraw.verifyKey.toList.foldl (fun a b => a + b.toNat) 0 +
      (Spec.MainDraw.of pairDraw i).rand.nonce.toList.foldl (fun a b => a + b.toNat) 0 = if i = 0 then 2 else 3 := by
    decide +kernel
  rw [hp]
  intro i hi t ht
  obtain rfl := List.eq_of_mem_replicate ht
  rw [h i hi]
  interval_cases i <;> decide +kernel

/-- Two clients with the same string, threshold 2: one server and the collector cannot tell weights 0 and 1 from weights 1
and 0. -/
example (own : Bool) : ∃ F : Spec.RunCoins squareToy.withHistogram 2 2 2 pairDraw
      ≃ Spec.RunCoins squareToy.withHistogram 2 2 2 pairDraw,
    ∀ (w : Spec.RunCoins squareToy.withHistogram 2 2 2 pairDraw) (Q Q' : Prims),
      Q = Spec.setRun squareToy.withHistogram 2 2 2 pairDraw (!own) w →
      Q' = Spec.setRun squareToy.withHistogram 2 2 2 pairDraw (!own) (F w) →
      ∀ (kcs : Pair2 Q) (kcs' : Pair2 Q'),
      ∃ (sent sent' : List (Req × Req)) (got : List (Resp × Resp)) (out out' : Shown) (t0 t1 : Server Q)
        (t0' t1' : Server Q'),
        Spec.Hears (toyCfg 0 (some 2) .debug) (toyCfg 1 (some 2) .debug) (mainP Q .debug ⟨some 2, 2, 2, 2, 2, 2⟩
          .weightedHeavyHitters (Spec.runDraw pairDraw (fun i => i) w) 2) (.running kcs.1) (.running kcs.2) sent got
          out t0 t1 ∧
        Spec.Hears (toyCfg 0 (some 2) .debug) (toyCfg 1 (some 2) .debug) (mainP Q' .debug ⟨some 2, 2, 2, 2, 2, 2⟩
          .weightedHeavyHitters (Spec.runDraw pairDraw (fun i => 1 - i) (F w)) 2) (.running kcs'.1) (.running kcs'.2)
          sent' got out' t0' t1' ∧
        Spec.received own sent = Spec.received own sent' ∧
        (Spec.received (!own) sent).filter Spec.notUpload = (Spec.received (!own) sent').filter Spec.notUpload :=
  C95_aggregates (P := squareToy) (c0 := toyCfg 0 (some 2) .debug)
    (c1 := toyCfg 1 (some 2) .debug) (bld := .debug) (cfg := ⟨some 2, 2, 2, 2, 2, 2⟩) (draw := pairDraw) (n := 2) (d := 2)
    (weight := fun i => i) (weight' := fun i => 1 - i) own pair_sensible (by norm_num)
    (fun _ _ _ => List.length_replicate) pair_points (fun _ _ h => nomatch h) rfl rfl rfl le_rfl rfl (by decide)
    (by decide) (by norm_num) (by decide) (by decide) ⟨[], rfl, fun h => absurd rfl h⟩ (pair_fresh own) (pair_evals own)
    (by
      show ∀ p ∈ Spec.askedAt 2 2 ((Spec.runStrings 2 pairDraw 2).map some), _
      rw [pair_asked]
      decide +kernel)

/-- **C95, the weight of a client that is no heavy hitter.**  Three clients, threshold 2; the first has a string of its
own, which is not in the result.  Whether its weight is 0 or 1, the result is the same, and the answers that the collector
gets differ, whatever the random values are. -/
theorem C95_light (server : Bool) (w w' : Spec.RunCoins squareToy.withHistogram 2 2 2 squareDraw) {Q Q' : Prims}
    (hQ : Q = Spec.setRun squareToy.withHistogram 2 2 2 squareDraw server w)
    (hQ' : Q' = Spec.setRun squareToy.withHistogram 2 2 2 squareDraw server w') (kcs : Pair2 Q) (kcs' : Pair2 Q') :
    ∃ (sent sent' : List (Req × Req)) (got got' : List (Resp × Resp)) (results printed results' printed' : List HHResult)
      (t0 t1 : Server Q) (t0' t1' : Server Q'),
      Spec.Hears (toyCfg 0 (some 2) .debug) (toyCfg 1 (some 2) .debug) (mainP Q .debug ⟨some 2, 2, 2, 2, 2, 2⟩
        .weightedHeavyHitters (Spec.runDraw squareDraw (fun _ => 0) w) 3) (.running kcs.1) (.running kcs.2) sent got
        (.whh results printed) t0 t1 ∧
      Spec.Hears (toyCfg 0 (some 2) .debug) (toyCfg 1 (some 2) .debug) (mainP Q' .debug ⟨some 2, 2, 2, 2, 2, 2⟩
        .weightedHeavyHitters (Spec.runDraw squareDraw (fun i => 1 - i) w') 3) (.running kcs'.1) (.running kcs'.2) sent'
        got' (.whh results' printed') t0' t1' ∧
      results.map (fun r => (r.path, r.value)) = [([true, false], [2, 0, 2])] ∧
      results'.map (fun r => (r.path, r.value)) = [([true, false], [2, 0, 2])] ∧ got ≠ got' := by
  obtain ⟨sent, sent', got, got', r, p, r', p', t0, t1, t0', t1', g1, g2, g3, g4, g5⟩ := C95_exact (P := squareToy)
    (c0 := toyCfg 0 (some 2) .debug) (c1 := toyCfg 1 (some 2) .debug) (bld := .debug) (cfg := ⟨some 2, 2, 2, 2, 2, 2⟩)
    (draw := squareDraw) (n := 3) (d := 2) (weight := fun _ => 0) (weight' := fun i => 1 - i) server square_sensible
    (by norm_num) (fun _ _ _ => List.length_replicate) square_points square_honest rfl rfl rfl le_rfl rfl (by decide)
    (by decide) (by norm_num) (by decide) (by decide) ⟨[], rfl, fun h => absurd rfl h⟩ w w' hQ hQ' kcs kcs'
  have e : Spec.heavyHitters 2 2 2 (Spec.runClients 2 squareDraw (fun _ => 0) 3) = [([true, false], [2, 0, 2])] := by
    decide +kernel
  have e' : Spec.heavyHitters 2 2 2 (Spec.runClients 2 squareDraw (fun i => 1 - i) 3) = [([true, false], [2, 0, 2])] := by
    decide +kernel
  have hmem : [false] ∈ Spec.askedAt 2 2 ((Spec.runStrings 2 squareDraw 3).map some) := by decide +kernel
  refine ⟨sent, sent', got, got', r, p, r', p', t0, t1, t0', t1', g1, g2, g3.trans e, g4.trans e', fun hg => ?_⟩
  exact absurd (g5 hg [false] hmem) (by decide +kernel)

end Mastic
