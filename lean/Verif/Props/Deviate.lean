import Verif.Lemmas.Deviate
import Verif.Props.Spy
import Verif.Props.PmHide

/-!
# C99: a server that deviates from its code
-/

namespace Mastic

variable {P : Prims} {c0 c1 : ServerCfg}

theorem keepOf_picked {α : Type} (pick : Nat → Bool) (cs : List α) :
    keepOf (cs.map some) ((List.range cs.length).map pick) = Spec.picked pick cs := by
  refine List.ext_getElem? fun i => ?_
  rw [keepOf, List.getElem?_zipWith, Spec.picked, List.getElem?_mapIdx, List.getElem?_map, List.getElem?_map]
  by_cases hi : i < cs.length
  · rw [List.getElem?_eq_getElem hi, List.getElem?_range hi]
    rfl
  · rw [List.getElem?_eq_none (by omega)]
    rfl

theorem picked_length {α : Type} (pick : Nat → Bool) (cs : List α) : (Spec.picked pick cs).length = cs.length := by
  simp [Spec.picked]

theorem picked_le {α : Type} (pick : Nat → Bool) (cs : List α) :
    ((Spec.picked pick cs).filterMap id).length ≤ cs.length := by
  rw [← picked_length pick cs]
  exact List.length_filterMap_le _ _

theorem picked_some {α : Type} (pick : Nat → Bool) (cs : List α) :
    (Spec.picked pick cs).map Option.isSome = (List.range cs.length).map pick := by
  refine List.ext_getElem? fun i => ?_
  rw [Spec.picked, List.getElem?_map, List.getElem?_mapIdx, List.getElem?_map]
  by_cases hi : i < cs.length
  · rw [List.getElem?_eq_getElem hi, List.getElem?_range hi]
    cases h : pick i <;> simp [h]
  · rw [List.getElem?_eq_none (by omega), List.getElem?_eq_none (by simpa using hi)]
    rfl

/-- The whole conversation. -/
theorem tells_bent {n d : Nat} {b : Bool} {pick : Nat → Bool} {bld : Build} {cfg : Config} {kcs : Pair2 P}
    {clients : List (List Bool × Nat)}
    (hdb : cfg.dataBits = some d) (hd2 : 2 ≤ d) (hb : 1 ≤ cfg.queryBatch)
    (hn : cfg.histBuckets = n) (hn0 : kcs.1.inputLen = n) (hn1 : kcs.2.inputLen = n)
    (h0 : kcs.1.serverId = 0) (h1 : kcs.2.serverId ≠ 0) (hvk : kcs.1.verifyKey = kcs.2.verifyKey)
    (d0 : kcs.1.depth = some d) (d1 : kcs.2.depth = some d)
    (hh : Spec.HonestReports P n clients kcs.1.reportShares kcs.2.reportShares)
    (hc : Spec.FlpCompleteFor P n kcs.1.verifyKey kcs.1.reportShares)
    (hf0 : ∀ r ∈ kcs.1.reportShares, r.1 = true) (hf1 : ∀ r ∈ kcs.2.reportShares, r.1 = true)
    (hl : ∀ c ∈ clients, c.1.length = d) (hfm : Spec.FirstMatters P n)
    (hlt : clients.length + cfg.threshold < 2 ^ 64) (hne : (Spec.picked pick clients).filterMap id ≠ []) :
    ∃ (out : Shown) (kcs' : Pair2 P),
      Tells c0 c1 (bendP b (Spec.bent n (max 1 cfg.threshold - 1) pick) (whhP P bld cfg clients.length)) kcs
        (Spec.toBoth (Spec.whhScript 1 cfg.queryBatch d ((Spec.picked pick clients).map (Option.map Prod.fst)))) out kcs' ∧
      Spec.seen out = Spec.heavyHitters n 1 d ((Spec.picked pick clients).filterMap id) := by
  obtain ⟨num, hnum⟩ : ∃ num, clients.length = num := ⟨_, rfl⟩
  obtain ⟨up, hup⟩ : ∃ up, max 1 cfg.threshold - 1 = up := ⟨_, rfl⟩
  have hT : max 1 cfg.threshold = 1 + up := by omega
  have l0 := hh.1
  have l1 := hh.2.1
  obtain ⟨rs0, hrs0⟩ : ∃ r, kcs.1.reportShares = r := ⟨_, rfl⟩
  obtain ⟨rs1, hrs1⟩ : ∃ r, kcs.2.reportShares = r := ⟨_, rfl⟩
  have hM0 := mixed_of_honest hh hl hf0 hf1
  rw [hrs0, hrs1] at hM0
  have hM := mixed_mask hM0 ((List.range num).map pick)
  rw [← hnum, keepOf_picked, hnum] at hM
  obtain ⟨hq, hw0, hw1, hF⟩ := hM.facts
  obtain ⟨-, hv0, hv1, -⟩ := hM0.facts
  obtain ⟨r0, hr0⟩ : ∃ r0, Spec.masked rs0 ((List.range num).map pick) = r0 := ⟨_, rfl⟩
  obtain ⟨r1, hr1⟩ : ∃ r1, Spec.masked rs1 ((List.range num).map pick) = r1 := ⟨_, rfl⟩
  have m0 : r0.map Prod.snd = rs0.map Prod.snd := by
    rw [← hr0]; exact masked_snd (by simp [← hrs0, l0, hnum])
  have m1 : r1.map Prod.snd = rs1.map Prod.snd := by
    rw [← hr1]; exact masked_snd (by simp [← hrs1, l1, hnum])
  rw [hr0, hr1] at hq hF hM
  rw [hr0] at hw0
  rw [hr1] at hw1
  have hlt' : ((Spec.picked pick clients).filterMap id).length < 2 ^ 64 :=
    lt_of_le_of_lt (picked_le pick clients) (by omega)
  have hk0 := wellFormed_reach (by omega) hw0
  have hk1 := wellFormed_reach (by omega) hw1
  have hincl := included_ne hM hne
  have hqi := quiet_inner hq
  have hsmall : ∀ p, p ≠ [] → p.length ≤ d →
      ((Spec.tally P n (Spec.keyPairs r0 r1) p).getD n 0).val + up < 2 ^ 64 := by
    intro p hp hpl
    rw [tally_clients hF hp hpl]
    have hle : (Spec.holders ((Spec.picked pick clients).filterMap id) p).length ≤ clients.length :=
      (List.length_filter_le _ _).trans (picked_le pick clients)
    rw [List.getD_eq_getElem?_getD, List.getElem?_append_right (by simp [Spec.histogram])]
    simp only [Spec.histogram, List.length_map, List.length_range, Nat.sub_self, List.getElem?_cons_zero,
      Option.getD_some]
    rw [ZMod.val_natCast]
    have := Nat.mod_le (Spec.holders ((Spec.picked pick clients).filterMap id) p).length fieldModulus
    omega
  have hnpos : 1 ≤ n := by
    obtain ⟨c, hc⟩ := List.exists_mem_of_ne_nil _ hne
    have := (hM.lengths.2.2 c hc).2
    omega
  have hheavy : Spec.heavyPaths P n 1 (Spec.keyPairs r0 r1) (d - 1) ≠ [] := by
    obtain ⟨c, hc⟩ := List.exists_mem_of_ne_nil _ hne
    have hcl := (hM.lengths.2.2 c hc).1
    rw [heavyAt_heavyPaths hF hlt' (by omega)]
    have hmem : c.1.take (d - 1) ∈ Spec.allPaths (d - 1) := mem_allPaths.2 (by simp [hcl])
    refine List.ne_nil_of_mem (List.mem_filter.2 ⟨hmem, ?_⟩)
    rw [countOf_holders]
    have : 1 ≤ (Spec.holders ((Spec.picked pick clients).filterMap id) (c.1.take (d - 1))).length := by
      refine List.length_pos_of_mem (a := c) (List.mem_filter.2 ⟨hc, ?_⟩)
      simpa using List.take_prefix _ _
    rw [Bool.or_eq_true]
    exact .inr (decide_eq_true this)
  have hdec : ∀ (i : Nat) (b0 b1 : Bool) (s0 s1 : ReportShare), kcs.1.reportShares[i]? = some (b0, s0) →
      kcs.2.reportShares[i]? = some (b1, s1) → ∃ v0 v1 b,
        Spec.verifierOf P cfg.histBuckets kcs.1.serverId kcs.1.verifyKey s0 = some v0 ∧
        Spec.verifierOf P cfg.histBuckets kcs.2.serverId kcs.1.verifyKey s1 = some v1 ∧
        P.flpDecide cfg.histBuckets (Spec.addShares v0 v1) = some b ∧ (List.replicate num true)[i]? = some b := by
    intro i b0 b1 s0 s1 g0 g1
    have hil : i < clients.length := l0 ▸ (List.getElem?_eq_some_iff.1 g0).1
    have hci := List.getElem?_eq_getElem hil
    have ha : (clients[i]).1 ≠ [] := by
      intro he
      have := hl _ (List.getElem_mem hil)
      rw [he, List.length_nil] at this
      omega
    obtain ⟨v0, v1, q0, q1, qd⟩ := honest_verifiers h0 h1 ha (hh.2.2 i _ _ _ hci g0 g1) (hc _ (List.mem_of_getElem? g0))
    rw [hn]
    exact ⟨v0, v1, true, q0, q1, qd, by rw [List.getElem?_replicate, if_pos (by omega)]⟩
  obtain ⟨a0, a1, hi, ⟨e0r, e0n, e0s, -, e0d⟩, ⟨e1r, e1n, e1s, -, e1d⟩, hflp⟩ := whh_flp (c0 := c0) (c1 := c1)
    (bld := bld) (cfg := cfg) (d := d) (num := num) (keep := List.replicate num true) (by omega) hb (hn0.trans hn.symm)
    (hn1.trans hn.symm) hvk (by rw [l0, hnum]) (by rw [l1, hnum]) (hrs0 ▸ hv0) (hrs1 ▸ hv1) (by simp) hdec
  obtain ⟨t0, t1⟩ := driverTreeInit_ok hi
  obtain ⟨root0, f0, -⟩ := treeInit_fresh t0
  obtain ⟨root1, f1, -⟩ := treeInit_fresh t1
  simp only at f0 f1
  have hbf := tells_bentFlp (b := b) (up := up) (pick := pick) (kcs := ((a0, a1) : Pair2 P)) (num := num) hn hfm hb f0 f1
    (by rw [e0r, l0, hnum]) (by rw [e1r, l1, hnum]) (by simp only [e0r]; exact hf0) (keep := List.replicate num true)
    (by simp) (fun x hx => List.eq_of_mem_replicate hx) hflp (by simp only [e0r])
  simp only [e0r, e1r, hrs0, hrs1, hr0, hr1] at hbf
  have hB : Both n d 0 r0 r1 (Spec.heavyPaths P n 1 (Spec.keyPairs r0 r1) 0)
      (({ a0 with reportShares := r0 }, { a1 with reportShares := r1 }) : Pair2 P) := by
    rw [heavyPaths_zero]
    exact ⟨f0.at (e0n.trans hn0) (by simp [e0s, h0]) (e0d.trans d0) (by rw [m0, e0r, hrs0]),
      f1.at (e1n.trans hn1) (by simp [e1s, h1]) (e1d.trans d1) (by rw [m1, e1r, hrs1])⟩
  obtain ⟨kcs1, hl1, hB1⟩ := tells_bentLevel (b := b) (pick := pick) (up := up) hB c0 c1 cfg num hn
    (by simp [heavyPaths_zero]) (by omega)
    (hk0.mono (by omega)) (hk1.mono (by omega)) hq.1 hincl
    (digests_quiet hqi (by omega) (heavyPaths_nodup _ _ _ _) heavyPaths_len) hT
    fun p hp => hsmall p (kids_ne p hp) (by rw [kids_len heavyPaths_len p hp]; omega)
  rw [survivors_heavyPaths] at hB1
  obtain ⟨kcs2, hl2, hB2⟩ := tells_bentLevels (b := b) (pick := pick) (up := up) c0 c1 bld cfg num hn hT hqi hincl hk0 hk1
    hsmall (d - 2) 1 kcs1 (by omega) (by omega) hB1 fun l hl _ => heavyPaths_ne_le (by omega) hheavy
  rw [show 1 + (d - 2) = d - 1 by omega] at hB2
  obtain ⟨out, g3, p0, p1, hres, -⟩ := runLevelLast_quiet (cfg := { cfg with threshold := 1 }) hB2 c0 c1
    (num := num) hn hnpos (by simp [hdb]) hb hk0
    hk1 hq.1 (.inl (proofs_quiet hq (heavyPaths_nodup _ _ _ _)
      fun p hp => by rw [heavyPaths_len p hp]; omega))
  have hlast := tells_last hB2 c0 c1 { cfg with threshold := 1 } num hn hb hk0 hk1 hq.1 g3
  have hblast := tells_bentLast (b := b) (pick := pick) (up := up) (T := 1) (cfg := cfg) hn le_rfl hT hlast (by
    intro v k1 hv
    obtain ⟨nx0, pf0, q0, e0, g0, f0, a0, s0, -⟩ := treeCrawlLast_at hB2.fst hk0
    obtain ⟨nx1, pf1, q1, e1, g1, f1, a1, s1, -⟩ := treeCrawlLast_at hB2.snd hk1
    have hN : Nodes (P := P) n r0 r1 (kids _) nx0 nx1 := ⟨hq.1, kids_ne, f0 ▸ a0.pth, f1 ▸ a1.pth, s0, s1⟩
    rw [exec_crawlLast, e0, ok_bind, e1, ok_bind] at hv
    cases hv
    exact nodes_small hN fun p hp => hsmall p (kids_ne p hp) (by rw [kids_len heavyPaths_len p hp]; omega))
  have hlev : levelCount bld cfg.dataBits = .ok (d - 1) := by
    simp only [levelCount, hdb, unwrapO, ok_bind]
    rw [if_neg (by omega)]
  obtain ⟨x, hx⟩ := tells_exec (c0 := c0) (c1 := c1) (p := callDone .treeInit .treeInit) (kcs := kcs) (a := ())
    (kcs' := (a0, a1)) (by rw [exec_treeInit, hi, ok_bind])
  obtain rfl := tells_done hx
  have hrange : List.range (d - 1) = 0 :: List.range' 1 (d - 2) := by
    rw [List.range_eq_range', show d - 1 = (d - 2) + 1 by omega, List.range'_succ]
  rw [hup]
  have elv : bendP b (Spec.bent n up pick) (whhP P bld cfg num) = (callDone .treeInit .treeInit >>= fun _ =>
      ((bendP b (Spec.bent n up pick) (flpP P bld cfg num) >>= fun _ =>
        (bendP b (Spec.bent n up pick) (levelP cfg num) >>= fun _ =>
        bendP b (Spec.bent n up pick) (levelsP P bld cfg num (List.range' 1 (d - 2))))) >>= fun _ =>
      bendP b (Spec.bent n up pick) (levelLastP cfg num))) := by
    unfold whhP
    rw [bendP_bind, bend_treeInit]
    congr 1
    funext _
    rw [bendP_bind, liftM_prog, bendP_lift, hlev]
    show bendP b _ (levelsP P bld cfg num (List.range (d - 1)) >>= fun _ => levelLastP cfg num) = _
    rw [bendP_bind, hrange, levelsP, if_pos rfl, bendP_bind]
    simp only [bendP_bind]
  have hall := hx.bind (f := fun _ => (bendP b (Spec.bent n up pick) (flpP P bld cfg num) >>= fun _ =>
        (bendP b (Spec.bent n up pick) (levelP cfg num) >>= fun _ =>
        bendP b (Spec.bent n up pick) (levelsP P bld cfg num (List.range' 1 (d - 2))))) >>= fun _ =>
      bendP b (Spec.bent n up pick) (levelLastP cfg num))
    ((hbf.bind (f := fun _ => bendP b (Spec.bent n up pick) (levelP cfg num) >>= fun _ =>
        bendP b (Spec.bent n up pick) (levelsP P bld cfg num (List.range' 1 (d - 2))))
      (hl1.bind (f := fun _ => bendP b (Spec.bent n up pick) (levelsP P bld cfg num (List.range' 1 (d - 2)))) hl2)).bind
      (f := fun _ => bendP b (Spec.bent n up pick) (levelLastP cfg num)) hblast)
  rw [← elv] at hall
  refine ⟨.whh out.results out.printed, out.kcs, ?_, ?_⟩
  · rw [hnum]
    convert hall using 1
    have hfm : ∀ (f g : Nat → List Bool), (∀ m < d, f m = g m) →
        (List.range' 1 (d - 2)).flatMap (fun m => [Req.treeCrawl 1 [] false, .treePrune (f m)])
          = (List.range' 1 (d - 2)).flatMap (fun m => [Req.treeCrawl 1 [] false, .treePrune (g m)]) := by
      intro f g h
      refine List.flatMap_congr fun m hm => ?_
      rw [h m (by have := List.mem_range'_1.1 hm; omega)]
    have hmax : max 1 ({ cfg with threshold := 1 } : Config).threshold = 1 := rfl
    rw [hmax, hfm _ _ fun m hm => decisions_level hF hlt' hm, decisions_level hF hlt' (by omega),
      decisions_level hF hlt' (by omega)]
    unfold Spec.whhScript
    rw [List.length_map, picked_length, hnum, hrange]
    have hsome : ((Spec.picked pick clients).map (Option.map Prod.fst)).map Option.isSome = (List.range num).map pick := by
      rw [← hnum, ← picked_some, List.map_map]
      refine List.map_congr_left fun c _ => ?_
      cases c <;> rfl
    rw [hsome]
    simp only [Spec.toBoth, List.map_append, List.flatMap_cons, List.nil_append, List.append_assoc, List.map_cons,
      List.map_nil, List.singleton_append, List.cons_append]
  · show out.results.map (fun r => (r.path, r.value)) = _
    rw [hres]
    show (resultsOf P n _ (survivors P n 1 r0 r1 _)).map _ = _
    rw [survivors_heavyPaths, show d - 1 + 1 = d by omega]
    exact results_clients hF (by omega) hlt' fun c hc => (hM.lengths.2.2 c hc).1

/-- **C99 is false of the code.**  Either server can single out clients at will in a run of the driver as it is: it adds
`max 1 threshold - 1` to the counters that it reports, and spoils its FLP verifier shares of the clients that it does not
want.  The driver then carries out the run for the wanted clients and the threshold one: the requests that the lying
server gets name every prefix of every wanted client's string, and the strings with their weights are what the driver
ends with.  The other server runs the code and notices nothing. -/
theorem C99_false {n d : Nat} (b : Bool) (pick : Nat → Bool) {bld : Build} {cfg : Config} {kcs : Pair2 P}
    {clients : List (List Bool × Nat)}
    (hdb : cfg.dataBits = some d) (hd2 : 2 ≤ d) (hb : 1 ≤ cfg.queryBatch)
    (hn : cfg.histBuckets = n) (hn0 : kcs.1.inputLen = n) (hn1 : kcs.2.inputLen = n)
    (h0 : kcs.1.serverId = 0) (h1 : kcs.2.serverId ≠ 0) (hvk : kcs.1.verifyKey = kcs.2.verifyKey)
    (d0 : kcs.1.depth = some d) (d1 : kcs.2.depth = some d)
    (hh : Spec.HonestReports P n clients kcs.1.reportShares kcs.2.reportShares)
    (hc : Spec.FlpCompleteFor P n kcs.1.verifyKey kcs.1.reportShares)
    (hf0 : ∀ r ∈ kcs.1.reportShares, r.1 = true) (hf1 : ∀ r ∈ kcs.2.reportShares, r.1 = true)
    (hl : ∀ c ∈ clients, c.1.length = d) (hfm : Spec.FirstMatters P n)
    (hlt : clients.length + cfg.threshold < 2 ^ 64) (hne : (Spec.picked pick clients).filterMap id ≠ []) :
    ∃ out : Shown,
      Spec.against b (Pair.get (c0, c1) !b)
        (Spec.benter n (max 1 cfg.threshold - 1) pick (Pair.get (c0, c1) b) (.running (Pair.get kcs b)))
        (whhP P bld cfg clients.length) (.running (Pair.get kcs !b)) []
      = (Spec.whhScript 1 cfg.queryBatch d ((Spec.picked pick clients).map (Option.map Prod.fst)), some out) ∧
      Spec.seen out = Spec.heavyHitters n 1 d ((Spec.picked pick clients).filterMap id) := by
  obtain ⟨out, kcs', ht, hs⟩ := tells_bent (c0 := c0) (c1 := c1) (b := b) (bld := bld) hdb hd2 hb hn hn0 hn1 h0 h1 hvk d0 d1
    hh hc hf0 hf1 hl hfm hlt hne
  have := against_bend (cb := Pair.get (c0, c1) b) (sb := .running (Pair.get kcs b)) (got := [])
    (lie := Spec.benter n (max 1 cfg.threshold - 1) pick (Pair.get (c0, c1) b) (.running (Pair.get kcs b)))
    (by intro got r; simp [Spec.benter]) rfl ht (by cases b <;> rfl)
  refine ⟨out, ?_, hs⟩
  rw [List.nil_append] at this
  have hr : Spec.received b (Spec.toBoth (Spec.whhScript 1 cfg.queryBatch d
      ((Spec.picked pick clients).map (Option.map Prod.fst))))
      = Spec.whhScript 1 cfg.queryBatch d ((Spec.picked pick clients).map (Option.map Prod.fst)) := by
    unfold Spec.received Spec.toBoth
    rw [List.map_map]
    cases b <;> exact List.map_id _
  rw [hr] at this
  rw [← this]
  cases b <;> rfl

/-- Libprio's histogram minds the first entry of the verifier: the sum check has to come out as zero. -/
theorem histogram_firstMatters (n : Nat) : Spec.FirstMatters P.withHistogram n := by
  intro v hv
  show histDecide _ _ = _
  have hv : histDecide _ v = some true := hv
  unfold histDecide at hv ⊢
  rw [List.length_modify]
  split at hv
  · rename_i hl
    rw [if_pos hl]
    cases v with
    | nil => simp at hl
    | cons x v =>
      simp only [Option.some.injEq, Bool.and_eq_true, List.getD_cons_zero, beq_iff_eq] at hv
      simp only [List.modify_cons, if_true, List.getD_cons_zero, hv.1, zero_add, Option.some.injEq, Bool.and_eq_false_imp]
      intro h
      exact absurd h (by decide +kernel)
  · cases hv

/-- One client alone. -/
theorem C99_false_one {n d i : Nat} (b : Bool) {bld : Build} {cfg : Config} {kcs : Pair2 P}
    {clients : List (List Bool × Nat)} {c : List Bool × Nat}
    (hdb : cfg.dataBits = some d) (hd2 : 2 ≤ d) (hb : 1 ≤ cfg.queryBatch)
    (hn : cfg.histBuckets = n) (hn0 : kcs.1.inputLen = n) (hn1 : kcs.2.inputLen = n)
    (h0 : kcs.1.serverId = 0) (h1 : kcs.2.serverId ≠ 0) (hvk : kcs.1.verifyKey = kcs.2.verifyKey)
    (d0 : kcs.1.depth = some d) (d1 : kcs.2.depth = some d)
    (hh : Spec.HonestReports P n clients kcs.1.reportShares kcs.2.reportShares)
    (hc : Spec.FlpCompleteFor P n kcs.1.verifyKey kcs.1.reportShares)
    (hf0 : ∀ r ∈ kcs.1.reportShares, r.1 = true) (hf1 : ∀ r ∈ kcs.2.reportShares, r.1 = true)
    (hl : ∀ c ∈ clients, c.1.length = d) (hfm : Spec.FirstMatters P n)
    (hlt : clients.length + cfg.threshold < 2 ^ 64) (hi : clients[i]? = some c) :
    ∃ (got : List Req) (out : Shown),
      Spec.against b (Pair.get (c0, c1) !b)
        (Spec.benter n (max 1 cfg.threshold - 1) (fun j => decide (j = i)) (Pair.get (c0, c1) b) (.running (Pair.get kcs b)))
        (whhP P bld cfg clients.length) (.running (Pair.get kcs !b)) [] = (got, some out) ∧
      Spec.seen out = [(c.1, Spec.histogram n [c.2] ++ [1])] := by
  have hp : (Spec.picked (fun j => decide (j = i)) clients).filterMap id = [c] := by
    rw [← keepOf_picked, List.range_eq_range']
    have := keepOf_only clients i 0
    rw [hi] at this
    simpa using this
  obtain ⟨out, h, hs⟩ := C99_false (c0 := c0) (c1 := c1) b (fun j => decide (j = i)) (bld := bld) hdb hd2 hb hn hn0 hn1 h0 h1
    hvk d0 d1 hh hc hf0 hf1 hl hfm hlt (by rw [hp]; simp)
  refine ⟨_, out, h, ?_⟩
  rw [hs, hp, heavyHitters_alone (hl c (List.mem_of_getElem? hi))]

/-- Everybody: only the threshold is got rid of.  The lying server is told every prefix of every client's string. -/
theorem C99_false_all {n d : Nat} (b : Bool) {bld : Build} {cfg : Config} {kcs : Pair2 P}
    {clients : List (List Bool × Nat)}
    (hdb : cfg.dataBits = some d) (hd2 : 2 ≤ d) (hb : 1 ≤ cfg.queryBatch)
    (hn : cfg.histBuckets = n) (hn0 : kcs.1.inputLen = n) (hn1 : kcs.2.inputLen = n)
    (h0 : kcs.1.serverId = 0) (h1 : kcs.2.serverId ≠ 0) (hvk : kcs.1.verifyKey = kcs.2.verifyKey)
    (d0 : kcs.1.depth = some d) (d1 : kcs.2.depth = some d)
    (hh : Spec.HonestReports P n clients kcs.1.reportShares kcs.2.reportShares)
    (hc : Spec.FlpCompleteFor P n kcs.1.verifyKey kcs.1.reportShares)
    (hf0 : ∀ r ∈ kcs.1.reportShares, r.1 = true) (hf1 : ∀ r ∈ kcs.2.reportShares, r.1 = true)
    (hl : ∀ c ∈ clients, c.1.length = d) (hfm : Spec.FirstMatters P n)
    (hlt : clients.length + cfg.threshold < 2 ^ 64) (hne : clients ≠ []) :
    ∃ out : Shown,
      Spec.against b (Pair.get (c0, c1) !b)
        (Spec.benter n (max 1 cfg.threshold - 1) (fun _ => true) (Pair.get (c0, c1) b) (.running (Pair.get kcs b)))
        (whhP P bld cfg clients.length) (.running (Pair.get kcs !b)) []
      = (Spec.whhScript 1 cfg.queryBatch d (clients.map fun c => some c.1), some out) ∧
      Spec.seen out = Spec.heavyHitters n 1 d clients := by
  have hp : Spec.picked (fun _ => true) clients = clients.map some := by
    rw [Spec.picked]
    refine List.ext_getElem? fun i => ?_
    rw [List.getElem?_mapIdx, List.getElem?_map]
    rfl
  have hid : (clients.map some).filterMap id = clients := by
    rw [List.filterMap_map]
    exact List.filterMap_some
  obtain ⟨out, h, hs⟩ := C99_false (c0 := c0) (c1 := c1) b (fun _ => true) (bld := bld) hdb hd2 hb hn hn0 hn1 h0 h1
    hvk d0 d1 hh hc hf0 hf1 hl hfm hlt (by rw [hp, hid]; exact hne)
  rw [hp, hid] at hs
  rw [hp, List.map_map] at h
  exact ⟨out, h, hs⟩

/-- **What is true in plain metrics.**  Whatever a server answers, in a whole plain-metrics run it gets no request that it
would not get if it ran the code: its requests are a beginning of those of the honest run.  (Missing: attribute-based
metrics, where a wrong answer changes which clients are excluded; and how far the run gets, which depends on the answers
and on the reports.) -/
theorem C99_plain_partial (b : Bool) {bld : Build} {cfg : Config} {draw : MainDraw} {n : Nat} {kcs : Pair2 P}
    {sent : List (Req × Req)} {out : Shown} {t0 t1 : Server P}
    (h : Spec.Talk c0 c1 (mainP P bld cfg .plainMetrics draw n) (.running kcs.1) (.running kcs.2) sent out t0 t1)
    (lie : List Req → Resp) :
    (Spec.against b (Pair.get (c0, c1) !b) lie (mainP P bld cfg .plainMetrics draw n) (.running (Pair.get kcs !b)) []).1
      <+: Spec.received b sent := by
  obtain ⟨⟨k0, k1⟩, rfl, rfl, -⟩ := talk_running h kcs rfl rfl
  obtain ⟨pre, h1, h2⟩ := shadows_main b (kcs := kcs) (k := (k0, k1)) h lie []
  rw [h1]
  exact h2

/-- A lying leader of a plain-metrics run: for any two choices of the clients' buckets, and whatever it answers, its
requests are a beginning of one and the same list, which an honest leader gets in either run.  The helper's coins are
paired up one to one. -/
theorem C99_plain_leader_partial {bld : Build} {cfg : Config} {draw : MainDraw} {n : Nat} {X : Prio3Xof}
    {bucket bucket' : Nat → Nat}
    (hs : Spec.Sensible (P.withPrio3 X) cfg draw n) (hok : P.prio3Ok cfg.histBuckets = true)
    (hb64 : cfg.histBuckets < 2 ^ 64)
    (hq : ∀ i < n, Spec.queryPoint X draw.verifyKey (Spec.MainDraw.of draw i).rand.nonce
      ^ Spec.points cfg.histBuckets (Spec.chunk cfg.histBuckets) ≠ 1)
    (h0 : c0.serverId = 0) (h1 : c1.serverId = 1) (hsmall : n < fieldModulus)
    (htam : ∀ i < n, (draw.picks i).2 = none) (hw : ∀ i < cfg.uniqueBuckets, bucket i < cfg.histBuckets)
    (hw' : ∀ i < cfg.uniqueBuckets, bucket' i < cfg.histBuckets) (hf : Spec.FreshSeeds cfg.uniqueBuckets draw) :
    ∃ F : (Fin cfg.uniqueBuckets → Spec.HelperCoins cfg.histBuckets (Spec.chunk cfg.histBuckets))
        ≃ (Fin cfg.uniqueBuckets → Spec.HelperCoins cfg.histBuckets (Spec.chunk cfg.histBuckets)),
      ∀ (w : Fin cfg.uniqueBuckets → Spec.HelperCoins cfg.histBuckets (Spec.chunk cfg.histBuckets)) (Q Q' : Prims),
        Q = P.withPrio3 (Spec.setHelpers X draw w) → Q' = P.withPrio3 (Spec.setHelpers X draw (F w)) →
        ∀ (kcs : Pair2 Q) (kcs' : Pair2 Q'), ∃ L : List Req, ∀ lie : List Req → Resp,
          (Spec.against false c1 lie (mainP Q bld cfg .plainMetrics (Spec.bucketDraw draw bucket) n)
            (.running kcs.2) []).1 <+: L ∧
          (Spec.against false c1 lie (mainP Q' bld cfg .plainMetrics (Spec.bucketDraw draw bucket') n)
            (.running kcs'.2) []).1 <+: L := by
  obtain ⟨F, hF⟩ := C94_leader (P := P) (X := X) (c0 := c0) (c1 := c1) (bld := bld) (bucket := bucket)
    (bucket' := bucket') hs hok hb64 hq h0 h1 hsmall htam hw hw' hf
  refine ⟨F, fun w Q Q' hQ hQ' kcs kcs' => ?_⟩
  obtain ⟨sent, sent', t0, t1, t0', t1', g, g', e⟩ := hF w Q Q' hQ hQ' kcs kcs'
  refine ⟨Spec.received false sent, fun lie => ⟨C99_plain_partial false g lie, ?_⟩⟩
  rw [e]
  exact C99_plain_partial false g' lie

/-- A lying helper. -/
theorem C99_plain_helper_partial {bld : Build} {cfg : Config} {draw : MainDraw} {n : Nat} {X : Prio3Xof}
    {bucket bucket' : Nat → Nat}
    (hs : Spec.Sensible (P.withPrio3 X) cfg draw n) (hok : P.prio3Ok cfg.histBuckets = true)
    (hb64 : cfg.histBuckets < 2 ^ 64)
    (hq : ∀ i < n, Spec.queryPoint X draw.verifyKey (Spec.MainDraw.of draw i).rand.nonce
      ^ Spec.points cfg.histBuckets (Spec.chunk cfg.histBuckets) ≠ 1)
    (h0 : c0.serverId = 0) (h1 : c1.serverId = 1) (hsmall : n < fieldModulus)
    (htam : ∀ i < n, (draw.picks i).2 = none) (hw : ∀ i < cfg.uniqueBuckets, bucket i < cfg.histBuckets)
    (hw' : ∀ i < cfg.uniqueBuckets, bucket' i < cfg.histBuckets) (hf : Spec.FreshSeeds cfg.uniqueBuckets draw) :
    ∃ F : (Fin cfg.uniqueBuckets → Spec.LeaderCoins (Spec.chunk cfg.histBuckets))
        ≃ (Fin cfg.uniqueBuckets → Spec.LeaderCoins (Spec.chunk cfg.histBuckets)),
      ∀ (w : Fin cfg.uniqueBuckets → Spec.LeaderCoins (Spec.chunk cfg.histBuckets)) (Q Q' : Prims),
        Q = P.withPrio3 (Spec.setLeaders X cfg.histBuckets draw bucket w) →
        Q' = P.withPrio3 (Spec.setLeaders X cfg.histBuckets draw bucket' (F w)) →
        ∀ (kcs : Pair2 Q) (kcs' : Pair2 Q'), ∃ L : List Req, ∀ lie : List Req → Resp,
          (Spec.against true c0 lie (mainP Q bld cfg .plainMetrics (Spec.bucketDraw draw bucket) n)
            (.running kcs.1) []).1 <+: L ∧
          (Spec.against true c0 lie (mainP Q' bld cfg .plainMetrics (Spec.bucketDraw draw bucket') n)
            (.running kcs'.1) []).1 <+: L := by
  obtain ⟨F, hF⟩ := C94_helper (P := P) (X := X) (c0 := c0) (c1 := c1) (bld := bld) (bucket := bucket)
    (bucket' := bucket') hs hok hb64 hq h0 h1 hsmall htam hw hw' hf
  refine ⟨F, fun w Q Q' hQ hQ' kcs kcs' => ?_⟩
  obtain ⟨sent, sent', t0, t1, t0', t1', g, g', e⟩ := hF w Q Q' hQ hQ' kcs kcs'
  refine ⟨Spec.received true sent, fun lie => ⟨C99_plain_partial true g lie, ?_⟩⟩
  rw [e]
  exact C99_plain_partial true g' lie

/-! ## Instances -/

theorem toy_firstMatters (n : Nat) (hn : 1 ≤ n) : Spec.FirstMatters toy n := by
  intro v hv
  have h1 : (1 : Field128) ≠ 0 := by decide +kernel
  have h2 : (1 : Field128) + 1 ≠ 0 := by decide +kernel
  have h3 : (1 : Field128) + 1 ≠ 1 := by decide +kernel
  obtain ⟨n, rfl⟩ : ∃ m, n = m + 1 := ⟨n - 1, by omega⟩
  have hv : some (toyDecide (n + 1) (v.take (n + 1)) && v.drop (n + 1) == [7, 9]) = some true := hv
  show some (toyDecide (n + 1) ((v.modify 0 (· + 1)).take (n + 1)) && (v.modify 0 (· + 1)).drop (n + 1) == [7, 9]) = _
  cases v with
  | nil => simp [toyDecide] at hv
  | cons x v =>
    simp only [toyDecide, List.take_succ_cons, List.drop_succ_cons, Option.some.injEq, Bool.and_eq_true,
      List.all_cons, Bool.or_eq_true, beq_iff_eq] at hv
    simp only [List.modify_cons, if_true, List.take_succ_cons, List.drop_succ_cons, toyDecide, Option.some.injEq,
      Bool.and_eq_false_iff]
    obtain ⟨⟨⟨hlen, hx, hall⟩, hone⟩, -⟩ := hv
    rcases hx with rfl | rfl
    · refine .inl (.inr ?_)
      rw [List.filter_cons_of_neg (by simp)] at hone
      rw [List.filter_cons_of_pos (by simp), List.length_cons, hone]
      rfl
    · refine .inl (.inl (.inr ?_))
      simp [h2, h3]

/-- Three toy clients with the threshold two, which only the first and the third string reach together.  The first
server lies, wants the second client and gets its string. -/
example : ∃ (kcs : Pair2 toy) (got : List Req) (out : Shown),
    Spec.against false (toyCfg 1 (some 3) .debug)
      (Spec.benter 2 1 (fun j => decide (j = 1)) (toyCfg 0 (some 3) .debug) (.running kcs.1))
      (whhP toy .debug ⟨some 3, 2, 2, 2, 1, 2⟩ 3) (.running kcs.2) [] = (got, some out) ∧
    Spec.seen out = [([true, true, false], [0, 1, 1])] ∧
    Spec.heavyHitters 2 2 3 [([true, false, false], 0), ([true, true, false], 1), ([true, false, false], 1)]
      = [([true, false, false], [1, 1, 2])] := by
  obtain ⟨kcs, h1, h2, h3, h4, h5, h6, h7, h8, h9, h10⟩ :=
    toy_honest 2 3 [([true, false, false], 0), ([true, true, false], 1), ([true, false, false], 1)] (by decide)
  obtain ⟨got, out, g1, g2⟩ := C99_false_one (c0 := toyCfg 0 (some 3) .debug)
    (c1 := toyCfg 1 (some 3) .debug) false (bld := .debug) (cfg := ⟨some 3, 2, 2, 2, 1, 2⟩) (d := 3) (i := 1) rfl
    (by decide) (by decide) rfl h1 h2 h3 (by rw [h4]; decide) h5 h6 h7 h8 (fun _ _ => toy_flpComplete _ _) h9 h10 (by decide)
    (toy_firstMatters 2 (by decide)) (by decide) rfl
  exact ⟨kcs, got, out, g1, g2.trans (by decide +kernel), by decide +kernel⟩

/-- The same clients: the second server lies and is told everybody's prefixes. -/
example : ∃ (kcs : Pair2 toy) (out : Shown),
    Spec.against true (toyCfg 0 (some 3) .debug)
      (Spec.benter 2 1 (fun _ => true) (toyCfg 1 (some 3) .debug) (.running kcs.2))
      (whhP toy .debug ⟨some 3, 2, 2, 2, 1, 2⟩ 3) (.running kcs.1) []
    = (Spec.whhScript 1 2 3 [some [true, false, false], some [true, true, false], some [true, false, false]], some out) ∧
    Spec.seen out = [([true, false, false], [1, 1, 2]), ([true, true, false], [0, 1, 1])] := by
  obtain ⟨kcs, h1, h2, h3, h4, h5, h6, h7, h8, h9, h10⟩ :=
    toy_honest 2 3 [([true, false, false], 0), ([true, true, false], 1), ([true, false, false], 1)] (by decide)
  obtain ⟨out, g1, g2⟩ := C99_false_all (c0 := toyCfg 0 (some 3) .debug)
    (c1 := toyCfg 1 (some 3) .debug) true (bld := .debug) (cfg := ⟨some 3, 2, 2, 2, 1, 2⟩) (d := 3) rfl
    (by decide) (by decide) rfl h1 h2 h3 (by rw [h4]; decide) h5 h6 h7 h8 (fun _ _ => toy_flpComplete _ _) h9 h10 (by decide)
    (toy_firstMatters 2 (by decide)) (by decide) (by decide)
  exact ⟨kcs, out, g1, g2.trans (by decide +kernel)⟩

/-- Three plain-metrics clients in two batches: a leader that lies. -/
example : ∃ F : (Fin 2 → Spec.HelperCoins 2 (Spec.chunk 2)) ≃ (Fin 2 → Spec.HelperCoins 2 (Spec.chunk 2)),
    ∀ (w : Fin 2 → Spec.HelperCoins 2 (Spec.chunk 2)) (Q Q' : Prims),
      Q = toy.withPrio3 (Spec.setHelpers toyXof seedsDraw w) → Q' = toy.withPrio3 (Spec.setHelpers toyXof seedsDraw (F w)) →
      ∀ (kcs : Pair2 Q) (kcs' : Pair2 Q'), ∃ L : List Req, ∀ lie : List Req → Resp,
        (Spec.against false (toyCfg 1 none .release) lie (mainP Q .debug ⟨none, 2, 2, 2, 2, 2⟩ .plainMetrics
          (Spec.bucketDraw seedsDraw id) 3) (.running kcs.2) []).1 <+: L ∧
        (Spec.against false (toyCfg 1 none .release) lie (mainP Q' .debug ⟨none, 2, 2, 2, 2, 2⟩ .plainMetrics
          (Spec.bucketDraw seedsDraw fun i => 1 - i) 3) (.running kcs'.2) []).1 <+: L :=
  C99_plain_leader_partial (P := toy) (X := toyXof) (c0 := toyCfg 0 none .debug) (c1 := toyCfg 1 none .release)
    (bld := .debug) (cfg := ⟨none, 2, 2, 2, 2, 2⟩) (draw := seedsDraw) (n := 3) (bucket := id)
    (bucket' := fun i => 1 - i)
    ⟨rfl, rfl, rfl, by decide, by decide, by decide, by decide, fun i _ =>
      ⟨Nat.le_add_left _ _, Nat.succ_le_of_lt (Nat.mod_lt i (by decide))⟩⟩ rfl (by norm_num)
    (fun i _ => show (3 : Field128) ^ Spec.points 2 (Spec.chunk 2) ≠ 1 by decide +kernel) rfl rfl (by decide)
    (fun _ _ => rfl) (fun i hi => hi) (fun i hi => (by omega : 1 - i < 2)) seeds_fresh

/-- A helper that lies. -/
example : ∃ F : (Fin 2 → Spec.LeaderCoins (Spec.chunk 2)) ≃ (Fin 2 → Spec.LeaderCoins (Spec.chunk 2)),
    ∀ (w : Fin 2 → Spec.LeaderCoins (Spec.chunk 2)) (Q Q' : Prims),
      Q = toy.withPrio3 (Spec.setLeaders toyXof 2 seedsDraw id w) →
      Q' = toy.withPrio3 (Spec.setLeaders toyXof 2 seedsDraw (fun i => 1 - i) (F w)) →
      ∀ (kcs : Pair2 Q) (kcs' : Pair2 Q'), ∃ L : List Req, ∀ lie : List Req → Resp,
        (Spec.against true (toyCfg 0 none .debug) lie (mainP Q .debug ⟨none, 2, 2, 2, 2, 2⟩ .plainMetrics
          (Spec.bucketDraw seedsDraw id) 3) (.running kcs.1) []).1 <+: L ∧
        (Spec.against true (toyCfg 0 none .debug) lie (mainP Q' .debug ⟨none, 2, 2, 2, 2, 2⟩ .plainMetrics
          (Spec.bucketDraw seedsDraw fun i => 1 - i) 3) (.running kcs'.1) []).1 <+: L :=
  C99_plain_helper_partial (P := toy) (X := toyXof) (c0 := toyCfg 0 none .debug) (c1 := toyCfg 1 none .release)
    (bld := .debug) (cfg := ⟨none, 2, 2, 2, 2, 2⟩) (draw := seedsDraw) (n := 3) (bucket := id)
    (bucket' := fun i => 1 - i)
    ⟨rfl, rfl, rfl, by decide, by decide, by decide, by decide, fun i _ =>
      ⟨Nat.le_add_left _ _, Nat.succ_le_of_lt (Nat.mod_lt i (by decide))⟩⟩ rfl (by norm_num)
    (fun i _ => show (3 : Field128) ^ Spec.points 2 (Spec.chunk 2) ≠ 1 by decide +kernel) rfl rfl (by decide)
    (fun _ _ => rfl) (fun i hi => hi) (fun i hi => (by omega : 1 - i < 2)) seeds_fresh

end Mastic
