import Verif.Lemmas.Frames
import Verif.Props.Modes

/-!
# C106: the lengths of the messages
-/

namespace Mastic

variable {P : Prims} {X : Prio3Xof} {c0 c1 : ServerCfg} {bld : Build} {cfg : Config} {draw : MainDraw}
  {n d l v num : Nat} {clients : List (List Bool × Nat)} {buckets : List Nat}

theorem whh_conversation (e : IntEnc) (kcs : Pair2 P) (h : Spec.WhhRun P c0 c1 cfg draw n d clients)
    (hhon : ∀ i < n, (draw.picks i).2 ≠ some .flp)
    (hheavy : ∃ s : List Bool, s.length = d - 2 ∧
      (s ≠ [] → max 1 cfg.threshold ≤ clients.countP fun c => s.isPrefixOf c.1))
    (hl : Spec.ProofLen P cfg.histBuckets l) (hv : Spec.VerifierLen P cfg.histBuckets v) :
    ∃ (sent : List (Req × Req)) (got : List (Resp × Resp)) (results printed : List HHResult) (t0 t1 : Server P),
      Spec.Hears c0 c1 (mainP P bld cfg .weightedHeavyHitters draw n) (.running kcs.1) (.running kcs.2) sent got
        (.whh results printed) t0 t1 ∧
      (cfg.histBuckets < 2 ^ 64 → ∀ r ∈ sent, reqNums r.1 = true ∧ reqNums r.2 = true) ∧
      (∀ b ∈ got, respNums b.1 = true ∧ respNums b.2 = true) ∧
      ∀ own, Spec.seenLens e own sent got = Spec.whhLens e cfg.histBuckets n d cfg.addBatch cfg.queryBatch l v
        fun m => (Spec.heavyAt (max 1 cfg.threshold) (clients.map fun c => some c.1) m).length := by
  obtain ⟨reports, sh, hg, -, -, hp, hlen, hsh⟩ := mastic_picks (P := P) (mode := .weightedHeavyHitters) h.sensible
    h.proves (by simp) h.bits
  have hpop := main_population (c0 := c0) (c1 := c1) h.sensible.buckets h.complete h.rejected hlen hsh
  have hmc := mainClients_honest (cfg := cfg) (draw := draw) (n := n) (d := d) hhon
  have hcl : clients = Spec.runClients d draw (fun j => (draw.reports j).bucket % cfg.histBuckets) n := by
    rw [h.clients_eq, hmc]
    simp [List.filterMap_map]
  obtain ⟨sizes, hsz, hsum, -⟩ := uploadBatches_spec h.sensible.addBatch n n le_rfl
  have hcn : clients.length = n := by rw [hcl]; simp [Spec.runClients]
  have hn1 : 1 ≤ n := by
    have := List.length_pos_iff.2 h.nonempty
    omega
  rw [hmc, ← hcl] at hpop
  have hfm : (clients.map some).filterMap id = clients := by simp [List.filterMap_map]
  have hstr : clients.map (fun c => some c.1) = (Spec.runStrings d draw n).map some := by
    rw [hcl]
    simp [Spec.runClients, Spec.runStrings, Function.comp_def]
  obtain ⟨results, printed, t0, t1, ht, -⟩ := C92_script (P := P) (c0 := c0) (c1 := c1) (bld := bld) (cfg := cfg)
    (kcs := uploaded P c0 c1 cfg draw.verifyKey sh) (d := d) h.bits h.two h.sensible.queryBatch rfl rfl h.id0 h.id1 rfl
    h.bits0 h.bits1 hpop (by rw [hfm]; exact h.nonempty) (by rw [hfm, hcn]; exact h.small) (by
      obtain ⟨s, g1, g2⟩ := hheavy
      refine ⟨s, g1, fun hne => (g2 hne).trans (le_of_eq ?_)⟩
      rw [hfm, Spec.holders, List.countP_eq_length_filter])
  have hstr' : (clients.map some).map (Option.map Prod.fst) = (Spec.runStrings d draw n).map some := by
    rw [← hstr, List.map_map]; rfl
  rw [hstr', List.length_map, hcn] at ht
  obtain ⟨k, rfl, rfl, -⟩ := talk_running ht _ rfl rfl
  have hmain := tells_main (bld := bld) (mode := .weightedHeavyHitters) (kcs := kcs) h.sensible hg hp hsz ht
  obtain ⟨v0, v1, rs, W⟩ := world_of_population (P := P) (n := cfg.histBuckets) (d := d) (vk := draw.verifyKey)
    (T := max 1 cfg.threshold) (s0 := sh.map Prod.fst) (s1 := sh.map Prod.snd) h.id0 h.id1
    (by have := h.two; omega) h.nonempty (by rw [List.map_map, List.map_map]; exact hpop)
  have hheavy' : Spec.heavyAt (max 1 cfg.threshold) ((Spec.runStrings d draw n).map some) (d - 2) ≠ [] := by
    refine heavyAt_of_heavy ?_
    obtain ⟨s, g1, g2⟩ := hheavy
    refine ⟨s, g1, fun hne => (g2 hne).trans (le_of_eq ?_)⟩
    rw [hcl, Spec.runClients, Spec.runStrings, List.countP_map, List.countP_map]
    rfl
  have hhear := world_hears (weight := fun j => (draw.reports j).bucket % cfg.histBuckets) (cfg := cfg)
    (draw := draw) (n := n) h.sensible.hist h.sensible.queryBatch h.bits0 h.bits1
    h.two h.id0 h.id1 hlen hsum hheavy' hmain (fun own => received_main own) (by rw [← hcl]; exact W)
  have hrs : ∀ m < d - 1, ∃ root, rs m = [(root, 0)] := fun m hm => merkleRoots_single (W.roots0 m hm)
  refine ⟨_, _, results, printed, _, _, hhear, fun hb => sent_nums fun own => ?_,
    zip_nums (runReplies_nums hrs) (runReplies_nums hrs), fun own => ?_⟩
  · rw [received_main own]
    refine runReceived_nums hb fun r hr => whhScript_nums ?_ h.sensible.queryBatch hr
    simpa [Spec.runStrings] using h.small
  have hshape := mastic_shapes (l := l) hl hlen hsh own
  have hver : ∀ {s : List ReportShare} {id : Int} {ver : List (List Field128)}, s.length = n →
      s.map (Spec.verifierOf P cfg.histBuckets id draw.verifyKey) = ver.map some →
      ver.length = n ∧ ∀ x ∈ ver, x.length = v := by
    intro s id ver hs hm
    refine ⟨by have := congrArg List.length hm; simpa [hs] using this.symm, fun x hx => ?_⟩
    have : some x ∈ s.map (Spec.verifierOf P cfg.histBuckets id draw.verifyKey) := by
      rw [hm]; exact List.mem_map_of_mem hx
    obtain ⟨y, -, hy⟩ := List.mem_map.1 this
    exact verifierOf_length hv hy
  refine seenLens_eq (by rw [runReplies_length]) (received_main own) ?_
  have hstart := sized_start (e := e) (draw := draw) (cfg := cfg) (share := Spec.masticLen e d cfg.histBuckets l)
    (shares := sh.map fun s => Pair.get s own) h.sensible.addBatch hsz (by simp [hlen]) fun s hs => share_len e (hshape s hs)
  have hd1 : 1 ≤ d := by have := h.two; omega
  have hsl : ((Spec.runStrings d draw n).map some).length = n := by simp [Spec.runStrings]
  rw [hstr]
  unfold runReceived Spec.whhLens
  cases own with
  | false =>
    obtain ⟨q1, q2⟩ := hver (by simp [hlen]) W.ver0
    have hw := sized_whh (e := e) (T := max 1 cfg.threshold) (strings := (Spec.runStrings d draw n).map some) (rs := rs)
      h.sensible.queryBatch hd1 hsl q1 q2 W.len0 hrs
      ((lastProofs_length (P := P) (n := cfg.histBuckets) (Spec.heavyAt (max 1 cfg.threshold)
        ((Spec.runStrings d draw n).map some) (d - 1)) hshape).trans (by simp [hlen]))
    have := hstart.append hw
    simp only [List.append_assoc] at this ⊢
    exact this
  | true =>
    obtain ⟨q1, q2⟩ := hver (by simp [hlen]) W.ver1
    have hw := sized_whh (e := e) (T := max 1 cfg.threshold) (strings := (Spec.runStrings d draw n).map some) (rs := rs)
      h.sensible.queryBatch hd1 hsl q1 q2 W.len1 hrs
      ((lastProofs_length (P := P) (n := cfg.histBuckets) (Spec.heavyAt (max 1 cfg.threshold)
        ((Spec.runStrings d draw n).map some) (d - 1)) hshape).trans (by simp [hlen]))
    have := hstart.append hw
    simp only [List.append_assoc] at this ⊢
    exact this

/-- **C106, weighted heavy hitters.**  In a run whose clients do not change their proofs and which has a heavy prefix of
length `d - 2`, the length of every message on both connections, in both directions, is a number that depends on the
configuration, the number of clients and the numbers of heavy prefixes of each length only. -/
theorem C106_whh (e : IntEnc) (kcs : Pair2 P) (h : Spec.WhhRun P c0 c1 cfg draw n d clients)
    (hhon : ∀ i < n, (draw.picks i).2 ≠ some .flp)
    (hheavy : ∃ s : List Bool, s.length = d - 2 ∧
      (s ≠ [] → max 1 cfg.threshold ≤ clients.countP fun c => s.isPrefixOf c.1))
    (hl : Spec.ProofLen P cfg.histBuckets l) (hv : Spec.VerifierLen P cfg.histBuckets v) :
    ∃ (sent : List (Req × Req)) (got : List (Resp × Resp)) (results printed : List HHResult) (t0 t1 : Server P),
      Spec.Hears c0 c1 (mainP P bld cfg .weightedHeavyHitters draw n) (.running kcs.1) (.running kcs.2) sent got
        (.whh results printed) t0 t1 ∧
      ∀ own, Spec.seenLens e own sent got = Spec.whhLens e cfg.histBuckets n d cfg.addBatch cfg.queryBatch l v
        fun m => (Spec.heavyAt (max 1 cfg.threshold) (clients.map fun c => some c.1) m).length := by
  obtain ⟨sent, got, results, printed, t0, t1, h1, -, -, h2⟩ := whh_conversation (bld := bld) e kcs h hhon hheavy hl hv
  exact ⟨sent, got, results, printed, t0, t1, h1, h2⟩

theorem abm_conversation (e : IntEnc) (kcs : Pair2 P) (h : Spec.AttrRun P c0 c1 cfg draw n d num clients)
    (hl : Spec.ProofLen P cfg.histBuckets l) (hv : Spec.VerifierLen P cfg.histBuckets v) :
    ∃ (sent : List (Req × Req)) (got : List (Resp × Resp)) (attributes : List (List Bool)) (outs : List AbmOut)
      (t0 t1 : Server P),
      Spec.Hears c0 c1 (mainP P bld cfg (.attributeBasedMetrics num) draw n) (.running kcs.1) (.running kcs.2) sent got
        (.abm attributes outs) t0 t1 ∧
      (cfg.histBuckets < 2 ^ 64 → n < 2 ^ 64 → attributes.length < 2 ^ 64 →
        ∀ r ∈ sent, reqNums r.1 = true ∧ reqNums r.2 = true) ∧
      (∀ b ∈ got, respNums b.1 = true ∧ respNums b.2 = true) ∧ attributes = runAttributes d num draw ∧
      ∀ own, Spec.seenLens e own sent got = Spec.abmLens e cfg.histBuckets n d cfg.addBatch cfg.queryBatch l v
        attributes.length := by
  obtain ⟨reports, sh, hg, hrl, hra, hp, hlen, hsh⟩ := mastic_picks (P := P) (mode := .attributeBasedMetrics num)
    h.sensible h.proves (by simp) h.bits
  have hrej : Spec.BumpsRejected P cfg.histBuckets d c0.serverId c1.serverId draw n := fun i _ _ _ _ _ _ _ hi hb =>
    absurd hb (h.honest i hi)
  have hpop := main_population (c0 := c0) (c1 := c1) h.sensible.buckets h.complete hrej hlen hsh
  have hmc := mainClients_honest (cfg := cfg) (draw := draw) (n := n) (d := d) h.honest
  have hcl : clients = Spec.runClients d draw (fun j => (draw.reports j).bucket % cfg.histBuckets) n := h.clients_eq
  rw [hmc, ← hcl] at hpop
  have hcn : clients.length = n := by rw [hcl]; simp [Spec.runClients]
  obtain ⟨sizes, hsz, hsum, -⟩ := uploadBatches_spec h.sensible.addBatch n n le_rfl
  have ha : mainAttributes reports draw num = .ok (runAttributes d num draw) :=
    (mainAttributes_ok (draw := draw) (num := num) h.sensible.zipf hrl hra).1 h.samples
  have hal : ∀ p ∈ runAttributes d num draw, p.length = d := by
    intro p hp
    unfold runAttributes at hp
    rw [(draw.setOrder_perm _).mem_iff, List.mem_dedup, List.mem_map] at hp
    obtain ⟨j, -, rfl⟩ := hp
    simp [Spec.stringOf]
  have hane : ∀ p ∈ runAttributes d num draw, p ≠ [] ∧ p.length ≤ d := by
    intro p hp
    have := hal p hp
    refine ⟨?_, by omega⟩
    rintro rfl
    have := h.one
    simp at *
    omega
  have hst : stepByRanges n cfg.queryBatch = .ok (Spec.batches n cfg.queryBatch) := by
    unfold stepByRanges
    rw [if_neg (by have := h.sensible.queryBatch; omega)]
    rfl
  obtain ⟨k, hrun⟩ := main_abm (P := P) (c0 := c0) (c1 := c1) (draw := draw) (attrs := runAttributes d num draw)
    h.sensible.queryBatch h.one h.id0 h.id1 h.complete h.honest hlen hsh hane h.clients_eq hst
  have ht := C92_abm h.sensible.queryBatch hrun
  have hc : Tells c0 c1 (collectP P bld cfg (.attributeBasedMetrics num) draw n reports)
      (uploaded P c0 c1 cfg draw.verifyKey sh) ([] ++ ([] ++ (Spec.toBoth (Spec.abmScript (runAttributes d num draw)
        (Spec.batches n cfg.queryBatch) (((Spec.batches n cfg.queryBatch).map fun r => (⟨[], Spec.attributeHistograms cfg.histBuckets
          (runAttributes d num draw) (clients.take r.2)⟩ : AbmOut)).map AbmOut.rejected)) ++ [])))
      (.abm (runAttributes d num draw) ((Spec.batches n cfg.queryBatch).map fun r => ⟨[], Spec.attributeHistograms cfg.histBuckets
          (runAttributes d num draw) (clients.take r.2)⟩)) k := by
    unfold collectP
    refine (tells_pure _ ha).bind ((tells_pure _ hst).bind ?_)
    exact Tells.bind (show Tells c0 c1 _ (uploaded P c0 c1 cfg draw.verifyKey sh) _ _ k from ht) (.ret _ _ _)
  rw [List.nil_append, List.nil_append, List.append_nil, List.map_map] at hc
  have hmain := tells_main (bld := bld) (kcs := kcs) h.sensible hg hp hsz hc
  have hH := honestAbm_of_population (P := P) (c0 := c0) (c1 := c1) (attrs := runAttributes d num draw) h.one h.id0 h.id1
    hane (AttrRun.strings h) hpop
  have key : ∀ i, ∃ (x : List (List Field128) × List (List Field128) × List Field128 × List Field128 × Vector Byte 32),
      i < n →
        abmValidateClient (uploaded P c0 c1 cfg draw.verifyKey sh).1 (runAttributes d num draw) i
          = .ok (i, x.1, x.2.2.1, x.2.2.2.2) ∧
        abmValidateClient (uploaded P c0 c1 cfg draw.verifyKey sh).2 (runAttributes d num draw) i
          = .ok (i, x.2.1, x.2.2.2.1, x.2.2.2.2) := by
    intro i
    by_cases hi : i < n
    · obtain ⟨c, beta, v0, v1, q0, q1, dg, -, -, e3, e4, -⟩ := hH.client (i := i) (by omega)
      exact ⟨(v0, v1, q0, q1, dg), fun _ => ⟨e3, e4⟩⟩
    · exact ⟨([], [], [], [], P.blake3 []), fun h => absurd h hi⟩
  choose Y hY using key
  have side0 : AbmSide (uploaded P c0 c1 cfg draw.verifyKey sh).1 (runAttributes d num draw) n (fun i => (Y i).1)
      (fun i => (Y i).2.2.1) (fun i => (Y i).2.2.2.2) := fun i hi => (hY i hi).1
  have side1 : AbmSide (uploaded P c0 c1 cfg draw.verifyKey sh).2 (runAttributes d num draw) n (fun i => (Y i).2.1)
      (fun i => (Y i).2.2.2.1) (fun i => (Y i).2.2.2.2) := fun i hi => (hY i hi).2
  have cov : ∀ kc : KeyCollection P, kc.abmState = [] → Covers kc (runAttributes d num draw) 0 := by
    intro kc h
    refine ⟨by rw [h]; exact List.nodup_nil, fun k => ?_⟩
    rw [h, if_neg (by omega)]; rfl
  obtain ⟨rs, hrs, ⟨hp1, hp2⟩, -⟩ := stepByRanges_spec (n := n) h.sensible.queryBatch
  obtain rfl := Except.ok.inj (hrs.symm.trans hst)
  obtain ⟨k0, s0⟩ := served_abmLoop (c := c0) _ side0 (cov _ rfl) (Nat.zero_le _) hp1
    (by rw [Nat.sub_zero, ← List.range_eq_range']; exact hp2)
  obtain ⟨k1, s1⟩ := served_abmLoop (c := c1) _ side1 (cov _ rfl) (Nat.zero_le _) hp1
    (by rw [Nat.sub_zero, ← List.range_eq_range']; exact hp2)
  have m0 := served_main (P := P) (shares := sh.map Prod.fst) (draw := draw) (kc := kcs.1) (cfg := cfg) h.sensible.hist
    (hsum.trans (by rw [List.length_map, hlen])) (by rw [List.map_map]; exact s0)
  have m1 := served_main (P := P) (shares := sh.map Prod.snd) (draw := draw) (kc := kcs.2) (cfg := cfg) h.sensible.hist
    (hsum.trans (by rw [List.length_map, hlen])) (by rw [List.map_map]; exact s1)
  refine ⟨_, _, _, _, _, _, hears_of_talk hmain
    (by rw [received_main false]; exact congrArg Prod.snd m0) (by rw [received_main true]; exact congrArg Prod.snd m1),
    fun hb hn hk => sent_nums fun own => ?_, zip_nums abmAnswers_nums abmAnswers_nums, rfl,
    fun own => seenLens_eq (by simp [abmAnswers, List.length_flatMap]) (received_main own) ?_⟩
  · rw [received_main own]
    refine runReceived_nums hb (abmScript_nums hn h.sensible.queryBatch hk fun x hx => ?_)
    obtain ⟨r, -, rfl⟩ := List.mem_map.1 hx
    rfl
  have hshape := mastic_shapes (l := l) hl hlen hsh own
  have hstart := sized_start (e := e) (draw := draw) (cfg := cfg) (share := Spec.masticLen e d cfg.histBuckets l)
    (shares := sh.map fun s => Pair.get s own) h.sensible.addBatch hsz (by simp [hlen]) fun s hs => share_len e (hshape s hs)
  have hq : ∀ (own : Bool), ∀ i < n, (Pair.get ((Y i).2.2.1, (Y i).2.2.2.1) own).length = v := by
    intro own i hi
    have hi' : i < sh.length := by omega
    obtain ⟨e0, e1⟩ := hY i hi
    cases own with
    | false => exact verifierOf_length hv (validate_parts (b := true) (s := sh[i].1) (by simp [uploaded, hi']) e0).2.1
    | true => exact verifierOf_length hv (validate_parts (b := true) (s := sh[i].2) (by simp [uploaded, hi']) e1).2.1
  unfold runReceived Spec.abmLens
  cases own with
  | false => exact hstart.append (sized_abm (e := e) h.sensible.queryBatch rfl hal (hq false))
  | true => exact hstart.append (sized_abm (e := e) h.sensible.queryBatch rfl hal (hq true))

/-- **C106, attribute-based metrics.**  The lengths depend on the configuration, the number of clients and the number of
different attributes only. -/
theorem C106_abm (e : IntEnc) (kcs : Pair2 P) (h : Spec.AttrRun P c0 c1 cfg draw n d num clients)
    (hl : Spec.ProofLen P cfg.histBuckets l) (hv : Spec.VerifierLen P cfg.histBuckets v) :
    ∃ (sent : List (Req × Req)) (got : List (Resp × Resp)) (attributes : List (List Bool)) (outs : List AbmOut)
      (t0 t1 : Server P),
      Spec.Hears c0 c1 (mainP P bld cfg (.attributeBasedMetrics num) draw n) (.running kcs.1) (.running kcs.2) sent got
        (.abm attributes outs) t0 t1 ∧
      ∀ own, Spec.seenLens e own sent got = Spec.abmLens e cfg.histBuckets n d cfg.addBatch cfg.queryBatch l v
        attributes.length := by
  obtain ⟨sent, got, attributes, outs, t0, t1, h1, -, -, -, h2⟩ := abm_conversation (bld := bld) e kcs h hl hv
  exact ⟨sent, got, attributes, outs, t0, t1, h1, h2⟩

theorem pm_conversation (e : IntEnc) (kcs : Pair2 (P.withPrio3 X)) (h : Spec.PlainRun P X c0 c1 cfg draw n buckets) :
    ∃ (sent : List (Req × Req)) (got : List (Resp × Resp)) (outs : List PmOut) (t0 t1 : Server (P.withPrio3 X)),
      Spec.Hears c0 c1 (mainP (P.withPrio3 X) bld cfg .plainMetrics draw n) (.running kcs.1) (.running kcs.2) sent got
        (.pm outs) t0 t1 ∧
      (n < 2 ^ 64 → ∀ r ∈ sent, reqNums r.1 = true ∧ reqNums r.2 = true) ∧
      (∀ b ∈ got, respNums b.1 = true ∧ respNums b.2 = true) ∧
      ∀ own, Spec.seenLens e own sent got = Spec.pmLens e cfg.histBuckets n cfg.addBatch cfg.queryBatch own := by
  obtain ⟨sizes, hsz, hsum, -⟩ := uploadBatches_spec h.sensible.addBatch n n le_rfl
  obtain ⟨sh, sent, t0, t1, F, G, O0, O1, hh, r0, r1, hlen, hi⟩ := pm_hears (c0 := c0) (c1 := c1) (bld := bld)
    (bucket := fun i => (draw.reports i).bucket % cfg.histBuckets) kcs h.sensible h.prio3 h.buckets_lt h.query h.id0 h.id1
    h.small h.honest (fun i _ => Nat.mod_lt _ h.sensible.buckets) hsz hsum
  rw [mainP_bucketDraw] at hh
  refine ⟨sent, _, _, t0, t1, hh, fun hn => sent_nums fun own => ?_, zip_nums pmReplies_nums pmReplies_nums, fun own => ?_⟩
  · cases own with
    | false => rw [r0]; exact pmReceived_nums h.buckets_lt hn h.sensible.queryBatch
    | true => rw [r1]; exact pmReceived_nums h.buckets_lt hn h.sensible.queryBatch
  have hsz0 : ∀ own, ∀ s ∈ sh.map (fun s => Pair.get s own), ((Codec.reportShare e).enc s).length
      = Spec.prio3Len e cfg.histBuckets own := by
    intro own s hs
    obtain ⟨q, hq, rfl⟩ := List.mem_map.1 hs
    obtain ⟨i, hi'⟩ := List.getElem?_of_mem hq
    obtain ⟨pub, in0, in1, g1, g2, -⟩ := hi i (hlen ▸ (List.getElem?_eq_some_iff.1 hi').1)
    rw [hi'] at g2
    cases g2
    obtain ⟨l1, l2, l3⟩ := C85_sizes (P := P) (X := X) g1
    have hlen : ∀ nonce pub inp, ((Codec.reportShare e).enc (.prio3 nonce pub inp)).length
        = Spec.tagLen e + 16 + Spec.vecLen e pub.length 1 + Spec.vecLen e inp.length 1 := by
      intro nonce pub inp
      simp only [Codec.reportShare, Codec.prio3Share, Codec.pair, List.length_append, Codec.array_len,
        Codec.tag_len e 1 (by norm_num), bytes_len]
      omega
    cases own with
    | false => simp only [Pair.get, hlen, l1, l3, Spec.prio3Len]; rfl
    | true => simp only [Pair.get, hlen, l1, l2, Spec.prio3Len]; rfl
  have hF : ∀ i < n, (prio3EncodeShare (F i).2).length = Spec.prepLen cfg.histBuckets := by
    intro i hin
    obtain ⟨pub, in0, in1, -, -, g3, -⟩ := hi i hin
    exact prep_length g3
  have hG : ∀ i < n, (prio3EncodeShare (G i).2).length = Spec.prepLen cfg.histBuckets := by
    intro i hin
    obtain ⟨pub, in0, in1, -, -, -, g4, -⟩ := hi i hin
    exact prep_length g4
  have hstart := sized_start (e := e) (draw := draw) (cfg := cfg) (shares := sh.map fun s => Pair.get s own)
    h.sensible.addBatch hsz (by simp [hlen]) (hsz0 own)
  have hll : (pmReplies (P.withPrio3 X) cfg n sizes F O0).length = (pmReplies (P.withPrio3 X) cfg n sizes G O1).length := by
    simp [pmReplies, List.length_flatMap]
  unfold Spec.pmLens
  cases own with
  | false =>
    refine seenLens_eq hll r0 ?_
    exact hstart.append (sized_pm (e := e) (P := P) (Z := X) h.sensible.queryBatch hF hG)
  | true =>
    refine seenLens_eq hll r1 ?_
    exact hstart.append (sized_pm (e := e) (P := P) (Z := X) h.sensible.queryBatch hG hF)

/-- **C106, plain metrics.**  The lengths depend on the configuration and the number of clients only. -/
theorem C106_pm (e : IntEnc) (kcs : Pair2 (P.withPrio3 X)) (h : Spec.PlainRun P X c0 c1 cfg draw n buckets) :
    ∃ (sent : List (Req × Req)) (got : List (Resp × Resp)) (outs : List PmOut) (t0 t1 : Server (P.withPrio3 X)),
      Spec.Hears c0 c1 (mainP (P.withPrio3 X) bld cfg .plainMetrics draw n) (.running kcs.1) (.running kcs.2) sent got
        (.pm outs) t0 t1 ∧
      ∀ own, Spec.seenLens e own sent got = Spec.pmLens e cfg.histBuckets n cfg.addBatch cfg.queryBatch own := by
  obtain ⟨sent, got, outs, t0, t1, h1, -, -, h2⟩ := pm_conversation (bld := bld) e kcs h
  exact ⟨sent, got, outs, t0, t1, h1, h2⟩

/-- **C106, what the lengths reveal.**  The lengths of a weighted-heavy-hitters run determine the numbers of heavy prefixes,
and nothing else about the strings. -/
theorem C106_reveals (e : IntEnc) {b n d add query l v : Nat} {h h' : Nat → Nat} (hd : 1 ≤ d) :
    Spec.whhLens e b n d add query l v h = Spec.whhLens e b n d add query l v h' ↔ ∀ m ≤ d, h m = h' m := by
  constructor
  · intro heq
    unfold Spec.whhLens at heq
    obtain ⟨heq, hlast⟩ := List.append_inj heq (by simp [List.length_flatMap])
    obtain ⟨heq, -⟩ := List.append_inj heq (by simp [List.length_flatMap])
    obtain ⟨heq, -⟩ := List.append_inj heq (by simp [List.length_flatMap])
    obtain ⟨-, hmid⟩ := List.append_inj heq (by simp)
    simp only [List.cons.injEq, Prod.mk.injEq, Nat.add_left_cancel_iff, and_true, true_and] at hlast
    intro m hm
    rcases Nat.lt_or_ge m (d - 1) with h1 | h1
    · have := congrArg Prod.snd (flatMap_pair_inj hmid m (List.mem_range.2 h1))
      simp only [Nat.add_left_cancel_iff, Nat.add_right_cancel_iff] at this
      have := vecLen_inj (by unfold Spec.fieldsLen Spec.vecLen Spec.fieldLen; nlinarith) this
      omega
    · rcases Nat.lt_or_ge m d with h2 | h2
      · obtain rfl : m = d - 1 := by omega
        have := vecLen_inj (by omega) hlast.1
        omega
      · obtain rfl : m = d := by omega
        exact vecLen_inj (by unfold Spec.vecLen; omega) hlast.2
  · intro heq
    unfold Spec.whhLens
    have : ((List.range (d - 1)).flatMap fun m =>
      [(Spec.tagLen e + (Spec.intLen e 1 + (Spec.intLen e 0 + 1)),
          Spec.tagLen e + (Spec.vecLen e (2 * h m) (Spec.fieldsLen e (b + 1)) + (Spec.vecLen e 1 (Spec.intLen e 16 + 16)
            + Spec.vecLen e 1 (Spec.intLen e 0)))),
        (Spec.tagLen e + Spec.vecLen e (2 * h m) 1, Spec.doneLen e)])
      = (List.range (d - 1)).flatMap fun m =>
      [(Spec.tagLen e + (Spec.intLen e 1 + (Spec.intLen e 0 + 1)),
          Spec.tagLen e + (Spec.vecLen e (2 * h' m) (Spec.fieldsLen e (b + 1)) + (Spec.vecLen e 1 (Spec.intLen e 16 + 16)
            + Spec.vecLen e 1 (Spec.intLen e 0)))),
        (Spec.tagLen e + Spec.vecLen e (2 * h' m) 1, Spec.doneLen e)] :=
      List.flatMap_congr fun m hm => by rw [heq m (by have := List.mem_range.1 hm; omega)]
    rw [this, heq (d - 1) (by omega), heq d le_rfl]

/-- **C106, two runs.**  Two weighted-heavy-hitters runs with the same numbers in their configurations (any primitives with
proofs and verifiers of these lengths, any clients, keys, seeds and servers) look the same to somebody who sees the lengths
of all messages of either connection, if and only if they have equally many heavy prefixes of every length. -/
theorem C106_same (e : IntEnc) {P' : Prims} {c0' c1' : ServerCfg} {bld' : Build} {cfg' : Config} {draw' : MainDraw}
    {clients' : List (List Bool × Nat)} {kcs : Pair2 P} {kcs' : Pair2 P'} {sent sent' : List (Req × Req)}
    {got got' : List (Resp × Resp)} {out out' : Shown} {t0 t1 : Server P} {t0' t1' : Server P'}
    (h : Spec.WhhRun P c0 c1 cfg draw n d clients) (h' : Spec.WhhRun P' c0' c1' cfg' draw' n d clients')
    (hhon : ∀ i < n, (draw.picks i).2 ≠ some .flp) (hhon' : ∀ i < n, (draw'.picks i).2 ≠ some .flp)
    (hheavy : ∃ s : List Bool, s.length = d - 2 ∧
      (s ≠ [] → max 1 cfg.threshold ≤ clients.countP fun c => s.isPrefixOf c.1))
    (hheavy' : ∃ s : List Bool, s.length = d - 2 ∧
      (s ≠ [] → max 1 cfg'.threshold ≤ clients'.countP fun c => s.isPrefixOf c.1))
    (hl : Spec.ProofLen P cfg.histBuckets l) (hv : Spec.VerifierLen P cfg.histBuckets v)
    (hl' : Spec.ProofLen P' cfg.histBuckets l) (hv' : Spec.VerifierLen P' cfg.histBuckets v)
    (hb : cfg.histBuckets = cfg'.histBuckets) (ha : cfg.addBatch = cfg'.addBatch) (hq : cfg.queryBatch = cfg'.queryBatch)
    (hr : Spec.Hears c0 c1 (mainP P bld cfg .weightedHeavyHitters draw n) (.running kcs.1) (.running kcs.2) sent got out
      t0 t1)
    (hr' : Spec.Hears c0' c1' (mainP P' bld' cfg' .weightedHeavyHitters draw' n) (.running kcs'.1) (.running kcs'.2) sent'
      got' out' t0' t1') (own own' : Bool) :
    Spec.seenLens e own sent got = Spec.seenLens e own' sent' got' ↔
      ∀ m ≤ d, (Spec.heavyAt (max 1 cfg.threshold) (clients.map fun c => some c.1) m).length
        = (Spec.heavyAt (max 1 cfg'.threshold) (clients'.map fun c => some c.1) m).length := by
  obtain ⟨s, g, _, _, _, _, a1, a2⟩ := C106_whh (bld := bld) e kcs h hhon hheavy hl hv
  obtain ⟨s', g', _, _, _, _, b1, b2⟩ := C106_whh (bld := bld') e kcs' h' hhon' hheavy' (hb ▸ hl') (hb ▸ hv')
  obtain ⟨rfl, rfl⟩ := hears_unique hr a1
  obtain ⟨rfl, rfl⟩ := hears_unique hr' b1
  rw [a2 own, b2 own', ← hb, ← ha, ← hq]
  have hd : 1 ≤ d := by have := h.two; omega
  exact C106_reveals e hd

/-- **C106, what the lengths reveal about attributes**: how many different ones were asked for. -/
theorem C106_reveals_attributes (e : IntEnc) {b n d add query l v k k' : Nat} (hd : 1 ≤ d) (hn : 1 ≤ n) (hq : 1 ≤ query) :
    Spec.abmLens e b n d add query l v k = Spec.abmLens e b n d add query l v k' ↔ k = k' := by
  refine ⟨fun h => ?_, fun h => by rw [h]⟩
  unfold Spec.abmLens at h
  have h := List.append_cancel_left h
  have hne : Spec.batches n query ≠ [] := by
    intro h0
    have := congrArg List.length h0
    simp only [Spec.batches, List.length_map, List.length_range, List.length_nil] at this
    have h1 : 1 ≤ (n + query - 1) / query := (Nat.one_le_div_iff (by omega)).2 (by omega)
    omega
  obtain ⟨r, rs, hr⟩ := List.exists_cons_of_ne_nil hne
  simp only [hr, List.flatMap_cons, List.cons_append, List.cons.injEq, Prod.mk.injEq, Nat.add_left_cancel_iff,
    Nat.add_right_cancel_iff] at h
  exact vecLen_inj (by unfold Spec.vecLen; omega) h.1.1

theorem toy_verifierLen (b : Nat) : Spec.VerifierLen toy b (b + 2) := by
  intro x p q j v h
  simp only [toy] at h
  split at h
  · rename_i hc
    cases h
    rw [List.length_append, hc.1, hc.2]
  · cases h

/-- The two clients of `few_whhRun` hold the string `10`: with threshold 2 there is one heavy prefix of each length, with
threshold 3 there is none of length 1 or 2, and the lengths of the messages differ. -/
example (e : IntEnc) (kcs kcs' : Pair2 toy) : ∃ (sent sent' : List (Req × Req)) (got got' : List (Resp × Resp))
    (out out' : Shown) (t0 t1 t0' t1' : Server toy),
    Spec.Hears (toyCfg 0 (some 2) .debug) (toyCfg 1 (some 2) .release)
      (mainP toy .debug ⟨some 2, 2, 2, 2, 2, 2⟩ .weightedHeavyHitters toyDraw 2) (.running kcs.1) (.running kcs.2) sent got out
      t0 t1 ∧
    Spec.Hears (toyCfg 0 (some 2) .debug) (toyCfg 1 (some 2) .release)
      (mainP toy .debug ⟨some 2, 2, 2, 2, 2, 3⟩ .weightedHeavyHitters toyDraw 2) (.running kcs'.1) (.running kcs'.2) sent' got'
      out' t0' t1' ∧
    Spec.seenLens e false sent got = Spec.whhLens e 2 2 2 2 2 2 4 (fun _ => 1) ∧
    Spec.seenLens e false sent got = Spec.seenLens e true sent got ∧
    Spec.seenLens e false sent got ≠ Spec.seenLens e false sent' got' := by
  have hh : ∀ i < 2, (toyDraw.picks i).2 ≠ some .flp := few_attrRun.honest
  have hp : ∀ T, ∃ s : List Bool, s.length = 2 - 2 ∧ (s ≠ [] → max 1 (⟨some 2, 2, 2, 2, 2, T⟩ : Config).threshold
      ≤ ((Spec.mainClients 2 2 toyDraw 2).filterMap id).countP fun c => s.isPrefixOf c.1) :=
    fun T => ⟨[], rfl, fun h => absurd rfl h⟩
  obtain ⟨s, g, r, pr, t0, t1, a1, a2⟩ := C106_whh (bld := .debug) e kcs (few_whhRun 2 2 (.inr rfl)) hh (hp 2) (toy_proofLen 2)
    (toy_verifierLen 2)
  obtain ⟨s', g', r', pr', t0', t1', b1, b2⟩ := C106_whh (bld := .debug) e kcs' (few_whhRun 3 2 (.inr rfl)) hh (hp 3)
    (toy_proofLen 2) (toy_verifierLen 2)
  refine ⟨_, _, _, _, _, _, _, _, _, _, a1, b1, ?_, by rw [a2, a2], ?_⟩
  · rw [a2, C106_reveals e (by decide)]
    decide
  · rw [Ne, C106_same e (few_whhRun 2 2 (.inr rfl)) (few_whhRun 3 2 (.inr rfl)) hh hh (hp 2) (hp 3) (toy_proofLen 2)
      (toy_verifierLen 2) (toy_proofLen 2) (toy_verifierLen 2) rfl rfl rfl a1 b1]
    decide

/-- Attribute-based metrics of the same two clients, one batch each: the two of them hold the only attribute. -/
example (e : IntEnc) (kcs : Pair2 toy) : ∃ (sent : List (Req × Req)) (got : List (Resp × Resp))
    (attributes : List (List Bool)) (outs : List AbmOut) (t0 t1 : Server toy),
    Spec.Hears (toyCfg 0 (some 2) .debug) (toyCfg 1 (some 2) .release)
      (mainP toy .debug ⟨some 2, 2, 2, 1, 2, 2⟩ (.attributeBasedMetrics 1) toyDraw 2) (.running kcs.1) (.running kcs.2) sent got
      (.abm attributes outs) t0 t1 ∧
    Spec.seenLens e true sent got = Spec.abmLens e 2 2 2 2 1 2 4 attributes.length := by
  obtain ⟨s, g, a, o, t0, t1, h1, h2⟩ := C106_abm (bld := .debug) e kcs few_attrRun (toy_proofLen 2) (toy_verifierLen 2)
  exact ⟨s, g, a, o, t0, t1, h1, h2 true⟩

/-- Plain metrics of two clients: the connections to the two servers have messages of different lengths. -/
example (kcs : Pair2 (toy.withPrio3 toyXof)) : ∃ (sent : List (Req × Req)) (got : List (Resp × Resp)) (outs : List PmOut)
    (t0 t1 : Server (toy.withPrio3 toyXof)),
    Spec.Hears (toyCfg 0 none .debug) (toyCfg 1 none .release) (mainP (toy.withPrio3 toyXof) .debug ⟨none, 2, 2, 1, 2, 2⟩
      .plainMetrics { toyPlainDraw with picks := fun _ => (2, none) } 2) (.running kcs.1) (.running kcs.2) sent got (.pm outs)
      t0 t1 ∧
    Spec.seenLens .fixint false sent got ≠ Spec.seenLens .fixint true sent got := by
  obtain ⟨s, g, o, t0, t1, h1, h2⟩ := C106_pm (bld := .debug) .fixint kcs few_plainRun
  refine ⟨s, g, o, t0, t1, h1, ?_⟩
  rw [h2, h2]
  decide +kernel

end Mastic
