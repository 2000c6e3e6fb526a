import Verif.Props.Batches

/-!
# C112 and C113 for runs in which clients tamper with their proofs
-/

namespace Mastic

variable {P : Prims} {c0 c1 : ServerCfg} {bld : Build} {cfg : Config} {draw : MainDraw} {n d : Nat}
  {clients : List (List Bool × Nat)} {n0 n1 : Net}

/-- Requests whose answers contain only numbers below 2^64. -/
def quietReq : Req → Bool
  | .treeCrawl s m l => decide (s = 1) && m.isEmpty && !l
  | .pmResult _ _ _ => false
  | _ => true

theorem locked_nums {c : ServerCfg} {kc kc' : KeyCollection P} {r : Req} {a : Resp} (hr : quietReq r = true)
    (h : locked c kc r = .ok (kc', a)) : respNums a = true := by
  cases r with
  | treeCrawl s m l =>
    simp only [quietReq, Bool.and_eq_true, decide_eq_true_eq, List.isEmpty_iff, Bool.not_eq_true'] at hr
    obtain ⟨⟨rfl, rfl⟩, rfl⟩ := hr
    obtain ⟨⟨kc2, x⟩, h1, h2⟩ := bind_eq_ok.1 h
    cases h2
    obtain ⟨kc3, -, h1⟩ := bind_eq_ok.1 h1
    obtain ⟨⟨next, comb⟩, -, h1⟩ := bind_eq_ok.1 h1
    obtain ⟨rs, h3, h1⟩ := bind_eq_ok.1 h1
    cases h1
    obtain ⟨root, rfl⟩ := merkleRoots_single h3
    rfl
  | pmResult => cases hr
  | addReportShares | finalShares => cases h; rfl
  | reset | treeInit | applyFlpResults | treePrune | treeCrawlLast | abmValidate | abmResult | pmValidate =>
    obtain ⟨x, -, h2⟩ := bind_eq_ok.1 h
    cases h2
    rfl
  | getProofs =>
    obtain ⟨x, -, h2⟩ := bind_eq_ok.1 h
    cases h2
    rfl
  | runFlpQueries =>
    obtain ⟨x, -, h2⟩ := bind_eq_ok.1 h
    obtain ⟨y, -, h2⟩ := bind_eq_ok.1 h2
    cases h2
    rfl

theorem handle_nums {c : ServerCfg} {s t : Server P} {r : Req} {a : Resp} (hr : quietReq r = true)
    (h : s.handle c r = (t, .ok a)) : respNums a = true := by
  unfold Server.handle at h
  split at h
  · simp at h
  · split at h
    · simp at h
    · split at h
      · simp at h
      · rename_i kc' b hl
        simp only [Prod.mk.injEq, Except.ok.injEq] at h
        obtain ⟨-, rfl⟩ := h
        exact locked_nums hr hl

/-- The answers of a conversation. -/
theorem talk_hears {α : Type} {p : Prog α} {s0 s1 t0 t1 : Server P} {sent : List (Req × Req)} {a : α}
    (h : Spec.Talk c0 c1 p s0 s1 sent a t0 t1) (hq : ∀ r ∈ sent, quietReq r.1 = true ∧ quietReq r.2 = true) :
    ∃ got, Spec.Hears c0 c1 p s0 s1 sent got a t0 t1 ∧ ∀ b ∈ got, respNums b.1 = true ∧ respNums b.2 = true := by
  induction h with
  | ret a s0 s1 => exact ⟨[], .ret _ _ _, by simp⟩
  | ask r0 r1 k s0 s1 t0 t1 u0 u1 a0 a1 sent a h0 h1 h ih =>
    obtain ⟨got, g1, g2⟩ := ih fun r hr => hq r (List.mem_cons_of_mem _ hr)
    obtain ⟨q0, q1⟩ := hq (r0, r1) List.mem_cons_self
    refine ⟨(a0, a1) :: got, .ask _ _ _ _ _ _ _ _ _ _ _ _ _ _ h0 h1 g1, fun b hb => ?_⟩
    rcases List.mem_cons.1 hb with rfl | hb
    · exact ⟨handle_nums q0 h0, handle_nums q1 h1⟩
    · exact g2 b hb

theorem whhScript_quiet {T q : Nat} {strings : List (Option (List Bool))} {r : Req}
    (hr : r ∈ Spec.whhScript T q d strings) : quietReq r = true := by
  simp only [Spec.whhScript, List.mem_append, List.mem_map, List.mem_flatMap, List.mem_cons, List.not_mem_nil,
    or_false] at hr
  rcases hr with (((((rfl | ⟨x, hx, rfl⟩) | rfl) | ⟨m, -, rfl | rfl⟩) | rfl) | ⟨x, hx, rfl⟩) | rfl | rfl <;> rfl

/-- **C112, weighted heavy hitters with tampering clients.**  The requests after the upload are those of C92, and the run over
two connections ends, with the result of the run on values, exactly if all messages of the conversation fit. -/
theorem C112_tampered (kcs : Pair2 P) (h : Spec.WhhRun P c0 c1 cfg draw n d clients)
    (hheavy : ∃ s : List Bool, s.length = d - 2 ∧
      (s ≠ [] → max 1 cfg.threshold ≤ clients.countP fun c => s.isPrefixOf c.1))
    (hb : cfg.histBuckets < 2 ^ 64) (hl0 : n0.limit < 2 ^ 64) (hl1 : n1.limit < 2 ^ 64) :
    ∃ (out : MainOut P) (upload sent : List (Req × Req)) (got : List (Resp × Resp)) (t0 t1 : Server P),
      driverMain c0 c1 bld cfg .weightedHeavyHitters draw n kcs = .ok out ∧
      Spec.Hears c0 c1 (mainP P bld cfg .weightedHeavyHitters draw n) (.running kcs.1) (.running kcs.2) sent got out.shown
        t0 t1 ∧
      sent = upload ++ Spec.toBoth (Spec.whhScript (max 1 cfg.threshold) cfg.queryBatch d
        ((Spec.mainClients cfg.histBuckets d draw n).map (Option.map Prod.fst))) ∧
      (Spec.inFrames n0 (Spec.seenLens .varint false sent got) ∧ Spec.inFrames n1 (Spec.seenLens .varint true sent got) →
        (mainP P bld cfg .weightedHeavyHitters draw n).netRun n0 n1 c0 c1 (.running kcs.1, .running kcs.2)
          = .ok (out.shown, t0, t1)) ∧
      (¬ (Spec.inFrames n0 (Spec.seenLens .varint false sent got) ∧
          Spec.inFrames n1 (Spec.seenLens .varint true sent got)) →
        (mainP P bld cfg .weightedHeavyHitters draw n).netRun n0 n1 c0 c1 (.running kcs.1, .running kcs.2)
          = .error .unwrap) := by
  obtain ⟨reports, sh, hg, -, -, hp, hlen, hsh⟩ := mastic_picks (P := P) (mode := .weightedHeavyHitters) h.sensible
    h.proves (by simp) h.bits
  have hpop := main_population (c0 := c0) (c1 := c1) h.sensible.buckets h.complete h.rejected hlen hsh
  obtain ⟨sizes, hsz, hsum, -⟩ := uploadBatches_spec h.sensible.addBatch n n le_rfl
  have hml : (Spec.mainClients cfg.histBuckets d draw n).length = n := by simp [Spec.mainClients]
  obtain ⟨results, printed, t0, t1, ht, -⟩ := C92_script (P := P) (c0 := c0) (c1 := c1) (bld := bld) (cfg := cfg)
    (kcs := uploaded P c0 c1 cfg draw.verifyKey sh) (d := d) h.bits h.two h.sensible.queryBatch rfl rfl h.id0 h.id1 rfl
    h.bits0 h.bits1 hpop (by rw [← h.clients_eq]; exact h.nonempty)
    ((List.length_filterMap_le _ _).trans_lt (by rw [hml]; exact h.small)) (by
      obtain ⟨s, g1, g2⟩ := hheavy
      refine ⟨s, g1, fun hne => (g2 hne).trans (le_of_eq ?_)⟩
      rw [← h.clients_eq, Spec.holders, List.countP_eq_length_filter])
  rw [hml] at ht
  obtain ⟨k, rfl, rfl, -⟩ := talk_running ht _ rfl rfl
  have hmain := tells_main (bld := bld) (mode := .weightedHeavyHitters) (kcs := kcs) h.sensible hg hp hsz ht
  obtain ⟨got, hhear, hresp⟩ := talk_hears hmain fun r hr => by
    rcases List.mem_cons.1 hr with rfl | hr
    · exact ⟨rfl, rfl⟩
    · rcases List.mem_append.1 hr with hr | hr
      · obtain ⟨x, -, rfl⟩ := List.mem_map.1 hr
        exact ⟨rfl, rfl⟩
      · obtain ⟨x, hx, rfl⟩ := List.mem_map.1 hr
        exact ⟨whhScript_quiet hx, whhScript_quiet hx⟩
  obtain ⟨out, g1, g2⟩ := driverMain_of_hears hhear
  have key := netRun_of_hears (n0 := n0) (n1 := n1) hhear hl0 hl1 (sent_nums fun own => by
    rw [received_main own]
    refine runReceived_nums hb fun r hr => whhScript_nums ?_ h.sensible.queryBatch hr
    simpa [hml] using h.small) hresp
  rw [g2] at key hhear
  exact ⟨out, _, _, got, _, _, g1, hhear, (List.append_assoc [_] _ _).symm, key.1, key.2⟩

/-- The answers of any conversation. -/
theorem talk_got {α : Type} {p : Prog α} {s0 s1 t0 t1 : Server P} {sent : List (Req × Req)} {a : α}
    (h : Spec.Talk c0 c1 p s0 s1 sent a t0 t1) : ∃ got, Spec.Hears c0 c1 p s0 s1 sent got a t0 t1 := by
  induction h with
  | ret a s0 s1 => exact ⟨[], .ret _ _ _⟩
  | ask r0 r1 k s0 s1 t0 t1 u0 u1 a0 a1 sent a h0 h1 h ih =>
    obtain ⟨got, g⟩ := ih
    exact ⟨(a0, a1) :: got, .ask _ _ _ _ _ _ _ _ _ _ _ _ _ _ h0 h1 g⟩

theorem reqNums_of_fits {r : Req} (h : Spec.reqFits r = true) : reqNums r = true := by
  cases r <;> simp_all [Spec.reqFits, reqNums]

theorem respNums_of_fits {a : Resp} (h : Spec.respFits a = true) : respNums a = true := by
  cases a <;> simp_all [Spec.respFits, respNums]

/-- **C112, every run.**  Whatever the mode, the clients, the reports and the states of the servers: a run that ends on values
is a conversation, and if its messages are values of the Rust types then the run over two connections ends, with the same
result, exactly if all of them fit; otherwise the driver panics. -/
theorem C112_any {mode : DriverMode} {kcs : Pair2 P} {out : MainOut P}
    (h : driverMain c0 c1 bld cfg mode draw n kcs = .ok out) (hl0 : n0.limit < 2 ^ 64) (hl1 : n1.limit < 2 ^ 64) :
    ∃ (sent : List (Req × Req)) (got : List (Resp × Resp)) (t0 t1 : Server P),
      Spec.Hears c0 c1 (mainP P bld cfg mode draw n) (.running kcs.1) (.running kcs.2) sent got out.shown t0 t1 ∧
      ((∀ r ∈ sent, Spec.reqFits r.1 = true ∧ Spec.reqFits r.2 = true) →
        (∀ b ∈ got, Spec.respFits b.1 = true ∧ Spec.respFits b.2 = true) →
        (Spec.inFrames n0 (Spec.seenLens .varint false sent got) ∧ Spec.inFrames n1 (Spec.seenLens .varint true sent got) →
          (mainP P bld cfg mode draw n).netRun n0 n1 c0 c1 (.running kcs.1, .running kcs.2) = .ok (out.shown, t0, t1)) ∧
        (¬ (Spec.inFrames n0 (Spec.seenLens .varint false sent got) ∧
            Spec.inFrames n1 (Spec.seenLens .varint true sent got)) →
          (mainP P bld cfg mode draw n).netRun n0 n1 c0 c1 (.running kcs.1, .running kcs.2) = .error .unwrap)) := by
  obtain ⟨⟨x, k⟩, hk, hx⟩ := bind_eq_ok.1
    ((exec_main (c0 := c0) (c1 := c1) bld cfg mode draw n kcs out.shown).2 (by rw [h]; rfl))
  cases hx
  obtain ⟨sent, ht⟩ := tells_exec hk
  obtain ⟨got, hg⟩ := talk_got ht
  exact ⟨sent, got, _, _, hg, fun h1 h2 => netRun_of_hears hg hl0 hl1
    (fun r hr => ⟨reqNums_of_fits (h1 r hr).1, reqNums_of_fits (h1 r hr).2⟩)
    (fun b hb => ⟨respNums_of_fits (h2 b hb).1, respNums_of_fits (h2 b hb).2⟩)⟩

theorem hears_length {α : Type} {p : Prog α} {s0 s1 t0 t1 : Server P} {sent : List (Req × Req)} {got : List (Resp × Resp)}
    {a : α} (h : Spec.Hears c0 c1 p s0 s1 sent got a t0 t1) : got.length = sent.length := by
  induction h with
  | ret => rfl
  | ask r0 r1 k s0 s1 t0 t1 u0 u1 a0 a1 sent got a h0 h1 h ih => simp [ih]

theorem seen_of_request (e : IntEnc) {own : Bool} {sent : List (Req × Req)} {got : List (Resp × Resp)}
    (h : got.length = sent.length) {r : Req} (hr : r ∈ Spec.received own sent) :
    ∃ x ∈ Spec.seenLens e own sent got, x.1 = ((reqCodec e).enc r).length := by
  have hfst : (Spec.seenLens e own sent got).map Prod.fst = (Spec.carried e own sent).map List.length :=
    List.map_fst_zip (by simp [Spec.carried, Spec.returned, Spec.received, h])
  have : ((reqCodec e).enc r).length ∈ (Spec.seenLens e own sent got).map Prod.fst := by
    rw [hfst]
    exact List.mem_map_of_mem (List.mem_map_of_mem hr)
  obtain ⟨x, hx, hx1⟩ := List.mem_map.1 this
  exact ⟨x, hx, hx1⟩

/-- **C113 is false of weighted heavy hitters with more clients, tampering or not.**  From 8388604 clients on the run panics
whatever the batch sizes and whoever is rejected. -/
theorem C113_tampered_not (kcs : Pair2 P) (h : Spec.WhhRun P c0 c1 cfg draw n d clients)
    (hheavy : ∃ s : List Bool, s.length = d - 2 ∧
      (s ≠ [] → max 1 cfg.threshold ≤ clients.countP fun c => s.isPrefixOf c.1))
    (hb : cfg.histBuckets < 2 ^ 64) (hn : 8388604 ≤ n) (h0 : Spec.plainNet n0) (h1 : Spec.plainNet n1) :
    (∃ out, driverMain c0 c1 bld cfg .weightedHeavyHitters draw n kcs = .ok out) ∧
      (mainP P bld cfg .weightedHeavyHitters draw n).netRun n0 n1 c0 c1 (.running kcs.1, .running kcs.2)
        = .error .unwrap := by
  obtain ⟨out, upload, sent, got, t0, t1, g1, g2, g3, -, g5⟩ := C112_tampered (bld := bld) (n0 := n0) (n1 := n1) kcs h hheavy
    hb (plainNet_limit h0) (plainNet_limit h1)
  refine ⟨⟨out, g1⟩, g5 fun hf => ?_⟩
  have hlen := hears_length g2
  have hml : (Spec.mainClients cfg.histBuckets d draw n).length = n := by simp [Spec.mainClients]
  have hmem : (Req.applyFlpResults (((Spec.mainClients cfg.histBuckets d draw n).map (Option.map Prod.fst)).map
      Option.isSome)) ∈ Spec.received false sent := by
    rw [g3]
    refine List.mem_map.2 ⟨(_, _), List.mem_append.2 (.inr (List.mem_map.2 ⟨_, ?_, rfl⟩)), rfl⟩
    simp [Spec.whhScript]
  obtain ⟨x, hx, hx1⟩ := seen_of_request .varint hlen hmem
  have := (hf.1 x hx).1
  rw [hx1, req_len, h0.1, maxFrame] at this
  have henc : (Req.encBody .varint (.applyFlpResults (((Spec.mainClients cfg.histBuckets d draw n).map
      (Option.map Prod.fst)).map Option.isSome))).length = Spec.vecLen .varint n 1 :=
    (bools_len .varint _).trans (by simp [hml])
  have hi : 5 ≤ Spec.intLen .varint n := by
    simp only [Spec.intLen]
    split_ifs <;> omega
  rw [henc] at this
  simp only [Spec.vecLen] at this
  omega

/-! Examples -/

theorem toy_bumps_all (n : Nat) : Spec.BumpsRejected toy 2 2 0 1 toyDraw n := by
  intro i nonce ks p0 ps p jr alpha hi ht hg
  have h0 : i ≠ 0 := by rintro rfl; cases ht
  have h1 : i ≠ 1 := by rintro rfl; cases ht
  have hof : Spec.MainDraw.of toyDraw i = Spec.MainDraw.of toyDraw 2 := by
    simp [Spec.MainDraw.of, toyDraw, h0, h1]
  rw [hof] at hg
  exact toy_bumpsRejected 2 nonce ks p0 ps p jr alpha (by norm_num) rfl hg

/-- Two honest clients, all others tamper with their proofs. -/
theorem toy_tamperedRun {a q T : Nat} (ha : 1 ≤ a) (hq : 1 ≤ q) (hn : 3 ≤ n) (hlt : n < 2 ^ 64) :
    Spec.WhhRun toy (toyCfg 0 (some 2) .debug) (toyCfg 1 (some 2) .release) ⟨some 2, 2, a, q, 2, T⟩ toyDraw n 2
      ((Spec.mainClients 2 2 toyDraw n).filterMap id) where
  sensible := ⟨rfl, rfl, rfl, show 1 ≤ 2 by norm_num, show 1 ≤ 2 by norm_num, ha, hq, fun i _ => by
    show 1 ≤ (toyDraw.picks i).1 ∧ (toyDraw.picks i).1 ≤ 2
    simp only [toyDraw]
    split_ifs <;> decide⟩
  proves := toy_proves
  bits := rfl
  bits0 := rfl
  bits1 := rfl
  two := le_rfl
  id0 := rfl
  id1 := by decide
  complete := fun _ _ => toy_flpComplete _ _
  rejected := toy_bumps_all n
  clients_eq := rfl
  nonempty := by
    rw [mainClients_untampered]
    refine List.ne_nil_of_mem (List.mem_map_of_mem (List.mem_filter.2 ⟨List.mem_range.2 (show 0 < n by omega), rfl⟩))
  small := hlt

/-- Nine million clients are too many for all batch sizes and thresholds, although only two of them are not rejected. -/
example (a q T : Nat) (ha : 1 ≤ a) (hq : 1 ≤ q) (kcs : Pair2 toy) :
    (mainP toy .debug ⟨some 2, 2, a, q, 2, T⟩ .weightedHeavyHitters toyDraw 9000000).netRun ⟨60, 20, maxFrame⟩
      ⟨60, 20, maxFrame⟩ (toyCfg 0 (some 2) .debug) (toyCfg 1 (some 2) .release) (.running kcs.1, .running kcs.2)
      = .error .unwrap :=
  (C113_tampered_not kcs (toy_tamperedRun ha hq (by norm_num) (by norm_num)) ⟨[], rfl, fun h => absurd rfl h⟩
    (by norm_num) (by norm_num) ⟨rfl, by decide, by decide⟩ ⟨rfl, by decide, by decide⟩).2

/-- The run of C112 for nine clients of whom seven tamper is a conversation with answers to all requests. -/
example (kcs : Pair2 toy) : ∃ out sent got t0 t1, got.length = sent.length ∧
    Spec.Hears (toyCfg 0 (some 2) .debug) (toyCfg 1 (some 2) .release)
      (mainP toy .debug ⟨some 2, 2, 1, 1, 2, 1⟩ .weightedHeavyHitters toyDraw 9) (.running kcs.1) (.running kcs.2) sent got
      out t0 t1 := by
  obtain ⟨out, -, -, -, -, -, h, -⟩ := C112_tampered (bld := .debug) (n0 := ⟨60, 20, maxFrame⟩) (n1 := ⟨60, 20, maxFrame⟩)
    kcs (toy_tamperedRun (a := 1) (q := 1) (T := 1) (n := 9) le_rfl le_rfl (by norm_num) (by norm_num))
    ⟨[], rfl, fun h => absurd rfl h⟩ (by norm_num) (by decide) (by decide)
  obtain ⟨sent, got, t0, t1, hh, -⟩ := C112_any (n0 := ⟨60, 20, maxFrame⟩) (n1 := ⟨60, 20, maxFrame⟩) h (by decide)
    (by decide)
  exact ⟨_, sent, got, t0, t1, hears_length hh, hh⟩

end Mastic
