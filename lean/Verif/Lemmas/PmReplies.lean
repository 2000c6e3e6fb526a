import Verif.Props.PmHide
import Verif.Lemmas.Replies

/-!
# Lemmas: the answers of one server in a plain-metrics run
-/

namespace Mastic

variable {P : Prims} {c : ServerCfg}

/-- What a server adds up over a batch. -/
def outSum (n : Nat) (O : Nat → List Field128) (r : Nat × Nat) : List Field128 :=
  (List.range n).map fun k => Spec.entrySum ((rangeFrom r.1 r.2).map O) k

/-- A server with reports `0` to `N - 1`; `F` are its preparation states and shares, `G` those of the other server and `O`
its output shares. -/
structure PmSide (c : ServerCfg) (kc : KeyCollection P) (N : Nat) (F G : Nat → P.PrepState × P.PrepShare)
    (O : Nat → List Field128) : Prop where
  id : 0 ≤ c.serverId
  ok : P.prio3Ok kc.inputLen = true
  keys : Spec.DistinctKeys kc.pmState
  prep : ∀ i < N, (kc.reportShares[i]?.bind fun br =>
    Spec.prepOf P kc.inputLen c.serverId.toNat kc.verifyKey br.2) = some (F i)
  reads : ∀ i < N, P.prepDecode (F i).1 (P.prepEncode (G i).2) = some (G i).2
  out : ∀ i < N, Spec.outputOf P kc.inputLen (F i).1 (pairOf c.serverId (F i).2 (G i).2).1
    (pairOf c.serverId (F i).2 (G i).2).2 = some (O i) ∧ (O i).length = kc.inputLen

/-- The encoded shares of a batch. -/
def encoded (P : Prims) (F : Nat → P.PrepState × P.PrepShare) (r : Nat × Nat) : List (List Byte) :=
  (rangeFrom r.1 r.2).map fun i => P.prepEncode (F i).2

theorem served_pmBatch {kc : KeyCollection P} {N : Nat} {F G : Nat → P.PrepState × P.PrepShare}
    {O : Nat → List Field128} (h : PmSide c kc N F G O) {r : Nat × Nat} (hlt : r.1 < r.2) (hle : r.2 ≤ N) :
    ∃ m, Served c kc [.pmValidate r.1 r.2, .pmResult (encoded P G r) r.1 r.2]
        [.bytes (encoded P F r), .aggregate (outSum kc.inputLen O r) 0] { kc with pmState := m } ∧
      PmSide c { kc with pmState := m } N F G O := by
  obtain ⟨m0, v0⟩ := srvPmValidate_returns (cfg := c) (kc := kc) (f := F) hlt h.id h.ok
    (fun i _ b => h.prep i (by omega))
  obtain ⟨-, -, -, f0, p0, -, l0, d0⟩ := pmValidate_spec hlt v0
  have hl0 : ∀ k, r.1 ≤ k → k < r.2 → m0.lookup k = some (F k) := by
    intro k a b
    have h3 := (p0 k a b).symm.trans (h.prep k (by omega))
    have := l0 k
    rw [if_pos ⟨a, b⟩] at this
    rw [← h3]; exact this
  obtain ⟨m1, agg, r0, dn, la, hs⟩ := srvPmResult_returns (cfg := c) (kc := { kc with pmState := m0 }) hlt F G O h.ok
    (fun i _ b => h.reads i (by omega)) (d0 h.keys) hl0 (fun i _ b => h.out i (by omega))
  have hagg : agg = outSum kc.inputLen O r := by
    refine List.ext_getElem (by simpa [outSum] using la) fun k g1 g2 => ?_
    have hk : k < kc.inputLen := by simpa [outSum] using g2
    have := hs k hk
    rw [List.getElem?_eq_getElem g1, Option.getD_some] at this
    simp [this, outSum]
  refine ⟨m1, ?_, h.id, h.ok, dn, h.prep, h.reads, h.out⟩
  refine Served.append (x := [_]) (y := [_]) (a := [_]) (b := [_]) (k1 := { kc with pmState := m0 }) ?_ ?_
  · refine Served.one (by simp [preLock, hlt]) ?_
    simp only [locked, v0, ok_bind]
    rfl
  · refine Served.one (by simp [preLock, hlt]) ?_
    have r0' : srvPmResult c { kc with pmState := m0 } (encoded P G r) r.1 r.2
      = .ok ({ kc with pmState := m1 }, agg, 0) := r0
    simp only [locked, r0', ok_bind, hagg]

theorem served_pmLoop {N : Nat} {F G : Nat → P.PrepState × P.PrepShare} {O : Nat → List Field128} :
    ∀ (rs : List (Nat × Nat)) {kc : KeyCollection P}, PmSide c kc N F G O → (∀ r ∈ rs, r.1 < r.2 ∧ r.2 ≤ N) →
    ∃ kc', Served c kc (rs.flatMap fun r => [.pmValidate r.1 r.2, .pmResult (encoded P G r) r.1 r.2])
      (rs.flatMap fun r => [.bytes (encoded P F r), .aggregate (outSum kc.inputLen O r) 0]) kc'
  | [], kc, _, _ => ⟨kc, .nil kc⟩
  | r :: rs, kc, h, hr => by
    obtain ⟨a, b⟩ := hr r (by simp)
    obtain ⟨m, h1, h2⟩ := served_pmBatch h a b
    obtain ⟨k, h3⟩ := served_pmLoop rs h2 fun x hx => hr x (by simp [hx])
    exact ⟨k, h1.append h3⟩

/-- The answers of a server in a run. -/
def pmReplies (P : Prims) (cfg : Config) (n : Nat) (sizes : List Nat) (F : Nat → P.PrepState × P.PrepShare)
    (O : Nat → List Field128) : List Resp :=
  .done :: ((sizes.map fun _ => .done) ++ (Spec.batches n cfg.queryBatch).flatMap fun r =>
    [.bytes (encoded P F r), .aggregate (outSum cfg.histBuckets O r) 0])

theorem sharesOf_encoded {n id N : Nat} {vk : Block} {shares : List (Bool × ReportShare)}
    {F : Nat → P.PrepState × P.PrepShare}
    (h : ∀ i < N, (shares[i]?.bind fun br => Spec.prepOf P n id vk br.2) = some (F i)) {r : Nat × Nat} (hr : r.2 ≤ N) :
    sharesOf P n id vk shares r = encoded P F r := by
  unfold sharesOf encoded
  rw [← List.filterMap_eq_map]
  refine List.filterMap_congr fun i hi => ?_
  obtain ⟨-, g2⟩ := rangeFrom_mem.1 hi
  rw [h i (by omega)]
  rfl

/-- A plain-metrics run with all answers. -/
theorem pm_hears {c0 c1 : ServerCfg} {bld : Build} {cfg : Config} {draw : MainDraw} {n : Nat} {Z : Prio3Xof}
    {bucket : Nat → Nat} (kcs : Pair2 (P.withPrio3 Z))
    (hs : Spec.Sensible (P.withPrio3 Z) cfg draw n) (hok : P.prio3Ok cfg.histBuckets = true)
    (hb64 : cfg.histBuckets < 2 ^ 64)
    (hq : ∀ i < n, Spec.queryPoint Z draw.verifyKey (Spec.MainDraw.of draw i).rand.nonce
      ^ Spec.points cfg.histBuckets (Spec.chunk cfg.histBuckets) ≠ 1)
    (h0 : c0.serverId = 0) (h1 : c1.serverId = 1) (hsmall : n < fieldModulus)
    (htam : ∀ i < n, (draw.picks i).2 = none) (hw : ∀ i < cfg.uniqueBuckets, bucket i < cfg.histBuckets)
    {sizes : List Nat} (hsz : uploadBatches cfg.addBatch n n = .ok sizes) (hsum : sizes.sum = n) :
    ∃ (sh : List (ReportShare × ReportShare)) (sent : List (Req × Req)) (t0 t1 : Server (P.withPrio3 Z))
      (F G : Nat → Prio3State × Prio3Share) (O0 O1 : Nat → List Field128),
      Spec.Hears c0 c1 (mainP (P.withPrio3 Z) bld cfg .plainMetrics (Spec.bucketDraw draw bucket) n) (.running kcs.1)
        (.running kcs.2) sent ((pmReplies (P.withPrio3 Z) cfg n sizes F O0).zip
          (pmReplies (P.withPrio3 Z) cfg n sizes G O1))
        (Spec.pmShown cfg.histBuckets cfg.queryBatch n draw bucket) t0 t1 ∧
      Spec.received false sent = pmReceived cfg draw n sizes (sh.map Prod.fst) (encoded (P.withPrio3 Z) G) ∧
      Spec.received true sent = pmReceived cfg draw n sizes (sh.map Prod.snd) (encoded (P.withPrio3 Z) F) ∧
      sh.length = n ∧
      ∀ i < n, ∃ pub in0 in1, Z.shard cfg.histBuckets (Spec.chunk cfg.histBuckets) (bucket ((draw.picks i).1 - 1))
          (Spec.MainDraw.of draw i).rand.nonce (Spec.MainDraw.of draw i).prio3 = some (pub, in0, in1) ∧
        sh[i]? = some (.prio3 (Spec.MainDraw.of draw i).rand.nonce pub in0,
          .prio3 (Spec.MainDraw.of draw i).rand.nonce pub in1) ∧
        Z.prepare cfg.histBuckets (Spec.chunk cfg.histBuckets) 0 draw.verifyKey (Spec.MainDraw.of draw i).rand.nonce pub in0
          = some (F i) ∧
        Z.prepare cfg.histBuckets (Spec.chunk cfg.histBuckets) 1 draw.verifyKey (Spec.MainDraw.of draw i).rand.nonce pub in1
          = some (G i) ∧
        ((Z.combine (Spec.chunk cfg.histBuckets) (F i).2 (G i).2).bind fun m => prio3Next (F i).1 m) = some (O0 i) ∧
        ((Z.combine (Spec.chunk cfg.histBuckets) (F i).2 (G i).2).bind fun m => prio3Next (G i).1 m) = some (O1 i) ∧
        (O0 i).length = cfg.histBuckets ∧ (O1 i).length = cfg.histBuckets ∧
        encodeMeasurement cfg.histBuckets (bucket ((draw.picks i).1 - 1)) = some (Spec.addShares (O0 i) (O1 i)) := by
  obtain ⟨sh, sent, t0, t1, a1, a2, a3, a4⟩ := run_pm (c0 := c0) (c1 := c1) (bld := bld) (bucket := bucket) kcs hs hok
    hb64 hq h0 h1 hsmall htam hw hsz
  have key : ∀ i < n, ∃ (x : (Prio3State × Prio3Share) × (Prio3State × Prio3Share) × List Field128 × List Field128)
      (pub in0 in1 : List Byte),
      Z.shard cfg.histBuckets (Spec.chunk cfg.histBuckets) (bucket ((draw.picks i).1 - 1))
          (Spec.MainDraw.of draw i).rand.nonce (Spec.MainDraw.of draw i).prio3 = some (pub, in0, in1) ∧
        sh[i]? = some (.prio3 (Spec.MainDraw.of draw i).rand.nonce pub in0,
          .prio3 (Spec.MainDraw.of draw i).rand.nonce pub in1) ∧
        Z.prepare cfg.histBuckets (Spec.chunk cfg.histBuckets) 0 draw.verifyKey (Spec.MainDraw.of draw i).rand.nonce pub in0
          = some x.1 ∧
        Z.prepare cfg.histBuckets (Spec.chunk cfg.histBuckets) 1 draw.verifyKey (Spec.MainDraw.of draw i).rand.nonce pub in1
          = some x.2.1 ∧
        ((Z.combine (Spec.chunk cfg.histBuckets) x.1.2 x.2.1.2).bind fun m => prio3Next x.1.1 m) = some x.2.2.1 ∧
        ((Z.combine (Spec.chunk cfg.histBuckets) x.1.2 x.2.1.2).bind fun m => prio3Next x.2.1.1 m) = some x.2.2.2 ∧
        x.2.2.1.length = cfg.histBuckets ∧ x.2.2.2.length = cfg.histBuckets ∧
        encodeMeasurement cfg.histBuckets (bucket ((draw.picks i).1 - 1)) = some (Spec.addShares x.2.2.1 x.2.2.2) := by
    intro i hi
    obtain ⟨pub, in0, in1, e1, e2, x0, x1, o0, o1, q0, q1, q2, q3, q4, q5, q6⟩ := a4 i hi
    exact ⟨(x0, x1, o0, o1), pub, in0, in1, e1, e2, q0, q1, q2, q3, q4, q5, q6⟩
  have : Nonempty ((Prio3State × Prio3Share) × (Prio3State × Prio3Share) × List Field128 × List Field128) :=
    ⟨((⟨[], Block.zero, 0⟩, ⟨[], Block.zero⟩), (⟨[], Block.zero, 0⟩, ⟨[], Block.zero⟩), [], [])⟩
  choose! X hX using key
  have prep0 : ∀ i < n, ((sh.map fun s => (true, s.1))[i]?.bind fun br =>
      Spec.prepOf (P.withPrio3 Z) cfg.histBuckets 0 draw.verifyKey br.2) = some (X i).1 := by
    intro i hi
    obtain ⟨pub, in0, in1, -, e2, e3, -⟩ := hX i hi
    rw [List.getElem?_map, e2]
    exact e3
  have prep1 : ∀ i < n, ((sh.map fun s => (true, s.2))[i]?.bind fun br =>
      Spec.prepOf (P.withPrio3 Z) cfg.histBuckets 1 draw.verifyKey br.2) = some (X i).2.1 := by
    intro i hi
    obtain ⟨pub, in0, in1, -, e2, -, e4, -⟩ := hX i hi
    rw [List.getElem?_map, e2]
    exact e4
  have reads : ∀ i < n, prio3DecodeShare (X i).1.1 (prio3EncodeShare (X i).2.1.2) = some (X i).2.1.2 ∧
      prio3DecodeShare (X i).2.1.1 (prio3EncodeShare (X i).1.2) = some (X i).1.2 := by
    intro i hi
    obtain ⟨pub, in0, in1, -, -, e3, e4, -⟩ := hX i hi
    have hr := C85_reads (P := P) (X := Z) cfg.histBuckets
    exact ⟨hr 0 1 draw.verifyKey draw.verifyKey (.prio3 (Spec.MainDraw.of draw i).rand.nonce pub in0)
        (.prio3 (Spec.MainDraw.of draw i).rand.nonce pub in1) _ _ e3 e4,
      hr 1 0 draw.verifyKey draw.verifyKey (.prio3 (Spec.MainDraw.of draw i).rand.nonce pub in1)
        (.prio3 (Spec.MainDraw.of draw i).rand.nonce pub in0) _ _ e4 e3⟩
  have side0 : PmSide (P := P.withPrio3 Z) c0 { KeyCollection.new (P.withPrio3 Z) cfg.histBuckets c0.serverId c0.dataBits
      draw.verifyKey with reportShares := (sh.map Prod.fst).map fun s => (true, s) } n (fun i => (X i).1)
      (fun i => (X i).2.1) (fun i => (X i).2.2.1) :=
    ⟨by omega, hok, by simp [KeyCollection.new, Spec.DistinctKeys], by
      rw [List.map_map, h0]; exact prep0, fun i hi => (reads i hi).1, fun i hi => by
      obtain ⟨pub, in0, in1, -, -, -, -, e5, -, e7, -⟩ := hX i hi
      rw [h0]
      exact ⟨e5, e7⟩⟩
  have side1 : PmSide (P := P.withPrio3 Z) c1 { KeyCollection.new (P.withPrio3 Z) cfg.histBuckets c1.serverId c1.dataBits
      draw.verifyKey with reportShares := (sh.map Prod.snd).map fun s => (true, s) } n (fun i => (X i).2.1)
      (fun i => (X i).1) (fun i => (X i).2.2.2) :=
    ⟨by omega, hok, by simp [KeyCollection.new, Spec.DistinctKeys], by
      rw [List.map_map, h1]; exact prep1, fun i hi => (reads i hi).2, fun i hi => by
      obtain ⟨pub, in0, in1, -, -, -, -, -, e6, -, e8, -⟩ := hX i hi
      rw [h1]
      exact ⟨e6, e8⟩⟩
  have hbm : ∀ r ∈ Spec.batches n cfg.queryBatch, r.1 < r.2 ∧ r.2 ≤ n := fun r hr => mem_batches hs.queryBatch hr
  obtain ⟨k0, s0⟩ := served_pmLoop _ side0 hbm
  obtain ⟨k1, s1⟩ := served_pmLoop _ side1 hbm
  have m0 := served_main (draw := draw) (kc := kcs.1) (cfg := cfg) hs.hist
    (hsum.trans (by rw [List.length_map, a3])) s0
  have m1 := served_main (draw := draw) (kc := kcs.2) (cfg := cfg) hs.hist
    (hsum.trans (by rw [List.length_map, a3])) s1
  have r0 : Spec.received false sent = pmReceived cfg draw n sizes (sh.map Prod.fst)
      (encoded (P.withPrio3 Z) fun i => (X i).2.1) := by
    rw [a2 false]
    unfold pmReceived runReceived
    congr 2
    refine List.flatMap_congr fun r hr => ?_
    rw [show aggOf (!false) = 1 from rfl]
    rw [sharesOf_encoded (N := n) (F := fun i => (X i).2.1) prep1 (hbm r hr).2]
  have r1 : Spec.received true sent = pmReceived cfg draw n sizes (sh.map Prod.snd)
      (encoded (P.withPrio3 Z) fun i => (X i).1) := by
    rw [a2 true]
    unfold pmReceived runReceived
    congr 2
    refine List.flatMap_congr fun r hr => ?_
    rw [show aggOf (!true) = 0 from rfl]
    rw [sharesOf_encoded (N := n) (F := fun i => (X i).1) prep0 (hbm r hr).2]
  refine ⟨sh, sent, t0, t1, fun i => (X i).1, fun i => (X i).2.1, fun i => (X i).2.2.1, fun i => (X i).2.2.2,
    hears_of_talk a1 ?_ ?_, r0, r1, a3, hX⟩
  · rw [r0]
    exact congrArg Prod.snd m0
  · rw [r1]
    exact congrArg Prod.snd m1

end Mastic
