import Verif.Lemmas.Wire
import Verif.Props.System

/-!
# C77-C79: messages on the wire, their sizes, and the frame limit
-/

namespace Mastic

open Spec

variable {P : Prims} {c0 c1 : ServerCfg} {n0 n1 : Net}

/-! ## C77 -/

/-- **C77, requests.**  Reading a request from a byte stream that starts with its encoding gives this request and
leaves the rest of the stream, for both integer encodings of bincode and every request the Rust types can hold. -/
theorem C77_request (e : IntEnc) (r : Req) (h : reqFits r = true) (rest : List Byte) :
    (reqCodec e).dec ((reqCodec e).enc r ++ rest) = some (r, rest) :=
  Codec.req_lawful e r h rest

/-- **C77, answers.** -/
theorem C77_response (e : IntEnc) (r : Req) (a : Resp) (h : answers r a = true) (ha : respFits a = true)
    (rest : List Byte) : decResp e (encResp e r.tag a ++ rest) = some (a, rest) :=
  Codec.resp_lawful e r a h ha rest

/-- **C77, no two requests are confused.**  If the encoding of one request is an initial part of the encoding of
another one, the requests are equal. -/
theorem C77_prefix_free (e : IntEnc) (r r' : Req) (h : reqFits r = true) (h' : reqFits r' = true)
    (hp : (reqCodec e).enc r <+: (reqCodec e).enc r') : r = r' := by
  obtain ⟨t, ht⟩ := hp
  have h1 := C77_request e r h t
  have h2 := C77_request e r' h' []
  rw [ht] at h1
  rw [List.append_nil, h1] at h2
  cases h2
  rfl

/-- **C77, one call.**  A call whose messages fit into frames has the effect of the handler, and the caller gets the
answer of the handler (or fails if the handler panics). -/
theorem C77_call {net : Net} {cfg : ServerCfg} {s : Server P} {r : Req} (h : callFits net cfg s r = true) :
    netCall net cfg s r = s.handle cfg r := netCall_eq h

/-- **C77, a whole run.**  If no message is too large, a run of the driver over the two connections shows exactly
what the run on values (`driverMain`, the subject of all other properties) shows. -/
theorem C77_main {bld : Build} {cfg : Config} {mode : DriverMode} {draw : MainDraw} {n : Nat} {kcs : Pair2 P}
    (hf : runFits n0 n1 c0 c1 (mainP P bld cfg mode draw n) (.running kcs.1, .running kcs.2) = true) (x : Shown) :
    (∃ s', (mainP P bld cfg mode draw n).netRun n0 n1 c0 c1 (.running kcs.1, .running kcs.2) = .ok (x, s')) ↔
      ∃ out, driverMain c0 c1 bld cfg mode draw n kcs = .ok out ∧ x = out.shown := by
  have hm := exec_main (c0 := c0) (c1 := c1) bld cfg mode draw n kcs x
  constructor
  · rintro ⟨s', h⟩
    obtain ⟨kcs', -, he⟩ := (netRun_eq hf).1 h
    obtain ⟨out, h1, h2⟩ := bind_eq_ok.1 (hm.1 (by rw [he]; rfl))
    cases h2
    exact ⟨out, h1, rfl⟩
  · rintro ⟨out, h1, rfl⟩
    obtain ⟨⟨y, kcs'⟩, h2, h3⟩ := bind_eq_ok.1 (hm.2 (by rw [h1]; rfl))
    cases h3
    exact ⟨_, (netRun_eq hf).2 ⟨kcs', rfl, h2⟩⟩

/-! ## C78 -/

/-- **C78, printed sizes.**  The sizes the driver prints for a report depend on the number of bits, the number of
buckets and the length of the proof only. -/
theorem C78_printed {b bucket l : Nat} {alpha : List Bool} {r : ClientRand} {rep : PlaintextReport}
    (hl : ProofLen P b l) (h : genMasticReport P b alpha bucket r = .ok rep) :
    printedSizes rep = [16, 16, 33 + alpha.length * (42 + 24 * (b + 1)), 8 + 24 * l] := by
  obtain ⟨n, k0, k1, p0, p1, jr, rfl, h0, -, q0, -⟩ := gen_shape hl h
  simp only [printedSizes, Codec.array_len, key_len _ h0]
  rw [Codec.vec_len .fixint (Codec.field .fixint) (fieldLen .fixint) p0 fun x _ => Codec.field_len _ x, q0]
  simp only [keyLen, fieldLen, intLen]
  congr 3
  · ring
  · congr 1
    ring

/-- **C78, sizes on the wire.**  Both shares of every report, misbehaving ones included, have the same size, which
depends on the number of bits, the number of buckets and the length of the proof only: the size of a report says nothing
about the string, the weight, the server it is for or whether the client misbehaves. -/
theorem C78_share_size (e : IntEnc) {b bucket l : Nat} {alpha : List Bool} {r : ClientRand} {rep : PlaintextReport}
    (hl : ProofLen P b l) (h : genMasticReport P b alpha bucket r = .ok rep) {t : Option Tamper}
    {sh : ReportShare × ReportShare} (hs : pickShares [rep] (1, t) = .ok sh) :
    ((Codec.reportShare e).enc sh.1).length = masticLen e alpha.length b l ∧
    ((Codec.reportShare e).enc sh.2).length = masticLen e alpha.length b l := by
  have := pick_shape (reports := [rep]) (by
    intro x hx
    rw [List.mem_singleton] at hx
    subst hx
    exact gen_reportShape hl h) hs
  exact ⟨share_len e this.1, share_len e this.2⟩

/-- **C78, two clients.**  Uploads of equally many reports have equal sizes. -/
theorem C78_upload_size {d b l : Nat} {reports : List PlaintextReport} (hl : ProofLen P b l)
    (hr : ∀ rep ∈ reports, ∃ alpha bucket r, alpha.length = d ∧ genMasticReport P b alpha bucket r = .ok rep)
    {picks : List (Nat × Option Tamper)} {sh : List (ReportShare × ReportShare)}
    (hs : mapE (pickShares reports) picks = .ok sh) :
    ((reqCodec .varint).enc (.addReportShares (sh.map Prod.fst))).length
      = 1 + intLen .varint picks.length + picks.length * masticLen .varint d b l ∧
    ((reqCodec .varint).enc (.addReportShares (sh.map Prod.snd))).length
      = 1 + intLen .varint picks.length + picks.length * masticLen .varint d b l := by
  have hshape : ∀ rep ∈ reports, ReportShape d b l rep := by
    intro rep hrep
    obtain ⟨alpha, bucket, r, rfl, hg⟩ := hr rep hrep
    exact gen_reportShape hl hg
  have hp : ∀ q ∈ sh, MasticShape d b l q.1 ∧ MasticShape d b l q.2 := by
    intro q hq
    obtain ⟨i, hi, rfl⟩ := List.getElem_of_mem hq
    exact pick_shape hshape (mapE_getElem hs i (by rw [← mapE_length hs]; exact hi) hi)
  have hlen := mapE_length hs
  constructor
  · rw [add_len (d := d) (b := b) (l := l), List.length_map, hlen]
    intro r hrm
    obtain ⟨q, hq, rfl⟩ := List.mem_map.1 hrm
    exact (hp q hq).1
  · rw [add_len (d := d) (b := b) (l := l), List.length_map, hlen]
    intro r hrm
    obtain ⟨q, hq, rfl⟩ := List.mem_map.1 hrm
    exact (hp q hq).2

/-! ## C79 -/

/-- **C79 is false: a batch size above the frame limit ends every run.**  If the first batch of reports needs more than
a frame, no run of the driver shows a result, whatever the draws and the state of the servers are. -/
theorem C79_false_run {bld : Build} {cfg : Config} {mode : DriverMode} (hmode : mode ≠ .plainMetrics) {draw : MainDraw}
    {n d l : Nat} (hd : cfg.dataBits = some d) (hn : 0 < n) (hl : ProofLen P cfg.histBuckets l)
    (hbig : n0.limit < n0.reqExtra + (1 + intLen .varint (min n cfg.addBatch) +
      min n cfg.addBatch * masticLen .varint d cfg.histBuckets l))
    (s : Server P × Server P) : ∃ e, (mainP P bld cfg mode draw n).netRun n0 n1 c0 c1 s = .error e := by
  refine netRun_error_bind fun x hx => ?_
  split
  · exact ⟨_, rfl⟩
  refine netRun_error_bind fun x hx => ?_
  rw [liftM_prog, netRun_lift] at hx
  obtain ⟨reports, hg, hx⟩ := bind_eq_ok.1 hx
  cases hx
  have hshape : ∀ rep ∈ reports, ReportShape d cfg.histBuckets l rep := by
    intro rep hrep
    obtain ⟨_, -, hg⟩ := bind_eq_ok.1 hg
    obtain ⟨reports', hm, hg⟩ := bind_eq_ok.1 hg
    obtain ⟨_, -, hg⟩ := bind_eq_ok.1 hg
    cases hg
    obtain ⟨i, hi, rfl⟩ := List.getElem_of_mem hrep
    have := mapE_getElem hm i (by rw [← mapE_length hm]; exact hi) hi
    obtain ⟨bucket, -, hgen⟩ := bind_eq_ok.1 this
    cases mode with
    | plainMetrics => exact absurd rfl hmode
    | weightedHeavyHitters =>
      rw [hd] at hgen
      have := gen_reportShape hl hgen
      simpa [sampleBits] using this
    | attributeBasedMetrics m =>
      rw [hd] at hgen
      have := gen_reportShape hl hgen
      simpa [sampleBits] using this
  refine netRun_error_bind fun x hx => ?_
  refine netRun_error_bind fun y hy => ?_
  exfalso
  unfold mainUploadP at hy
  split at hy
  · cases hy
  · obtain ⟨e, he⟩ := upload_too_big (P := P) (n0 := n0) (n1 := n1) (c0 := c0) (c1 := c1) hshape
      (picks := (List.range n).map draw.picks) (by simpa using hn) (by simpa using hbig) x.2
    rw [he] at hy
    cases hy

/-- **C79 is false for all parameters.**  For every number of bits, buckets and proof elements there is a batch size
such that no run with at least as many clients shows a result. -/
theorem C79_false_some_batch (n0 n1 : Net) (c0 c1 : ServerCfg) (P : Prims) (d b l : Nat) (hl : ProofLen P b l) :
    ∃ batch, 0 < batch ∧ ∀ (bld : Build) (cfg : Config) (mode : DriverMode) (draw : MainDraw) (n : Nat)
      (s : Server P × Server P), mode ≠ .plainMetrics → cfg.dataBits = some d → cfg.histBuckets = b →
      cfg.addBatch = batch → batch ≤ n → ∃ e, (mainP P bld cfg mode draw n).netRun n0 n1 c0 c1 s = .error e := by
  refine ⟨n0.limit + 1, Nat.succ_pos _, fun bld cfg mode draw n s hm hd hb hbatch hn => ?_⟩
  subst hb
  refine C79_false_run hm hd (by omega) hl ?_ s
  rw [hbatch, min_eq_right hn]
  have h1 : 1 ≤ masticLen .varint d cfg.histBuckets l := by simp only [masticLen, tagLen]; omega
  have h2 : (n0.limit + 1) * 1 ≤ (n0.limit + 1) * masticLen .varint d cfg.histBuckets l := Nat.mul_le_mul_left _ h1
  omega

/-- **C79 is false for answers as well.**  If the FLP verifiers of a batch need more than a frame, the server has done
the work but the call fails. -/
theorem C79_false_answer {net : Net} {cfg : ServerCfg} {s : Server P} {start end_ k : Nat} {vs : List (List Field128)}
    (hw : start < 2 ^ 64 ∧ end_ < 2 ^ 64) (hreq : net.reqExtra + 19 ≤ net.limit)
    (ha : (s.handle cfg (.runFlpQueries start end_)).2 = .ok (.fieldVecs vs)) (hk : ∀ v ∈ vs, v.length = k)
    (hbig : net.limit < net.respExtra + (1 + intLen .varint vs.length + vs.length * (intLen .varint k + 17 * k))) :
    netCall net cfg s (.runFlpQueries start end_) = ((s.handle cfg (.runFlpQueries start end_)).1, .error .unwrap) := by
  have hd := C77_request .varint (.runFlpQueries start end_) (by
    simp only [reqFits, word, Bool.and_eq_true, decide_eq_true_eq]; exact hw) []
  rw [List.append_nil] at hd
  have hle : ∀ x, intLen .varint x ≤ 9 := by intro x; simp only [intLen]; split_ifs <;> omega
  have hlen : ((reqCodec .varint).enc (.runFlpQueries start end_)).length ≤ 19 := by
    simp only [reqCodec, List.length_append, Req.encBody, rangeCodec, Codec.pair, Codec.u64_len]
    rw [Codec.tag_len .varint _ (by simp [Req.tag]), tagLen]
    have := hle start
    have := hle end_
    omega
  rw [netCall, if_neg (by omega), hd]
  simp only [ha]
  rw [if_pos]
  rw [encResp, List.length_append, Codec.tag_len .varint _ (by simp [Req.tag]), tagLen, Resp.encBody,
    Codec.vec_len .varint _ (intLen .varint k + 17 * k) vs]
  · omega
  · intro v hv
    rw [Codec.vec_len .varint _ (fieldLen .varint) v fun x _ => Codec.field_len _ x, hk v hv]
    simp only [fieldLen, intLen]
    norm_num
    ring

/-- **C79, what holds.**  A batch of reports is stored exactly if it fits into a frame; otherwise the call fails and
the server does not change. -/
theorem C79_upload_partial {d b l : Nat} {rs : List ReportShare} (h : ∀ r ∈ rs, MasticShape d b l r)
    (hfit : reqFits (.addReportShares rs) = true) {net : Net} {cfg : ServerCfg} {kc : KeyCollection P}
    (hans : net.respExtra + 6 ≤ net.limit) :
    netCall net cfg (.running kc) (.addReportShares rs) =
      if net.reqExtra + (1 + intLen .varint rs.length + rs.length * masticLen .varint d b l) ≤ net.limit
      then (.running (srvAddReportShares kc rs), .ok .done) else (.running kc, .error .unwrap) := by
  rw [← add_len h]
  split
  · next hle =>
    rw [C77_call]
    · rfl
    · simp only [callFits, Bool.and_eq_true, decide_eq_true_eq]
      refine ⟨⟨hfit, hle⟩, ?_⟩
      have : ((Server.running kc).handle cfg (.addReportShares rs)).2 = .ok .done := rfl
      rw [this]
      simp only [Bool.and_eq_true, decide_eq_true_eq]
      refine ⟨rfl, ?_⟩
      have : (encResp .varint (Req.addReportShares rs).tag .done).length = 6 := rfl
      omega
  · next hgt => exact netCall_big (not_le.1 hgt)

/-- **C79, the limit only makes runs fail.**  A result shown with some frame limit is also shown with every larger
limit. -/
theorem C79_limit_monotone_partial {α : Type} {m0 m1 : Net} (h0 : n0.Le m0) (h1 : n1.Le m1) {p : Prog α}
    {s : Server P × Server P} {x : α × Server P × Server P} (h : p.netRun n0 n1 c0 c1 s = .ok x) :
    p.netRun m0 m1 c0 c1 s = .ok x := netRun_mono h0 h1 h

/-! ## Concrete cases -/

/-- The connection of the programs, if tarpc adds at most 100 bytes. -/
def stdNet : Net := ⟨100, 100, maxFrame⟩

/-- The sizes quoted in `artifact/README.md:170-173` (8 bits, 4 buckets; the proof has 11 elements). -/
example : 33 + 8 * (42 + 24 * (4 + 1)) = 1329 ∧ 8 + 24 * 11 = 272 := by decide

/-- A request with everything in it. -/
example : (reqCodec .varint).dec ((reqCodec .varint).enc (.treeCrawl 4 [1, 300, 70000] true) ++ [7#8])
    = some (.treeCrawl 4 [1, 300, 70000] true, [7#8]) := C77_request _ _ (by decide) _

example : (reqCodec .varint).enc (.treeCrawl 4 [1, 300] true)
    = [5#8, 4#8, 2#8, 1#8, 251#8, 44#8, 1#8, 1#8] := by decide

/-- A byte that is neither 0 nor 1 is not a `bool`. -/
example : (reqCodec .varint).dec [8#8, 2#8, 1#8, 2#8] = none := by decide

theorem toy_proofLen (b : Nat) : ProofLen toy b 2 := by
  intro beta rand joint proof h
  cases h
  rfl

example : ∃ rep, genMasticReport toy 2 [true, false] 1 (toyRand 1) = .ok rep ∧
    printedSizes rep = [16, 16, 33 + 2 * (42 + 24 * 3), 8 + 24 * 2] := by
  obtain ⟨rep, h1, h2⟩ := bind_eq_ok.1 (show (genMasticReport toy 2 [true, false] 1 (toyRand 1) >>= fun rep =>
    (.ok (rep.toShares.1.nonce == rep.toShares.2.nonce) : Exec Bool)) = .ok true by decide +kernel)
  exact ⟨rep, h1, C78_printed (toy_proofLen 2) h1⟩

/-- A whole run of two clients in which all messages fit. -/
example : runFits stdNet stdNet (toySrv 2 false) (toySrv 2 true)
    (mainP toy .debug ⟨some 2, 2, 2, 2, 2, 2⟩ .weightedHeavyHitters toyDraw 2)
    (.running (toyFresh 2).1, .running (toyFresh 2).2) = true := by decide +kernel

/-- With batches of 1000 reports (the value in `src/configs`), 256 bits and 9 buckets (as in
`artifact/configs/figure-4`), no run of 1000 clients or more gets past the first batch. -/
example (bld : Build) (draw : MainDraw) (n : Nat) (hn : 1000 ≤ n) (s : Server toy × Server toy) :
    ∃ e, (mainP toy bld ⟨some 256, 9, 1000, 100000, 1000, 10⟩ .weightedHeavyHitters draw n).netRun stdNet stdNet
      (toySrv 256 false) (toySrv 256 true) s = .error e := by
  refine C79_false_run (by simp) rfl (by omega) (toy_proofLen 9) ?_ s
  rw [min_eq_right (by omega)]
  decide

/-- 100000 verifiers (`query_flp_batch_size` in `src/configs`) of 5 elements do not fit. -/
example : stdNet.limit < stdNet.respExtra + (1 + intLen .varint 100000 + 100000 * (intLen .varint 5 + 17 * 5)) := by decide

/-- The batch sizes of that configuration (100 reports) fit. -/
example : stdNet.reqExtra + (1 + intLen .varint 100 + 100 * masticLen .varint 256 9 40) ≤ stdNet.limit := by decide

end Mastic
