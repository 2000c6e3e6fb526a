import Verif.Model.Server

/-!
# Model of `src/bin/driver.rs`

Line numbers refer to `src/bin/driver.rs`.  The driver talks to two servers; a request that panics in
a server makes `try_join!(..).unwrap()` (or the wait for it) fail, so the driver is a computation in
`Exec` over the pair of server states.  `usize` arithmetic on client counts and batch sizes is done
in `Nat` (no overflow below `2^64`).  Random choices are arguments.
-/

namespace Mastic

/-- `config::Config` (`src/config.rs:29-58`), the fields the driver's logic uses.  `threshold` is
`(threshold * (num_clients as f64)) as u64`, computed in floating point by the code. -/
structure Config where
  dataBits : Option Nat
  histBuckets : Nat
  addBatch : Nat
  queryBatch : Nat
  uniqueBuckets : Nat
  threshold : Nat

/-- `PlaintextReport` (`src/bin/driver.rs:50-68`). -/
inductive PlaintextReport where
  | mastic (nonce : Block) (vidpfKeys : VidpfKey × VidpfKey)
      (flpProofShares : List Field128 × List Field128) (flpJointRandParts : Block × Block)
      (alpha : List Bool)
  | prio3 (nonce : Block) (publicShare : List Byte) (inputShares : List Byte × List Byte)

/-- `unwrap_alpha` (`src/bin/driver.rs:72-83`). -/
def PlaintextReport.unwrapAlpha : PlaintextReport → Exec (List Bool)
  | .mastic _ _ _ _ a => .ok a
  | .prio3 .. => .error .explicit

/-- `to_shares` (`src/bin/driver.rs:85-124`). -/
def PlaintextReport.toShares : PlaintextReport → ReportShare × ReportShare
  | .mastic n ks ps jr _ => (.mastic n ks.1 ps.1 jr, .mastic n ks.2 ps.2 jr)
  | .prio3 n pub inp => (.prio3 n pub inp.1, .prio3 n pub inp.2)

/-- The joint-randomness parts a client computes (`src/bin/driver.rs:147-164`). -/
def clientJointRandParts (P : Prims) (nonce : Block) (k0 k1 : VidpfKey) : Block × Block :=
  (P.xofBlock k0.getRootSeed Block.zero.toList (0#8 :: nonce.toList),
   P.xofBlock k1.getRootSeed Block.zero.toList (1#8 :: nonce.toList))

/-- Sharing of the proof (`src/bin/driver.rs:175-183`): `proof_0` takes one random element per proof entry (`rand` is
the sequence of random elements), `proof_1[i] = proof[i] - proof_0[i]`. -/
def shareProof (proof : List Field128) (rand : Nat → Field128) : List Field128 × List Field128 :=
  let proof0 := proof.zipIdx.map fun pi => rand pi.2
  (proof0, List.zipWith (fun a b => a - b) proof proof0)

/-- The random choices of one Mastic client. (`src/bin/driver.rs:140-195`) -/
structure ClientRand where
  nonce : Block
  rootSeeds : Block × Block
  proveRand : List Field128
  proofRand : Nat → Field128

/-- The Mastic branch of `generate_reports` (`src/bin/driver.rs:140-195`) for given `alpha` and `bucket`. -/
def genMasticReport (P : Prims) (buckets : Nat) (alpha : List Bool) (bucket : Nat)
    (r : ClientRand) : Exec PlaintextReport := do
  let beta ← unwrapO (encodeMeasurement buckets bucket)
  let keys := VidpfKey.gen P r.rootSeeds alpha beta
  let jr := clientJointRandParts P r.nonce keys.1 keys.2
  let jointRand := P.xofField jr.1 jr.2.toList (P.jointRandLen buckets)
  let proof ← unwrapO (P.flpProve buckets beta r.proveRand jointRand)
  .ok (.mastic r.nonce keys (shareProof proof r.proofRand) jr alpha)

/-- The Prio3 branch of `generate_reports` (`src/bin/driver.rs:196-207`). -/
def genPrio3Report (P : Prims) (buckets bucket : Nat) (nonce : Block) (rand : Nat) :
    Exec PlaintextReport := do
  if !P.prio3Ok buckets then .error .unwrap
  else do
    let (pub, i0, i1) ← unwrapO (P.prio3Shard buckets bucket nonce rand)
    .ok (.prio3 nonce pub (i0, i1))

/-- The two kinds of simulated misbehaviour (`src/bin/driver.rs:288-316`). -/
inductive Tamper where
  | key
  | flp

/-- `flp_proof_share[0] += Field128::from(1337)` (`src/bin/driver.rs:303`). -/
def bumpHead : List Field128 → Exec (List Field128)
  | [] => .error .index
  | x :: xs => .ok ((x + 1337) :: xs)

/-- `input_share_bytes[0] ^= 1` (`src/bin/driver.rs:312`). -/
def flipHead : List Byte → Exec (List Byte)
  | [] => .error .index
  | x :: xs => .ok ((x ^^^ 1) :: xs)

/-- The tampering applied to the share for server 1 (`src/bin/driver.rs:289-314`).  In the `key` case the assignment
goes to the clone returned by `get_root_seed()` (`src/vidpf.rs:247-249`), so the share is unchanged. -/
def tamperShare (t : Tamper) : ReportShare → Exec ReportShare
  | .mastic n k p jr =>
    match t with
    | .key =>
      let _clone := (k.getRootSeed).set 0 ((k.getRootSeed)[0] ^^^ 1)
      .ok (.mastic n k p jr)
    | .flp => do
      let p ← bumpHead p
      .ok (.mastic n k p jr)
  | .prio3 n pub inp => do
    let inp ← flipHead inp
    .ok (.prio3 n pub inp)

/-- One client of `add_reports` (`src/bin/driver.rs:284-320`): the 1-based Zipf sample and the misbehaviour. -/
def pickShares (reports : List PlaintextReport) (pick : Nat × Option Tamper) :
    Exec (ReportShare × ReportShare) := do
  if pick.1 = 0 then .error .overflow
  else do
    let r ← idx reports (pick.1 - 1)
    let sh := r.toShares
    match pick.2 with
    | none => .ok sh
    | some t => do
      let s1 ← tamperShare t sh.2
      .ok (sh.1, s1)

variable {P : Prims}

/-- The pair of server states. No counterpart in the repository. -/
abbrev Pair2 (P : Prims) := KeyCollection P × KeyCollection P

/-- `add_reports` (`src/bin/driver.rs:272-338`) for one batch. -/
def addReports (reports : List PlaintextReport) (kcs : Pair2 P)
    (picks : List (Nat × Option Tamper)) : Exec (Pair2 P) := do
  let sh ← mapE (pickShares reports) picks
  .ok (srvAddReportShares kcs.1 (sh.map Prod.fst), srvAddReportShares kcs.2 (sh.map Prod.snd))

/-- The inner `for _ in 0..reqs_in_flight` loop (`src/bin/driver.rs:730-743`): sizes of the batches started and the
new `left_to_go`. -/
def batchRound (batch : Nat) : Nat → Nat → List Nat × Nat
  | 0, left => ([], left)
  | k + 1, left =>
    let this := min left batch
    let r := batchRound batch k (left - this)
    if this > 0 then (this :: r.1, r.2) else r

/-- The `while left_to_go > 0` loop (`src/bin/driver.rs:725-748`): the batch sizes in order.  The futures are lazy and
awaited one after the other. -/
def uploadBatches (batch : Nat) : Nat → Nat → Exec (List Nat)
  | _, 0 => .ok []
  | 0, _ + 1 => .error .outOfFuel
  | fuel + 1, left + 1 => do
    let r := batchRound batch 1000 (left + 1)
    let rest ← uploadBatches batch fuel r.2
    .ok (r.1 ++ rest)

/-- Splitting the random picks into the batches. (`src/bin/driver.rs:725-748`) -/
def splitBatches {α : Type} : List Nat → List α → List (List α)
  | [], _ => []
  | n :: ns, l => l.take n :: splitBatches ns (l.drop n)

/-- The upload phase of `main` (`src/bin/driver.rs:725-748`); one pick per client. -/
def upload (cfg : Config) (reports : List PlaintextReport) (kcs : Pair2 P)
    (picks : List (Nat × Option Tamper)) : Exec (Pair2 P) := do
  let sizes ← uploadBatches cfg.addBatch picks.length picks.length
  foldE (addReports reports) kcs (splitBatches sizes picks)

/-- `reset_servers` (`src/bin/driver.rs:246-261`). -/
def resetServers (c0 c1 : ServerCfg) (cfg : Config) (kcs : Pair2 P) (verifyKey : Block) :
    Exec (Pair2 P) := do
  let k0 ← srvReset c0 kcs.1 verifyKey cfg.histBuckets
  let k1 ← srvReset c1 kcs.2 verifyKey cfg.histBuckets
  .ok (k0, k1)

/-- `tree_init` (`src/bin/driver.rs:263-270`). -/
def driverTreeInit (kcs : Pair2 P) : Exec (Pair2 P) := do
  let k0 ← kcs.1.treeInit
  let k1 ← kcs.2.treeInit
  .ok (k0, k1)

/-- `src/bin/driver.rs:364-370`: add the two verifier shares (`zip` truncates) and decide. -/
def decideShares (P : Prims) (buckets : Nat) (v : List Field128 × List Field128) : Exec Bool :=
  unwrapO (P.flpDecide buckets (List.zipWith (fun a b => a + b) v.1 v.2))

/-- The ranges requested by the `while start < num_clients` loops (`src/bin/driver.rs:349-376`, 494-512). -/
def whileRanges (n batch : Nat) : Nat → Nat → Exec (List (Nat × Nat))
  | 0, start => if start < n then .error .outOfFuel else .ok []
  | fuel + 1, start =>
    if start < n then do
      let rest ← whileRanges n batch fuel (start + batch)
      .ok ((start, min n (start + batch)) :: rest)
    else .ok []

/-- One iteration of the FLP loop (`src/bin/driver.rs:353-373`): the `keep` entries of one batch. -/
def flpBatch (c0 c1 : ServerCfg) (bld : Build) (buckets : Nat) (kcs : Pair2 P)
    (range : Nat × Nat) : Exec (List Bool) := do
  debugAssert c0.build (decide (range.1 < range.2))
  let v0 ← kcs.1.runFlpQueries c0.build range.1 range.2
  debugAssert c1.build (decide (range.1 < range.2))
  let v1 ← kcs.2.runFlpQueries c1.build range.1 range.2
  debugAssert bld (v0.length == v1.length)
  mapE (decideShares P buckets) (v0.zip v1)

/-- `run_flp_queries` (`src/bin/driver.rs:340-385`). -/
def driverFlp (c0 c1 : ServerCfg) (bld : Build) (cfg : Config) (kcs : Pair2 P) (n : Nat) :
    Exec (Pair2 P) := do
  let ranges ← whileRanges n cfg.queryBatch n 0
  let keeps ← mapE (flpBatch c0 c1 bld cfg.histBuckets kcs) ranges
  let keep := keeps.flatten
  let k0 ← kcs.1.applyFlpResults keep
  let k1 ← kcs.2.applyFlpResults keep
  .ok (k0, k1)

/-- `TreeCrawlRequest` (`src/rpc.rs:28-33`). -/
structure CrawlReq where
  splitBy : Nat
  malicious : List Nat
  isLast : Bool

/-- `src/bin/driver.rs:429-436`: the indices whose roots differ. -/
def diffIndices (r0 r1 : CrawlResp) : Exec (List Nat) := do
  let ms ← mapE (fun i => do
    let a ← idx r0.roots i
    let b ← idx r1.roots i
    if a ≠ b then do
      let i0 ← idx r0.indices i
      let i1 ← idx r1.indices i
      assertE (i0 == i1)
      .ok [i0]
    else .ok []) (List.range r0.roots.length)
  .ok ms.flatten

/-- The `loop` of `run_level` (`src/bin/driver.rs:401-454`), for any pair of servers with joint state `σ` answering
the crawl requests through `crawl`.  Returns the joint state, `keep`, and the number of crawl
requests sent to each server. -/
def runLevelLoop {σ : Type} (crawl : σ → CrawlReq → Exec (σ × CrawlResp × CrawlResp))
    (inputLen threshold numClients : Nat) :
    Nat → σ → CrawlReq → Exec (σ × List Bool × Nat)
  | 0, _, _ => .error .outOfFuel
  | fuel + 1, s, req => do
    let (s', r0, r1) ← crawl s req
    assertE (r0.cntValues.length == r1.cntValues.length)
    let keep ← keepValues inputLen threshold r0.cntValues r1.cntValues
    if r0.roots.isEmpty then .ok (s', keep, 1)
    else do
      let malicious ← diffIndices r0 r1
      if malicious.isEmpty then .ok (s', keep, 1)
      else if numClients ≤ req.splitBy then
        if req.isLast then .ok (s', keep, 1)
        else do
          let (sF, keepF, cnt) ← runLevelLoop crawl inputLen threshold numClients fuel s'
            { splitBy := req.splitBy, malicious, isLast := true }
          .ok (sF, keepF, cnt + 1)
      else do
        let (sF, keepF, cnt) ← runLevelLoop crawl inputLen threshold numClients fuel s'
          { splitBy := req.splitBy * 2, malicious, isLast := req.isLast }
        .ok (sF, keepF, cnt + 1)

/-- One `tree_crawl` request to both real servers (`src/bin/driver.rs:413-416`). -/
def crawlBoth (c0 c1 : ServerCfg) (kcs : Pair2 P) (req : CrawlReq) :
    Exec (Pair2 P × CrawlResp × CrawlResp) := do
  let (k0, r0) ← kcs.1.treeCrawl c0.build req.splitBy req.malicious req.isLast
  let (k1, r1) ← kcs.2.treeCrawl c1.build req.splitBy req.malicious req.isLast
  .ok ((k0, k1), r0, r1)

/-- Both servers prune (`src/bin/driver.rs:457-460`, 515-518). -/
def pruneBoth (kcs : Pair2 P) (keep : List Bool) : Exec (Pair2 P) := do
  let k0 ← kcs.1.treePrune keep
  let k1 ← kcs.2.treePrune keep
  .ok (k0, k1)

/-- The loop of `run_level` with the real servers; `n + 3` iterations always suffice (theorem).
(`src/bin/driver.rs:401-454`) -/
def searchLevel (c0 c1 : ServerCfg) (cfg : Config) (kcs : Pair2 P) (n : Nat) :
    Exec (Pair2 P × List Bool × Nat) :=
  runLevelLoop (crawlBoth c0 c1) cfg.histBuckets (max 1 cfg.threshold) n (n + 3) kcs
    { splitBy := 1, malicious := [], isLast := false }

/-- `run_level` (`src/bin/driver.rs:387-463`). -/
def runLevel (c0 c1 : ServerCfg) (cfg : Config) (kcs : Pair2 P) (n : Nat) : Exec (Pair2 P) := do
  let (kcs, keep, _) ← searchLevel c0 c1 cfg kcs n
  pruneBoth kcs keep

/-- One iteration of the proof comparison loop (`src/bin/driver.rs:498-509`). -/
def compareProofs (c0 c1 : ServerCfg) (kcs : Pair2 P) (range : Nat × Nat) : Exec Unit := do
  debugAssert c0.build (decide (range.1 < range.2))
  debugAssert c1.build (decide (range.1 < range.2))
  let h0 := kcs.1.getProofs range.1 range.2
  let h1 := kcs.2.getProofs range.1 range.2
  assertE (h0.length == h1.length)
  assertE ((h0.zip h1).all fun hh => hh.1 == hh.2)

/-- The entries the driver prints (`src/bin/driver.rs:529-534`): those whose value at `input_len - 1` is non-zero. -/
def printed (inputLen : Nat) (results : List HHResult) : Exec (List HHResult) := do
  let fl ← mapE (fun (r : HHResult) => do
    if inputLen = 0 then .error .overflow
    else do
      let x ← idx r.value (inputLen - 1)
      .ok (r, decide (x ≠ 0))) results
  .ok ((fl.filter Prod.snd).map Prod.fst)

/-- What a weighted-heavy-hitters run produces: final server states, the reconstructed results, and the
printed ones. (`src/bin/driver.rs:520-537`) -/
structure WhhOut (P : Prims) where
  kcs : Pair2 P
  results : List HHResult
  printed : List HHResult

/-- `run_level_last` (`src/bin/driver.rs:465-537`). -/
def runLevelLast (c0 c1 : ServerCfg) (cfg : Config) (kcs : Pair2 P) (n : Nat) :
    Exec (WhhOut P) := do
  let (k0, v0) ← kcs.1.treeCrawlLast
  let (k1, v1) ← kcs.2.treeCrawlLast
  assertE (v0.length == v1.length)
  let keep ← keepValues cfg.histBuckets (max 1 cfg.threshold) v0 v1
  let ranges ← whileRanges n cfg.queryBatch n 0
  let _ ← mapE (compareProofs c0 c1 (k0, k1)) ranges
  let kcs ← pruneBoth (k0, k1) keep
  let _ ← unwrapO cfg.dataBits
  let results ← finalValues cfg.histBuckets kcs.1.finalShares kcs.2.finalShares
  let pr ← printed cfg.histBuckets results
  .ok { kcs, results, printed := pr }

/-- The number of iterations of `for level in 0..cfg.data_bits.unwrap() - 1` (`src/bin/driver.rs:755`): with
`data_bits = 0` the subtraction panics (debug) or wraps (release). -/
def levelCount (bld : Build) (dataBits : Option Nat) : Exec Nat := do
  let d ← unwrapO dataBits
  if d = 0 then
    match bld with
    | .debug => .error .overflow
    | .release => .ok (2 ^ 64 - 1)
  else .ok (d - 1)

/-- One iteration of the level loop (`src/bin/driver.rs:755-766`). -/
def levelStep (c0 c1 : ServerCfg) (bld : Build) (cfg : Config) (n : Nat) (kcs : Pair2 P)
    (level : Nat) : Exec (Pair2 P) := do
  let kcs ← (if level = 0 then driverFlp c0 c1 bld cfg kcs n else .ok kcs)
  runLevel c0 c1 cfg kcs n

/-- The weighted-heavy-hitters branch of `main` (`src/bin/driver.rs:752-768`), after the upload. -/
def runWhh (c0 c1 : ServerCfg) (bld : Build) (cfg : Config) (kcs : Pair2 P) (n : Nat) :
    Exec (WhhOut P) := do
  let kcs ← driverTreeInit kcs
  let levels ← levelCount bld cfg.dataBits
  let kcs ← foldE (levelStep c0 c1 bld cfg n) kcs (List.range levels)
  runLevelLast c0 c1 cfg kcs n

/-- `(0..n).step_by(batch)` (`src/bin/driver.rs:547`, 624). -/
def stepByRanges (n batch : Nat) : Exec (List (Nat × Nat)) :=
  if batch = 0 then .error .zeroChunk
  else .ok ((List.range ((n + batch - 1) / batch)).map fun k =>
    (k * batch, min n (k * batch + batch)))

/-- `src/bin/driver.rs:568-577`: the rejections pushed for one report (once per failing check). -/
def rejectEntries (P : Prims) (buckets : Nat)
    (e : Nat × ((List Field128 × Vector Byte 32) × (List Field128 × Vector Byte 32))) :
    Exec (List Nat) := do
  let ok ← unwrapO (P.flpDecide buckets (vecAdd e.2.1.1 e.2.2.1))
  .ok ((if ok then [] else [e.1]) ++ (if e.2.1.2 ≠ e.2.2.2 then [e.1] else []))

/-- What is printed for one batch: rejected indices and one result per attribute.
(`src/bin/driver.rs:596-609`) -/
structure AbmOut where
  rejected : List Nat
  results : List (List Field128)

/-- One batch of `run_attribute_based_metrics` (`src/bin/driver.rs:547-609`). -/
def abmBatch (c0 c1 : ServerCfg) (cfg : Config) (attributes : List (List Bool))
    (kcs : Pair2 P) (range : Nat × Nat) : Exec (Pair2 P × AbmOut) := do
  debugAssert c0.build (decide (range.1 < range.2))
  let (k0, res0) ← srvAbmValidate kcs.1 attributes range.1 range.2
  debugAssert c1.build (decide (range.1 < range.2))
  let (k1, res1) ← srvAbmValidate kcs.2 attributes range.1 range.2
  assertE (res0.length == range.2 - range.1)
  assertE (res1.length == range.2 - range.1)
  let rej ← mapE (rejectEntries P cfg.histBuckets) ((rangeFrom range.1 range.2).zip (res0.zip res1))
  let rejected := rej.flatten
  let (k0, a0) ← srvAbmResult c0 k0 rejected attributes.length
  let (k1, a1) ← srvAbmResult c1 k1 rejected attributes.length
  .ok ((k0, k1), { rejected, results := addRows a0 a1 })

/-- The batches one after the other. (`src/bin/driver.rs:547-609`) -/
def abmLoop (c0 c1 : ServerCfg) (cfg : Config) (attributes : List (List Bool)) :
    List (Nat × Nat) → Pair2 P → Exec (Pair2 P × List AbmOut)
  | [], kcs => .ok (kcs, [])
  | r :: rs, kcs => do
    let (kcs, o) ← abmBatch c0 c1 cfg attributes kcs r
    let (kcs, os) ← abmLoop c0 c1 cfg attributes rs kcs
    .ok (kcs, o :: os)

/-- `run_attribute_based_metrics` (`src/bin/driver.rs:539-612`). -/
def runAbm (c0 c1 : ServerCfg) (cfg : Config) (kcs : Pair2 P) (attributes : List (List Bool))
    (n : Nat) : Exec (Pair2 P × List AbmOut) := do
  let ranges ← stepByRanges n cfg.queryBatch
  abmLoop c0 c1 cfg attributes ranges kcs

/-- The synthesis of attributes in `main` (`src/bin/driver.rs:772-782`) before de-duplication by the `HashSet`: the
1-based samples index the report list directly. -/
def sampleAttributes (reports : List PlaintextReport) (samples : List Nat) :
    Exec (List (List Bool)) :=
  mapE (fun s => do
    let r ← idx reports s
    r.unwrapAlpha) samples

/-- What is printed for one Prio3 batch. (`src/bin/driver.rs:671-683`) -/
structure PmOut where
  rejected : Nat
  result : List Nat

/-- One batch of `run_plain_metrics` (`src/bin/driver.rs:624-683`). -/
def pmBatch (c0 c1 : ServerCfg) (cfg : Config) (kcs : Pair2 P) (range : Nat × Nat) :
    Exec (Pair2 P × PmOut) := do
  debugAssert c0.build (decide (range.1 < range.2))
  let (k0, res0) ← srvPmValidate c0 kcs.1 range.1 range.2
  debugAssert c1.build (decide (range.1 < range.2))
  let (k1, res1) ← srvPmValidate c1 kcs.2 range.1 range.2
  assertE (res0.length == range.2 - range.1)
  assertE (res1.length == range.2 - range.1)
  let (k0, a0, rej0) ← srvPmResult c0 k0 res1 range.1 range.2
  let (k1, a1, rej1) ← srvPmResult c1 k1 res0 range.1 range.2
  assertE (rej0 == rej1)
  let result ← unwrapO (P.prio3Unshard cfg.histBuckets a0 a1 (range.2 - range.1 - rej0))
  .ok ((k0, k1), { rejected := rej0, result })

/-- The batches one after the other. (`src/bin/driver.rs:624-683`) -/
def pmLoop (c0 c1 : ServerCfg) (cfg : Config) :
    List (Nat × Nat) → Pair2 P → Exec (Pair2 P × List PmOut)
  | [], kcs => .ok (kcs, [])
  | r :: rs, kcs => do
    let (kcs, o) ← pmBatch c0 c1 cfg kcs r
    let (kcs, os) ← pmLoop c0 c1 cfg rs kcs
    .ok (kcs, o :: os)

/-- `run_plain_metrics` (`src/bin/driver.rs:614-686`). -/
def runPm (c0 c1 : ServerCfg) (cfg : Config) (kcs : Pair2 P) (n : Nat) :
    Exec (Pair2 P × List PmOut) := do
  if !P.prio3Ok cfg.histBuckets then .error .unwrap
  else do
    let ranges ← stepByRanges n cfg.queryBatch
    pmLoop c0 c1 cfg ranges kcs

end Mastic
