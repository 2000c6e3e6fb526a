import Verif.Model.Collect

/-!
# Model of `src/bin/server.rs`

Line numbers refer to `src/bin/server.rs`.  Every handler takes the lock, works on the
`KeyCollection` behind it and returns.  A panic while the lock is held poisons the mutex: every later
`lock().unwrap()` panics too.  A request whose handler panics gets no answer.
-/

namespace Mastic

/-- What a running server process is fixed to: `CollectorServer` (`src/bin/server.rs:39-45`) without the shared
state, the kind of build, and the order in which its `HashMap` is iterated (any permutation). -/
structure ServerCfg where
  serverId : Int
  dataBits : Option Nat
  build : Build
  /-- iteration order of `attribute_based_metrics_state` -/
  iter : List (Nat × List (List Field128)) → List (Nat × List (List Field128))
  iter_perm : ∀ l, (iter l).Perm l

/-- `HashMap::insert` (external) on an association list with distinct keys. -/
def mapInsert {α : Type} : List (Nat × α) → Nat → α → List (Nat × α)
  | [], k, v => [(k, v)]
  | (k', v') :: m, k, v => if k' = k then (k, v) :: m else (k', v') :: mapInsert m k v

/-- `HashMap::remove` (external): the removed value and the rest. -/
def mapRemove {α : Type} : List (Nat × α) → Nat → Option α × List (Nat × α)
  | [], _ => (none, [])
  | (k', v') :: m, k =>
    if k' = k then (some v', m)
    else ((mapRemove m k).1, (k', v') :: (mapRemove m k).2)

/-- `start..end`. (`src/rpc.rs:39-84`) -/
def rangeFrom (start end_ : Nat) : List Nat := List.range' start (end_ - start)

variable {P : Prims}

/-- `reset` (`src/bin/server.rs:49-59`), lock held. -/
def srvReset (cfg : ServerCfg) (_kc : KeyCollection P) (verifyKey : Block) (histBuckets : Nat) :
    Exec (KeyCollection P) := do
  if P.histOk histBuckets then
    .ok (KeyCollection.new P histBuckets cfg.serverId cfg.dataBits verifyKey)
  else .error .unwrap

/-- `add_report_shares` (`src/bin/server.rs:61-70`), lock held. -/
def srvAddReportShares (kc : KeyCollection P) (rs : List ReportShare) : KeyCollection P :=
  rs.foldl KeyCollection.addReportShare kc

/-- The per-client closure of `attribute_based_metrics_validate` (`src/bin/server.rs:159-189`): index, value shares,
verifier share, evaluation-proof digest. -/
def abmValidateClient (kc : KeyCollection P) (attributes : List (List Bool)) (clientIndex : Nat) :
    Exec (Nat × List (List Field128) × List Field128 × Vector Byte 32) := do
  let r ← idx kc.reportShares clientIndex
  let key ← r.2.unwrapVidpfKey
  let (valuesShare, betaShare, transcript) ← key.evalTree P attributes kc.inputLen
  let jointRand ← kc.flpJointRand clientIndex
  let queryRand ← kc.flpQueryRand clientIndex
  let proofShare ← r.2.unwrapFlpProofShare
  let verifierShare ← unwrapO (P.flpQuery kc.inputLen betaShare proofShare queryRand jointRand)
  .ok (clientIndex, valuesShare, verifierShare, P.blake3 transcript)

/-- `Vec::with_capacity(req.end - req.start)` (`src/bin/server.rs:157`, 234): for `start > end` the subtraction
overflows (debug) or wraps to a capacity that overflows (release); both panic.  Simplified: in release builds, and for a
`start` within 2^57 of the largest `usize`, the wrapped capacity is small enough not to overflow and the handlers return
an empty list instead. -/
def withCapacity (start end_ : Nat) : Exec Unit :=
  if start ≤ end_ then .ok () else .error .overflow

/-- `attribute_based_metrics_validate` (`src/bin/server.rs:156-199`), lock held. -/
def srvAbmValidate (kc : KeyCollection P) (attributes : List (List Bool)) (start end_ : Nat) :
    Exec (KeyCollection P × List (List Field128 × Vector Byte 32)) := do
  withCapacity start end_
  let results ← mapE (abmValidateClient kc attributes) (rangeFrom start end_)
  .ok ({ kc with abmState := results.foldl (fun m r => mapInsert m r.1 r.2.1) kc.abmState },
    results.map fun r => (r.2.2.1, r.2.2.2))

/-- The rejection loop of `attribute_based_metrics_result` (`src/bin/server.rs:209-214`): the removal is an argument
of `debug_assert!`, so release builds do not perform it. -/
def abmReject (bld : Build) (st : List (Nat × List (List Field128))) (rejected : List Nat) :
    Exec (List (Nat × List (List Field128))) :=
  match bld with
  | .release => .ok st
  | .debug => foldE (fun m i =>
      match mapRemove m i with
      | (some _, m') => .ok m'
      | (none, _) => .error .debugAssertion) st rejected

/-- `src/bin/server.rs:219-221`: `vec_add` on each pair of an aggregate entry and a value share. -/
def addRows : List (List Field128) → List (List Field128) → List (List Field128)
  | [], _ => []
  | a :: as, [] => a :: as
  | a :: as, v :: vs => vecAdd a v :: addRows as vs

/-- `src/bin/server.rs:216-224`: the aggregate over all stored entries, in iteration order. -/
def abmAggregate (inputLen numAttributes : Nat) (entries : List (Nat × List (List Field128))) :
    List (List Field128) :=
  entries.foldl (fun agg e => addRows agg e.2)
    (List.replicate numAttributes (List.replicate inputLen 0))

/-- `attribute_based_metrics_result` (`src/bin/server.rs:207-225`), lock held.  `start` and `end` are not used. -/
def srvAbmResult (cfg : ServerCfg) (kc : KeyCollection P) (rejected : List Nat)
    (numAttributes : Nat) : Exec (KeyCollection P × List (List Field128)) := do
  let st ← abmReject cfg.build kc.abmState rejected
  .ok ({ kc with abmState := st }, abmAggregate kc.inputLen numAttributes (cfg.iter st))

/-- The per-client closure of `plain_metrics_validate` (`src/bin/server.rs:239-267`). -/
def pmValidateClient (kc : KeyCollection P) (aggId clientIndex : Nat) :
    Exec (Nat × P.PrepState × P.PrepShare) := do
  let r ← idx kc.reportShares clientIndex
  match r.2 with
  | .mastic .. => .error .explicit
  | .prio3 nonce pub inp => do
    let (st, sh) ← unwrapO (P.prepInit kc.inputLen aggId kc.verifyKey nonce pub inp)
    .ok (clientIndex, st, sh)

/-- `self.server_id.try_into().unwrap()` (`src/bin/server.rs:235`). -/
def aggIdOf (serverId : Int) : Exec Nat :=
  if 0 ≤ serverId then .ok serverId.toNat else .error .unwrap

/-- `plain_metrics_validate` (`src/bin/server.rs:233-277`), lock held. -/
def srvPmValidate (cfg : ServerCfg) (kc : KeyCollection P) (start end_ : Nat) :
    Exec (KeyCollection P × List (List Byte)) := do
  withCapacity start end_
  let aggId ← aggIdOf cfg.serverId
  if !P.prio3Ok kc.inputLen then .error .unwrap
  else do
    let results ← mapE (pmValidateClient kc aggId) (rangeFrom start end_)
    .ok ({ kc with pmState := results.foldl (fun m r => mapInsert m r.1 r.2) kc.pmState },
      results.map fun r => P.prepEncode r.2.2)

/-- The `filter_map` closure of `plain_metrics_result` (`src/bin/server.rs:291-312`) on the stored states: the
remaining states and the output share, `none` when the report is rejected. -/
def pmResultClient (serverId : Int) (inputLen : Nat)
    (m : List (Nat × (P.PrepState × P.PrepShare))) (ip : Nat × List Byte) :
    Exec (List (Nat × (P.PrepState × P.PrepShare)) × Option (List Field128)) := do
  let rm := mapRemove m ip.1
  let (st, sh) ← unwrapO rm.1
  let peer ← unwrapO (P.prepDecode st ip.2)
  let pair := if serverId = 0 then (sh, peer) else (peer, sh)
  match P.prepCombine inputLen pair.1 pair.2 with
  | none => .ok (rm.2, none)
  | some msg => .ok (rm.2, P.prepNext inputLen st msg)

/-- The loop over all reports of `plain_metrics_result` (`src/bin/server.rs:289-313`). -/
def pmResultLoop (serverId : Int) (inputLen : Nat) :
    List (Nat × List Byte) → List (Nat × (P.PrepState × P.PrepShare)) →
    Exec (List (Nat × (P.PrepState × P.PrepShare)) × List (List Field128))
  | [], m => .ok (m, [])
  | ip :: ips, m => do
    let (m1, o) ← pmResultClient serverId inputLen m ip
    let (m2, os) ← pmResultLoop serverId inputLen ips m1
    .ok (m2, o.toList ++ os)

/-- libprio `Aggregator::aggregate` (external; `src/bin/server.rs:316`): sum of the output shares starting from
zeros, `Err` if a length differs. -/
def prio3Aggregate (inputLen : Nat) (outShares : List (List Field128)) : Exec (List Field128) :=
  foldE (fun agg o => if o.length = agg.length then .ok (vecAdd agg o) else .error .unwrap)
    (List.replicate inputLen 0) outShares

/-- `req.end - req.start - out_shares.len()` (`src/bin/server.rs:315`): `usize`, wrapping in release builds, a panic on
overflow in debug builds. -/
def rejectedCount (bld : Build) (start end_ out : Nat) : Exec Nat :=
  if start + out ≤ end_ then .ok (end_ - start - out)
  else match bld with
    | .debug => .error .overflow
    | .release => .ok ((2 ^ 64 + end_ - (start + out)) % 2 ^ 64)

/-- `plain_metrics_result` (`src/bin/server.rs:285-319`), lock held. -/
def srvPmResult (cfg : ServerCfg) (kc : KeyCollection P) (peers : List (List Byte))
    (start end_ : Nat) : Exec (KeyCollection P × List Field128 × Nat) := do
  if !P.prio3Ok kc.inputLen then .error .unwrap
  else do
    let (m, outs) ← pmResultLoop cfg.serverId kc.inputLen ((rangeFrom start end_).zip peers)
      kc.pmState
    let rejected ← rejectedCount cfg.build start end_ outs.length
    let agg ← prio3Aggregate kc.inputLen outs
    .ok ({ kc with pmState := m }, agg, rejected)

/-- The RPC requests (`src/rpc.rs:9-84`). -/
inductive Req where
  | reset (verifyKey : Block) (histBuckets : Nat)
  | addReportShares (rs : List ReportShare)
  | treeInit
  | treeCrawl (splitBy : Nat) (malicious : List Nat) (isLast : Bool)
  | runFlpQueries (start end_ : Nat)
  | applyFlpResults (keep : List Bool)
  | treeCrawlLast
  | getProofs (start end_ : Nat)
  | treePrune (keep : List Bool)
  | finalShares
  | abmValidate (attributes : List (List Bool)) (start end_ : Nat)
  | abmResult (rejected : List Nat) (numAttributes start end_ : Nat)
  | pmValidate (start end_ : Nat)
  | pmResult (peers : List (List Byte)) (start end_ : Nat)

/-- The RPC responses (`src/rpc.rs:86-143`). -/
inductive Resp where
  | done
  | crawl (r : CrawlResp)
  | fieldVecs (v : List (List Field128))
  | proofs (v : List Block)
  | shares (v : List HHResult)
  | validated (v : List (List Field128 × Vector Byte 32))
  | bytes (v : List (List Byte))
  | aggregate (v : List Field128) (rejected : Nat)

/-- Assertions evaluated before the lock is taken (`src/bin/server.rs:155`, 206, 232, 284). -/
def preLock (cfg : ServerCfg) : Req → Exec Unit
  | .abmValidate _ s e => debugAssert cfg.build (decide (s < e))
  | .abmResult _ _ s e => debugAssert cfg.build (decide (s < e))
  | .pmValidate s e => debugAssert cfg.build (decide (s < e))
  | .pmResult _ s e => debugAssert cfg.build (decide (s < e))
  | _ => .ok ()

/-- The part of each handler that runs with the lock held (`src/bin/server.rs:49-319`). -/
def locked (cfg : ServerCfg) (kc : KeyCollection P) : Req → Exec (KeyCollection P × Resp)
  | .reset vk b => do
    let kc ← srvReset cfg kc vk b
    .ok (kc, .done)
  | .addReportShares rs => .ok (srvAddReportShares kc rs, .done)
  | .treeInit => do
    let kc ← kc.treeInit
    .ok (kc, .done)
  | .treeCrawl s m l => do
    let (kc, r) ← kc.treeCrawl cfg.build s m l
    .ok (kc, .crawl r)
  | .runFlpQueries s e => do
    debugAssert cfg.build (decide (s < e))
    let r ← kc.runFlpQueries cfg.build s e
    .ok (kc, .fieldVecs r)
  | .applyFlpResults keep => do
    let kc ← kc.applyFlpResults keep
    .ok (kc, .done)
  | .treeCrawlLast => do
    let (kc, r) ← kc.treeCrawlLast
    .ok (kc, .fieldVecs r)
  | .getProofs s e => do
    debugAssert cfg.build (decide (s < e))
    .ok (kc, .proofs (kc.getProofs s e))
  | .treePrune keep => do
    let kc ← kc.treePrune keep
    .ok (kc, .done)
  | .finalShares => .ok (kc, .shares kc.finalShares)
  | .abmValidate a s e => do
    let (kc, r) ← srvAbmValidate kc a s e
    .ok (kc, .validated r)
  | .abmResult rej n _ _ => do
    let (kc, r) ← srvAbmResult cfg kc rej n
    .ok (kc, .fieldVecs r)
  | .pmValidate s e => do
    let (kc, r) ← srvPmValidate cfg kc s e
    .ok (kc, .bytes r)
  | .pmResult peers s e => do
    let (kc, a, n) ← srvPmResult cfg kc peers s e
    .ok (kc, .aggregate a n)

/-- State of the server process: the mutex is usable or poisoned. (`src/bin/server.rs:39-45`) -/
inductive Server (P : Prims) where
  | running (kc : KeyCollection P)
  | poisoned

/-- Handling one request: new server state, and the response if the handler did not panic.
(`src/bin/server.rs:47-320`) -/
def Server.handle (cfg : ServerCfg) (s : Server P) (req : Req) : Server P × Exec Resp :=
  match preLock cfg req with
  | .error p => (s, .error p)
  | .ok () =>
    match s with
    | .poisoned => (.poisoned, .error .poisoned)
    | .running kc =>
      match locked cfg kc req with
      | .error p => (.poisoned, .error p)
      | .ok (kc', r) => (.running kc', .ok r)

/-- A sequence of requests: final state and all responses.  The lock serialises handlers, so any
concurrent execution is such a sequence. (`src/bin/server.rs:339-360`) -/
def Server.run (cfg : ServerCfg) : Server P → List Req → Server P × List (Exec Resp)
  | s, [] => (s, [])
  | s, r :: rs =>
    let h := s.handle cfg r
    let t := Server.run cfg h.1 rs
    (t.1, h.2 :: t.2)

/-- The server state `main` starts with (`src/bin/server.rs:331-336`). -/
def Server.start (P : Prims) (cfg : ServerCfg) (histBuckets : Nat) : Server P :=
  .running (KeyCollection.new P histBuckets cfg.serverId cfg.dataBits Block.zero)

end Mastic
