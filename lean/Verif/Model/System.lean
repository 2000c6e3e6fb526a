import Verif.Model.Main

/-!
# The driver as a process, and the whole system of two servers and any number of drivers

`Model/Driver` computes a run of the driver as a function of the two server states.  Here the driver is a process
that only sends requests and receives answers, and servers and drivers take steps in any order.  Line numbers refer
to `src/bin/driver.rs` unless another file is named.
-/

namespace Mastic

/-- A driver process: it has a result, has panicked, or sends a request to each server and continues with the two
answers.  All requests of the driver have the form `try_join!(resp_0, resp_1).unwrap()` (e.g. `src/bin/driver.rs:256-258`): the
two calls are in flight at the same time and the driver goes on when it has both answers. -/
inductive Prog (α : Type) where
  | ret (a : α)
  | panic (p : Panic)
  | ask (r0 r1 : Req) (k : Resp → Resp → Prog α)

/-- Sequential composition. No counterpart in the repository. -/
def Prog.bind {α β : Type} : Prog α → (α → Prog β) → Prog β
  | .ret a, f => f a
  | .panic p, _ => .panic p
  | .ask r0 r1 k, f => .ask r0 r1 fun a b => (k a b).bind f

instance : Monad Prog where
  pure := .ret
  bind := Prog.bind

/-- Local computation of the driver. No counterpart in the repository. -/
def Prog.lift {α : Type} : Exec α → Prog α
  | .ok a => .ret a
  | .error p => .panic p

instance : MonadLift Exec Prog where
  monadLift := Prog.lift

/-- The typed calls of `CollectorClient` (`src/rpc.rs:86-143`), to both servers.  The RPC layer fixes the type of an
answer by the type of the request; an answer of another kind would not be decoded. -/
def callDone (r0 r1 : Req) : Prog Unit :=
  .ask r0 r1 fun
    | .done, .done => .ret ()
    | _, _ => .panic .unwrap

/-- A call answered by `(Vec<Vec<Field128>>, Vec<Vec<u8>>, Vec<usize>)`. (`src/rpc.rs:106`) -/
def callCrawl (r0 r1 : Req) : Prog (CrawlResp × CrawlResp) :=
  .ask r0 r1 fun
    | .crawl a, .crawl b => .ret (a, b)
    | _, _ => .panic .unwrap

/-- A call answered by `Vec<Vec<Field128>>`. (`src/rpc.rs:98-109`) -/
def callVecs (r0 r1 : Req) : Prog (List (List Field128) × List (List Field128)) :=
  .ask r0 r1 fun
    | .fieldVecs a, .fieldVecs b => .ret (a, b)
    | _, _ => .panic .unwrap

/-- A call answered by `Vec<[u8; HASH_SIZE]>`. (`src/rpc.rs:112`) -/
def callProofs (r0 r1 : Req) : Prog (List Block × List Block) :=
  .ask r0 r1 fun
    | .proofs a, .proofs b => .ret (a, b)
    | _, _ => .panic .unwrap

/-- A call answered by `Vec<collect::Result>`. (`src/rpc.rs:118`) -/
def callShares (r0 r1 : Req) : Prog (List HHResult × List HHResult) :=
  .ask r0 r1 fun
    | .shares a, .shares b => .ret (a, b)
    | _, _ => .panic .unwrap

/-- A call answered by `Vec<(Vec<Field128>, [u8; 32])>`. (`src/rpc.rs:122-124`) -/
def callValidated (r0 r1 : Req) :
    Prog (List (List Field128 × Vector Byte 32) × List (List Field128 × Vector Byte 32)) :=
  .ask r0 r1 fun
    | .validated a, .validated b => .ret (a, b)
    | _, _ => .panic .unwrap

/-- A call answered by `Vec<Vec<u8>>`. (`src/rpc.rs:134`) -/
def callBytes (r0 r1 : Req) : Prog (List (List Byte) × List (List Byte)) :=
  .ask r0 r1 fun
    | .bytes a, .bytes b => .ret (a, b)
    | _, _ => .panic .unwrap

/-- A call answered by `(AggregateShare<Field128>, usize)`. (`src/rpc.rs:140-142`) -/
def callAggregate (r0 r1 : Req) : Prog ((List Field128 × Nat) × (List Field128 × Nat)) :=
  .ask r0 r1 fun
    | .aggregate a m, .aggregate b n => .ret ((a, m), (b, n))
    | _, _ => .panic .unwrap

/-- `reset_servers` (`src/bin/driver.rs:246-261`). -/
def resetP (cfg : Config) (verifyKey : Block) : Prog Unit :=
  callDone (.reset verifyKey cfg.histBuckets) (.reset verifyKey cfg.histBuckets)

/-- `add_reports` (`src/bin/driver.rs:272-338`) for one batch. -/
def addReportsP (reports : List PlaintextReport) (picks : List (Nat × Option Tamper)) : Prog Unit := do
  let sh ← mapE (pickShares reports) picks
  callDone (.addReportShares (sh.map Prod.fst)) (.addReportShares (sh.map Prod.snd))

/-- The futures of the upload, awaited one after the other (`src/bin/driver.rs:745-747`). -/
def awaitAllP (reports : List PlaintextReport) : List (List (Nat × Option Tamper)) → Prog Unit
  | [] => .ret ()
  | b :: bs => do
    addReportsP reports b
    awaitAllP reports bs

/-- The upload phase of `main` (`src/bin/driver.rs:725-748`). -/
def uploadP (cfg : Config) (reports : List PlaintextReport) (picks : List (Nat × Option Tamper)) : Prog Unit := do
  let sizes ← uploadBatches cfg.addBatch picks.length picks.length
  awaitAllP reports (splitBatches sizes picks)

/-- The loop of `run_flp_queries` (`src/bin/driver.rs:349-376`). -/
def flpLoopP (P : Prims) (bld : Build) (cfg : Config) (n : Nat) : Nat → Nat → List Bool → Prog (List Bool)
  | 0, start, keep => if start < n then .panic .outOfFuel else .ret keep
  | fuel + 1, start, keep =>
    if start < n then do
      let v ← callVecs (.runFlpQueries start (min n (start + cfg.queryBatch)))
        (.runFlpQueries start (min n (start + cfg.queryBatch)))
      debugAssert bld (v.1.length == v.2.length)
      let ks ← mapE (decideShares P cfg.histBuckets) (v.1.zip v.2)
      flpLoopP P bld cfg n fuel (start + cfg.queryBatch) (keep ++ ks)
    else .ret keep

/-- `run_flp_queries` (`src/bin/driver.rs:340-385`). -/
def flpP (P : Prims) (bld : Build) (cfg : Config) (n : Nat) : Prog Unit := do
  let keep ← flpLoopP P bld cfg n n 0 []
  callDone (.applyFlpResults keep) (.applyFlpResults keep)

/-- The `loop` of `run_level` (`src/bin/driver.rs:401-454`). -/
def levelLoopP (cfg : Config) (n : Nat) : Nat → CrawlReq → Prog (List Bool)
  | 0, _ => .panic .outOfFuel
  | fuel + 1, req => do
    let r ← callCrawl (.treeCrawl req.splitBy req.malicious req.isLast)
      (.treeCrawl req.splitBy req.malicious req.isLast)
    assertE (r.1.cntValues.length == r.2.cntValues.length)
    let keep ← keepValues cfg.histBuckets (max 1 cfg.threshold) r.1.cntValues r.2.cntValues
    if r.1.roots.isEmpty then .ret keep
    else do
      let malicious ← diffIndices r.1 r.2
      if malicious.isEmpty then .ret keep
      else if n ≤ req.splitBy then
        if req.isLast then .ret keep
        else levelLoopP cfg n fuel { splitBy := req.splitBy, malicious, isLast := true }
      else levelLoopP cfg n fuel { splitBy := req.splitBy * 2, malicious, isLast := req.isLast }

/-- `run_level` (`src/bin/driver.rs:387-463`). -/
def levelP (cfg : Config) (n : Nat) : Prog Unit := do
  let keep ← levelLoopP cfg n (n + 3) { splitBy := 1, malicious := [], isLast := false }
  callDone (.treePrune keep) (.treePrune keep)

/-- The comparison of the proofs in `run_level_last` (`src/bin/driver.rs:493-512`). -/
def proofLoopP (cfg : Config) (n : Nat) : Nat → Nat → Prog Unit
  | 0, start => if start < n then .panic .outOfFuel else .ret ()
  | fuel + 1, start =>
    if start < n then do
      let h ← callProofs (.getProofs start (min n (start + cfg.queryBatch)))
        (.getProofs start (min n (start + cfg.queryBatch)))
      assertE (h.1.length == h.2.length)
      assertE ((h.1.zip h.2).all fun hh => hh.1 == hh.2)
      proofLoopP cfg n fuel (start + cfg.queryBatch)
    else .ret ()

/-- What a run of the driver shows. (`src/bin/driver.rs:750-798`) -/
inductive Shown where
  | whh (results printed : List HHResult)
  | abm (attributes : List (List Bool)) (out : List AbmOut)
  | pm (out : List PmOut)

/-- What a run of `driverMain` shows: its output without the server states.
(`src/bin/driver.rs:750-798`) -/
def MainOut.shown {P : Prims} : MainOut P → Shown
  | .whh out => .whh out.results out.printed
  | .abm attributes out => .abm attributes out
  | .pm out => .pm out

/-- `run_level_last` (`src/bin/driver.rs:465-537`). -/
def levelLastP (cfg : Config) (n : Nat) : Prog Shown := do
  let v ← callVecs .treeCrawlLast .treeCrawlLast
  assertE (v.1.length == v.2.length)
  let keep ← keepValues cfg.histBuckets (max 1 cfg.threshold) v.1 v.2
  proofLoopP cfg n n 0
  callDone (.treePrune keep) (.treePrune keep)
  let sh ← callShares .finalShares .finalShares
  let _ ← unwrapO cfg.dataBits
  let results ← finalValues cfg.histBuckets sh.1 sh.2
  let pr ← printed cfg.histBuckets results
  .ret (.whh results pr)

/-- The levels before the last one (`src/bin/driver.rs:755-766`). -/
def levelsP (P : Prims) (bld : Build) (cfg : Config) (n : Nat) : List Nat → Prog Unit
  | [] => .ret ()
  | level :: ls => do
    if level = 0 then flpP P bld cfg n else .ret ()
    levelP cfg n
    levelsP P bld cfg n ls

/-- The weighted-heavy-hitters branch of `main` (`src/bin/driver.rs:752-768`). -/
def whhP (P : Prims) (bld : Build) (cfg : Config) (n : Nat) : Prog Shown := do
  callDone .treeInit .treeInit
  let levels ← levelCount bld cfg.dataBits
  levelsP P bld cfg n (List.range levels)
  levelLastP cfg n

/-- One batch of `run_attribute_based_metrics` (`src/bin/driver.rs:547-609`). -/
def abmBatchP (P : Prims) (cfg : Config) (attributes : List (List Bool)) (range : Nat × Nat) : Prog AbmOut := do
  let v ← callValidated (.abmValidate attributes range.1 range.2) (.abmValidate attributes range.1 range.2)
  assertE (v.1.length == range.2 - range.1)
  assertE (v.2.length == range.2 - range.1)
  let rej ← mapE (rejectEntries P cfg.histBuckets) ((rangeFrom range.1 range.2).zip (v.1.zip v.2))
  let rejected := rej.flatten
  let a ← callVecs (.abmResult rejected attributes.length range.1 range.2)
    (.abmResult rejected attributes.length range.1 range.2)
  .ret { rejected, results := addRows a.1 a.2 }

/-- The batches one after the other. (`src/bin/driver.rs:547-609`) -/
def abmLoopP (P : Prims) (cfg : Config) (attributes : List (List Bool)) : List (Nat × Nat) → Prog (List AbmOut)
  | [] => .ret []
  | r :: rs => do
    let o ← abmBatchP P cfg attributes r
    let os ← abmLoopP P cfg attributes rs
    .ret (o :: os)

/-- One batch of `run_plain_metrics` (`src/bin/driver.rs:624-683`). -/
def pmBatchP (P : Prims) (cfg : Config) (range : Nat × Nat) : Prog PmOut := do
  let v ← callBytes (.pmValidate range.1 range.2) (.pmValidate range.1 range.2)
  assertE (v.1.length == range.2 - range.1)
  assertE (v.2.length == range.2 - range.1)
  let a ← callAggregate (.pmResult v.2 range.1 range.2) (.pmResult v.1 range.1 range.2)
  assertE (a.1.2 == a.2.2)
  let result ← unwrapO (P.prio3Unshard cfg.histBuckets a.1.1 a.2.1 (range.2 - range.1 - a.1.2))
  .ret { rejected := a.1.2, result }

/-- The batches one after the other. (`src/bin/driver.rs:624-683`) -/
def pmLoopP (P : Prims) (cfg : Config) : List (Nat × Nat) → Prog (List PmOut)
  | [] => .ret []
  | r :: rs => do
    let o ← pmBatchP P cfg r
    let os ← pmLoopP P cfg rs
    .ret (o :: os)

/-- The part of `main` after the upload (`src/bin/driver.rs:750-798`). -/
def collectP (P : Prims) (bld : Build) (cfg : Config) (mode : DriverMode) (draw : MainDraw) (n : Nat)
    (reports : List PlaintextReport) : Prog Shown :=
  match mode with
  | .weightedHeavyHitters => whhP P bld cfg n
  | .attributeBasedMetrics num => do
    let attributes ← mainAttributes reports draw num
    let ranges ← stepByRanges n cfg.queryBatch
    let out ← abmLoopP P cfg attributes ranges
    .ret (.abm attributes out)
  | .plainMetrics => do
    if !P.prio3Ok cfg.histBuckets then .panic .unwrap
    else do
      let ranges ← stepByRanges n cfg.queryBatch
      let out ← pmLoopP P cfg ranges
      .ret (.pm out)

/-- The upload in `main`, with the construction of the Zipf distribution (`src/bin/driver.rs:280`). -/
def mainUploadP (cfg : Config) (draw : MainDraw) (reports : List PlaintextReport) (n : Nat) : Prog Unit :=
  if !draw.zipfOk ∧ 0 < n ∧ 0 < cfg.addBatch then .panic .unwrap
  else uploadP cfg reports ((List.range n).map draw.picks)

/-- `main` (`src/bin/driver.rs:689-802`) with `n` clients, as a process. -/
def mainP (P : Prims) (bld : Build) (cfg : Config) (mode : DriverMode) (draw : MainDraw) (n : Nat) : Prog Shown := do
  assertE draw.maliciousOk
  if !P.histOk cfg.histBuckets then .panic .unwrap
  else do
    let reports ← generateReports P cfg mode draw.reports
    resetP cfg draw.verifyKey
    mainUploadP cfg draw reports n
    collectP P bld cfg mode draw n reports

/-- One of the two calls of a `try_join!`. (`src/bin/driver.rs:256-258`) -/
inductive Call where
  /-- on its way to the server, or waiting for the lock there -/
  | sent (r : Req)
  | answered (a : Resp)
  /-- the handler panicked: the call ends with an error (at the latest at its deadline) -/
  | failed

/-- The state of a driver process.  A driver that has panicked may leave behind one call which the other server has
not handled yet; that server may still handle it later, or never see it.
(`src/bin/driver.rs:689-802`) -/
inductive Drv (α : Type) where
  | ready (p : Prog α)
  | waiting (calls : Bool → Call) (k : Resp → Resp → Prog α)
  | crashed (stray : Option (Bool × Req))

/-- Two server processes (`false` is server 0) and any number of drivers connected to them.
(`src/bin/server.rs:322-360`) -/
structure Sys (P : Prims) (ι α : Type) where
  srv : Bool → Server P
  drv : ι → Drv α

/-- What becomes of a call when its handler is done. No counterpart in the repository. -/
def Call.of : Exec Resp → Call
  | .ok a => .answered a
  | .error _ => .failed

/-- The call a crashing driver leaves behind at server `b`. No counterpart in the repository. -/
def strayOf (calls : Bool → Call) (b : Bool) : Option (Bool × Req) :=
  match calls b with
  | .sent r => some (b, r)
  | _ => none

variable {P : Prims} {ι α : Type} [DecidableEq ι]

/-- Driver `i` moves to the state `d`. No counterpart in the repository. -/
def Sys.drive (s : Sys P ι α) (i : ι) (d : Drv α) : Sys P ι α := { s with drv := Function.update s.drv i d }

/-- Server `b` handles the request `r`. (`src/bin/server.rs:339-360`) -/
def Sys.handle (c : Bool → ServerCfg) (s : Sys P ι α) (b : Bool) (r : Req) : Sys P ι α :=
  { s with srv := Function.update s.srv b ((s.srv b).handle (c b) r).1 }

/-- One step of the system taken on behalf of driver `i`.  Handlers run with the lock held (`src/bin/server.rs`), so
a handler is one step; everything else can happen in between, in any order. -/
inductive StepBy (c : Bool → ServerCfg) (i : ι) : Sys P ι α → Sys P ι α → Prop
  /-- the driver starts both calls -/
  | send (s : Sys P ι α) (r0 r1 : Req) (k : Resp → Resp → Prog α) (h : s.drv i = .ready (.ask r0 r1 k)) :
      StepBy c i s (s.drive i (.waiting (fun b => .sent (if b then r1 else r0)) k))
  /-- server `b` handles the call -/
  | serve (s : Sys P ι α) (b : Bool) (calls : Bool → Call) (k : Resp → Resp → Prog α) (r : Req)
      (h : s.drv i = .waiting calls k) (hc : calls b = .sent r) :
      StepBy c i s ((s.handle c b r).drive i
        (.waiting (Function.update calls b (Call.of ((s.srv b).handle (c b) r).2)) k))
  /-- both answers have arrived -/
  | receive (s : Sys P ι α) (calls : Bool → Call) (k : Resp → Resp → Prog α) (a0 a1 : Resp)
      (h : s.drv i = .waiting calls k) (h0 : calls false = .answered a0) (h1 : calls true = .answered a1) :
      StepBy c i s (s.drive i (.ready (k a0 a1)))
  /-- one call has failed: `try_join!` returns the error and `unwrap` panics, whatever the other call does -/
  | fail (s : Sys P ι α) (b : Bool) (calls : Bool → Call) (k : Resp → Resp → Prog α)
      (h : s.drv i = .waiting calls k) (hc : calls b = .failed) :
      StepBy c i s (s.drive i (.crashed (strayOf calls (!b))))
  /-- the call a crashed driver left behind is handled -/
  | stray (s : Sys P ι α) (b : Bool) (r : Req) (h : s.drv i = .crashed (some (b, r))) :
      StepBy c i s ((s.handle c b r).drive i (.crashed none))
  /-- or it is lost with the connection -/
  | lost (s : Sys P ι α) (b : Bool) (r : Req) (h : s.drv i = .crashed (some (b, r))) :
      StepBy c i s (s.drive i (.crashed none))

/-- One step of the system. (`src/bin/server.rs:339-360`, `src/bin/driver.rs:689-802`) -/
def Step (c : Bool → ServerCfg) (s s' : Sys P ι α) : Prop := ∃ i, StepBy c i s s'

end Mastic
