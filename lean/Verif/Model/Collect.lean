import Verif.Model.Vidpf
import Verif.Model.Merkle

/-!
# Model of `src/collect.rs`

Line numbers refer to `src/collect.rs`.
-/

namespace Mastic

/-- `ReportShare` (`src/collect.rs:52-65`). -/
inductive ReportShare where
  | mastic (nonce : Block) (vidpfKey : VidpfKey) (flpProofShare : List Field128)
      (flpJointRandParts : Block × Block)
  | prio3 (nonce : Block) (publicShareBytes inputShareBytes : List Byte)

/-- `unwrap_vidpf_key` (`src/collect.rs:69-79`). -/
def ReportShare.unwrapVidpfKey : ReportShare → Exec VidpfKey
  | .mastic _ k _ _ => .ok k
  | .prio3 .. => .error .explicit

/-- `unwrap_flp_joint_rand_parts` (`src/collect.rs:82-94`). -/
def ReportShare.unwrapFlpJointRandParts : ReportShare → Exec (Block × Block)
  | .mastic _ _ _ j => .ok j
  | .prio3 .. => .error .explicit

/-- `unwrap_flp_proof_share` (`src/collect.rs:97-107`). -/
def ReportShare.unwrapFlpProofShare : ReportShare → Exec (List Field128)
  | .mastic _ _ p _ => .ok p
  | .prio3 .. => .error .explicit

/-- `nonce` (`src/collect.rs:109-114`). -/
def ReportShare.nonce : ReportShare → Block
  | .mastic n _ _ _ => n
  | .prio3 n _ _ => n

/-- `TreeNode` (`src/collect.rs:34-47`). -/
structure TreeNode where
  path : List Bool
  value : List Field128
  keyStates : List EvalState
  keyValues : List (List Field128)

/-- `KeyCollection` (`src/collect.rs:117-152`).  `mastic: MasticHistogram` is represented by its number of
buckets `inputLen` (libprio: `input_len() = length`); the FLP functions are in `Prims`.  The two hash
maps are association lists. -/
structure KeyCollection (P : Prims) where
  inputLen : Nat
  /-- `i8` -/
  serverId : Int
  verifyKey : Block
  depth : Option Nat
  reportShares : List (Bool × ReportShare)
  frontier : List TreeNode
  prevFrontier : List TreeNode
  finalProofs : List Block
  abmState : List (Nat × List (List Field128))
  pmState : List (Nat × (P.PrepState × P.PrepShare))

/-- `collect::Result` (`src/collect.rs:154-161`). -/
structure HHResult where
  path : List Bool
  value : List Field128
  deriving DecidableEq

variable {P : Prims}

/-- `KeyCollection::new` (`src/collect.rs:164-183`). -/
def KeyCollection.new (P : Prims) (inputLen : Nat) (serverId : Int) (depth : Option Nat)
    (verifyKey : Block) : KeyCollection P :=
  { inputLen, serverId, verifyKey, depth, reportShares := [], frontier := [], prevFrontier := [],
    finalProofs := [], abmState := [], pmState := [] }

/-- `add_report_share` (`src/collect.rs:185-187`). -/
def KeyCollection.addReportShare (kc : KeyCollection P) (r : ReportShare) : KeyCollection P :=
  { kc with reportShares := kc.reportShares ++ [(true, r)] }

/-- `tree_init` (`src/collect.rs:189-205`). -/
def KeyCollection.treeInit (kc : KeyCollection P) : Exec (KeyCollection P) := do
  let keys ← mapE (fun r => r.2.unwrapVidpfKey) kc.reportShares
  let root : TreeNode :=
    { path := [], value := [0], keyStates := keys.map VidpfKey.evalInit,
      keyValues := keys.map fun _ => [0] }
  .ok { kc with frontier := [root] }

/-- The per-client closure of `make_tree_node` (`src/collect.rs:215-222`). -/
def KeyCollection.evalClient (kc : KeyCollection P) (parent : TreeNode) (dir : Bool)
    (bitStr : List Byte) (ri : (Bool × ReportShare) × Nat) : Exec (EvalState × List Field128) := do
  let key ← ri.1.2.unwrapVidpfKey
  let st ← idx parent.keyStates ri.2
  key.evalBit P st dir bitStr kc.inputLen

/-- `src/collect.rs:225-230`: sum of the value shares of the included clients. -/
def sumIncluded (inputLen : Nat) (keyValues : List (List Field128))
    (reports : List (Bool × ReportShare)) : List Field128 :=
  ((keyValues.zip reports).filter fun vr => vr.2.1).foldl (fun acc vr => vecAdd acc vr.1)
    (List.replicate (inputLen + 1) 0)

/-- `make_tree_node` (`src/collect.rs:207-242`). -/
def KeyCollection.makeTreeNode (kc : KeyCollection P) (parent : TreeNode) (dir : Bool) :
    Exec TreeNode := do
  let bitStr := bitsToBitstring parent.path ++ [bitByte dir]
  let evs ← mapE (kc.evalClient parent dir bitStr) kc.reportShares.zipIdx
  let keyStates := evs.map Prod.fst
  let keyValues := evs.map Prod.snd
  .ok { path := parent.path ++ [dir]
        value := sumIncluded kc.inputLen keyValues kc.reportShares
        keyStates := keyStates
        keyValues := keyValues }

/-- `flp_joint_rand` (`src/collect.rs:291-326`).  `fill_bytes` overwrites the server's own part. -/
def KeyCollection.flpJointRand (kc : KeyCollection P) (clientIndex : Nat) :
    Exec (List Field128) := do
  let r ← idx kc.reportShares clientIndex
  let parts ← r.2.unwrapFlpJointRandParts
  let key ← r.2.unwrapVidpfKey
  let parts := if kc.serverId = 0 then
      (P.xofBlock key.getRootSeed Block.zero.toList (0#8 :: r.2.nonce.toList), parts.2)
    else
      (parts.1, P.xofBlock key.getRootSeed Block.zero.toList (1#8 :: r.2.nonce.toList))
  .ok (P.xofField parts.1 parts.2.toList (P.jointRandLen kc.inputLen))

/-- `flp_query_rand` (`src/collect.rs:329-337`). -/
def KeyCollection.flpQueryRand (kc : KeyCollection P) (clientIndex : Nat) :
    Exec (List Field128) := do
  let r ← idx kc.reportShares clientIndex
  .ok (P.xofField kc.verifyKey r.2.nonce.toList (P.queryRandLen kc.inputLen))

/-- The per-client closure of `run_flp_queries` (`src/collect.rs:264-280`). -/
def KeyCollection.flpQueryClient (kc : KeyCollection P) (nodeLeft nodeRight : TreeNode)
    (clientIndex : Nat) : Exec (List Field128) := do
  let y0 ← idx nodeLeft.keyValues clientIndex
  let y1 ← idx nodeRight.keyValues clientIndex
  let betaShare := vecAdd (vecAdd (List.replicate kc.inputLen 0) y0) y1
  let r ← idx kc.reportShares clientIndex
  let proofShare ← r.2.unwrapFlpProofShare
  let queryRand ← kc.flpQueryRand clientIndex
  let jointRand ← kc.flpJointRand clientIndex
  unwrapO (P.flpQuery kc.inputLen betaShare proofShare queryRand jointRand)

/-- `run_flp_queries` (`src/collect.rs:244-282`). -/
def KeyCollection.runFlpQueries (bld : Build) (kc : KeyCollection P) (start end_ : Nat) :
    Exec (List (List Field128)) := do
  let root ← idx kc.frontier 0
  assertE (root.path.length == 0)
  debugAssert bld (kc.frontier.length == 1)
  let nodeLeft ← kc.makeTreeNode root false
  let nodeRight ← kc.makeTreeNode root true
  debugAssert bld (root.keyValues.length == nodeLeft.keyValues.length)
  mapE (kc.flpQueryClient nodeLeft nodeRight)
    ((List.range root.keyValues.length).filter fun i => decide (start ≤ i) && decide (i < end_))

/-- Both children of a frontier node (`src/collect.rs:363-369`, 523-529).  `checkDepth` is the `assert!` on line
364, which is commented out on `src/collect.rs:524`. -/
def KeyCollection.children (kc : KeyCollection P) (checkDepth : Bool) (node : TreeNode) :
    Exec (List TreeNode) := do
  if checkDepth then do
    let d ← unwrapO kc.depth
    assertE (decide (node.path.length ≤ d))
  let c0 ← kc.makeTreeNode node false
  let c1 ← kc.makeTreeNode node true
  .ok [c0, c1]

/-- `flat_map` over the frontier (`src/collect.rs:360-370`, 520-530). -/
def KeyCollection.nextFrontier (kc : KeyCollection P) (checkDepth : Bool) :
    Exec (List TreeNode) := do
  let cs ← mapE (kc.children checkDepth) kc.frontier
  .ok cs.flatten

/-- The value check of one client for one prefix (`src/collect.rs:395-425`). -/
def valueCheck (inputLen : Nat) (serverId : Int) (level : Nat) (yp y0 y1 : List Field128) :
    List Field128 :=
  let z := List.replicate (inputLen + 1) (0 : Field128)
  if level = 0 then
    if serverId = 0 then
      vecSub (vecSub (vecAdd z (List.replicate (inputLen + 1) 1)) y0) y1
    else vecAdd (vecAdd z y0) y1
  else
    if serverId = 0 then vecSub (vecSub (vecAdd z yp) y0) y1
    else vecSub (vecAdd (vecAdd z y0) y1) yp

/-- Value checks of all clients for prefix number `prefixIndex` (`src/collect.rs:383-428`). -/
def KeyCollection.checksForPrefix (kc : KeyCollection P) (bld : Build) (level : Nat)
    (next : List TreeNode) (ni : TreeNode × Nat) : Exec (List (List Field128)) := do
  let left ← idx next (2 * ni.2)
  let right ← idx next (2 * ni.2 + 1)
  debugAssert bld (ni.1.keyValues.length == left.keyValues.length)
  debugAssert bld (ni.1.keyValues.length == right.keyValues.length)
  mapE (fun (yi : List Field128 × Nat) => do
    let y0 ← idx left.keyValues yi.2
    let y1 ← idx right.keyValues yi.2
    .ok (valueCheck kc.inputLen kc.serverId level yi.1 y0 y1)) ni.1.keyValues.zipIdx

/-- XOR of a client's VIDPF proofs over all nodes (`src/collect.rs:439-442`, 538-541). -/
def combineProofs (next : List TreeNode) (clientIndex : Nat) : Exec Block :=
  foldE (fun acc node => do
    let st ← idx node.keyStates clientIndex
    .ok (vxor acc st.proof)) Block.zero next

/-- The contribution of one prefix to the 8-byte `check` of a client (`src/collect.rs:447-461`). -/
def checkStep (inputLen level clientIndex : Nat) (check : List Byte)
    (checksForPrefix : List (List Field128)) : Exec (List Byte) := do
  let c ← idx checksForPrefix clientIndex
  if level = 0 then do
    let x ← idx c inputLen
    .ok (xorInPlace check (encodeField x))
  else
    foldE (fun chk i => do
      let x ← idx c i
      .ok (xorInPlace chk (encodeField x))) check (List.range inputLen)

/-- The per-client closure computing the combined hash (`src/collect.rs:436-469`).  `check` is `[0u8; 8]`, so
`xor_in_place` only sees the low eight bytes of each encoding. -/
def combinedHash (P : Prims) (inputLen level : Nat) (next : List TreeNode)
    (allChecks : List (List (List Field128))) (clientIndex : Nat) : Exec Block := do
  let proof ← combineProofs next clientIndex
  let check ← foldE (checkStep inputLen level clientIndex) (List.replicate 8 0) allChecks
  .ok (vxor proof (first16 (P.blake3 check)))

/-- Indices of the clients currently marked included (`src/collect.rs:433-435`). -/
def includedIndices (reports : List (Bool × ReportShare)) : List Nat :=
  (reports.zipIdx.filter fun ri => ri.1.1).map fun ri => ri.2

/-- The chunks of `slice::chunks(sz)` (external) for `sz > 0`; `fuel` the length of the list. -/
def chunksAux {α : Type} (sz : Nat) : Nat → List α → List (List α)
  | 0, _ => []
  | _ + 1, [] => []
  | fuel + 1, a :: l => (a :: l).take sz :: chunksAux sz fuel ((a :: l).drop sz)

/-- `slice::chunks(sz)` (external): panics for `sz = 0`. -/
def chunks {α : Type} (sz : Nat) (l : List α) : Exec (List (List α)) :=
  if sz = 0 then .error .zeroChunk else .ok (chunksAux sz l.length l)

/-- One suspect of the Merkle loop (`src/collect.rs:497-510`): root(s) and index/indices pushed for `i`. -/
def merkleForSuspect (P : Prims) (chunksList : List (List Block)) (i : Nat) :
    Exec (List (Block × Nat)) := do
  let cl ← idx chunksList (i * 2)
  let rl ← unwrapO (merkleRoot P cl)
  if chunksList.length ≤ i * 2 + 1 then .ok [(rl, i * 2)]
  else do
    let cr ← idx chunksList (i * 2 + 1)
    let rr ← unwrapO (merkleRoot P cr)
    .ok [(rl, i * 2), (rr, i * 2 + 1)]

/-- `src/collect.rs:482-511`: the Merkle roots and their indices, from the included clients' combined hashes. -/
def merkleRoots (P : Prims) (combined : List Block) (splitBy : Nat) (malicious : List Nat)
    (isLast : Bool) : Exec (List (Block × Nat)) := do
  let splitBy := if isLast then 1 else splitBy
  let numLeaves := 2 ^ P.ceilLog2 combined.length
  if splitBy = 0 then .error .divZero
  else do
    let chunkSz := numLeaves / splitBy
    let chunksList ← chunks chunkSz combined
    if splitBy = 1 then do
      let c ← idx chunksList 0
      let root ← unwrapO (merkleRoot P c)
      .ok [(root, 0)]
    else do
      let rs ← mapE (merkleForSuspect P chunksList) malicious
      .ok rs.flatten

/-- `src/collect.rs:348-353`: mark the given positions of the report list as excluded. -/
def excludeAll (reports : List (Bool × ReportShare)) (malicious : List Nat) :
    Exec (List (Bool × ReportShare)) :=
  foldE (fun rs m => do
    let r ← idx rs m
    .ok (rs.set m (false, r.2))) reports malicious

/-- The answer of `tree_crawl`: `cnt_values`, `mtree_roots`, `mtree_indices`.
(`src/collect.rs:339-344`, `src/rpc.rs:106`) -/
structure CrawlResp where
  cntValues : List (List Field128)
  roots : List Block
  indices : List Nat

/-- `src/collect.rs:345-355`: the preparation done when suspects are given. -/
def KeyCollection.crawlPrep (kc : KeyCollection P) (malicious : List Nat) (isLast : Bool) :
    Exec (KeyCollection P) :=
  if malicious.isEmpty then .ok kc
  else do
    let reports ← (if isLast then excludeAll kc.reportShares malicious else .ok kc.reportShares)
    .ok { kc with reportShares := reports, frontier := kc.prevFrontier }

/-- `debug_assert!(level < self.depth.unwrap())` (`src/collect.rs:358`): release builds do not evaluate the
`unwrap` either. -/
def KeyCollection.levelAssert (bld : Build) (kc : KeyCollection P) (level : Nat) : Exec Unit :=
  match bld with
  | .release => .ok ()
  | .debug => do
    let d ← unwrapO kc.depth
    debugAssert bld (decide (level < d))

/-- `src/collect.rs:357-477`: next frontier and the combined hash of every included client. -/
def KeyCollection.crawlLevel (bld : Build) (kc : KeyCollection P) :
    Exec (List TreeNode × List Block) := do
  let root ← idx kc.frontier 0
  let level := root.path.length
  kc.levelAssert bld level
  let next ← kc.nextFrontier true
  let allChecks ← mapE (kc.checksForPrefix bld level next) kc.frontier.zipIdx
  let combined ← mapE (combinedHash P kc.inputLen level next allChecks)
    (includedIndices kc.reportShares)
  .ok (next, combined)

/-- `tree_crawl` (`src/collect.rs:339-517`). -/
def KeyCollection.treeCrawl (bld : Build) (kc : KeyCollection P) (splitBy : Nat)
    (malicious : List Nat) (isLast : Bool) : Exec (KeyCollection P × CrawlResp) := do
  let kc ← kc.crawlPrep malicious isLast
  let (next, combined) ← kc.crawlLevel bld
  let rs ← merkleRoots P combined splitBy malicious isLast
  .ok ({ kc with prevFrontier := kc.frontier, frontier := next },
    { cntValues := next.map TreeNode.value, roots := rs.map Prod.fst, indices := rs.map Prod.snd })

/-- `tree_crawl_last` (`src/collect.rs:519-553`). -/
def KeyCollection.treeCrawlLast (kc : KeyCollection P) :
    Exec (KeyCollection P × List (List Field128)) := do
  let next ← kc.nextFrontier false
  let proofs ← mapE (combineProofs next) (includedIndices kc.reportShares)
  .ok ({ kc with finalProofs := proofs, frontier := next }, next.map TreeNode.value)

/-- `get_proofs` (`src/collect.rs:555-562`). -/
def KeyCollection.getProofs (kc : KeyCollection P) (start end_ : Nat) : List Block :=
  if start < end_ ∧ end_ ≤ kc.finalProofs.length then
    (kc.finalProofs.drop start).take (end_ - start)
  else []

/-- `Vec::remove(i)` (external): panics when out of range. -/
def vecRemove {α : Type} (v : List α) (i : Nat) : Exec (List α) :=
  if i < v.length then .ok (v.eraseIdx i) else .error .index

/-- The removal loop of `tree_prune` (`src/collect.rs:568-572`), indices from back to front. -/
def pruneLoop (alive : List Bool) (frontier : List TreeNode) : Exec (List TreeNode) :=
  foldE (fun fr (ai : Bool × Nat) => if ai.1 then .ok fr else vecRemove fr ai.2) frontier
    alive.zipIdx.reverse

/-- `tree_prune` (`src/collect.rs:564-573`). -/
def KeyCollection.treePrune (kc : KeyCollection P) (alive : List Bool) :
    Exec (KeyCollection P) := do
  assertE (alive.length == kc.frontier.length)
  let fr ← pruneLoop alive kc.frontier
  .ok { kc with frontier := fr }

/-- `apply_flp_results` (`src/collect.rs:577-587`). -/
def KeyCollection.applyFlpResults (kc : KeyCollection P) (keep : List Bool) :
    Exec (KeyCollection P) := do
  assertE (keep.length == kc.reportShares.length)
  let reports ← foldE (fun rs (ai : Bool × Nat) =>
    if ai.1 then .ok rs
    else do
      let r ← idx rs ai.2
      .ok (rs.set ai.2 (false, r.2))) kc.reportShares keep.zipIdx
  .ok { kc with reportShares := reports }

/-- `keep_values` (`src/collect.rs:591-606`): `u128::from(v) as u64 >= threshold`. -/
def keepValues (inputLen threshold : Nat) (cnt0 cnt1 : List (List Field128)) : Exec (List Bool) :=
  mapE (fun (vv : List Field128 × List Field128) => do
    let a ← idx vv.1 inputLen
    let b ← idx vv.2 inputLen
    .ok (decide (threshold ≤ (a + b).val % 2 ^ 64))) (cnt0.zip cnt1)

/-- `final_shares` (`src/collect.rs:608-616`). -/
def KeyCollection.finalShares (kc : KeyCollection P) : List HHResult :=
  kc.frontier.map fun n => { path := n.path, value := n.value }

/-- `final_values` (`src/collect.rs:619-643`).  `value > Field128::from(0)` compares representatives, i.e. tests
for non-zero. -/
def finalValues (inputLen : Nat) (results0 results1 : List HHResult) : Exec (List HHResult) := do
  assertE (results0.length == results1.length)
  let rs ← mapE (fun (rr : HHResult × HHResult) => do
    assertE (rr.1.path == rr.2.path)
    let v := vecAdd (vecAdd (List.replicate (inputLen + 1) 0) rr.1.value) rr.2.value
    let c ← idx v inputLen
    .ok (({ path := rr.1.path, value := v } : HHResult), decide (c ≠ 0))) (results0.zip results1)
  .ok ((rs.filter Prod.snd).map Prod.fst)

end Mastic
