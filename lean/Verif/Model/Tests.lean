import Verif.Model.Driver

/-!
# The test programs of the repository

`tests/collect_test.rs`, `tests/dpf_test.rs`, `tests/flp_test.rs` and the test in `src/vidpf.rs:476-542`, with
parameters in place of the literals.  A test passes if it returns.  What is only printed is left out.
-/

namespace Mastic

variable {P : Prims}

/-! ### `tests/collect_test.rs` -/

/-- The share of a test client: everything but the key is `Default::default()` (`tests/collect_test.rs:24-35`). -/
def testShare (key : VidpfKey) : ReportShare := .mastic Block.zero key [] (Block.zero, Block.zero)

/-- A client of the test: its string, its measurement and the random root seeds of its keys.
(`tests/collect_test.rs:21-36`) -/
structure TestClient where
  str : List Byte
  bucket : Nat
  seeds : Block × Block

/-- One iteration of `for cstr in &client_strings` (`tests/collect_test.rs:21-36`); in the second test the keys of a
string are cloned (lines 111-130), which is a client with the same seeds. -/
def testAdd (n : Nat) (cols : Pair2 P) (c : TestClient) : Exec (Pair2 P) := do
  let beta ← unwrapO (encodeMeasurement n c.bucket)
  let keys ← VidpfKey.genFromStr P c.seeds c.str beta
  .ok (cols.1.addReportShare (testShare keys.1), cols.2.addReportShare (testShare keys.2))

/-- One iteration of `for level in 0..strlen - 1` (`tests/collect_test.rs:43-54`, `139-153`). -/
def testLevel (bld : Build) (n T : Nat) (cols : Pair2 P) (_level : Nat) : Exec (Pair2 P) := do
  let (k0, r0) ← cols.1.treeCrawl bld 1 [] false
  let (k1, r1) ← cols.2.treeCrawl bld 1 [] false
  assertE (r0.cntValues.length == r1.cntValues.length)
  let keep ← keepValues n T r0.cntValues r1.cntValues
  let k0 ← k0.treePrune keep
  let k1 ← k1.treePrune keep
  .ok (k0, k1)

/-- The last level (`tests/collect_test.rs:56-80`, `155-179`); `k` proofs are compared. -/
def testLast (n T k : Nat) (cols : Pair2 P) : Exec (List HHResult) := do
  let (k0, v0) ← cols.1.treeCrawlLast
  let (k1, v1) ← cols.2.treeCrawlLast
  let h0 := k0.getProofs 0 k
  let h1 := k1.getProofs 0 k
  assertE (v0.length == v1.length)
  assertE (h0.length == h1.length)
  assertE ((h0.zip h1).all fun hh => hh.1 == hh.2)
  let keep ← keepValues n T v0 v1
  let k0 ← k0.treePrune keep
  let k1 ← k1.treePrune keep
  finalValues n k0.finalShares k1.finalShares

/-- `collect_test_eval_groups` and `collect_test_eval_full_groups` up to the comparison of the results: the strings and
values of the loop at the end (`tests/collect_test.rs:6-85`, `97-186`).  With `strlen = 0` the subtraction `strlen - 1`
overflows. -/
def collectTest (P : Prims) (bld : Build) (n T k : Nat) (vk : Block) (clients : List TestClient) :
    Exec (List (List Byte × List Field128)) := do
  let c ← idx clients 0
  let bits ← stringToBits c.str
  let cols ← foldE (testAdd n) (KeyCollection.new P n 0 (some bits.length) vk, KeyCollection.new P n 1 (some bits.length) vk)
    clients
  let k0 ← cols.1.treeInit
  let k1 ← cols.2.treeInit
  let levels ← levelCount bld (some bits.length)
  let cols ← foldE (testLevel bld n T) (k0, k1) (List.range levels)
  let results ← testLast n T k cols
  mapE (fun r => do
    let s ← bitsToString r.path
    .ok (s, r.value)) results

/-! ### `tests/dpf_test.rs` -/

/-- One evaluation of both keys at a prefix of length `j` (`tests/dpf_test.rs:22-36`). -/
def dpfStep (P : Prims) (bld : Build) (keys : VidpfKey × VidpfKey) (alpha alphaEval : List Bool) (b : Field128)
    (pis : Block × Block) (j : Nat) : Exec (Block × Block) := do
  let (out0, _, pi0) ← keys.1.eval P bld (alphaEval.take j) pis.1 1
  let (out1, _, pi1) ← keys.2.eval P bld (alphaEval.take j) pis.2 1
  let y0 ← idx out0 (j - 2)
  let x0 ← idx y0 0
  let y1 ← idx out1 (j - 2)
  let x1 ← idx y1 0
  if alpha.take (j - 1) = alphaEval.take (j - 1) then assertE (b == x0 + x1) else assertE (0 == x0 + x1)
  .ok (pi0, pi1)

/-- One iteration of `for i in 0..(1 << num_bits)` (`tests/dpf_test.rs:18-39`). -/
def dpfPoint (P : Prims) (bld : Build) (nbits : Nat) (keys : VidpfKey × VidpfKey) (alpha : List Bool) (b : Field128)
    (pis : Block × Block) (i : Nat) : Exec (Block × Block) := do
  let alphaEval ← u32ToBits nbits (BitVec.ofNat 32 i)
  let pis ← foldE (dpfStep P bld keys alpha alphaEval b) pis (List.range' 2 (nbits - 1 - 2))
  assertE (pis.1 == pis.2)
  .ok pis

/-- `dpf_complete` (`tests/dpf_test.rs:8-40`) with `num_bits`, the number 21, the value 7 and the random seeds as
parameters.  `48` is the byte of `b"0"`. -/
def dpfTest (P : Prims) (bld : Build) (nbits : Nat) (a : BitVec 32) (b : Field128) (seeds : Block × Block) :
    Exec Unit := do
  let alpha ← u32ToBits nbits a
  let keys := VidpfKey.gen P seeds alpha [b]
  let pi := first16 (P.blake3 [48#8])
  let _ ← foldE (dpfPoint P bld nbits keys alpha b) (pi, pi) (List.range (2 ^ nbits))
  .ok ()

/-! ### `tests/flp_test.rs` -/

/-- The random choices of `run_flp_with_input`: shares of the input and of the proof, nonce, prover randomness and the
two seeds that stand for VIDPF seeds. (`tests/flp_test.rs:28-95`) -/
structure FlpTestRand where
  inputRand : Nat → Field128
  proofRand : Nat → Field128
  nonce : Block
  proveRand : List Field128
  seeds : Block × Block

/-- `run_flp_with_input` (`tests/flp_test.rs:28-110`); `none` is an `Err` of `decide`. -/
def runFlpWithInput (P : Prims) (n : Nat) (vk : Block) (bucket : Nat) (r : FlpTestRand) : Exec (Option Bool) := do
  let input ← unwrapO (encodeMeasurement n bucket)
  let inputs := shareProof input r.inputRand
  let queryRand := P.xofField vk r.nonce.toList (P.queryRandLen n)
  let jr0 := P.xofBlock r.seeds.1 Block.zero.toList (0#8 :: r.nonce.toList)
  let jr1 := P.xofBlock r.seeds.2 Block.zero.toList (1#8 :: r.nonce.toList)
  let jointRand := P.xofField jr0 jr1.toList (P.jointRandLen n)
  let proof ← unwrapO (P.flpProve n input r.proveRand jointRand)
  let proofs := shareProof proof r.proofRand
  let v0 ← unwrapO (P.flpQuery n inputs.1 proofs.1 queryRand jointRand)
  let v1 ← unwrapO (P.flpQuery n inputs.2 proofs.2 queryRand jointRand)
  .ok (P.flpDecide n (List.zipWith (fun a b => a + b) v0 v1))

/-- `histograms` (`tests/flp_test.rs:12-26`): one call per input, each of which must decide `true`. -/
def flpTest (P : Prims) (n : Nat) (vk : Block) (inputs : List (Nat × FlpTestRand)) : Exec Unit := do
  let _ ← mapE (fun (i : Nat × FlpTestRand) => do
    let d ← runFlpWithInput P n vk i.1 i.2
    let b ← unwrapO d
    assertE b) inputs
  .ok ()

/-! ### `src/vidpf.rs:476-542` -/

/-- `mode_attribute_based_metrics` (`src/vidpf.rs:485-541`), with the string, the weight, the attributes and the expected
values as parameters.  The comparison at the end zips the values with the expected ones; equal hashes are compared as
equal inputs of the hash function. -/
def treeTest (P : Prims) (seeds : Block × Block) (str : List Byte) (beta : List Field128) (attributes : List (List Byte))
    (expected : List (List Field128)) : Exec Unit := do
  let keys ← VidpfKey.genFromStr P seeds str beta
  assertE (keys.1.keyIdx == false)
  assertE (keys.2.keyIdx == true)
  let paths ← mapE stringToBits attributes
  let (v0, b0, bytes0) ← keys.1.evalTree P paths beta.length
  let (v1, b1, bytes1) ← keys.2.evalTree P paths beta.length
  assertE (v0.length == attributes.length)
  assertE (v1.length == attributes.length)
  assertE (b0.length == beta.length)
  assertE (b1.length == beta.length)
  assertE (vecAdd b0 b1 == beta)
  assertE (((List.zipWith vecAdd v0 v1).zip expected).all fun ve => ve.1 == ve.2)
  assertE (bytes0 == bytes1)

end Mastic
