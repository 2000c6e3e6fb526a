import Verif.Model.Driver

/-!
# Model of the driver's `main` (`src/bin/driver.rs:689-802`) with `generate_reports` (`src/bin/driver.rs:127-244`)

Line numbers refer to `src/bin/driver.rs`.  The random draws are arguments.  Not modelled: command line and
configuration file (`src/config.rs`), connecting to the servers, timing and printing of sizes and times.
-/

namespace Mastic

/-- `config::Mode` (`src/config.rs:9-27`); the threshold of the first mode is `Config.threshold`. -/
inductive DriverMode where
  | weightedHeavyHitters
  | attributeBasedMetrics (numAttributes : Nat)
  | plainMetrics

/-- The random draws for one generated report (`src/bin/driver.rs:133-205`). -/
structure ReportDraw where
  bucket : Nat
  bits : Nat → Bool
  rand : ClientRand
  prio3 : Nat

/-- `rng.gen_range(0..hi)` (`src/bin/driver.rs:137`): panics for an empty range; otherwise a number below `hi`, modelled as an
arbitrary number reduced modulo `hi`. -/
def genRange (hi draw : Nat) : Exec Nat := if hi = 0 then .error .explicit else .ok (draw % hi)

/-- `sample_bits` (`src/bin/driver.rs:45-48`). -/
def sampleBits (len : Nat) (bits : Nat → Bool) : List Bool := (List.range len).map bits

/-- The closure of `generate_reports` (`src/bin/driver.rs:132-207`). -/
def generateReport (P : Prims) (cfg : Config) (mode : DriverMode) (draw : ReportDraw) : Exec PlaintextReport := do
  let bucket ← genRange cfg.histBuckets draw.bucket
  match mode with
  | .plainMetrics => genPrio3Report P cfg.histBuckets bucket draw.rand.nonce draw.prio3
  | _ => do
    let d ← unwrapO cfg.dataBits
    genMasticReport P cfg.histBuckets (sampleBits d draw.bits) bucket draw.rand

/-- `generate_reports` (`src/bin/driver.rs:127-244`); the sizes printed for `reports[0]` are `printedSizes` in Model/Wire. -/
def generateReports (P : Prims) (cfg : Config) (mode : DriverMode) (draws : Nat → ReportDraw) :
    Exec (List PlaintextReport) := do
  assertE (decide (0 < cfg.uniqueBuckets))
  let reports ← mapE (fun i => generateReport P cfg mode (draws i)) (List.range cfg.uniqueBuckets)
  let _ ← idx reports 0
  .ok reports

/-- All draws of a run of the driver.  `maliciousOk` is the outcome of the check of `src/bin/driver.rs:692` (a floating-point
comparison), `zipfOk` whether `zipf_exponent` is positive, which `ZipfDistribution::new` requires.  `picks i` are the
Zipf sample and the misbehaviour of client `i` (`src/bin/driver.rs:284-316`), `attributes` the Zipf samples of `src/bin/driver.rs:779`.
`setOrder` is the iteration order of the `HashSet` of `src/bin/driver.rs:777`. -/
structure MainDraw where
  maliciousOk : Bool
  zipfOk : Bool
  reports : Nat → ReportDraw
  verifyKey : Block
  picks : Nat → Nat × Option Tamper
  attributes : Nat → Nat
  setOrder : List (List Bool) → List (List Bool)
  setOrder_perm : ∀ l, List.Perm (setOrder l) l

variable {P : Prims}

/-- What a run of the driver produces. (`src/bin/driver.rs:750-798`) -/
inductive MainOut (P : Prims) where
  | whh (out : WhhOut P)
  | abm (attributes : List (List Bool)) (out : List AbmOut)
  | pm (out : List PmOut)

/-- The attributes of `src/bin/driver.rs:772-783`: the sampled strings without repetitions, in the order of the hash set. -/
def mainAttributes (reports : List PlaintextReport) (draw : MainDraw) (num : Nat) : Exec (List (List Bool)) := do
  if !draw.zipfOk then .error .unwrap
  else do
    let alphas ← sampleAttributes reports ((List.range num).map draw.attributes)
    .ok (draw.setOrder alphas.dedup)

/-- `add_reports` constructs the Zipf distribution first (`src/bin/driver.rs:280`); it runs if there is a non-empty batch. -/
def mainUpload (cfg : Config) (draw : MainDraw) (reports : List PlaintextReport) (kcs : Pair2 P) (n : Nat) :
    Exec (Pair2 P) :=
  if !draw.zipfOk ∧ 0 < n ∧ 0 < cfg.addBatch then .error .unwrap
  else upload cfg reports kcs ((List.range n).map draw.picks)

/-- `main` (`src/bin/driver.rs:689-802`) with `n` clients. -/
def driverMain (c0 c1 : ServerCfg) (bld : Build) (cfg : Config) (mode : DriverMode) (draw : MainDraw) (n : Nat)
    (kcs : Pair2 P) : Exec (MainOut P) := do
  assertE draw.maliciousOk
  if !P.histOk cfg.histBuckets then .error .unwrap
  else do
    let reports ← generateReports P cfg mode draw.reports
    let kcs ← resetServers c0 c1 cfg kcs draw.verifyKey
    let kcs ← mainUpload cfg draw reports kcs n
    match mode with
    | .weightedHeavyHitters => do
      let out ← runWhh c0 c1 bld cfg kcs n
      .ok (.whh out)
    | .attributeBasedMetrics num => do
      let attributes ← mainAttributes reports draw num
      let (_, out) ← runAbm c0 c1 cfg kcs attributes n
      .ok (.abm attributes out)
    | .plainMetrics => do
      let (_, out) ← runPm c0 c1 cfg kcs n
      .ok (.pm out)

end Mastic
