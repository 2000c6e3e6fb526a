import Verif.Model.Main
import Verif.Model.Float

/-!
# Model of the command line (`src/config.rs`) and of the start of the two programs

`src/bin/server.rs:322-360`, `src/bin/driver.rs:689-702`.  External: clap 2, the file system, TOML, number parsing of
the standard library, TCP.  Number parsing is written out, clap's matching as far as it is used; reading a file, parsing
its TOML and parsing an `f32` are arbitrary functions.
-/

namespace Mastic

/-- How a program ends before or instead of running to its end: with clap's usage message, with a panic, with an I/O
error returned from `main`.  `sharedServer` marks runs in which both connections of the driver reach the same server;
these are not modelled. (`src/config.rs:60-162`) -/
inductive StartErr where
  | usage
  | panic (p : Panic)
  | io
  | sharedServer

/-- Names of the declared arguments (`src/config.rs:73-131`). -/
inductive ArgName where
  | config | server0 | server1 | serverId | numClients | malicious
  deriving DecidableEq

/-- A declared argument; all take one value. (`src/config.rs:73-131`) -/
structure ArgDef where
  name : ArgName
  short : Option Char
  long : String
  required : Bool
  deriving DecidableEq

/-- `Arg::short` (clap 2): only the first character counts.
clap, external; called in `src/config.rs:73-131`. -/
def shortOf (s : String) : Option Char := s.toList.head?

/-- The arguments declared by `get_args` (`src/config.rs:73-131`). -/
def argDefs (getServerId getNReqs getMalicious : Bool) : List ArgDef :=
  [⟨.config, shortOf "c", "config", true⟩,
   ⟨.server0, shortOf "s0", "server-0", false⟩,
   ⟨.server1, shortOf "s0", "server-1", false⟩]
  ++ (if getServerId then [⟨.serverId, shortOf "i", "server_id", true⟩] else [])
  ++ (if getNReqs then [⟨.numClients, shortOf "n", "num_clients", true⟩] else [])
  ++ (if getMalicious then [⟨.malicious, shortOf "m", "malicious", false⟩] else [])

/-- How an option is named on the command line.
clap, external; called in `src/config.rs:73-131`. -/
inductive Flag where
  | short (c : Char)
  | long (s : String)
  deriving DecidableEq

/-- An option on the command line with its value.  Simplification: clap's ways of writing it (`-c x`, `-cx`, `-c=x`,
`--config x`, `--config=x`) are not distinguished, and words that are no option with a value are left out (clap ends
the program for them). clap, external; called in `src/config.rs:73-131`. -/
structure Occ where
  flag : Flag
  value : String
  deriving DecidableEq

/-- Does the flag name this argument? clap, external; called in `src/config.rs:73-131`. -/
def ArgDef.names (a : ArgDef) : Flag → Bool
  | .short c => a.short == some c
  | .long s => a.long == s

/-- clap 2's lookup of a flag: the first declared argument it names.
clap, external; called in `src/config.rs:73-131`. -/
def resolve (defs : List ArgDef) (f : Flag) : Option ArgName := (defs.find? (·.names f)).map ArgDef.name

/-- clap 2's `debug_assert!` in `Parser::add_arg`: no short or long name is declared twice.
clap, external; called in `src/config.rs:73-131`. -/
def clapDeclOk (defs : List ArgDef) : Bool :=
  decide ((defs.filterMap ArgDef.short).Nodup) && decide ((defs.map ArgDef.long).Nodup)

/-- Looks up the options in turn; an unknown one ends the program.
clap, external; called in `src/config.rs:73-131`. -/
def matchAll (defs : List ArgDef) : List Occ → Except StartErr (List (ArgName × String))
  | [] => .ok []
  | o :: os => match resolve defs o.flag with
    | some a => do
      let ms ← matchAll defs os
      .ok ((a, o.value) :: ms)
    | none => .error .usage

/-- `flags.arg(..)…get_matches()` (clap 2): `asserts` says whether clap was compiled with debug assertions, as it is in
cargo's debug profile.  Unknown and repeated options and missing required ones end the program.
(`src/config.rs:73-131`) -/
def getMatches (asserts : Bool) (defs : List ArgDef) (argv : List Occ) :
    Except StartErr (List (ArgName × String)) := do
  if asserts && !clapDeclOk defs then .error (.panic .debugAssertion)
  else do
    let ms ← matchAll defs argv
    if !decide ((ms.map Prod.fst).Nodup) then .error .usage
    else if !(defs.all fun a => !a.required || decide (a.name ∈ ms.map Prod.fst)) then .error .usage
    else .ok ms

/-- `ArgMatches::value_of`. clap, external; called in `src/config.rs:73-131`. -/
def valueOf (ms : List (ArgName × String)) (a : ArgName) : Option String :=
  (ms.find? fun m => m.1 = a).map Prod.snd

/-- Value of a decimal digit. No counterpart in the repository. -/
def digitVal (c : Char) : Option Nat :=
  if 48 ≤ c.toNat ∧ c.toNat ≤ 57 then some (c.toNat - 48) else none

/-- A non-empty sequence of decimal digits. No counterpart in the repository. -/
def parseDigits (cs : List Char) : Option Nat :=
  if cs.isEmpty then none
  else cs.foldlM (fun acc c => (digitVal c).map fun v => acc * 10 + v) 0

/-- `str::parse::<usize>` on a 64-bit machine (standard library, external): an optional `+`, then digits. -/
def parseUsize (s : String) : Option Nat :=
  (match s.toList with
    | '+' :: cs => parseDigits cs
    | cs => parseDigits cs).filter fun v => v < 2 ^ 64

/-- `str::parse::<i8>` (standard library, external): an optional sign, then digits. -/
def parseI8 (s : String) : Option Int :=
  (match s.toList with
    | '+' :: cs => Option.map (fun v : Nat => (v : Int)) (parseDigits cs)
    | '-' :: cs => Option.map (fun v : Nat => -(v : Int)) (parseDigits cs)
    | cs => Option.map (fun v : Nat => (v : Int)) (parseDigits cs)).filter fun v => decide (-128 ≤ v ∧ v ≤ 127)

/-- `Mode` (`src/config.rs:6-27`). -/
inductive FileMode where
  | weightedHeavyHitters (threshold : F64)
  | attributeBasedMetrics (numAttributes : Nat)
  | plainMetrics

/-- `Config` (`src/config.rs:29-58`) as read from the file. -/
structure FileConfig where
  dataBits : Option Nat
  histBuckets : Nat
  addBatch : Nat
  queryBatch : Nat
  uniqueBuckets : Nat
  mode : FileMode
  zipfExponent : F64
  server0 : String
  server1 : String

/-- External functions of the start-up. -/
structure Env where
  readFile : String → Option String
  parseToml : String → Option FileConfig
  parseF32 : String → Option F64

/-- `expect` and `unwrap`. No counterpart in the repository. -/
def needS {α : Type} : Option α → Except StartErr α
  | some a => .ok a
  | none => .error (.panic .unwrap)

/-- `get_config` (`src/config.rs:60-63`). -/
def getConfig (env : Env) (filename : String) : Except StartErr FileConfig := do
  let text ← needS (env.readFile filename)
  needS (env.parseToml text)

/-- What `get_args` returns. (`src/config.rs:65-71`) -/
structure Args where
  config : FileConfig
  serverId : Int
  numClients : Nat
  malicious : F64

/-- `get_args` (`src/config.rs:65-162`). -/
def getArgs (env : Env) (asserts getServerId getNReqs getMalicious : Bool) (argv : List Occ) :
    Except StartErr Args := do
  let flags ← getMatches asserts (argDefs getServerId getNReqs getMalicious) argv
  let file ← needS (valueOf flags .config)
  let config ← getConfig env file
  let serverId ← if getServerId then do
      let v ← needS (valueOf flags .serverId)
      needS (parseI8 v)
    else .ok (-1)
  let config := if getServerId then config
    else { config with
      server0 := (valueOf flags .server0).getD config.server0
      server1 := (valueOf flags .server1).getD config.server1 }
  let numClients ← if getNReqs then do
      let v ← needS (valueOf flags .numClients)
      needS (parseUsize v)
    else .ok 0
  let malicious ← match valueOf flags .malicious with
    | some v => needS (env.parseF32 v)
    | none => .ok (.fin 0)
  .ok { config, serverId, numClients, malicious }

variable {P : Prims}

/-- A server process that waits for requests. (`src/bin/server.rs:322-360`) -/
structure Running (P : Prims) where
  addr : String
  cfg : ServerCfg
  kc : KeyCollection P

/-- The `match` on the id (`src/bin/server.rs:324-328`). -/
def serverAddr (args : Args) : Except StartErr String :=
  if args.serverId = 0 then .ok args.config.server0
  else if args.serverId = 1 then .ok args.config.server1
  else .error (.panic .explicit)

/-- `main` of the server up to the accept loop (`src/bin/server.rs:322-340`).  `busy` are the addresses already
listened on; addresses are compared as written.  `build`, `iter` as in `ServerCfg`. -/
def serverStart (P : Prims) (env : Env) (asserts : Bool) (build : Build)
    (iter : List (Nat × List (List Field128)) → List (Nat × List (List Field128)))
    (iter_perm : ∀ l, (iter l).Perm l) (busy : List String) (argv : List Occ) :
    Except StartErr (Running P) := do
  let args ← getArgs env asserts true false false argv
  let addr ← serverAddr args
  if !P.histOk args.config.histBuckets then .error (.panic .unwrap)
  else if addr ∈ busy then .error .io
  else .ok {
      addr
      cfg := { serverId := args.serverId, dataBits := args.config.dataBits, build, iter, iter_perm }
      kc := KeyCollection.new P args.config.histBuckets args.serverId args.config.dataBits Block.zero }

/-- `(0.0..0.8).contains(&malicious)` (`src/bin/driver.rs:691`); the constant is the `f32` nearest to 0.8. -/
def maliciousInRange : F64 → Bool
  | .fin q => decide (0 ≤ q ∧ q < 13421773 / 16777216)
  | _ => false

/-- `ZipfDistribution::new` (external) accepts the exponent unless it is `<= 0`. -/
def zipfAccepts : F64 → Bool
  | .nan => true
  | .inf neg => !neg
  | .fin q => decide (0 < q)

/-- The fields of the configuration that the driver's logic uses; the threshold as computed at
`src/bin/driver.rs:394-396, 473-475`. -/
def FileConfig.toConfig (c : FileConfig) (numClients : Nat) : Config where
  dataBits := c.dataBits
  histBuckets := c.histBuckets
  addBatch := c.addBatch
  queryBatch := c.queryBatch
  uniqueBuckets := c.uniqueBuckets
  threshold := match c.mode with
    | .weightedHeavyHitters t => scaledThreshold t numClients
    | _ => 0

/-- The mode without its threshold. (`src/config.rs:6-27`) -/
def FileMode.toDriverMode : FileMode → DriverMode
  | .weightedHeavyHitters _ => .weightedHeavyHitters
  | .attributeBasedMetrics k => .attributeBasedMetrics k
  | .plainMetrics => .plainMetrics

/-- `tcp::connect` (`src/bin/driver.rs:693-702`) to one of the servers running. -/
def connect (servers : List (Running P)) (addr : String) : Except StartErr (Running P) :=
  match servers.find? (fun s => s.addr == addr) with
  | some s => .ok s
  | none => .error .io

/-- `main` of the driver (`src/bin/driver.rs:689-802`).  Of `draw` the two outcomes of floating-point checks are replaced
by the results of the checks. -/
def driverStart (env : Env) (asserts : Bool) (bld : Build) (servers : List (Running P)) (draw : MainDraw)
    (argv : List Occ) : Except StartErr (MainOut P) := do
  let args ← getArgs env asserts false true true argv
  if !maliciousInRange args.malicious then .error (.panic .assertion)
  else do
    let s0 ← connect servers args.config.server0
    let s1 ← connect servers args.config.server1
    if s0.addr = s1.addr then .error .sharedServer
    else
      match driverMain s0.cfg s1.cfg bld (args.config.toConfig args.numClients) args.config.mode.toDriverMode
          { draw with maliciousOk := true, zipfOk := zipfAccepts args.config.zipfExponent } args.numClients
          (s0.kc, s1.kc) with
      | .ok out => .ok out
      | .error p => .error (.panic p)

end Mastic
