import Verif.Model.Config
import Mathlib.Data.Nat.Digits.Defs

/-!
# Specifications for the command line and the start of the programs
-/

namespace Mastic.Spec

/-- What can be written for an option.  The help text offers `-s` for both server addresses. -/
def flags : ArgName → List Flag
  | .config => [.short 'c', .long "config"]
  | .server0 => [.short 's', .long "server-0"]
  | .server1 => [.long "server-1"]
  | .serverId => [.short 'i', .long "server_id"]
  | .numClients => [.short 'n', .long "num_clients"]
  | .malicious => [.short 'm', .long "malicious"]

/-- All values given to an option. -/
def given (argv : List Occ) (a : ArgName) : List String :=
  (argv.filter fun o => decide (o.flag ∈ flags a)).map Occ.value

/-- The command line is complete: only known options, each at most once, the required ones given. -/
structure Accepted (opts needed : List ArgName) (argv : List Occ) : Prop where
  known : ∀ o ∈ argv, ∃ a ∈ opts, o.flag ∈ flags a
  once : ∀ a ∈ opts, (given argv a).length ≤ 1
  required : ∀ a ∈ needed, given argv a ≠ []

/-- Options of the server. -/
def serverOpts : List ArgName := [.config, .server0, .server1, .serverId]

/-- Options of the driver. -/
def driverOpts : List ArgName := [.config, .server0, .server1, .numClients, .malicious]

/-- A non-empty decimal numeral. -/
def Numeral (cs : List Char) (v : Nat) : Prop :=
  cs ≠ [] ∧ ∃ ds : List Nat, (∀ d ∈ ds, d < 10) ∧ cs = ds.map (fun d => Char.ofNat (48 + d)) ∧
    Nat.ofDigits 10 ds.reverse = v

/-- An integer as Rust's `parse` reads it. -/
def Denotes (s : String) (v : Int) : Prop :=
  ∃ (cs : List Char) (n : Nat), Numeral cs n ∧
    ((s.toList = cs ∨ s.toList = '+' :: cs) ∧ v = n ∨ s.toList = '-' :: cs ∧ v = -n)

/-- A natural number as Rust's `parse` reads it. -/
def DenotesNat (s : String) (v : Nat) : Prop :=
  ∃ cs : List Char, Numeral cs v ∧ (s.toList = cs ∨ s.toList = '+' :: cs)

/-- The file of this name has this content. -/
def FileHas (env : Env) (file : String) (c : FileConfig) : Prop :=
  ∃ text, env.readFile file = some text ∧ env.parseToml text = some c

end Mastic.Spec
