import Verif.Spec.Collude

/-!
# A collector that does not keep to the driver's requests

The servers do not know the threshold and do not check who asks: the collector decides which clients are left out
(`apply_flp_results`), which prefixes are followed (`tree_prune`) and when a new tree is started (`tree_init`).
-/

namespace Mastic.Spec

/-- A crawl of all levels for strings of length `d`, made of the driver's own requests, without the FLP queries. -/
def crawlP (P : Prims) (bld : Build) (cfg : Config) (num d : Nat) : Prog Shown := do
  callDone .treeInit .treeInit
  levelsP P bld cfg num (List.range' 1 (d - 1))
  levelLastP cfg num

/-- Leave out all clients but number `i`, then crawl. -/
def isolateP (P : Prims) (bld : Build) (cfg : Config) (num d i : Nat) : Prog Shown := do
  callDone (.applyFlpResults ((List.range num).map fun j => decide (j = i)))
    (.applyFlpResults ((List.range num).map fun j => decide (j = i)))
  crawlP P bld cfg num d

/-- Crawl, leave out client `k`, crawl again, leave out client `k + 1`, and so on, `m` times. -/
def spyP (P : Prims) (bld : Build) (cfg : Config) (num d : Nat) : Nat → Nat → Prog (List Shown)
  | _, 0 => .ret []
  | k, m + 1 => do
    let o ← crawlP P bld cfg num d
    callDone (.applyFlpResults ((List.range num).map fun j => decide (k < j)))
      (.applyFlpResults ((List.range num).map fun j => decide (k < j)))
    let os ← spyP P bld cfg num d (k + 1) m
    .ret (o :: os)

/-- The strings and values of a weighted-heavy-hitters output. -/
def seen : Shown → List (List Bool × List Field128)
  | .whh results _ => results.map fun r => (r.path, r.value)
  | _ => []

/-- What the crawls of `spyP` should show: with threshold one, first for all clients, then without the first, and so
on. -/
def spied (n d : Nat) : List (List Bool × Nat) → List (List (List Bool × List Field128))
  | [] => []
  | c :: cs => heavyHitters n 1 d (c :: cs) :: spied n d cs

end Mastic.Spec
