import Verif.Model.System

/-!
# Specification: how many requests a run sends
-/

namespace Mastic.Spec

/-- A driver process whose servers may answer anything: `reply` gives both answers, knowing all pairs of requests so far.
`got` are the pairs sent before.  The result is all pairs sent and the result of the process, if it does not panic. -/
def dialogue {α : Type} (reply : List (Req × Req) → Resp × Resp) :
    Prog α → List (Req × Req) → List (Req × Req) × Option α
  | .ret a, got => (got, some a)
  | .panic _, got => (got, none)
  | .ask r0 r1 k, got =>
    dialogue reply (k (reply (got ++ [(r0, r1)])).1 (reply (got ++ [(r0, r1)])).2) (got ++ [(r0, r1)])

/-- The number of batches. -/
def batchCount (n batch : Nat) : Nat := (n + batch - 1) / batch

/-- The number of pairs of requests of a run for `n` clients, if every search for cheaters needs `search` crawls: reset
and upload; then tree initialisation, the FLP queries and their results in front of the first of `d - 1` levels, the
crawls and the pruning of each level, the last crawl, the proofs, the last pruning and the final shares; or validation
and result of every batch. -/
def requestCount (cfg : Config) (n d search : Nat) : DriverMode → Nat
  | .weightedHeavyHitters => 1 + batchCount n cfg.addBatch + 1
      + (if d = 1 then 0 else batchCount n cfg.queryBatch + 1) + (d - 1) * (search + 1)
      + (1 + batchCount n cfg.queryBatch + 2)
  | .attributeBasedMetrics _ => 1 + batchCount n cfg.addBatch + 2 * batchCount n cfg.queryBatch
  | .plainMetrics => 1 + batchCount n cfg.addBatch + 2 * batchCount n cfg.queryBatch

/-- Servers that always disagree: every crawl has one root in which they differ, and everything else is empty. -/
def stubborn (got : List (Req × Req)) : Resp × Resp :=
  match got.getLast? with
  | some (.treeCrawl _ _ _, _) => (.crawl ⟨[], [Vector.replicate 16 0], [0]⟩, .crawl ⟨[], [Vector.replicate 16 1], [0]⟩)
  | some (.runFlpQueries _ _, _) => (.fieldVecs [], .fieldVecs [])
  | some (.treeCrawlLast, _) => (.fieldVecs [], .fieldVecs [])
  | some (.getProofs _ _, _) => (.proofs [], .proofs [])
  | some (.finalShares, _) => (.shares [], .shares [])
  | _ => (.done, .done)

end Mastic.Spec
