import Verif.Lemmas.Level
import Verif.Lemmas.Toy
import Mathlib.Data.Nat.Log

/-!
# The cheater search of `run_level`

C33.
-/

namespace Mastic

/-! ### C33 -/

theorem clog_le_self (n : Nat) : Nat.clog 2 n ≤ n :=
  Nat.clog_le_of_le_pow (Nat.lt_pow_self (by omega)).le

/-- **C33.** Whatever the two servers answer (`crawl` is arbitrary, with an arbitrary joint state), the
loop of `run_level` for `n` clients sends at most `⌈log₂ n⌉ + 2` crawl requests to each server. -/
theorem C33_request_bound {σ : Type} (crawl : σ → CrawlReq → Exec (σ × CrawlResp × CrawlResp))
    (inputLen thr n fuel : Nat) (s s' : σ) (keep : List Bool) (cnt : Nat)
    (h : runLevelLoop crawl inputLen thr n fuel s ⟨1, [], false⟩ = .ok (s', keep, cnt)) :
    cnt ≤ Nat.clog 2 n + 2 :=
  runLevelLoop_count fuel (Nat.clog 2 n) s _ (by
    simp only [Nat.one_mul]; exact Nat.le_pow_clog (by omega) n) _ _ _ h

/-- **C33.** `⌈log₂ n⌉ + 2` iterations are enough: allowing more iterations never changes the outcome, so
the loop has ended by then for every behaviour of the servers. -/
theorem C33_terminates {σ : Type} (crawl : σ → CrawlReq → Exec (σ × CrawlResp × CrawlResp))
    (inputLen thr n fuel : Nat) (s : σ) (hf : Nat.clog 2 n + 2 ≤ fuel) :
    runLevelLoop crawl inputLen thr n fuel s ⟨1, [], false⟩ =
      runLevelLoop crawl inputLen thr n (Nat.clog 2 n + 2) s ⟨1, [], false⟩ :=
  runLevelLoop_fuel fuel _ (Nat.clog 2 n) s _ (by
    simp only [Nat.one_mul]; exact Nat.le_pow_clog (by omega) n) hf le_rfl

/-- The model's `run_level` with the real servers never stops for lack of iterations. -/
theorem C33_search_level {P : Prims} (c0 c1 : ServerCfg) (cfg : Config) (kcs : Pair2 P) (n fuel : Nat)
    (hf : n + 3 ≤ fuel) : searchLevel c0 c1 cfg kcs n =
      runLevelLoop (crawlBoth c0 c1) cfg.histBuckets (max 1 cfg.threshold) n fuel kcs ⟨1, [], false⟩ := by
  have := clog_le_self n
  unfold searchLevel
  rw [C33_terminates _ _ _ _ (n + 3) _ (by omega), C33_terminates _ _ _ _ fuel _ (by omega)]

/-- Servers that always disagree on every root; they record the requests. -/
def disagree (s : List CrawlReq) (req : CrawlReq) :
    Exec (List CrawlReq × CrawlResp × CrawlResp) :=
  .ok (s ++ [req], ⟨[], [Block.zero], [0]⟩, ⟨[], [Block.zero.set 0 1], [0]⟩)

/-- The bound is attained: five clients, splits 1, 2, 4, 8 and the excluding request. -/
example : (runLevelLoop disagree 1 1 5 8 [] ⟨1, [], false⟩).map
    (fun r => (r.2.2, r.1.map CrawlReq.splitBy, r.1.map CrawlReq.isLast)) =
    .ok (5, [1, 2, 4, 8, 8], [false, false, false, false, true]) := by decide +kernel

end Mastic
