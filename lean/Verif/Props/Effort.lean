import Verif.Lemmas.Effort
import Verif.Props.Script
import Verif.Props.PmCollude

/-!
# C100: a run sends boundedly many requests, whatever clients and servers do
-/

namespace Mastic

variable {P : Prims} {bld : Build} {cfg : Config} {draw : MainDraw} {n d : Nat}

/-- **C100.**  Whatever the clients have sent and whatever the two servers answer, `main` sends at most this many pairs of
requests, with `⌈log₂ n⌉ + 2` crawls for each level of a weighted-heavy-hitters run; if it comes to its end, then at
least as many as with one crawl for each level. -/
theorem C100_bound {mode : DriverMode} (hb : 1 ≤ cfg.addBatch) (hq : 1 ≤ cfg.queryBatch)
    (hd : mode = .weightedHeavyHitters → cfg.dataBits = some d ∧ 1 ≤ d)
    (reply : List (Req × Req) → Resp × Resp) :
    (Spec.dialogue reply (mainP P bld cfg mode draw n) []).1.length
        ≤ Spec.requestCount cfg n d (Nat.clog 2 n + 2) mode ∧
    ((Spec.dialogue reply (mainP P bld cfg mode draw n) []).2.isSome →
      Spec.requestCount cfg n d 1 mode ≤ (Spec.dialogue reply (mainP P bld cfg mode draw n) []).1.length) := by
  have key : Between (Spec.requestCount cfg n d 1 mode) (Spec.requestCount cfg n d (Nat.clog 2 n + 2) mode)
      (mainP P bld cfg mode draw n) := by
    have hcol : ∀ reports, Between (Spec.requestCount cfg n d 1 mode - (1 + Spec.batchCount n cfg.addBatch))
        (Spec.requestCount cfg n d (Nat.clog 2 n + 2) mode - (1 + Spec.batchCount n cfg.addBatch))
        (collectP P bld cfg mode draw n reports) := by
      intro reports
      cases mode with
      | weightedHeavyHitters =>
        obtain ⟨hd, hd1⟩ := hd rfl
        have hlev : levelCount bld cfg.dataBits = .ok (d - 1) := by
          rw [hd]
          simp [levelCount, unwrapO, show d ≠ 0 by omega]
        have h := between_bind (between_done .treeInit .treeInit) fun _ =>
          between_exec (f := fun levels => levelsP P bld cfg n (List.range levels) >>= fun _ => levelLastP cfg n) hlev
            (between_bind (between_levels hq (List.range (d - 1))) fun _ => between_last hq)
        have hc : (List.range (d - 1)).count 0 = if d = 1 then 0 else 1 := by
          rw [List.Nodup.count List.nodup_range]
          simp only [List.mem_range]
          split <;> split <;> omega
        refine between_mono h ?_ ?_
        · rw [hc, List.length_range, Spec.requestCount]
          split <;> omega
        · rw [hc, List.length_range, Spec.requestCount]
          split <;> omega
      | attributeBasedMetrics num =>
        have hr : stepByRanges n cfg.queryBatch = .ok (Spec.batches n cfg.queryBatch) := by
          unfold stepByRanges
          rw [if_neg (by omega)]
          rfl
        have h : Between (2 * Spec.batchCount n cfg.queryBatch + 0) (2 * Spec.batchCount n cfg.queryBatch + 0)
            (collectP P bld cfg (.attributeBasedMetrics num) draw n reports) := by
          refine between_step fun attrs => between_exec hr ?_
          have := between_abmLoop (P := P) (cfg := cfg) (attrs := attrs) (Spec.batches n cfg.queryBatch)
          rw [Spec.batches, List.length_map, List.length_range] at this
          exact between_bind this fun out => between_ret _
        refine between_mono h ?_ ?_ <;> simp only [Spec.requestCount] <;> omega
      | plainMetrics =>
        have hr : stepByRanges n cfg.queryBatch = .ok (Spec.batches n cfg.queryBatch) := by
          unfold stepByRanges
          rw [if_neg (by omega)]
          rfl
        have h : Between (2 * Spec.batchCount n cfg.queryBatch + 0) (2 * Spec.batchCount n cfg.queryBatch + 0)
            (collectP P bld cfg .plainMetrics draw n reports) := by
          unfold collectP
          dsimp only
          split
          · exact between_panic _ _ _
          · refine between_exec hr ?_
            have := between_pmLoop (P := P) (cfg := cfg) (Spec.batches n cfg.queryBatch)
            rw [Spec.batches, List.length_map, List.length_range] at this
            exact between_bind this fun out => between_ret _
        refine between_mono h ?_ ?_ <;> simp only [Spec.requestCount] <;> omega
    have hge : ∀ s, 1 + Spec.batchCount n cfg.addBatch ≤ Spec.requestCount cfg n d s mode := by
      intro s
      cases mode <;> simp only [Spec.requestCount] <;> omega
    have h1 := hge 1
    have h2 := hge (Nat.clog 2 n + 2)
    unfold mainP
    refine between_step fun _ => ?_
    split
    · exact between_panic _ _ _
    · refine between_step fun reports => ?_
      have := between_bind (between_done (.reset draw.verifyKey cfg.histBuckets) (.reset draw.verifyKey cfg.histBuckets))
        fun _ => between_bind (between_upload (draw := draw) (n := n) hb reports) fun _ => hcol reports
      exact between_mono this (by omega) (by omega)
  have := key reply []
  rwa [List.length_nil, Nat.zero_add, Nat.zero_add] at this

/-- **C100, metrics.**  In the two modes without levels the number of requests of a run that comes to its end is always the
same. -/
theorem C100_metrics_exact {mode : DriverMode} (hb : 1 ≤ cfg.addBatch) (hq : 1 ≤ cfg.queryBatch)
    (hm : mode ≠ .weightedHeavyHitters) (reply : List (Req × Req) → Resp × Resp)
    (h : (Spec.dialogue reply (mainP P bld cfg mode draw n) []).2.isSome) :
    (Spec.dialogue reply (mainP P bld cfg mode draw n) []).1.length
      = 1 + Spec.batchCount n cfg.addBatch + 2 * Spec.batchCount n cfg.queryBatch := by
  have := C100_bound (P := P) (bld := bld) (draw := draw) (n := n) (d := 0) hb hq (fun e => absurd e hm) reply
  cases mode with
  | weightedHeavyHitters => exact absurd rfl hm
  | attributeBasedMetrics num => exact le_antisymm this.1 (this.2 h)
  | plainMetrics => exact le_antisymm this.1 (this.2 h)

/-- The requests of a conversation with servers are those of a dialogue. -/
theorem dialogue_of_talk {α : Type} {c0 c1 : ServerCfg} {p : Prog α} {s0 s1 t0 t1 : Server P}
    {sent : List (Req × Req)} {a : α} (h : Spec.Talk c0 c1 p s0 s1 sent a t0 t1) : ∀ before : List (Req × Req),
    ∃ replies : List (Resp × Resp), replies.length = sent.length ∧ ∀ reply : List (Req × Req) → Resp × Resp,
      (∀ k < sent.length, some (reply (before ++ sent.take (k + 1))) = replies[k]?) →
      Spec.dialogue reply p before = (before ++ sent, some a) := by
  induction h with
  | ret a s0 s1 =>
    intro before
    exact ⟨[], rfl, fun reply _ => by rw [Spec.dialogue, List.append_nil]⟩
  | ask r0 r1 k s0 s1 t0 t1 u0 u1 a0 a1 sent a h0 h1 h ih =>
    intro before
    obtain ⟨replies, hl, hr⟩ := ih (before ++ [(r0, r1)])
    refine ⟨(a0, a1) :: replies, by rw [List.length_cons, hl, List.length_cons], fun reply he => ?_⟩
    have e0 := he 0 (by simp)
    simp only [Nat.zero_add, List.take_succ_cons, List.take_zero, List.getElem?_cons_zero, Option.some.injEq] at e0
    rw [Spec.dialogue, e0, hr reply fun k hk => ?_, List.append_assoc]
    · rfl
    · have := he (k + 1) (by simpa using hk)
      rwa [List.take_succ_cons, List.getElem?_cons_succ, show before ++ (r0, r1) :: sent.take (k + 1)
        = before ++ [(r0, r1)] ++ sent.take (k + 1) by simp] at this

/-- **C100, with the servers.**  A conversation of `main` with two servers that run the code, whatever reports its clients
have made. -/
theorem C100_servers {mode : DriverMode} {c0 c1 : ServerCfg} {s0 s1 t0 t1 : Server P} {sent : List (Req × Req)}
    {a : Shown} (hb : 1 ≤ cfg.addBatch) (hq : 1 ≤ cfg.queryBatch)
    (hd : mode = .weightedHeavyHitters → cfg.dataBits = some d ∧ 1 ≤ d)
    (h : Spec.Talk c0 c1 (mainP P bld cfg mode draw n) s0 s1 sent a t0 t1) :
    Spec.requestCount cfg n d 1 mode ≤ sent.length ∧
    sent.length ≤ Spec.requestCount cfg n d (Nat.clog 2 n + 2) mode := by
  obtain ⟨replies, hl, hr⟩ := dialogue_of_talk h []
  have e := hr (fun l => (replies[l.length - 1]?).getD (.done, .done)) fun k hk => by
    rw [List.nil_append, List.length_take, Nat.min_eq_left (by omega), Nat.add_sub_cancel,
      List.getElem?_eq_getElem (by omega)]
    rfl
  have := C100_bound (P := P) (bld := bld) (draw := draw) (n := n) hb hq hd
    fun l => (replies[l.length - 1]?).getD (.done, .done)
  rw [e] at this
  exact ⟨this.2 rfl, this.1⟩

/-! ### The bound is reached -/

/-- The process ends with `a` after `k` pairs of requests, when the servers are stubborn. -/
def Ends {α : Type} (k : Nat) (p : Prog α) (a : α) : Prop :=
  ∀ got, ∃ g, Spec.dialogue Spec.stubborn p got = (g, some a) ∧ g.length = got.length + k

theorem ends_ret {α : Type} (a : α) : Ends 0 (.ret a) a := fun got => ⟨got, rfl, rfl⟩

theorem ends_bind {α β : Type} {k l : Nat} {p : Prog α} {f : α → Prog β} {a : α} {b : β} (h : Ends k p a)
    (hf : Ends l (f a) b) : Ends (k + l) (p >>= f) b := by
  have key : ∀ (p : Prog α) (got : List (Req × Req)), Spec.dialogue Spec.stubborn (p >>= f) got
      = match Spec.dialogue Spec.stubborn p got with
        | (g, some a) => Spec.dialogue Spec.stubborn (f a) g
        | (g, none) => (g, none) := by
    intro p
    induction p with
    | ret a => intro got; rfl
    | panic e => intro got; rfl
    | ask r0 r1 k ih => intro got; exact ih _ _ _
  intro got
  obtain ⟨g, e, hl⟩ := h got
  obtain ⟨g', e', hl'⟩ := hf g
  exact ⟨g', by rw [key, e]; exact e', by omega⟩

theorem ends_exec {α β : Type} {k : Nat} {e : Exec α} {f : α → Prog β} {a : α} {b : β} (he : e = .ok a)
    (hf : Ends k (f a) b) : Ends k (Prog.lift e >>= f) b := by
  rw [he]
  exact hf

theorem ends_ask {α : Type} {r0 r1 : Req} {k : Resp → Resp → Prog α} {a : α} {x : Resp × Resp}
    (hx : ∀ got, Spec.stubborn (got ++ [(r0, r1)]) = x) (h : k x.1 x.2 = .ret a) : Ends 1 (.ask r0 r1 k) a := by
  intro got
  refine ⟨got ++ [(r0, r1)], ?_, by simp⟩
  rw [Spec.dialogue, hx, h, Spec.dialogue]

theorem ends_done {r : Req} (h : ∀ got, Spec.stubborn (got ++ [(r, r)]) = (.done, .done)) : Ends 1 (callDone r r) () :=
  ends_ask h rfl

theorem ends_flpLoop (hq : 1 ≤ cfg.queryBatch) : ∀ (fuel start : Nat), n - start ≤ fuel →
    Ends (Spec.batchCount (n - start) cfg.queryBatch) (flpLoopP P bld cfg n fuel start []) []
  | 0, start, h => by
    unfold flpLoopP
    rw [if_neg (by omega), show n - start = 0 by omega, batchCount_zero hq]
    exact ends_ret _
  | fuel + 1, start, h => by
    unfold flpLoopP
    split
    · rw [batchCount_step hq (by omega), show n - start - cfg.queryBatch = n - (start + cfg.queryBatch) by omega,
        Nat.add_comm]
      refine ends_bind (a := ([], [])) (ends_ask (x := (.fieldVecs [], .fieldVecs []))
        (fun got => by simp [Spec.stubborn]) rfl) ?_
      refine ends_exec (a := ()) (by cases bld <;> rfl) (ends_exec (a := []) rfl ?_)
      exact ends_flpLoop hq fuel _ (by omega)
    · rw [show n - start = 0 by omega, batchCount_zero hq]
      exact ends_ret _

theorem ends_proofLoop (hq : 1 ≤ cfg.queryBatch) : ∀ (fuel start : Nat), n - start ≤ fuel →
    Ends (Spec.batchCount (n - start) cfg.queryBatch) (proofLoopP cfg n fuel start) ()
  | 0, start, h => by
    unfold proofLoopP
    rw [if_neg (by omega), show n - start = 0 by omega, batchCount_zero hq]
    exact ends_ret _
  | fuel + 1, start, h => by
    unfold proofLoopP
    split
    · rw [batchCount_step hq (by omega), show n - start - cfg.queryBatch = n - (start + cfg.queryBatch) by omega,
        Nat.add_comm]
      refine ends_bind (a := ([], [])) (ends_ask (x := (.proofs [], .proofs []))
        (fun got => by simp [Spec.stubborn]) rfl) ?_
      refine ends_exec (a := ()) rfl (ends_exec (a := ()) rfl ?_)
      exact ends_proofLoop hq fuel _ (by omega)
    · rw [show n - start = 0 by omega, batchCount_zero hq]
      exact ends_ret _

theorem ends_crawls {m : Nat} {req : CrawlReq} {fuel : Nat} (h : Ends m (if n ≤ req.splitBy then
      if req.isLast then .ret [] else levelLoopP cfg n fuel { splitBy := req.splitBy, malicious := [0], isLast := true }
      else levelLoopP cfg n fuel { splitBy := req.splitBy * 2, malicious := [0], isLast := req.isLast }) []) :
    Ends (1 + m) (levelLoopP cfg n (fuel + 1) req) [] := by
  rw [levelLoopP]
  refine ends_bind (a := (⟨[], [Vector.replicate 16 0], [0]⟩, ⟨[], [Vector.replicate 16 1], [0]⟩))
    (ends_ask (x := (.crawl ⟨[], [Vector.replicate 16 0], [0]⟩, .crawl ⟨[], [Vector.replicate 16 1], [0]⟩))
        (fun got => by simp [Spec.stubborn]) rfl) ?_
  refine ends_exec (a := ()) rfl (ends_exec (a := []) rfl ?_)
  have hdiff : diffIndices ⟨[], [Vector.replicate 16 0], [0]⟩ ⟨[], [Vector.replicate 16 1], [0]⟩ = .ok [0] := by
    decide +kernel
  exact ends_exec (a := [0]) hdiff h

/-- The search while the split is still below the number of clients. -/
theorem ends_search : ∀ (k fuel : Nat) (mal : List Nat) (split : Nat), 1 ≤ split → split * 2 ^ k < 2 * n →
    n ≤ split * 2 ^ k → k + 2 ≤ fuel → Ends (k + 2) (levelLoopP cfg n fuel ⟨split, mal, false⟩) []
  | k, 0, _, _, _, _, _, hf => absurd hf (by omega)
  | 0, fuel + 1, mal, split, _, _, h2, hf => by
    obtain ⟨fuel, rfl⟩ : ∃ f, fuel = f + 1 := ⟨fuel - 1, by omega⟩
    have hs : n ≤ split := by simpa using h2
    refine ends_crawls (m := 1) ?_
    rw [if_pos hs, if_neg (by simp)]
    refine ends_crawls (m := 0) ?_
    rw [if_pos hs, if_pos rfl]
    exact ends_ret _
  | k + 1, fuel + 1, mal, split, h1, h3, h2, hf => by
    have hs : ¬ n ≤ split := by
      intro hs
      have : split * 2 ^ (k + 1) = 2 * (split * 2 ^ k) := by ring
      have : split * 1 ≤ split * 2 ^ k := Nat.mul_le_mul_left _ Nat.one_le_two_pow
      omega
    rw [show k + 1 + 2 = 1 + (k + 2) by omega]
    refine ends_crawls ?_
    rw [if_neg hs]
    refine ends_search k fuel [0] (split * 2) (by omega) ?_ ?_ (by omega)
    · rw [show split * 2 * 2 ^ k = split * 2 ^ (k + 1) by ring]
      exact h3
    · rw [show split * 2 * 2 ^ k = split * 2 ^ (k + 1) by ring]
      exact h2

theorem ends_level (hn : 1 ≤ n) : Ends (Nat.clog 2 n + 2 + 1) (levelP cfg n) () := by
  refine ends_bind (a := []) (ends_search (Nat.clog 2 n) (n + 3) [] 1 le_rfl ?_ ?_ ?_) (ends_done fun got => by
    simp [Spec.stubborn])
  · rw [Nat.one_mul]
    by_cases h : n = 1
    · rw [h]; simp
    · have h1 := Nat.pow_pred_clog_lt_self (b := 2) (x := n) (by norm_num) (by omega)
      have h2 : 0 < Nat.clog 2 n := Nat.clog_pos (by norm_num) (by omega)
      obtain ⟨m, hm⟩ : ∃ m, Nat.clog 2 n = m + 1 := ⟨Nat.clog 2 n - 1, by omega⟩
      rw [hm] at h1 ⊢
      rw [Nat.pred_succ] at h1
      rw [Nat.pow_succ]
      omega
  · rw [Nat.one_mul]
    exact Nat.le_pow_clog (by norm_num) n
  · have : Nat.clog 2 n ≤ n := Nat.clog_le_of_le_pow (Nat.lt_two_pow_self).le
    omega

theorem ends_levels (hn : 1 ≤ n) (hq : 1 ≤ cfg.queryBatch) : ∀ ls : List Nat,
    Ends (ls.count 0 * (Spec.batchCount n cfg.queryBatch + 1) + ls.length * (Nat.clog 2 n + 2 + 1))
      (levelsP P bld cfg n ls) ()
  | [] => by
    simp only [List.count_nil, Nat.zero_mul, List.length_nil, Nat.add_zero]
    exact ends_ret ()
  | l :: ls => by
    have hf : Ends (if l = 0 then Spec.batchCount n cfg.queryBatch + 1 else 0)
        (if l = 0 then flpP P bld cfg n else .ret ()) () := by
      split
      · exact ends_bind (ends_flpLoop hq n 0 (by omega)) (ends_done fun got => by simp [Spec.stubborn])
      · exact ends_ret _
    have h := ends_bind (f := fun _ => levelP cfg n >>= fun _ => levelsP P bld cfg n ls) hf
      (ends_bind (ends_level hn) (ends_levels hn hq ls))
    have e : levelsP P bld cfg n (l :: ls) = ((if l = 0 then flpP P bld cfg n else .ret ()) >>= fun _ =>
        levelP cfg n >>= fun _ => levelsP P bld cfg n ls) := by
      rw [levelsP]
      split <;> rfl
    rw [e]
    have hk : (l :: ls).count 0 * (Spec.batchCount n cfg.queryBatch + 1) + (l :: ls).length * (Nat.clog 2 n + 2 + 1)
        = (if l = 0 then Spec.batchCount n cfg.queryBatch + 1 else 0) + (Nat.clog 2 n + 2 + 1
          + (ls.count 0 * (Spec.batchCount n cfg.queryBatch + 1) + ls.length * (Nat.clog 2 n + 2 + 1))) := by
      rw [List.count_cons, List.length_cons]
      simp only [beq_iff_eq]
      split <;> simp [Nat.add_mul] <;> omega
    rw [hk]
    exact h

/-- **C100, the bound is reached.**  Servers that disagree in every crawl make the driver send as many requests as
`C100_bound` allows for the part of a weighted-heavy-hitters run after the upload, and the run comes to its end, for every
number of clients, string length, threshold and batch size. -/
theorem C100_tight (hn : 1 ≤ n) (hq : 1 ≤ cfg.queryBatch) (hd : cfg.dataBits = some d) (hd1 : 1 ≤ d) :
    (Spec.dialogue Spec.stubborn (whhP P bld cfg n) []).2.isSome ∧
    1 + Spec.batchCount n cfg.addBatch + (Spec.dialogue Spec.stubborn (whhP P bld cfg n) []).1.length
      = Spec.requestCount cfg n d (Nat.clog 2 n + 2) .weightedHeavyHitters := by
  have hlev : levelCount bld cfg.dataBits = .ok (d - 1) := by
    rw [hd]
    simp [levelCount, unwrapO, show d ≠ 0 by omega]
  have hlast : Ends (1 + Spec.batchCount n cfg.queryBatch + 2) (levelLastP cfg n) (.whh [] []) := by
    rw [Nat.add_assoc]
    refine ends_bind (a := ([], [])) (ends_ask (x := (.fieldVecs [], .fieldVecs []))
        (fun got => by simp [Spec.stubborn]) rfl) ?_
    refine ends_exec (a := ()) rfl (ends_exec (a := []) rfl ?_)
    refine ends_bind (ends_proofLoop hq n 0 (by omega)) ?_
    refine ends_bind (k := 1) (l := 1) (ends_done fun got => by simp [Spec.stubborn]) ?_
    refine ends_bind (k := 1) (l := 0) (a := ([], [])) (ends_ask (x := (.shares [], .shares []))
        (fun got => by simp [Spec.stubborn]) rfl) ?_
    exact ends_exec (a := d) (by rw [hd]; rfl) (ends_exec (a := []) rfl (ends_exec (a := []) rfl (ends_ret _)))
  have h : Ends _ (whhP P bld cfg n) (.whh [] []) :=
    ends_bind (p := callDone .treeInit .treeInit) (a := ()) (ends_done fun got => by simp [Spec.stubborn])
      (ends_exec hlev (ends_bind (ends_levels hn hq (List.range (d - 1))) hlast))
  obtain ⟨g, e, hl⟩ := h []
  rw [e]
  refine ⟨rfl, ?_⟩
  have hc : (List.range (d - 1)).count 0 = if d = 1 then 0 else 1 := by
    rw [List.Nodup.count List.nodup_range]
    simp only [List.mem_range]
    split <;> split <;> omega
  rw [hc, List.length_range, List.length_nil] at hl
  simp only [Spec.requestCount]
  split at hl <;> split <;> omega

/-! ### Concrete runs -/

/-- Five clients with strings of three bits in batches of two. -/
example : Spec.requestCount ⟨some 3, 2, 2, 2, 2, 2⟩ 5 3 (Nat.clog 2 5 + 2) .weightedHeavyHitters = 27 := by
  decide +kernel

/-- The toy primitives and any answers. -/
example (reply : List (Req × Req) → Resp × Resp) :
    (Spec.dialogue reply (mainP toy .debug ⟨some 3, 2, 2, 2, 2, 2⟩ .weightedHeavyHitters seedsDraw 5) []).1.length
      ≤ Spec.requestCount ⟨some 3, 2, 2, 2, 2, 2⟩ 5 3 (Nat.clog 2 5 + 2) .weightedHeavyHitters :=
  (C100_bound (by decide) (by decide) (fun _ => ⟨rfl, by decide⟩) reply).1

/-- Stubborn servers reach it. -/
example : (Spec.dialogue Spec.stubborn (whhP toy .debug ⟨some 3, 2, 2, 2, 2, 2⟩ 5) []).1.length = 23 := by
  have := (C100_tight (P := toy) (bld := .debug) (cfg := ⟨some 3, 2, 2, 2, 2, 2⟩) (n := 5) (d := 3) (by decide)
    (by decide) rfl (by decide)).2
  have e : Spec.requestCount ⟨some 3, 2, 2, 2, 2, 2⟩ 5 3 (Nat.clog 2 5 + 2) .weightedHeavyHitters = 27 := by
    decide +kernel
  have e' : Spec.batchCount 5 2 = 3 := by decide
  rw [e] at this
  change 1 + Spec.batchCount 5 2 + _ = 27 at this
  omega

end Mastic
