import Verif.Spec.Effort
import Verif.Lemmas.DeviateAbm

/-!
# How many requests a run sends: lemmas
-/

namespace Mastic

variable {α β : Type} {P : Prims} {bld : Build} {cfg : Config}

/-- The process sends at most `hi` pairs of requests, and at least `lo` if it comes to its end. -/
def Between (lo hi : Nat) (p : Prog α) : Prop :=
  ∀ (reply : List (Req × Req) → Resp × Resp) (got : List (Req × Req)),
    (Spec.dialogue reply p got).1.length ≤ got.length + hi ∧
    ((Spec.dialogue reply p got).2.isSome → got.length + lo ≤ (Spec.dialogue reply p got).1.length)

theorem between_ret (a : α) : Between 0 0 (.ret a : Prog α) := fun _ _ => ⟨le_rfl, fun _ => le_rfl⟩

theorem between_panic (e : Panic) (lo hi : Nat) : Between lo hi (.panic e : Prog α) :=
  fun _ _ => ⟨Nat.le_add_right _ _, fun h => nomatch h⟩

theorem between_mono {lo hi lo' hi' : Nat} {p : Prog α} (h : Between lo hi p) (h1 : lo' ≤ lo) (h2 : hi ≤ hi') :
    Between lo' hi' p :=
  fun reply got => ⟨by have := (h reply got).1; omega, fun hs => by have := (h reply got).2 hs; omega⟩

theorem between_bind {lo hi lo' hi' : Nat} {p : Prog α} {f : α → Prog β} (h : Between lo hi p)
    (hf : ∀ a, Between lo' hi' (f a)) : Between (lo + lo') (hi + hi') (p >>= f) := by
  have key : ∀ (reply : List (Req × Req) → Resp × Resp) (p : Prog α) (got : List (Req × Req)),
      Spec.dialogue reply (p >>= f) got = match Spec.dialogue reply p got with
        | (g, some a) => Spec.dialogue reply (f a) g
        | (g, none) => (g, none) := by
    intro reply p
    induction p with
    | ret a => intro got; rfl
    | panic e => intro got; rfl
    | ask r0 r1 k ih => intro got; exact ih _ _ _
  intro reply got
  rw [key]
  have h1 := h reply got
  cases hd : Spec.dialogue reply p got with
  | mk g a =>
    rw [hd] at h1
    cases a with
    | none => exact ⟨by have := h1.1; simp only at this ⊢; omega, fun hs => nomatch hs⟩
    | some a =>
      have h2 := hf a reply g
      have h3 := h1.2 rfl
      have h4 := h1.1
      simp only at h3 h4 ⊢
      exact ⟨by have := h2.1; omega, fun hs => by have := h2.2 hs; omega⟩

theorem between_lift (e : Exec α) : Between 0 0 (Prog.lift e) := by
  cases e with
  | ok a => exact between_ret a
  | error e => exact between_panic e 0 0

theorem between_step {lo hi : Nat} {e : Exec α} {f : α → Prog β} (hf : ∀ a, Between lo hi (f a)) :
    Between lo hi (Prog.lift e >>= f) := by
  have := between_bind (between_lift e) hf
  rwa [Nat.zero_add, Nat.zero_add] at this

theorem between_exec {lo hi : Nat} {e : Exec α} {a : α} {f : α → Prog β} (he : e = .ok a) (hf : Between lo hi (f a)) :
    Between lo hi (Prog.lift e >>= f) := by
  rw [he]
  exact hf

theorem between_ask {r0 r1 : Req} {k : Resp → Resp → Prog α} {lo hi : Nat} (h : ∀ a b, Between lo hi (k a b)) :
    Between (1 + lo) (1 + hi) (.ask r0 r1 k) := by
  intro reply got
  have := h (reply (got ++ [(r0, r1)])).1 (reply (got ++ [(r0, r1)])).2 reply (got ++ [(r0, r1)])
  rw [List.length_append, List.length_singleton] at this
  exact ⟨by have := this.1; rw [Spec.dialogue]; omega, fun hs => by
    have := this.2 hs
    rw [Spec.dialogue]; omega⟩

theorem between_done (r0 r1 : Req) : Between 1 1 (callDone r0 r1) :=
  between_ask (lo := 0) (hi := 0) fun a b => by
    split
    exacts [between_ret _, between_panic _ _ _]

theorem between_crawl (r0 r1 : Req) : Between 1 1 (callCrawl r0 r1) :=
  between_ask (lo := 0) (hi := 0) fun a b => by
    split
    exacts [between_ret _, between_panic _ _ _]

theorem between_vecs (r0 r1 : Req) : Between 1 1 (callVecs r0 r1) :=
  between_ask (lo := 0) (hi := 0) fun a b => by
    split
    exacts [between_ret _, between_panic _ _ _]

theorem between_proofs (r0 r1 : Req) : Between 1 1 (callProofs r0 r1) :=
  between_ask (lo := 0) (hi := 0) fun a b => by
    split
    exacts [between_ret _, between_panic _ _ _]

theorem between_shares (r0 r1 : Req) : Between 1 1 (callShares r0 r1) :=
  between_ask (lo := 0) (hi := 0) fun a b => by
    split
    exacts [between_ret _, between_panic _ _ _]

theorem between_validated (r0 r1 : Req) : Between 1 1 (callValidated r0 r1) :=
  between_ask (lo := 0) (hi := 0) fun a b => by
    split
    exacts [between_ret _, between_panic _ _ _]

theorem between_bytes (r0 r1 : Req) : Between 1 1 (callBytes r0 r1) :=
  between_ask (lo := 0) (hi := 0) fun a b => by
    split
    exacts [between_ret _, between_panic _ _ _]

theorem between_aggregate (r0 r1 : Req) : Between 1 1 (callAggregate r0 r1) :=
  between_ask (lo := 0) (hi := 0) fun a b => by
    split
    exacts [between_ret _, between_panic _ _ _]

/-! ### Batches -/

theorem batchCount_zero {b : Nat} (hb : 1 ≤ b) : Spec.batchCount 0 b = 0 :=
  Nat.div_eq_of_lt (by omega)

/-- One batch less. -/
theorem batchCount_step {n b : Nat} (hb : 1 ≤ b) (hn : 1 ≤ n) : Spec.batchCount n b = Spec.batchCount (n - b) b + 1 := by
  unfold Spec.batchCount
  by_cases h : b ≤ n
  · rw [show n + b - 1 = (n - b + b - 1) + b by omega, Nat.add_div_right _ hb]
  · rw [show n - b = 0 by omega, Nat.div_eq_of_lt (show 0 + b - 1 < b by omega)]
    exact Nat.div_eq_of_lt_le (by omega) (by omega)

theorem batchRound_count {b : Nat} (hb : 1 ≤ b) : ∀ k left,
    (batchRound b k left).1.length + Spec.batchCount (batchRound b k left).2 b = Spec.batchCount left b
  | 0, left => by simp [batchRound]
  | k + 1, left => by
    have ih := batchRound_count hb k (left - min left b)
    rw [batchRound]
    split
    · rw [List.length_cons]
      have : left - min left b = left - b := by omega
      have h2 := batchCount_step (n := left) hb (by omega)
      rw [this] at ih
      rw [this]
      show _ + 1 + Spec.batchCount (batchRound b k (left - b)).2 b = _
      omega
    · have : left - min left b = left := by omega
      rw [this] at ih
      rw [this]
      exact ih

theorem uploadBatches_count {b : Nat} (hb : 1 ≤ b) : ∀ (fuel left : Nat) {sizes : List Nat},
    uploadBatches b fuel left = .ok sizes → sizes.length = Spec.batchCount left b
  | fuel, 0, sizes, h => by
    have : uploadBatches b fuel 0 = .ok [] := by cases fuel <;> rfl
    rw [this] at h
    cases h
    rw [batchCount_zero hb]
    rfl
  | 0, left + 1, sizes, h => nomatch h
  | fuel + 1, left + 1, sizes, h => by
    rw [uploadBatches] at h
    obtain ⟨rest, hr, h⟩ := bind_eq_ok.1 h
    cases h
    have := uploadBatches_count hb fuel _ hr
    rw [List.length_append, this]
    exact batchRound_count hb 1000 (left + 1)

theorem between_await (reports : List PlaintextReport) : ∀ bs : List (List (Nat × Option Tamper)),
    Between bs.length bs.length (awaitAllP reports bs)
  | [] => between_ret _
  | b :: bs => by
    have : Between (1 + bs.length) (1 + bs.length) (awaitAllP reports (b :: bs)) := by
      refine between_bind (p := addReportsP reports b) ?_ fun _ => between_await reports bs
      exact between_step fun sh => between_done _ _
    rwa [List.length_cons, Nat.add_comm]

theorem between_upload {draw : MainDraw} {n : Nat} (hb : 1 ≤ cfg.addBatch) (reports : List PlaintextReport) :
    Between (Spec.batchCount n cfg.addBatch) (Spec.batchCount n cfg.addBatch) (mainUploadP cfg draw reports n) := by
  unfold mainUploadP
  split
  · exact between_panic _ _ _
  · unfold uploadP
    rw [List.length_map, List.length_range]
    obtain ⟨sizes, hs, -⟩ := uploadBatches_spec hb n n le_rfl
    refine between_exec hs ?_
    have := between_await reports (splitBatches sizes ((List.range n).map draw.picks))
    rwa [length_splitBatches, uploadBatches_count hb n n hs] at this

/-! ### Weighted heavy hitters -/

theorem between_flpLoop {n : Nat} (hb : 1 ≤ cfg.queryBatch) : ∀ (fuel start : Nat) (keep : List Bool),
    Between (Spec.batchCount (n - start) cfg.queryBatch) (Spec.batchCount (n - start) cfg.queryBatch)
      (flpLoopP P bld cfg n fuel start keep)
  | 0, start, keep => by
    unfold flpLoopP
    split
    · exact between_panic _ _ _
    · rw [show n - start = 0 by omega, batchCount_zero hb]
      exact between_ret _
  | fuel + 1, start, keep => by
    unfold flpLoopP
    split
    · rw [batchCount_step hb (by omega), show n - start - cfg.queryBatch = n - (start + cfg.queryBatch) by omega,
        Nat.add_comm]
      refine between_bind (between_vecs _ _) fun v => ?_
      exact between_step fun _ => between_step fun ks => between_flpLoop hb fuel _ _
    · rw [show n - start = 0 by omega, batchCount_zero hb]
      exact between_ret _

theorem between_proofLoop {n : Nat} (hb : 1 ≤ cfg.queryBatch) : ∀ (fuel start : Nat),
    Between (Spec.batchCount (n - start) cfg.queryBatch) (Spec.batchCount (n - start) cfg.queryBatch)
      (proofLoopP cfg n fuel start)
  | 0, start => by
    unfold proofLoopP
    split
    · exact between_panic _ _ _
    · rw [show n - start = 0 by omega, batchCount_zero hb]
      exact between_ret _
  | fuel + 1, start => by
    unfold proofLoopP
    split
    · rw [batchCount_step hb (by omega), show n - start - cfg.queryBatch = n - (start + cfg.queryBatch) by omega,
        Nat.add_comm]
      refine between_bind (between_proofs _ _) fun v => ?_
      exact between_step fun _ => between_step fun _ => between_proofLoop hb fuel _
    · rw [show n - start = 0 by omega, batchCount_zero hb]
      exact between_ret _

theorem between_levelLoop {n : Nat} : ∀ (fuel k m : Nat) (req : CrawlReq), 1 ≤ req.splitBy → n ≤ req.splitBy * 2 ^ k →
    (if req.isLast then 1 else 2) + k ≤ m → Between 1 m (levelLoopP cfg n fuel req)
  | 0, _, _, _, _, _, _ => between_panic _ _ _
  | fuel + 1, k, m, req, h1, hk, hm => by
    obtain ⟨m, rfl⟩ : ∃ m', m = 1 + m' := ⟨m - 1, by split at hm <;> omega⟩
    have hone : ∀ keep : List Bool, Between 0 m (.ret keep : Prog (List Bool)) :=
      fun keep => between_mono (between_ret keep) le_rfl (Nat.zero_le _)
    unfold levelLoopP
    refine between_bind (lo := 1) (lo' := 0) (between_crawl _ _) fun r => ?_
    refine between_step fun _ => between_step fun keep => ?_
    by_cases hr : r.1.roots.isEmpty = true
    · rw [if_pos hr]
      exact hone keep
    · rw [if_neg hr]
      refine between_step fun malicious => ?_
      by_cases hma : malicious.isEmpty = true
      · rw [if_pos hma]
        exact hone keep
      · rw [if_neg hma]
        by_cases hn : n ≤ req.splitBy
        · rw [if_pos hn]
          by_cases hl : req.isLast = true
          · rw [if_pos hl]
            exact hone keep
          · rw [if_neg hl] at hm ⊢
            exact between_mono (between_levelLoop fuel k m { splitBy := req.splitBy, malicious, isLast := true } h1 hk
              (by simp only [if_true]; omega)) (Nat.zero_le _) le_rfl
        · rw [if_neg hn]
          obtain ⟨k, rfl⟩ : ∃ k', k = k' + 1 := by
            cases k with
            | zero => simp at hk; omega
            | succ k => exact ⟨k, rfl⟩
          refine between_mono (between_levelLoop fuel k m { splitBy := req.splitBy * 2, malicious, isLast := req.isLast }
            (by simp only; omega) (by
              simp only
              rw [Nat.pow_succ] at hk
              calc
                n ≤ _ := hk
                _ = _ := by ring) (by simp only; omega)) (Nat.zero_le _) le_rfl

theorem between_level {n : Nat} : Between 2 (Nat.clog 2 n + 2 + 1) (levelP cfg n) := by
  have h : Between 1 (Nat.clog 2 n + 2) (levelLoopP cfg n (n + 3) { splitBy := 1, malicious := [], isLast := false }) :=
    between_levelLoop (n + 3) (Nat.clog 2 n) _ _ le_rfl (by
      rw [Nat.one_mul]
      exact Nat.le_pow_clog (by norm_num) n) (by simp only [Bool.false_eq_true, if_false]; omega)
  exact between_bind h fun keep => between_done _ _

theorem between_levels {n : Nat} (hb : 1 ≤ cfg.queryBatch) : ∀ ls : List Nat,
    Between (ls.count 0 * (Spec.batchCount n cfg.queryBatch + 1) + ls.length * 2)
      (ls.count 0 * (Spec.batchCount n cfg.queryBatch + 1) + ls.length * (Nat.clog 2 n + 2 + 1)) (levelsP P bld cfg n ls)
  | [] => by
    simp only [List.count_nil, Nat.zero_mul, List.length_nil, Nat.add_zero]
    exact between_ret ()
  | l :: ls => by
    have ih := between_levels (n := n) hb ls
    have hf : Between (if l = 0 then Spec.batchCount n cfg.queryBatch + 1 else 0)
        (if l = 0 then Spec.batchCount n cfg.queryBatch + 1 else 0) (if l = 0 then flpP P bld cfg n else .ret ()) := by
      split
      · exact between_bind (between_flpLoop hb n 0 []) fun keep => between_done _ _
      · exact between_ret _
    have h := between_bind hf fun _ => between_bind (between_level (cfg := cfg) (n := n)) fun _ => ih
    have e : levelsP P bld cfg n (l :: ls) = ((if l = 0 then flpP P bld cfg n else .ret ()) >>= fun _ =>
        levelP cfg n >>= fun _ => levelsP P bld cfg n ls) := by
      rw [levelsP]
      split <;> rfl
    rw [e]
    refine between_mono h ?_ ?_
    · rw [List.count_cons, List.length_cons]
      simp only [beq_iff_eq]
      split <;> simp [Nat.add_mul] <;> omega
    · rw [List.count_cons, List.length_cons]
      simp only [beq_iff_eq]
      split <;> simp [Nat.add_mul] <;> omega

theorem between_last {n : Nat} (hb : 1 ≤ cfg.queryBatch) :
    Between (1 + Spec.batchCount n cfg.queryBatch + 2) (1 + Spec.batchCount n cfg.queryBatch + 2) (levelLastP cfg n) := by
  rw [Nat.add_assoc]
  refine between_bind (between_vecs _ _) fun v => between_step fun _ => between_step fun keep => ?_
  refine between_bind (between_proofLoop hb n 0) fun _ => ?_
  refine between_bind (lo := 1) (hi := 1) (lo' := 1) (hi' := 1) (between_done _ _) fun _ => ?_
  refine between_bind (lo := 1) (hi := 1) (lo' := 0) (hi' := 0) (between_shares _ _) fun sh => ?_
  exact between_step fun _ => between_step fun _ => between_step fun _ => between_ret _

/-! ### The metrics -/

theorem between_abmLoop {attrs : List (List Bool)} : ∀ rs : List (Nat × Nat),
    Between (2 * rs.length) (2 * rs.length) (abmLoopP P cfg attrs rs)
  | [] => between_ret _
  | r :: rs => by
    have hb : Between 2 2 (abmBatchP P cfg attrs r) := by
      refine between_bind (lo := 1) (hi := 1) (lo' := 1) (hi' := 1) (between_validated _ _) fun v => ?_
      refine between_step fun _ => between_step fun _ => between_step fun rej => ?_
      exact between_bind (lo := 1) (hi := 1) (lo' := 0) (hi' := 0) (between_vecs _ _) fun a => between_ret _
    have := between_bind hb fun o => between_bind (between_abmLoop (attrs := attrs) rs)
      fun os => between_ret (o :: os)
    rw [show 2 + (2 * rs.length + 0) = 2 * (r :: rs).length by rw [List.length_cons]; ring] at this
    exact this

theorem between_pmLoop : ∀ rs : List (Nat × Nat), Between (2 * rs.length) (2 * rs.length) (pmLoopP P cfg rs)
  | [] => between_ret _
  | r :: rs => by
    have hb : Between 2 2 (pmBatchP P cfg r) := by
      refine between_bind (lo := 1) (hi := 1) (lo' := 1) (hi' := 1) (between_bytes _ _) fun v => ?_
      refine between_step fun _ => between_step fun _ => ?_
      refine between_bind (lo := 1) (hi := 1) (lo' := 0) (hi' := 0) (between_aggregate _ _) fun a => ?_
      exact between_step fun _ => between_step fun _ => between_ret _
    have := between_bind hb fun o => between_bind (between_pmLoop rs)
      fun os => between_ret (o :: os)
    rw [show 2 + (2 * rs.length + 0) = 2 * (r :: rs).length by rw [List.length_cons]; ring] at this
    exact this

end Mastic
