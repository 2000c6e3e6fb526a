import Verif.Spec.Script
import Verif.Lemmas.System
import Verif.Props.Whh

/-!
# Helper lemmas: the requests that a run sends
-/

namespace Mastic

variable {P : Prims} {α β : Type} {c0 c1 : ServerCfg}

/-- A conversation with two running servers. -/
def Tells (c0 c1 : ServerCfg) (p : Prog α) (kcs : Pair2 P) (sent : List (Req × Req)) (a : α) (kcs' : Pair2 P) : Prop :=
  Spec.Talk c0 c1 p (.running kcs.1) (.running kcs.2) sent a (.running kcs'.1) (.running kcs'.2)

theorem talk_step {cfg : ServerCfg} {kc kc' : KeyCollection P} {r : Req} {a : Resp} (p : preLock cfg r = .ok ())
    (h : locked cfg kc r = .ok (kc', a)) : (Server.running kc).handle cfg r = (.running kc', .ok a) := by
  simp only [Server.handle, p, h]

theorem talk_step_ok {cfg : ServerCfg} {kc : KeyCollection P} {s : Server P} {r : Req} {a : Resp}
    (h : (Server.running kc).handle cfg r = (s, .ok a)) :
    preLock cfg r = .ok () ∧ ∃ kc', s = .running kc' ∧ locked cfg kc r = .ok (kc', a) := by
  unfold Server.handle at h
  cases hp : preLock cfg r with
  | error e => simp [hp] at h
  | ok u =>
    simp only [hp] at h
    cases hl : locked cfg kc r with
    | error e => simp [hl] at h
    | ok x =>
      simp only [hl, Prod.mk.injEq, Except.ok.injEq] at h
      obtain ⟨rfl, rfl⟩ := h
      exact ⟨rfl, x.1, rfl, rfl⟩

theorem tells_exec {p : Prog α} {kcs kcs' : Pair2 P} {a : α} (h : p.exec c0 c1 kcs = .ok (a, kcs')) :
    ∃ sent, Tells c0 c1 p kcs sent a kcs' := by
  induction p generalizing kcs with
  | ret b => cases h; exact ⟨[], .ret _ _ _⟩
  | panic p => cases h
  | ask r0 r1 k ih =>
    rw [Prog.exec] at h
    obtain ⟨u, p0, h⟩ := bind_eq_ok.1 h
    obtain ⟨x0, h0, h⟩ := bind_eq_ok.1 h
    obtain ⟨v, p1, h⟩ := bind_eq_ok.1 h
    obtain ⟨x1, h1, h⟩ := bind_eq_ok.1 h
    obtain ⟨sent, hs⟩ := ih x0.2 x1.2 h
    exact ⟨_, .ask r0 r1 k _ _ _ _ _ _ _ _ sent a (talk_step p0 h0) (talk_step p1 h1) hs⟩

/-- The parts of a conversation about a sequential composition. -/
theorem talk_bind {p : Prog α} {f : α → Prog β} {s0 s1 u0 u1 : Server P} {sent : List (Req × Req)} {b : β} :
    Spec.Talk c0 c1 (p >>= f) s0 s1 sent b u0 u1 ↔
      ∃ x y a t0 t1, sent = x ++ y ∧ Spec.Talk c0 c1 p s0 s1 x a t0 t1 ∧ Spec.Talk c0 c1 (f a) t0 t1 y b u0 u1 := by
  induction p generalizing s0 s1 sent with
  | ret a =>
    constructor
    · intro h; exact ⟨[], sent, a, s0, s1, rfl, .ret _ _ _, h⟩
    · rintro ⟨x, y, a, t0, t1, rfl, h1, h2⟩
      cases h1
      exact h2
  | panic p =>
    constructor
    · intro h; cases h
    · rintro ⟨x, y, a, t0, t1, rfl, h1, h2⟩
      cases h1
  | ask r0 r1 k ih =>
    constructor
    · intro h
      cases h with
      | ask _ _ _ _ _ t0 t1 _ _ a0 a1 sent _ h0 h1 h =>
        obtain ⟨x, y, a, w0, w1, rfl, g1, g2⟩ := (ih a0 a1).1 h
        exact ⟨_, y, a, w0, w1, rfl, .ask _ _ _ _ _ _ _ _ _ _ _ x a h0 h1 g1, g2⟩
    · rintro ⟨x, y, a, t0, t1, rfl, h1, h2⟩
      cases h1 with
      | ask _ _ _ _ _ v0 v1 _ _ a0 a1 sent _ h0 h1 h =>
        exact .ask _ _ _ _ _ _ _ _ _ _ _ _ b h0 h1 ((ih a0 a1).2 ⟨sent, y, a, t0, t1, rfl, h, h2⟩)

theorem Tells.bind {p : Prog α} {f : α → Prog β} {kcs k1 k2 : Pair2 P} {x y : List (Req × Req)} {a : α} {b : β}
    (h1 : Tells c0 c1 p kcs x a k1) (h2 : Tells c0 c1 (f a) k1 y b k2) :
    Tells c0 c1 (p >>= f) kcs (x ++ y) b k2 :=
  talk_bind.2 ⟨x, y, a, _, _, rfl, h1, h2⟩

theorem talk_running {p : Prog α} {s0 s1 u0 u1 : Server P} {sent : List (Req × Req)} {a : α}
    (h : Spec.Talk c0 c1 p s0 s1 sent a u0 u1) :
    ∀ kcs : Pair2 P, s0 = .running kcs.1 → s1 = .running kcs.2 →
      ∃ kcs' : Pair2 P, u0 = .running kcs'.1 ∧ u1 = .running kcs'.2 ∧ p.exec c0 c1 kcs = .ok (a, kcs') := by
  induction h with
  | ret a s0 s1 => intro kcs e0 e1; exact ⟨kcs, e0, e1, rfl⟩
  | ask r0 r1 k s0 s1 t0 t1 u0 u1 a0 a1 sent a h0 h1 h ih =>
    intro kcs e0 e1
    subst e0 e1
    obtain ⟨p0, k0, rfl, l0⟩ := talk_step_ok h0
    obtain ⟨p1, k1, rfl, l1⟩ := talk_step_ok h1
    obtain ⟨kcs', g0, g1, g⟩ := ih (k0, k1) rfl rfl
    refine ⟨kcs', g0, g1, ?_⟩
    rw [Prog.exec, p0, ok_bind, l0, ok_bind, p1, ok_bind, l1, ok_bind]
    exact g

theorem Tells.exec {p : Prog α} {kcs kcs' : Pair2 P} {sent : List (Req × Req)} {a : α}
    (h : Tells c0 c1 p kcs sent a kcs') : p.exec c0 c1 kcs = .ok (a, kcs') := by
  obtain ⟨k, g0, g1, g⟩ := talk_running h kcs rfl rfl
  obtain rfl : kcs' = k := Prod.ext (Server.running.inj g0) (Server.running.inj g1)
  exact g

theorem tells_bind {p : Prog α} {f : α → Prog β} {kcs k2 : Pair2 P} {sent : List (Req × Req)} {b : β}
    (h : Tells c0 c1 (p >>= f) kcs sent b k2) :
    ∃ x y a k1, sent = x ++ y ∧ Tells c0 c1 p kcs x a k1 ∧ Tells c0 c1 (f a) k1 y b k2 := by
  obtain ⟨x, y, a, t0, t1, e, h1, h2⟩ := talk_bind.1 h
  obtain ⟨k1, rfl, rfl, -⟩ := talk_running h1 kcs rfl rfl
  exact ⟨x, y, a, k1, e, h1, h2⟩

theorem tells_lift {e : Exec α} {kcs k : Pair2 P} {sent : List (Req × Req)} {a : α}
    (h : Tells c0 c1 (Prog.lift e) kcs sent a k) : sent = [] ∧ k = kcs ∧ e = .ok a := by
  cases e with
  | error e => cases h
  | ok b =>
    have := h.exec
    rw [exec_lift, ok_bind] at this
    cases this
    cases h
    exact ⟨rfl, rfl, rfl⟩

theorem tells_ret {b a : α} {kcs k : Pair2 P} {sent : List (Req × Req)}
    (h : Tells c0 c1 (Prog.ret b) kcs sent a k) : sent = [] ∧ k = kcs ∧ b = a := by
  have := h.exec
  cases this
  cases h
  exact ⟨rfl, rfl, rfl⟩

/-- A process that asks once. -/
theorem tells_ask {r0 r1 : Req} {k : Resp → Resp → Prog α} {kcs k' : Pair2 P} {sent : List (Req × Req)} {a : α}
    (hk : ∀ a0 a1, (∃ b, k a0 a1 = .ret b) ∨ ∃ p, k a0 a1 = .panic p)
    (h : Tells c0 c1 (.ask r0 r1 k) kcs sent a k') : sent = [(r0, r1)] := by
  cases h with
  | ask _ _ _ _ _ t0 t1 _ _ a0 a1 sent _ h0 h1 h =>
    rcases hk a0 a1 with ⟨b, e⟩ | ⟨p, e⟩
    · rw [e] at h; cases h; rfl
    · rw [e] at h; cases h

macro "one_call" h:ident : tactic =>
  `(tactic| exact tells_ask (fun a0 a1 => by cases a0 <;> cases a1 <;> first
      | exact Or.inl ⟨_, rfl⟩ | exact Or.inr ⟨_, rfl⟩) $h)

theorem tells_done {r0 r1 : Req} {kcs k : Pair2 P} {sent : List (Req × Req)} {a : Unit}
    (h : Tells c0 c1 (callDone r0 r1) kcs sent a k) : sent = [(r0, r1)] := by
  unfold callDone at h
  one_call h

theorem tells_vecs {r0 r1 : Req} {kcs k : Pair2 P} {sent : List (Req × Req)} {a}
    (h : Tells c0 c1 (callVecs r0 r1) kcs sent a k) : sent = [(r0, r1)] := by
  unfold callVecs at h
  one_call h

theorem tells_crawl {r0 r1 : Req} {kcs k : Pair2 P} {sent : List (Req × Req)} {a}
    (h : Tells c0 c1 (callCrawl r0 r1) kcs sent a k) : sent = [(r0, r1)] := by
  unfold callCrawl at h
  one_call h

theorem tells_proofs {r0 r1 : Req} {kcs k : Pair2 P} {sent : List (Req × Req)} {a}
    (h : Tells c0 c1 (callProofs r0 r1) kcs sent a k) : sent = [(r0, r1)] := by
  unfold callProofs at h
  one_call h

theorem tells_shares {r0 r1 : Req} {kcs k : Pair2 P} {sent : List (Req × Req)} {a}
    (h : Tells c0 c1 (callShares r0 r1) kcs sent a k) : sent = [(r0, r1)] := by
  unfold callShares at h
  one_call h

theorem tells_validated {r0 r1 : Req} {kcs k : Pair2 P} {sent : List (Req × Req)} {a}
    (h : Tells c0 c1 (callValidated r0 r1) kcs sent a k) : sent = [(r0, r1)] := by
  unfold callValidated at h
  one_call h

/-! ### The loops over batches -/

theorem whileRanges_eq {n b : Nat} (hb : 1 ≤ b) : ∀ (fuel start : Nat), n ≤ start + fuel →
    whileRanges n b fuel start = .ok ((List.range ((n - start + b - 1) / b)).map fun k =>
      (start + k * b, min n (start + k * b + b)))
  | 0, start, h => by
    rw [whileRanges, if_neg (by omega), show n - start + b - 1 = b - 1 by omega, Nat.div_eq_of_lt (by omega)]
    rfl
  | fuel + 1, start, h => by
    rw [whileRanges]
    by_cases hs : start < n
    · rw [if_pos hs, whileRanges_eq hb fuel (start + b) (by omega), ok_bind]
      have e : (n - start + b - 1) / b = (n - (start + b) + b - 1) / b + 1 := by
        rcases Nat.lt_or_ge n (start + b) with h' | h'
        · rw [show n - (start + b) + b - 1 = b - 1 by omega, Nat.div_eq_of_lt (a := b - 1) (by omega),
            show n - start + b - 1 = (n - start - 1) + b by omega, Nat.add_div_right _ (by omega),
            Nat.div_eq_of_lt (by omega)]
        · rw [show n - start + b - 1 = (n - (start + b) + b - 1) + b by omega, Nat.add_div_right _ (by omega)]
      rw [e, List.range_succ_eq_map, List.map_cons, List.map_map]
      congr 2
      · simp
      · refine List.map_congr_left fun k _ => ?_
        simp only [Function.comp, Nat.succ_eq_add_one, Nat.add_mul, Nat.one_mul]
        rw [show start + b + k * b = start + (k * b + b) by omega]
    · rw [if_neg hs, show n - start + b - 1 = b - 1 by omega, Nat.div_eq_of_lt (by omega)]
      rfl

theorem whileRanges_batches {n b : Nat} (hb : 1 ≤ b) : whileRanges n b n 0 = .ok (Spec.batches n b) := by
  rw [whileRanges_eq hb n 0 (by omega)]
  simp only [Nat.sub_zero, Nat.zero_add]
  rfl

theorem tells_flpLoop {bld : Build} {cfg : Config} {n : Nat} : ∀ {fuel start : Nat} {keep : List Bool}
    {kcs k : Pair2 P} {sent : List (Req × Req)} {ks : List Bool} {rs : List (Nat × Nat)},
    whileRanges n cfg.queryBatch fuel start = .ok rs →
    Tells c0 c1 (flpLoopP P bld cfg n fuel start keep) kcs sent ks k →
    sent = Spec.toBoth (rs.map fun r => .runFlpQueries r.1 r.2) ∧ k = kcs
  | 0, start, keep, kcs, k, sent, ks, rs, hr, h => by
    rw [whileRanges] at hr
    rw [flpLoopP] at h
    split at hr
    · cases hr
    · rw [if_neg ‹_›] at h
      cases hr
      obtain ⟨e1, e2, -⟩ := tells_ret h
      exact ⟨e1, e2⟩
  | fuel + 1, start, keep, kcs, k, sent, ks, rs, hr, h => by
    rw [whileRanges] at hr
    rw [flpLoopP] at h
    split at hr
    · obtain ⟨rest, hrest, hr⟩ := bind_eq_ok.1 hr
      cases hr
      rw [if_pos ‹_›] at h
      obtain ⟨x, y, v, k1, rfl, h1, g1⟩ := tells_bind h
      obtain ⟨x2, y2, u, k2, rfl, h2, g2⟩ := tells_bind g1
      obtain ⟨x3, y3, ks', k3, rfl, h3, g3⟩ := tells_bind g2
      obtain ⟨rfl, rfl, -⟩ := tells_lift h2
      obtain ⟨rfl, rfl, -⟩ := tells_lift h3
      have hk : k3 = kcs := by
        have := h1.exec
        rw [exec_flpCall] at this
        obtain ⟨_, -, this⟩ := bind_eq_ok.1 this
        obtain ⟨_, -, this⟩ := bind_eq_ok.1 this
        obtain ⟨_, -, this⟩ := bind_eq_ok.1 this
        obtain ⟨_, -, this⟩ := bind_eq_ok.1 this
        cases this
        rfl
      subst hk
      obtain ⟨rfl, rfl⟩ := tells_flpLoop hrest g3
      rw [tells_vecs h1]
      exact ⟨rfl, rfl⟩
    · rw [if_neg ‹_›] at h
      cases hr
      obtain ⟨e1, e2, -⟩ := tells_ret h
      exact ⟨e1, e2⟩

theorem tells_proofLoop {cfg : Config} {n : Nat} : ∀ {fuel start : Nat}
    {kcs k : Pair2 P} {sent : List (Req × Req)} {u : Unit} {rs : List (Nat × Nat)},
    whileRanges n cfg.queryBatch fuel start = .ok rs →
    Tells c0 c1 (proofLoopP cfg n fuel start) kcs sent u k →
    sent = Spec.toBoth (rs.map fun r => .getProofs r.1 r.2) ∧ k = kcs
  | 0, start, kcs, k, sent, ks, rs, hr, h => by
    rw [whileRanges] at hr
    rw [proofLoopP] at h
    split at hr
    · cases hr
    · rw [if_neg ‹_›] at h
      cases hr
      obtain ⟨e1, e2, -⟩ := tells_ret h
      exact ⟨e1, e2⟩
  | fuel + 1, start, kcs, k, sent, ks, rs, hr, h => by
    rw [whileRanges] at hr
    rw [proofLoopP] at h
    split at hr
    · obtain ⟨rest, hrest, hr⟩ := bind_eq_ok.1 hr
      cases hr
      rw [if_pos ‹_›] at h
      obtain ⟨x, y, v, k1, rfl, h1, g1⟩ := tells_bind h
      obtain ⟨x2, y2, u, k2, rfl, h2, g2⟩ := tells_bind g1
      obtain ⟨x3, y3, ks', k3, rfl, h3, g3⟩ := tells_bind g2
      obtain ⟨rfl, rfl, -⟩ := tells_lift h2
      obtain ⟨rfl, rfl, -⟩ := tells_lift h3
      have hk : k3 = kcs := by
        have := h1.exec
        rw [exec_proofCall] at this
        obtain ⟨_, -, this⟩ := bind_eq_ok.1 this
        obtain ⟨_, -, this⟩ := bind_eq_ok.1 this
        cases this
        rfl
      subst hk
      obtain ⟨rfl, rfl⟩ := tells_proofLoop hrest g3
      rw [tells_proofs h1]
      exact ⟨rfl, rfl⟩
    · rw [if_neg ‹_›] at h
      cases hr
      obtain ⟨e1, e2, -⟩ := tells_ret h
      exact ⟨e1, e2⟩

theorem masked_flags {rs : List (Bool × ReportShare)} {ks : List Bool} (hf : ∀ r ∈ rs, r.1 = true)
    (hl : ks.length = rs.length) : (Spec.masked rs ks).map Prod.fst = ks := by
  refine List.ext_getElem? fun i => ?_
  rw [List.getElem?_map, Spec.masked, List.getElem?_zipWith]
  by_cases hi : i < ks.length
  · rw [List.getElem?_eq_getElem hi, List.getElem?_eq_getElem (hl ▸ hi)]
    simp [hf _ (List.getElem_mem (hl ▸ hi))]
  · rw [List.getElem?_eq_none (by omega), List.getElem?_eq_none (by omega)]
    rfl

/-- The FLP phase: one request per batch, then the decisions. -/
theorem tells_flp {bld : Build} {cfg : Config} {n : Nat} {kcs k : Pair2 P} {keep : List Bool} (hb : 1 ≤ cfg.queryBatch)
    (hf : ∀ r ∈ kcs.1.reportShares, r.1 = true) (hl : keep.length = kcs.1.reportShares.length)
    (h : driverFlp c0 c1 bld cfg kcs n = .ok k) (hk : k.1.reportShares = Spec.masked kcs.1.reportShares keep) :
    Tells c0 c1 (flpP P bld cfg n) kcs
      (Spec.toBoth ((Spec.batches n cfg.queryBatch).map (fun r => .runFlpQueries r.1 r.2)
        ++ [.applyFlpResults keep])) () k := by
  have he : (flpP P bld cfg n).exec c0 c1 kcs = .ok ((), k) :=
    (exec_flp bld cfg n kcs _).2 (by rw [h, ok_bind])
  obtain ⟨sent, ht⟩ := tells_exec he
  obtain ⟨x, y, ks, k1, rfl, h1, h2⟩ := tells_bind ht
  obtain ⟨rfl, rfl⟩ := tells_flpLoop (whileRanges_batches hb) h1
  obtain rfl := tells_done h2
  have h3 := h2.exec
  rw [exec_apply] at h3
  obtain ⟨a0, e0, h3⟩ := bind_eq_ok.1 h3
  obtain ⟨a1, e1, h3⟩ := bind_eq_ok.1 h3
  cases h3
  have hlk := (applyFlp_flags e0).1
  rw [applyFlp_exact _ _ hlk] at e0
  cases e0
  obtain rfl : ks = keep := by
    have := congrArg (List.map Prod.fst) hk
    simp only at this
    rwa [masked_flags hf hlk, masked_flags hf hl] at this
  unfold Spec.toBoth at ht ⊢
  rw [List.map_append]
  exact ht

/-! ### The levels -/

/-- The decisions of a level, as the driver computes them. -/
def levelDecisions (P : Prims) (n T : Nat) (r0 r1 : List (Bool × ReportShare)) (paths : List (List Bool)) : List Bool :=
  (kids paths).map fun p => decide (T ≤ Spec.countAt P n (Spec.keyPairs r0 r1) p)

/-- One level when all digests agree: one crawl and one prune request. -/
theorem tells_level {n d m : Nat} {r0 r1 : List (Bool × ReportShare)} {paths : List (List Bool)}
    {kcs : Pair2 P} (h : Both n d m r0 r1 paths kcs) (c0 c1 : ServerCfg) (cfg : Config) (num : Nat)
    (hn : cfg.histBuckets = n) (hne : paths ≠ []) (hm : m < d)
    (hk0 : KeysReach m r0) (hk1 : KeysReach m r1) (hf : r0.map Prod.fst = r1.map Prod.fst)
    (hi : Spec.included r0 ≠ [])
    (hq : Spec.digests P n true paths r0 = Spec.digests P n false paths r1) :
    ∃ kcs', Tells c0 c1 (levelP cfg num) kcs (Spec.toBoth [.treeCrawl 1 [] false,
        .treePrune (levelDecisions P n (max 1 cfg.threshold) r0 r1 paths)]) () kcs' ∧
      Both n d (m + 1) r0 r1 (survivors P n (max 1 cfg.threshold) r0 r1 paths) kcs' := by
  obtain ⟨root, hroot⟩ := merkleRoots_one (P := P) (digests_ne hk0 hi (n := n) (first := true)
    (paths := paths)) [] false
  obtain ⟨nx0, k0, e0, a0, f0, -, s0⟩ := h.fst.treeCrawl c0.build hk0 hne hm 1 false hroot
  obtain ⟨nx1, k1, e1, a1, f1, -, s1⟩ := h.snd.treeCrawl c1.build hk1 hne hm 1 false (hq ▸ hroot)
  have hN : Nodes (P := P) n r0 r1 (kids paths) nx0 nx1 :=
    ⟨hf, kids_ne, f0 ▸ a0.pth, f1 ▸ a1.pth, s0, s1⟩
  have hkeep := hN.keep (max 1 cfg.threshold)
  obtain ⟨k0', p0, -, b0⟩ := a0.prune fun p => decide (max 1 cfg.threshold ≤
    Spec.countAt P n (Spec.keyPairs r0 r1) p)
  obtain ⟨k1', p1, -, b1⟩ := a1.prune fun p => decide (max 1 cfg.threshold ≤
    Spec.countAt P n (Spec.keyPairs r0 r1) p)
  refine ⟨(k0', k1'), ?_, b0, b1⟩
  have hcb : crawlBoth c0 c1 kcs { splitBy := 1, malicious := [], isLast := false }
      = .ok ((k0, k1), ⟨nx0.map TreeNode.value, [root], [0]⟩, ⟨nx1.map TreeNode.value, [root], [0]⟩) := by
    unfold crawlBoth
    simp only [e0, e1, ok_bind]
    rfl
  have hloop : (levelLoopP cfg num (num + 3) { splitBy := 1, malicious := [], isLast := false }).exec c0 c1 kcs
      = .ok (levelDecisions P n (max 1 cfg.threshold) r0 r1 paths, (k0, k1)) := by
    rw [exec_levelLoop, hn, runLevelLoop_stop hcb (by simp [hN.length.1, hN.length.2]) hkeep rfl, ok_bind]
    rfl
  obtain ⟨sent, ht⟩ := tells_exec hloop
  have hsent : sent = [(.treeCrawl 1 [] false, .treeCrawl 1 [] false)] := by
    have ht' := ht
    rw [show num + 3 = (num + 2) + 1 from rfl, levelLoopP] at ht'
    obtain ⟨x, y, v, q1, rfl, h1, g1⟩ := tells_bind ht'
    obtain ⟨x2, y2, u, q2, rfl, h2, g2⟩ := tells_bind g1
    obtain ⟨x3, y3, ks, q3, rfl, h3, g3⟩ := tells_bind g2
    obtain ⟨rfl, rfl, -⟩ := tells_lift h2
    obtain ⟨rfl, rfl, -⟩ := tells_lift h3
    have hv := h1.exec
    rw [exec_crawlCall { splitBy := 1, malicious := [], isLast := false }, hcb, ok_bind] at hv
    cases hv
    rw [tells_crawl h1]
    simp only [List.isEmpty_cons, Bool.false_eq_true, if_false] at g3
    obtain ⟨x4, y4, mal, q4, rfl, h4, g4⟩ := tells_bind g3
    obtain ⟨rfl, rfl, hmal⟩ := tells_lift h4
    have hsame := diffIndices_self (⟨nx0.map TreeNode.value, [root], [0]⟩ : CrawlResp)
      ⟨nx1.map TreeNode.value, [root], [0]⟩ rfl
    cases hsame.symm.trans hmal
    simp only [List.isEmpty_nil, if_true] at g4
    obtain ⟨rfl, -, -⟩ := tells_ret g4
    rfl
  subst hsent
  have hpr : (callDone (.treePrune (levelDecisions P n (max 1 cfg.threshold) r0 r1 paths))
      (.treePrune (levelDecisions P n (max 1 cfg.threshold) r0 r1 paths))).exec c0 c1 (k0, k1)
      = .ok ((), (k0', k1')) := by
    rw [exec_prune]
    unfold levelDecisions
    simp only [pruneBoth, p0, p1, ok_bind]
  obtain ⟨y, hy⟩ := tells_exec hpr
  obtain rfl := tells_done hy
  exact ht.bind hy

/-- The levels from `m` on, `k` of them. -/
theorem tells_levels {n d : Nat} {r0 r1 : List (Bool × ReportShare)} (c0 c1 : ServerCfg) (bld : Build)
    (cfg : Config) (num : Nat) (hn : cfg.histBuckets = n)
    (hq : Spec.AllPairs (Spec.QuietInner P n d) r0 r1)
    (hi : Spec.included r0 ≠ []) (hk0 : KeysReach (d - 1) r0) (hk1 : KeysReach (d - 1) r1) :
    ∀ (k m : Nat) (kcs : Pair2 P), 1 ≤ m → m + k < d →
      Both n d m r0 r1 (Spec.heavyPaths P n (max 1 cfg.threshold) (Spec.keyPairs r0 r1) m) kcs →
      (∀ l, l < m + k → m ≤ l →
        Spec.heavyPaths P n (max 1 cfg.threshold) (Spec.keyPairs r0 r1) l ≠ []) →
      ∃ kcs', Tells c0 c1 (levelsP P bld cfg num (List.range' m k)) kcs
          (Spec.toBoth ((List.range' m k).flatMap fun l => [.treeCrawl 1 [] false,
            .treePrune (levelDecisions P n (max 1 cfg.threshold) r0 r1
              (Spec.heavyPaths P n (max 1 cfg.threshold) (Spec.keyPairs r0 r1) l))])) () kcs' ∧
        Both n d (m + k) r0 r1
          (Spec.heavyPaths P n (max 1 cfg.threshold) (Spec.keyPairs r0 r1) (m + k)) kcs'
  | 0, m, kcs, _, _, h, _ => ⟨kcs, .ret _ _ _, h⟩
  | k + 1, m, kcs, hm1, hmk, h, hall => by
    obtain ⟨k1, e1, b1⟩ := tells_level h c0 c1 cfg num hn (hall m (by omega) le_rfl) (by omega)
      (hk0.mono (by omega)) (hk1.mono (by omega))
      hq.1 hi (digests_quiet hq (m := m) (by omega) (heavyPaths_nodup ..) heavyPaths_len)
    rw [survivors_heavyPaths] at b1
    obtain ⟨k2, e2, b2⟩ := tells_levels c0 c1 bld cfg num hn hq hi hk0 hk1 k (m + 1) k1 (by omega)
      (by omega) b1 fun l h1 h2 => hall l (by omega) (by omega)
    rw [show m + 1 + k = m + (k + 1) from by omega] at b2
    refine ⟨k2, ?_, b2⟩
    rw [List.range'_succ, levelsP, if_neg (by omega), List.flatMap_cons]
    have := e1.bind (f := fun _ => levelsP P bld cfg num (List.range' (m + 1) k)) e2
    unfold Spec.toBoth at this ⊢
    rw [List.map_append]
    exact this

/-- The last level. -/
theorem tells_last {n d m : Nat} {r0 r1 : List (Bool × ReportShare)} {paths : List (List Bool)}
    {kcs : Pair2 P} (h : Both n d m r0 r1 paths kcs) (c0 c1 : ServerCfg) (cfg : Config) (num : Nat)
    (hn : cfg.histBuckets = n) (hb : 1 ≤ cfg.queryBatch)
    (hk0 : KeysReach m r0) (hk1 : KeysReach m r1) (hf : r0.map Prod.fst = r1.map Prod.fst)
    {out : WhhOut P} (hout : runLevelLast c0 c1 cfg kcs num = .ok out) :
    Tells c0 c1 (levelLastP cfg num) kcs (Spec.toBoth ([.treeCrawlLast]
        ++ (Spec.batches num cfg.queryBatch).map (fun r => .getProofs r.1 r.2)
        ++ [.treePrune (levelDecisions P n (max 1 cfg.threshold) r0 r1 paths), .finalShares]))
      (.whh out.results out.printed) out.kcs := by
  obtain ⟨sent, ht⟩ := tells_exec ((exec_levelLast cfg num kcs _).2 (by rw [hout, ok_bind]))
  obtain ⟨nx0, pf0, k0, e0, g0, f0, a0, s0, q0⟩ := treeCrawlLast_at h.fst hk0
  obtain ⟨nx1, pf1, k1, e1, g1, f1, a1, s1, q1⟩ := treeCrawlLast_at h.snd hk1
  have hN : Nodes (P := P) n r0 r1 (kids paths) nx0 nx1 :=
    ⟨hf, kids_ne, f0 ▸ a0.pth, f1 ▸ a1.pth, s0, s1⟩
  have hkeep := hN.keep (max 1 cfg.threshold)
  have ht' := ht
  unfold levelLastP at ht'
  obtain ⟨x1, y1, v, q1, rfl, h1, g1⟩ := tells_bind ht'
  obtain ⟨x2, y2, u, q2, rfl, h2, g2⟩ := tells_bind g1
  obtain ⟨x3, y3, ks, q3, rfl, h3, g3⟩ := tells_bind g2
  obtain ⟨x4, y4, u4, q4, rfl, h4, g4⟩ := tells_bind g3
  obtain ⟨x5, y5, u5, q5, rfl, h5, g5⟩ := tells_bind g4
  obtain ⟨x6, y6, sh, q6, rfl, h6, g6⟩ := tells_bind g5
  obtain ⟨x7, y7, u7, q7, rfl, h7, g7⟩ := tells_bind g6
  obtain ⟨x8, y8, u8, q8, rfl, h8, g8⟩ := tells_bind g7
  obtain ⟨x9, y9, u9, q9, rfl, h9, g9⟩ := tells_bind g8
  obtain rfl := tells_vecs h1
  obtain ⟨rfl, rfl, -⟩ := tells_lift h2
  obtain ⟨rfl, rfl, hks⟩ := tells_lift h3
  obtain ⟨rfl, -⟩ := tells_proofLoop (whileRanges_batches hb) h4
  obtain rfl := tells_done h5
  obtain rfl := tells_shares h6
  obtain ⟨rfl, rfl, -⟩ := tells_lift h7
  obtain ⟨rfl, rfl, -⟩ := tells_lift h8
  obtain ⟨rfl, rfl, -⟩ := tells_lift h9
  obtain ⟨rfl, -, -⟩ := tells_ret g9
  have hv := h1.exec
  rw [exec_crawlLast, e0, ok_bind, e1, ok_bind] at hv
  cases hv
  simp only at hks
  rw [hn, hkeep] at hks
  cases hks
  convert ht using 1
  unfold Spec.toBoth
  rw [List.map_append, List.map_append, List.append_assoc]
  rfl

/-- A whole run whose included reports are quiet. -/
theorem tells_whh {n d : Nat} {bld : Build} {cfg : Config}
    {kcs0 kcs : Pair2 P} {num : Nat} {r0 r1 : List (Bool × ReportShare)} {keep : List Bool}
    (hi : driverTreeInit kcs0 = .ok kcs) (hn : cfg.histBuckets = n) (hn1 : 1 ≤ n)
    (hd : cfg.dataBits = some d) (hd2 : 2 ≤ d) (hb : 1 ≤ cfg.queryBatch)
    (i0 : kcs.1.inputLen = n) (i1 : kcs.2.inputLen = n) (h0 : kcs.1.serverId = 0)
    (h1 : kcs.2.serverId ≠ 0) (d0 : kcs.1.depth = some d) (d1 : kcs.2.depth = some d)
    (hr0 : r0.map Prod.snd = kcs.1.reportShares.map Prod.snd)
    (hr1 : r1.map Prod.snd = kcs.2.reportShares.map Prod.snd)
    (hflp : driverFlp c0 c1 bld cfg kcs num
      = .ok ({ kcs.1 with reportShares := r0 }, { kcs.2 with reportShares := r1 }))
    (hq : Spec.QuietReports P n d r0 r1)
    (hne : Spec.included r0 ≠ []) (hk0 : KeysReach (d - 1) r0) (hk1 : KeysReach (d - 1) r1)
    (hflag : ∀ r ∈ kcs.1.reportShares, r.1 = true) (hkl : keep.length = kcs.1.reportShares.length)
    (hkeep : r0 = Spec.masked kcs.1.reportShares keep)
    (hh : Spec.heavyPaths P n (max 1 cfg.threshold) (Spec.keyPairs r0 r1) (d - 2) ≠ []) :
    ∃ out : WhhOut P, Tells c0 c1 (whhP P bld cfg num) kcs0 (Spec.toBoth ([.treeInit]
        ++ (Spec.batches num cfg.queryBatch).map (fun r => .runFlpQueries r.1 r.2)
        ++ [.applyFlpResults keep]
        ++ (List.range (d - 1)).flatMap (fun l => [.treeCrawl 1 [] false,
            .treePrune (levelDecisions P n (max 1 cfg.threshold) r0 r1
              (Spec.heavyPaths P n (max 1 cfg.threshold) (Spec.keyPairs r0 r1) l))])
        ++ [.treeCrawlLast]
        ++ (Spec.batches num cfg.queryBatch).map (fun r => .getProofs r.1 r.2)
        ++ [.treePrune (levelDecisions P n (max 1 cfg.threshold) r0 r1
              (Spec.heavyPaths P n (max 1 cfg.threshold) (Spec.keyPairs r0 r1) (d - 1))), .finalShares]))
      (.whh out.results out.printed) out.kcs := by
  obtain ⟨t0, t1⟩ := driverTreeInit_ok hi
  obtain ⟨root0, f0, -⟩ := treeInit_fresh t0
  obtain ⟨root1, f1, -⟩ := treeInit_fresh t1
  have hqi := quiet_inner hq
  have hB : Both n d 0 r0 r1 (Spec.heavyPaths P n (max 1 cfg.threshold) (Spec.keyPairs r0 r1) 0)
      (({ kcs.1 with reportShares := r0 }, { kcs.2 with reportShares := r1 }) : Pair2 P) := by
    rw [heavyPaths_zero]
    exact ⟨f0.at i0 (by simp [h0]) d0 hr0, f1.at i1 (by simp [h1]) d1 hr1⟩
  obtain ⟨kcs1, hl1, hB1⟩ := tells_level hB c0 c1 cfg num hn (by simp [heavyPaths_zero]) (by omega)
    (hk0.mono (by omega)) (hk1.mono (by omega)) hq.1 hne
    (digests_quiet hqi (by omega) (heavyPaths_nodup _ _ _ _) heavyPaths_len)
  rw [survivors_heavyPaths] at hB1
  obtain ⟨kcs2, hl2, hB2⟩ := tells_levels c0 c1 bld cfg num hn hqi hne hk0 hk1 (d - 2) 1 kcs1 (by omega) (by omega)
    hB1 fun l hl _ => heavyPaths_ne_le (by omega) hh
  rw [show 1 + (d - 2) = d - 1 by omega] at hB2
  obtain ⟨out, e3, -⟩ := runLevelLast_quiet hB2 c0 c1 cfg num hn hn1 (by simp [hd]) hb hk0
    hk1 hq.1 (.inl (proofs_quiet hq (heavyPaths_nodup _ _ _ _)
      fun p hp => by rw [heavyPaths_len p hp]; omega))
  have hlast := tells_last hB2 c0 c1 cfg num hn hb hk0 hk1 hq.1 e3
  have hlev : levelCount bld cfg.dataBits = .ok (d - 1) := by
    simp only [levelCount, hd, unwrapO, ok_bind]
    rw [if_neg (by omega)]
  have hf := tells_flp (c0 := c0) (c1 := c1) hb hflag hkl hflp hkeep
  obtain ⟨x, hx⟩ := tells_exec (c0 := c0) (c1 := c1) (p := callDone .treeInit .treeInit) (kcs := kcs0) (a := ())
    (kcs' := kcs) (by rw [exec_treeInit, hi, ok_bind])
  obtain rfl := tells_done hx
  have hrange : List.range (d - 1) = 0 :: List.range' 1 (d - 2) := by
    rw [List.range_eq_range', show d - 1 = (d - 2) + 1 by omega, List.range'_succ]
  refine ⟨out, ?_⟩
  have elv : levelsP P bld cfg num (List.range (d - 1)) = (flpP P bld cfg num >>= fun _ => levelP cfg num >>= fun _ =>
      levelsP P bld cfg num (List.range' 1 (d - 2))) := by
    rw [hrange, levelsP, if_pos rfl]
  have hlv := hf.bind (f := fun _ => levelP cfg num >>= fun _ => levelsP P bld cfg num (List.range' 1 (d - 2)))
    (hl1.bind (f := fun _ => levelsP P bld cfg num (List.range' 1 (d - 2))) hl2)
  rw [← elv] at hlv
  have hlift : Tells c0 c1 (liftM (levelCount bld cfg.dataBits) : Prog Nat) kcs [] (d - 1) kcs := by
    rw [hlev]
    exact .ret _ _ _
  have hall := hx.bind (f := fun _ => do
    let levels ← levelCount bld cfg.dataBits
    levelsP P bld cfg num (List.range levels)
    levelLastP cfg num) (hlift.bind (f := fun levels => do
      levelsP P bld cfg num (List.range levels)
      levelLastP cfg num) (hlv.bind (f := fun _ => levelLastP cfg num) hlast))
  unfold whhP
  convert hall using 1
  rw [hrange]
  simp only [Spec.toBoth, List.map_append, List.flatMap_cons, List.nil_append, List.append_assoc, List.map_cons,
    List.map_nil, List.singleton_append, List.cons_append]

end Mastic
