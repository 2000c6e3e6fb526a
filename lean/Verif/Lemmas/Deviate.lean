import Verif.Spec.Deviate
import Verif.Lemmas.Spy
import Verif.Lemmas.Serve
import Verif.Lemmas.Sessions

/-!
# Lemmas: conversations with a lying server
-/

namespace Mastic

variable {P : Prims} {α β : Type} {c0 c1 : ServerCfg}

/-- The process that hears the answers of server `b` through `f`. -/
def bendP (b : Bool) (f : Req → Resp → Resp) : Prog α → Prog α
  | .ret a => .ret a
  | .panic p => .panic p
  | .ask r0 r1 k => .ask r0 r1 fun a0 a1 => bendP b f (k (if b then a0 else f r0 a0) (if b then f r1 a1 else a1))

theorem bendP_bind (b : Bool) (f : Req → Resp → Resp) (p : Prog α) (g : α → Prog β) :
    bendP b f (p >>= g) = bendP b f p >>= fun a => bendP b f (g a) := by
  induction p with
  | ret a => rfl
  | panic p => rfl
  | ask r0 r1 k ih =>
    show bendP b f (.ask r0 r1 fun a0 a1 => (k a0 a1).bind g) = _
    simp only [bendP]
    show _ = Prog.ask r0 r1 fun a0 a1 => (bendP b f (k _ _)).bind fun a => bendP b f (g a)
    congr 1
    funext a0 a1
    exact ih _ _

@[simp] theorem bendP_lift (b : Bool) (f : Req → Resp → Resp) (e : Exec α) : bendP b f (Prog.lift e) = Prog.lift e := by
  cases e <;> rfl

theorem honestly_step {c : ServerCfg} {s t u : Server P} {got : List Req} {r : Req} {a : Resp}
    (h : (Server.run c s got).1 = t) (hs : t.handle c r = (u, .ok a)) :
    Spec.honestly c s (got ++ [r]) = a ∧ (Server.run c s (got ++ [r])).1 = u := by
  unfold Spec.honestly
  rw [run_append, h]
  simp only [Server.run, hs]
  simp

/-- A conversation of the process that hears the answers of server `b` through `f`, seen from that server. -/
theorem against_bend {b : Bool} {f : Req → Resp → Resp} {lie : List Req → Resp} {cb : ServerCfg} {sb : Server P}
    (hlie : ∀ got r, lie (got ++ [r]) = f r (Spec.honestly cb sb (got ++ [r])))
    (hcb : cb = Pair.get (c0, c1) b) : ∀ {p : Prog α} {s0 s1 t0 t1 : Server P} {sent : List (Req × Req)} {a : α}
    {got : List Req}, Spec.Talk c0 c1 (bendP b f p) s0 s1 sent a t0 t1 →
    (Server.run cb sb got).1 = Pair.get (s0, s1) b →
    Spec.against b (Pair.get (c0, c1) !b) lie p (Pair.get (s0, s1) !b) got = (got ++ Spec.received b sent, some a) := by
  intro p
  induction p with
  | ret a =>
    intro s0 s1 t0 t1 sent a got h hs
    cases h
    simp [Spec.against, Spec.received]
  | panic p => intro s0 s1 t0 t1 sent a got h hs; cases h
  | ask r0 r1 k ih =>
    intro s0 s1 t0 t1 sent a got h hs
    cases h with
    | ask _ _ _ _ _ v0 v1 _ _ a0 a1 sent _ h0 h1 h =>
      subst hcb
      cases b
      · have hg : Pair.get (s0, s1) false = s0 := rfl
        rw [hg] at hs
        obtain ⟨e1, e2⟩ := honestly_step (c := c0) hs h0
        have := ih _ _ h (got := got ++ [r0]) e2
        simp only [Spec.against, Pair.get, Bool.not_false] at this ⊢
        simp only [h1]
        simp only [Bool.false_eq_true, if_false, if_true, hlie] at this ⊢
        rw [show Spec.honestly (Pair.get (c0, c1) false) sb (got ++ [r0]) = a0 from e1]
        rw [this]
        simp [Spec.received, Pair.get]
      · have hg : Pair.get (s0, s1) true = s1 := rfl
        rw [hg] at hs
        obtain ⟨e1, e2⟩ := honestly_step (c := c1) hs h1
        have := ih _ _ h (got := got ++ [r1]) e2
        simp only [Spec.against, Pair.get, Bool.not_true] at this ⊢
        simp only [h0]
        simp only [Bool.false_eq_true, if_false, if_true, hlie] at this ⊢
        rw [show Spec.honestly (Pair.get (c0, c1) true) sb (got ++ [r1]) = a1 from e1]
        rw [this]
        simp [Spec.received, Pair.get]

/-! ### The calls -/

/-- The change of a pair of answers. -/
def bendPair {γ : Type} (b : Bool) (g : γ → γ) (v : γ × γ) : γ × γ := (if b then v.1 else g v.1, if b then g v.2 else v.2)

/-- A counter that is too large. -/
def raiseAll (n up : Nat) (v : List (List Field128)) : List (List Field128) :=
  v.map fun v => v.modify n (· + (up : Field128))

/-- Spoiled verifier shares. -/
def spoilAll (pick : Nat → Bool) (start : Nat) (v : List (List Field128)) : List (List Field128) :=
  v.mapIdx fun j x => if pick (start + j) then x else x.modify 0 (· + 1)

variable {n up : Nat} {pick : Nat → Bool} {b : Bool}

macro "bend_call" b:ident : tactic =>
  `(tactic| (cases $b:ident <;> (
      simp only [bendP]
      refine congrArg (Prog.ask _ _) ?_
      funext a0 a1
      cases a0 <;> cases a1 <;> rfl)))

theorem bend_treeInit : bendP b (Spec.bent n up pick) (callDone .treeInit .treeInit) = callDone .treeInit .treeInit := by
  unfold callDone
  bend_call b

theorem bend_apply (keep : List Bool) : bendP b (Spec.bent n up pick)
    (callDone (.applyFlpResults keep) (.applyFlpResults keep))
      = callDone (.applyFlpResults keep) (.applyFlpResults keep) := by
  unfold callDone
  bend_call b

theorem bend_prune (keep : List Bool) : bendP b (Spec.bent n up pick) (callDone (.treePrune keep) (.treePrune keep))
    = callDone (.treePrune keep) (.treePrune keep) := by
  unfold callDone
  bend_call b

theorem bend_proofs (s e : Nat) : bendP b (Spec.bent n up pick) (callProofs (.getProofs s e) (.getProofs s e))
    = callProofs (.getProofs s e) (.getProofs s e) := by
  unfold callProofs
  bend_call b

theorem bend_shares : bendP b (Spec.bent n up pick) (callShares .finalShares .finalShares)
    = callShares .finalShares .finalShares := by
  unfold callShares
  bend_call b

theorem bend_crawl (s : Nat) (m : List Nat) (l : Bool) : bendP b (Spec.bent n up pick)
    (callCrawl (.treeCrawl s m l) (.treeCrawl s m l)) = callCrawl (.treeCrawl s m l) (.treeCrawl s m l) >>= fun v =>
      .ret (bendPair b (fun r => { r with cntValues := raiseAll n up r.cntValues }) v) := by
  unfold callCrawl
  show _ = Prog.ask _ _ _
  bend_call b

theorem bend_crawlLast : bendP b (Spec.bent n up pick) (callVecs .treeCrawlLast .treeCrawlLast)
    = callVecs .treeCrawlLast .treeCrawlLast >>= fun v => .ret (bendPair b (raiseAll n up) v) := by
  unfold callVecs
  show _ = Prog.ask _ _ _
  bend_call b

theorem bend_flp (s e : Nat) : bendP b (Spec.bent n up pick) (callVecs (.runFlpQueries s e) (.runFlpQueries s e))
    = callVecs (.runFlpQueries s e) (.runFlpQueries s e) >>= fun v => .ret (bendPair b (spoilAll pick s) v) := by
  unfold callVecs
  show _ = Prog.ask _ _ _
  bend_call b

theorem bend_proofLoop (cfg : Config) (num : Nat) : ∀ fuel start : Nat,
    bendP b (Spec.bent n up pick) (proofLoopP cfg num fuel start) = proofLoopP cfg num fuel start
  | 0, start => by
    rw [proofLoopP]
    split <;> rfl
  | fuel + 1, start => by
    rw [proofLoopP]
    split
    · simp only [bendP_bind, bend_proofs, liftM_prog, monadLift_prog, bendP_lift, bend_proofLoop cfg num fuel]
    · rfl

/-! ### The counters -/

theorem keep_raised {T n up : Nat} (b : Bool) {v : List (List Field128) × List (List Field128)} {ks : List Bool}
    (h : keepValues n T v.1 v.2 = .ok ks)
    (hs : ∀ x ∈ v.1.zip v.2, ∀ a1 a2, x.1[n]? = some a1 → x.2[n]? = some a2 → (a1 + a2).val + up < 2 ^ 64) :
    keepValues n (T + up) (bendPair b (raiseAll n up) v).1 (bendPair b (raiseAll n up) v).2 = .ok ks := by
  have hval : ∀ x : Field128, x.val + up < 2 ^ 64 → (x + (up : Field128)).val % 2 ^ 64 = x.val % 2 ^ 64 + up := by
    intro x hx
    have hm : 2 ^ 64 < fieldModulus := by decide
    rw [ZMod.val_add, ZMod.val_natCast, Nat.mod_eq_of_lt (a := up) (by omega),
      Nat.mod_eq_of_lt (a := x.val + up) (b := fieldModulus) (by omega), Nat.mod_eq_of_lt hx,
      Nat.mod_eq_of_lt (a := x.val) (by omega)]
  have hzip : (bendPair b (raiseAll n up) v).1.zip (bendPair b (raiseAll n up) v).2
      = (v.1.zip v.2).map fun x => bendPair b (fun v => v.modify n (· + (up : Field128))) x := by
    cases b
    · simp only [bendPair, raiseAll, Bool.false_eq_true, if_false, List.zip_map_left]; rfl
    · simp only [bendPair, raiseAll, if_true, List.zip_map_right]; rfl
  unfold keepValues at h ⊢
  rw [hzip]
  rw [mapE_eq_ok_iff_getElem] at h ⊢
  refine ⟨by simpa using h.1, fun i x hx => ?_⟩
  rw [List.getElem?_map, Option.map_eq_some_iff] at hx
  obtain ⟨y, hy, rfl⟩ := hx
  obtain ⟨k, hk, e⟩ := h.2 i y hy
  refine ⟨k, hk, ?_⟩
  obtain ⟨a1, e1, e⟩ := bind_eq_ok.1 e
  obtain ⟨a2, e2, e⟩ := bind_eq_ok.1 e
  rw [idx_eq_ok] at e1 e2
  have hx := hs y (List.mem_of_getElem? hy) a1 a2 e1 e2
  cases b
  · simp only [bendPair, Bool.false_eq_true, if_false]
    rw [show idx (y.1.modify n (· + (up : Field128))) n = .ok (a1 + up) from idx_eq_ok.2 (by
      rw [List.getElem?_modify_eq, e1]; rfl), ok_bind, idx_eq_ok.2 e2, ok_bind, ← e]
    rw [show a1 + (up : Field128) + a2 = a1 + a2 + up by ring, hval _ hx]
    simp
  · simp only [bendPair, if_true]
    rw [idx_eq_ok.2 e1, ok_bind, show idx (y.2.modify n (· + (up : Field128))) n = .ok (a2 + up) from idx_eq_ok.2 (by
      rw [List.getElem?_modify_eq, e2]; rfl), ok_bind, ← e]
    rw [show a1 + (a2 + (up : Field128)) = a1 + a2 + up by ring, hval _ hx]
    simp

theorem nodes_small {n up : Nat} {r0 r1 : List (Bool × ReportShare)} {paths : List (List Bool)}
    {nx0 nx1 : List TreeNode} (h : Nodes (P := P) n r0 r1 paths nx0 nx1)
    (hs : ∀ p ∈ paths, ((Spec.tally P n (Spec.keyPairs r0 r1) p).getD n 0).val + up < 2 ^ 64) :
    ∀ x ∈ (nx0.map TreeNode.value).zip (nx1.map TreeNode.value), ∀ a1 a2, x.1[n]? = some a1 → x.2[n]? = some a2 →
      (a1 + a2).val + up < 2 ^ 64 := by
  rintro ⟨v0, v1⟩ hx a1 a2 h1 h2
  obtain ⟨i, hi⟩ := List.getElem?_of_mem hx
  rw [List.getElem?_zip_eq_some, List.getElem?_map, List.getElem?_map] at hi
  obtain ⟨g0, g1⟩ := hi
  have hlt : i < paths.length := by
    rw [← h.length.1]
    rw [Option.map_eq_some_iff] at g0
    obtain ⟨a, ha, -⟩ := g0
    exact (List.getElem?_eq_some_iff.1 ha).1
  have hp := List.getElem?_eq_getElem hlt
  obtain ⟨a, b, ha, hb, -, -, la, lb, he⟩ := h.at hp
  rw [ha, Option.map_some, Option.some.injEq] at g0
  rw [hb, Option.map_some, Option.some.injEq] at g1
  simp only at g0 g1 h1 h2
  subst g0 g1
  have := hs _ (List.mem_of_getElem? hp)
  rw [← he, addShares_getD la lb, List.getD_eq_getElem?_getD, List.getD_eq_getElem?_getD, h1, h2] at this
  exact this

/-- One level when all digests agree and one server raises the counters. -/
theorem tells_bentLevel {n d m T : Nat} {r0 r1 : List (Bool × ReportShare)} {paths : List (List Bool)}
    {kcs : Pair2 P} (h : Both n d m r0 r1 paths kcs) (c0 c1 : ServerCfg) (cfg : Config) (num : Nat)
    (hn : cfg.histBuckets = n) (hne : paths ≠ []) (hm : m < d)
    (hk0 : KeysReach m r0) (hk1 : KeysReach m r1) (hf : r0.map Prod.fst = r1.map Prod.fst)
    (hi : Spec.included r0 ≠ [])
    (hq : Spec.digests P n true paths r0 = Spec.digests P n false paths r1) (hT : max 1 cfg.threshold = T + up)
    (hs : ∀ p ∈ kids paths, ((Spec.tally P n (Spec.keyPairs r0 r1) p).getD n 0).val + up < 2 ^ 64) :
    ∃ kcs', Tells c0 c1 (bendP b (Spec.bent n up pick) (levelP cfg num)) kcs (Spec.toBoth [.treeCrawl 1 [] false,
        .treePrune (levelDecisions P n T r0 r1 paths)]) () kcs' ∧
      Both n d (m + 1) r0 r1 (survivors P n T r0 r1 paths) kcs' := by
  obtain ⟨root, hroot⟩ := merkleRoots_one (P := P) (digests_ne hk0 hi (n := n) (first := true)
    (paths := paths)) [] false
  obtain ⟨nx0, k0, e0, a0, f0, -, s0⟩ := h.fst.treeCrawl c0.build hk0 hne hm 1 false hroot
  obtain ⟨nx1, k1, e1, a1, f1, -, s1⟩ := h.snd.treeCrawl c1.build hk1 hne hm 1 false (hq ▸ hroot)
  have hN : Nodes (P := P) n r0 r1 (kids paths) nx0 nx1 :=
    ⟨hf, kids_ne, f0 ▸ a0.pth, f1 ▸ a1.pth, s0, s1⟩
  have hkeep := keep_raised b (v := (nx0.map TreeNode.value, nx1.map TreeNode.value)) (hN.keep T) (nodes_small hN hs)
  obtain ⟨k0', p0, -, b0⟩ := a0.prune fun p => decide (T ≤ Spec.countAt P n (Spec.keyPairs r0 r1) p)
  obtain ⟨k1', p1, -, b1⟩ := a1.prune fun p => decide (T ≤ Spec.countAt P n (Spec.keyPairs r0 r1) p)
  refine ⟨(k0', k1'), ?_, b0, b1⟩
  have hcb : crawlBoth c0 c1 kcs { splitBy := 1, malicious := [], isLast := false }
      = .ok ((k0, k1), ⟨nx0.map TreeNode.value, [root], [0]⟩, ⟨nx1.map TreeNode.value, [root], [0]⟩) := by
    unfold crawlBoth
    simp only [e0, e1, ok_bind]
    rfl
  obtain ⟨x, hx⟩ := tells_exec (c0 := c0) (c1 := c1) (kcs := kcs)
    (p := callCrawl (.treeCrawl 1 [] false) (.treeCrawl 1 [] false))
    (by rw [exec_crawlCall { splitBy := 1, malicious := [], isLast := false }, hcb, ok_bind])
  obtain rfl := tells_crawl hx
  have hlen : assertE ((bendPair b (fun r : CrawlResp => { r with cntValues := raiseAll n up r.cntValues })
      (⟨nx0.map TreeNode.value, [root], [0]⟩, ⟨nx1.map TreeNode.value, [root], [0]⟩)).1.cntValues.length
      == (bendPair b (fun r : CrawlResp => { r with cntValues := raiseAll n up r.cntValues })
      (⟨nx0.map TreeNode.value, [root], [0]⟩, ⟨nx1.map TreeNode.value, [root], [0]⟩)).2.cntValues.length) = .ok () := by
    cases b <;> simp [bendPair, raiseAll, hN.length.1, hN.length.2, assertE]
  have hloop : Tells c0 c1 (bendP b (Spec.bent n up pick) (levelLoopP cfg num (num + 3)
      { splitBy := 1, malicious := [], isLast := false })) kcs [(.treeCrawl 1 [] false, .treeCrawl 1 [] false)]
      (levelDecisions P n T r0 r1 paths) (k0, k1) := by
    rw [show num + 3 = (num + 2) + 1 from rfl, levelLoopP, bendP_bind, bend_crawl]
    refine ((hx.bind (.ret _ _ _) : Tells c0 c1 (callCrawl (.treeCrawl 1 [] false) (.treeCrawl 1 [] false) >>= fun v => pure (bendPair b (fun r : CrawlResp => { r with cntValues := raiseAll n up r.cntValues }) v)) kcs _ _ _)).bind (y := []) ?_
    rw [bendP_bind, liftM_prog, bendP_lift, hlen]
    have hk : keepValues cfg.histBuckets (max 1 cfg.threshold)
        (bendPair b (fun r : CrawlResp => { r with cntValues := raiseAll n up r.cntValues })
          (⟨nx0.map TreeNode.value, [root], [0]⟩, ⟨nx1.map TreeNode.value, [root], [0]⟩)).1.cntValues
        (bendPair b (fun r : CrawlResp => { r with cntValues := raiseAll n up r.cntValues })
          (⟨nx0.map TreeNode.value, [root], [0]⟩, ⟨nx1.map TreeNode.value, [root], [0]⟩)).2.cntValues
        = .ok (levelDecisions P n T r0 r1 paths) := by
      rw [hn, hT]
      cases b <;> exact hkeep
    have hroots : (bendPair b (fun r : CrawlResp => { r with cntValues := raiseAll n up r.cntValues })
        (⟨nx0.map TreeNode.value, [root], [0]⟩, ⟨nx1.map TreeNode.value, [root], [0]⟩)).1.roots = [root] ∧
        (bendPair b (fun r : CrawlResp => { r with cntValues := raiseAll n up r.cntValues })
        (⟨nx0.map TreeNode.value, [root], [0]⟩, ⟨nx1.map TreeNode.value, [root], [0]⟩)).2.roots = [root] := by
      cases b <;> exact ⟨rfl, rfl⟩
    obtain ⟨A, hA⟩ : ∃ A, A = (bendPair b (fun r : CrawlResp => { r with cntValues := raiseAll n up r.cntValues })
        (⟨nx0.map TreeNode.value, [root], [0]⟩, ⟨nx1.map TreeNode.value, [root], [0]⟩)) := ⟨_, rfl⟩
    rw [← hA] at hk hroots ⊢
    show Tells c0 c1 (bendP b (Spec.bent n up pick) _) (k0, k1) [] _ (k0, k1)
    rw [bendP_bind, liftM_prog, bendP_lift, hk]
    show Tells c0 c1 (bendP b (Spec.bent n up pick) _) (k0, k1) [] _ (k0, k1)
    simp only [hroots.1, List.isEmpty_cons, Bool.false_eq_true, if_false]
    rw [bendP_bind, liftM_prog, bendP_lift, diffIndices_self A.1 A.2 (hroots.1.trans hroots.2.symm)]
    show Tells c0 c1 (bendP b (Spec.bent n up pick) _) (k0, k1) [] _ (k0, k1)
    simp only [List.isEmpty_nil, if_true]
    exact .ret _ _ _
  have hpr : (callDone (.treePrune (levelDecisions P n T r0 r1 paths))
      (.treePrune (levelDecisions P n T r0 r1 paths))).exec c0 c1 (k0, k1)
      = .ok ((), (k0', k1')) := by
    rw [exec_prune]
    unfold levelDecisions
    simp only [pruneBoth, p0, p1, ok_bind]
  obtain ⟨y, hy⟩ := tells_exec hpr
  obtain rfl := tells_done hy
  unfold levelP
  rw [bendP_bind]
  simp only [bend_prune]
  exact hloop.bind hy

/-- The levels from `m` on, `k` of them, when one server raises the counters. -/
theorem tells_bentLevels {n d T : Nat} {r0 r1 : List (Bool × ReportShare)} (c0 c1 : ServerCfg) (bld : Build)
    (cfg : Config) (num : Nat) (hn : cfg.histBuckets = n) (hT : max 1 cfg.threshold = T + up)
    (hq : Spec.AllPairs (Spec.QuietInner P n d) r0 r1)
    (hi : Spec.included r0 ≠ []) (hk0 : KeysReach (d - 1) r0) (hk1 : KeysReach (d - 1) r1)
    (hs : ∀ p, p ≠ [] → p.length ≤ d → ((Spec.tally P n (Spec.keyPairs r0 r1) p).getD n 0).val + up < 2 ^ 64) :
    ∀ (k m : Nat) (kcs : Pair2 P), 1 ≤ m → m + k < d →
      Both n d m r0 r1 (Spec.heavyPaths P n T (Spec.keyPairs r0 r1) m) kcs →
      (∀ l, l < m + k → m ≤ l → Spec.heavyPaths P n T (Spec.keyPairs r0 r1) l ≠ []) →
      ∃ kcs', Tells c0 c1 (bendP b (Spec.bent n up pick) (levelsP P bld cfg num (List.range' m k))) kcs
          (Spec.toBoth ((List.range' m k).flatMap fun l => [.treeCrawl 1 [] false,
            .treePrune (levelDecisions P n T r0 r1 (Spec.heavyPaths P n T (Spec.keyPairs r0 r1) l))])) () kcs' ∧
        Both n d (m + k) r0 r1 (Spec.heavyPaths P n T (Spec.keyPairs r0 r1) (m + k)) kcs'
  | 0, m, kcs, _, _, h, _ => ⟨kcs, .ret _ _ _, h⟩
  | k + 1, m, kcs, hm1, hmk, h, hall => by
    obtain ⟨k1, e1, b1⟩ := tells_bentLevel (b := b) (pick := pick) h c0 c1 cfg num hn (hall m (by omega) le_rfl)
      (by omega) (hk0.mono (by omega)) (hk1.mono (by omega))
      hq.1 hi (digests_quiet hq (m := m) (by omega) (heavyPaths_nodup ..) heavyPaths_len) hT
      fun p hp => hs p (kids_ne p hp) (by rw [kids_len heavyPaths_len p hp]; omega)
    rw [survivors_heavyPaths] at b1
    obtain ⟨k2, e2, b2⟩ := tells_bentLevels c0 c1 bld cfg num hn hT hq hi hk0 hk1 hs k (m + 1) k1 (by omega)
      (by omega) b1 fun l h1 h2 => hall l (by omega) (by omega)
    rw [show m + 1 + k = m + (k + 1) from by omega] at b2
    refine ⟨k2, ?_, b2⟩
    rw [List.range'_succ, levelsP, if_neg (by omega), List.flatMap_cons]
    have := e1.bind (f := fun _ => bendP b (Spec.bent n up pick) (levelsP P bld cfg num (List.range' (m + 1) k))) e2
    unfold Spec.toBoth at this ⊢
    rw [List.map_append]
    rw [bendP_bind]
    simp only [bendP_bind]
    exact this

theorem proofLoop_threshold (cfg : Config) (T num : Nat) : ∀ fuel start : Nat,
    proofLoopP { cfg with threshold := T } num fuel start = proofLoopP cfg num fuel start
  | 0, start => rfl
  | fuel + 1, start => by
    rw [proofLoopP, proofLoopP]
    simp only [proofLoop_threshold cfg T num fuel]

/-- The last level when one server raises the counters. -/
theorem tells_bentLast {T num : Nat} {cfg : Config} {kcs k : Pair2 P} {c0 c1 : ServerCfg} {sent : List (Req × Req)}
    {a : Shown} (hn : cfg.histBuckets = n) (hT1 : 1 ≤ T) (hT : max 1 cfg.threshold = T + up)
    (h : Tells c0 c1 (levelLastP { cfg with threshold := T } num) kcs sent a k)
    (hs : ∀ v k1, (callVecs .treeCrawlLast .treeCrawlLast).exec c0 c1 kcs = .ok (v, k1) →
      ∀ x ∈ v.1.zip v.2, ∀ a1 a2, x.1[n]? = some a1 → x.2[n]? = some a2 → (a1 + a2).val + up < 2 ^ 64) :
    Tells c0 c1 (bendP b (Spec.bent n up pick) (levelLastP cfg num)) kcs sent a k := by
  unfold levelLastP at h ⊢
  obtain ⟨x1, y1, v, q1, rfl, h1, g1⟩ := tells_bind h
  obtain ⟨x2, y2, u, q2, rfl, h2, g2⟩ := tells_bind g1
  obtain ⟨x3, y3, ks, q3, rfl, h3, g3⟩ := tells_bind g2
  obtain ⟨rfl, rfl, e2⟩ := tells_lift h2
  obtain ⟨rfl, rfl, hks⟩ := tells_lift h3
  rw [show max 1 ({ cfg with threshold := T } : Config).threshold = T from Nat.max_eq_right hT1] at hks
  have hkeep := keep_raised b (hn ▸ hks) (hs v _ h1.exec)
  rw [bendP_bind, bend_crawlLast]
  rw [show x1 ++ ([] ++ ([] ++ y3)) = x1 ++ [] ++ y3 by simp]
  refine ((h1.bind (.ret _ _ _) : Tells c0 c1 (callVecs .treeCrawlLast .treeCrawlLast >>= fun v =>
    .ret (bendPair b (raiseAll n up) v)) kcs _ _ _)).bind ?_
  have hlen : assertE ((bendPair b (raiseAll n up) v).1.length == (bendPair b (raiseAll n up) v).2.length) = .ok () := by
    rw [← e2]
    cases b <;> simp [bendPair, raiseAll]
  rw [bendP_bind, liftM_prog, bendP_lift, hlen]
  show Tells c0 c1 (bendP b (Spec.bent n up pick) _) _ _ _ _
  rw [bendP_bind, liftM_prog, bendP_lift, hn, hT, hkeep]
  show Tells c0 c1 (bendP b (Spec.bent n up pick) _) _ _ _ _
  simp only [bendP_bind, bend_proofLoop, bend_prune, bend_shares, liftM_prog, bendP_lift]
  rw [proofLoop_threshold] at g3
  rw [← hn]
  exact g3

/-! ### The FLP phase -/

theorem zipWith_spoil_left (v0 v1 : List Field128) : List.zipWith (fun a b => a + b) (v0.modify 0 (· + 1)) v1
    = (List.zipWith (fun a b => a + b) v0 v1).modify 0 (· + 1) := by
  cases v0 <;> cases v1 <;> simp [List.modify_zero_cons, add_right_comm]

theorem zipWith_spoil_right (v0 v1 : List Field128) : List.zipWith (fun a b => a + b) v0 (v1.modify 0 (· + 1))
    = (List.zipWith (fun a b => a + b) v0 v1).modify 0 (· + 1) := by
  cases v0 <;> cases v1 <;> simp [List.modify_zero_cons, add_assoc]

theorem spoil_decide (hf : Spec.FirstMatters P n) (b : Bool) : ∀ (v0 v1 : List (List Field128)) (start : Nat)
    (ks : List Bool), v0.length = v1.length → mapE (decideShares P n) (v0.zip v1) = .ok ks → (∀ x ∈ ks, x = true) →
    mapE (decideShares P n) ((bendPair b (spoilAll pick start) (v0, v1)).1.zip
      (bendPair b (spoilAll pick start) (v0, v1)).2) = .ok ((List.range' start v0.length).map pick)
  | [], [], start, ks, _, _, _ => by cases b <;> rfl
  | [], _ :: _, _, _, h, _, _ => by cases h
  | _ :: _, [], _, _, h, _, _ => by cases h
  | x :: v0, y :: v1, start, ks, hl, h, ht => by
    rw [List.zip_cons_cons, mapE_cons] at h
    obtain ⟨k, hk, h⟩ := bind_eq_ok.1 h
    obtain ⟨ks', hks, h⟩ := bind_eq_ok.1 h
    cases h
    have ih := spoil_decide hf b v0 v1 (start + 1) ks' (by simpa using hl) hks fun z hz => ht z (by simp [hz])
    have hsucc : ∀ (z : List Field128) (v : List (List Field128)), spoilAll pick start (z :: v)
        = (if pick start then z else z.modify 0 (· + 1)) :: spoilAll pick (start + 1) v := by
      intro z v
      unfold spoilAll
      rw [List.mapIdx_cons]
      rw [Nat.add_zero]
      congr 2
      funext i x
      rw [show start + (i + 1) = start + 1 + i by omega]
    obtain rfl : k = true := ht k (by simp)
    have hd : P.flpDecide n (List.zipWith (fun a b => a + b) x y) = some true := by
      unfold decideShares unwrapO at hk
      split at hk
      · rename_i e
        cases hk
        exact e
      · cases hk
    have hd' := hf _ hd
    have hhead : ∀ z w, (z, w) = (if b then (x, if pick start then y else y.modify 0 (· + 1))
        else (if pick start then x else x.modify 0 (· + 1), y)) → decideShares P n (z, w) = .ok (pick start) := by
      intro z w e
      unfold decideShares
      cases b <;> cases hp : pick start <;> simp only [hp, Bool.false_eq_true, if_false, if_true] at e <;> cases e
      · simp only [zipWith_spoil_left, hd', unwrapO]
      · simp only [hd, unwrapO]
      · simp only [zipWith_spoil_right, hd', unwrapO]
      · simp only [hd, unwrapO]
    rw [List.length_cons, List.range'_succ, List.map_cons]
    cases b
    · simp only [bendPair, Bool.false_eq_true, if_false, hsucc, List.zip_cons_cons] at ih hhead ⊢
      rw [mapE_cons, hhead _ _ rfl, ok_bind, ih, ok_bind]
    · simp only [bendPair, if_true, hsucc, List.zip_cons_cons] at ih hhead ⊢
      rw [mapE_cons, hhead _ _ rfl, ok_bind, ih, ok_bind]

theorem spoilAll_length (start : Nat) (v : List (List Field128)) : (spoilAll pick start v).length = v.length := by
  simp [spoilAll]

theorem range_batch {num start q : Nat} (h : start < num) : List.range' start (min num (start + q) - start)
    ++ List.range' (start + q) (num - (start + q)) = List.range' start (num - start) := by
  rcases Nat.lt_or_ge num (start + q) with hl | hl
  · rw [Nat.min_eq_left (by omega), show num - (start + q) = 0 by omega]
    simp
  · rw [Nat.min_eq_right hl, show start + q - start = q by omega, show num - start = q + (num - (start + q)) by omega,
      List.range'_append_1]

/-- The FLP loop with spoiled shares, if the loop with the right ones accepts every report. -/
theorem tells_bentFlpLoop {bld : Build} {cfg : Config} {num : Nat} {c0 c1 : ServerCfg} {kcs : Pair2 P}
    (hn : cfg.histBuckets = n) (hf : Spec.FirstMatters P n)
    (hlen : ∀ s e v k, e ≤ num → (callVecs (.runFlpQueries s e) (.runFlpQueries s e)).exec c0 c1 kcs = .ok (v, k) →
      k = kcs ∧ v.1.length = e - s ∧ v.2.length = e - s) : ∀ {fuel start : Nat} {keep keep' : List Bool}
    {k : Pair2 P} {sent : List (Req × Req)} {ks : List Bool},
    Tells c0 c1 (flpLoopP P bld cfg num fuel start keep) kcs sent ks k →
    ∃ more, ks = keep ++ more ∧ ((∀ x ∈ more, x = true) →
      Tells c0 c1 (bendP b (Spec.bent n up pick) (flpLoopP P bld cfg num fuel start keep')) kcs sent
        (keep' ++ (List.range' start (num - start)).map pick) k)
  | 0, start, keep, keep', k, sent, ks, h => by
    rw [flpLoopP] at h
    split at h
    · cases h
    · obtain ⟨rfl, rfl, rfl⟩ := tells_ret h
      refine ⟨[], by simp, fun _ => ?_⟩
      rw [flpLoopP, if_neg ‹_›, show num - start = 0 by omega]
      simp only [List.range'_zero, List.map_nil, List.append_nil]
      exact .ret _ _ _
  | fuel + 1, start, keep, keep', k, sent, ks, h => by
    rw [flpLoopP] at h
    split at h
    · rename_i hlt
      obtain ⟨x, y, v, k1, rfl, h1, g1⟩ := tells_bind h
      obtain ⟨x2, y2, u, k2, rfl, h2, g2⟩ := tells_bind g1
      obtain ⟨x3, y3, ks', k3, rfl, h3, g3⟩ := tells_bind g2
      obtain ⟨rfl, rfl, e2⟩ := tells_lift h2
      obtain ⟨rfl, rfl, e3⟩ := tells_lift h3
      obtain ⟨rfl, l0, l1⟩ := hlen _ _ _ _ (Nat.min_le_left _ _) h1.exec
      obtain ⟨more, rfl, hmore⟩ := tells_bentFlpLoop hn hf hlen (keep' := keep' ++ (List.range' start
        (min num (start + cfg.queryBatch) - start)).map pick) g3
      refine ⟨ks' ++ more, by simp, fun ht => ?_⟩
      have hm := hmore fun z hz => ht z (by simp [hz])
      have hd := spoil_decide (pick := pick) hf b v.1 v.2 start ks' (by rw [l0, l1]) (hn ▸ e3) fun z hz => ht z (by simp [hz])
      rw [l0] at hd
      rw [List.append_assoc, ← List.map_append, range_batch hlt] at hm
      have hlen' : debugAssert bld ((bendPair b (spoilAll pick start) v).1.length
          == (bendPair b (spoilAll pick start) v).2.length) = .ok () := by
        rw [← e2]
        cases b <;> simp [bendPair, spoilAll_length]
      rw [flpLoopP, if_pos hlt, bendP_bind, bend_flp]
      rw [show x ++ ([] ++ ([] ++ y3)) = x ++ [] ++ y3 by simp]
      refine ((h1.bind (.ret _ _ _) : Tells c0 c1 (callVecs _ _ >>= fun v =>
        .ret (bendPair b (spoilAll pick start) v)) _ _ _ _)).bind ?_
      rw [bendP_bind, liftM_prog, bendP_lift, hlen']
      show Tells c0 c1 (bendP b (Spec.bent n up pick) _) _ _ _ _
      rw [bendP_bind, liftM_prog, bendP_lift, hn, hd]
      exact hm
    · obtain ⟨rfl, rfl, rfl⟩ := tells_ret h
      refine ⟨[], by simp, fun _ => ?_⟩
      rw [flpLoopP, if_neg ‹_›, show num - start = 0 by omega]
      simp only [List.range'_zero, List.map_nil, List.append_nil]
      exact .ret _ _ _

/-- The FLP phase with spoiled shares: the clients that are not picked are left out. -/
theorem tells_bentFlp {bld : Build} {cfg : Config} {num : Nat} {c0 c1 : ServerCfg} {kcs k : Pair2 P}
    {root0 root1 : TreeNode} {keep : List Bool} (hn : cfg.histBuckets = n) (hf : Spec.FirstMatters P n)
    (hb : 1 ≤ cfg.queryBatch) (f0 : Fresh kcs.1 root0) (f1 : Fresh kcs.2 root1)
    (l0 : kcs.1.reportShares.length = num) (l1 : kcs.2.reportShares.length = num)
    (hfl : ∀ r ∈ kcs.1.reportShares, r.1 = true) (hl : keep.length = num) (ht : ∀ x ∈ keep, x = true)
    (h : driverFlp c0 c1 bld cfg kcs num = .ok k) (hk : k.1.reportShares = Spec.masked kcs.1.reportShares keep) :
    Tells c0 c1 (bendP b (Spec.bent n up pick) (flpP P bld cfg num)) kcs
      (Spec.toBoth ((Spec.batches num cfg.queryBatch).map (fun r => .runFlpQueries r.1 r.2)
        ++ [.applyFlpResults ((List.range num).map pick)])) ()
      ({ kcs.1 with reportShares := Spec.masked kcs.1.reportShares ((List.range num).map pick) },
        { kcs.2 with reportShares := Spec.masked kcs.2.reportShares ((List.range num).map pick) }) := by
  obtain ⟨lc0, rc0, lc1, rc1, R0, R1⟩ := driverFlp_children f0 f1 l0 l1 h
  have hlen : ∀ s e v k, e ≤ num → (callVecs (.runFlpQueries s e) (.runFlpQueries s e)).exec c0 c1 kcs = .ok (v, k) →
      k = kcs ∧ v.1.length = e - s ∧ v.2.length = e - s := by
    intro s e v k he hx
    rw [exec_flpCall] at hx
    obtain ⟨_, -, hx⟩ := bind_eq_ok.1 hx
    obtain ⟨v0, e0, hx⟩ := bind_eq_ok.1 hx
    obtain ⟨_, -, hx⟩ := bind_eq_ok.1 hx
    obtain ⟨v1, e1, hx⟩ := bind_eq_ok.1 hx
    cases hx
    rw [runFlp_eq R0.frontier R0.path R0.left R0.right R0.values R0.reports he] at e0
    rw [runFlp_eq R1.frontier R1.path R1.left R1.right R1.values R1.reports he] at e1
    exact ⟨rfl, by rw [mapE_length e0, List.length_range'], by rw [mapE_length e1, List.length_range']⟩
  have he : (flpP P bld cfg num).exec c0 c1 kcs = .ok ((), k) := (exec_flp bld cfg num kcs _).2 (by rw [h, ok_bind])
  obtain ⟨sent, ht'⟩ := tells_exec he
  obtain ⟨x, y, ks, k1, rfl, h1, h2⟩ := tells_bind ht'
  obtain ⟨rfl, rfl⟩ := tells_flpLoop (whileRanges_batches hb) h1
  have h3 := h2.exec
  rw [exec_apply] at h3
  obtain ⟨a0, e0, h3⟩ := bind_eq_ok.1 h3
  obtain ⟨a1, e1, h3⟩ := bind_eq_ok.1 h3
  cases h3
  have hlk := (applyFlp_flags e0).1
  rw [applyFlp_exact _ _ hlk] at e0
  cases e0
  obtain rfl : ks = keep := by
    have := congrArg (List.map Prod.fst) hk
    simp only at this
    rwa [masked_flags hfl hlk, masked_flags hfl (hl.trans l0.symm)] at this
  obtain ⟨more, hm, hbent⟩ := tells_bentFlpLoop (b := b) (up := up) (pick := pick) (keep' := []) hn hf hlen h1
  rw [List.nil_append] at hm
  subst hm
  have hloop := hbent ht
  rw [List.nil_append, Nat.sub_zero, ← List.range_eq_range'] at hloop
  obtain ⟨z, hz⟩ := tells_exec (c0 := c0) (c1 := c1) (kcs := k1) (a := ())
    (p := callDone (.applyFlpResults ((List.range num).map pick)) (.applyFlpResults ((List.range num).map pick)))
    (kcs' := ({ k1.1 with reportShares := Spec.masked k1.1.reportShares ((List.range num).map pick) },
      { k1.2 with reportShares := Spec.masked k1.2.reportShares ((List.range num).map pick) }))
    (by rw [exec_apply, applyFlp_exact _ _ (by simp [l0]), ok_bind, applyFlp_exact _ _ (by simp [l1]), ok_bind])
  obtain rfl := tells_done hz
  unfold flpP
  rw [bendP_bind]
  simp only [bend_apply]
  unfold Spec.toBoth at hloop ⊢
  rw [List.map_append]
  exact hloop.bind hz

/-! ### Requests that do not depend on the lies -/

/-- Whatever the lying server answers, it gets a beginning of the requests `L`. -/
def Shadows (b : Bool) (c : ServerCfg) (L : List Req) (s : Server P) (p : Prog α) : Prop :=
  ∀ (lie : List Req → Resp) (got : List Req), ∃ pre, (Spec.against b c lie p s got).1 = got ++ pre ∧ pre <+: L

theorem shadows_ret (b : Bool) (c : ServerCfg) (L : List Req) (s : Server P) (a : α) : Shadows b c L s (.ret a) :=
  fun _ got => ⟨[], by simp [Spec.against], List.nil_prefix⟩

theorem shadows_panic (b : Bool) (c : ServerCfg) (L : List Req) (s : Server P) (e : Panic) :
    Shadows b c L s (.panic e : Prog α) :=
  fun _ got => ⟨[], by simp [Spec.against], List.nil_prefix⟩

theorem shadows_lift {b : Bool} {c : ServerCfg} {L : List Req} {s : Server P} {e : Exec α} {f : α → Prog β}
    (h : ∀ a, e = .ok a → Shadows b c L s (f a)) : Shadows b c L s (Prog.lift e >>= f) := by
  cases e with
  | ok a => exact h a rfl
  | error e => exact shadows_panic b c L s e

theorem shadows_ask {b : Bool} {c : ServerCfg} {L : List Req} {s : Server P} {r0 r1 : Req} {k : Resp → Resp → Prog α}
    (h : ∀ t a, s.handle c (Pair.get (r0, r1) !b) = (t, .ok a) → ∀ l,
      Shadows b c L t (k (if b then a else l) (if b then l else a))) :
    Shadows b c (Pair.get (r0, r1) b :: L) s (.ask r0 r1 k) := by
  intro lie got
  rw [Spec.against]
  cases e : s.handle c (Pair.get (r0, r1) !b) with
  | mk t x =>
    cases x with
    | error x => exact ⟨[Pair.get (r0, r1) b], rfl, by simp⟩
    | ok a =>
      obtain ⟨pre, h1, h2⟩ := h t a e (lie (got ++ [Pair.get (r0, r1) b])) lie (got ++ [Pair.get (r0, r1) b])
      exact ⟨Pair.get (r0, r1) b :: pre, h1.trans (by simp), by simpa using h2⟩

theorem shadows_done {b : Bool} {c : ServerCfg} {L : List Req} {s : Server P} {r0 r1 : Req} {f : Unit → Prog α}
    (h : ∀ t a, s.handle c (Pair.get (r0, r1) !b) = (t, .ok a) → Shadows b c L t (f ())) :
    Shadows b c (Pair.get (r0, r1) b :: L) s (callDone r0 r1 >>= f) := by
  refine shadows_ask fun t a ht l => ?_
  generalize ha : (if b = true then a else l) = a0
  generalize hl : (if b = true then l else a) = a1
  have := h t a ht
  cases a0 <;> cases a1 <;> first | exact this | exact shadows_panic _ _ _ _ _

theorem shadows_bytes {b : Bool} {c : ServerCfg} {L : List Req} {s : Server P} {r0 r1 : Req}
    {f : List (List Byte) × List (List Byte) → Prog α}
    (h : ∀ t a, s.handle c (Pair.get (r0, r1) !b) = (t, .ok (.bytes a)) → ∀ l,
      Shadows b c L t (f (if b then (a, l) else (l, a)))) :
    Shadows b c (Pair.get (r0, r1) b :: L) s (callBytes r0 r1 >>= f) := by
  refine shadows_ask fun t a ht l => ?_
  cases b
  · cases l <;> cases a <;> first | exact h t _ ht _ | exact shadows_panic _ _ _ _ _
  · cases a <;> cases l <;> first | exact h t _ ht _ | exact shadows_panic _ _ _ _ _

theorem shadows_aggregate {b : Bool} {c : ServerCfg} {L : List Req} {s : Server P} {r0 r1 : Req}
    {f : (List Field128 × Nat) × (List Field128 × Nat) → Prog α}
    (h : ∀ t a, s.handle c (Pair.get (r0, r1) !b) = (t, .ok a) → ∀ v, Shadows b c L t (f v)) :
    Shadows b c (Pair.get (r0, r1) b :: L) s (callAggregate r0 r1 >>= f) := by
  refine shadows_ask fun t a ht l => ?_
  generalize ha : (if b = true then a else l) = a0
  generalize hl : (if b = true then l else a) = a1
  have := h t a ht
  cases a0 <;> cases a1 <;> first | exact this _ | exact shadows_panic _ _ _ _ _

/-- The preparation shares do not depend on the stored states. -/
theorem pmValidate_states {c : ServerCfg} {kc kc1 : KeyCollection P} {s e : Nat} {a : List (List Byte)}
    (h : srvPmValidate c kc s e = .ok (kc1, a)) (m : List (Nat × (P.PrepState × P.PrepShare))) :
    ∃ m', srvPmValidate c { kc with pmState := m } s e = .ok ({ kc with pmState := m' }, a) ∧
      ∃ m1, kc1 = { kc with pmState := m1 } := by
  unfold srvPmValidate at h ⊢
  obtain ⟨u, e1, h⟩ := bind_eq_ok.1 h
  obtain ⟨ag, e2, h⟩ := bind_eq_ok.1 h
  rw [e1, ok_bind, e2, ok_bind]
  simp only at h ⊢
  split at h
  · cases h
  · rename_i hok
    rw [if_neg hok]
    obtain ⟨rs, e3, h⟩ := bind_eq_ok.1 h
    cases h
    have e3' : mapE (pmValidateClient { kc with pmState := m } ag) (rangeFrom s e) = .ok rs := e3
    rw [e3', ok_bind]
    exact ⟨_, rfl, _, rfl⟩

/-- What the result request leaves behind. -/
theorem pmResult_states {c : ServerCfg} {kc kc1 : KeyCollection P} {peers : List (List Byte)} {s e : Nat}
    {a : List Field128 × Nat} (h : srvPmResult c kc peers s e = .ok (kc1, a)) : ∃ m, kc1 = { kc with pmState := m } := by
  unfold srvPmResult at h
  split at h
  · cases h
  · obtain ⟨x, -, h⟩ := bind_eq_ok.1 h
    obtain ⟨y, -, h⟩ := bind_eq_ok.1 h
    obtain ⟨z, -, h⟩ := bind_eq_ok.1 h
    cases h
    exact ⟨_, rfl⟩

theorem tells_once {r0 r1 : Req} {k : Resp → Resp → Prog α} {kcs k' : Pair2 P} {sent : List (Req × Req)} {a : α}
    (h : Tells c0 c1 (.ask r0 r1 k) kcs sent a k') : ∃ (a0 a1 : Resp) (k1 : Pair2 P) (rest : List (Req × Req)),
      sent = (r0, r1) :: rest ∧
      (∀ b, (Server.running (Pair.get kcs b)).handle (Pair.get (c0, c1) b) (Pair.get (r0, r1) b)
        = (.running (Pair.get k1 b), .ok (Pair.get (a0, a1) b))) ∧ Tells c0 c1 (k a0 a1) k1 rest a k' := by
  cases h with
  | ask _ _ _ _ _ t0 t1 _ _ a0 a1 sent _ h0 h1 h =>
    obtain ⟨p0, k0, rfl, l0⟩ := talk_step_ok h0
    obtain ⟨p1, k1, rfl, l1⟩ := talk_step_ok h1
    exact ⟨a0, a1, (k0, k1), sent, rfl, fun b => by cases b <;> assumption, h⟩

theorem tells_bytesCall {r0 r1 : Req} {kcs k : Pair2 P} {sent : List (Req × Req)}
    {v : List (List Byte) × List (List Byte)} (h : Tells c0 c1 (callBytes r0 r1) kcs sent v k) : sent = [(r0, r1)] ∧
      ∀ b, (Server.running (Pair.get kcs b)).handle (Pair.get (c0, c1) b) (Pair.get (r0, r1) b)
        = (.running (Pair.get k b), .ok (.bytes (Pair.get v b))) := by
  obtain ⟨a0, a1, k1, rest, rfl, hh, h⟩ := tells_once h
  cases a0 <;> cases a1 <;> first | (cases h; done) | skip
  obtain ⟨rfl, rfl, rfl⟩ := tells_ret h
  exact ⟨rfl, fun b => by have := hh b; cases b <;> exact this⟩

theorem tells_aggregateCall {r0 r1 : Req} {kcs k : Pair2 P} {sent : List (Req × Req)}
    {v : (List Field128 × Nat) × (List Field128 × Nat)} (h : Tells c0 c1 (callAggregate r0 r1) kcs sent v k) :
    sent = [(r0, r1)] ∧
      ∀ b, (Server.running (Pair.get kcs b)).handle (Pair.get (c0, c1) b) (Pair.get (r0, r1) b)
        = (.running (Pair.get k b), .ok (.aggregate (Pair.get v b).1 (Pair.get v b).2)) := by
  obtain ⟨a0, a1, k1, rest, rfl, hh, h⟩ := tells_once h
  cases a0 <;> cases a1 <;> first | (cases h; done) | skip
  obtain ⟨rfl, rfl, rfl⟩ := tells_ret h
  exact ⟨rfl, fun b => by have := hh b; cases b <;> exact this⟩

theorem tells_doneCall {r0 r1 : Req} {kcs k : Pair2 P} {sent : List (Req × Req)} {u : Unit}
    (h : Tells c0 c1 (callDone r0 r1) kcs sent u k) : sent = [(r0, r1)] ∧
      ∀ b, (Server.running (Pair.get kcs b)).handle (Pair.get (c0, c1) b) (Pair.get (r0, r1) b)
        = (.running (Pair.get k b), .ok .done) := by
  obtain ⟨a0, a1, k1, rest, rfl, hh, h⟩ := tells_once h
  cases a0 <;> cases a1 <;> first | (cases h; done) | skip
  obtain ⟨rfl, rfl, rfl⟩ := tells_ret h
  exact ⟨rfl, fun b => by have := hh b; cases b <;> exact this⟩

theorem handle_pmValidate {c : ServerCfg} {kc : KeyCollection P} {s e : Nat} {t : Server P} {a : List (List Byte)}
    (h : (Server.running kc).handle c (.pmValidate s e) = (t, .ok (.bytes a))) :
    ∃ kc', t = .running kc' ∧ srvPmValidate c kc s e = .ok (kc', a) := by
  obtain ⟨-, k, rfl, l⟩ := talk_step_ok h
  refine ⟨k, rfl, ?_⟩
  simp only [locked] at l
  obtain ⟨⟨x, y⟩, e1, l⟩ := bind_eq_ok.1 l
  cases l
  exact e1

theorem handle_pmResult {c : ServerCfg} {kc : KeyCollection P} {peers : List (List Byte)} {s e : Nat} {t : Server P}
    {a : Resp} (h : (Server.running kc).handle c (.pmResult peers s e) = (t, .ok a)) :
    ∃ m, t = .running { kc with pmState := m } := by
  obtain ⟨-, k, rfl, l⟩ := talk_step_ok h
  simp only [locked] at l
  obtain ⟨⟨x, y⟩, e1, l⟩ := bind_eq_ok.1 l
  cases l
  obtain ⟨m, rfl⟩ := pmResult_states e1
  exact ⟨m, rfl⟩

theorem received_append (b : Bool) (x y : List (Req × Req)) :
    Spec.received b (x ++ y) = Spec.received b x ++ Spec.received b y := List.map_append

/-- The batches of plain metrics. -/
theorem shadows_pmLoop (b : Bool) {cfg : Config} : ∀ {rs : List (Nat × Nat)} {kcs k : Pair2 P} {sent : List (Req × Req)}
    {out : List PmOut}, Tells c0 c1 (pmLoopP P cfg rs) kcs sent out k →
    ∀ (m : List (Nat × (P.PrepState × P.PrepShare))) (f : List PmOut → Prog α), (∀ o, ∃ x, f o = .ret x) →
    Shadows b (Pair.get (c0, c1) !b) (Spec.received b sent)
      (.running { Pair.get kcs !b with pmState := m }) (pmLoopP P cfg rs >>= f)
  | [], kcs, k, sent, out, _, m, f, hf => by
    obtain ⟨x, hx⟩ := hf []
    show Shadows _ _ _ _ (f [])
    rw [hx]
    exact shadows_ret _ _ _ _ _
  | r :: rs, kcs, k, sent, out, h, m, f, hf => by
    rw [pmLoopP] at h ⊢
    obtain ⟨x, y, o, k1, rfl, hb, h⟩ := tells_bind h
    obtain ⟨y, z, os, k2, rfl, hr, h⟩ := tells_bind h
    obtain ⟨rfl, rfl, -⟩ := tells_ret h
    unfold pmBatchP at hb ⊢
    obtain ⟨x1, y1, v, q1, rfl, h1, g1⟩ := tells_bind hb
    obtain ⟨x2, y2, u, q2, rfl, h2, g2⟩ := tells_bind g1
    obtain ⟨x3, y3, u3, q3, rfl, h3, g3⟩ := tells_bind g2
    obtain ⟨x4, y4, w, q4, rfl, h4, g4⟩ := tells_bind g3
    obtain ⟨x5, y5, u5, q5, rfl, h5, g5⟩ := tells_bind g4
    obtain ⟨x6, y6, res, q6, rfl, h6, g6⟩ := tells_bind g5
    obtain ⟨rfl, rfl, -⟩ := tells_lift h2
    obtain ⟨rfl, rfl, -⟩ := tells_lift h3
    obtain ⟨rfl, rfl, -⟩ := tells_lift h5
    obtain ⟨rfl, rfl, -⟩ := tells_lift h6
    obtain ⟨rfl, rfl, -⟩ := tells_ret g6
    obtain ⟨rfl, e1⟩ := tells_bytesCall h1
    obtain ⟨rfl, e4⟩ := tells_aggregateCall h4
    have hv := e1 (!b)
    have hv4 := e4 (!b)
    rw [show ∀ a : Req, Pair.get (a, a) (!b) = a from fun a => by cases b <;> rfl] at hv
    obtain ⟨kc1, hk1, s1⟩ := handle_pmValidate hv
    obtain ⟨m', s2, m1, rfl⟩ := pmValidate_states s1 m
    have hq3 : Pair.get q3 (!b) = { Pair.get kcs !b with pmState := m1 } := Server.running.inj hk1
    have hw : ∃ m2, Pair.get k1 (!b) = { Pair.get kcs !b with pmState := m2 } := by
      cases b
      · obtain ⟨m2, e⟩ := handle_pmResult hv4
        exact ⟨m2, by rw [Server.running.inj e, hq3]⟩
      · obtain ⟨m2, e⟩ := handle_pmResult hv4
        exact ⟨m2, by rw [Server.running.inj e, hq3]⟩
    obtain ⟨m2, hw⟩ := hw
    have hL : Spec.received b ([(Req.pmValidate r.1 r.2, Req.pmValidate r.1 r.2)] ++ ([] ++ ([] ++
        ([(Req.pmResult v.2 r.1 r.2, Req.pmResult v.1 r.1 r.2)] ++ ([] ++ ([] ++ []))))) ++ (y ++ []))
        = Pair.get (Req.pmValidate r.1 r.2, Req.pmValidate r.1 r.2) b ::
          (.pmResult (Pair.get v !b) r.1 r.2 :: Spec.received b y) := by
      cases b <;> simp [Spec.received, Pair.get]
    rw [hL]
    simp only [prog_bind_assoc]
    refine shadows_bytes fun t a ht l => ?_
    rw [show ∀ a : Req, Pair.get (a, a) (!b) = a from fun a => by cases b <;> rfl] at ht
    obtain ⟨kc', rfl, s3⟩ := handle_pmValidate ht
    cases s2.symm.trans s3
    refine shadows_lift fun _ _ => shadows_lift fun _ _ => ?_
    obtain ⟨P0, hP0⟩ : ∃ P0 : List (List Byte) × List (List Byte), P0 = (if b then (Pair.get v !b, l) else (l, Pair.get v !b)) :=
      ⟨_, rfl⟩
    rw [← hP0, show Req.pmResult (Pair.get v !b) r.1 r.2
      = Pair.get (Req.pmResult P0.2 r.1 r.2, Req.pmResult P0.1 r.1 r.2) b by rw [hP0]; cases b <;> rfl]
    refine shadows_aggregate fun t a ht w' => ?_
    have ht' : ∃ m3, t = .running { Pair.get kcs !b with pmState := m3 } := by
      cases b
      · obtain ⟨m3, e⟩ := handle_pmResult ht
        exact ⟨m3, e⟩
      · obtain ⟨m3, e⟩ := handle_pmResult ht
        exact ⟨m3, e⟩
    obtain ⟨m3, rfl⟩ := ht'
    refine shadows_lift fun _ _ => shadows_lift fun res' _ => ?_
    have := shadows_pmLoop b hr m3 (fun os => f ({ rejected := w'.1.2, result := res' } :: os)) fun o => hf _
    rw [hw] at this
    exact this

/-- The upload. -/
theorem shadows_await (b : Bool) {reports : List PlaintextReport} : ∀ {bs : List (List (Nat × Option Tamper))}
    {kcs k : Pair2 P} {x y : List (Req × Req)} {u : Unit} {f : Unit → Prog α},
    Tells c0 c1 (awaitAllP reports bs) kcs x u k →
    Shadows b (Pair.get (c0, c1) !b) (Spec.received b y) (.running (Pair.get k !b)) (f ()) →
    Shadows b (Pair.get (c0, c1) !b) (Spec.received b (x ++ y)) (.running (Pair.get kcs !b)) (awaitAllP reports bs >>= f)
  | [], kcs, k, x, y, u, f, h, hf => by
    obtain ⟨rfl, rfl, -⟩ := tells_ret h
    exact hf
  | c :: cs, kcs, k, x, y, u, f, h, hf => by
    rw [awaitAllP] at h ⊢
    obtain ⟨x1, y1, v, q1, rfl, h1, g1⟩ := tells_bind h
    unfold addReportsP at h1 ⊢
    obtain ⟨x2, y2, sh, q2, rfl, h2, g2⟩ := tells_bind h1
    obtain ⟨rfl, rfl, e2⟩ := tells_lift h2
    obtain ⟨rfl, hd⟩ := tells_doneCall g2
    rw [prog_bind_assoc, prog_bind_assoc]
    refine shadows_lift fun sh' hsh => ?_
    cases e2.symm.trans hsh
    rw [show Spec.received b (([] ++ [(Req.addReportShares (sh.map Prod.fst), Req.addReportShares (sh.map Prod.snd))] ++ y1)
      ++ y) = Pair.get (Req.addReportShares (sh.map Prod.fst), Req.addReportShares (sh.map Prod.snd)) b
        :: Spec.received b (y1 ++ y) from by simp [Spec.received]]
    refine shadows_done fun t a ht => ?_
    cases (hd (!b)).symm.trans ht
    exact shadows_await b g1 hf

/-- A whole plain-metrics run. -/
theorem shadows_main (b : Bool) {bld : Build} {cfg : Config} {draw : MainDraw} {n : Nat} {kcs k : Pair2 P}
    {sent : List (Req × Req)} {out : Shown} (h : Tells c0 c1 (mainP P bld cfg .plainMetrics draw n) kcs sent out k) :
    Shadows b (Pair.get (c0, c1) !b) (Spec.received b sent) (.running (Pair.get kcs !b))
      (mainP P bld cfg .plainMetrics draw n) := by
  unfold mainP at h ⊢
  obtain ⟨x1, y1, u1, q1, rfl, h1, g1⟩ := tells_bind h
  obtain ⟨rfl, rfl, e1⟩ := tells_lift h1
  refine shadows_lift fun _ _ => ?_
  rw [List.nil_append]
  split at g1
  · cases g1
  rename_i hok
  rw [if_neg hok]
  obtain ⟨x2, y2, reports, q2, rfl, h2, g2⟩ := tells_bind g1
  obtain ⟨rfl, rfl, e2⟩ := tells_lift h2
  refine shadows_lift fun rep hrep => ?_
  cases e2.symm.trans hrep
  obtain ⟨x3, y3, u3, q3, rfl, h3, g3⟩ := tells_bind g2
  unfold resetP at h3 ⊢
  obtain ⟨rfl, hd⟩ := tells_doneCall h3
  rw [show Spec.received b ([] ++ ([(Req.reset draw.verifyKey cfg.histBuckets, Req.reset draw.verifyKey cfg.histBuckets)]
    ++ y3)) = Pair.get (Req.reset draw.verifyKey cfg.histBuckets, Req.reset draw.verifyKey cfg.histBuckets) b
      :: Spec.received b y3 from by simp [Spec.received]]
  refine shadows_done fun t a ht => ?_
  cases (hd (!b)).symm.trans ht
  obtain ⟨x4, y4, u4, q4, rfl, h4, g4⟩ := tells_bind g3
  unfold mainUploadP at h4 ⊢
  split at h4
  · cases h4
  rename_i hz
  rw [if_neg hz]
  unfold uploadP at h4 ⊢
  obtain ⟨x5, y5, sizes, q5, rfl, h5, g5⟩ := tells_bind h4
  obtain ⟨rfl, rfl, e5⟩ := tells_lift h5
  rw [prog_bind_assoc]
  refine shadows_lift fun sz hsz => ?_
  cases e5.symm.trans hsz
  rw [List.nil_append]
  refine shadows_await b g5 ?_
  unfold collectP at g4 ⊢
  simp only at g4 ⊢
  split at g4
  · cases g4
  rename_i hp
  rw [if_neg hp]
  obtain ⟨x6, y6, rs, q6, rfl, h6, g6⟩ := tells_bind g4
  obtain ⟨rfl, rfl, e6⟩ := tells_lift h6
  refine shadows_lift fun rs' hrs => ?_
  cases e6.symm.trans hrs
  obtain ⟨x7, y7, o, q7, rfl, h7, g7⟩ := tells_bind g6
  obtain ⟨rfl, rfl, -⟩ := tells_ret g7
  rw [List.nil_append, List.append_nil]
  exact shadows_pmLoop b h7 (Pair.get q6 !b).pmState _ fun o => ⟨_, rfl⟩

end Mastic
