import Verif.Lemmas.Replies
import Verif.Lemmas.World
import Verif.Spec.Deviate

/-!
# Lemmas: a process with given answers
-/

namespace Mastic

variable {P : Prims} {α β : Type} {c : ServerCfg}

/-- A process that hears the answers `g0` of server 0 and `g1` of server 1 sends the requests and ends with `a`. -/
inductive Plays : Prog α → List (Req × Req) → List Resp → List Resp → α → Prop
  | ret (a : α) : Plays (.ret a) [] [] [] a
  | ask (r0 r1 : Req) (k : Resp → Resp → Prog α) (x0 x1 : Resp) (sent : List (Req × Req)) (g0 g1 : List Resp) (a : α)
      (h : Plays (k x0 x1) sent g0 g1 a) : Plays (.ask r0 r1 k) ((r0, r1) :: sent) (x0 :: g0) (x1 :: g1) a

theorem Plays.bind {p : Prog α} {f : α → Prog β} {sent sent' : List (Req × Req)} {g0 g1 h0 h1 : List Resp} {a : α} {b : β}
    (hp : Plays p sent g0 g1 a) (hf : Plays (f a) sent' h0 h1 b) :
    Plays (p >>= f) (sent ++ sent') (g0 ++ h0) (g1 ++ h1) b := by
  induction hp with
  | ret a => exact hf
  | ask r0 r1 k x0 x1 sent g0 g1 a h ih => exact .ask _ _ _ _ _ _ _ _ _ (ih hf)

theorem Plays.lift {e : Exec α} {a : α} (h : e = .ok a) : Plays (Prog.lift e) [] [] [] a := by
  subst h; exact .ret a

theorem Plays.then {e : Exec α} {a : α} {f : α → Prog β} {sent : List (Req × Req)} {h0 h1 : List Resp} {b : β}
    (h : e = .ok a) (hf : Plays (f a) sent h0 h1 b) : Plays (Prog.lift e >>= f) sent h0 h1 b := by
  subst h; exact hf

/-- One server gives its answers, the other one runs the code. -/
theorem against_plays {b : Bool} {lie : List Req → Resp} {p : Prog α} {sent : List (Req × Req)} {g0 g1 : List Resp} {a : α}
    (h : Plays p sent g0 g1 a) : ∀ {s t : Server P} {got : List Req},
    Server.run c s (Spec.received (!b) sent) = (t, (Pair.get (g0, g1) !b).map .ok) →
    (∀ (i : Nat) (g : List Req) (y : Resp), g.length = got.length + i + 1 → (Pair.get (g0, g1) b)[i]? = some y → lie g = y) →
    Spec.against b c lie p s got = (got ++ Spec.received b sent, some a) := by
  induction h with
  | ret a =>
    intro s t got _ _
    simp [Spec.against, Spec.received]
  | ask r0 r1 k x0 x1 sent g0 g1 a h ih =>
    intro s t got hs hl
    have e : Spec.received (!b) ((r0, r1) :: sent) = Pair.get (r0, r1) (!b) :: Spec.received (!b) sent := rfl
    have e' : Spec.received b ((r0, r1) :: sent) = Pair.get (r0, r1) b :: Spec.received b sent := rfl
    rw [e, Server.run] at hs
    have hg : Pair.get (x0 :: g0, x1 :: g1) (!b) = Pair.get (x0, x1) (!b) :: Pair.get (g0, g1) (!b) := by cases b <;> rfl
    have hg' : Pair.get (x0 :: g0, x1 :: g1) b = Pair.get (x0, x1) b :: Pair.get (g0, g1) b := by cases b <;> rfl
    rw [hg] at hs
    obtain ⟨⟨t1, t2⟩, ht⟩ : ∃ t, s.handle c (Pair.get (r0, r1) (!b)) = t := ⟨_, rfl⟩
    rw [ht] at hs
    simp only [List.map_cons, Prod.mk.injEq, List.cons.injEq] at hs
    obtain ⟨hs1, rfl, hs2⟩ := hs
    have hy : lie (got ++ [Pair.get (r0, r1) b]) = Pair.get (x0, x1) b := hl 0 _ _ (by simp) (by rw [hg']; rfl)
    have := @ih t1 t (got ++ [Pair.get (r0, r1) b]) (Prod.ext hs1 hs2) (by
        intro i g y hgl hy
        exact hl (i + 1) g y (by simp at hgl ⊢; omega) (by rw [hg']; exact hy))
    rw [Spec.against]
    simp only [ht, hy]
    rw [List.append_assoc, List.singleton_append] at this
    rw [e']
    refine Eq.trans ?_ this
    cases b <;> rfl

/-- Answers as a strategy. -/
def reciter (as : List Resp) (got : List Req) : Resp := (as[got.length - 1]?).getD .done

theorem against_reciter {b : Bool} {p : Prog α} {sent : List (Req × Req)} {g0 g1 : List Resp} {a : α}
    (h : Plays p sent g0 g1 a) {kc kc' : KeyCollection P}
    (hs : Served c kc (Spec.received (!b) sent) (Pair.get (g0, g1) !b) kc') :
    Spec.against b c (reciter (Pair.get (g0, g1) b)) p (.running kc) [] = (Spec.received b sent, some a) := by
  have := against_plays (got := []) (lie := reciter (Pair.get (g0, g1) b)) h hs (by
    intro i g y hg hy
    unfold reciter
    rw [hg]
    simp [hy])
  simpa using this

/-! ### Calls -/

theorem plays_done (r0 r1 : Req) : Plays (callDone r0 r1) [(r0, r1)] [.done] [.done] () :=
  .ask _ _ _ _ _ _ _ _ _ (.ret _)

theorem plays_vecs (r0 r1 : Req) (a b : List (List Field128)) :
    Plays (callVecs r0 r1) [(r0, r1)] [.fieldVecs a] [.fieldVecs b] (a, b) :=
  .ask _ _ _ _ _ _ _ _ _ (.ret _)

theorem plays_crawl (r0 r1 : Req) (a b : CrawlResp) : Plays (callCrawl r0 r1) [(r0, r1)] [.crawl a] [.crawl b] (a, b) :=
  .ask _ _ _ _ _ _ _ _ _ (.ret _)

theorem plays_proofs (r0 r1 : Req) (a b : List Block) : Plays (callProofs r0 r1) [(r0, r1)] [.proofs a] [.proofs b] (a, b) :=
  .ask _ _ _ _ _ _ _ _ _ (.ret _)

theorem plays_shares (r0 r1 : Req) (a b : List HHResult) :
    Plays (callShares r0 r1) [(r0, r1)] [.shares a] [.shares b] (a, b) :=
  .ask _ _ _ _ _ _ _ _ _ (.ret _)

/-! ### Weighted heavy hitters -/

/-- A part of the verifier shares. -/
def verReply (ver : List (List Field128)) (r : Nat × Nat) : Resp := .fieldVecs ((ver.drop r.1).take (r.2 - r.1))

theorem plays_flpLoop {bld : Build} {cfg : Config} {num : Nat} {v0 v1 : List (List Field128)} (l0 : v0.length = num)
    (l1 : v1.length = num) (hd : ∀ x ∈ v0.zip v1, decideShares P cfg.histBuckets x = .ok true) :
    ∀ (fuel start : Nat) (keep : List Bool) (rs : List (Nat × Nat)), whileRanges num cfg.queryBatch fuel start = .ok rs →
      keep = List.replicate (min num start) true →
      Plays (flpLoopP P bld cfg num fuel start keep) (Spec.toBoth (rs.map fun r => .runFlpQueries r.1 r.2))
        (rs.map (verReply v0)) (rs.map (verReply v1)) (List.replicate num true)
  | 0, start, keep, rs, h, hk => by
    rw [whileRanges] at h
    rw [flpLoopP]
    split at h
    · cases h
    · cases h
      rw [if_neg ‹_›, hk, show min num start = num by omega]
      exact .ret _
  | fuel + 1, start, keep, rs, h, hk => by
    rw [whileRanges] at h
    rw [flpLoopP]
    split at h
    · rename_i hlt
      obtain ⟨rest, hr, h⟩ := bind_eq_ok.1 h
      cases h
      rw [if_pos hlt]
      refine Plays.bind (plays_vecs _ _ ((v0.drop start).take (min num (start + cfg.queryBatch) - start))
        ((v1.drop start).take (min num (start + cfg.queryBatch) - start))) ?_
      refine Plays.then (a := ()) ?_ (Plays.then
        (a := List.replicate (min num (start + cfg.queryBatch) - start) true) ?_ ?_)
      · show debugAssert _ _ = _
        rw [debugAssert_eq_ok]
        intro _
        simp [l0, l1]
      · show mapE _ _ = _
        rw [mapE_ok_of_forall (g := fun _ => true)]
        · simp only [List.map_const', List.length_zip, List.length_take, List.length_drop, l0, l1]
          congr 2
          omega
        · intro x hx
          obtain ⟨i, hi⟩ := List.mem_iff_getElem?.1 hx
          rw [List.getElem?_zip_eq_some] at hi
          refine hd x (List.mem_iff_getElem?.2 ⟨start + i, ?_⟩)
          rw [List.getElem?_zip_eq_some]
          have hlt : i < min num (start + cfg.queryBatch) - start := by
            have := (List.getElem?_eq_some_iff.1 hi.1).1
            simp only [List.length_take] at this
            omega
          rwa [List.getElem?_take_of_lt hlt, List.getElem?_take_of_lt hlt, List.getElem?_drop, List.getElem?_drop] at hi
      · refine plays_flpLoop l0 l1 hd fuel _ _ rest hr ?_
        rw [hk, ← List.replicate_add]
        congr 1
        omega
    · cases h
      rw [if_neg ‹_›, hk, show min num start = num by omega]
      exact .ret _

theorem plays_flp {bld : Build} {cfg : Config} {num : Nat} {v0 v1 : List (List Field128)} (l0 : v0.length = num)
    (l1 : v1.length = num) (hd : ∀ x ∈ v0.zip v1, decideShares P cfg.histBuckets x = .ok true) (hb : 1 ≤ cfg.queryBatch) :
    Plays (flpP P bld cfg num) (Spec.toBoth ((Spec.batches num cfg.queryBatch).map (fun r => .runFlpQueries r.1 r.2)
        ++ [.applyFlpResults (List.replicate num true)]))
      ((Spec.batches num cfg.queryBatch).map (verReply v0) ++ [.done])
      ((Spec.batches num cfg.queryBatch).map (verReply v1) ++ [.done]) () := by
  rw [Spec.toBoth, List.map_append]
  exact Plays.bind (plays_flpLoop l0 l1 hd _ _ _ _ (whileRanges_batches hb) (by simp)) (plays_done _ _)

/-- The decision about a prefix. -/
def Decided (n T : Nat) (A0 A1 : List Bool → List Field128) (f : List Bool → Bool) : Prop :=
  ∀ p, ∃ a b, (A0 p)[n]? = some a ∧ (A1 p)[n]? = some b ∧ f p = decide (T ≤ (a + b).val % 2 ^ 64)

theorem Decided.keep {n T : Nat} {A0 A1 : List Bool → List Field128} {f : List Bool → Bool} (h : Decided n T A0 A1 f)
    (ps : List (List Bool)) : keepValues n T (ps.map A0) (ps.map A1) = .ok (ps.map f) := by
  unfold keepValues
  rw [mapE_eq_ok_iff_getElem]
  refine ⟨by simp, ?_⟩
  rintro i ⟨x, y⟩ hxy
  rw [List.getElem?_zip_eq_some, List.getElem?_map, List.getElem?_map, Option.map_eq_some_iff, Option.map_eq_some_iff] at hxy
  obtain ⟨⟨p, hp, rfl⟩, q, hq, rfl⟩ := hxy
  obtain rfl : p = q := Option.some.inj (hp.symm.trans hq)
  obtain ⟨a, b, ha, hb, hf⟩ := h p
  refine ⟨f p, by rw [List.getElem?_map, hp]; rfl, ?_⟩
  simp only [idx_eq_ok.2 ha, idx_eq_ok.2 hb, ok_bind, hf]

theorem plays_level {cfg : Config} {num : Nat} {A0 A1 : List Bool → List Field128} {f : List Bool → Bool}
    (h : Decided cfg.histBuckets (max 1 cfg.threshold) A0 A1 f) (ps : List (List Bool)) (rs : List (Block × Nat)) :
    Plays (levelP cfg num) (Spec.toBoth [.treeCrawl 1 [] false, .treePrune (ps.map f)])
      [crawlReply (ps.map A0) rs, .done] [crawlReply (ps.map A1) rs, .done] () := by
  unfold levelP
  refine Plays.bind (sent := [_]) (g0 := [_]) (g1 := [_]) (a := ps.map f) ?_ (plays_done _ _)
  rw [levelLoopP]
  refine Plays.bind (sent := [_]) (g0 := [_]) (g1 := [_]) (sent' := []) (h0 := []) (h1 := []) (plays_crawl _ _ _ _) ?_
  refine Plays.then (a := ()) (by show assertE _ = _; simp [assertE]) ?_
  refine Plays.then (a := ps.map f) (by show keepValues _ _ _ _ = _; exact h.keep ps) ?_
  split
  · exact .ret _
  · refine Plays.then (a := []) (by show diffIndices _ _ = _; exact diffIndices_self _ _ rfl) ?_
    exact .ret _

theorem plays_levels {bld : Build} {cfg : Config} {num : Nat} {A0 A1 : List Bool → List Field128} {f : List Bool → Bool}
    (h : Decided cfg.histBuckets (max 1 cfg.threshold) A0 A1 f) (ps : Nat → List (List Bool)) (rs : Nat → List (Block × Nat)) :
    ∀ (ls : List Nat), (∀ l ∈ ls, l ≠ 0) → Plays (levelsP P bld cfg num ls)
      (Spec.toBoth (ls.flatMap fun m => [.treeCrawl 1 [] false, .treePrune ((ps m).map f)]))
      (ls.flatMap fun m => [crawlReply ((ps m).map A0) (rs m), .done])
      (ls.flatMap fun m => [crawlReply ((ps m).map A1) (rs m), .done]) ()
  | [], _ => .ret _
  | l :: ls, hl => by
    rw [levelsP, if_neg (hl l (List.mem_cons_self ..))]
    exact Plays.bind (plays_level h (ps l) (rs l)) (plays_levels h ps rs ls fun x hx => hl x (List.mem_cons_of_mem _ hx))

theorem plays_proofLoop {cfg : Config} {num : Nat} {pf : List Block} : ∀ (fuel start : Nat) (rs : List (Nat × Nat)),
    whileRanges num cfg.queryBatch fuel start = .ok rs →
    Plays (proofLoopP cfg num fuel start) (Spec.toBoth (rs.map fun r => .getProofs r.1 r.2))
      (rs.map (proofReply pf)) (rs.map (proofReply pf)) ()
  | 0, start, rs, h => by
    rw [whileRanges] at h
    rw [proofLoopP]
    split at h
    · cases h
    · cases h
      rw [if_neg ‹_›]
      exact .ret _
  | fuel + 1, start, rs, h => by
    rw [whileRanges] at h
    rw [proofLoopP]
    split at h
    · rename_i hlt
      obtain ⟨rest, hr, h⟩ := bind_eq_ok.1 h
      cases h
      rw [if_pos hlt]
      refine Plays.bind (plays_proofs _ _ _ _) ?_
      refine Plays.then (a := ()) (by show assertE _ = _; simp [assertE]) ?_
      refine Plays.then (a := ()) ?_ (plays_proofLoop fuel _ rest hr)
      show assertE _ = _
      have : ∀ l : List Block, ((l.zip l).all fun hh => hh.1 == hh.2) = true := by
        intro l
        rw [List.all_eq_true]
        rintro ⟨x, y⟩ hxy
        obtain ⟨i, hi⟩ := List.mem_iff_getElem?.1 hxy
        rw [List.getElem?_zip_eq_some] at hi
        obtain rfl : x = y := Option.some.inj (hi.1.symm.trans hi.2)
        simp
      rw [this]; rfl
    · cases h
      rw [if_neg ‹_›]
      exact .ret _

theorem plays_last {cfg : Config} {num : Nat} {A0 A1 : List Bool → List Field128} {f : List Bool → Bool}
    (h : Decided cfg.histBuckets (max 1 cfg.threshold) A0 A1 f) (hb : 1 ≤ cfg.queryBatch) (hd : cfg.dataBits ≠ none)
    (ps : List (List Bool)) (pf : List Block) {s0 s1 res pr : List HHResult}
    (hf : finalValues cfg.histBuckets s0 s1 = .ok res) (hp : printed cfg.histBuckets res = .ok pr) :
    Plays (levelLastP cfg num)
      (Spec.toBoth ([.treeCrawlLast] ++ (Spec.batches num cfg.queryBatch).map (fun r => .getProofs r.1 r.2)
        ++ [.treePrune (ps.map f), .finalShares]))
      ([.fieldVecs (ps.map A0)] ++ (Spec.batches num cfg.queryBatch).map (proofReply pf) ++ [.done, .shares s0])
      ([.fieldVecs (ps.map A1)] ++ (Spec.batches num cfg.queryBatch).map (proofReply pf) ++ [.done, .shares s1])
      (.whh res pr) := by
  unfold levelLastP
  simp only [Spec.toBoth, List.map_append, List.append_assoc]
  refine Plays.bind (plays_vecs _ _ _ _) ?_
  refine Plays.then (a := ()) (by show assertE _ = _; simp [assertE]) ?_
  refine Plays.then (a := ps.map f) (by show keepValues _ _ _ _ = _; exact h.keep ps) ?_
  refine Plays.bind (plays_proofLoop _ _ _ (whileRanges_batches hb)) ?_
  refine Plays.bind (sent := [_]) (g0 := [_]) (g1 := [_]) (plays_done _ _) ?_
  refine Plays.bind (sent := [_]) (g0 := [_]) (g1 := [_]) (sent' := []) (h0 := []) (h1 := []) (plays_shares _ _ _ _) ?_
  obtain ⟨d, hd⟩ := Option.ne_none_iff_exists'.1 hd
  refine Plays.then (a := d) (by show unwrapO _ = _; rw [hd]; rfl) ?_
  refine Plays.then (a := res) hf ?_
  exact Plays.then (a := pr) hp (.ret _)

/-- The requests of a run of weighted heavy hitters in which everybody is accepted and the prefixes `paths` are kept. -/
def forgeScript (num b d : Nat) (paths : Nat → List (List Bool)) (f : List Bool → Bool) : List Req :=
  [.treeInit] ++ ((Spec.batches num b).map (fun r => .runFlpQueries r.1 r.2) ++ [.applyFlpResults (List.replicate num true)])
    ++ (List.range (d - 1)).flatMap (fun m => [.treeCrawl 1 [] false, .treePrune ((kids (paths m)).map f)])
    ++ ([.treeCrawlLast] ++ (Spec.batches num b).map (fun r => .getProofs r.1 r.2)
      ++ [.treePrune ((kids (paths (d - 1))).map f), .finalShares])

/-- The answers in such a run. -/
def forgeReplies (num b d : Nat) (paths : Nat → List (List Bool)) (ver : List (List Field128))
    (A : List Bool → List Field128) (rs : Nat → List (Block × Nat)) (pf : List Block) (sh : List HHResult) : List Resp :=
  [.done] ++ ((Spec.batches num b).map (verReply ver) ++ [.done])
    ++ (List.range (d - 1)).flatMap (fun m => [crawlReply ((kids (paths m)).map A) (rs m), .done])
    ++ ([.fieldVecs ((kids (paths (d - 1))).map A)] ++ (Spec.batches num b).map (proofReply pf) ++ [.done, .shares sh])

theorem plays_whh {bld : Build} {cfg : Config} {num d : Nat} {v0 v1 : List (List Field128)} (l0 : v0.length = num)
    (l1 : v1.length = num) (hd : ∀ x ∈ v0.zip v1, decideShares P cfg.histBuckets x = .ok true) (hb : 1 ≤ cfg.queryBatch)
    (hdb : cfg.dataBits = some d) (hd2 : 2 ≤ d) {A0 A1 : List Bool → List Field128} {f : List Bool → Bool}
    (h : Decided cfg.histBuckets (max 1 cfg.threshold) A0 A1 f) (paths : Nat → List (List Bool))
    (rs : Nat → List (Block × Nat)) (pf : List Block) {s0 s1 res pr : List HHResult}
    (hf : finalValues cfg.histBuckets s0 s1 = .ok res) (hp : printed cfg.histBuckets res = .ok pr) :
    Plays (whhP P bld cfg num) (Spec.toBoth (forgeScript num cfg.queryBatch d paths f))
      (forgeReplies num cfg.queryBatch d paths v0 A0 rs pf s0) (forgeReplies num cfg.queryBatch d paths v1 A1 rs pf s1)
      (.whh res pr) := by
  have hlev : levelCount bld cfg.dataBits = .ok (d - 1) := by
    simp only [levelCount, hdb, unwrapO, ok_bind]
    rw [if_neg (by omega)]
  have hrange : List.range (d - 1) = 0 :: List.range' 1 (d - 2) := by
    rw [List.range_eq_range', show d - 1 = (d - 2) + 1 by omega, List.range'_succ]
  have e1 := plays_flp (bld := bld) l0 l1 hd hb
  have e2 := plays_level (num := num) h (kids (paths 0)) (rs 0)
  have e3 := plays_levels (P := P) (bld := bld) (num := num) h (fun m => kids (paths m)) rs (List.range' 1 (d - 2))
    (fun l hl => by have := List.mem_range'_1.1 hl; omega)
  have e4 := plays_last (num := num) h hb (by rw [hdb]; simp) (kids (paths (d - 1))) pf hf hp
  have hl : levelsP P bld cfg num (List.range (d - 1))
      = flpP P bld cfg num >>= fun _ => levelP cfg num >>= fun _ => levelsP P bld cfg num (List.range' 1 (d - 2)) := by
    rw [hrange, levelsP, if_pos rfl]
  have e5 := Plays.bind (f := fun _ => levelP cfg num >>= fun _ => levelsP P bld cfg num (List.range' 1 (d - 2))) e1
    (Plays.bind (f := fun _ => levelsP P bld cfg num (List.range' 1 (d - 2))) e2 e3)
  rw [← hl] at e5
  have := Plays.bind (f := fun _ => Prog.lift (levelCount bld cfg.dataBits) >>= fun levels =>
    levelsP P bld cfg num (List.range levels) >>= fun _ => levelLastP cfg num) (plays_done .treeInit .treeInit)
    (Plays.then hlev (Plays.bind e5 e4))
  unfold whhP
  refine cast ?_ this
  congr 1
  · simp [forgeScript, Spec.toBoth, hrange, List.flatMap_cons]
  · simp [forgeReplies, hrange, List.flatMap_cons]
  · simp [forgeReplies, hrange, List.flatMap_cons]

/-- A server that runs the code answers these requests. -/
theorem served_forge {n d b : Nat} {shares : List ReportShare} {kc : KeyCollection P} {ver : List (List Field128)}
    {strings : List (Option (List Bool))} {rs : Nat → List (Block × Nat)}
    (hb : 1 ≤ b) (hd1 : 1 ≤ d) (hR : kc.reportShares = shares.map fun s => (true, s)) (hn : kc.inputLen = n)
    (hd : kc.depth = some d) (hk : KeysReach (d - 1) kc.reportShares)
    (hv : shares.map (Spec.verifierOf P n kc.serverId kc.verifyKey) = ver.map some)
    (hr : ∀ m < d - 1, Spec.heavyAt 1 strings m ≠ [] ∧ merkleRoots P (Spec.digests P n
      (decide (kc.serverId = 0)) (Spec.heavyAt 1 strings m) kc.reportShares) 1 [] false = .ok (rs m)) :
    ∃ kc', Served c kc
      (forgeScript shares.length b d (Spec.heavyAt 1 strings) fun q => decide (1 ≤ Spec.countOf strings q))
      (forgeReplies shares.length b d (Spec.heavyAt 1 strings) ver (aggAt P n kc.reportShares) rs
        (lastProofs P n kc.reportShares (Spec.heavyAt 1 strings (d - 1)))
        ((Spec.heavyAt 1 strings d).map fun p => ⟨p, aggAt P n kc.reportShares p⟩)) kc' := by
  obtain ⟨k1, s1, a1⟩ := served_flp (c := c) hb hd1 hR hn hd hk hv
  obtain ⟨k2, s2, a2⟩ := served_levels (c := c) a1 hk (d - 1) (by omega) hr
  obtain ⟨k3, s3⟩ := served_last (c := c) (num := shares.length) a2 hk hb fun q => decide (1 ≤ Spec.countOf strings q)
  refine ⟨k3, ?_⟩
  have h := (s1.append s2).append s3
  have e2 : Spec.heavyAt 1 strings d
      = (kids (Spec.heavyAt 1 strings (d - 1))).filter fun q => decide (1 ≤ Spec.countOf strings q) := by
    obtain ⟨d', rfl⟩ : ∃ d', d = d' + 1 := ⟨d - 1, by omega⟩
    rw [heavyAt_succ]
    rfl
  have e3 : (shares.map fun _ => true) = List.replicate shares.length true := by simp
  unfold forgeScript forgeReplies
  rw [e2]
  rw [e3] at h
  simp only [List.append_assoc] at h ⊢
  exact h

end Mastic
