import Verif.Spec.Collude
import Verif.Props.Script
import Verif.Lemmas.Serve
import Verif.Lemmas.History

/-!
# Lemmas: the answers of one server in a weighted-heavy-hitters run
-/

namespace Mastic

variable {P : Prims} {c c0 c1 : ServerCfg}

/-- The server answers all requests, with the given answers. -/
def Served (c : ServerCfg) (kc : KeyCollection P) (reqs : List Req) (as : List Resp) (kc' : KeyCollection P) : Prop :=
  Server.run c (.running kc) reqs = (.running kc', as.map .ok)

theorem Served.nil (kc : KeyCollection P) : Served c kc [] [] kc := rfl

theorem Served.one {kc kc' : KeyCollection P} {r : Req} {a : Resp} (p : preLock c r = .ok ())
    (h : locked c kc r = .ok (kc', a)) : Served c kc [r] [a] kc' := by
  unfold Served Server.run
  rw [talk_step p h]
  rfl

theorem Served.append {k0 k1 k2 : KeyCollection P} {x y : List Req} {a b : List Resp} (h1 : Served c k0 x a k1)
    (h2 : Served c k1 y b k2) : Served c k0 (x ++ y) (a ++ b) k2 := by
  unfold Served at *
  rw [run_append, h1, h2, List.map_append]

theorem Served.map {α : Type} {kc : KeyCollection P} (f : α → Req) (g : α → Resp) :
    ∀ l : List α, (∀ x ∈ l, Served c kc [f x] [g x] kc) → Served c kc (l.map f) (l.map g) kc
  | [], _ => .nil kc
  | a :: l, h => (h a (List.mem_cons_self ..)).append (Served.map f g l fun x hx => h x (List.mem_cons_of_mem _ hx))

/-- The answers in a conversation are those of the two servers. -/
theorem hears_of_talk {α : Type} {p : Prog α} {s0 s1 t0 t1 : Server P} {sent : List (Req × Req)} {a : α}
    (h : Spec.Talk c0 c1 p s0 s1 sent a t0 t1) : ∀ {g0 g1 : List Resp},
    (Server.run c0 s0 (Spec.received false sent)).2 = g0.map .ok →
    (Server.run c1 s1 (Spec.received true sent)).2 = g1.map .ok →
    Spec.Hears c0 c1 p s0 s1 sent (g0.zip g1) a t0 t1 := by
  induction h with
  | ret a s0 s1 =>
    intro g0 g1 h0 h1
    obtain rfl : g0 = [] := by simpa [Spec.received, Server.run] using h0.symm
    exact .ret _ _ _
  | ask r0 r1 k s0 s1 t0 t1 u0 u1 a0 a1 sent a h0 h1 h ih =>
    intro g0 g1 e0 e1
    have x0 : Spec.received false ((r0, r1) :: sent) = r0 :: Spec.received false sent := rfl
    have x1 : Spec.received true ((r0, r1) :: sent) = r1 :: Spec.received true sent := rfl
    rw [x0, Server.run] at e0
    rw [x1, Server.run] at e1
    simp only [h0] at e0
    simp only [h1] at e1
    cases g0 with
    | nil => simp at e0
    | cons b0 g0 =>
      cases g1 with
      | nil => simp at e1
      | cons b1 g1 =>
        simp only [List.map_cons, List.cons.injEq, Except.ok.injEq] at e0 e1
        obtain ⟨rfl, e0⟩ := e0
        obtain ⟨rfl, e1⟩ := e1
        exact .ask _ _ _ _ _ _ _ _ _ _ _ _ _ _ h0 h1 (ih e0 e1)

theorem mem_batches {n b : Nat} (hb : 1 ≤ b) {r : Nat × Nat} (hr : r ∈ Spec.batches n b) : r.1 < r.2 ∧ r.2 ≤ n := by
  obtain ⟨k, hk, rfl⟩ := List.mem_map.1 hr
  have hk := List.mem_range.1 hk
  have h : k * b < n := by
    have := Nat.mul_le_mul_right b (Nat.succ_le_of_lt hk)
    have := Nat.div_mul_le_self (n + b - 1) b
    rw [Nat.succ_mul] at *
    omega
  exact ⟨lt_min h (by omega), min_le_left _ _⟩

/-- The sum of one server's value shares at a prefix. -/
def aggAt (P : Prims) (n : Nat) (reports : List (Bool × ReportShare)) (p : List Bool) : List Field128 :=
  Spec.sumVecs (n + 1) ((Spec.included reports).filterMap fun ir => (Spec.keyOf ir.2).bind fun key =>
    Spec.valueAt P key n p)

theorem nodeSum_agg {n : Nat} {reports : List (Bool × ReportShare)} {node : TreeNode}
    (h : Spec.NodeSum P n reports node) : node.value = aggAt P n reports node.path := by
  obtain ⟨vs, hv, e⟩ := h
  rw [e, aggAt]
  congr 1
  clear e
  generalize Spec.included reports = L at hv
  induction hv with
  | nil => rfl
  | cons hx _ ih =>
    obtain ⟨key, hk, hv⟩ := hx
    rw [List.filterMap_cons, hk]
    simp only [Option.bind_some, hv]
    rw [← ih]

theorem nodes_agg {n : Nat} {reports : List (Bool × ReportShare)} {nodes : List TreeNode} {paths : List (List Bool)}
    (hp : nodes.map TreeNode.path = paths) (h : ∀ node ∈ nodes, Spec.NodeSum P n reports node) :
    nodes.map TreeNode.value = paths.map (aggAt P n reports) := by
  rw [← hp, List.map_map]
  exact List.map_congr_left fun node hn => nodeSum_agg (h node hn)

/-- The answer to a crawl request. -/
def crawlReply (vals : List (List Field128)) (rs : List (Block × Nat)) : Resp :=
  .crawl ⟨vals, rs.map Prod.fst, rs.map Prod.snd⟩

theorem served_level {n d m : Nat} {first : Bool} {reports : List (Bool × ReportShare)} {paths : List (List Bool)}
    {kc : KeyCollection P} (h : At n d m first reports paths kc) (hk : KeysReach m reports) (hne : paths ≠ [])
    (hm : m < d) {rs : List (Block × Nat)}
    (hr : merkleRoots P (Spec.digests P n first paths reports) 1 [] false = .ok rs) (f : List Bool → Bool) :
    ∃ kc', Served c kc [.treeCrawl 1 [] false, .treePrune ((kids paths).map f)]
        [crawlReply ((kids paths).map (aggAt P n reports)) rs, .done] kc' ∧
      At n d (m + 1) first reports ((kids paths).filter f) kc' := by
  obtain ⟨nx, k1, e1, a1, f1, -, s1⟩ := h.treeCrawl c.build hk hne hm 1 false hr
  obtain ⟨k2, p2, -, a2⟩ := a1.prune f
  rw [nodes_agg (f1 ▸ a1.pth) s1] at e1
  refine ⟨k2, ?_, a2⟩
  refine Served.append (x := [_]) (y := [_]) (a := [_]) (b := [_]) (k1 := k1) ?_ ?_
  · exact Served.one rfl (by simp only [locked, e1, ok_bind]; rfl)
  · exact Served.one rfl (by simp only [locked, p2, ok_bind])

theorem served_levels {n d T : Nat} {first : Bool} {reports : List (Bool × ReportShare)}
    {strings : List (Option (List Bool))} {kc : KeyCollection P} (h : At n d 0 first reports [[]] kc)
    (hk : KeysReach (d - 1) reports) {rs : Nat → List (Block × Nat)} : ∀ k, k < d →
    (∀ m < k, Spec.heavyAt T strings m ≠ [] ∧
      merkleRoots P (Spec.digests P n first (Spec.heavyAt T strings m) reports) 1 [] false = .ok (rs m)) →
    ∃ kc', Served c kc
        ((List.range k).flatMap fun m => [.treeCrawl 1 [] false, .treePrune (Spec.decisions T strings m)])
        ((List.range k).flatMap fun m => [crawlReply ((kids (Spec.heavyAt T strings m)).map (aggAt P n reports)) (rs m),
          .done]) kc' ∧
      At n d k first reports (Spec.heavyAt T strings k) kc'
  | 0, _, _ => ⟨kc, .nil kc, h⟩
  | k + 1, hkd, hr => by
    obtain ⟨k1, s1, a1⟩ := served_levels h hk k (by omega) fun m hm => hr m (by omega)
    obtain ⟨g1, g2⟩ := hr k (by omega)
    obtain ⟨k2, s2, a2⟩ := served_level (c := c) a1 (hk.mono (by omega)) g1 (by omega) g2
      fun q => decide (T ≤ Spec.countOf strings q)
    refine ⟨k2, ?_, ?_⟩
    · rw [List.range_succ, List.flatMap_append, List.flatMap_append]
      simp only [List.flatMap_cons, List.flatMap_nil, List.append_nil]
      exact s1.append s2
    · rw [heavyAt_succ]; exact a2

/-- The answer to a `get_proofs` request. -/
def proofReply (pf : List Block) (r : Nat × Nat) : Resp :=
  .proofs (if r.1 < r.2 ∧ r.2 ≤ pf.length then (pf.drop r.1).take (r.2 - r.1) else [])

/-- The last proofs. -/
def lastProofs (P : Prims) (n : Nat) (reports : List (Bool × ReportShare)) (paths : List (List Bool)) : List Block :=
  (Spec.included reports).filterMap fun ir => (Spec.keyOf ir.2).map fun key => Spec.proofsAt P n key paths

theorem served_last {n d m b num : Nat} {first : Bool} {reports : List (Bool × ReportShare)} {paths : List (List Bool)}
    {kc : KeyCollection P} (h : At n d m first reports paths kc) (hk : KeysReach m reports) (hb : 1 ≤ b)
    (f : List Bool → Bool) :
    ∃ kc', Served c kc ([.treeCrawlLast] ++ (Spec.batches num b).map (fun r => .getProofs r.1 r.2)
        ++ [.treePrune ((kids paths).map f), .finalShares])
      ([.fieldVecs ((kids paths).map (aggAt P n reports))]
        ++ (Spec.batches num b).map (proofReply (lastProofs P n reports paths))
        ++ [.done, .shares (((kids paths).filter f).map fun p => ⟨p, aggAt P n reports p⟩)]) kc' := by
  obtain ⟨nx, proofs, k1, e1, e2, f1, a1, s1, e3⟩ := treeCrawlLast_at h hk
  obtain ⟨k2, p2, e4, a2⟩ := a1.prune f
  rw [nodes_agg (f1 ▸ a1.pth) s1] at e1
  refine ⟨k2, ?_⟩
  refine Served.append (k1 := k1) (Served.append (k1 := k1) ?_ (Served.map _ _ _ fun r hr => ?_)) ?_
  · exact Served.one rfl (by simp only [locked, e1, ok_bind])
  · refine Served.one rfl ?_
    have hlt := (mem_batches hb hr).1
    simp only [locked, debugAssert, decide_eq_true hlt]
    have e : KeyCollection.getProofs k1 r.1 r.2 = if r.1 < r.2 ∧ r.2 ≤ (lastProofs P n reports paths).length
        then ((lastProofs P n reports paths).drop r.1).take (r.2 - r.1) else [] := by
      unfold KeyCollection.getProofs
      rw [e2, e3]
      rfl
    rw [e]
    cases c.build <;> rfl
  · refine Served.append (x := [_]) (y := [_]) (a := [_]) (b := [_]) (k1 := k2) ?_ ?_
    · exact Served.one rfl (by simp only [locked, p2, ok_bind])
    · refine Served.one rfl ?_
      simp only [locked, KeyCollection.finalShares]
      have : k2.frontier.map (fun n => ({ path := n.path, value := n.value } : HHResult))
          = ((kids paths).filter f).map fun p => ⟨p, aggAt P n reports p⟩ := by
        rw [← a2.pth, List.map_map]
        refine List.map_congr_left fun node hn => ?_
        have hmem : node ∈ nx := by
          rw [e4] at hn
          rw [← f1]
          exact (List.mem_filter.1 hn).1
        simp only [Function.comp, nodeSum_agg (s1 node hmem)]
      rw [this]

/-- The FLP requests. -/
theorem served_flp {n d b : Nat} {shares : List ReportShare} {kc : KeyCollection P} {ver : List (List Field128)}
    (hb : 1 ≤ b) (hd1 : 1 ≤ d) (hR : kc.reportShares = shares.map fun s => (true, s)) (hn : kc.inputLen = n)
    (hd : kc.depth = some d) (hk : KeysReach (d - 1) kc.reportShares)
    (hv : shares.map (Spec.verifierOf P n kc.serverId kc.verifyKey) = ver.map some) :
    ∃ kc', Served c kc ([.treeInit] ++ (Spec.batches shares.length b).map (fun r => .runFlpQueries r.1 r.2)
        ++ [.applyFlpResults (shares.map fun _ => true)])
      ([.done] ++ (Spec.batches shares.length b).map (fun r => .fieldVecs ((ver.drop r.1).take (r.2 - r.1)))
        ++ [.done]) kc' ∧
      At n d 0 (decide (kc.serverId = 0)) kc.reportShares [[]] kc' := by
  have hvl : shares.length = ver.length := by simpa using congrArg List.length hv
  obtain ⟨k1, e1⟩ := treeInit_progress (hk.mono (Nat.zero_le _))
  obtain ⟨root, fr, rfl⟩ := treeInit_fresh e1
  have hk0 : KeysReach 0 kc.reportShares := hk.mono (Nat.zero_le _)
  obtain ⟨l, a0⟩ := fr.children hk0 false
  obtain ⟨r, a1⟩ := fr.children hk0 true
  have x := fr.child a0
  have y := fr.child a1
  have hready := fr.ready (n := shares.length) (by show kc.reportShares.length = _; rw [hR, List.length_map]) a0 a1
  have hmask : Spec.masked kc.reportShares (shares.map fun _ => true) = kc.reportShares := by
    unfold Spec.masked
    rw [hR]
    refine List.ext_getElem (by simp) fun i h1 h2 => ?_
    simp
  refine ⟨{ kc with frontier := [root] }, ?_, ?_⟩
  · refine Served.append (k1 := { kc with frontier := [root] }) (Served.append (k1 := { kc with frontier := [root] })
      (Served.one rfl (by simp only [locked, e1, ok_bind])) (Served.map _ _ _ fun q hq => ?_)) ?_
    · obtain ⟨h1, h2⟩ := mem_batches hb hq
      refine Served.one rfl ?_
      have hrun : KeyCollection.runFlpQueries c.build { kc with frontier := [root] } q.1 q.2
          = .ok ((ver.drop q.1).take (q.2 - q.1)) := by
        rw [runFlp_eq hready.frontier hready.path hready.left hready.right hready.values hready.reports h2,
          mapE_eq_ok_iff_getElem]
        refine ⟨by simp; omega, fun i a hia => ?_⟩
        have hil : i < q.2 - q.1 := by simpa using (List.getElem?_eq_some_iff.1 hia).1
        obtain rfl : a = q.1 + i := by
          rw [List.getElem?_range' hil] at hia
          simpa using hia.symm
        have hin : q.1 + i < shares.length := by omega
        have hi2 := congrArg (fun l => l[q.1 + i]?) hv
        simp only [List.getElem?_map, List.getElem?_eq_getElem hin, List.getElem?_eq_getElem (hvl ▸ hin),
          Option.map_some, Option.some.injEq] at hi2
        refine ⟨ver[q.1 + i]'(hvl ▸ hin), ?_, ?_⟩
        · rw [List.getElem?_take_of_lt hil, List.getElem?_drop, List.getElem?_eq_getElem]
        · refine (flpQueryClient_iff (b := true) (s := shares[q.1 + i]) ?_ x.2 x.1 y.2 y.1).2 ?_
          · show kc.reportShares[q.1 + i]? = _
            rw [hR, List.getElem?_map, List.getElem?_eq_getElem hin]; rfl
          · show Spec.verifierOf P kc.inputLen kc.serverId kc.verifyKey _ = _
            rw [hn]; exact hi2
      simp only [locked, debugAssert, decide_eq_true h1, hrun]
      cases c.build <;> rfl
    · refine Served.one rfl ?_
      simp only [locked]
      rw [applyFlp_exact _ _ (by show _ = kc.reportShares.length; rw [hR]; simp), ok_bind]
      show Except.ok (({ kc with reportShares := Spec.masked kc.reportShares _, frontier := [root] } : KeyCollection P),
        Resp.done) = _
      rw [hmask]
  · have := fr.at (n := n) (d := d) (first := decide (kc.serverId = 0)) (reports := kc.reportShares) hn rfl hd rfl
    exact this

/-- The answers of a weighted-heavy-hitters run after the upload. -/
def whhReplies (T b d : Nat) (strings : List (Option (List Bool))) (ver : List (List Field128))
    (agg : List Bool → List Field128) (rs : Nat → List (Block × Nat)) (pf : List Block) : List Resp :=
  [.done]
    ++ (Spec.batches strings.length b).map (fun r => .fieldVecs ((ver.drop r.1).take (r.2 - r.1)))
    ++ [.done]
    ++ (List.range (d - 1)).flatMap (fun m => [crawlReply ((kids (Spec.heavyAt T strings m)).map agg) (rs m), .done])
    ++ [.fieldVecs ((kids (Spec.heavyAt T strings (d - 1))).map agg)]
    ++ (Spec.batches strings.length b).map (proofReply pf)
    ++ [.done, .shares ((Spec.heavyAt T strings d).map fun p => ⟨p, agg p⟩)]

theorem served_whh {n d b T : Nat} {shares : List ReportShare} {kc : KeyCollection P} {ver : List (List Field128)}
    {strings : List (List Bool)} {rs : Nat → List (Block × Nat)}
    (hb : 1 ≤ b) (hd1 : 1 ≤ d) (hR : kc.reportShares = shares.map fun s => (true, s)) (hn : kc.inputLen = n)
    (hd : kc.depth = some d) (hk : KeysReach (d - 1) kc.reportShares)
    (hv : shares.map (Spec.verifierOf P n kc.serverId kc.verifyKey) = ver.map some)
    (hl : strings.length = shares.length)
    (hr : ∀ m < d - 1, Spec.heavyAt T (strings.map some) m ≠ [] ∧ merkleRoots P (Spec.digests P n
      (decide (kc.serverId = 0)) (Spec.heavyAt T (strings.map some) m) kc.reportShares) 1 [] false = .ok (rs m)) :
    ∃ kc', Served c kc (Spec.whhScript T b d (strings.map some))
      (whhReplies T b d (strings.map some) ver (aggAt P n kc.reportShares) rs
        (lastProofs P n kc.reportShares (Spec.heavyAt T (strings.map some) (d - 1)))) kc' := by
  obtain ⟨k1, s1, a1⟩ := served_flp (c := c) hb hd1 hR hn hd hk hv
  obtain ⟨k2, s2, a2⟩ := served_levels (c := c) a1 hk (d - 1) (by omega) hr
  obtain ⟨k3, s3⟩ := served_last (c := c) (num := shares.length) a2 hk hb
    fun q => decide (T ≤ Spec.countOf (strings.map some) q)
  refine ⟨k3, ?_⟩
  have h := (s1.append s2).append s3
  have e1 : (strings.map some).map Option.isSome = shares.map fun _ => true := by
    refine List.ext_getElem (by simp [hl]) fun i h1 h2 => ?_
    simp
  have e2 : Spec.heavyAt T (strings.map some) d
      = (kids (Spec.heavyAt T (strings.map some) (d - 1))).filter
        fun q => decide (T ≤ Spec.countOf (strings.map some) q) := by
    obtain ⟨d', rfl⟩ : ∃ d', d = d' + 1 := ⟨d - 1, by omega⟩
    rw [heavyAt_succ]
    rfl
  unfold Spec.whhScript whhReplies
  rw [e1, e2, List.length_map, hl]
  simp only [List.append_assoc] at h ⊢
  exact h

/-! ### The upload -/

theorem served_upload : ∀ {sizes : List Nat} {shares : List ReportShare}
    (kc : KeyCollection P), sizes.sum = shares.length →
    Served c kc ((splitBatches sizes shares).map .addReportShares) (sizes.map fun _ => .done)
      { kc with reportShares := kc.reportShares ++ shares.map fun s => (true, s) }
  | [], shares, kc, h => by
    obtain rfl : shares = [] := List.length_eq_zero_iff.1 h.symm
    simp only [List.map_nil, List.append_nil]
    exact .nil kc
  | s :: ss, shares, kc, h => by
    rw [splitBatches, List.map_cons, List.map_cons]
    have ih := served_upload (sizes := ss) (shares := shares.drop s)
      (srvAddReportShares kc (shares.take s)) (by rw [List.length_drop]; simp at h; omega)
    have h1 : Served c kc [.addReportShares (shares.take s)] [.done] (srvAddReportShares kc (shares.take s)) :=
      Served.one rfl rfl
    have := h1.append ih
    rw [srvAdd_eq] at this
    simp only [List.append_assoc, ← List.map_append, List.take_append_drop] at this
    exact this

theorem served_main {cfg : Config} {draw : MainDraw} {sizes : List Nat} {shares : List ReportShare} {script : List Req}
    {as : List Resp} {kc kc' : KeyCollection P} (hh : P.histOk cfg.histBuckets = true) (hs : sizes.sum = shares.length)
    (h : Served c { KeyCollection.new P cfg.histBuckets c.serverId c.dataBits draw.verifyKey with
      reportShares := shares.map fun s => (true, s) } script as kc') :
    Served c kc (.reset draw.verifyKey cfg.histBuckets :: ((splitBatches sizes shares).map .addReportShares ++ script))
      (.done :: ((sizes.map fun _ => .done) ++ as)) kc' := by
  have h0 : Served c kc [.reset draw.verifyKey cfg.histBuckets] [.done]
      (KeyCollection.new P cfg.histBuckets c.serverId c.dataBits draw.verifyKey) :=
    Served.one rfl (by simp [locked, srvReset, hh])
  have h1 := served_upload (c := c) (shares := shares) (KeyCollection.new P cfg.histBuckets c.serverId c.dataBits
    draw.verifyKey) hs
  exact h0.append (h1.append h)

end Mastic
