import Verif.Lemmas.Crawl
import Verif.Spec.Server

/-!
# Helper lemmas: two servers in lock-step
-/

namespace Mastic

variable {P : Prims}

/-- Path and number of per-client values of a node. -/
def nodeShape (n : TreeNode) : List Bool × Nat := (n.path, n.keyValues.length)

/-- What two servers have in common, whatever the reports contain. -/
structure SameShape (k0 k1 : KeyCollection P) : Prop where
  inputLen : k0.inputLen = k1.inputLen
  flags : k0.reportShares.map Prod.fst = k1.reportShares.map Prod.fst
  frontier : k0.frontier.map nodeShape = k1.frontier.map nodeShape
  prev : k0.prevFrontier.map nodeShape = k1.prevFrontier.map nodeShape
  final : k0.finalProofs.length = k1.finalProofs.length

theorem SameShape.len {k0 k1 : KeyCollection P} (h : SameShape k0 k1) :
    k0.reportShares.length = k1.reportShares.length := by
  simpa using congrArg List.length h.flags

theorem paths_of_shape {a b : List TreeNode} (h : a.map nodeShape = b.map nodeShape) :
    a.map TreeNode.path = b.map TreeNode.path := by
  have := congrArg (List.map Prod.fst) h
  simpa [nodeShape, Function.comp_def] using this

theorem nextFrontier_shape {kc : KeyCollection P} {chk : Bool} {next : List TreeNode}
    (h : kc.nextFrontier chk = .ok next) :
    next.map nodeShape = (kc.frontier.map TreeNode.path).flatMap fun p =>
      [(p ++ [false], kc.reportShares.length), (p ++ [true], kc.reportShares.length)] := by
  obtain ⟨cs, rfl, hF⟩ := nextFrontier_ok h
  clear h
  generalize kc.frontier = fr at hF
  induction hF with
  | nil => rfl
  | cons hx _ ih =>
    obtain ⟨a1, -, a2, -⟩ := makeTreeNode_ok hx.1
    obtain ⟨b1, -, b2, -⟩ := makeTreeNode_ok hx.2
    simp only [List.flatMap_cons, List.map_cons, List.cons_append, List.nil_append, ih, nodeShape,
      a1, a2, b1, b2]

theorem nextFrontier_same {k0 k1 : KeyCollection P} {c0 c1 : Bool} {n0 n1 : List TreeNode}
    (hlen : k0.reportShares.length = k1.reportShares.length)
    (hp : k0.frontier.map TreeNode.path = k1.frontier.map TreeNode.path)
    (h0 : k0.nextFrontier c0 = .ok n0) (h1 : k1.nextFrontier c1 = .ok n1) :
    n0.map nodeShape = n1.map nodeShape := by
  rw [nextFrontier_shape h0, nextFrontier_shape h1, hlen, hp]

theorem set_flags (l : List (Bool × ReportShare)) (m : Nat) (r : ReportShare) :
    (l.set m (false, r)).map Prod.fst = (l.map Prod.fst).set m false := by
  rw [List.map_set]

theorem excludeAll_flags {l l' : List (Bool × ReportShare)} {ms : List Nat}
    (h : excludeAll l ms = .ok l') :
    l'.map Prod.fst = ms.foldl (fun fl m => fl.set m false) (l.map Prod.fst) := by
  unfold excludeAll at h
  induction ms generalizing l with
  | nil => cases h; rfl
  | cons m ms ih =>
    rw [foldE_cons] at h
    obtain ⟨s, hs, h⟩ := bind_eq_ok.1 h
    obtain ⟨r, -, hs⟩ := bind_eq_ok.1 hs
    cases hs
    rw [ih h, List.foldl_cons, set_flags]

theorem applyFlp_flags {kc kc' : KeyCollection P} {keep : List Bool}
    (h : kc.applyFlpResults keep = .ok kc') :
    keep.length = kc.reportShares.length ∧
    kc'.reportShares.map Prod.fst = keep.zipIdx.foldl
      (fun fl ai => if ai.1 then fl else fl.set ai.2 false) (kc.reportShares.map Prod.fst) := by
  unfold KeyCollection.applyFlpResults at h
  obtain ⟨_, ha, h⟩ := bind_eq_ok.1 h
  obtain ⟨reports, hr, h⟩ := bind_eq_ok.1 h
  cases h
  refine ⟨by simpa [assertE_eq_ok] using ha, ?_⟩
  generalize keep.zipIdx = L at hr
  simp only
  generalize kc.reportShares = l at hr
  clear ha
  induction L generalizing l with
  | nil => cases hr; rfl
  | cons a L ih =>
    rw [foldE_cons] at hr
    obtain ⟨s, hs, hr⟩ := bind_eq_ok.1 hr
    cases ha : a.1 with
    | true =>
      rw [if_pos ha] at hs
      cases hs
      rw [ih _ hr, List.foldl_cons, if_pos ha]
    | false =>
      rw [if_neg (by simp [ha])] at hs
      obtain ⟨r, -, hs⟩ := bind_eq_ok.1 hs
      cases hs
      rw [ih _ hr, List.foldl_cons, if_neg (by simp [ha]), set_flags]

theorem includedIndices_eq_flags (reports : List (Bool × ReportShare)) :
    includedIndices reports
      = ((reports.map Prod.fst).zipIdx.filter fun ri => ri.1).map fun ri => ri.2 := by
  unfold includedIndices
  suffices ∀ k, ((reports.zipIdx k).filter fun ri => ri.1.1).map (fun ri => ri.2)
      = (((reports.map Prod.fst).zipIdx k).filter fun ri => ri.1).map fun ri => ri.2 from this 0
  induction reports with
  | nil => intro k; rfl
  | cons r rs ih =>
    intro k
    simp only [List.zipIdx_cons, List.map_cons, List.filter_cons]
    cases r.1 <;> simp [ih]

theorem crawlLevel_digests_length {bld : Build} {kc : KeyCollection P} {next : List TreeNode}
    {digests : List Block} (h : kc.crawlLevel bld = .ok (next, digests)) :
    digests.length = (includedIndices kc.reportShares).length := by
  unfold KeyCollection.crawlLevel at h
  obtain ⟨root, -, h⟩ := bind_eq_ok.1 h
  obtain ⟨_, -, h⟩ := bind_eq_ok.1 h
  obtain ⟨next', -, h⟩ := bind_eq_ok.1 h
  obtain ⟨ac, -, h⟩ := bind_eq_ok.1 h
  obtain ⟨c, hc, h⟩ := bind_eq_ok.1 h
  cases h
  exact mapE_length hc

/-! ### Merkle indices -/

theorem chunksAux_length_congr {α β : Type} (sz fuel : Nat) : ∀ (a : List α) (b : List β),
    a.length = b.length → (chunksAux sz fuel a).length = (chunksAux sz fuel b).length := by
  induction fuel with
  | zero => intros; rfl
  | succ fuel ih =>
    intro a b h
    cases a with
    | nil => cases b with
      | nil => rfl
      | cons => simp at h
    | cons x a => cases b with
      | nil => simp at h
      | cons y b =>
        simp only [chunksAux, List.length_cons]
        rw [ih _ ((y :: b).drop sz) (by simp only [List.length_drop, h])]

theorem chunks_length_congr {α β : Type} {sz : Nat} {a : List α} {b : List β} {ca : List (List α)}
    {cb : List (List β)} (h : a.length = b.length) (ha : chunks sz a = .ok ca)
    (hb : chunks sz b = .ok cb) : ca.length = cb.length := by
  unfold chunks at ha hb
  split at ha
  · cases ha
  · rw [if_neg ‹_›] at hb
    cases ha; cases hb
    rw [h]
    exact chunksAux_length_congr _ _ _ _ h

theorem merkleForSuspect_indices {cl : List (List Block)} {i : Nat} {rs : List (Block × Nat)}
    (h : merkleForSuspect P cl i = .ok rs) :
    rs.map Prod.snd = if cl.length ≤ i * 2 + 1 then [i * 2] else [i * 2, i * 2 + 1] := by
  unfold merkleForSuspect at h
  obtain ⟨c, -, h⟩ := bind_eq_ok.1 h
  obtain ⟨r, -, h⟩ := bind_eq_ok.1 h
  split at h
  · rw [if_pos ‹_›]; cases h; rfl
  · rw [if_neg ‹_›]
    obtain ⟨c2, -, h⟩ := bind_eq_ok.1 h
    obtain ⟨r2, -, h⟩ := bind_eq_ok.1 h
    cases h; rfl

theorem suspects_indices {c0 c1 : List (List Block)} (hcl : c0.length = c1.length) {ms : List Nat}
    {x0 x1 : List (List (Block × Nat))}
    (h0 : List.Forall₂ (fun a b => merkleForSuspect P c0 a = .ok b) ms x0)
    (h1 : List.Forall₂ (fun a b => merkleForSuspect P c1 a = .ok b) ms x1) :
    x0.flatten.map Prod.snd = x1.flatten.map Prod.snd := by
  induction h0 generalizing x1 with
  | nil => cases h1; rfl
  | cons hy _ ih =>
    cases h1 with
    | cons hz hzs =>
      rw [List.flatten_cons, List.flatten_cons, List.map_append, List.map_append, ih hzs,
        merkleForSuspect_indices hy, merkleForSuspect_indices hz, hcl]

theorem merkleRoots_indices {d0 d1 : List Block} {s : Nat} {ms : List Nat} {last : Bool}
    {r0 r1 : List (Block × Nat)} (hl : d0.length = d1.length)
    (h0 : merkleRoots P d0 s ms last = .ok r0) (h1 : merkleRoots P d1 s ms last = .ok r1) :
    r0.map Prod.snd = r1.map Prod.snd := by
  unfold merkleRoots at h0 h1
  dsimp only at h0 h1
  rw [hl] at h0
  generalize (if last then 1 else s) = sp at h0 h1
  by_cases hz : sp = 0
  · rw [if_pos hz] at h0; cases h0
  · rw [if_neg hz] at h0 h1
    obtain ⟨c0, hc0, h0⟩ := bind_eq_ok.1 h0
    obtain ⟨c1, hc1, h1⟩ := bind_eq_ok.1 h1
    have hcl := chunks_length_congr hl hc0 hc1
    by_cases h11 : sp = 1
    · rw [if_pos h11] at h0 h1
      obtain ⟨a, -, h0⟩ := bind_eq_ok.1 h0
      obtain ⟨a', -, h0⟩ := bind_eq_ok.1 h0
      obtain ⟨b, -, h1⟩ := bind_eq_ok.1 h1
      obtain ⟨b', -, h1⟩ := bind_eq_ok.1 h1
      cases h0; cases h1; rfl
    · rw [if_neg h11] at h0 h1
      obtain ⟨x0, hx0, h0⟩ := bind_eq_ok.1 h0
      obtain ⟨x1, hx1, h1⟩ := bind_eq_ok.1 h1
      cases h0; cases h1
      exact suspects_indices hcl (mapE_eq_ok.1 hx0) (mapE_eq_ok.1 hx1)

/-! ### One step -/

theorem crawlPrep_same {k0 k1 k0' k1' : KeyCollection P} {ms : List Nat} {last : Bool}
    (hs : SameShape k0 k1) (h0 : k0.crawlPrep ms last = .ok k0') (h1 : k1.crawlPrep ms last = .ok k1') :
    SameShape k0' k1' := by
  unfold KeyCollection.crawlPrep at h0 h1
  by_cases hm : ms.isEmpty
  · rw [if_pos hm] at h0 h1
    cases h0; cases h1; exact hs
  · rw [if_neg hm] at h0 h1
    obtain ⟨r0, hr0, h0⟩ := bind_eq_ok.1 h0
    obtain ⟨r1, hr1, h1⟩ := bind_eq_ok.1 h1
    cases h0; cases h1
    refine ⟨hs.inputLen, ?_, hs.prev, hs.prev, hs.final⟩
    cases last with
    | false =>
      simp only [Bool.false_eq_true, if_false] at hr0 hr1
      cases hr0; cases hr1; exact hs.flags
    | true =>
      simp only [if_true] at hr0 hr1
      simp only [excludeAll_flags hr0, excludeAll_flags hr1, hs.flags]

theorem treeCrawl_same {k0 k1 k0' k1' : KeyCollection P} {b0 b1 : Build} {s : Nat} {ms : List Nat}
    {last : Bool} {r0 r1 : CrawlResp} (hs : SameShape k0 k1)
    (h0 : k0.treeCrawl b0 s ms last = .ok (k0', r0))
    (h1 : k1.treeCrawl b1 s ms last = .ok (k1', r1)) :
    SameShape k0' k1' ∧ r0.cntValues.length = r1.cntValues.length ∧ r0.indices = r1.indices ∧
      r0.roots.length = r0.indices.length ∧ r1.roots.length = r1.indices.length := by
  obtain ⟨a0, n0, d0, rs0, p0, l0, m0, rfl, rfl⟩ := treeCrawl_ok h0
  obtain ⟨a1, n1, d1, rs1, p1, l1, m1, rfl, rfl⟩ := treeCrawl_ok h1
  have hs' := crawlPrep_same hs p0 p1
  have hn := nextFrontier_same hs'.len (paths_of_shape hs'.frontier) (crawlLevel_ok l0).2
    (crawlLevel_ok l1).2
  have hd : d0.length = d1.length := by
    rw [crawlLevel_digests_length l0, crawlLevel_digests_length l1, includedIndices_eq_flags,
      includedIndices_eq_flags, hs'.flags]
  refine ⟨⟨hs'.inputLen, hs'.flags, hn, hs'.frontier, hs'.final⟩, ?_, merkleRoots_indices hd m0 m1,
    by simp, by simp⟩
  have := congrArg List.length hn
  simpa using this

theorem select_map {α β : Type} (f : α → β) (keep : List Bool) (l : List α) :
    (Spec.select keep l).map f = Spec.select keep (l.map f) := by
  unfold Spec.select
  rw [List.map_filterMap]
  induction l generalizing keep with
  | nil => simp
  | cons a l ih =>
    cases keep with
    | nil => simp
    | cons k keep =>
      simp only [List.zip_cons_cons, List.map_cons, List.filterMap_cons]
      cases k with
      | false => exact ih keep
      | true => exact congrArg (f a :: ·) (ih keep)

theorem runFlp_length {bld : Build} {kc : KeyCollection P} {s e : Nat} {v : List (List Field128)}
    (h : kc.runFlpQueries bld s e = .ok v) : ∃ root rest, kc.frontier = root :: rest ∧
      v.length = ((List.range root.keyValues.length).filter
        fun i => decide (s ≤ i) && decide (i < e)).length := by
  unfold KeyCollection.runFlpQueries at h
  obtain ⟨root, hr, h⟩ := bind_eq_ok.1 h
  obtain ⟨_, -, h⟩ := bind_eq_ok.1 h
  obtain ⟨_, -, h⟩ := bind_eq_ok.1 h
  obtain ⟨c0, -, h⟩ := bind_eq_ok.1 h
  obtain ⟨c1, -, h⟩ := bind_eq_ok.1 h
  obtain ⟨_, -, h⟩ := bind_eq_ok.1 h
  rw [idx_eq_ok] at hr
  cases hf : kc.frontier with
  | nil => simp [hf] at hr
  | cons a l => simp [hf] at hr; subst hr; exact ⟨a, l, rfl, mapE_length h⟩

theorem getProofs_length (kc : KeyCollection P) (s e : Nat) :
    (kc.getProofs s e).length
      = if s < e ∧ e ≤ kc.finalProofs.length then e - s else 0 := by
  unfold KeyCollection.getProofs
  split
  · rename_i h
    rw [List.length_take, List.length_drop]; omega
  · rfl

theorem addRows_length (a b : List (List Field128)) : (addRows a b).length = a.length := by
  induction a generalizing b with
  | nil => rfl
  | cons x a ih => cases b <;> simp [addRows, ih]

theorem abmAggregate_length (n m : Nat) (l : List (Nat × List (List Field128))) :
    (abmAggregate n m l).length = m := by
  unfold abmAggregate
  suffices ∀ acc : List (List Field128),
      (l.foldl (fun agg e => addRows agg e.2) acc).length = acc.length by rw [this]; simp
  induction l with
  | nil => intro acc; rfl
  | cons e l ih => intro acc; rw [List.foldl_cons, ih, addRows_length]

theorem sameShape_abm {k0 k1 : KeyCollection P} (h : SameShape k0 k1)
    (a0 a1 : List (Nat × List (List Field128))) :
    SameShape { k0 with abmState := a0 } { k1 with abmState := a1 } :=
  ⟨h.inputLen, h.flags, h.frontier, h.prev, h.final⟩

theorem sameShape_pm {k0 k1 : KeyCollection P} (h : SameShape k0 k1)
    (a0 a1 : List (Nat × (P.PrepState × P.PrepShare))) :
    SameShape { k0 with pmState := a0 } { k1 with pmState := a1 } :=
  ⟨h.inputLen, h.flags, h.frontier, h.prev, h.final⟩

/-- Matching requests keep two servers in the same shape and get consistent answers. -/
theorem locked_same {c0 c1 : ServerCfg} {k0 k1 k0' k1' : KeyCollection P} {q0 q1 : Req}
    {r0 r1 : Resp} (hs : SameShape k0 k1) (hq : Spec.Matching q0 q1)
    (h0 : locked c0 k0 q0 = .ok (k0', r0)) (h1 : locked c1 k1 q1 = .ok (k1', r1)) :
    SameShape k0' k1' ∧ Spec.Consistent r0 r1 := by
  cases hq with
  | upload a b hab =>
    simp only [locked, srvAdd_eq] at h0 h1
    cases h0; cases h1
    refine ⟨⟨hs.inputLen, ?_, hs.frontier, hs.prev, hs.final⟩, trivial⟩
    simp only [List.map_append, hs.flags, List.map_map, Function.comp_def]
    rw [List.map_const', List.map_const', hab]
  | peers a b s e =>
    simp only [locked] at h0 h1
    obtain ⟨⟨x0, y0, z0⟩, g0, h0⟩ := bind_eq_ok.1 h0
    obtain ⟨⟨x1, y1, z1⟩, g1, h1⟩ := bind_eq_ok.1 h1
    cases h0; cases h1
    refine ⟨?_, trivial⟩
    unfold srvPmResult at g0 g1
    split at g0
    · cases g0
    · split at g1
      · cases g1
      · obtain ⟨⟨m0, o0⟩, -, g0⟩ := bind_eq_ok.1 g0
        obtain ⟨_, -, g0⟩ := bind_eq_ok.1 g0
        obtain ⟨_, -, g0⟩ := bind_eq_ok.1 g0
        obtain ⟨⟨m1, o1⟩, -, g1⟩ := bind_eq_ok.1 g1
        obtain ⟨_, -, g1⟩ := bind_eq_ok.1 g1
        obtain ⟨_, -, g1⟩ := bind_eq_ok.1 g1
        cases g0; cases g1
        exact sameShape_pm hs _ _
  | same =>
    cases q0 with
    | reset vk b =>
      simp only [locked, srvReset] at h0 h1
      split at h0
      · cases h0
        split at h1
        · cases h1
          exact ⟨⟨rfl, rfl, rfl, rfl, rfl⟩, trivial⟩
        · contradiction
      · cases h0
    | addReportShares a =>
      simp only [locked, srvAdd_eq] at h0 h1
      cases h0; cases h1
      refine ⟨⟨hs.inputLen, ?_, hs.frontier, hs.prev, hs.final⟩, trivial⟩
      simp only [List.map_append, hs.flags]
    | treeInit =>
      simp only [locked] at h0 h1
      obtain ⟨x0, g0, h0⟩ := bind_eq_ok.1 h0
      obtain ⟨x1, g1, h1⟩ := bind_eq_ok.1 h1
      cases h0; cases h1
      obtain ⟨ks0, e0, rfl⟩ := treeInit_ok g0
      obtain ⟨ks1, e1, rfl⟩ := treeInit_ok g1
      refine ⟨⟨hs.inputLen, hs.flags, ?_, hs.prev, hs.final⟩, trivial⟩
      simp [nodeShape, mapE_length e0, mapE_length e1, hs.len]
    | treeCrawl s m l =>
      simp only [locked] at h0 h1
      obtain ⟨⟨x0, y0⟩, g0, h0⟩ := bind_eq_ok.1 h0
      obtain ⟨⟨x1, y1⟩, g1, h1⟩ := bind_eq_ok.1 h1
      cases h0; cases h1
      exact treeCrawl_same hs g0 g1
    | runFlpQueries s e =>
      simp only [locked] at h0 h1
      obtain ⟨_, -, h0⟩ := bind_eq_ok.1 h0
      obtain ⟨_, -, h1⟩ := bind_eq_ok.1 h1
      obtain ⟨x0, g0, h0⟩ := bind_eq_ok.1 h0
      obtain ⟨x1, g1, h1⟩ := bind_eq_ok.1 h1
      cases h0; cases h1
      refine ⟨hs, ?_⟩
      obtain ⟨a, l, hf, hl⟩ := runFlp_length g0
      obtain ⟨a', l', hf', hl'⟩ := runFlp_length g1
      have := hs.frontier
      rw [hf, hf'] at this
      simp only [List.map_cons, List.cons.injEq, nodeShape, Prod.mk.injEq] at this
      show x0.length = x1.length
      rw [hl, hl', this.1.2]
    | applyFlpResults keep =>
      simp only [locked] at h0 h1
      obtain ⟨x0, g0, h0⟩ := bind_eq_ok.1 h0
      obtain ⟨x1, g1, h1⟩ := bind_eq_ok.1 h1
      cases h0; cases h1
      have f0 := (applyFlp_flags g0).2
      have f1 := (applyFlp_flags g1).2
      obtain ⟨_, rfl, -⟩ := applyFlpResults_ok g0
      obtain ⟨_, rfl, -⟩ := applyFlpResults_ok g1
      exact ⟨⟨hs.inputLen, by rw [f0, f1, hs.flags], hs.frontier, hs.prev, hs.final⟩, trivial⟩
    | treeCrawlLast =>
      simp only [locked] at h0 h1
      obtain ⟨⟨x0, y0⟩, g0, h0⟩ := bind_eq_ok.1 h0
      obtain ⟨⟨x1, y1⟩, g1, h1⟩ := bind_eq_ok.1 h1
      cases h0; cases h1
      obtain ⟨n0, p0, a0, b0, rfl, rfl⟩ := treeCrawlLast_ok g0
      obtain ⟨n1, p1, a1, b1, rfl, rfl⟩ := treeCrawlLast_ok g1
      have hn := nextFrontier_same hs.len (paths_of_shape hs.frontier) a0 a1
      refine ⟨⟨hs.inputLen, hs.flags, hn, hs.prev, ?_⟩, ?_⟩
      · show p0.length = p1.length
        rw [mapE_length b0, mapE_length b1, includedIndices_eq_flags, includedIndices_eq_flags,
          hs.flags]
      · show (n0.map _).length = (n1.map _).length
        simpa using congrArg List.length hn
    | getProofs s e =>
      simp only [locked] at h0 h1
      obtain ⟨_, -, h0⟩ := bind_eq_ok.1 h0
      obtain ⟨_, -, h1⟩ := bind_eq_ok.1 h1
      cases h0; cases h1
      refine ⟨hs, ?_⟩
      show (k0.getProofs s e).length = (k1.getProofs s e).length
      rw [getProofs_length, getProofs_length, hs.final]
    | treePrune keep =>
      simp only [locked, treePrune_spec] at h0 h1
      obtain ⟨x0, g0, h0⟩ := bind_eq_ok.1 h0
      obtain ⟨x1, g1, h1⟩ := bind_eq_ok.1 h1
      cases h0; cases h1
      split at g0
      · cases g0
        split at g1
        · cases g1
          refine ⟨⟨hs.inputLen, hs.flags, ?_, hs.prev, hs.final⟩, trivial⟩
          simp only [select_map, hs.frontier]
        · cases g1
      · cases g0
    | finalShares =>
      simp only [locked] at h0 h1
      cases h0; cases h1
      refine ⟨hs, ?_⟩
      show (k0.frontier.map _).map _ = (k1.frontier.map _).map _
      simpa [Function.comp_def] using paths_of_shape hs.frontier
    | abmValidate a s e =>
      simp only [locked] at h0 h1
      obtain ⟨⟨x0, y0⟩, g0, h0⟩ := bind_eq_ok.1 h0
      obtain ⟨⟨x1, y1⟩, g1, h1⟩ := bind_eq_ok.1 h1
      cases h0; cases h1
      unfold srvAbmValidate at g0 g1
      obtain ⟨_, -, g0⟩ := bind_eq_ok.1 g0
      obtain ⟨_, -, g1⟩ := bind_eq_ok.1 g1
      obtain ⟨z0, w0, g0⟩ := bind_eq_ok.1 g0
      obtain ⟨z1, w1, g1⟩ := bind_eq_ok.1 g1
      cases g0; cases g1
      refine ⟨sameShape_abm hs _ _, ?_⟩
      show (z0.map _).length = (z1.map _).length
      rw [List.length_map, List.length_map, mapE_length w0, mapE_length w1]
    | abmResult rej n s e =>
      simp only [locked] at h0 h1
      obtain ⟨⟨x0, y0⟩, g0, h0⟩ := bind_eq_ok.1 h0
      obtain ⟨⟨x1, y1⟩, g1, h1⟩ := bind_eq_ok.1 h1
      cases h0; cases h1
      unfold srvAbmResult at g0 g1
      obtain ⟨z0, w0, g0⟩ := bind_eq_ok.1 g0
      obtain ⟨z1, w1, g1⟩ := bind_eq_ok.1 g1
      cases g0; cases g1
      refine ⟨sameShape_abm hs _ _, ?_⟩
      show (abmAggregate _ _ _).length = (abmAggregate _ _ _).length
      rw [abmAggregate_length, abmAggregate_length]
    | pmValidate s e =>
      simp only [locked] at h0 h1
      obtain ⟨⟨x0, y0⟩, g0, h0⟩ := bind_eq_ok.1 h0
      obtain ⟨⟨x1, y1⟩, g1, h1⟩ := bind_eq_ok.1 h1
      cases h0; cases h1
      unfold srvPmValidate at g0 g1
      obtain ⟨_, -, g0⟩ := bind_eq_ok.1 g0
      obtain ⟨_, -, g1⟩ := bind_eq_ok.1 g1
      obtain ⟨_, -, g0⟩ := bind_eq_ok.1 g0
      obtain ⟨_, -, g1⟩ := bind_eq_ok.1 g1
      split at g0
      · cases g0
      · split at g1
        · cases g1
        · obtain ⟨z0, w0, g0⟩ := bind_eq_ok.1 g0
          obtain ⟨z1, w1, g1⟩ := bind_eq_ok.1 g1
          cases g0; cases g1
          refine ⟨sameShape_pm hs _ _, ?_⟩
          show (z0.map _).length = (z1.map _).length
          rw [List.length_map, List.length_map, mapE_length w0, mapE_length w1]
    | pmResult p s e =>
      simp only [locked] at h0 h1
      obtain ⟨⟨x0, y0, z0⟩, g0, h0⟩ := bind_eq_ok.1 h0
      obtain ⟨⟨x1, y1, z1⟩, g1, h1⟩ := bind_eq_ok.1 h1
      cases h0; cases h1
      refine ⟨?_, trivial⟩
      unfold srvPmResult at g0 g1
      split at g0
      · cases g0
      · split at g1
        · cases g1
        · obtain ⟨⟨m0, o0⟩, -, g0⟩ := bind_eq_ok.1 g0
          obtain ⟨_, -, g0⟩ := bind_eq_ok.1 g0
          obtain ⟨_, -, g0⟩ := bind_eq_ok.1 g0
          obtain ⟨⟨m1, o1⟩, -, g1⟩ := bind_eq_ok.1 g1
          obtain ⟨_, -, g1⟩ := bind_eq_ok.1 g1
          obtain ⟨_, -, g1⟩ := bind_eq_ok.1 g1
          cases g0; cases g1
          exact sameShape_pm hs _ _

end Mastic
