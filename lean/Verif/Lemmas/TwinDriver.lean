import Verif.Lemmas.Twin
import Verif.Lemmas.Level

/-!
# Helper lemmas: a heavy-hitters run with twin reports
-/

namespace Mastic

variable {P : Prims}

theorem ExRel.with {α β : Type} {R : α → β → Prop} {x : Exec α} {y : Exec β} (h : ExRel R x y) :
    ExRel (fun a b => R a b ∧ x = .ok a ∧ y = .ok b) x y := by
  cases x with
  | error p => cases y with
    | error q => exact h
    | ok b => exact absurd h (by simp [ExRel])
  | ok a => cases y with
    | error q => exact absurd h (by simp [ExRel])
    | ok b => exact ⟨h, rfl, rfl⟩

theorem ExRel.foldE_range {σ τ : Type} (R : Nat → σ → τ → Prop) {f : σ → Nat → Exec σ}
    {g : τ → Nat → Exec τ} {s : σ} {t : τ} (h0 : R 0 s t) :
    ∀ (L : Nat) (_ : ∀ l s t, l < L → R l s t → ExRel (R (l + 1)) (f s l) (g t l)),
      ExRel (R L) (Mastic.foldE f s (List.range L)) (Mastic.foldE g t (List.range L))
  | 0, _ => h0
  | L + 1, h => by
    rw [List.range_succ, foldE_append, foldE_append]
    refine (ExRel.foldE_range R h0 L fun l s t hl => h l s t (by omega)).bind fun a b hab => ?_
    have := h L a b (by omega) hab
    simp only [foldE_cons]
    refine this.bind fun x y hxy => hxy

/-- Values that agree in the counter entry. -/
def CntEq (n : Nat) (a b : List Field128) : Prop := a[n]? = b[n]?

theorem keepValues_twin {n thr : Nat} {a0 b0 a1 b1 : List (List Field128)}
    (h0 : List.Forall₂ (CntEq n) a0 b0) (h1 : List.Forall₂ (CntEq n) a1 b1) :
    keepValues n thr a0 a1 = keepValues n thr b0 b1 := by
  refine ExRel.eq ?_
  unfold keepValues
  have hz : List.Forall₂ (fun x y => CntEq n x.1 y.1 ∧ CntEq n x.2 y.2) (a0.zip a1) (b0.zip b1) := by
    induction h0 generalizing a1 b1 with
    | nil => exact .nil
    | cons hx _ ih =>
      cases h1 with
      | nil => exact .nil
      | cons hy h1 => exact .cons ⟨hx, hy⟩ (ih h1)
  refine (ExRel.mapE (R := Eq) hz ?_).mono fun _ _ h => forall₂_eq h
  rintro ⟨x0, x1⟩ ⟨y0, y1⟩ ⟨g0, g1⟩
  unfold CntEq at g0 g1
  unfold idx
  dsimp only at g0 g1 ⊢
  rw [g0, g1]
  exact ExRel.refl (fun _ => rfl) _

theorem diffIndices_congr {r0 r1 r0' r1' : CrawlResp} (h0 : r0.roots = r0'.roots)
    (h1 : r1.roots = r1'.roots) (h2 : r0.indices = r0'.indices) (h3 : r1.indices = r1'.indices) :
    diffIndices r0 r1 = diffIndices r0' r1' := by
  unfold diffIndices
  rw [h0, h1, h2, h3]

/-- Two pairs of servers whose crawl answers agree in everything the driver looks at go through the same
loop. -/
theorem runLevelLoop_twin {σ τ : Type} {crawl : σ → CrawlReq → Exec (σ × CrawlResp × CrawlResp)}
    {crawl' : τ → CrawlReq → Exec (τ × CrawlResp × CrawlResp)} {inputLen thr n : Nat}
    (Inv : CrawlReq → σ → τ → Prop) (Post : σ → τ → Prop)
    (step : ∀ req s t, Inv req s t → ExRel (fun x y =>
      (∀ req', req'.malicious ≠ [] → Inv req' x.1 y.1) ∧ Post x.1 y.1 ∧
      (x.2.1.roots = y.2.1.roots ∧ x.2.1.indices = y.2.1.indices ∧
        List.Forall₂ (CntEq inputLen) x.2.1.cntValues y.2.1.cntValues) ∧
      (x.2.2.roots = y.2.2.roots ∧ x.2.2.indices = y.2.2.indices ∧
        List.Forall₂ (CntEq inputLen) x.2.2.cntValues y.2.2.cntValues)) (crawl s req) (crawl' t req)) :
    ∀ (fuel : Nat) (req : CrawlReq) (s : σ) (t : τ), Inv req s t →
      ExRel (fun x y => Post x.1 y.1 ∧ x.2 = y.2)
        (runLevelLoop crawl inputLen thr n fuel s req) (runLevelLoop crawl' inputLen thr n fuel t req)
  | 0, _, _, _, _ => rfl
  | fuel + 1, req, s, t, hi => by
    unfold runLevelLoop
    refine (step req s t hi).bind ?_
    rintro ⟨s', r0, r1⟩ ⟨t', q0, q1⟩ ⟨hI, hP, ⟨a1, a2, a3⟩, b1, b2, b3⟩
    dsimp only at hI hP a1 a2 a3 b1 b2 b3 ⊢
    rw [a3.length_eq, b3.length_eq]
    refine ExRel.bind (R := Eq) (ExRel.refl (fun _ => rfl) _) ?_
    rintro _ _ -
    rw [keepValues_twin a3 b3]
    refine ExRel.bind (R := Eq) (ExRel.refl (fun _ => rfl) _) ?_
    rintro keep _ rfl
    rw [a1]
    split
    · exact ⟨hP, rfl⟩
    · rw [diffIndices_congr a1 b1 a2 b2]
      refine ExRel.bind (R := Eq) (ExRel.refl (fun _ => rfl) _) ?_
      rintro mal _ rfl
      split
      · exact ⟨hP, rfl⟩
      · rename_i hne
        have hne' : mal ≠ [] := by simpa using hne
        split
        · split
          · exact ⟨hP, rfl⟩
          · refine (runLevelLoop_twin Inv Post step fuel _ s' t' (hI _ hne')).bind ?_
            rintro ⟨x, k, c⟩ ⟨y, k', c'⟩ ⟨hp, he⟩
            cases he
            exact ⟨hp, rfl⟩
        · refine (runLevelLoop_twin Inv Post step fuel _ s' t' (hI _ hne')).bind ?_
          rintro ⟨x, k, c⟩ ⟨y, k', c'⟩ ⟨hp, he⟩
          cases he
          exact ⟨hp, rfl⟩

/-- All nodes are at depth `m`. -/
def DepthIs (m : Nat) (fr : List TreeNode) : Prop := ∀ node ∈ fr, node.path.length = m

theorem nextFrontier_depth {kc : KeyCollection P} {chk : Bool} {next : List TreeNode} {m : Nat}
    (h : kc.nextFrontier chk = .ok next) (hd : DepthIs m kc.frontier) : DepthIs (m + 1) next := by
  intro c hc
  obtain ⟨node, hn, dir, hm⟩ := nextFrontier_mem h hc
  rw [(makeTreeNode_ok hm).1]
  simp [hd node hn]

theorem treeCrawl_depth {bld : Build} {kc kc' : KeyCollection P} {s : Nat} {ms : List Nat} {last : Bool}
    {r : CrawlResp} {m : Nat} (h : kc.treeCrawl bld s ms last = .ok (kc', r))
    (hd : DepthIs m (if ms = [] then kc.frontier else kc.prevFrontier)) :
    DepthIs (m + 1) kc'.frontier ∧ DepthIs m kc'.prevFrontier ∧
      r.cntValues = kc'.frontier.map TreeNode.value := by
  obtain ⟨kc1, next, digests, rs, h1, h2, -, rfl, rfl⟩ := treeCrawl_ok h
  obtain ⟨reports, fr, rfl, -, -, rfl, -⟩ := crawlPrep_ok h1
  exact ⟨nextFrontier_depth (crawlLevel_ok h2).2 hd, hd, rfl⟩

theorem cntValues_twin {B : Nat → Nat → Prop} {n : Nat} (hB : ∀ m, B m n) {fr fr' : List TreeNode}
    (h : List.Forall₂ (NodeTwin B) fr fr') :
    List.Forall₂ (CntEq n) (fr.map TreeNode.value) (fr'.map TreeNode.value) := by
  rw [List.forall₂_map_left_iff, List.forall₂_map_right_iff]
  refine h.imp fun a b hab => ?_
  by_cases h0 : a.path.length = 0
  · show _ = _
    rw [hab.value.2.1 h0]
  · exact hab.value.2.2 (by omega) n (hB _)

/-- Twin pairs of servers at depth `m`. -/
structure PairTwin (B : Nat → Nat → Prop) (n m : Nat) (s t : Pair2 P) : Prop where
  fst : KcTwin B s.1 t.1
  snd : KcTwin B s.2 t.2
  len0 : s.1.inputLen = n
  len1 : s.2.inputLen = n
  depth0 : DepthIs m s.1.frontier
  depth1 : DepthIs m s.2.frontier

theorem crawlBoth_twin {B : Nat → Nat → Prop} {n m : Nat} (hB : ∀ l, B l n) (hL : LevelIn n B m)
    (c0 c1 : ServerCfg) (req : CrawlReq) (s t : Pair2 P)
    (h0 : KcTwin B s.1 t.1) (h1 : KcTwin B s.2 t.2) (l0 : s.1.inputLen = n) (l1 : s.2.inputLen = n)
    (d0 : DepthIs m (if req.malicious = [] then s.1.frontier else s.1.prevFrontier))
    (d1 : DepthIs m (if req.malicious = [] then s.2.frontier else s.2.prevFrontier)) :
    ExRel (fun x y => (DepthIs m x.1.1.prevFrontier ∧ DepthIs m x.1.2.prevFrontier) ∧
      PairTwin B n (m + 1) x.1 y.1 ∧
      (x.2.1.roots = y.2.1.roots ∧ x.2.1.indices = y.2.1.indices ∧
        List.Forall₂ (CntEq n) x.2.1.cntValues y.2.1.cntValues) ∧
      (x.2.2.roots = y.2.2.roots ∧ x.2.2.indices = y.2.2.indices ∧
        List.Forall₂ (CntEq n) x.2.2.cntValues y.2.2.cntValues))
      (crawlBoth c0 c1 s req) (crawlBoth c0 c1 t req) := by
  have e0 : CrawlIn s.1.inputLen B
      (if req.malicious.isEmpty then s.1.frontier else s.1.prevFrontier) := by
    intro node hn
    rw [l0, d0 node (by simpa using hn)]
    exact hL
  have e1 : CrawlIn s.2.inputLen B
      (if req.malicious.isEmpty then s.2.frontier else s.2.prevFrontier) := by
    intro node hn
    rw [l1, d1 node (by simpa using hn)]
    exact hL
  unfold crawlBoth
  refine ExRel.bind (treeCrawl_twin h0 c0.build _ _ _ e0).with ?_
  rintro ⟨x0, r0⟩ ⟨y0, q0⟩ ⟨⟨⟨a1, a2⟩, a3, a4, -⟩, f0, g0⟩
  refine ExRel.bind (treeCrawl_twin h1 c1.build _ _ _ e1).with ?_
  rintro ⟨x1, r1⟩ ⟨y1, q1⟩ ⟨⟨⟨b1, b2⟩, b3, b4, -⟩, f1, g1⟩
  dsimp only at a1 a2 a3 a4 f0 g0 b1 b2 b3 b4 f1 g1 ⊢
  obtain ⟨i1, i2, i3⟩ := treeCrawl_depth f0 d0
  obtain ⟨j1, j2, j3⟩ := treeCrawl_depth f1 d1
  have k3 : q0.cntValues = y0.frontier.map TreeNode.value := by
    obtain ⟨kc1, next, digests, rs, -, -, -, rfl, rfl⟩ := treeCrawl_ok g0; rfl
  have k4 : q1.cntValues = y1.frontier.map TreeNode.value := by
    obtain ⟨kc1, next, digests, rs, -, -, -, rfl, rfl⟩ := treeCrawl_ok g1; rfl
  refine ⟨⟨i2, j2⟩, ⟨a1, b1, a2.trans l0, b2.trans l1, i1, j1⟩, ⟨a3, a4, ?_⟩, b3, b4, ?_⟩
  · dsimp only; rw [i3, k3]; exact cntValues_twin hB a1.frontier
  · dsimp only; rw [j3, k4]; exact cntValues_twin hB b1.frontier

theorem pruneBoth_twin {B : Nat → Nat → Prop} {n m : Nat} {s t : Pair2 P} (h : PairTwin B n m s t)
    (keep : List Bool) : ExRel (PairTwin B n m) (pruneBoth s keep) (pruneBoth t keep) := by
  unfold pruneBoth
  refine ExRel.bind (treePrune_twin h.fst keep).with ?_
  rintro x0 y0 ⟨⟨a1, a2⟩, f0, -⟩
  refine ExRel.bind (treePrune_twin h.snd keep).with ?_
  rintro x1 y1 ⟨⟨b1, b2⟩, f1, -⟩
  have sub : ∀ {k k' : KeyCollection P}, k.treePrune keep = .ok k' → DepthIs m k.frontier →
      DepthIs m k'.frontier := by
    intro k k' e hd
    rw [treePrune_spec] at e
    split at e
    · cases e
      exact fun node hn => hd node ((select_sublist _ _).subset hn)
    · cases e
  exact ⟨a1, b1, a2.trans h.len0, b2.trans h.len1, sub f0 h.depth0, sub f1 h.depth1⟩

theorem runLevel_twin {B : Nat → Nat → Prop} {cfg : Config} {m : Nat} (hB : ∀ l, B l cfg.histBuckets)
    (hL : LevelIn cfg.histBuckets B m) (c0 c1 : ServerCfg) (n : Nat) {s t : Pair2 P}
    (h : PairTwin B cfg.histBuckets m s t) :
    ExRel (PairTwin B cfg.histBuckets (m + 1)) (runLevel c0 c1 cfg s n) (runLevel c0 c1 cfg t n) := by
  unfold runLevel searchLevel
  refine ExRel.bind (runLevelLoop_twin
    (fun req s t => KcTwin B s.1 t.1 ∧ KcTwin B s.2 t.2 ∧ s.1.inputLen = cfg.histBuckets ∧
      s.2.inputLen = cfg.histBuckets ∧
      DepthIs m (if req.malicious = [] then s.1.frontier else s.1.prevFrontier) ∧
      DepthIs m (if req.malicious = [] then s.2.frontier else s.2.prevFrontier))
    (PairTwin B cfg.histBuckets (m + 1)) ?_ _ _ s t ⟨h.fst, h.snd, h.len0, h.len1, by simpa using h.depth0, by simpa using h.depth1⟩) ?_
  · rintro req s t ⟨h1, h2, h3, h4, h5, h6⟩
    refine (crawlBoth_twin hB hL c0 c1 req s t h1 h2 h3 h4 h5 h6).mono ?_
    rintro x y ⟨⟨p0, p1⟩, hp, rest⟩
    refine ⟨fun req' hne => ⟨hp.fst, hp.snd, hp.len0, hp.len1, ?_, ?_⟩, hp, rest⟩
    · rw [if_neg hne]; exact p0
    · rw [if_neg hne]; exact p1
  · rintro ⟨x, k, c⟩ ⟨y, k', c'⟩ ⟨hp, he⟩
    cases he
    exact pruneBoth_twin hp k

theorem driverFlp_twin {B : Nat → Nat → Prop} {cfg : Config} {m : Nat}
    (hB : ∀ i < cfg.histBuckets, B 0 i) (c0 c1 : ServerCfg) (bld : Build) (n : Nat) {s t : Pair2 P}
    (h : PairTwin B cfg.histBuckets m s t) :
    ExRel (PairTwin B cfg.histBuckets m) (driverFlp c0 c1 bld cfg s n) (driverFlp c0 c1 bld cfg t n) := by
  unfold driverFlp
  have : flpBatch c0 c1 bld cfg.histBuckets s = flpBatch c0 c1 bld cfg.histBuckets t := by
    funext r
    unfold flpBatch
    simp only [runFlp_twin h.fst (by rw [h.len0]; exact hB), runFlp_twin h.snd (by rw [h.len1]; exact hB)]
  rw [this]
  refine ExRel.bind (R := Eq) (ExRel.refl (fun _ => rfl) _) ?_
  rintro rg _ rfl
  refine ExRel.bind (R := Eq) (ExRel.refl (fun _ => rfl) _) ?_
  rintro keeps _ rfl
  dsimp only
  refine ExRel.bind (applyFlp_twin h.fst _).with ?_
  rintro x0 y0 ⟨⟨a1, a2⟩, f0, -⟩
  refine ExRel.bind (applyFlp_twin h.snd _).with ?_
  rintro x1 y1 ⟨⟨b1, b2⟩, f1, -⟩
  have e0 : x0.frontier = s.1.frontier := by
    obtain ⟨rs, rfl, -⟩ := applyFlpResults_ok f0; rfl
  have e1 : x1.frontier = s.2.frontier := by
    obtain ⟨rs, rfl, -⟩ := applyFlpResults_ok f1; rfl
  exact ⟨a1, b1, a2.trans h.len0, b2.trans h.len1, by rw [e0]; exact h.depth0, by rw [e1]; exact h.depth1⟩

theorem levelStep_twin {B : Nat → Nat → Prop} {cfg : Config} {m : Nat} (hB : ∀ l, B l cfg.histBuckets)
    (hB0 : ∀ i < cfg.histBuckets, B 0 i) (hL : LevelIn cfg.histBuckets B m) (c0 c1 : ServerCfg)
    (bld : Build) (n : Nat) {s t : Pair2 P} (h : PairTwin B cfg.histBuckets m s t) :
    ExRel (PairTwin B cfg.histBuckets (m + 1)) (levelStep c0 c1 bld cfg n s m)
      (levelStep c0 c1 bld cfg n t m) := by
  unfold levelStep
  have : ExRel (PairTwin B cfg.histBuckets m) (if m = 0 then driverFlp c0 c1 bld cfg s n else .ok s)
      (if m = 0 then driverFlp c0 c1 bld cfg t n else .ok t) := by
    split
    · exact driverFlp_twin hB0 c0 c1 bld n h
    · exact h
  exact this.bind fun x y hxy => runLevel_twin hB hL c0 c1 n hxy

theorem driverTreeInit_twin {B : Nat → Nat → Prop} {n : Nat} {s t : Pair2 P} (h0 : KcTwin B s.1 t.1)
    (h1 : KcTwin B s.2 t.2) (l0 : s.1.inputLen = n) (l1 : s.2.inputLen = n) :
    ExRel (PairTwin B n 0) (driverTreeInit s) (driverTreeInit t) := by
  unfold driverTreeInit
  refine ExRel.bind (treeInit_twin h0).with ?_
  rintro x0 y0 ⟨⟨a1, a2⟩, f0, -⟩
  refine ExRel.bind (treeInit_twin h1).with ?_
  rintro x1 y1 ⟨⟨b1, b2⟩, f1, -⟩
  refine ⟨a1, b1, a2.trans l0, b2.trans l1, ?_, ?_⟩
  · obtain ⟨ks, -, rfl⟩ := treeInit_ok f0; simp [DepthIs]
  · obtain ⟨ks, -, rfl⟩ := treeInit_ok f1; simp [DepthIs]

/-- Results for the same path with the same counter. -/
def ResTwin (n : Nat) (a b : HHResult) : Prop :=
  a.path = b.path ∧ a.value[n]? = b.value[n]?

theorem finalValues_twin {n : Nat} {a0 b0 a1 b1 : List HHResult} (h0 : List.Forall₂ (ResTwin n) a0 b0)
    (h1 : List.Forall₂ (ResTwin n) a1 b1) :
    ExRel (List.Forall₂ fun x y => ResTwin n x y ∧ x.value.length = n + 1 ∧ y.value.length = n + 1)
      (finalValues n a0 a1) (finalValues n b0 b1) := by
  unfold finalValues
  rw [h0.length_eq, h1.length_eq]
  refine ExRel.bind (R := Eq) (ExRel.refl (fun _ => rfl) _) ?_
  rintro _ _ -
  have hz : List.Forall₂ (fun x y => ResTwin n x.1 y.1 ∧ ResTwin n x.2 y.2) (a0.zip a1) (b0.zip b1) := by
    induction h0 generalizing a1 b1 with
    | nil => exact .nil
    | cons hx _ ih =>
      cases h1 with
      | nil => exact .nil
      | cons hy h1 => exact .cons ⟨hx, hy⟩ (ih h1)
  refine ExRel.bind (ExRel.mapE (R := fun x y => (ResTwin n x.1 y.1 ∧ x.1.value.length = n + 1 ∧
    y.1.value.length = n + 1) ∧ x.2 = y.2) hz ?_) ?_
  · rintro ⟨x0, x1⟩ ⟨y0, y1⟩ ⟨⟨g0, f0⟩, g1, f1⟩
    dsimp only at g0 f0 g1 f1 ⊢
    rw [← g0, ← g1]
    refine ExRel.bind (R := Eq) (ExRel.refl (fun _ => rfl) _) ?_
    rintro _ _ -
    have hv : (vecAdd (vecAdd (List.replicate (n + 1) 0) x0.value) x1.value)[n]?
        = (vecAdd (vecAdd (List.replicate (n + 1) 0) y0.value) y1.value)[n]? := by
      simp only [vecAdd_getElem?, f0, f1]
    have h1 : ∀ x y : List Field128, (vecAdd (vecAdd (List.replicate (n + 1) 0) x) y).length = n + 1 := by
      intro x y; simp
    generalize hx : vecAdd (vecAdd (List.replicate (n + 1) 0) x0.value) x1.value = vx at hv
    generalize hy : vecAdd (vecAdd (List.replicate (n + 1) 0) y0.value) y1.value = vy at hv
    unfold idx
    rw [hv]
    cases hc : vy[n]? with
    | none => exact rfl
    | some c => exact ⟨⟨⟨rfl, hv⟩, by rw [← hx]; exact h1 _ _, by rw [← hy]; exact h1 _ _⟩, rfl⟩
  · intro rs rs' hrs
    show List.Forall₂ _ _ _
    clear hz
    induction hrs with
    | nil => exact .nil
    | cons hx _ ih =>
      simp only [List.filter_cons, hx.2]
      split
      · exact .cons hx.1 ih
      · exact ih

theorem printed_twin {n : Nat} {rs rs' : List HHResult} (h : List.Forall₂ (fun x y => ResTwin n x y ∧
    x.value.length = n + 1 ∧ y.value.length = n + 1) rs rs') :
    ExRel (fun _ _ => True) (printed n rs) (printed n rs') := by
  unfold printed
  refine ExRel.bind (ExRel.mapE (R := fun _ _ => True) h ?_) fun _ _ _ => trivial
  rintro x y ⟨-, hx, hy⟩
  split
  · exact rfl
  · rw [idx_eq_ok_of_lt (by rw [hx]; omega), idx_eq_ok_of_lt (by rw [hy]; omega)]
    exact trivial

theorem finalShares_twin {B : Nat → Nat → Prop} {n : Nat} (hB : ∀ m, B m n) {k k' : KeyCollection P}
    (h : KcTwin B k k') : List.Forall₂ (ResTwin n) k.finalShares k'.finalShares := by
  unfold KeyCollection.finalShares
  rw [List.forall₂_map_left_iff, List.forall₂_map_right_iff]
  refine h.frontier.imp fun a b hab => ⟨hab.path, ?_⟩
  by_cases h0 : a.path.length = 0
  · dsimp only
    rw [hab.value.2.1 h0]
  · exact hab.value.2.2 (by omega) n (hB _)

/-- What two runs with twin reports have in common. -/
structure OutTwin (B : Nat → Nat → Prop) (n d : Nat) (o o' : WhhOut P) : Prop where
  kcs : PairTwin B n d o.kcs o'.kcs
  results : List.Forall₂ (ResTwin n) o.results o'.results

theorem runLevelLast_twin {B : Nat → Nat → Prop} {cfg : Config} {m : Nat} (hB : ∀ l, B l cfg.histBuckets)
    (c0 c1 : ServerCfg) (n : Nat) {s t : Pair2 P} (h : PairTwin B cfg.histBuckets m s t) :
    ExRel (OutTwin B cfg.histBuckets (m + 1)) (runLevelLast c0 c1 cfg s n) (runLevelLast c0 c1 cfg t n) := by
  unfold runLevelLast
  refine ExRel.bind (treeCrawlLast_twin h.fst).with ?_
  rintro ⟨x0, v0⟩ ⟨y0, w0⟩ ⟨⟨⟨a1, a2⟩, a3⟩, f0, g0⟩
  refine ExRel.bind (treeCrawlLast_twin h.snd).with ?_
  rintro ⟨x1, v1⟩ ⟨y1, w1⟩ ⟨⟨⟨b1, b2⟩, b3⟩, f1, g1⟩
  dsimp only at a1 a2 a3 f0 g0 b1 b2 b3 f1 g1 ⊢
  have hv : ∀ {k k' : KeyCollection P} {v}, k.treeCrawlLast = .ok (k', v) →
      v = k'.frontier.map TreeNode.value := by
    intro k k' v e
    obtain ⟨next, proofs, -, -, rfl, rfl⟩ := treeCrawlLast_ok e
    rfl
  have hd : ∀ {k k' : KeyCollection P} {v}, k.treeCrawlLast = .ok (k', v) → DepthIs m k.frontier →
      DepthIs (m + 1) k'.frontier := by
    intro k k' v e hd
    obtain ⟨next, proofs, e2, -, rfl, -⟩ := treeCrawlLast_ok e
    exact nextFrontier_depth e2 hd
  rw [a3, b3]
  refine ExRel.bind (R := Eq) (ExRel.refl (fun _ => rfl) _) ?_
  rintro _ _ -
  have hc0 : List.Forall₂ (CntEq cfg.histBuckets) v0 w0 := by
    rw [hv f0, hv g0]; exact cntValues_twin hB a1.frontier
  have hc1 : List.Forall₂ (CntEq cfg.histBuckets) v1 w1 := by
    rw [hv f1, hv g1]; exact cntValues_twin hB b1.frontier
  rw [keepValues_twin hc0 hc1]
  refine ExRel.bind (R := Eq) (ExRel.refl (fun _ => rfl) _) ?_
  rintro keep _ rfl
  refine ExRel.bind (R := Eq) (ExRel.refl (fun _ => rfl) _) ?_
  rintro rg _ rfl
  have hcmp : compareProofs c0 c1 (x0, x1) = compareProofs c0 c1 (y0, y1) := by
    funext r
    unfold compareProofs KeyCollection.getProofs
    dsimp only
    rw [a1.final, b1.final]
  rw [hcmp]
  refine ExRel.bind (R := Eq) (ExRel.refl (fun _ => rfl) _) ?_
  rintro _ _ -
  refine ExRel.bind (pruneBoth_twin (s := (x0, x1)) (t := (y0, y1)) (n := cfg.histBuckets) (m := m + 1)
    ⟨a1, b1, a2.trans h.len0, b2.trans h.len1, hd f0 h.depth0, hd f1 h.depth1⟩ keep) ?_
  intro p q hpq
  refine ExRel.bind (R := Eq) (ExRel.refl (fun _ => rfl) _) ?_
  rintro _ _ -
  refine ExRel.bind (finalValues_twin (finalShares_twin hB hpq.fst) (finalShares_twin hB hpq.snd)) ?_
  intro rs rs' hrs
  refine ExRel.bind (printed_twin hrs) ?_
  intro pr pr' _
  exact ⟨hpq, hrs.imp fun _ _ hx => hx.1⟩

theorem runWhh_twin {B : Nat → Nat → Prop} {cfg : Config} {d : Nat} (hd : cfg.dataBits = some d)
    (hd1 : 1 ≤ d) (hB : ∀ l, B l cfg.histBuckets) (hB0 : ∀ i < cfg.histBuckets, B 0 i)
    (hL : ∀ m, m + 1 < d → LevelIn cfg.histBuckets B m) (c0 c1 : ServerCfg) (bld : Build) (n : Nat)
    {s t : Pair2 P} (h0 : KcTwin B s.1 t.1) (h1 : KcTwin B s.2 t.2)
    (l0 : s.1.inputLen = cfg.histBuckets) (l1 : s.2.inputLen = cfg.histBuckets) :
    ExRel (OutTwin B cfg.histBuckets d) (runWhh c0 c1 bld cfg s n) (runWhh c0 c1 bld cfg t n) := by
  unfold runWhh
  refine ExRel.bind (driverTreeInit_twin h0 h1 l0 l1) ?_
  intro x y hxy
  have hl : levelCount bld cfg.dataBits = .ok (d - 1) := by
    unfold levelCount unwrapO
    rw [hd]
    simp only [ok_bind]
    rw [if_neg (by omega)]
  rw [hl, ok_bind, ok_bind]
  refine ExRel.bind (ExRel.foldE_range (PairTwin B cfg.histBuckets) hxy (d - 1) ?_) ?_
  · intro l s t hl hst
    exact levelStep_twin hB hB0 (hL l (by omega)) c0 c1 bld n hst
  · intro p q hpq
    have := runLevelLast_twin hB c0 c1 n hpq
    rwa [Nat.sub_add_cancel hd1] at this

end Mastic
