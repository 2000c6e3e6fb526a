import Verif.Spec.Settings
import Verif.Spec.Script
import Verif.Lemmas.Metrics
import Verif.Lemmas.Abm
import Verif.Lemmas.AbmRun

/-!
# Lemmas: server processes started with different settings
-/

namespace Mastic

variable {P : Prims}

/-- The second kind of build checks no more than the first. -/
def Laxer (b b' : Build) : Prop := b = .release → b' = .release

theorem debugAssert_laxer {b b' : Build} (h : Laxer b b') {x : Bool} (e : debugAssert b x = .ok ()) :
    debugAssert b' x = .ok () := by
  cases b' with
  | release => rfl
  | debug =>
    cases b with
    | release => cases h rfl
    | debug => exact e

/-- The second settings refuse nothing that the first accept. -/
structure Permits (c c' : ServerCfg) : Prop where
  id : c'.serverId = c.serverId
  bits : ∀ a, c.dataBits = some a → ∃ b, c'.dataBits = some b ∧ a ≤ b
  build : Laxer c.build c'.build

/-- The same state, but for the number of bits. -/
structure Alike (c c' : ServerCfg) (kc kc' : KeyCollection P) : Prop where
  depth : kc.depth = c.dataBits
  same : kc' = { kc with depth := c'.dataBits }

/-- The request is answered in the same way by both kinds of build. -/
def Neutral : Req → Prop
  | .abmResult .. => False
  | _ => True

theorem mapE_laxer {α β : Type} {f g : α → Exec β} : ∀ {l : List α} {ys : List β},
    (∀ a ∈ l, ∀ y, f a = .ok y → g a = .ok y) → mapE f l = .ok ys → mapE g l = .ok ys
  | [], _, _, h => h
  | a :: l, ys, hfg, h => by
    rw [mapE_cons] at h ⊢
    obtain ⟨y, hy, h⟩ := bind_eq_ok.1 h
    obtain ⟨zs, hz, h⟩ := bind_eq_ok.1 h
    rw [hfg a (List.mem_cons_self ..) y hy, ok_bind,
      mapE_laxer (fun b hb => hfg b (List.mem_cons_of_mem _ hb)) hz, ok_bind]
    exact h

section

variable {c c' : ServerCfg} {kc : KeyCollection P}

theorem children_laxer (hp : Permits c c') (hd : kc.depth = c.dataBits) {chk : Bool} {node : TreeNode}
    {ns : List TreeNode} (h : kc.children chk node = .ok ns) :
    KeyCollection.children { kc with depth := c'.dataBits } chk node = .ok ns := by
  unfold KeyCollection.children at h ⊢
  cases chk with
  | false => exact h
  | true =>
    simp only [if_true] at h ⊢
    rw [hd] at h
    cases hc : c.dataBits with
    | none => rw [hc] at h; cases h
    | some a =>
      obtain ⟨b, hb, hab⟩ := hp.bits a hc
      rw [hc] at h
      rw [hb]
      simp only [unwrapO, ok_bind] at h ⊢
      obtain ⟨⟨⟩, h1, h2⟩ := bind_eq_ok.1 h
      rw [assertE_eq_ok] at h1
      have h3 : node.path.length ≤ a := by simpa using h1
      have h4 : assertE (decide (node.path.length ≤ b)) = .ok () := assertE_eq_ok.2 (by simp; omega)
      rw [h4, ok_bind]
      exact h2

theorem nextFrontier_laxer (hp : Permits c c') (hd : kc.depth = c.dataBits) {chk : Bool} {ns : List TreeNode}
    (h : kc.nextFrontier chk = .ok ns) :
    KeyCollection.nextFrontier { kc with depth := c'.dataBits } chk = .ok ns := by
  unfold KeyCollection.nextFrontier at h ⊢
  obtain ⟨cs, h1, h2⟩ := bind_eq_ok.1 h
  rw [mapE_laxer (fun _ _ _ => children_laxer hp hd) h1, ok_bind]
  exact h2

theorem levelAssert_laxer (hp : Permits c c') (hd : kc.depth = c.dataBits) {level : Nat}
    (h : kc.levelAssert c.build level = .ok ()) :
    KeyCollection.levelAssert c'.build { kc with depth := c'.dataBits } level = .ok () := by
  unfold KeyCollection.levelAssert at h ⊢
  cases hb' : c'.build with
  | release => rfl
  | debug =>
    cases hb : c.build with
    | release => have := hp.build hb; rw [hb'] at this; cases this
    | debug =>
      rw [hb] at h
      simp only at h ⊢
      rw [hd] at h
      cases hc : c.dataBits with
      | none => rw [hc] at h; cases h
      | some a =>
        obtain ⟨b, hbb, hab⟩ := hp.bits a hc
        rw [hc] at h
        rw [hbb]
        simp only [unwrapO, ok_bind] at h ⊢
        have h3 : level < a := by simpa using (debugAssert_eq_ok.1 h) rfl
        exact debugAssert_eq_ok.2 fun _ => by simp; omega

theorem checksForPrefix_laxer {b b' : Build} (hb : Laxer b b') {D : Option Nat} {level : Nat} {next : List TreeNode}
    {ni : TreeNode × Nat} {cs : List (List Field128)} (h : kc.checksForPrefix b level next ni = .ok cs) :
    KeyCollection.checksForPrefix { kc with depth := D } b' level next ni = .ok cs := by
  unfold KeyCollection.checksForPrefix at h ⊢
  obtain ⟨l, h1, h⟩ := bind_eq_ok.1 h
  obtain ⟨r, h2, h⟩ := bind_eq_ok.1 h
  obtain ⟨⟨⟩, h3, h⟩ := bind_eq_ok.1 h
  obtain ⟨⟨⟩, h4, h⟩ := bind_eq_ok.1 h
  rw [h1, ok_bind, h2, ok_bind, debugAssert_laxer hb h3, ok_bind, debugAssert_laxer hb h4, ok_bind]
  exact h

theorem crawlLevel_laxer (hp : Permits c c') (hd : kc.depth = c.dataBits) {r : List TreeNode × List Block}
    (h : kc.crawlLevel c.build = .ok r) :
    KeyCollection.crawlLevel c'.build { kc with depth := c'.dataBits } = .ok r := by
  unfold KeyCollection.crawlLevel at h ⊢
  obtain ⟨root, h1, h⟩ := bind_eq_ok.1 h
  dsimp only at h
  obtain ⟨⟨⟩, h2, h⟩ := bind_eq_ok.1 h
  obtain ⟨next, h3, h⟩ := bind_eq_ok.1 h
  obtain ⟨all, h4, h⟩ := bind_eq_ok.1 h
  have h4' : mapE (KeyCollection.checksForPrefix { kc with depth := c'.dataBits } c'.build root.path.length next)
      kc.frontier.zipIdx = .ok all := mapE_laxer (fun _ _ _ => checksForPrefix_laxer hp.build) h4
  dsimp only
  rw [h1, ok_bind, levelAssert_laxer hp hd h2, ok_bind, nextFrontier_laxer hp hd h3, ok_bind, h4', ok_bind]
  exact h

theorem crawlPrep_depth {D : Option Nat} {mal : List Nat} {l : Bool} {kc1 : KeyCollection P}
    (h : kc.crawlPrep mal l = .ok kc1) :
    kc1.depth = kc.depth ∧ KeyCollection.crawlPrep { kc with depth := D } mal l = .ok { kc1 with depth := D } := by
  unfold KeyCollection.crawlPrep at h ⊢
  split at h
  · rename_i hm
    rw [if_pos hm]
    cases h; exact ⟨rfl, rfl⟩
  · rename_i hm
    rw [if_neg hm]
    obtain ⟨rs, h1, h⟩ := bind_eq_ok.1 h
    cases h
    refine ⟨rfl, ?_⟩
    dsimp only
    rw [h1, ok_bind]

theorem treeCrawl_laxer (hp : Permits c c') (hd : kc.depth = c.dataBits) {s : Nat} {mal : List Nat} {l : Bool}
    {kc1 : KeyCollection P} {r : CrawlResp} (h : kc.treeCrawl c.build s mal l = .ok (kc1, r)) :
    kc1.depth = c.dataBits ∧ KeyCollection.treeCrawl c'.build { kc with depth := c'.dataBits } s mal l
      = .ok ({ kc1 with depth := c'.dataBits }, r) := by
  unfold KeyCollection.treeCrawl at h ⊢
  obtain ⟨kc2, h1, h⟩ := bind_eq_ok.1 h
  obtain ⟨⟨next, comb⟩, h2, h⟩ := bind_eq_ok.1 h
  obtain ⟨rs, h3, h⟩ := bind_eq_ok.1 h
  cases h
  obtain ⟨g1, g2⟩ := crawlPrep_depth (D := c'.dataBits) h1
  refine ⟨g1.trans hd, ?_⟩
  rw [g2, ok_bind, crawlLevel_laxer hp (g1.trans hd) h2, ok_bind]
  dsimp only
  rw [h3, ok_bind]

theorem runFlpQueries_laxer {b b' : Build} (hb : Laxer b b') {D : Option Nat} {s e : Nat} {vs : List (List Field128)}
    (h : kc.runFlpQueries b s e = .ok vs) :
    KeyCollection.runFlpQueries b' { kc with depth := D } s e = .ok vs := by
  unfold KeyCollection.runFlpQueries at h ⊢
  obtain ⟨root, h1, h⟩ := bind_eq_ok.1 h
  obtain ⟨⟨⟩, h2, h⟩ := bind_eq_ok.1 h
  obtain ⟨⟨⟩, h3, h⟩ := bind_eq_ok.1 h
  obtain ⟨nl, h4, h⟩ := bind_eq_ok.1 h
  obtain ⟨nr, h5, h⟩ := bind_eq_ok.1 h
  obtain ⟨⟨⟩, h6, h⟩ := bind_eq_ok.1 h
  have h4' : KeyCollection.makeTreeNode { kc with depth := D } root false = .ok nl := h4
  have h5' : KeyCollection.makeTreeNode { kc with depth := D } root true = .ok nr := h5
  rw [h1, ok_bind, h2, ok_bind, debugAssert_laxer hb h3, ok_bind, h4', ok_bind, h5', ok_bind,
    debugAssert_laxer hb h6, ok_bind]
  exact h

theorem rejectedCount_laxer {b b' : Build} (hb : Laxer b b') {s e o n : Nat} (h : rejectedCount b s e o = .ok n) :
    rejectedCount b' s e o = .ok n := by
  cases b' with
  | debug =>
    cases b with
    | release => cases hb rfl
    | debug => exact h
  | release =>
    cases b with
    | release => exact h
    | debug =>
      unfold rejectedCount at h ⊢
      split at h
      · rename_i hle; rw [if_pos hle]; exact h
      · cases h

theorem abmAggregate_perm {n m : Nat} {l l' : List (Nat × List (List Field128))} (h : l.Perm l') :
    abmAggregate n m l = abmAggregate n m l' := by
  have h0 := abmAggregate_isSum n m l
  have h1 := abmAggregate_isSum n m l'
  refine isTable_ext h0.1 h1.1 fun j hj k hk => ?_
  rw [h0.2 j hj k hk, h1.2 j hj k hk]
  exact ((h.map Prod.snd).map _).sum_eq

end

theorem preLock_laxer {c c' : ServerCfg} (hp : Permits c c') {r : Req} (h : preLock c r = .ok ()) :
    preLock c' r = .ok () := by
  cases r <;> first
    | exact debugAssert_laxer hp.build h
    | exact h

theorem locked_laxer {c c' : ServerCfg} (hp : Permits c c') {kc kc' kc1 : KeyCollection P} {r : Req} {a : Resp}
    (hk : Alike c c' kc kc') (hr : Neutral r ∨ c.build = c'.build) (h : locked c kc r = .ok (kc1, a)) :
    ∃ kc1', locked c' kc' r = .ok (kc1', a) ∧ Alike c c' kc1 kc1' := by
  obtain ⟨hd, rfl⟩ := hk
  cases r with
  | reset vk b =>
    obtain ⟨k, h1, h2⟩ := bind_eq_ok.1 h
    cases h2
    unfold srvReset at h1
    split at h1
    · rename_i hb
      cases h1
      refine ⟨_, ?_, rfl, rfl⟩
      simp only [locked, srvReset, hb, if_true, ok_bind, hp.id]
      rfl
    · cases h1
  | addReportShares rs =>
    cases h
    have hg : ∀ (rs : List ReportShare) (k : KeyCollection P), (srvAddReportShares k rs).depth = k.depth ∧
        srvAddReportShares { k with depth := c'.dataBits } rs
          = { srvAddReportShares k rs with depth := c'.dataBits } := by
      intro rs
      induction rs with
      | nil => intro k; exact ⟨rfl, rfl⟩
      | cons r rs ih => intro k; exact ih (k.addReportShare r)
    exact ⟨_, rfl, (hg rs kc).1.trans hd, (hg rs kc).2⟩
  | treeInit =>
    obtain ⟨k, h1, h2⟩ := bind_eq_ok.1 h
    cases h2
    unfold KeyCollection.treeInit at h1
    obtain ⟨ks, h3, h4⟩ := bind_eq_ok.1 h1
    cases h4
    refine ⟨_, ?_, hd, rfl⟩
    simp only [locked, KeyCollection.treeInit, h3, ok_bind]
  | treeCrawl s m l =>
    obtain ⟨⟨k, r⟩, h1, h2⟩ := bind_eq_ok.1 h
    cases h2
    obtain ⟨g1, g2⟩ := treeCrawl_laxer hp hd h1
    refine ⟨_, ?_, g1, rfl⟩
    simp only [locked, g2, ok_bind]
  | runFlpQueries s e =>
    obtain ⟨⟨⟩, h0, h⟩ := bind_eq_ok.1 h
    obtain ⟨vs, h1, h2⟩ := bind_eq_ok.1 h
    cases h2
    refine ⟨_, ?_, hd, rfl⟩
    simp only [locked, debugAssert_laxer hp.build h0, runFlpQueries_laxer hp.build h1, ok_bind]
  | applyFlpResults keep =>
    obtain ⟨k, h1, h2⟩ := bind_eq_ok.1 h
    cases h2
    unfold KeyCollection.applyFlpResults at h1
    obtain ⟨⟨⟩, h3, h1⟩ := bind_eq_ok.1 h1
    obtain ⟨rs, h4, h5⟩ := bind_eq_ok.1 h1
    cases h5
    refine ⟨_, ?_, hd, rfl⟩
    simp only [locked, KeyCollection.applyFlpResults]
    rw [h3, ok_bind, h4]; rfl
  | treeCrawlLast =>
    obtain ⟨⟨k, r⟩, h1, h2⟩ := bind_eq_ok.1 h
    cases h2
    unfold KeyCollection.treeCrawlLast at h1
    obtain ⟨next, h3, h1⟩ := bind_eq_ok.1 h1
    obtain ⟨pr, h4, h5⟩ := bind_eq_ok.1 h1
    cases h5
    refine ⟨_, ?_, hd, rfl⟩
    simp only [locked, KeyCollection.treeCrawlLast]
    rw [nextFrontier_laxer hp hd h3, ok_bind, h4]; rfl
  | getProofs s e =>
    obtain ⟨⟨⟩, h0, h⟩ := bind_eq_ok.1 h
    cases h
    refine ⟨_, ?_, hd, rfl⟩
    simp only [locked, debugAssert_laxer hp.build h0, ok_bind]
    rfl
  | treePrune keep =>
    obtain ⟨k, h1, h2⟩ := bind_eq_ok.1 h
    cases h2
    unfold KeyCollection.treePrune at h1
    obtain ⟨⟨⟩, h3, h1⟩ := bind_eq_ok.1 h1
    obtain ⟨fr, h4, h5⟩ := bind_eq_ok.1 h1
    cases h5
    refine ⟨_, ?_, hd, rfl⟩
    simp only [locked, KeyCollection.treePrune]
    rw [h3, ok_bind, h4]; rfl
  | finalShares =>
    cases h
    exact ⟨_, rfl, hd, rfl⟩
  | abmValidate at_ s e =>
    obtain ⟨⟨k, r⟩, h1, h2⟩ := bind_eq_ok.1 h
    cases h2
    unfold srvAbmValidate at h1
    obtain ⟨⟨⟩, h3, h1⟩ := bind_eq_ok.1 h1
    obtain ⟨rs, h4, h5⟩ := bind_eq_ok.1 h1
    cases h5
    have h4' : mapE (abmValidateClient { kc with depth := c'.dataBits } at_) (rangeFrom s e) = .ok rs := h4
    refine ⟨_, ?_, hd, rfl⟩
    simp only [locked, srvAbmValidate, h3, h4', ok_bind]
  | abmResult rej m s e =>
    have hb : c.build = c'.build := hr.resolve_left id
    obtain ⟨⟨k, r⟩, h1, h2⟩ := bind_eq_ok.1 h
    cases h2
    unfold srvAbmResult at h1
    obtain ⟨st, h3, h4⟩ := bind_eq_ok.1 h1
    cases h4
    rw [hb] at h3
    refine ⟨_, ?_, hd, rfl⟩
    simp only [locked, srvAbmResult, h3, ok_bind]
    rw [abmAggregate_perm ((c'.iter_perm st).trans (c.iter_perm st).symm)]
  | pmValidate s e =>
    obtain ⟨⟨k, r⟩, h1, h2⟩ := bind_eq_ok.1 h
    cases h2
    unfold srvPmValidate at h1
    obtain ⟨⟨⟩, h3, h1⟩ := bind_eq_ok.1 h1
    obtain ⟨ag, h4, h1⟩ := bind_eq_ok.1 h1
    split at h1
    · cases h1
    · rename_i hok
      obtain ⟨rs, h5, h6⟩ := bind_eq_ok.1 h1
      cases h6
      have h5' : mapE (pmValidateClient { kc with depth := c'.dataBits } ag) (rangeFrom s e) = .ok rs := h5
      refine ⟨_, ?_, hd, rfl⟩
      simp only [locked, srvPmValidate, hp.id, h3, h4, h5', ok_bind]
      rw [if_neg hok]; rfl
  | pmResult peers s e =>
    obtain ⟨⟨k, a, n⟩, h1, h2⟩ := bind_eq_ok.1 h
    cases h2
    unfold srvPmResult at h1
    split at h1
    · cases h1
    · rename_i hok
      obtain ⟨⟨m, outs⟩, h3, h1⟩ := bind_eq_ok.1 h1
      obtain ⟨rej, h4, h1⟩ := bind_eq_ok.1 h1
      obtain ⟨agg, h5, h6⟩ := bind_eq_ok.1 h1
      cases h6
      refine ⟨_, ?_, hd, rfl⟩
      simp only [locked, srvPmResult, hp.id]
      rw [if_neg hok, h3, ok_bind]
      dsimp only
      rw [rejectedCount_laxer hp.build h4, ok_bind, h5]; rfl

/-- Two server processes in the same state, but for the number of bits. -/
inductive AlikeSrv (c c' : ServerCfg) : Server P → Server P → Prop
  | running (kc kc' : KeyCollection P) (h : Alike c c' kc kc') : AlikeSrv c c' (.running kc) (.running kc')

theorem handle_laxer {c c' : ServerCfg} (hp : Permits c c') {s s' t : Server P} {r : Req} {a : Resp}
    (hs : AlikeSrv c c' s s') (hr : Neutral r ∨ c.build = c'.build) (h : s.handle c r = (t, .ok a)) :
    ∃ t', s'.handle c' r = (t', .ok a) ∧ AlikeSrv c c' t t' := by
  obtain ⟨kc, kc', hk⟩ := hs
  unfold Server.handle at h ⊢
  cases hpre : preLock c r with
  | error p => rw [hpre] at h; cases h
  | ok u =>
    rw [hpre] at h
    rw [preLock_laxer hp hpre]
    dsimp only at h ⊢
    cases hl : locked c kc r with
    | error p => rw [hl] at h; cases h
    | ok x =>
      obtain ⟨kc1, b⟩ := x
      rw [hl] at h
      cases h
      obtain ⟨kc1', g1, g2⟩ := locked_laxer hp hk hr hl
      rw [g1]
      exact ⟨_, rfl, .running _ _ g2⟩

theorem talk_laxer {α : Type} {c0 c1 c0' c1' : ServerCfg} (hp0 : Permits c0 c0') (hp1 : Permits c1 c1')
    {p : Prog α} {s0 s1 u0 u1 : Server P} {sent : List (Req × Req)} {a : α}
    (h : Spec.Talk c0 c1 p s0 s1 sent a u0 u1) : ∀ {s0' s1' : Server P}, AlikeSrv c0 c0' s0 s0' → AlikeSrv c1 c1' s1 s1' →
    (∀ r ∈ sent, (Neutral r.1 ∨ c0.build = c0'.build) ∧ (Neutral r.2 ∨ c1.build = c1'.build)) →
    ∃ u0' u1', Spec.Talk c0' c1' p s0' s1' sent a u0' u1' := by
  induction h with
  | ret a s0 s1 => intro s0' s1' _ _ _; exact ⟨_, _, .ret _ _ _⟩
  | ask r0 r1 k s0 s1 t0 t1 u0 u1 a0 a1 sent a h0 h1 h ih =>
    intro s0' s1' g0 g1 hn
    obtain ⟨t0', e0, f0⟩ := handle_laxer hp0 g0 (hn _ (List.mem_cons_self ..)).1 h0
    obtain ⟨t1', e1, f1⟩ := handle_laxer hp1 g1 (hn _ (List.mem_cons_self ..)).2 h1
    obtain ⟨u0', u1', ht⟩ := ih f0 f1 fun r hr => hn r (List.mem_cons_of_mem _ hr)
    exact ⟨u0', u1', .ask _ _ _ _ _ _ _ _ _ _ _ _ _ e0 e1 ht⟩

/-- A run has one outcome. -/
theorem talk_unique {α : Type} {c0 c1 : ServerCfg} {p : Prog α} {s0 s1 u0 u1 u0' u1' : Server P}
    {sent sent' : List (Req × Req)} {a a' : α} (h : Spec.Talk c0 c1 p s0 s1 sent a u0 u1)
    (h' : Spec.Talk c0 c1 p s0 s1 sent' a' u0' u1') : sent = sent' ∧ a = a' := by
  induction h generalizing sent' a' u0' u1' with
  | ret a s0 s1 => cases h'; exact ⟨rfl, rfl⟩
  | ask r0 r1 k s0 s1 t0 t1 u0 u1 a0 a1 sent a h0 h1 h ih =>
    cases h' with
    | ask _ _ _ _ _ t0' t1' _ _ a0' a1' sent' _ h0' h1' h' =>
      rw [h0] at h0'; rw [h1] at h1'
      cases h0'; cases h1'
      obtain ⟨e1, e2⟩ := ih h'
      exact ⟨by rw [e1], e2⟩

/-! ### The driver -/

/-- The second driver does the same unless the first panics, and all requests are of the given kind. -/
def Softer {α : Type} (Q : Req → Prop) : Prog α → Prog α → Prop
  | .panic _, _ => True
  | .ret a, p' => p' = .ret a
  | .ask r0 r1 k, p' => Q r0 ∧ Q r1 ∧ ∃ k', p' = .ask r0 r1 k' ∧ ∀ a b, Softer Q (k a b) (k' a b)

section

variable {α β : Type} {Q : Req → Prop}

theorem softer_ret (a : α) : Softer Q (.ret a) (.ret a) := rfl

theorem softer_panic (e : Panic) (p : Prog α) : Softer Q (.panic e) p := trivial

theorem softer_bind {f f' : α → Prog β} (hf : ∀ a, Softer Q (f a) (f' a)) : ∀ {p p' : Prog α}, Softer Q p p' →
    Softer Q (p >>= f) (p' >>= f')
  | .panic _, _, _ => trivial
  | .ret a, p', h => by
    cases (show p' = .ret a from h)
    exact hf a
  | .ask r0 r1 k, p', h => by
    obtain ⟨h0, h1, k', rfl, hk⟩ := h
    exact ⟨h0, h1, fun a b => (k' a b).bind f', rfl, fun a b => softer_bind hf (hk a b)⟩

theorem softer_step {e e' : Exec α} {f f' : α → Prog β} (he : ∀ a, e = .ok a → e' = .ok a)
    (hf : ∀ a, Softer Q (f a) (f' a)) : Softer Q (Prog.lift e >>= f) (Prog.lift e' >>= f') := by
  refine softer_bind hf ?_
  cases e with
  | error p => exact trivial
  | ok a => rw [he a rfl]; exact rfl

theorem softer_same {e : Exec α} {f f' : α → Prog β} (hf : ∀ a, Softer Q (f a) (f' a)) :
    Softer Q (Prog.lift e >>= f) (Prog.lift e >>= f') := softer_step (fun _ h => h) hf

theorem softer_ask {r0 r1 : Req} {k : Resp → Resp → Prog α} (h0 : Q r0) (h1 : Q r1)
    (hk : ∀ a b, Softer Q (k a b) (k a b)) : Softer Q (.ask r0 r1 k) (.ask r0 r1 k) := ⟨h0, h1, k, rfl, hk⟩

theorem softer_done {r0 r1 : Req} (h0 : Q r0) (h1 : Q r1) : Softer Q (callDone r0 r1) (callDone r0 r1) :=
  softer_ask h0 h1 fun a b => by cases a <;> cases b <;> first | exact trivial | exact rfl

theorem softer_crawl {r0 r1 : Req} (h0 : Q r0) (h1 : Q r1) : Softer Q (callCrawl r0 r1) (callCrawl r0 r1) :=
  softer_ask h0 h1 fun a b => by cases a <;> cases b <;> first | exact trivial | exact rfl

theorem softer_vecs {r0 r1 : Req} (h0 : Q r0) (h1 : Q r1) : Softer Q (callVecs r0 r1) (callVecs r0 r1) :=
  softer_ask h0 h1 fun a b => by cases a <;> cases b <;> first | exact trivial | exact rfl

theorem softer_proofs {r0 r1 : Req} (h0 : Q r0) (h1 : Q r1) : Softer Q (callProofs r0 r1) (callProofs r0 r1) :=
  softer_ask h0 h1 fun a b => by cases a <;> cases b <;> first | exact trivial | exact rfl

theorem softer_shares {r0 r1 : Req} (h0 : Q r0) (h1 : Q r1) : Softer Q (callShares r0 r1) (callShares r0 r1) :=
  softer_ask h0 h1 fun a b => by cases a <;> cases b <;> first | exact trivial | exact rfl

theorem softer_validated {r0 r1 : Req} (h0 : Q r0) (h1 : Q r1) :
    Softer Q (callValidated r0 r1) (callValidated r0 r1) :=
  softer_ask h0 h1 fun a b => by cases a <;> cases b <;> first | exact trivial | exact rfl

theorem softer_bytes {r0 r1 : Req} (h0 : Q r0) (h1 : Q r1) : Softer Q (callBytes r0 r1) (callBytes r0 r1) :=
  softer_ask h0 h1 fun a b => by cases a <;> cases b <;> first | exact trivial | exact rfl

theorem softer_aggregate {r0 r1 : Req} (h0 : Q r0) (h1 : Q r1) :
    Softer Q (callAggregate r0 r1) (callAggregate r0 r1) :=
  softer_ask h0 h1 fun a b => by cases a <;> cases b <;> first | exact trivial | exact rfl

end

theorem softer_await (reports : List PlaintextReport) : ∀ bs : List (List (Nat × Option Tamper)),
    Softer Neutral (awaitAllP reports bs) (awaitAllP reports bs)
  | [] => softer_ret ()
  | b :: bs => by
    have h : Softer Neutral (addReportsP reports b) (addReportsP reports b) :=
      softer_same fun sh => softer_done trivial trivial
    exact softer_bind (fun _ => softer_await reports bs) h

theorem softer_upload (cfg : Config) (draw : MainDraw) (reports : List PlaintextReport) (n : Nat) :
    Softer Neutral (mainUploadP cfg draw reports n) (mainUploadP cfg draw reports n) := by
  unfold mainUploadP
  split
  · exact softer_panic _ _
  · exact softer_same fun sizes => softer_await _ _

theorem softer_flpLoop {b b' : Build} (hb : Laxer b b') (cfg : Config) (n : Nat) : ∀ (fuel start : Nat)
    (keep : List Bool), Softer Neutral (flpLoopP P b cfg n fuel start keep) (flpLoopP P b' cfg n fuel start keep)
  | 0, start, keep => by
    unfold flpLoopP
    split
    · exact softer_panic _ _
    · exact softer_ret _
  | fuel + 1, start, keep => by
    unfold flpLoopP
    split
    · refine softer_bind (fun v => ?_) (softer_vecs trivial trivial)
      exact softer_step (fun _ => debugAssert_laxer hb) fun _ => softer_same fun ks => softer_flpLoop hb cfg n fuel _ _
    · exact softer_ret _

theorem softer_levelLoop (cfg : Config) (n : Nat) : ∀ (fuel : Nat) (req : CrawlReq),
    Softer Neutral (levelLoopP cfg n fuel req) (levelLoopP cfg n fuel req)
  | 0, _ => softer_panic _ _
  | fuel + 1, req => by
    unfold levelLoopP
    refine softer_bind (fun r => ?_) (softer_crawl trivial trivial)
    refine softer_same fun _ => softer_same fun keep => ?_
    split
    · exact softer_ret _
    · refine softer_same fun mal => ?_
      split
      · exact softer_ret _
      · split
        · split
          · exact softer_ret _
          · exact softer_levelLoop cfg n fuel _
        · exact softer_levelLoop cfg n fuel _

theorem softer_proofLoop (cfg : Config) (n : Nat) : ∀ (fuel start : Nat),
    Softer Neutral (proofLoopP cfg n fuel start) (proofLoopP cfg n fuel start)
  | 0, start => by
    unfold proofLoopP
    split
    · exact softer_panic _ _
    · exact softer_ret _
  | fuel + 1, start => by
    unfold proofLoopP
    split
    · refine softer_bind (fun v => ?_) (softer_proofs trivial trivial)
      exact softer_same fun _ => softer_same fun _ => softer_proofLoop cfg n fuel _
    · exact softer_ret _

theorem softer_levels {b b' : Build} (hb : Laxer b b') (cfg : Config) (n : Nat) : ∀ ls : List Nat,
    Softer Neutral (levelsP P b cfg n ls) (levelsP P b' cfg n ls)
  | [] => softer_ret _
  | l :: ls => by
    have e : ∀ b, levelsP P b cfg n (l :: ls) = ((if l = 0 then flpP P b cfg n else .ret ()) >>= fun _ =>
        levelP cfg n >>= fun _ => levelsP P b cfg n ls) := by
      intro b
      rw [levelsP]
      split <;> rfl
    rw [e, e]
    refine softer_bind (fun _ => softer_bind (fun _ => softer_levels hb cfg n ls) ?_) ?_
    · exact softer_bind (fun keep => softer_done trivial trivial) (softer_levelLoop cfg n _ _)
    · split
      · exact softer_bind (fun keep => softer_done trivial trivial) (softer_flpLoop hb cfg n _ _ _)
      · exact softer_ret _

theorem softer_last (cfg : Config) (n : Nat) : Softer Neutral (levelLastP cfg n) (levelLastP cfg n) := by
  refine softer_bind (fun v => ?_) (softer_vecs trivial trivial)
  refine softer_same fun _ => softer_same fun keep => ?_
  refine softer_bind (fun _ => ?_) (softer_proofLoop cfg n _ _)
  refine softer_bind (fun _ => ?_) (softer_done trivial trivial)
  refine softer_bind (fun sh => ?_) (softer_shares trivial trivial)
  exact softer_same fun _ => softer_same fun _ => softer_same fun _ => softer_ret _

theorem levelCount_laxer {b b' : Build} (hb : Laxer b b') {d : Option Nat} {m : Nat} (h : levelCount b d = .ok m) :
    levelCount b' d = .ok m := by
  cases b' with
  | debug =>
    cases b with
    | release => cases hb rfl
    | debug => exact h
  | release =>
    cases b with
    | release => exact h
    | debug =>
      unfold levelCount at h ⊢
      cases d with
      | none => cases h
      | some d =>
        simp only [unwrapO, ok_bind] at h ⊢
        split at h
        · cases h
        · rename_i hd; rw [if_neg hd]; exact h

theorem softer_whh {b b' : Build} (hb : Laxer b b') (cfg : Config) (n : Nat) :
    Softer Neutral (whhP P b cfg n) (whhP P b' cfg n) := by
  refine softer_bind (fun _ => ?_) (softer_done trivial trivial)
  refine softer_step (fun _ => levelCount_laxer hb) fun levels => ?_
  exact softer_bind (fun _ => softer_last cfg n) (softer_levels hb cfg n _)

theorem softer_pmLoop (cfg : Config) : ∀ rs : List (Nat × Nat), Softer Neutral (pmLoopP P cfg rs) (pmLoopP P cfg rs)
  | [] => softer_ret _
  | r :: rs => by
    have h : Softer Neutral (pmBatchP P cfg r) (pmBatchP P cfg r) := by
      refine softer_bind (fun v => ?_) (softer_bytes trivial trivial)
      refine softer_same fun _ => softer_same fun _ => ?_
      refine softer_bind (fun a => ?_) (softer_aggregate trivial trivial)
      exact softer_same fun _ => softer_same fun _ => softer_ret _
    exact softer_bind (fun o => softer_bind (fun os => softer_ret _) (softer_pmLoop cfg rs)) h

theorem softer_refl {α : Type} : ∀ p : Prog α, Softer (fun _ => True) p p
  | .panic _ => trivial
  | .ret _ => rfl
  | .ask _ _ k => ⟨trivial, trivial, k, rfl, fun a b => softer_refl (k a b)⟩

theorem softer_mono {α : Type} {Q Q' : Req → Prop} (h : ∀ r, Q r → Q' r) : ∀ {p p' : Prog α}, Softer Q p p' →
    Softer Q' p p'
  | .panic _, _, _ => trivial
  | .ret _, _, e => e
  | .ask _ _ k, _, ⟨h0, h1, k', e, hk⟩ => ⟨h _ h0, h _ h1, k', e, fun a b => softer_mono h (hk a b)⟩

/-- The requests of a mode. -/
def Fit (mode : DriverMode) (r : Req) : Prop := (∀ m, mode ≠ .attributeBasedMetrics m) → Neutral r

theorem softer_collect {b b' : Build} (hb : Laxer b b') (cfg : Config) (mode : DriverMode) (draw : MainDraw) (n : Nat)
    (reports : List PlaintextReport) :
    Softer (Fit mode) (collectP P b cfg mode draw n reports) (collectP P b' cfg mode draw n reports) := by
  cases mode with
  | weightedHeavyHitters => exact softer_mono (fun _ h _ => h) (softer_whh hb cfg n)
  | attributeBasedMetrics m =>
    exact softer_mono (fun r _ h => absurd rfl (h m)) (softer_refl _)
  | plainMetrics =>
    refine softer_mono (Q := Neutral) (fun _ h _ => h) ?_
    unfold collectP
    dsimp only
    split
    · exact softer_panic _ _
    · exact softer_same fun rs => softer_bind (fun _ => softer_ret _) (softer_pmLoop cfg rs)

theorem softer_main {b b' : Build} (hb : Laxer b b') (cfg : Config) (mode : DriverMode) (draw : MainDraw) (n : Nat) :
    Softer (Fit mode) (mainP P b cfg mode draw n) (mainP P b' cfg mode draw n) := by
  unfold mainP
  refine softer_same fun _ => ?_
  split
  · exact softer_panic _ _
  · refine softer_same fun reports => ?_
    refine softer_bind (fun _ => ?_) (softer_done (fun _ => trivial) (fun _ => trivial))
    exact softer_bind (fun _ => softer_collect hb cfg mode draw n reports)
      (softer_mono (fun _ h _ => h) (softer_upload cfg draw reports n))

theorem talk_softer {α : Type} {c0 c1 : ServerCfg} {Q : Req → Prop} {p p' : Prog α} {s0 s1 u0 u1 : Server P}
    {sent : List (Req × Req)} {a : α} (h : Spec.Talk c0 c1 p s0 s1 sent a u0 u1) (hp : Softer Q p p') :
    Spec.Talk c0 c1 p' s0 s1 sent a u0 u1 ∧ ∀ r ∈ sent, Q r.1 ∧ Q r.2 := by
  induction h generalizing p' with
  | ret a s0 s1 =>
    cases (show p' = .ret a from hp)
    exact ⟨.ret _ _ _, by simp⟩
  | ask r0 r1 k s0 s1 t0 t1 u0 u1 a0 a1 sent a h0 h1 h ih =>
    obtain ⟨q0, q1, k', rfl, hk⟩ := hp
    obtain ⟨g1, g2⟩ := ih (hk a0 a1)
    refine ⟨.ask _ _ _ _ _ _ _ _ _ _ _ _ _ h0 h1 g1, fun r hr => ?_⟩
    rcases List.mem_cons.1 hr with rfl | hr
    · exact ⟨q0, q1⟩
    · exact g2 r hr

end Mastic
