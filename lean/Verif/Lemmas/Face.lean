import Verif.Lemmas.Script
import Verif.Lemmas.Collect
import Verif.Lemmas.Vec
import Verif.Spec.Deviate

/-!
# The driver with one server that runs the code and one that answers anything

`Faces b c p s t a`: the process `p` ends with `a` for some answers of server `b`, while the other server runs the code
from state `s` to state `t`.
-/

namespace Mastic

variable {P : Prims} {c : ServerCfg} {b : Bool} {α β : Type}

/-- See the head of the file. -/
inductive Faces (b : Bool) (c : ServerCfg) : Prog α → Server P → Server P → α → Prop where
  | ret (a : α) (s : Server P) : Faces b c (.ret a) s s a
  | ask {r0 r1 : Req} {k : Resp → Resp → Prog α} {s s' t : Server P} {x y : Resp} {a : α}
      (h : s.handle c (Pair.get (r0, r1) !b) = (s', .ok (Pair.get (x, y) !b))) (hk : Faces b c (k x y) s' t a) :
      Faces b c (.ask r0 r1 k) s t a

/-- Every run against a server that answers as it likes is of this form. -/
theorem faces_of_against {lie : List Req → Resp} {a : α} : ∀ {p : Prog α} {s : Server P} {got : List Req},
    (Spec.against b c lie p s got).2 = some a → ∃ t, Faces b c p s t a
  | .ret x, s, got, h => by
    simp only [Spec.against, Option.some.injEq] at h
    subst h
    exact ⟨s, .ret _ _⟩
  | .panic e, s, got, h => by simp [Spec.against] at h
  | .ask r0 r1 k, s, got, h => by
    rw [Spec.against] at h
    split at h
    · rename_i s' x hx
      obtain ⟨t, ht⟩ := faces_of_against h
      refine ⟨t, .ask ?_ ht⟩
      rw [hx]
      cases b <;> rfl
    · cases h

theorem faces_bind {f : α → Prog β} {s t : Server P} {y : β} : ∀ {p : Prog α},
    Faces b c (p >>= f) s t y → ∃ x u, Faces b c p s u x ∧ Faces b c (f x) u t y := by
  intro p
  induction p generalizing s with
  | ret x => exact fun h => ⟨x, s, .ret _ _, h⟩
  | panic e => intro h; cases h
  | ask r0 r1 k ih =>
    intro h
    cases h with
    | ask hs hk =>
      obtain ⟨x, u, h1, h2⟩ := ih _ _ hk
      exact ⟨x, u, .ask hs h1, h2⟩

theorem faces_ret {s t : Server P} {x a : α} (h : Faces b c (.ret x) s t a) : t = s ∧ x = a := by
  cases h
  exact ⟨rfl, rfl⟩

theorem faces_lift {e : Exec α} {s t : Server P} {a : α} (h : Faces b c (Prog.lift e) s t a) : t = s ∧ e = .ok a := by
  cases e with
  | error e => cases h
  | ok x =>
    obtain ⟨rfl, rfl⟩ := faces_ret h
    exact ⟨rfl, rfl⟩

/-- The honest server's side of a request. -/
theorem faces_running {kc : KeyCollection P} {s : Server P} {r0 r1 : Req} {a : Resp}
    (h : (Server.running kc).handle c (Pair.get (r0, r1) !b) = (s, .ok a)) :
    ∃ kc', s = .running kc' ∧ locked c kc (Pair.get (r0, r1) !b) = .ok (kc', a) := (talk_step_ok h).2

theorem faces_done {kc : KeyCollection P} {r : Req} {t : Server P} {u : Unit}
    (h : Faces b c (callDone r r) (.running kc) t u) : ∃ kc', t = .running kc' ∧ locked c kc r = .ok (kc', .done) := by
  unfold callDone at h
  cases h with
  | @ask _ _ _ _ s' _ x y _ hs hk =>
    dsimp only at hk
    split at hk
    · cases hk
      obtain ⟨kc', rfl, e⟩ := faces_running hs
      refine ⟨kc', rfl, ?_⟩
      cases b <;> exact e
    · cases hk

theorem faces_crawl {kc : KeyCollection P} {r : Req} {t : Server P} {v : CrawlResp × CrawlResp}
    (h : Faces b c (callCrawl r r) (.running kc) t v) :
    ∃ kc', t = .running kc' ∧ locked c kc r = .ok (kc', .crawl (Pair.get v !b)) := by
  unfold callCrawl at h
  cases h with
  | @ask _ _ _ _ s' _ x y _ hs hk =>
    dsimp only at hk
    split at hk
    · cases hk
      obtain ⟨kc', rfl, e⟩ := faces_running hs
      refine ⟨kc', rfl, ?_⟩
      cases b <;> exact e
    · cases hk

theorem faces_vecs {kc : KeyCollection P} {r : Req} {t : Server P} {v : List (List Field128) × List (List Field128)}
    (h : Faces b c (callVecs r r) (.running kc) t v) :
    ∃ kc', t = .running kc' ∧ locked c kc r = .ok (kc', .fieldVecs (Pair.get v !b)) := by
  unfold callVecs at h
  cases h with
  | @ask _ _ _ _ s' _ x y _ hs hk =>
    dsimp only at hk
    split at hk
    · cases hk
      obtain ⟨kc', rfl, e⟩ := faces_running hs
      refine ⟨kc', rfl, ?_⟩
      cases b <;> exact e
    · cases hk

theorem faces_proofs {kc : KeyCollection P} {r : Req} {t : Server P} {v : List Block × List Block}
    (h : Faces b c (callProofs r r) (.running kc) t v) :
    ∃ kc', t = .running kc' ∧ locked c kc r = .ok (kc', .proofs (Pair.get v !b)) := by
  unfold callProofs at h
  cases h with
  | @ask _ _ _ _ s' _ x y _ hs hk =>
    dsimp only at hk
    split at hk
    · cases hk
      obtain ⟨kc', rfl, e⟩ := faces_running hs
      refine ⟨kc', rfl, ?_⟩
      cases b <;> exact e
    · cases hk

theorem faces_shares {kc : KeyCollection P} {r : Req} {t : Server P} {v : List HHResult × List HHResult}
    (h : Faces b c (callShares r r) (.running kc) t v) :
    ∃ kc', t = .running kc' ∧ locked c kc r = .ok (kc', .shares (Pair.get v !b)) := by
  unfold callShares at h
  cases h with
  | @ask _ _ _ _ s' _ x y _ hs hk =>
    dsimp only at hk
    split at hk
    · cases hk
      obtain ⟨kc', rfl, e⟩ := faces_running hs
      refine ⟨kc', rfl, ?_⟩
      cases b <;> exact e
    · cases hk

/-! ### The strings of the frontier -/

/-- All strings have `m` bits, and they come in the order of the tree and once each. -/
def Ranked (m : Nat) (l : List TreeNode) : Prop := (l.map TreeNode.path).Sublist (Spec.allPaths m)

theorem ranked_select {m : Nat} {l : List TreeNode} (h : Ranked m l) (keep : List Bool) : Ranked m (Spec.select keep l) := by
  refine List.Sublist.trans (List.Sublist.map _ ?_) h
  unfold Spec.select
  induction l generalizing keep with
  | nil => simp
  | cons x l ih =>
    cases keep with
    | nil => simp
    | cons k keep =>
      have h' : Ranked m l := (List.sublist_cons_self x.path _).trans h
      rw [List.zip_cons_cons, List.filterMap_cons]
      cases k
      · exact (ih h' keep).cons x
      · exact (ih h' keep).cons_cons x

theorem children_paths {kc : KeyCollection P} {check : Bool} {node : TreeNode} {l : List TreeNode}
    (h : kc.children check node = .ok l) : l.map TreeNode.path = [node.path ++ [false], node.path ++ [true]] := by
  have key : ∀ {dir : Bool} {x : TreeNode}, kc.makeTreeNode node dir = .ok x → x.path = node.path ++ [dir] := by
    intro dir x hx
    unfold KeyCollection.makeTreeNode at hx
    obtain ⟨evs, -, hx⟩ := bind_eq_ok.1 hx
    cases hx
    rfl
  unfold KeyCollection.children at h
  have h : (kc.makeTreeNode node false >>= fun c0 => kc.makeTreeNode node true >>= fun c1 => .ok [c0, c1]) = .ok l := by
    cases check
    · exact h
    · obtain ⟨d, -, h⟩ := bind_eq_ok.1 h
      obtain ⟨u, -, h⟩ := bind_eq_ok.1 h
      exact h
  obtain ⟨x, hx, h⟩ := bind_eq_ok.1 h
  obtain ⟨y, hy, h⟩ := bind_eq_ok.1 h
  cases h
  rw [List.map_cons, List.map_cons, List.map_nil, key hx, key hy]

theorem nextFrontier_ranked {m : Nat} {kc : KeyCollection P} {check : Bool} {l : List TreeNode} (hr : Ranked m kc.frontier)
    (h : kc.nextFrontier check = .ok l) : Ranked (m + 1) l := by
  unfold KeyCollection.nextFrontier at h
  obtain ⟨cs, hc, h⟩ := bind_eq_ok.1 h
  cases h
  have key : ∀ (fr : List TreeNode) (cs : List (List TreeNode)), mapE (kc.children check) fr = .ok cs →
      cs.flatten.map TreeNode.path = (fr.map TreeNode.path).flatMap fun q => [q ++ [false], q ++ [true]] := by
    intro fr
    induction fr with
    | nil =>
      intro cs h
      cases h
      rfl
    | cons x fr ih =>
      intro cs h
      rw [mapE_cons] at h
      obtain ⟨y, hy, h⟩ := bind_eq_ok.1 h
      obtain ⟨ys, hys, h⟩ := bind_eq_ok.1 h
      cases h
      rw [List.flatten_cons, List.map_append, children_paths hy, ih ys hys, List.map_cons, List.flatMap_cons]
  unfold Ranked
  rw [key _ _ hc, Spec.allPaths]
  exact List.Sublist.flatMap hr _

theorem treeCrawl_ranked {m : Nat} {bld : Build} {kc kc' : KeyCollection P} {sp : Nat} {mal : List Nat} {last : Bool} {a : CrawlResp}
    (hr : Ranked m (if mal.isEmpty then kc.frontier else kc.prevFrontier))
    (h : kc.treeCrawl bld sp mal last = .ok (kc', a)) : Ranked m kc'.prevFrontier ∧ Ranked (m + 1) kc'.frontier := by
  unfold KeyCollection.treeCrawl at h
  obtain ⟨k, hp, h⟩ := bind_eq_ok.1 h
  obtain ⟨⟨next, comb⟩, hl, h⟩ := bind_eq_ok.1 h
  obtain ⟨rs, -, h⟩ := bind_eq_ok.1 h
  cases h
  have hk : Ranked m k.frontier := by
    unfold KeyCollection.crawlPrep at hp
    split at hp
    · rename_i he
      cases hp
      rwa [if_pos he] at hr
    · rename_i he
      obtain ⟨rep, -, hp⟩ := bind_eq_ok.1 hp
      cases hp
      rwa [if_neg he] at hr
  refine ⟨hk, ?_⟩
  unfold KeyCollection.crawlLevel at hl
  obtain ⟨root, -, hl⟩ := bind_eq_ok.1 hl
  obtain ⟨u, -, hl⟩ := bind_eq_ok.1 hl
  obtain ⟨nx, hn, hl⟩ := bind_eq_ok.1 hl
  obtain ⟨ch, -, hl⟩ := bind_eq_ok.1 hl
  obtain ⟨cm, -, hl⟩ := bind_eq_ok.1 hl
  cases hl
  exact nextFrontier_ranked hk hn

theorem faces_prune {m : Nat} {kc : KeyCollection P} {keep : List Bool} {t : Server P} {u : Unit} (hr : Ranked m kc.frontier)
    (h : Faces b c (callDone (.treePrune keep) (.treePrune keep)) (.running kc) t u) :
    ∃ kc', t = .running kc' ∧ Ranked m kc'.frontier := by
  obtain ⟨kc', rfl, e⟩ := faces_done h
  refine ⟨kc', rfl, ?_⟩
  obtain ⟨k, hk, e⟩ := bind_eq_ok.1 e
  cases e
  rw [treePrune_spec] at hk
  split at hk
  · cases hk
    exact ranked_select hr keep
  · cases hk

theorem faces_levelLoop {m n : Nat} {cfg : Config} : ∀ {fuel : Nat} {req : CrawlReq} {kc : KeyCollection P} {t : Server P}
    {keep : List Bool}, Ranked m (if req.malicious.isEmpty then kc.frontier else kc.prevFrontier) →
    Faces b c (levelLoopP cfg n fuel req) (.running kc) t keep →
    ∃ kc', t = .running kc' ∧ Ranked (m + 1) kc'.frontier
  | 0, req, kc, t, keep, hr, h => by cases h
  | fuel + 1, req, kc, t, keep, hr, h => by
    rw [levelLoopP] at h
    obtain ⟨r, s1, h1, h⟩ := faces_bind h
    obtain ⟨u1, s2, h2, h⟩ := faces_bind h
    obtain ⟨ks, s3, h3, h⟩ := faces_bind h
    obtain ⟨k1, rfl, e⟩ := faces_crawl h1
    obtain ⟨⟨k, a⟩, hc, e⟩ := bind_eq_ok.1 e
    cases e
    obtain ⟨rp, rf⟩ := treeCrawl_ranked hr hc
    obtain ⟨rfl, -⟩ := faces_lift h2
    obtain ⟨rfl, -⟩ := faces_lift h3
    split at h
    · obtain ⟨rfl, -⟩ := faces_ret h
      exact ⟨_, rfl, rf⟩
    obtain ⟨mal, s4, h4, h⟩ := faces_bind h
    obtain ⟨rfl, -⟩ := faces_lift h4
    split at h
    · obtain ⟨rfl, -⟩ := faces_ret h
      exact ⟨_, rfl, rf⟩
    rename_i hm
    split at h
    · split at h
      · obtain ⟨rfl, -⟩ := faces_ret h
        exact ⟨_, rfl, rf⟩
      · exact faces_levelLoop (m := m) (by rw [if_neg hm]; exact rp) h
    · exact faces_levelLoop (m := m) (by rw [if_neg hm]; exact rp) h

theorem faces_level {m n : Nat} {cfg : Config} {kc : KeyCollection P} {t : Server P} {u : Unit} (hr : Ranked m kc.frontier)
    (h : Faces b c (levelP cfg n) (.running kc) t u) : ∃ kc', t = .running kc' ∧ Ranked (m + 1) kc'.frontier := by
  unfold levelP at h
  obtain ⟨keep, s1, h1, h⟩ := faces_bind h
  obtain ⟨k1, rfl, r1⟩ := faces_levelLoop hr h1
  exact faces_prune r1 h

theorem faces_flpLoop {n : Nat} {bld : Build} {cfg : Config} : ∀ {fuel start : Nat} {ks keep : List Bool}
    {kc : KeyCollection P} {t : Server P}, Faces b c (flpLoopP P bld cfg n fuel start ks) (.running kc) t keep →
    t = .running kc
  | 0, start, ks, keep, kc, t, h => by
    rw [flpLoopP] at h
    split at h
    · cases h
    · exact (faces_ret h).1
  | fuel + 1, start, ks, keep, kc, t, h => by
    rw [flpLoopP] at h
    split at h
    · obtain ⟨v, s1, h1, h⟩ := faces_bind h
      obtain ⟨u2, s2, h2, h⟩ := faces_bind h
      obtain ⟨ks3, s3, h3, h⟩ := faces_bind h
      obtain ⟨k1, rfl, e⟩ := faces_vecs h1
      obtain ⟨u, -, e⟩ := bind_eq_ok.1 e
      obtain ⟨r, -, e⟩ := bind_eq_ok.1 e
      cases e
      obtain ⟨rfl, -⟩ := faces_lift h2
      obtain ⟨rfl, -⟩ := faces_lift h3
      exact faces_flpLoop h
    · exact (faces_ret h).1

theorem faces_flp {m n : Nat} {bld : Build} {cfg : Config} {kc : KeyCollection P} {t : Server P} {u : Unit} (hr : Ranked m kc.frontier)
    (h : Faces b c (flpP P bld cfg n) (.running kc) t u) : ∃ kc', t = .running kc' ∧ Ranked m kc'.frontier := by
  unfold flpP at h
  obtain ⟨keep, s1, h1, h⟩ := faces_bind h
  obtain rfl := faces_flpLoop h1
  obtain ⟨kc', rfl, e⟩ := faces_done h
  obtain ⟨k, hk, e⟩ := bind_eq_ok.1 e
  cases e
  unfold KeyCollection.applyFlpResults at hk
  obtain ⟨u, -, hk⟩ := bind_eq_ok.1 hk
  obtain ⟨r, -, hk⟩ := bind_eq_ok.1 hk
  cases hk
  exact ⟨_, rfl, hr⟩

theorem faces_levels {n : Nat} {bld : Build} {cfg : Config} : ∀ {ls : List Nat} {m : Nat} {kc : KeyCollection P} {t : Server P}
    {u : Unit}, Ranked m kc.frontier → Faces b c (levelsP P bld cfg n ls) (.running kc) t u →
    ∃ kc', t = .running kc' ∧ Ranked (m + ls.length) kc'.frontier
  | [], m, kc, t, u, hr, h => by
    rw [levelsP] at h
    obtain ⟨rfl, -⟩ := faces_ret h
    exact ⟨kc, rfl, hr⟩
  | l :: ls, m, kc, t, u, hr, h => by
    have h : Faces b c ((if l = 0 then flpP P bld cfg n else .ret ()) >>= fun _ => levelP cfg n >>= fun _ =>
        levelsP P bld cfg n ls) (.running kc) t u := by
      rw [levelsP] at h
      split at h
      · rename_i hl
        rw [if_pos hl]
        exact h
      · rename_i hl
        rw [if_neg hl]
        exact h
    obtain ⟨u1, s1, h1, h⟩ := faces_bind h
    obtain ⟨u2, s2, h2, h⟩ := faces_bind h
    obtain ⟨k1, rfl, r1⟩ : ∃ kc', s1 = .running kc' ∧ Ranked m kc'.frontier := by
      split at h1
      · exact faces_flp hr h1
      · obtain ⟨rfl, -⟩ := faces_ret h1
        exact ⟨kc, rfl, hr⟩
    obtain ⟨k2, rfl, r2⟩ := faces_level r1 h2
    obtain ⟨k3, rfl, r3⟩ := faces_levels r2 h
    refine ⟨k3, rfl, ?_⟩
    rw [List.length_cons, show m + (ls.length + 1) = m + 1 + ls.length by omega]
    exact r3

theorem faces_proofLoop {n : Nat} {cfg : Config} : ∀ {fuel start : Nat}
    {kc : KeyCollection P} {t : Server P} {u : Unit}, Faces b c (proofLoopP cfg n fuel start) (.running kc) t u →
    t = .running kc
  | 0, start, kc, t, u, h => by
    rw [proofLoopP] at h
    split at h
    · cases h
    · exact (faces_ret h).1
  | fuel + 1, start, kc, t, u, h => by
    rw [proofLoopP] at h
    split at h
    · obtain ⟨v, s1, h1, h⟩ := faces_bind h
      obtain ⟨u2, s2, h2, h⟩ := faces_bind h
      obtain ⟨u3, s3, h3, h⟩ := faces_bind h
      obtain ⟨k1, rfl, e⟩ := faces_proofs h1
      obtain ⟨u, -, e⟩ := bind_eq_ok.1 e
      obtain rfl := (Prod.mk.inj (Except.ok.inj e)).1
      obtain ⟨rfl, -⟩ := faces_lift h2
      obtain ⟨rfl, -⟩ := faces_lift h3
      exact faces_proofLoop h
    · exact (faces_ret h).1

/-- The driver takes only strings that both lists have, at the same places. -/
theorem finalValues_shape {n : Nat} : ∀ {l0 l1 : List HHResult} {rs : List HHResult}, finalValues n l0 l1 = .ok rs →
    (rs.map HHResult.path).Sublist (l0.map HHResult.path) ∧ l0.map HHResult.path = l1.map HHResult.path ∧
    ∀ r ∈ rs, r.value.length = n + 1 ∧ r.value[n]? ≠ some 0 := by
  intro l0 l1 rs h
  unfold finalValues at h
  obtain ⟨u, hl, h1⟩ := bind_eq_ok.1 h
  obtain ⟨ys, hm, h2⟩ := bind_eq_ok.1 h1
  obtain rfl := Except.ok.inj h2
  clear h h1 h2
  have hlen : l0.length = l1.length := by
    have := assertE_eq_ok.1 hl
    simpa using this
  clear hl u
  induction l0 generalizing l1 ys with
  | nil =>
    cases l1 with
    | nil =>
      cases hm
      simp
    | cons => simp at hlen
  | cons x l0 ih =>
    cases l1 with
    | nil => simp at hlen
    | cons y l1 =>
      rw [List.zip_cons_cons, mapE_cons] at hm
      obtain ⟨z, hz, hm⟩ := bind_eq_ok.1 hm
      obtain ⟨zs, hzs, hm⟩ := bind_eq_ok.1 hm
      cases hm
      obtain ⟨i1, i2, i3⟩ := ih zs hzs (by simpa using hlen)
      obtain ⟨u, hp, hz⟩ := bind_eq_ok.1 hz
      obtain ⟨v, hv, hz⟩ := bind_eq_ok.1 hz
      cases hz
      have hp : x.path = y.path := by simpa using assertE_eq_ok.1 hp
      refine ⟨?_, by simp [hp, i2], ?_⟩
      · rw [List.filter_cons]
        split
        · simpa using i1
        · simpa using i1.cons _
      · intro r hr
        rw [List.filter_cons] at hr
        split at hr
        · rename_i hne
          rcases List.mem_cons.1 (by simpa using hr : r ∈ _ :: ((zs.filter Prod.snd).map Prod.fst)) with rfl | hr
          · refine ⟨by simp, ?_⟩
            have := idx_eq_ok.1 hv
            intro h0
            have hne : v ≠ 0 := by simpa using hne
            rw [this] at h0
            exact hne (Option.some.inj h0)
          · exact i3 r hr
        · exact i3 r hr

theorem printed_shape {n : Nat} {rs pr : List HHResult} (h : printed n rs = .ok pr) :
    pr = rs.filter fun r => r.value[n - 1]? ≠ some 0 := by
  unfold printed at h
  obtain ⟨fl, hm, hh⟩ := bind_eq_ok.1 h
  clear h
  obtain rfl := Except.ok.inj hh
  clear hh
  induction rs generalizing fl with
  | nil =>
    cases hm
    rfl
  | cons r rs ih =>
    rw [mapE_cons] at hm
    obtain ⟨z, hz, hm⟩ := bind_eq_ok.1 hm
    obtain ⟨zs, hzs, hm⟩ := bind_eq_ok.1 hm
    cases hm
    split at hz
    · cases hz
    obtain ⟨v, hv, hz⟩ := bind_eq_ok.1 hz
    cases hz
    have := idx_eq_ok.1 hv
    have ih := ih zs hzs
    by_cases h0 : v = 0
    · rw [List.filter_cons_of_neg (by simpa using h0), List.filter_cons_of_neg (by simp [this, h0])]
      exact ih
    · rw [List.filter_cons_of_pos (by simpa using h0), List.filter_cons_of_pos (by simp [this, h0]), List.map_cons, ih]

/-- A whole weighted-heavy-hitters collection. -/
theorem faces_whh {n d : Nat} {bld : Build} {cfg : Config} {s t : Server P} {out : Shown} (hdb : cfg.dataBits = some d) (hd : 1 ≤ d)
    (h : Faces b c (whhP P bld cfg n) s t out) :
    ∃ rs : List HHResult, out = .whh rs (rs.filter fun r => r.value[cfg.histBuckets - 1]? ≠ some 0) ∧
      (rs.map HHResult.path).Sublist (Spec.allPaths d) ∧
      ∀ r ∈ rs, r.value.length = cfg.histBuckets + 1 ∧ r.value[cfg.histBuckets]? ≠ some 0 := by
  unfold whhP at h
  obtain ⟨u1, s1, h1, h⟩ := faces_bind h
  obtain ⟨lv, s2, h2, h⟩ := faces_bind h
  obtain ⟨u3, s3, h3, h⟩ := faces_bind h
  cases s with
  | poisoned =>
    cases h1 with
    | ask hs hk =>
      unfold Server.handle at hs
      split at hs <;> cases hs
  | running kc =>
  obtain ⟨k1, rfl, e1⟩ := faces_done h1
  obtain ⟨k, hk, e1⟩ := bind_eq_ok.1 e1
  cases e1
  unfold KeyCollection.treeInit at hk
  obtain ⟨keys, -, hk⟩ := bind_eq_ok.1 hk
  cases hk
  obtain ⟨rfl, e2⟩ := faces_lift h2
  have hlv : lv = d - 1 := by
    unfold levelCount at e2
    rw [hdb] at e2
    change (if d = 0 then _ else _) = _ at e2
    rw [if_neg (by omega)] at e2
    cases e2
    rfl
  subst hlv
  obtain ⟨k3, rfl, r3⟩ := faces_levels (m := 0) (by simp [Ranked, Spec.allPaths]) h3
  rw [List.length_range, Nat.zero_add] at r3
  unfold levelLastP at h
  obtain ⟨v, s4, h4, h⟩ := faces_bind h
  obtain ⟨u5, s5, h5, h⟩ := faces_bind h
  obtain ⟨keep, s6, h6, h⟩ := faces_bind h
  obtain ⟨u7, s7, h7, h⟩ := faces_bind h
  obtain ⟨u8, s8, h8, h⟩ := faces_bind h
  obtain ⟨sh, s9, h9, h⟩ := faces_bind h
  obtain ⟨db, s10, h10, h⟩ := faces_bind h
  obtain ⟨rs, s11, h11, h⟩ := faces_bind h
  obtain ⟨pr, s12, h12, h⟩ := faces_bind h
  obtain ⟨-, rfl⟩ := faces_ret h
  obtain ⟨k4, rfl, e4⟩ := faces_vecs h4
  obtain ⟨⟨k, a⟩, hk, e4⟩ := bind_eq_ok.1 e4
  obtain rfl := (Prod.mk.inj (Except.ok.inj e4)).1
  unfold KeyCollection.treeCrawlLast at hk
  obtain ⟨next, hn, hk⟩ := bind_eq_ok.1 hk
  obtain ⟨pf, -, hk⟩ := bind_eq_ok.1 hk
  cases hk
  have r4 := nextFrontier_ranked r3 hn
  rw [Nat.sub_add_cancel hd] at r4
  obtain ⟨rfl, -⟩ := faces_lift h5
  obtain ⟨rfl, -⟩ := faces_lift h6
  obtain rfl := faces_proofLoop h7
  obtain ⟨k8, rfl, r8⟩ := faces_prune (m := d) r4 h8
  obtain ⟨k9, rfl, e9⟩ := faces_shares h9
  obtain ⟨rfl, -⟩ := faces_lift h10
  obtain ⟨rfl, e11⟩ := faces_lift h11
  obtain ⟨rfl, e12⟩ := faces_lift h12
  obtain ⟨i1, i2, i3⟩ := finalValues_shape e11
  refine ⟨rs, by rw [printed_shape e12], i1.trans ?_, i3⟩
  have hsh : (Pair.get sh !b).map HHResult.path = k8.frontier.map TreeNode.path := by
    simp only [locked] at e9
    obtain ⟨rfl, e9'⟩ := Prod.mk.inj (Except.ok.inj e9)
    rw [← Resp.shares.inj e9', KeyCollection.finalShares, List.map_map]
    rfl
  have : sh.1.map HHResult.path = k8.frontier.map TreeNode.path := by
    cases b
    · exact i2.trans hsh
    · exact hsh
  rw [this]
  exact r8

end Mastic
