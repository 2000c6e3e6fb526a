import Verif.Lemmas.Flp
import Verif.Lemmas.Crawl

/-!
# The level loop of the driver
-/

namespace Mastic

variable {P : Prims}

/-- What crawl requests leave alone. -/
structure Frame (kc kc' : KeyCollection P) : Prop where
  inputLen : kc'.inputLen = kc.inputLen
  serverId : kc'.serverId = kc.serverId
  verifyKey : kc'.verifyKey = kc.verifyKey
  depth : kc'.depth = kc.depth
  evolves : Spec.Evolves kc.reportShares kc'.reportShares
  shares : kc'.reportShares.map Prod.snd = kc.reportShares.map Prod.snd
  good : (∃ n0, SessionInv n0 kc) → ∃ n0, SessionInv n0 kc'

theorem Frame.refl (kc : KeyCollection P) : Frame kc kc :=
  ⟨rfl, rfl, rfl, rfl, evolves_refl _, rfl, id⟩

theorem Frame.trans {a b c : KeyCollection P} (h1 : Frame a b) (h2 : Frame b c) : Frame a c :=
  ⟨h2.inputLen.trans h1.inputLen, h2.serverId.trans h1.serverId, h2.verifyKey.trans h1.verifyKey,
    h2.depth.trans h1.depth, evolves_trans h1.evolves h2.evolves,
    h2.shares.trans h1.shares, fun h => h2.good (h1.good h)⟩

theorem frame_of_locked {cfg : ServerCfg} {kc kc' : KeyCollection P} {req : Req} {resp : Resp}
    (h : locked cfg kc req = .ok (kc', resp)) (hr : Spec.isReset req = false)
    (hs : kc'.reportShares.map Prod.snd = kc.reportShares.map Prod.snd) : Frame kc kc' := by
  obtain ⟨a, b, c, d, e⟩ := locked_frame h hr
  exact ⟨a, b, c, d, e, hs, fun hg => locked_inv_exists hg h⟩

theorem treeCrawl_frame {cfg : ServerCfg} {kc kc' : KeyCollection P} {s : Nat} {m : List Nat}
    {l : Bool} {r : CrawlResp} (h : kc.treeCrawl cfg.build s m l = .ok (kc', r)) : Frame kc kc' :=
  frame_of_locked (cfg := cfg) (req := .treeCrawl s m l) (resp := .crawl r)
    (by simp only [locked, h, ok_bind]) rfl (by
      obtain ⟨kc1, next, digests, rs, hp, -, -, rfl, -⟩ := treeCrawl_ok h
      obtain ⟨reports, fr, rfl, hsnd, -⟩ := crawlPrep_ok hp
      exact hsnd)

theorem treeInit_frame {kc kc' : KeyCollection P} (h : kc.treeInit = .ok kc') : Frame kc kc' :=
  frame_of_locked (cfg := ⟨0, none, .debug, id, fun _ => .refl _⟩) (req := .treeInit)
    (resp := .done) (by simp only [locked, h, ok_bind]) rfl (by
      obtain ⟨keys, -, rfl⟩ := treeInit_ok h; rfl)

theorem applyFlp_frame {kc kc' : KeyCollection P} {keep : List Bool}
    (h : kc.applyFlpResults keep = .ok kc') : Frame kc kc' :=
  frame_of_locked (cfg := ⟨0, none, .debug, id, fun _ => .refl _⟩) (req := .applyFlpResults keep)
    (resp := .done) (by simp only [locked, h, ok_bind]) rfl (by
      obtain ⟨rs, rfl, hsnd, -⟩ := applyFlpResults_ok h; exact hsnd)

theorem treePrune_frame {kc kc' : KeyCollection P} {keep : List Bool}
    (h : kc.treePrune keep = .ok kc') : Frame kc kc' ∧ kc'.reportShares = kc.reportShares := by
  have he : kc'.reportShares = kc.reportShares := by
    rw [treePrune_spec] at h
    split at h
    · cases h; rfl
    · cases h
  exact ⟨frame_of_locked (cfg := ⟨0, none, .debug, id, fun _ => .refl _⟩) (req := .treePrune keep)
    (resp := .done) (by simp only [locked, h, ok_bind]) rfl (by rw [he]), he⟩

theorem treeCrawlLast_frame {kc kc' : KeyCollection P} {v : List (List Field128)}
    (h : kc.treeCrawlLast = .ok (kc', v)) : Frame kc kc' ∧ kc'.reportShares = kc.reportShares := by
  have he : kc'.reportShares = kc.reportShares := by
    obtain ⟨next, proofs, -, -, rfl, -⟩ := treeCrawlLast_ok h
    rfl
  exact ⟨frame_of_locked (cfg := ⟨0, none, .debug, id, fun _ => .refl _⟩) (req := .treeCrawlLast)
    (resp := .fieldVecs v) (by simp only [locked, h, ok_bind]) rfl (by rw [he]), he⟩

/-- An invariant of the crawl is an invariant of the loop. -/
theorem runLevelLoop_inv {σ : Type} {crawl : σ → CrawlReq → Exec (σ × CrawlResp × CrawlResp)}
    {inputLen thr n : Nat} (Inv : σ → Prop)
    (step : ∀ s req s' r0 r1, Inv s → crawl s req = .ok (s', r0, r1) → Inv s') :
    ∀ (fuel : Nat) (s : σ) (req : CrawlReq) (s' : σ) (keep : List Bool) (cnt : Nat), Inv s →
      runLevelLoop crawl inputLen thr n fuel s req = .ok (s', keep, cnt) → Inv s'
  | 0, _, _, _, _, _, _, h => by cases h
  | fuel + 1, s, req, sF, keep, cnt, hi, h => by
    unfold runLevelLoop at h
    obtain ⟨⟨s1, r0, r1⟩, hc, h⟩ := bind_eq_ok.1 h
    have hi1 := step _ _ _ _ _ hi hc
    dsimp only at h
    obtain ⟨_, -, h⟩ := bind_eq_ok.1 h
    obtain ⟨kp, -, h⟩ := bind_eq_ok.1 h
    split at h
    · cases h; exact hi1
    · obtain ⟨mal, -, h⟩ := bind_eq_ok.1 h
      split at h
      · cases h; exact hi1
      · split at h
        · split at h
          · cases h; exact hi1
          · obtain ⟨⟨x, y, z⟩, hx, h⟩ := bind_eq_ok.1 h
            cases h
            exact runLevelLoop_inv Inv step fuel _ _ _ _ _ hi1 hx
        · obtain ⟨⟨x, y, z⟩, hx, h⟩ := bind_eq_ok.1 h
          cases h
          exact runLevelLoop_inv Inv step fuel _ _ _ _ _ hi1 hx

/-- Bound on the number of requests: `j` doublings remain. -/
theorem runLevelLoop_count {σ : Type} {crawl : σ → CrawlReq → Exec (σ × CrawlResp × CrawlResp)}
    {inputLen thr n : Nat} :
    ∀ (fuel j : Nat) (s : σ) (req : CrawlReq), n ≤ req.splitBy * 2 ^ j →
      ∀ s' keep cnt, runLevelLoop crawl inputLen thr n fuel s req = .ok (s', keep, cnt) →
        cnt ≤ j + (if req.isLast then 1 else 2)
  | 0, _, _, _, _, _, _, _, h => by cases h
  | fuel + 1, j, s, req, hj, sF, keep, cnt, h => by
    unfold runLevelLoop at h
    obtain ⟨⟨s1, r0, r1⟩, hc, h⟩ := bind_eq_ok.1 h
    dsimp only at h
    obtain ⟨_, -, h⟩ := bind_eq_ok.1 h
    obtain ⟨kp, -, h⟩ := bind_eq_ok.1 h
    have h1 : 1 ≤ j + (if req.isLast then 1 else 2) := by split <;> omega
    split at h
    · cases h; exact h1
    · obtain ⟨mal, -, h⟩ := bind_eq_ok.1 h
      split at h
      · cases h; exact h1
      · split at h
        · rename_i hle
          split at h
          · cases h; exact h1
          · rename_i hl
            obtain ⟨⟨x, y, z⟩, hx, h⟩ := bind_eq_ok.1 h
            cases h
            have := runLevelLoop_count fuel 0 _ _ (by simpa using hle) _ _ _ hx
            simp only [if_true] at this
            simp only [hl]
            simp at *
            omega
        · rename_i hle
          obtain ⟨⟨x, y, z⟩, hx, h⟩ := bind_eq_ok.1 h
          cases h
          cases j with
          | zero => simp at hj; omega
          | succ j =>
            have := runLevelLoop_count fuel j _ _ (by
              simp only; rw [Nat.mul_assoc, ← Nat.pow_succ']; exact hj) _ _ _ hx
            dsimp only at this ⊢
            omega

/-- Enough iterations: more fuel changes nothing. -/
theorem runLevelLoop_fuel {σ : Type} {crawl : σ → CrawlReq → Exec (σ × CrawlResp × CrawlResp)}
    {inputLen thr n : Nat} :
    ∀ (fuel fuel' j : Nat) (s : σ) (req : CrawlReq), n ≤ req.splitBy * 2 ^ j →
      j + (if req.isLast then 1 else 2) ≤ fuel → j + (if req.isLast then 1 else 2) ≤ fuel' →
      runLevelLoop crawl inputLen thr n fuel s req = runLevelLoop crawl inputLen thr n fuel' s req
  | 0, _, j, s, req, _, h, _ => by exfalso; split at h <;> omega
  | _ + 1, 0, j, s, req, _, _, h => by exfalso; split at h <;> omega
  | fuel + 1, fuel' + 1, j, s, req, hj, hf, hf' => by
    unfold runLevelLoop
    cases hc : crawl s req with
    | error p => rfl
    | ok x =>
      obtain ⟨s1, r0, r1⟩ := x
      simp only [ok_bind]
      cases assertE (r0.cntValues.length == r1.cntValues.length) with
      | error p => rfl
      | ok u =>
        simp only [ok_bind]
        cases keepValues inputLen thr r0.cntValues r1.cntValues with
        | error p => rfl
        | ok kp =>
          simp only [ok_bind]
          split
          · rfl
          · cases diffIndices r0 r1 with
            | error p => rfl
            | ok mal =>
              simp only [ok_bind]
              split
              · rfl
              · split
                · rename_i hle
                  split
                  · rfl
                  · rename_i hl
                    rw [runLevelLoop_fuel fuel fuel' 0 _ _ (by simpa using hle)
                      (by simp [hl] at hf ⊢; omega) (by simp [hl] at hf' ⊢; omega)]
                · rename_i hle
                  cases j with
                  | zero => simp at hj; omega
                  | succ j =>
                    rw [runLevelLoop_fuel fuel fuel' j _ _ (by
                      simp only; rw [Nat.mul_assoc, ← Nat.pow_succ']; exact hj)
                      (by dsimp only; omega) (by dsimp only; omega)]

/-- `run_level` keeps the frame of both servers. -/
theorem runLevel_frame {c0 c1 : ServerCfg} {cfg : Config} {kcs kcs' : Pair2 P} {n : Nat}
    (h : runLevel c0 c1 cfg kcs n = .ok kcs') : Frame kcs.1 kcs'.1 ∧ Frame kcs.2 kcs'.2 := by
  unfold runLevel at h
  obtain ⟨⟨k, keep, cnt⟩, hs, h⟩ := bind_eq_ok.1 h
  have h1 : Frame kcs.1 k.1 ∧ Frame kcs.2 k.2 := by
    refine runLevelLoop_inv (fun k => Frame kcs.1 k.1 ∧ Frame kcs.2 k.2) ?_ _ _ _ _ _ _
      ⟨Frame.refl _, Frame.refl _⟩ hs
    intro s req s' r0 r1 hi hc
    unfold crawlBoth at hc
    obtain ⟨⟨a0, b0⟩, e0, hc⟩ := bind_eq_ok.1 hc
    obtain ⟨⟨a1, b1⟩, e1, hc⟩ := bind_eq_ok.1 hc
    cases hc
    exact ⟨hi.1.trans (treeCrawl_frame e0), hi.2.trans (treeCrawl_frame e1)⟩
  dsimp only at h
  unfold pruneBoth at h
  obtain ⟨a0, e0, h⟩ := bind_eq_ok.1 h
  obtain ⟨a1, e1, h⟩ := bind_eq_ok.1 h
  cases h
  exact ⟨h1.1.trans (treePrune_frame e0).1, h1.2.trans (treePrune_frame e1).1⟩

/-- `run_level_last` keeps the frame, and the flags. -/
theorem runLevelLast_frame {c0 c1 : ServerCfg} {cfg : Config} {kcs : Pair2 P} {n : Nat}
    {out : WhhOut P} (h : runLevelLast c0 c1 cfg kcs n = .ok out) :
    (Frame kcs.1 out.kcs.1 ∧ out.kcs.1.reportShares = kcs.1.reportShares) ∧
    (Frame kcs.2 out.kcs.2 ∧ out.kcs.2.reportShares = kcs.2.reportShares) := by
  unfold runLevelLast at h
  obtain ⟨⟨k0, v0⟩, e0, h⟩ := bind_eq_ok.1 h
  obtain ⟨⟨k1, v1⟩, e1, h⟩ := bind_eq_ok.1 h
  dsimp only at h
  obtain ⟨_, -, h⟩ := bind_eq_ok.1 h
  obtain ⟨keep, -, h⟩ := bind_eq_ok.1 h
  obtain ⟨rg, -, h⟩ := bind_eq_ok.1 h
  obtain ⟨_, -, h⟩ := bind_eq_ok.1 h
  obtain ⟨⟨p0, p1⟩, hp, h⟩ := bind_eq_ok.1 h
  obtain ⟨_, -, h⟩ := bind_eq_ok.1 h
  obtain ⟨_, -, h⟩ := bind_eq_ok.1 h
  obtain ⟨_, -, h⟩ := bind_eq_ok.1 h
  cases h
  unfold pruneBoth at hp
  obtain ⟨a0, f0, hp⟩ := bind_eq_ok.1 hp
  obtain ⟨a1, f1, hp⟩ := bind_eq_ok.1 hp
  cases hp
  obtain ⟨g0, w0⟩ := treeCrawlLast_frame e0
  obtain ⟨g1, w1⟩ := treeCrawlLast_frame e1
  obtain ⟨q0, z0⟩ := treePrune_frame f0
  obtain ⟨q1, z1⟩ := treePrune_frame f1
  exact ⟨⟨g0.trans q0, z0.trans w0⟩, g1.trans q1, z1.trans w1⟩

/-- The aggregates a run ends with. -/
theorem runLevelLast_sums {c0 c1 : ServerCfg} {cfg : Config} {kcs : Pair2 P} {n : Nat}
    {out : WhhOut P} (g0 : ∃ n0, SessionInv n0 kcs.1) (g1 : ∃ n0, SessionInv n0 kcs.2)
    (h : runLevelLast c0 c1 cfg kcs n = .ok out) :
    (∀ node ∈ out.kcs.1.frontier, Spec.NodeSum P kcs.1.inputLen out.kcs.1.reportShares node) ∧
    (∀ node ∈ out.kcs.2.frontier, Spec.NodeSum P kcs.2.inputLen out.kcs.2.reportShares node) := by
  unfold runLevelLast at h
  obtain ⟨⟨k0, v0⟩, e0, h⟩ := bind_eq_ok.1 h
  obtain ⟨⟨k1, v1⟩, e1, h⟩ := bind_eq_ok.1 h
  dsimp only at h
  obtain ⟨_, -, h⟩ := bind_eq_ok.1 h
  obtain ⟨keep, -, h⟩ := bind_eq_ok.1 h
  obtain ⟨rg, -, h⟩ := bind_eq_ok.1 h
  obtain ⟨_, -, h⟩ := bind_eq_ok.1 h
  obtain ⟨⟨p0, p1⟩, hp, h⟩ := bind_eq_ok.1 h
  obtain ⟨_, -, h⟩ := bind_eq_ok.1 h
  obtain ⟨_, -, h⟩ := bind_eq_ok.1 h
  obtain ⟨_, -, h⟩ := bind_eq_ok.1 h
  cases h
  unfold pruneBoth at hp
  obtain ⟨a0, f0, hp⟩ := bind_eq_ok.1 hp
  obtain ⟨a1, f1, hp⟩ := bind_eq_ok.1 hp
  cases hp
  obtain ⟨m0, g0⟩ := g0
  obtain ⟨m1, g1⟩ := g1
  have aux : ∀ {kc kc' : KeyCollection P} {b : Nat}, kc.treePrune keep = .ok kc' →
      (∀ node ∈ kc.frontier, Spec.NodeSum P b kc.reportShares node) →
      ∀ node ∈ kc'.frontier, Spec.NodeSum P b kc'.reportShares node := by
    intro kc kc' b hpr hall node hn
    rw [treePrune_spec] at hpr
    split at hpr
    · cases hpr
      exact hall node ((select_sublist _ _).subset hn)
    · cases hpr
  exact ⟨aux f0 (treeCrawlLast_sum g0 e0).2.2, aux f1 (treeCrawlLast_sum g1 e1).2.2⟩

/-- The FLP phase keeps the frame. -/
theorem driverFlp_frame {c0 c1 : ServerCfg} {bld : Build} {cfg : Config} {kcs kcs' : Pair2 P} {n : Nat}
    (h : driverFlp c0 c1 bld cfg kcs n = .ok kcs') : Frame kcs.1 kcs'.1 ∧ Frame kcs.2 kcs'.2 := by
  unfold driverFlp at h
  obtain ⟨rs, -, h⟩ := bind_eq_ok.1 h
  obtain ⟨keeps, -, h⟩ := bind_eq_ok.1 h
  dsimp only at h
  obtain ⟨k0, e0, h⟩ := bind_eq_ok.1 h
  obtain ⟨k1, e1, h⟩ := bind_eq_ok.1 h
  cases h
  exact ⟨applyFlp_frame e0, applyFlp_frame e1⟩

theorem levelStep_frame {c0 c1 : ServerCfg} {bld : Build} {cfg : Config} {kcs kcs' : Pair2 P}
    {n level : Nat} (h : levelStep c0 c1 bld cfg n kcs level = .ok kcs') :
    Frame kcs.1 kcs'.1 ∧ Frame kcs.2 kcs'.2 := by
  unfold levelStep at h
  obtain ⟨k, hk, h⟩ := bind_eq_ok.1 h
  obtain ⟨a, b⟩ := runLevel_frame h
  split at hk
  · obtain ⟨c, d⟩ := driverFlp_frame hk
    exact ⟨c.trans a, d.trans b⟩
  · cases hk; exact ⟨a, b⟩

theorem levels_frame {c0 c1 : ServerCfg} {bld : Build} {cfg : Config} {n : Nat} :
    ∀ {ls : List Nat} {kcs kcs' : Pair2 P},
      foldE (levelStep c0 c1 bld cfg n) kcs ls = .ok kcs' → Frame kcs.1 kcs'.1 ∧ Frame kcs.2 kcs'.2
  | [], _, _, h => by cases h; exact ⟨Frame.refl _, Frame.refl _⟩
  | l :: ls, kcs, kcs', h => by
    rw [foldE_cons] at h
    obtain ⟨k, hk, h⟩ := bind_eq_ok.1 h
    obtain ⟨a, b⟩ := levelStep_frame hk
    obtain ⟨c, d⟩ := levels_frame h
    exact ⟨a.trans c, b.trans d⟩

end Mastic
