import Verif.Spec.Server
import Verif.Lemmas.Level
import Verif.Lemmas.History
import Verif.Model.Driver

/-!
# Helper lemmas: driver phases as request scripts
-/

namespace Mastic

variable {P : Prims} {c0 c1 : ServerCfg} {Q : Req → Prop}

theorem run_append (cfg : ServerCfg) (s : Server P) (as bs : List Req) :
    Server.run cfg s (as ++ bs) = ((Server.run cfg (Server.run cfg s as).1 bs).1,
      (Server.run cfg s as).2 ++ (Server.run cfg (Server.run cfg s as).1 bs).2) := by
  induction as generalizing s with
  | nil => simp [Server.run]
  | cons a as ih => simp only [List.cons_append, Server.run, ih]

theorem Serves.refl (kcs : Pair2 P) : Spec.Serves P c0 c1 Q kcs kcs :=
  ⟨[], [], [], by simp, rfl, rfl⟩

theorem Serves.trans {a b c : Pair2 P} (h1 : Spec.Serves P c0 c1 Q a b) (h2 : Spec.Serves P c0 c1 Q b c) :
    Spec.Serves P c0 c1 Q a c := by
  obtain ⟨s, x0, x1, m, e0, e1⟩ := h1
  obtain ⟨t, y0, y1, m', g0, g1⟩ := h2
  refine ⟨s ++ t, x0 ++ y0, x1 ++ y1, ?_, ?_, ?_⟩
  · intro rr hrr
    rcases List.mem_append.1 hrr with h | h
    · exact m rr h
    · exact m' rr h
  · rw [List.map_append, run_append, e0, g0, List.map_append]
  · rw [List.map_append, run_append, e1, g1, List.map_append]

theorem Serves.weaken {Q' : Req → Prop} {a b : Pair2 P} (h : Spec.Serves P c0 c1 Q a b)
    (hQ : ∀ r, Q r → Q' r) : Spec.Serves P c0 c1 Q' a b := by
  obtain ⟨s, x0, x1, m, e⟩ := h
  exact ⟨s, x0, x1, fun rr hrr => ⟨(m rr hrr).1, hQ _ (m rr hrr).2⟩, e⟩

/-- One request to each server. -/
theorem Serves.one {kcs kcs' : Pair2 P} {r0 r1 : Req} {a0 a1 : Resp} (hm : Spec.Matching r0 r1) (hQ : Q r0)
    (p0 : preLock c0 r0 = .ok ()) (p1 : preLock c1 r1 = .ok ())
    (h0 : locked c0 kcs.1 r0 = .ok (kcs'.1, a0)) (h1 : locked c1 kcs.2 r1 = .ok (kcs'.2, a1)) :
    Spec.Serves P c0 c1 Q kcs kcs' := by
  refine ⟨[(r0, r1)], [a0], [a1], ?_, ?_, ?_⟩
  · intro rr hrr
    rw [List.mem_singleton] at hrr
    subst hrr
    exact ⟨hm, hQ⟩
  · simp [Server.run, Server.handle, p0, h0]
  · simp [Server.run, Server.handle, p1, h1]

theorem serves_reset {cfg : Config} {kcs kcs' : Pair2 P} {vk : Block}
    (h : resetServers c0 c1 cfg kcs vk = .ok kcs') :
    Spec.Serves P c0 c1 (fun r => r = .reset vk cfg.histBuckets) kcs kcs' := by
  unfold resetServers at h
  obtain ⟨k0, h0, h⟩ := bind_eq_ok.1 h
  obtain ⟨k1, h1, h⟩ := bind_eq_ok.1 h
  cases h
  refine Serves.one (.same (.reset vk cfg.histBuckets)) rfl rfl rfl (a0 := .done) (a1 := .done) ?_ ?_
  · simp only [locked, h0, ok_bind]
  · simp only [locked, h1, ok_bind]

theorem serves_add {reports : List PlaintextReport} {kcs kcs' : Pair2 P} {picks : List (Nat × Option Tamper)}
    (h : addReports reports kcs picks = .ok kcs') :
    Spec.Serves P c0 c1 (fun r => ∃ rs, r = .addReportShares rs) kcs kcs' := by
  unfold addReports at h
  obtain ⟨sh, h0, h⟩ := bind_eq_ok.1 h
  cases h
  exact Serves.one (.upload (sh.map Prod.fst) (sh.map Prod.snd) (by simp)) ⟨_, rfl⟩ rfl rfl
    (a0 := .done) (a1 := .done) rfl rfl

theorem serves_upload {cfg : Config} {reports : List PlaintextReport} {kcs kcs' : Pair2 P}
    {picks : List (Nat × Option Tamper)} (h : upload cfg reports kcs picks = .ok kcs') :
    Spec.Serves P c0 c1 (fun r => ∃ rs, r = .addReportShares rs) kcs kcs' := by
  unfold upload at h
  obtain ⟨sizes, -, h'⟩ := bind_eq_ok.1 h
  clear h
  generalize splitBatches sizes picks = bs at h'
  induction bs generalizing kcs with
  | nil => cases h'; exact Serves.refl _
  | cons b bs ih =>
    rw [foldE_cons] at h'
    obtain ⟨k1, h1, h2⟩ := bind_eq_ok.1 h'
    exact Serves.trans (serves_add h1) (ih h2)

theorem serves_treeInit {kcs kcs' : Pair2 P} (h : driverTreeInit kcs = .ok kcs') :
    Spec.Serves P c0 c1 Spec.isWhh kcs kcs' := by
  unfold driverTreeInit at h
  obtain ⟨k0, h0, h⟩ := bind_eq_ok.1 h
  obtain ⟨k1, h1, h⟩ := bind_eq_ok.1 h
  cases h
  refine Serves.one (.same .treeInit) trivial rfl rfl (a0 := .done) (a1 := .done) ?_ ?_
  · simp only [locked, h0, ok_bind]
  · simp only [locked, h1, ok_bind]

/-- Requests that are asked for each range and change nothing. -/
theorem serves_ranges {β : Type} {kcs : Pair2 P} {f : Nat × Nat → Exec β} {rs : List (Nat × Nat)} {bs : List β}
    (h : mapE f rs = .ok bs)
    (step : ∀ r b, f r = .ok b → Spec.Serves P c0 c1 Q kcs kcs) : Spec.Serves P c0 c1 Q kcs kcs := by
  induction rs generalizing bs with
  | nil => exact Serves.refl _
  | cons r rs ih =>
    rw [mapE_cons] at h
    obtain ⟨b, hb, h⟩ := bind_eq_ok.1 h
    obtain ⟨bs', hbs, -⟩ := bind_eq_ok.1 h
    exact Serves.trans (step r b hb) (ih hbs)

theorem serves_flp {bld : Build} {cfg : Config} {kcs kcs' : Pair2 P} {n : Nat}
    (h : driverFlp c0 c1 bld cfg kcs n = .ok kcs') : Spec.Serves P c0 c1 Spec.isWhh kcs kcs' := by
  unfold driverFlp at h
  obtain ⟨rs, -, h⟩ := bind_eq_ok.1 h
  obtain ⟨keeps, hk, h⟩ := bind_eq_ok.1 h
  obtain ⟨k0, h0, h⟩ := bind_eq_ok.1 h
  obtain ⟨k1, h1, h⟩ := bind_eq_ok.1 h
  cases h
  refine Serves.trans (serves_ranges hk fun r b hb => ?_)
    (Serves.one (.same (.applyFlpResults keeps.flatten)) trivial rfl rfl (a0 := .done) (a1 := .done) ?_ ?_)
  · unfold flpBatch at hb
    obtain ⟨_, d0, hb⟩ := bind_eq_ok.1 hb
    obtain ⟨v0, q0, hb⟩ := bind_eq_ok.1 hb
    obtain ⟨_, d1, hb⟩ := bind_eq_ok.1 hb
    obtain ⟨v1, q1, -⟩ := bind_eq_ok.1 hb
    refine Serves.one (.same (.runFlpQueries r.1 r.2)) trivial rfl rfl (a0 := .fieldVecs v0)
      (a1 := .fieldVecs v1) ?_ ?_
    · simp only [locked, d0, q0, ok_bind]
    · simp only [locked, d1, q1, ok_bind]
  · simp only [locked, h0, ok_bind]
  · simp only [locked, h1, ok_bind]

theorem serves_crawl {kcs kcs' : Pair2 P} {req : CrawlReq} {r0 r1 : CrawlResp}
    (h : crawlBoth c0 c1 kcs req = .ok (kcs', r0, r1)) : Spec.Serves P c0 c1 Spec.isWhh kcs kcs' := by
  unfold crawlBoth at h
  obtain ⟨⟨k0, a0⟩, h0, h⟩ := bind_eq_ok.1 h
  dsimp only at h
  obtain ⟨⟨k1, a1⟩, h1, h⟩ := bind_eq_ok.1 h
  obtain ⟨rfl, -, -⟩ := by simpa using h
  refine Serves.one (.same (.treeCrawl req.splitBy req.malicious req.isLast)) trivial rfl rfl
    (a0 := .crawl a0) (a1 := .crawl a1) ?_ ?_
  · simp only [locked, h0, ok_bind]
  · simp only [locked, h1, ok_bind]

theorem serves_search {cfg : Config} {kcs kcs' : Pair2 P} {n : Nat} {keep : List Bool} {cnt : Nat}
    (h : searchLevel c0 c1 cfg kcs n = .ok (kcs', keep, cnt)) : Spec.Serves P c0 c1 Spec.isWhh kcs kcs' :=
  runLevelLoop_inv (fun s => Spec.Serves P c0 c1 Spec.isWhh kcs s)
    (fun _ _ _ _ _ hi hc => Serves.trans hi (serves_crawl hc)) _ _ _ _ _ _ (Serves.refl _) h

theorem serves_prune {kcs kcs' : Pair2 P} {keep : List Bool} (h : pruneBoth kcs keep = .ok kcs') :
    Spec.Serves P c0 c1 Spec.isWhh kcs kcs' := by
  unfold pruneBoth at h
  obtain ⟨k0, h0, h⟩ := bind_eq_ok.1 h
  obtain ⟨k1, h1, h⟩ := bind_eq_ok.1 h
  cases h
  refine Serves.one (.same (.treePrune keep)) trivial rfl rfl (a0 := .done) (a1 := .done) ?_ ?_
  · simp only [locked, h0, ok_bind]
  · simp only [locked, h1, ok_bind]

theorem serves_level {cfg : Config} {kcs kcs' : Pair2 P} {n : Nat}
    (h : runLevel c0 c1 cfg kcs n = .ok kcs') : Spec.Serves P c0 c1 Spec.isWhh kcs kcs' := by
  unfold runLevel at h
  obtain ⟨⟨k, keep, cnt⟩, h0, h⟩ := bind_eq_ok.1 h
  exact Serves.trans (serves_search h0) (serves_prune h)

theorem serves_last {cfg : Config} {kcs : Pair2 P} {n : Nat} {out : WhhOut P}
    (h : runLevelLast c0 c1 cfg kcs n = .ok out) : Spec.Serves P c0 c1 Spec.isWhh kcs out.kcs := by
  unfold runLevelLast at h
  obtain ⟨⟨k0, v0⟩, h0, h⟩ := bind_eq_ok.1 h
  dsimp only at h
  obtain ⟨⟨k1, v1⟩, h1, h⟩ := bind_eq_ok.1 h
  dsimp only at h
  obtain ⟨-, -, h⟩ := bind_eq_ok.1 h
  obtain ⟨keep, -, h⟩ := bind_eq_ok.1 h
  obtain ⟨rs, -, h⟩ := bind_eq_ok.1 h
  obtain ⟨us, hu, h⟩ := bind_eq_ok.1 h
  obtain ⟨kk, hp, h⟩ := bind_eq_ok.1 h
  obtain ⟨-, -, h⟩ := bind_eq_ok.1 h
  obtain ⟨res, -, h⟩ := bind_eq_ok.1 h
  obtain ⟨pr, -, h⟩ := bind_eq_ok.1 h
  cases h
  have e1 : Spec.Serves P c0 c1 Spec.isWhh kcs (k0, k1) := by
    refine Serves.one (.same .treeCrawlLast) trivial rfl rfl (a0 := .fieldVecs v0) (a1 := .fieldVecs v1) ?_ ?_
    · simp only [locked, h0, ok_bind]
    · simp only [locked, h1, ok_bind]
  have e2 : Spec.Serves P c0 c1 Spec.isWhh (k0, k1) (k0, k1) := by
    refine serves_ranges hu fun r b hb => ?_
    unfold compareProofs at hb
    obtain ⟨_, d0, hb⟩ := bind_eq_ok.1 hb
    obtain ⟨_, d1, -⟩ := bind_eq_ok.1 hb
    refine Serves.one (.same (.getProofs r.1 r.2)) trivial rfl rfl (a0 := .proofs (k0.getProofs r.1 r.2))
      (a1 := .proofs (k1.getProofs r.1 r.2)) ?_ ?_
    · simp only [locked, d0, ok_bind]
    · simp only [locked, d1, ok_bind]
  have e3 : Spec.Serves P c0 c1 Spec.isWhh kk kk :=
    Serves.one (.same .finalShares) trivial rfl rfl (a0 := .shares kk.1.finalShares)
      (a1 := .shares kk.2.finalShares) rfl rfl
  exact Serves.trans e1 (Serves.trans e2 (Serves.trans (serves_prune hp) e3))

theorem serves_step {bld : Build} {cfg : Config} {kcs kcs' : Pair2 P} {n level : Nat}
    (h : levelStep c0 c1 bld cfg n kcs level = .ok kcs') : Spec.Serves P c0 c1 Spec.isWhh kcs kcs' := by
  unfold levelStep at h
  obtain ⟨k, hk, h⟩ := bind_eq_ok.1 h
  refine Serves.trans ?_ (serves_level h)
  split at hk
  · exact serves_flp hk
  · cases hk; exact Serves.refl _

theorem serves_levels {bld : Build} {cfg : Config} {n : Nat} (ls : List Nat) :
    ∀ {kcs kcs' : Pair2 P}, foldE (levelStep c0 c1 bld cfg n) kcs ls = .ok kcs' →
      Spec.Serves P c0 c1 Spec.isWhh kcs kcs' := by
  induction ls with
  | nil => intro kcs kcs' h; cases h; exact Serves.refl _
  | cons l ls ih =>
    intro kcs kcs' h
    rw [foldE_cons] at h
    obtain ⟨k1, h1, h⟩ := bind_eq_ok.1 h
    exact Serves.trans (serves_step h1) (ih h)

theorem serves_whh {bld : Build} {cfg : Config} {kcs : Pair2 P} {n : Nat} {out : WhhOut P}
    (h : runWhh c0 c1 bld cfg kcs n = .ok out) :
    Spec.Serves P c0 c1 Spec.isWhh kcs out.kcs := by
  unfold runWhh at h
  obtain ⟨k1, h1, h⟩ := bind_eq_ok.1 h
  obtain ⟨ls, -, h⟩ := bind_eq_ok.1 h
  obtain ⟨k2, h2, h⟩ := bind_eq_ok.1 h
  exact Serves.trans (serves_treeInit h1) (Serves.trans (serves_levels _ h2) (serves_last h))

theorem serves_abmBatch {cfg : Config} {attributes : List (List Bool)} {kcs kcs' : Pair2 P} {r : Nat × Nat}
    {o : AbmOut} (h : abmBatch c0 c1 cfg attributes kcs r = .ok (kcs', o)) :
    Spec.Serves P c0 c1 Spec.isAbm kcs kcs' := by
  unfold abmBatch at h
  obtain ⟨_, d0, h⟩ := bind_eq_ok.1 h
  obtain ⟨⟨k0, v0⟩, h0, h⟩ := bind_eq_ok.1 h
  dsimp only at h
  obtain ⟨_, d1, h⟩ := bind_eq_ok.1 h
  obtain ⟨⟨k1, v1⟩, h1, h⟩ := bind_eq_ok.1 h
  dsimp only at h
  obtain ⟨-, -, h⟩ := bind_eq_ok.1 h
  obtain ⟨-, -, h⟩ := bind_eq_ok.1 h
  obtain ⟨rej, -, h⟩ := bind_eq_ok.1 h
  obtain ⟨⟨l0, w0⟩, g0, h⟩ := bind_eq_ok.1 h
  dsimp only at h
  obtain ⟨⟨l1, w1⟩, g1, h⟩ := bind_eq_ok.1 h
  cases h
  refine Serves.trans (b := (k0, k1))
    (Serves.one (.same (.abmValidate attributes r.1 r.2)) trivial d0 d1 (a0 := .validated v0)
      (a1 := .validated v1) ?_ ?_)
    (Serves.one (.same (.abmResult rej.flatten attributes.length r.1 r.2)) trivial d0 d1
      (a0 := .fieldVecs w0) (a1 := .fieldVecs w1) ?_ ?_)
  · simp only [locked, h0, ok_bind]
  · simp only [locked, h1, ok_bind]
  · simp only [locked, g0, ok_bind]
  · simp only [locked, g1, ok_bind]

theorem serves_abm {cfg : Config} {attributes : List (List Bool)} {kcs kcs' : Pair2 P} {n : Nat}
    {outs : List AbmOut} (h : runAbm c0 c1 cfg kcs attributes n = .ok (kcs', outs)) :
    Spec.Serves P c0 c1 Spec.isAbm kcs kcs' := by
  unfold runAbm at h
  obtain ⟨rs, -, h'⟩ := bind_eq_ok.1 h
  clear h
  induction rs generalizing kcs outs with
  | nil => cases h'; exact Serves.refl _
  | cons r rs ih =>
    simp only [abmLoop] at h'
    obtain ⟨⟨k, o⟩, h0, h2⟩ := bind_eq_ok.1 h'
    obtain ⟨⟨k', os⟩, h1, h3⟩ := bind_eq_ok.1 h2
    cases h3
    exact Serves.trans (serves_abmBatch h0) (ih h1)

theorem serves_pmBatch {cfg : Config} {kcs kcs' : Pair2 P} {r : Nat × Nat}
    {o : PmOut} (h : pmBatch c0 c1 cfg kcs r = .ok (kcs', o)) :
    Spec.Serves P c0 c1 Spec.isPm kcs kcs' := by
  unfold pmBatch at h
  obtain ⟨_, d0, h⟩ := bind_eq_ok.1 h
  obtain ⟨⟨k0, v0⟩, h0, h⟩ := bind_eq_ok.1 h
  dsimp only at h
  obtain ⟨_, d1, h⟩ := bind_eq_ok.1 h
  obtain ⟨⟨k1, v1⟩, h1, h⟩ := bind_eq_ok.1 h
  dsimp only at h
  obtain ⟨-, -, h⟩ := bind_eq_ok.1 h
  obtain ⟨-, -, h⟩ := bind_eq_ok.1 h
  obtain ⟨⟨l0, w0, n0⟩, g0, h⟩ := bind_eq_ok.1 h
  dsimp only at h
  obtain ⟨⟨l1, w1, n1⟩, g1, h⟩ := bind_eq_ok.1 h
  dsimp only at h
  obtain ⟨-, -, h⟩ := bind_eq_ok.1 h
  obtain ⟨res, -, h⟩ := bind_eq_ok.1 h
  cases h
  refine Serves.trans (b := (k0, k1))
    (Serves.one (.same (.pmValidate r.1 r.2)) trivial d0 d1 (a0 := .bytes v0) (a1 := .bytes v1) ?_ ?_)
    (Serves.one (.peers v1 v0 r.1 r.2) trivial d0 d1 (a0 := .aggregate w0 n0) (a1 := .aggregate w1 n1) ?_ ?_)
  · simp only [locked, h0, ok_bind]
  · simp only [locked, h1, ok_bind]
  · simp only [locked, g0, ok_bind]
  · simp only [locked, g1, ok_bind]

theorem serves_pm {cfg : Config} {kcs kcs' : Pair2 P} {n : Nat}
    {outs : List PmOut} (h : runPm c0 c1 cfg kcs n = .ok (kcs', outs)) :
    Spec.Serves P c0 c1 Spec.isPm kcs kcs' := by
  unfold runPm at h
  split at h
  · cases h
  obtain ⟨rs, -, h'⟩ := bind_eq_ok.1 h
  clear h
  induction rs generalizing kcs outs with
  | nil => cases h'; exact Serves.refl _
  | cons r rs ih =>
    simp only [pmLoop] at h'
    obtain ⟨⟨k, o⟩, h0, h2⟩ := bind_eq_ok.1 h'
    obtain ⟨⟨k', os⟩, h1, h3⟩ := bind_eq_ok.1 h2
    cases h3
    exact Serves.trans (serves_pmBatch h0) (ih h1)

theorem Serves.reachable {b0 b1 : Nat} {kcs kcs' : Pair2 P} (h : Spec.Serves P c0 c1 Q kcs kcs')
    (h0 : Spec.Reachable P c0 b0 kcs.1) (h1 : Spec.Reachable P c1 b1 kcs.2) :
    Spec.Reachable P c0 b0 kcs'.1 ∧ Spec.Reachable P c1 b1 kcs'.2 := by
  obtain ⟨s, x0, x1, -, e0, e1⟩ := h
  obtain ⟨q0, h0⟩ := h0
  obtain ⟨q1, h1⟩ := h1
  exact ⟨⟨q0 ++ s.map Prod.fst, by rw [run_append, h0, e0]⟩,
    ⟨q1 ++ s.map Prod.snd, by rw [run_append, h1, e1]⟩⟩

end Mastic
