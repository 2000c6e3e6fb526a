import Verif.Model.System
import Verif.Lemmas.Serve

/-!
# Helper lemmas: the driver process against two servers
-/

namespace Mastic

variable {P : Prims} {α β γ : Type}

/-- Two computations that return the same results (they may panic for different reasons). -/
def Agree (a b : Exec α) : Prop := ∀ x, a = .ok x ↔ b = .ok x

theorem Agree.rfl {a : Exec α} : Agree a a := fun _ => Iff.rfl

theorem Agree.of_eq {a b : Exec α} (h : a = b) : Agree a b := h ▸ Agree.rfl

theorem Agree.symm {a b : Exec α} (h : Agree a b) : Agree b a := fun x => (h x).symm

theorem Agree.trans {a b c : Exec α} (h : Agree a b) (h' : Agree b c) : Agree a c :=
  fun x => (h x).trans (h' x)

theorem Agree.bind {a b : Exec α} {f g : α → Exec β} (h : Agree a b)
    (hf : ∀ x, a = .ok x → Agree (f x) (g x)) : Agree (a >>= f) (b >>= g) := by
  intro y
  rw [bind_eq_ok, bind_eq_ok]
  constructor
  · rintro ⟨x, hx, hy⟩
    exact ⟨x, (h x).1 hx, (hf x hx y).1 hy⟩
  · rintro ⟨x, hx, hy⟩
    have := (h x).2 hx
    exact ⟨x, this, (hf x this y).2 hy⟩

/-- A sequential run of a driver process against two running servers. -/
def Prog.exec (c0 c1 : ServerCfg) : Prog α → Pair2 P → Exec (α × Pair2 P)
  | .ret a, kcs => .ok (a, kcs)
  | .panic p, _ => .error p
  | .ask r0 r1 k, kcs => do
    preLock c0 r0
    let x0 ← locked c0 kcs.1 r0
    preLock c1 r1
    let x1 ← locked c1 kcs.2 r1
    (k x0.2 x1.2).exec c0 c1 (x0.1, x1.1)

variable {c0 c1 : ServerCfg}

@[simp] theorem exec_ret (a : α) (kcs : Pair2 P) : (Prog.ret a).exec c0 c1 kcs = .ok (a, kcs) := rfl

@[simp] theorem exec_panic (p : Panic) (kcs : Pair2 P) :
    (Prog.panic p : Prog α).exec c0 c1 kcs = .error p := rfl

theorem exec_bind (p : Prog α) (f : α → Prog β) (kcs : Pair2 P) :
    (p >>= f).exec c0 c1 kcs = p.exec c0 c1 kcs >>= fun x => (f x.1).exec c0 c1 x.2 := by
  induction p generalizing kcs with
  | ret a => rfl
  | panic p => rfl
  | ask r0 r1 k ih =>
    show (Prog.ask r0 r1 fun a b => (k a b).bind f).exec c0 c1 kcs = _
    simp only [Prog.exec, bind_assoc]
    refine bind_congr fun _ => bind_congr fun x0 => bind_congr fun _ => bind_congr fun x1 => ?_
    exact ih x0.2 x1.2 _

theorem exec_lift (e : Exec α) (kcs : Pair2 P) :
    (Prog.lift e).exec c0 c1 kcs = e >>= fun a => .ok (a, kcs) := by
  cases e <;> rfl

@[simp] theorem liftM_prog (e : Exec α) : (liftM e : Prog α) = Prog.lift e := rfl
@[simp] theorem monadLift_prog (e : Exec α) : (MonadLift.monadLift e : Prog α) = Prog.lift e := rfl
@[simp] theorem monadLift_prog' (e : Exec α) : (monadLift e : Prog α) = Prog.lift e := rfl

theorem exec_reset (cfg : Config) (vk : Block) (kcs : Pair2 P) :
    (resetP cfg vk).exec c0 c1 kcs = resetServers c0 c1 cfg kcs vk >>= fun k => .ok ((), k) := by
  simp [resetP, callDone, Prog.exec, preLock, locked, resetServers, bind_assoc]

theorem exec_add (reports : List PlaintextReport) (picks : List (Nat × Option Tamper)) (kcs : Pair2 P) :
    (addReportsP reports picks).exec c0 c1 kcs = addReports reports kcs picks >>= fun k => .ok ((), k) := by
  simp [addReportsP, callDone, Prog.exec, exec_bind, exec_lift, preLock, locked, addReports, bind_assoc]

theorem exec_await (reports : List PlaintextReport) (bs : List (List (Nat × Option Tamper))) (kcs : Pair2 P) :
    (awaitAllP reports bs).exec c0 c1 kcs = foldE (addReports reports) kcs bs >>= fun k => .ok ((), k) := by
  induction bs generalizing kcs with
  | nil => rfl
  | cons b bs ih =>
    simp only [awaitAllP, exec_bind, exec_add, bind_assoc, ok_bind, foldE_cons, ih]

theorem exec_upload (cfg : Config) (reports : List PlaintextReport) (picks : List (Nat × Option Tamper))
    (kcs : Pair2 P) :
    (uploadP cfg reports picks).exec c0 c1 kcs = upload cfg reports kcs picks >>= fun k => .ok ((), k) := by
  simp only [uploadP, exec_bind, liftM_prog, monadLift_prog, exec_lift, bind_assoc, ok_bind, upload, exec_await]

theorem exec_treeInit (kcs : Pair2 P) :
    (callDone .treeInit .treeInit).exec c0 c1 kcs = driverTreeInit kcs >>= fun k => .ok ((), k) := by
  simp [callDone, Prog.exec, preLock, locked, driverTreeInit, bind_assoc]

theorem exec_prune (keep : List Bool) (kcs : Pair2 P) :
    (callDone (.treePrune keep) (.treePrune keep)).exec c0 c1 kcs
      = pruneBoth kcs keep >>= fun k => .ok ((), k) := by
  simp [callDone, Prog.exec, preLock, locked, pruneBoth, bind_assoc]

theorem exec_apply (keep : List Bool) (kcs : Pair2 P) :
    (callDone (.applyFlpResults keep) (.applyFlpResults keep)).exec c0 c1 kcs
      = (do
          let k0 ← kcs.1.applyFlpResults keep
          let k1 ← kcs.2.applyFlpResults keep
          .ok ((), k0, k1)) := by
  simp [callDone, Prog.exec, preLock, locked, bind_assoc]

/-- One FLP batch, as the loop of the process does it. -/
theorem exec_flpCall (s e : Nat) (kcs : Pair2 P) :
    (callVecs (.runFlpQueries s e) (.runFlpQueries s e)).exec c0 c1 kcs = (do
      debugAssert c0.build (decide (s < e))
      let v0 ← kcs.1.runFlpQueries c0.build s e
      debugAssert c1.build (decide (s < e))
      let v1 ← kcs.2.runFlpQueries c1.build s e
      .ok ((v0, v1), kcs)) := by
  simp [callVecs, Prog.exec, preLock, locked, bind_assoc]

theorem exec_flpLoop (bld : Build) (cfg : Config) (n : Nat) (kcs : Pair2 P) (fuel start : Nat) (keep : List Bool) :
    Agree ((flpLoopP P bld cfg n fuel start keep).exec c0 c1 kcs)
      (do
        let ranges ← whileRanges n cfg.queryBatch fuel start
        let keeps ← mapE (flpBatch c0 c1 bld cfg.histBuckets kcs) ranges
        .ok (keep ++ keeps.flatten, kcs)) := by
  induction fuel generalizing start keep with
  | zero =>
    rw [flpLoopP, whileRanges]
    by_cases h : start < n
    · simp only [h, if_true]; exact Agree.rfl
    · simp only [h, if_false, ok_bind, mapE_nil, List.flatten_nil, List.append_nil]; exact Agree.rfl
  | succ fuel ih =>
    rw [flpLoopP, whileRanges]
    by_cases h : start < n
    · simp only [h, if_true, exec_bind, exec_flpCall, liftM_prog, monadLift_prog, exec_lift, bind_assoc, ok_bind,
        mapE_cons]
      intro x
      have key := ih (start + cfg.queryBatch)
      constructor
      · intro hx
        obtain ⟨_, d0, hx⟩ := bind_eq_ok.1 hx
        obtain ⟨v0, q0, hx⟩ := bind_eq_ok.1 hx
        obtain ⟨_, d1, hx⟩ := bind_eq_ok.1 hx
        obtain ⟨v1, q1, hx⟩ := bind_eq_ok.1 hx
        obtain ⟨_, d2, hx⟩ := bind_eq_ok.1 hx
        obtain ⟨ks, hk, hx⟩ := bind_eq_ok.1 hx
        obtain ⟨rs, hr, hx⟩ := bind_eq_ok.1 ((key (keep ++ ks) x).1 hx)
        obtain ⟨kss, hks, hx⟩ := bind_eq_ok.1 hx
        simp only [hr, ok_bind, flpBatch, d0, q0, d1, q1, d2, hk, bind_assoc]
        rw [show mapE _ rs = .ok kss from hks]
        simpa using hx
      · intro hx
        obtain ⟨rs, hr, hx⟩ := bind_eq_ok.1 hx
        obtain ⟨ks, hb, hx⟩ := bind_eq_ok.1 hx
        obtain ⟨kss, hks, hx⟩ := bind_eq_ok.1 hx
        unfold flpBatch at hb
        obtain ⟨_, d0, hb⟩ := bind_eq_ok.1 hb
        obtain ⟨v0, q0, hb⟩ := bind_eq_ok.1 hb
        obtain ⟨_, d1, hb⟩ := bind_eq_ok.1 hb
        obtain ⟨v1, q1, hb⟩ := bind_eq_ok.1 hb
        obtain ⟨_, d2, hk⟩ := bind_eq_ok.1 hb
        simp only at d0 q0 d1 q1
        simp only [d0, q0, d1, q1, d2, hk, ok_bind]
        refine (key (keep ++ ks) x).2 ?_
        rw [hr, ok_bind, hks, ok_bind]
        simpa using hx
    · simp only [h, if_false, ok_bind, mapE_nil, List.flatten_nil, List.append_nil]; exact Agree.rfl

theorem exec_flp (bld : Build) (cfg : Config) (n : Nat) (kcs : Pair2 P) :
    Agree ((flpP P bld cfg n).exec c0 c1 kcs) (driverFlp c0 c1 bld cfg kcs n >>= fun k => .ok ((), k)) := by
  have e : (driverFlp c0 c1 bld cfg kcs n >>= fun k => (.ok ((), k) : Exec (Unit × Pair2 P)))
      = (do
        let ranges ← whileRanges n cfg.queryBatch n 0
        let keeps ← mapE (flpBatch c0 c1 bld cfg.histBuckets kcs) ranges
        (.ok ([] ++ keeps.flatten, kcs) : Exec (List Bool × Pair2 P))) >>= fun x =>
          (callDone (.applyFlpResults x.1) (.applyFlpResults x.1)).exec c0 c1 x.2 := by
    simp [driverFlp, bind_assoc, exec_apply]
  rw [e, flpP, exec_bind]
  exact (exec_flpLoop bld cfg n kcs n 0 []).bind fun x _ => Agree.rfl

theorem exec_crawlCall (req : CrawlReq) (kcs : Pair2 P) :
    (callCrawl (.treeCrawl req.splitBy req.malicious req.isLast)
      (.treeCrawl req.splitBy req.malicious req.isLast)).exec c0 c1 kcs
      = crawlBoth c0 c1 kcs req >>= fun x => .ok (x.2, x.1) := by
  simp [callCrawl, Prog.exec, preLock, locked, crawlBoth, bind_assoc]

theorem exec_levelLoop (cfg : Config) (n : Nat) (fuel : Nat) (kcs : Pair2 P) (req : CrawlReq) :
    (levelLoopP cfg n fuel req).exec c0 c1 kcs
      = runLevelLoop (crawlBoth c0 c1) cfg.histBuckets (max 1 cfg.threshold) n fuel kcs req >>= fun x =>
        .ok (x.2.1, x.1) := by
  induction fuel generalizing kcs req with
  | zero => rfl
  | succ fuel ih =>
    rw [levelLoopP, runLevelLoop]
    simp only [exec_bind, exec_crawlCall, liftM_prog, monadLift_prog, exec_lift, bind_assoc, ok_bind]
    refine bind_congr fun x => ?_
    refine bind_congr fun _ => ?_
    refine bind_congr fun keep => ?_
    by_cases h1 : x.2.1.roots.isEmpty = true
    · simp only [h1, if_true, exec_ret, ok_bind]
    · rw [if_neg h1, if_neg h1]
      simp only [exec_bind, exec_lift, bind_assoc, ok_bind]
      refine bind_congr fun mal => ?_
      by_cases h2 : mal.isEmpty = true
      · simp only [h2, if_true, exec_ret, ok_bind]
      · rw [if_neg h2, if_neg h2]
        by_cases h3 : n ≤ req.splitBy
        · rw [if_pos h3, if_pos h3]
          by_cases h4 : req.isLast = true
          · rw [if_pos h4, if_pos h4]; rfl
          · rw [if_neg h4, if_neg h4, ih, bind_assoc]; rfl
        · rw [if_neg h3, if_neg h3, ih, bind_assoc]; rfl

theorem exec_level (cfg : Config) (n : Nat) (kcs : Pair2 P) :
    (levelP cfg n).exec c0 c1 kcs = runLevel c0 c1 cfg kcs n >>= fun k => .ok ((), k) := by
  simp only [levelP, exec_bind, exec_levelLoop, bind_assoc, ok_bind, exec_prune, runLevel, searchLevel]

theorem exec_levels (bld : Build) (cfg : Config) (n : Nat) (ls : List Nat) (kcs : Pair2 P) :
    Agree ((levelsP P bld cfg n ls).exec c0 c1 kcs)
      (foldE (levelStep c0 c1 bld cfg n) kcs ls >>= fun k => .ok ((), k)) := by
  induction ls generalizing kcs with
  | nil => exact Agree.rfl
  | cons l ls ih =>
    rw [levelsP, foldE_cons, levelStep]
    have rest : ∀ k : Pair2 P, Agree ((levelP cfg n >>= fun _ => levelsP P bld cfg n ls).exec c0 c1 k)
        (runLevel c0 c1 cfg k n >>= fun k' => foldE (levelStep c0 c1 bld cfg n) k' ls >>= fun k => .ok ((), k)) := by
      intro k
      rw [exec_bind, exec_level, bind_assoc]
      exact Agree.rfl.bind fun k' _ => ih k'
    by_cases h : l = 0
    · rw [if_pos h, if_pos h, exec_bind]
      refine ((exec_flp bld cfg n kcs).bind fun x _ => rest x.2).trans (Agree.of_eq ?_)
      simp only [bind_assoc, ok_bind]
    · rw [if_neg h, if_neg h]
      refine (rest kcs).trans (Agree.of_eq ?_)
      simp only [bind_assoc, ok_bind]

theorem exec_proofCall (s e : Nat) (kcs : Pair2 P) :
    (callProofs (.getProofs s e) (.getProofs s e)).exec c0 c1 kcs = (do
      debugAssert c0.build (decide (s < e))
      debugAssert c1.build (decide (s < e))
      .ok ((kcs.1.getProofs s e, kcs.2.getProofs s e), kcs)) := by
  simp [callProofs, Prog.exec, preLock, locked, bind_assoc]

theorem exec_proofLoop (cfg : Config) (n : Nat) (kcs : Pair2 P) (fuel start : Nat) :
    Agree ((proofLoopP cfg n fuel start).exec c0 c1 kcs)
      (do
        let ranges ← whileRanges n cfg.queryBatch fuel start
        let _ ← mapE (compareProofs c0 c1 kcs) ranges
        .ok ((), kcs)) := by
  induction fuel generalizing start with
  | zero =>
    rw [proofLoopP, whileRanges]
    by_cases h : start < n
    · simp only [h, if_true]; exact Agree.rfl
    · simp only [h, if_false, ok_bind, mapE_nil]; exact Agree.rfl
  | succ fuel ih =>
    rw [proofLoopP, whileRanges]
    by_cases h : start < n
    · simp only [h, if_true, exec_bind, exec_proofCall, liftM_prog, monadLift_prog, exec_lift, bind_assoc, ok_bind,
        mapE_cons]
      intro x
      constructor
      · intro hx
        obtain ⟨_, d0, hx⟩ := bind_eq_ok.1 hx
        obtain ⟨_, d1, hx⟩ := bind_eq_ok.1 hx
        obtain ⟨_, e0, hx⟩ := bind_eq_ok.1 hx
        obtain ⟨_, e1, hx⟩ := bind_eq_ok.1 hx
        obtain ⟨rs, hr, hx⟩ := bind_eq_ok.1 ((ih (start + cfg.queryBatch) x).1 hx)
        obtain ⟨us, hus, hx⟩ := bind_eq_ok.1 hx
        simp only [hr, ok_bind, compareProofs, d0, d1, e0, e1]
        rw [show mapE _ rs = .ok us from hus]
        exact hx
      · intro hx
        obtain ⟨rs, hr, hx⟩ := bind_eq_ok.1 hx
        obtain ⟨_, hb, hx⟩ := bind_eq_ok.1 hx
        obtain ⟨us, hus, hx⟩ := bind_eq_ok.1 hx
        unfold compareProofs at hb
        obtain ⟨_, d0, hb⟩ := bind_eq_ok.1 hb
        obtain ⟨_, d1, hb⟩ := bind_eq_ok.1 hb
        obtain ⟨_, e0, e1⟩ := bind_eq_ok.1 hb
        simp only at d0 d1 e0 e1
        simp only [d0, d1, e0, e1, ok_bind]
        refine (ih (start + cfg.queryBatch) x).2 ?_
        rw [hr, ok_bind, hus, ok_bind]
        exact hx
    · simp only [h, if_false, ok_bind, mapE_nil]; exact Agree.rfl

theorem exec_crawlLast (kcs : Pair2 P) :
    (callVecs .treeCrawlLast .treeCrawlLast).exec c0 c1 kcs = (do
      let x0 ← kcs.1.treeCrawlLast
      let x1 ← kcs.2.treeCrawlLast
      .ok ((x0.2, x1.2), (x0.1, x1.1))) := by
  simp [callVecs, Prog.exec, preLock, locked, bind_assoc]

theorem exec_finalShares (kcs : Pair2 P) :
    (callShares .finalShares .finalShares).exec c0 c1 kcs
      = .ok ((kcs.1.finalShares, kcs.2.finalShares), kcs) := by
  simp [callShares, Prog.exec, preLock, locked]

theorem exec_levelLast (cfg : Config) (n : Nat) (kcs : Pair2 P) :
    Agree ((levelLastP cfg n).exec c0 c1 kcs)
      (runLevelLast c0 c1 cfg kcs n >>= fun out => .ok (.whh out.results out.printed, out.kcs)) := by
  simp only [levelLastP, exec_bind, exec_crawlLast, liftM_prog, monadLift_prog, exec_lift, bind_assoc, ok_bind,
    runLevelLast, exec_prune, exec_finalShares, exec_ret]
  refine Agree.rfl.bind fun x0 _ => Agree.rfl.bind fun x1 _ => Agree.rfl.bind fun _ _ =>
    Agree.rfl.bind fun keep _ => ?_
  have := (exec_proofLoop (c0 := c0) (c1 := c1) cfg n (x0.1, x1.1) n 0).bind
    (f := fun x => pruneBoth x.2 keep >>= fun k => unwrapO cfg.dataBits >>= fun _ =>
      finalValues cfg.histBuckets k.1.finalShares k.2.finalShares >>= fun results =>
      printed cfg.histBuckets results >>= fun pr => (.ok (Shown.whh results pr, k) : Exec (Shown × Pair2 P)))
    fun x _ => Agree.rfl
  simp only [bind_assoc, ok_bind] at this
  exact this

theorem exec_whh (bld : Build) (cfg : Config) (n : Nat) (kcs : Pair2 P) :
    Agree ((whhP P bld cfg n).exec c0 c1 kcs)
      (runWhh c0 c1 bld cfg kcs n >>= fun out => .ok (.whh out.results out.printed, out.kcs)) := by
  rw [whhP, runWhh, exec_bind, exec_treeInit, bind_assoc, bind_assoc]
  refine Agree.bind Agree.rfl fun k _ => ?_
  rw [ok_bind, exec_bind, liftM_prog, exec_lift, bind_assoc, bind_assoc]
  refine Agree.bind Agree.rfl fun ls _ => ?_
  rw [ok_bind, exec_bind, bind_assoc]
  refine ((exec_levels bld cfg n (List.range ls) k).bind fun x _ => exec_levelLast cfg n x.2).trans
    (Agree.of_eq ?_)
  rw [bind_assoc]
  rfl

theorem exec_abmBatch (cfg : Config) (attributes : List (List Bool)) (range : Nat × Nat) (kcs : Pair2 P) :
    Agree ((abmBatchP P cfg attributes range).exec c0 c1 kcs)
      (abmBatch c0 c1 cfg attributes kcs range >>= fun x => .ok (x.2, x.1)) := by
  have e1 : (callValidated (.abmValidate attributes range.1 range.2) (.abmValidate attributes range.1 range.2)).exec
      c0 c1 kcs = (do
        debugAssert c0.build (decide (range.1 < range.2))
        let x0 ← srvAbmValidate kcs.1 attributes range.1 range.2
        debugAssert c1.build (decide (range.1 < range.2))
        let x1 ← srvAbmValidate kcs.2 attributes range.1 range.2
        .ok ((x0.2, x1.2), (x0.1, x1.1))) := by
    simp [callValidated, Prog.exec, preLock, locked, bind_assoc]
  have e2 : ∀ (rej : List Nat) (k : Pair2 P),
      (callVecs (.abmResult rej attributes.length range.1 range.2)
        (.abmResult rej attributes.length range.1 range.2)).exec c0 c1 k = (do
        debugAssert c0.build (decide (range.1 < range.2))
        let x0 ← srvAbmResult c0 k.1 rej attributes.length
        debugAssert c1.build (decide (range.1 < range.2))
        let x1 ← srvAbmResult c1 k.2 rej attributes.length
        .ok ((x0.2, x1.2), (x0.1, x1.1))) := by
    intro rej k
    simp [callVecs, Prog.exec, preLock, locked, bind_assoc]
  simp only [abmBatchP, exec_bind, e1, e2, liftM_prog, exec_lift, bind_assoc, ok_bind, abmBatch, exec_ret]
  refine Agree.rfl.bind fun _ h0 => Agree.rfl.bind fun x0 _ => Agree.rfl.bind fun _ h1 =>
    Agree.rfl.bind fun x1 _ => Agree.rfl.bind fun _ _ => Agree.rfl.bind fun _ _ => Agree.rfl.bind fun rej _ => ?_
  rw [h0, h1]
  exact Agree.rfl

theorem exec_abmLoop (cfg : Config) (attributes : List (List Bool)) (rs : List (Nat × Nat)) (kcs : Pair2 P) :
    Agree ((abmLoopP P cfg attributes rs).exec c0 c1 kcs)
      (abmLoop c0 c1 cfg attributes rs kcs >>= fun x => .ok (x.2, x.1)) := by
  induction rs generalizing kcs with
  | nil => exact Agree.rfl
  | cons r rs ih =>
    rw [abmLoopP, abmLoop, exec_bind]
    refine ((exec_abmBatch cfg attributes r kcs).bind (g := fun x => abmLoop c0 c1 cfg attributes rs x.2 >>= fun y => .ok (x.1 :: y.2, y.1))
      fun x _ => ?_).trans (Agree.of_eq ?_)
    · rw [exec_bind]
      refine ((ih x.2).bind fun y _ => Agree.rfl).trans (Agree.of_eq ?_)
      simp only [bind_assoc, ok_bind, exec_ret]
    · simp only [bind_assoc, ok_bind]

theorem exec_pmBatch (cfg : Config) (range : Nat × Nat) (kcs : Pair2 P) :
    Agree ((pmBatchP P cfg range).exec c0 c1 kcs)
      (pmBatch c0 c1 cfg kcs range >>= fun x => .ok (x.2, x.1)) := by
  have e1 : (callBytes (.pmValidate range.1 range.2) (.pmValidate range.1 range.2)).exec c0 c1 kcs = (do
        debugAssert c0.build (decide (range.1 < range.2))
        let x0 ← srvPmValidate c0 kcs.1 range.1 range.2
        debugAssert c1.build (decide (range.1 < range.2))
        let x1 ← srvPmValidate c1 kcs.2 range.1 range.2
        .ok ((x0.2, x1.2), (x0.1, x1.1))) := by
    simp [callBytes, Prog.exec, preLock, locked, bind_assoc]
  have e2 : ∀ (a b : List (List Byte)) (k : Pair2 P),
      (callAggregate (.pmResult a range.1 range.2) (.pmResult b range.1 range.2)).exec c0 c1 k = (do
        debugAssert c0.build (decide (range.1 < range.2))
        let x0 ← srvPmResult c0 k.1 a range.1 range.2
        debugAssert c1.build (decide (range.1 < range.2))
        let x1 ← srvPmResult c1 k.2 b range.1 range.2
        .ok ((x0.2, x1.2), (x0.1, x1.1))) := by
    intro a b k
    simp [callAggregate, Prog.exec, preLock, locked, bind_assoc]
  simp only [pmBatchP, exec_bind, e1, e2, liftM_prog, exec_lift, bind_assoc, ok_bind, pmBatch, exec_ret]
  refine Agree.rfl.bind fun _ h0 => Agree.rfl.bind fun x0 _ => Agree.rfl.bind fun _ h1 =>
    Agree.rfl.bind fun x1 _ => Agree.rfl.bind fun _ _ => Agree.rfl.bind fun _ _ => ?_
  rw [h0, h1]
  exact Agree.rfl

theorem exec_pmLoop (cfg : Config) (rs : List (Nat × Nat)) (kcs : Pair2 P) :
    Agree ((pmLoopP P cfg rs).exec c0 c1 kcs)
      (pmLoop c0 c1 cfg rs kcs >>= fun x => .ok (x.2, x.1)) := by
  induction rs generalizing kcs with
  | nil => exact Agree.rfl
  | cons r rs ih =>
    rw [pmLoopP, pmLoop, exec_bind]
    refine ((exec_pmBatch cfg r kcs).bind (g := fun x => pmLoop c0 c1 cfg rs x.2 >>= fun y => .ok (x.1 :: y.2, y.1))
      fun x _ => ?_).trans (Agree.of_eq ?_)
    · rw [exec_bind]
      refine ((ih x.2).bind fun y _ => Agree.rfl).trans (Agree.of_eq ?_)
      simp only [bind_assoc, ok_bind, exec_ret]
    · simp only [bind_assoc, ok_bind]

theorem Agree.fst {a : Exec (α × γ)} {b : Exec (α × γ)} (h : Agree a b) :
    Agree (a >>= fun x => .ok x.1) (b >>= fun x => .ok x.1) := h.bind fun _ _ => Agree.rfl

theorem exec_collect (bld : Build) (cfg : Config) (mode : DriverMode) (draw : MainDraw) (n : Nat)
    (reports : List PlaintextReport) (kcs : Pair2 P) :
    Agree ((collectP P bld cfg mode draw n reports).exec c0 c1 kcs >>= fun x => .ok x.1)
      ((match mode with
        | .weightedHeavyHitters => do
          let out ← runWhh c0 c1 bld cfg kcs n
          .ok (.whh out)
        | .attributeBasedMetrics num => do
          let attributes ← mainAttributes reports draw num
          let (_, out) ← runAbm c0 c1 cfg kcs attributes n
          .ok (.abm attributes out)
        | .plainMetrics => do
          let (_, out) ← runPm c0 c1 cfg kcs n
          .ok (.pm out) : Exec (MainOut P)) >>= fun o => .ok o.shown) := by
  cases mode with
  | weightedHeavyHitters =>
    refine (exec_whh bld cfg n kcs).fst.trans (Agree.of_eq ?_)
    simp only [bind_assoc, ok_bind]
    rfl
  | attributeBasedMetrics num =>
    simp only [collectP, exec_bind, liftM_prog, exec_lift, bind_assoc, ok_bind, exec_ret, runAbm]
    refine Agree.rfl.bind fun at' _ => Agree.rfl.bind fun rs _ => ?_
    refine ((exec_abmLoop cfg at' rs kcs).bind fun x _ => Agree.rfl).trans (Agree.of_eq ?_)
    simp only [bind_assoc, ok_bind]
    rfl
  | plainMetrics =>
    simp only [collectP, runPm]
    by_cases h : P.prio3Ok cfg.histBuckets = true
    · simp only [h, Bool.not_true, Bool.false_eq_true, if_false]
      simp only [exec_bind, liftM_prog, exec_lift, bind_assoc, ok_bind, exec_ret]
      refine Agree.rfl.bind fun rs _ => ?_
      refine ((exec_pmLoop cfg rs kcs).bind fun x _ => Agree.rfl).trans (Agree.of_eq ?_)
      simp only [bind_assoc, ok_bind]
      rfl
    · simp only [h, Bool.not_false, if_true]
      exact fun x => ⟨fun hx => by simp at hx, fun hx => by simp at hx⟩

theorem exec_main (bld : Build) (cfg : Config) (mode : DriverMode) (draw : MainDraw) (n : Nat) (kcs : Pair2 P) :
    Agree ((mainP P bld cfg mode draw n).exec c0 c1 kcs >>= fun x => .ok x.1)
      (driverMain c0 c1 bld cfg mode draw n kcs >>= fun o => .ok o.shown) := by
  rw [mainP, driverMain, exec_bind, liftM_prog, exec_lift]
  simp only [bind_assoc, ok_bind]
  refine Agree.rfl.bind fun _ _ => ?_
  by_cases hh : P.histOk cfg.histBuckets = true
  · simp only [hh, Bool.not_true, Bool.false_eq_true, if_false]
    simp only [exec_bind, liftM_prog, exec_lift, exec_reset, bind_assoc, ok_bind]
    refine Agree.rfl.bind fun reports _ => Agree.rfl.bind fun k1 _ => ?_
    have hu : (mainUploadP cfg draw reports n).exec c0 c1 k1
        = mainUpload cfg draw reports k1 n >>= fun k => .ok ((), k) := by
      unfold mainUploadP mainUpload
      split_ifs
      · rfl
      · exact exec_upload ..
    rw [hu]
    simp only [bind_assoc, ok_bind]
    refine Agree.rfl.bind fun k2 _ => ?_
    exact exec_collect bld cfg mode draw n reports k2
  · simp only [hh, Bool.not_false, if_true]
    exact fun x => ⟨fun hx => by simp at hx, fun hx => by simp at hx⟩

end Mastic
