import Verif.Lemmas.Interleave
import Verif.Lemmas.Main
import Verif.Lemmas.Engine

/-!
# Helper lemmas: sessions of several drivers
-/

namespace Mastic

open Relation

variable {P : Prims} {ι α β : Type} [DecidableEq ι] {c : Bool → ServerCfg}

/-! ### Sequential runs are deterministic -/

/-- One completed request. -/
def Next (c : Bool → ServerCfg) (x y : Prog α × (Bool → Server P)) : Prop :=
  ∃ (r0 r1 : Req) (k : Resp → Resp → Prog α) (a0 a1 : Resp), x.1 = .ask r0 r1 k ∧
    answer c x.2 r0 r1 false = .ok a0 ∧ answer c x.2 r0 r1 true = .ok a1 ∧ y = (k a0 a1, handleBoth c x.2 r0 r1)

theorem seq_iff {p q : Prog α} {s t : Bool → Server P} : Seq c p s q t ↔ ReflTransGen (Next c) (p, s) (q, t) := by
  constructor
  · intro h
    induction h with
    | refl => exact .refl
    | step srv r0 r1 k a0 a1 _ h0 h1 ih => exact ih.tail ⟨r0, r1, k, a0, a1, rfl, h0, h1, rfl⟩
  · intro h
    generalize hy : (q, t) = y at h
    induction h generalizing q t with
    | refl => cases hy; exact .refl _ _
    | @tail b d _ hs ih =>
      subst hy
      obtain ⟨r0, r1, k, a0, a1, e, h0, h1, e'⟩ := hs
      obtain ⟨b1, b2⟩ := b
      simp only at e h0 h1
      subst e
      cases e'
      exact .step _ _ _ _ _ _ _ _ (ih rfl) h0 h1

theorem next_unique : Relator.RightUnique (Next (P := P) (α := α) c) := by
  rintro ⟨p, s⟩ y z ⟨r0, r1, k, a0, a1, e, h0, h1, hy⟩ ⟨r0', r1', k', a0', a1', e', h0', h1', hz⟩
  simp only at e e' h0 h1 h0' h1'
  rw [e] at e'
  cases e'
  rw [h0] at h0'
  rw [h1] at h1'
  cases h0'
  cases h1'
  rw [hy, hz]

theorem seq_linear {p q r : Prog α} {s t u : Bool → Server P} (h : Seq c p s q t) (h' : Seq c p s r u) :
    Seq c q t r u ∨ Seq c r u q t := by
  rw [seq_iff] at h h' ⊢
  rw [seq_iff]
  exact ReflTransGen.total_of_right_unique next_unique h h'

/-- A finished request takes a sequential run to the next one. -/
theorem seq_of_exec {p : Prog α} : ∀ {kcs kcs' : Pair2 P} {a : α},
    p.exec (c false) (c true) kcs = .ok (a, kcs') → ∀ {β : Type} (f : α → Prog β) (p0 : Prog β) (srv : Bool → Server P),
    Seq c p0 srv (p >>= f) (runningPair kcs) → Seq c p0 srv (f a) (runningPair kcs') := by
  induction p with
  | ret a =>
    intro kcs kcs' a' h β f p0 srv hs
    cases h
    exact hs
  | panic p => intro kcs kcs' a' h; cases h
  | ask r0 r1 k ih =>
    intro kcs kcs' a h β f p0 srv hs
    rw [Prog.exec] at h
    obtain ⟨_, p0', h⟩ := bind_eq_ok.1 h
    obtain ⟨⟨k0, a0⟩, l0, h⟩ := bind_eq_ok.1 h
    obtain ⟨_, p1', h⟩ := bind_eq_ok.1 h
    obtain ⟨⟨k1, a1⟩, l1, h⟩ := bind_eq_ok.1 h
    have n0 : (Server.running kcs.1).handle (c false) r0 = (.running k0, .ok a0) := by
      rw [handle_running_eq, p0', l0]
    have n1 : (Server.running kcs.2).handle (c true) r1 = (.running k1, .ok a1) := by
      rw [handle_running_eq, p1', l1]
    have q0 : answer c (runningPair kcs) r0 r1 false = .ok a0 := congrArg Prod.snd n0
    have q1 : answer c (runningPair kcs) r0 r1 true = .ok a1 := congrArg Prod.snd n1
    have e : handleBoth c (runningPair kcs) r0 r1 = runningPair (k0, k1) := by
      funext b
      cases b
      · exact congrArg Prod.fst n0
      · exact congrArg Prod.fst n1
    have hstep := Seq.step p0 srv (runningPair kcs) r0 r1 (fun a b => (k a b).bind f) a0 a1 hs q0 q1
    rw [e] at hstep
    exact ih a0 a1 h f p0 srv hstep

/-- If the sequential run gets to a request that is not answered, every execution that cannot go on got there too, and
a server which did not answer has handled that request. -/
theorem stuck_at {i : ι} {p0 : Prog α} {s0 s : Sys P ι α} {r0 r1 : Req} {k : Resp → Resp → Prog α}
    {srv : Bool → Server P} {b : Bool} {e : Panic} (h0 : s0.drv i = .ready p0)
    (hseq : Seq c p0 s0.srv (.ask r0 r1 k) srv) (he : answer c srv r0 r1 b = .error e)
    (h : ReflTransGen (StepBy c i) s0 s) (hs : Stuck c i s) :
    s.drv i = .crashed none ∧
      ∃ b' e', answer c srv r0 r1 b' = .error e' ∧ s.srv b' = handleBoth c srv r0 r1 b' := by
  obtain ⟨p, srv', hp, ha⟩ := at_reach h0 h
  have hdone : p = .ask r0 r1 k ∧ srv' = srv := by
    rcases seq_linear hp hseq with h1 | h1
    · rw [seq_iff] at h1
      rcases ReflTransGen.cases_head h1 with h1 | ⟨y, ⟨q0, q1, kk, a0, a1, e1, g0, g1, -⟩, -⟩
      · cases h1; exact ⟨rfl, rfl⟩
      · exfalso
        simp only at e1 g0 g1
        subst e1
        rcases stuck_cases hs with ⟨a, hd⟩ | ⟨q, hd⟩ | hd
        · cases ha with
          | ready h' _ => rw [h'] at hd; cases hd
          | waiting _ _ _ _ _ h' _ => rw [h'] at hd; cases hd
          | crashed _ _ _ _ _ _ _ h' _ _ _ => rw [h'] at hd; cases hd
        · cases ha with
          | ready h' _ => rw [h'] at hd; cases hd
          | waiting _ _ _ _ _ h' _ => rw [h'] at hd; cases hd
          | crashed _ _ _ _ _ _ _ h' _ _ _ => rw [h'] at hd; cases hd
        · cases ha with
          | ready h' _ => rw [h'] at hd; cases hd
          | waiting _ _ _ _ _ h' _ => rw [h'] at hd; cases hd
          | crashed _ _ _ b' _ _ hp' h' he' _ _ =>
            cases hp'
            cases b'
            · rw [g0] at he'; cases he'
            · rw [g1] at he'; cases he'
    · rw [seq_iff] at h1
      rcases ReflTransGen.cases_head h1 with h1 | ⟨y, ⟨q0, q1, kk, a0, a1, e1, g0, g1, -⟩, -⟩
      · cases h1; exact ⟨rfl, rfl⟩
      · exfalso
        simp only at e1 g0 g1
        cases e1
        cases b
        · rw [g0] at he; cases he
        · rw [g1] at he; cases he
  obtain ⟨rfl, rfl⟩ := hdone
  cases ha with
  | ready h' _ => exact absurd (StepBy.send s r0 r1 k h') (hs _)
  | waiting _ _ _ _ _ h' _ =>
    rcases stuck_cases hs with ⟨a, hd⟩ | ⟨q, hd⟩ | hd <;> rw [h'] at hd <;> cases hd
  | crashed _ _ _ b' e' _ hp' h' he' hb' _ =>
    cases hp'
    refine ⟨?_, b', e', he', hb'⟩
    rcases stuck_cases hs with ⟨a, hd⟩ | ⟨q, hd⟩ | hd
    · rw [h'] at hd; cases hd
    · rw [h'] at hd; cases hd
    · exact hd

/-! ### A poisoned server -/

theorem handle_poisoned (cfg : ServerCfg) (r : Req) :
    ((Server.poisoned : Server P).handle cfg r).1 = .poisoned ∧
    ∃ e, ((Server.poisoned : Server P).handle cfg r).2 = .error e := by
  unfold Server.handle
  cases preLock cfg r with
  | error p => exact ⟨rfl, p, rfl⟩
  | ok u => cases u; exact ⟨rfl, _, rfl⟩

theorem poisoned_handle {s : Sys P ι α} {b : Bool} (h : s.srv b = .poisoned) (b' : Bool) (r : Req) :
    (s.handle c b' r).srv b = .poisoned := by
  rcases bool_or b' b with rfl | rfl
  · rw [handle_srv, h]
    exact (handle_poisoned _ _).1
  · rw [handle_srv_not]; exact h

/-- A poisoned server stays poisoned. -/
theorem poisoned_step {s s' : Sys P ι α} {b : Bool} (hs : Step c s s') (h : s.srv b = .poisoned) :
    s'.srv b = .poisoned := by
  obtain ⟨i, hs⟩ := hs
  cases hs with
  | send => exact h
  | serve b' calls k r => exact poisoned_handle h b' r
  | receive => exact h
  | fail => exact h
  | stray b' r => exact poisoned_handle h b' r
  | lost => exact h

/-- The driver needs another answer from server `b` before it can return. -/
inductive Needs (b : Bool) : Drv α → Prop
  | ask (r0 r1 : Req) (k : Resp → Resp → Prog α) : Needs b (.ready (.ask r0 r1 k))
  | panic (p : Panic) : Needs b (.ready (.panic p))
  | waiting (calls : Bool → Call) (k : Resp → Resp → Prog α) (h : ∀ a, calls b ≠ .answered a) : Needs b (.waiting calls k)
  | crashed (st : Option (Bool × Req)) : Needs b (.crashed st)

theorem needs_step {s s' : Sys P ι α} {b : Bool} {i : ι} (hs : Step c s s') (h : s.srv b = .poisoned)
    (hn : Needs b (s.drv i)) : Needs b (s'.drv i) := by
  obtain ⟨j, hs⟩ := hs
  by_cases hij : i = j
  · subst hij
    cases hs with
    | send r0 r1 k hd => rw [drive_drv]; exact .waiting _ _ fun a => by simp
    | serve b' calls k r hd hc =>
      rw [drive_drv]
      rw [hd] at hn
      cases hn with
      | waiting _ _ hn =>
        refine .waiting _ _ fun a => ?_
        rcases bool_or b' b with rfl | rfl
        · rw [Function.update_self, h]
          obtain ⟨e, he⟩ := (handle_poisoned (P := P) (c b) r).2
          rw [he]
          simp [Call.of]
        · rw [Function.update_of_ne (by simp)]
          exact hn a
    | receive calls k a0 a1 hd h0 h1 =>
      rw [hd] at hn
      cases hn with
      | waiting _ _ hn =>
        exfalso
        cases b
        · exact hn _ h0
        · exact hn _ h1
    | fail => rw [drive_drv]; exact .crashed _
    | stray => rw [drive_drv]; exact .crashed _
    | lost => rw [drive_drv]; exact .crashed _
  · rw [stepBy_other hij hs]
    exact hn

theorem needs_reach {s s' : Sys P ι α} {b : Bool} {i : ι} (hs : ReflTransGen (Step c) s s')
    (h : s.srv b = .poisoned) (hn : Needs b (s.drv i)) : s'.srv b = .poisoned ∧ Needs b (s'.drv i) := by
  induction hs with
  | refl => exact ⟨h, hn⟩
  | tail _ hs ih => exact ⟨poisoned_step hs ih.1, needs_step hs ih.1 ih.2⟩

/-! ### The phases of a run -/

/-- `main` up to the upload (lines 689-748). -/
def prepP (P : Prims) (cfg : Config) (mode : DriverMode) (draw : MainDraw) (n : Nat) : Prog (List PlaintextReport) := do
  assertE draw.maliciousOk
  if !P.histOk cfg.histBuckets then .panic .unwrap
  else do
    let reports ← generateReports P cfg mode draw.reports
    resetP cfg draw.verifyKey
    mainUploadP cfg draw reports n
    .ret reports

theorem prog_bind_assoc {γ : Type} (p : Prog α) (f : α → Prog β) (g : β → Prog γ) :
    (p >>= f) >>= g = p >>= fun x => f x >>= g := by
  induction p with
  | ret a => rfl
  | panic p => rfl
  | ask r0 r1 k ih => exact congrArg (Prog.ask r0 r1) (funext fun a => funext fun b => ih a b)

theorem prog_bind_ret (p : Prog α) : (p >>= Prog.ret) = p := by
  induction p with
  | ret a => rfl
  | panic p => rfl
  | ask r0 r1 k ih => exact congrArg (Prog.ask r0 r1) (funext fun a => funext fun b => ih a b)

theorem prog_ret_bind (a : α) (f : α → Prog β) : (Prog.ret a >>= f) = f a := rfl

theorem mainP_eq (bld : Build) (cfg : Config) (mode : DriverMode) (draw : MainDraw) (n : Nat) :
    mainP P bld cfg mode draw n = prepP P cfg mode draw n >>= collectP P bld cfg mode draw n := by
  unfold mainP prepP
  rw [prog_bind_assoc]
  congr 1
  funext _
  by_cases h : P.histOk cfg.histBuckets = true
  · simp only [h, Bool.not_true, Bool.false_eq_true, if_false, prog_bind_assoc, prog_ret_bind]
  · simp only [h, Bool.not_false, if_true]
    rfl

/-- A run of `main` sends at least one request, or panics before. -/
theorem mainP_needs (b : Bool) (bld : Build) (cfg : Config) (mode : DriverMode) (draw : MainDraw) (n : Nat) :
    Needs b (.ready (mainP P bld cfg mode draw n)) := by
  unfold mainP
  simp only [liftM_prog]
  cases assertE draw.maliciousOk with
  | error p => exact .panic p
  | ok u =>
    show Needs b (.ready (if (!P.histOk cfg.histBuckets) = true then _ else _))
    by_cases h : P.histOk cfg.histBuckets = true
    · rw [if_neg (by simp [h])]
      cases generateReports P cfg mode draw.reports with
      | error p => exact .panic p
      | ok reports => exact .ask _ _ _
    · rw [if_pos (by simp [h])]
      exact .panic _

theorem exec_mainUpload {c0 c1 : ServerCfg} (cfg : Config) (draw : MainDraw) (reports : List PlaintextReport) (n : Nat)
    (kcs : Pair2 P) : (mainUploadP cfg draw reports n).exec c0 c1 kcs
      = mainUpload cfg draw reports kcs n >>= fun k => .ok ((), k) := by
  unfold mainUploadP mainUpload
  by_cases h : (!draw.zipfOk) = true ∧ 0 < n ∧ 0 < cfg.addBatch
  · rw [if_pos h, if_pos h]; rfl
  · rw [if_neg h, if_neg h, exec_upload]

/-- The first phase, sequentially. -/
theorem exec_prep {c0 c1 : ServerCfg} (cfg : Config) (mode : DriverMode) (draw : MainDraw) (n : Nat) (kcs : Pair2 P) :
    (prepP P cfg mode draw n).exec c0 c1 kcs = (do
      assertE draw.maliciousOk
      if !P.histOk cfg.histBuckets then .error .unwrap
      else do
        let reports ← generateReports P cfg mode draw.reports
        let k ← resetServers c0 c1 cfg kcs draw.verifyKey
        let k ← mainUpload cfg draw reports k n
        .ok (reports, k)) := by
  unfold prepP
  simp only [exec_bind, liftM_prog, exec_lift, bind_assoc, ok_bind]
  refine bind_congr fun _ => ?_
  by_cases h : P.histOk cfg.histBuckets = true
  · simp only [h, Bool.not_true, Bool.false_eq_true, if_false, exec_bind, exec_lift, bind_assoc, ok_bind, exec_reset,
      exec_mainUpload, exec_ret]
  · simp only [h, Bool.not_false, if_true, exec_panic]

/-- The reset discards the state the servers had. -/
theorem resetServers_kcs (c0 c1 : ServerCfg) (cfg : Config) (kcs kcs' : Pair2 P) (vk : Block) :
    resetServers c0 c1 cfg kcs vk = resetServers c0 c1 cfg kcs' vk := rfl

theorem exec_prep_kcs {c0 c1 : ServerCfg} (cfg : Config) (mode : DriverMode) (draw : MainDraw) (n : Nat)
    (kcs kcs' : Pair2 P) :
    (prepP P cfg mode draw n).exec c0 c1 kcs = (prepP P cfg mode draw n).exec c0 c1 kcs' := by
  rw [exec_prep, exec_prep]
  rfl

theorem driverMain_kcs (c0 c1 : ServerCfg) (bld : Build) (cfg : Config) (mode : DriverMode) (draw : MainDraw) (n : Nat)
    (kcs kcs' : Pair2 P) : driverMain c0 c1 bld cfg mode draw n kcs = driverMain c0 c1 bld cfg mode draw n kcs' := rfl

/-- A run that returns passed the first phase. -/
theorem driverMain_prep {c0 c1 : ServerCfg} {bld : Build} {cfg : Config} {draw : MainDraw} {n : Nat} {kcs : Pair2 P}
    {out : MainOut P} (h : driverMain c0 c1 bld cfg .weightedHeavyHitters draw n kcs = .ok out) :
    ∃ reports k o, (prepP P cfg .weightedHeavyHitters draw n).exec c0 c1 kcs = .ok (reports, k) ∧
      runWhh c0 c1 bld cfg k n = .ok o ∧ out = .whh o := by
  unfold driverMain at h
  obtain ⟨_, h1, h⟩ := bind_eq_ok.1 h
  by_cases hh : P.histOk cfg.histBuckets = true
  · rw [if_neg (by simp [hh])] at h
    obtain ⟨reports, h2, h⟩ := bind_eq_ok.1 h
    obtain ⟨k, h3, h⟩ := bind_eq_ok.1 h
    obtain ⟨k', h4, h⟩ := bind_eq_ok.1 h
    obtain ⟨o, h5, h⟩ := bind_eq_ok.1 h
    cases h
    refine ⟨reports, k', o, ?_, h5, rfl⟩
    rw [exec_prep, h1, ok_bind, if_neg (by simp [hh]), h2, ok_bind, h3, ok_bind, h4]
    rfl
  · rw [if_pos (by simp [hh])] at h
    cases h

/-- The search, sequentially. -/
theorem exec_whh_ok {c0 c1 : ServerCfg} {bld : Build} {cfg : Config} {n : Nat} {k : Pair2 P} {o : WhhOut P}
    (h : runWhh c0 c1 bld cfg k n = .ok o) :
    (whhP P bld cfg n).exec c0 c1 k = .ok (.whh o.results o.printed, o.kcs) :=
  (exec_whh bld cfg n k _).2 (by rw [h]; rfl)

/-! ### Where the search stops -/

theorem levelsP_append (bld : Build) (cfg : Config) (n : Nat) (l l' : List Nat) :
    levelsP P bld cfg n (l ++ l') = levelsP P bld cfg n l >>= fun _ => levelsP P bld cfg n l' := by
  induction l with
  | nil => rfl
  | cons x l ih =>
    simp only [List.cons_append, levelsP, ih, prog_bind_assoc]
    by_cases h : x = 0
    · simp only [h, if_true, prog_bind_assoc]
    · simp only [h, if_false, prog_bind_assoc]

/-- A search that stops in a crawl gets as far as that request. -/
theorem seq_stops {bld : Build} {cfg : Config} {kcs : Pair2 P} {n : Nat} {e : Panic}
    (h : WhhStops (c false) (c true) bld cfg kcs n e) {p0 : Prog Shown} {srv : Bool → Server P}
    (hs : Seq c p0 srv (whhP P bld cfg n) (runningPair kcs)) :
    ∃ k kk, Seq c p0 srv (.ask (.treeCrawl 1 [] false) (.treeCrawl 1 [] false) kk) (runningPair k) ∧
      k.1.treeCrawl (c false).build 1 [] false = .error e := by
  obtain ⟨k0, levels, l, k, k', h1, h2, h3, h4, h5, h6⟩ := h
  have hr : List.range levels = List.range l ++ l :: List.range' (l + 1) (levels - l - 1) := by
    rw [← List.range'_succ, List.range_eq_range', List.range_eq_range',
      show levels - l - 1 + 1 = levels - l by omega]
    have := List.range'_append (s := 0) (m := l) (n := levels - l) (step := 1)
    rw [show l + (levels - l) = levels by omega, Nat.one_mul, Nat.zero_add] at this
    exact this.symm
  have s1 := seq_of_exec (c := c) (kcs := kcs) (kcs' := k0) (a := ())
    (by rw [exec_treeInit, h1, ok_bind]) _ p0 srv hs
  simp only [liftM_prog, h2] at s1
  replace s1 : Seq c p0 srv (levelsP P bld cfg n (List.range levels) >>= fun _ => levelLastP cfg n)
    (runningPair k0) := s1
  rw [hr, levelsP_append, prog_bind_assoc] at s1
  have s2 := seq_of_exec (c := c) (kcs := k0) (kcs' := k) (a := ())
    ((exec_levels bld cfg n (List.range l) k0 _).2 (by rw [h4, ok_bind])) _ p0 srv s1
  rw [levelsP] at s2
  have fin : ∀ {q : Prog Shown} {f : Unit → Prog Shown}, q = (levelP cfg n >>= f) →
      Seq c p0 srv q (runningPair k') →
      ∃ k kk, Seq c p0 srv (.ask (.treeCrawl 1 [] false) (.treeCrawl 1 [] false) kk) (runningPair k) ∧
        k.1.treeCrawl (c false).build 1 [] false = .error e := by
    intro q f hq s
    subst hq
    exact ⟨k', _, s, h6⟩
  by_cases hl : l = 0
  · rw [if_pos hl] at h5
    rw [if_pos hl, prog_bind_assoc] at s2
    have s3 := seq_of_exec (c := c) (kcs := k) (kcs' := k') (a := ())
      ((exec_flp bld cfg n k _).2 (by rw [h5, ok_bind])) _ p0 srv s2
    exact fin (prog_bind_assoc _ _ _) s3
  · rw [if_neg hl] at h5
    cases h5
    rw [if_neg hl] at s2
    exact fin (prog_bind_assoc _ _ _) s2

/-- Such a search ends with a poisoned server, in every execution in which no other driver takes part. -/
theorem stops_poisons {i : ι} {bld : Build} {cfg : Config} {kcs : Pair2 P} {n : Nat} {e : Panic}
    (h : WhhStops (c false) (c true) bld cfg kcs n e) {p0 : Prog Shown} {s0 s : Sys P ι Shown}
    (h0 : s0.drv i = .ready p0) (hs : Seq c p0 s0.srv (whhP P bld cfg n) (runningPair kcs))
    (hr : ReflTransGen (StepBy c i) s0 s) (hst : Stuck c i s) :
    s.drv i = .crashed none ∧ ∃ b, s.srv b = .poisoned := by
  obtain ⟨k, kk, hseq, he⟩ := seq_stops h hs
  have ha : answer c (runningPair k) (.treeCrawl 1 [] false) (.treeCrawl 1 [] false) false = .error e := by
    show ((Server.running k.1).handle (c false) (.treeCrawl 1 [] false)).2 = _
    simp only [handle_running_eq, preLock, locked, he]
    rfl
  obtain ⟨g, b, e', g1, g2⟩ := stuck_at h0 hseq ha hr hst
  refine ⟨g, b, ?_⟩
  rw [g2]
  have hp : pick (.treeCrawl 1 [] false) (.treeCrawl 1 [] false) b = .treeCrawl 1 [] false := by
    unfold pick
    split <;> rfl
  unfold answer at g1
  unfold handleBoth
  rw [hp] at g1 ⊢
  rcases handle_running_error (kc := if b then k.2 else k.1) g1 with g | ⟨-, -, g⟩
  · cases g
  · exact g

/-- Two drivers whose next requests are served in different orders by the two servers. -/
theorem crossed_requests {i j : ι} (hij : i ≠ j) {s : Sys P ι α} {kcs : Pair2 P} (hsrv : s.srv = runningPair kcs)
    {r0 r1 q0 q1 : Req} {k k' : Resp → Resp → Prog α} (hi : s.drv i = .ready (.ask r0 r1 k))
    (hj : s.drv j = .ready (.ask q0 q1 k')) {x0 y0 x1 y1 : KeyCollection P} {a0 b0 a1 b1 : Resp}
    (e0 : (Server.running kcs.1).handle (c false) r0 = (.running x0, .ok a0))
    (f0 : (Server.running x0).handle (c false) q0 = (.running y0, .ok b0))
    (f1 : (Server.running kcs.2).handle (c true) q1 = (.running x1, .ok b1))
    (e1 : (Server.running x1).handle (c true) r1 = (.running y1, .ok a1)) :
    ∃ s', ReflTransGen (Step c) s s' ∧ s'.srv = runningPair (y0, y1) ∧ s'.drv i = .ready (k a0 a1) ∧
      s'.drv j = .ready (k' b0 b1) := by
  have hji : j ≠ i := fun h => hij h.symm
  let c0 : Bool → Call := fun b => .sent (if b then r1 else r0)
  let d0 : Bool → Call := fun b => .sent (if b then q1 else q0)
  have t1 := StepBy.send (c := c) s r0 r1 k hi
  set s1 := s.drive i (.waiting c0 k) with es1
  have t2 := StepBy.send (c := c) s1 q0 q1 k' (by rw [es1, drive_other _ _ hji]; exact hj)
  set s2 := s1.drive j (.waiting d0 k') with es2
  have hs2 : s2.srv = runningPair kcs := hsrv
  have di2 : s2.drv i = .waiting c0 k := by rw [es2, drive_other _ _ hij, es1, drive_drv]
  have dj2 : s2.drv j = .waiting d0 k' := by rw [es2, drive_drv]
  -- server 0 handles the request of `i`
  have t3 := StepBy.serve (c := c) s2 false c0 k r0 di2 rfl
  rw [hs2, show runningPair kcs false = .running kcs.1 from rfl, e0] at t3
  set s3 := (s2.handle c false r0).drive i (.waiting (Function.update c0 false (Call.of (.ok a0))) k) with es3
  have h3 : s3.srv false = .running x0 ∧ s3.srv true = .running kcs.2 := by
    constructor
    · rw [es3, drive_srv, handle_srv, hs2, show runningPair kcs false = .running kcs.1 from rfl, e0]
    · rw [es3, drive_srv]
      exact (handle_srv_not (c := c) s2 false r0).trans (by rw [hs2]; rfl)
  have di3 : s3.drv i = _ := drive_drv ..
  have dj3 : s3.drv j = .waiting d0 k' := by rw [es3, drive_other _ _ hji, handle_drv, dj2]
  -- and then that of `j`
  have t4 := StepBy.serve (c := c) s3 false d0 k' q0 dj3 rfl
  rw [h3.1, f0] at t4
  set s4 := (s3.handle c false q0).drive j (.waiting (Function.update d0 false (Call.of (.ok b0))) k') with es4
  have h4 : s4.srv false = .running y0 ∧ s4.srv true = .running kcs.2 := by
    constructor
    · rw [es4, drive_srv, handle_srv, h3.1, f0]
    · rw [es4, drive_srv]
      exact (handle_srv_not (c := c) s3 false q0).trans h3.2
  have dj4 : s4.drv j = _ := drive_drv ..
  have di4 : s4.drv i = .waiting (Function.update c0 false (Call.of (.ok a0))) k := by
    rw [es4, drive_other _ _ hij, handle_drv, di3]
  -- server 1 handles the request of `j`
  have t5 := StepBy.serve (c := c) s4 true _ k' q1 dj4 (by simp [d0])
  rw [h4.2, f1] at t5
  set s5 := (s4.handle c true q1).drive j (.waiting (Function.update (Function.update d0 false (Call.of (.ok b0)))
    true (Call.of (.ok b1))) k') with es5
  have h5 : s5.srv false = .running y0 ∧ s5.srv true = .running x1 := by
    constructor
    · rw [es5, drive_srv]
      exact (handle_srv_not (c := c) s4 true q1).trans h4.1
    · rw [es5, drive_srv, handle_srv, h4.2, f1]
  have dj5 : s5.drv j = _ := drive_drv ..
  have di5 : s5.drv i = .waiting (Function.update c0 false (Call.of (.ok a0))) k := by
    rw [es5, drive_other _ _ hij, handle_drv, di4]
  -- and then that of `i`
  have t6 := StepBy.serve (c := c) s5 true _ k r1 di5 (by simp [c0])
  rw [h5.2, e1] at t6
  set s6 := (s5.handle c true r1).drive i (.waiting (Function.update (Function.update c0 false (Call.of (.ok a0)))
    true (Call.of (.ok a1))) k) with es6
  have h6 : s6.srv = runningPair (y0, y1) := by
    funext b
    cases b
    · rw [es6, drive_srv]
      exact (handle_srv_not (c := c) s5 true r1).trans h5.1
    · rw [es6, drive_srv, handle_srv, h5.2, e1]; rfl
  have di6 : s6.drv i = _ := drive_drv ..
  have dj6 : s6.drv j = _ := (by rw [es6, drive_other _ _ hji, handle_drv] : s6.drv j = s5.drv j).trans dj5
  have t7 := StepBy.receive (c := c) s6 _ k a0 a1 di6 (by simp [Call.of]) (by simp [Call.of])
  set s7 := s6.drive i (.ready (k a0 a1)) with es7
  have dj7 : s7.drv j = _ := (by rw [es7, drive_other _ _ hji] : s7.drv j = s6.drv j).trans dj6
  have t8 := StepBy.receive (c := c) s7 _ k' b0 b1 dj7 (by simp [Call.of]) (by simp [Call.of])
  refine ⟨_, .head ⟨i, t1⟩ (.head ⟨j, t2⟩ (.head ⟨i, t3⟩ (.head ⟨j, t4⟩ (.head ⟨j, t5⟩ (.head ⟨i, t6⟩
    (.head ⟨i, t7⟩ (.head ⟨j, t8⟩ .refl))))))), ?_, ?_, drive_drv ..⟩
  · rw [drive_srv, es7, drive_srv, h6]
  · rw [drive_other _ _ hij, es7, drive_drv]

end Mastic
