import Verif.Lemmas.Sessions
import Verif.Props.Main

/-!
# C75, C76: executions of the whole system

Two server processes and any number of drivers take steps in any order (`Model/System`): the two calls of a
`try_join!` are handled in either order, and steps of other drivers come in between.  `StepBy c i` are the steps taken
on behalf of driver `i`, `Step c` those of all drivers.
-/

namespace Mastic

open Relation

variable {P : Prims} {ι : Type} [DecidableEq ι] {c : Bool → ServerCfg}

theorem srv_running {s : Sys P ι Shown} {kcs : Pair2 P} (r0 : s.srv false = .running kcs.1)
    (r1 : s.srv true = .running kcs.2) : s.srv = runningPair kcs := by
  funext b
  cases b
  · exact r0
  · exact r1

/-! ## C75 -/

/-- **C75, what a driver shows.**  However the steps of a driver and of the servers for it are interleaved, if the
driver gets to the end it shows what the sequential run (`driverMain`) shows, and both servers are in order. -/
theorem C75_returns {i : ι} {bld : Build} {cfg : Config} {mode : DriverMode} {draw : MainDraw} {n : Nat}
    {kcs : Pair2 P} {s0 s : Sys P ι Shown} (r0 : s0.srv false = .running kcs.1) (r1 : s0.srv true = .running kcs.2)
    (h0 : s0.drv i = .ready (mainP P bld cfg mode draw n)) (h : ReflTransGen (StepBy c i) s0 s) {x : Shown}
    (hx : s.drv i = .ready (.ret x)) :
    ∃ out, driverMain (c false) (c true) bld cfg mode draw n kcs = .ok out ∧ x = out.shown ∧
      ∃ kcs' : Pair2 P, s.srv false = .running kcs'.1 ∧ s.srv true = .running kcs'.2 := by
  obtain ⟨p, srv, hseq, ha⟩ := at_reach h0 h
  rw [srv_running r0 r1] at hseq
  obtain ⟨kcs', rfl, e⟩ := seq_exec hseq
  cases ha with
  | ready h' hs =>
    rw [h'] at hx
    cases hx
    have := (exec_main (c0 := c false) (c1 := c true) bld cfg mode draw n kcs x).1 (by rw [e]; rfl)
    obtain ⟨out, g1, g2⟩ := bind_eq_ok.1 this
    refine ⟨out, g1, ?_, kcs', by rw [hs]; rfl, by rw [hs]; rfl⟩
    cases g2
    rfl
  | waiting _ _ _ _ _ h' _ => rw [h'] at hx; cases hx
  | crashed _ _ _ _ _ _ _ h' _ _ _ => rw [h'] at hx; cases hx

/-- **C75, every order.**  When nothing more can happen on behalf of the driver, it has shown the result of the
sequential run if there is one, and has panicked otherwise. -/
theorem C75_refines {i : ι} {bld : Build} {cfg : Config} {mode : DriverMode} {draw : MainDraw} {n : Nat}
    {kcs : Pair2 P} {s0 s : Sys P ι Shown} (r0 : s0.srv false = .running kcs.1) (r1 : s0.srv true = .running kcs.2)
    (h0 : s0.drv i = .ready (mainP P bld cfg mode draw n)) (h : ReflTransGen (StepBy c i) s0 s)
    (hs : ∀ s', ¬ StepBy c i s s') :
    (∀ out, driverMain (c false) (c true) bld cfg mode draw n kcs = .ok out → s.drv i = .ready (.ret out.shown)) ∧
    (∀ e, driverMain (c false) (c true) bld cfg mode draw n kcs = .error e →
      (∃ p, s.drv i = .ready (.panic p)) ∨ s.drv i = .crashed none) := by
  rcases stuck_cases hs with ⟨x, hd⟩ | hd
  · obtain ⟨out, g1, g2, -⟩ := C75_returns r0 r1 h0 h hd
    refine ⟨fun out' ho => ?_, fun e he => ?_⟩
    · rw [g1] at ho
      cases ho
      rw [hd, g2]
    · rw [g1] at he
      cases he
  · refine ⟨fun out ho => ?_, fun _ _ => hd⟩
    exfalso
    have hok := (exec_main (c0 := c false) (c1 := c true) bld cfg mode draw n kcs out.shown).2 (by rw [ho]; rfl)
    obtain ⟨⟨x, kx⟩, hok, -⟩ := bind_eq_ok.1 hok
    obtain ⟨p, srv, hseq, ha⟩ := at_reach h0 h
    rw [srv_running r0 r1] at hseq
    obtain ⟨kcs', rfl, e⟩ := seq_exec hseq
    rw [e] at hok
    rcases hd with ⟨q, hd⟩ | hd
    · cases ha with
      | ready h' _ => rw [h'] at hd; cases hd; cases hok
      | waiting _ _ _ _ _ h' _ => rw [h'] at hd; cases hd
      | crashed _ _ _ _ _ _ _ h' _ _ _ => rw [h'] at hd; cases hd
    · cases ha with
      | ready h' _ => rw [h'] at hd; cases hd
      | waiting _ _ _ _ _ h' _ => rw [h'] at hd; cases hd
      | crashed _ _ _ _ _ _ hp _ he _ _ =>
        subst hp
        obtain ⟨e', he'⟩ := exec_ask_error he
        rw [he'] at hok
        cases hok

/-- **C75, termination.**  With finitely many drivers, whatever they run, no execution goes on forever. -/
theorem C75_terminates [Finite ι] {α : Type} : ¬ ∃ f : Nat → Sys P ι α, ∀ k, Step c (f k) (f (k + 1)) := by
  rintro ⟨f, hf⟩
  exact (wellFounded_iff_isEmpty_descending_chain.1 (wf_step (P := P) (ι := ι) (α := α) (c := c))).false ⟨f, hf⟩

/-- **C75, no deadlock.**  Some step is possible on behalf of every driver that has not returned or panicked, whatever
the servers and the other drivers do. -/
theorem C75_progress {α : Type} (i : ι) (s : Sys P ι α) :
    (∃ s', StepBy c i s s') ∨ (∃ x, s.drv i = .ready (.ret x)) ∨ (∃ p, s.drv i = .ready (.panic p)) ∨
      s.drv i = .crashed none := by
  by_cases h : ∃ s', StepBy c i s s'
  · exact .inl h
  · exact .inr (stuck_cases (c := c) fun s' hs => h ⟨s', hs⟩)

/-! ## C76 -/

/-- **C76 fails: results of the wrong driver.**  Two drivers with the same configuration whose runs alone would end with
the results `oA` and `oB`.  There is an execution in which the first one shows the result of the second: both reset
and upload, the second after the first, and then the first one collects. -/
theorem C76_false_mixed_up {i j : ι} (hij : i ≠ j) {bld : Build} {cfg : Config} {drawA drawB : MainDraw} {n : Nat}
    {kcs : Pair2 P} {s0 : Sys P ι Shown} (r0 : s0.srv false = .running kcs.1) (r1 : s0.srv true = .running kcs.2)
    (hi : s0.drv i = .ready (mainP P bld cfg .weightedHeavyHitters drawA n))
    (hj : s0.drv j = .ready (mainP P bld cfg .weightedHeavyHitters drawB n)) {oA oB : MainOut P}
    (hA : driverMain (c false) (c true) bld cfg .weightedHeavyHitters drawA n kcs = .ok oA)
    (hB : driverMain (c false) (c true) bld cfg .weightedHeavyHitters drawB n kcs = .ok oB) :
    ∃ s, ReflTransGen (Step c) s0 s ∧ s.drv i = .ready (.ret oB.shown) := by
  obtain ⟨repA, kA, oA', pA, -, -⟩ := driverMain_prep hA
  obtain ⟨repB, kB, oB', pB, wB, rfl⟩ := driverMain_prep hB
  have lift : ∀ {i : ι} {s s' : Sys P ι Shown}, ReflTransGen (StepBy c i) s s' → ReflTransGen (Step c) s s' :=
    fun h => ReflTransGen.mono (fun _ _ hs => ⟨_, hs⟩) _ _ h
  have other : ∀ {i j : ι} (_ : j ≠ i) {s s' : Sys P ι Shown}, ReflTransGen (StepBy c i) s s' → s'.drv j = s.drv j := by
    intro i j hne s s' h
    induction h with
    | refl => rfl
    | tail _ hs ih => rw [stepBy_other hne hs, ih]
  rw [mainP_eq] at hi hj
  obtain ⟨s1, g1, q1, d1⟩ := seq_exec_ok pA _ i s0 (srv_running r0 r1) hi
  rw [exec_prep_kcs (c0 := c false) (c1 := c true) cfg .weightedHeavyHitters drawB n kcs kA] at pB
  obtain ⟨s2, g2, q2, d2⟩ := seq_exec_ok pB _ j s1 q1 ((other (fun h => hij h.symm) g1).trans hj)
  have d2i : s2.drv i = .ready (whhP P bld cfg n) := (other hij g2).trans d1
  obtain ⟨s3, g3, -, d3⟩ := seq_exec_ok (exec_whh_ok wB) Prog.ret i s2 q2 (by rw [d2i, prog_bind_ret])
  exact ⟨s3, (lift g1).trans ((lift g2).trans (lift g3)), d3⟩

/-- **C76 fails: shares of different clients at the same position.**  Two drivers upload at the same time.  There is an
execution after which server 0 holds the shares of the first driver before those of the second, and server 1 the other
way round. -/
theorem C76_false_crossed {i j : ι} (hij : i ≠ j) {kcs : Pair2 P} {s0 : Sys P ι Shown}
    (r0 : s0.srv false = .running kcs.1) (r1 : s0.srv true = .running kcs.2)
    {a0 a1 b0 b1 : List ReportShare} {k k' : Resp → Resp → Prog Shown}
    (hi : s0.drv i = .ready (.ask (.addReportShares a0) (.addReportShares a1) k))
    (hj : s0.drv j = .ready (.ask (.addReportShares b0) (.addReportShares b1) k')) :
    ∃ (s : Sys P ι Shown) (kcs' : Pair2 P), ReflTransGen (Step c) s0 s ∧ s.srv false = .running kcs'.1 ∧ s.srv true = .running kcs'.2 ∧
      kcs'.1.reportShares = kcs.1.reportShares ++ (a0 ++ b0).map (fun r => (true, r)) ∧
      kcs'.2.reportShares = kcs.2.reportShares ++ (b1 ++ a1).map (fun r => (true, r)) ∧
      s.drv i = .ready (k .done .done) ∧ s.drv j = .ready (k' .done .done) := by
  obtain ⟨s, g1, g2, g3, g4⟩ := crossed_requests (c := c) hij (srv_running r0 r1) hi hj
    (x0 := srvAddReportShares kcs.1 a0) (y0 := srvAddReportShares (srvAddReportShares kcs.1 a0) b0)
    (x1 := srvAddReportShares kcs.2 b1) (y1 := srvAddReportShares (srvAddReportShares kcs.2 b1) a1)
    (a0 := .done) (b0 := .done) (a1 := .done) (b1 := .done) rfl rfl rfl rfl
  refine ⟨s, (_, _), g1, by rw [g2]; rfl, by rw [g2]; rfl, ?_, ?_, g3, g4⟩
  · simp [srvAdd_eq]
  · simp [srvAdd_eq]

/-- **C76 fails: a panic in one session ends all others.**  Once a server is poisoned, no driver that has not received
its last answer ever returns a result, in any continuation. -/
theorem C76_false_poisoned {i : ι} {s s' : Sys P ι Shown} {b : Bool} (hb : s.srv b = .poisoned)
    {bld : Build} {cfg : Config} {mode : DriverMode} {draw : MainDraw} {n : Nat}
    (hi : s.drv i = .ready (mainP P bld cfg mode draw n) ∨
      (∃ r0 r1 k, s.drv i = .ready (.ask r0 r1 k)) ∨
      (∃ calls k r, s.drv i = .waiting calls k ∧ calls b = .sent r))
    (h : ReflTransGen (Step c) s s') (x : Shown) : s'.drv i ≠ .ready (.ret x) := by
  have hn : Needs b (s.drv i) := by
    rcases hi with hi | ⟨r0, r1, k, hi⟩ | ⟨calls, k, r, hi, hc⟩
    · rw [hi]; exact mainP_needs ..
    · rw [hi]; exact .ask ..
    · rw [hi]; exact .waiting _ _ fun a => by simp [hc]
  obtain ⟨-, g⟩ := needs_reach h hb hn
  intro hx
  rw [hx] at g
  cases g

/-- **C76 fails: honest clients suffice.**  A driver whose clients are honest (or tamper with proofs, which is detected)
and none of whose prefixes of length `d - 2` is heavy, run alone, always ends with a poisoned server; so no other
driver ever gets a result afterwards. -/
theorem C76_false_light_population {i : ι} {bld : Build} {cfg : Config} {draw : MainDraw}
    {n d : Nat} {kcs : Pair2 P} (hs : Spec.Sensible P cfg draw n) (hprove : Spec.Proves P cfg draw)
    (hd : cfg.dataBits = some d) (hs0 : (c false).dataBits = some d) (hs1 : (c true).dataBits = some d) (hd3 : 3 ≤ d)
    (h0 : (c false).serverId = 0) (h1 : (c true).serverId ≠ 0)
    (hcomp : ∀ i < n, Spec.FlpCompleteAt P cfg.histBuckets (P.xofField draw.verifyKey
      (Spec.MainDraw.of draw i).rand.nonce.toList (P.queryRandLen cfg.histBuckets)))
    (hrej : Spec.BumpsRejected P cfg.histBuckets d (c false).serverId (c true).serverId draw n)
    {clients : List (List Bool × Nat)}
    (hcl : clients = (Spec.mainClients cfg.histBuckets d draw n).filterMap id) (hne : clients ≠ [])
    (hlt : n < 2 ^ 64)
    (hpre : ∀ s : List Bool, s.length = d - 2 →
        (clients.filter fun c => s.isPrefixOf c.1).length < max 1 cfg.threshold)
    {s0 s : Sys P ι Shown} (r0 : s0.srv false = .running kcs.1) (r1 : s0.srv true = .running kcs.2)
    (hi : s0.drv i = .ready (mainP P bld cfg .weightedHeavyHitters draw n))
    (h : ReflTransGen (StepBy c i) s0 s) (hst : ∀ s', ¬ StepBy c i s s') :
    s.drv i = .crashed none ∧ (∃ b, s.srv b = .poisoned) ∧
    ∀ (j : ι) (bld' : Build) (cfg' : Config) (mode' : DriverMode) (draw' : MainDraw) (n' : Nat) (x : Shown)
      (s' : Sys P ι Shown), s.drv j = .ready (mainP P bld' cfg' mode' draw' n') →
      ReflTransGen (Step c) s s' → s'.drv j ≠ .ready (.ret x) := by
  obtain ⟨reports, sh, hg, hp, hw⟩ := main_whh_stops (c0 := c false) (c1 := c true) (bld := bld) hs hprove hd hs0 hs1
    hd3 h0 h1 hcomp hrej hcl hne hlt hpre
  have hprep : (prepP P cfg .weightedHeavyHitters draw n).exec (c false) (c true) kcs
      = .ok (reports, uploaded P (c false) (c true) cfg draw.verifyKey sh) := by
    rw [exec_prep, hs.malicious, assertE_true, ok_bind, if_neg (by simp [hs.hist]), hg, ok_bind, main_reset hs, ok_bind,
      main_upload hs hp]
    rfl
  have hseq : Seq c (mainP P bld cfg .weightedHeavyHitters draw n) s0.srv (whhP P bld cfg n)
      (runningPair (uploaded P (c false) (c true) cfg draw.verifyKey sh)) := by
    have := Seq.refl (c := c) (mainP P bld cfg .weightedHeavyHitters draw n) (runningPair kcs)
    rw [srv_running r0 r1]
    refine seq_of_exec hprep (collectP P bld cfg .weightedHeavyHitters draw n) _ _ ?_
    rw [← mainP_eq]
    exact .refl _ _
  obtain ⟨g1, b, g2⟩ := stops_poisons hw hi hseq h hst
  refine ⟨g1, ⟨b, g2⟩, fun j bld' cfg' mode' draw' n' x s' hj hs' => ?_⟩
  exact C76_false_poisoned g2 (.inl hj) hs' x

/-- **C76 (partial).**  (Missing: sessions that overlap, and sessions after a panic.)  Whatever drivers did before: if
both servers are in order and a driver has not started, then it ends, if no other driver takes a step meanwhile, with
the result it would have against two freshly started servers. -/
theorem C76_sequential_partial {i : ι} {bld : Build} {cfg : Config} {mode : DriverMode} {draw : MainDraw} {n : Nat}
    {kcs : Pair2 P} {s0 s : Sys P ι Shown} (r0 : s0.srv false = .running kcs.1) (r1 : s0.srv true = .running kcs.2)
    (h0 : s0.drv i = .ready (mainP P bld cfg mode draw n)) (h : ReflTransGen (StepBy c i) s0 s)
    (hs : ∀ s', ¬ StepBy c i s s') (b0 b1 : Nat) {fresh : Pair2 P}
    (f0 : Server.start P (c false) b0 = .running fresh.1) (f1 : Server.start P (c true) b1 = .running fresh.2) :
    (∀ out, driverMain (c false) (c true) bld cfg mode draw n fresh = .ok out → s.drv i = .ready (.ret out.shown)) ∧
    (∀ e, driverMain (c false) (c true) bld cfg mode draw n fresh = .error e →
      (∃ p, s.drv i = .ready (.panic p)) ∨ s.drv i = .crashed none) := by
  rw [driverMain_kcs (c false) (c true) bld cfg mode draw n fresh kcs]
  exact C75_refines r0 r1 h0 h hs

/-! ## Concrete cases -/

/-- The servers of the examples. -/
def toySrv (d : Nat) : Bool → ServerCfg := fun b => if b then toyCfg 1 (some d) .release else toyCfg 0 (some d) .debug

/-- Two freshly started servers and two drivers. -/
def toySys (d : Nat) (p q : Prog Shown) : Sys toy Bool Shown where
  srv := fun b => Server.start toy (toySrv d b) 2
  drv := fun j => .ready (if j then q else p)

/-- The states of the two servers at the start. -/
def toyFresh (d : Nat) : Pair2 toy :=
  (KeyCollection.new toy 2 0 (some d) Block.zero, KeyCollection.new toy 2 1 (some d) Block.zero)

/-- Draws as in `toyDraw`, with another string. -/
def toyDraw' : MainDraw :=
  { toyDraw with reports := fun i => ⟨i, fun j => decide (i = 1 ∧ j = 1), toyRand i, 3 + i⟩ }

theorem toy_result (draw : MainDraw) (hdraw : draw = toyDraw ∨ draw = toyDraw') (kcs : Pair2 toy) :
    ∃ out, driverMain (toySrv 2 false) (toySrv 2 true) .debug ⟨some 2, 2, 2, 2, 2, 2⟩ .weightedHeavyHitters draw 2 kcs
        = .ok (.whh out) ∧
      out.results.map (fun r => (r.path, r.value)) = Spec.heavyHitters 2 2 2
        ((Spec.mainClients 2 2 draw 2).filterMap id) := by
  have hp : draw.picks = toyDraw.picks := by rcases hdraw with rfl | rfl <;> rfl
  have hs : Spec.Sensible toy ⟨some 2, 2, 2, 2, 2, 2⟩ draw 2 := by
    rcases hdraw with rfl | rfl <;>
      exact ⟨rfl, rfl, rfl, by decide, by decide, by decide, by decide, by decide⟩
  obtain ⟨out, g1, g2, -⟩ := (C62_weighted_heavy_hitters (P := toy) (c0 := toySrv 2 false) (c1 := toySrv 2 true)
    (bld := .debug) (cfg := ⟨some 2, 2, 2, 2, 2, 2⟩) (draw := draw) (n := 2) (d := 2) (kcs := kcs) hs
    toy_proves rfl rfl rfl le_rfl rfl (by decide) (fun _ _ => toy_flpComplete _ _)
    (by
      intro i nonce ks p0 ps p jr alpha hi ht
      rw [hp] at ht
      simp only [toyDraw] at ht
      split at ht
      · cases ht
      · split at ht
        · cases ht
        · omega) rfl (by rcases hdraw with rfl | rfl <;> decide) (by decide)).1 (.inl rfl)
  exact ⟨out, g1, g2⟩

/-- C75: whatever the order of the steps, the driver shows the string of the two clients; and there is such an
execution. -/
example : ∃ out : WhhOut toy, out.results.map (fun r => (r.path, r.value)) = [([true, false], [0, 2, 2])] ∧
    (∀ s, ReflTransGen (StepBy (toySrv 2) false)
        (toySys 2 (mainP toy .debug ⟨some 2, 2, 2, 2, 2, 2⟩ .weightedHeavyHitters toyDraw 2) (.ret (.pm []))) s →
      (∀ s', ¬ StepBy (toySrv 2) false s s') → s.drv false = .ready (.ret (.whh out.results out.printed))) ∧
    ∃ s, ReflTransGen (StepBy (toySrv 2) false)
        (toySys 2 (mainP toy .debug ⟨some 2, 2, 2, 2, 2, 2⟩ .weightedHeavyHitters toyDraw 2) (.ret (.pm []))) s ∧
      s.drv false = .ready (.ret (.whh out.results out.printed)) := by
  obtain ⟨out, g1, g2⟩ := toy_result toyDraw (.inl rfl) (toyFresh 2)
  refine ⟨out, g2.trans (by decide +kernel), fun s h hs => ?_, ?_⟩
  · exact (C75_refines (kcs := toyFresh 2) rfl rfl rfl h hs).1 _ g1
  · obtain ⟨⟨x, k⟩, e, e'⟩ := bind_eq_ok.1 ((exec_main (c0 := toySrv 2 false) (c1 := toySrv 2 true) .debug
      ⟨some 2, 2, 2, 2, 2, 2⟩ .weightedHeavyHitters toyDraw 2 (toyFresh 2) _).2 (by rw [g1]; rfl))
    obtain ⟨s, a, -, b⟩ := seq_exec_ok (c := toySrv 2) e Prog.ret false
      (toySys 2 (mainP toy .debug ⟨some 2, 2, 2, 2, 2, 2⟩ .weightedHeavyHitters toyDraw 2) (.ret (.pm [])))
      (by funext b; cases b <;> rfl) (congrArg Drv.ready (prog_bind_ret _).symm)
    cases e'
    exact ⟨s, a, b⟩

/-- C76: two drivers whose clients hold `10` and `01`; the first one shows `01`. -/
example : ∃ (s : Sys toy Bool Shown) (results printed : List HHResult),
    ReflTransGen (Step (toySrv 2))
      (toySys 2 (mainP toy .debug ⟨some 2, 2, 2, 2, 2, 2⟩ .weightedHeavyHitters toyDraw 2)
        (mainP toy .debug ⟨some 2, 2, 2, 2, 2, 2⟩ .weightedHeavyHitters toyDraw' 2)) s ∧
    s.drv false = .ready (.ret (.whh results printed)) ∧
    (Spec.mainClients 2 2 toyDraw 2).map (Option.map Prod.fst) = [some [true, false], some [true, false]] ∧
    results.map HHResult.path = [[false, true]] := by
  obtain ⟨oA, g1, -⟩ := toy_result toyDraw (.inl rfl) (toyFresh 2)
  obtain ⟨oB, g2, g3⟩ := toy_result toyDraw' (.inr rfl) (toyFresh 2)
  obtain ⟨s, h, hd⟩ := C76_false_mixed_up (c := toySrv 2) (i := false) (j := true) (by decide) (kcs := toyFresh 2)
    (s0 := toySys 2 (mainP toy .debug ⟨some 2, 2, 2, 2, 2, 2⟩ .weightedHeavyHitters toyDraw 2)
        (mainP toy .debug ⟨some 2, 2, 2, 2, 2, 2⟩ .weightedHeavyHitters toyDraw' 2)) rfl rfl rfl rfl g1 g2
  refine ⟨s, oB.results, oB.printed, h, hd, by decide, ?_⟩
  have : (oB.results.map fun r => (r.path, r.value)).map Prod.fst = [[false, true]] := by
    rw [g3]
    decide +kernel
  simpa using this

/-- C76: one report of each driver; they change places at the second server. -/
example (k k' : Resp → Resp → Prog Shown) (x0 x1 y0 y1 : ReportShare) :
    ∃ (s : Sys toy Bool Shown) (kcs : Pair2 toy), ReflTransGen (Step (toySrv 2))
      (toySys 2 (.ask (.addReportShares [x0]) (.addReportShares [x1]) k)
        (.ask (.addReportShares [y0]) (.addReportShares [y1]) k')) s ∧
      s.srv false = .running kcs.1 ∧ s.srv true = .running kcs.2 ∧
      kcs.1.reportShares = [(true, x0), (true, y0)] ∧ kcs.2.reportShares = [(true, y1), (true, x1)] := by
  obtain ⟨s, kcs, h, e0, e1, l0, l1, -⟩ := C76_false_crossed (c := toySrv 2) (i := false) (j := true) (by decide)
    (kcs := toyFresh 2) (s0 := toySys 2 (.ask (.addReportShares [x0]) (.addReportShares [x1]) k)
        (.ask (.addReportShares [y0]) (.addReportShares [y1]) k')) rfl rfl rfl rfl
  exact ⟨s, kcs, h, e0, e1, l0, l1⟩

/-- C76: two honest clients with different strings of length 3, threshold 2.  Their driver takes a server down. -/
example (q : Prog Shown) (s : Sys toy Bool Shown)
    (h : ReflTransGen (StepBy (toySrv 3) false)
      (toySys 3 (mainP toy .debug ⟨some 3, 2, 2, 2, 2, 2⟩ .weightedHeavyHitters
        { toyDraw with picks := fun i => (i + 1, none) } 2) q) s)
    (hst : ∀ s', ¬ StepBy (toySrv 3) false s s') :
    (Spec.mainClients 2 3 { toyDraw with picks := fun i => (i + 1, none) } 2)
      = [some ([false, false, false], 0), some ([true, false, false], 1)] ∧
    s.drv false = .crashed none ∧ ∃ b, s.srv b = .poisoned := by
  obtain ⟨g1, g2, -⟩ := C76_false_light_population (c := toySrv 3) (i := false) (bld := .debug)
    (cfg := ⟨some 3, 2, 2, 2, 2, 2⟩) (draw := { toyDraw with picks := fun i => (i + 1, none) }) (n := 2) (d := 3)
    (kcs := toyFresh 3) ⟨rfl, rfl, rfl, by decide, by decide, by decide, by decide, by decide⟩ toy_proves
    rfl rfl rfl le_rfl rfl (by decide) (fun _ _ => toy_flpComplete _ _)
    (by intro i nonce ks p0 ps p jr alpha hi ht; cases ht) rfl (by decide) (by decide)
    (by
      intro s hs
      match s, hs with
      | [true], _ => decide
      | [false], _ => decide) rfl rfl rfl h hst
  exact ⟨by decide, g1, g2⟩

end Mastic
