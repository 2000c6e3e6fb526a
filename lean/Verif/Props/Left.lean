import Verif.Model.Left
import Verif.Spec.Left
import Verif.Props.Typed

/-!
# C114: a run that crashes because of the frame limit does not impair later ones
-/

namespace Mastic

variable {P : Prims} {α : Type} {c0 c1 : ServerCfg} {bld : Build} {cfg : Config} {mode : DriverMode} {draw : MainDraw}
  {n : Nat} {n0 n1 : Net}

theorem handle_ok_running {c : ServerCfg} {s t : Server P} {r : Req} {a : Resp} (h : s.handle c r = (t, .ok a)) :
    ∃ k, t = .running k := by
  unfold Server.handle at h
  split at h
  · simp at h
  · split at h
    · simp at h
    · split at h
      · simp at h
      · rename_i kc' b hl
        simp only [Prod.mk.injEq, Except.ok.injEq] at h
        exact ⟨kc', h.1.symm⟩

/-- The server after a call is the one before it or the one after the handler. -/
theorem netCall_state {net : Net} {c : ServerCfg} {s t : Server P} {r : Req} {a : Resp} (hl : net.limit < 2 ^ 64)
    (hr : reqNums r = true) (h : s.handle c r = (t, .ok a)) :
    (netCall net c s r).1 = s ∨ (netCall net c s r).1 = t := by
  rw [netCall]
  split_ifs with h1
  · exact .inl rfl
  · have hd := Codec.req_lawful .varint r (reqFits_of_length (e := .varint) hr (by omega)) []
    rw [List.append_nil] at hd
    rw [hd]
    simp only [h]
    split_ifs
    · exact .inr rfl
    · split <;> exact .inr rfl

/-- A call that succeeds has the effect of the handler. -/
theorem netCall_success {net : Net} {c : ServerCfg} {s t : Server P} {r : Req} {a b : Resp} (hl : net.limit < 2 ^ 64)
    (hr : reqNums r = true) (ha : respNums a = true) (h : s.handle c r = (t, .ok a)) (hb : (netCall net c s r).2 = .ok b) :
    netCall net c s r = (t, .ok a) := by
  by_cases hs : shortCall net r a
  · exact netCall_short h hl hr ha hs
  · rw [netCall_long h hl hr hs] at hb
    cases hb

/-- Whatever the two connections do to a conversation, both servers are usable afterwards. -/
theorem left_running {p : Prog α} {s0 s1 u0 u1 : Server P} {sent : List (Req × Req)} {got : List (Resp × Resp)} {a : α}
    (h : Spec.Hears c0 c1 p s0 s1 sent got a u0 u1) (hl0 : n0.limit < 2 ^ 64) (hl1 : n1.limit < 2 ^ 64)
    (hs : ∀ r ∈ sent, reqNums r.1 = true ∧ reqNums r.2 = true) (hg : ∀ b ∈ got, respNums b.1 = true ∧ respNums b.2 = true)
    (hs0 : ∃ k, s0 = .running k) (hs1 : ∃ k, s1 = .running k) :
    ∀ {t : Server P × Server P}, NetLeft n0 n1 c0 c1 p (s0, s1) t → ∃ k : Pair2 P, t = (.running k.1, .running k.2) := by
  induction h with
  | ret b s0 s1 =>
    intro t hl
    cases hl
    obtain ⟨k0, rfl⟩ := hs0
    obtain ⟨k1, rfl⟩ := hs1
    exact ⟨(k0, k1), rfl⟩
  | ask r0 r1 k s0 s1 t0 t1 u0 u1 a0 a1 sent got a h0 h1 h ih =>
    intro t hl
    rw [List.forall_mem_cons] at hs hg
    have q0 := handle_ok_running h0
    have q1 := handle_ok_running h1
    cases hl with
    | ask _ _ _ _ _ a b g0 g1 g =>
      have f0 := netCall_success hl0 hs.1.1 hg.1.1 h0 g0
      have f1 := netCall_success hl1 hs.1.2 hg.1.2 h1 g1
      simp only [f0, f1, Except.ok.injEq] at g0 g1 g
      subst g0 g1
      exact ih hs.2 hg.2 q0 q1 g
    | failed _ _ _ _ _ p hp g0 g1 =>
      obtain ⟨x0, x1⟩ := t
      have z0 : ∃ k, x0 = .running k := by
        rcases g0 with g0 | g0
        · dsimp only at g0; subst g0; exact hs0
        · rcases netCall_state (net := n0) hl0 hs.1.1 h0 with e | e <;> simp only [e] at g0 <;> subst g0 <;> assumption
      have z1 : ∃ k, x1 = .running k := by
        rcases g1 with g1 | g1
        · dsimp only at g1; subst g1; exact hs1
        · rcases netCall_state (net := n1) hl1 hs.1.2 h1 with e | e <;> simp only [e] at g1 <;> subst g1 <;> assumption
      obtain ⟨k0, rfl⟩ := z0
      obtain ⟨k1, rfl⟩ := z1
      exact ⟨(k0, k1), rfl⟩

/-- What a `reset` over a connection does to a running server does not depend on what the server has stored. -/
theorem reset_call (net : Net) (c : ServerCfg) (k k' : KeyCollection P) (vk : Block) {b : Nat} (hb : b < 2 ^ 64) :
    (netCall net c (.running k) (.reset vk b)).2 = (netCall net c (.running k') (.reset vk b)).2 ∧
      ∀ a, (netCall net c (.running k) (.reset vk b)).2 = .ok a →
        (netCall net c (.running k) (.reset vk b)).1 = (netCall net c (.running k') (.reset vk b)).1 := by
  have hd := Codec.req_lawful .varint (.reset vk b) (by simpa [Spec.reqFits, Spec.word] using hb) []
  rw [List.append_nil] at hd
  have hh : ∀ k : KeyCollection P, (Server.running k).handle c (.reset vk b)
      = if P.histOk b = true then (.running (KeyCollection.new P b c.serverId c.dataBits vk), .ok .done)
        else (.poisoned, .error .unwrap) := by
    intro k
    by_cases h : P.histOk b = true <;> simp [Server.handle, preLock, locked, srvReset, h]
  by_cases hl : net.limit < net.reqExtra + ((reqCodec .varint).enc (.reset vk b)).length
  · simp [netCall, if_pos hl]
  · simp only [netCall, if_neg hl, hd, hh]
    exact ⟨trivial, fun _ _ => trivial⟩

theorem resetP_from (vk : Block) (hb : cfg.histBuckets < 2 ^ 64) (kcs kcs' : Pair2 P) :
    (resetP cfg vk).netRun n0 n1 c0 c1 (.running kcs.1, .running kcs.2)
      = (resetP cfg vk).netRun n0 n1 c0 c1 (.running kcs'.1, .running kcs'.2) := by
  obtain ⟨a1, a2⟩ := reset_call n0 c0 kcs.1 kcs'.1 vk hb
  obtain ⟨b1, b2⟩ := reset_call n1 c1 kcs.2 kcs'.2 vk hb
  unfold resetP callDone
  simp only [Prog.netRun, ← a1, ← b1]
  cases g0 : (netCall n0 c0 (.running kcs.1) (.reset vk cfg.histBuckets)).2 with
  | error p => rfl
  | ok a =>
    cases g1 : (netCall n1 c1 (.running kcs.2) (.reset vk cfg.histBuckets)).2 with
    | error p => rfl
    | ok b =>
      simp only
      rw [a2 a g0, b2 b g1]

/-- A run over two connections does not depend on what the running servers have stored. -/
theorem main_from (hb : cfg.histBuckets < 2 ^ 64) (kcs kcs' : Pair2 P) :
    (mainP P bld cfg mode draw n).netRun n0 n1 c0 c1 (.running kcs.1, .running kcs.2)
      = (mainP P bld cfg mode draw n).netRun n0 n1 c0 c1 (.running kcs'.1, .running kcs'.2) := by
  simp only [mainP, netRun_bind, liftM_prog, netRun_lift]
  cases assertE draw.maliciousOk with
  | error p => rfl
  | ok u =>
    simp only [ok_bind]
    split_ifs with hh
    · rfl
    · simp only [netRun_bind, netRun_lift]
      cases generateReports P cfg mode draw.reports with
      | error p => rfl
      | ok reports =>
        simp only [ok_bind]
        rw [resetP_from _ hb kcs kcs']

theorem likeNew_of_hears {kcs : Pair2 P} {sent : List (Req × Req)} {got : List (Resp × Resp)} {x : Shown} {t0 t1 : Server P}
    (h : Spec.Hears c0 c1 (mainP P bld cfg mode draw n) (.running kcs.1) (.running kcs.2) sent got x t0 t1)
    (hl0 : n0.limit < 2 ^ 64) (hl1 : n1.limit < 2 ^ 64) (hs : ∀ r ∈ sent, reqNums r.1 = true ∧ reqNums r.2 = true)
    (hg : ∀ b ∈ got, respNums b.1 = true ∧ respNums b.2 = true) {left : Server P × Server P}
    (hleft : NetLeft n0 n1 c0 c1 (mainP P bld cfg mode draw n) (.running kcs.1, .running kcs.2) left) :
    (∃ k : Pair2 P, left = (.running k.1, .running k.2)) ∧ Spec.LikeNew c0 c1 left := by
  obtain ⟨k, rfl⟩ := left_running h hl0 hl1 hs hg ⟨_, rfl⟩ ⟨_, rfl⟩ hleft
  exact ⟨⟨k, rfl⟩, fun _ _ _ _ _ _ _ _ _ hb => main_from hb k (_, _)⟩

/-- **C114, every run.**  A run that ends on values may crash over two connections because its messages are too long.  However
it ends there, no mutex is poisoned and the servers are as good as new. -/
theorem C114_any {kcs : Pair2 P} {out : MainOut P} {left : Server P × Server P}
    (h : driverMain c0 c1 bld cfg mode draw n kcs = .ok out)
    (ht : Spec.runTyped c0 c1 (mainP P bld cfg mode draw n) (.running kcs.1, .running kcs.2) = true)
    (hl0 : n0.limit < 2 ^ 64) (hl1 : n1.limit < 2 ^ 64)
    (hleft : NetLeft n0 n1 c0 c1 (mainP P bld cfg mode draw n) (.running kcs.1, .running kcs.2) left) :
    (∃ k : Pair2 P, left = (.running k.1, .running k.2)) ∧ Spec.LikeNew c0 c1 left := by
  obtain ⟨sent, got, t0, t1, hg, -⟩ := C112_any (n0 := n0) (n1 := n1) h hl0 hl1
  obtain ⟨y1, y2⟩ := typed_hears hg ht
  exact likeNew_of_hears hg hl0 hl1 (fun r hr => ⟨reqNums_of_fits (y1 r hr).1, reqNums_of_fits (y1 r hr).2⟩)
    (fun b hb => ⟨respNums_of_fits (y2 b hb).1, respNums_of_fits (y2 b hb).2⟩) hleft

/-- **C114, any number of runs.** -/
theorem C114_runs {s : Server P × Server P} (h : Spec.AfterRuns c0 c1 s) :
    (∃ k : Pair2 P, s = (.running k.1, .running k.2)) ∧ Spec.LikeNew c0 c1 s := by
  cases h with
  | start b0 b1 => exact ⟨⟨(_, _), rfl⟩, fun _ _ _ _ _ _ _ _ _ hb => main_from hb (_, _) (_, _)⟩
  | run bld cfg mode draw n kcs out n0 n1 t h hout htyped h0 h1 hleft => exact C114_any hout htyped h0 h1 hleft

variable {d l v num : Nat} {clients : List (List Bool × Nat)} {left : Server P × Server P}

/-- **C114, weighted heavy hitters.** -/
theorem C114_whh (kcs : Pair2 P) (h : Spec.WhhRun P c0 c1 cfg draw n d clients)
    (hhon : ∀ i < n, (draw.picks i).2 ≠ some .flp)
    (hheavy : ∃ s : List Bool, s.length = d - 2 ∧
      (s ≠ [] → max 1 cfg.threshold ≤ clients.countP fun c => s.isPrefixOf c.1))
    (hl : Spec.ProofLen P cfg.histBuckets l) (hv : Spec.VerifierLen P cfg.histBuckets v)
    (hb : cfg.histBuckets < 2 ^ 64) (hl0 : n0.limit < 2 ^ 64) (hl1 : n1.limit < 2 ^ 64)
    (hleft : NetLeft n0 n1 c0 c1 (mainP P bld cfg .weightedHeavyHitters draw n) (.running kcs.1, .running kcs.2) left) :
    (∃ k : Pair2 P, left = (.running k.1, .running k.2)) ∧ Spec.LikeNew c0 c1 left := by
  obtain ⟨sent, got, results, printed, t0, t1, h1, h2, h3, -⟩ := whh_conversation (bld := bld) .varint kcs h hhon hheavy
    hl hv
  exact likeNew_of_hears h1 hl0 hl1 (h2 hb) h3 hleft

/-- **C114, attribute-based metrics.** -/
theorem C114_abm (kcs : Pair2 P) (h : Spec.AttrRun P c0 c1 cfg draw n d num clients)
    (hl : Spec.ProofLen P cfg.histBuckets l) (hv : Spec.VerifierLen P cfg.histBuckets v)
    (hb : cfg.histBuckets < 2 ^ 64) (hn : n < 2 ^ 64) (hnum : num < 2 ^ 64) (hl0 : n0.limit < 2 ^ 64)
    (hl1 : n1.limit < 2 ^ 64)
    (hleft : NetLeft n0 n1 c0 c1 (mainP P bld cfg (.attributeBasedMetrics num) draw n) (.running kcs.1, .running kcs.2) left) :
    (∃ k : Pair2 P, left = (.running k.1, .running k.2)) ∧ Spec.LikeNew c0 c1 left := by
  obtain ⟨sent, got, attributes, outs, t0, t1, h1, h2, h3, h5, -⟩ := abm_conversation (bld := bld) .varint kcs h hl hv
  have hle : attributes.length ≤ num := by
    rw [h5, runAttributes, (draw.setOrder_perm _).length_eq]
    exact (List.dedup_sublist _).length_le.trans (by simp)
  exact likeNew_of_hears h1 hl0 hl1 (h2 hb hn (by omega)) h3 hleft

/-- **C114, plain metrics.** -/
theorem C114_pm {X : Prio3Xof} {buckets : List Nat} {left : Server (P.withPrio3 X) × Server (P.withPrio3 X)}
    (kcs : Pair2 (P.withPrio3 X)) (h : Spec.PlainRun P X c0 c1 cfg draw n buckets) (hn : n < 2 ^ 64)
    (hl0 : n0.limit < 2 ^ 64) (hl1 : n1.limit < 2 ^ 64)
    (hleft : NetLeft n0 n1 c0 c1 (mainP (P.withPrio3 X) bld cfg .plainMetrics draw n) (.running kcs.1, .running kcs.2) left) :
    (∃ k : Pair2 (P.withPrio3 X), left = (.running k.1, .running k.2)) ∧ Spec.LikeNew c0 c1 left := by
  obtain ⟨sent, got, outs, t0, t1, h1, h2, h3, -⟩ := pm_conversation (bld := bld) .varint kcs h
  exact likeNew_of_hears h1 hl0 hl1 (h2 hn) h3 hleft

/-- Every run leaves the servers in some states. -/
theorem netLeft_exists (n0 n1 : Net) (c0 c1 : ServerCfg) (p : Prog α) (s : Server P × Server P) :
    ∃ t, NetLeft n0 n1 c0 c1 p s t := by
  induction p generalizing s with
  | ret a => exact ⟨s, .ret _ _⟩
  | panic p => exact ⟨s, .panic _ _⟩
  | ask r0 r1 k ih =>
    cases g0 : (netCall n0 c0 s.1 r0).2 with
    | error p => exact ⟨s, .failed _ _ _ _ _ p (.inl g0) (.inl rfl) (.inl rfl)⟩
    | ok a =>
      cases g1 : (netCall n1 c1 s.2 r1).2 with
      | error p => exact ⟨s, .failed _ _ _ _ _ p (.inr g1) (.inl rfl) (.inl rfl)⟩
      | ok b =>
        obtain ⟨t, ht⟩ := ih a b ((netCall n0 c0 s.1 r0).1, (netCall n1 c1 s.2 r1).1)
        exact ⟨t, .ask _ _ _ _ _ a b g0 g1 ht⟩

/-- A run that ends leaves the servers in the states of `netRun` and in no others. -/
theorem netLeft_of_ok {p : Prog α} : ∀ {s t : Server P × Server P} {x : α}, p.netRun n0 n1 c0 c1 s = .ok (x, t) →
    ∀ t', NetLeft n0 n1 c0 c1 p s t' ↔ t' = t := by
  induction p with
  | ret a =>
    intro s t x h t'
    cases h
    exact ⟨fun h => by cases h; rfl, fun h => h ▸ .ret _ _⟩
  | panic p => intro s t x h; cases h
  | ask r0 r1 k ih =>
    intro s t x h t'
    rw [Prog.netRun] at h
    split at h
    · rename_i a b g0 g1
      constructor
      · intro hl
        cases hl with
        | ask _ _ _ _ _ a' b' g0' g1' g =>
          rw [g0] at g0'
          rw [g1] at g1'
          cases g0'
          cases g1'
          exact (ih a b h t').1 g
        | failed _ _ _ _ _ p hp _ _ =>
          rw [g0, g1] at hp
          rcases hp with hp | hp <;> cases hp
      · rintro rfl
        exact .ask _ _ _ _ _ a b g0 g1 ((ih a b h t').2 rfl)
    · cases h
    · cases h

theorem netCall_poisoned (net : Net) (c : ServerCfg) (r : Req) : ∃ e, (netCall net c (.poisoned : Server P) r).2 = .error e := by
  have hh : ∀ r, ∃ e, ((.poisoned : Server P).handle c r).2 = .error e := by
    intro r
    unfold Server.handle
    cases preLock c r <;> exact ⟨_, rfl⟩
  rw [netCall]
  split_ifs
  · exact ⟨_, rfl⟩
  · split
    · rename_i r' _
      obtain ⟨e, he⟩ := hh r'
      rw [he]
      exact ⟨_, rfl⟩
    · exact ⟨_, rfl⟩

/-- **C114, the other kind of crash.**  If a handler has panicked instead, every later run over any connections panics. -/
theorem C114_poisoned {s : Server P × Server P} (hs : s.1 = .poisoned ∨ s.2 = .poisoned) :
    ∃ e, (mainP P bld cfg mode draw n).netRun n0 n1 c0 c1 s = .error e := by
  have hask : ∀ {β : Type} (r0 r1 : Req) (k : Resp → Resp → Prog β), ∃ e, (Prog.ask r0 r1 k).netRun n0 n1 c0 c1 s = .error e := by
    intro β r0 r1 k
    rw [Prog.netRun]
    rcases hs with h | h
    · obtain ⟨e, he⟩ := netCall_poisoned (P := P) n0 c0 r0
      rw [← h] at he
      split
      · rename_i g0 g1; rw [he] at g0; cases g0
      · exact ⟨_, rfl⟩
      · exact ⟨_, rfl⟩
    · obtain ⟨e, he⟩ := netCall_poisoned (P := P) n1 c1 r1
      rw [← h] at he
      split
      · rename_i g0 g1; rw [he] at g1; cases g1
      · exact ⟨_, rfl⟩
      · exact ⟨_, rfl⟩
  simp only [mainP, netRun_bind, liftM_prog, netRun_lift]
  cases assertE draw.maliciousOk with
  | error p => exact ⟨p, rfl⟩
  | ok u =>
    simp only [ok_bind]
    split_ifs
    · exact ⟨_, rfl⟩
    · simp only [netRun_bind, netRun_lift]
      cases generateReports P cfg mode draw.reports with
      | error p => exact ⟨p, rfl⟩
      | ok reports =>
        simp only [ok_bind]
        obtain ⟨e, he⟩ := hask (.reset draw.verifyKey cfg.histBuckets) (.reset draw.verifyKey cfg.histBuckets) _
        unfold resetP callDone
        rw [he]
        exact ⟨e, rfl⟩

/-- **C114, the advice of artifact/README.md:324-336.**  A run with the shipped file for weighted heavy hitters and up to
8387500 clients that crashed can be repeated with smaller batches on the same servers, which need not be restarted: the second
run ends with the result of the run on values. -/
theorem C114_shipped_whh {a q : Nat} {draw' : MainDraw} {clients' : List (List Bool × Nat)} {m0 m1 : Net} (kcs : Pair2 P)
    (h : Spec.WhhRun P c0 c1 (fileWhh.toConfig n) draw n 8 clients)
    (h' : Spec.WhhRun P c0 c1 ((Spec.rebatched fileWhh a q).toConfig n) draw' n 8 clients') (hn : n ≤ 8387500)
    (ha : a ≤ 1000) (hq : q ≤ 81000) (hhon : ∀ i < n, (draw.picks i).2 ≠ some .flp)
    (hhon' : ∀ i < n, (draw'.picks i).2 ≠ some .flp) (hl : Spec.ProofLen P 4 l) (hl' : l ≤ 100)
    (hv : Spec.VerifierLen P 4 6) (h0 : Spec.plainNet n0) (h1 : Spec.plainNet n1) (g0 : Spec.plainNet m0)
    (g1 : Spec.plainNet m1)
    (hleft : NetLeft n0 n1 c0 c1 (mainP P bld (fileWhh.toConfig n) .weightedHeavyHitters draw n)
      (.running kcs.1, .running kcs.2) left) :
    (81443 ≤ n → (mainP P bld (fileWhh.toConfig n) .weightedHeavyHitters draw n).netRun n0 n1 c0 c1
      (.running kcs.1, .running kcs.2) = .error .unwrap) ∧
    ∃ out t, driverMain c0 c1 bld ((Spec.rebatched fileWhh a q).toConfig n) .weightedHeavyHitters draw' n kcs = .ok out ∧
      (mainP P bld ((Spec.rebatched fileWhh a q).toConfig n) .weightedHeavyHitters draw' n).netRun m0 m1 c0 c1 left
        = .ok (out.shown, t) := by
  refine ⟨(C112_shipped_whh kcs h (by omega) hhon hl hl' hv h0 h1).2, ?_⟩
  have hcn : clients.length = n := by
    rw [h.clients_eq, mainClients_honest hhon]
    simp [List.filterMap_map, Spec.runClients]
  have hn1 : 1 ≤ n := by
    have := List.length_pos_iff.2 h.nonempty
    omega
  obtain ⟨s, hs1, hs2⟩ := heavy_of_room h.clients_eq h.sensible.picks
    (by rw [hcn]; exact shipped_room (by omega) hn1 1000 100000)
  obtain ⟨⟨k, rfl⟩, -⟩ := C114_whh kcs h hhon ⟨s, hs1, fun _ => by rw [List.countP_eq_length_filter]; exact hs2⟩ hl hv
    (by show 4 < 2 ^ 64; norm_num) (plainNet_limit h0) (plainNet_limit h1) hleft
  obtain ⟨out, t, e1, e2⟩ := (C113_shipped_whh (bld := bld) kcs h' (by omega) hhon' hl hl' hv g0 g1).1 hn ha hq
  refine ⟨out, t, e1, ?_⟩
  rw [main_from (show 4 < 2 ^ 64 by norm_num) k kcs]
  exact e2

/-! Examples -/

/-- One million clients with arbitrary strings: the shipped file crashes, and batches of 80000 answers make the next run on the
same servers end. -/
example (pick : Nat → Nat) (bits : Nat → Nat → Bool) (hp : ∀ i, 1 ≤ pick i ∧ pick i ≤ 1000) (kcs : Pair2 toy)
    {left : Server toy × Server toy}
    (hleft : NetLeft ⟨60, 20, maxFrame⟩ ⟨60, 20, maxFrame⟩ (toyCfg 0 (some 8) .debug) (toyCfg 1 (some 8) .release)
      (mainP toy .debug (fileWhh.toConfig 1000000) .weightedHeavyHitters (Spec.population toyDraw pick bits) 1000000)
      (.running kcs.1, .running kcs.2) left) :
    (mainP toy .debug (fileWhh.toConfig 1000000) .weightedHeavyHitters (Spec.population toyDraw pick bits) 1000000).netRun
      ⟨60, 20, maxFrame⟩ ⟨60, 20, maxFrame⟩ (toyCfg 0 (some 8) .debug) (toyCfg 1 (some 8) .release)
      (.running kcs.1, .running kcs.2) = .error .unwrap ∧
    ∃ x t, (mainP toy .debug ((Spec.rebatched fileWhh 1000 80000).toConfig 1000000) .weightedHeavyHitters
      (Spec.population toyDraw pick bits) 1000000).netRun ⟨60, 20, maxFrame⟩ ⟨60, 20, maxFrame⟩ (toyCfg 0 (some 8) .debug)
      (toyCfg 1 (some 8) .release) left = .ok (x, t) := by
  have hnet : Spec.plainNet ⟨60, 20, maxFrame⟩ := ⟨rfl, by decide, by decide⟩
  obtain ⟨e1, out, t, -, e2⟩ := C114_shipped_whh (n := 1000000) kcs
    (toy_shippedRun (bits := bits) (by norm_num) (by norm_num) fun i _ => hp i)
    (toy_batchesRun (a := 1000) (q := 80000) (bits := bits) (by norm_num) (by norm_num) (by norm_num) (by norm_num)
      fun i _ => hp i)
    (by norm_num) (by norm_num) (by norm_num) (fun _ _ => by simp [Spec.population]) (fun _ _ => by simp [Spec.population])
    (toy_proofLen 4) (by decide) (toy_verifierLen 4) hnet hnet hnet hnet hleft
  exact ⟨e1 (by norm_num), _, t, e2⟩

/-- Such states exist. -/
example (pick : Nat → Nat) (bits : Nat → Nat → Bool) (kcs : Pair2 toy) :
    ∃ left, NetLeft ⟨60, 20, maxFrame⟩ ⟨60, 20, maxFrame⟩ (toyCfg 0 (some 8) .debug) (toyCfg 1 (some 8) .release)
      (mainP toy .debug (fileWhh.toConfig 1000000) .weightedHeavyHitters (Spec.population toyDraw pick bits) 1000000)
      (.running kcs.1, .running kcs.2) left := netLeft_exists _ _ _ _ _ _

/-- Servers with a poisoned mutex are not as good as new. -/
example : ¬ Spec.LikeNew (P := toy) (toyCfg 0 (some 8) .debug) (toyCfg 1 (some 8) .release) (.poisoned, .poisoned) := by
  intro h
  have hnet : Spec.plainNet ⟨60, 20, maxFrame⟩ := ⟨rfl, by decide, by decide⟩
  have key := h .debug (fileWhh.toConfig 80000) .weightedHeavyHitters (Spec.population toyDraw (fun _ => 1) fun _ _ => true)
    80000 4 4 ⟨60, 20, maxFrame⟩ ⟨60, 20, maxFrame⟩ (by show 4 < 2 ^ 64; norm_num)
  obtain ⟨e, he⟩ := C114_poisoned (P := toy) (bld := .debug) (cfg := fileWhh.toConfig 80000) (mode := .weightedHeavyHitters)
    (draw := Spec.population toyDraw (fun _ => 1) fun _ _ => true) (n := 80000) (n0 := ⟨60, 20, maxFrame⟩)
    (n1 := ⟨60, 20, maxFrame⟩) (c0 := toyCfg 0 (some 8) .debug) (c1 := toyCfg 1 (some 8) .release)
    (s := (.poisoned, .poisoned)) (.inl rfl)
  rw [he] at key
  obtain ⟨out, t, -, ht⟩ := (C112_shipped_whh (bld := .debug) (n0 := ⟨60, 20, maxFrame⟩) (n1 := ⟨60, 20, maxFrame⟩)
    (KeyCollection.new toy 4 0 (some 8) Block.zero, KeyCollection.new toy 4 1 (some 8) Block.zero)
    (toy_shippedRun (n := 80000) (pick := fun _ => 1) (bits := fun _ _ => true) (by norm_num) (by norm_num)
      fun _ _ => ⟨le_rfl, by norm_num⟩) (by norm_num)
    (fun _ _ => by simp [Spec.population]) (toy_proofLen 4) (by decide) (toy_verifierLen 4) hnet hnet).1 (by norm_num)
  exact absurd (key.trans ht) (by simp)

end Mastic
