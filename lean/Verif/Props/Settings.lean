import Verif.Lemmas.Settings
import Verif.Lemmas.System
import Verif.Lemmas.Script
import Verif.Props.Main

/-!
# C104: servers that were started with other settings
-/

namespace Mastic

variable {P : Prims}

/-! ### What holds -/

/-- The more permissive of two kinds of build. -/
def joinBuild : Build → Build → Build
  | .debug, .debug => .debug
  | _, _ => .release

/-- Settings that permit whatever one of two settings permits. -/
def joinCfg (c c' : ServerCfg) : ServerCfg :=
  { c with dataBits := Spec.moreBits c.dataBits c'.dataBits, build := joinBuild c.build c'.build }

theorem joinBuild_left (b b' : Build) : Laxer b (joinBuild b b') := by cases b <;> cases b' <;> simp [Laxer, joinBuild]

theorem joinBuild_right (b b' : Build) : Laxer b' (joinBuild b b') := by
  cases b <;> cases b' <;> simp [Laxer, joinBuild]

theorem joinBuild_self (b : Build) : joinBuild b b = b := by cases b <;> rfl

theorem permits_left (c c' : ServerCfg) : Permits c (joinCfg c c') := by
  refine ⟨rfl, fun a h => ?_, joinBuild_left _ _⟩
  simp only [joinCfg, h]
  cases c'.dataBits with
  | none => exact ⟨a, rfl, le_rfl⟩
  | some b => exact ⟨max a b, rfl, le_max_left _ _⟩

theorem permits_right {c c' : ServerCfg} (h : Spec.SameNumber c c') : Permits c' (joinCfg c c') := by
  refine ⟨h, fun a h => ?_, joinBuild_right _ _⟩
  simp only [joinCfg, h]
  cases c.dataBits with
  | none => exact ⟨a, rfl, le_rfl⟩
  | some b => exact ⟨max b a, rfl, le_max_right _ _⟩

/-- A run of the driver program begins with `reset`, if it does not panic before. -/
theorem mainP_shape (b : Build) (cfg : Config) (mode : DriverMode) (draw : MainDraw) (n : Nat) :
    (∃ e, mainP P b cfg mode draw n = .panic e) ∨
    ∃ k, mainP P b cfg mode draw n
      = .ask (.reset draw.verifyKey cfg.histBuckets) (.reset draw.verifyKey cfg.histBuckets) k := by
  unfold mainP
  cases assertE draw.maliciousOk with
  | error e => exact .inl ⟨e, rfl⟩
  | ok u =>
    by_cases hh : (!P.histOk cfg.histBuckets) = true
    · refine .inl ⟨.unwrap, ?_⟩
      rw [if_pos hh]; rfl
    · rw [if_neg hh]
      cases hg : generateReports P cfg mode draw.reports with
      | error e => exact .inl ⟨e, rfl⟩
      | ok reports => exact .inr ⟨_, rfl⟩

/-- `reset` leaves nothing of the state before it. -/
theorem reset_handle {c : ServerCfg} {s t : Server P} {vk : Block} {n : Nat} {a : Resp}
    (h : s.handle c (.reset vk n) = (t, .ok a)) :
    P.histOk n = true ∧ a = .done ∧ t = .running (KeyCollection.new P n c.serverId c.dataBits vk) := by
  cases s with
  | poisoned => cases h
  | running kc =>
    simp only [Server.handle, preLock, locked, srvReset] at h
    cases hh : P.histOk n with
    | false => rw [hh] at h; cases h
    | true => rw [hh] at h; cases h; exact ⟨rfl, rfl, rfl⟩

theorem reset_handle_ok {c : ServerCfg} (kc : KeyCollection P) {vk : Block} {n : Nat} (h : P.histOk n = true) :
    (Server.running kc).handle c (.reset vk n)
      = (.running (KeyCollection.new P n c.serverId c.dataBits vk), .ok .done) := by
  simp only [Server.handle, preLock, locked, srvReset, h, if_true, ok_bind]

/-- Servers with more permissive settings, whatever their states were before. -/
theorem talk_main_laxer {c0 c1 c0' c1' : ServerCfg} {b b' : Build} {cfg : Config} {mode : DriverMode} {draw : MainDraw}
    {n : Nat} {s0 s1 u0 u1 : Server P} {sent : List (Req × Req)} {a : Shown} (hp0 : Permits c0 c0')
    (hp1 : Permits c1 c1') (hb : Laxer b b')
    (hm : (∀ m, mode ≠ .attributeBasedMetrics m) ∨ c0.build = c0'.build ∧ c1.build = c1'.build)
    (h : Spec.Talk c0 c1 (mainP P b cfg mode draw n) s0 s1 sent a u0 u1) (k0 k1 : KeyCollection P) :
    ∃ u0' u1', Spec.Talk c0' c1' (mainP P b' cfg mode draw n) (.running k0) (.running k1) sent a u0' u1' := by
  obtain ⟨ht, hq⟩ := talk_softer h (softer_main hb cfg mode draw n)
  rcases mainP_shape (P := P) b' cfg mode draw n with ⟨e, he⟩ | ⟨k, hk⟩
  · rw [he] at ht; cases ht
  · rw [hk] at ht ⊢
    cases ht with
    | ask _ _ _ _ _ t0 t1 _ _ a0 a1 sent _ h0 h1 ht =>
      obtain ⟨hh, rfl, rfl⟩ := reset_handle h0
      obtain ⟨-, rfl, rfl⟩ := reset_handle h1
      obtain ⟨u0', u1', hl⟩ := talk_laxer hp0 hp1 ht
        (.running _ (KeyCollection.new P cfg.histBuckets c0'.serverId c0'.dataBits draw.verifyKey)
          ⟨rfl, by rw [hp0.id]; rfl⟩)
        (.running _ (KeyCollection.new P cfg.histBuckets c1'.serverId c1'.dataBits draw.verifyKey)
          ⟨rfl, by rw [hp1.id]; rfl⟩) (fun r hr => by
            rcases hm with hm | ⟨e0, e1⟩
            · have := hq r (List.mem_cons_of_mem _ hr)
              exact ⟨.inl (this.1 hm), .inl (this.2 hm)⟩
            · exact ⟨.inr e0, .inr e1⟩)
      exact ⟨u0', u1', .ask _ _ _ _ _ _ _ _ _ _ _ _ _ (reset_handle_ok k0 hh) (reset_handle_ok k1 hh) hl⟩

/-- **C104, what holds.**  Take any two runs of the driver program with the same configuration, mode, random values and
number of clients - any reports, honest or not - against servers with the same numbers 0 and 1 (or any others), but
otherwise started in different ways: another number of bits, debug or release builds, other orders of their hash maps,
other states before; the builds of the drivers may differ too.  If both runs end normally, they sent the same requests
and show the same.  In attribute-based metrics the servers' builds have to be the same. -/
theorem C104_same_partial {c0 c1 c0' c1' : ServerCfg} {b b' : Build} {cfg : Config} {mode : DriverMode}
    {draw : MainDraw} {n : Nat} {s0 s1 u0 u1 s0' s1' u0' u1' : Server P} {sent sent' : List (Req × Req)} {a a' : Shown}
    (h0 : Spec.SameNumber c0 c0') (h1 : Spec.SameNumber c1 c1')
    (hm : (∀ m, mode ≠ .attributeBasedMetrics m) ∨ c0.build = c0'.build ∧ c1.build = c1'.build)
    (h : Spec.Talk c0 c1 (mainP P b cfg mode draw n) s0 s1 sent a u0 u1)
    (h' : Spec.Talk c0' c1' (mainP P b' cfg mode draw n) s0' s1' sent' a' u0' u1') :
    sent = sent' ∧ a = a' := by
  have k := KeyCollection.new P 0 0 none Block.zero
  obtain ⟨_, _, g⟩ := talk_main_laxer (permits_left c0 c0') (permits_left c1 c1') (joinBuild_left b b')
    (hm.imp_right fun ⟨e0, e1⟩ => ⟨by rw [joinCfg, ← e0, joinBuild_self], by rw [joinCfg, ← e1, joinBuild_self]⟩) h k k
  obtain ⟨_, _, g'⟩ := talk_main_laxer (permits_right h0) (permits_right h1) (joinBuild_right b b')
    (hm.imp_right fun ⟨e0, e1⟩ => ⟨by rw [joinCfg, e0, joinBuild_self], by rw [joinCfg, e1, joinBuild_self]⟩) h' k k
  exact talk_unique g g'

/-! ### What does not hold: builds -/

theorem sumTables_cons_sum {m n : Nat} (A B : List (List (List Field128))) :
    Spec.sumTables m n (A ++ B) = Spec.sumTables m n (Spec.sumTables m n A :: B) := by
  have h := cell_sumTables (m := m) (n := n) (A ++ B)
  have h' := cell_sumTables (m := m) (n := n) (Spec.sumTables m n A :: B)
  have hA := cell_sumTables (m := m) (n := n) A
  refine isTable_ext h.1 h'.1 fun j hj c hc => ?_
  rw [h.2 j hj c hc, h'.2 j hj c hc, List.map_append, List.sum_append, List.map_cons, List.sum_cons, hA.2 j hj c hc]

theorem sumTables_perm {m n : Nat} {A B : List (List (List Field128))} (hp : A.Perm B) :
    Spec.sumTables m n A = Spec.sumTables m n B := by
  have h := cell_sumTables (m := m) (n := n) A
  have h' := cell_sumTables (m := m) (n := n) B
  refine isTable_ext h.1 h'.1 fun j hj c hc => ?_
  rw [h.2 j hj c hc, h'.2 j hj c hc]
  exact (hp.map _).sum_eq

theorem filter_take_positions {α β : Type} {xs : List α} {p : α → Bool} {f : α → β} {q : Nat → Bool} {t : Nat → β}
    (h : ∀ i x, xs[i]? = some x → p x = q i ∧ f x = t i) : ∀ k ≤ xs.length,
    ((xs.take k).filter p).map f = ((List.range k).filter q).map t
  | 0, _ => by simp
  | k + 1, hk => by
    have ih := filter_take_positions h k (by omega)
    have hx : xs[k]? = some xs[k] := List.getElem?_eq_getElem (by omega)
    obtain ⟨h1, h2⟩ := h k _ hx
    rw [List.take_add_one, hx, List.range_succ, List.filter_append, List.filter_append, List.map_append,
      List.map_append, ih]
    congr 1
    simp only [Option.toList_some, List.filter_cons, List.filter_nil, h1]
    split <;> simp [h2]

/-- **C104 is false of the code: builds.**  In attribute-based metrics with a debug server 0 and a release server 1 and
otherwise exactly the right settings, nothing is noticed: for the populations of `C63_debug_exact` (honest clients, and
clients that fail one check) the run ends normally, lists the right clients as rejected, and shows for every batch the
right histograms plus the value tables that server 1 holds for the rejected clients. -/
theorem C104_false_builds {c0 c1 : ServerCfg} {cfg : Config} {kcs : Pair2 P} {d : Nat}
    {clients : List (Option (List Bool × Nat))} {attrs : List (List Bool)} (hb : 1 ≤ cfg.queryBatch) (hd : 1 ≤ d)
    (hn0 : kcs.1.inputLen = cfg.histBuckets) (hn1 : kcs.2.inputLen = cfg.histBuckets)
    (h0 : kcs.1.serverId = 0) (h1 : kcs.2.serverId ≠ 0) (hvk : kcs.1.verifyKey = kcs.2.verifyKey)
    (ha : ∀ p ∈ attrs, p ≠ [] ∧ p.length ≤ d) (hb0 : c0.build = .debug) (hb1 : c1.build = .release)
    (hp : Spec.AbmPopulation P cfg.histBuckets d attrs kcs.1.serverId kcs.2.serverId kcs.1.verifyKey clients
      kcs.1.reportShares kcs.2.reportShares)
    (e0 : kcs.1.abmState = []) (e1 : kcs.2.abmState = []) :
    ∃ kcs' ranges, ∃ held : Nat → List (List Field128),
      runAbm c0 c1 cfg kcs attrs clients.length = .ok (kcs', ranges.map fun r =>
        ⟨(List.range' r.1 (r.2 - r.1)).filter fun i => clients[i]? == some none,
          Spec.sumTables attrs.length cfg.histBuckets
            (Spec.attributeHistograms cfg.histBuckets attrs ((clients.take r.2).filterMap id) ::
              ((List.range r.2).filter fun i => clients[i]? == some none).map held)⟩) ∧
      (∀ (i : Nat) (r1 : Bool × ReportShare), kcs.2.reportShares[i]? = some r1 →
        Spec.tableOf P cfg.histBuckets attrs r1.2 = some (held i)) ∧
      Spec.Partitions clients.length ranges ∧ ∀ r ∈ ranges, r.2 ≤ r.1 + cfg.queryBatch := by
  obtain ⟨hl0, hl1, hpop⟩ := hp
  obtain ⟨xs, hxl, hxs⟩ := exists_judged_idx (as := clients) (R := fun i c x =>
    (∀ r0 r1, kcs.1.reportShares[i]? = some r0 → kcs.2.reportShares[i]? = some r1 →
      Spec.WellFormed d r0.2 ∧ Spec.WellFormed d r1.2 ∧ Spec.Judged P cfg.histBuckets attrs kcs.1.serverId
        kcs.2.serverId kcs.1.verifyKey r0.2 r1.2 x.verdict x.table0 x.table1) ∧
    match c with
    | none => x.verdict.flp ≠ x.verdict.proof
    | some c => x.verdict = ⟨true, true⟩ ∧ ∃ beta, encodeMeasurement cfg.histBuckets c.2 = some beta ∧
        List.zipWith Spec.addShares x.table0 x.table1 = attrs.map (Spec.pointValue c.1 beta)) (by
    intro i c hc
    have hi := (List.getElem?_eq_some_iff.1 hc).1
    obtain ⟨r0, g0⟩ : ∃ r, kcs.1.reportShares[i]? = some r := ⟨_, List.getElem?_eq_getElem (by omega)⟩
    obtain ⟨r1, g1⟩ : ∃ r, kcs.2.reportShares[i]? = some r := ⟨_, List.getElem?_eq_getElem (by omega)⟩
    have := hpop i c r0 r1 hc g0 g1
    cases c with
    | none =>
      obtain ⟨w0, w1, v, t0, t1, hj, hv⟩ := this
      refine ⟨⟨v, t0, t1⟩, fun a b ga gb => ?_, hv⟩
      rw [g0] at ga; rw [g1] at gb; cases ga; cases gb
      exact ⟨w0, w1, hj⟩
    | some c =>
      obtain ⟨hh, hal, hc⟩ := this
      obtain ⟨beta, t0, t1, hbe, hj, hz⟩ := honest_judged h0 h1 (by
        intro h; rw [h] at hal; simp at hal; omega) hh hc attrs (by rw [hal]; exact ha)
      obtain ⟨-, -, -, -, -, -, w0, w1, -⟩ := honestPair_facts hh
      rw [hal] at w0 w1
      refine ⟨⟨⟨true, true⟩, t0, t1⟩, fun a b ga gb => ?_, rfl, beta, hbe, hz⟩
      rw [g0] at ga; rw [g1] at gb; cases ga; cases gb
      exact ⟨w0, w1, hj⟩)
  have hget : ∀ (i : Nat) (x : Spec.AbmClient), xs[i]? = some x → ∃ c, clients[i]? = some c := by
    intro i x hx
    have := (List.getElem?_eq_some_iff.1 hx).1
    exact ⟨_, List.getElem?_eq_getElem (by omega)⟩
  have hcount : ∀ (i : Nat) (x : Spec.AbmClient), xs[i]? = some x →
      Spec.counts .debug x = !(clients[i]? == some none) := by
    intro i x hx
    obtain ⟨c, hc⟩ := hget i x hx
    have := (hxs i c x hc hx).2
    rw [hc]
    cases c with
    | none =>
      rcases x with ⟨⟨f, p⟩, t0, t1⟩
      cases f <;> cases p <;> simp [Spec.counts] at this ⊢
    | some c => simp [Spec.counts, show x.verdict = _ from this.1]
  obtain ⟨kcs', ranges, hr, hpart, hsz⟩ := (C63_runs (c0 := c0) (c1 := c1) hb hd hn0 hn1 hvk ha
    (clients := xs) (by omega) (by omega) (fun i x r0 r1 hx g0 g1 => by
      obtain ⟨c, hc⟩ := hget i x hx
      exact (hxs i c x hc hx).1 r0 r1 g0 g1) e0 e1).2 (by
    rintro ⟨-, x, hx, hf, hg⟩
    obtain ⟨i, hi⟩ := List.mem_iff_getElem?.1 hx
    obtain ⟨c, hc⟩ := hget i x hi
    have := (hxs i c x hc hi).2
    cases c with
    | none => exact this (hf.trans hg.symm)
    | some c => rw [this.1] at hf; cases hf)
  rw [hxl] at hr hpart
  refine ⟨kcs', ranges, fun i => ((xs[i]?).map Spec.AbmClient.table1).getD [], ?_, ?_, hpart, hsz⟩
  · rw [hr]
    congr 2
    refine List.map_congr_left fun r hrm => ?_
    have hre := (hpart.1 r hrm).2
    unfold Spec.abmBatchOut
    rw [hb0, hb1]
    congr 1
    · unfold Spec.rejections
      refine flatMap_eq_filter fun i hi => ?_
      have hin := (rangeFrom_mem.1 (show i ∈ rangeFrom r.1 r.2 from hi)).2
      obtain ⟨x, hx⟩ : ∃ x, xs[i]? = some x := ⟨_, List.getElem?_eq_getElem (by omega)⟩
      obtain ⟨c, hc⟩ := hget i x hx
      have := (hxs i c x hc hx).2
      rw [hx, hc]
      cases c with
      | none =>
        rcases x with ⟨⟨f, p⟩, t0, t1⟩
        cases f <;> cases p <;> simp at this ⊢
      | some c => simp [show x.verdict = _ from this.1]
    · have hall : ∀ (n : Nat), List.Forall₂ (fun x c => ∃ beta, encodeMeasurement cfg.histBuckets c.2 = some beta ∧
          List.zipWith Spec.addShares x.table0 x.table1 = attrs.map (Spec.pointValue c.1 beta))
          ((xs.take n).filter (Spec.counts .debug)) ((clients.take n).filterMap id) := by
        intro n
        have hrel : List.Forall₂ (fun (x : Spec.AbmClient) (c : Option (List Bool × Nat)) => match c with
            | none => x.verdict.flp ≠ x.verdict.proof
            | some c => x.verdict = ⟨true, true⟩ ∧ ∃ beta, encodeMeasurement cfg.histBuckets c.2 = some beta ∧
              List.zipWith Spec.addShares x.table0 x.table1 = attrs.map (Spec.pointValue c.1 beta))
            (xs.take n) (clients.take n) := by
          refine List.forall₂_take n ?_
          rw [List.forall₂_iff_get]
          refine ⟨hxl, fun i i1 i2 => (hxs i _ _ (List.getElem?_eq_getElem i2) (List.getElem?_eq_getElem i1)).2⟩
        generalize xs.take n = ys at hrel
        generalize clients.take n = cs at hrel
        induction hrel with
        | nil => exact .nil
        | @cons x c ys cs hx _ ih =>
          cases c with
          | none =>
            have : Spec.counts .debug x = false := by
              rcases x with ⟨⟨f, p⟩, t0, t1⟩
              cases f <;> cases p <;> simp [Spec.counts] at hx ⊢
            rw [List.filter_cons_of_neg (by simp [this])]
            simpa using ih
          | some c =>
            have : Spec.counts .debug x = true := by simp [Spec.counts, hx.1]
            rw [List.filter_cons_of_pos this]
            exact .cons hx.2 (by simpa using ih)
      rw [← sumTables_honest (hall r.2)]
      have hpos := filter_take_positions (xs := xs) (p := fun x => !Spec.counts .debug x)
        (f := Spec.AbmClient.table1) (q := fun i => clients[i]? == some none)
        (t := fun i => ((xs[i]?).map Spec.AbmClient.table1).getD []) (fun i x hx => by
          rw [hcount i x hx, hx]; simp) r.2 (by omega)
      rw [← hpos, ← sumTables_cons_sum, List.append_assoc]
      refine sumTables_perm (List.Perm.append_left _ ?_)
      have hrel : (xs.take r.2).filter (Spec.counts .release) = xs.take r.2 :=
        List.filter_eq_self.2 fun _ _ => rfl
      rw [hrel, ← List.map_append]
      exact ((List.filter_append_perm (Spec.counts .debug) (xs.take r.2)).symm).map _
  · intro i r1 g1
    have hi := (List.getElem?_eq_some_iff.1 g1).1
    obtain ⟨x, hx⟩ : ∃ x, xs[i]? = some x := ⟨_, List.getElem?_eq_getElem (by omega)⟩
    obtain ⟨c, hc⟩ := hget i x hx
    obtain ⟨r0, g0⟩ : ∃ r, kcs.1.reportShares[i]? = some r := ⟨_, List.getElem?_eq_getElem (by omega)⟩
    dsimp only
    rw [hx]
    exact ((hxs i c x hc hx).1 r0 r1 g0 g1).2.2.2.2.2

/-- The same of a whole run of the program, all settings being right except that server 0 is a debug and server 1 a
release build.  The run ends normally, and every printed histogram is the right one plus what server 1 holds for the clients
that are printed as rejected. -/
theorem C104_false_builds_run {c0 c1 : ServerCfg} {bld : Build} {cfg : Config} {draw : MainDraw}
    {n d num L : Nat} {kcs : Pair2 P} (hs : Spec.Sensible P cfg draw n) (hprove : Spec.Proves P cfg draw)
    (hd : cfg.dataBits = some d) (hd1 : 1 ≤ d) (h0 : c0.serverId = 0) (h1 : c1.serverId ≠ 0)
    (hcomp : ∀ i < n, Spec.FlpCompleteAt P cfg.histBuckets (P.xofField draw.verifyKey
      (Spec.MainDraw.of draw i).rand.nonce.toList (P.queryRandLen cfg.histBuckets)))
    (hrej : Spec.BumpsRejected P cfg.histBuckets d c0.serverId c1.serverId draw n)
    (hL : Spec.VerifierLen P cfg.histBuckets L)
    (hattr : ∀ j < num, draw.attributes j < cfg.uniqueBuckets) (hb0 : c0.build = .debug) (hb1 : c1.build = .release)
    {clients : List (Option (List Bool × Nat))}
    (hcl : clients = (List.range n).map fun i =>
      if Spec.bumps (draw.picks i).2 then none else some (Spec.drawn cfg.histBuckets d (Spec.MainDraw.of draw i))) :
    ∃ (attributes : List (List Bool)) (ranges : List (Nat × Nat)) (held : Nat → List (List Field128)),
      driverMain c0 c1 bld cfg (.attributeBasedMetrics num) draw n kcs = .ok (.abm attributes
        (ranges.map fun r => ⟨(List.range' r.1 (r.2 - r.1)).filter fun i => clients[i]? == some none,
          Spec.sumTables attributes.length cfg.histBuckets
            (Spec.attributeHistograms cfg.histBuckets attributes ((clients.take r.2).filterMap id) ::
              ((List.range r.2).filter fun i => clients[i]? == some none).map held)⟩)) ∧
      attributes.Nodup ∧
      (∀ a, a ∈ attributes ↔ ∃ j < num, a = (List.range d).map (draw.reports (draw.attributes j)).bits) ∧
      (∀ i < n, ∃ nonce ks proofs jr alpha, genMasticReport P cfg.histBuckets
          (Spec.drawn cfg.histBuckets d (Spec.MainDraw.of draw i)).1
          (Spec.drawn cfg.histBuckets d (Spec.MainDraw.of draw i)).2 (Spec.MainDraw.of draw i).rand
          = .ok (.mastic nonce ks proofs jr alpha) ∧
        Spec.tableOf P cfg.histBuckets attributes (.mastic nonce ks.2 proofs.2 jr) = some (held i)) ∧
      Spec.Partitions n ranges ∧ ∀ r ∈ ranges, r.2 ≤ r.1 + cfg.queryBatch := by
  obtain ⟨reports, sh, hg, hrl, hra, hp, hlen, hsh⟩ := mastic_picks (P := P)
    (mode := .attributeBasedMetrics num) hs hprove (by simp) hd
  rw [driverMain_eq hs hg hp]
  have ha := (mainAttributes_ok (num := num) hs.zipf hrl hra).1 hattr
  have hmem : ∀ a, a ∈ draw.setOrder (((List.range num).map fun j =>
      (Spec.drawn cfg.histBuckets d (draw.reports (draw.attributes j))).1).dedup) ↔
      ∃ j < num, a = (List.range d).map (draw.reports (draw.attributes j)).bits := by
    intro a
    rw [(draw.setOrder_perm _).mem_iff, List.mem_dedup, List.mem_map]
    constructor
    · rintro ⟨j, hj, rfl⟩; exact ⟨j, List.mem_range.1 hj, rfl⟩
    · rintro ⟨j, hj, rfl⟩; exact ⟨j, List.mem_range.2 hj, rfl⟩
  set attrs := draw.setOrder (((List.range num).map fun j =>
      (Spec.drawn cfg.histBuckets d (draw.reports (draw.attributes j))).1).dedup)
  have hkeys := main_honestKeys (c0 := c0) (c1 := c1) hcomp hrej hlen hsh
  have hal : ∀ p ∈ attrs, p ≠ [] ∧ p.length ≤ d := by
    intro p hp
    obtain ⟨j, -, rfl⟩ := (hmem p).1 hp
    refine ⟨fun h => ?_, by simp⟩
    have := congrArg List.length h
    simp at this; omega
  have hpop := HonestKeys.population hd1 hal hL hkeys
  rw [List.map_map, show ((fun c : (List Bool × Nat) × Bool => if c.2 then none else some c.1) ∘ fun i =>
    (Spec.drawn cfg.histBuckets d (Spec.MainDraw.of draw i), Spec.bumps (draw.picks i).2)) = fun i =>
      if Spec.bumps (draw.picks i).2 then none else some (Spec.drawn cfg.histBuckets d (Spec.MainDraw.of draw i))
    from rfl, ← hcl] at hpop
  have hcn : clients.length = n := by rw [hcl]; simp
  obtain ⟨kcs', ranges, held, q1, q2, q3, q4⟩ := C104_false_builds (c0 := c0) (c1 := c1) (cfg := cfg)
    (kcs := uploaded P c0 c1 cfg draw.verifyKey sh) hs.queryBatch hd1 rfl rfl h0 h1 rfl hal hb0 hb1 hpop rfl rfl
  rw [hcn] at q1 q3
  refine ⟨attrs, ranges, held, by simp only [ha, ok_bind, q1], (draw.setOrder_perm _).nodup_iff.2 (List.nodup_dedup _),
    hmem, fun i hi => ?_, q3, q4⟩
  obtain ⟨ks, p0, p, ps, jr, hgen, e⟩ := hsh i hi
  refine ⟨_, _, _, _, _, hgen, ?_⟩
  have e' : (uploaded P c0 c1 cfg draw.verifyKey sh).2.reportShares[i]? = some (true, .mastic
      (Spec.MainDraw.of draw i).rand.nonce ks.2 (sentProof (draw.picks i).2 p ps) jr) := by
    simp only [uploaded, List.getElem?_map, e, Option.map_some]
  exact q2 i _ e'

/-! ### What does not hold: server numbers -/

/-- **C104 is false of the code: numbers.**  Take debug servers with any numbers, for instance exchanged ones, whose FLP
verification refuses the honest reports under these numbers.  The run of attribute-based metrics ends normally and
shows zeros for every attribute, all clients being rejected. -/
theorem C104_false_numbers {c0 c1 : ServerCfg} {cfg : Config} {kcs : Pair2 P} {d L : Nat}
    {clients : List (List Bool × Nat)} {attrs : List (List Bool)} (hb : 1 ≤ cfg.queryBatch) (hd : 1 ≤ d)
    (hn0 : kcs.1.inputLen = cfg.histBuckets) (hn1 : kcs.2.inputLen = cfg.histBuckets)
    (hvk : kcs.1.verifyKey = kcs.2.verifyKey)
    (ha : ∀ p ∈ attrs, p ≠ [] ∧ p.length ≤ d) (hL : Spec.VerifierLen P cfg.histBuckets L)
    (hb0 : c0.build = .debug) (hb1 : c1.build = .debug)
    (hl0 : kcs.1.reportShares.length = clients.length) (hl1 : kcs.2.reportShares.length = clients.length)
    (hp : ∀ (i : Nat) (c : List Bool × Nat) (r0 r1 : Bool × ReportShare), clients[i]? = some c →
      kcs.1.reportShares[i]? = some r0 → kcs.2.reportShares[i]? = some r1 →
      c.1.length = d ∧ Spec.HonestPair P cfg.histBuckets c.1 c.2 r0.2 r1.2 ∧
        Spec.FlpRejected P cfg.histBuckets kcs.1.serverId kcs.2.serverId kcs.1.verifyKey r0.2 r1.2)
    (e0 : kcs.1.abmState = []) (e1 : kcs.2.abmState = []) :
    ∃ kcs' ranges, runAbm c0 c1 cfg kcs attrs clients.length = .ok (kcs', ranges.map fun r =>
        ⟨List.range' r.1 (r.2 - r.1), List.replicate attrs.length (List.replicate cfg.histBuckets 0)⟩) ∧
      Spec.Partitions clients.length ranges ∧ ∀ r ∈ ranges, r.2 ≤ r.1 + cfg.queryBatch := by
  obtain ⟨xs, hxl, hxs⟩ := exists_judged_idx (as := clients) (R := fun i c x =>
    (∀ r0 r1, kcs.1.reportShares[i]? = some r0 → kcs.2.reportShares[i]? = some r1 →
      Spec.WellFormed d r0.2 ∧ Spec.WellFormed d r1.2 ∧ Spec.Judged P cfg.histBuckets attrs kcs.1.serverId
        kcs.2.serverId kcs.1.verifyKey r0.2 r1.2 x.verdict x.table0 x.table1) ∧ x.verdict = ⟨false, true⟩) (by
    intro i c hc
    have hi := (List.getElem?_eq_some_iff.1 hc).1
    obtain ⟨r0, g0⟩ : ∃ r, kcs.1.reportShares[i]? = some r := ⟨_, List.getElem?_eq_getElem (by omega)⟩
    obtain ⟨r1, g1⟩ : ∃ r, kcs.2.reportShares[i]? = some r := ⟨_, List.getElem?_eq_getElem (by omega)⟩
    obtain ⟨hal, hh, hrej⟩ := hp i c r0 r1 hc g0 g1
    have hsame : Spec.SameButProof r1.2 r1.2 := by
      obtain ⟨-, -, -, -, -, -, -, ⟨k, hk, -⟩, -⟩ := honestPair_facts hh
      cases hr : r1.2 with
      | prio3 => rw [hr] at hk; cases hk
      | mastic => exact ⟨rfl, rfl, rfl⟩
    obtain ⟨beta, t0, t1, -, hj, -⟩ := tampered_judged (by
      intro h; rw [h] at hal; simp at hal; omega) hL hh hsame hrej attrs (by rw [hal]; exact ha)
    obtain ⟨-, -, -, -, -, -, w0, w1, -⟩ := honestPair_facts hh
    rw [hal] at w0 w1
    refine ⟨⟨⟨false, true⟩, t0, t1⟩, fun a b ga gb => ?_, rfl⟩
    rw [g0] at ga; rw [g1] at gb; cases ga; cases gb
    exact ⟨w0, w1, hj⟩)
  have hv : ∀ x ∈ xs, x.verdict = ⟨false, true⟩ := by
    intro x hx
    obtain ⟨i, hi⟩ := List.mem_iff_getElem?.1 hx
    have := (List.getElem?_eq_some_iff.1 hi).1
    exact (hxs i _ x (List.getElem?_eq_getElem (by omega)) hi).2
  obtain ⟨kcs', ranges, hr, hpart, hsz⟩ := (C63_runs (c0 := c0) (c1 := c1) hb hd hn0 hn1 hvk ha
    (clients := xs) (by omega) (by omega) (fun i x r0 r1 hx g0 g1 => by
      have := (List.getElem?_eq_some_iff.1 hx).1
      exact (hxs i _ x (List.getElem?_eq_getElem (by omega)) hx).1 r0 r1 g0 g1) e0 e1).2 (by
    rintro ⟨-, x, hx, -, hg⟩
    rw [hv x hx] at hg; cases hg)
  rw [hxl] at hr hpart
  refine ⟨kcs', ranges, ?_, hpart, hsz⟩
  rw [hr]
  congr 2
  refine List.map_congr_left fun r hrm => ?_
  have hre := (hpart.1 r hrm).2
  unfold Spec.abmBatchOut
  rw [hb0, hb1]
  congr 1
  · unfold Spec.rejections
    refine (flatMap_eq_filter (p := fun _ => true) fun i hi => ?_).trans (by simp)
    have hin := (rangeFrom_mem.1 (show i ∈ rangeFrom r.1 r.2 from hi)).2
    have hx : xs[i]? = some xs[i] := List.getElem?_eq_getElem (by omega)
    rw [hx]
    simp [hv _ (List.mem_of_getElem? hx)]
  · have hnone : (xs.take r.2).filter (Spec.counts .debug) = [] := by
      rw [List.filter_eq_nil_iff]
      intro x hx
      simp [Spec.counts, hv x (List.mem_of_mem_take hx)]
    rw [hnone]
    simp [Spec.sumTables]

/-- The same of a whole run: debug servers whose numbers make the FLP verification refuse the honest reports of the run. -/
theorem C104_false_numbers_run {c0 c1 : ServerCfg} {bld : Build} {cfg : Config} {draw : MainDraw}
    {n d num L : Nat} {kcs : Pair2 P} (hs : Spec.Sensible P cfg draw n) (hprove : Spec.Proves P cfg draw)
    (hd : cfg.dataBits = some d) (hd1 : 1 ≤ d) (hb0 : c0.build = .debug) (hb1 : c1.build = .debug)
    (htam : ∀ i < n, (draw.picks i).2 ≠ some .flp) (hL : Spec.VerifierLen P cfg.histBuckets L)
    (hrej : ∀ i < n, ∀ rep, genMasticReport P cfg.histBuckets
      (Spec.drawn cfg.histBuckets d (Spec.MainDraw.of draw i)).1
      (Spec.drawn cfg.histBuckets d (Spec.MainDraw.of draw i)).2 (Spec.MainDraw.of draw i).rand = .ok rep →
      Spec.FlpRejected P cfg.histBuckets c0.serverId c1.serverId draw.verifyKey rep.toShares.1 rep.toShares.2)
    (hattr : ∀ j < num, draw.attributes j < cfg.uniqueBuckets) :
    ∃ (attributes : List (List Bool)) (ranges : List (Nat × Nat)),
      driverMain c0 c1 bld cfg (.attributeBasedMetrics num) draw n kcs = .ok (.abm attributes
        (ranges.map fun r => ⟨List.range' r.1 (r.2 - r.1),
          List.replicate attributes.length (List.replicate cfg.histBuckets 0)⟩)) ∧
      (∀ a, a ∈ attributes ↔ ∃ j < num, a = (List.range d).map (draw.reports (draw.attributes j)).bits) ∧
      Spec.Partitions n ranges ∧ ∀ r ∈ ranges, r.2 ≤ r.1 + cfg.queryBatch := by
  obtain ⟨reports, sh, hg, hrl, hra, hp, hlen, hsh⟩ := mastic_picks (P := P)
    (mode := .attributeBasedMetrics num) hs hprove (by simp) hd
  rw [driverMain_eq hs hg hp]
  have ha := (mainAttributes_ok (num := num) hs.zipf hrl hra).1 hattr
  have hmem : ∀ a, a ∈ draw.setOrder (((List.range num).map fun j =>
      (Spec.drawn cfg.histBuckets d (draw.reports (draw.attributes j))).1).dedup) ↔
      ∃ j < num, a = (List.range d).map (draw.reports (draw.attributes j)).bits := by
    intro a
    rw [(draw.setOrder_perm _).mem_iff, List.mem_dedup, List.mem_map]
    constructor
    · rintro ⟨j, hj, rfl⟩; exact ⟨j, List.mem_range.1 hj, rfl⟩
    · rintro ⟨j, hj, rfl⟩; exact ⟨j, List.mem_range.2 hj, rfl⟩
  set attrs := draw.setOrder (((List.range num).map fun j =>
      (Spec.drawn cfg.histBuckets d (draw.reports (draw.attributes j))).1).dedup)
  have hal : ∀ p ∈ attrs, p ≠ [] ∧ p.length ≤ d := by
    intro p hp
    obtain ⟨j, -, rfl⟩ := (hmem p).1 hp
    refine ⟨fun h => ?_, by simp⟩
    have := congrArg List.length h
    simp at this; omega
  obtain ⟨kcs', ranges, q1, q2, q3⟩ := C104_false_numbers (c0 := c0) (c1 := c1) (cfg := cfg)
    (kcs := uploaded P c0 c1 cfg draw.verifyKey sh) (d := d)
    (clients := (List.range n).map fun i => Spec.drawn cfg.histBuckets d (Spec.MainDraw.of draw i))
    hs.queryBatch hd1 rfl rfl rfl hal hL hb0 hb1 (by simp [uploaded, hlen]) (by simp [uploaded, hlen]) (by
      intro i c r0 r1 hc g0 g1
      have hi : i < n := by
        have := (List.getElem?_eq_some_iff.1 hc).1
        simpa using this
      rw [List.getElem?_map, List.getElem?_range hi, Option.map_some, Option.some.injEq] at hc
      subst hc
      obtain ⟨ks, p0, p, ps, jr, hgen, e⟩ := hsh i hi
      have : sentProof (draw.picks i).2 p ps = p :: ps := by
        unfold sentProof
        split
        · rename_i h; exact absurd h (htam i hi)
        · rfl
      rw [this] at e
      simp only [uploaded, List.getElem?_map, e, Option.map_some, Option.some.injEq] at g0 g1
      subst g0; subst g1
      exact ⟨by simp [Spec.drawn], ⟨_, _, hgen, rfl⟩, hrej i hi _ hgen⟩) rfl rfl
  rw [List.length_map, List.length_range] at q1 q2
  exact ⟨attrs, ranges, by simp only [ha, ok_bind, q1], hmem, q2, q3⟩

/-! ### Cases that meet the hypotheses -/

/-- The run of `toyDraw` ends normally with servers for 2 bits in a debug and a release build, and with servers for 5
and 7 bits in other builds and another driver, whatever their states were before; so both sent and showed the same. -/
example (k k' : Pair2 toy) : ∃ (sent : List (Req × Req)) (a : Shown) (u0 u1 u0' u1' : Server toy),
    Spec.Talk (toyCfg 0 (some 2) .debug) (toyCfg 1 (some 2) .release) (mainP toy .debug ⟨some 2, 2, 2, 2, 2, 2⟩
      .weightedHeavyHitters toyDraw 3) (.running k.1) (.running k.2) sent a u0 u1 ∧
    Spec.Talk (toyCfg 0 (some 5) .release) (toyCfg 1 (some 7) .release) (mainP toy .release ⟨some 2, 2, 2, 2, 2, 2⟩
      .weightedHeavyHitters toyDraw 3) (.running k'.1) (.running k'.2) sent a u0' u1' := by
  obtain ⟨out, g1, -⟩ := (C62_weighted_heavy_hitters (P := toy) (c0 := toyCfg 0 (some 2) .debug)
    (c1 := toyCfg 1 (some 2) .release) (bld := .debug) (cfg := ⟨some 2, 2, 2, 2, 2, 2⟩) (draw := toyDraw)
    (n := 3) (d := 2) (kcs := k) toy_sensible toy_proves rfl rfl rfl le_rfl rfl (by decide)
    (fun _ _ => toy_flpComplete _ _) toy_bumpsRejected rfl (by decide) (by decide)).1 (.inl rfl)
  obtain ⟨⟨a, t⟩, e, -⟩ := bind_eq_ok.1 ((exec_main .debug _ _ _ _ k _).2 (by rw [g1, ok_bind]))
  obtain ⟨sent, h⟩ := tells_exec e
  obtain ⟨u0', u1', h'⟩ := talk_main_laxer (c0 := toyCfg 0 (some 2) .debug)
    (c1 := toyCfg 1 (some 2) .release) (c0' := toyCfg 0 (some 5) .release) (c1' := toyCfg 1 (some 7) .release)
    (b' := .release) ⟨rfl, fun _ h => ⟨5, rfl, by cases h; decide⟩, by simp [Laxer, toyCfg]⟩
    ⟨rfl, fun _ h => ⟨7, rfl, by cases h; decide⟩, by simp [Laxer, toyCfg]⟩ (by simp [Laxer])
    (.inl (by simp)) h k'.1 k'.2
  exact ⟨sent, a, _, _, u0', u1', h, h'⟩

/-- The third client of `toyDraw` tampers: with a debug server 0 and a release server 1 the histogram of its batch
contains the table that server 1 holds for it. -/
example (kcs : Pair2 toy) : ∃ (attributes : List (List Bool)) (ranges : List (Nat × Nat))
    (held : Nat → List (List Field128)),
    driverMain (toyCfg 0 (some 2) .debug) (toyCfg 1 (some 2) .release) .debug ⟨some 2, 2, 2, 2, 2, 2⟩
      (.attributeBasedMetrics 1) toyDraw 3 kcs = .ok (.abm attributes (ranges.map fun r =>
        ⟨(List.range' r.1 (r.2 - r.1)).filter fun i =>
            [some ([true, false], 1), some ([true, false], 1), none][i]? == some none,
          Spec.sumTables attributes.length 2 (Spec.attributeHistograms 2 attributes
            (([some ([true, false], 1), some ([true, false], 1), none].take r.2).filterMap id) ::
              ((List.range r.2).filter fun i =>
                [some ([true, false], 1), some ([true, false], 1), none][i]? == some none).map held)⟩)) ∧
    Spec.Partitions 3 ranges := by
  obtain ⟨attributes, ranges, held, g1, -, -, -, g2, -⟩ := C104_false_builds_run (P := toy)
    (c0 := toyCfg 0 (some 2) .debug) (c1 := toyCfg 1 (some 2) .release) (bld := .debug)
    (cfg := ⟨some 2, 2, 2, 2, 2, 2⟩) (draw := toyDraw) (n := 3) (d := 2) (num := 1) (L := 4) (kcs := kcs)
    toy_sensible toy_proves rfl (by decide) rfl
    (by decide) (fun _ _ => toy_flpComplete _ _) toy_bumpsRejected
    (by
      intro x p q j v h
      simp only [toy] at h
      split at h
      · rename_i hl
        cases h
        simp [hl.1, hl.2]
      · cases h) (by decide) rfl rfl
    (clients := [some ([true, false], 1), some ([true, false], 1), none]) (by decide +kernel)
  exact ⟨attributes, ranges, held, g1, g2⟩

/-- A toy FLP that uses its joint randomness: the verifier share contains the difference between the proof share and the
joint randomness times the sum of the input share. -/
def jointToy : Prims :=
  { toy with
    flpProve := fun _ b _ j => some (j.map fun y => b.sum * y)
    flpQuery := fun n b p _ j => match p, j with
      | [x], [y] => if b.length = n then some (b ++ [x - b.sum * y]) else none
      | _, _ => none
    flpDecide := fun n v => some (toyDecide n (v.take n) && v.drop n == [0]) }

/-- A run with two honest clients. -/
def jointDraw : MainDraw :=
  { toyDraw with
    reports := fun i => ⟨i, fun j => decide (j = i), toyRand i, i⟩
    picks := fun i => (i + 1, none) }

/-- The decision of the FLP on a report with server numbers `id0`, `id1`. -/
def jointVerdict (id0 id1 : Int) (rep : Exec PlaintextReport) : Option Bool :=
  match rep with
  | .ok rep =>
    match Spec.verifierOf jointToy 2 id0 Block.zero rep.toShares.1,
      Spec.verifierOf jointToy 2 id1 Block.zero rep.toShares.2 with
    | some v0, some v1 => jointToy.flpDecide 2 (Spec.addShares v0 v1)
    | _, _ => none
  | .error _ => none

/-- With the right numbers the FLP accepts the reports of the run. -/
example : ∀ i < 2, jointVerdict 0 1 (genMasticReport jointToy 2 (Spec.drawn 2 2 (Spec.MainDraw.of jointDraw i)).1
    (Spec.drawn 2 2 (Spec.MainDraw.of jointDraw i)).2 (Spec.MainDraw.of jointDraw i).rand) = some true := by
  decide +kernel

/-- With exchanged numbers it refuses them. -/
theorem joint_refused : ∀ i < 2, jointVerdict 1 0 (genMasticReport jointToy 2
    (Spec.drawn 2 2 (Spec.MainDraw.of jointDraw i)).1 (Spec.drawn 2 2 (Spec.MainDraw.of jointDraw i)).2
    (Spec.MainDraw.of jointDraw i).rand) = some false := by
  decide +kernel

/-- So with exchanged numbers the run ends normally and prints zeros. -/
example (kcs : Pair2 jointToy) : ∃ (attributes : List (List Bool)) (ranges : List (Nat × Nat)),
    driverMain (toyCfg 1 (some 2) .debug) (toyCfg 0 (some 2) .debug) .debug ⟨some 2, 2, 2, 2, 2, 2⟩
      (.attributeBasedMetrics 1) jointDraw 2 kcs = .ok (.abm attributes (ranges.map fun r =>
        ⟨List.range' r.1 (r.2 - r.1), List.replicate attributes.length [0, 0]⟩)) ∧
    (∀ a, a ∈ attributes ↔ a = [false, true]) ∧ Spec.Partitions 2 ranges := by
  obtain ⟨attributes, ranges, g1, g2, g3, -⟩ := C104_false_numbers_run (P := jointToy)
    (c0 := toyCfg 1 (some 2) .debug) (c1 := toyCfg 0 (some 2) .debug) (bld := .debug)
    (cfg := ⟨some 2, 2, 2, 2, 2, 2⟩) (draw := jointDraw) (n := 2) (d := 2) (num := 1) (L := 3) (kcs := kcs)
    ⟨rfl, rfl, rfl, by decide, by decide, by decide, by decide, by decide⟩
    (by
      intro k hk b beta seed binder hb
      exact ⟨_, rfl, by simp [jointToy, toy]⟩) rfl (by decide) rfl rfl (by intro i _; simp [jointDraw])
    (by
      intro x p q j v h
      simp only [jointToy] at h
      split at h
      · split at h
        · rename_i hl
          cases h
          simp [hl]
        · cases h
      · cases h)
    (by
      intro i hi rep hrep
      have key := joint_refused i hi
      rw [hrep] at key
      unfold jointVerdict at key
      dsimp only at key
      split at key
      · rename_i v0 v1 e0 e1
        exact ⟨v0, v1, e0, e1, key⟩
      · cases key) (by decide)
  refine ⟨attributes, ranges, g1, fun a => (g2 a).trans ⟨?_, ?_⟩, g3⟩
  · rintro ⟨j, -, rfl⟩; rfl
  · rintro rfl; exact ⟨0, by decide, rfl⟩

end Mastic
