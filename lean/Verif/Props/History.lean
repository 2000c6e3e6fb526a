import Verif.Lemmas.Crawl
import Verif.Lemmas.ToyServer

/-!
# Properties of request histories: C21, C22, C37, C38, C57
-/

namespace Mastic

variable {P : Prims}

/-! ## C21: exclusion is permanent, reports are append-only -/

/-- C21. Over any requests other than `reset`, whatever their arguments, the reports stay in place, new
ones are appended, and an excluded client stays excluded. -/
theorem C21_reports_evolve (cfg : ServerCfg) (kc kc' : KeyCollection P) (reqs : List Req)
    (hno : ∀ r ∈ reqs, Spec.isReset r = false)
    (h : (Server.run cfg (.running kc) reqs).1 = .running kc') :
    Spec.Evolves kc.reportShares kc'.reportShares :=
  run_induction (fun k => Spec.Evolves kc.reportShares k.reportShares)
    (fun r => Spec.isReset r = false)
    (fun _ _ _ _ hr hi hl => evolves_trans hi (locked_frame hl hr).2.2.2.2) reqs kc kc' hno
    (evolves_refl _) h

/-- C21. In particular client indices are stable: report `i` is the same report later on. -/
theorem C21_index_stable (cfg : ServerCfg) (kc kc' : KeyCollection P) (reqs : List Req)
    (hno : ∀ r ∈ reqs, Spec.isReset r = false)
    (h : (Server.run cfg (.running kc) reqs).1 = .running kc') (i : Nat) (b : Bool) (r : ReportShare)
    (hr : kc.reportShares[i]? = some (b, r)) :
    ∃ b', kc'.reportShares[i]? = some (b', r) ∧ (b' = true → b = true) := by
  obtain ⟨hp, hx⟩ := C21_reports_evolve cfg kc kc' reqs hno h
  obtain ⟨t, ht⟩ := hp
  have hi := (List.getElem?_eq_some_iff.1 hr).1
  have : (kc'.reportShares.map Prod.snd)[i]? = some r := by
    rw [← ht, List.getElem?_append_left (by simpa using hi), List.getElem?_map, hr]; rfl
  rw [List.getElem?_map] at this
  cases h' : kc'.reportShares[i]? with
  | none => rw [h'] at this; cases this
  | some br =>
    rw [h'] at this
    obtain ⟨b', r'⟩ := br
    have e : r = r' := by simpa using this.symm
    subst e
    refine ⟨b', rfl, fun hb => ?_⟩
    cases b with
    | true => rfl
    | false => rw [hx i r hr] at h'; cases h'; exact absurd hb (by simp)

/-- Every report starts included. -/
theorem C21_new_reports_included (kc : KeyCollection P) (rs : List ReportShare) :
    (srvAddReportShares kc rs).reportShares = kc.reportShares ++ rs.map fun r => (true, r) := by
  rw [srvAdd_eq]

/-! ## C22: frontier nodes are exact -/

/-- C22. In every state any request history leads to, each node of the frontier holds, for each of the
first `m` reports, exactly the state and value of that report's key at the node's path; the paths have
one length and are in strictly increasing lexicographic order; the same holds for the saved
frontier. -/
theorem C22_frontier_exact (cfg : ServerCfg) (b : Nat) (kc : KeyCollection P)
    (hr : Spec.Reachable P cfg b kc) :
    (∃ m ≤ kc.reportShares.length, Spec.FrontierExact P kc.inputLen
      ((kc.reportShares.map Prod.snd).take m) kc.frontier) ∧
    (∃ m ≤ kc.reportShares.length, Spec.FrontierExact P kc.inputLen
      ((kc.reportShares.map Prod.snd).take m) kc.prevFrontier) := by
  obtain ⟨n0, hi⟩ := reachable_inv hr
  obtain ⟨m, hm, hp⟩ := hi.prev
  exact ⟨⟨n0, hi.le, hi.frontier⟩, m, hm.trans hi.le, hp⟩

/-- C22. After `tree_init`, the reports covered by the frontier are exactly those present at that
moment, for as long as there is no further `tree_init` or `reset`. -/
theorem C22_since_tree_init (cfg : ServerCfg) (b : Nat) (kc kc1 kc' : KeyCollection P)
    (reqs : List Req) (hr : Spec.Reachable P cfg b kc) (hi : kc.treeInit = .ok kc1)
    (hno : ∀ r ∈ reqs, Spec.isReset r = false ∧ Spec.isTreeInit r = false)
    (h : (Server.run cfg (.running kc1) reqs).1 = .running kc') :
    Spec.FrontierExact P kc'.inputLen (kc.reportShares.map Prod.snd) kc'.frontier := by
  obtain ⟨m, hm, hprev⟩ := (C22_frontier_exact cfg b kc hr).2
  have hex := treeInit_exact hi
  obtain ⟨keys, -, rfl⟩ := treeInit_ok hi
  have h0 : SessionInv kc.reportShares.length
      { kc with frontier := [⟨[], [0], keys.map VidpfKey.evalInit, keys.map fun _ => [0]⟩] } := by
    refine ⟨le_rfl, ?_, m, hm, hprev⟩
    rw [List.take_of_length_le (by simp)]
    exact hex
  have hinv := run_induction (fun k => SessionInv kc.reportShares.length k)
    (fun r => Spec.isReset r = false ∧ Spec.isTreeInit r = false)
    (fun _ _ _ _ ho hi hl => locked_inv hi hl ho.1 ho.2) reqs _ kc' hno h0 h
  have hev := C21_reports_evolve cfg _ kc' reqs (fun r hr => (hno r hr).1) h
  have : (kc'.reportShares.map Prod.snd).take kc.reportShares.length
      = kc.reportShares.map Prod.snd := by
    rw [take_eq_of_prefix hev.1 (by simp)]
    exact List.take_of_length_le (by simp)
  rw [← this]
  exact hinv.frontier

/-! ## C57: reports that arrive after `tree_init` -/

/-- C57. If any report was added since `tree_init`, every crawl - first or retry, with any arguments -
panics and poisons the server. -/
theorem C57_late_report_crawl (cfg : ServerCfg) (b : Nat) (kc kc1 kc' : KeyCollection P)
    (reqs : List Req) (hr : Spec.Reachable P cfg b kc) (hi : kc.treeInit = .ok kc1)
    (hno : ∀ r ∈ reqs, Spec.isReset r = false ∧ Spec.isTreeInit r = false)
    (h : (Server.run cfg (.running kc1) reqs).1 = .running kc')
    (hlate : kc.reportShares.length < kc'.reportShares.length) (s : Nat) (ms : List Nat)
    (last : Bool) :
    ∃ p, Server.handle cfg (.running kc') (.treeCrawl s ms last) = (.poisoned, .error p) := by
  obtain ⟨m, hm, hprev⟩ := (C22_frontier_exact cfg b kc hr).2
  have hex := treeInit_exact hi
  obtain ⟨keys, -, rfl⟩ := treeInit_ok hi
  have h0 : SessionInv kc.reportShares.length
      { kc with frontier := [⟨[], [0], keys.map VidpfKey.evalInit, keys.map fun _ => [0]⟩] } := by
    refine ⟨le_rfl, ?_, m, hm, hprev⟩
    rw [List.take_of_length_le (by simp)]
    exact hex
  have hinv := run_induction (fun k => SessionInv kc.reportShares.length k)
    (fun r => Spec.isReset r = false ∧ Spec.isTreeInit r = false)
    (fun _ _ _ _ ho hi hl => locked_inv hi hl ho.1 ho.2) reqs _ kc' hno h0 h
  cases hc : kc'.treeCrawl cfg.build s ms last with
  | ok x =>
    obtain ⟨kc2, r⟩ := x
    obtain ⟨-, hl⟩ := treeCrawl_inv hinv hc
    obtain ⟨kcA, next, digests, rs, hp, -, -, rfl, -⟩ := treeCrawl_ok hc
    obtain ⟨reports, fr, rfl, hsnd, -⟩ := crawlPrep_ok hp
    have : reports.length = kc'.reportShares.length := by simpa using congrArg List.length hsnd
    simp only at hl
    omega
  | error p =>
    refine ⟨p, ?_⟩
    simp only [Server.handle, preLock, locked, hc]
    rfl

/-- C57. The last-level crawl and the FLP queries panic as well, unless nothing is left in the
frontier. -/
theorem C57_late_report_last (cfg : ServerCfg) (b : Nat) (kc kc1 kc' : KeyCollection P)
    (reqs : List Req) (hr : Spec.Reachable P cfg b kc) (hi : kc.treeInit = .ok kc1)
    (hno : ∀ r ∈ reqs, Spec.isReset r = false ∧ Spec.isTreeInit r = false)
    (h : (Server.run cfg (.running kc1) reqs).1 = .running kc')
    (hlate : kc.reportShares.length < kc'.reportShares.length) (hne : kc'.frontier ≠ []) :
    Panics kc'.treeCrawlLast ∧ ∀ bld s e, Panics (kc'.runFlpQueries bld s e) := by
  have hF := C22_since_tree_init cfg b kc kc1 kc' reqs hr hi hno h
  obtain ⟨node, rest, hfr⟩ := List.exists_cons_of_ne_nil hne
  have hks := (hF.1 node (by simp [hfr])).1
  simp only [List.length_map] at hks
  have hbad : ∀ dir, Panics (kc'.makeTreeNode node dir) := by
    intro dir
    rw [← not_returns_iff]
    rintro ⟨c, hc⟩
    have := makeTreeNode_length_le hc
    omega
  constructor
  · rw [← not_returns_iff]
    rintro ⟨⟨k, v⟩, hk⟩
    obtain ⟨next, -, hn, -⟩ := treeCrawlLast_ok hk
    obtain ⟨cs, -, hFa⟩ := nextFrontier_ok hn
    rw [hfr] at hFa
    cases hFa with
    | cons hx _ =>
      obtain ⟨p, hp⟩ := hbad false
      rw [hp] at hx
      cases hx.1
  · intro bld s e
    rw [← not_returns_iff]
    rintro ⟨v, hv⟩
    unfold KeyCollection.runFlpQueries at hv
    obtain ⟨root, hroot, hv⟩ := bind_eq_ok.1 hv
    obtain ⟨_, -, hv⟩ := bind_eq_ok.1 hv
    obtain ⟨_, -, hv⟩ := bind_eq_ok.1 hv
    obtain ⟨c, hc, -⟩ := bind_eq_ok.1 hv
    rw [idx_eq_ok, hfr] at hroot
    cases hroot
    obtain ⟨p, hp⟩ := hbad false
    rw [hp] at hc
    cases hc

/-- A crawl, the exclusion of the second client, and two reports that arrive late. -/
def toyHistory (rs : List ReportShare) : List Req :=
  [.treeCrawl 1 [] false, .treeCrawl 1 [1] true, .addReportShares rs]

/-- The inclusion flags and the paths of the frontier. -/
def toyView : Server toy → Option (List Bool × List (List Bool))
  | .running kc => some (kc.reportShares.map Prod.fst, kc.frontier.map TreeNode.path)
  | .poisoned => none

/-- The hypotheses of C21, C22 and C57 are met by a session in which a client is excluded and reports arrive late. -/
theorem toy_late : ∃ (rs : List ReportShare) (kc kc1 kc' : KeyCollection toy),
    Spec.Reachable toy (toyCfg 0 (some 2) .debug) 2 kc ∧ kc.treeInit = .ok kc1 ∧
    (∀ r ∈ toyHistory rs, Spec.isReset r = false ∧ Spec.isTreeInit r = false) ∧
    (Server.run (toyCfg 0 (some 2) .debug) (.running kc1) (toyHistory rs)).1 = .running kc' ∧
    kc.reportShares.map Prod.fst = [true, true] ∧ kc'.reportShares.map Prod.fst = [true, false, true, true] ∧
    kc'.frontier.map TreeNode.path = [[false], [true]] := by
  have h : (do
    let rs ← toyShares
    let kc ← (toyHolding rs).treeInit
    .ok ((toyHolding rs).reportShares.map Prod.fst,
      toyView (Server.run (toyCfg 0 (some 2) .debug) (.running kc) (toyHistory rs)).1)) =
    .ok ([true, true], some ([true, false, true, true], [[false], [true]])) := by decide +kernel
  obtain ⟨rs, -, h⟩ := bind_eq_ok.1 h
  obtain ⟨kc1, h1, h⟩ := bind_eq_ok.1 h
  simp only [Except.ok.injEq, Prod.mk.injEq] at h
  obtain ⟨h2, h3⟩ := h
  unfold toyView at h3
  split at h3
  · rename_i kc' e
    simp only [Option.some.injEq, Prod.mk.injEq] at h3
    exact ⟨rs, _, kc1, kc', toyHolding_reachable rs _, h1, by simp [toyHistory, Spec.isReset, Spec.isTreeInit], e, h2,
      h3.1, h3.2⟩
  · cases h3

/-- In it the crawl after the late reports takes the server down. -/
example : ∃ (kc' : KeyCollection toy) (p : Panic),
    Server.handle (toyCfg 0 (some 2) .debug) (.running kc') (.treeCrawl 1 [] false) = (.poisoned, .error p) := by
  obtain ⟨rs, kc, kc1, kc', h1, h2, h3, h4, h5, h6, -⟩ := toy_late
  have l5 := congrArg List.length h5
  have l6 := congrArg List.length h6
  rw [List.length_map] at l5 l6
  obtain ⟨p, hp⟩ := C57_late_report_crawl _ _ kc kc1 kc' (toyHistory rs) h1 h2 h3 h4 (by rw [l5, l6]; decide) 1 [] false
  exact ⟨kc', p, hp⟩

/-! ## C37: reset and poisoning -/

/-- C37. After a `reset` the server behaves on all later requests, in responses and state, exactly like
any other running server after the same `reset` - in particular like one just started - and that is a
server with an empty collection for the new key and bucket count. -/
theorem C37_reset_fresh (cfg : ServerCfg) (kc : KeyCollection P) (vk : Block) (buckets b0 : Nat)
    (hb : P.histOk buckets = true) (reqs : List Req) :
    Server.run cfg (.running kc) (.reset vk buckets :: reqs)
      = Server.run cfg (Server.start P cfg b0) (.reset vk buckets :: reqs) ∧
    Server.run cfg (.running kc) (.reset vk buckets :: reqs)
      = ((Server.run cfg (.running (KeyCollection.new P buckets cfg.serverId cfg.dataBits vk)) reqs).1,
         .ok .done ::
         (Server.run cfg (.running (KeyCollection.new P buckets cfg.serverId cfg.dataBits vk)) reqs).2)
    := by
  have key : ∀ kc : KeyCollection P, Server.run cfg (.running kc) (.reset vk buckets :: reqs)
      = ((Server.run cfg (.running (KeyCollection.new P buckets cfg.serverId cfg.dataBits vk)) reqs).1,
         .ok .done ::
         (Server.run cfg (.running (KeyCollection.new P buckets cfg.serverId cfg.dataBits vk)) reqs).2)
      := by
    intro kc
    simp only [Server.run, Server.handle, preLock, locked, srvReset, hb, if_true, ok_bind]
  exact ⟨by rw [key kc, Server.start, key], key kc⟩

/-- C37. Without any intervening panic the fresh collection is the one `main` builds, except for the
verification key. -/
theorem C37_reset_zero_key_is_start (cfg : ServerCfg) (kc : KeyCollection P) (buckets : Nat)
    (hb : P.histOk buckets = true) :
    Server.handle cfg (.running kc) (.reset Block.zero buckets)
      = (Server.start P cfg buckets, .ok .done) := by
  simp only [Server.handle, preLock, locked, srvReset, hb, if_true, ok_bind, Server.start]

/-- C37. A poisoned server stays poisoned and answers nothing any more, `reset` included. -/
theorem C37_poisoned_forever (cfg : ServerCfg) (reqs : List Req) :
    (Server.run cfg (.poisoned : Server P) reqs).1 = .poisoned ∧
    ∀ r ∈ (Server.run cfg (.poisoned : Server P) reqs).2, ∃ p, r = .error p := by
  have hh : ∀ req, (Server.handle cfg (.poisoned : Server P) req).1 = .poisoned ∧
      ∃ p, (Server.handle cfg (.poisoned : Server P) req).2 = .error p := by
    intro req
    unfold Server.handle
    cases preLock cfg req with
    | error p => exact ⟨rfl, p, rfl⟩
    | ok u => exact ⟨rfl, _, rfl⟩
  induction reqs with
  | nil => exact ⟨rfl, by simp [Server.run]⟩
  | cons req reqs ih =>
    simp only [Server.run, (hh req).1]
    refine ⟨ih.1, ?_⟩
    intro r hr
    rcases List.mem_cons.1 hr with rfl | hr
    · exact (hh req).2
    · exact ih.2 r hr

/-- C37. The server gets poisoned exactly when some request panics while the lock is held. -/
theorem C37_poisoned_iff (cfg : ServerCfg) (kc : KeyCollection P) (reqs : List Req) :
    (Server.run cfg (.running kc) reqs).1 = .poisoned ↔
    ∃ pre req post kc', reqs = pre ++ req :: post ∧
      (Server.run cfg (.running kc) pre).1 = .running kc' ∧
      preLock cfg req = .ok () ∧ Panics (locked cfg kc' req) := by
  induction reqs generalizing kc with
  | nil => simp [Server.run]
  | cons req reqs ih =>
    have hrun : (Server.run cfg (.running kc) (req :: reqs)).1
        = (Server.run cfg (Server.handle cfg (.running kc) req).1 reqs).1 := rfl
    have hpre : ∀ pre, (Server.run cfg (.running kc) (req :: pre)).1
        = (Server.run cfg (Server.handle cfg (.running kc) req).1 pre).1 := fun _ => rfl
    rw [hrun]
    have split : (∃ pre req' post kc', req :: reqs = pre ++ req' :: post ∧
        (Server.run cfg (.running kc) pre).1 = .running kc' ∧
        preLock cfg req' = .ok () ∧ Panics (locked cfg kc' req')) ↔
        (preLock cfg req = .ok () ∧ Panics (locked cfg kc req)) ∨
        ∃ pre req' post kc', reqs = pre ++ req' :: post ∧
          (Server.run cfg (Server.handle cfg (.running kc) req).1 pre).1 = .running kc' ∧
          preLock cfg req' = .ok () ∧ Panics (locked cfg kc' req') := by
      constructor
      · rintro ⟨pre, req', post, kc', h1, h2, h3, h4⟩
        cases pre with
        | nil =>
          simp only [List.nil_append, List.cons.injEq] at h1
          obtain ⟨rfl, rfl⟩ := h1
          cases h2
          exact Or.inl ⟨h3, h4⟩
        | cons p pre =>
          simp only [List.cons_append, List.cons.injEq] at h1
          obtain ⟨rfl, rfl⟩ := h1
          exact Or.inr ⟨pre, req', post, kc', rfl, h2, h3, h4⟩
      · rintro (⟨h3, h4⟩ | ⟨pre, req', post, kc', rfl, h2, h3, h4⟩)
        · exact ⟨[], req, reqs, kc, rfl, rfl, h3, h4⟩
        · exact ⟨req :: pre, req', post, kc', rfl, h2, h3, h4⟩
    rw [split]
    unfold Server.handle
    cases hp : preLock cfg req with
    | error p =>
      simp only [reduceCtorEq, false_and, false_or]
      exact ih kc
    | ok u =>
      simp only [true_and]
      cases hl : locked cfg kc req with
      | error p =>
        simp only
        exact ⟨fun _ => Or.inl ⟨p, rfl⟩, fun _ => (C37_poisoned_forever cfg reqs).1⟩
      | ok x =>
        have : ¬ Panics (Except.ok x : Exec (KeyCollection P × Resp)) := by simp [Panics]
        simp only [this, false_or]
        exact ih x.1

example : (Server.run (toyCfg 0 (some 2) .release) (Server.start toy (toyCfg 0 (some 2) .release) 2)
    [.treeCrawl 1 [] false, .reset Block.zero 2]).2.map (fun r => (r.map fun _ => ()).toOption)
    = [none, none] := by decide +kernel

/-! ## C38: malformed reports

The property is false of the code: each of the following takes the server down for good. -/

/-- The server is poisoned and every response from here on is an error. -/
def Down (out : Server P × List (Exec Resp)) : Prop :=
  out.1 = .poisoned ∧ ∀ r ∈ out.2, ∃ p, r = .error p

theorem down_of_panic {cfg : ServerCfg} {kc : KeyCollection P} {req : Req} (later : List Req)
    (h1 : preLock cfg req = .ok ()) (h2 : Panics (locked cfg kc req)) :
    Down (Server.run cfg (.running kc) (req :: later)) := by
  obtain ⟨p, hp⟩ := h2
  have hh : Server.handle cfg (.running kc) req = (.poisoned, .error p) := by
    simp only [Server.handle, h1, hp]
  have := C37_poisoned_forever (P := P) cfg later
  refine ⟨by simp only [Server.run, hh]; exact this.1, ?_⟩
  intro r hr
  simp only [Server.run, hh, List.mem_cons] at hr
  rcases hr with rfl | hr
  · exact ⟨p, rfl⟩
  · exact this.2 r hr

/-- C38 (negation). One report of the Prio3 variant, included or not, makes `tree_init` poison the
server; so does validating it for attribute-based metrics. -/
theorem C38_prio3_report_takes_server_down (cfg : ServerCfg) (kc : KeyCollection P) (i : Nat)
    (b : Bool) (nonce : Block) (pub inp : List Byte)
    (h : kc.reportShares[i]? = some (b, .prio3 nonce pub inp)) (later : List Req) :
    Down (Server.run cfg (.running kc) (.treeInit :: later)) ∧
    ∀ attributes start end_, start ≤ i → i < end_ →
      Down (Server.run cfg (.running kc) (.abmValidate attributes start end_ :: later)) := by
  constructor
  · refine down_of_panic later rfl ?_
    have : Panics (mapE (fun r : Bool × ReportShare => r.2.unwrapVidpfKey) kc.reportShares) :=
      mapE_error_of_mem (List.mem_of_getElem? h) ⟨.explicit, rfl⟩
    obtain ⟨p, hp⟩ := this
    exact ⟨p, by simp only [locked, KeyCollection.treeInit, hp, error_bind]⟩
  · intro attributes start end_ h1 h2
    refine down_of_panic later (by simp only [preLock, decide_eq_true (show start < end_ by omega), debugAssert_true]) ?_
    have hi : i ∈ rangeFrom start end_ := by
      unfold rangeFrom; rw [List.mem_range'_1]; omega
    have : Panics (mapE (abmValidateClient kc attributes) (rangeFrom start end_)) := by
      refine mapE_error_of_mem hi ⟨.explicit, ?_⟩
      unfold abmValidateClient
      rw [idx_eq_ok.2 h]; rfl
    obtain ⟨p, hp⟩ := this
    refine ⟨p, ?_⟩
    simp only [locked, srvAbmValidate, withCapacity, if_pos (show start ≤ end_ by omega), ok_bind, hp,
      error_bind]

/-- C38 (negation). One Mastic report makes plain-metrics validation poison the server. -/
theorem C38_mastic_report_takes_plain_metrics_down (cfg : ServerCfg) (kc : KeyCollection P) (i : Nat)
    (b : Bool) (nonce : Block) (key : VidpfKey) (pf : List Field128) (jr : Block × Block)
    (h : kc.reportShares[i]? = some (b, .mastic nonce key pf jr)) (start end_ : Nat)
    (h1 : start ≤ i) (h2 : i < end_) (later : List Req) :
    Down (Server.run cfg (.running kc) (.pmValidate start end_ :: later)) := by
  refine down_of_panic later
    (by simp only [preLock, decide_eq_true (show start < end_ by omega), debugAssert_true]) ?_
  have hi : i ∈ rangeFrom start end_ := by
    unfold rangeFrom; rw [List.mem_range'_1]; omega
  simp only [locked, srvPmValidate, withCapacity, if_pos (show start ≤ end_ by omega), ok_bind]
  cases hag : aggIdOf cfg.serverId with
  | error p => exact ⟨p, rfl⟩
  | ok aggId =>
    simp only [ok_bind]
    cases hpr : P.prio3Ok kc.inputLen with
    | false => exact ⟨.unwrap, rfl⟩
    | true =>
      have : Panics (mapE (pmValidateClient kc aggId) (rangeFrom start end_)) := by
        refine mapE_error_of_mem hi ⟨.explicit, ?_⟩
        unfold pmValidateClient
        rw [idx_eq_ok.2 h]; rfl
      obtain ⟨p, hp⟩ := this
      exact ⟨p, by simp only [hp, Bool.not_true, Bool.false_eq_true, if_false, error_bind]⟩

/-- C38 (negation). A report whose key has too few correction words takes the server down as soon as
the crawl reaches its depth - even if the client was excluded before. -/
theorem C38_short_key_takes_server_down (cfg : ServerCfg) (b : Nat) (kc : KeyCollection P)
    (hr : Spec.Reachable P cfg b kc) (i : Nat) (fl : Bool) (r : ReportShare) (key : VidpfKey)
    (h : kc.reportShares[i]? = some (fl, r)) (hk : Spec.keyOf r = some key) (node : TreeNode)
    (hn : node ∈ kc.frontier) (hlen : key.corWords.length ≤ node.path.length) (s : Nat) (last : Bool)
    (later : List Req) :
    Down (Server.run cfg (.running kc) (.treeCrawl s [] last :: later)) ∧
    Down (Server.run cfg (.running kc) (.treeCrawlLast :: later)) := by
  obtain ⟨⟨m, hm, hF⟩, -⟩ := C22_frontier_exact cfg b kc hr
  have hno : ∀ chk next, kc.nextFrontier chk ≠ .ok next := by
    intro chk next hnx
    obtain ⟨cs, -, hFa⟩ := nextFrontier_ok hnx
    obtain ⟨j, hj, rfl⟩ := List.getElem_of_mem hn
    have hc := (List.forall₂_iff_get.1 hFa).2 j hj (hFa.length_eq ▸ hj)
    obtain ⟨-, -, -, -, he⟩ := makeTreeNode_ok hc.1
    obtain ⟨key', st, st', v, hk', hst, hev, -⟩ := he i fl r h
    rw [hk] at hk'
    cases hk'
    have hall := makeTreeNode_length_le hc.1
    have hx := hF.1 _ hn
    have him : i < m := by
      have h1 := (List.getElem?_eq_some_iff.1 h).1
      have h2 := hx.1
      simp only [List.length_take, List.length_map] at h2
      have h3 : kc.reportShares.length ≤ kc.frontier[j].keyStates.length := hall
      omega
    obtain ⟨key2, st2, w2, hk2, hev2, hst2, -⟩ := hx.2.2 i r (by
      rw [List.getElem?_take_of_lt him, List.getElem?_map, h]; rfl)
    rw [hk] at hk2
    cases hk2
    have hst' : kc.frontier[j].keyStates[i]? = some st := hst
    rw [hst'] at hst2
    cases hst2
    have hlv := evalPath_level hev2
    rw [evalBit_panics (by simp only at hlv; omega)] at hev
    cases hev
  constructor
  · refine down_of_panic later rfl ?_
    cases hc : kc.treeCrawl cfg.build s [] last with
    | error p => exact ⟨p, by simp only [locked, hc, error_bind]⟩
    | ok x =>
      obtain ⟨kcA, next, digests, rs, hp, hl, -⟩ := treeCrawl_ok hc
      simp only [KeyCollection.crawlPrep, List.isEmpty_nil, if_true] at hp
      cases hp
      exact absurd (crawlLevel_ok hl).2 (hno _ _)
  · refine down_of_panic later rfl ?_
    cases hc : kc.treeCrawlLast with
    | error p => exact ⟨p, by simp only [locked, hc, error_bind]⟩
    | ok x =>
      obtain ⟨next, proofs, hnx, -⟩ := treeCrawlLast_ok hc
      exact absurd hnx (hno _ _)

/-- C38 (negation). A report whose FLP proof share libprio's `query` refuses (e.g. of the wrong length)
takes the server down at the first FLP request that covers it. -/
theorem C38_bad_flp_share_takes_server_down (cfg : ServerCfg) (kc : KeyCollection P) (i : Nat)
    (fl : Bool) (nonce : Block) (key : VidpfKey) (pf : List Field128) (jr : Block × Block)
    (h : kc.reportShares[i]? = some (fl, .mastic nonce key pf jr))
    (hbad : ∀ x q j, P.flpQuery kc.inputLen x pf q j = none)
    (root : TreeNode) (rest : List TreeNode) (hroot : kc.frontier = root :: rest)
    (hall : root.keyValues.length = kc.reportShares.length) (start end_ : Nat) (h1 : start ≤ i)
    (h2 : i < end_) (later : List Req) :
    Down (Server.run cfg (.running kc) (.runFlpQueries start end_ :: later)) := by
  refine down_of_panic later rfl ?_
  rw [← not_returns_iff]
  rintro ⟨x, hx⟩
  simp only [locked] at hx
  obtain ⟨_, -, hx⟩ := bind_eq_ok.1 hx
  obtain ⟨v, hv, -⟩ := bind_eq_ok.1 hx
  unfold KeyCollection.runFlpQueries at hv
  obtain ⟨root', hr', hv⟩ := bind_eq_ok.1 hv
  rw [idx_eq_ok, hroot] at hr'
  cases hr'
  obtain ⟨_, -, hv⟩ := bind_eq_ok.1 hv
  obtain ⟨_, -, hv⟩ := bind_eq_ok.1 hv
  obtain ⟨c0, hc0, hv⟩ := bind_eq_ok.1 hv
  obtain ⟨c1, hc1, hv⟩ := bind_eq_ok.1 hv
  obtain ⟨_, -, hv⟩ := bind_eq_ok.1 hv
  have hi := (List.getElem?_eq_some_iff.1 h).1
  have hmem : i ∈ (List.range root.keyValues.length).filter
      fun i => decide (start ≤ i) && decide (i < end_) := by
    simp [hall, hi, h1, h2]
  obtain ⟨y, hy⟩ := mapE_returns_iff.1 ⟨v, hv⟩ i hmem
  unfold KeyCollection.flpQueryClient at hy
  obtain ⟨y0, -, hy⟩ := bind_eq_ok.1 hy
  obtain ⟨y1, -, hy⟩ := bind_eq_ok.1 hy
  dsimp only at hy
  obtain ⟨r, hr, hy⟩ := bind_eq_ok.1 hy
  rw [idx_eq_ok, h] at hr
  cases hr
  obtain ⟨pf', hpf, hy⟩ := bind_eq_ok.1 hy
  cases hpf
  obtain ⟨q, -, hy⟩ := bind_eq_ok.1 hy
  obtain ⟨j, -, hy⟩ := bind_eq_ok.1 hy
  rw [hbad] at hy
  cases hy

/-- C38, the part that holds: with Mastic reports only, whose keys have one correction seed per
correction word and reach below the frontier, the tree evaluation of the next level succeeds, whatever
else the keys contain. -/
theorem C38_wellformed_partial (kc : KeyCollection P) (d : Nat) (checkDepth : Bool)
    (hk : ∀ br ∈ kc.reportShares, ∃ key, Spec.keyOf br.2 = some key ∧
      key.cs.length = key.corWords.length ∧ d < key.corWords.length)
    (hd : ∀ node ∈ kc.frontier, node.path.length = d)
    (hx : Spec.FrontierExact P kc.inputLen (kc.reportShares.map Prod.snd) kc.frontier)
    (hD : checkDepth = true → ∃ D, kc.depth = some D ∧ d ≤ D) :
    Returns (kc.nextFrontier checkDepth) :=
  nextFrontier_progress hk hd hx.1 hD

/-- A toy report share whose key has no correction words. -/
def toyShortShare : ReportShare := .mastic Block.zero ⟨false, Block.zero, [], []⟩ [] (Block.zero, Block.zero)

/-- A concrete history meeting the hypotheses of C38 and C57: upload a short-keyed report, `tree_init`,
crawl, reset. -/
example : (Server.run (toyCfg 0 (some 2) .debug) (Server.start toy (toyCfg 0 (some 2) .debug) 2)
    [.addReportShares [toyShortShare], .treeInit, .treeCrawl 1 [] false, .reset Block.zero 2,
      .treeInit]).2.map (fun r => (r.map fun _ => ()).toOption)
    = [some (), some (), none, none, none] := by decide +kernel

example : (Server.run (toyCfg 0 (some 2) .debug) (Server.start toy (toyCfg 0 (some 2) .debug) 2)
    [.addReportShares [toyShortShare], .treeInit, .addReportShares [toyShortShare], .treeCrawlLast,
      .finalShares]).2.map (fun r => (r.map fun _ => ()).toOption)
    = [some (), some (), some (), none, none] := by decide +kernel

end Mastic
