import Verif.Lemmas.Repeat
import Verif.Lemmas.Toy

/-!
# C107: requests that arrive twice
-/

namespace Mastic

variable {P : Prims} {cfg : ServerCfg} {kc kc' : KeyCollection P} {req : Req} {r : Resp} {buckets : Nat}

/-- **C107.**  A server that has answered a request and receives it again gives the same answer and keeps its state exactly
for the requests of `Spec.Repeats`. -/
theorem C107_exact (hr : Spec.Reachable P cfg buckets kc)
    (h : Server.handle cfg (.running kc) req = (.running kc', .ok r)) :
    Server.handle cfg (.running kc') req = (.running kc', .ok r) ↔ Spec.Repeats cfg.build kc.frontier req := by
  obtain ⟨ha, hp⟩ := reachable_distinct hr
  obtain ⟨hpre, k, hk, hl⟩ := handle_served.1 h
  obtain rfl : kc' = k := by simpa using hk
  have hiff : Server.handle cfg (.running kc') req = (.running kc', .ok r) ↔ locked cfg kc' req = .ok (kc', r) := by
    rw [handle_served]
    constructor
    · rintro ⟨-, k, e, g⟩
      obtain rfl : kc' = k := by simpa using e
      exact g
    · intro g
      exact ⟨hpre, kc', rfl, g⟩
  rw [hiff]
  clear hiff h hpre hk
  cases req with
  | reset vk b =>
    obtain ⟨k, h1, h⟩ := bind_eq_ok.1 hl
    cases h
    refine ⟨fun _ => trivial, fun _ => ?_⟩
    have : srvReset cfg kc' vk b = .ok kc' := by
      unfold srvReset at h1 ⊢
      exact h1
    simp only [locked, this, ok_bind]
  | addReportShares rs =>
    cases hl
    have hlen : ∀ (l : List ReportShare) (k : KeyCollection P), (l.foldl KeyCollection.addReportShare k).reportShares.length
        = k.reportShares.length + l.length := by
      intro l
      induction l with
      | nil => intro k; rfl
      | cons a l ih =>
        intro k
        rw [List.foldl_cons, ih]
        simp [KeyCollection.addReportShare]
        omega
    constructor
    · intro e
      have e : (Except.ok (srvAddReportShares (srvAddReportShares kc rs) rs, Resp.done) : Exec _)
        = .ok (srvAddReportShares kc rs, .done) := e
      have e := congrArg (fun k : KeyCollection P => k.reportShares.length) (Prod.ext_iff.1 (Except.ok.inj e)).1
      simp only [srvAddReportShares, hlen] at e
      exact List.length_eq_zero_iff.1 (by omega)
    · rintro rfl
      rfl
  | treeInit =>
    obtain ⟨k, h1, h⟩ := bind_eq_ok.1 hl
    cases h
    refine ⟨fun _ => trivial, fun _ => ?_⟩
    have : kc'.treeInit = .ok kc' := by
      unfold KeyCollection.treeInit at h1 ⊢
      obtain ⟨keys, h2, h1⟩ := bind_eq_ok.1 h1
      cases h1
      simp only [h2, ok_bind]
    simp only [locked, this, ok_bind]
  | treeCrawl s m l =>
    obtain ⟨⟨k, r'⟩, h1, h⟩ := bind_eq_ok.1 hl
    cases h
    unfold KeyCollection.treeCrawl at h1
    obtain ⟨k1, h2, h1⟩ := bind_eq_ok.1 h1
    obtain ⟨⟨next, combined⟩, h3, h1⟩ := bind_eq_ok.1 h1
    obtain ⟨rs, h4, h1⟩ := bind_eq_ok.1 h1
    cases h1
    constructor
    · rintro e rfl
      cases h2
      obtain ⟨⟨k2, r2⟩, g1, e⟩ := bind_eq_ok.1 e
      cases e
      unfold KeyCollection.treeCrawl at g1
      obtain ⟨k3, g2, g1⟩ := bind_eq_ok.1 g1
      cases g2
      obtain ⟨⟨next', combined'⟩, g3, g1⟩ := bind_eq_ok.1 g1
      obtain ⟨rs', -, g1⟩ := bind_eq_ok.1 g1
      have hfr : next' = next := congrArg (fun k : KeyCollection P => k.frontier) (Prod.ext_iff.1 (Except.ok.inj g1)).1
      subst hfr
      unfold KeyCollection.crawlLevel at g3
      obtain ⟨root, hroot, g3⟩ := bind_eq_ok.1 g3
      obtain ⟨-, -, g3⟩ := bind_eq_ok.1 g3
      obtain ⟨nx, hnx, g3⟩ := bind_eq_ok.1 g3
      obtain ⟨_, -, g3⟩ := bind_eq_ok.1 g3
      obtain ⟨_, -, g3⟩ := bind_eq_ok.1 g3
      cases g3
      have hroot : next'[0]? = some root := idx_eq_ok.1 hroot
      rcases nextFrontier_first hnx with ⟨e1, -⟩ | ⟨a, b, e1, e2, e3⟩
      · have e1 : next' = [] := e1
        rw [e1] at hroot
        cases hroot
      · have e1 : next'[0]? = some a := e1
        rw [e1] at e2
        cases e2
        omega
    · intro hm
      have := crawlPrep_twice hm h2 next
      simp only [locked, KeyCollection.treeCrawl, this, h3, h4, ok_bind]
  | runFlpQueries s e =>
    obtain ⟨u, h0, h⟩ := bind_eq_ok.1 hl
    obtain ⟨x, h1, h⟩ := bind_eq_ok.1 h
    cases h
    exact ⟨fun _ => trivial, fun _ => hl⟩
  | applyFlpResults keep =>
    obtain ⟨k, h1, h⟩ := bind_eq_ok.1 hl
    cases h
    refine ⟨fun _ => trivial, fun _ => ?_⟩
    have hlen : keep.length = kc.reportShares.length := by
      unfold KeyCollection.applyFlpResults at h1
      obtain ⟨_, h2, -⟩ := bind_eq_ok.1 h1
      simpa using assertE_eq_ok.1 h2
    rw [applyFlp_exact kc keep hlen] at h1
    cases h1
    have := applyFlp_exact ({ kc with reportShares := Spec.masked kc.reportShares keep } : KeyCollection P) keep
      (by simp [Spec.masked, hlen])
    simp only [masked_twice] at this
    simp only [locked, this, ok_bind]
  | treeCrawlLast =>
    obtain ⟨⟨k, r'⟩, h1, h⟩ := bind_eq_ok.1 hl
    cases h
    unfold KeyCollection.treeCrawlLast at h1
    obtain ⟨next, h2, h1⟩ := bind_eq_ok.1 h1
    obtain ⟨proofs, h3, h1⟩ := bind_eq_ok.1 h1
    cases h1
    constructor
    · intro e
      obtain ⟨⟨k2, r2⟩, g1, e⟩ := bind_eq_ok.1 e
      cases e
      unfold KeyCollection.treeCrawlLast at g1
      obtain ⟨next', g2, g1⟩ := bind_eq_ok.1 g1
      obtain ⟨_, -, g1⟩ := bind_eq_ok.1 g1
      have hfr : next' = next := congrArg (fun k : KeyCollection P => k.frontier) (Prod.ext_iff.1 (Except.ok.inj g1)).1
      subst hfr
      rcases nextFrontier_first h2 with ⟨e1, -⟩ | ⟨a, b, e1, e2, e3⟩
      · exact e1
      · rcases nextFrontier_first g2 with ⟨e4, -⟩ | ⟨a', b', e4, e5, e6⟩
        · have e4 : next' = [] := e4
          rw [e4] at e2
          cases e2
        · have e4 : next'[0]? = some a' := e4
          rw [e4] at e5
          cases e5
          omega
    · intro hf
      have hf : kc.frontier = [] := hf
      have hn : next = [] := by
        rcases nextFrontier_first h2 with ⟨-, e⟩ | ⟨a, b, e1, -⟩
        · exact e
        · rw [hf] at e1; cases e1
      subst hn
      have h2' : ({ kc with finalProofs := proofs, frontier := [] } : KeyCollection P).nextFrontier false = .ok [] := rfl
      simp only [locked, KeyCollection.treeCrawlLast, h2', h3, ok_bind]
  | getProofs s e =>
    obtain ⟨u, h0, h⟩ := bind_eq_ok.1 hl
    cases h
    exact ⟨fun _ => trivial, fun _ => hl⟩
  | treePrune keep =>
    obtain ⟨k, h1, h⟩ := bind_eq_ok.1 hl
    cases h
    rw [treePrune_spec] at h1
    split at h1
    swap
    · cases h1
    rename_i hlen
    cases h1
    obtain ⟨i1, i2⟩ := select_full keep kc.frontier hlen
    constructor
    · exact fun e => repeats_of_ok ⟨ha, hp⟩ rfl hl e
    · intro hk
      have hk : false ∉ keep := hk
      have hs := i2 hk
      simp only [locked, treePrune_spec]
      rw [if_pos (by show keep.length = (Spec.select keep kc.frontier).length; rw [hs, hlen])]
      simp only [ok_bind, hs]
  | finalShares =>
    cases hl
    exact ⟨fun _ => trivial, fun _ => rfl⟩
  | abmValidate a s e =>
    refine ⟨fun _ => trivial, fun _ => ?_⟩
    obtain ⟨⟨k, r'⟩, h1, h⟩ := bind_eq_ok.1 hl
    cases h
    obtain ⟨results, h2, h3, h4, rfl, rfl⟩ := srvAbmValidate_ok h1
    have hsame : ∀ (st : List (Nat × List (List Field128))),
        mapE (abmValidateClient ({ kc with abmState := st } : KeyCollection P) a) (rangeFrom s e) = .ok results :=
      fun _ => h2
    have hw : withCapacity s e = .ok () := if_pos h4
    have hfold := foldl_mapInsert_twice (fun r : Nat × List (List Field128) × List Field128 × Vector Byte 32 => (r.1, r.2.1))
      results kc.abmState (by rw [show (results.map fun r => r.1) = rangeFrom s e from h3]; exact List.nodup_range')
    simp only [locked, srvAbmValidate, hw, hsame, ok_bind, hfold]
  | abmResult rej n s e =>
    obtain ⟨⟨k, rows⟩, h1, h⟩ := bind_eq_ok.1 hl
    cases h
    constructor
    · exact fun e => repeats_of_ok ⟨ha, hp⟩ rfl hl e
    · intro hc
      have hrej : ∀ st, (cfg.build = .release ∨ rej = []) → abmReject cfg.build st rej = .ok st := by
        rintro st (hb | rfl)
        · rw [hb]; rfl
        · cases cfg.build <;> rfl
      unfold srvAbmResult at h1
      rw [hrej _ hc] at h1
      cases h1
      simp only [locked, srvAbmResult, hrej _ hc, ok_bind]
  | pmValidate s e =>
    refine ⟨fun _ => trivial, fun _ => ?_⟩
    obtain ⟨⟨k, r'⟩, h1, h⟩ := bind_eq_ok.1 hl
    cases h
    unfold srvPmValidate at h1
    obtain ⟨u, hw, h1⟩ := bind_eq_ok.1 h1
    obtain ⟨aggId, hid, h1⟩ := bind_eq_ok.1 h1
    split at h1
    · cases h1
    rename_i hok
    obtain ⟨results, h2, h1⟩ := bind_eq_ok.1 h1
    cases h1
    have hkeys : results.map Prod.fst = rangeFrom s e := by
      have := mapE_eq_ok.1 h2
      refine List.forall₂_eq_eq_eq ▸ ?_
      rw [List.forall₂_map_left_iff]
      refine (this.imp fun i x hx => ?_).flip
      unfold pmValidateClient at hx
      obtain ⟨y, -, hx⟩ := bind_eq_ok.1 hx
      split at hx
      · cases hx
      · obtain ⟨⟨st, sh⟩, -, hx⟩ := bind_eq_ok.1 hx
        cases hx
        rfl
    have hsame : ∀ (st : List (Nat × (P.PrepState × P.PrepShare))),
        mapE (pmValidateClient ({ kc with pmState := st } : KeyCollection P) aggId) (rangeFrom s e) = .ok results :=
      fun _ => h2
    have hfold := foldl_mapInsert_twice (fun r : Nat × P.PrepState × P.PrepShare => r)
      results kc.pmState (by rw [show (results.map fun r => r.1) = rangeFrom s e from hkeys]; exact List.nodup_range')
    simp only [locked, srvPmValidate, hw, hid, hsame, ok_bind, hfold]
    rw [if_neg hok]
    rfl
  | pmResult peers s e =>
    obtain ⟨⟨k, agg, n⟩, h1, h⟩ := bind_eq_ok.1 hl
    cases h
    unfold srvPmResult at h1
    split at h1
    · cases h1
    rename_i hok
    obtain ⟨⟨m, outs⟩, h2, h1⟩ := bind_eq_ok.1 h1
    obtain ⟨rejected, h3, h1⟩ := bind_eq_ok.1 h1
    obtain ⟨agg', h4, h1⟩ := bind_eq_ok.1 h1
    cases h1
    obtain ⟨-, -, rfl, -⟩ := pmResultLoop_consumes _ hp h2
    constructor
    · exact fun e => repeats_of_ok ⟨ha, hp⟩ rfl hl e
    · intro hc
      have hz : (rangeFrom s e).zip peers = [] := by
        rcases hc with hc | rfl
        · have : rangeFrom s e = [] := by
            unfold rangeFrom
            rw [Nat.sub_eq_zero_of_le hc]
            rfl
          rw [this]; rfl
        · simp
      have hf : kc.pmState.filter (fun e' => e'.1 ∉ ((rangeFrom s e).zip peers).map Prod.fst) = kc.pmState := by
        rw [hz]; simp
      have ho : outs = [] := by
        rw [hz] at h2
        exact (Prod.ext_iff.1 (Except.ok.inj h2)).2.symm
      subst ho
      rw [hf]
      simp only [locked, srvPmResult]
      rw [if_neg hok, hz]
      simp only [pmResultLoop, ok_bind, h3, h4]

/-- **C107, what goes wrong.**  Pruning, and the results of both metrics modes, panic when they arrive again (unless they
are of `Spec.Repeats`), and the server is unusable from then on. -/
theorem C107_false_poisons (hr : Spec.Reachable P cfg buckets kc)
    (h : Server.handle cfg (.running kc) req = (.running kc', .ok r)) (ht : Spec.takesOut req = true)
    (hn : ¬ Spec.Repeats cfg.build kc.frontier req) (later : List Req) :
    (Server.run cfg (.running kc') (req :: later)).1 = .poisoned := by
  obtain ⟨hpre, k, hk, hl⟩ := handle_served.1 h
  obtain rfl : kc' = k := by simpa using hk
  have : (Server.handle cfg (.running kc') req).1 = .poisoned := by
    unfold Server.handle
    rw [hpre]
    cases h2 : locked cfg kc' req with
    | error p => simp [h2]
    | ok x => exact absurd (repeats_of_ok (reachable_distinct hr) ht hl h2) hn
  show (Server.run cfg (Server.handle cfg (.running kc') req).1 later).1 = _
  rw [this, run_poisoned]

/-- **C107, what goes wrong.**  Reports that arrive again are stored again. -/
theorem C107_false_upload (rs : List ReportShare) :
    ∃ kc', (Server.run cfg (.running kc) [.addReportShares rs, .addReportShares rs]).1 = .running kc' ∧
      kc'.reportShares = kc.reportShares ++ rs.map (fun s => (true, s)) ++ rs.map (fun s => (true, s)) := by
  refine ⟨_, rfl, ?_⟩
  have : ∀ (l : List ReportShare) (k : KeyCollection P), (srvAddReportShares k l).reportShares
      = k.reportShares ++ l.map fun s => (true, s) := by
    intro l
    induction l with
    | nil => intro k; simp [srvAddReportShares]
    | cons a l ih =>
      intro k
      have := ih (k.addReportShare a)
      unfold srvAddReportShares at this ⊢
      rw [List.foldl_cons, this]
      simp [KeyCollection.addReportShare]
  rw [this, this]

/-- **C107, what goes wrong.**  A crawl that arrives again, if the server answers it, moves the whole tree one more level
down: the second answer is about strings one bit longer. -/
theorem C107_false_crawl {s : Nat} {l : Bool} {kc'' : KeyCollection P} {r' : Resp}
    (h : Server.handle cfg (.running kc) (.treeCrawl s [] l) = (.running kc', .ok r))
    (h' : Server.handle cfg (.running kc') (.treeCrawl s [] l) = (.running kc'', .ok r')) :
    kc''.frontier.map TreeNode.path = (kc.frontier.map TreeNode.path).flatMap fun p =>
      [p ++ [false, false], p ++ [false, true], p ++ [true, false], p ++ [true, true]] := by
  obtain ⟨-, k, hk, hl⟩ := handle_served.1 h
  obtain rfl : kc' = k := by simpa using hk
  obtain ⟨-, k, hk, hl'⟩ := handle_served.1 h'
  obtain rfl : kc'' = k := by simpa using hk
  rw [crawl_paths hl', crawl_paths hl, List.flatMap_assoc]
  simp

/-- **C107, reading.**  FLP queries, final proofs and final shares do not change the state. -/
theorem C107_reads (hq : Spec.readsOnly req = true)
    (h : Server.handle cfg (.running kc) req = (.running kc', .ok r)) : kc' = kc := by
  obtain ⟨-, k, hk, hl⟩ := handle_served.1 h
  obtain rfl : kc' = k := by simpa using hk
  cases req with
  | runFlpQueries s e =>
    obtain ⟨-, -, hl⟩ := bind_eq_ok.1 hl
    obtain ⟨x, -, hl⟩ := bind_eq_ok.1 hl
    cases hl
    rfl
  | getProofs s e =>
    obtain ⟨-, -, hl⟩ := bind_eq_ok.1 hl
    cases hl
    rfl
  | finalShares => cases hl; rfl
  | _ => cases hq

/-- A server of a debug build that has prepared one plain-metrics report. -/
def preparedHistory : List Req := [.addReportShares [.prio3 Block.zero [] [5#8]], .pmValidate 0 1]

/-- The result request is answered once; the second time the server is lost. -/
example : ∃ kc kc' r, (Server.run (toyCfg 0 none .debug) (Server.start toy (toyCfg 0 none .debug) 2) preparedHistory).1
      = .running kc ∧
    Server.handle (toyCfg 0 none .debug) (.running kc) (.pmResult [[5#8]] 0 1) = (.running kc', .ok r) ∧
    (Server.run (toyCfg 0 none .debug) (.running kc') [.pmResult [[5#8]] 0 1, .reset Block.zero 2]).1 = .poisoned := by
  refine ⟨_, _, _, rfl, rfl, ?_⟩
  exact C107_false_poisons (buckets := 2) ⟨preparedHistory, rfl⟩ rfl rfl (by simp [Spec.Repeats]) _

/-- Asking for the preparation again is harmless. -/
example : ∃ kc kc' r, (Server.run (toyCfg 0 none .debug) (Server.start toy (toyCfg 0 none .debug) 2)
      [.addReportShares [.prio3 Block.zero [] [5#8]]]).1 = .running kc ∧
    Server.handle (toyCfg 0 none .debug) (.running kc) (.pmValidate 0 1) = (.running kc', .ok r) ∧
    Server.handle (toyCfg 0 none .debug) (.running kc') (.pmValidate 0 1) = (.running kc', .ok r) := by
  refine ⟨_, _, _, rfl, rfl, ?_⟩
  exact (C107_exact (buckets := 2) ⟨[.addReportShares [.prio3 Block.zero [] [5#8]]], rfl⟩ rfl).2 trivial

/-- A server with one report and an initialised tree. -/
def crawlingHistory : List Req :=
  [.addReportShares [.mastic Block.zero (VidpfKey.gen toy (toyRand 0).rootSeeds [true, false, true] [1]).1 [7, 9]
    (Block.zero, Block.zero)], .treeInit]

/-- Both crawls are answered; the second answer is about strings of two bits. -/
example : ∃ kc kc' kc'' r r', (Server.run (toyCfg 0 (some 3) .debug) (Server.start toy (toyCfg 0 (some 3) .debug) 1)
      crawlingHistory).1 = .running kc ∧
    Server.handle (toyCfg 0 (some 3) .debug) (.running kc) (.treeCrawl 1 [] false) = (.running kc', .ok r) ∧
    Server.handle (toyCfg 0 (some 3) .debug) (.running kc') (.treeCrawl 1 [] false) = (.running kc'', .ok r') ∧
    kc''.frontier.map TreeNode.path = [[false, false], [false, true], [true, false], [true, true]] := by
  have key : ∀ x : Server toy × Exec Resp, (match x with | (.running _, .ok _) => true | _ => false) = true →
      ∃ kc r, x = (.running kc, .ok r) := by
    rintro ⟨s, y⟩ h
    cases s <;> cases y <;> simp_all
  have e0 : ∃ kc, (Server.run (toyCfg 0 (some 3) .debug) (Server.start toy (toyCfg 0 (some 3) .debug) 1)
      crawlingHistory).1 = .running kc ∧ kc.frontier.map TreeNode.path = [[]] := ⟨_, rfl, rfl⟩
  obtain ⟨kc, h0, hp⟩ := e0
  obtain ⟨kc', r, h1⟩ := key (Server.handle (toyCfg 0 (some 3) .debug) (Server.run (toyCfg 0 (some 3) .debug)
    (Server.start toy (toyCfg 0 (some 3) .debug) 1) crawlingHistory).1 (.treeCrawl 1 [] false)) (by decide +kernel)
  obtain ⟨kc'', r', h2⟩ := key (Server.handle (toyCfg 0 (some 3) .debug) (Server.handle (toyCfg 0 (some 3) .debug)
    (Server.run (toyCfg 0 (some 3) .debug) (Server.start toy (toyCfg 0 (some 3) .debug) 1) crawlingHistory).1
    (.treeCrawl 1 [] false)).1 (.treeCrawl 1 [] false)) (by decide +kernel)
  rw [h1] at h2
  rw [h0] at h1
  refine ⟨kc, kc', kc'', r, r', h0, h1, h2, ?_⟩
  rw [C107_false_crawl h1 h2, hp]
  rfl

end Mastic
