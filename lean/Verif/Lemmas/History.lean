import Verif.Lemmas.Collect
import Verif.Spec.Server

/-!
# Helper lemmas about request histories
-/

namespace Mastic

variable {P : Prims}

/-! ### Evolution of the report list -/

theorem evolves_refl (l : List (Bool × ReportShare)) : Spec.Evolves l l :=
  ⟨List.prefix_rfl, fun _ _ h => h⟩

theorem evolves_trans {a b c : List (Bool × ReportShare)} (h1 : Spec.Evolves a b)
    (h2 : Spec.Evolves b c) : Spec.Evolves a c :=
  ⟨h1.1.trans h2.1, fun i r h => h2.2 i r (h1.2 i r h)⟩

theorem evolves_append (a b : List (Bool × ReportShare)) : Spec.Evolves a (a ++ b) := by
  refine ⟨by simp, fun i r h => ?_⟩
  have := (List.getElem?_eq_some_iff.1 h).1
  rw [List.getElem?_append_left this, h]

/-- Marking one report as excluded. -/
theorem set_false {l : List (Bool × ReportShare)} {m : Nat} {r : Bool × ReportShare}
    (h : l[m]? = some r) :
    (l.set m (false, r.2)).map Prod.snd = l.map Prod.snd ∧
      Spec.Evolves l (l.set m (false, r.2)) := by
  have hm : (l.set m (false, r.2)).map Prod.snd = l.map Prod.snd := by
    apply List.ext_getElem?
    intro i
    rw [List.getElem?_map, List.getElem?_map, List.getElem?_set]
    split
    · rename_i e; subst e
      rw [h]
      have := (List.getElem?_eq_some_iff.1 h).1
      simp [this]
    · rfl
  refine ⟨hm, by rw [hm], fun i r' hi => ?_⟩
  rw [List.getElem?_set]
  split
  · rename_i e; subst e
    rw [h] at hi; cases hi
    have := (List.getElem?_eq_some_iff.1 h).1
    simp [this]
  · exact hi

theorem excludeAll_ok {l l' : List (Bool × ReportShare)} {ms : List Nat}
    (h : excludeAll l ms = .ok l') :
    l'.map Prod.snd = l.map Prod.snd ∧ Spec.Evolves l l' := by
  unfold excludeAll at h
  refine foldE_invariant (fun s => s.map Prod.snd = l.map Prod.snd ∧ Spec.Evolves l s) ?_
    ⟨rfl, evolves_refl l⟩ h
  intro s m _ s' hs hstep
  obtain ⟨r, hr, hstep⟩ := bind_eq_ok.1 hstep
  cases hstep
  have := set_false (idx_eq_ok.1 hr)
  exact ⟨this.1.trans hs.1, evolves_trans hs.2 this.2⟩

theorem applyFlpResults_ok {kc kc' : KeyCollection P} {keep : List Bool}
    (h : kc.applyFlpResults keep = .ok kc') :
    ∃ reports, kc' = { kc with reportShares := reports } ∧
      reports.map Prod.snd = kc.reportShares.map Prod.snd ∧
      Spec.Evolves kc.reportShares reports := by
  unfold KeyCollection.applyFlpResults at h
  obtain ⟨_, -, h⟩ := bind_eq_ok.1 h
  obtain ⟨reports, hr, h⟩ := bind_eq_ok.1 h
  cases h
  refine ⟨reports, rfl, ?_⟩
  refine foldE_invariant
    (fun s => s.map Prod.snd = kc.reportShares.map Prod.snd ∧ Spec.Evolves kc.reportShares s) ?_
    ⟨rfl, evolves_refl _⟩ hr
  intro s a _ s' hs hstep
  by_cases ha : a.1 = true
  · rw [if_pos ha] at hstep; cases hstep; exact hs
  · rw [if_neg ha] at hstep
    obtain ⟨r, hr, hstep⟩ := bind_eq_ok.1 hstep
    cases hstep
    have := set_false (idx_eq_ok.1 hr)
    exact ⟨this.1.trans hs.1, evolves_trans hs.2 this.2⟩

theorem srvAdd_eq (rs : List ReportShare) : ∀ kc : KeyCollection P,
    srvAddReportShares kc rs
      = { kc with reportShares := kc.reportShares ++ rs.map fun r => (true, r) } := by
  induction rs with
  | nil => intro kc; simp [srvAddReportShares]
  | cons r rs ih =>
    intro kc
    show srvAddReportShares (kc.addReportShare r) rs = _
    rw [ih]
    simp [KeyCollection.addReportShare]

/-- The two ways a crawl prepares its state. -/
theorem crawlPrep_ok {kc kc' : KeyCollection P} {ms : List Nat} {last : Bool}
    (h : kc.crawlPrep ms last = .ok kc') :
    ∃ reports fr, kc' = { kc with reportShares := reports, frontier := fr } ∧
      reports.map Prod.snd = kc.reportShares.map Prod.snd ∧
      Spec.Evolves kc.reportShares reports ∧
      (fr = if ms = [] then kc.frontier else kc.prevFrontier) ∧
      (last = false ∨ ms = [] → reports = kc.reportShares) := by
  unfold KeyCollection.crawlPrep at h
  cases ms with
  | nil =>
    simp only [List.isEmpty_nil, if_true] at h
    cases h
    exact ⟨kc.reportShares, kc.frontier, rfl, rfl, evolves_refl _, rfl, fun _ => rfl⟩
  | cons m ms =>
    simp only [List.isEmpty_cons, Bool.false_eq_true, if_false] at h
    obtain ⟨reports, hr, h⟩ := bind_eq_ok.1 h
    cases h
    cases last with
    | false =>
      simp only [Bool.false_eq_true, if_false] at hr
      cases hr
      exact ⟨_, _, rfl, rfl, evolves_refl _, by simp, fun _ => rfl⟩
    | true =>
      simp only [if_true] at hr
      have := excludeAll_ok hr
      exact ⟨_, _, rfl, this.1, this.2, by simp, fun h => by simp at h⟩

theorem crawlLevel_ok {bld : Build} {kc : KeyCollection P} {next : List TreeNode}
    {digests : List Block} (h : kc.crawlLevel bld = .ok (next, digests)) :
    (∃ root rest, kc.frontier = root :: rest) ∧ kc.nextFrontier true = .ok next := by
  unfold KeyCollection.crawlLevel at h
  obtain ⟨root, hroot, h⟩ := bind_eq_ok.1 h
  obtain ⟨_, -, h⟩ := bind_eq_ok.1 h
  obtain ⟨next', hn, h⟩ := bind_eq_ok.1 h
  obtain ⟨_, -, h⟩ := bind_eq_ok.1 h
  obtain ⟨_, -, h⟩ := bind_eq_ok.1 h
  cases h
  refine ⟨?_, hn⟩
  have := idx_eq_ok.1 hroot
  cases hf : kc.frontier with
  | nil => rw [hf] at this; simp at this
  | cons a l => exact ⟨a, l, rfl⟩

/-- Shape of a successful crawl. -/
theorem treeCrawl_ok {bld : Build} {kc kc' : KeyCollection P} {s : Nat} {ms : List Nat} {last : Bool}
    {r : CrawlResp} (h : kc.treeCrawl bld s ms last = .ok (kc', r)) :
    ∃ kc1 next digests rs, kc.crawlPrep ms last = .ok kc1 ∧
      kc1.crawlLevel bld = .ok (next, digests) ∧ merkleRoots P digests s ms last = .ok rs ∧
      kc' = { kc1 with prevFrontier := kc1.frontier, frontier := next } ∧
      r = { cntValues := next.map TreeNode.value, roots := rs.map Prod.fst,
            indices := rs.map Prod.snd } := by
  unfold KeyCollection.treeCrawl at h
  obtain ⟨kc1, h1, h⟩ := bind_eq_ok.1 h
  obtain ⟨⟨next, digests⟩, h2, h⟩ := bind_eq_ok.1 h
  obtain ⟨rs, h3, h⟩ := bind_eq_ok.1 h
  cases h
  exact ⟨kc1, next, digests, rs, h1, h2, h3, rfl, rfl⟩

theorem treeCrawlLast_ok {kc kc' : KeyCollection P} {v : List (List Field128)}
    (h : kc.treeCrawlLast = .ok (kc', v)) :
    ∃ next proofs, kc.nextFrontier false = .ok next ∧
      mapE (combineProofs next) (includedIndices kc.reportShares) = .ok proofs ∧
      kc' = { kc with finalProofs := proofs, frontier := next } ∧ v = next.map TreeNode.value := by
  unfold KeyCollection.treeCrawlLast at h
  obtain ⟨next, h1, h⟩ := bind_eq_ok.1 h
  obtain ⟨proofs, h2, h⟩ := bind_eq_ok.1 h
  cases h
  exact ⟨next, proofs, h1, h2, rfl, rfl⟩

theorem treeInit_ok {kc kc' : KeyCollection P} (h : kc.treeInit = .ok kc') :
    ∃ keys, mapE (fun r : Bool × ReportShare => r.2.unwrapVidpfKey) kc.reportShares = .ok keys ∧
      kc' = { kc with frontier := [⟨[], [0], keys.map VidpfKey.evalInit, keys.map fun _ => [0]⟩] } := by
  unfold KeyCollection.treeInit at h
  obtain ⟨keys, h1, h⟩ := bind_eq_ok.1 h
  cases h
  exact ⟨keys, h1, rfl⟩

theorem treeInit_exact {kc kc' : KeyCollection P} (h : kc.treeInit = .ok kc') :
    Spec.FrontierExact P kc.inputLen (kc.reportShares.map Prod.snd) kc'.frontier := by
  obtain ⟨keys, hk, rfl⟩ := treeInit_ok h
  rw [mapE_eq_ok_iff_getElem] at hk
  refine ⟨?_, ⟨0, by simp⟩, by simp⟩
  intro node hn
  simp only [List.mem_singleton] at hn
  subst hn
  refine ⟨by simp [hk.1], by simp [hk.1], ?_⟩
  intro i r hr
  rw [List.getElem?_map] at hr
  obtain ⟨⟨b, r'⟩, hr', rfl⟩ := Option.map_eq_some_iff.1 hr
  obtain ⟨key, hk1, hk2⟩ := hk.2 i _ hr'
  exact ⟨key, key.evalInit, none, unwrapVidpfKey_eq_ok.1 hk2, rfl, by simp [hk1],
    by rw [List.getElem?_map, hk1]; rfl⟩

theorem frontierExact_nil (n : Nat) (rs : List ReportShare) : Spec.FrontierExact P n rs [] :=
  ⟨by simp, ⟨0, by simp⟩, by simp⟩

theorem frontierExact_sublist {n : Nat} {rs : List ReportShare} {l l' : List TreeNode}
    (h : Spec.FrontierExact P n rs l) (hs : l'.Sublist l) : Spec.FrontierExact P n rs l' := by
  obtain ⟨h1, ⟨d, h2⟩, h3⟩ := h
  exact ⟨fun x hx => h1 x (hs.subset hx), ⟨d, fun x hx => h2 x (hs.subset hx)⟩,
    h3.sublist (hs.map _)⟩

theorem select_sublist {α : Type} (keep : List Bool) (l : List α) : (Spec.select keep l).Sublist l := by
  unfold Spec.select
  induction l generalizing keep with
  | nil => simp
  | cons a l ih =>
    cases keep with
    | nil => simp
    | cons b keep =>
      rw [List.zip_cons_cons, List.filterMap_cons]
      cases b with
      | true => simpa using (ih keep).cons_cons a
      | false => simpa using (ih keep).cons a

/-- The invariant of a session: `n0` is the number of reports at the last `tree_init`. -/
structure SessionInv (n0 : Nat) (kc : KeyCollection P) : Prop where
  le : n0 ≤ kc.reportShares.length
  frontier : Spec.FrontierExact P kc.inputLen ((kc.reportShares.map Prod.snd).take n0) kc.frontier
  prev : ∃ m ≤ n0, Spec.FrontierExact P kc.inputLen ((kc.reportShares.map Prod.snd).take m)
    kc.prevFrontier

theorem nonempty_of_forall_lt {fr : List TreeNode} {root : TreeNode} {rest : List TreeNode}
    (h : fr = root :: rest) : root ∈ fr := by simp [h]

/-- A crawl over a non-empty frontier that was exact for the first `m` reports can only succeed if
these are all reports. -/
theorem nextFrontier_all {kc : KeyCollection P} {chk : Bool} {next : List TreeNode} {m : Nat}
    (hf : Spec.FrontierExact P kc.inputLen ((kc.reportShares.map Prod.snd).take m) kc.frontier)
    (hne : kc.frontier ≠ []) (h : kc.nextFrontier chk = .ok next) :
    kc.reportShares.length ≤ m := by
  obtain ⟨cs, -, hF⟩ := nextFrontier_ok h
  cases hfr : kc.frontier with
  | nil => exact absurd hfr hne
  | cons node rest =>
    rw [hfr] at hF
    cases hF with
    | cons hx _ =>
      have h1 := makeTreeNode_length_le hx.1
      have h2 := (hf.1 node (by simp [hfr])).1
      simp only [List.length_take, List.length_map] at h2
      omega

theorem sessionInv_start (cfg : ServerCfg) (b : Nat) (vk : Block) :
    SessionInv (P := P) 0 (KeyCollection.new P b cfg.serverId cfg.dataBits vk) :=
  ⟨Nat.zero_le _, frontierExact_nil _ _, 0, le_rfl, frontierExact_nil _ _⟩

theorem take_eq_of_prefix {a b : List ReportShare} (h : a <+: b) {m : Nat} (hm : m ≤ a.length) :
    b.take m = a.take m := by
  obtain ⟨t, rfl⟩ := h
  rw [List.take_append_of_le_length hm]

theorem treeCrawl_inv {bld : Build} {n0 : Nat} {kc kc' : KeyCollection P} {s : Nat} {ms : List Nat}
    {last : Bool} {r : CrawlResp} (hi : SessionInv n0 kc)
    (h : kc.treeCrawl bld s ms last = .ok (kc', r)) :
    SessionInv n0 kc' ∧ kc'.reportShares.length = n0 := by
  obtain ⟨kc1, next, digests, rs, hp, hl, -, rfl, -⟩ := treeCrawl_ok h
  obtain ⟨reports, fr, rfl, hsnd, -, hfr, -⟩ := crawlPrep_ok hp
  obtain ⟨⟨root, rest, hroot⟩, hn⟩ := crawlLevel_ok hl
  have hlen : reports.length = kc.reportShares.length := by
    simpa using congrArg List.length hsnd
  have hpre : ∃ m ≤ n0, Spec.FrontierExact P kc.inputLen ((reports.map Prod.snd).take m) fr := by
    rw [hsnd, hfr]
    split
    · exact ⟨n0, le_rfl, hi.frontier⟩
    · exact hi.prev
  obtain ⟨m, hm, hF⟩ := hpre
  have hall := nextFrontier_all (kc := { kc with reportShares := reports, frontier := fr }) (m := m)
    hF (by simp only at hroot; simp [hroot]) hn
  have hall' : reports.length ≤ m := hall
  have hle := hi.le
  have e1 : m = n0 := by omega
  have e2 : reports.length = n0 := by omega
  have hex := nextFrontier_exact (kc := { kc with reportShares := reports, frontier := fr }) (m := m)
    hF hn
  refine ⟨⟨by simp [e2], ?_, n0, le_rfl, ?_⟩, by simp [e2]⟩
  · have : (reports.map Prod.snd).take n0 = reports.map Prod.snd :=
      List.take_of_length_le (by simp [e2])
    show Spec.FrontierExact P kc.inputLen ((reports.map Prod.snd).take n0) next
    rw [this]; exact hex
  · subst e1; exact hF

theorem treeCrawlLast_inv {n0 : Nat} {kc kc' : KeyCollection P} {v : List (List Field128)}
    (hi : SessionInv n0 kc) (h : kc.treeCrawlLast = .ok (kc', v)) : SessionInv n0 kc' := by
  obtain ⟨next, proofs, hn, -, rfl, -⟩ := treeCrawlLast_ok h
  refine ⟨hi.le, ?_, hi.prev⟩
  show Spec.FrontierExact P kc.inputLen ((kc.reportShares.map Prod.snd).take n0) next
  have hex := nextFrontier_exact hi.frontier hn
  by_cases hne : kc.frontier = []
  · have : next = [] := by
      have := nextFrontier_length hn
      rw [hne] at this
      exact List.length_eq_zero_iff.1 this
    rw [this]; exact frontierExact_nil _ _
  · have := nextFrontier_all hi.frontier hne hn
    rw [List.take_of_length_le (by simpa using this)]
    exact hex

/-- Frame conditions: requests other than `reset` keep the session parameters and evolve the reports;
requests other than `reset` and `tree_init` keep the session invariant. -/
theorem locked_frame {cfg : ServerCfg} {kc kc' : KeyCollection P} {req : Req} {resp : Resp}
    (h : locked cfg kc req = .ok (kc', resp)) (hr : Spec.isReset req = false) :
    kc'.inputLen = kc.inputLen ∧ kc'.serverId = kc.serverId ∧ kc'.verifyKey = kc.verifyKey ∧
    kc'.depth = kc.depth ∧ Spec.Evolves kc.reportShares kc'.reportShares := by
  cases req with
  | reset => simp [Spec.isReset] at hr
  | addReportShares rs =>
    simp only [locked] at h; cases h
    rw [srvAdd_eq]
    exact ⟨rfl, rfl, rfl, rfl, evolves_append _ _⟩
  | treeInit =>
    simp only [locked] at h
    obtain ⟨kc1, h1, h⟩ := bind_eq_ok.1 h
    cases h
    obtain ⟨keys, -, rfl⟩ := treeInit_ok h1
    exact ⟨rfl, rfl, rfl, rfl, evolves_refl _⟩
  | treeCrawl s m l =>
    simp only [locked] at h
    obtain ⟨⟨kc1, r⟩, h1, h⟩ := bind_eq_ok.1 h
    cases h
    obtain ⟨kc2, next, digests, rs, hp, -, -, rfl, -⟩ := treeCrawl_ok h1
    obtain ⟨reports, fr, rfl, -, hev, -, -⟩ := crawlPrep_ok hp
    exact ⟨rfl, rfl, rfl, rfl, hev⟩
  | runFlpQueries s e =>
    simp only [locked] at h
    obtain ⟨_, -, h⟩ := bind_eq_ok.1 h
    obtain ⟨_, -, h⟩ := bind_eq_ok.1 h
    cases h
    exact ⟨rfl, rfl, rfl, rfl, evolves_refl _⟩
  | applyFlpResults keep =>
    simp only [locked] at h
    obtain ⟨kc1, h1, h⟩ := bind_eq_ok.1 h
    cases h
    obtain ⟨reports, rfl, -, hev⟩ := applyFlpResults_ok h1
    exact ⟨rfl, rfl, rfl, rfl, hev⟩
  | treeCrawlLast =>
    simp only [locked] at h
    obtain ⟨⟨kc1, r⟩, h1, h⟩ := bind_eq_ok.1 h
    cases h
    obtain ⟨next, proofs, -, -, rfl, -⟩ := treeCrawlLast_ok h1
    exact ⟨rfl, rfl, rfl, rfl, evolves_refl _⟩
  | getProofs s e =>
    simp only [locked] at h
    obtain ⟨_, -, h⟩ := bind_eq_ok.1 h
    cases h
    exact ⟨rfl, rfl, rfl, rfl, evolves_refl _⟩
  | treePrune keep =>
    simp only [locked] at h
    obtain ⟨kc1, h1, h⟩ := bind_eq_ok.1 h
    cases h
    rw [treePrune_spec] at h1
    split at h1
    · cases h1; exact ⟨rfl, rfl, rfl, rfl, evolves_refl _⟩
    · cases h1
  | finalShares =>
    simp only [locked] at h; cases h
    exact ⟨rfl, rfl, rfl, rfl, evolves_refl _⟩
  | abmValidate a s e =>
    simp only [locked] at h
    obtain ⟨⟨kc1, r⟩, h1, h⟩ := bind_eq_ok.1 h
    cases h
    unfold srvAbmValidate at h1
    obtain ⟨_, -, h1⟩ := bind_eq_ok.1 h1
    obtain ⟨_, -, h1⟩ := bind_eq_ok.1 h1
    cases h1
    exact ⟨rfl, rfl, rfl, rfl, evolves_refl _⟩
  | abmResult rej n s e =>
    simp only [locked] at h
    obtain ⟨⟨kc1, r⟩, h1, h⟩ := bind_eq_ok.1 h
    cases h
    unfold srvAbmResult at h1
    obtain ⟨_, -, h1⟩ := bind_eq_ok.1 h1
    cases h1
    exact ⟨rfl, rfl, rfl, rfl, evolves_refl _⟩
  | pmValidate s e =>
    simp only [locked] at h
    obtain ⟨⟨kc1, r⟩, h1, h⟩ := bind_eq_ok.1 h
    cases h
    unfold srvPmValidate at h1
    obtain ⟨_, -, h1⟩ := bind_eq_ok.1 h1
    obtain ⟨_, -, h1⟩ := bind_eq_ok.1 h1
    split at h1
    · cases h1
    · obtain ⟨_, -, h1⟩ := bind_eq_ok.1 h1
      cases h1
      exact ⟨rfl, rfl, rfl, rfl, evolves_refl _⟩
  | pmResult peers s e =>
    simp only [locked] at h
    obtain ⟨⟨kc1, a, n⟩, h1, h⟩ := bind_eq_ok.1 h
    cases h
    unfold srvPmResult at h1
    split at h1
    · cases h1
    · obtain ⟨_, -, h1⟩ := bind_eq_ok.1 h1
      obtain ⟨_, -, h1⟩ := bind_eq_ok.1 h1
      obtain ⟨_, -, h1⟩ := bind_eq_ok.1 h1
      cases h1
      exact ⟨rfl, rfl, rfl, rfl, evolves_refl _⟩

/-- Requests that touch neither tree change only other parts of the state. -/
theorem locked_trees {cfg : ServerCfg} {kc kc' : KeyCollection P} {req : Req} {resp : Resp}
    (h : locked cfg kc req = .ok (kc', resp)) (hr : Spec.isReset req = false)
    (h1 : Spec.isTreeInit req = false) (h2 : ∀ s m l, req ≠ .treeCrawl s m l)
    (h3 : req ≠ .treeCrawlLast) :
    kc'.frontier.Sublist kc.frontier ∧ kc'.prevFrontier = kc.prevFrontier := by
  cases req with
  | reset => simp [Spec.isReset] at hr
  | addReportShares rs =>
    simp only [locked] at h; cases h
    rw [srvAdd_eq]
    exact ⟨List.Sublist.refl _, rfl⟩
  | treeInit => simp [Spec.isTreeInit] at h1
  | treeCrawl s m l => exact absurd rfl (h2 s m l)
  | runFlpQueries s e =>
    simp only [locked] at h
    obtain ⟨_, -, h⟩ := bind_eq_ok.1 h
    obtain ⟨_, -, h⟩ := bind_eq_ok.1 h
    cases h
    exact ⟨List.Sublist.refl _, rfl⟩
  | applyFlpResults keep =>
    simp only [locked] at h
    obtain ⟨kc1, h1, h⟩ := bind_eq_ok.1 h
    cases h
    obtain ⟨reports, rfl, -, hev⟩ := applyFlpResults_ok h1
    exact ⟨List.Sublist.refl _, rfl⟩
  | treeCrawlLast => exact absurd rfl h3
  | getProofs s e =>
    simp only [locked] at h
    obtain ⟨_, -, h⟩ := bind_eq_ok.1 h
    cases h
    exact ⟨List.Sublist.refl _, rfl⟩
  | treePrune keep =>
    simp only [locked] at h
    obtain ⟨kc1, h1, h⟩ := bind_eq_ok.1 h
    cases h
    rw [treePrune_spec] at h1
    split at h1
    · cases h1; exact ⟨select_sublist _ _, rfl⟩
    · cases h1
  | finalShares =>
    simp only [locked] at h; cases h
    exact ⟨List.Sublist.refl _, rfl⟩
  | abmValidate a s e =>
    simp only [locked] at h
    obtain ⟨⟨kc1, r⟩, h1, h⟩ := bind_eq_ok.1 h
    cases h
    unfold srvAbmValidate at h1
    obtain ⟨_, -, h1⟩ := bind_eq_ok.1 h1
    obtain ⟨_, -, h1⟩ := bind_eq_ok.1 h1
    cases h1
    exact ⟨List.Sublist.refl _, rfl⟩
  | abmResult rej n s e =>
    simp only [locked] at h
    obtain ⟨⟨kc1, r⟩, h1, h⟩ := bind_eq_ok.1 h
    cases h
    unfold srvAbmResult at h1
    obtain ⟨_, -, h1⟩ := bind_eq_ok.1 h1
    cases h1
    exact ⟨List.Sublist.refl _, rfl⟩
  | pmValidate s e =>
    simp only [locked] at h
    obtain ⟨⟨kc1, r⟩, h1, h⟩ := bind_eq_ok.1 h
    cases h
    unfold srvPmValidate at h1
    obtain ⟨_, -, h1⟩ := bind_eq_ok.1 h1
    obtain ⟨_, -, h1⟩ := bind_eq_ok.1 h1
    split at h1
    · cases h1
    · obtain ⟨_, -, h1⟩ := bind_eq_ok.1 h1
      cases h1
      exact ⟨List.Sublist.refl _, rfl⟩
  | pmResult peers s e =>
    simp only [locked] at h
    obtain ⟨⟨kc1, a, n⟩, h1, h⟩ := bind_eq_ok.1 h
    cases h
    unfold srvPmResult at h1
    split at h1
    · cases h1
    · obtain ⟨_, -, h1⟩ := bind_eq_ok.1 h1
      obtain ⟨_, -, h1⟩ := bind_eq_ok.1 h1
      obtain ⟨_, -, h1⟩ := bind_eq_ok.1 h1
      cases h1
      exact ⟨List.Sublist.refl _, rfl⟩

theorem locked_inv {cfg : ServerCfg} {n0 : Nat} {kc kc' : KeyCollection P} {req : Req} {resp : Resp}
    (hi : SessionInv n0 kc) (h : locked cfg kc req = .ok (kc', resp))
    (hr : Spec.isReset req = false) (ht : Spec.isTreeInit req = false) : SessionInv n0 kc' := by
  by_cases h2 : ∃ s m l, req = .treeCrawl s m l
  · obtain ⟨s, m, l, rfl⟩ := h2
    simp only [locked] at h
    obtain ⟨⟨kc1, r⟩, h1, h⟩ := bind_eq_ok.1 h
    cases h
    exact (treeCrawl_inv hi h1).1
  by_cases h3 : req = .treeCrawlLast
  · subst h3
    simp only [locked] at h
    obtain ⟨⟨kc1, r⟩, h1, h⟩ := bind_eq_ok.1 h
    cases h
    exact treeCrawlLast_inv hi h1
  push Not at h2
  obtain ⟨f1, f2, f3, f4, f5, -⟩ := locked_frame h hr
  obtain ⟨g1, g2⟩ := locked_trees h hr ht h2 h3
  have hlen : kc.reportShares.length ≤ kc'.reportShares.length := by
    simpa using f5.length_le
  refine ⟨le_trans hi.le hlen, ?_, ?_⟩
  · rw [f1, take_eq_of_prefix f5 (by simpa using hi.le)]
    exact frontierExact_sublist hi.frontier g1
  · obtain ⟨m, hm, hp⟩ := hi.prev
    refine ⟨m, hm, ?_⟩
    rw [f1, g2, take_eq_of_prefix f5 (by
      have := hi.le
      simp only [List.length_map]; omega)]
    exact hp

/-- The invariant holds, for some `n0`, in every reachable state. -/
theorem locked_inv_exists {cfg : ServerCfg} {kc kc' : KeyCollection P} {req : Req} {resp : Resp}
    (hi : ∃ n0, SessionInv n0 kc) (h : locked cfg kc req = .ok (kc', resp)) :
    ∃ n0, SessionInv n0 kc' := by
  obtain ⟨n0, hi⟩ := hi
  cases hr : Spec.isReset req with
  | true =>
    cases req <;> simp [Spec.isReset] at hr
    simp only [locked, srvReset] at h
    obtain ⟨kc1, h1, h⟩ := bind_eq_ok.1 h
    cases h
    split at h1
    · cases h1; exact ⟨0, sessionInv_start cfg _ _⟩
    · cases h1
  | false =>
    cases ht : Spec.isTreeInit req with
    | false => exact ⟨n0, locked_inv hi h hr ht⟩
    | true =>
      cases req <;> simp [Spec.isTreeInit] at ht
      simp only [locked] at h
      obtain ⟨kc1, h1, h⟩ := bind_eq_ok.1 h
      cases h
      have hex := treeInit_exact h1
      obtain ⟨keys, -, rfl⟩ := treeInit_ok h1
      refine ⟨kc.reportShares.length, le_rfl, ?_, ?_⟩
      · show Spec.FrontierExact P kc.inputLen ((kc.reportShares.map Prod.snd).take _) _
        rw [List.take_of_length_le (by simp)]; exact hex
      · obtain ⟨m, hm, hp⟩ := hi.prev
        exact ⟨m, le_trans hm hi.le, hp⟩

theorem handle_running {cfg : ServerCfg} {s : Server P} {req : Req} {kc' : KeyCollection P}
    (h : (s.handle cfg req).1 = .running kc') :
    ∃ kc, s = .running kc ∧ (kc' = kc ∨ ∃ r, locked cfg kc req = .ok (kc', r)) := by
  unfold Server.handle at h
  split at h
  · exact ⟨kc', h, Or.inl rfl⟩
  · split at h
    · cases h
    · rename_i kc
      split at h
      · cases h
      · rename_i r hl
        cases h
        exact ⟨kc, rfl, Or.inr ⟨r, hl⟩⟩

/-- Induction over histories. -/
theorem run_induction {cfg : ServerCfg} (Inv : KeyCollection P → Prop) (ok : Req → Prop)
    (step : ∀ kc req kc' r, ok req → Inv kc → locked cfg kc req = .ok (kc', r) → Inv kc') :
    ∀ (reqs : List Req) (kc kc' : KeyCollection P), (∀ r ∈ reqs, ok r) → Inv kc →
      (Server.run cfg (.running kc) reqs).1 = .running kc' → Inv kc'
  | [], kc, kc', _, hi, h => by
    simp only [Server.run] at h; cases h; exact hi
  | req :: reqs, kc, kc', hok, hi, h => by
    simp only [Server.run] at h
    have : ∃ kc1, ((Server.running kc).handle cfg req).1 = .running kc1 := by
      cases hs : ((Server.running kc).handle cfg req).1 with
      | running kc1 => exact ⟨kc1, rfl⟩
      | poisoned =>
        rw [hs] at h
        have hp : ∀ rs : List Req, (Server.run (P := P) cfg .poisoned rs).1 = .poisoned := by
          intro rs
          induction rs with
          | nil => rfl
          | cons r rs ih =>
            simp only [Server.run]
            have : ((Server.poisoned : Server P).handle cfg r).1 = .poisoned := by
              unfold Server.handle; split <;> rfl
            rw [this, ih]
        rw [hp] at h; cases h
    obtain ⟨kc1, h1⟩ := this
    rw [h1] at h
    obtain ⟨kc0, e, hcase⟩ := handle_running h1
    cases e
    refine run_induction Inv ok step reqs kc1 kc' (fun r hr => hok r (by simp [hr])) ?_ h
    rcases hcase with rfl | ⟨r, hl⟩
    · exact hi
    · exact step _ _ _ _ (hok req (by simp)) hi hl

theorem reachable_inv {cfg : ServerCfg} {b : Nat} {kc : KeyCollection P}
    (h : Spec.Reachable P cfg b kc) : ∃ n0, SessionInv n0 kc := by
  obtain ⟨reqs, h⟩ := h
  exact run_induction (fun kc => ∃ n0, SessionInv n0 kc) (fun _ => True)
    (fun kc req kc' r _ hi hl => locked_inv_exists hi hl) reqs _ kc (by simp)
    ⟨0, sessionInv_start cfg b Block.zero⟩ h

/-! ### Evaluations do not depend on the inclusion flags -/

theorem makeTreeNode_congr {kcA kcB : KeyCollection P} (hn : kcB.inputLen = kcA.inputLen)
    (hsnd : kcB.reportShares.map Prod.snd = kcA.reportShares.map Prod.snd) {node a b : TreeNode}
    {dir : Bool} (ha : kcA.makeTreeNode node dir = .ok a) (hb : kcB.makeTreeNode node dir = .ok b) :
    b.path = a.path ∧ b.keyStates = a.keyStates ∧ b.keyValues = a.keyValues := by
  obtain ⟨pa, sa, va, -, ea⟩ := makeTreeNode_ok ha
  obtain ⟨pb, sb, vb, -, eb⟩ := makeTreeNode_ok hb
  have hlen : kcB.reportShares.length = kcA.reportShares.length := by
    simpa using congrArg List.length hsnd
  have hcl : ∀ i : Nat, i < kcA.reportShares.length → b.keyStates[i]? = a.keyStates[i]? ∧
      b.keyValues[i]? = a.keyValues[i]? := by
    intro i hi
    have hr := congrArg (fun l => l[i]?) hsnd
    simp only [List.getElem?_map, List.getElem?_eq_getElem hi,
      List.getElem?_eq_getElem (hlen ▸ hi), Option.map_some, Option.some.injEq] at hr
    obtain ⟨key, st, st', v, hk, hst, hev, h1, h2⟩ := ea i kcA.reportShares[i].1
      kcA.reportShares[i].2 (List.getElem?_eq_getElem hi)
    obtain ⟨key2, st2, st2', v2, hk2, hst2, hev2, h12, h22⟩ := eb i
      (kcB.reportShares[i]'(hlen ▸ hi)).1 (kcB.reportShares[i]'(hlen ▸ hi)).2
      (List.getElem?_eq_getElem (hlen ▸ hi))
    rw [hr, hk] at hk2; cases hk2
    rw [hst] at hst2; cases hst2
    rw [hn, hev] at hev2; cases hev2
    exact ⟨by rw [h1, h12], by rw [h2, h22]⟩
  refine ⟨pb.trans pa.symm, ?_, ?_⟩
  · apply List.ext_getElem?
    intro i
    by_cases hi : i < kcA.reportShares.length
    · exact (hcl i hi).1
    · rw [List.getElem?_eq_none (by omega), List.getElem?_eq_none (by omega)]
  · apply List.ext_getElem?
    intro i
    by_cases hi : i < kcA.reportShares.length
    · exact (hcl i hi).2
    · rw [List.getElem?_eq_none (by omega), List.getElem?_eq_none (by omega)]

theorem nextFrontier_congr {kcA kcB : KeyCollection P} (hn : kcB.inputLen = kcA.inputLen)
    (hsnd : kcB.reportShares.map Prod.snd = kcA.reportShares.map Prod.snd)
    (hfr : kcB.frontier = kcA.frontier) {chk chk' : Bool} {na nb : List TreeNode}
    (ha : kcA.nextFrontier chk = .ok na) (hb : kcB.nextFrontier chk' = .ok nb) :
    List.Forall₂ (fun a b => b.path = a.path ∧ b.keyStates = a.keyStates ∧
      b.keyValues = a.keyValues) na nb := by
  obtain ⟨cs, rfl, hF⟩ := nextFrontier_ok ha
  obtain ⟨cs2, rfl, hF2⟩ := nextFrontier_ok hb
  rw [hfr] at hF2
  clear ha hb hfr
  generalize kcA.frontier = fr at hF hF2
  induction hF generalizing cs2 with
  | nil => cases hF2; exact List.Forall₂.nil
  | cons hx _ ih =>
    cases hF2 with
    | cons hy hys =>
      simp only [List.flatMap_cons, List.cons_append, List.nil_append]
      exact List.Forall₂.cons (makeTreeNode_congr hn hsnd hx.1 hy.1)
        (List.Forall₂.cons (makeTreeNode_congr hn hsnd hx.2 hy.2) (ih _ hys))

theorem forall₂_map_eq {α β γ : Type} {R : α → β → Prop} {f : α → γ} {g : β → γ} {l : List α}
    {l' : List β} (h : List.Forall₂ R l l') (hR : ∀ a b, R a b → g b = f a) :
    l'.map g = l.map f := by
  induction h with
  | nil => rfl
  | cons hx _ ih => rw [List.map_cons, List.map_cons, ih, hR _ _ hx]

end Mastic
