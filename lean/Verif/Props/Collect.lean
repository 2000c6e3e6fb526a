import Verif.Lemmas.Sums
import Verif.Lemmas.ToyServer

/-!
# Properties of one collection: C20, C23, C24, C25, C28
-/

namespace Mastic

variable {P : Prims}

/-! ## C20: pruning -/

/-- C20. `tree_prune` panics iff the mask has the wrong length; otherwise it keeps exactly the marked
nodes, in order, and changes nothing else. -/
theorem C20_prune (kc : KeyCollection P) (keep : List Bool) :
    (Panics (kc.treePrune keep) ↔ keep.length ≠ kc.frontier.length) ∧
    (keep.length = kc.frontier.length →
      kc.treePrune keep = .ok { kc with frontier := Spec.select keep kc.frontier }) := by
  rw [treePrune_spec]
  refine ⟨?_, fun h => if_pos h⟩
  by_cases h : keep.length = kc.frontier.length
  · simp [h, Panics]
  · simp [h, Panics]

/-- `select` keeps a node iff its flag is set. -/
theorem C20_select_mem {α : Type} (keep : List Bool) (l : List α) (a : α) :
    a ∈ Spec.select keep l ↔ ∃ i : Nat, keep[i]? = some true ∧ l[i]? = some a := by
  unfold Spec.select
  rw [List.mem_filterMap]
  constructor
  · rintro ⟨⟨x, b⟩, hm, h⟩
    obtain ⟨i, hi⟩ := List.mem_iff_getElem?.1 hm
    cases b with
    | false => simp at h
    | true =>
      simp only [if_true, Option.some.injEq] at h
      subst h
      rw [List.getElem?_zip_eq_some] at hi
      exact ⟨i, hi.2, hi.1⟩
  · rintro ⟨i, h1, h2⟩
    exact ⟨(a, true), List.mem_iff_getElem?.2
      ⟨i, by rw [List.getElem?_zip_eq_some]; exact ⟨h2, h1⟩⟩, by simp⟩

example : Spec.select [false, true, false, true] ["a", "b", "c", "d"] = ["b", "d"] := by decide

/-! ## C23: aggregated values -/

/-- C23. Whatever happened before, the values a crawl returns are the values of the new frontier nodes,
and each is the sum of the value shares, at that node's path, of exactly the reports marked included
after the call. -/
theorem C23_crawl_values (cfg : ServerCfg) (b : Nat) (kc kc' : KeyCollection P) (bld : Build)
    (s : Nat) (ms : List Nat) (last : Bool) (r : CrawlResp) (hr : Spec.Reachable P cfg b kc)
    (h : kc.treeCrawl bld s ms last = .ok (kc', r)) :
    r.cntValues = kc'.frontier.map TreeNode.value ∧
    ∀ node ∈ kc'.frontier, Spec.NodeSum P kc'.inputLen kc'.reportShares node := by
  obtain ⟨n0, hi⟩ := reachable_inv hr
  obtain ⟨h1, h2, h3⟩ := treeCrawl_sum hi h
  exact ⟨h1, fun node hn => by rw [h2]; exact h3 node hn⟩

/-- C23. The same for the last level. -/
theorem C23_crawl_last_values (cfg : ServerCfg) (b : Nat) (kc kc' : KeyCollection P)
    (v : List (List Field128)) (hr : Spec.Reachable P cfg b kc)
    (h : kc.treeCrawlLast = .ok (kc', v)) :
    v = kc'.frontier.map TreeNode.value ∧
    ∀ node ∈ kc'.frontier, Spec.NodeSum P kc'.inputLen kc'.reportShares node := by
  obtain ⟨n0, hi⟩ := reachable_inv hr
  obtain ⟨h1, h2, h3⟩ := treeCrawlLast_sum hi h
  exact ⟨h1, fun node hn => by rw [h2]; exact h3 node hn⟩

/-- C23. Hence the two servers' values of a node add up to the sum of the reconstructed values of the
included clients, for any reports. -/
theorem C23_reconstruct (n : Nat) (reports0 reports1 : List (Bool × ReportShare))
    (node0 node1 : TreeNode) (hpath : node0.path = node1.path) (hne : node0.path ≠ [])
    (hflags : reports0.map Prod.fst = reports1.map Prod.fst)
    (h0 : Spec.NodeSum P n reports0 node0) (h1 : Spec.NodeSum P n reports1 node1) :
    ∃ rs, List.Forall₂ (fun (ab : (Nat × ReportShare) × (Nat × ReportShare)) r =>
        ab.1.1 = ab.2.1 ∧ ∃ k0 k1, Spec.keyOf ab.1.2 = some k0 ∧ Spec.keyOf ab.2.2 = some k1 ∧
          Spec.reconAt P k0 k1 n node0.path = some r)
        ((Spec.included reports0).zip (Spec.included reports1)) rs ∧
      rs.length = (Spec.included reports0).length ∧
      Spec.addShares node0.value node1.value = Spec.sumVecs (n + 1) rs := by
  obtain ⟨us, hu, e0⟩ := h0
  obtain ⟨vs, hv, e1⟩ := h1
  have hinc := included_length_aux reports0 reports1 0 hflags
  change List.Forall₂ _ (Spec.included reports0) (Spec.included reports1) at hinc
  have hlu : ∀ v ∈ us, v.length = n + 1 := by
    intro v hv'
    obtain ⟨i, hi, rfl⟩ := List.getElem_of_mem hv'
    obtain ⟨key, -, h⟩ := (List.forall₂_iff_get.1 hu).2 i (hu.length_eq ▸ hi) hi
    exact valueAt_length hne h
  have hlv : ∀ v ∈ vs, v.length = n + 1 := by
    intro v hv'
    obtain ⟨i, hi, rfl⟩ := List.getElem_of_mem hv'
    obtain ⟨key, -, h⟩ := (List.forall₂_iff_get.1 hv).2 i (hv.length_eq ▸ hi) hi
    exact valueAt_length (hpath ▸ hne) h
  have hl : us.length = vs.length := by rw [← hu.length_eq, ← hv.length_eq, hinc.length_eq]
  refine ⟨List.zipWith Spec.addShares us vs, ?_, ?_, ?_⟩
  · rw [← hpath] at hv
    clear e0 e1 hlu hlv
    generalize Spec.included reports0 = A at hu hinc
    generalize Spec.included reports1 = B at hv hinc
    induction hinc generalizing us vs with
    | nil => cases hu; simp
    | cons hab _ ih =>
      cases hu with
      | cons h1 h2 =>
        cases hv with
        | cons h3 h4 =>
          obtain ⟨k0, hk0, hv0⟩ := h1
          obtain ⟨k1, hk1, hv1⟩ := h3
          exact List.Forall₂.cons ⟨hab, k0, k1, hk0, hk1, valueAt_recon hv0 hv1⟩
            (ih _ _ (by simpa using hl) h2 h4)
  · rw [List.length_zipWith, ← hl, Nat.min_self, ← hu.length_eq]
  · rw [e0, e1, sumVecs_add hl hlu hlv]

/-! ## C24: the threshold decision -/

/-- C24. For shares of a counter `c` below `2^64`, in any splitting, the node is kept iff
`c ≥ threshold`; for larger counters only the low 64 bits are compared. -/
theorem C24_keep_iff (inputLen threshold : Nat) (cnt0 cnt1 : List (List Field128))
    (keep : List Bool) (h : keepValues inputLen threshold cnt0 cnt1 = .ok keep) :
    keep.length = min cnt0.length cnt1.length ∧
    ∀ (i : Nat) (v0 v1 : List Field128) (a b : Field128) (c : Nat),
      cnt0[i]? = some v0 → cnt1[i]? = some v1 → v0[inputLen]? = some a → v1[inputLen]? = some b →
      a + b = (c : Field128) → c < fieldModulus →
      (c < 2 ^ 64 → (keep[i]? = some true ↔ threshold ≤ c)) ∧
      (keep[i]? = some true ↔ threshold ≤ c % 2 ^ 64) := by
  unfold keepValues at h
  rw [mapE_eq_ok_iff_getElem] at h
  obtain ⟨hl, h⟩ := h
  refine ⟨by simpa using hl, ?_⟩
  intro i v0 v1 a b c hv0 hv1 ha hb hab hc
  obtain ⟨k, hk, hf⟩ := h i (v0, v1) (by rw [List.getElem?_zip_eq_some]; exact ⟨hv0, hv1⟩)
  rw [idx_eq_ok.2 ha, ok_bind, idx_eq_ok.2 hb, ok_bind] at hf
  injection hf with hf
  have hval : (a + b).val = c := by
    rw [hab, ZMod.val_natCast, Nat.mod_eq_of_lt hc]
  rw [hval] at hf
  have key : keep[i]? = some true ↔ threshold ≤ c % 2 ^ 64 := by
    rw [hk, ← hf]; simp
  refine ⟨fun hc64 => ?_, key⟩
  rw [key, Nat.mod_eq_of_lt hc64]

/-- C24. `keep_values` panics exactly when a compared share has no counter entry. -/
theorem C24_returns_iff (inputLen threshold : Nat) (cnt0 cnt1 : List (List Field128)) :
    Returns (keepValues inputLen threshold cnt0 cnt1) ↔
      ∀ v ∈ cnt0.zip cnt1, inputLen < v.1.length ∧ inputLen < v.2.length := by
  unfold keepValues
  rw [mapE_returns_iff]
  refine forall₂_congr fun v _ => ?_
  by_cases h1 : inputLen < v.1.length
  · rw [idx_eq_ok_of_lt h1, ok_bind]
    by_cases h2 : inputLen < v.2.length
    · rw [idx_eq_ok_of_lt h2, ok_bind]
      simp [h1, h2, Returns]
    · rw [idx_error_of_ge (by omega)]
      simp [h2, Returns]
  · rw [idx_error_of_ge (by omega)]
    simp [h1, Returns]

/-- the shares `7` and `-4` of the counter 3 -/
example : keepValues 1 3 [[5, 7]] [[0, -4]] = .ok [true] := by decide +kernel
/-- a counter of `2^64` counts as zero -/
example : keepValues 0 1 [[18446744073709551616]] [[0]] = .ok [false] := by decide +kernel

/-! ## C25: final reconstruction -/

/-- C25. `final_values` panics iff the two lists differ in length or in some path; otherwise it returns
in order the paths with a non-zero reconstructed counter, each with the sum of the two shares. -/
theorem C25_final_values (n : Nat) (r0 r1 : List HHResult) :
    (Returns (finalValues n r0 r1) ↔ r0.map HHResult.path = r1.map HHResult.path) ∧
    ((∀ r ∈ r0, r.value.length = n + 1) → (∀ r ∈ r1, r.value.length = n + 1) →
      r0.map HHResult.path = r1.map HHResult.path →
      finalValues n r0 r1 = .ok ((List.zipWith (fun a b =>
        ({ path := a.path, value := Spec.addShares a.value b.value } : HHResult)) r0 r1).filter
          fun r => decide (r.value[n]? ≠ some 0))) := by
  constructor
  · unfold finalValues
    constructor
    · rintro ⟨x, hx⟩
      obtain ⟨_, h1, hx⟩ := bind_eq_ok.1 hx
      obtain ⟨rs, h2, -⟩ := bind_eq_ok.1 hx
      have hl := beq_iff_eq.1 (assertE_eq_ok.1 h1)
      rw [mapE_eq_ok_iff_getElem] at h2
      apply List.ext_getElem (by simpa using hl)
      intro i hi0 hi1
      have hi0' : i < r0.length := by simpa using hi0
      have hi1' : i < r1.length := by simpa using hi1
      obtain ⟨b, -, hb⟩ := h2.2 i (r0[i], r1[i]) (by simp [hi0', hi1'])
      obtain ⟨_, hp, -⟩ := bind_eq_ok.1 hb
      simpa using beq_iff_eq.1 (assertE_eq_ok.1 hp)
    · intro h
      have hl : r0.length = r1.length := by simpa using congrArg List.length h
      have : Returns (mapE (fun (rr : HHResult × HHResult) => do
          assertE (rr.1.path == rr.2.path)
          let v := vecAdd (vecAdd (List.replicate (n + 1) 0) rr.1.value) rr.2.value
          let c ← idx v n
          (.ok (({ path := rr.1.path, value := v } : HHResult), decide (c ≠ 0)) :
            Exec (HHResult × Bool))) (r0.zip r1)) := by
        rw [mapE_returns_iff]
        rintro ⟨a, b⟩ hab
        rw [List.mem_iff_getElem?] at hab
        obtain ⟨i, hi⟩ := hab
        rw [List.getElem?_zip_eq_some] at hi
        have hp : a.path = b.path := by
          have := congrArg (fun l => l[i]?) h
          simpa [hi.1, hi.2] using this
        simp only [hp, beq_self_eq_true, assertE_true, ok_bind]
        rw [idx_eq_ok_of_lt (by simp)]
        exact ⟨_, rfl⟩
      obtain ⟨rs, hrs⟩ := this
      exact ⟨_, by rw [hl]; simp only [beq_self_eq_true, assertE_true, ok_bind]; rw [hrs]; rfl⟩
  · intro h0 h1 h
    have hl : r0.length = r1.length := by simpa using congrArg List.length h
    unfold finalValues
    rw [hl]
    simp only [beq_self_eq_true, assertE_true, ok_bind]
    rw [mapE_ok_of_forall (g := fun rr : HHResult × HHResult =>
      (({ path := rr.1.path, value := Spec.addShares rr.1.value rr.2.value } : HHResult),
        decide ((Spec.addShares rr.1.value rr.2.value)[n]? ≠ some 0)))]
    · rw [ok_bind]
      congr 1
      clear h0 h1 h
      induction r0 generalizing r1 with
      | nil => simp
      | cons a r0 ih =>
        cases r1 with
        | nil => simp at hl
        | cons b r1 =>
          simp only [List.zip_cons_cons, List.map_cons, List.zipWith_cons_cons, List.filter_cons]
          split
          · rw [List.map_cons, ih r1 (by simpa using hl)]
          · exact ih r1 (by simpa using hl)
    · rintro ⟨a, b⟩ hab
      rw [List.mem_iff_getElem?] at hab
      obtain ⟨i, hi⟩ := hab
      rw [List.getElem?_zip_eq_some] at hi
      have hp : a.path = b.path := by
        have := congrArg (fun l => l[i]?) h
        simpa [hi.1, hi.2] using this
      have la := h0 a (List.mem_of_getElem? hi.1)
      have lb := h1 b (List.mem_of_getElem? hi.2)
      simp only [hp, beq_self_eq_true, assertE_true, ok_bind]
      rw [vecAdd_zero_left la, vecAdd_eq_addShares (la.trans lb.symm)]
      have hlt : n < (Spec.addShares a.value b.value).length := by
        rw [addShares_length la lb]; omega
      rw [idx_eq_ok_of_lt hlt, ok_bind, List.getElem?_eq_getElem hlt]
      simp

example : finalValues 1 [⟨[true], [3, 4]⟩, ⟨[false], [1, 5]⟩] [⟨[true], [2, -3]⟩, ⟨[false], [1, -5]⟩]
    = .ok [⟨[true], [5, 1]⟩] := by decide +kernel

/-! ## C28: retrying a crawl -/

/-- C28. Crawling again with suspects (not the final retry) repeats the level: there is one list of
check digests from which both answers' Merkle roots are computed, the values are the same and the
state after the retry is the state after the first crawl.  The retry fails only if computing its
Merkle roots fails. -/
theorem C28_retry_same_level (bld : Build) (kc kc1 : KeyCollection P) (s s' : Nat)
    (ms ms' : List Nat) (last : Bool) (r1 : CrawlResp) (hms : ms' ≠ [])
    (h : kc.treeCrawl bld s ms last = .ok (kc1, r1)) :
    ∃ digests : List Block,
      merkleRoots P digests s ms last = .ok (r1.roots.zip r1.indices) ∧
      (∀ p, merkleRoots P digests s' ms' false = .error p →
        kc1.treeCrawl bld s' ms' false = .error p) ∧
      (∀ rs, merkleRoots P digests s' ms' false = .ok rs →
        kc1.treeCrawl bld s' ms' false
          = .ok (kc1, ⟨r1.cntValues, rs.map Prod.fst, rs.map Prod.snd⟩)) := by
  obtain ⟨kcA, next, digests, rs, hp, hl, hm, rfl, rfl⟩ := treeCrawl_ok h
  refine ⟨digests, ?_, ?_⟩
  · rw [hm]
    congr 1
    simp only [List.zip_map', Prod.mk.eta, List.map_id']
  · have hprep : ({ kcA with prevFrontier := kcA.frontier, frontier := next } :
        KeyCollection P).crawlPrep ms' false
        = .ok { kcA with prevFrontier := kcA.frontier } := by
      unfold KeyCollection.crawlPrep
      have : ms'.isEmpty = false := by simpa using hms
      simp [this]
    have hlev : ({ kcA with prevFrontier := kcA.frontier } : KeyCollection P).crawlLevel bld
        = .ok (next, digests) := hl
    constructor
    · intro p hp
      unfold KeyCollection.treeCrawl
      rw [hprep, ok_bind, hlev, ok_bind]
      dsimp only
      rw [hp]; rfl
    · intro rs hrs
      unfold KeyCollection.treeCrawl
      rw [hprep, ok_bind, hlev, ok_bind]
      dsimp only
      rw [hrs]; rfl

/-- C28. The final retry (with exclusions) still visits the same nodes with the same per-client states
and values; only the aggregated values change. -/
theorem C28_final_retry (bld : Build) (kc kc1 kc2 : KeyCollection P) (s s' : Nat)
    (ms ms' : List Nat) (last : Bool) (r1 r2 : CrawlResp) (hms : ms' ≠ [])
    (h : kc.treeCrawl bld s ms last = .ok (kc1, r1))
    (h' : kc1.treeCrawl bld s' ms' true = .ok (kc2, r2)) :
    kc2.frontier.map TreeNode.path = kc1.frontier.map TreeNode.path ∧
    kc2.frontier.map TreeNode.keyStates = kc1.frontier.map TreeNode.keyStates ∧
    kc2.frontier.map TreeNode.keyValues = kc1.frontier.map TreeNode.keyValues ∧
    kc2.prevFrontier = kc1.prevFrontier := by
  obtain ⟨kcA, next, digests, rs, hp, hl, hm, rfl, rfl⟩ := treeCrawl_ok h
  obtain ⟨kcB, next2, digests2, rs2, hp2, hl2, hm2, rfl, rfl⟩ := treeCrawl_ok h'
  obtain ⟨reports, fr, rfl, hsnd, -, hfr, -⟩ := crawlPrep_ok hp2
  simp only [if_neg hms] at hfr
  subst hfr
  obtain ⟨-, hn⟩ := crawlLevel_ok hl
  obtain ⟨-, hn2⟩ := crawlLevel_ok hl2
  have hF := nextFrontier_congr (kcA := kcA) (kcB := { kcA with reportShares := reports })
    rfl hsnd rfl hn hn2
  exact ⟨forall₂_map_eq hF fun a b h => h.1, forall₂_map_eq hF fun a b h => h.2.1,
    forall₂_map_eq hF fun a b h => h.2.2, rfl⟩

/-- The hypotheses of C23 and C28: a crawl, a retry with a suspect and a final retry that excludes it. -/
example : ∃ (kc kc1 kc2 kc3 : KeyCollection toy) (r1 r2 r3 : CrawlResp),
    Spec.Reachable toy (toyCfg 0 (some 2) .debug) 2 kc ∧ kc.treeCrawl .debug 1 [] false = .ok (kc1, r1) ∧
    kc1.treeCrawl .debug 1 [0] false = .ok (kc2, r2) ∧ kc2.treeCrawl .debug 1 [0] true = .ok (kc3, r3) ∧
    r1.cntValues.length = 2 ∧ r1.cntValues ≠ r3.cntValues ∧ kc3.reportShares.map Prod.fst = [false, true] := by
  have h : (do
    let rs ← toyShares
    let kc ← (toyHolding rs).treeInit
    let (kc1, r1) ← kc.treeCrawl .debug 1 [] false
    let (kc2, r2) ← kc1.treeCrawl .debug 1 [0] false
    let (kc3, r3) ← kc2.treeCrawl .debug 1 [0] true
    .ok (r1.cntValues.length, decide (r1.cntValues = r3.cntValues), kc3.reportShares.map Prod.fst)) =
    .ok (2, false, [false, true]) := by decide +kernel
  obtain ⟨rs, -, h⟩ := bind_eq_ok.1 h
  obtain ⟨kc, h0, h⟩ := bind_eq_ok.1 h
  obtain ⟨⟨kc1, r1⟩, h1, h⟩ := bind_eq_ok.1 h
  obtain ⟨⟨kc2, r2⟩, h2, h⟩ := bind_eq_ok.1 h
  obtain ⟨⟨kc3, r3⟩, h3, h⟩ := bind_eq_ok.1 h
  simp only [Except.ok.injEq, Prod.mk.injEq, decide_eq_false_iff_not] at h
  refine ⟨kc, kc1, kc2, kc3, r1, r2, r3, ⟨[.addReportShares rs, .treeInit], ?_⟩, h1, h2, h3, h⟩
  simp only [Server.run, Server.start, Server.handle, preLock, locked, srvAdd_eq]
  have : ({ KeyCollection.new toy 2 (toyCfg 0 (some 2) .debug).serverId (toyCfg 0 (some 2) .debug).dataBits Block.zero
    with reportShares := (KeyCollection.new toy 2 (toyCfg 0 (some 2) .debug).serverId (toyCfg 0 (some 2) .debug).dataBits
      Block.zero).reportShares ++ rs.map fun r => (true, r) } : KeyCollection toy) = toyHolding rs := rfl
  rw [this, h0]
  rfl

/-- The hypotheses of `C23_crawl_last_values`. -/
example : ∃ (kc kc' : KeyCollection toy) (v : List (List Field128)),
    Spec.Reachable toy (toyCfg 0 (some 2) .debug) 2 kc ∧ kc.treeCrawlLast = .ok (kc', v) ∧ v.length = 4 := by
  have h : (do
    let rs ← toyShares
    let kc ← (toyHolding rs).treeInit
    let (kc1, r1) ← kc.treeCrawl .debug 1 [] false
    let (kc2, v) ← kc1.treeCrawlLast
    .ok v.length) = .ok 4 := by decide +kernel
  obtain ⟨rs, -, h⟩ := bind_eq_ok.1 h
  obtain ⟨kc, h0, h⟩ := bind_eq_ok.1 h
  obtain ⟨⟨kc1, r1⟩, h1, h⟩ := bind_eq_ok.1 h
  obtain ⟨⟨kc2, v⟩, h2, h⟩ := bind_eq_ok.1 h
  simp only [Except.ok.injEq] at h
  refine ⟨kc1, kc2, v, ⟨[.addReportShares rs, .treeInit, .treeCrawl 1 [] false], ?_⟩, h2, h⟩
  simp only [Server.run, Server.start, Server.handle, preLock, locked, srvAdd_eq]
  have : ({ KeyCollection.new toy 2 (toyCfg 0 (some 2) .debug).serverId (toyCfg 0 (some 2) .debug).dataBits Block.zero
    with reportShares := (KeyCollection.new toy 2 (toyCfg 0 (some 2) .debug).serverId (toyCfg 0 (some 2) .debug).dataBits
      Block.zero).reportShares ++ rs.map fun r => (true, r) } : KeyCollection toy) = toyHolding rs := rfl
  rw [this, h0]
  simp only [ok_bind]
  rw [show (toyCfg 0 (some 2) .debug).build = .debug from rfl, h1]
  rfl

end Mastic
