import Verif.Lemmas.Batch
import Verif.Lemmas.History
import Verif.Lemmas.Toy
import Verif.Lemmas.Prg

/-!
# Properties of the driver's upload, batching and printing: C50, C51, C52, C53, C54, C55
-/

namespace Mastic

variable {P : Prims}

/-! ## C50: batching -/

/-- C50. For batch sizes of at least 1 the upload loop ends, every batch is non-empty and not larger
than the batch size, and the batches put together are all clients in order. -/
theorem C50_upload_batches (b : Nat) (hb : 1 ≤ b) {α : Type} (clients : List α) :
    ∃ sizes, uploadBatches b clients.length clients.length = .ok sizes ∧
      sizes.sum = clients.length ∧ (∀ s ∈ sizes, 1 ≤ s ∧ s ≤ b) ∧
      (splitBatches sizes clients).map List.length = sizes ∧
      (splitBatches sizes clients).flatten = clients := by
  obtain ⟨sizes, e, hs, hm⟩ := uploadBatches_spec hb clients.length clients.length le_rfl
  exact ⟨sizes, e, hs, hm, splitBatches_lengths _ _ hs, splitBatches_flatten _ _ hs⟩

/-- C50. The ranges of the FLP and proof-comparison loops cut `[0, n)` into consecutive pieces. -/
theorem C50_query_ranges (n b : Nat) (hb : 1 ≤ b) :
    ∃ rs, whileRanges n b n 0 = .ok rs ∧ Spec.Partitions n rs ∧ ∀ r ∈ rs, r.2 ≤ r.1 + b := by
  obtain ⟨rs, e, hm, hf⟩ := whileRanges_spec (n := n) hb n 0 (by omega)
  refine ⟨rs, e, ⟨fun r hr => ⟨(hm r hr).1, (hm r hr).2.1⟩, ?_⟩, fun r hr => (hm r hr).2.2⟩
  rw [hf, Nat.sub_zero, List.range_eq_range']

/-- C50. So do the ranges of the two metrics modes. -/
theorem C50_metrics_ranges (n b : Nat) (hb : 1 ≤ b) :
    ∃ rs, stepByRanges n b = .ok rs ∧ Spec.Partitions n rs ∧ ∀ r ∈ rs, r.2 ≤ r.1 + b :=
  stepByRanges_spec hb

/-- C50. With batch size 0 the upload loop and the query loops run for ever (no number of iterations is
enough) and the metrics modes panic. -/
theorem C50_zero_batch (n fuel : Nat) (hn : 0 < n) :
    uploadBatches 0 fuel n = .error .outOfFuel ∧ whileRanges n 0 fuel 0 = .error .outOfFuel ∧
      Panics (stepByRanges n 0) := by
  obtain ⟨m, rfl⟩ : ∃ m, n = m + 1 := ⟨n - 1, by omega⟩
  exact ⟨uploadBatches_zero fuel m, whileRanges_zero hn fuel, .zeroChunk, by simp [stepByRanges]⟩

/-- Seven clients in batches of three. -/
example : uploadBatches 3 7 7 = .ok [3, 3, 1] ∧ whileRanges 7 3 7 0 = .ok [(0, 3), (3, 6), (6, 7)] ∧
    stepByRanges 7 3 = .ok [(0, 3), (3, 6), (6, 7)] := by decide +kernel

/-! ## C51: matching shares -/

theorem sharesOf_toShares (r : PlaintextReport) : Spec.SharesOf r r.toShares.1 r.toShares.2 := by
  cases r with
  | mastic n ks ps jr a => exact ⟨rfl, _, rfl, rfl⟩
  | prio3 n pub inp => exact ⟨rfl, _, rfl, rfl⟩

theorem bumpHead_length {p p' : List Field128} (h : bumpHead p = .ok p') : p'.length = p.length := by
  cases p with
  | nil => cases h
  | cons x xs => simp only [bumpHead, Except.ok.injEq] at h; rw [← h]; simp

theorem flipHead_length {p p' : List Byte} (h : flipHead p = .ok p') : p'.length = p.length := by
  cases p with
  | nil => cases h
  | cons x xs => simp only [flipHead, Except.ok.injEq] at h; rw [← h]; rfl

theorem pickShares_ok {reports : List PlaintextReport} {pick : Nat × Option Tamper}
    {sh : ReportShare × ReportShare} (h : pickShares reports pick = .ok sh) :
    1 ≤ pick.1 ∧ ∃ r, reports[pick.1 - 1]? = some r ∧ Spec.SharesOf r sh.1 sh.2 ∧
      (pick.2 = none → sh = r.toShares) := by
  unfold pickShares at h
  split at h
  · cases h
  · rename_i h0
    obtain ⟨r, hr, h⟩ := bind_eq_ok.1 h
    refine ⟨by omega, r, idx_eq_ok.1 hr, ?_⟩
    cases ht : pick.2 with
    | none =>
      rw [ht] at h
      simp only [Except.ok.injEq] at h
      subst h
      exact ⟨sharesOf_toShares r, fun _ => rfl⟩
    | some t =>
      rw [ht] at h
      obtain ⟨s1, hs, h⟩ := bind_eq_ok.1 h
      simp only [Except.ok.injEq] at h
      subst h
      refine ⟨?_, fun h => by cases h⟩
      cases r with
      | mastic n ks ps jr a =>
        cases t with
        | key =>
          simp only [PlaintextReport.toShares, tamperShare, Except.ok.injEq] at hs
          subst hs
          exact ⟨rfl, _, rfl, rfl⟩
        | flp =>
          simp only [PlaintextReport.toShares, tamperShare] at hs
          obtain ⟨p, hp, hs⟩ := bind_eq_ok.1 hs
          simp only [Except.ok.injEq] at hs
          subst hs
          exact ⟨rfl, p, bumpHead_length hp, rfl⟩
      | prio3 n pub inp =>
        simp only [PlaintextReport.toShares, tamperShare] at hs
        obtain ⟨p, hp, hs⟩ := bind_eq_ok.1 hs
        simp only [Except.ok.injEq] at hs
        subst hs
        exact ⟨rfl, p, flipHead_length hp, rfl⟩

theorem addReports_foldE {reports : List PlaintextReport} : ∀ (bs : List (List (Nat × Option Tamper)))
    (kcs : Pair2 P), foldE (addReports reports) kcs bs
      = (mapE (pickShares reports) bs.flatten >>= fun sh =>
          .ok (srvAddReportShares kcs.1 (sh.map Prod.fst),
            srvAddReportShares kcs.2 (sh.map Prod.snd)))
  | [], kcs => rfl
  | b :: bs, kcs => by
    rw [foldE_cons, List.flatten_cons, mapE_append]
    unfold addReports
    cases h : mapE (pickShares reports) b with
    | error p => rfl
    | ok sh =>
      simp only [ok_bind]
      rw [show (foldE (fun kcs picks => do
            let sh ← mapE (pickShares reports) picks
            .ok (srvAddReportShares kcs.1 (sh.map Prod.fst), srvAddReportShares kcs.2 (sh.map Prod.snd)))
          (srvAddReportShares kcs.1 (sh.map Prod.fst), srvAddReportShares kcs.2 (sh.map Prod.snd)) bs)
        = foldE (addReports reports) (srvAddReportShares kcs.1 (sh.map Prod.fst),
            srvAddReportShares kcs.2 (sh.map Prod.snd)) bs from rfl, addReports_foldE bs]
      cases h2 : mapE (pickShares reports) bs.flatten with
      | error p => rfl
      | ok sh2 =>
        simp only [ok_bind, srvAdd_eq, List.map_append, List.append_assoc]

/-- The upload as one map over the clients, whatever the batch size. -/
theorem upload_eq (cfg : Config) (hb : 1 ≤ cfg.addBatch) (reports : List PlaintextReport)
    (kcs : Pair2 P) (picks : List (Nat × Option Tamper)) :
    upload cfg reports kcs picks = (mapE (pickShares reports) picks >>= fun sh =>
      .ok (srvAddReportShares kcs.1 (sh.map Prod.fst),
        srvAddReportShares kcs.2 (sh.map Prod.snd))) := by
  obtain ⟨sizes, e, hs, -⟩ := uploadBatches_spec hb picks.length picks.length le_rfl
  unfold upload
  rw [e, ok_bind, addReports_foldE, splitBatches_flatten _ _ hs]

/-- C51. After the upload each server holds, behind whatever it held before, exactly one share per
client, all marked included; the shares at equal positions belong to the report that client picked. -/
theorem C51_matching_shares (cfg : Config) (hb : 1 ≤ cfg.addBatch) (reports : List PlaintextReport)
    (kcs kcs' : Pair2 P) (picks : List (Nat × Option Tamper))
    (h : upload cfg reports kcs picks = .ok kcs') :
    ∃ sh : List (ReportShare × ReportShare), sh.length = picks.length ∧
      kcs'.1.reportShares = kcs.1.reportShares ++ sh.map (fun s => (true, s.1)) ∧
      kcs'.2.reportShares = kcs.2.reportShares ++ sh.map (fun s => (true, s.2)) ∧
      List.Forall₂ (fun (pick : Nat × Option Tamper) s => ∃ r, 1 ≤ pick.1 ∧
        reports[pick.1 - 1]? = some r ∧ Spec.SharesOf r s.1 s.2 ∧
        (pick.2 = none → s = r.toShares)) picks sh := by
  rw [upload_eq cfg hb] at h
  obtain ⟨sh, hm, h⟩ := bind_eq_ok.1 h
  simp only [Except.ok.injEq] at h
  subst h
  refine ⟨sh, mapE_length hm, by simp [srvAdd_eq], by simp [srvAdd_eq], ?_⟩
  refine (mapE_eq_ok.1 hm).imp fun a b hab => ?_
  obtain ⟨h1, r, h2, h3, h4⟩ := pickShares_ok hab
  exact ⟨r, h1, h2, h3, h4⟩

/-- C51. The batch size (at least 1) makes no difference. -/
theorem C51_batch_independent (cfg cfg' : Config) (hb : 1 ≤ cfg.addBatch) (hb' : 1 ≤ cfg'.addBatch)
    (reports : List PlaintextReport) (kcs : Pair2 P) (picks : List (Nat × Option Tamper)) :
    upload cfg reports kcs picks = upload cfg' reports kcs picks := by
  rw [upload_eq cfg hb, upload_eq cfg' hb']

/-- C51. The upload returns whenever the Zipf samples are within `1..=reports.len()` and nobody
tampers. -/
theorem C51_upload_returns (cfg : Config) (hb : 1 ≤ cfg.addBatch) (reports : List PlaintextReport)
    (kcs : Pair2 P) (samples : List Nat) (h : ∀ s ∈ samples, 1 ≤ s ∧ s ≤ reports.length) :
    Returns (upload cfg reports kcs (samples.map fun s => (s, none))) := by
  rw [upload_eq cfg hb]
  have : Returns (mapE (pickShares reports) (samples.map fun s => (s, (none : Option Tamper)))) := by
    have : mapE (pickShares reports) (samples.map fun s => (s, (none : Option Tamper)))
        = .ok (samples.map fun s => match reports[s - 1]? with
          | some r => r.toShares
          | none => (.prio3 Block.zero [] [], .prio3 Block.zero [] [])) := by
      rw [mapE_map]
      refine mapE_ok_of_forall fun s hs => ?_
      obtain ⟨h1, h2⟩ := h s hs
      have h3 : s - 1 < reports.length := by omega
      simp only [pickShares, if_neg (show ¬ s = 0 by omega), idx_eq_ok_of_lt h3, ok_bind,
        List.getElem?_eq_getElem h3]
    exact ⟨_, this⟩
  obtain ⟨sh, hsh⟩ := this
  exact ⟨_, by rw [hsh, ok_bind]⟩

example : (toyPair 2 2 [([true, false], 1), ([false, false], 0), ([true, true], 1)]).toOption.map
    (fun kcs => (kcs.1.reportShares.length, kcs.2.reportShares.length)) = some (3, 3) := by
  decide +kernel

/-! ## C52: simulated tampering -/

/-- C52. The "malicious key" option leaves a Mastic share exactly as it was. -/
theorem C52_false_key_tampering_is_noop (nonce : Block) (k : VidpfKey) (p : List Field128)
    (jr : Block × Block) :
    tamperShare .key (.mastic nonce k p jr) = .ok (.mastic nonce k p jr) := rfl

/-- C52. So an upload in which some clients "tamper with the key" is the upload without tampering,
for reports of the Mastic kind. -/
theorem C52_false_upload_unchanged (cfg : Config) (hb : 1 ≤ cfg.addBatch)
    (reports : List PlaintextReport)
    (hm : ∀ r ∈ reports, ∃ n ks ps jr a, r = .mastic n ks ps jr a) (kcs : Pair2 P)
    (samples : List (Nat × Bool)) :
    upload cfg reports kcs (samples.map fun s => (s.1, if s.2 then some .key else none))
      = upload cfg reports kcs (samples.map fun s => (s.1, none)) := by
  rw [upload_eq cfg hb, upload_eq cfg hb, mapE_map, mapE_map]
  congr 1
  refine mapE_congr fun s _ => ?_
  unfold pickShares
  simp only
  split
  · rfl
  · cases hi : idx reports (s.1 - 1) with
    | error p => rfl
    | ok r =>
      simp only [ok_bind]
      obtain ⟨n, ks, ps, jr, a, rfl⟩ := hm r (List.mem_of_getElem? (idx_eq_ok.1 hi))
      cases s.2 <;> rfl

/-- C52. Even if the flip `key[0] ^= 1` were applied to the share's own root seed, every evaluation of
the key would be unchanged, because seed expansion masks the two lowest bits of byte 0. -/
theorem C52_false_flip_is_masked (bld : Build) (key : VidpfKey) (index : List Bool) (pi : Block)
    (n : Nat) :
    { key with rootSeed := key.rootSeed.set 0 (key.rootSeed[0] ^^^ 1) }.eval P bld index pi n
      = key.eval P bld index pi n := by
  refine eval_rootSeed_congr P bld key _ ?_ index pi n
  unfold maskKey
  ext i hi
  by_cases h : i = 0
  · subst h
    have hb : ∀ b : Byte, (b ^^^ 1) &&& 252#8 = b &&& 252#8 := by decide +kernel
    have := hb key.rootSeed[0]
    simp_all [Vector.getElem_set_self]
  · simp [Vector.getElem_set_ne _ _ (Ne.symm h)]

/-! ## C53: printing -/

/-- **C53 (partial).** What the driver prints: exactly the results whose last histogram bucket is non-zero.  (Missing: the
others, `C53_false_not_all_printed`.) -/
theorem C53_printed_partial (n : Nat) (hn : 1 ≤ n) (results : List HHResult)
    (hl : ∀ r ∈ results, r.value.length = n + 1) :
    printed n results = .ok (results.filter fun r => decide (r.value[n - 1]? ≠ some 0)) := by
  unfold printed
  rw [mapE_ok_of_forall (g := fun r : HHResult => (r, decide (r.value[n - 1]? ≠ some 0)))]
  · simp only [ok_bind]
    congr 1
    induction results with
    | nil => rfl
    | cons r rs ih =>
      have ih := ih fun x hx => hl x (List.mem_cons_of_mem _ hx)
      simp only [List.map_cons, List.filter_cons]
      split <;> simp_all
  · intro r hr
    have h1 : n - 1 < r.value.length := by rw [hl r hr]; omega
    simp only [if_neg (show ¬ n = 0 by omega), idx_eq_ok_of_lt h1, ok_bind,
      List.getElem?_eq_getElem h1, Option.some.injEq, ne_eq]

/-- C53. With two or more buckets there are heavy hitters - any count, here 5 - that are found but not
printed: those without weight in the last bucket. -/
theorem C53_false_not_all_printed (n : Nat) (hn : 2 ≤ n) (path : List Bool) :
    let r : HHResult := { path, value := (List.replicate n 0).set 0 5 ++ [5] }
    r.value.length = n + 1 ∧ r.value[n]? = some 5 ∧
      finalValues n [r] [{ path, value := List.replicate (n + 1) 0 }] = .ok [r] ∧
      printed n [r] = .ok [] := by
  intro r
  have hl : r.value.length = n + 1 := by simp [r]
  have h5 : (5 : Field128) ≠ 0 := by decide
  have hc : r.value[n]? = some 5 := by
    simp only [r]
    rw [List.getElem?_append_right (by simp)]; simp
  refine ⟨hl, hc, ?_, ?_⟩
  · unfold finalValues
    have hv : vecAdd (vecAdd (List.replicate (n + 1) 0) r.value) (List.replicate (n + 1) 0)
        = r.value := by
      rw [vecAdd_zero_right, vecAdd_zero_left hl]
    have hm : mapE (fun (rr : HHResult × HHResult) => do
        assertE (rr.1.path == rr.2.path)
        let v := vecAdd (vecAdd (List.replicate (n + 1) 0) rr.1.value) rr.2.value
        let c ← idx v n
        .ok (({ path := rr.1.path, value := v } : HHResult), decide (c ≠ 0)))
        ([r].zip [{ path, value := List.replicate (n + 1) 0 }]) = .ok [(r, true)] := by
      refine mapE_eq_ok.2 (.cons ?_ .nil)
      simp only [hv, idx_eq_ok.2 hc, ok_bind]
      simp [r, h5, assertE]
    simp only [List.length_cons, List.length_nil, beq_self_eq_true, assertE_true, ok_bind, hm]
    rfl
  · rw [C53_printed_partial n (by omega) _ (by simpa using hl)]
    have : r.value[n - 1]? = some 0 := by
      simp only [r]
      rw [List.getElem?_append_left (by simp; omega),
        List.getElem?_set_ne (by omega), List.getElem?_replicate]
      simp; omega
    simp [this]

example : printed 2 [⟨[true], [0, 3, 3]⟩, ⟨[false], [4, 0, 4]⟩] = .ok [⟨[true], [0, 3, 3]⟩] := by decide +kernel

/-! ## C54: attribute sampling -/

/-- C54. A sample equal to the number of reports - which is in the Zipf range - panics. -/
theorem C54_false_largest_sample_panics (reports : List PlaintextReport) (samples : List Nat)
    (h : reports.length ∈ samples) : Panics (sampleAttributes reports samples) := by
  refine mapE_error_of_mem h ?_
  exact ⟨_, by rw [idx_error_of_ge le_rfl]; rfl⟩

/-- **C54 (partial).** (Missing: the largest sample, `C54_false_largest_sample_panics`.)  Samples in the
Zipf range never select the first report; the selection returns iff no sample is the largest one (for reports of the Mastic kind). -/
theorem C54_sampling_partial (reports : List PlaintextReport)
    (hm : ∀ r ∈ reports, ∃ a, r.unwrapAlpha = .ok a) (samples : List Nat)
    (hs : ∀ s ∈ samples, 1 ≤ s ∧ s ≤ reports.length) :
    (Returns (sampleAttributes reports samples) ↔ reports.length ∉ samples) ∧
    ∀ attrs, sampleAttributes reports samples = .ok attrs → ∀ a ∈ attrs,
      ∃ (i : Nat) (r : PlaintextReport), 1 ≤ i ∧ reports[i]? = some r ∧ r.unwrapAlpha = .ok a := by
  constructor
  · constructor
    · intro h hmem
      obtain ⟨p, hp⟩ := C54_false_largest_sample_panics reports samples hmem
      obtain ⟨a, ha⟩ := h
      rw [ha] at hp; cases hp
    · intro h
      have : ∀ l : List Nat, (∀ s ∈ l, s < reports.length) →
          Returns (sampleAttributes reports l) := by
        intro l hl
        induction l with
        | nil => exact ⟨[], rfl⟩
        | cons s l ih =>
          obtain ⟨as, has⟩ := ih fun x hx => hl x (List.mem_cons_of_mem _ hx)
          have h1 := hl s (by simp)
          obtain ⟨a, ha⟩ := hm _ (List.getElem_mem h1)
          refine ⟨a :: as, ?_⟩
          unfold sampleAttributes at has ⊢
          rw [mapE_cons, idx_eq_ok_of_lt h1, ok_bind, ha, ok_bind, has]; rfl
      refine this samples fun s hs' => ?_
      have := (hs s hs').2
      have h2 : s ≠ reports.length := fun e => h (e ▸ hs')
      omega
  · intro attrs hat a ha
    have := mapE_eq_ok.1 hat
    obtain ⟨i, hi⟩ := List.mem_iff_getElem?.1 ha
    have hil : i < attrs.length := (List.getElem?_eq_some_iff.1 hi).1
    have hil' : i < samples.length := by rw [this.length_eq]; exact hil
    have h1 := mapE_getElem hat i hil' hil
    obtain ⟨r, hr, h2⟩ := bind_eq_ok.1 h1
    refine ⟨samples[i], r, (hs _ (List.getElem_mem hil')).1, idx_eq_ok.1 hr, ?_⟩
    rw [h2]
    rw [List.getElem?_eq_getElem hil] at hi
    cases hi; rfl

example : ∃ reports : List PlaintextReport, reports.length = 2 ∧
    (∀ r ∈ reports, ∃ a, r.unwrapAlpha = .ok a) := by
  refine ⟨[.mastic Block.zero (VidpfKey.gen toy (Block.zero, Block.zero) [true] [1]) ([], [])
      (Block.zero, Block.zero) [true],
    .mastic Block.zero (VidpfKey.gen toy (Block.zero, Block.zero) [false] [1]) ([], [])
      (Block.zero, Block.zero) [false]], rfl, ?_⟩
  intro r hr
  simp only [List.mem_cons, List.not_mem_nil, or_false] at hr
  rcases hr with rfl | rfl
  · exact ⟨_, rfl⟩
  · exact ⟨_, rfl⟩

/-! ## C55: sharing of the proof -/

/-- C55. The two proof shares add up to the proof. -/
theorem C55_shares_add_up (proof : List Field128) (rand : Nat → Field128) :
    Spec.addShares (shareProof proof rand).1 (shareProof proof rand).2 = proof := by
  refine List.ext_getElem (by simp [Spec.addShares, shareProof]) fun i h1 h2 => ?_
  simp [Spec.addShares, shareProof]

/-- C55. The first share is the chosen randomness: it depends on the proof only through its length.
Every vector of that length is the first share for some randomness. -/
theorem C55_first_share_is_randomness (proof : List Field128) (rand : Nat → Field128) :
    (shareProof proof rand).1 = (List.range proof.length).map rand ∧
    (shareProof proof rand).2.length = proof.length := by
  constructor
  · refine List.ext_getElem (by simp [shareProof]) fun i h1 h2 => ?_
    simp [shareProof]
  · simp [shareProof]

/-- C55. The second share alone is independent of the proof too: for any two proofs of equal length and
any randomness there is exactly one way to choose the randomness for the other proof that gives the
same second share. -/
theorem C55_second_share_hides (proof proof' : List Field128) (hl : proof.length = proof'.length)
    (rand : Nat → Field128) :
    ∃ rand' : Nat → Field128, (shareProof proof' rand').2 = (shareProof proof rand).2 ∧
      ∀ rand'' : Nat → Field128, (shareProof proof' rand'').2 = (shareProof proof rand).2 →
        ∀ i < proof.length, rand'' i = rand' i := by
  refine ⟨fun i => proof'.getD i 0 - proof.getD i 0 + rand i, ?_, ?_⟩
  · refine List.ext_getElem (by simp [shareProof, hl]) fun i h1 h2 => ?_
    have hi : i < proof'.length := by simpa [shareProof] using h1
    have hi' : i < proof.length := by omega
    simp [shareProof, List.getD_eq_getElem?_getD, hi, hi']
    ring
  · intro rand'' h i hi
    have hi' : i < proof'.length := by omega
    have h1 := congrArg (fun l => l.getD i 0) h
    simp [shareProof, List.getD_eq_getElem?_getD, hi, hi'] at h1
    simp only [List.getD_eq_getElem?_getD, List.getElem?_eq_getElem hi,
      List.getElem?_eq_getElem hi', Option.getD_some]
    linear_combination -h1

example : shareProof [7, 9] (fun i => if i = 0 then 3 else 11) = ([3, 11], [4, -2]) := by
  decide +kernel

end Mastic
