import Verif.Lemmas.PmRun
import Verif.Props.Metrics

/-!
# C64: whole plain-metrics runs with misbehaving clients
-/

namespace Mastic

variable {P : Prims}

/-- **C64.**  A whole plain-metrics run on arbitrary reports that both servers prepare: per batch, in order, the driver
prints the number of rejected reports of the batch and the unsharded sums of the output shares of the others, and panics
at the first batch in which the two servers reject different numbers of reports or unsharding fails.  Nothing else of
the servers' states matters. -/
theorem C64_runs {c0 c1 : ServerCfg} {b0 b1 : Nat} {cfg : Config} {kcs : Pair2 P} {clients : List Spec.PmClient}
    (hr0 : Spec.Reachable P c0 b0 kcs.1) (hr1 : Spec.Reachable P c1 b1 kcs.2)
    (hrt : Spec.SharesRead P cfg.histBuckets)
    (h0 : c0.serverId = 0) (h1 : 0 < c1.serverId)
    (hn0 : kcs.1.inputLen = cfg.histBuckets) (hn1 : kcs.2.inputLen = cfg.histBuckets)
    (hok : P.prio3Ok cfg.histBuckets = true) (hb : 1 ≤ cfg.queryBatch)
    (hl0 : kcs.1.reportShares.length = clients.length) (hl1 : kcs.2.reportShares.length = clients.length)
    (hp : ∀ (i : Nat) (c : Spec.PmClient) (r0 r1 : Bool × ReportShare), clients[i]? = some c →
      kcs.1.reportShares[i]? = some r0 → kcs.2.reportShares[i]? = some r1 →
      Spec.Prepared P cfg.histBuckets c1.serverId.toNat kcs.1.verifyKey kcs.2.verifyKey r0.2 r1.2 c) :
    ∃ kcs' ranges, Spec.Partitions clients.length ranges ∧ (∀ r ∈ ranges, r.2 ≤ r.1 + cfg.queryBatch) ∧
      runPm c0 c1 cfg kcs clients.length = (mapE (fun r : Nat × Nat => Spec.pmBatchOut P cfg.histBuckets
        ((clients.drop r.1).take (r.2 - r.1))) ranges).map fun outs => (kcs', outs) := by
  obtain ⟨rs, hrs, hp', hq⟩ := stepByRanges_spec (n := clients.length) hb
  obtain ⟨kcs', hl⟩ := prepared_pmLoop (cfg := cfg) (kcs := kcs) hrt h0 h1 rs
    ⟨hn0, hn1, hok, (reachable_maps hr0).2, (reachable_maps hr1).2, hl0, hl1, hp⟩ hp'.1
  refine ⟨kcs', rs, hp', hq, ?_⟩
  unfold runPm
  rw [hok, hrs]
  simpa using hl

theorem pmLoop_prepares {c0 c1 : ServerCfg} {cfg : Config} : ∀ (rs : List (Nat × Nat)) {kcs kcs' : Pair2 P}
    {outs : List PmOut}, pmLoop c0 c1 cfg rs kcs = .ok (kcs', outs) → ∀ r ∈ rs, r.1 < r.2 →
      ∀ (i : Nat), r.1 ≤ i → i < r.2 →
        (kcs.1.reportShares[i]?.bind fun br =>
          Spec.prepOf P kcs.1.inputLen c0.serverId.toNat kcs.1.verifyKey br.2).isSome ∧
        (kcs.2.reportShares[i]?.bind fun br =>
          Spec.prepOf P kcs.2.inputLen c1.serverId.toNat kcs.2.verifyKey br.2).isSome
  | [], _, _, _, _, _, hr => by simp at hr
  | r' :: rs, kcs, kcs', outs, h, r, hr => by
    intro hlt i hi1 hi2
    unfold pmLoop at h
    obtain ⟨⟨k, o⟩, hb, h⟩ := bind_eq_ok.1 h
    obtain ⟨⟨k', os⟩, hl, h⟩ := bind_eq_ok.1 h
    unfold pmBatch at hb
    obtain ⟨_, -, hb⟩ := bind_eq_ok.1 hb
    obtain ⟨⟨k0, res0⟩, v0, hb⟩ := bind_eq_ok.1 hb
    obtain ⟨_, -, hb⟩ := bind_eq_ok.1 hb
    obtain ⟨⟨k1, res1⟩, v1, hb⟩ := bind_eq_ok.1 hb
    obtain ⟨_, -, hb⟩ := bind_eq_ok.1 hb
    obtain ⟨_, -, hb⟩ := bind_eq_ok.1 hb
    obtain ⟨⟨k0', a0, r0⟩, w0, hb⟩ := bind_eq_ok.1 hb
    obtain ⟨⟨k1', a1, r1⟩, w1, hb⟩ := bind_eq_ok.1 hb
    obtain ⟨_, -, hb⟩ := bind_eq_ok.1 hb
    obtain ⟨_, -, hb⟩ := bind_eq_ok.1 hb
    cases hb
    rcases List.mem_cons.1 hr with rfl | hr
    · obtain ⟨-, -, -, f0, q0, -⟩ := pmValidate_spec hlt v0
      obtain ⟨-, -, -, f1, q1, -⟩ := pmValidate_spec hlt v1
      rw [q0 i hi1 hi2, q1 i hi1 hi2]
      exact ⟨rfl, rfl⟩
    · have ih := pmLoop_prepares rs hl r hr hlt i hi1 hi2
      have frame : ∀ {c : ServerCfg} {kc ka kb : KeyCollection P} {s e : Nat} {res pe : List (List Byte)}
          {a : List Field128} {n : Nat}, srvPmValidate c kc s e = .ok (ka, res) →
          srvPmResult c ka pe s e = .ok (kb, a, n) → kb = { kc with pmState := kb.pmState } := by
        intro c kc ka kb s e res pe a n hv hw
        unfold srvPmValidate at hv
        obtain ⟨_, -, hv⟩ := bind_eq_ok.1 hv
        obtain ⟨_, -, hv⟩ := bind_eq_ok.1 hv
        split at hv
        · cases hv
        obtain ⟨_, -, hv⟩ := bind_eq_ok.1 hv
        cases hv
        unfold srvPmResult at hw
        split at hw
        · cases hw
        obtain ⟨⟨_, _⟩, -, hw⟩ := bind_eq_ok.1 hw
        obtain ⟨_, -, hw⟩ := bind_eq_ok.1 hw
        obtain ⟨_, -, hw⟩ := bind_eq_ok.1 hw
        cases hw
        rfl
      rw [frame v0 w0, frame v1 w1] at ih
      exact ih

/-- **C64.**  One report that a server cannot prepare (not a Prio3 share, or bytes Prio3 does not decode) and the whole
run panics, in whatever batch the report is and whatever the other reports. -/
theorem C64_unprepared_panics {c0 c1 : ServerCfg} {cfg : Config} {kcs : Pair2 P} {n i : Nat} (hi : i < n)
    (h : (kcs.1.reportShares[i]?.bind fun br =>
        Spec.prepOf P kcs.1.inputLen c0.serverId.toNat kcs.1.verifyKey br.2) = none ∨
      (kcs.2.reportShares[i]?.bind fun br =>
        Spec.prepOf P kcs.2.inputLen c1.serverId.toNat kcs.2.verifyKey br.2) = none) :
    ∃ p, runPm c0 c1 cfg kcs n = .error p := by
  cases hrun : runPm c0 c1 cfg kcs n with
  | error p => exact ⟨p, rfl⟩
  | ok out =>
    exfalso
    obtain ⟨kcs', outs⟩ := out
    unfold runPm at hrun
    split at hrun
    · cases hrun
    obtain ⟨rs, hrs, hl⟩ := bind_eq_ok.1 hrun
    have hb : 1 ≤ cfg.queryBatch := by
      by_contra hb
      unfold stepByRanges at hrs
      rw [if_pos (by omega)] at hrs
      cases hrs
    obtain ⟨rs', hrs', ⟨hp1, hp2⟩, -⟩ := stepByRanges_spec (n := n) hb
    rw [hrs'] at hrs
    cases hrs
    have hmem : i ∈ rs.flatMap fun r => List.range' r.1 (r.2 - r.1) := by
      rw [hp2]; exact List.mem_range.2 hi
    obtain ⟨r, hr, hir⟩ := List.mem_flatMap.1 hmem
    have hlt := (hp1 r hr).1
    obtain ⟨j1, j2⟩ := rangeFrom_mem.1 (show i ∈ rangeFrom r.1 r.2 from hir)
    obtain ⟨g0, g1⟩ := pmLoop_prepares rs hl r hr hlt i j1 j2
    rcases h with h | h
    · rw [h] at g0; cases g0
    · rw [h] at g1; cases g1

/-- Picks a value for every position of a list. -/
theorem exists_list_idx {α β : Type} {as : List α} {R : Nat → α → β → Prop}
    (h : ∀ (i : Nat) (a : α), as[i]? = some a → ∃ x, R i a x) : ∃ xs : List β, xs.length = as.length ∧
      ∀ (i : Nat) (a : α) (x : β), as[i]? = some a → xs[i]? = some x → R i a x := by
  induction as generalizing R with
  | nil => exact ⟨[], rfl, by simp⟩
  | cons a as ih =>
    obtain ⟨x, hx⟩ := h 0 a rfl
    obtain ⟨xs, hl, hxs⟩ := ih (R := fun i => R (i + 1)) fun i a hi => h (i + 1) a (by simpa using hi)
    refine ⟨x :: xs, by simp [hl], fun i a' x' h1 h2 => ?_⟩
    cases i with
    | zero => simp at h1 h2; subst h1; subst h2; exact hx
    | succ i => exact hxs i a' x' (by simpa using h1) (by simpa using h2)

/-- The outputs of an honest client add up to its measurement, those of a rejected one are missing. -/
def OutputsOf (n : Nat) : Option Nat → Spec.PmClient → Prop
  | none, x => x = ⟨none, none⟩
  | some b, x => ∃ o0 o1, x = ⟨some o0, some o1⟩ ∧ o0.length = n ∧ o1.length = n ∧
      encodeMeasurement n b = some (Spec.addShares o0 o1)

theorem entrySum_outputs {n c : Nat} (hc : c < n) {cs : List (Option Nat)} {xs : List Spec.PmClient}
    (h : List.Forall₂ (OutputsOf n) cs xs) :
    Spec.entrySum (xs.filterMap Spec.PmClient.out0) c + Spec.entrySum (xs.filterMap Spec.PmClient.out1) c =
      (((cs.filterMap id).countP (fun b => b == c) : Nat) : Field128) := by
  induction h with
  | nil => simp [Spec.entrySum]
  | @cons a x cs xs hx _ ih =>
    cases a with
    | none =>
      cases hx
      simpa using ih
    | some b =>
      obtain ⟨o0, o1, rfl, l0, l1, he⟩ := hx
      have h1 := entrySum_add hc (O0 := fun _ => o0) (O1 := fun _ => o1) (B := fun _ => b) [0]
        (fun _ _ => ⟨l0, l1, he⟩)
      simp only [List.filterMap_cons, id_eq, List.countP_cons, Nat.cast_add]
      rw [show cs.filterMap (fun x => x) = cs.filterMap id from rfl, ← ih]
      simp only [Spec.entrySum, List.map_cons, List.map_nil, List.sum_cons, List.sum_nil, List.countP_cons,
        List.countP_nil, Nat.zero_add, add_zero] at h1 ⊢
      rw [← h1]
      ring

theorem outputs_counts {n : Nat} {cs : List (Option Nat)} {xs : List Spec.PmClient}
    (h : List.Forall₂ (OutputsOf n) cs xs) :
    xs.countP (fun c => c.out0.isNone) = cs.countP Option.isNone ∧
    xs.countP (fun c => c.out1.isNone) = cs.countP Option.isNone := by
  induction h with
  | nil => exact ⟨rfl, rfl⟩
  | @cons a x cs xs hx _ ih =>
    cases a with
    | none =>
      cases hx
      simp [ih.1, ih.2]
    | some b =>
      obtain ⟨o0, o1, rfl, -⟩ := hx
      simp [ih.1, ih.2]

theorem pmBatchOut_exact {n : Nat}
    (hun : ∀ (a b : List Field128) (m : Nat), a.length = n → b.length = n →
      P.prio3Unshard n a b m = some ((Spec.addShares a b).map ZMod.val))
    {cs : List (Option Nat)} {xs : List Spec.PmClient} (h : List.Forall₂ (OutputsOf n) cs xs)
    (hsmall : cs.length < fieldModulus) :
    Spec.pmBatchOut P n xs = .ok ⟨cs.countP Option.isNone, Spec.bucketCounts n (cs.filterMap id)⟩ := by
  unfold Spec.pmBatchOut
  rw [(outputs_counts h).1, (outputs_counts h).2, if_neg (by simp), hun _ _ _ (by simp [Spec.sumOutputs])
    (by simp [Spec.sumOutputs])]
  have : (Spec.addShares (Spec.sumOutputs n (xs.filterMap Spec.PmClient.out0))
      (Spec.sumOutputs n (xs.filterMap Spec.PmClient.out1))).map ZMod.val =
      Spec.bucketCounts n (cs.filterMap id) := by
    refine List.ext_getElem (by simp [Spec.addShares, Spec.sumOutputs, Spec.bucketCounts]) fun c g1 g2 => ?_
    have hc : c < n := by simpa [Spec.bucketCounts] using g2
    simp only [Spec.addShares, Spec.sumOutputs, Spec.bucketCounts, List.getElem_map, List.getElem_zipWith,
      List.getElem_range]
    rw [entrySum_outputs hc h]
    exact ZMod.val_cast_of_lt (lt_of_le_of_lt List.countP_le_length
      (lt_of_le_of_lt (List.length_filterMap_le _ _) hsmall))
  rw [this]

theorem prio3Complete_outputs {n helperId b : Nat} {vk0 vk1 : Block} {s0 s1 : ReportShare}
    (h : Spec.Prio3Complete P n helperId vk0 vk1 b s0 s1) :
    ∃ x, Spec.Prepared P n helperId vk0 vk1 s0 s1 x ∧ OutputsOf n (some b) x := by
  obtain ⟨x0, x1, o0, o1, q0, q1, q2, q3, q4, q5, q6⟩ := h
  refine ⟨⟨some o0, some o1⟩, ⟨x0, x1, q0, q1, q2, q3, ?_, ?_⟩, o0, o1, rfl, q4, q5, q6⟩
  · rintro o ⟨⟩; exact q4
  · rintro o ⟨⟩; exact q5

/-- **C64, with cheaters that both servers reject.**  The run completes, and for every batch the number of cheaters of
the batch and the exact bucket counts of its honest clients are printed. -/
theorem C64_exact_despite_rejected {c0 c1 : ServerCfg} {b0 b1 : Nat} {cfg : Config} {kcs : Pair2 P}
    {clients : List (Option Nat)}
    (hr0 : Spec.Reachable P c0 b0 kcs.1) (hr1 : Spec.Reachable P c1 b1 kcs.2)
    (hrt : Spec.SharesRead P cfg.histBuckets)
    (hun : ∀ (a b : List Field128) (m : Nat), a.length = cfg.histBuckets → b.length = cfg.histBuckets →
      P.prio3Unshard cfg.histBuckets a b m = some ((Spec.addShares a b).map ZMod.val))
    (hcomp : ∀ (bucket : Nat) (s0 s1 : ReportShare), s0 ∈ kcs.1.reportShares.map Prod.snd →
      Spec.HonestPrio3 P cfg.histBuckets bucket s0 s1 →
      Spec.Prio3Complete P cfg.histBuckets c1.serverId.toNat kcs.1.verifyKey kcs.2.verifyKey bucket s0 s1)
    (h0 : c0.serverId = 0) (h1 : 0 < c1.serverId)
    (hn0 : kcs.1.inputLen = cfg.histBuckets) (hn1 : kcs.2.inputLen = cfg.histBuckets)
    (hok : P.prio3Ok cfg.histBuckets = true) (hb : 1 ≤ cfg.queryBatch)
    (hsmall : clients.length < fieldModulus)
    (hp : Spec.PmPopulation P cfg.histBuckets c1.serverId.toNat kcs.1.verifyKey kcs.2.verifyKey clients
      kcs.1.reportShares kcs.2.reportShares) :
    ∃ kcs' ranges, Spec.Partitions clients.length ranges ∧ (∀ r ∈ ranges, r.2 ≤ r.1 + cfg.queryBatch) ∧
      runPm c0 c1 cfg kcs clients.length = .ok (kcs', ranges.map fun r =>
        ⟨((clients.drop r.1).take (r.2 - r.1)).countP Option.isNone,
          Spec.bucketCounts cfg.histBuckets (((clients.drop r.1).take (r.2 - r.1)).filterMap id)⟩) := by
  obtain ⟨hl0, hl1, hpop⟩ := hp
  obtain ⟨xs, hxl, hxs⟩ := exists_list_idx (as := clients) (R := fun i c x =>
    (∀ r0 r1, kcs.1.reportShares[i]? = some r0 → kcs.2.reportShares[i]? = some r1 →
      Spec.Prepared P cfg.histBuckets c1.serverId.toNat kcs.1.verifyKey kcs.2.verifyKey r0.2 r1.2 x) ∧
    OutputsOf cfg.histBuckets c x) (by
    intro i c hc
    have hi := (List.getElem?_eq_some_iff.1 hc).1
    have g0 := List.getElem?_eq_getElem (l := kcs.1.reportShares) (i := i) (by omega)
    have g1 := List.getElem?_eq_getElem (l := kcs.2.reportShares) (i := i) (by omega)
    have := hpop i c _ _ hc g0 g1
    cases c with
    | none =>
      refine ⟨⟨none, none⟩, ?_, rfl⟩
      intro r0 r1 e0 e1
      rw [g0] at e0; rw [g1] at e1
      cases e0; cases e1
      exact this
    | some b =>
      obtain ⟨x, hx1, hx2⟩ := prio3Complete_outputs
        (hcomp _ _ _ (List.mem_map_of_mem (List.mem_of_getElem? g0)) this)
      refine ⟨x, ?_, hx2⟩
      intro r0 r1 e0 e1
      rw [g0] at e0; rw [g1] at e1
      cases e0; cases e1
      exact hx1)
  have hall : List.Forall₂ (OutputsOf cfg.histBuckets) clients xs :=
    List.forall₂_iff_get.2 ⟨hxl.symm, fun i a b => (hxs i _ _ (by simp) (by simp)).2⟩
  obtain ⟨kcs', ranges, hpart, hq, hrun⟩ := C64_runs (clients := xs) hr0 hr1 hrt h0 h1 hn0 hn1 hok hb
    (by omega) (by omega) (fun i c r0 r1 hc e0 e1 => by
      have hi := (List.getElem?_eq_some_iff.1 hc).1
      exact (hxs i _ c (List.getElem?_eq_getElem (by omega)) hc).1 r0 r1 e0 e1)
  rw [hxl] at hpart hrun
  refine ⟨kcs', ranges, hpart, hq, ?_⟩
  rw [hrun]
  have : mapE (fun r : Nat × Nat => Spec.pmBatchOut P cfg.histBuckets ((xs.drop r.1).take (r.2 - r.1))) ranges =
      .ok (ranges.map fun r => ⟨((clients.drop r.1).take (r.2 - r.1)).countP Option.isNone,
        Spec.bucketCounts cfg.histBuckets (((clients.drop r.1).take (r.2 - r.1)).filterMap id)⟩) := by
    refine mapE_ok_of_forall fun r _ => ?_
    refine pmBatchOut_exact hun ?_ (lt_of_le_of_lt ?_ hsmall)
    · exact List.forall₂_take _ (List.forall₂_drop _ hall)
    · simp
  rw [this]
  rfl

/-- Two uploaded plain-metrics reports in the toy instance. -/
def toyPmServers (in0 in1 : List Byte) : Pair2 toy :=
  ({ KeyCollection.new toy 2 0 none Block.zero with
      reportShares := [(true, .prio3 Block.zero [] [5#8]), (true, .prio3 Block.zero [] in0)] },
   { KeyCollection.new toy 2 1 none Block.zero with
      reportShares := [(true, .prio3 Block.zero [] [252#8]), (true, .prio3 Block.zero [] in1)] })

/-- An honest client with bucket 1 and a cheater whose shares add up to 255: the cheater is rejected. -/
example : ∃ (kcs' : Pair2 toy) (ranges : List (Nat × Nat)), Spec.Partitions 2 ranges ∧
    runPm (toyCfg 0 none .debug) (toyCfg 1 none .release) ⟨none, 2, 1, 2, 1, 1⟩ (toyPmServers [5#8] [250#8]) 2 =
      .ok (kcs', ranges.map fun r =>
        ⟨(([some 1, none].drop r.1).take (r.2 - r.1)).countP Option.isNone,
          Spec.bucketCounts 2 ((([some 1, none].drop r.1).take (r.2 - r.1)).filterMap id)⟩) := by
  obtain ⟨kcs', ranges, h1, -, h2⟩ := C64_exact_despite_rejected (P := toy) (c0 := toyCfg 0 none .debug)
    (c1 := toyCfg 1 none .release) (b0 := 2) (b1 := 2) (cfg := ⟨none, 2, 1, 2, 1, 1⟩)
    (kcs := toyPmServers [5#8] [250#8]) (clients := [some 1, none])
    ⟨[.reset Block.zero 2, .addReportShares [.prio3 Block.zero [] [5#8], .prio3 Block.zero [] [5#8]]], rfl⟩
    ⟨[.reset Block.zero 2, .addReportShares [.prio3 Block.zero [] [252#8], .prio3 Block.zero [] [250#8]]], rfl⟩
    toy_prio3.1 (fun a b m _ _ => toy_prio3.2.1 a b m) (fun b s0 s1 _ h => toy_prio3.2.2 _ _ b s0 s1 h) rfl
    (by decide) rfl rfl rfl (by decide) (by decide)
    ⟨rfl, rfl, by
      intro i c r0 r1 hc g0 g1
      match i with
      | 0 =>
        cases hc; cases g0; cases g1
        exact ⟨Block.zero, 5, .prio3 Block.zero [] ([5#8], [252#8]), rfl, rfl⟩
      | 1 =>
        cases hc; cases g0; cases g1
        exact ⟨((0, 5#8), 5#8), ((1, 250#8), 250#8), rfl, rfl, by decide, by decide, by simp, by simp⟩
      | n + 2 => cases hc⟩
  exact ⟨kcs', ranges, h1, h2⟩

/-- An empty input share panics the run. -/
example : ∃ p, runPm (toyCfg 0 none .debug) (toyCfg 1 none .release) ⟨none, 2, 1, 1, 1, 1⟩
    (toyPmServers [5#8] []) 2 = .error p :=
  C64_unprepared_panics (i := 1) (by decide) (.inr rfl)

/-- The toy instance, except that the helper does not accept bucket 0 in the last step. -/
def pickyToy : Prims :=
  { toy with prepNext := fun n st m => if st.1 ≠ 0 ∧ m = [0#8] then none else toy.prepNext n st m }

/-- Servers that disagree about a report: the run panics on the driver's `assert_eq!`. -/
example (c0 c1 : ServerCfg) (kcs : Pair2 pickyToy) (h0 : c0.serverId = 0) (h1 : c1.serverId = 1)
    (hr0 : Spec.Reachable pickyToy c0 2 kcs.1) (hr1 : Spec.Reachable pickyToy c1 2 kcs.2)
    (hn0 : kcs.1.inputLen = 2) (hn1 : kcs.2.inputLen = 2)
    (hs0 : kcs.1.reportShares = [(true, .prio3 Block.zero [] [5#8])])
    (hs1 : kcs.2.reportShares = [(true, .prio3 Block.zero [] [251#8])]) :
    runPm c0 c1 ⟨none, 2, 1, 1, 1, 1⟩ kcs 1 = .error .assertion := by
  obtain ⟨kcs', ranges, ⟨hp1, hp2⟩, -, h2⟩ := C64_runs (P := pickyToy) (cfg := ⟨none, 2, 1, 1, 1, 1⟩)
    (clients := [⟨some [1, 0], none⟩]) hr0 hr1 (fun _ _ _ _ _ _ _ _ _ _ => rfl) h0 (by omega) hn0 hn1 rfl (by decide)
    (by rw [hs0]; rfl) (by rw [hs1]; rfl) (by
      intro i c r0 r1 hc g0 g1
      rw [hs0] at g0; rw [hs1] at g1
      match i with
      | 0 =>
        cases hc; cases g0; cases g1
        rw [h1]
        exact ⟨((0, 5#8), 5#8), ((1, 251#8), 251#8), rfl, rfl, by decide, by decide, by simp, by simp⟩
      | n + 1 => cases hc)
  rw [show [(⟨some [1, 0], none⟩ : Spec.PmClient)].length = 1 from rfl] at h2 hp1 hp2
  rw [h2]
  cases ranges with
  | nil => cases hp2
  | cons r rs =>
    obtain ⟨a, b⟩ := hp1 r (by simp)
    have e1 : r.1 = 0 := by omega
    have e2 : r.2 = 1 := by omega
    rw [mapE_cons, e1, e2]
    rfl

end Mastic
