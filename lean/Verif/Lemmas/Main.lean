import Verif.Spec.Main
import Verif.Props.Whh
import Verif.Props.Metrics

/-!
# Lemmas about whole runs of the driver program
-/

namespace Mastic

variable {P : Prims}

/-- Report generation succeeds when every single generation does. -/
theorem generateReports_ok {cfg : Config} {mode : DriverMode} {draws : Nat → ReportDraw}
    (hu : 1 ≤ cfg.uniqueBuckets)
    (h : ∀ i < cfg.uniqueBuckets, ∃ r, generateReport P cfg mode (draws i) = .ok r) :
    ∃ reports, generateReports P cfg mode draws = .ok reports ∧ reports.length = cfg.uniqueBuckets ∧
      ∀ i < cfg.uniqueBuckets, ∃ r, reports[i]? = some r ∧ generateReport P cfg mode (draws i) = .ok r := by
  have : Nonempty PlaintextReport := ⟨.prio3 Block.zero [] ([], [])⟩
  choose! f hf using h
  have hm : mapE (fun i => generateReport P cfg mode (draws i)) (List.range cfg.uniqueBuckets)
      = .ok ((List.range cfg.uniqueBuckets).map f) :=
    mapE_ok_of_forall fun i hi => hf i (List.mem_range.1 hi)
  refine ⟨(List.range cfg.uniqueBuckets).map f, ?_, by simp, ?_⟩
  · unfold generateReports
    rw [hm, ok_bind, idx_eq_ok_of_lt (i := 0) (by simpa using Nat.lt_of_lt_of_le Nat.zero_lt_one hu)]
    simp only [assertE, decide_true, ok_bind, Nat.lt_of_lt_of_le Nat.zero_lt_one hu]
    rfl
  · intro i hi
    exact ⟨f i, by simp [hi], hf i hi⟩

/-- A report is drawn as the specification says, in the Mastic modes. -/
theorem generateReport_mastic {cfg : Config} {mode : DriverMode} {d : Nat} (hm : mode ≠ .plainMetrics)
    (hd : cfg.dataBits = some d) (hb : 1 ≤ cfg.histBuckets) (r : ReportDraw) :
    generateReport P cfg mode r = genMasticReport P cfg.histBuckets (Spec.drawn cfg.histBuckets d r).1
      (Spec.drawn cfg.histBuckets d r).2 r.rand := by
  unfold generateReport genRange
  rw [if_neg (by omega), ok_bind, hd]
  cases mode with
  | plainMetrics => exact absurd rfl hm
  | _ => rfl

/-- A generated Mastic report. -/
theorem genMastic_ok {n : Nat} {rand : ClientRand} (hp : ∀ (bucket : Nat) (beta : List Field128) (seed : Block)
      (binder : List Byte), encodeMeasurement n bucket = some beta →
      ∃ proof, P.flpProve n beta rand.proveRand (P.xofField seed binder (P.jointRandLen n)) = some proof ∧ proof ≠ [])
    (alpha : List Bool) {bucket : Nat} (hb : bucket < n) : ∃ ks p0 p ps jr,
      genMasticReport P n alpha bucket rand = .ok (.mastic rand.nonce ks (p0, p :: ps) jr alpha) := by
  unfold genMasticReport
  have he : encodeMeasurement n bucket = some ((List.replicate n 0).set bucket 1) := by
    unfold encodeMeasurement; rw [if_pos hb]
  rw [he]
  simp only [unwrapO, ok_bind]
  obtain ⟨proof, h1, h2⟩ := hp bucket _
    (clientJointRandParts P rand.nonce (VidpfKey.gen P rand.rootSeeds alpha
      ((List.replicate n 0).set bucket 1)).1 (VidpfKey.gen P rand.rootSeeds alpha
      ((List.replicate n 0).set bucket 1)).2).1 (clientJointRandParts P rand.nonce
      (VidpfKey.gen P rand.rootSeeds alpha ((List.replicate n 0).set bucket 1)).1
      (VidpfKey.gen P rand.rootSeeds alpha ((List.replicate n 0).set bucket 1)).2).2.toList he
  rw [h1]
  obtain ⟨q, qs, rfl⟩ := List.exists_cons_of_ne_nil h2
  exact ⟨_, _, _, _, _, rfl⟩

/-- The states after reset and upload. -/
def uploaded (P : Prims) (c0 c1 : ServerCfg) (cfg : Config) (vk : Block)
    (sh : List (ReportShare × ReportShare)) : Pair2 P :=
  ({ KeyCollection.new P cfg.histBuckets c0.serverId c0.dataBits vk with
      reportShares := sh.map fun s => (true, s.1) },
   { KeyCollection.new P cfg.histBuckets c1.serverId c1.dataBits vk with
      reportShares := sh.map fun s => (true, s.2) })

/-- What the reset leaves. -/
theorem main_reset {c0 c1 : ServerCfg} {cfg : Config} {draw : MainDraw} {n : Nat} {kcs : Pair2 P}
    (hs : Spec.Sensible P cfg draw n) :
    resetServers c0 c1 cfg kcs draw.verifyKey
      = .ok (KeyCollection.new P cfg.histBuckets c0.serverId c0.dataBits draw.verifyKey,
        KeyCollection.new P cfg.histBuckets c1.serverId c1.dataBits draw.verifyKey) := by
  unfold resetServers srvReset
  rw [if_pos hs.hist, if_pos hs.hist]
  rfl

/-- What the upload after a reset leaves. -/
theorem main_upload {c0 c1 : ServerCfg} {cfg : Config} {draw : MainDraw} {n : Nat}
    {reports : List PlaintextReport} {sh : List (ReportShare × ReportShare)} (hs : Spec.Sensible P cfg draw n)
    (hp : mapE (pickShares reports) ((List.range n).map draw.picks) = .ok sh) :
    mainUpload cfg draw reports (KeyCollection.new P cfg.histBuckets c0.serverId c0.dataBits
        draw.verifyKey, KeyCollection.new P cfg.histBuckets c1.serverId c1.dataBits draw.verifyKey) n
      = .ok (uploaded P c0 c1 cfg draw.verifyKey sh) := by
  unfold mainUpload
  rw [if_neg (by simp [hs.zipf]), upload_eq cfg hs.addBatch, hp, ok_bind]
  simp [srvAdd_eq, uploaded, KeyCollection.new]

/-- The common part of all modes: once the reports are generated and every client's shares are picked, the
run is the run of the mode on the uploaded shares. -/
theorem driverMain_eq {c0 c1 : ServerCfg} {bld : Build} {cfg : Config} {mode : DriverMode} {draw : MainDraw}
    {n : Nat} {kcs : Pair2 P} {reports : List PlaintextReport} {sh : List (ReportShare × ReportShare)}
    (hs : Spec.Sensible P cfg draw n) (hg : generateReports P cfg mode draw.reports = .ok reports)
    (hp : mapE (pickShares reports) ((List.range n).map draw.picks) = .ok sh) :
    driverMain c0 c1 bld cfg mode draw n kcs =
      match mode with
      | .weightedHeavyHitters => runWhh c0 c1 bld cfg (uploaded P c0 c1 cfg draw.verifyKey sh) n >>= fun out =>
          .ok (.whh out)
      | .attributeBasedMetrics num => mainAttributes reports draw num >>= fun attributes =>
          runAbm c0 c1 cfg (uploaded P c0 c1 cfg draw.verifyKey sh) attributes n >>= fun out =>
          .ok (.abm attributes out.2)
      | .plainMetrics => runPm c0 c1 cfg (uploaded P c0 c1 cfg draw.verifyKey sh) n >>= fun out =>
          .ok (.pm out.2) := by
  have hr := main_reset (c0 := c0) (c1 := c1) (kcs := kcs) hs
  have hu := main_upload (c0 := c0) (c1 := c1) hs hp
  unfold driverMain
  simp only [assertE, hs.malicious, hs.hist, hg, hr, hu, ok_bind, if_true, Bool.not_true, Bool.false_eq_true,
    if_false]
  cases mode <;> rfl

/-- The shares for server 1 as sent. -/
def sentProof (t : Option Tamper) (p : Field128) (ps : List Field128) : List Field128 :=
  match t with
  | some .flp => (p + 1337) :: ps
  | _ => p :: ps

/-- Generation and picking in the Mastic modes. -/
theorem mastic_picks {cfg : Config} {mode : DriverMode} {draw : MainDraw} {n d : Nat}
    (hs : Spec.Sensible P cfg draw n) (hprove : Spec.Proves P cfg draw) (hm : mode ≠ .plainMetrics)
    (hd : cfg.dataBits = some d) :
    ∃ reports sh, generateReports P cfg mode draw.reports = .ok reports ∧
      reports.length = cfg.uniqueBuckets ∧
      (∀ i < cfg.uniqueBuckets, ∃ r, reports[i]? = some r ∧
        r.unwrapAlpha = .ok (Spec.drawn cfg.histBuckets d (draw.reports i)).1) ∧
      mapE (pickShares reports) ((List.range n).map draw.picks) = .ok sh ∧ sh.length = n ∧
      ∀ i < n, ∃ ks p0 p ps jr, genMasticReport P cfg.histBuckets
          (Spec.drawn cfg.histBuckets d (Spec.MainDraw.of draw i)).1
          (Spec.drawn cfg.histBuckets d (Spec.MainDraw.of draw i)).2 (Spec.MainDraw.of draw i).rand
          = .ok (.mastic (Spec.MainDraw.of draw i).rand.nonce ks (p0, p :: ps) jr
              (Spec.drawn cfg.histBuckets d (Spec.MainDraw.of draw i)).1) ∧
        sh[i]? = some (.mastic (Spec.MainDraw.of draw i).rand.nonce ks.1 p0 jr,
          .mastic (Spec.MainDraw.of draw i).rand.nonce ks.2 (sentProof (draw.picks i).2 p ps) jr) := by
  have hgen : ∀ i < cfg.uniqueBuckets, ∃ ks p0 p ps jr, genMasticReport P cfg.histBuckets
      (Spec.drawn cfg.histBuckets d (draw.reports i)).1 (Spec.drawn cfg.histBuckets d (draw.reports i)).2
      (draw.reports i).rand = .ok (.mastic (draw.reports i).rand.nonce ks (p0, p :: ps) jr
        (Spec.drawn cfg.histBuckets d (draw.reports i)).1) := fun i hi =>
    genMastic_ok (hprove i hi) _ (Nat.mod_lt _ hs.buckets)
  obtain ⟨reports, hg, hlen, hrep⟩ := generateReports_ok (P := P) (mode := mode) (draws := draw.reports)
    hs.unique (by
      intro i hi
      obtain ⟨ks, p0, p, ps, jr, h⟩ := hgen i hi
      exact ⟨_, (generateReport_mastic hm hd hs.buckets _).trans h⟩)
  have hpick : ∀ i < n, ∃ s, pickShares reports (draw.picks i) = .ok s ∧
      ∃ ks p0 p ps jr, genMasticReport P cfg.histBuckets
          (Spec.drawn cfg.histBuckets d (Spec.MainDraw.of draw i)).1
          (Spec.drawn cfg.histBuckets d (Spec.MainDraw.of draw i)).2 (Spec.MainDraw.of draw i).rand
          = .ok (.mastic (Spec.MainDraw.of draw i).rand.nonce ks (p0, p :: ps) jr
              (Spec.drawn cfg.histBuckets d (Spec.MainDraw.of draw i)).1) ∧
        s = (.mastic (Spec.MainDraw.of draw i).rand.nonce ks.1 p0 jr,
          .mastic (Spec.MainDraw.of draw i).rand.nonce ks.2 (sentProof (draw.picks i).2 p ps) jr) := by
    intro i hi
    obtain ⟨g1, g2⟩ := hs.picks i hi
    obtain ⟨ks, p0, p, ps, jr, h⟩ := hgen ((draw.picks i).1 - 1) (by omega)
    obtain ⟨r, hr, hr'⟩ := hrep ((draw.picks i).1 - 1) (by omega)
    rw [generateReport_mastic hm hd hs.buckets] at hr'
    have e : r = .mastic (Spec.MainDraw.of draw i).rand.nonce ks (p0, p :: ps) jr
        (Spec.drawn cfg.histBuckets d (Spec.MainDraw.of draw i)).1 := by
      have := hr'.symm.trans h
      simpa [Spec.MainDraw.of] using this
    refine ⟨_, ?_, ks, p0, p, ps, jr, h, rfl⟩
    unfold pickShares
    rw [if_neg (by omega), idx_eq_ok.2 hr, ok_bind, e]
    cases ht : (draw.picks i).2 with
    | none => rfl
    | some t => cases t <;> rfl
  have : Nonempty (ReportShare × ReportShare) := ⟨(.prio3 Block.zero [] [], .prio3 Block.zero [] [])⟩
  choose! f hf hf' using hpick
  have hmap : mapE (pickShares reports) ((List.range n).map draw.picks) = .ok ((List.range n).map f) := by
    rw [mapE_map]
    exact mapE_ok_of_forall fun i hi => hf i (List.mem_range.1 hi)
  refine ⟨reports, _, hg, hlen, ?_, hmap, by simp, ?_⟩
  · intro i hi
    obtain ⟨r, hr, hr'⟩ := hrep i hi
    obtain ⟨ks, p0, p, ps, jr, h⟩ := hgen i hi
    rw [generateReport_mastic hm hd hs.buckets, h] at hr'
    refine ⟨r, hr, ?_⟩
    simp only [Except.ok.injEq] at hr'
    rw [← hr']; rfl
  · intro i hi
    obtain ⟨ks, p0, p, ps, jr, h, e⟩ := hf' i hi
    exact ⟨ks, p0, p, ps, jr, h, by simp [hi, e]⟩

end Mastic
