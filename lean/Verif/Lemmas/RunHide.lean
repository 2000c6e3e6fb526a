import Verif.Spec.RunHide
import Verif.Props.KeyHide
import Verif.Props.Libprio
import Verif.Props.Script

/-!
# The requests of a whole run, and runs for two assignments of weights that look the same to one server
-/

namespace Mastic

variable {P : Prims} {c0 c1 : ServerCfg}

/-! ### The requests of a whole run -/

theorem tells_pure {α : Type} {e : Exec α} {a : α} (kcs : Pair2 P) (h : e = .ok a) :
    Tells c0 c1 (Prog.lift e) kcs [] a kcs := by
  subst h
  exact .ret _ _ _

theorem splitBatches_map {α β : Type} (f : α → β) : ∀ (sizes : List Nat) (l : List α),
    splitBatches sizes (l.map f) = (splitBatches sizes l).map (List.map f)
  | [], _ => rfl
  | s :: ss, l => by
    rw [splitBatches, splitBatches, List.map_cons, ← List.map_take, ← List.map_drop, splitBatches_map f ss]

/-- The requests of the upload. -/
def addSent (b : List (ReportShare × ReportShare)) : Req × Req :=
  (.addReportShares (b.map Prod.fst), .addReportShares (b.map Prod.snd))

theorem tells_await {reports : List PlaintextReport} : ∀ {sizes : List Nat} {picks : List (Nat × Option Tamper)}
    {sh : List (ReportShare × ReportShare)} {kcs k : Pair2 P} {sent : List (Req × Req)} {a : Unit},
    mapE (pickShares reports) picks = .ok sh →
    Tells c0 c1 (awaitAllP reports (splitBatches sizes picks)) kcs sent a k →
    sent = (splitBatches sizes sh).map addSent
  | [], _, _, _, _, _, _, _, h => by
    obtain ⟨rfl, -, -⟩ := tells_ret h
    rfl
  | s :: ss, picks, sh, kcs, k, sent, a, hm, h => by
    rw [splitBatches, awaitAllP] at h
    obtain ⟨x, y, u, k1, rfl, h1, h2⟩ := tells_bind h
    unfold addReportsP at h1
    obtain ⟨x1, y1, sh1, k2, rfl, g1, g2⟩ := tells_bind h1
    obtain ⟨rfl, rfl, e⟩ := tells_lift g1
    have e : mapE (pickShares reports) (picks.take s) = .ok sh1 := e
    rw [tells_done g2]
    have hs := hm
    rw [← List.take_append_drop s picks, mapE_append, e, ok_bind] at hs
    obtain ⟨sh2, e2, hs⟩ := bind_eq_ok.1 hs
    cases hs
    rw [tells_await e2 h2]
    have hl := mapE_length hm
    have hl1 := mapE_length e
    rw [splitBatches]
    by_cases hp : s ≤ picks.length
    · have hl1 : sh1.length = s := by rw [hl1, List.length_take]; omega
      rw [List.take_left' hl1, List.drop_left' hl1]
      rfl
    · have hd : picks.drop s = [] := List.drop_eq_nil_of_le (by omega)
      rw [hd] at e2
      cases e2
      have hl1 : sh1.length ≤ s := by rw [hl1, List.length_take]; omega
      rw [List.append_nil, List.take_of_length_le hl1, List.drop_eq_nil_of_le hl1]
      rfl

/-- The requests of a run: the reset, the upload, and those of the mode. -/
theorem tells_main {bld : Build} {cfg : Config} {mode : DriverMode} {draw : MainDraw} {n : Nat} {kcs k : Pair2 P}
    {reports : List PlaintextReport} {sh : List (ReportShare × ReportShare)} {sizes : List Nat}
    {sent : List (Req × Req)} {out : Shown}
    (hs : Spec.Sensible P cfg draw n) (hg : generateReports P cfg mode draw.reports = .ok reports)
    (hp : mapE (pickShares reports) ((List.range n).map draw.picks) = .ok sh)
    (hsz : uploadBatches cfg.addBatch n n = .ok sizes)
    (hc : Tells c0 c1 (collectP P bld cfg mode draw n reports) (uploaded P c0 c1 cfg draw.verifyKey sh) sent out k) :
    Tells c0 c1 (mainP P bld cfg mode draw n) kcs
      ((.reset draw.verifyKey cfg.histBuckets, .reset draw.verifyKey cfg.histBuckets)
        :: ((splitBatches sizes sh).map addSent ++ sent)) out k := by
  have hr := main_reset (c0 := c0) (c1 := c1) (kcs := kcs) hs
  have hu := main_upload (c0 := c0) (c1 := c1) hs hp
  obtain ⟨s1, h1⟩ := tells_exec (p := resetP cfg draw.verifyKey) (kcs := kcs) (by rw [exec_reset, hr, ok_bind])
  obtain ⟨s2, h2⟩ := tells_exec (p := mainUploadP cfg draw reports n) (c0 := c0) (c1 := c1)
    (kcs := (KeyCollection.new P cfg.histBuckets c0.serverId c0.dataBits draw.verifyKey,
      KeyCollection.new P cfg.histBuckets c1.serverId c1.dataBits draw.verifyKey)) (a := ())
    (kcs' := uploaded P c0 c1 cfg draw.verifyKey sh) (by
      unfold mainUploadP mainUpload at *
      rw [if_neg (by simp [hs.zipf])] at hu ⊢
      rw [exec_upload, hu, ok_bind])
  have e1 := tells_done h1
  have e2 : s2 = (splitBatches sizes sh).map addSent := by
    have h2 := h2
    unfold mainUploadP uploadP at h2
    rw [if_neg (by simp [hs.zipf]), List.length_map, List.length_range] at h2
    obtain ⟨x, y, sz, k1, rfl, g1, g2⟩ := tells_bind h2
    obtain ⟨rfl, rfl, e⟩ := tells_lift g1
    rw [hsz] at e
    cases e
    exact tells_await hp g2
  subst e1 e2
  unfold mainP
  simp only [hs.hist, Bool.not_true, Bool.false_eq_true, if_false]
  have ha : assertE draw.maliciousOk = .ok () := by simp [assertE, hs.malicious]
  exact (tells_pure _ ha).bind ((tells_pure _ hg).bind (h1.bind (h2.bind hc)))

/-! ### Given values for all reports -/

theorem setRun_other {u n d : Nat} {draw : MainDraw} {server : Bool} (w : Spec.RunCoins P u n d draw) {c : Block}
    (hc : ¬∃ q, Spec.runInput P u n d draw server q = c) : (Spec.setRun P u n d draw server w).aes c = P.aes c := by
  unfold Spec.setRun
  dsimp only
  exact Function.extend_apply' _ _ _ hc

theorem setRun_input {u n d : Nat} {draw : MainDraw} {server : Bool}
    (hf : Function.Injective (Spec.runInput P u n d draw server)) (w : Spec.RunCoins P u n d draw) (q) :
    (Spec.setRun P u n d draw server w).aes (Spec.runInput P u n d draw server q)
      = vxor (Block.ofList (encodeField ((w q.1).1 q.2))) (Spec.runInput P u n d draw server q) := by
  unfold Spec.setRun
  dsimp only
  exact hf.extend_apply _ _ _

theorem setRun_gives {u n d : Nat} {draw : MainDraw} {own : Bool} (hf : Spec.FreshRun P u n d draw own)
    (w : Spec.RunCoins P u n d draw) (i : Fin u) :
    GivesValues P (Spec.setRun P u n d draw (!own) w) (draw.reports i).rand.rootSeeds
      (Spec.stringOf d (draw.reports i)) own n (w i).1 := by
  refine ⟨rfl, fun c hc => setRun_other w ?_, fun q => setRun_input hf.1 w ⟨i, q⟩⟩
  rintro ⟨q, rfl⟩
  exact hf.2 q i hc

section Run

variable {cfg : Config} {draw : MainDraw} {n d : Nat} {weight : Nat → Nat}
  {aes : Block → Block} {Q : Prims} (hQ : Q = { P with aes := aes }.withHistogram)
  (w : Spec.RunCoins P.withHistogram cfg.uniqueBuckets cfg.histBuckets d draw)

theorem runDraw_report {i : Nat} (hi : i < cfg.uniqueBuckets) :
    (Spec.runDraw draw weight w).reports i = { draw.reports i with
      bucket := weight i, rand := Spec.coinsRand (draw.reports i).rand.nonce (w ⟨i, hi⟩) } := by
  unfold Spec.runDraw
  simp only [hi, dite_true]

include hQ in
/-- The assumptions of C62 for a run with given values. -/
theorem run_ready (hs : Spec.Sensible P.withHistogram cfg draw n) (hb64 : cfg.histBuckets < 2 ^ 64)
    (hxof : ∀ seed binder l, (P.xofField seed binder l).length = l)
    (hroot : ∀ i < n, ∀ t ∈ P.xofField draw.verifyKey (Spec.MainDraw.of draw i).rand.nonce.toList 1,
      t ^ Spec.points cfg.histBuckets 2 ≠ 1)
    (htam : ∀ i < n, (draw.picks i).2 ≠ some .flp) (id0 id1 : Int) :
    Spec.Sensible Q cfg (Spec.runDraw draw weight w) n ∧ Spec.Proves Q cfg (Spec.runDraw draw weight w) ∧
    (∀ i < n, Spec.FlpCompleteAt Q cfg.histBuckets (Q.xofField draw.verifyKey
      (Spec.MainDraw.of (Spec.runDraw draw weight w) i).rand.nonce.toList (Q.queryRandLen cfg.histBuckets))) ∧
    Spec.BumpsRejected Q cfg.histBuckets d id0 id1 (Spec.runDraw draw weight w) n := by
  subst hQ
  refine ⟨⟨hs.malicious, hs.zipf, hs.hist, hs.buckets, hs.unique, hs.addBatch, hs.queryBatch, hs.picks⟩,
    proves_libprio hxof fun i hi => ?_, fun i hi => ?_, fun i _ _ _ _ _ _ _ hi ht _ => absurd ht (htam i hi)⟩
  · rw [runDraw_report w hi]
    simp [Spec.coinsRand]
  · obtain ⟨g1, g2⟩ := hs.picks i hi
    obtain ⟨t, ht⟩ := List.length_eq_one_iff.1 (hxof draw.verifyKey (Spec.MainDraw.of draw i).rand.nonce.toList 1)
    have e : (Spec.MainDraw.of (Spec.runDraw draw weight w) i).rand.nonce = (Spec.MainDraw.of draw i).rand.nonce := by
      have := runDraw_report (weight := weight) w (i := (draw.picks i).1 - 1) (by omega)
      unfold Spec.MainDraw.of
      show ((Spec.runDraw draw weight w).reports ((draw.picks i).1 - 1)).rand.nonce = _
      rw [this]
      rfl
    rw [e]
    show Spec.FlpCompleteAt _ cfg.histBuckets (P.xofField draw.verifyKey (Spec.MainDraw.of draw i).rand.nonce.toList 1)
    rw [ht]
    exact C81_complete hb64 (hroot i hi t (by rw [ht]; exact List.mem_singleton_self t))

include hQ in
/-- What the generation and the picks of a run with given values upload to the servers. -/
theorem run_shares {mode : DriverMode} (hm : mode ≠ .plainMetrics) (hd : cfg.dataBits = some d)
    (hs : Spec.Sensible Q cfg (Spec.runDraw draw weight w) n) (hprove : Spec.Proves Q cfg (Spec.runDraw draw weight w))
    (htam : ∀ i < n, (draw.picks i).2 ≠ some .flp) (hw : ∀ i < cfg.uniqueBuckets, weight i < cfg.histBuckets)
    {r : Nat → Field128 × Field128}
    (hj : ∀ i < cfg.uniqueBuckets, P.xofField
      (seedParts P (draw.reports i).rand.rootSeeds (draw.reports i).rand.nonce).1
      (seedParts P (draw.reports i).rand.rootSeeds (draw.reports i).rand.nonce).2.toList 2 = [(r i).1, (r i).2]) :
    ∃ reports sh, generateReports Q cfg mode (Spec.runDraw draw weight w).reports = .ok reports ∧
      reports.length = cfg.uniqueBuckets ∧
      (∀ i < cfg.uniqueBuckets, ∃ r, reports[i]? = some r ∧ r.unwrapAlpha = .ok (Spec.stringOf d (draw.reports i))) ∧
      mapE (pickShares reports) ((List.range n).map draw.picks) = .ok sh ∧ sh.length = n ∧
      (∀ i < n, ∃ ks p0 p ps jr, genMasticReport Q cfg.histBuckets
          (Spec.drawn cfg.histBuckets d (Spec.MainDraw.of (Spec.runDraw draw weight w) i)).1
          (Spec.drawn cfg.histBuckets d (Spec.MainDraw.of (Spec.runDraw draw weight w) i)).2
          (Spec.MainDraw.of (Spec.runDraw draw weight w) i).rand
          = .ok (.mastic (Spec.MainDraw.of (Spec.runDraw draw weight w) i).rand.nonce ks (p0, p :: ps) jr
              (Spec.drawn cfg.histBuckets d (Spec.MainDraw.of (Spec.runDraw draw weight w) i)).1) ∧
        sh[i]? = some (.mastic (Spec.MainDraw.of (Spec.runDraw draw weight w) i).rand.nonce ks.1 p0 jr,
          .mastic (Spec.MainDraw.of (Spec.runDraw draw weight w) i).rand.nonce ks.2
            (sentProof (draw.picks i).2 p ps) jr)) ∧
      ∀ (own : Bool), ∀ i < n, ∀ j (hj : j < cfg.uniqueBuckets), j = (draw.picks i).1 - 1 →
        (sh.map fun s => Pair.get s own)[i]? = some (.mastic (draw.reports j).rand.nonce
          (Pair.get (VidpfKey.gen Q (draw.reports j).rand.rootSeeds (Spec.stringOf d (draw.reports j))
            (Spec.bucketVec cfg.histBuckets (weight j))) own)
          (Pair.get (shareProof (proofOf cfg.histBuckets 2 (Spec.bucketVec cfg.histBuckets (weight j))
              (List.ofFn (w ⟨j, hj⟩).2.1) (r j).1)
            (Spec.coinsRand (draw.reports j).rand.nonce (w ⟨j, hj⟩)).proofRand) own)
          (seedParts P (draw.reports j).rand.rootSeeds (draw.reports j).rand.nonce)) := by
  obtain ⟨reports, sh, hg, hrl, hra, hp, hlen, hsh⟩ := mastic_picks (P := Q) (mode := mode) hs hprove hm hd
  refine ⟨reports, sh, hg, hrl, ?_, hp, hlen, hsh, ?_⟩
  · intro i hi
    obtain ⟨r, h1, h2⟩ := hra i hi
    rw [runDraw_report w hi] at h2
    exact ⟨r, h1, h2⟩
  · intro own i hi j hju ej
    obtain ⟨ks, p0, p, ps, jr, hgen, e⟩ := hsh i hi
    have e1 : Spec.MainDraw.of (Spec.runDraw draw weight w) i = { draw.reports j with
        bucket := weight j, rand := Spec.coinsRand (draw.reports j).rand.nonce (w ⟨j, hju⟩) } := by
      rw [← runDraw_report w hju, ej]; rfl
    have hsp : sentProof ((Spec.runDraw draw weight w).picks i).2 p ps = p :: ps := by
      have := htam i hi
      unfold sentProof
      split
      · rename_i h; exact absurd h this
      · rfl
    rw [e1] at hgen e
    rw [hsp] at e
    have hx := encode_bucketVec (hw j hju)
    have hgm := genMastic_coins (P := P) (nonce := (draw.reports j).rand.nonce) hx (hj j hju)
      (Q := Q) (aes := aes) (by rw [hQ]; rfl) (w ⟨j, hju⟩)
    have e2 : Spec.drawn cfg.histBuckets d { draw.reports j with
        bucket := weight j, rand := Spec.coinsRand (draw.reports j).rand.nonce (w ⟨j, hju⟩) }
        = (Spec.stringOf d (draw.reports j), weight j) := by
      unfold Spec.drawn Spec.stringOf
      simp only [Nat.mod_eq_of_lt (hw j hju)]
    rw [e2] at hgen
    have hgen := hgm.symm.trans hgen
    simp only [Except.ok.injEq, PlaintextReport.mastic.injEq] at hgen
    obtain ⟨-, f1, f2, f3, -⟩ := hgen
    rw [List.getElem?_map, e, Option.map_some, f1, f2, f3]
    cases own <;> rfl

theorem runDraw_clients (hs : ∀ i < n, 1 ≤ (draw.picks i).1 ∧ (draw.picks i).1 ≤ cfg.uniqueBuckets)
    (hw : ∀ i < cfg.uniqueBuckets, weight i < cfg.histBuckets) :
    ((List.range n).map fun i => Spec.drawn cfg.histBuckets d (Spec.MainDraw.of (Spec.runDraw draw weight w) i))
      = Spec.runClients d draw weight n := by
  unfold Spec.runClients
  refine List.map_congr_left fun i hi => ?_
  obtain ⟨g1, g2⟩ := hs i (List.mem_range.1 hi)
  have hju : (draw.picks i).1 - 1 < cfg.uniqueBuckets := by omega
  have e1 : Spec.MainDraw.of (Spec.runDraw draw weight w) i = { draw.reports ((draw.picks i).1 - 1) with
      bucket := weight ((draw.picks i).1 - 1),
      rand := Spec.coinsRand (draw.reports ((draw.picks i).1 - 1)).rand.nonce (w ⟨_, hju⟩) } :=
    runDraw_report w hju
  rw [e1]
  unfold Spec.drawn Spec.stringOf Spec.MainDraw.of
  simp only [Nat.mod_eq_of_lt (hw _ hju)]

theorem runDraw_mainClients (hs : ∀ i < n, 1 ≤ (draw.picks i).1 ∧ (draw.picks i).1 ≤ cfg.uniqueBuckets)
    (htam : ∀ i < n, (draw.picks i).2 ≠ some .flp) (hw : ∀ i < cfg.uniqueBuckets, weight i < cfg.histBuckets) :
    Spec.mainClients cfg.histBuckets d (Spec.runDraw draw weight w) n
      = (Spec.runClients d draw weight n).map some := by
  rw [← runDraw_clients w hs hw, List.map_map]
  refine List.map_congr_left fun i hi => ?_
  have := htam i (List.mem_range.1 hi)
  show (match (draw.picks i).2 with | some .flp => none | _ => _) = _
  split
  · rename_i h; exact absurd h this
  · rfl

end Run

/-- The values that go with other weights. -/
def moveRun (own : Bool) (weight weight' : Nat → Nat) {u n d : Nat} {draw : MainDraw} (r0 t : Nat → Field128)
    (w : Spec.RunCoins P u n d draw) : Spec.RunCoins P u n d draw :=
  fun i => moveCoins own (Spec.bucketVec n (weight i)) (Spec.bucketVec n (weight' i)) (r0 i) (t i) (w i)

theorem moveRun_back (own : Bool) (weight weight' : Nat → Nat) {u n d : Nat} {draw : MainDraw} (r0 t : Nat → Field128)
    (w : Spec.RunCoins P u n d draw) :
    moveRun own weight' weight r0 t (moveRun own weight weight' r0 t w) = w :=
  funext fun i => moveCoins_back own _ _ _ _ (w i)

/-- The keys for the other weights. -/
theorem moveRun_gen {own : Bool} {weight weight' : Nat → Nat} {u n d : Nat} {draw : MainDraw} {r0 t : Nat → Field128}
    {w : Spec.RunCoins P.withHistogram u n d draw} (hf : Spec.FreshRun P.withHistogram u n d draw own) {Q Q' : Prims}
    (hQ : Q = Spec.setRun P.withHistogram u n d draw (!own) w)
    (hQ' : Q' = Spec.setRun P.withHistogram u n d draw (!own) (moveRun own weight weight' r0 t w)) (i : Fin u) :
    VidpfKey.gen Q' (draw.reports i).rand.rootSeeds (Spec.stringOf d (draw.reports i)) (Spec.bucketVec n (weight' i))
      = VidpfKey.gen Q (draw.reports i).rand.rootSeeds (Spec.stringOf d (draw.reports i))
          (Spec.bucketVec n (weight i)) := by
  have h := genLoop_gives (setRun_gives hf w i) (setRun_gives hf (moveRun own weight weight' r0 t w) i) rfl
    (beta := Spec.bucketVec n (weight i)) (beta' := Spec.bucketVec n (weight' i))
    (by simp [Spec.bucketVec]) (by simp [Spec.bucketVec])
  rw [← hQ, ← hQ'] at h
  unfold VidpfKey.gen
  rw [h]

end Mastic
