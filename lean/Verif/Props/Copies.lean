import Verif.Lemmas.Copies

/-!
# C91: both servers verify a report with the same joint randomness
-/

namespace Mastic

variable {P : Prims}

/-- **C91 fails.**  A client may send the two servers different copies of the joint-randomness parts, and nobody
compares them.  If the two copies lead the servers to joint randomness that differs in the second element, then for every
string and *every* vector of weights there are proof shares, chosen without the verification key, such that the report
passes the FLP verification for every verification key whose query point is no root of unity, and no check of the crawl,
on any level, tells the two keys apart: the servers go on to count the client with this vector. -/
theorem C91_false_accepted {n : Nat} (hn : 1 ≤ n) (hn64 : n < 2 ^ 64) {id0 id1 : Int} (h0 : id0 = 0) (h1 : id1 ≠ 0)
    {alpha : List Bool} (ha : alpha ≠ []) {beta : List Field128} (hb : beta.length = n) {nonce : Block}
    {rs copy0 copy1 : Block × Block} {r0 r1 s0 s1 : Field128}
    (hj0 : P.xofField (Spec.jointPart P 0 rs.1 nonce) copy0.2.toList 2 = [r0, r1])
    (hj1 : P.xofField copy1.1 (Spec.jointPart P 1 rs.2 nonce).toList 2 = [s0, s1]) (hne : r1 ≠ s1) :
    ∃ p0 p1, (∀ vk t, P.xofField vk nonce.toList 1 = [t] → t ^ Spec.points n 2 ≠ 1 →
        Spec.FlpAccepted P.withHistogram n id0 id1 vk
          (Spec.copiesReport P.withHistogram alpha beta nonce rs p0 p1 copy0 copy1).1
          (Spec.copiesReport P.withHistogram alpha beta nonce rs p0 p1 copy0 copy1).2) ∧
      ∃ k0 k1, Spec.keyOf (Spec.copiesReport P.withHistogram alpha beta nonce rs p0 p1 copy0 copy1).1 = some k0 ∧
        Spec.keyOf (Spec.copiesReport P.withHistogram alpha beta nonce rs p0 p1 copy0 copy1).2 = some k1 ∧
        Spec.QuietPair P.withHistogram n alpha.length k0 k1 ∧
        ∀ p, p ≠ [] → p.length ≤ alpha.length →
          Spec.reconAt P.withHistogram k0 k1 n p = some (Spec.pointValue alpha beta p) := by
  obtain ⟨b0, b1, ⟨l0, l1, -⟩, hver⟩ := copies_verifiers (P := P.withHistogram) h0 h1 ha hb nonce rs
  obtain ⟨p0, p1, -, -, hacc⟩ := split_forged (n := n) (c := 2) (by omega) hn hn64 (l0.trans hb) (l1.trans hb)
    (r0 := r0) (s0 := s0) hne
  refine ⟨p0, p1, ?_, ?_⟩
  · intro vk t ht hroot
    obtain ⟨v0, v1, q0, q1, hd⟩ := hacc t (by rw [wireLen_points (by omega)]; exact hroot)
    obtain ⟨e0, e1⟩ := hver vk p0 p1 copy0 copy1
    refine ⟨v0, v1, ?_, ?_, hd⟩
    · refine Eq.trans e0 ?_
      show histQuery n 2 b0 p0 (P.xofField vk nonce.toList 1)
        (P.xofField (Spec.jointPart P 0 rs.1 nonce) copy0.2.toList 2) 2 = some v0
      rw [ht, hj0]
      exact q0
    · refine Eq.trans e1 ?_
      show histQuery n 2 b1 p1 (P.xofField vk nonce.toList 1)
        (P.xofField copy1.1 (Spec.jointPart P 1 rs.2 nonce).toList 2) 2 = some v1
      rw [ht, hj1]
      exact q1
  · obtain ⟨k0, k1, e0, e1, hq, hv, -, -⟩ := copies_facts (P := P.withHistogram) hb (nonce := nonce)
      (rs := rs) (p0 := p0) (p1 := p1) (copy0 := copy0) (copy1 := copy1) rfl
    exact ⟨k0, k1, e0, e1, hq, hv.2⟩

/-- **C91 fails, whenever the joint randomness depends on the parts at all.**  For server 0's own part `own0`: if some
other part gives server 0 another second element than the part of server 1 does, then the client that sends server 0
this other part, and server 1 what the code sends, gets every vector accepted. -/
theorem C91_false_one_copy {n : Nat} (hn : 1 ≤ n) (hn64 : n < 2 ^ 64) {id0 id1 : Int} (h0 : id0 = 0) (h1 : id1 ≠ 0)
    (hxof : ∀ seed binder l, (P.xofField seed binder l).length = l) {alpha : List Bool} (ha : alpha ≠ [])
    {beta : List Field128} (hb : beta.length = n) {nonce other : Block} {rs : Block × Block}
    (hne : (P.xofField (Spec.jointPart P 0 rs.1 nonce) other.toList 2)[1]?
      ≠ (P.xofField (Spec.jointPart P 0 rs.1 nonce) (Spec.jointPart P 1 rs.2 nonce).toList 2)[1]?) :
    ∃ p0 p1, ∀ vk t, P.xofField vk nonce.toList 1 = [t] → t ^ Spec.points n 2 ≠ 1 →
      Spec.FlpAccepted P.withHistogram n id0 id1 vk
        (Spec.copiesReport P.withHistogram alpha beta nonce rs p0 p1 (Spec.jointPart P 0 rs.1 nonce, other)
          (Spec.jointPart P 0 rs.1 nonce, Spec.jointPart P 1 rs.2 nonce)).1
        (Spec.copiesReport P.withHistogram alpha beta nonce rs p0 p1 (Spec.jointPart P 0 rs.1 nonce, other)
          (Spec.jointPart P 0 rs.1 nonce, Spec.jointPart P 1 rs.2 nonce)).2 := by
  obtain ⟨r0, r1, hj0⟩ := List.length_eq_two.1 (hxof (Spec.jointPart P 0 rs.1 nonce) other.toList 2)
  obtain ⟨s0, s1, hj1⟩ := List.length_eq_two.1
    (hxof (Spec.jointPart P 0 rs.1 nonce) (Spec.jointPart P 1 rs.2 nonce).toList 2)
  obtain ⟨p0, p1, h, -⟩ := C91_false_accepted hn hn64 h0 h1 ha hb (copy0 := (Spec.jointPart P 0 rs.1 nonce, other))
    (copy1 := (Spec.jointPart P 0 rs.1 nonce, Spec.jointPart P 1 rs.2 nonce)) hj0 hj1 (by
      rw [hj0, hj1] at hne
      simpa using hne)
  exact ⟨p0, p1, h⟩

/-- **C91 fails, in a whole run.**  Clients with any vectors at all, whose reports are accepted in this way: if some
string is held by at least `max 1 threshold` of them, the run completes, excludes nobody, and its results are the sums of
these vectors. -/
theorem C91_false_run {c0 c1 : ServerCfg} {bld : Build} {cfg : Config} {kcs : Pair2 P}
    {d : Nat} {clients : List (List Bool × List Field128)}
    (hd : cfg.dataBits = some d) (hd2 : 2 ≤ d) (hb : 1 ≤ cfg.queryBatch) (hn : 1 ≤ cfg.histBuckets)
    (hn0 : kcs.1.inputLen = cfg.histBuckets) (hn1 : kcs.2.inputLen = cfg.histBuckets)
    (h0 : kcs.1.serverId = 0) (h1 : kcs.2.serverId ≠ 0) (hvk : kcs.1.verifyKey = kcs.2.verifyKey)
    (d0 : kcs.1.depth = some d) (d1 : kcs.2.depth = some d)
    (hp : Spec.AcceptedReports P cfg.histBuckets d kcs.1.serverId kcs.2.serverId kcs.1.verifyKey clients
      kcs.1.reportShares kcs.2.reportShares)
    (hlt : clients.length < 2 ^ 64)
    (hheavy : Spec.heavySums cfg.histBuckets (max 1 cfg.threshold) d clients ≠ []) :
    ∃ out, runWhh c0 c1 bld cfg kcs clients.length = .ok out ∧
      out.results.map (fun r => (r.path, r.value))
        = Spec.heavySums cfg.histBuckets (max 1 cfg.threshold) d clients ∧
      out.kcs.1.reportShares = kcs.1.reportShares ∧ out.kcs.2.reportShares = kcs.2.reportShares := by
  obtain ⟨hq, hw0, hw1, hF⟩ := accepted_lists hp
  have hm0 := masked_all hp.1
  have hm1 := masked_all hp.2.1
  have hcl : ∀ c ∈ clients, c.1.length = d := by
    intro c hc
    obtain ⟨i, hi⟩ := List.getElem?_of_mem hc
    have hil := (List.getElem?_eq_some_iff.1 hi).1
    obtain ⟨-, -, hlen, -⟩ := hp.2.2 i c _ _ _ _ hi
      (List.getElem?_eq_getElem (hp.1 ▸ hil)) (List.getElem?_eq_getElem (hp.2.1 ▸ hil))
    exact hlen
  obtain ⟨s, hs, hs'⟩ : ∃ s, s.length = d ∧ max 1 cfg.threshold ≤ clients.countP fun c => c.1 == s := by
    unfold Spec.heavySums at hheavy
    obtain ⟨y, hy⟩ := List.exists_mem_of_ne_nil _ hheavy
    obtain ⟨s, hs, -⟩ := List.mem_map.1 hy
    obtain ⟨hs1, hs2⟩ := List.mem_filter.1 hs
    exact ⟨s, mem_allPaths.1 hs1, by simpa using hs2⟩
  have hpos : 0 < clients.length := by
    have : clients.countP (fun c => c.1 == s) ≤ clients.length := List.countP_le_length
    omega
  have hrun := whh_decided (c0 := c0) (c1 := c1) (bld := bld) (cfg := cfg) hd hd2 hb hn hn0 hn1 h0 h1 hvk d0 d1
    hp.1 hp.2.1 (fun br hbr => (hw0 br hbr).2) (fun br hbr => (hw1 br hbr).2)
    (keep := List.replicate clients.length true) (by simp) (by
      intro i b0 b1 s0 s1 g0 g1
      have hil : i < clients.length := hp.1 ▸ (List.getElem?_eq_some_iff.1 g0).1
      obtain ⟨-, -, -, -, ⟨v0, v1, q0, q1, qd⟩, -⟩ :=
        hp.2.2 i clients[i] b0 b1 s0 s1 (List.getElem?_eq_getElem hil) g0 g1
      exact ⟨v0, v1, true, q0, q1, qd, by simp [hil]⟩)
    (by rw [hm0, hm1]; exact quiet_inner hq) (.inl (by rw [hm0, hm1]; exact hq))
    (by
      rw [hm0]
      cases hr : kcs.1.reportShares with
      | nil => rw [← hp.1, hr] at hpos; simp at hpos
      | cons r rs =>
        obtain ⟨hb, -⟩ := hw0 r (by rw [hr]; simp)
        simp [Spec.included, List.zipIdx_cons, hb])
  rw [hm0, hm1] at hrun
  have hheavy2 : Spec.heavyPaths P cfg.histBuckets (max 1 cfg.threshold)
      (Spec.keyPairs kcs.1.reportShares kcs.2.reportShares) (d - 2) ≠ [] := by
    refine List.ne_nil_of_mem (a := s.take (d - 2)) (List.mem_filter.2 ⟨mem_allPaths.2 (by simp [hs]), ?_⟩)
    by_cases hsne : s.take (d - 2) = []
    · rw [hsne]; simp [Spec.heavy]
    · rw [heavy_vecs hF hlt hsne (by simp), decide_eq_true_eq]
      refine hs'.trans ?_
      rw [List.countP_eq_length_filter]
      refine (List.monotone_filter_right clients fun c hc => ?_).length_le
      simp only [beq_iff_eq] at hc
      rw [List.isPrefixOf_iff_prefix, hc]
      exact List.take_prefix _ _
  obtain ⟨out, g1, g2, g3, g4, -⟩ := hrun.1 hheavy2
  exact ⟨out, g1, by rw [g4]; exact results_vecs hF (by omega) hlt hcl, g2, g3⟩

/-- **C91, for clients that send both servers joint randomness that agrees.**  If the two copies lead the servers to the
same joint randomness and the vector does not pass the circuit for it, then whatever the proof shares, the report passes
the FLP verification for at most `2 (points - 1)` query points.  Missing: the code has no way to see to that. -/
theorem C91_same_partial {n : Nat} (hn64 : n < 2 ^ 64) {id0 id1 : Int} (h0 : id0 = 0) (h1 : id1 ≠ 0)
    {alpha : List Bool} (ha : alpha ≠ []) {beta : List Field128} (hb : beta.length = n) {nonce : Block}
    {rs copy0 copy1 : Block × Block} {r0 r1 : Field128}
    (hj0 : P.xofField (Spec.jointPart P 0 rs.1 nonce) copy0.2.toList 2 = [r0, r1])
    (hj1 : P.xofField copy1.1 (Spec.jointPart P 1 rs.2 nonce).toList 2 = [r0, r1])
    (hck : Spec.histogramCheck r0 r1 beta ≠ 0) (p0 p1 : List Field128) :
    ∃ S : Finset Field128, S.card ≤ 2 * (Spec.points n 2 - 1) ∧ ∀ vk t, P.xofField vk nonce.toList 1 = [t] →
      Spec.FlpAccepted P.withHistogram n id0 id1 vk
        (Spec.copiesReport P.withHistogram alpha beta nonce rs p0 p1 copy0 copy1).1
        (Spec.copiesReport P.withHistogram alpha beta nonce rs p0 p1 copy0 copy1).2 → t ∈ S := by
  obtain ⟨b0, b1, ⟨l0, l1, hs⟩, hver⟩ := copies_verifiers (P := P.withHistogram) h0 h1 ha hb nonce rs
  by_cases hl : p0.length = p1.length
  · have hle := C82_sound (n := n) (c := 2) (by omega) hn64 (b0 := b0) (b1 := b1) (p0 := p0) (p1 := p1)
      (r0 := r0) (r1 := r1) (by omega) hl (by rw [hs]; exact hck)
    have : NeZero fieldModulus := ⟨by decide⟩
    have hfin : {t | Spec.Accepts n 2 b0 b1 p0 p1 t r0 r1}.Finite := Set.toFinite _
    refine ⟨hfin.toFinset, by rw [← Set.ncard_eq_toFinset_card _ hfin]; exact hle, ?_⟩
    rintro vk t ht ⟨v0, v1, q0, q1, hd⟩
    obtain ⟨e0, e1⟩ := hver vk p0 p1 copy0 copy1
    rw [Set.Finite.mem_toFinset]
    refine ⟨v0, v1, ?_, ?_, hd⟩
    · have q0 := e0.symm.trans q0
      have q0 : histQuery n 2 b0 p0 (P.xofField vk nonce.toList 1)
        (P.xofField (Spec.jointPart P 0 rs.1 nonce) copy0.2.toList 2) 2 = some v0 := q0
      rw [ht, hj0] at q0
      exact q0
    · have q1 := e1.symm.trans q1
      have q1 : histQuery n 2 b1 p1 (P.xofField vk nonce.toList 1)
        (P.xofField copy1.1 (Spec.jointPart P 1 rs.2 nonce).toList 2) 2 = some v1 := q1
      rw [ht, hj1] at q1
      exact q1
  · refine ⟨∅, by simp, ?_⟩
    rintro vk t ht ⟨v0, v1, q0, q1, hd⟩
    obtain ⟨e0, e1⟩ := hver vk p0 p1 copy0 copy1
    have q0 := e0.symm.trans q0
    have q1 := e1.symm.trans q1
    have q0 : histQuery n 2 b0 p0 (P.xofField vk nonce.toList 1)
      (P.xofField (Spec.jointPart P 0 rs.1 nonce) copy0.2.toList 2) 2 = some v0 := q0
    have q1 : histQuery n 2 b1 p1 (P.xofField vk nonce.toList 1)
      (P.xofField copy1.1 (Spec.jointPart P 1 rs.2 nonce).toList 2) 2 = some v1 := q1
    rw [ht, hj0] at q0
    rw [ht, hj1] at q1
    exact absurd ((histQuery_some.1 q0).2.1.trans (histQuery_some.1 q1).2.1.symm) hl

/-! ### Examples -/

/-- The forged report of the examples: the weights are 5 and 6, and server 0 is sent zeros as the part of server 1. -/
def splitReport : PlaintextReport × PlaintextReport :=
  let rs := (toyRand 0).rootSeeds
  let nonce := (toyRand 0).nonce
  let keys := VidpfKey.gen circToy.withHistogram rs [true, false] [5, 6]
  let shares := ([0, 0, 0, 0, -128, 0, 0], [0, 0, 0, 0, half + 140, -25, half + 12])
  (.mastic nonce keys shares (Spec.jointPart circToy 0 rs.1 nonce, Block.zero) [true, false],
    .mastic nonce keys shares (Spec.jointPart circToy 0 rs.1 nonce, Spec.jointPart circToy 1 rs.2 nonce) [true, false])

/-- The hypotheses of `C91_false_accepted` and `C91_false_one_copy` can be met: two buckets, the vector `5, 6`. -/
example : ∃ p0 p1, ∀ vk t, circToy.xofField vk (toyRand 0).nonce.toList 1 = [t] → t ^ Spec.points 2 2 ≠ 1 →
    Spec.FlpAccepted circToy.withHistogram 2 0 1 vk
      (Spec.copiesReport circToy.withHistogram [true, false] [5, 6] (toyRand 0).nonce (toyRand 0).rootSeeds p0 p1
        (Block.zero, Block.zero) (Spec.jointPart circToy 0 (toyRand 0).rootSeeds.1 (toyRand 0).nonce, Block.zero)).1
      (Spec.copiesReport circToy.withHistogram [true, false] [5, 6] (toyRand 0).nonce (toyRand 0).rootSeeds p0 p1
        (Block.zero, Block.zero) (Spec.jointPart circToy 0 (toyRand 0).rootSeeds.1 (toyRand 0).nonce, Block.zero)).2 := by
  obtain ⟨p0, p1, h, -⟩ := C91_false_accepted (P := circToy) (n := 2) (by omega) (by omega) (id0 := 0) (id1 := 1) rfl
    (by decide) (alpha := [true, false]) (by simp) (beta := [5, 6]) rfl (nonce := (toyRand 0).nonce)
    (rs := (toyRand 0).rootSeeds) (copy0 := (Block.zero, Block.zero))
    (copy1 := (Spec.jointPart circToy 0 (toyRand 0).rootSeeds.1 (toyRand 0).nonce, Block.zero))
    (r0 := 1) (r1 := 1) (s0 := 1) (s1 := 7) (by decide +kernel) (by decide +kernel) (by decide +kernel)
  exact ⟨p0, p1, h⟩

example : (circToy.xofField (Spec.jointPart circToy 0 (toyRand 0).rootSeeds.1 (toyRand 0).nonce)
      Block.zero.toList 2)[1]?
    ≠ (circToy.xofField (Spec.jointPart circToy 0 (toyRand 0).rootSeeds.1 (toyRand 0).nonce)
      (Spec.jointPart circToy 1 (toyRand 0).rootSeeds.2 (toyRand 0).nonce).toList 2)[1]? := by decide +kernel

/-- A run evaluated: the forged report and an honest one, both with string `10`, threshold 2.  Nobody is excluded, and the
run reports the "histogram" `5, 7` for two clients. -/
example : (do
    let rep ← genMasticReport circToy.withHistogram 2 [true, false] 1
      { toyRand 2 with proveRand := [1, 2, 3, 4] }
    let kcs : Pair2 circToy.withHistogram :=
      ({ KeyCollection.new circToy.withHistogram 2 0 (some 2) Block.zero with
          reportShares := [(true, splitReport.1.toShares.1), (true, rep.toShares.1)] },
        { KeyCollection.new circToy.withHistogram 2 1 (some 2) Block.zero with
          reportShares := [(true, splitReport.2.toShares.2), (true, rep.toShares.2)] })
    let out ← runWhh (toyCfg 0 (some 2) .debug) (toyCfg 1 (some 2) .debug) .debug
      ⟨some 2, 2, 1, 2, 1, 2⟩ kcs 2
    .ok (out.kcs.1.reportShares.map Prod.fst, out.results.map fun r => (r.path, r.value)) : Exec _)
    = .ok ([true, true], [([true, false], [5, 7, 2])]) := by decide +kernel

/-- For comparison: with one copy of the parts for both servers the same report is excluded. -/
example : (do
    let rep ← genMasticReport circToy.withHistogram 2 [true, false] 1
      { toyRand 2 with proveRand := [1, 2, 3, 4] }
    let kcs : Pair2 circToy.withHistogram :=
      ({ KeyCollection.new circToy.withHistogram 2 0 (some 2) Block.zero with
          reportShares := [(true, splitReport.2.toShares.1), (true, rep.toShares.1)] },
        { KeyCollection.new circToy.withHistogram 2 1 (some 2) Block.zero with
          reportShares := [(true, splitReport.2.toShares.2), (true, rep.toShares.2)] })
    let out ← runWhh (toyCfg 0 (some 2) .debug) (toyCfg 1 (some 2) .debug) .debug
      ⟨some 2, 2, 1, 2, 1, 1⟩ kcs 2
    .ok (out.kcs.1.reportShares.map Prod.fst, out.results.map fun r => (r.path, r.value)) : Exec _)
    = .ok ([false, true], [([true, false], [0, 1, 1])]) := by decide +kernel

/-- The hypotheses of `C91_false_run` can be met, with this report. -/
example : Spec.AcceptedReports circToy.withHistogram 2 2 0 1 Block.zero [([true, false], [5, 6])]
    [(true, splitReport.1.toShares.1)] [(true, splitReport.2.toShares.2)] := by
  refine ⟨rfl, rfl, ?_⟩
  intro i c b0 b1 s0 s1 hc g0 g1
  match i with
  | 0 =>
    cases hc; cases g0; cases g1
    refine ⟨rfl, rfl, rfl, rfl, ?_, _, _, _, _, _, _, rfl⟩
    have e : (do
        let v0 ← Spec.verifierOf circToy.withHistogram 2 0 Block.zero splitReport.1.toShares.1
        let v1 ← Spec.verifierOf circToy.withHistogram 2 1 Block.zero splitReport.2.toShares.2
        circToy.withHistogram.flpDecide 2 (Spec.addShares v0 v1)) = some true := by decide +kernel
    obtain ⟨v0, e0, e⟩ := Option.bind_eq_some_iff.1 e
    obtain ⟨v1, e1, e⟩ := Option.bind_eq_some_iff.1 e
    exact ⟨v0, v1, e0, e1, e⟩
  | _ + 1 => cases hc

/-- The hypotheses of `C91_same_partial` can be met: the vector `5, 6` with the parts of the code. -/
example (p0 p1 : List Field128) : ∃ S : Finset Field128, S.card ≤ 2 ∧
    ∀ vk t, circToy.xofField vk (toyRand 0).nonce.toList 1 = [t] →
    Spec.FlpAccepted circToy.withHistogram 2 0 1 vk
      (Spec.copiesReport circToy.withHistogram [true, false] [5, 6] (toyRand 0).nonce (toyRand 0).rootSeeds p0 p1
        (Block.zero, Spec.jointPart circToy 1 (toyRand 0).rootSeeds.2 (toyRand 0).nonce)
        (Spec.jointPart circToy 0 (toyRand 0).rootSeeds.1 (toyRand 0).nonce, Block.zero)).1
      (Spec.copiesReport circToy.withHistogram [true, false] [5, 6] (toyRand 0).nonce (toyRand 0).rootSeeds p0 p1
        (Block.zero, Spec.jointPart circToy 1 (toyRand 0).rootSeeds.2 (toyRand 0).nonce)
        (Spec.jointPart circToy 0 (toyRand 0).rootSeeds.1 (toyRand 0).nonce, Block.zero)).2 → t ∈ S := by
  obtain ⟨S, h1, h2⟩ := C91_same_partial (P := circToy) (n := 2) (by omega) (id0 := 0) (id1 := 1) rfl
    (by decide) (alpha := [true, false]) (by simp) (beta := [5, 6]) rfl (nonce := (toyRand 0).nonce)
    (rs := (toyRand 0).rootSeeds)
    (copy0 := (Block.zero, Spec.jointPart circToy 1 (toyRand 0).rootSeeds.2 (toyRand 0).nonce))
    (copy1 := (Spec.jointPart circToy 0 (toyRand 0).rootSeeds.1 (toyRand 0).nonce, Block.zero))
    (r0 := 1) (r1 := 7) (by decide +kernel) (by decide +kernel) (by decide +kernel) p0 p1
  exact ⟨S, h1.trans (by decide +kernel), h2⟩

end Mastic
