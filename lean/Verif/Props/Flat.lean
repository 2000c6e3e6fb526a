import Verif.Lemmas.Flat
import Verif.Props.Consistency
import Verif.Props.Split

/-!
# C73: how many strings are reported
-/

namespace Mastic

variable {P : Prims}

/-- The FLP verification accepts a flat report made from an honest one with equal root seeds. -/
theorem flat_verifiers {n : Nat} {id0 id1 : Int} {vk nonce : Block} (h0 : id0 = 0) (h1 : id1 ≠ 0)
    {k0 k1 : VidpfKey} {beta pr proof : List Field128} {rand : Nat → Field128} {bucket d : Nat} {ctr : Nat → Field128}
    (i0 : k0.keyIdx = false) (i1 : k1.keyIdx = true) (hs : k0.rootSeed = k1.rootSeed) (hd : 1 ≤ d)
    (hb : encodeMeasurement n bucket = some beta)
    (hp : P.flpProve n beta pr (P.xofField (clientJointRandParts P nonce k0 k1).1
      (clientJointRandParts P nonce k0 k1).2.toList (P.jointRandLen n)) = some proof)
    (hc : Spec.FlpCompleteAt P n (P.xofField vk nonce.toList (P.queryRandLen n))) :
    ∃ v0 v1,
      Spec.verifierOf P n id0 vk (.mastic nonce (Spec.flatKey beta ctr d k0) (shareProof proof rand).1
        (clientJointRandParts P nonce k0 k1)) = some v0 ∧
      Spec.verifierOf P n id1 vk (.mastic nonce (Spec.flatKey beta ctr d k1) (shareProof proof rand).2
        (clientJointRandParts P nonce k0 k1)) = some v1 ∧
      P.flpDecide n (Spec.addShares v0 v1) = some true := by
  obtain ⟨hbl, -⟩ := encodeMeasurement_length hb
  subst hbl
  have hv : ∀ b : Bool, ∃ v0 v1, Spec.valueAt P (Spec.flatKey beta ctr d k0) beta.length [b] = some v0 ∧
      Spec.valueAt P (Spec.flatKey beta ctr d k1) beta.length [b] = some v1 ∧ v0.length = beta.length + 1 ∧
      v1.length = beta.length + 1 ∧ Spec.addShares v0 v1 = Spec.flatValue beta ctr [b] := by
    intro b
    obtain ⟨st0, w0, st1, w1, e0, e1, -, -, -, -, -, -, h⟩ :=
      flat_walk (P := P) (beta := beta) (ctr := ctr) i0 i1 hs [b] (by simpa using hd)
    obtain ⟨v0, v1, rfl, rfl, l0, l1, hv⟩ := h (by simp)
    exact ⟨v0, v1, by unfold Spec.valueAt; rw [e0], by unfold Spec.valueAt; rw [e1], l0, l1, hv⟩
  obtain ⟨a0, a1, x0, x1, la0, la1, ha⟩ := hv false
  obtain ⟨b0, b1, y0, y1, lb0, lb1, hb'⟩ := hv true
  obtain ⟨sl0, sl1⟩ := shareProof_length proof rand
  have hsum : Spec.addShares ((Spec.addShares a0 b0).take beta.length) ((Spec.addShares a1 b1).take beta.length)
      = beta := by
    have q0 := addShares_length la0 lb0
    have q1 := addShares_length la1 lb1
    rw [← take_addShares]
    refine list_ext_getD (n := beta.length) (by rw [List.length_take, addShares_length q0 q1]; omega) rfl fun j => ?_
    by_cases hj : j < beta.length
    · have key : ∀ x : List Field128, (x.take beta.length).getD j 0 = x.getD j 0 := by
        intro x
        simp only [List.getD_eq_getElem?_getD, List.getElem?_take, if_pos hj]
      rw [key, addShares_getD q0 q1, addShares_getD la0 lb0, addShares_getD la1 lb1]
      have hA := congrArg (fun l : List Field128 => l.getD j 0) ha
      have hB := congrArg (fun l : List Field128 => l.getD j 0) hb'
      simp only [addShares_getD la0 la1, addShares_getD lb0 lb1, flatValue_getD_lt hj, List.length_singleton,
        pow_one] at hA hB
      linear_combination hA + hB + beta.getD j 0 * half_add_half
    · rw [List.getD_eq_default _ _ (by simp; omega), List.getD_eq_default _ _ (by omega)]
  obtain ⟨w0, w1, q0, q1, -, hdec⟩ := hc bucket beta pr _ proof _ _ _ _ hb hp
    (by rw [List.length_take, addShares_length la0 lb0]; omega)
    (by rw [List.length_take, addShares_length la1 lb1]; omega) hsum sl0 sl1 (shareProof_add proof rand)
  refine ⟨w0, w1, ?_, ?_, hdec⟩
  · simp only [Spec.verifierOf, x0, y0, Option.bind_eq_bind, Option.bind_some, h0, if_true]
    exact q0
  · simp only [Spec.verifierOf, x1, y1, Option.bind_eq_bind, Option.bind_some, h1, if_false]
    exact q1

/-- **C73 is false of the code (1).**  An honest client whose two root seeds are equal can replace its correction words,
in the same way in both halves of its report, so that the report shares its weight, halved once per bit, and any count at
*every* string of every length (one half at the strings of one bit).  The FLP verification accepts it and the crawl's
checks agree at every set of prefixes of every level. -/
theorem C73_false_report {n : Nat} {alpha : List Bool} {bucket : Nat} {s0 s1 : ReportShare} {k0 k1 : VidpfKey}
    (h : Spec.HonestPair P n alpha bucket s0 s1) (ha : alpha ≠ [])
    (hk0 : Spec.keyOf s0 = some k0) (hk1 : Spec.keyOf s1 = some k1) (hs : k0.rootSeed = k1.rootSeed)
    (ctr : Nat → Field128) (hctr : ctr 1 = Spec.half) :
    ∃ (beta : List Field128) (f0 f1 : VidpfKey), encodeMeasurement n bucket = some beta ∧
      Spec.keyOf (Spec.flatShare beta ctr alpha.length s0) = some f0 ∧
      Spec.keyOf (Spec.flatShare beta ctr alpha.length s1) = some f1 ∧
      f0.corWords = f1.corWords ∧ f0.cs = f1.cs ∧
      (∀ (id0 id1 : Int) (vk : Block), id0 = 0 → id1 ≠ 0 →
        Spec.FlpCompleteAt P n (P.xofField vk s0.nonce.toList (P.queryRandLen n)) →
        ∃ v0 v1, Spec.verifierOf P n id0 vk (Spec.flatShare beta ctr alpha.length s0) = some v0 ∧
          Spec.verifierOf P n id1 vk (Spec.flatShare beta ctr alpha.length s1) = some v1 ∧
          P.flpDecide n (Spec.addShares v0 v1) = some true) ∧
      Spec.QuietPair P n alpha.length f0 f1 ∧
      ∀ p : List Bool, p ≠ [] → p.length ≤ alpha.length →
        Spec.reconAt P f0 f1 n p = some (Spec.flatValue beta ctr p) := by
  obtain ⟨nonce, rs, beta, pr, proof, rand, hb, hp, rfl, rfl⟩ := honestPair_parts h
  have hkp := gen_keyPair P rs alpha beta
  obtain ⟨hbl, -⟩ := encodeMeasurement_length hb
  cases hk0; cases hk1
  have hal : 1 ≤ alpha.length := List.length_pos_of_ne_nil ha
  obtain ⟨g1, g2⟩ := flat_facts (P := P) (beta := beta) (ctr := ctr) (d := alpha.length) hkp.idx0 hkp.idx1 hs
  rw [hbl] at g1 g2
  refine ⟨beta, _, _, hb, rfl, rfl, rfl, rfl, fun id0 id1 vk h0 h1 hc => ?_, g2 hctr, g1⟩
  exact flat_verifiers h0 h1 hkp.idx0 hkp.idx1 hs hal hb hp hc

theorem holders_one (before after : List (List Bool × Nat)) (alpha : List Bool) (bucket : Nat) (p : List Bool) :
    (Spec.holders (before ++ (alpha, bucket) :: after) p).length
      = (Spec.holders (before ++ after) p).length + if p <+: alpha then 1 else 0 := by
  unfold Spec.holders
  simp only [List.filter_append, List.filter_cons, List.isPrefixOf_iff_prefix]
  split <;> simp <;> omega

theorem holderTotals_one {n bucket : Nat} {alpha : List Bool} {beta : List Field128}
    {before after : List (List Bool × Nat)} (hb : encodeMeasurement n bucket = some beta) (p : List Bool) (j : Nat) :
    (Spec.holderTotals n (before ++ (alpha, bucket) :: after) p).getD j 0
      = (Spec.holderTotals n (before ++ after) p).getD j 0 + (Spec.pointValue alpha beta p).getD j 0 := by
  obtain ⟨hbl, hbn⟩ := encodeMeasurement_length hb
  have hbe : ∀ i < n, beta[i]? = some (if bucket = i then 1 else 0) := by
    intro i hi
    unfold encodeMeasurement at hb
    rw [if_pos hbn] at hb
    cases hb
    rw [List.getElem?_set]; simp [hi]; split <;> simp_all
  have hht : ∀ cl, (Spec.holderTotals n cl p).length = n + 1 := by
    intro cl; simp [Spec.holderTotals, Spec.histogram]
  have hlo : ∀ cl, ∀ i < n, (Spec.holderTotals n cl p).getD i 0
      = ((((Spec.holders cl p).map Prod.snd).countP fun b => b == i : Nat) : Field128) := by
    intro cl i hi
    simp [Spec.holderTotals, Spec.histogram, List.getD_eq_getElem?_getD, List.getElem?_append, hi]
  have hhi : ∀ cl, (Spec.holderTotals n cl p).getD n 0 = ((Spec.holders cl p).length : Field128) := by
    intro cl
    simp [Spec.holderTotals, Spec.histogram, List.getD_eq_getElem?_getD, List.getElem?_append]
  rcases Nat.lt_trichotomy j n with hj | rfl | hj
  · rw [hlo _ j hj, hlo _ j hj]
    unfold Spec.pointValue Spec.holders
    simp only [List.filter_append, List.filter_cons, List.isPrefixOf_iff_prefix, List.map_append, List.countP_append]
    split
    · rw [List.getD_eq_getElem?_getD, List.getElem?_append_left (by omega), hbe j hj]
      simp only [List.map_cons, List.countP_cons, beq_iff_eq, Option.getD_some]
      split <;> push_cast <;> ring
    · simp [List.getD_eq_getElem?_getD, List.getElem?_replicate, hbl, hj.le]
  · rw [hhi, hhi, holders_one]
    unfold Spec.pointValue
    subst hbl
    split <;> simp [List.getD_eq_getElem?_getD, List.getElem?_append, List.getElem?_replicate]
  · rw [List.getD_eq_default _ _ (by rw [hht]; omega), List.getD_eq_default _ _ (by rw [hht]; omega),
      List.getD_eq_default _ _ (by rw [pointValue_length]; omega), add_zero]

theorem half_val {m : Nat} (hm : m + 1 < 2 ^ 64) : (((m : Nat) : Field128) + Spec.half).val % 2 ^ 64 = m + 1 := by
  unfold Spec.half
  have h1 : (fieldModulus + 1) / 2 + 2 ^ 64 < fieldModulus := by decide
  have h2 : (fieldModulus + 1) / 2 % 2 ^ 64 = 1 := by decide
  rw [← Nat.cast_add, ZMod.val_natCast_of_lt (by omega)]
  omega

/-- **C73 is false of the code (2).**  In a run with otherwise honest clients, one client whose two root seeds are equal
can make *every* string a heavy hitter, if for each first bit at most one holder is missing to reach the threshold: the
run completes, excludes nobody and reports all `2^d` strings, each with the honest totals plus the client's weight
divided by `2^d` and `max 1 threshold` added to the count. -/
theorem C73_false_run {c0 c1 : ServerCfg} {bld : Build} {cfg : Config} {kcs : Pair2 P}
    {d : Nat} {before after : List (List Bool × Nat)} {alpha : List Bool} {bucket : Nat}
    {A0 A1 B0 B1 : List (Bool × ReportShare)} {s0 s1 : ReportShare} {k0 k1 : VidpfKey}
    (hd : cfg.dataBits = some d) (hd2 : 2 ≤ d) (hb : 1 ≤ cfg.queryBatch) (hn : 1 ≤ cfg.histBuckets)
    (hn0 : kcs.1.inputLen = cfg.histBuckets) (hn1 : kcs.2.inputLen = cfg.histBuckets)
    (h0 : kcs.1.serverId = 0) (h1 : kcs.2.serverId ≠ 0) (hvk : kcs.1.verifyKey = kcs.2.verifyKey)
    (d0 : kcs.1.depth = some d) (d1 : kcs.2.depth = some d)
    (hr0 : kcs.1.reportShares = A0 ++ (true, s0) :: B0) (hr1 : kcs.2.reportShares = A1 ++ (true, s1) :: B1)
    (hA0 : A0.length = before.length) (hA1 : A1.length = before.length)
    (hh : Spec.HonestReports P cfg.histBuckets (before ++ (alpha, bucket) :: after) kcs.1.reportShares
      kcs.2.reportShares)
    (hc : Spec.FlpCompleteFor P cfg.histBuckets kcs.1.verifyKey kcs.1.reportShares)
    (hf0 : ∀ r ∈ kcs.1.reportShares, r.1 = true) (hf1 : ∀ r ∈ kcs.2.reportShares, r.1 = true)
    (hl : ∀ c ∈ before ++ (alpha, bucket) :: after, c.1.length = d)
    (hk0 : Spec.keyOf s0 = some k0) (hk1 : Spec.keyOf s1 = some k1) (hs : k0.rootSeed = k1.rootSeed)
    (hlt : (before ++ after).length + max 1 cfg.threshold < 2 ^ 64)
    (hhalf : ∀ b : Bool, max 1 cfg.threshold ≤ (Spec.holders (before ++ after) [b]).length + 1) :
    ∃ (beta : List Field128) (ctr : Nat → Field128) (out : WhhOut P),
      encodeMeasurement cfg.histBuckets bucket = some beta ∧
      runWhh c0 c1 bld cfg
        ({ kcs.1 with reportShares := A0 ++ (true, Spec.flatShare beta ctr d s0) :: B0 },
         { kcs.2 with reportShares := A1 ++ (true, Spec.flatShare beta ctr d s1) :: B1 })
        (before ++ (alpha, bucket) :: after).length = .ok out ∧
      (∀ r ∈ out.kcs.1.reportShares, r.1 = true) ∧ (∀ r ∈ out.kcs.2.reportShares, r.1 = true) ∧
      out.results.map (fun r => (r.path, r.value))
        = (Spec.allPaths d).map fun s => (s, Spec.addShares (Spec.holderTotals cfg.histBuckets (before ++ after) s)
            (beta.map (fun x => x * Spec.half ^ d) ++ [((max 1 cfg.threshold : Nat) : Field128)])) := by
  set T := max 1 cfg.threshold with hT
  have hm : Spec.HonestPair P cfg.histBuckets alpha bucket s0 s1 :=
    hh.2.2 before.length (alpha, bucket) (true, s0) (true, s1) (by simp)
      (by rw [hr0]; simp [← hA0]) (by rw [hr1]; simp [← hA1])
  have hal : alpha.length = d := hl (alpha, bucket) (by simp)
  have ha : alpha ≠ [] := by intro h; rw [h] at hal; simp at hal; omega
  let ctr : Nat → Field128 := fun l => if l = 1 then Spec.half else (T : Field128)
  obtain ⟨beta, f0, f1, e1, e2, e3, -, -, e4, e5, e6⟩ := C73_false_report hm ha hk0 hk1 hs ctr rfl
  rw [hal] at e2 e3 e4 e5 e6
  obtain ⟨hbl, -⟩ := encodeMeasurement_length e1
  have wf : ∀ s : ReportShare, (∃ k, Spec.keyOf s = some k) → Spec.WellFormed d (Spec.flatShare beta ctr d s) := by
    rintro s ⟨k, hk⟩
    cases s with
    | prio3 => cases hk
    | mastic nonce kk pr j => exact ⟨_, rfl, by simp [Spec.flatKey], by simp [Spec.flatKey]⟩
  let e : List Bool → List Field128 := fun p => Spec.subShares (Spec.flatValue beta ctr p) (Spec.pointValue alpha beta p)
  have hfl : ∀ p, (Spec.flatValue beta ctr p).length = cfg.histBuckets + 1 := fun p => by
    rw [flatValue_length, hbl]
  have hpl : ∀ p, (Spec.pointValue alpha beta p).length = cfg.histBuckets + 1 := fun p => by
    rw [pointValue_length, hbl]
  have hel : ∀ p, (e p).length = cfg.histBuckets + 1 := fun p => by
    simp only [e, Spec.subShares, List.length_zipWith, hfl, hpl, min_self]
  have heg : ∀ p j, (e p).getD j 0 = (Spec.flatValue beta ctr p).getD j 0 - (Spec.pointValue alpha beta p).getD j 0 := by
    intro p j
    simp only [e, Spec.subShares]
    by_cases hj : j < cfg.histBuckets + 1
    · simp [List.getD_eq_getElem?_getD, List.getElem?_zipWith, hfl, hpl, hj]
    · rw [List.getD_eq_default _ _ (by simp [hfl, hpl]; omega), List.getD_eq_default _ _ (by rw [hfl]; omega),
        List.getD_eq_default _ _ (by rw [hpl]; omega), sub_zero]
  have hadd : ∀ p, Spec.addShares (Spec.pointValue alpha beta p) (e p) = Spec.flatValue beta ctr p := by
    intro p
    refine list_ext_getD (addShares_length (hpl p) (hel p)) (hfl p) fun j => ?_
    rw [addShares_getD (hpl p) (hel p), heg]; ring
  have hpt : ∀ p, (Spec.pointValue alpha beta p).getD cfg.histBuckets 0 = if p <+: alpha then 1 else 0 := by
    intro p
    rw [← hbl]
    unfold Spec.pointValue
    split <;> simp [List.getD_eq_getElem?_getD, List.getElem?_append, List.getElem?_replicate]
  have hcount : ∀ p, p ≠ [] → T ≤ Spec.shiftedCount (before ++ (alpha, bucket) :: after)
      (fun p => (e p).getD cfg.histBuckets 0) p := by
    intro p hne
    unfold Spec.shiftedCount
    dsimp only
    rw [heg, hpt, holders_one]
    have hfv : (Spec.flatValue beta ctr p).getD cfg.histBuckets 0 = ctr p.length := by
      rw [← hbl]; exact flatValue_getD_last _ _ _
    rw [hfv]
    have hx : ((((Spec.holders (before ++ after) p).length + if p <+: alpha then 1 else 0 : Nat)) : Field128)
        + (ctr p.length - if p <+: alpha then 1 else 0)
        = (((Spec.holders (before ++ after) p).length : Nat) : Field128) + ctr p.length := by
      split <;> push_cast <;> ring
    rw [hx]
    have hhl : (Spec.holders (before ++ after) p).length ≤ (before ++ after).length := List.length_filter_le _ _
    generalize hH : (Spec.holders (before ++ after) p).length = H at hhl ⊢
    generalize (before ++ after).length = L at hhl hlt
    have hT1 : 1 ≤ T := le_max_left _ _
    by_cases h1 : p.length = 1
    · simp only [ctr, if_pos h1]
      rw [half_val (by omega)]
      obtain ⟨b, rfl⟩ := List.length_eq_one_iff.1 h1
      rw [← hH]; exact hhalf b
    · simp only [ctr, if_neg h1]
      have hmod : 2 ^ 64 < fieldModulus := by decide
      rw [← Nat.cast_add, ZMod.val_natCast_of_lt (by omega), Nat.mod_eq_of_lt (by omega)]
      omega
  have hall : ∀ m, Spec.shiftedHeavy T m (before ++ (alpha, bucket) :: after)
      (fun p => (e p).getD cfg.histBuckets 0) = Spec.allPaths m := by
    intro m
    unfold Spec.shiftedHeavy
    rw [List.filter_eq_self]
    intro s _
    simp only [List.all_eq_true, Bool.or_eq_true, List.isEmpty_iff, decide_eq_true_eq]
    intro q _
    by_cases hq : q = []
    · exact .inl hq
    · exact .inr (hcount q hq)
  obtain ⟨out, o1, o2, o3, o4⟩ := replace_run (c0 := c0) (c1 := c1) (bld := bld) (kcs := kcs)
    (t0 := Spec.flatShare beta ctr d s0) (t1 := Spec.flatShare beta ctr d s1) (e := e)
    hd hd2 hb hn hn0 hn1 h0 h1 hvk d0 d1 hr0 hr1 hA0 hA1 hh hc hf0 hf1 hl e2 e3
    (wf s0 ⟨_, hk0⟩) (wf s1 ⟨_, hk1⟩) e1 (e4 _ _ _ h0 h1 (hc (true, s0) (by rw [hr0]; simp))) e5
    (fun p hne hp => ⟨hel p, by rw [hadd]; exact e6 p hne hp⟩)
    (by
      rw [← hT, hall]
      intro h
      have := allPaths_length (d - 2)
      rw [h] at this
      have h2 := Nat.two_pow_pos (d - 2)
      rw [← this] at h2
      exact absurd h2 (by simp))
  refine ⟨beta, ctr, out, e1, o1, o2, o3, o4.trans ?_⟩
  rw [← hT, hall]
  refine List.map_congr_left fun s hs => ?_
  have hsl := mem_allPaths.1 hs
  refine Prod.ext rfl ?_
  have hht : ∀ cl, (Spec.holderTotals cfg.histBuckets cl s).length = cfg.histBuckets + 1 := by
    intro cl; simp [Spec.holderTotals, Spec.histogram]
  have hfv : beta.map (fun x => x * Spec.half ^ d) ++ [(T : Field128)] = Spec.flatValue beta ctr s := by
    simp only [Spec.flatValue, hsl, ctr, if_neg (show ¬ d = 1 by omega)]
  dsimp only
  rw [hfv]
  refine list_ext_getD (addShares_length (hht _) (hel s)) (addShares_length (hht _) (hfl s)) fun j => ?_
  rw [addShares_getD (hht _) (hel s), addShares_getD (hht _) (hfl s), heg]
  have hpv : (Spec.holderTotals cfg.histBuckets (before ++ (alpha, bucket) :: after) s).getD j 0
      = (Spec.holderTotals cfg.histBuckets (before ++ after) s).getD j 0 + (Spec.pointValue alpha beta s).getD j 0 := by
    exact holderTotals_one e1 s j
  rw [hpv]; ring

/-- **C73 for runs of honest clients** (what is missing: runs with clients that deviate, for which
`C73_false_run` shows that the claim fails).  A completed run of the driver reports at most one string for every
`max 1 threshold` clients. -/
theorem C73_bound_partial {c0 c1 : ServerCfg} {cfg : Config} {bld : Build} {draw : MainDraw} {n d : Nat}
    {clients : List (List Bool × Nat)} {kcs : Pair2 P} {out : WhhOut P}
    (h : Spec.WhhRun P c0 c1 cfg draw n d clients)
    (hout : driverMain c0 c1 bld cfg .weightedHeavyHitters draw n kcs = .ok (.whh out)) :
    (out.results.map (·.path)).Nodup ∧ out.results.length ≤ clients.length / max 1 cfg.threshold := by
  obtain ⟨-, h2, -, h3⟩ := C71_totals h hout
  exact ⟨h2, (Nat.le_div_iff_mul_le (by omega)).2 h3⟩

/-- Toy randomness of a client with equal root seeds. -/
def toyEqualRand : ClientRand := { toyRand 9 with rootSeeds := ((toyRand 9).rootSeeds.1, (toyRand 9).rootSeeds.1) }

/-- The hypotheses of `C73_false_report` can be met. -/
theorem toy_equal_seeds {n bucket : Nat} (h : bucket < n) (alpha : List Bool) : ∃ s0 s1 k0 k1,
    Spec.HonestPair toy n alpha bucket s0 s1 ∧ Spec.keyOf s0 = some k0 ∧ Spec.keyOf s1 = some k1 ∧
    k0.rootSeed = k1.rootSeed := by
  obtain ⟨r, hr⟩ := toy_gen_ok h alpha toyEqualRand
  have hp : Spec.HonestPair toy n alpha bucket r.toShares.1 r.toShares.2 := ⟨_, r, hr, rfl⟩
  unfold genMasticReport at hr
  obtain ⟨beta, hb, hg⟩ := bind_eq_ok.1 hr
  dsimp only at hg
  obtain ⟨proof, -, hg⟩ := bind_eq_ok.1 hg
  simp only [Except.ok.injEq] at hg
  subst hg
  exact ⟨_, _, _, _, hp, rfl, rfl, rfl⟩

/-- A toy run with threshold 2 and three clients that all hold different strings, of which two start with `1`:
an honest run reports nothing.  The first client, with equal root seeds, makes it report all eight strings. -/
example : Spec.heavyHitters 1 2 3 [([true, false, true], 0), ([true, true, true], 0), ([false, false, true], 0)] = [] ∧
    ∃ (kcs : Pair2 toy) (out : WhhOut toy),
    runWhh (toyCfg 0 (some 3) .debug) (toyCfg 1 (some 3) .debug) .debug ⟨some 3, 1, 1, 2, 1, 2⟩ kcs 3
      = .ok out ∧
    out.results.map (fun r => r.path) = Spec.allPaths 3 := by
  refine ⟨by decide +kernel, ?_⟩
  obtain ⟨kcs, h1, h2, h3, h4, h5, h6, h7, ⟨h8, h8', h8''⟩, h9, h10⟩ :=
    toy_honest 1 3 [([true, true, true], 0), ([false, false, true], 0)] (by decide)
  obtain ⟨s0, s1, k0, k1, h, hk0, hk1, hs⟩ := toy_equal_seeds (n := 1) (bucket := 0) (by omega) [true, false, true]
  obtain ⟨beta, ctr, out, -, g1, -, -, g2⟩ := C73_false_run (c0 := toyCfg 0 (some 3) .debug)
    (c1 := toyCfg 1 (some 3) .debug) (bld := .debug) (cfg := ⟨some 3, 1, 1, 2, 1, 2⟩) (d := 3)
    (kcs := ({ kcs.1 with reportShares := (true, s0) :: kcs.1.reportShares },
      { kcs.2 with reportShares := (true, s1) :: kcs.2.reportShares }))
    (before := []) (after := [([true, true, true], 0), ([false, false, true], 0)]) (alpha := [true, false, true])
    (bucket := 0) (A0 := []) (A1 := []) (B0 := kcs.1.reportShares) (B1 := kcs.2.reportShares)
    rfl (by decide) (by decide) (by decide) h1 h2 h3 (by dsimp only; rw [h4]; decide) h5 h6 h7 rfl rfl rfl rfl
    ⟨by simp [h8], by simp [h8'], by
      rintro (_ | i) c' q0 q1 e0 e1 e2
      · cases e0; cases e1; cases e2
        exact h
      · exact h8'' i c' q0 q1 (by simpa using e0) (by simpa using e1) (by simpa using e2)⟩
    (fun _ _ => toy_flpComplete _ _) (by simpa using h9) (by simpa using h10) (by decide) hk0 hk1 hs
    (by decide) (by decide +kernel)
  refine ⟨_, out, g1, ?_⟩
  have := congrArg (List.map Prod.fst) g2
  rw [List.map_map, List.map_map] at this
  exact this.trans (List.map_id _)

/-- The hypotheses of `C73_bound_partial` can be met by a run that completes: three clients and the threshold 1. -/
example (kcs : Pair2 toy) : ∃ out : WhhOut toy,
    driverMain (toyCfg 0 (some 2) .debug) (toyCfg 1 (some 2) .release) .debug (halfFile.toConfig 3)
      .weightedHeavyHitters halfDraw 3 kcs = .ok (.whh out) ∧
    out.results.length ≤ ((Spec.mainClients 2 2 halfDraw 3).filterMap id).length / max 1 (halfFile.toConfig 3).threshold := by
  obtain ⟨out, h⟩ := half_ends kcs
  exact ⟨out, h, (C73_bound_partial half_whhRun h).2⟩

end Mastic
