import Verif.Lemmas.Batch
import Verif.Lemmas.Sim

/-!
# FLP plumbing: honest reports and the driver's verification loop
-/

namespace Mastic

variable {P : Prims}

/-- The parts of an honest report. -/
theorem honestPair_parts {n : Nat} {alpha : List Bool} {bucket : Nat} {s0 s1 : ReportShare}
    (h : Spec.HonestPair P n alpha bucket s0 s1) :
    ∃ (nonce : Block) (rs : Block × Block) (beta pr proof : List Field128) (rand : Nat → Field128),
      encodeMeasurement n bucket = some beta ∧
      P.flpProve n beta pr (P.xofField
        (clientJointRandParts P nonce (VidpfKey.gen P rs alpha beta).1
          (VidpfKey.gen P rs alpha beta).2).1
        (clientJointRandParts P nonce (VidpfKey.gen P rs alpha beta).1
          (VidpfKey.gen P rs alpha beta).2).2.toList (P.jointRandLen n)) = some proof ∧
      s0 = .mastic nonce (VidpfKey.gen P rs alpha beta).1 (shareProof proof rand).1
        (clientJointRandParts P nonce (VidpfKey.gen P rs alpha beta).1
          (VidpfKey.gen P rs alpha beta).2) ∧
      s1 = .mastic nonce (VidpfKey.gen P rs alpha beta).2 (shareProof proof rand).2
        (clientJointRandParts P nonce (VidpfKey.gen P rs alpha beta).1
          (VidpfKey.gen P rs alpha beta).2) := by
  obtain ⟨rand, rep, hg, hs⟩ := h
  unfold genMasticReport at hg
  obtain ⟨beta, hb, hg⟩ := bind_eq_ok.1 hg
  dsimp only at hg
  obtain ⟨proof, hp, hg⟩ := bind_eq_ok.1 hg
  simp only [Except.ok.injEq] at hg
  subst hg
  simp only [PlaintextReport.toShares, Prod.mk.injEq] at hs
  exact ⟨rand.nonce, rand.rootSeeds, beta, rand.proveRand, proof, rand.proofRand,
    unwrapO_eq_ok.1 hb, unwrapO_eq_ok.1 hp, hs.1, hs.2⟩

theorem encodeMeasurement_length {n b : Nat} {beta : List Field128}
    (h : encodeMeasurement n b = some beta) : beta.length = n ∧ b < n := by
  unfold encodeMeasurement at h
  split at h
  · cases h; rename_i hb; exact ⟨by simp, hb⟩
  · cases h

theorem shareProof_add (proof : List Field128) (rand : Nat → Field128) :
    Spec.addShares (shareProof proof rand).1 (shareProof proof rand).2 = proof := by
  refine List.ext_getElem (by simp [Spec.addShares, shareProof]) fun i h1 h2 => ?_
  simp [Spec.addShares, shareProof]

theorem shareProof_length (proof : List Field128) (rand : Nat → Field128) :
    (shareProof proof rand).1.length = proof.length ∧
      (shareProof proof rand).2.length = proof.length := by simp [shareProof]

/-- The joint randomness of both servers for an honest report. -/
theorem jointRand_honest {n : Nat} {nonce : Block} {k0 k1 : VidpfKey} {p0 p1 : List Field128}
    {c0 c1 : KeyCollection P} (hn0 : c0.inputLen = n) (hn1 : c1.inputLen = n)
    (h0 : c0.serverId = 0) (h1 : c1.serverId ≠ 0) {i : Nat} {b0 b1 : Bool}
    (hr0 : c0.reportShares[i]? = some (b0, .mastic nonce k0 p0 (clientJointRandParts P nonce k0 k1)))
    (hr1 : c1.reportShares[i]? = some (b1, .mastic nonce k1 p1 (clientJointRandParts P nonce k0 k1))) :
    c0.flpJointRand i = .ok (P.xofField (clientJointRandParts P nonce k0 k1).1
      (clientJointRandParts P nonce k0 k1).2.toList (P.jointRandLen n)) ∧
    c1.flpJointRand i = .ok (P.xofField (clientJointRandParts P nonce k0 k1).1
      (clientJointRandParts P nonce k0 k1).2.toList (P.jointRandLen n)) := by
  constructor
  · unfold KeyCollection.flpJointRand
    rw [idx_eq_ok.2 hr0]
    simp only [ok_bind, ReportShare.unwrapFlpJointRandParts, ReportShare.unwrapVidpfKey,
      ReportShare.nonce, h0, if_true, hn0]
    rfl
  · unfold KeyCollection.flpJointRand
    rw [idx_eq_ok.2 hr1]
    simp only [ok_bind, ReportShare.unwrapFlpJointRandParts, ReportShare.unwrapVidpfKey,
      ReportShare.nonce, h1, if_false, hn1]
    rfl

theorem queryRand_eq {kc : KeyCollection P} {i : Nat} {b : Bool} {r : ReportShare}
    (hr : kc.reportShares[i]? = some (b, r)) :
    kc.flpQueryRand i = .ok (P.xofField kc.verifyKey r.nonce.toList (P.queryRandLen kc.inputLen)) := by
  unfold KeyCollection.flpQueryRand
  rw [idx_eq_ok.2 hr]; rfl

/-- The share of the weight that goes into the FLP query. -/
theorem betaShare_eq {n : Nat} {y0 y1 : List Field128} (h0 : y0.length = n + 1)
    (h1 : y1.length = n + 1) :
    vecAdd (vecAdd (List.replicate n 0) y0) y1 = (Spec.addShares y0 y1).take n := by
  refine List.ext_getElem? fun i => ?_
  simp only [vecAdd_getElem?, List.getElem?_take]
  by_cases hi : i < n
  · have e0 : y0[i]? = some (y0[i]'(by omega)) := List.getElem?_eq_getElem _
    have e1 : y1[i]? = some (y1[i]'(by omega)) := List.getElem?_eq_getElem _
    simp [hi, e0, e1, addShares_getElem? e0 e1]
  · simp [hi]

/-- Sums of the two servers' weight shares for an honest report. -/
theorem betaShares_sum {n : Nat} {alpha : List Bool} {beta : List Field128}
    {a0 b0 a1 b1 : List Field128} (ha : alpha ≠ []) (hb : beta.length = n)
    (la0 : a0.length = n + 1) (lb0 : b0.length = n + 1) (la1 : a1.length = n + 1)
    (lb1 : b1.length = n + 1) (hl : Spec.addShares a0 a1 = Spec.pointValue alpha beta [false])
    (hr : Spec.addShares b0 b1 = Spec.pointValue alpha beta [true]) :
    Spec.addShares ((Spec.addShares a0 b0).take n) ((Spec.addShares a1 b1).take n) = beta := by
  rw [← take_addShares]
  have hsum : Spec.addShares (Spec.addShares a0 b0) (Spec.addShares a1 b1) = beta ++ [1] := by
    have hp := pointValue_children alpha beta [] (by cases alpha <;> simp at ha ⊢)
    simp only [List.nil_append] at hp
    rw [← hl, ← hr] at hp
    have : Spec.pointValue alpha beta [] = beta ++ [1] := by simp [Spec.pointValue]
    rw [← this, hp]
    refine list_ext_getD (n := n + 1) (addShares_length (addShares_length la0 lb0)
      (addShares_length la1 lb1)) (addShares_length (addShares_length la0 la1)
      (addShares_length lb0 lb1)) fun i => ?_
    rw [addShares_getD (addShares_length la0 lb0) (addShares_length la1 lb1),
      addShares_getD (addShares_length la0 la1) (addShares_length lb0 lb1),
      addShares_getD la0 lb0, addShares_getD la1 lb1, addShares_getD la0 la1,
      addShares_getD lb0 lb1]
    ring
  rw [hsum, ← hb]; simp

/-- What an exact node holds for a report, as a value. -/
theorem nodeExact_value {n : Nat} {reports : List ReportShare} {node : TreeNode}
    (hx : Spec.NodeExact P n reports node) (hne : node.path ≠ []) {i : Nat} {r : ReportShare}
    {key : VidpfKey} (hr : reports[i]? = some r) (hk : Spec.keyOf r = some key) :
    ∃ v, node.keyValues[i]? = some v ∧ Spec.valueAt P key n node.path = some v ∧
      v.length = n + 1 := by
  obtain ⟨key', st, w, hk', he, hs, hv⟩ := hx.2.2 i r hr
  rw [hk] at hk'; cases hk'
  obtain ⟨v, rfl, hl⟩ := (evalPath_word he).2 hne
  exact ⟨v, by simpa using hv, by unfold Spec.valueAt; rw [he], hl⟩

/-- The two FLP queries for an honest report: same randomness, inputs and proofs that add up. -/
theorem honest_flp_queries {n : Nat} {c0 c1 : KeyCollection P} (hn0 : c0.inputLen = n)
    (hn1 : c1.inputLen = n) (h0 : c0.serverId = 0) (h1 : c1.serverId ≠ 0)
    (hvk : c0.verifyKey = c1.verifyKey) {i bucket : Nat} {b0 b1 : Bool} {alpha : List Bool}
    {s0 s1 : ReportShare} (ha : alpha ≠ []) (hh : Spec.HonestPair P n alpha bucket s0 s1)
    (hr0 : c0.reportShares[i]? = some (b0, s0)) (hr1 : c1.reportShares[i]? = some (b1, s1))
    {l0 r0 l1 r1 : TreeNode}
    (xl0 : Spec.NodeExact P n (c0.reportShares.map Prod.snd) l0) (pl0 : l0.path = [false])
    (xr0 : Spec.NodeExact P n (c0.reportShares.map Prod.snd) r0) (pr0 : r0.path = [true])
    (xl1 : Spec.NodeExact P n (c1.reportShares.map Prod.snd) l1) (pl1 : l1.path = [false])
    (xr1 : Spec.NodeExact P n (c1.reportShares.map Prod.snd) r1) (pr1 : r1.path = [true]) :
    ∃ beta pr J proof x0 x1 p0 p1,
      encodeMeasurement n bucket = some beta ∧ P.flpProve n beta pr J = some proof ∧
      x0.length = n ∧ x1.length = n ∧ Spec.addShares x0 x1 = beta ∧
      p0.length = proof.length ∧ p1.length = proof.length ∧ Spec.addShares p0 p1 = proof ∧
      c0.flpQueryClient l0 r0 i
        = unwrapO (P.flpQuery n x0 p0 (P.xofField c0.verifyKey s0.nonce.toList (P.queryRandLen n)) J) ∧
      c1.flpQueryClient l1 r1 i
        = unwrapO (P.flpQuery n x1 p1 (P.xofField c0.verifyKey s0.nonce.toList (P.queryRandLen n)) J) := by
  obtain ⟨nonce, rs, beta, pr, proof, rand, hb, hp, e0, e1⟩ := honestPair_parts hh
  obtain ⟨hbl, hbn⟩ := encodeMeasurement_length hb
  have hs0 : (c0.reportShares.map Prod.snd)[i]? = some s0 := by simp [hr0]
  have hs1 : (c1.reportShares.map Prod.snd)[i]? = some s1 := by simp [hr1]
  have k0 : Spec.keyOf s0 = some (VidpfKey.gen P rs alpha beta).1 := by rw [e0]; rfl
  have k1 : Spec.keyOf s1 = some (VidpfKey.gen P rs alpha beta).2 := by rw [e1]; rfl
  obtain ⟨a0, va0, wa0, la0⟩ := nodeExact_value xl0 (by simp [pl0]) hs0 k0
  obtain ⟨d0, vd0, wd0, ld0⟩ := nodeExact_value xr0 (by simp [pr0]) hs0 k0
  obtain ⟨a1, va1, wa1, la1⟩ := nodeExact_value xl1 (by simp [pl1]) hs1 k1
  obtain ⟨d1, vd1, wd1, ld1⟩ := nodeExact_value xr1 (by simp [pr1]) hs1 k1
  have hal : 1 ≤ alpha.length := by cases alpha <;> simp at ha ⊢
  obtain ⟨u0, u1, g0, g1, gs⟩ := honest_values P rs alpha beta [false] (by simp) (by simpa using hal)
  obtain ⟨w0, w1, q0, q1, qs⟩ := honest_values P rs alpha beta [true] (by simp) (by simpa using hal)
  rw [hbl] at g0 g1 q0 q1
  rw [pl0, g0] at wa0; rw [pl1, g1] at wa1; rw [pr0, q0] at wd0; rw [pr1, q1] at wd1
  cases wa0; cases wa1; cases wd0; cases wd1
  obtain ⟨j0, j1⟩ := jointRand_honest hn0 hn1 h0 h1 (e0 ▸ hr0) (e1 ▸ hr1)
  refine ⟨beta, pr, _, proof, (Spec.addShares a0 d0).take n, (Spec.addShares a1 d1).take n,
    (shareProof proof rand).1, (shareProof proof rand).2, hb, hp, ?_, ?_,
    betaShares_sum ha hbl la0 ld0 la1 ld1 gs qs, (shareProof_length _ _).1,
    (shareProof_length _ _).2, shareProof_add _ _, ?_, ?_⟩
  · rw [List.length_take, addShares_length la0 ld0]; omega
  · rw [List.length_take, addShares_length la1 ld1]; omega
  · unfold KeyCollection.flpQueryClient
    rw [idx_eq_ok.2 va0, ok_bind, idx_eq_ok.2 vd0, ok_bind, idx_eq_ok.2 hr0, ok_bind, e0]
    simp only [ReportShare.unwrapFlpProofShare, ok_bind]
    rw [queryRand_eq hr0, ok_bind, j0, ok_bind, hn0, betaShare_eq la0 ld0, e0]
  · unfold KeyCollection.flpQueryClient
    rw [idx_eq_ok.2 va1, ok_bind, idx_eq_ok.2 vd1, ok_bind, idx_eq_ok.2 hr1, ok_bind, e1]
    simp only [ReportShare.unwrapFlpProofShare, ok_bind]
    rw [queryRand_eq hr1, ok_bind, j1, ok_bind, hn1, betaShare_eq la1 ld1, e1, e0, hvk]
    rfl

/-- An honest report is accepted. -/
theorem honest_flp_accepted {n : Nat} {c0 c1 : KeyCollection P} (hn0 : c0.inputLen = n)
    (hn1 : c1.inputLen = n) (h0 : c0.serverId = 0) (h1 : c1.serverId ≠ 0)
    (hvk : c0.verifyKey = c1.verifyKey) {i bucket : Nat} {b0 b1 : Bool} {alpha : List Bool}
    {s0 s1 : ReportShare} (ha : alpha ≠ []) (hh : Spec.HonestPair P n alpha bucket s0 s1)
    (hc : Spec.FlpCompleteAt P n (P.xofField c0.verifyKey s0.nonce.toList (P.queryRandLen n)))
    (hr0 : c0.reportShares[i]? = some (b0, s0)) (hr1 : c1.reportShares[i]? = some (b1, s1))
    {l0 r0 l1 r1 : TreeNode}
    (xl0 : Spec.NodeExact P n (c0.reportShares.map Prod.snd) l0) (pl0 : l0.path = [false])
    (xr0 : Spec.NodeExact P n (c0.reportShares.map Prod.snd) r0) (pr0 : r0.path = [true])
    (xl1 : Spec.NodeExact P n (c1.reportShares.map Prod.snd) l1) (pl1 : l1.path = [false])
    (xr1 : Spec.NodeExact P n (c1.reportShares.map Prod.snd) r1) (pr1 : r1.path = [true]) :
    ∃ v0 v1, c0.flpQueryClient l0 r0 i = .ok v0 ∧ c1.flpQueryClient l1 r1 i = .ok v1 ∧
      v0.length = v1.length ∧ P.flpDecide n (Spec.addShares v0 v1) = some true := by
  obtain ⟨beta, pr, J, proof, x0, x1, p0, p1, hb, hp, l0', l1', hx, m0, m1, hpp, e0, e1⟩ :=
    honest_flp_queries hn0 hn1 h0 h1 hvk ha hh hr0 hr1 xl0 pl0 xr0 pr0 xl1 pl1 xr1 pr1
  obtain ⟨v0, v1, q0, q1, hl, hd⟩ := hc bucket beta pr J proof x0 x1 p0 p1 hb hp
    (by rw [l0', (encodeMeasurement_length hb).1]) (by rw [l1', (encodeMeasurement_length hb).1])
    hx m0 m1 hpp
  exact ⟨v0, v1, by rw [e0, q0]; rfl, by rw [e1, q1]; rfl, hl, hd⟩

/-- The indices of one FLP request. -/
theorem filter_range {m s e : Nat} (he : e ≤ m) :
    (List.range m).filter (fun i => decide (s ≤ i) && decide (i < e)) = List.range' s (e - s) := by
  rcases Nat.lt_or_ge e s with h | h
  · rw [show e - s = 0 by omega]
    simp only [List.range'_zero, List.filter_eq_nil_iff, List.mem_range, Bool.and_eq_true,
      decide_eq_true_eq]
    omega
  have h1 : List.range m = List.range' 0 (s - 0) ++ (List.range' s (e - s) ++ List.range' e (m - e)) := by
    rw [range'_split h he, range'_split (Nat.zero_le s) (by omega), Nat.sub_zero, List.range_eq_range']
  rw [h1, List.filter_append, List.filter_append]
  have e1 : (List.range' 0 (s - 0)).filter (fun i => decide (s ≤ i) && decide (i < e)) = [] := by
    simp only [List.filter_eq_nil_iff, List.mem_range'_1, Bool.and_eq_true, decide_eq_true_eq]
    omega
  have e2 : (List.range' e (m - e)).filter (fun i => decide (s ≤ i) && decide (i < e)) = [] := by
    simp only [List.filter_eq_nil_iff, List.mem_range'_1, Bool.and_eq_true, decide_eq_true_eq]
    omega
  have e3 : (List.range' s (e - s)).filter (fun i => decide (s ≤ i) && decide (i < e))
      = List.range' s (e - s) := by
    simp only [List.filter_eq_self, List.mem_range'_1, Bool.and_eq_true, decide_eq_true_eq]
    omega
  rw [e1, e2, e3]; simp

theorem foldl_flags_getElem? : ∀ (keep : List Bool) (k : Nat) (fl : List Bool) (i : Nat),
    ((keep.zipIdx k).foldl (fun fl ai => if ai.1 then fl else fl.set ai.2 false) fl)[i]?
      = (fl[i]?).map fun b => b && ((if k ≤ i then keep[i - k]? else none).getD true)
  | [], k, fl, i => by simp
  | b :: keep, k, fl, i => by
    simp only [List.zipIdx_cons, List.foldl_cons]
    rw [foldl_flags_getElem? keep (k + 1)]
    rcases Nat.lt_trichotomy i k with h | h | h
    · have h1 : ¬ k ≤ i := by omega
      have h2 : ¬ k + 1 ≤ i := by omega
      cases b
      · simp [h1, h2, List.getElem?_set_ne (show k ≠ i by omega)]
      · simp [h1, h2]
    · subst h
      cases b
      · simp [List.getElem?_set]
        by_cases hi : i < fl.length
        · simp [hi]
        · simp [hi]
      · simp
    · have h1 : k ≤ i := by omega
      have h2 : k + 1 ≤ i := by omega
      have h3 : i - k = (i - (k + 1)) + 1 := by omega
      cases b
      · simp [h1, h2, h3, List.getElem?_set_ne (show k ≠ i by omega)]
      · simp [h1, h2, h3]

theorem masked_snd {reports : List (Bool × ReportShare)} {keep : List Bool}
    (h : reports.length = keep.length) :
    (Spec.masked reports keep).map Prod.snd = reports.map Prod.snd := by
  induction reports generalizing keep with
  | nil => rfl
  | cons r rs ih =>
    cases keep with
    | nil => simp at h
    | cons k ks => simpa [Spec.masked] using ih (by simpa using h)

/-- `apply_flp_results` exactly. -/
theorem applyFlp_exact (kc : KeyCollection P) (keep : List Bool)
    (hl : keep.length = kc.reportShares.length) :
    kc.applyFlpResults keep = .ok { kc with reportShares := Spec.masked kc.reportShares keep } := by
  have hret : Returns (kc.applyFlpResults keep) := by
    have : ∀ (ks : List (Bool × Nat)) (rs : List (Bool × ReportShare)), (∀ k ∈ ks, k.2 < rs.length) →
        Returns (foldE (fun rs (ai : Bool × Nat) =>
          if ai.1 then (.ok rs : Exec (List (Bool × ReportShare)))
          else do
            let r ← idx rs ai.2
            .ok (rs.set ai.2 (false, r.2))) rs ks) := by
      intro ks
      induction ks with
      | nil => intro rs _; exact ⟨rs, rfl⟩
      | cons k ks ih =>
        intro rs h
        rw [foldE_cons]
        by_cases hk : k.1
        · simp only [hk, if_true, ok_bind]
          exact ih rs fun x hx => h x (List.mem_cons_of_mem _ hx)
        · simp only [hk, Bool.false_eq_true, if_false, idx_eq_ok_of_lt (h k (by simp)), ok_bind]
          exact ih _ fun x hx => by simpa using h x (List.mem_cons_of_mem _ hx)
    obtain ⟨rs, hrs⟩ := this keep.zipIdx kc.reportShares fun k hk => by
      have := List.snd_lt_of_mem_zipIdx hk; omega
    exact ⟨{ kc with reportShares := rs }, by
      unfold KeyCollection.applyFlpResults
      rw [hl]; simp only [beq_self_eq_true, assertE_true, ok_bind]
      rw [hrs]; rfl⟩
  obtain ⟨kc', h⟩ := hret
  obtain ⟨rs, rfl, hsnd, -⟩ := applyFlpResults_ok h
  have hfl := (applyFlp_flags h).2
  rw [h]
  simp only at hfl
  have : rs = Spec.masked kc.reportShares keep := by
    unfold Spec.masked
    refine List.ext_getElem? fun i => ?_
    have h1 := congrArg (fun l => l[i]?) hfl
    have h2 := congrArg (fun l => l[i]?) hsnd
    simp only [foldl_flags_getElem?, List.getElem?_map, Nat.zero_le, if_true, Nat.sub_zero,
      Option.map_map] at h1 h2
    rw [List.getElem?_zipWith]
    cases hr : kc.reportShares[i]? with
    | none =>
      rw [hr] at h2
      cases hrs : rs[i]? with
      | none => rfl
      | some x => rw [hrs] at h2; cases h2
    | some r =>
      have hi : i < keep.length := by rw [hl]; exact (List.getElem?_eq_some_iff.1 hr).1
      rw [hr] at h1 h2
      cases hrs : rs[i]? with
      | none => rw [hrs] at h2; cases h2
      | some x =>
        rw [hrs] at h1 h2
        simp only [Option.map_some, Option.some.injEq, Function.comp] at h1 h2
        rw [List.getElem?_eq_getElem hi] at h1 ⊢
        simp only [Option.getD_some] at h1
        simp only
        rw [← h1, ← h2]
  rw [this]

/-- One `run_flp_queries` request. -/
theorem runFlp_eq {kc : KeyCollection P} {bld : Build} {root l r : TreeNode} {m s e : Nat}
    (hf : kc.frontier = [root]) (hp : root.path = []) (hl : kc.makeTreeNode root false = .ok l)
    (hr : kc.makeTreeNode root true = .ok r) (hk : root.keyValues.length = m)
    (hm : kc.reportShares.length = m) (he : e ≤ m) :
    kc.runFlpQueries bld s e = mapE (kc.flpQueryClient l r) (List.range' s (e - s)) := by
  unfold KeyCollection.runFlpQueries
  have hlk : l.keyValues.length = m := by rw [(makeTreeNode_ok hl).2.2.1, hm]
  rw [hf]
  simp only [idx, List.getElem?_cons_zero, ok_bind, hp, List.length_nil, List.length_cons,
    beq_self_eq_true, assertE_true, hl, hr, hk, hlk, filter_range he]
  cases bld <;> simp [debugAssert]

/-- The decision on one report. -/
def flpDecision (k0 k1 : KeyCollection P) (n : Nat) (l0 r0 l1 r1 : TreeNode) (i : Nat) : Exec Bool := do
  let v0 ← k0.flpQueryClient l0 r0 i
  let v1 ← k1.flpQueryClient l1 r1 i
  decideShares P n (v0, v1)

theorem mapE_zip_iff {α β γ δ : Type} {f : α → Exec β} {g : α → Exec γ} {h : β × γ → Exec δ}
    {l : List α} {ds : List δ} :
    (∃ bs cs, mapE f l = .ok bs ∧ mapE g l = .ok cs ∧ mapE h (bs.zip cs) = .ok ds) ↔
      mapE (fun a => do let b ← f a; let c ← g a; h (b, c)) l = .ok ds := by
  induction l generalizing ds with
  | nil => simp [mapE]
  | cons a l ih =>
    constructor
    · rintro ⟨bs, cs, hb, hc, hd⟩
      rw [mapE_cons] at hb hc
      obtain ⟨b, hb1, hb⟩ := bind_eq_ok.1 hb
      obtain ⟨bs', hb2, hb⟩ := bind_eq_ok.1 hb
      obtain ⟨c, hc1, hc⟩ := bind_eq_ok.1 hc
      obtain ⟨cs', hc2, hc⟩ := bind_eq_ok.1 hc
      cases hb; cases hc
      rw [List.zip_cons_cons, mapE_cons] at hd
      obtain ⟨d, hd1, hd⟩ := bind_eq_ok.1 hd
      obtain ⟨ds', hd2, hd⟩ := bind_eq_ok.1 hd
      cases hd
      rw [mapE_cons, hb1, ok_bind, hc1, ok_bind, hd1, ok_bind, ih.1 ⟨bs', cs', hb2, hc2, hd2⟩]
      rfl
    · intro hd
      rw [mapE_cons] at hd
      obtain ⟨d, hd1, hd⟩ := bind_eq_ok.1 hd
      obtain ⟨ds', hd2, hd⟩ := bind_eq_ok.1 hd
      cases hd
      obtain ⟨b, hb1, hd1⟩ := bind_eq_ok.1 hd1
      obtain ⟨c, hc1, hd1⟩ := bind_eq_ok.1 hd1
      obtain ⟨bs, cs, hb, hc, hds⟩ := ih.2 hd2
      refine ⟨b :: bs, c :: cs, ?_, ?_, ?_⟩
      · rw [mapE_cons, hb1, ok_bind, hb]; rfl
      · rw [mapE_cons, hc1, ok_bind, hc]; rfl
      · rw [List.zip_cons_cons, mapE_cons, hd1, ok_bind, hds]; rfl

theorem mapE_flatMap_iff {α β γ : Type} {f : β → Exec γ} {g : α → List β} {l : List α}
    {ds : List γ} :
    (∃ dss, mapE (fun a => mapE f (g a)) l = .ok dss ∧ dss.flatten = ds) ↔
      mapE f (l.flatMap g) = .ok ds := by
  induction l generalizing ds with
  | nil => simp [mapE]
  | cons a l ih =>
    rw [List.flatMap_cons, mapE_append]
    constructor
    · rintro ⟨dss, h, rfl⟩
      rw [mapE_cons] at h
      obtain ⟨d, h1, h⟩ := bind_eq_ok.1 h
      obtain ⟨ds', h2, h⟩ := bind_eq_ok.1 h
      cases h
      rw [h1, ok_bind, ih.1 ⟨ds', h2, rfl⟩]; rfl
    · intro h
      obtain ⟨d, h1, h⟩ := bind_eq_ok.1 h
      obtain ⟨ds', h2, h⟩ := bind_eq_ok.1 h
      cases h
      obtain ⟨dss, h3, rfl⟩ := ih.2 h2
      exact ⟨d :: dss, by rw [mapE_cons, h1, ok_bind, h3]; rfl, rfl⟩

theorem mapE_ok_congr {α β : Type} {f g : α → Exec β} {l : List α} {bs : List β}
    (h : ∀ a ∈ l, ∀ b, f a = .ok b ↔ g a = .ok b) : mapE f l = .ok bs ↔ mapE g l = .ok bs := by
  rw [mapE_eq_ok_iff_getElem, mapE_eq_ok_iff_getElem]
  refine and_congr Iff.rfl ⟨fun hh i a ha => ?_, fun hh i a ha => ?_⟩
  · obtain ⟨b, h1, h2⟩ := hh i a ha
    exact ⟨b, h1, (h a (List.mem_of_getElem? ha) b).1 h2⟩
  · obtain ⟨b, h1, h2⟩ := hh i a ha
    exact ⟨b, h1, (h a (List.mem_of_getElem? ha) b).2 h2⟩

/-- The state of both servers right after `tree_init`. -/
structure FlpReady (n : Nat) (kc : KeyCollection P) (root l r : TreeNode) : Prop where
  frontier : kc.frontier = [root]
  path : root.path = []
  values : root.keyValues.length = n
  reports : kc.reportShares.length = n
  left : kc.makeTreeNode root false = .ok l
  right : kc.makeTreeNode root true = .ok r

/-- One batch. -/
theorem flpBatch_iff {c0 c1 : ServerCfg} {bld : Build} {n : Nat} {kcs : Pair2 P} {rg : Nat × Nat}
    {root0 l0 r0 root1 l1 r1 : TreeNode} {m : Nat} (h0 : FlpReady m kcs.1 root0 l0 r0)
    (h1 : FlpReady m kcs.2 root1 l1 r1) (hlt : rg.1 < rg.2) (hle : rg.2 ≤ m) {ks : List Bool} :
    flpBatch c0 c1 bld n kcs rg = .ok ks ↔
      mapE (flpDecision kcs.1 kcs.2 n l0 r0 l1 r1) (List.range' rg.1 (rg.2 - rg.1)) = .ok ks := by
  unfold flpBatch flpDecision
  rw [runFlp_eq h0.frontier h0.path h0.left h0.right h0.values h0.reports hle,
    runFlp_eq h1.frontier h1.path h1.left h1.right h1.values h1.reports hle, ← mapE_zip_iff]
  have hd : ∀ b : Build, debugAssert b (decide (rg.1 < rg.2)) = .ok () := by
    intro b; rw [debugAssert_eq_ok]; intro _; exact decide_eq_true hlt
  rw [hd, hd]
  simp only [ok_bind]
  constructor
  · intro h
    obtain ⟨v0, e0, h⟩ := bind_eq_ok.1 h
    obtain ⟨v1, e1, h⟩ := bind_eq_ok.1 h
    obtain ⟨_, _, h⟩ := bind_eq_ok.1 h
    exact ⟨v0, v1, e0, e1, h⟩
  · rintro ⟨v0, v1, e0, e1, h⟩
    have : debugAssert bld (v0.length == v1.length) = .ok () := by
      rw [debugAssert_eq_ok]; intro _
      rw [mapE_length e0, mapE_length e1]; simp
    rw [e0, ok_bind, e1, ok_bind, this, ok_bind, h]

/-- The driver's FLP verification: one decision per report, whatever the batch size. -/
theorem driverFlp_iff {c0 c1 : ServerCfg} {bld : Build} {cfg : Config} {kcs kcs' : Pair2 P} {n : Nat}
    {root0 l0 r0 root1 l1 r1 : TreeNode} (h0 : FlpReady n kcs.1 root0 l0 r0)
    (h1 : FlpReady n kcs.2 root1 l1 r1) (hb : 1 ≤ cfg.queryBatch) :
    driverFlp c0 c1 bld cfg kcs n = .ok kcs' ↔
      ∃ keep, mapE (flpDecision kcs.1 kcs.2 cfg.histBuckets l0 r0 l1 r1) (List.range n) = .ok keep ∧
        kcs' = ({ kcs.1 with reportShares := Spec.masked kcs.1.reportShares keep },
          { kcs.2 with reportShares := Spec.masked kcs.2.reportShares keep }) := by
  obtain ⟨rs, e, hm, hf⟩ := whileRanges_spec (n := n) hb n 0 (by omega)
  have hkeeps : ∀ keep, (∃ keeps, mapE (flpBatch c0 c1 bld cfg.histBuckets kcs) rs = .ok keeps ∧
      keeps.flatten = keep) ↔
      mapE (flpDecision kcs.1 kcs.2 cfg.histBuckets l0 r0 l1 r1) (List.range n) = .ok keep := by
    intro keep
    rw [List.range_eq_range', ← Nat.sub_zero n, ← hf, ← mapE_flatMap_iff]
    refine exists_congr fun keeps => and_congr_left fun _ => ?_
    exact mapE_ok_congr fun rg hrg b => flpBatch_iff h0 h1 (hm rg hrg).1 (hm rg hrg).2.1
  have happ : ∀ keep : List Bool, keep.length = n →
      kcs.1.applyFlpResults keep = .ok { kcs.1 with reportShares := Spec.masked kcs.1.reportShares keep } ∧
      kcs.2.applyFlpResults keep = .ok { kcs.2 with reportShares := Spec.masked kcs.2.reportShares keep } :=
    fun keep hk => ⟨applyFlp_exact _ _ (by rw [hk, h0.reports]), applyFlp_exact _ _ (by rw [hk, h1.reports])⟩
  unfold driverFlp
  rw [e, ok_bind]
  constructor
  · intro h
    obtain ⟨keeps, hk, h⟩ := bind_eq_ok.1 h
    have hkeep := (hkeeps keeps.flatten).1 ⟨keeps, hk, rfl⟩
    have hl : keeps.flatten.length = n := by rw [mapE_length hkeep, List.length_range]
    obtain ⟨a0, a1⟩ := happ _ hl
    dsimp only at h
    rw [a0, ok_bind, a1, ok_bind] at h
    exact ⟨keeps.flatten, hkeep, by cases h; rfl⟩
  · rintro ⟨keep, hk, rfl⟩
    obtain ⟨keeps, hk', rfl⟩ := (hkeeps keep).2 hk
    have hl : keeps.flatten.length = n := by rw [mapE_length hk, List.length_range]
    obtain ⟨a0, a1⟩ := happ _ hl
    rw [hk', ok_bind]
    dsimp only
    rw [a0, ok_bind, a1, ok_bind]

end Mastic
