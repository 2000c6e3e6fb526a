import Verif.Lemmas.Pm
import Verif.Spec.Pm

/-!
# Plain-metrics runs on arbitrary reports: helper lemmas
-/

namespace Mastic

variable {P : Prims}

theorem filterMap_length_add {α β : Type} (f : α → Option β) (l : List α) :
    (l.filterMap f).length + l.countP (fun i => (f i).isNone) = l.length := by
  induction l with
  | nil => rfl
  | cons x l ih =>
    rw [List.filterMap_cons, List.countP_cons]
    cases hx : f x with
    | none => simp; omega
    | some v => simp; omega

theorem prio3Aggregate_eq {n : Nat} {outs : List (List Field128)} (h : ∀ o ∈ outs, o.length = n) :
    prio3Aggregate n outs = .ok (Spec.sumOutputs n outs) := by
  obtain ⟨agg, ha⟩ := prio3Aggregate_returns h
  obtain ⟨q1, -, q3⟩ := prio3Aggregate_ok ha
  rw [ha]
  congr 1
  refine List.ext_getElem (by simp [Spec.sumOutputs, q1]) fun c g1 g2 => ?_
  have := q3 c (by omega)
  rw [List.getElem?_eq_getElem g1] at this
  simpa [Spec.sumOutputs] using this

/-- The result of a batch in which every report has been prepared. -/
theorem srvPmResult_outputs {s e : Nat} (hlt : s < e)
    {cfg : ServerCfg} {kc : KeyCollection P} (F G : Nat → P.PrepState × P.PrepShare)
    (O : Nat → Option (List Field128)) (hok : P.prio3Ok kc.inputLen = true) (hrt : ∀ i, s ≤ i → i < e → P.prepDecode (F i).1 (P.prepEncode (G i).2) = some (G i).2)
    (hd : Spec.DistinctKeys kc.pmState)
    (hl : ∀ k, s ≤ k → k < e → kc.pmState.lookup k = some (F k))
    (ho : ∀ i, s ≤ i → i < e → Spec.outputOf P kc.inputLen (F i).1
      (pairOf cfg.serverId (F i).2 (G i).2).1 (pairOf cfg.serverId (F i).2 (G i).2).2 = O i ∧
      ∀ o ∈ O i, o.length = kc.inputLen) :
    ∃ m, srvPmResult cfg kc ((rangeFrom s e).map fun i => P.prepEncode (G i).2) s e =
      .ok ({ kc with pmState := m }, Spec.sumOutputs kc.inputLen ((rangeFrom s e).filterMap O),
        (rangeFrom s e).countP fun i => (O i).isNone) ∧ Spec.DistinctKeys m := by
  have hzip : (rangeFrom s e).zip ((rangeFrom s e).map fun i => P.prepEncode (G i).2) =
      (rangeFrom s e).map fun i => (i, P.prepEncode (G i).2) := by
    refine List.ext_getElem (by simp) fun j g1 g2 => by simp
  have hloop := pmResultLoop_spec (id := cfg.serverId) (n := kc.inputLen) F (fun i => (G i).2)
    ((rangeFrom s e).map fun i => (i, P.prepEncode (G i).2)) hd
    (by
      rw [List.map_map]
      have : (Prod.fst ∘ fun i => (i, P.prepEncode (G i).2)) = (id : Nat → Nat) := rfl
      rw [this, List.map_id]
      exact List.nodup_range')
    (by
      intro ip hip
      obtain ⟨i, hi, rfl⟩ := List.mem_map.1 hip
      obtain ⟨h1, h2⟩ := rangeFrom_mem.1 hi
      exact ⟨hl i h1 h2, hrt i h1 h2⟩)
  have houts : ((rangeFrom s e).map fun i => (i, P.prepEncode (G i).2)).filterMap (fun ip =>
      Spec.outputOf P kc.inputLen (F ip.1).1 (pairOf cfg.serverId (F ip.1).2 (G ip.1).2).1
        (pairOf cfg.serverId (F ip.1).2 (G ip.1).2).2) = (rangeFrom s e).filterMap O := by
    rw [List.filterMap_map]
    refine List.filterMap_congr fun i hi => ?_
    obtain ⟨h1, h2⟩ := rangeFrom_mem.1 hi
    exact (ho i h1 h2).1
  rw [houts] at hloop
  have ha := prio3Aggregate_eq (n := kc.inputLen) (outs := (rangeFrom s e).filterMap O) (by
    intro o hom
    obtain ⟨i, hi, hi'⟩ := List.mem_filterMap.1 hom
    obtain ⟨h1, h2⟩ := rangeFrom_mem.1 hi
    exact (ho i h1 h2).2 o hi')
  refine ⟨_, ?_, distinct_filter hd (fun e_1 => e_1.1 ∉
    ((rangeFrom s e).map fun i => (i, P.prepEncode (G i).2)).map Prod.fst)⟩
  unfold srvPmResult
  rw [hok, hzip]
  simp only [Bool.not_true, Bool.false_eq_true, if_false]
  rw [hloop]
  simp only [ok_bind]
  have hrej : rejectedCount cfg.build s e ((rangeFrom s e).filterMap O).length
      = .ok ((rangeFrom s e).countP fun i => (O i).isNone) := by
    unfold rejectedCount
    have := filterMap_length_add O (rangeFrom s e)
    have hlen : (rangeFrom s e).length = e - s := by simp [rangeFrom]
    rw [if_pos (by omega)]
    congr 1; omega
  rw [hrej, ok_bind, ha]
  rfl

/-- Both servers hold reports that Prio3 prepares with the outputs `clients`. -/
structure PreparedPm (c1 : ServerCfg) (kcs : Pair2 P) (n : Nat) (clients : List Spec.PmClient) : Prop where
  len0 : kcs.1.inputLen = n
  len1 : kcs.2.inputLen = n
  ok : P.prio3Ok n = true
  d0 : Spec.DistinctKeys kcs.1.pmState
  d1 : Spec.DistinctKeys kcs.2.pmState
  cnt0 : kcs.1.reportShares.length = clients.length
  cnt1 : kcs.2.reportShares.length = clients.length
  prepared : ∀ (i : Nat) (c : Spec.PmClient) (r0 r1 : Bool × ReportShare), clients[i]? = some c →
    kcs.1.reportShares[i]? = some r0 → kcs.2.reportShares[i]? = some r1 →
    Spec.Prepared P n c1.serverId.toNat kcs.1.verifyKey kcs.2.verifyKey r0.2 r1.2 c

theorem map_rangeFrom {α : Type} {l : List α} {B : Nat → α} {s e : Nat} (he : e ≤ l.length)
    (h : ∀ (i : Nat), s ≤ i → i < e → l[i]? = some (B i)) : (rangeFrom s e).map B = (l.drop s).take (e - s) := by
  refine List.ext_getElem (by simp [rangeFrom]; omega) fun j g1 g2 => ?_
  have hj : s + j < e := by simp [rangeFrom] at g1; omega
  have := h (s + j) (by omega) hj
  rw [List.getElem?_eq_getElem (by omega)] at this
  injection this with this
  simp [rangeFrom, this]

theorem prepared_pmBatch {c0 c1 : ServerCfg} {cfg : Config} {kcs : Pair2 P} {clients : List Spec.PmClient}
    (hrt : Spec.SharesRead P cfg.histBuckets)
    (h0 : c0.serverId = 0) (h1 : 0 < c1.serverId) (h : PreparedPm c1 kcs cfg.histBuckets clients)
    {s e : Nat} (hlt : s < e) (he : e ≤ clients.length) :
    ∃ kcs', pmBatch c0 c1 cfg kcs (s, e) =
        (Spec.pmBatchOut P cfg.histBuckets ((clients.drop s).take (e - s))).map (fun o => (kcs', o)) ∧
      PreparedPm c1 kcs' cfg.histBuckets clients := by
  classical
  obtain ⟨z, -⟩ : ∃ z : P.PrepState × P.PrepShare, True := by
    have hs : s < clients.length := by omega
    have g0 := List.getElem?_eq_getElem (l := kcs.1.reportShares) (i := s) (by rw [h.cnt0]; exact hs)
    have g1 := List.getElem?_eq_getElem (l := kcs.2.reportShares) (i := s) (by rw [h.cnt1]; exact hs)
    obtain ⟨x0, -⟩ := h.prepared s _ _ _ (List.getElem?_eq_getElem hs) g0 g1
    exact ⟨x0, trivial⟩
  have key : ∀ i, ∃ (x0 x1 : P.PrepState × P.PrepShare) (c : Spec.PmClient), i < clients.length →
      clients[i]? = some c ∧
      (kcs.1.reportShares[i]?.bind fun br => Spec.prepOf P cfg.histBuckets 0 kcs.1.verifyKey br.2) = some x0 ∧
      (kcs.2.reportShares[i]?.bind fun br =>
        Spec.prepOf P cfg.histBuckets c1.serverId.toNat kcs.2.verifyKey br.2) = some x1 ∧
      Spec.outputOf P cfg.histBuckets x0.1 x0.2 x1.2 = c.out0 ∧
      Spec.outputOf P cfg.histBuckets x1.1 x0.2 x1.2 = c.out1 ∧
      (∀ o ∈ c.out0, o.length = cfg.histBuckets) ∧ (∀ o ∈ c.out1, o.length = cfg.histBuckets) := by
    intro i
    by_cases hi : i < clients.length
    · have g0 := List.getElem?_eq_getElem (l := kcs.1.reportShares) (i := i) (by rw [h.cnt0]; exact hi)
      have g1 := List.getElem?_eq_getElem (l := kcs.2.reportShares) (i := i) (by rw [h.cnt1]; exact hi)
      have gb := List.getElem?_eq_getElem hi
      obtain ⟨x0, x1, q0, q1, q2, q3, q4, q5⟩ := h.prepared i _ _ _ gb g0 g1
      exact ⟨x0, x1, _, fun _ => ⟨gb, by rw [g0]; exact q0, by rw [g1]; exact q1, q2, q3, q4, q5⟩⟩
    · exact ⟨z, z, ⟨none, none⟩, fun hx => absurd hx hi⟩
  choose F G C hF using key
  have hF' : ∀ i, s ≤ i → i < e → i < clients.length := fun i _ h2 => by omega
  have reads : ∀ i, i < clients.length → P.prepDecode (F i).1 (P.prepEncode (G i).2) = some (G i).2 ∧
      P.prepDecode (G i).1 (P.prepEncode (F i).2) = some (F i).2 := by
    intro i hi
    obtain ⟨-, q0, q1, -⟩ := hF i hi
    obtain ⟨b0, -, q0⟩ := Option.bind_eq_some_iff.1 q0
    obtain ⟨b1, -, q1⟩ := Option.bind_eq_some_iff.1 q1
    exact ⟨hrt _ _ _ _ _ _ _ _ q0 q1, hrt _ _ _ _ _ _ _ _ q1 q0⟩
  obtain ⟨m0, v0⟩ := srvPmValidate_returns (cfg := c0) (kc := kcs.1) (f := F) hlt (by omega)
    (by rw [h.len0]; exact h.ok) (fun i a b => by
      rw [h.len0, h0]; exact (hF i (hF' i a b)).2.1)
  obtain ⟨m1, v1⟩ := srvPmValidate_returns (cfg := c1) (kc := kcs.2) (f := G) hlt (by omega)
    (by rw [h.len1]; exact h.ok) (fun i a b => by
      rw [h.len1]; exact (hF i (hF' i a b)).2.2.1)
  obtain ⟨-, -, -, f0, p0, -, l0, d0⟩ := pmValidate_spec hlt v0
  obtain ⟨-, -, -, f1, p1, -, l1, d1⟩ := pmValidate_spec hlt v1
  have hl0 : ∀ k, s ≤ k → k < e → m0.lookup k = some (F k) := by
    intro k a b
    have h2 := p0 k a b
    rw [h.len0, h0] at h2
    have h3 := h2.symm.trans (hF k (hF' k a b)).2.1
    have := l0 k
    rw [if_pos ⟨a, b⟩] at this
    rw [← h3]; exact this
  have hl1 : ∀ k, s ≤ k → k < e → m1.lookup k = some (G k) := by
    intro k a b
    have h2 := p1 k a b
    rw [h.len1] at h2
    have h3 := h2.symm.trans (hF k (hF' k a b)).2.2.1
    have := l1 k
    rw [if_pos ⟨a, b⟩] at this
    rw [← h3]; exact this
  obtain ⟨n0, r0, dn0⟩ := srvPmResult_outputs (cfg := c0) (kc := { kcs.1 with pmState := m0 })
    hlt F G (fun i => (C i).out0) (by rw [h.len0]; exact h.ok)
    (fun i a b => (reads i (hF' i a b)).1) (d0 h.d0) hl0 (fun i a b => by
      have := hF i (hF' i a b)
      rw [h.len0]
      refine ⟨?_, this.2.2.2.2.2.1⟩
      simp only [pairOf, h0, if_pos]
      exact this.2.2.2.1)
  obtain ⟨n1, r1, dn1⟩ := srvPmResult_outputs (cfg := c1) (kc := { kcs.2 with pmState := m1 })
    hlt G F (fun i => (C i).out1) (by rw [h.len1]; exact h.ok)
    (fun i a b => (reads i (hF' i a b)).2) (d1 h.d1) hl1 (fun i a b => by
      have := hF i (hF' i a b)
      rw [h.len1]
      refine ⟨?_, this.2.2.2.2.2.2⟩
      have hne : c1.serverId ≠ 0 := by omega
      simp only [pairOf, hne, if_neg, not_false_eq_true]
      exact this.2.2.2.2.1)
  refine ⟨({ kcs.1 with pmState := n0 }, { kcs.2 with pmState := n1 }), ?_,
    ⟨h.len0, h.len1, h.ok, dn0, dn1, h.cnt0, h.cnt1, h.prepared⟩⟩
  have hC : (rangeFrom s e).map C = (clients.drop s).take (e - s) :=
    map_rangeFrom he fun i a b => (hF i (hF' i a b)).1
  unfold pmBatch
  simp only [hlt, decide_true, debugAssert_true, ok_bind, v0, v1]
  dsimp only at r0 r1
  have hlen : (rangeFrom s e).length = e - s := by simp [rangeFrom]
  simp only [List.length_map, hlen, beq_self_eq_true, assertE_true, ok_bind]
  rw [r0, ok_bind]
  dsimp only
  rw [r1, ok_bind]
  dsimp only
  unfold Spec.pmBatchOut
  rw [← hC]
  simp only [List.filterMap_map, List.countP_map, Function.comp_def, h.len0, h.len1]
  have hcnt := filterMap_length_add (fun i => (C i).out0) (rangeFrom s e)
  by_cases hne : (rangeFrom s e).countP (fun i => (C i).out0.isNone) =
      (rangeFrom s e).countP (fun i => (C i).out1.isNone)
  · rw [if_neg (by simpa using hne), hne]
    simp only [beq_self_eq_true, assertE_true, ok_bind]
    rw [show e - s - (rangeFrom s e).countP (fun i => (C i).out1.isNone) =
      ((rangeFrom s e).filterMap fun i => (C i).out0).length by omega]
    cases P.prio3Unshard cfg.histBuckets _ _ _ <;> rfl
  · rw [if_pos hne]
    have : ((rangeFrom s e).countP (fun i => (C i).out0.isNone) ==
      (rangeFrom s e).countP (fun i => (C i).out1.isNone)) = false := by simpa using hne
    rw [this]
    rfl

theorem prepared_pmLoop {c0 c1 : ServerCfg} {cfg : Config} {clients : List Spec.PmClient}
    (hrt : Spec.SharesRead P cfg.histBuckets)
    (h0 : c0.serverId = 0) (h1 : 0 < c1.serverId) :
    ∀ (rs : List (Nat × Nat)) {kcs : Pair2 P}, PreparedPm c1 kcs cfg.histBuckets clients →
      (∀ r ∈ rs, r.1 < r.2 ∧ r.2 ≤ clients.length) →
      ∃ kcs', pmLoop c0 c1 cfg rs kcs = (mapE (fun r : Nat × Nat => Spec.pmBatchOut P cfg.histBuckets
        ((clients.drop r.1).take (r.2 - r.1))) rs).map fun os => (kcs', os)
  | [], kcs, _, _ => ⟨kcs, rfl⟩
  | r :: rs, kcs, h, hr => by
    obtain ⟨a, b⟩ := hr r (by simp)
    obtain ⟨k1, e1, g1⟩ := prepared_pmBatch hrt h0 h1 h a b
    obtain ⟨k2, e2⟩ := prepared_pmLoop hrt h0 h1 rs g1 fun x hx => hr x (by simp [hx])
    refine ⟨k2, ?_⟩
    unfold pmLoop
    rw [show r = (r.1, r.2) from rfl, e1, mapE_cons]
    cases Spec.pmBatchOut P cfg.histBuckets ((clients.drop r.1).take (r.2 - r.1)) with
    | error p => rfl
    | ok o =>
      show (do let (kcs, os) ← pmLoop c0 c1 cfg rs k1; _) = _
      rw [e2, ok_bind]
      cases mapE _ rs <;> rfl

end Mastic
