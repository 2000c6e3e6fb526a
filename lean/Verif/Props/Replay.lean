import Verif.Props.Whh

/-!
# Repeated reports (C80)

`add_report_shares` (`src/bin/server.rs:61-70`, `src/collect.rs:185-187`) stores whatever it is sent; nonces are never
compared.  A report that is sent several times is counted several times.
-/

namespace Mastic

variable {P : Prims}

theorem filter_eq_single {α : Type*} [DecidableEq α] {a : α} {p : α → Bool} {l : List α} (hn : l.Nodup) (ha : a ∈ l)
    (h : ∀ b ∈ l, p b = true ↔ b = a) : l.filter p = [a] := by
  have e : l.filter p = l.filter (· == a) :=
    List.filter_congr fun b hb => by
      rw [Bool.eq_iff_iff, h b hb, beq_iff_eq]
  rw [e]
  rw [List.filter_beq, List.count_eq_one_of_mem hn ha]
  rfl

theorem heavyHitters_replicate {n T k w : Nat} {s : List Bool} (hT : 1 ≤ T) (hk : T ≤ k) :
    Spec.heavyHitters n T s.length (List.replicate k (s, w))
      = [(s, (List.range n).map (fun c => if c = w then (k : Field128) else 0) ++ [(k : Field128)])] := by
  unfold Spec.heavyHitters
  rw [filter_eq_single (a := s) (allPaths_nodup _) (mem_allPaths.2 rfl)]
  · simp only [List.map_cons, List.map_nil, List.countP_replicate, List.filter_replicate, if_true,
      List.map_replicate, Spec.histogram, beq_iff_eq]
    congr 3
    refine List.map_congr_left fun c _ => ?_
    by_cases h : w = c
    · simp [h]
    · simp [h, Ne.symm h]
  · intro b _
    simp only [List.countP_replicate, decide_eq_true_eq, beq_iff_eq]
    by_cases h : s = b
    · simp [h, hk]
    · rw [if_neg h]
      exact ⟨fun h' => by omega, fun h' => absurd h'.symm h⟩

/-- **C80, negated.**  One honest client, whose report is stored `k` times: the run counts it `k` times.  The client's
string becomes heavy for every threshold up to `k`. -/
theorem C80_false_counted_again {c0 c1 : ServerCfg} {bld : Build} {cfg : Config} {kcs : Pair2 P} {k w : Nat}
    {s : List Bool} {r0 r1 : ReportShare} (hd : cfg.dataBits = some s.length) (hd2 : 2 ≤ s.length)
    (hb : 1 ≤ cfg.queryBatch) (hn0 : kcs.1.inputLen = cfg.histBuckets) (hn1 : kcs.2.inputLen = cfg.histBuckets)
    (h0 : kcs.1.serverId = 0) (h1 : kcs.2.serverId ≠ 0) (hvk : kcs.1.verifyKey = kcs.2.verifyKey)
    (d0 : kcs.1.depth = some s.length) (d1 : kcs.2.depth = some s.length)
    (hpair : Spec.HonestPair P cfg.histBuckets s w r0 r1)
    (hc : Spec.FlpCompleteAt P cfg.histBuckets
      (P.xofField kcs.1.verifyKey r0.nonce.toList (P.queryRandLen cfg.histBuckets)))
    (hs0 : kcs.1.reportShares = List.replicate k (true, r0)) (hs1 : kcs.2.reportShares = List.replicate k (true, r1))
    (hk1 : 1 ≤ k) (hk : cfg.threshold ≤ k) (hlt : k < 2 ^ 64) :
    ∃ out, runWhh c0 c1 bld cfg kcs k = .ok out ∧
      out.results.map (fun r => (r.path, r.value))
        = [(s, (List.range cfg.histBuckets).map (fun c => if c = w then (k : Field128) else 0) ++ [(k : Field128)])] := by
  have hT : max 1 cfg.threshold ≤ k := by omega
  obtain ⟨out, g1, g2, -⟩ := C26_exact (c0 := c0) (c1 := c1) (bld := bld) (clients := List.replicate k (s, w)) hd hd2 hb
    hn0 hn1 h0 h1 hvk d0 d1 (by
      refine ⟨by rw [hs0]; simp, by rw [hs1]; simp, ?_⟩
      intro i c a b hc' ha hb'
      rw [hs0] at ha
      rw [hs1] at hb'
      obtain rfl := List.eq_of_mem_replicate (List.mem_of_getElem? hc')
      obtain rfl := List.eq_of_mem_replicate (List.mem_of_getElem? ha)
      obtain rfl := List.eq_of_mem_replicate (List.mem_of_getElem? hb')
      exact hpair)
    (by
      intro r hr
      rw [hs0] at hr
      rw [List.eq_of_mem_replicate hr]
      exact hc)
    (by intro r hr; rw [hs0] at hr; rw [List.eq_of_mem_replicate hr])
    (by intro r hr; rw [hs1] at hr; rw [List.eq_of_mem_replicate hr])
    (by intro c hc; rw [List.eq_of_mem_replicate hc])
    (by simpa using hlt) (by rw [heavyHitters_replicate (by omega) hT]; simp)
  rw [List.length_replicate] at g1
  exact ⟨out, g1, g2.trans (heavyHitters_replicate (by omega) hT)⟩

/-- Counting entries of a list is counting the distinct entries of a parallel list without repetitions. -/
theorem count_distinct {α β γ : Type*} {p : α → Bool} {f : β → γ} : ∀ {l : List α} {m : List β}, l.length = m.length →
    (m.map f).Nodup → l.countP p = {z | ∃ (i : Nat) (a : α) (b : β), l[i]? = some a ∧ p a = true ∧ m[i]? = some b ∧ f b = z}.ncard := by
  intro l
  induction l with
  | nil => intro m _ _; simp
  | cons a l ih =>
    intro m hl hn
    match m, hl with
    | b :: m, hl =>
      simp only [List.map_cons, List.nodup_cons] at hn
      have ih := ih (m := m) (by simpa using hl) hn.2
      have hfin : {z | ∃ (i : Nat) (a : α) (b : β), l[i]? = some a ∧ p a = true ∧ m[i]? = some b ∧ f b = z}.Finite := by
        refine Set.Finite.subset (m.map f).finite_toSet ?_
        rintro z ⟨i, a, b, -, -, h3, rfl⟩
        exact List.mem_map.2 ⟨b, List.mem_of_getElem? h3, rfl⟩
      have hnot : f b ∉ {z | ∃ (i : Nat) (a : α) (b : β), l[i]? = some a ∧ p a = true ∧ m[i]? = some b ∧ f b = z} := by
        rintro ⟨i, a, b', -, -, h3, h4⟩
        exact hn.1 (h4 ▸ List.mem_map.2 ⟨b', List.mem_of_getElem? h3, rfl⟩)
      have hsplit : {z | ∃ (i : Nat) (a' : α) (b' : β), (a :: l)[i]? = some a' ∧ p a' = true ∧ (b :: m)[i]? = some b' ∧ f b' = z}
          = (if p a = true then {f b} else ∅) ∪
            {z | ∃ (i : Nat) (a : α) (b : β), l[i]? = some a ∧ p a = true ∧ m[i]? = some b ∧ f b = z} := by
        ext z
        simp only [Set.mem_setOf_eq, Set.mem_union]
        constructor
        · rintro ⟨i, a', b', h1, h2, h3, h4⟩
          match i with
          | 0 =>
            simp only [List.getElem?_cons_zero, Option.some.injEq] at h1 h3
            subst h1 h3
            left
            rw [if_pos h2]
            exact h4.symm
          | i + 1 => exact .inr ⟨i, a', b', h1, h2, h3, h4⟩
        · rintro (h | ⟨i, a', b', h1, h2, h3, h4⟩)
          · split at h
            · exact ⟨0, a, b, rfl, by assumption, rfl, h.symm⟩
            · exact absurd h (Set.notMem_empty _)
          · exact ⟨i + 1, a', b', h1, h2, h3, h4⟩
      rw [hsplit, List.countP_cons, ih]
      by_cases hp : p a = true
      · rw [if_pos hp, if_pos hp, Set.singleton_union, Set.ncard_insert_of_notMem hnot hfin]
      · rw [if_neg hp, if_neg hp, Set.empty_union, Nat.add_zero]

/-- Nothing in the servers prevents this: every request to store shares is answered, and the shares are stored whatever
is stored already. -/
theorem C80_false_stored_again (c : ServerCfg) (kc : KeyCollection P) (rs : List ReportShare) : ∃ kc1 kc2,
    locked c kc (.addReportShares rs) = .ok (kc1, .done) ∧ locked c kc1 (.addReportShares rs) = .ok (kc2, .done) ∧
    kc2.reportShares = kc.reportShares ++ (rs.map fun r => (true, r)) ++ rs.map fun r => (true, r) := by
  have key : ∀ (rs : List ReportShare) (kc : KeyCollection P),
      (srvAddReportShares kc rs).reportShares = kc.reportShares ++ rs.map fun r => (true, r) := by
    intro rs
    induction rs with
    | nil => intro kc; simp [srvAddReportShares]
    | cons r rs ih =>
      intro kc
      have := ih (kc.addReportShare r)
      simp only [srvAddReportShares, List.foldl_cons] at this ⊢
      rw [this]
      simp [KeyCollection.addReportShare]
  exact ⟨_, _, rfl, rfl, by rw [key, key]⟩

/-- **C80 (partial).**  As long as nothing is stored twice, every reported number is the number of different reports of
the clients holding the string.  Missing: the servers ensure that nothing is stored twice, which is false. -/
theorem C80_distinct_partial {c0 c1 : ServerCfg} {bld : Build} {cfg : Config} {kcs : Pair2 P}
    {d : Nat} {clients : List (List Bool × Nat)}
    (hd : cfg.dataBits = some d) (hd2 : 2 ≤ d) (hb : 1 ≤ cfg.queryBatch)
    (hn0 : kcs.1.inputLen = cfg.histBuckets) (hn1 : kcs.2.inputLen = cfg.histBuckets)
    (h0 : kcs.1.serverId = 0) (h1 : kcs.2.serverId ≠ 0) (hvk : kcs.1.verifyKey = kcs.2.verifyKey)
    (d0 : kcs.1.depth = some d) (d1 : kcs.2.depth = some d)
    (hh : Spec.HonestReports P cfg.histBuckets clients kcs.1.reportShares kcs.2.reportShares)
    (hc : Spec.FlpCompleteFor P cfg.histBuckets kcs.1.verifyKey kcs.1.reportShares)
    (hf0 : ∀ r ∈ kcs.1.reportShares, r.1 = true) (hf1 : ∀ r ∈ kcs.2.reportShares, r.1 = true)
    (hl : ∀ c ∈ clients, c.1.length = d) (hlt : clients.length < 2 ^ 64)
    (hheavy : Spec.heavyHitters cfg.histBuckets (max 1 cfg.threshold) d clients ≠ [])
    (hdist : (kcs.1.reportShares.map fun r => r.2.nonce).Nodup) :
    ∃ out, runWhh c0 c1 bld cfg kcs clients.length = .ok out ∧
      ∀ r ∈ out.results, r.value.getLast? = some (({nonce | ∃ (i : Nat) (c : List Bool × Nat) (b : Bool) (share : ReportShare), clients[i]? = some c ∧ c.1 = r.path ∧
        kcs.1.reportShares[i]? = some (b, share) ∧ share.nonce = nonce}.ncard : Nat) : Field128) := by
  classical
  obtain ⟨out, g1, g2, -⟩ := C26_exact (c0 := c0) (c1 := c1) (bld := bld) hd hd2 hb hn0 hn1 h0 h1 hvk d0 d1 hh hc hf0 hf1
    hl hlt hheavy
  refine ⟨out, g1, fun r hr => ?_⟩
  have hm : (r.path, r.value) ∈ Spec.heavyHitters cfg.histBuckets (max 1 cfg.threshold) d clients := by
    rw [← g2]
    exact List.mem_map.2 ⟨r, hr, rfl⟩
  obtain ⟨s, -, e⟩ := List.mem_map.1 hm
  obtain ⟨e1, e2⟩ := Prod.mk.inj e
  rw [← e2, ← e1, List.getLast?_append]
  simp only [List.getLast?_singleton, Option.some_or, Option.some.injEq]
  congr 1
  rw [count_distinct (hh.1.symm) hdist]
  congr 1
  ext z
  simp [Prod.exists, and_assoc]

/-- Two toy servers with the given shares. -/
def toyStored (l : List PlaintextReport) : Pair2 toy :=
  ({ KeyCollection.new toy 2 0 (some 2) Block.zero with reportShares := l.map fun r => (true, r.toShares.1) },
    { KeyCollection.new toy 2 1 (some 2) Block.zero with reportShares := l.map fun r => (true, r.toShares.2) })

/-- Threshold 1000, one client whose report is stored 1000 times. -/
example : ∃ (kcs : Pair2 toy) (out : WhhOut toy),
    runWhh (toyCfg 0 (some 2) .debug) (toyCfg 1 (some 2) .debug) .debug ⟨some 2, 2, 1, 2, 1, 1000⟩ kcs 1000 = .ok out ∧
    (∀ r ∈ kcs.1.reportShares, r.2.nonce = (toyRand 0).nonce) ∧
    out.results.map (fun r => (r.path, r.value)) = [([true, false], [0, 1000, 1000])] := by
  have hgen : ∃ r, genMasticReport toy 2 [true, false] 1 (toyRand 0) = .ok r ∧ r.toShares.1.nonce = (toyRand 0).nonce :=
    ⟨_, rfl, rfl⟩
  obtain ⟨r, e, hnonce⟩ := hgen
  obtain ⟨out, g1, g2⟩ := C80_false_counted_again (P := toy) (c0 := toyCfg 0 (some 2) .debug)
    (c1 := toyCfg 1 (some 2) .debug) (bld := .debug) (cfg := ⟨some 2, 2, 1, 2, 1, 1000⟩)
    (kcs := toyStored (List.replicate 1000 r)) (k := 1000) (w := 1) (s := [true, false]) (r0 := r.toShares.1)
    (r1 := r.toShares.2) rfl le_rfl (by decide) rfl rfl rfl (show (1 : Int) ≠ 0 by decide) rfl rfl rfl ⟨_, r, e, rfl⟩
    (toy_flpComplete _ _) (List.map_replicate ..) (List.map_replicate ..) (by decide) le_rfl (by decide)
  refine ⟨_, out, g1, ?_, g2.trans (by decide +kernel)⟩
  intro x hx
  obtain ⟨y, hy, rfl⟩ := List.mem_map.1 hx
  rw [List.eq_of_mem_replicate hy]
  exact hnonce

/-- Two clients with the same string. -/
example : ∃ (kcs : Pair2 toy) (out : WhhOut toy),
    runWhh (toyCfg 0 (some 2) .debug) (toyCfg 1 (some 2) .debug) .debug ⟨some 2, 2, 1, 2, 1, 2⟩ kcs 2 = .ok out := by
  have hgen : ∀ k, ∃ r, genMasticReport toy 2 [true, false] 1 (toyRand k) = .ok r ∧
      r.toShares.1.nonce = (toyRand k).nonce := fun k => ⟨_, rfl, rfl⟩
  obtain ⟨r, e, hr⟩ := hgen 0
  obtain ⟨r', e', hr'⟩ := hgen 1
  obtain ⟨out, g1, -⟩ := C80_distinct_partial (P := toy) (c0 := toyCfg 0 (some 2) .debug)
    (c1 := toyCfg 1 (some 2) .debug) (bld := .debug) (cfg := ⟨some 2, 2, 1, 2, 1, 2⟩)
    (kcs := toyStored [r, r']) (d := 2) (clients := [([true, false], 1), ([true, false], 1)]) rfl le_rfl (by decide)
    rfl rfl rfl (show (1 : Int) ≠ 0 by decide) rfl rfl rfl
    ⟨rfl, rfl, by
      rintro (_ | _ | i) c a b h1 h2 h3
      · cases h1; cases h2; cases h3; exact ⟨_, r, e, rfl⟩
      · cases h1; cases h2; cases h3; exact ⟨_, r', e', rfl⟩
      · simp at h1⟩
    (fun _ _ => toy_flpComplete _ _) (by simp [toyStored]) (by simp [toyStored]) (by decide) (by decide)
    (by decide +kernel) (by
      simp only [toyStored, List.map_cons, List.map_nil, hr, hr']
      decide)
  exact ⟨_, out, g1⟩

end Mastic
