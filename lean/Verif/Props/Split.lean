import Verif.Lemmas.Split
import Verif.Lemmas.Replace

/-!
# C72: a report counts for its own string only
-/

namespace Mastic

variable {P : Prims}

theorem verifierOf_congr {n : Nat} {id : Int} {vk nonce : Block} {k k' : VidpfKey} {pr : List Field128}
    {j : Block × Block} (hseed : k'.rootSeed = k.rootSeed)
    (h : ∀ p : List Bool, p.length = 1 → ∃ v v', Spec.valueAt P k n p = some v ∧
      Spec.valueAt P k' n p = some v' ∧ v.length = n + 1 ∧ v'.length = n + 1 ∧
      ∀ i < n, v'.getD i 0 = v.getD i 0) :
    Spec.verifierOf P n id vk (.mastic nonce k' pr j) = Spec.verifierOf P n id vk (.mastic nonce k pr j) := by
  obtain ⟨a, a', ha, ha', la, la', hai⟩ := h [false] rfl
  obtain ⟨b, b', hb, hb', lb, lb', hbi⟩ := h [true] rfl
  have htake : (Spec.addShares a' b').take n = (Spec.addShares a b).take n := by
    have l := addShares_length la lb
    have l' := addShares_length la' lb'
    refine list_ext_getD (n := n) (by simp [l']) (by simp [l]) fun i => ?_
    by_cases hi : i < n
    · have key : ∀ x : List Field128, (x.take n).getD i 0 = x.getD i 0 := by
        intro x
        simp only [List.getD_eq_getElem?_getD, List.getElem?_take, if_pos hi]
      rw [key, key, addShares_getD la lb, addShares_getD la' lb', hai i hi, hbi i hi]
    · rw [List.getD_eq_default _ _ (by simp; omega), List.getD_eq_default _ _ (by simp; omega)]
  simp only [Spec.verifierOf, ha, ha', hb, hb', Option.bind_eq_bind, Option.bind_some, hseed, htake]

/-- **C72 is false of the code (1).**  Every honest report can be changed so that any count `c` moves from the
other half of the strings to its own string: only the counter entries of its correction words change, and they
differ between the two halves of the report only at the first level.  The report then shares `1 + c` at every prefix of
its string and `-c` at the one-bit string it does not start with.  Its FLP verifier shares stay the same, and the
crawl's checks agree at every set of prefixes of every level. -/
theorem C72_false_report {n : Nat} {alpha : List Bool} {bucket : Nat} {s0 s1 : ReportShare}
    (h : Spec.HonestPair P n alpha bucket s0 s1) (ha : alpha ≠ []) (c : Field128) :
    ∃ (ds0 ds1 : Nat → List Field128) (k0 k1 : VidpfKey) (beta : List Field128),
      (∀ l, (ds0 l).length = n + 1) ∧ (∀ l, (ds1 l).length = n + 1) ∧
      (∀ l, l ≠ 0 → ds0 l = ds1 l) ∧
      (∀ l j, j ≠ n → (ds0 l).getD j 0 = 0 ∧ (ds1 l).getD j 0 = 0) ∧
      Spec.keyOf (Spec.shiftShare ds0 s0) = some k0 ∧ Spec.keyOf (Spec.shiftShare ds1 s1) = some k1 ∧
      encodeMeasurement n bucket = some beta ∧
      (∀ (id : Int) (vk : Block),
        Spec.verifierOf P n id vk (Spec.shiftShare ds0 s0) = Spec.verifierOf P n id vk s0 ∧
        Spec.verifierOf P n id vk (Spec.shiftShare ds1 s1) = Spec.verifierOf P n id vk s1) ∧
      Spec.QuietPair P n alpha.length k0 k1 ∧
      ∀ p : List Bool, p ≠ [] → p.length ≤ alpha.length →
        Spec.reconAt P k0 k1 n p = some (Spec.addShares (Spec.pointValue alpha beta p)
          (Spec.moved alpha (Spec.single (n + 1) n c) p)) := by
  obtain ⟨nonce, rs, beta, pr, proof, rand, hb, -, rfl, rfl⟩ := honestPair_parts h
  obtain ⟨hbl, -⟩ := encodeMeasurement_length hb
  obtain ⟨ds0, ds1, e1, e2, e3, e4, e5, e6, e7⟩ := honest_split P rs alpha beta (Spec.single (n + 1) n c)
    (by rw [single_length, hbl])
  rw [hbl] at e1 e2 e5 e6 e7
  have hal : 1 ≤ alpha.length := List.length_pos_of_ne_nil ha
  have hz : ∀ j, j ≠ n → (Spec.single (n + 1) n c).getD j 0 = 0 := by
    intro j hj
    by_cases hjn : j < n + 1
    · rw [single_getD hjn, if_neg hj]
    · rw [List.getD_eq_default _ _ (by rw [single_length]; omega)]
  refine ⟨ds0, ds1, _, _, beta, e1, e2, e3, fun l j hj => e4 l j (hz j hj), rfl, rfl, hb,
    fun id vk => ⟨?_, ?_⟩, ?_, e7⟩
  · refine verifierOf_congr rfl fun p hp => ?_
    obtain ⟨v0, v1, v0', v1', a0, a1, b0, b1, l0', l1', l0, l1, hj⟩ := e6 p hp hal
    exact ⟨v0, v0', a0, b0, l0, l0', fun i hi => (hj i (hz i (by omega))).1⟩
  · refine verifierOf_congr rfl fun p hp => ?_
    obtain ⟨v0, v1, v0', v1', a0, a1, b0, b1, l0', l1', l0, l1, hj⟩ := e6 p hp hal
    exact ⟨v1, v1', a1, b1, l1, l1', fun i hi => (hj i (hz i (by omega))).2⟩
  · have hpv : ∀ q, (Spec.pointValue alpha beta q).length = n + 1 := fun q => by rw [pointValue_length, hbl]
    have hml : ∀ q, (Spec.moved alpha (Spec.single (n + 1) n c) q).length = n + 1 :=
      fun q => moved_length (single_length _ _ _)
    refine quietPair_of e5 fun p hl => ?_
    by_cases hne : p = []
    · subst hne
      rw [prefixCheck_root e7 (by omega), addShares_getD (hpv _) (hml _), addShares_getD (hpv _) (hml _),
        moved_getD, moved_getD]
      have h1 := pointValue_split alpha beta [] (by rw [List.length_nil]; omega) n
      have h2 : (Spec.pointValue alpha beta []).getD n 0 = 1 := by simp [Spec.pointValue, ← hbl]
      rw [h2, List.nil_append, List.nil_append] at h1
      cases alpha with
      | nil => exact absurd rfl ha
      | cons b t =>
        cases b
        · rw [if_pos (by simp), if_neg (by simp), if_pos (by simp)]; linear_combination -h1
        · rw [if_neg (by simp), if_pos (by simp), if_pos (by simp)]; linear_combination -h1
    · rw [prefixCheck_inner e7 hne (by omega)]
      intro j hj
      have hsplit := pointValue_split alpha beta p (by omega) j
      have hzz : ∀ q, (Spec.moved alpha (Spec.single (n + 1) n c) q).getD j 0 = 0 := by
        intro q
        rw [moved_getD, hz j (by omega)]; simp
      rw [addShares_getD (hpv _) (hml _), addShares_getD (hpv _) (hml _), addShares_getD (hpv _) (hml _), hzz, hzz,
        hzz, hsplit]
      ring

theorem shiftShare_wellFormed {d : Nat} {ds : Nat → List Field128} {s : ReportShare} (h : Spec.WellFormed d s) :
    Spec.WellFormed d (Spec.shiftShare ds s) := by
  obtain ⟨key, g1, g2, g3⟩ := h
  cases s with
  | prio3 => cases g1
  | mastic nonce kk pr j =>
    cases g1
    exact ⟨_, rfl, by simpa [Spec.shiftWords] using g2, by simpa [Spec.shiftWords] using g3⟩

theorem shiftedHeavy_prefix {T d m : Nat} {clients : List (List Bool × Nat)} {x : List Bool → Field128}
    (hm : m ≤ d) (h : Spec.shiftedHeavy T d clients x ≠ []) : Spec.shiftedHeavy T m clients x ≠ [] := by
  obtain ⟨s, hs⟩ := List.exists_mem_of_ne_nil _ h
  obtain ⟨h1, h2⟩ := List.mem_filter.1 hs
  refine List.ne_nil_of_mem (a := s.take m) (List.mem_filter.2 ⟨mem_allPaths.2 ?_, ?_⟩)
  · rw [List.length_take, mem_allPaths.1 h1]; omega
  · rw [List.all_eq_true] at h2 ⊢
    intro q hq
    rw [List.mem_inits] at hq
    exact h2 q ((List.mem_inits _ _).2 (hq.trans (List.take_prefix _ _)))

/-- **C72 is false of the code (2).**  A run with otherwise honest clients, in which one client moves the count `c`,
completes and excludes nobody.  It reports the strings all of whose prefixes reach the threshold after adding `c` to
the number of holders of every prefix of the client's string and subtracting `c` from the number of holders of the
other one-bit string; the reported totals are the honest ones, with `c` added to the count of the client's string. -/
theorem C72_false_run {c0 c1 : ServerCfg} {bld : Build} {cfg : Config} {kcs : Pair2 P}
    {d : Nat} {before after : List (List Bool × Nat)} {alpha : List Bool} {bucket : Nat}
    {A0 A1 B0 B1 : List (Bool × ReportShare)} {s0 s1 : ReportShare}
    (hd : cfg.dataBits = some d) (hd2 : 2 ≤ d) (hb : 1 ≤ cfg.queryBatch) (hn : 1 ≤ cfg.histBuckets)
    (hn0 : kcs.1.inputLen = cfg.histBuckets) (hn1 : kcs.2.inputLen = cfg.histBuckets)
    (h0 : kcs.1.serverId = 0) (h1 : kcs.2.serverId ≠ 0) (hvk : kcs.1.verifyKey = kcs.2.verifyKey)
    (d0 : kcs.1.depth = some d) (d1 : kcs.2.depth = some d)
    (hr0 : kcs.1.reportShares = A0 ++ (true, s0) :: B0) (hr1 : kcs.2.reportShares = A1 ++ (true, s1) :: B1)
    (hA0 : A0.length = before.length) (hA1 : A1.length = before.length)
    (hh : Spec.HonestReports P cfg.histBuckets (before ++ (alpha, bucket) :: after) kcs.1.reportShares
      kcs.2.reportShares)
    (hc : Spec.FlpCompleteFor P cfg.histBuckets kcs.1.verifyKey kcs.1.reportShares)
    (hf0 : ∀ r ∈ kcs.1.reportShares, r.1 = true) (hf1 : ∀ r ∈ kcs.2.reportShares, r.1 = true)
    (hl : ∀ c ∈ before ++ (alpha, bucket) :: after, c.1.length = d) (c : Field128)
    (hheavy : Spec.shiftedHeavy (max 1 cfg.threshold) d (before ++ (alpha, bucket) :: after)
      (fun p => if p <+: alpha then c else if p.length = 1 then -c else 0) ≠ []) :
    ∃ (ds0 ds1 : Nat → List Field128) (out : WhhOut P),
      (∀ l, l ≠ 0 → ds0 l = ds1 l) ∧
      (∀ l j, j ≠ cfg.histBuckets → (ds0 l).getD j 0 = 0 ∧ (ds1 l).getD j 0 = 0) ∧
      runWhh c0 c1 bld cfg
        ({ kcs.1 with reportShares := A0 ++ (true, Spec.shiftShare ds0 s0) :: B0 },
         { kcs.2 with reportShares := A1 ++ (true, Spec.shiftShare ds1 s1) :: B1 })
        (before ++ (alpha, bucket) :: after).length = .ok out ∧
      (∀ r ∈ out.kcs.1.reportShares, r.1 = true) ∧ (∀ r ∈ out.kcs.2.reportShares, r.1 = true) ∧
      out.results.map (fun r => (r.path, r.value))
        = (Spec.shiftedHeavy (max 1 cfg.threshold) d (before ++ (alpha, bucket) :: after)
            (fun p => if p <+: alpha then c else if p.length = 1 then -c else 0)).map fun s =>
          (s, Spec.addShares (Spec.holderTotals cfg.histBuckets (before ++ (alpha, bucket) :: after) s)
            (Spec.single (cfg.histBuckets + 1) cfg.histBuckets (if s = alpha then c else 0))) := by
  have hm : Spec.HonestPair P cfg.histBuckets alpha bucket s0 s1 :=
    hh.2.2 before.length (alpha, bucket) (true, s0) (true, s1) (by simp)
      (by rw [hr0]; simp [← hA0]) (by rw [hr1]; simp [← hA1])
  have hal : alpha.length = d := hl (alpha, bucket) (by simp)
  have ha : alpha ≠ [] := by intro h; rw [h] at hal; simp at hal; omega
  obtain ⟨ds0, ds1, k0, k1, beta, -, -, e3, e4, e5, e6, e7, e8, e9, e10⟩ := C72_false_report hm ha c
  have hpop := population_honest (id0 := kcs.1.serverId) (id1 := kcs.2.serverId) (d := d) hh hc hl hf0 hf1
  have hM := mixed_of_population hpop
  have hrep : ∀ l : List (List Bool × Nat), (l.map some).map Option.isSome = List.replicate l.length true := by
    intro l
    rw [List.map_map, List.eq_replicate_iff]; simp
  rw [hrep, masked_all hh.1, masked_all hh.2.1] at hM
  obtain ⟨-, hw0, hw1, -⟩ := hM.facts
  have hx : (fun p => (Spec.moved alpha (Spec.single (cfg.histBuckets + 1) cfg.histBuckets c) p).getD
      cfg.histBuckets 0) = fun p => if p <+: alpha then c else if p.length = 1 then -c else 0 := by
    funext p
    rw [moved_getD, single_getD (by omega), if_pos rfl]
  rw [hal] at e9 e10
  obtain ⟨out, o1, o2, o3, o4⟩ := replace_run (c0 := c0) (c1 := c1) (bld := bld) (kcs := kcs)
    (t0 := Spec.shiftShare ds0 s0) (t1 := Spec.shiftShare ds1 s1)
    (e := Spec.moved alpha (Spec.single (cfg.histBuckets + 1) cfg.histBuckets c))
    hd hd2 hb hn hn0 hn1 h0 h1 hvk d0 d1 hr0 hr1 hA0 hA1 hh hc hf0 hf1 hl e5 e6
    (shiftShare_wellFormed (hw0 (true, s0) (by rw [hr0]; simp)))
    (shiftShare_wellFormed (hw1 (true, s1) (by rw [hr1]; simp))) e7
    (by
      rw [(e8 _ _).1, (e8 _ _).2]
      exact honest_verifiers h0 h1 ha hm (hc (true, s0) (by rw [hr0]; simp))) e9
    (fun p hne hp => ⟨moved_length (single_length _ _ _), e10 p hne hp⟩)
    (by rw [hx]; exact shiftedHeavy_prefix (by omega) hheavy)
  refine ⟨ds0, ds1, out, e3, e4, o1, o2, o3, o4.trans ?_⟩
  rw [hx]
  refine List.map_congr_left fun s hs => ?_
  have hsl := mem_allPaths.1 (List.mem_filter.1 hs).1
  have hmv : Spec.moved alpha (Spec.single (cfg.histBuckets + 1) cfg.histBuckets c) s
      = Spec.single (cfg.histBuckets + 1) cfg.histBuckets (if s = alpha then c else 0) := by
    refine list_ext_getD (moved_length (single_length _ _ _)) (single_length _ _ _) fun j => ?_
    rw [moved_getD]
    have hpe : s <+: alpha ↔ s = alpha :=
      ⟨fun h => h.eq_of_length (by omega), fun h => by rw [h]⟩
    rw [if_neg (by omega : ¬ s.length = 1)]
    by_cases hj : j < cfg.histBuckets + 1
    · rw [single_getD hj, single_getD hj]
      by_cases hs : s = alpha <;> simp [hpe, hs]
    · rw [List.getD_eq_default _ _ (by rw [single_length]; omega), List.getD_eq_default _ _ (by rw [single_length]; omega)]
      simp
  rw [hmv]

/-- **C72 is false of the code (3).**  If at least `max 1 threshold` clients hold strings that do not start with the
bit `b` that the client's string starts with, the client can make all of them disappear: the run completes, excludes
nobody, and reports the client's own string, even if nobody else holds it, and the strings starting with `b` that
enough clients hold.  The count of the client's string is off by the number of suppressed clients. -/
theorem C72_false_other_half {c0 c1 : ServerCfg} {bld : Build} {cfg : Config} {kcs : Pair2 P}
    {d : Nat} {before after : List (List Bool × Nat)} {b : Bool} {t : List Bool} {bucket : Nat}
    {A0 A1 B0 B1 : List (Bool × ReportShare)} {s0 s1 : ReportShare}
    (hd : cfg.dataBits = some d) (hd2 : 2 ≤ d) (hb : 1 ≤ cfg.queryBatch) (hn : 1 ≤ cfg.histBuckets)
    (hn0 : kcs.1.inputLen = cfg.histBuckets) (hn1 : kcs.2.inputLen = cfg.histBuckets)
    (h0 : kcs.1.serverId = 0) (h1 : kcs.2.serverId ≠ 0) (hvk : kcs.1.verifyKey = kcs.2.verifyKey)
    (d0 : kcs.1.depth = some d) (d1 : kcs.2.depth = some d)
    (hr0 : kcs.1.reportShares = A0 ++ (true, s0) :: B0) (hr1 : kcs.2.reportShares = A1 ++ (true, s1) :: B1)
    (hA0 : A0.length = before.length) (hA1 : A1.length = before.length)
    (hh : Spec.HonestReports P cfg.histBuckets (before ++ (b :: t, bucket) :: after) kcs.1.reportShares
      kcs.2.reportShares)
    (hc : Spec.FlpCompleteFor P cfg.histBuckets kcs.1.verifyKey kcs.1.reportShares)
    (hf0 : ∀ r ∈ kcs.1.reportShares, r.1 = true) (hf1 : ∀ r ∈ kcs.2.reportShares, r.1 = true)
    (hl : ∀ c ∈ before ++ (b :: t, bucket) :: after, c.1.length = d)
    (hlt : 2 * (before ++ (b :: t, bucket) :: after).length < 2 ^ 64)
    (hother : max 1 cfg.threshold ≤ (Spec.holders (before ++ (b :: t, bucket) :: after) [!b]).length) :
    ∃ (ds0 ds1 : Nat → List Field128) (out : WhhOut P),
      (∀ l, l ≠ 0 → ds0 l = ds1 l) ∧
      (∀ l j, j ≠ cfg.histBuckets → (ds0 l).getD j 0 = 0 ∧ (ds1 l).getD j 0 = 0) ∧
      runWhh c0 c1 bld cfg
        ({ kcs.1 with reportShares := A0 ++ (true, Spec.shiftShare ds0 s0) :: B0 },
         { kcs.2 with reportShares := A1 ++ (true, Spec.shiftShare ds1 s1) :: B1 })
        (before ++ (b :: t, bucket) :: after).length = .ok out ∧
      (∀ r ∈ out.kcs.1.reportShares, r.1 = true) ∧ (∀ r ∈ out.kcs.2.reportShares, r.1 = true) ∧
      out.results.map (fun r => (r.path, r.value))
        = ((Spec.allPaths d).filter fun s => decide (s = b :: t ∨ (s.head? = some b ∧
            max 1 cfg.threshold ≤ (before ++ (b :: t, bucket) :: after).countP fun c => c.1 == s))).map fun s =>
          (s, Spec.addShares (Spec.holderTotals cfg.histBuckets (before ++ (b :: t, bucket) :: after) s)
            (Spec.single (cfg.histBuckets + 1) cfg.histBuckets (if s = b :: t then
              ((Spec.holders (before ++ (b :: t, bucket) :: after) [!b]).length : Field128) else 0))) := by
  set clients := before ++ (b :: t, bucket) :: after with hcl
  set c := (Spec.holders clients [!b]).length with hcdef
  set T := max 1 cfg.threshold with hT
  have hcle : c ≤ clients.length := List.length_filter_le _ _
  have hhl : ∀ p, (Spec.holders clients p).length ≤ clients.length := fun p => List.length_filter_le _ _
  have hmod : 2 ^ 64 < fieldModulus := by decide
  have hnat : ∀ m : Nat, m < 2 ^ 64 → (((m : Nat) : Field128)).val % 2 ^ 64 = m := by
    intro m hm
    rw [ZMod.val_natCast_of_lt (by omega), Nat.mod_eq_of_lt hm]
  let x : List Bool → Field128 := fun p => if p <+: b :: t then (c : Field128) else if p.length = 1 then -(c : Field128)
    else 0
  have hon : ∀ p, p <+: b :: t → Spec.shiftedCount clients x p = (Spec.holders clients p).length + c := by
    intro p hp
    unfold Spec.shiftedCount
    simp only [x, if_pos hp]
    rw [← Nat.cast_add, hnat _ (by have := hhl p; omega)]
  have hsib : Spec.shiftedCount clients x [!b] = 0 := by
    unfold Spec.shiftedCount
    have : ¬ [!b] <+: b :: t := by cases b <;> simp
    simp only [x, if_neg this, List.length_singleton, if_true]
    rw [← hcdef, add_neg_cancel]; simp
  have hoff : ∀ p, ¬ p <+: b :: t → p.length ≠ 1 → Spec.shiftedCount clients x p = (Spec.holders clients p).length := by
    intro p hp h1
    unfold Spec.shiftedCount
    simp only [x, if_neg hp, if_neg h1, add_zero]
    exact hnat _ (by have := hhl p; omega)
  have hal : (b :: t).length = d := hl (b :: t, bucket) (by simp [hcl])
  have hlist : Spec.shiftedHeavy T d clients x
      = (Spec.allPaths d).filter fun s => decide (s = b :: t ∨ (s.head? = some b ∧
            T ≤ clients.countP fun c => c.1 == s)) := by
    unfold Spec.shiftedHeavy
    refine List.filter_congr fun s hs => ?_
    have hsl := mem_allPaths.1 hs
    rw [Bool.eq_iff_iff]
    simp only [List.all_eq_true, List.mem_inits, Bool.or_eq_true, List.isEmpty_iff, decide_eq_true_eq]
    have hcnt : (clients.countP fun c => c.1 == s) = (Spec.holders clients s).length := by
      rw [holders_full hl hsl, List.countP_eq_length_filter]
    rw [hcnt]
    constructor
    · intro h
      by_cases hsa : s = b :: t
      · exact .inl hsa
      · right
        have hpre : ¬ s <+: b :: t := fun h => hsa (h.eq_of_length (by omega))
        cases s with
        | nil => simp at hsl; omega
        | cons a u =>
          have h1 := (h [a] (by simp)).resolve_left (by simp)
          have hab : a = b := by
            by_contra hne
            have : [a] = [!b] := by cases a <;> cases b <;> simp_all
            rw [this, hsib] at h1
            omega
          refine ⟨by simp [hab], ?_⟩
          have h2 := (h (a :: u) List.prefix_rfl).resolve_left (by simp)
          rwa [hoff _ hpre (by omega)] at h2
    · rintro (rfl | ⟨hhd, hTs⟩)
      · intro q hq
        right
        rw [hon q hq]; omega
      · intro q hq
        by_cases hqe : q = []
        · exact .inl hqe
        · right
          by_cases hqa : q <+: b :: t
          · rw [hon q hqa]; omega
          · have hq1 : q.length ≠ 1 := by
              intro hq1
              match q, hq1 with
              | [a], _ =>
                cases s with
                | nil => simp at hhd
                | cons a' u =>
                  simp at hhd hq hqa
                  exact hqa (hq.trans hhd)
            rw [hoff q hqa hq1]
            exact hTs.trans (holders_mono clients hq)
  have hne : Spec.shiftedHeavy T d clients x ≠ [] := by
    rw [hlist]
    exact List.ne_nil_of_mem (a := b :: t) (List.mem_filter.2 ⟨mem_allPaths.2 hal, by simp⟩)
  obtain ⟨ds0, ds1, out, g1, g2, g3, g4, g5, g6⟩ := C72_false_run (c0 := c0) (c1 := c1) (bld := bld) (kcs := kcs)
    hd hd2 hb hn hn0 hn1 h0 h1 hvk d0 d1 hr0 hr1 hA0 hA1 hh hc hf0 hf1 hl (c : Field128) hne
  refine ⟨ds0, ds1, out, g1, g2, g3, g4, g5, g6.trans ?_⟩
  exact congrArg (List.map _) hlist

/-- The hypotheses of `C72_false_report` can be met. -/
example : ∃ s0 s1, Spec.HonestPair toy 1 [true, false, true] 0 s0 s1 := by
  obtain ⟨r, hr⟩ := toy_gen_ok (n := 1) (bucket := 0) (by omega) [true, false, true] (toyRand 0)
  exact ⟨_, _, ⟨_, r, hr, rfl⟩⟩

/-- A toy run with threshold 2: one client holds `101`, two hold `001`.  An honest run reports `001` with count 2.
The first client makes the run report `101` with count 3 instead, and nothing else. -/
example : Spec.heavyHitters 1 2 3 [([true, false, true], 0), ([false, false, true], 0), ([false, false, true], 0)]
      = [([false, false, true], [2, 2])] ∧
    ∃ (kcs : Pair2 toy) (out : WhhOut toy),
    runWhh (toyCfg 0 (some 3) .debug) (toyCfg 1 (some 3) .debug) .debug ⟨some 3, 1, 1, 2, 1, 2⟩ kcs 3
      = .ok out ∧
    out.results.map (fun r => (r.path, r.value)) = [([true, false, true], [1, 3])] := by
  refine ⟨by decide +kernel, ?_⟩
  obtain ⟨kcs, h1, h2, h3, h4, h5, h6, h7, h8, h9, h10⟩ :=
    toy_honest 1 3 [([true, false, true], 0), ([false, false, true], 0), ([false, false, true], 0)] (by decide)
  have l0 := h8.1
  have l1 := h8.2.1
  match e0 : kcs.1.reportShares, e1 : kcs.2.reportShares, l0, l1 with
  | (a, s0) :: B0, (b, s1) :: B1, _, _ =>
    have ha : a = true := h9 (a, s0) (by rw [e0]; simp)
    have hb : b = true := h10 (b, s1) (by rw [e1]; simp)
    subst ha; subst hb
    obtain ⟨ds0, ds1, out, -, -, g2, -, -, g3⟩ := C72_false_other_half (c0 := toyCfg 0 (some 3) .debug)
      (c1 := toyCfg 1 (some 3) .debug) (bld := .debug) (cfg := ⟨some 3, 1, 1, 2, 1, 2⟩) (d := 3) (kcs := kcs)
      (before := []) (after := [([false, false, true], 0), ([false, false, true], 0)]) (b := true)
      (t := [false, true]) (bucket := 0)
      (A0 := []) (A1 := []) (B0 := B0) (B1 := B1) rfl (by decide) (by decide) (by decide) h1 h2 h3
      (by rw [h4]; decide) h5 h6 h7 e0 e1 rfl rfl h8 (fun _ _ => toy_flpComplete _ _) h9 h10 (by decide)
      (by decide) (by decide +kernel)
    refine ⟨_, out, g2, g3.trans ?_⟩
    have hf : ((Spec.allPaths 3).filter fun s => decide (s = true :: [false, true] ∨ (s.head? = some true ∧
            max 1 2 ≤ ([] ++ (true :: [false, true], 0) :: [([false, false, true], 0), ([false, false, true], 0)]
              : List (List Bool × Nat)).countP fun c => c.1 == s))) = [[true, false, true]] := by
      decide +kernel
    refine (congrArg (List.map _) hf).trans ?_
    decide +kernel

/-! ### What the checks do bind -/

theorem evalPath_ok {key : VidpfKey} {n : Nat} {p : List Bool} (hc : key.cs.length = key.corWords.length)
    (hp : p.length ≤ key.corWords.length) : ∃ r, Spec.evalPath P key n p = .ok r := by
  induction p using List.reverseRecOn with
  | nil => exact ⟨_, rfl⟩
  | append_singleton p b ih =>
    rw [List.length_append, List.length_singleton] at hp
    obtain ⟨⟨st, w⟩, h⟩ := ih (by omega)
    have hlev := evalPath_level h
    rw [evalPath_snoc, h, ok_bind]
    rw [evalBit_eq (List.getElem?_eq_getElem (by rw [hlev]; omega)) (List.getElem?_eq_getElem (by rw [hlev]; omega))]
    exact ⟨_, rfl⟩

/-- One step of both servers with the same correction words: if the proofs agree before and after it, either the two
words cancel, or the correction seed of the level is the XOR of the two seeds' hashes. -/
theorem step_shared {n : Nat} (hcf : Spec.CollisionFree P n) {cw : CorWord} {c : Block} {st0 st1 : EvalState}
    {p : List Bool} {b : Bool} (hw : cw.word.length = n + 1) (hp : st0.proof = st1.proof)
    (hp' : (evalBitPure P false cw c st0 b (Spec.pathString p) n).1.proof
      = (evalBitPure P true cw c st1 b (Spec.pathString p) n).1.proof) :
    Spec.addShares (evalBitPure P false cw c st0 b (Spec.pathString p) n).2
      (evalBitPure P true cw c st1 b (Spec.pathString p) n).2 = List.replicate (n + 1) 0 ∨
    vxor (Spec.nodeHash P p (evalBitPure P false cw c st0 b (Spec.pathString p) n).1.seed)
      (Spec.nodeHash P p (evalBitPure P true cw c st1 b (Spec.pathString p) n).1.seed) = c := by
  have cancel : ∀ a x y : Block, vxor a x = vxor a y → x = y := by
    intro a x y h
    have := congrArg (vxor a) h
    rwa [← vxor_assoc, ← vxor_assoc, vxor_self, vxor_comm, vxor_zero, vxor_comm, vxor_zero] at this
  unfold evalBitPure at hp' ⊢
  dsimp only [Bool.false_eq_true, if_false, if_true] at hp' ⊢
  rw [hp] at hp'
  generalize hs0 : (if st0.bit = true then vxor (Pair.get (expand P st0.seed).seeds b) cw.seed
    else Pair.get (expand P st0.seed).seeds b) = s0 at hp' ⊢
  generalize hs1 : (if st1.bit = true then vxor (Pair.get (expand P st1.seed).seeds b) cw.seed
    else Pair.get (expand P st1.seed).seeds b) = s1 at hp' ⊢
  generalize (if st0.bit = true then !Pair.get cw.bits b else true) = t0 at hp' ⊢
  generalize (if st1.bit = true then !Pair.get cw.bits b else true) = t1 at hp' ⊢
  have cancelR : ∀ a x y : Block, vxor x a = vxor y a → x = y := by
    intro a x y h
    rw [vxor_comm x, vxor_comm y] at h
    exact cancel _ _ _ h
  have h1 := hcf.step (cancelR _ _ _ hp')
  have hsame : ∀ t : Bool, (convert P s0 n).seed = (convert P s1 n).seed →
      Spec.addShares (if t = true then vecAdd (convert P s0 n).word cw.word else (convert P s0 n).word)
        (vecNeg (if t = true then vecAdd (convert P s1 n).word cw.word else (convert P s1 n).word))
        = List.replicate (n + 1) 0 := by
    intro t h
    rw [hcf.conv _ _ h]
    have hl : (if t = true then vecAdd (convert P s1 n).word cw.word else (convert P s1 n).word).length = n + 1 := by
      split
      · rw [vecAdd_eq_zipWith (by simp [convert_word_length, hw])]
        simp [convert_word_length, hw]
      · exact convert_word_length _ _ _
    generalize (if t = true then vecAdd (convert P s1 n).word cw.word else (convert P s1 n).word) = v at hl ⊢
    apply List.ext_getElem
    · simp [Spec.addShares, vecNeg, hl]
    · intro i h1 h2
      simp [Spec.addShares, vecNeg]
  have hnode : ∀ s : Block, first16 (P.blake3 (Spec.pathString p ++ s.toList)) = Spec.nodeHash P p s := fun _ => rfl
  rw [hnode, hnode] at h1
  cases t0 <;> cases t1 <;> simp only [Bool.false_eq_true, if_false, if_true] at h1 ⊢
  · left
    have := hsame false (hcf.node p (cancel _ _ _ h1))
    simpa using this
  · right
    rw [vxor_assoc] at h1
    rw [cancel _ _ _ h1, vxor_comm, ← vxor_assoc, vxor_self, vxor_comm, vxor_zero]
  · right
    rw [vxor_assoc] at h1
    rw [← cancel _ _ _ h1, ← vxor_assoc, vxor_self, vxor_comm, vxor_zero]
  · left
    rw [vxor_assoc, vxor_assoc] at h1
    have h2 := cancel _ _ _ h1
    rw [vxor_comm _ c, vxor_comm _ c] at h2
    have := hsame true (hcf.node p (cancel _ _ _ h2))
    simpa using this

/-- **C72 (partial).**  What the proofs guarantee if both servers got the same correction words and proof corrections:
at two different strings of the same length at which the servers' proofs agree (there and one bit earlier), if the
hashes do not collide, the report shares zero at one of the two, or the four seeds make an XOR collision of the
hash.  (Missing: nothing compares the correction words of the two servers; and the XOR collision with pairwise equal
seeds is easy to make, `C73_false_run`.) -/
theorem C72_one_hot_partial {n : Nat} {k0 k1 : VidpfKey} {p q : List Bool} {a b : Bool}
    (hcf : Spec.CollisionFree P n) (i0 : k0.keyIdx = false) (i1 : k1.keyIdx = true)
    (hcw : k1.corWords = k0.corWords) (hcs : k1.cs = k0.cs) (hcl : k0.cs.length = k0.corWords.length)
    (hw : ∀ c ∈ k0.corWords, c.word.length = n + 1) (hl : p.length = q.length) (hlt : p.length < k0.corWords.length)
    (hp : Spec.proofAt P k0 n p = Spec.proofAt P k1 n p)
    (hq : Spec.proofAt P k0 n q = Spec.proofAt P k1 n q)
    (hpa : Spec.proofAt P k0 n (p ++ [a]) = Spec.proofAt P k1 n (p ++ [a]))
    (hqb : Spec.proofAt P k0 n (q ++ [b]) = Spec.proofAt P k1 n (q ++ [b])) :
    Spec.reconAt P k0 k1 n (p ++ [a]) = some (List.replicate (n + 1) 0) ∨
    Spec.reconAt P k0 k1 n (q ++ [b]) = some (List.replicate (n + 1) 0) ∨
    ∃ x0 x1 y0 y1, Spec.seedAt P k0 n (p ++ [a]) = some x0 ∧ Spec.seedAt P k1 n (p ++ [a]) = some x1 ∧
      Spec.seedAt P k0 n (q ++ [b]) = some y0 ∧ Spec.seedAt P k1 n (q ++ [b]) = some y1 ∧
      vxor (Spec.nodeHash P (p ++ [a]) x0) (Spec.nodeHash P (p ++ [a]) x1)
        = vxor (Spec.nodeHash P (q ++ [b]) y0) (Spec.nodeHash P (q ++ [b]) y1) := by
  obtain ⟨cw, hcwl⟩ : ∃ cw, k0.corWords[p.length]? = some cw := ⟨_, List.getElem?_eq_getElem hlt⟩
  obtain ⟨c, hcl'⟩ : ∃ c, k0.cs[p.length]? = some c := ⟨_, List.getElem?_eq_getElem (by omega)⟩
  have key : ∀ (r : List Bool) (x : Bool), r.length = p.length →
      Spec.proofAt P k0 n r = Spec.proofAt P k1 n r →
      Spec.proofAt P k0 n (r ++ [x]) = Spec.proofAt P k1 n (r ++ [x]) →
      Spec.reconAt P k0 k1 n (r ++ [x]) = some (List.replicate (n + 1) 0) ∨
      ∃ x0 x1, Spec.seedAt P k0 n (r ++ [x]) = some x0 ∧ Spec.seedAt P k1 n (r ++ [x]) = some x1 ∧
        vxor (Spec.nodeHash P (r ++ [x]) x0) (Spec.nodeHash P (r ++ [x]) x1) = c := by
    intro r x hr h1 h2
    obtain ⟨⟨st0, w0⟩, e0⟩ := evalPath_ok (P := P) (key := k0) (n := n) (p := r) (by omega) (by omega)
    obtain ⟨⟨st1, w1⟩, e1⟩ := evalPath_ok (P := P) (key := k1) (n := n) (p := r) (by rw [hcw, hcs]; omega)
      (by rw [hcw]; omega)
    have l0 := evalPath_level e0
    have l1 := evalPath_level e1
    have f0 : Spec.evalPath P k0 n (r ++ [x]) = .ok ((evalBitPure P false cw c st0 x (Spec.pathString (r ++ [x])) n).1,
        some (evalBitPure P false cw c st0 x (Spec.pathString (r ++ [x])) n).2) := by
      rw [evalPath_snoc, e0, ok_bind, evalBit_eq (by rw [l0, hr]; exact hcwl) (by rw [l0, hr]; exact hcl'), ok_bind, i0]
    have f1 : Spec.evalPath P k1 n (r ++ [x]) = .ok ((evalBitPure P true cw c st1 x (Spec.pathString (r ++ [x])) n).1,
        some (evalBitPure P true cw c st1 x (Spec.pathString (r ++ [x])) n).2) := by
      rw [evalPath_snoc, e1, ok_bind, evalBit_eq (by rw [l1, hr, hcw]; exact hcwl) (by rw [l1, hr, hcs]; exact hcl'),
        ok_bind, i1]
    unfold Spec.proofAt at h1 h2
    rw [e0, e1] at h1
    rw [f0, f1] at h2
    rcases step_shared (P := P) hcf (hw cw (List.mem_of_getElem? hcwl)) (Option.some.inj h1) (Option.some.inj h2)
      with h | h
    · left
      unfold Spec.reconAt Spec.valueAt
      rw [f0, f1]
      simp only [Option.bind_eq_bind, Option.bind_some]
      rw [h]
    · right
      exact ⟨_, _, by unfold Spec.seedAt; rw [f0], by unfold Spec.seedAt; rw [f1], h⟩
  rcases key p a rfl hp hpa with h | ⟨x0, x1, g0, g1, g2⟩
  · exact .inl h
  · rcases key q b hl.symm hq hqb with h | ⟨y0, y1, g3, g4, g5⟩
    · exact .inr (.inl h)
    · exact .inr (.inr ⟨x0, x1, y0, y1, g0, g1, g3, g4, g2.trans g5.symm⟩)

/-- A toy "hash": the last 16 input bytes, and zeros. -/
def lastHash (d : List Byte) : Vector Byte 32 :=
  Vector.ofFn fun i => if i.1 < 16 then (d.drop (d.length - 16)).getD i.1 0 else 0

/-- A toy instance without collisions. -/
def plainToy : Prims := { toy with aes := fun _ => Block.zero, blake3 := lastHash }

theorem lastHash_append (l : List Byte) (x : Block) : first16 (lastHash (l ++ x.toList)) = x := by
  apply Vector.ext
  intro i hi
  simp [first16, lastHash]

theorem plainToy_collisionFree (n : Nat) : Spec.CollisionFree plainToy n where
  step := by
    intro x y h
    have h' : first16 (lastHash ([] ++ x.toList)) = first16 (lastHash ([] ++ y.toList)) := h
    rwa [lastHash_append, lastHash_append] at h'
  node := by
    intro p x y h
    have h' : first16 (lastHash (Spec.pathString p ++ x.toList)) = first16 (lastHash (Spec.pathString p ++ y.toList)) := h
    rwa [lastHash_append, lastHash_append] at h'
  conv := by
    intro s s' h
    have hz : ∀ a : Block, vxor Block.zero a = a := fun a => by rw [vxor_comm]; exact vxor_zero a
    have h' : vxor Block.zero s = vxor Block.zero s' := h
    rw [hz, hz] at h'
    rw [h']

/-- The hypotheses of `C72_one_hot_partial` can be met: an honest report at `10` and `11`, at the first of which it does
not share zero. -/
example : ∃ k0 k1 : VidpfKey, Spec.CollisionFree plainToy 1 ∧ k0.keyIdx = false ∧ k1.keyIdx = true ∧
    k1.corWords = k0.corWords ∧ k1.cs = k0.cs ∧ k0.cs.length = k0.corWords.length ∧
    (∀ c ∈ k0.corWords, c.word.length = 1 + 1) ∧ k0.corWords.length = 2 ∧
    (∀ p : List Bool, p.length ≤ 2 → Spec.proofAt plainToy k0 1 p = Spec.proofAt plainToy k1 1 p) ∧
    Spec.reconAt plainToy k0 k1 1 [true, false] = some [1, 1] := by
  have h := gen_keyPair plainToy (toyRand 0).rootSeeds [true, false] [1]
  refine ⟨_, _, plainToy_collisionFree 1, h.idx0, h.idx1, h.cw, h.cs, by rw [h.csLen, h.cwLen],
    genLoop_word_length _ _ _ _ _ _, h.cwLen, fun p hp => honest_proofs _ _ [1] p hp, ?_⟩
  exact (honest_recon (P := plainToy) _ [true, false] [1] [true, false] (by simp) (by simp)).trans (by decide)

end Mastic
