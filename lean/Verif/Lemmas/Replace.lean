import Verif.Spec.Split
import Verif.Props.Weights

/-!
# Helper lemmas: a run in which one honest report is replaced by another one
-/

namespace Mastic

variable {P : Prims}

theorem replace_run {c0 c1 : ServerCfg} {bld : Build} {cfg : Config} {kcs : Pair2 P}
    {d : Nat} {before after : List (List Bool × Nat)} {alpha : List Bool} {bucket : Nat}
    {A0 A1 B0 B1 : List (Bool × ReportShare)} {s0 s1 t0 t1 : ReportShare} {k0' k1' : VidpfKey}
    {beta : List Field128} {e : List Bool → List Field128}
    (hd : cfg.dataBits = some d) (hd2 : 2 ≤ d) (hb : 1 ≤ cfg.queryBatch) (hn' : 1 ≤ cfg.histBuckets)
    (hn0 : kcs.1.inputLen = cfg.histBuckets) (hn1 : kcs.2.inputLen = cfg.histBuckets)
    (h0 : kcs.1.serverId = 0) (h1 : kcs.2.serverId ≠ 0) (hvk : kcs.1.verifyKey = kcs.2.verifyKey)
    (d0 : kcs.1.depth = some d) (d1 : kcs.2.depth = some d)
    (hr0 : kcs.1.reportShares = A0 ++ (true, s0) :: B0) (hr1 : kcs.2.reportShares = A1 ++ (true, s1) :: B1)
    (hA0 : A0.length = before.length) (hA1 : A1.length = before.length)
    (hh : Spec.HonestReports P cfg.histBuckets (before ++ (alpha, bucket) :: after) kcs.1.reportShares
      kcs.2.reportShares)
    (hc : Spec.FlpCompleteFor P cfg.histBuckets kcs.1.verifyKey kcs.1.reportShares)
    (hf0 : ∀ r ∈ kcs.1.reportShares, r.1 = true) (hf1 : ∀ r ∈ kcs.2.reportShares, r.1 = true)
    (hl : ∀ c ∈ before ++ (alpha, bucket) :: after, c.1.length = d)
    (e4 : Spec.keyOf t0 = some k0') (e5 : Spec.keyOf t1 = some k1')
    (w0 : Spec.WellFormed d t0) (w1 : Spec.WellFormed d t1)
    (e6 : encodeMeasurement cfg.histBuckets bucket = some beta)
    (e7 : ∃ v0 v1, Spec.verifierOf P cfg.histBuckets kcs.1.serverId kcs.1.verifyKey t0 = some v0 ∧
        Spec.verifierOf P cfg.histBuckets kcs.2.serverId kcs.1.verifyKey t1 = some v1 ∧
        P.flpDecide cfg.histBuckets (Spec.addShares v0 v1) = some true)
    (e8 : Spec.QuietPair P cfg.histBuckets d k0' k1')
    (e9 : ∀ p : List Bool, p ≠ [] → p.length ≤ d → (e p).length = cfg.histBuckets + 1 ∧
      Spec.reconAt P k0' k1' cfg.histBuckets p
        = some (Spec.addShares (Spec.pointValue alpha beta p) (e p)))
    (hheavy : Spec.shiftedHeavy (max 1 cfg.threshold) (d - 2) (before ++ (alpha, bucket) :: after)
      (fun p => (e p).getD cfg.histBuckets 0) ≠ []) :
    ∃ out : WhhOut P,
      runWhh c0 c1 bld cfg
        ({ kcs.1 with reportShares := A0 ++ (true, t0) :: B0 },
         { kcs.2 with reportShares := A1 ++ (true, t1) :: B1 })
        (before ++ (alpha, bucket) :: after).length = .ok out ∧
      (∀ r ∈ out.kcs.1.reportShares, r.1 = true) ∧ (∀ r ∈ out.kcs.2.reportShares, r.1 = true) ∧
      out.results.map (fun r => (r.path, r.value))
        = (Spec.shiftedHeavy (max 1 cfg.threshold) d (before ++ (alpha, bucket) :: after)
            (fun p => (e p).getD cfg.histBuckets 0)).map fun s =>
          (s, Spec.addShares (Spec.holderTotals cfg.histBuckets (before ++ (alpha, bucket) :: after) s) (e s)) := by
  set n := cfg.histBuckets with hn
  set clients := before ++ (alpha, bucket) :: after with hcl
  -- the client in question
  have hm : Spec.HonestPair P n alpha bucket s0 s1 :=
    hh.2.2 before.length (alpha, bucket) (true, s0) (true, s1) (by simp [hcl])
      (by rw [hr0]; simp [← hA0]) (by rw [hr1]; simp [← hA1])
  have hal : alpha.length = d := hl (alpha, bucket) (by simp [hcl])
  -- the honest lists
  have hpop := population_honest (id0 := kcs.1.serverId) (id1 := kcs.2.serverId) (d := d) hh hc hl hf0 hf1
  have hM := mixed_of_population hpop
  have hrep : (clients.map some).map Option.isSome = List.replicate clients.length true := by
    rw [List.map_map, List.eq_replicate_iff]; simp
  rw [hrep, masked_all hh.1, masked_all hh.2.1] at hM
  obtain ⟨hq, hw0, hw1, hF⟩ := hM.facts
  rw [show (clients.map some).filterMap id = clients by simp [List.filterMap_map]] at hF
  -- the changed lists
  set r0' := A0 ++ (true, t0) :: B0 with hr0'
  set r1' := A1 ++ (true, t1) :: B1 with hr1'
  have hlen0 : r0'.length = clients.length := by rw [← hh.1, hr0, hr0']; simp
  have hlen1 : r1'.length = clients.length := by rw [← hh.2.1, hr1, hr1']; simp
  have hat0 : ∀ j x, r0'[j]? = some x → (j = before.length ∧ x = (true, t0)) ∨
      (j ≠ before.length ∧ kcs.1.reportShares[j]? = some x) := by
    intro j x hx
    rw [hr0'] at hx
    rw [hr0]
    rcases Nat.lt_trichotomy j A0.length with h | h | h
    · right
      refine ⟨by omega, ?_⟩
      rw [List.getElem?_append_left h] at hx ⊢; exact hx
    · left
      refine ⟨by omega, ?_⟩
      subst h
      simpa using hx.symm
    · right
      refine ⟨by omega, ?_⟩
      rw [List.getElem?_append_right h.le] at hx ⊢
      rw [List.getElem?_cons, if_neg (by omega)] at hx ⊢; exact hx
  have hat1 : ∀ j x, r1'[j]? = some x → (j = before.length ∧ x = (true, t1)) ∨
      (j ≠ before.length ∧ kcs.2.reportShares[j]? = some x) := by
    intro j x hx
    rw [hr1'] at hx
    rw [hr1]
    rcases Nat.lt_trichotomy j A1.length with h | h | h
    · right
      refine ⟨by omega, ?_⟩
      rw [List.getElem?_append_left h] at hx ⊢; exact hx
    · left
      refine ⟨by omega, ?_⟩
      subst h
      simpa using hx.symm
    · right
      refine ⟨by omega, ?_⟩
      rw [List.getElem?_append_right h.le] at hx ⊢
      rw [List.getElem?_cons, if_neg (by omega)] at hx ⊢; exact hx
  have hfl0 : ∀ r ∈ r0', r.1 = true := by
    intro r hr
    obtain ⟨j, hj⟩ := List.getElem?_of_mem hr
    rcases hat0 j r hj with ⟨-, rfl⟩ | ⟨-, h⟩
    · rfl
    · exact hf0 r (List.mem_of_getElem? h)
  have hfl1 : ∀ r ∈ r1', r.1 = true := by
    intro r hr
    obtain ⟨j, hj⟩ := List.getElem?_of_mem hr
    rcases hat1 j r hj with ⟨-, rfl⟩ | ⟨-, h⟩
    · rfl
    · exact hf1 r (List.mem_of_getElem? h)
  have hw0' : ∀ br ∈ r0', Spec.WellFormed d br.2 := by
    intro br hbr
    obtain ⟨j, hj⟩ := List.getElem?_of_mem hbr
    rcases hat0 j br hj with ⟨-, rfl⟩ | ⟨-, h⟩
    · exact w0
    · exact hw0 br (List.mem_of_getElem? h)
  have hw1' : ∀ br ∈ r1', Spec.WellFormed d br.2 := by
    intro br hbr
    obtain ⟨j, hj⟩ := List.getElem?_of_mem hbr
    rcases hat1 j br hj with ⟨-, rfl⟩ | ⟨-, h⟩
    · exact w1
    · exact hw1 br (List.mem_of_getElem? h)
  have hmask0 : Spec.masked r0' (List.replicate clients.length true) = r0' := masked_all hlen0
  have hmask1 : Spec.masked r1' (List.replicate clients.length true) = r1' := masked_all hlen1
  -- FLP decisions
  have hver : ∀ (j : Nat) (x0 x1 : Bool × ReportShare), kcs.1.reportShares[j]? = some x0 →
      kcs.2.reportShares[j]? = some x1 → ∃ v0 v1,
        Spec.verifierOf P n kcs.1.serverId kcs.1.verifyKey x0.2 = some v0 ∧
        Spec.verifierOf P n kcs.2.serverId kcs.1.verifyKey x1.2 = some v1 ∧
        P.flpDecide n (Spec.addShares v0 v1) = some true := by
    intro j x0 x1 g0 g1
    have hjl : j < clients.length := hh.1 ▸ (List.getElem?_eq_some_iff.1 g0).1
    have hcj := hh.2.2 j clients[j] x0 x1 (List.getElem?_eq_getElem hjl) g0 g1
    refine honest_verifiers h0 h1 ?_ hcj (hc x0 (List.mem_of_getElem? g0))
    intro he
    have := hl clients[j] (List.getElem_mem hjl)
    rw [he, List.length_nil] at this; omega
  have hdec : ∀ (j : Nat) (b0 b1 : Bool) (t0 t1 : ReportShare), r0'[j]? = some (b0, t0) →
      r1'[j]? = some (b1, t1) → ∃ v0 v1 b,
        Spec.verifierOf P n kcs.1.serverId kcs.1.verifyKey t0 = some v0 ∧
        Spec.verifierOf P n kcs.2.serverId kcs.1.verifyKey t1 = some v1 ∧
        P.flpDecide n (Spec.addShares v0 v1) = some b ∧
        (List.replicate clients.length true)[j]? = some b := by
    intro j b0 b1 t0 t1 g0 g1
    have hjl : j < clients.length := hlen0 ▸ (List.getElem?_eq_some_iff.1 g0).1
    have hrj : (List.replicate clients.length true)[j]? = some true := by simp [hjl]
    rcases hat0 j _ g0 with ⟨hj, hx0⟩ | ⟨hj, hx0⟩
    · rcases hat1 j _ g1 with ⟨-, hx1⟩ | ⟨hj', -⟩
      · obtain ⟨v0, v1, f0, f1, f2⟩ := e7
        cases hx0; cases hx1
        exact ⟨v0, v1, true, f0, f1, f2, hrj⟩
      · exact absurd hj hj'
    · rcases hat1 j _ g1 with ⟨hj', -⟩ | ⟨-, hx1⟩
      · exact absurd hj' hj
      · obtain ⟨v0, v1, f0, f1, f2⟩ := hver j _ _ hx0 hx1
        exact ⟨v0, v1, true, f0, f1, f2, hrj⟩
  -- quiet
  have hq' : Spec.QuietReports P n d r0' r1' := by
    constructor
    · have hrepl : ∀ r : List (Bool × ReportShare), (∀ x ∈ r, x.1 = true) →
          r.map Prod.fst = List.replicate r.length true := by
        intro r hr
        rw [List.eq_replicate_iff]
        refine ⟨by simp, fun b hb => ?_⟩
        obtain ⟨x, hx, rfl⟩ := List.mem_map.1 hb
        exact hr x hx
      rw [hrepl _ hfl0, hrepl _ hfl1, hlen0, hlen1]
    · intro j t0 t1 g0 g1
      rcases hat0 j _ g0 with ⟨hj, hx0⟩ | ⟨hj, hx0⟩
      · rcases hat1 j _ g1 with ⟨-, hx1⟩ | ⟨hj', -⟩
        · cases hx0; cases hx1
          exact ⟨k0', k1', e4, e5, e8⟩
        · exact absurd hj hj'
      · rcases hat1 j _ g1 with ⟨hj', -⟩ | ⟨-, hx1⟩
        · exact absurd hj' hj
        · exact hq.2 j t0 t1 hx0 hx1
  have hinc : Spec.included r0' ≠ [] := by
    have hx : r0'[before.length]? = some (true, t0) := by rw [hr0']; simp [← hA0]
    refine List.ne_nil_of_mem (a := (before.length, t0)) ?_
    unfold Spec.included
    rw [List.mem_filterMap]
    refine ⟨((true, t0), before.length), ?_, rfl⟩
    rw [List.mem_zipIdx_iff_getElem?]
    exact hx
  -- the key pairs
  obtain ⟨k0, k1, f0, f1, -⟩ := honestPair_facts hm
  have hp0 : Spec.keyPairs kcs.1.reportShares kcs.2.reportShares
      = Spec.keyPairs A0 A1 ++ (k0, k1) :: Spec.keyPairs B0 B1 := by
    rw [hr0, hr1, keyPairs_append (by omega)]
    simp [Spec.keyPairs, f0, f1]
  have hp1 : Spec.keyPairs r0' r1'
      = Spec.keyPairs A0 A1 ++ (k0', k1') :: Spec.keyPairs B0 B1 := by
    rw [hr0', hr1', keyPairs_append (by omega)]
    simp [Spec.keyPairs, e4, e5]
  set X := Spec.keyPairs A0 A1 with hX
  set Y := Spec.keyPairs B0 B1 with hY
  rw [hp0] at hF
  have hrecl : ∀ p : List Bool, p ≠ [] → p.length ≤ d → ∀ kk ∈ X ++ (k0, k1) :: Y,
      ((Spec.reconAt P kk.1 kk.2 n p).getD []).length = n + 1 := by
    intro p hne hpl kk hkk
    obtain ⟨m, hm1, hm2⟩ := List.getElem_of_mem hkk
    have hm3 := (List.forall₂_iff_get.1 hF).2 m hm1 (hF.length_eq ▸ hm1)
    rw [List.get_eq_getElem, hm2] at hm3
    obtain ⟨bt, hbt, hrec⟩ := hm3
    rw [hrec p hne hpl, Option.getD_some, pointValue_length, (encodeMeasurement_length hbt).1]
  have hreco : ∀ p : List Bool, p ≠ [] → p.length ≤ d →
      Spec.reconAt P k0 k1 n p = some (Spec.pointValue alpha beta p) := by
    obtain ⟨k0h, k1h, f0h, f1h, -, ⟨bt, hbt, hrec⟩, -⟩ := honestPair_facts hm
    rw [f0] at f0h; rw [f1] at f1h
    cases f0h; cases f1h
    dsimp only at hbt hrec
    rw [e6] at hbt
    cases hbt
    intro p hne hpl
    exact hrec p hne (by omega)
  have hbl : beta.length = n := (encodeMeasurement_length e6).1
  have hXY : ∀ p : List Bool, p ≠ [] → p.length ≤ d → ∀ kk ∈ X ++ Y,
      ((Spec.reconAt P kk.1 kk.2 n p).getD []).length = n + 1 := by
    intro p hne hpl kk hkk
    refine hrecl p hne hpl kk ?_
    rcases List.mem_append.1 hkk with h | h
    · exact List.mem_append_left _ h
    · exact List.mem_append_right _ (List.mem_cons_of_mem _ h)
  have htal : ∀ p : List Bool, p ≠ [] → p.length ≤ d →
      Spec.tally P n (X ++ (k0', k1') :: Y) p = Spec.addShares (Spec.holderTotals n clients p) (e p) := by
    intro p hne hpl
    have hpv : (Spec.pointValue alpha beta p).length = n + 1 := by rw [pointValue_length, hbl]
    have h9 := e9 p hne hpl
    rw [tally_replace (a := (k0, k1)) (b := (k0', k1')) (hXY p hne hpl) (hreco p hne hpl) h9.2 hpv h9.1,
      tally_clients hF hne hpl]
    rfl
  have hhl : ∀ p, (Spec.holderTotals n clients p).length = n + 1 := by
    intro p; simp [Spec.holderTotals, Spec.histogram]
  have hcount : ∀ p : List Bool, p ≠ [] → p.length ≤ d →
      Spec.countAt P n (X ++ (k0', k1') :: Y) p
        = Spec.shiftedCount clients (fun p => (e p).getD n 0) p := by
    intro p hne hpl
    unfold Spec.countAt Spec.shiftedCount
    rw [htal p hne hpl, addShares_getD (hhl p) (e9 p hne hpl).1]
    congr 4
    unfold Spec.holderTotals
    rw [List.getD_append_right _ _ _ _ (by simp [Spec.histogram])]
    simp [Spec.histogram]
  have hhp : ∀ m ≤ d, Spec.heavyPaths P n (max 1 cfg.threshold) (X ++ (k0', k1') :: Y) m
      = Spec.shiftedHeavy (max 1 cfg.threshold) m clients (fun p => (e p).getD n 0) := by
    intro m hm
    unfold Spec.heavyPaths Spec.shiftedHeavy
    refine List.filter_congr fun p hp => ?_
    unfold Spec.heavy
    rw [Bool.eq_iff_iff]
    simp only [List.all_eq_true, List.mem_inits, Bool.or_eq_true, List.isEmpty_iff, decide_eq_true_eq]
    refine forall_congr' fun q => forall_congr' fun hq => ?_
    by_cases hne : q = []
    · simp [hne]
    · rw [hcount q hne (by have := mem_allPaths.1 hp; have := hq.length_le; omega)]
  -- the run
  obtain ⟨g, -⟩ := whh_decided (c0 := c0) (c1 := c1) (bld := bld) (cfg := cfg)
    (kcs := ({ kcs.1 with reportShares := r0' }, { kcs.2 with reportShares := r1' })) (num := clients.length)
    (keep := List.replicate clients.length true) hd hd2 hb hn' hn0 hn1 h0 h1 hvk d0 d1 hlen0 hlen1 hw0'
    hw1' (by simp) hdec (by rw [hmask0, hmask1]; exact quiet_inner hq') (.inl (by rw [hmask0, hmask1]; exact hq'))
    (by rw [hmask0]; exact hinc)
  simp only [hmask0, hmask1, hp1, ← hn] at g
  rw [hhp _ (by omega), hhp _ le_rfl] at g
  obtain ⟨out, o1, o2, o3, o4, -⟩ := g hheavy
  refine ⟨out, o1, by rw [o2]; exact hfl0, by rw [o3]; exact hfl1, ?_⟩
  rw [o4]
  unfold resultsOf
  simp only [List.map_map]
  refine List.map_congr_left fun p hp => ?_
  have hpd : p.length = d := mem_allPaths.1 (List.mem_filter.1 hp).1
  have hpne : p ≠ [] := by intro h; rw [h] at hpd; simp at hpd; omega
  simp only [Function.comp, Prod.mk.injEq, true_and]
  exact htal p hpne (by omega)

end Mastic
