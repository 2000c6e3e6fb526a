import Verif.Lemmas.Weights
import Verif.Props.Whh

/-!
# C59: the weight checks see only the low 64 bits
-/

namespace Mastic

variable {P : Prims}

theorem verifierOf_shift {n : Nat} {id : Int} {vk nonce : Block} {key : VidpfKey} {pr : List Field128}
    {j : Block × Block} {ds : Nat → List Field128}
    (h : ∀ p : List Bool, p.length = 1 →
      Spec.valueAt P (Spec.shiftWords key ds) n p = Spec.valueAt P key n p) :
    Spec.verifierOf P n id vk (.mastic nonce (Spec.shiftWords key ds) pr j)
      = Spec.verifierOf P n id vk (.mastic nonce key pr j) := by
  simp only [Spec.verifierOf]
  rw [h _ rfl, h _ rfl]
  rfl

theorem shiftShare_nonce (ds : Nat → List Field128) (s : ReportShare) :
    (Spec.shiftShare ds s).nonce = s.nonce := by cases s <;> rfl

/-- **C59 is false of the code (1).** Every honest report can be changed, only in the weight entry `i` of
its correction words below the first level, so that the weight it shares at every prefix of its string of
length at least two is off by `k·2^64` or by `-k·2^64` (`4·k·2^64` at most the modulus), while: its FLP
verifier shares stay the same, and the crawl's checks agree at every set of prefixes of every level. -/
theorem C59_false_report {n : Nat} {alpha : List Bool} {bucket : Nat} {s0 s1 : ReportShare}
    (h : Spec.HonestPair P n alpha bucket s0 s1) (ha : alpha ≠ []) (i : Nat) (hi : i < n) (k : Nat)
    (hk : 4 * (k * 2 ^ 64) ≤ fieldModulus) :
    ∃ (ds : Nat → List Field128) (delta : Field128) (k0 k1 : VidpfKey) (beta : List Field128),
      (delta = ((k * 2 ^ 64 : Nat) : Field128) ∨ delta = -((k * 2 ^ 64 : Nat) : Field128)) ∧
      (∀ l, (ds l).length = n + 1) ∧ (∀ l j, l = 0 ∨ j ≠ i → (ds l).getD j 0 = 0) ∧
      Spec.keyOf (Spec.shiftShare ds s0) = some k0 ∧ Spec.keyOf (Spec.shiftShare ds s1) = some k1 ∧
      encodeMeasurement n bucket = some beta ∧
      (∀ (id : Int) (vk : Block),
        Spec.verifierOf P n id vk (Spec.shiftShare ds s0) = Spec.verifierOf P n id vk s0 ∧
        Spec.verifierOf P n id vk (Spec.shiftShare ds s1) = Spec.verifierOf P n id vk s1) ∧
      Spec.QuietPair P n alpha.length k0 k1 ∧
      ∀ p : List Bool, p ≠ [] → p.length ≤ alpha.length →
        Spec.reconAt P k0 k1 n p = some (if p <+: alpha ∧ 2 ≤ p.length then
            Spec.addShares (Spec.pointValue alpha beta p) (Spec.single (n + 1) i delta)
          else Spec.pointValue alpha beta p) := by
  obtain ⟨nonce, rs, beta, pr, proof, rand, hb, -, rfl, rfl⟩ := honestPair_parts h
  obtain ⟨hbl, -⟩ := encodeMeasurement_length hb
  obtain ⟨ds, delta, e1, e2, e3, e4, e5, e6⟩ := honest_drift P rs alpha beta i (by omega) k hk
  rw [hbl] at e2 e4 e5 e6
  have hal : 1 ≤ alpha.length := List.length_pos_of_ne_nil ha
  refine ⟨ds, delta, _, _, beta, e1, e2, e3, rfl, rfl, hb, fun id vk => ⟨?_, ?_⟩, e4, e6⟩
  · exact verifierOf_shift fun p hp => (e5 p hp hal).1
  · exact verifierOf_shift fun p hp => (e5 p hp hal).2

/-! ### What the tally of the changed report is -/

theorem tally_replace {n : Nat} {X Y : List (VidpfKey × VidpfKey)} {a b : VidpfKey × VidpfKey}
    {p : List Bool} {va e : List Field128}
    (hX : ∀ k ∈ X ++ Y, ((Spec.reconAt P k.1 k.2 n p).getD []).length = n + 1)
    (ha : Spec.reconAt P a.1 a.2 n p = some va)
    (hb : Spec.reconAt P b.1 b.2 n p = some (Spec.addShares va e))
    (hva : va.length = n + 1) (he : e.length = n + 1) :
    Spec.tally P n (X ++ b :: Y) p = Spec.addShares (Spec.tally P n (X ++ a :: Y) p) e := by
  unfold Spec.tally
  have hall : ∀ c : VidpfKey × VidpfKey, ((Spec.reconAt P c.1 c.2 n p).getD []).length = n + 1 →
      ∀ v ∈ (X ++ c :: Y).map (fun k => (Spec.reconAt P k.1 k.2 n p).getD []), v.length = n + 1 := by
    intro c hc v hv
    obtain ⟨k, hk, rfl⟩ := List.mem_map.1 hv
    rcases List.mem_append.1 hk with hk | hk
    · exact hX k (List.mem_append_left _ hk)
    · rcases List.mem_cons.1 hk with rfl | hk
      · exact hc
      · exact hX k (List.mem_append_right _ hk)
  obtain ⟨l1, s1⟩ := sumVecs_spec (hall a (by rw [ha]; exact hva))
  obtain ⟨l2, s2⟩ := sumVecs_spec (hall b (by rw [hb]; exact addShares_length hva he))
  refine list_ext_getD l2 (addShares_length l1 he) fun i => ?_
  rw [s2, addShares_getD l1 he, s1]
  simp only [List.map_append, List.map_cons, List.sum_append, List.sum_cons, ha, hb, Option.getD_some,
    addShares_getD hva he]
  ring

theorem heavyPaths_congr {n T m : Nat} {X Y : List (VidpfKey × VidpfKey)}
    (h : ∀ p : List Bool, p ≠ [] → p.length ≤ m → Spec.countAt P n X p = Spec.countAt P n Y p) :
    Spec.heavyPaths P n T X m = Spec.heavyPaths P n T Y m := by
  unfold Spec.heavyPaths
  refine List.filter_congr fun p hp => ?_
  unfold Spec.heavy
  rw [Bool.eq_iff_iff]
  simp only [List.all_eq_true, List.mem_inits, Bool.or_eq_true, List.isEmpty_iff, decide_eq_true_eq]
  refine forall_congr' fun q => forall_congr' fun hq => ?_
  by_cases hne : q = []
  · simp [hne]
  · rw [h q hne (by rw [← mem_allPaths.1 hp]; exact hq.length_le)]

theorem keyPairs_append {a0 a1 b0 b1 : List (Bool × ReportShare)} (h : a0.length = a1.length) :
    Spec.keyPairs (a0 ++ b0) (a1 ++ b1) = Spec.keyPairs a0 a1 ++ Spec.keyPairs b0 b1 := by
  unfold Spec.keyPairs
  rw [List.zip_append h, List.filterMap_append]

/-- **C59 is false of the code (2).** In a run with otherwise honest clients, one client can change the
reported weight of its string by `k·2^64` or `-k·2^64`, and the run goes through as if it were honest: nobody is
excluded and the same strings are found with the same counts. -/
theorem C59_false_run {c0 c1 : ServerCfg} {bld : Build} {cfg : Config} {kcs : Pair2 P}
    {d : Nat} {before after : List (List Bool × Nat)} {alpha : List Bool} {bucket : Nat}
    {A0 A1 B0 B1 : List (Bool × ReportShare)} {s0 s1 : ReportShare}
    (hd : cfg.dataBits = some d) (hd2 : 2 ≤ d) (hb : 1 ≤ cfg.queryBatch)
    (hn0 : kcs.1.inputLen = cfg.histBuckets) (hn1 : kcs.2.inputLen = cfg.histBuckets)
    (h0 : kcs.1.serverId = 0) (h1 : kcs.2.serverId ≠ 0) (hvk : kcs.1.verifyKey = kcs.2.verifyKey)
    (d0 : kcs.1.depth = some d) (d1 : kcs.2.depth = some d)
    (hr0 : kcs.1.reportShares = A0 ++ (true, s0) :: B0) (hr1 : kcs.2.reportShares = A1 ++ (true, s1) :: B1)
    (hA0 : A0.length = before.length) (hA1 : A1.length = before.length)
    (hh : Spec.HonestReports P cfg.histBuckets (before ++ (alpha, bucket) :: after) kcs.1.reportShares
      kcs.2.reportShares)
    (hc : Spec.FlpCompleteFor P cfg.histBuckets kcs.1.verifyKey kcs.1.reportShares)
    (hf0 : ∀ r ∈ kcs.1.reportShares, r.1 = true) (hf1 : ∀ r ∈ kcs.2.reportShares, r.1 = true)
    (hl : ∀ c ∈ before ++ (alpha, bucket) :: after, c.1.length = d)
    (hlt : (before ++ (alpha, bucket) :: after).length < 2 ^ 64)
    (hheavy : Spec.heavyHitters cfg.histBuckets (max 1 cfg.threshold) d
      (before ++ (alpha, bucket) :: after) ≠ [])
    (i : Nat) (hi : i < cfg.histBuckets) (k : Nat) (hk : 4 * (k * 2 ^ 64) ≤ fieldModulus) :
    ∃ (ds : Nat → List Field128) (delta : Field128) (out : WhhOut P),
      (delta = ((k * 2 ^ 64 : Nat) : Field128) ∨ delta = -((k * 2 ^ 64 : Nat) : Field128)) ∧
      runWhh c0 c1 bld cfg
        ({ kcs.1 with reportShares := A0 ++ (true, Spec.shiftShare ds s0) :: B0 },
         { kcs.2 with reportShares := A1 ++ (true, Spec.shiftShare ds s1) :: B1 })
        (before ++ (alpha, bucket) :: after).length = .ok out ∧
      (∀ r ∈ out.kcs.1.reportShares, r.1 = true) ∧ (∀ r ∈ out.kcs.2.reportShares, r.1 = true) ∧
      out.results.map (fun r => (r.path, r.value))
        = (Spec.heavyHitters cfg.histBuckets (max 1 cfg.threshold) d
            (before ++ (alpha, bucket) :: after)).map fun sv =>
          (sv.1, if sv.1 = alpha then Spec.addShares sv.2 (Spec.single (cfg.histBuckets + 1) i delta)
            else sv.2) := by
  set n := cfg.histBuckets with hn
  set clients := before ++ (alpha, bucket) :: after with hcl
  -- the client in question
  have hm : Spec.HonestPair P n alpha bucket s0 s1 :=
    hh.2.2 before.length (alpha, bucket) (true, s0) (true, s1) (by simp [hcl])
      (by rw [hr0]; simp [← hA0]) (by rw [hr1]; simp [← hA1])
  have hal : alpha.length = d := hl (alpha, bucket) (by simp [hcl])
  have ha : alpha ≠ [] := by intro h; rw [h] at hal; simp at hal; omega
  obtain ⟨ds, delta, k0', k1', beta, e1, e2, e3, e4, e5, e6, e7, e8, e9⟩ := C59_false_report hm ha i hi k hk
  -- the honest lists
  have hpop := population_honest (id0 := kcs.1.serverId) (id1 := kcs.2.serverId) (d := d) hh hc hl hf0 hf1
  have hM := mixed_of_population hpop
  have hrep : (clients.map some).map Option.isSome = List.replicate clients.length true := by
    rw [List.map_map, List.eq_replicate_iff]; simp
  rw [hrep, masked_all hh.1, masked_all hh.2.1] at hM
  obtain ⟨hq, hw0, hw1, hF⟩ := hM.facts
  rw [show (clients.map some).filterMap id = clients by simp [List.filterMap_map]] at hF
  -- the changed lists
  set r0' := A0 ++ (true, Spec.shiftShare ds s0) :: B0 with hr0'
  set r1' := A1 ++ (true, Spec.shiftShare ds s1) :: B1 with hr1'
  have hlen0 : r0'.length = clients.length := by rw [← hh.1, hr0, hr0']; simp
  have hlen1 : r1'.length = clients.length := by rw [← hh.2.1, hr1, hr1']; simp
  have hat0 : ∀ j x, r0'[j]? = some x → (j = before.length ∧ x = (true, Spec.shiftShare ds s0)) ∨
      (j ≠ before.length ∧ kcs.1.reportShares[j]? = some x) := by
    intro j x hx
    rw [hr0'] at hx
    rw [hr0]
    rcases Nat.lt_trichotomy j A0.length with h | h | h
    · right
      refine ⟨by omega, ?_⟩
      rw [List.getElem?_append_left h] at hx ⊢; exact hx
    · left
      refine ⟨by omega, ?_⟩
      subst h
      simpa using hx.symm
    · right
      refine ⟨by omega, ?_⟩
      rw [List.getElem?_append_right h.le] at hx ⊢
      rw [List.getElem?_cons, if_neg (by omega)] at hx ⊢; exact hx
  have hat1 : ∀ j x, r1'[j]? = some x → (j = before.length ∧ x = (true, Spec.shiftShare ds s1)) ∨
      (j ≠ before.length ∧ kcs.2.reportShares[j]? = some x) := by
    intro j x hx
    rw [hr1'] at hx
    rw [hr1]
    rcases Nat.lt_trichotomy j A1.length with h | h | h
    · right
      refine ⟨by omega, ?_⟩
      rw [List.getElem?_append_left h] at hx ⊢; exact hx
    · left
      refine ⟨by omega, ?_⟩
      subst h
      simpa using hx.symm
    · right
      refine ⟨by omega, ?_⟩
      rw [List.getElem?_append_right h.le] at hx ⊢
      rw [List.getElem?_cons, if_neg (by omega)] at hx ⊢; exact hx
  have hfl0 : ∀ r ∈ r0', r.1 = true := by
    intro r hr
    obtain ⟨j, hj⟩ := List.getElem?_of_mem hr
    rcases hat0 j r hj with ⟨-, rfl⟩ | ⟨-, h⟩
    · rfl
    · exact hf0 r (List.mem_of_getElem? h)
  have hfl1 : ∀ r ∈ r1', r.1 = true := by
    intro r hr
    obtain ⟨j, hj⟩ := List.getElem?_of_mem hr
    rcases hat1 j r hj with ⟨-, rfl⟩ | ⟨-, h⟩
    · rfl
    · exact hf1 r (List.mem_of_getElem? h)
  have wf_shift : ∀ s : ReportShare, Spec.WellFormed d s → Spec.WellFormed d (Spec.shiftShare ds s) := by
    rintro s ⟨key, g1, g2, g3⟩
    cases s with
    | prio3 => cases g1
    | mastic nonce kk pr j =>
      cases g1
      exact ⟨_, rfl, by simpa [Spec.shiftWords] using g2, by simpa [Spec.shiftWords] using g3⟩
  have hw0' : ∀ br ∈ r0', Spec.WellFormed d br.2 := by
    intro br hbr
    obtain ⟨j, hj⟩ := List.getElem?_of_mem hbr
    rcases hat0 j br hj with ⟨-, rfl⟩ | ⟨-, h⟩
    · exact wf_shift s0 (hw0 (true, s0) (by rw [hr0]; simp))
    · exact hw0 br (List.mem_of_getElem? h)
  have hw1' : ∀ br ∈ r1', Spec.WellFormed d br.2 := by
    intro br hbr
    obtain ⟨j, hj⟩ := List.getElem?_of_mem hbr
    rcases hat1 j br hj with ⟨-, rfl⟩ | ⟨-, h⟩
    · exact wf_shift s1 (hw1 (true, s1) (by rw [hr1]; simp))
    · exact hw1 br (List.mem_of_getElem? h)
  have hmask0 : Spec.masked r0' (List.replicate clients.length true) = r0' := masked_all hlen0
  have hmask1 : Spec.masked r1' (List.replicate clients.length true) = r1' := masked_all hlen1
  -- FLP decisions
  have hver : ∀ (j : Nat) (x0 x1 : Bool × ReportShare), kcs.1.reportShares[j]? = some x0 →
      kcs.2.reportShares[j]? = some x1 → ∃ v0 v1,
        Spec.verifierOf P n kcs.1.serverId kcs.1.verifyKey x0.2 = some v0 ∧
        Spec.verifierOf P n kcs.2.serverId kcs.1.verifyKey x1.2 = some v1 ∧
        P.flpDecide n (Spec.addShares v0 v1) = some true := by
    intro j x0 x1 g0 g1
    have hjl : j < clients.length := hh.1 ▸ (List.getElem?_eq_some_iff.1 g0).1
    have hcj := hh.2.2 j clients[j] x0 x1 (List.getElem?_eq_getElem hjl) g0 g1
    refine honest_verifiers h0 h1 ?_ hcj (hc x0 (List.mem_of_getElem? g0))
    intro he
    have := hl clients[j] (List.getElem_mem hjl)
    rw [he, List.length_nil] at this; omega
  have hdec : ∀ (j : Nat) (b0 b1 : Bool) (t0 t1 : ReportShare), r0'[j]? = some (b0, t0) →
      r1'[j]? = some (b1, t1) → ∃ v0 v1 b,
        Spec.verifierOf P n kcs.1.serverId kcs.1.verifyKey t0 = some v0 ∧
        Spec.verifierOf P n kcs.2.serverId kcs.1.verifyKey t1 = some v1 ∧
        P.flpDecide n (Spec.addShares v0 v1) = some b ∧
        (List.replicate clients.length true)[j]? = some b := by
    intro j b0 b1 t0 t1 g0 g1
    have hjl : j < clients.length := hlen0 ▸ (List.getElem?_eq_some_iff.1 g0).1
    have hrj : (List.replicate clients.length true)[j]? = some true := by simp [hjl]
    rcases hat0 j _ g0 with ⟨hj, hx0⟩ | ⟨hj, hx0⟩
    · rcases hat1 j _ g1 with ⟨-, hx1⟩ | ⟨hj', -⟩
      · obtain ⟨v0, v1, f0, f1, f2⟩ := hver before.length (true, s0) (true, s1)
          (by rw [hr0]; simp [← hA0]) (by rw [hr1]; simp [← hA1])
        cases hx0; cases hx1
        exact ⟨v0, v1, true, by rw [(e7 _ _).1]; exact f0, by rw [(e7 _ _).2]; exact f1, f2, hrj⟩
      · exact absurd hj hj'
    · rcases hat1 j _ g1 with ⟨hj', -⟩ | ⟨-, hx1⟩
      · exact absurd hj' hj
      · obtain ⟨v0, v1, f0, f1, f2⟩ := hver j _ _ hx0 hx1
        exact ⟨v0, v1, true, f0, f1, f2, hrj⟩
  -- quiet
  have hq' : Spec.QuietReports P n d r0' r1' := by
    constructor
    · have hrepl : ∀ r : List (Bool × ReportShare), (∀ x ∈ r, x.1 = true) →
          r.map Prod.fst = List.replicate r.length true := by
        intro r hr
        rw [List.eq_replicate_iff]
        refine ⟨by simp, fun b hb => ?_⟩
        obtain ⟨x, hx, rfl⟩ := List.mem_map.1 hb
        exact hr x hx
      rw [hrepl _ hfl0, hrepl _ hfl1, hlen0, hlen1]
    · intro j t0 t1 g0 g1
      rcases hat0 j _ g0 with ⟨hj, hx0⟩ | ⟨hj, hx0⟩
      · rcases hat1 j _ g1 with ⟨-, hx1⟩ | ⟨hj', -⟩
        · cases hx0; cases hx1
          exact ⟨k0', k1', e4, e5, hal ▸ e8⟩
        · exact absurd hj hj'
      · rcases hat1 j _ g1 with ⟨hj', -⟩ | ⟨-, hx1⟩
        · exact absurd hj' hj
        · exact hq.2 j t0 t1 hx0 hx1
  have hinc : Spec.included r0' ≠ [] := by
    have hx : r0'[before.length]? = some (true, Spec.shiftShare ds s0) := by rw [hr0']; simp [← hA0]
    refine List.ne_nil_of_mem (a := (before.length, Spec.shiftShare ds s0)) ?_
    unfold Spec.included
    rw [List.mem_filterMap]
    refine ⟨((true, Spec.shiftShare ds s0), before.length), ?_, rfl⟩
    rw [List.mem_zipIdx_iff_getElem?]
    exact hx
  -- the key pairs
  obtain ⟨k0, k1, f0, f1, -⟩ := honestPair_facts hm
  have hp0 : Spec.keyPairs kcs.1.reportShares kcs.2.reportShares
      = Spec.keyPairs A0 A1 ++ (k0, k1) :: Spec.keyPairs B0 B1 := by
    rw [hr0, hr1, keyPairs_append (by omega)]
    simp [Spec.keyPairs, f0, f1]
  have hp1 : Spec.keyPairs r0' r1'
      = Spec.keyPairs A0 A1 ++ (k0', k1') :: Spec.keyPairs B0 B1 := by
    rw [hr0', hr1', keyPairs_append (by omega)]
    simp [Spec.keyPairs, e4, e5]
  set X := Spec.keyPairs A0 A1 with hX
  set Y := Spec.keyPairs B0 B1 with hY
  rw [hp0] at hF
  have hrecl : ∀ p : List Bool, p ≠ [] → p.length ≤ d → ∀ kk ∈ X ++ (k0, k1) :: Y,
      ((Spec.reconAt P kk.1 kk.2 n p).getD []).length = n + 1 := by
    intro p hne hpl kk hkk
    obtain ⟨m, hm1, hm2⟩ := List.getElem_of_mem hkk
    have hm3 := (List.forall₂_iff_get.1 hF).2 m hm1 (hF.length_eq ▸ hm1)
    rw [List.get_eq_getElem, hm2] at hm3
    obtain ⟨bt, hbt, hrec⟩ := hm3
    rw [hrec p hne hpl, Option.getD_some, pointValue_length, (encodeMeasurement_length hbt).1]
  have hreco : ∀ p : List Bool, p ≠ [] → p.length ≤ d →
      Spec.reconAt P k0 k1 n p = some (Spec.pointValue alpha beta p) := by
    obtain ⟨k0h, k1h, f0h, f1h, -, ⟨bt, hbt, hrec⟩, -⟩ := honestPair_facts hm
    rw [f0] at f0h; rw [f1] at f1h
    cases f0h; cases f1h
    dsimp only at hbt hrec
    rw [e6] at hbt
    cases hbt
    intro p hne hpl
    exact hrec p hne (by omega)
  have hbl : beta.length = n := (encodeMeasurement_length e6).1
  have htal : ∀ p : List Bool, p ≠ [] → p.length ≤ d →
      Spec.tally P n (X ++ (k0', k1') :: Y) p = if p <+: alpha ∧ 2 ≤ p.length then
        Spec.addShares (Spec.tally P n (X ++ (k0, k1) :: Y) p) (Spec.single (n + 1) i delta)
      else Spec.tally P n (X ++ (k0, k1) :: Y) p := by
    intro p hne hpl
    have hXY : ∀ kk ∈ X ++ Y, ((Spec.reconAt P kk.1 kk.2 n p).getD []).length = n + 1 := by
      intro kk hkk
      refine hrecl p hne hpl kk ?_
      rcases List.mem_append.1 hkk with h | h
      · exact List.mem_append_left _ h
      · exact List.mem_append_right _ (List.mem_cons_of_mem _ h)
    have hpv : (Spec.pointValue alpha beta p).length = n + 1 := by rw [pointValue_length, hbl]
    have h9 := e9 p hne (by omega)
    by_cases hc : p <+: alpha ∧ 2 ≤ p.length
    · rw [if_pos hc] at h9 ⊢
      exact tally_replace (a := (k0, k1)) (b := (k0', k1')) hXY (hreco p hne hpl) h9 hpv (single_length _ _ _)
    · rw [if_neg hc] at h9 ⊢
      have h9' : Spec.reconAt P k0' k1' n p
          = some (Spec.addShares (Spec.pointValue alpha beta p) (List.replicate (n + 1) 0)) := by
        rw [addShares_zero hpv]; exact h9
      rw [tally_replace (a := (k0, k1)) (b := (k0', k1')) hXY (hreco p hne hpl) h9' hpv (by simp)]
      refine addShares_zero ?_
      unfold Spec.tally
      refine (sumVecs_spec ?_).1
      intro v hv
      obtain ⟨kk, hkk, rfl⟩ := List.mem_map.1 hv
      exact hrecl p hne hpl kk hkk
  have htlen : ∀ p : List Bool, p ≠ [] → p.length ≤ d →
      (Spec.tally P n (X ++ (k0, k1) :: Y) p).length = n + 1 := by
    intro p hne hpl
    unfold Spec.tally
    refine (sumVecs_spec ?_).1
    intro v hv
    obtain ⟨kk, hkk, rfl⟩ := List.mem_map.1 hv
    exact hrecl p hne hpl kk hkk
  have hcount : ∀ p : List Bool, p ≠ [] → p.length ≤ d →
      Spec.countAt P n (X ++ (k0', k1') :: Y) p = Spec.countAt P n (X ++ (k0, k1) :: Y) p := by
    intro p hne hpl
    unfold Spec.countAt
    rw [htal p hne hpl]
    split
    · rw [addShares_getD (htlen p hne hpl) (single_length _ _ _), single_getD (by omega),
        if_neg (by omega), add_zero]
    · rfl
  have hhp : ∀ m ≤ d, Spec.heavyPaths P n (max 1 cfg.threshold) (X ++ (k0', k1') :: Y) m
      = Spec.heavyPaths P n (max 1 cfg.threshold) (X ++ (k0, k1) :: Y) m :=
    fun m hm => heavyPaths_congr fun p hne hpl => hcount p hne (by omega)
  -- the run
  obtain ⟨g, -⟩ := whh_decided (c0 := c0) (c1 := c1) (bld := bld) (cfg := cfg)
    (kcs := ({ kcs.1 with reportShares := r0' }, { kcs.2 with reportShares := r1' })) (num := clients.length)
    (keep := List.replicate clients.length true) hd hd2 hb (by omega) hn0 hn1 h0 h1 hvk d0 d1 hlen0 hlen1 hw0'
    hw1' (by simp) hdec (by rw [hmask0, hmask1]; exact quiet_inner hq') (.inl (by rw [hmask0, hmask1]; exact hq'))
    (by rw [hmask0]; exact hinc)
  simp only [hmask0, hmask1, hp1, ← hn] at g
  rw [hhp _ (by omega), hhp _ le_rfl] at g
  have hres := results_clients (T := max 1 cfg.threshold) hF (by omega) hlt hl
  have hheavy2 : Spec.heavyPaths P n (max 1 cfg.threshold) (X ++ (k0, k1) :: Y) (d - 2) ≠ [] := by
    obtain ⟨s, hs1, hs2⟩ := heavyHitters_prefix hheavy (d - 2) (by omega)
    refine List.ne_nil_of_mem (a := s) (List.mem_filter.2 ⟨mem_allPaths.2 hs1, ?_⟩)
    by_cases hsne : s = []
    · subst hsne; simp [Spec.heavy]
    · rw [heavy_clients hF hlt hsne (by omega), decide_eq_true_eq]
      exact hs2 hsne
  obtain ⟨out, o1, o2, o3, o4, -⟩ := g hheavy2
  refine ⟨ds, delta, out, e1, o1, by rw [o2]; exact hfl0, by rw [o3]; exact hfl1, ?_⟩
  rw [← hres, o4]
  unfold resultsOf
  simp only [List.map_map]
  refine List.map_congr_left fun p hp => ?_
  have hpd : p.length = d := mem_allPaths.1 (List.mem_filter.1 hp).1
  have hpne : p ≠ [] := by intro h; rw [h] at hpd; simp at hpd; omega
  simp only [Function.comp, Prod.mk.injEq, true_and]
  rw [htal p hpne (by omega)]
  by_cases hpa : p = alpha
  · rw [if_pos hpa, if_pos ⟨by rw [hpa], by omega⟩]
  · rw [if_neg hpa, if_neg]
    rintro ⟨hpre, -⟩
    exact hpa (hpre.eq_of_length (by omega))

/-- The hypotheses of `C59_false_report` can be met: a three-bit string, one bucket, offset 2^64. -/
example : ∃ s0 s1, Spec.HonestPair toy 1 [true, false, true] 0 s0 s1 ∧ 4 * (1 * 2 ^ 64) ≤ fieldModulus := by
  obtain ⟨r, hr⟩ := toy_gen_ok (n := 1) (bucket := 0) (by omega) [true, false, true] (toyRand 0)
  exact ⟨_, _, ⟨_, r, hr, rfl⟩, by decide⟩

/-- A toy run: two clients hold `101` with bucket 0 of 1 (threshold 2).  The first one shifts its weight by
2^64 or -2^64: the reported weight is `2 + 2^64` or `2 - 2^64`, with count 2. -/
example : ∃ (kcs : Pair2 toy) (out : WhhOut toy) (delta : Field128),
    (delta = ((1 * 2 ^ 64 : Nat) : Field128) ∨ delta = -((1 * 2 ^ 64 : Nat) : Field128)) ∧
    runWhh (toyCfg 0 (some 3) .debug) (toyCfg 1 (some 3) .debug) .debug ⟨some 3, 1, 1, 2, 1, 2⟩ kcs 2
      = .ok out ∧
    out.results.map (fun r => (r.path, r.value)) = [([true, false, true], [2 + delta, 2])] := by
  obtain ⟨kcs, h1, h2, h3, h4, h5, h6, h7, h8, h9, h10⟩ :=
    toy_honest 1 3 [([true, false, true], 0), ([true, false, true], 0)] (by decide)
  have l0 := h8.1
  have l1 := h8.2.1
  match e0 : kcs.1.reportShares, e1 : kcs.2.reportShares, l0, l1 with
  | [(a, s0), x], [(b, s1), y], _, _ =>
    have ha : a = true := h9 (a, s0) (by rw [e0]; simp)
    have hb : b = true := h10 (b, s1) (by rw [e1]; simp)
    subst ha; subst hb
    obtain ⟨ds, delta, out, g1, g2, -, -, g3⟩ := C59_false_run (c0 := toyCfg 0 (some 3) .debug)
      (c1 := toyCfg 1 (some 3) .debug) (bld := .debug) (cfg := ⟨some 3, 1, 1, 2, 1, 2⟩) (d := 3) (kcs := kcs)
      (before := []) (after := [([true, false, true], 0)]) (alpha := [true, false, true]) (bucket := 0)
      (A0 := []) (A1 := []) (B0 := [x]) (B1 := [y]) rfl (by decide) (by decide) h1 h2 h3
      (by rw [h4]; decide) h5 h6 h7 e0 e1 rfl rfl h8 (fun _ _ => toy_flpComplete _ _) h9 h10 (by decide)
      (by decide) (by decide +kernel) 0 (by decide) 1 (by decide)
    refine ⟨_, out, delta, g1, g2, g3.trans ?_⟩
    have hh : Spec.heavyHitters 1 2 3 [([true, false, true], 0), ([true, false, true], 0)]
        = [([true, false, true], [2, 2])] := by decide +kernel
    show List.map _ (Spec.heavyHitters 1 2 3 [([true, false, true], 0), ([true, false, true], 0)]) = _
    rw [hh]
    simp [Spec.addShares, Spec.single, List.range_succ]

/-! ### What the checks do bind -/

theorem encode_low_inj {x y : Field128} (h : (encodeField x).take 8 = (encodeField y).take 8) :
    Spec.low64 x = Spec.low64 y := by
  have key : ∀ m j z, j ≤ m → leNat ((natLE m z).take j) = z % 256 ^ j := by
    intro m
    induction m with
    | zero => intro j z hj; obtain rfl : j = 0 := by omega
              simp [natLE, leNat, Nat.mod_one]
    | succ m ih =>
      intro j z hj
      cases j with
      | zero => simp [leNat, Nat.mod_one]
      | succ j =>
        simp only [natLE, List.take_succ_cons, leNat, BitVec.toNat_ofNat]
        rw [ih j _ (by omega), show (256 : Nat) ^ (j + 1) = 256 * 256 ^ j from pow_succ' _ _]
        exact Nat.mod_mul.symm
  have := congrArg leNat h
  unfold encodeField at this
  rw [key _ _ _ (by omega), key _ _ _ (by omega)] at this
  simpa [Spec.low64] using this

/-- **C59 (partial).** What the check does guarantee: for keys whose proofs agree, and if the truncated hash
does not collide on the two eight-byte inputs, equal digests at one prefix with one bucket mean that the two
servers' checks agree in the low 64 bits.  (Missing: the high bits, and several buckets or prefixes, whose
checks are only compared through their XOR.) -/
theorem C59_low64_partial {k0 k1 : VidpfKey} {p : List Bool} (hne : p ≠ [])
    (hp : Spec.proofsAt P 1 k0 [p] = Spec.proofsAt P 1 k1 [p])
    (hinj : let x := Spec.foldBytes (Spec.prefixCheck P 1 true k0 p)
      let y := Spec.foldBytes (Spec.prefixCheck P 1 false k1 p)
      first16 (P.blake3 x) = first16 (P.blake3 y) → x = y)
    (h : Spec.digestAt P 1 true [p] k0 = Spec.digestAt P 1 false [p] k1) :
    (Spec.prefixCheck P 1 true k0 p).map Spec.low64 = (Spec.prefixCheck P 1 false k1 p).map Spec.low64 := by
  unfold Spec.digestAt at h
  rw [hp] at h
  have hcancel : ∀ a b c : Block, vxor a b = vxor a c → b = c := by
    intro a b c h
    have := congrArg (vxor a) h
    rwa [← vxor_assoc, ← vxor_assoc, vxor_self, vxor_comm, vxor_zero, vxor_comm, vxor_zero] at this
  have h2 := hcancel _ _ _ h
  simp only [List.flatMap_cons, List.flatMap_nil, List.append_nil] at h2
  have hone : ∀ (f : Bool) (kk : VidpfKey), ∃ x, Spec.prefixCheck P 1 f kk p = [x] := by
    intro f kk
    unfold Spec.prefixCheck
    rw [if_neg hne]
    simp
  obtain ⟨x, hx⟩ := hone true k0
  obtain ⟨y, hy⟩ := hone false k1
  dsimp only at hinj
  rw [hx, hy] at h2 hinj ⊢
  have hf : ∀ z : Field128, Spec.foldBytes [z] = (encodeField z).take 8 := by
    intro z
    simp only [Spec.foldBytes, List.foldl_cons, List.foldl_nil]
    apply List.ext_getElem
    · simp [encodeField]
    · intro j h1 h2
      rw [List.getElem_zipWith, List.getElem_replicate]
      simp
  have := hinj h2
  rw [hf, hf] at this
  simp [encode_low_inj this]

/-- Its hypotheses hold for honest keys. -/
example (rs : Block × Block) (alpha : List Bool) (x : Field128) (p : List Bool) (hne : p ≠ [])
    (hp : p.length < alpha.length) :
    let k := VidpfKey.gen P rs alpha [x]
    Spec.proofsAt P 1 k.1 [p] = Spec.proofsAt P 1 k.2 [p] ∧
      Spec.foldBytes (Spec.prefixCheck P 1 true k.1 p) = Spec.foldBytes (Spec.prefixCheck P 1 false k.2 p) := by
  constructor
  · have h := fun b => honest_proofs (P := P) rs alpha [x] (p ++ [b]) (by simpa using hp)
    simp only [List.length_singleton] at h
    simp only [Spec.proofsAt, List.flatMap_cons, List.flatMap_nil, List.append_nil, h]
  · have h := (prefixCheck_inner (honest_recon (P := P) rs alpha [x]) hne (by omega)).2
      fun j _ => pointValue_split alpha [x] p hp j
    exact congrArg Spec.foldBytes h

end Mastic
