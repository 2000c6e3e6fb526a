import Verif.Lemmas.Quiet
import Verif.Props.Flp

/-!
# Weighted heavy hitters of a population of honest and FLP-rejected clients
-/

namespace Mastic

variable {P : Prims}

theorem treeInit_progress {kc : KeyCollection P} (h : KeysReach 0 kc.reportShares) :
    Returns kc.treeInit := by
  unfold KeyCollection.treeInit
  have : Returns (mapE (fun r : Bool × ReportShare => r.2.unwrapVidpfKey) kc.reportShares) := by
    rw [mapE_returns_iff]
    intro r hr
    obtain ⟨key, hk, -⟩ := h r hr
    obtain ⟨b, s⟩ := r
    cases s with
    | mastic a k c d => exact ⟨k, rfl⟩
    | prio3 a c d => cases hk
  obtain ⟨keys, hk⟩ := this
  exact ⟨_, by rw [hk, ok_bind]⟩

/-- Converse of C40: if every report gets a decision, the phase completes with those decisions. -/
theorem driverFlp_decided {c0 c1 : ServerCfg} {bld : Build} {cfg : Config} {kcs0 kcs : Pair2 P} {n : Nat}
    (hi : driverTreeInit kcs0 = .ok kcs) (hn0 : kcs.1.reportShares.length = n)
    (hn1 : kcs.2.reportShares.length = n) (hb : 1 ≤ cfg.queryBatch)
    (hk0 : KeysReach 0 kcs.1.reportShares) (hk1 : KeysReach 0 kcs.2.reportShares)
    {keep : List Bool} (hl : keep.length = n)
    (hh : ∀ (i : Nat) (b0 b1 : Bool) (s0 s1 : ReportShare), kcs.1.reportShares[i]? = some (b0, s0) →
      kcs.2.reportShares[i]? = some (b1, s1) → ∃ v0 v1 d,
        Spec.verifierOf P kcs.1.inputLen kcs.1.serverId kcs.1.verifyKey s0 = some v0 ∧
        Spec.verifierOf P kcs.2.inputLen kcs.2.serverId kcs.2.verifyKey s1 = some v1 ∧
        P.flpDecide cfg.histBuckets (Spec.addShares v0 v1) = some d ∧ keep[i]? = some d) :
    driverFlp c0 c1 bld cfg kcs n
      = .ok ({ kcs.1 with reportShares := Spec.masked kcs.1.reportShares keep },
          { kcs.2 with reportShares := Spec.masked kcs.2.reportShares keep }) := by
  obtain ⟨i0, i1⟩ := driverTreeInit_ok hi
  obtain ⟨root0, f0, -⟩ := treeInit_fresh i0
  obtain ⟨root1, f1, -⟩ := treeInit_fresh i1
  obtain ⟨l0, a0⟩ := f0.children hk0 false
  obtain ⟨r0, d0⟩ := f0.children hk0 true
  obtain ⟨l1, a1⟩ := f1.children hk1 false
  obtain ⟨r1, d1⟩ := f1.children hk1 true
  have x0 := f0.child a0
  have y0 := f0.child d0
  have x1 := f1.child a1
  have y1 := f1.child d1
  rw [driverFlp_iff (f0.ready hn0 a0 d0) (f1.ready hn1 a1 d1) hb]
  refine ⟨keep, ?_, rfl⟩
  rw [mapE_eq_ok_iff_getElem]
  refine ⟨by simp [hl], fun i a hia => ?_⟩
  have hin : i < n := by simpa using (List.getElem?_eq_some_iff.1 hia).1
  have : a = i := by simpa [hin] using hia.symm
  subst this
  obtain ⟨v0, v1, d, e0, e1, ed, hd⟩ := hh a _ _ _ _ (List.getElem?_eq_getElem (by omega))
    (List.getElem?_eq_getElem (by omega))
  exact ⟨d, hd, (flpDecision_iff (List.getElem?_eq_getElem (by omega))
    (List.getElem?_eq_getElem (by omega)) x0.2 x0.1 y0.2 y0.1 x1.2 x1.1 y1.2 y1.1).2
      ⟨v0, v1, e0, e1, ed⟩⟩

/-- The verifier shares of an honest report. -/
theorem honest_verifiers {n : Nat} {id0 id1 : Int} {vk : Block} (h0 : id0 = 0) (h1 : id1 ≠ 0)
    {alpha : List Bool} {bucket : Nat} {s0 s1 : ReportShare} (ha : alpha ≠ [])
    (hh : Spec.HonestPair P n alpha bucket s0 s1)
    (hc : Spec.FlpCompleteAt P n (P.xofField vk s0.nonce.toList (P.queryRandLen n))) :
    ∃ v0 v1, Spec.verifierOf P n id0 vk s0 = some v0 ∧ Spec.verifierOf P n id1 vk s1 = some v1 ∧
      P.flpDecide n (Spec.addShares v0 v1) = some true := by
  have hk : KeysReach 0 [(true, s0)] ∧ KeysReach 0 [(true, s1)] := by
    obtain ⟨nonce, rs, beta, pr, proof, rand, -, -, e0, e1⟩ := honestPair_parts hh
    obtain ⟨g0, g1⟩ := gen_lengths P rs alpha beta false
    obtain ⟨g2, g3⟩ := gen_lengths P rs alpha beta true
    simp only [Pair.get] at g0 g1 g2 g3
    have hal : 0 < alpha.length := List.length_pos_of_ne_nil ha
    rw [e0, e1]
    constructor
    · intro br hbr
      rw [List.mem_singleton] at hbr
      subst hbr
      exact ⟨_, rfl, by omega, by omega⟩
    · intro br hbr
      rw [List.mem_singleton] at hbr
      subst hbr
      exact ⟨_, rfl, by omega, by omega⟩
  let k0 : KeyCollection P :=
    { KeyCollection.new P n id0 none vk with reportShares := [(true, s0)] }
  let k1 : KeyCollection P :=
    { KeyCollection.new P n id1 none vk with reportShares := [(true, s1)] }
  obtain ⟨k0', t0⟩ := treeInit_progress (kc := k0) hk.1
  obtain ⟨k1', t1⟩ := treeInit_progress (kc := k1) hk.2
  obtain ⟨root0, f0, w0⟩ := treeInit_fresh t0
  obtain ⟨root1, f1, w1⟩ := treeInit_fresh t1
  have r0' : k0'.reportShares = [(true, s0)] := by rw [w0]
  have r1' : k1'.reportShares = [(true, s1)] := by rw [w1]
  have i0 : k0'.inputLen = n := by rw [w0]; rfl
  have i1 : k1'.inputLen = n := by rw [w1]; rfl
  have v0 : k0'.verifyKey = vk := by rw [w0]; rfl
  have v1 : k1'.verifyKey = vk := by rw [w1]; rfl
  have s0' : k0'.serverId = id0 := by rw [w0]; rfl
  have s1' : k1'.serverId = id1 := by rw [w1]; rfl
  obtain ⟨l0, a0⟩ := f0.children (r0'.symm ▸ hk.1) false
  obtain ⟨r0, d0⟩ := f0.children (r0'.symm ▸ hk.1) true
  obtain ⟨l1, a1⟩ := f1.children (r1'.symm ▸ hk.2) false
  obtain ⟨r1, d1⟩ := f1.children (r1'.symm ▸ hk.2) true
  have x0 := f0.child a0
  have y0 := f0.child d0
  have x1 := f1.child a1
  have y1 := f1.child d1
  have g0 : k0'.reportShares[0]? = some (true, s0) := by rw [r0']; rfl
  have g1 : k1'.reportShares[0]? = some (true, s1) := by rw [r1']; rfl
  obtain ⟨u0, u1, q0, q1, -, hd⟩ := honest_flp_accepted i0 i1 (s0'.trans h0) (s1' ▸ h1)
    (v0.trans v1.symm) ha hh (v0.symm ▸ hc) g0 g1
    (i0 ▸ x0.2) x0.1 (i0 ▸ y0.2) y0.1 (i1 ▸ x1.2) x1.1 (i1 ▸ y1.2) y1.1
  rw [flpQueryClient_iff g0 x0.2 x0.1 y0.2 y0.1, i0, v0, s0'] at q0
  rw [flpQueryClient_iff g1 x1.2 x1.1 y1.2 y1.1, i1, v1, s1'] at q1
  exact ⟨u0, u1, q0, q1, hd⟩

/-! ### Lists of honest and excluded reports -/

/-- After the FLP verification: honest reports included, the others excluded. -/
inductive Mixed (P : Prims) (n d : Nat) : List (Option (List Bool × Nat)) → List (Bool × ReportShare) →
    List (Bool × ReportShare) → Prop
  | nil : Mixed P n d [] [] []
  | honest {c s0 s1 cs r0 r1} : Spec.HonestPair P n c.1 c.2 s0 s1 → c.1.length = d →
      Mixed P n d cs r0 r1 → Mixed P n d (some c :: cs) ((true, s0) :: r0) ((true, s1) :: r1)
  | out {s0 s1 cs r0 r1} : Spec.WellFormed d s0 → Spec.WellFormed d s1 →
      Mixed P n d cs r0 r1 → Mixed P n d (none :: cs) ((false, s0) :: r0) ((false, s1) :: r1)

theorem honestPair_facts {n : Nat} {alpha : List Bool} {bucket : Nat} {s0 s1 : ReportShare}
    (h : Spec.HonestPair P n alpha bucket s0 s1) :
    ∃ k0 k1, Spec.keyOf s0 = some k0 ∧ Spec.keyOf s1 = some k1 ∧
      Spec.QuietPair P n alpha.length k0 k1 ∧ PairOf P n alpha.length (k0, k1) (alpha, bucket) ∧
      Spec.WellFormed alpha.length s0 ∧ Spec.WellFormed alpha.length s1 ∧ bucket < n := by
  obtain ⟨nonce, rs, beta, pr, proof, rand, hb, -, e0, e1⟩ := honestPair_parts h
  obtain ⟨g0, g1⟩ := gen_lengths P rs alpha beta false
  obtain ⟨g2, g3⟩ := gen_lengths P rs alpha beta true
  simp only [Pair.get] at g0 g1 g2 g3
  obtain ⟨hl, hbn⟩ := encodeMeasurement_length hb
  refine ⟨_, _, by rw [e0]; rfl, by rw [e1]; rfl, hl ▸ honest_quiet rs alpha beta,
    ⟨beta, hb, fun p hp hpl => hl ▸ honest_recon rs alpha beta p hp hpl⟩,
    ⟨_, by rw [e0]; rfl, by omega, by omega⟩, ⟨_, by rw [e1]; rfl, by omega, by omega⟩, hbn⟩

theorem Mixed.facts {n d : Nat} {cs : List (Option (List Bool × Nat))}
    {r0 r1 : List (Bool × ReportShare)} (h : Mixed P n d cs r0 r1) :
    Spec.QuietReports P n d r0 r1 ∧ (∀ br ∈ r0, Spec.WellFormed d br.2) ∧
      (∀ br ∈ r1, Spec.WellFormed d br.2) ∧
      List.Forall₂ (PairOf P n d) (Spec.keyPairs r0 r1) (cs.filterMap id) := by
  induction h with
  | nil => exact ⟨⟨rfl, by simp⟩, by simp, by simp, .nil⟩
  | @honest c s0 s1 cs r0 r1 hh hd _ ih =>
    obtain ⟨⟨i1, i2⟩, i3, i4, i5⟩ := ih
    obtain ⟨k0, k1, e0, e1, q, pr, w0, w1, -⟩ := honestPair_facts hh
    rw [hd] at q pr w0 w1
    refine ⟨⟨by simp [i1], ?_⟩, ?_, ?_, ?_⟩
    · rintro (_ | i) t0 t1 h0 h1
      · cases h0; cases h1; exact ⟨k0, k1, e0, e1, q⟩
      · exact i2 i t0 t1 (by simpa using h0) (by simpa using h1)
    · intro br hbr
      rcases List.mem_cons.1 hbr with rfl | hbr
      · exact w0
      · exact i3 br hbr
    · intro br hbr
      rcases List.mem_cons.1 hbr with rfl | hbr
      · exact w1
      · exact i4 br hbr
    · have : Spec.keyPairs ((true, s0) :: r0) ((true, s1) :: r1) = (k0, k1) :: Spec.keyPairs r0 r1 := by
        simp [Spec.keyPairs, e0, e1]
      rw [this]
      exact .cons pr i5
  | @out s0 s1 cs r0 r1 w0 w1 _ ih =>
    obtain ⟨⟨i1, i2⟩, i3, i4, i5⟩ := ih
    refine ⟨⟨by simp [i1], ?_⟩, ?_, ?_, ?_⟩
    · rintro (_ | i) t0 t1 h0 h1
      · cases h0
      · exact i2 i t0 t1 (by simpa using h0) (by simpa using h1)
    · intro br hbr
      rcases List.mem_cons.1 hbr with rfl | hbr
      · exact w0
      · exact i3 br hbr
    · intro br hbr
      rcases List.mem_cons.1 hbr with rfl | hbr
      · exact w1
      · exact i4 br hbr
    · have : Spec.keyPairs ((false, s0) :: r0) ((false, s1) :: r1) = Spec.keyPairs r0 r1 := by
        simp [Spec.keyPairs]
      rw [this]
      exact i5

theorem wellFormed_reach {d : Nat} (hd : 1 ≤ d) {r : List (Bool × ReportShare)}
    (h : ∀ br ∈ r, Spec.WellFormed d br.2) : KeysReach (d - 1) r := by
  intro br hbr
  obtain ⟨key, hk, h1, h2⟩ := h br hbr
  exact ⟨key, hk, h1, by omega⟩

theorem included_ne {n d : Nat} {cs : List (Option (List Bool × Nat))} {r0 r1 : List (Bool × ReportShare)}
    (h : Mixed P n d cs r0 r1) (hne : cs.filterMap id ≠ []) : Spec.included r0 ≠ [] := by
  have key : ∀ k, ((r0.zipIdx k).filterMap fun r => if r.1.1 then some (r.2, r.1.2) else none) ≠ [] := by
    induction h with
    | nil => exact absurd rfl hne
    | honest _ _ _ _ => intro k; simp [List.zipIdx_cons]
    | out _ _ _ ih =>
      intro k
      simpa [List.zipIdx_cons] using ih (by simpa using hne) (k + 1)
  exact key 0

/-- The masks of the FLP phase turn a population into a mixed list. -/
theorem mixed_of_population {n d : Nat} {id0 id1 : Int} {vk : Block} :
    ∀ {cs : List (Option (List Bool × Nat))} {rs0 rs1 : List (Bool × ReportShare)},
    Spec.Population P n d id0 id1 vk cs rs0 rs1 →
    Mixed P n d cs (Spec.masked rs0 (cs.map Option.isSome)) (Spec.masked rs1 (cs.map Option.isSome))
  | [], rs0, rs1, h => by
    obtain ⟨h0, h1, -⟩ := h
    rw [List.eq_nil_of_length_eq_zero h0, List.eq_nil_of_length_eq_zero h1]
    exact .nil
  | c :: cs, [], _, h => by simp [Spec.Population] at h
  | c :: cs, _ :: _, [], h => by simp [Spec.Population] at h
  | c :: cs, (b0, s0) :: rs0, (b1, s1) :: rs1, h => by
    obtain ⟨h0, h1, h2⟩ := h
    have ih := mixed_of_population (cs := cs) (rs0 := rs0) (rs1 := rs1)
      ⟨by simpa using h0, by simpa using h1, fun i c b0 b1 s0 s1 g0 g1 g2 =>
        h2 (i + 1) c b0 b1 s0 s1 (by simpa using g0) (by simpa using g1) (by simpa using g2)⟩
    obtain ⟨rfl, rfl, h3⟩ := h2 0 c b0 b1 s0 s1 rfl rfl rfl
    cases c with
    | none => exact .out h3.1 h3.2.1 ih
    | some c => exact .honest (c := c) h3.1 h3.2.1 ih

/-- `tree_init` and the FLP verification with the decisions `keep`: only the flags change. -/
theorem whh_flp {c0 c1 : ServerCfg} {bld : Build} {cfg : Config} {kcs : Pair2 P} {d num : Nat}
    (hd1 : 1 ≤ d) (hb : 1 ≤ cfg.queryBatch)
    (hn0 : kcs.1.inputLen = cfg.histBuckets) (hn1 : kcs.2.inputLen = cfg.histBuckets)
    (hvk : kcs.1.verifyKey = kcs.2.verifyKey)
    (l0 : kcs.1.reportShares.length = num) (l1 : kcs.2.reportShares.length = num)
    (hw0 : ∀ br ∈ kcs.1.reportShares, Spec.WellFormed d br.2)
    (hw1 : ∀ br ∈ kcs.2.reportShares, Spec.WellFormed d br.2)
    {keep : List Bool} (hkl : keep.length = num)
    (hdec : ∀ (i : Nat) (b0 b1 : Bool) (s0 s1 : ReportShare), kcs.1.reportShares[i]? = some (b0, s0) →
      kcs.2.reportShares[i]? = some (b1, s1) → ∃ v0 v1 b,
        Spec.verifierOf P cfg.histBuckets kcs.1.serverId kcs.1.verifyKey s0 = some v0 ∧
        Spec.verifierOf P cfg.histBuckets kcs.2.serverId kcs.1.verifyKey s1 = some v1 ∧
        P.flpDecide cfg.histBuckets (Spec.addShares v0 v1) = some b ∧ keep[i]? = some b) :
    ∃ a0 a1 : KeyCollection P, driverTreeInit kcs = .ok (a0, a1) ∧
      (a0.reportShares = kcs.1.reportShares ∧ a0.inputLen = kcs.1.inputLen ∧
        a0.serverId = kcs.1.serverId ∧ a0.verifyKey = kcs.1.verifyKey ∧ a0.depth = kcs.1.depth) ∧
      (a1.reportShares = kcs.2.reportShares ∧ a1.inputLen = kcs.2.inputLen ∧
        a1.serverId = kcs.2.serverId ∧ a1.verifyKey = kcs.2.verifyKey ∧ a1.depth = kcs.2.depth) ∧
      driverFlp c0 c1 bld cfg (a0, a1) num
        = .ok ({ a0 with reportShares := Spec.masked kcs.1.reportShares keep },
            { a1 with reportShares := Spec.masked kcs.2.reportShares keep }) := by
  have k0 : KeysReach 0 kcs.1.reportShares := (wellFormed_reach (by omega) hw0).mono (Nat.zero_le _)
  have k1 : KeysReach 0 kcs.2.reportShares := (wellFormed_reach (by omega) hw1).mono (Nat.zero_le _)
  obtain ⟨a0, t0⟩ := treeInit_progress k0
  obtain ⟨a1, t1⟩ := treeInit_progress k1
  have hi : driverTreeInit kcs = .ok (a0, a1) := by
    unfold driverTreeInit; rw [t0, ok_bind, t1, ok_bind]
  obtain ⟨root0, -, w0⟩ := treeInit_fresh t0
  obtain ⟨root1, -, w1⟩ := treeInit_fresh t1
  have e0 : a0.reportShares = kcs.1.reportShares ∧ a0.inputLen = kcs.1.inputLen ∧
      a0.serverId = kcs.1.serverId ∧ a0.verifyKey = kcs.1.verifyKey ∧ a0.depth = kcs.1.depth := by
    rw [w0]; exact ⟨rfl, rfl, rfl, rfl, rfl⟩
  have e1 : a1.reportShares = kcs.2.reportShares ∧ a1.inputLen = kcs.2.inputLen ∧
      a1.serverId = kcs.2.serverId ∧ a1.verifyKey = kcs.2.verifyKey ∧ a1.depth = kcs.2.depth := by
    rw [w1]; exact ⟨rfl, rfl, rfl, rfl, rfl⟩
  obtain ⟨e0r, e0n, e0s, e0v, e0d⟩ := e0
  obtain ⟨e1r, e1n, e1s, e1v, e1d⟩ := e1
  have hflp : driverFlp c0 c1 bld cfg (a0, a1) num
      = .ok ({ a0 with reportShares := Spec.masked kcs.1.reportShares keep },
          { a1 with reportShares := Spec.masked kcs.2.reportShares keep }) := by
    have := driverFlp_decided (c0 := c0) (c1 := c1) (bld := bld) (cfg := cfg) hi
      (n := num) (by show a0.reportShares.length = _; rw [e0r, l0])
      (by show a1.reportShares.length = _; rw [e1r, l1]) hb (e0r.symm ▸ k0) (e1r.symm ▸ k1)
      (keep := keep) hkl ?_
    · rw [this]; simp only [e0r, e1r]
    · intro i b0 b1 s0 s1 g0 g1
      simp only [e0r, e1r, e0n, e1n, e0s, e1s, e0v, e1v] at g0 g1 ⊢
      rw [← hvk, hn0, hn1]
      exact hdec i b0 b1 s0 s1 g0 g1
  exact ⟨a0, a1, hi, ⟨e0r, e0n, e0s, e0v, e0d⟩, ⟨e1r, e1n, e1s, e1v, e1d⟩, hflp⟩

end Mastic
