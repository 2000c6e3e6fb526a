import Verif.Spec.Forge
import Verif.Spec.Run
import Verif.Lemmas.Whh
import Verif.Lemmas.Prime

/-!
# Reports on weight vectors of the client's choice
-/

namespace Mastic

variable {P : Prims}

/-! ### The circuit -/

theorem rangeFrom_scale (r : Field128) : ∀ (x : List Field128) (k j : Nat),
    Spec.rangeFrom r (k + j) x = r ^ j * Spec.rangeFrom r k x
  | [], _, _ => by simp [Spec.rangeFrom]
  | x :: xs, k, j => by
    unfold Spec.rangeFrom
    rw [show k + j + 1 = k + 1 + j by omega, rangeFrom_scale r xs (k + 1) j]
    ring

theorem rangeFrom_zero {r : Field128} : ∀ {x : List Field128} {k : Nat}, (∀ v ∈ x, v = 0 ∨ v = 1) →
    Spec.rangeFrom r k x = 0
  | [], _, _ => rfl
  | x :: xs, k, h => by
    unfold Spec.rangeFrom
    rw [rangeFrom_zero fun v hv => h v (List.mem_cons_of_mem _ hv)]
    rcases h x (by simp) with e | e <;> rw [e] <;> ring

theorem oneHot_iff {n : Nat} {x : List Field128} :
    Spec.OneHot n x ↔ ∃ b, encodeMeasurement n b = some x := by
  unfold Spec.OneHot encodeMeasurement
  refine exists_congr fun b => ?_
  by_cases hb : b < n
  · rw [if_pos hb]
    constructor
    · rintro ⟨-, hl, h⟩
      congr 1
      refine List.ext_getElem? fun i => ?_
      by_cases hi : i < n
      · rw [h i hi, List.getElem?_set]; simp [hi, hb, eq_comm]; split <;> simp_all
      · rw [List.getElem?_eq_none (by simpa using hi), List.getElem?_eq_none (by omega)]
    · intro h
      cases h
      exact ⟨hb, by simp, fun i hi => by rw [List.getElem?_set]; simp [hi, hb, eq_comm]; split <;> simp_all⟩
  · rw [if_neg hb]
    simp [hb]

theorem encodeMeasurement_mem {n b : Nat} {x : List Field128} (h : encodeMeasurement n b = some x) :
    (∀ v ∈ x, v = 0 ∨ v = 1) ∧ x.sum = 1 := by
  unfold encodeMeasurement at h
  split at h
  · rename_i hb
    cases h
    refine ⟨fun v hv => ?_, ?_⟩
    · rcases List.mem_or_eq_of_mem_set hv with hv | hv
      · exact .inl (List.eq_of_mem_replicate hv)
      · exact .inr hv
    · rw [List.sum_set]
      simp [hb]
  · cases h

/-- Every weight of a client that runs the code passes. -/
theorem histogramCheck_oneHot {n : Nat} {x : List Field128} (h : Spec.OneHot n x) (r0 r1 : Field128) :
    Spec.histogramCheck r0 r1 x = 0 := by
  obtain ⟨b, hb⟩ := oneHot_iff.1 h
  obtain ⟨h1, h2⟩ := encodeMeasurement_mem hb
  unfold Spec.histogramCheck
  rw [rangeFrom_zero h1, h2]; ring

theorem rangeFrom_replicate (r : Field128) (m : Nat) : ∀ k, Spec.rangeFrom r k (List.replicate m 0) = 0 :=
  fun _ => rangeFrom_zero fun _ hv => .inl (List.eq_of_mem_replicate hv)

/-! ### What such a report consists of -/

theorem passing_parts {n : Nat} {alpha : List Bool} {beta : List Field128} {s0 s1 : ReportShare}
    (h : Spec.PassingPair P n alpha beta s0 s1) :
    ∃ (nonce : Block) (rs : Block × Block) (pr proof : List Field128) (rand : Nat → Field128)
      (parts : Block × Block) (r0 r1 : Field128),
      beta.length = n ∧ Spec.histogramCheck r0 r1 beta = 0 ∧
      P.flpProve n beta pr [r0, r1] = some proof ∧
      P.xofField parts.1 parts.2.toList (P.jointRandLen n) = [r0, r1] ∧
      P.xofBlock (VidpfKey.gen P rs alpha beta).1.rootSeed (List.replicate 16 0) (0#8 :: nonce.toList) = parts.1 ∧
      P.xofBlock (VidpfKey.gen P rs alpha beta).2.rootSeed (List.replicate 16 0) (1#8 :: nonce.toList) = parts.2 ∧
      s0 = .mastic nonce (VidpfKey.gen P rs alpha beta).1 (shareProof proof rand).1 parts ∧
      s1 = .mastic nonce (VidpfKey.gen P rs alpha beta).2 (shareProof proof rand).2 parts := by
  obtain ⟨rand, rep, r0, r1, hg, hs, hl, hj, hc⟩ := h
  unfold Spec.vectorReport at hg
  dsimp only at hg
  obtain ⟨proof, hp, hg⟩ := bind_eq_ok.1 hg
  simp only [Except.ok.injEq] at hg
  subst hg
  simp only [PlaintextReport.toShares, Prod.mk.injEq] at hs
  have hj' : P.xofField (clientJointRandParts P rand.nonce (VidpfKey.gen P rand.rootSeeds alpha beta).1
      (VidpfKey.gen P rand.rootSeeds alpha beta).2).1 (clientJointRandParts P rand.nonce
      (VidpfKey.gen P rand.rootSeeds alpha beta).1
      (VidpfKey.gen P rand.rootSeeds alpha beta).2).2.toList (P.jointRandLen n) = [r0, r1] := hj
  refine ⟨rand.nonce, rand.rootSeeds, rand.proveRand, proof, rand.proofRand, _, r0, r1, hl, hc, ?_, hj', rfl, rfl,
    hs.1, hs.2⟩
  rw [← hj']
  exact unwrapO_eq_ok.1 hp

/-- Its verifier shares are accepted. -/
theorem passing_verifiers {n : Nat} {id0 id1 : Int} {vk : Block} (h0 : id0 = 0) (h1 : id1 ≠ 0)
    {alpha : List Bool} {beta : List Field128} {s0 s1 : ReportShare} (ha : alpha ≠ [])
    (hh : Spec.PassingPair P n alpha beta s0 s1)
    (hc : Spec.CircuitCompleteAt P n (P.xofField vk s0.nonce.toList (P.queryRandLen n))) :
    Spec.FlpAccepted P n id0 id1 vk s0 s1 := by
  obtain ⟨nonce, rs, pr, proof, rand, parts, r0, r1, hbl, hz, hp, hj, o0, o1, e0, e1⟩ := passing_parts hh
  have hal : 1 ≤ alpha.length := by cases alpha <;> simp at ha ⊢
  obtain ⟨u0, u1, g0, g1, gs⟩ := honest_values P rs alpha beta [false] (by simp) (by simpa using hal)
  obtain ⟨w0, w1, q0, q1, qs⟩ := honest_values P rs alpha beta [true] (by simp) (by simpa using hal)
  rw [hbl] at g0 g1 q0 q1
  have lu0 := valueAt_length (by simp) g0
  have lu1 := valueAt_length (by simp) g1
  have lw0 := valueAt_length (by simp) q0
  have lw1 := valueAt_length (by simp) q1
  have hn : s0.nonce = nonce := by rw [e0]; rfl
  rw [hn] at hc
  obtain ⟨v0, v1, y0, y1, hd⟩ := hc r0 r1 beta pr proof ((Spec.addShares u0 w0).take n)
    ((Spec.addShares u1 w1).take n) (shareProof proof rand).1 (shareProof proof rand).2 hbl hz hp
    (by rw [List.length_take, addShares_length lu0 lw0]; omega)
    (by rw [List.length_take, addShares_length lu1 lw1]; omega)
    (betaShares_sum ha hbl lu0 lw0 lu1 lw1 gs qs) (shareProof_length _ _).1 (shareProof_length _ _).2
    (shareProof_add _ _)
  refine ⟨v0, v1, ?_, ?_, hd⟩
  · rw [e0]
    simp only [Spec.verifierOf, g0, q0, h0, if_true, o0, hj, Option.bind_eq_bind, Option.bind_some]
    exact y0
  · rw [e1]
    simp only [Spec.verifierOf, g1, q1, h1, if_false, o1, hj, Option.bind_eq_bind, Option.bind_some]
    exact y1

/-- `k` shares the point function of string `c.1` and vector `c.2`. -/
def PairOfVec (P : Prims) (n d : Nat) (k : VidpfKey × VidpfKey) (c : List Bool × List Field128) : Prop :=
  c.2.length = n ∧ ∀ p, p ≠ [] → p.length ≤ d →
    Spec.reconAt P k.1 k.2 n p = some (Spec.pointValue c.1 c.2 p)

theorem passing_facts {n : Nat} {alpha : List Bool} {beta : List Field128} {s0 s1 : ReportShare}
    (h : Spec.PassingPair P n alpha beta s0 s1) :
    ∃ k0 k1, Spec.keyOf s0 = some k0 ∧ Spec.keyOf s1 = some k1 ∧
      Spec.QuietPair P n alpha.length k0 k1 ∧ PairOfVec P n alpha.length (k0, k1) (alpha, beta) ∧
      Spec.WellFormed alpha.length s0 ∧ Spec.WellFormed alpha.length s1 := by
  obtain ⟨nonce, rs, pr, proof, rand, parts, r0, r1, hl, -, -, -, -, -, e0, e1⟩ := passing_parts h
  obtain ⟨g0, g1⟩ := gen_lengths P rs alpha beta false
  obtain ⟨g2, g3⟩ := gen_lengths P rs alpha beta true
  simp only [Pair.get] at g0 g1 g2 g3
  exact ⟨_, _, by rw [e0]; rfl, by rw [e1]; rfl, hl ▸ honest_quiet rs alpha beta,
    ⟨hl, fun p hp hpl => hl ▸ honest_recon rs alpha beta p hp hpl⟩,
    ⟨_, by rw [e0]; rfl, by omega, by omega⟩, ⟨_, by rw [e1]; rfl, by omega, by omega⟩⟩

/-! ### What such reports add up to -/

/-- The clients whose string starts with `p`. -/
def vecHolders (clients : List (List Bool × List Field128)) (p : List Bool) : List (List Bool × List Field128) :=
  clients.filter fun c => p.isPrefixOf c.1

theorem sum_map_filter {α : Type} (f : α → Field128) (q : α → Bool) (l : List α) :
    (l.map fun a => if q a then f a else 0).sum = ((l.filter q).map f).sum := by
  induction l with
  | nil => rfl
  | cons a l ih =>
    rw [List.map_cons, List.sum_cons, ih, List.filter_cons]
    cases q a <;> simp

theorem vecs_length {n d : Nat} {pairs : List (VidpfKey × VidpfKey)}
    {clients : List (List Bool × List Field128)} (h : List.Forall₂ (PairOfVec P n d) pairs clients) :
    ∀ c ∈ clients, c.2.length = n := by
  induction h with
  | nil => intro c hc; cases hc
  | cons hx _ ih =>
    intro c hc
    rcases List.mem_cons.1 hc with rfl | hc
    · exact hx.1
    · exact ih c hc

theorem tally_vecs {n d : Nat} {pairs : List (VidpfKey × VidpfKey)}
    {clients : List (List Bool × List Field128)} (h : List.Forall₂ (PairOfVec P n d) pairs clients)
    {p : List Bool} (hne : p ≠ []) (hl : p.length ≤ d) :
    Spec.tally P n pairs p = Spec.sumVecs n ((vecHolders clients p).map Prod.snd)
      ++ [(((vecHolders clients p).length : Nat) : Field128)] := by
  have hmap : pairs.map (fun k => (Spec.reconAt P k.1 k.2 n p).getD [])
      = clients.map fun c => Spec.pointValue c.1 c.2 p := by
    induction h with
    | nil => rfl
    | cons hx _ ih => rw [List.map_cons, List.map_cons, ih, hx.2 p hne hl, Option.getD_some]
  have hlen' := vecs_length h
  unfold Spec.tally
  rw [hmap]
  obtain ⟨hL, hG⟩ := sumVecs_spec (n := n + 1) (vs := clients.map fun c => Spec.pointValue c.1 c.2 p) (by
    intro v hv
    obtain ⟨c, hc, rfl⟩ := List.mem_map.1 hv
    rw [pointValue_length, hlen' c hc])
  obtain ⟨hL', hG'⟩ := sumVecs_spec (n := n) (vs := (vecHolders clients p).map Prod.snd) (by
    intro v hv
    obtain ⟨c, hc, rfl⟩ := List.mem_map.1 hv
    exact hlen' c (List.mem_filter.1 hc).1)
  refine list_ext_getD hL (by simp [hL']) fun i => ?_
  rw [hG, List.map_map]
  have e : ∀ c ∈ clients, ((fun v : List Field128 => v.getD i 0) ∘ fun c : List Bool × List Field128 =>
      Spec.pointValue c.1 c.2 p) c = if p.isPrefixOf c.1 then (c.2 ++ [(1 : Field128)]).getD i 0 else 0 := by
    intro c _
    simp only [Function.comp, Spec.pointValue, List.isPrefixOf_iff_prefix]
    split
    · rfl
    · rw [List.getD_eq_getElem?_getD, List.getElem?_replicate]; split <;> rfl
  rw [List.map_congr_left e, sum_map_filter (fun c : List Bool × List Field128 => (c.2 ++ [(1 : Field128)]).getD i 0)
      (fun c => p.isPrefixOf c.1)]
  change ((vecHolders clients p).map _).sum = _
  have hv : ∀ c ∈ vecHolders clients p, c.2.length = n := fun c hc => hlen' c (List.mem_filter.1 hc).1
  rcases Nat.lt_trichotomy i n with hi | hi | hi
  · rw [List.getD_append _ _ _ _ (by omega), hG', List.map_map]
    congr 1
    refine List.map_congr_left fun c hc => ?_
    rw [List.getD_append _ _ _ _ (by rw [hv c hc]; exact hi)]; rfl
  · rw [List.getD_append_right _ _ _ _ (by omega), hL', hi, Nat.sub_self, List.getD_cons_zero]
    have : ((vecHolders clients p).map fun c => (c.2 ++ [(1 : Field128)]).getD n 0)
        = (vecHolders clients p).map fun _ => (1 : Field128) := by
      refine List.map_congr_left fun c hc => ?_
      rw [List.getD_append_right _ _ _ _ (by rw [hv c hc]), hv c hc, Nat.sub_self, List.getD_cons_zero]
    rw [this]
    simp
  · rw [List.getD_eq_default _ _ (by simp [hL']; omega)]
    have : ((vecHolders clients p).map fun c => (c.2 ++ [(1 : Field128)]).getD i 0)
        = (vecHolders clients p).map fun _ => (0 : Field128) := by
      refine List.map_congr_left fun c hc => ?_
      rw [List.getD_eq_default _ _ (by simp [hv c hc]; omega)]
    rw [this]
    simp

theorem countAt_vecs {n d : Nat} {pairs : List (VidpfKey × VidpfKey)}
    {clients : List (List Bool × List Field128)} (h : List.Forall₂ (PairOfVec P n d) pairs clients)
    (hc : clients.length < 2 ^ 64) {p : List Bool} (hne : p ≠ []) (hl : p.length ≤ d) :
    Spec.countAt P n pairs p = (vecHolders clients p).length := by
  have hle : (vecHolders clients p).length ≤ clients.length := List.length_filter_le _ _
  have hlen' : ∀ c ∈ vecHolders clients p, c.2.length = n := by
    exact fun c hc => vecs_length h c (List.mem_filter.1 hc).1
  obtain ⟨hL', -⟩ := sumVecs_spec (n := n) (vs := (vecHolders clients p).map Prod.snd) (by
    intro v hv
    obtain ⟨c, hc, rfl⟩ := List.mem_map.1 hv
    exact hlen' c hc)
  unfold Spec.countAt
  rw [tally_vecs h hne hl, List.getD_append_right _ _ _ _ (by omega), hL', Nat.sub_self, List.getD_cons_zero]
  have hm : 2 ^ 64 < fieldModulus := by decide
  rw [ZMod.val_natCast, Nat.mod_eq_of_lt (a := (vecHolders clients p).length) (by omega),
    Nat.mod_eq_of_lt (by omega)]

theorem heavy_vecs {n d T : Nat} {pairs : List (VidpfKey × VidpfKey)}
    {clients : List (List Bool × List Field128)} (h : List.Forall₂ (PairOfVec P n d) pairs clients)
    (hc : clients.length < 2 ^ 64) {p : List Bool} (hne : p ≠ []) (hl : p.length ≤ d) :
    Spec.heavy P n T pairs p = decide (T ≤ (vecHolders clients p).length) := by
  rw [Bool.eq_iff_iff, decide_eq_true_eq]
  unfold Spec.heavy
  simp only [List.all_eq_true, List.mem_inits, Bool.or_eq_true, List.isEmpty_iff, decide_eq_true_eq]
  constructor
  · intro hall
    rcases hall p List.prefix_rfl with he | he
    · exact absurd he hne
    · rwa [countAt_vecs h hc hne hl] at he
  · intro hT q hq
    by_cases hq0 : q = []
    · exact .inl hq0
    · rw [countAt_vecs h hc hq0 (hq.length_le.trans hl)]
      refine .inr (hT.trans ?_)
      unfold vecHolders
      refine (List.monotone_filter_right clients fun c hc => ?_).length_le
      simp only [List.isPrefixOf_iff_prefix] at hc ⊢
      exact hq.trans hc

theorem vecHolders_full {d : Nat} {clients : List (List Bool × List Field128)}
    (hd : ∀ c ∈ clients, c.1.length = d) {p : List Bool} (hp : p.length = d) :
    vecHolders clients p = clients.filter fun c => c.1 == p := by
  unfold vecHolders
  refine List.filter_congr fun c hc => ?_
  rw [Bool.eq_iff_iff, List.isPrefixOf_iff_prefix, beq_iff_eq]
  constructor
  · intro h; exact (h.eq_of_length (by rw [hp, hd c hc])).symm
  · intro h; rw [h]

theorem results_vecs {n d T : Nat} {pairs : List (VidpfKey × VidpfKey)}
    {clients : List (List Bool × List Field128)} (h : List.Forall₂ (PairOfVec P n d) pairs clients)
    (hd1 : 1 ≤ d) (hc : clients.length < 2 ^ 64) (hd : ∀ c ∈ clients, c.1.length = d) :
    (resultsOf P n pairs (Spec.heavyPaths P n T pairs d)).map (fun r => (r.path, r.value))
      = Spec.heavySums n T d clients := by
  have hne : ∀ p ∈ Spec.allPaths d, p ≠ [] := by
    intro p hp he
    have := mem_allPaths.1 hp
    rw [he] at this
    simp at this
    omega
  unfold resultsOf Spec.heavyPaths Spec.heavySums
  rw [List.map_map]
  have hf : (Spec.allPaths d).filter (Spec.heavy P n T pairs)
      = (Spec.allPaths d).filter fun s => decide (T ≤ clients.countP fun c => c.1 == s) := by
    refine List.filter_congr fun p hp => ?_
    rw [heavy_vecs h hc (hne p hp) (mem_allPaths.1 hp).le, vecHolders_full hd (mem_allPaths.1 hp),
      List.countP_eq_length_filter]
  rw [hf]
  refine List.map_congr_left fun p hp => ?_
  have hp' := (List.mem_filter.1 hp).1
  simp only [Function.comp]
  rw [tally_vecs h (hne p hp') (mem_allPaths.1 hp').le, vecHolders_full hd (mem_allPaths.1 hp'),
    List.countP_eq_length_filter]

/-! ### Lists of such reports -/

theorem passing_lists {n d : Nat} {vk : Block} :
    ∀ {cs : List (List Bool × List Field128)} {r0 r1 : List (Bool × ReportShare)},
    Spec.PassingReports P n d vk cs r0 r1 →
    Spec.QuietReports P n d r0 r1 ∧ (∀ br ∈ r0, br.1 = true ∧ Spec.WellFormed d br.2) ∧
      (∀ br ∈ r1, br.1 = true ∧ Spec.WellFormed d br.2) ∧
      List.Forall₂ (PairOfVec P n d) (Spec.keyPairs r0 r1) cs
  | [], r0, r1, h => by
    obtain ⟨h0, h1, -⟩ := h
    rw [List.eq_nil_of_length_eq_zero h0, List.eq_nil_of_length_eq_zero h1]
    exact ⟨⟨rfl, by simp⟩, by simp, by simp, .nil⟩
  | c :: cs, [], _, h => by simp [Spec.PassingReports] at h
  | c :: cs, _ :: _, [], h => by simp [Spec.PassingReports] at h
  | c :: cs, (b0, s0) :: r0, (b1, s1) :: r1, h => by
    obtain ⟨h0, h1, h2⟩ := h
    obtain ⟨⟨i1, i2⟩, i3, i4, i5⟩ := passing_lists (cs := cs) (r0 := r0) (r1 := r1)
      ⟨by simpa using h0, by simpa using h1, fun i c b0 b1 s0 s1 g0 g1 g2 =>
        h2 (i + 1) c b0 b1 s0 s1 (by simpa using g0) (by simpa using g1) (by simpa using g2)⟩
    obtain ⟨rfl, rfl, hh, hd, -⟩ := h2 0 c b0 b1 s0 s1 rfl rfl rfl
    obtain ⟨k0, k1, e0, e1, q, pr, w0, w1⟩ := passing_facts hh
    rw [hd] at q pr w0 w1
    refine ⟨⟨by simp [i1], ?_⟩, ?_, ?_, ?_⟩
    · rintro (_ | i) t0 t1 h0 h1
      · cases h0; cases h1; exact ⟨k0, k1, e0, e1, q⟩
      · exact i2 i t0 t1 (by simpa using h0) (by simpa using h1)
    · intro br hbr
      rcases List.mem_cons.1 hbr with rfl | hbr
      · exact ⟨rfl, w0⟩
      · exact i3 br hbr
    · intro br hbr
      rcases List.mem_cons.1 hbr with rfl | hbr
      · exact ⟨rfl, w1⟩
      · exact i4 br hbr
    · have : Spec.keyPairs ((true, s0) :: r0) ((true, s1) :: r1) = (k0, k1) :: Spec.keyPairs r0 r1 := by
        simp [Spec.keyPairs, e0, e1]
      rw [this]
      exact .cons pr i5

end Mastic
