import Verif.Spec.PmHide
import Verif.Props.Prio3Hide
import Verif.Lemmas.RunHide

/-!
# The requests of a plain-metrics run, and runs for two assignments of buckets that look the same to one server
-/

namespace Mastic

variable {P : Prims} {c0 c1 : ServerCfg}

/-! ### The requests of plain metrics -/

/-- The encoded preparation shares that a server answers for a range of its reports. -/
def sharesOf (P : Prims) (n id : Nat) (vk : Block) (shares : List (Bool × ReportShare)) (r : Nat × Nat) :
    List (List Byte) :=
  (rangeFrom r.1 r.2).filterMap fun i =>
    (shares[i]?.bind fun br => Spec.prepOf P n id vk br.2).map fun p => P.prepEncode p.2

/-- The requests of one batch. -/
def pmSent (P : Prims) (c0 c1 : ServerCfg) (kcs : Pair2 P) (r : Nat × Nat) : List (Req × Req) :=
  [(.pmValidate r.1 r.2, .pmValidate r.1 r.2),
    (.pmResult (sharesOf P kcs.2.inputLen c1.serverId.toNat kcs.2.verifyKey kcs.2.reportShares r) r.1 r.2,
      .pmResult (sharesOf P kcs.1.inputLen c0.serverId.toNat kcs.1.verifyKey kcs.1.reportShares r) r.1 r.2)]

/-- The servers differ in their stored preparation states only. -/
def SameReports (kcs kcs' : Pair2 P) : Prop :=
  kcs'.1 = { kcs.1 with pmState := kcs'.1.pmState } ∧ kcs'.2 = { kcs.2 with pmState := kcs'.2.pmState }

theorem SameReports.sent {kcs kcs' : Pair2 P} (h : SameReports kcs kcs') : pmSent P c0 c1 kcs' = pmSent P c0 c1 kcs := by
  obtain ⟨h0, h1⟩ := h
  unfold pmSent
  rw [h0, h1]

theorem tells_call {r0 r1 : Req} {k : Resp → Resp → Prog α} {kcs k' : Pair2 P} {sent : List (Req × Req)} {a : α}
    (hk : ∀ a0 a1, (∃ b, k a0 a1 = .ret b) ∨ ∃ p, k a0 a1 = .panic p)
    (h : Tells c0 c1 (.ask r0 r1 k) kcs sent a k') :
    sent = [(r0, r1)] ∧ ∃ a0 a1, locked c0 kcs.1 r0 = .ok (k'.1, a0) ∧ locked c1 kcs.2 r1 = .ok (k'.2, a1) ∧
      k a0 a1 = .ret a := by
  cases h with
  | ask _ _ _ _ _ t0 t1 _ _ a0 a1 sent _ h0 h1 h =>
    obtain ⟨p0, k0, rfl, l0⟩ := talk_step_ok h0
    obtain ⟨p1, k1, rfl, l1⟩ := talk_step_ok h1
    rcases hk a0 a1 with ⟨b, e⟩ | ⟨p, e⟩
    · rw [e] at h
      cases h
      exact ⟨rfl, a0, a1, l0, l1, e⟩
    · rw [e] at h
      cases h

theorem validate_shares {cfg : ServerCfg} {kc kc' : KeyCollection P} {s e : Nat} {a : Resp}
    (hlt : s < e) (h : locked cfg kc (.pmValidate s e) = .ok (kc', a)) :
    kc' = { kc with pmState := kc'.pmState } ∧
      a = .bytes (sharesOf P kc.inputLen cfg.serverId.toNat kc.verifyKey kc.reportShares (s, e)) := by
  unfold locked at h
  obtain ⟨⟨k, b⟩, h1, h⟩ := bind_eq_ok.1 h
  cases h
  obtain ⟨-, -, hk, f, hf, hb, -⟩ := pmValidate_spec hlt h1
  refine ⟨hk, ?_⟩
  rw [hb, sharesOf, ← List.filterMap_eq_map]
  refine congrArg _ (List.filterMap_congr fun i hi => ?_)
  obtain ⟨g1, g2⟩ := rangeFrom_mem.1 hi
  rw [hf i g1 g2]
  rfl

theorem result_keeps {cfg : ServerCfg} {kc kc' : KeyCollection P} {s e : Nat} {peers : List (List Byte)} {a : Resp}
    (h : locked cfg kc (.pmResult peers s e) = .ok (kc', a)) : kc' = { kc with pmState := kc'.pmState } := by
  unfold locked at h
  obtain ⟨⟨k, b, m⟩, h1, h⟩ := bind_eq_ok.1 h
  cases h
  unfold srvPmResult at h1
  split at h1
  · cases h1
  obtain ⟨⟨_, _⟩, -, h1⟩ := bind_eq_ok.1 h1
  obtain ⟨_, -, h1⟩ := bind_eq_ok.1 h1
  obtain ⟨_, -, h1⟩ := bind_eq_ok.1 h1
  cases h1
  rfl

theorem tells_pmBatch {cfg : Config} {r : Nat × Nat} {kcs k : Pair2 P} {sent : List (Req × Req)} {o : PmOut}
    (hlt : r.1 < r.2) (h : Tells c0 c1 (pmBatchP P cfg r) kcs sent o k) :
    sent = pmSent P c0 c1 kcs r ∧ SameReports kcs k := by
  unfold pmBatchP at h
  obtain ⟨x, y, v, k1, rfl, h1, h2⟩ := tells_bind h
  unfold callBytes at h1
  obtain ⟨rfl, a0, a1, l0, l1, e⟩ := tells_call (fun a0 a1 => by
    cases a0 <;> cases a1 <;> first | exact Or.inl ⟨_, rfl⟩ | exact Or.inr ⟨_, rfl⟩) h1
  obtain ⟨g0, rfl⟩ := validate_shares hlt l0
  obtain ⟨g1, rfl⟩ := validate_shares hlt l1
  cases e
  obtain ⟨x1, y1, _, _, rfl, q1, h3⟩ := tells_bind h2
  obtain ⟨rfl, rfl, -⟩ := tells_lift q1
  obtain ⟨x2, y2, _, _, rfl, q2, h4⟩ := tells_bind h3
  obtain ⟨rfl, rfl, -⟩ := tells_lift q2
  obtain ⟨x3, y3, _, k2, rfl, q3, h5⟩ := tells_bind h4
  unfold callAggregate at q3
  obtain ⟨rfl, b0, b1, m0, m1, -⟩ := tells_call (fun a0 a1 => by
    cases a0 <;> cases a1 <;> first | exact Or.inl ⟨_, rfl⟩ | exact Or.inr ⟨_, rfl⟩) q3
  obtain ⟨x4, y4, _, _, rfl, q4, h6⟩ := tells_bind h5
  obtain ⟨rfl, rfl, -⟩ := tells_lift q4
  obtain ⟨x5, y5, _, _, rfl, q5, h7⟩ := tells_bind h6
  obtain ⟨rfl, rfl, -⟩ := tells_lift q5
  obtain ⟨rfl, rfl, -⟩ := tells_ret h7
  refine ⟨rfl, ?_, ?_⟩
  · have := result_keeps m0
    rw [g0] at this
    exact this
  · have := result_keeps m1
    rw [g1] at this
    exact this

theorem tells_pmLoop {cfg : Config} : ∀ {rs : List (Nat × Nat)} {kcs k : Pair2 P} {sent : List (Req × Req)}
    {os : List PmOut}, (∀ r ∈ rs, r.1 < r.2) → Tells c0 c1 (pmLoopP P cfg rs) kcs sent os k →
    sent = rs.flatMap (pmSent P c0 c1 kcs)
  | [], _, _, _, _, _, h => by
    obtain ⟨rfl, -, -⟩ := tells_ret h
    rfl
  | r :: rs, kcs, k, sent, os, hr, h => by
    unfold pmLoopP at h
    obtain ⟨x, y, o, k1, rfl, h1, h2⟩ := tells_bind h
    obtain ⟨rfl, hk⟩ := tells_pmBatch (hr r (by simp)) h1
    obtain ⟨x1, y1, o', k2, rfl, h3, h4⟩ := tells_bind h2
    obtain ⟨rfl, -, -⟩ := tells_ret h4
    rw [tells_pmLoop (fun x hx => hr x (by simp [hx])) h3, hk.sent, List.append_nil, List.flatMap_cons]

/-! ### Given values for all reports -/

section Fold

variable {ι : Type} {n c : Nat} (X : Prio3Xof) (nonce : ι → Block) (k : ι → Nat → Block)

/-- `Spec.setHelpers` over any list. -/
def foldHelpers (w : ι → Spec.HelperCoins n c) (l : List ι) : Prio3Xof :=
  l.foldr (fun i Z => Spec.setHelper Z (nonce i) (k i) (w i)) X

/-- `Spec.setLeaders` over any list. -/
def foldLeaders (x : ι → List Field128) (w : ι → Spec.LeaderCoins c) (l : List ι) : Prio3Xof :=
  l.foldr (fun i Z => Spec.setLeader Z n (nonce i) (k i) (x i) (w i)) X

variable (w : ι → Spec.HelperCoins n c)

/-- What the leader knows stays as it is. -/
theorem foldHelpers_keeps (l : List ι) :
    (∀ vk b, (foldHelpers X nonce k w l).field dstQueryRand vk b 0 = X.field dstQueryRand vk b 0) ∧
    (∀ s j, (foldHelpers X nonce k w l).field dstJointRand s [] j = X.field dstJointRand s [] j) ∧
    (∀ a b, (foldHelpers X nonce k w l).jointSeed a b = X.jointSeed a b) ∧
    ∀ s non v, (foldHelpers X nonce k w l).jointPart s 0 non v = X.jointPart s 0 non v := by
  induction l with
  | nil => exact ⟨fun _ _ => rfl, fun _ _ => rfl, fun _ _ => rfl, fun _ _ _ => rfl⟩
  | cons i l ih =>
    obtain ⟨h1, h2, h3, h4⟩ := ih
    refine ⟨fun vk b => ?_, fun s j => ?_, fun a b => ?_, fun s non v => ?_⟩
    · rw [← h1]; simp [foldHelpers, Spec.setHelper, dstQueryRand]
    · rw [← h2]; simp [foldHelpers, Spec.setHelper, dstJointRand]
    · rw [← h3]; simp [foldHelpers, Prio3Xof.jointSeed, Spec.setHelper, dstJointSeed]
    · rw [← h4]
      refine if_neg ?_
      rintro ⟨-, -, h⟩
      exact absurd (List.cons.inj h).1 (by decide)

/-- The answers to the client behind one report. -/
theorem foldHelpers_gives (hk : ∀ i i', i ≠ i' → ∀ j < 5, k i j ≠ k i' j) {l : List ι} {i : ι} (hi : i ∈ l) :
    (foldHelpers X nonce k w l).helperMeasurement n (k i 0) = List.ofFn (w i).1 ∧
    prOf c (k i) (foldHelpers X nonce k w l) = List.ofFn (w i).2.1 ∧
    (foldHelpers X nonce k w l).helperProof (histProofLen n c) (k i 1) = List.ofFn (w i).2.2.1 ∧
    (foldHelpers X nonce k w l).jointPart (k i 2) 1 (nonce i) (List.ofFn (w i).1) = (w i).2.2.2 := by
  induction l with
  | nil => cases hi
  | cons i' l ih =>
    have e : foldHelpers X nonce k w (i' :: l)
      = Spec.setHelper (foldHelpers X nonce k w l) (nonce i') (k i') (w i') := rfl
    by_cases h : i = i'
    · subst h
      rw [e]
      exact ⟨setHelper_meas .., setHelper_prove .., setHelper_proof .., setHelper_part1 ..⟩
    · obtain ⟨h1, h2, h3, h4⟩ := ih (by simpa [h] using hi)
      have g := hk i i' h
      refine ⟨?_, ?_, ?_, ?_⟩
      · rw [← h1, e]
        refine List.map_congr_left fun j _ => ?_
        simp [Spec.setHelper, dstMeasurement, g 0]
      · rw [← h2, e]
        refine List.map_congr_left fun j _ => ?_
        simp [Spec.setHelper, dstProveRand, g 4]
      · rw [← h3, e]
        refine List.map_congr_left fun j _ => ?_
        simp [Spec.setHelper, dstProof, g 1]
      · rw [← h4, e]
        exact if_neg fun h => g 2 (by omega) h.2.1

variable (x : ι → List Field128) (v : ι → Spec.LeaderCoins c)

theorem foldLeaders_keeps (l : List ι) :
    (∀ u, u ≠ 4 → ∀ s b j, (foldLeaders (n := n) X nonce k x v l).field u s b j = X.field u s b j) ∧
    (∀ a b, (foldLeaders (n := n) X nonce k x v l).jointSeed a b = X.jointSeed a b) ∧
    ∀ s non y, (foldLeaders (n := n) X nonce k x v l).jointPart s 1 non y = X.jointPart s 1 non y := by
  induction l with
  | nil => exact ⟨fun _ _ _ _ _ => rfl, fun _ _ => rfl, fun _ _ _ => rfl⟩
  | cons i l ih =>
    obtain ⟨h1, h2, h3⟩ := ih
    refine ⟨fun u hu s b j => ?_, fun a b => ?_, fun s non y => ?_⟩
    · rw [← h1 u hu]; simp [foldLeaders, Spec.setLeader, hu]
    · rw [← h2]; simp [foldLeaders, Prio3Xof.jointSeed, Spec.setLeader, dstJointSeed]
    · rw [← h3]
      refine if_neg ?_
      rintro ⟨-, -, h⟩
      exact absurd (List.cons.inj h).1 (by decide)

theorem foldLeaders_gives (hk : ∀ i i', i ≠ i' → ∀ j < 5, k i j ≠ k i' j) (hx : ∀ i, (x i).length = n) {l : List ι}
    {i : ι} (hi : i ∈ l) :
    prOf c (k i) (foldLeaders (n := n) X nonce k x v l) = List.ofFn (v i).1 ∧
    (foldLeaders (n := n) X nonce k x v l).jointPart (k i 3) 0 (nonce i)
      (vecSub (x i) (X.helperMeasurement n (k i 0))) = (v i).2 := by
  induction l with
  | nil => cases hi
  | cons i' l ih =>
    have e : foldLeaders (n := n) X nonce k x v (i' :: l)
      = Spec.setLeader (foldLeaders (n := n) X nonce k x v l) n (nonce i') (k i') (x i') (v i') := rfl
    by_cases h : i = i'
    · subst h
      have hm : (foldLeaders (n := n) X nonce k x v l).helperMeasurement n (k i 0) = X.helperMeasurement n (k i 0) :=
        List.map_congr_left fun j _ => (foldLeaders_keeps X nonce k x v l).1 _ (by decide) ..
      rw [e, ← hm]
      exact ⟨setLeader_prove .., setLeader_part0 _ _ _ _ (hx i) _⟩
    · obtain ⟨h1, h2⟩ := ih (by simpa [h] using hi)
      have g := hk i i' h
      refine ⟨?_, ?_⟩
      · rw [← h1, e]
        refine List.map_congr_left fun j _ => ?_
        simp [Spec.setLeader, dstProveRand, g 4]
      · rw [← h2, e]
        exact if_neg fun h => g 3 (by omega) h.2.1

end Fold

section Move

variable {u n c : Nat} (vk : Block) (draw : MainDraw) (bucket bucket' : Nat → Nat) (X : Prio3Xof)

/-- The values that go with the buckets `bucket'` as the given ones go with `bucket`, unknown to the leader. -/
def moveHelpers (w : Fin u → Spec.HelperCoins n c) (i : Fin u) : Spec.HelperCoins n c :=
  let Z := Spec.setHelpers X draw w
  let nonce := (draw.reports i).rand.nonce
  let k := Spec.clientSeed (draw.reports i).prio3
  let x := Spec.bucketVec n (bucket i)
  let x' := Spec.bucketVec n (bucket' i)
  (fun j => (w i).1 j + (x'.getD j 0 - x.getD j 0),
    fun j => (w i).2.1 j + wireShift n c x x' (r0Of n nonce k Z x) (tOf nonce vk Z) j,
    fun j => (w i).2.2.1 j + ((proofMoved n c nonce vk k Z x x').getD j 0 - (madeProof n c nonce k Z x).getD j 0),
    (w i).2.2.2)

/-- The same for the helper. -/
def moveLeaders (w : Fin u → Spec.LeaderCoins c) (i : Fin u) : Spec.LeaderCoins c :=
  let Z := Spec.setLeaders X n draw bucket w
  let nonce := (draw.reports i).rand.nonce
  let k := Spec.clientSeed (draw.reports i).prio3
  let x := Spec.bucketVec n (bucket i)
  let x' := Spec.bucketVec n (bucket' i)
  (fun j => (w i).1 j + wireShift n c x x' (r0Of n nonce k Z x) (tOf nonce vk Z) j, (w i).2)

theorem setHelpers_fold (w : Fin u → Spec.HelperCoins n c) : Spec.setHelpers X draw w
    = foldHelpers X (fun i : Fin u => (draw.reports i).rand.nonce) (fun i => Spec.clientSeed (draw.reports i).prio3) w
        (List.finRange u) := rfl

theorem setLeaders_fold (w : Fin u → Spec.LeaderCoins c) : Spec.setLeaders X n draw bucket w
    = foldLeaders (n := n) X (fun i : Fin u => (draw.reports i).rand.nonce)
        (fun i => Spec.clientSeed (draw.reports i).prio3) (fun i => Spec.bucketVec n (bucket i)) w (List.finRange u) := rfl

theorem helpersMoved (hf : Spec.FreshSeeds u draw) (w : Fin u → Spec.HelperCoins n c) (i : Fin u) :
    HelperMoved n c (draw.reports i).rand.nonce vk (Spec.clientSeed (draw.reports i).prio3) (Spec.bucketVec n (bucket i))
      (Spec.bucketVec n (bucket' i)) (Spec.setHelpers X draw w)
      (Spec.setHelpers X draw (moveHelpers vk draw bucket bucket' X w)) := by
  obtain ⟨a1, a2, a3, a4⟩ := foldHelpers_keeps X (fun i : Fin u => (draw.reports i).rand.nonce)
    (fun i => Spec.clientSeed (draw.reports i).prio3) w (List.finRange u)
  obtain ⟨b1, b2, b3, b4⟩ := foldHelpers_keeps X (fun i : Fin u => (draw.reports i).rand.nonce)
    (fun i => Spec.clientSeed (draw.reports i).prio3) (moveHelpers vk draw bucket bucket' X w) (List.finRange u)
  obtain ⟨d1, d2, d3, d4⟩ := foldHelpers_gives X (fun i : Fin u => (draw.reports i).rand.nonce)
    (fun i => Spec.clientSeed (draw.reports i).prio3) w hf (List.mem_finRange i)
  obtain ⟨e1, e2, e3, e4⟩ := foldHelpers_gives X (fun i : Fin u => (draw.reports i).rand.nonce)
    (fun i => Spec.clientSeed (draw.reports i).prio3) (moveHelpers vk draw bucket bucket' X w) hf (List.mem_finRange i)
  rw [← setHelpers_fold] at a1 a2 a3 a4 b1 b2 b3 b4 d1 d2 d3 d4 e1 e2 e3 e4
  refine ⟨?_, ?_, ?_, ?_, ?_, ?_, ?_, ?_⟩
  · unfold tOf; rw [a1, b1]
  · intro s j; rw [a2, b2]
  · intro a b; rw [a3, b3]
  · intro v; rw [a4, b4]
  · rw [d1, e1, d4, e4]; rfl
  · rw [d1, e1, addVec_ofFn]; rfl
  · rw [e2, prMoved, shiftSeeds, d2]
    refine List.ext_getElem (by simp) fun j h1 h2 => ?_
    have hj : j < 2 * c := by simpa using h1
    simp only [List.getElem_ofFn, List.getElem_map, List.getElem_range]
    rw [List.getD_eq_getElem _ _ (by simpa using hj), List.getElem_ofFn]
    rfl
  · rw [d3, e3, addVec_ofFn]; rfl

theorem leadersMoved (hf : Spec.FreshSeeds u draw) (w : Fin u → Spec.LeaderCoins c) (i : Fin u) :
    LeaderMoved n c (draw.reports i).rand.nonce vk (Spec.clientSeed (draw.reports i).prio3) (Spec.bucketVec n (bucket i))
      (Spec.bucketVec n (bucket' i)) (Spec.setLeaders X n draw bucket w)
      (Spec.setLeaders X n draw bucket' (moveLeaders (n := n) vk draw bucket bucket' X w)) := by
  have hx : ∀ (bucket : Nat → Nat) (i : Fin u), (Spec.bucketVec n (bucket i)).length = n := by simp [Spec.bucketVec]
  obtain ⟨a1, a2, a3⟩ := foldLeaders_keeps (n := n) X (fun i : Fin u => (draw.reports i).rand.nonce)
    (fun i => Spec.clientSeed (draw.reports i).prio3) (fun i => Spec.bucketVec n (bucket i)) w (List.finRange u)
  obtain ⟨b1, b2, b3⟩ := foldLeaders_keeps (n := n) X (fun i : Fin u => (draw.reports i).rand.nonce)
    (fun i => Spec.clientSeed (draw.reports i).prio3) (fun i => Spec.bucketVec n (bucket' i))
    (moveLeaders (n := n) vk draw bucket bucket' X w) (List.finRange u)
  obtain ⟨d1, d2⟩ := foldLeaders_gives (n := n) X (fun i : Fin u => (draw.reports i).rand.nonce)
    (fun i => Spec.clientSeed (draw.reports i).prio3) (fun i => Spec.bucketVec n (bucket i)) w hf (hx bucket)
    (List.mem_finRange i)
  obtain ⟨e1, e2⟩ := foldLeaders_gives (n := n) X (fun i : Fin u => (draw.reports i).rand.nonce)
    (fun i => Spec.clientSeed (draw.reports i).prio3) (fun i => Spec.bucketVec n (bucket' i))
    (moveLeaders (n := n) vk draw bucket bucket' X w) hf (hx bucket') (List.mem_finRange i)
  rw [← setLeaders_fold] at a1 a2 a3 b1 b2 b3 d1 d2 e1 e2
  have hm : ∀ s, (Spec.setLeaders X n draw bucket w).helperMeasurement n s = X.helperMeasurement n s := fun s =>
    List.map_congr_left fun j _ => a1 _ (by decide) ..
  have hm' : ∀ s, (Spec.setLeaders X n draw bucket' (moveLeaders (n := n) vk draw bucket bucket' X w)).helperMeasurement n s
      = X.helperMeasurement n s := fun s => List.map_congr_left fun j _ => b1 _ (by decide) ..
  refine ⟨?_, ?_, ?_, ?_, ?_, ?_, ?_, ?_⟩
  · unfold tOf; rw [a1 _ (by decide), b1 _ (by decide)]
  · intro s j; rw [a1 _ (by decide), b1 _ (by decide)]
  · intro a b; rw [a2, b2]
  · rw [hm, d2, e2]; rfl
  · intro v; rw [a3, b3]
  · rw [hm, hm']
  · rw [e1, prMoved, shiftSeeds, d1]
    refine List.ext_getElem (by simp) fun j h1 h2 => ?_
    have hj : j < 2 * c := by simpa using h1
    simp only [List.getElem_ofFn, List.getElem_map, List.getElem_range]
    rw [List.getD_eq_getElem _ _ (by simpa using hj), List.getElem_ofFn]
    rfl
  · exact List.map_congr_left fun j _ => (b1 _ (by decide) _ _ _).trans (a1 _ (by decide) _ _ _).symm

theorem moveHelpers_back (hf : Spec.FreshSeeds u draw) (w : Fin u → Spec.HelperCoins n c) :
    moveHelpers vk draw bucket' bucket X (moveHelpers vk draw bucket bucket' X w) = w := by
  funext i
  have h := helpersMoved vk draw bucket bucket' X hf w i
  have hx : (Spec.bucketVec n (bucket i)).length = n := by simp [Spec.bucketVec]
  have hx' : (Spec.bucketVec n (bucket' i)).length = n := by simp [Spec.bucketVec]
  have e0 := mh_r0 h hx hx'
  have e1 := mh_proof h hx hx'
  have e2 := mh_proofMoved h hx hx'
  have e3 := h.query
  obtain ⟨w', hw'⟩ : ∃ w', w' = moveHelpers vk draw bucket bucket' X w := ⟨_, rfl⟩
  rw [← hw'] at e0 e1 e2 e3 ⊢
  refine Prod.ext ?_ (Prod.ext ?_ (Prod.ext ?_ ?_))
  · funext j
    show (w' i).1 j + _ = _
    rw [hw']
    show (w i).1 j + _ + _ = _
    ring
  · funext j
    show (w' i).2.1 j + wireShift _ _ _ _ (r0Of _ _ _ _ _) (tOf _ _ _) j = _
    rw [e0, e3, hw']
    show (w i).2.1 j + _ + _ = _
    rw [add_assoc, wireShift_neg, add_zero]
  · funext j
    show (w' i).2.2.1 j + ((proofMoved _ _ _ _ _ _ _ _).getD j 0 - (madeProof _ _ _ _ _ _).getD j 0) = _
    rw [e1, e2, hw']
    show (w i).2.2.1 j + _ + _ = _
    ring
  · show (w' i).2.2.2 = _
    rw [hw']
    rfl

theorem moveLeaders_back (hf : Spec.FreshSeeds u draw) (w : Fin u → Spec.LeaderCoins c) :
    moveLeaders (n := n) vk draw bucket' bucket X (moveLeaders (n := n) vk draw bucket bucket' X w) = w := by
  funext i
  have h := leadersMoved (n := n) vk draw bucket bucket' X hf w i
  have e0 := ml_r0 h
  have e3 := h.query
  obtain ⟨w', hw'⟩ : ∃ w', w' = moveLeaders (n := n) vk draw bucket bucket' X w := ⟨_, rfl⟩
  rw [← hw'] at e0 e3 ⊢
  refine Prod.ext ?_ ?_
  · funext j
    show (w' i).1 j + wireShift _ _ _ _ (r0Of _ _ _ _ _) (tOf _ _ _) j = _
    rw [e0, e3, hw']
    show (w i).1 j + _ + _ = _
    rw [add_assoc, wireShift_neg, add_zero]
  · show (w' i).2 = _
    rw [hw']
    rfl

end Move

end Mastic
