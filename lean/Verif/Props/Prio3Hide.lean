import Verif.Lemmas.Prio3Hide
import Verif.Spec.Prio3Hide
import Verif.Props.Prio3

/-!
# C89: neither server learns a client's bucket from a plain-metrics report
-/

namespace Mastic

open Finset

variable {P : Prims}

section

variable {n c : Nat} (nonce vk : Block) (k : Nat → Block) (x x' : List Field128) (X : Prio3Xof)

/-- The values that go with `x'` as the given ones go with `x`. -/
def moveHelper (w : Spec.HelperCoins n c) : Spec.HelperCoins n c :=
  let Z := Spec.setHelper X nonce k w
  (fun j => w.1 j + (x'.getD j 0 - x.getD j 0),
    fun j => w.2.1 j + wireShift n c x x' (r0Of n nonce k Z x) (tOf nonce vk Z) j,
    fun j => w.2.2.1 j + ((proofMoved n c nonce vk k Z x x').getD j 0 - (madeProof n c nonce k Z x).getD j 0), w.2.2.2)

theorem setHelper_meas (w : Spec.HelperCoins n c) :
    (Spec.setHelper X nonce k w).helperMeasurement n (k 0) = List.ofFn w.1 := by
  refine List.ext_getElem (by simp) fun j h1 h2 => ?_
  have hj : j < n := by simpa using h1
  simp [Prio3Xof.helperMeasurement, Prio3Xof.vec, Spec.setHelper, dstMeasurement, hj]

theorem setHelper_prove (w : Spec.HelperCoins n c) : prOf c k (Spec.setHelper X nonce k w) = List.ofFn w.2.1 := by
  refine List.ext_getElem (by simp [prOf]) fun j h1 h2 => ?_
  have hj : j < 2 * c := by simpa [prOf] using h1
  simp [prOf, Prio3Xof.vec, Spec.setHelper, dstProveRand, hj]

theorem setHelper_proof (w : Spec.HelperCoins n c) :
    (Spec.setHelper X nonce k w).helperProof (histProofLen n c) (k 1) = List.ofFn w.2.2.1 := by
  refine List.ext_getElem (by simp) fun j h1 h2 => ?_
  have hj : j < histProofLen n c := by simpa using h1
  simp [Prio3Xof.helperProof, Prio3Xof.vec, Spec.setHelper, dstProof, hj]

theorem setHelper_part1 (w : Spec.HelperCoins n c) :
    (Spec.setHelper X nonce k w).jointPart (k 2) 1 nonce (List.ofFn w.1) = w.2.2.2 :=
  if_pos ⟨rfl, rfl, rfl⟩

theorem setHelper_part0 (w : Spec.HelperCoins n c) (v : List Field128) :
    (Spec.setHelper X nonce k w).jointPart (k 3) 0 nonce v = X.jointPart (k 3) 0 nonce v := by
  refine if_neg ?_
  rintro ⟨-, -, h⟩
  exact absurd (List.cons.inj h).1 (by decide)

theorem setHelper_query (w : Spec.HelperCoins n c) : tOf nonce vk (Spec.setHelper X nonce k w) = tOf nonce vk X := by
  simp [tOf, Spec.setHelper, dstQueryRand]

theorem setHelper_joint (w : Spec.HelperCoins n c) (s : Block) (j : Nat) :
    (Spec.setHelper X nonce k w).field dstJointRand s [] j = X.field dstJointRand s [] j := by
  simp [Spec.setHelper, dstJointRand]

theorem setHelper_seed (w : Spec.HelperCoins n c) (a b : Block) :
    (Spec.setHelper X nonce k w).jointSeed a b = X.jointSeed a b := by
  simp [Prio3Xof.jointSeed, Spec.setHelper, dstJointSeed]

theorem addVec_ofFn {m : Nat} (f : Fin m → Field128) (x x' : List Field128) :
    addVec (List.ofFn f) x x' = List.ofFn fun j : Fin m => f j + (x'.getD j 0 - x.getD j 0) := by
  refine List.ext_getElem (by simp [addVec]) fun j h1 h2 => ?_
  have hj : j < m := by simpa using h2
  simp only [addVec, List.getElem_map, List.getElem_range, List.getElem_ofFn]
  rw [List.getD_eq_getElem _ _ (by simpa using hj), List.getElem_ofFn]

theorem helperMoved (w : Spec.HelperCoins n c) : HelperMoved n c nonce vk k x x' (Spec.setHelper X nonce k w)
    (Spec.setHelper X nonce k (moveHelper nonce vk k x x' X w)) where
  query := by rw [setHelper_query, setHelper_query]
  joint s j := by rw [setHelper_joint, setHelper_joint]
  seed a b := by rw [setHelper_seed, setHelper_seed]
  part0 v := by rw [setHelper_part0, setHelper_part0]
  part1 := by rw [setHelper_meas, setHelper_meas, setHelper_part1, setHelper_part1]; rfl
  meas := by rw [setHelper_meas, setHelper_meas, addVec_ofFn]; rfl
  prove := by
    rw [setHelper_prove, prMoved, shiftSeeds, setHelper_prove]
    refine List.ext_getElem (by simp) fun j h1 h2 => ?_
    have hj : j < 2 * c := by simpa using h1
    simp only [List.getElem_ofFn, List.getElem_map, List.getElem_range]
    rw [List.getD_eq_getElem _ _ (by simpa using hj), List.getElem_ofFn]
    rfl
  proof := by rw [setHelper_proof, setHelper_proof, addVec_ofFn]; rfl

theorem moveHelper_back (hx : x.length = n) (hx' : x'.length = n) (w : Spec.HelperCoins n c) :
    moveHelper nonce vk k x' x X (moveHelper nonce vk k x x' X w) = w := by
  have h := helperMoved nonce vk k x x' X w
  have e0 := mh_r0 h hx hx'
  have e1 := mh_proof h hx hx'
  have e2 := mh_proofMoved h hx hx'
  have e3 := h.query
  refine Prod.ext ?_ (Prod.ext ?_ (Prod.ext ?_ rfl))
  · funext j
    show w.1 j + _ + _ = _
    ring
  · funext j
    show w.2.1 j + _ + wireShift n c x' x (r0Of n nonce k (Spec.setHelper X nonce k (moveHelper nonce vk k x x' X w)) x')
      (tOf nonce vk (Spec.setHelper X nonce k (moveHelper nonce vk k x x' X w))) j = _
    rw [e0, e3, add_assoc, wireShift_neg, add_zero]
  · funext j
    show w.2.2.1 j + _ + ((proofMoved n c nonce vk k (Spec.setHelper X nonce k (moveHelper nonce vk k x x' X w)) x' x).getD
      j 0 - (madeProof n c nonce k (Spec.setHelper X nonce k (moveHelper nonce vk k x x' X w)) x').getD j 0) = _
    rw [e1, e2]
    ring

/-- The values that go with `x'` as the given ones go with `x`, for the helper. -/
def moveLeader (w : Spec.LeaderCoins c) : Spec.LeaderCoins c :=
  let Z := Spec.setLeader X n nonce k x w
  (fun j => w.1 j + wireShift n c x x' (r0Of n nonce k Z x) (tOf nonce vk Z) j, w.2)

theorem setLeader_field {u : Nat} (hu : u ≠ 4) (w : Spec.LeaderCoins c) (s : Block) (b : List Byte) (j : Nat) :
    (Spec.setLeader X n nonce k x w).field u s b j = X.field u s b j := by
  simp [Spec.setLeader, hu]

theorem setLeader_meas (w : Spec.LeaderCoins c) :
    (Spec.setLeader X n nonce k x w).helperMeasurement n (k 0) = X.helperMeasurement n (k 0) :=
  List.map_congr_left fun j _ => setLeader_field nonce k x X (by decide) w ..

theorem setLeader_proof (w : Spec.LeaderCoins c) (len : Nat) :
    (Spec.setLeader X n nonce k x w).helperProof len (k 1) = X.helperProof len (k 1) :=
  List.map_congr_left fun j _ => setLeader_field nonce k x X (by decide) w ..

theorem setLeader_prove (w : Spec.LeaderCoins c) : prOf c k (Spec.setLeader X n nonce k x w) = List.ofFn w.1 := by
  refine List.ext_getElem (by simp [prOf]) fun j h1 h2 => ?_
  have hj : j < 2 * c := by simpa [prOf] using h1
  simp [prOf, Prio3Xof.vec, Spec.setLeader, dstProveRand, hj]

theorem vecSub_zipWith : ∀ {a b : List Field128}, a.length = b.length → vecSub a b = List.zipWith (· - ·) a b
  | [], [], _ => rfl
  | _ :: _, _ :: _, h => by rw [vecSub, List.zipWith_cons_cons, vecSub_zipWith (by simpa using h)]

theorem setLeader_part0 (hx : x.length = n) (w : Spec.LeaderCoins c) :
    (Spec.setLeader X n nonce k x w).jointPart (k 3) 0 nonce (vecSub x (X.helperMeasurement n (k 0))) = w.2 := by
  refine if_pos ⟨rfl, rfl, ?_⟩
  rw [vecSub_zipWith (by simp [hx])]
  rfl

theorem setLeader_part1 (w : Spec.LeaderCoins c) (v : List Field128) :
    (Spec.setLeader X n nonce k x w).jointPart (k 2) 1 nonce v = X.jointPart (k 2) 1 nonce v := by
  refine if_neg ?_
  rintro ⟨-, -, h⟩
  exact absurd (List.cons.inj h).1 (by decide)

theorem setLeader_seed (w : Spec.LeaderCoins c) (a b : Block) :
    (Spec.setLeader X n nonce k x w).jointSeed a b = X.jointSeed a b := by
  simp [Prio3Xof.jointSeed, Spec.setLeader, dstJointSeed]

theorem leaderMoved (hx : x.length = n) (hx' : x'.length = n) (w : Spec.LeaderCoins c) :
    LeaderMoved n c nonce vk k x x' (Spec.setLeader X n nonce k x w)
      (Spec.setLeader X n nonce k x' (moveLeader (n := n) nonce vk k x x' X w)) where
  query := by
    have h := fun x w => setLeader_field (n := n) (c := c) nonce k x X (u := dstQueryRand) (by decide) w vk nonce.toList 0
    exact (h _ _).trans (h _ _).symm
  joint s j := by rw [setLeader_field _ _ _ _ (by decide), setLeader_field _ _ _ _ (by decide)]
  seed a b := by rw [setLeader_seed, setLeader_seed]
  part0 := by rw [setLeader_meas, setLeader_part0 _ _ _ _ hx, setLeader_part0 _ _ _ _ hx']; rfl
  part1 v := by rw [setLeader_part1, setLeader_part1]
  meas := by rw [setLeader_meas, setLeader_meas]
  prove := by
    rw [setLeader_prove, prMoved, shiftSeeds, setLeader_prove]
    refine List.ext_getElem (by simp) fun j h1 h2 => ?_
    have hj : j < 2 * c := by simpa using h1
    simp only [List.getElem_ofFn, List.getElem_map, List.getElem_range]
    rw [List.getD_eq_getElem _ _ (by simpa using hj), List.getElem_ofFn]
    rfl
  proof := by rw [setLeader_proof, setLeader_proof]

theorem moveLeader_back (hx : x.length = n) (hx' : x'.length = n) (w : Spec.LeaderCoins c) :
    moveLeader (n := n) nonce vk k x' x X (moveLeader (n := n) nonce vk k x x' X w) = w := by
  have h := leaderMoved nonce vk k x x' X hx hx' w
  have e0 := ml_r0 h
  have e3 := h.query
  refine Prod.ext ?_ rfl
  funext j
  show w.1 j + _ + wireShift n c x' x
    (r0Of n nonce k (Spec.setLeader X n nonce k x' (moveLeader (n := n) nonce vk k x x' X w)) x')
    (tOf nonce vk (Spec.setLeader X n nonce k x' (moveLeader (n := n) nonce vk k x x' X w))) j = _
  rw [e0, e3, add_assoc, wireShift_neg, add_zero]

end

theorem encode_bucketVec {n b : Nat} (hb : b < n) : encodeMeasurement n b = some (Spec.bucketVec n b) := by
  rw [encodeMeasurement, if_pos hb]
  refine congrArg some (List.ext_getElem (by simp [Spec.bucketVec]) fun i h1 h2 => ?_)
  simp [Spec.bucketVec, List.getElem_set, eq_comm]

theorem combine_congr {X Y : Prio3Xof} (h : ∀ a b, Y.jointSeed a b = X.jointSeed a b) (c : Nat) (l r : Prio3Share) :
    Y.combine c l r = X.combine c l r := by
  unfold Prio3Xof.combine; rw [h]

theorem leaderView_eq {X : Prio3Xof} {n b rand : Nat} {nonce vk : Block} {pub in0 in1 : List Byte}
    (h : X.shard n (Spec.chunk n) b nonce rand = some (pub, in0, in1)) :
    Spec.leaderView P X n b rand nonce vk = some (pub, in0, X.prepare n (Spec.chunk n) 0 vk nonce pub in0,
      (X.prepare n (Spec.chunk n) 1 vk nonce pub in1).map Prod.snd,
      (X.prepare n (Spec.chunk n) 0 vk nonce pub in0).bind fun a =>
        ((X.prepare n (Spec.chunk n) 1 vk nonce pub in1).map Prod.snd).bind fun r => X.combine (Spec.chunk n) a.2 r) := by
  show (X.shard n (Spec.chunk n) b nonce rand).map _ = _
  rw [h, Option.map_some]
  simp only [Option.bind_map]
  rfl

theorem helperView_eq {X : Prio3Xof} {n b rand : Nat} {nonce vk : Block} {pub in0 in1 : List Byte}
    (h : X.shard n (Spec.chunk n) b nonce rand = some (pub, in0, in1)) :
    Spec.helperView P X n b rand nonce vk = some (pub, in1, X.prepare n (Spec.chunk n) 1 vk nonce pub in1,
      (X.prepare n (Spec.chunk n) 0 vk nonce pub in0).map Prod.snd,
      ((X.prepare n (Spec.chunk n) 0 vk nonce pub in0).map Prod.snd).bind fun l =>
        (X.prepare n (Spec.chunk n) 1 vk nonce pub in1).bind fun a => X.combine (Spec.chunk n) l a.2) := by
  show (X.shard n (Spec.chunk n) b nonce rand).map _ = _
  rw [h, Option.map_some]
  simp only [Option.bind_map]
  rfl

/-- **C89.**  What the leader sees of a report for one bucket, it would see of a report for any other: whatever the seeds
the client draws, the nonce, the verify key and the rest of the extendable output function, the values that the leader
does not know correspond one to one so that all it sees is the same for corresponding values.  With uniform values, what
it sees has the same distribution for all buckets. -/
theorem C89_leader {n b b' : Nat} (hn : n < 2 ^ 64) (hb : b < n) (hb' : b' < n) (X : Prio3Xof) (rand : Nat)
    (nonce vk : Block) :
    ∃ F : Spec.HelperCoins n (Spec.chunk n) ≃ Spec.HelperCoins n (Spec.chunk n), ∀ w,
      (Spec.leaderView P (Spec.setHelper X nonce (Spec.clientSeed rand) w) n b rand nonce vk).isSome ∧
      Spec.leaderView P (Spec.setHelper X nonce (Spec.clientSeed rand) w) n b rand nonce vk
        = Spec.leaderView P (Spec.setHelper X nonce (Spec.clientSeed rand) (F w)) n b' rand nonce vk := by
  have hc : 1 ≤ Spec.chunk n := chunk_pos (by omega)
  have hx := encode_bucketVec hb
  have hx' := encode_bucketVec hb'
  have lx := (encodeMeasurement_length hx).1
  have lx' := (encodeMeasurement_length hx').1
  refine ⟨⟨moveHelper nonce vk (Spec.clientSeed rand) (Spec.bucketVec n b) (Spec.bucketVec n b') X,
    moveHelper nonce vk (Spec.clientSeed rand) (Spec.bucketVec n b') (Spec.bucketVec n b) X,
    moveHelper_back _ _ _ _ _ _ lx lx', moveHelper_back _ _ _ _ _ _ lx' lx⟩, fun w => ?_⟩
  have h := helperMoved nonce vk (Spec.clientSeed rand) (Spec.bucketVec n b) (Spec.bucketVec n b') X w
  obtain ⟨pub, in0, in1, e1, e2, e3, e4⟩ := leader_same hc (wireLog_le hc hn) hx hx' (rand := rand) rfl h
  show _ ∧ _ = Spec.leaderView P (Spec.setHelper X nonce (Spec.clientSeed rand)
    (moveHelper nonce vk (Spec.clientSeed rand) (Spec.bucketVec n b) (Spec.bucketVec n b') X w)) n b' rand nonce vk
  rw [leaderView_eq e1, leaderView_eq e2, e3, e4]
  simp only [combine_congr h.seed, Option.isSome_some, and_self]

/-- **C89.**  The same for the helper: the values it does not know are the prover randomness and the leader's part of the
joint randomness, the answer to the client's query for it. -/
theorem C89_helper {n b b' : Nat} (hn : n < 2 ^ 64) (hb : b < n) (hb' : b' < n) (X : Prio3Xof) (rand : Nat)
    (nonce vk : Block) :
    ∃ F : Spec.LeaderCoins (Spec.chunk n) ≃ Spec.LeaderCoins (Spec.chunk n), ∀ w,
      (Spec.helperView P (Spec.setLeader X n nonce (Spec.clientSeed rand) (Spec.bucketVec n b) w) n b rand nonce
        vk).isSome ∧
      Spec.helperView P (Spec.setLeader X n nonce (Spec.clientSeed rand) (Spec.bucketVec n b) w) n b rand nonce vk
        = Spec.helperView P (Spec.setLeader X n nonce (Spec.clientSeed rand) (Spec.bucketVec n b') (F w)) n b' rand nonce
            vk := by
  have hc : 1 ≤ Spec.chunk n := chunk_pos (by omega)
  have hx := encode_bucketVec hb
  have hx' := encode_bucketVec hb'
  have lx := (encodeMeasurement_length hx).1
  have lx' := (encodeMeasurement_length hx').1
  refine ⟨⟨moveLeader (n := n) nonce vk (Spec.clientSeed rand) (Spec.bucketVec n b) (Spec.bucketVec n b') X,
    moveLeader (n := n) nonce vk (Spec.clientSeed rand) (Spec.bucketVec n b') (Spec.bucketVec n b) X,
    moveLeader_back _ _ _ _ _ _ lx lx', moveLeader_back _ _ _ _ _ _ lx' lx⟩, fun w => ?_⟩
  have h := leaderMoved nonce vk (Spec.clientSeed rand) (Spec.bucketVec n b) (Spec.bucketVec n b') X lx lx' w
  obtain ⟨pub, in0, in0', in1, e1, e2, e3, e4⟩ := helper_same hc (wireLog_le hc hn) hx hx' (rand := rand) rfl h
  show _ ∧ _ = Spec.helperView P (Spec.setLeader X n nonce (Spec.clientSeed rand) (Spec.bucketVec n b')
    (moveLeader (n := n) nonce vk (Spec.clientSeed rand) (Spec.bucketVec n b) (Spec.bucketVec n b') X w)) n b' rand nonce vk
  rw [helperView_eq e1, helperView_eq e2, e3, e4]
  simp only [combine_congr h.seed, Option.isSome_some, and_self]

example (X : Prio3Xof) (rand : Nat) (nonce vk : Block) : Spec.chunk 4 = 2 ∧
    ∃ F : Spec.HelperCoins 4 (Spec.chunk 4) ≃ Spec.HelperCoins 4 (Spec.chunk 4), ∀ w,
      (Spec.leaderView toy (Spec.setHelper X nonce (Spec.clientSeed rand) w) 4 1 rand nonce vk).isSome ∧
      Spec.leaderView toy (Spec.setHelper X nonce (Spec.clientSeed rand) w) 4 1 rand nonce vk
        = Spec.leaderView toy (Spec.setHelper X nonce (Spec.clientSeed rand) (F w)) 4 3 rand nonce vk :=
  ⟨by decide +kernel, C89_leader (P := toy) (n := 4) (b := 1) (b' := 3) (by norm_num) (by norm_num) (by norm_num) X rand nonce vk⟩

example (X : Prio3Xof) (rand : Nat) (nonce vk : Block) :
    ∃ F : Spec.LeaderCoins (Spec.chunk 4) ≃ Spec.LeaderCoins (Spec.chunk 4), ∀ w,
      (Spec.helperView toy (Spec.setLeader X 4 nonce (Spec.clientSeed rand) [0, 1, 0, 0] w) 4 1 rand nonce vk).isSome ∧
      Spec.helperView toy (Spec.setLeader X 4 nonce (Spec.clientSeed rand) [0, 1, 0, 0] w) 4 1 rand nonce vk
        = Spec.helperView toy (Spec.setLeader X 4 nonce (Spec.clientSeed rand) [0, 0, 0, 1] (F w)) 4 3 rand nonce vk := by
  have h := C89_helper (P := toy) (n := 4) (b := 1) (b' := 3) (by norm_num) (by norm_num) (by norm_num) X rand nonce vk
  rw [show Spec.bucketVec 4 1 = [0, 1, 0, 0] by decide +kernel, show Spec.bucketVec 4 3 = [0, 0, 0, 1] by decide +kernel] at h
  exact h

/-- **C89.**  The two input shares together determine the bucket, so neither of the two theorems above holds for both
servers at once. -/
theorem C89_together {X : Prio3Xof} {n b b' rand rand' : Nat} {nonce nonce' : Block} {pub pub' in0 in1 : List Byte}
    (h : (P.withPrio3 X).prio3Shard n b nonce rand = some (pub, in0, in1))
    (h' : (P.withPrio3 X).prio3Shard n b' nonce' rand' = some (pub', in0, in1)) : b = b' := by
  obtain ⟨s, q, b1, b0, x, pr, proof, hm⟩ := shard_made (c := Spec.chunk n) h
  obtain ⟨s', q', b1', b0', x', pr', proof', hm'⟩ := shard_made (c := Spec.chunk n) h'
  obtain ⟨hx, hp, hsx, -⟩ := hm.shares
  obtain ⟨hx', hp', hsx', -⟩ := hm'.shares
  have r0 := readInput_leader X (n := n) (c := Spec.chunk n) (x := vecSub x (X.helperMeasurement n s))
    (p := vecSub proof (X.helperProof (histProofLen n (Spec.chunk n)) q)) (by simp [hx]) (by simp [hp]) b0
  have r0' := readInput_leader X (n := n) (c := Spec.chunk n) (x := vecSub x' (X.helperMeasurement n s'))
    (p := vecSub proof' (X.helperProof (histProofLen n (Spec.chunk n)) q')) (by simp [hx']) (by simp [hp']) b0'
  have r1 := readInput_helper X n (Spec.chunk n) s q b1
  have r1' := readInput_helper X n (Spec.chunk n) s' q' b1'
  rw [← hm.in0_eq] at r0; rw [← hm'.in0_eq, r0] at r0'
  rw [← hm.in1_eq] at r1; rw [← hm'.in1_eq, r1] at r1'
  simp only [Option.some.injEq, Prod.mk.injEq] at r0' r1'
  have hxx : x = x' := by rw [← hsx.2.2, ← hsx'.2.2, r0'.1, r1'.1]
  have hb := (encodeMeasurement_length hm.enc).2
  have hb' := (encodeMeasurement_length hm'.enc).2
  have e := hm.enc
  have e' := hm'.enc
  rw [encode_bucketVec hb] at e
  rw [encode_bucketVec hb'] at e'
  have h1 : Spec.bucketVec n b = Spec.bucketVec n b' := by
    rw [Option.some.inj e, Option.some.inj e', hxx]
  have h2 := congrArg (fun l => l.getD b 0) h1
  simp only [Spec.bucketVec] at h2
  rw [getD_range_map, getD_range_map, if_pos hb, if_pos hb, if_pos rfl] at h2
  by_contra hne
  rw [if_neg hne] at h2
  exact one_ne_zero h2

example (X : Prio3Xof) (rand : Nat) (nonce : Block) : ∃ pub in0 in1 pub' in0' in1',
    (toy.withPrio3 X).prio3Shard 4 1 nonce rand = some (pub, in0, in1) ∧
    (toy.withPrio3 X).prio3Shard 4 3 nonce rand = some (pub', in0', in1') ∧ in1' = in1 ∧ in0' ≠ in0 := by
  obtain ⟨pub, in0, in1, e, m⟩ := shard_of (X := X) (c := Spec.chunk 4) (nonce := nonce) (rand := rand)
    (encode_bucketVec (n := 4) (b := 1) (by norm_num)) rfl
  obtain ⟨pub', in0', in1', e', m'⟩ := shard_of (X := X) (c := Spec.chunk 4) (nonce := nonce) (rand := rand)
    (encode_bucketVec (n := 4) (b := 3) (by norm_num)) rfl
  have h1 : in1' = in1 := by rw [m.in1_eq, m'.in1_eq]
  refine ⟨pub, in0, in1, pub', in0', in1', e, e', h1, fun h => ?_⟩
  subst h h1
  exact absurd (C89_together (P := toy) (X := X) (n := 4) (b := 1) (b' := 3) e e') (by norm_num)

end Mastic
