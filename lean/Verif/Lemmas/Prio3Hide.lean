import Mathlib.Logic.Equiv.Basic
import Verif.Lemmas.Prio3
import Verif.Lemmas.Forge
import Verif.Props.Libprio

/-!
# Reports for two buckets that look the same to one server
-/

namespace Mastic

open Finset

/-- The proof for vector `x` with prover randomness `pr`. -/
def proofOf (n c : Nat) (x pr : List Field128) (r0 : Field128) : List Field128 :=
  pr ++ gadgetPoly n c fun w => wirePoly n c (wireVals n c x r0 1 pr w)

/-- What to add to the seed of wire `w` so that the wire has the same value at `t` for `x'` as for `x`. -/
def wireShift (n c : Nat) (x x' : List Field128) (r0 t : Field128) (w : Nat) : Field128 :=
  if t ^ wireLen n c = 1 then 0 else (wireAt n c x [] r0 t w - wireAt n c x' [] r0 t w) / lagrange n c 0 t

theorem wireShift_neg (n c : Nat) (x x' : List Field128) (r0 t : Field128) (w : Nat) :
    wireShift n c x x' r0 t w + wireShift n c x' x r0 t w = 0 := by
  unfold wireShift
  split
  · simp
  · rw [← add_div]; simp

def shiftSeeds (n c : Nat) (x x' : List Field128) (r0 t : Field128) (pr : List Field128) : List Field128 :=
  (List.range (2 * c)).map fun w => pr.getD w 0 + wireShift n c x x' r0 t w

theorem shiftSeeds_back {n c : Nat} (x x' : List Field128) (r0 t : Field128) {pr : List Field128}
    (h : pr.length = 2 * c) : shiftSeeds n c x' x r0 t (shiftSeeds n c x x' r0 t pr) = pr := by
  refine List.ext_getElem (by simp [shiftSeeds, h]) fun w hw hw' => ?_
  simp only [shiftSeeds, List.getElem_map, List.getElem_range]
  rw [getD_range_map, if_pos (by omega), add_assoc, wireShift_neg, add_zero, List.getD_eq_getElem _ _ hw']

theorem shifted_verifier {n c : Nat} (hc : 1 ≤ c) (hl : wireLog n c ≤ 66) {x x' pr : List Field128} {t r0 r1 : Field128}
    (hx : x.length = n) (hx' : x'.length = n) (hpr : pr.length = 2 * c)
    (hck : Spec.histogramCheck r0 r1 x = 0) (hck' : Spec.histogramCheck r0 r1 x' = 0) (ht : t ^ wireLen n c ≠ 1) :
    histVer n c x' (proofOf n c x' (shiftSeeds n c x x' r0 t pr) r0) t r0 r1 1
      = histVer n c x (proofOf n c x pr r0) t r0 r1 1 := by
  have h0 := lagrange_zero_ne ht
  have hp : histProve n c x pr [r0, r1] = some (proofOf n c x pr r0) := histProve_some.2 ⟨hx, hpr, rfl⟩
  have hp' : histProve n c x' (shiftSeeds n c x x' r0 t pr) [r0, r1]
      = some (proofOf n c x' (shiftSeeds n c x x' r0 t pr) r0) := histProve_some.2 ⟨hx', by simp [shiftSeeds], rfl⟩
  have h : ∀ w < 2 * c, wireAt n c x' (shiftSeeds n c x x' r0 t pr) r0 t w = wireAt n c x pr r0 t w := by
    intro w hw
    rw [wireAt_seed n c x', wireAt_seed n c x pr, shiftSeeds, getD_range_map, if_pos hw, wireShift, if_neg ht, add_mul,
      div_mul_cancel₀ _ h0]
    ring
  rw [made_verifier hc hl hp hck, made_verifier hc hl hp' hck']
  have e4 : (List.range (2 * c)).map (wireAt n c x' (shiftSeeds n c x x' r0 t pr) r0 t)
      = (List.range (2 * c)).map (wireAt n c x pr r0 t) :=
    List.map_congr_left fun w hw => h w (List.mem_range.1 hw)
  have e5 : ∑ j ∈ range c, wireAt n c x' (shiftSeeds n c x x' r0 t pr) r0 t (2 * j)
        * wireAt n c x' (shiftSeeds n c x x' r0 t pr) r0 t (2 * j + 1)
      = ∑ j ∈ range c, wireAt n c x pr r0 t (2 * j) * wireAt n c x pr r0 t (2 * j + 1) := by
    refine Finset.sum_congr rfl fun j hj => ?_
    have := Finset.mem_range.1 hj
    rw [h _ (by omega), h _ (by omega)]
  rw [e4, e5]

/-! ### The two shares and the seed of the joint randomness -/

section

variable (n c : Nat) (nonce vk : Block) (k : Nat → Block)

def seedOf (X : Prio3Xof) (x : List Field128) : Block :=
  X.jointSeed (X.jointPart (k 3) 0 nonce (vecSub x (X.helperMeasurement n (k 0))))
    (X.jointPart (k 2) 1 nonce (X.helperMeasurement n (k 0)))

def r0Of (X : Prio3Xof) (x : List Field128) : Field128 := X.field dstJointRand (seedOf n nonce k X x) [] 0

def r1Of (X : Prio3Xof) (x : List Field128) : Field128 := X.field dstJointRand (seedOf n nonce k X x) [] 1

def tOf (X : Prio3Xof) : Field128 := X.field dstQueryRand vk nonce.toList 0

def prOf (X : Prio3Xof) : List Field128 := X.vec dstProveRand (k 4) [] (2 * c)

def madeProof (X : Prio3Xof) (x : List Field128) : List Field128 := proofOf n c x (prOf c k X) (r0Of n nonce k X x)

/-- The prover randomness for `x'` that goes with the one for `x`. -/
def prMoved (X : Prio3Xof) (x x' : List Field128) : List Field128 :=
  shiftSeeds n c x x' (r0Of n nonce k X x) (tOf nonce vk X) (prOf c k X)

def proofMoved (X : Prio3Xof) (x x' : List Field128) : List Field128 :=
  proofOf n c x' (prMoved n c nonce vk k X x x') (r0Of n nonce k X x)

def partBytes (id : Byte) (v : List Field128) : List Byte := id :: (nonce.toList ++ encodeFields v)

def addVec (a x x' : List Field128) : List Field128 :=
  (List.range a.length).map fun j => a.getD j 0 + (x'.getD j 0 - x.getD j 0)

end

/-- Two extendable output functions under which the reports for `x` and for `x'` look the same to the leader. -/
structure HelperMoved (n c : Nat) (nonce vk : Block) (k : Nat → Block) (x x' : List Field128) (X Y : Prio3Xof) : Prop where
  query : tOf nonce vk Y = tOf nonce vk X
  joint : ∀ s j, Y.field dstJointRand s [] j = X.field dstJointRand s [] j
  seed : ∀ a b, Y.jointSeed a b = X.jointSeed a b
  part0 : ∀ v, Y.jointPart (k 3) 0 nonce v = X.jointPart (k 3) 0 nonce v
  part1 : Y.jointPart (k 2) 1 nonce (Y.helperMeasurement n (k 0)) = X.jointPart (k 2) 1 nonce (X.helperMeasurement n (k 0))
  meas : Y.helperMeasurement n (k 0) = addVec (X.helperMeasurement n (k 0)) x x'
  prove : prOf c k Y = prMoved n c nonce vk k X x x'
  proof : Y.helperProof (histProofLen n c) (k 1) = addVec (X.helperProof (histProofLen n c) (k 1))
    (madeProof n c nonce k X x) (proofMoved n c nonce vk k X x x')

/-- The same for the helper. -/
structure LeaderMoved (n c : Nat) (nonce vk : Block) (k : Nat → Block) (x x' : List Field128) (X Y : Prio3Xof) : Prop where
  query : tOf nonce vk Y = tOf nonce vk X
  joint : ∀ s j, Y.field dstJointRand s [] j = X.field dstJointRand s [] j
  seed : ∀ a b, Y.jointSeed a b = X.jointSeed a b
  part0 : Y.jointPart (k 3) 0 nonce (vecSub x' (X.helperMeasurement n (k 0)))
    = X.jointPart (k 3) 0 nonce (vecSub x (X.helperMeasurement n (k 0)))
  part1 : ∀ v, Y.jointPart (k 2) 1 nonce v = X.jointPart (k 2) 1 nonce v
  meas : Y.helperMeasurement n (k 0) = X.helperMeasurement n (k 0)
  prove : prOf c k Y = prMoved n c nonce vk k X x x'
  proof : Y.helperProof (histProofLen n c) (k 1) = X.helperProof (histProofLen n c) (k 1)

theorem addVec_back {a x x' : List Field128} : addVec (addVec a x x') x' x = a := by
  refine List.ext_getElem (by simp [addVec]) fun j h1 h2 => ?_
  simp only [addVec, List.getElem_map, List.getElem_range]
  rw [getD_range_map, if_pos h2, List.getD_eq_getElem _ _ h2]
  ring

theorem vecSub_addVec {a x x' : List Field128} (hx : x.length = a.length) (hx' : x'.length = a.length) :
    vecSub x' (addVec a x x') = vecSub x a := by
  refine List.ext_getElem (by simp [hx, hx']) fun j h1 h2 => ?_
  have hj : j < a.length := by simpa [hx'] using h1
  rw [vecSub_getElem (by omega) (by simp [addVec, hj]), vecSub_getElem (by omega) hj]
  simp only [addVec, List.getElem_map, List.getElem_range]
  rw [List.getD_eq_getElem _ _ hj, List.getD_eq_getElem _ _ (by omega), List.getD_eq_getElem _ _ (by omega)]
  ring

section Helper

variable {n c : Nat} {nonce vk : Block} {k : Nat → Block} {x x' : List Field128} {X Y : Prio3Xof}

theorem mh_x0 (h : HelperMoved n c nonce vk k x x' X Y) (hx : x.length = n) (hx' : x'.length = n) :
    vecSub x' (Y.helperMeasurement n (k 0)) = vecSub x (X.helperMeasurement n (k 0)) := by
  rw [h.meas, vecSub_addVec (by simp [hx]) (by simp [hx'])]

theorem mh_seed (h : HelperMoved n c nonce vk k x x' X Y) (hx : x.length = n) (hx' : x'.length = n) :
    seedOf n nonce k Y x' = seedOf n nonce k X x := by
  unfold seedOf
  rw [mh_x0 h hx hx', h.part1, h.part0, h.seed]

theorem mh_r0 (h : HelperMoved n c nonce vk k x x' X Y) (hx : x.length = n) (hx' : x'.length = n) :
    r0Of n nonce k Y x' = r0Of n nonce k X x := by
  unfold r0Of; rw [mh_seed h hx hx', h.joint]

theorem mh_r1 (h : HelperMoved n c nonce vk k x x' X Y) (hx : x.length = n) (hx' : x'.length = n) :
    r1Of n nonce k Y x' = r1Of n nonce k X x := by
  unfold r1Of; rw [mh_seed h hx hx', h.joint]

theorem mh_proof (h : HelperMoved n c nonce vk k x x' X Y) (hx : x.length = n) (hx' : x'.length = n) :
    madeProof n c nonce k Y x' = proofMoved n c nonce vk k X x x' := by
  unfold madeProof proofMoved
  rw [h.prove, mh_r0 h hx hx']

theorem mh_prMoved (h : HelperMoved n c nonce vk k x x' X Y) (hx : x.length = n) (hx' : x'.length = n) :
    prMoved n c nonce vk k Y x' x = prOf c k X := by
  rw [prMoved, mh_r0 h hx hx', h.query, h.prove, prMoved, shiftSeeds_back]
  simp [prOf]

theorem mh_proofMoved (h : HelperMoved n c nonce vk k x x' X Y) (hx : x.length = n) (hx' : x'.length = n) :
    proofMoved n c nonce vk k Y x' x = madeProof n c nonce k X x := by
  unfold madeProof proofMoved
  rw [mh_prMoved h hx hx', mh_r0 h hx hx']

theorem ml_seed (h : LeaderMoved n c nonce vk k x x' X Y) : seedOf n nonce k Y x' = seedOf n nonce k X x := by
  unfold seedOf
  rw [h.meas, h.part0, h.part1, h.seed]

theorem ml_r0 (h : LeaderMoved n c nonce vk k x x' X Y) : r0Of n nonce k Y x' = r0Of n nonce k X x := by
  unfold r0Of; rw [ml_seed h, h.joint]

theorem ml_r1 (h : LeaderMoved n c nonce vk k x x' X Y) : r1Of n nonce k Y x' = r1Of n nonce k X x := by
  unfold r1Of; rw [ml_seed h, h.joint]

theorem ml_proof (h : LeaderMoved n c nonce vk k x x' X Y) :
    madeProof n c nonce k Y x' = proofMoved n c nonce vk k X x x' := by
  unfold madeProof proofMoved
  rw [h.prove, ml_r0 h]

end Helper

/-! ### Reports -/

theorem shard_of {X : Prio3Xof} {n c bucket rand : Nat} {nonce : Block} {x : List Field128} {k : Nat → Block}
    (hx : encodeMeasurement n bucket = some x)
    (hk : k = fun i => Block.ofList (((natLE 80 rand).drop (16 * i)).take 16)) :
    ∃ pub in0 in1, X.shard n c bucket nonce rand = some (pub, in0, in1) ∧
      Prio3Made X n c bucket nonce pub in0 in1 (k 0) (k 1) (k 2) (k 3) x (prOf c k X) (madeProof n c nonce k X x) := by
  have hp : histProve n c x (prOf c k X) (X.jointRand (seedOf n nonce k X x)) = some (madeProof n c nonce k X x) := by
    rw [jointRand_eq]
    exact histProve_some.2 ⟨(encodeMeasurement_length hx).1, by simp [prOf], rfl⟩
  refine ⟨_, _, _, ?_, hx, hp, rfl, rfl, rfl⟩
  unfold Prio3Xof.shard
  rw [hx, Option.bind_some]
  subst hk
  exact Option.map_eq_some_iff.2 ⟨_, hp, rfl⟩

theorem proofOf_length {n c : Nat} {x pr : List Field128} {r0 : Field128} (h : pr.length = 2 * c) :
    (proofOf n c x pr r0).length = histProofLen n c := by
  rw [proofOf, List.length_append, gadgetPoly_length, h]; rfl

theorem madeProof_length (n c : Nat) (nonce : Block) (k : Nat → Block) (X : Prio3Xof) (x : List Field128) :
    (madeProof n c nonce k X x).length = histProofLen n c := proofOf_length (by simp [prOf])

theorem proofMoved_length (n c : Nat) (nonce vk : Block) (k : Nat → Block) (X : Prio3Xof) (x x' : List Field128) :
    (proofMoved n c nonce vk k X x x').length = histProofLen n c := proofOf_length (by simp [prMoved, shiftSeeds])

theorem addShares_cancel {a b c : List Field128} (hb : b.length = a.length) (hc : c.length = a.length)
    (h : Spec.addShares a b = Spec.addShares a c) : b = c := by
  refine List.ext_getElem (by omega) fun j h1 h2 => ?_
  have := congrArg (fun l => l.getD j 0) h
  simp only [getD_addShares hb.symm, getD_addShares hc.symm] at this
  rw [List.getD_eq_getElem _ _ h1, List.getD_eq_getElem _ _ h2] at this
  exact add_left_cancel this

theorem addShares_cancel' {a b c : List Field128} (hb : b.length = a.length) (hc : c.length = a.length)
    (h : Spec.addShares b a = Spec.addShares c a) : b = c := by
  refine List.ext_getElem (by omega) fun j h1 h2 => ?_
  have := congrArg (fun l => l.getD j 0) h
  simp only [getD_addShares hb, getD_addShares hc] at this
  rw [List.getD_eq_getElem _ _ h1, List.getD_eq_getElem _ _ h2] at this
  exact add_right_cancel this

theorem histVer_length (n c : Nat) (x p : List Field128) (t r0 r1 s : Field128) :
    (histVer n c x p t r0 r1 s).length = 2 * c + 2 := by simp [histVer]

/-- The verifier shares of a report add up to the verifier message. -/
theorem Prio3Made.total {X : Prio3Xof} {n c bucket : Nat} {nonce : Block} {pub in0 in1 : List Byte}
    {s q b1 b0 : Block} {x pr proof : List Field128} (h : Prio3Made X n c bucket nonce pub in0 in1 s q b1 b0 x pr proof)
    (t r0 r1 : Field128) :
    Spec.addShares (histVer n c (vecSub x (X.helperMeasurement n s)) (vecSub proof (X.helperProof (histProofLen n c) q))
        t r0 r1 ((2 : Nat) : Field128)⁻¹)
      (histVer n c (X.helperMeasurement n s) (X.helperProof (histProofLen n c) q) t r0 r1 ((2 : Nat) : Field128)⁻¹)
      = histVer n c x proof t r0 r1 1 := by
  obtain ⟨hx, hp, hsx, hsp⟩ := h.shares
  rw [histVer_add (by rw [hsx.1, hsx.2.1]) (by rw [hsp.1, hsp.2.1]), hsx.2.2, hsp.2.2, half_add_half_field]

theorem prepare_bad {X : Prio3Xof} {n c id : Nat} {vk nonce : Block} (pub inp : List Byte)
    (ht : tOf nonce vk X ^ wireLen n c = 1) : X.prepare n c id vk nonce pub inp = none := by
  rw [Option.eq_none_iff_forall_ne_some]
  rintro ⟨st, sh⟩ e
  obtain ⟨-, -, -, -, -, -, h, -⟩ := prepare_some.1 e
  exact h ht

/-- The leader's view. -/
theorem leader_same {n c b b' rand : Nat} (hc : 1 ≤ c) (hl : wireLog n c ≤ 66) {nonce vk : Block}
    {x x' : List Field128} {k : Nat → Block} (hx : encodeMeasurement n b = some x) (hx' : encodeMeasurement n b' = some x')
    (hk : k = fun i => Block.ofList (((natLE 80 rand).drop (16 * i)).take 16)) {X Y : Prio3Xof}
    (h : HelperMoved n c nonce vk k x x' X Y) :
    ∃ pub in0 in1, X.shard n c b nonce rand = some (pub, in0, in1) ∧
      Y.shard n c b' nonce rand = some (pub, in0, in1) ∧
      Y.prepare n c 0 vk nonce pub in0 = X.prepare n c 0 vk nonce pub in0 ∧
      (Y.prepare n c 1 vk nonce pub in1).map Prod.snd
        = (X.prepare n c 1 vk nonce pub in1).map Prod.snd := by
  have lx := (encodeMeasurement_length hx).1
  have lx' := (encodeMeasurement_length hx').1
  obtain ⟨pub, in0, in1, hs, hm⟩ := shard_of (X := X) (c := c) (nonce := nonce) hx hk
  obtain ⟨pub', in0', in1', hs', hm'⟩ :=
    shard_of (X := Y) (c := c) (nonce := nonce) hx' hk
  have hx0 := mh_x0 h lx lx'
  have hp0 : vecSub (madeProof n c nonce k Y x')
      (Y.helperProof (histProofLen n c) (k 1))
      = vecSub (madeProof n c nonce k X x) (X.helperProof (histProofLen n c) (k 1)) := by
    rw [mh_proof h lx lx', h.proof, vecSub_addVec (by simp [madeProof_length]) (by simp [proofMoved_length])]
  have hpub : pub' = pub := by rw [hm'.pub_eq, hm.pub_eq, hx0, h.part1, h.part0]
  have hin0 : in0' = in0 := by rw [hm'.in0_eq, hm.in0_eq, hx0, hp0]
  have hin1 : in1' = in1 := by rw [hm'.in1_eq, hm.in1_eq]
  subst hpub hin0 hin1
  refine ⟨pub', in0', in1', hs, hs', ?_⟩
  by_cases ht : tOf nonce vk X ^ wireLen n c = 1
  · have ht' : tOf nonce vk Y ^ wireLen n c = 1 := by rw [h.query]; exact ht
    simp only [prepare_bad _ _ ht, prepare_bad _ _ ht', and_self, Option.map_none]
  · have ht' : tOf nonce vk Y ^ wireLen n c ≠ 1 := by rw [h.query]; exact ht
    have hsd := mh_seed h lx lx'
    have q1 := hm.leader ht rfl rfl (seed := seedOf n nonce k X x) rfl
    have q1' := hm'.leader ht' rfl rfl (seed := seedOf n nonce k Y x') rfl
    have q2 := hm.helper ht hm.in1_eq rfl rfl (seed := seedOf n nonce k X x) rfl
    have q2' := hm'.helper ht' hm'.in1_eq rfl rfl (seed := seedOf n nonce k Y x') rfl
    have et := h.query
    have e0 := mh_r0 h lx lx'
    have e1 := mh_r1 h lx lx'
    unfold tOf at et; unfold r0Of at e0; unfold r1Of at e1
    have hver := shifted_verifier hc hl (pr := prOf c k X) (t := tOf nonce vk X) (r0 := r0Of n nonce k X x)
      (r1 := r1Of n nonce k X x) lx lx' (by simp [prOf]) (histogramCheck_oneHot (oneHot_iff.2 ⟨b, hx⟩) _ _)
      (histogramCheck_oneHot (oneHot_iff.2 ⟨b', hx'⟩) _ _) ht
    have t1 := hm.total (tOf nonce vk X) (r0Of n nonce k X x) (r1Of n nonce k X x)
    have t1' := hm'.total (tOf nonce vk X) (r0Of n nonce k X x) (r1Of n nonce k X x)
    have hmp := mh_proof h lx lx'
    have hv1 : histVer n c (Y.helperMeasurement n (k 0))
          (Y.helperProof (histProofLen n c) (k 1)) (tOf nonce vk X)
          (r0Of n nonce k X x) (r1Of n nonce k X x) ((2 : Nat) : Field128)⁻¹
        = histVer n c (X.helperMeasurement n (k 0)) (X.helperProof (histProofLen n c) (k 1)) (tOf nonce vk X)
          (r0Of n nonce k X x) (r1Of n nonce k X x) ((2 : Nat) : Field128)⁻¹ := by
      refine addShares_cancel (a := histVer n c (vecSub x (X.helperMeasurement n (k 0)))
        (vecSub (madeProof n c nonce k X x) (X.helperProof (histProofLen n c) (k 1))) (tOf nonce vk X)
        (r0Of n nonce k X x) (r1Of n nonce k X x) ((2 : Nat) : Field128)⁻¹) (by simp only [histVer_length])
        (by simp only [histVer_length]) ?_
      rw [t1]
      rw [hx0, hp0] at t1'
      rw [t1', hmp]
      exact hver
    rw [q1, q1', q2, q2', Option.map_some, Option.map_some, et, e0, e1, hx0, hp0, hsd, h.part0, h.part1]
    refine ⟨rfl, ?_⟩
    exact congrArg (fun v => some (Prio3Share.mk v _)) hv1

/-- The helper's view. -/
theorem helper_same {n c b b' rand : Nat} (hc : 1 ≤ c) (hl : wireLog n c ≤ 66) {nonce vk : Block}
    {x x' : List Field128} {k : Nat → Block} (hx : encodeMeasurement n b = some x) (hx' : encodeMeasurement n b' = some x')
    (hk : k = fun i => Block.ofList (((natLE 80 rand).drop (16 * i)).take 16)) {X Y : Prio3Xof}
    (h : LeaderMoved n c nonce vk k x x' X Y) :
    ∃ pub in0 in0' in1, X.shard n c b nonce rand = some (pub, in0, in1) ∧
      Y.shard n c b' nonce rand = some (pub, in0', in1) ∧
      Y.prepare n c 1 vk nonce pub in1 = X.prepare n c 1 vk nonce pub in1 ∧
      (Y.prepare n c 0 vk nonce pub in0').map Prod.snd
        = (X.prepare n c 0 vk nonce pub in0).map Prod.snd := by
  have lx := (encodeMeasurement_length hx).1
  have lx' := (encodeMeasurement_length hx').1
  obtain ⟨pub, in0, in1, hs, hm⟩ := shard_of (X := X) (c := c) (nonce := nonce) hx hk
  obtain ⟨pub', in0', in1', hs', hm'⟩ :=
    shard_of (X := Y) (c := c) (nonce := nonce) hx' hk
  have hpub : pub' = pub := by rw [hm'.pub_eq, hm.pub_eq, h.meas, h.part0, h.part1]
  have hin1 : in1' = in1 := by rw [hm'.in1_eq, hm.in1_eq]
  subst hpub hin1
  refine ⟨pub', in0, in0', in1', hs, hs', ?_⟩
  by_cases ht : tOf nonce vk X ^ wireLen n c = 1
  · have ht' : tOf nonce vk Y ^ wireLen n c = 1 := by rw [h.query]; exact ht
    simp only [prepare_bad _ _ ht, prepare_bad _ _ ht', and_self, Option.map_none]
  · have ht' : tOf nonce vk Y ^ wireLen n c ≠ 1 := by rw [h.query]; exact ht
    have hsd := ml_seed h
    have q1 := hm.leader ht rfl rfl (seed := seedOf n nonce k X x) rfl
    have q1' := hm'.leader ht' rfl rfl (seed := seedOf n nonce k Y x') rfl
    have q2 := hm.helper ht hm.in1_eq rfl rfl (seed := seedOf n nonce k X x) rfl
    have q2' := hm'.helper ht' hm'.in1_eq rfl rfl (seed := seedOf n nonce k Y x') rfl
    have et := h.query
    have e0 := ml_r0 h
    have e1 := ml_r1 h
    unfold tOf at et; unfold r0Of at e0; unfold r1Of at e1
    have hver := shifted_verifier hc hl (pr := prOf c k X) (t := tOf nonce vk X) (r0 := r0Of n nonce k X x)
      (r1 := r1Of n nonce k X x) lx lx' (by simp [prOf]) (histogramCheck_oneHot (oneHot_iff.2 ⟨b, hx⟩) _ _)
      (histogramCheck_oneHot (oneHot_iff.2 ⟨b', hx'⟩) _ _) ht
    have t1 := hm.total (tOf nonce vk X) (r0Of n nonce k X x) (r1Of n nonce k X x)
    have t1' := hm'.total (tOf nonce vk X) (r0Of n nonce k X x) (r1Of n nonce k X x)
    have hmp := ml_proof h
    rw [h.meas, h.proof] at t1'
    have hv0 : histVer n c (vecSub x' (X.helperMeasurement n (k 0)))
          (vecSub (madeProof n c nonce k Y x')
            (X.helperProof (histProofLen n c) (k 1))) (tOf nonce vk X)
          (r0Of n nonce k X x) (r1Of n nonce k X x) ((2 : Nat) : Field128)⁻¹
        = histVer n c (vecSub x (X.helperMeasurement n (k 0)))
          (vecSub (madeProof n c nonce k X x) (X.helperProof (histProofLen n c) (k 1))) (tOf nonce vk X)
          (r0Of n nonce k X x) (r1Of n nonce k X x) ((2 : Nat) : Field128)⁻¹ := by
      refine addShares_cancel' (a := histVer n c (X.helperMeasurement n (k 0))
        (X.helperProof (histProofLen n c) (k 1)) (tOf nonce vk X)
        (r0Of n nonce k X x) (r1Of n nonce k X x) ((2 : Nat) : Field128)⁻¹) (by simp only [histVer_length])
        (by simp only [histVer_length]) ?_
      rw [t1, t1', hmp]
      exact hver
    rw [q1, q1', q2, q2', Option.map_some, Option.map_some, et, e0, e1, h.meas, h.proof, hsd, h.part0, h.part1]
    refine ⟨rfl, ?_⟩
    exact congrArg (fun v => some (Prio3Share.mk v _)) hv0

end Mastic
