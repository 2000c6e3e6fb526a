import Verif.Model.Prio3
import Verif.Lemmas.LibprioRun
import Verif.Lemmas.Wire
import Verif.Lemmas.Vec
import Verif.Lemmas.Prg
import Verif.Lemmas.Flp
import Verif.Spec.Metrics

/-!
# What Prio3 computes
-/

namespace Mastic

open Finset

/-! ### Encodings -/

theorem encodeFields_length (v : List Field128) : (encodeFields v).length = 16 * v.length := by
  unfold encodeFields
  induction v with
  | nil => rfl
  | cons x v ih => rw [List.map_cons, List.flatten_cons, List.length_append, ih, encodeField_length, List.length_cons]; omega

theorem readFields_encode : ∀ (v : List Field128) (rest : List Byte),
    readFields v.length (encodeFields v ++ rest) = some (v, rest)
  | [], rest => rfl
  | x :: v, rest => by
    have h : encodeFields (x :: v) ++ rest = natLE 16 x.val ++ (encodeFields v ++ rest) := by
      simp [encodeFields, encodeField]
    rw [List.length_cons, readFields, h,
      Codec.readLE_natLE (lt_trans (ZMod.val_lt x) (by decide)), Option.bind_some, if_pos (ZMod.val_lt x),
      readFields_encode v rest, Option.map_some, ZMod.natCast_zmod_val]

theorem readFields_length : ∀ {m : Nat} {l : List Byte} {q : List Field128 × List Byte}, readFields m l = some q →
    q.1.length = m
  | 0, l, q, h => by cases h; rfl
  | m + 1, l, q, h => by
    rw [readFields] at h
    obtain ⟨p, -, h⟩ := Option.bind_eq_some_iff.1 h
    split at h
    · obtain ⟨q', hq, rfl⟩ := Option.map_eq_some_iff.1 h
      rw [List.length_cons, readFields_length hq]
    · cases h

theorem readFields_some : ∀ {m : Nat} {l : List Byte} {q : List Field128 × List Byte}, readFields m l = some q →
    l = encodeFields q.1 ++ q.2
  | 0, l, q, h => by cases h; rfl
  | m + 1, l, q, h => by
    rw [readFields] at h
    obtain ⟨p, hp, h⟩ := Option.bind_eq_some_iff.1 h
    split at h
    · rename_i hlt
      obtain ⟨q', hq, rfl⟩ := Option.map_eq_some_iff.1 h
      unfold Codec.readLE Codec.takeBytes at hp
      split at hp
      · rename_i hl
        cases hp
        have h16 : natLE 16 (leNat (l.take 16)) = l.take 16 := by
          have := natLE_leNat (l.take 16)
          rwa [List.length_take, Nat.min_eq_left hl] at this
        have e : encodeFields (((leNat (l.take 16) : Nat) : Field128) :: q'.1) = l.take 16 ++ encodeFields q'.1 := by
          simp only [encodeFields, List.map_cons, List.flatten_cons, encodeField]
          rw [ZMod.val_cast_of_lt hlt, h16]
        simp only
        rw [e, List.append_assoc, ← readFields_some hq, List.take_append_drop]
      · cases hp
    · cases h

theorem readSeed_some {l : List Byte} {q : Block × List Byte} (h : readSeed l = some q) : l = q.1.toList ++ q.2 := by
  unfold readSeed Codec.takeBytes at h
  split at h
  · rename_i hl
    cases h
    simp only
    rw [Block.toList_ofList (by simp; omega), List.take_append_drop]
  · cases h

theorem readSeed_append (b : Block) (rest : List Byte) : readSeed (b.toList ++ rest) = some (b, rest) := by
  have := Codec.takeBytes_append b.toList rest
  rw [show b.toList.length = 16 by simp] at this
  rw [readSeed, this, Option.map_some, Block.ofList_toList]

theorem readSeed_toList (b : Block) : readSeed b.toList = some (b, []) := by
  simpa using readSeed_append b []

@[simp] theorem vec_length (X : Prio3Xof) (u : Nat) (s : Block) (b : List Byte) (len : Nat) :
    (X.vec u s b len).length = len := by simp [Prio3Xof.vec]

@[simp] theorem helperMeasurement_length (X : Prio3Xof) (n : Nat) (s : Block) : (X.helperMeasurement n s).length = n :=
  vec_length ..

@[simp] theorem helperProof_length (X : Prio3Xof) (n : Nat) (s : Block) : (X.helperProof n s).length = n :=
  vec_length ..

theorem readPublic_encode (a b : Block) : Prio3Xof.readPublic (a.toList ++ b.toList) = some (a, b) := by
  simp [Prio3Xof.readPublic, readSeed_append, readSeed_toList, atEnd]

theorem readInput_leader (X : Prio3Xof) {n c : Nat} {x p : List Field128} (hx : x.length = n)
    (hp : p.length = histProofLen n c) (b : Block) :
    X.readInput n c 0 (encodeFields x ++ (encodeFields p ++ b.toList)) = some (x, p, b) := by
  have h1 := readFields_encode x (encodeFields p ++ b.toList)
  have h2 := readFields_encode p b.toList
  rw [hx] at h1; rw [hp] at h2
  simp [Prio3Xof.readInput, h1, h2, readSeed_toList, atEnd]

theorem readInput_helper (X : Prio3Xof) (n c : Nat) (s q b : Block) :
    X.readInput n c 1 (s.toList ++ (q.toList ++ b.toList))
      = some (X.helperMeasurement n s, X.helperProof (histProofLen n c) q, b) := by
  simp [Prio3Xof.readInput, readSeed_append, readSeed_toList, atEnd]

theorem readInput_length {X : Prio3Xof} {n c id : Nat} {l : List Byte} {x p : List Field128} {b : Block}
    (h : X.readInput n c id l = some (x, p, b)) : x.length = n ∧ p.length = histProofLen n c := by
  unfold Prio3Xof.readInput at h
  split at h
  · obtain ⟨x', hx, h⟩ := Option.bind_eq_some_iff.1 h
    obtain ⟨p', hp, h⟩ := Option.bind_eq_some_iff.1 h
    obtain ⟨b', -, h⟩ := Option.bind_eq_some_iff.1 h
    unfold atEnd at h
    split at h
    · cases h; exact ⟨readFields_length hx, readFields_length hp⟩
    · cases h
  · obtain ⟨x', hx, h⟩ := Option.bind_eq_some_iff.1 h
    obtain ⟨p', hp, h⟩ := Option.bind_eq_some_iff.1 h
    obtain ⟨b', -, h⟩ := Option.bind_eq_some_iff.1 h
    unfold atEnd at h
    split at h
    · cases h; simp
    · cases h
  · cases h

theorem prio3Query_eq (X : Prio3Xof) (vk nonce : Block) :
    X.queryRand vk nonce = [X.field dstQueryRand vk nonce.toList 0] := rfl

theorem jointRand_eq (X : Prio3Xof) (s : Block) :
    X.jointRand s = [X.field dstJointRand s [] 0, X.field dstJointRand s [] 1] := rfl

/-- What a server knows of a report after preparing it. -/
theorem prepare_some {X : Prio3Xof} {n c id : Nat} {vk nonce : Block} {pub inp : List Byte}
    {st : Prio3State} {sh : Prio3Share} :
    X.prepare n c id vk nonce pub inp = some (st, sh) ↔
      ∃ (parts : Block × Block) (x p : List Field128) (b : Block),
      Prio3Xof.readPublic pub = some parts ∧ X.readInput n c id inp = some (x, p, b) ∧
      X.field dstQueryRand vk nonce.toList 0 ^ wireLen n c ≠ 1 ∧
      sh.part = X.jointPart b id nonce x ∧
      st.share = x ∧ st.jointSeed = (if id = 0 then X.jointSeed sh.part parts.2 else X.jointSeed parts.1 sh.part) ∧
      st.verifierLen = 2 * c + 2 ∧
      sh.verifier = histVer n c x p (X.field dstQueryRand vk nonce.toList 0) (X.field dstJointRand st.jointSeed [] 0)
        (X.field dstJointRand st.jointSeed [] 1) ((2 : Nat) : Field128)⁻¹ := by
  have hlen : ∀ x p t r0 r1 s, (histVer n c x p t r0 r1 s).length = 2 * c + 2 := by intros; simp [histVer]
  unfold Prio3Xof.prepare
  constructor
  · intro h
    obtain ⟨parts, hp, h⟩ := Option.bind_eq_some_iff.1 h
    obtain ⟨⟨x, p, b⟩, hi, h⟩ := Option.bind_eq_some_iff.1 h
    obtain ⟨v, hv, h⟩ := Option.map_eq_some_iff.1 h
    cases h
    rw [prio3Query_eq, jointRand_eq] at hv
    obtain ⟨-, -, ht, rfl⟩ := histQuery_some.1 hv
    exact ⟨parts, x, p, b, hp, hi, ht, rfl, rfl, rfl, by simp [histVer], rfl⟩
  · rintro ⟨parts, x, p, b, hp, hi, ht, h1, h2, h3, h4, h5⟩
    obtain ⟨hx, hpl⟩ := readInput_length hi
    rw [hp, Option.bind_some, hi, Option.bind_some]
    obtain ⟨share, js, vl⟩ := st
    obtain ⟨ver, part⟩ := sh
    simp only at h1 h2 h3 h4 h5
    subst h1; subst h2
    simp only
    rw [← h3, prio3Query_eq, jointRand_eq, histQuery_some.2 ⟨hx, hpl, ht, rfl⟩, Option.map_some, ← h5, h4]
    rw [h5, hlen]

theorem prepare_lens {X : Prio3Xof} {n c id : Nat} {vk nonce : Block} {pub inp : List Byte}
    {st : Prio3State} {sh : Prio3Share} (h : X.prepare n c id vk nonce pub inp = some (st, sh)) :
    st.share.length = n ∧ st.verifierLen = 2 * c + 2 ∧ sh.verifier.length = 2 * c + 2 := by
  obtain ⟨parts, x, p, b, -, hi, -, -, h2, -, h4, h5⟩ := prepare_some.1 h
  exact ⟨h2 ▸ (readInput_length hi).1, h4, by rw [h5]; simp [histVer]⟩

theorem decodeShare_encode {st : Prio3State} {sh : Prio3Share} (h : sh.verifier.length = st.verifierLen) :
    prio3DecodeShare st (prio3EncodeShare sh) = some sh := by
  have := readFields_encode sh.verifier sh.part.toList
  rw [h] at this
  simp [prio3DecodeShare, prio3EncodeShare, this, readSeed_toList, atEnd]

/-! ### Sharding -/

/-- What a client sends. -/
structure Prio3Made (X : Prio3Xof) (n c bucket : Nat) (nonce : Block) (pub in0 in1 : List Byte)
    (s q b1 b0 : Block) (x pr proof : List Field128) : Prop where
  enc : encodeMeasurement n bucket = some x
  prove : histProve n c x pr (X.jointRand (X.jointSeed (X.jointPart b0 0 nonce (vecSub x (X.helperMeasurement n s)))
    (X.jointPart b1 1 nonce (X.helperMeasurement n s)))) = some proof
  pub_eq : pub = (X.jointPart b0 0 nonce (vecSub x (X.helperMeasurement n s))).toList
    ++ (X.jointPart b1 1 nonce (X.helperMeasurement n s)).toList
  in0_eq : in0 = encodeFields (vecSub x (X.helperMeasurement n s))
    ++ (encodeFields (vecSub proof (X.helperProof (histProofLen n c) q)) ++ b0.toList)
  in1_eq : in1 = s.toList ++ (q.toList ++ b1.toList)

theorem shard_made {X : Prio3Xof} {n c bucket rand : Nat} {nonce : Block} {pub in0 in1 : List Byte}
    (h : X.shard n c bucket nonce rand = some (pub, in0, in1)) :
    ∃ s q b1 b0 x pr proof, Prio3Made X n c bucket nonce pub in0 in1 s q b1 b0 x pr proof := by
  unfold Prio3Xof.shard at h
  obtain ⟨x, hx, h⟩ := Option.bind_eq_some_iff.1 h
  obtain ⟨proof, hp, h⟩ := Option.map_eq_some_iff.1 h
  cases h
  exact ⟨_, _, _, _, x, _, proof, hx, hp, rfl, rfl, rfl⟩

theorem shard_isSome (X : Prio3Xof) (n c bucket : Nat) (nonce : Block) (rand : Nat) :
    (X.shard n c bucket nonce rand).isSome = decide (bucket < n) := by
  unfold Prio3Xof.shard
  by_cases hb : bucket < n
  · obtain ⟨x, hx⟩ : ∃ x, encodeMeasurement n bucket = some x := ⟨_, if_pos hb⟩
    have hxl := (encodeMeasurement_length hx).1
    rw [hx, Option.bind_some]
    dsimp only
    rw [jointRand_eq]
    rw [histProve_some.2 ⟨hxl, vec_length .., rfl⟩]
    simp [hb]
  · rw [show encodeMeasurement n bucket = none from if_neg hb]
    simp [hb]

theorem shares_sub {a b : List Field128} (h : a.length = b.length) : Spec.Shares a (vecSub a b) b := by
  refine ⟨by simp, h.symm, List.ext_getElem (by simp [Spec.addShares, h]) fun i h1 h2 => ?_⟩
  simp only [Spec.addShares, List.getElem_zipWith]
  rw [vecSub_getElem h2 (h ▸ h2), sub_add_cancel]

/-- The lengths and shares in a report. -/
theorem Prio3Made.shares {X : Prio3Xof} {n c bucket : Nat} {nonce : Block} {pub in0 in1 : List Byte}
    {s q b1 b0 : Block} {x pr proof : List Field128} (h : Prio3Made X n c bucket nonce pub in0 in1 s q b1 b0 x pr proof) :
    x.length = n ∧ proof.length = histProofLen n c ∧
    Spec.Shares x (vecSub x (X.helperMeasurement n s)) (X.helperMeasurement n s) ∧
    Spec.Shares proof (vecSub proof (X.helperProof (histProofLen n c) q)) (X.helperProof (histProofLen n c) q) := by
  have hx := (encodeMeasurement_length h.enc).1
  have hp := h.prove
  rw [jointRand_eq] at hp
  have hpl := proof_length hp
  exact ⟨hx, hpl, shares_sub (by simp [hx]), shares_sub (by simp [hpl])⟩

/-- The leader's preparation of a report. -/
theorem Prio3Made.leader {X : Prio3Xof} {n c bucket : Nat} {nonce : Block} {pub in0 in1 : List Byte}
    {s q b1 b0 : Block} {x pr proof : List Field128} (h : Prio3Made X n c bucket nonce pub in0 in1 s q b1 b0 x pr proof)
    {vk : Block} (ht : X.field dstQueryRand vk nonce.toList 0 ^ wireLen n c ≠ 1) {part0 part1 seed : Block}
    (h0 : part0 = X.jointPart b0 0 nonce (vecSub x (X.helperMeasurement n s)))
    (h1 : part1 = X.jointPart b1 1 nonce (X.helperMeasurement n s)) (hs : seed = X.jointSeed part0 part1) :
    X.prepare n c 0 vk nonce pub in0 = some (⟨vecSub x (X.helperMeasurement n s), seed, 2 * c + 2⟩,
      ⟨histVer n c (vecSub x (X.helperMeasurement n s)) (vecSub proof (X.helperProof (histProofLen n c) q))
        (X.field dstQueryRand vk nonce.toList 0) (X.field dstJointRand seed [] 0) (X.field dstJointRand seed [] 1)
        ((2 : Nat) : Field128)⁻¹, part0⟩) := by
  obtain ⟨hx, hp, hsx, hsp⟩ := h.shares
  refine prepare_some.2 ⟨(part0, part1), _, _, b0, ?_, ?_, ht, h0, rfl, ?_, rfl, rfl⟩
  · rw [h.pub_eq, readPublic_encode, ← h0, ← h1]
  · rw [h.in0_eq, readInput_leader X (by simp [hx]) (by simp [hp])]
  · rw [if_pos rfl]; exact hs

/-- The helper's preparation of a report whose measurement seed may have been changed. -/
theorem Prio3Made.helper {X : Prio3Xof} {n c bucket : Nat} {nonce : Block} {pub in0 in1 : List Byte}
    {s q b1 b0 : Block} {x pr proof : List Field128} (h : Prio3Made X n c bucket nonce pub in0 in1 s q b1 b0 x pr proof)
    {vk : Block} (ht : X.field dstQueryRand vk nonce.toList 0 ^ wireLen n c ≠ 1) {s' part0 part1 seed : Block}
    {inp : List Byte} (hinp : inp = s'.toList ++ (q.toList ++ b1.toList))
    (h0 : part0 = X.jointPart b0 0 nonce (vecSub x (X.helperMeasurement n s)))
    (h1 : part1 = X.jointPart b1 1 nonce (X.helperMeasurement n s')) (hs : seed = X.jointSeed part0 part1) :
    X.prepare n c 1 vk nonce pub inp = some (⟨X.helperMeasurement n s', seed, 2 * c + 2⟩,
      ⟨histVer n c (X.helperMeasurement n s') (X.helperProof (histProofLen n c) q)
        (X.field dstQueryRand vk nonce.toList 0) (X.field dstJointRand seed [] 0) (X.field dstJointRand seed [] 1)
        ((2 : Nat) : Field128)⁻¹, part1⟩) := by
  refine prepare_some.2 ⟨(part0, X.jointPart b1 1 nonce (X.helperMeasurement n s)), _, _, b1, ?_, ?_, ht, h1, rfl, ?_,
    rfl, rfl⟩
  · rw [h.pub_eq, readPublic_encode, ← h0]
  · rw [hinp, readInput_helper]
  · rw [if_neg (by decide)]; exact hs

theorem combine_some {X : Prio3Xof} {c : Nat} {l h : Prio3Share} {msg : List Byte} :
    X.combine c l h = some msg ↔ l.verifier.length = 2 * c + 2 ∧ h.verifier.length = 2 * c + 2 ∧
      histDecide c (Spec.addShares l.verifier h.verifier) = some true ∧ msg = (X.jointSeed l.part h.part).toList := by
  unfold Prio3Xof.combine
  split
  · next hc => rw [Option.some.injEq]; exact ⟨fun e => ⟨hc.1, hc.2.1, hc.2.2, e.symm⟩, fun e => e.2.2.2.symm⟩
  · next hc => exact ⟨fun e => absurd e (by simp), fun e => absurd ⟨e.1, e.2.1, e.2.2.1⟩ hc⟩

theorem prio3Next_some {st : Prio3State} {msg : List Byte} {o : List Field128} :
    prio3Next st msg = some o ↔ st.jointSeed.toList = msg ∧ o = st.share := by
  unfold prio3Next
  split
  · next h => rw [Option.some.injEq]; exact ⟨fun e => ⟨h, e.symm⟩, fun e => e.2.symm⟩
  · next h => exact ⟨fun e => absurd e (by simp), fun e => absurd e.1 h⟩

theorem toList_inj {a b : Block} : a.toList = b.toList ↔ a = b :=
  ⟨fun h => by rw [← Block.ofList_toList a, h, Block.ofList_toList], fun h => h ▸ rfl⟩

end Mastic
