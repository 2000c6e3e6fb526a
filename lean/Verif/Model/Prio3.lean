import Verif.Model.Libprio
import Verif.Model.Wire

/-!
# The scheme behind plain metrics

`Prio3::new_histogram(2, ..)` of libprio 0.15.3, which the driver calls to make plain-metrics reports
(`src/bin/driver.rs:196-207`) and to add up the results (`src/bin/driver.rs:622, 668`), and the servers to prepare them
(`src/bin/server.rs:236-266, 286-316`).  Everywhere else it is a group of fields of `Prims`; here it is written out as
libprio's `vdaf/prio3.rs` and VDAF draft 08, section 7.2, define it, so that what the other modules assume of it can be
proved.  The source of libprio is not in the repository.  The extendable output function stays abstract.
-/

namespace Mastic

/-- `XofShake128` with the domain separation tags of Prio3: usage, seed and binder, and either the position in the stream
of field elements or the first 16 bytes.
libprio, external; reached through `src/bin/server.rs:243-262`. -/
structure Prio3Xof where
  field : Nat → Block → List Byte → Nat → Field128
  seed : Nat → Block → List Byte → Block

/-- `Prng::from_seed_stream(..).take(len)`.
libprio, external; reached through `src/bin/server.rs:243-262`. -/
def Prio3Xof.vec (X : Prio3Xof) (usage : Nat) (seed : Block) (binder : List Byte) (len : Nat) : List Field128 :=
  (List.range len).map (X.field usage seed binder)

/-- The usages `DST_MEASUREMENT_SHARE`, `DST_PROOF_SHARE`, `DST_JOINT_RANDOMNESS`, `DST_PROVE_RANDOMNESS`,
`DST_QUERY_RANDOMNESS`, `DST_JOINT_RAND_SEED`, `DST_JOINT_RAND_PART`.
libprio, external; reached through `src/bin/server.rs:243-262`. -/
def dstMeasurement : Nat := 1
@[inherit_doc dstMeasurement] def dstProof : Nat := 2
@[inherit_doc dstMeasurement] def dstJointRand : Nat := 3
@[inherit_doc dstMeasurement] def dstProveRand : Nat := 4
@[inherit_doc dstMeasurement] def dstQueryRand : Nat := 5
@[inherit_doc dstMeasurement] def dstJointSeed : Nat := 6
@[inherit_doc dstMeasurement] def dstJointPart : Nat := 7

/-- `decode_fieldvec`: `m` field elements of 16 bytes from the front; each must be below the modulus.
libprio, external; reached through `src/bin/server.rs:243-262`. -/
def readFields : Nat → List Byte → Option (List Field128 × List Byte)
  | 0, l => some ([], l)
  | m + 1, l =>
    (Codec.readLE 16 l).bind fun p =>
      if p.1 < fieldModulus then (readFields m p.2).map fun q => ((p.1 : Field128) :: q.1, q.2) else none

/-- `Seed::decode`. libprio, external; `src/bin/server.rs:250-253`. -/
def readSeed (l : List Byte) : Option (Block × List Byte) := (Codec.takeBytes 16 l).map fun p => (Block.ofList p.1, p.2)

/-- `get_decoded_with_param`: no bytes may be left over.
libprio, external; reached through `src/bin/server.rs:243-262`. -/
def atEnd {α : Type} (p : α × List Byte) : Option α := if p.2 = [] then some p.1 else none

/-- `Prio3PrepareState`: the measurement share, the seed of the joint randomness this server used, the length of the
verifier share.  libprio keeps the seed of the helper's measurement share instead and expands it again at the end.
libprio, external; `src/bin/server.rs:255`. -/
structure Prio3State where
  share : List Field128
  jointSeed : Block
  verifierLen : Nat
  deriving DecidableEq

/-- `Prio3PrepareShare`. libprio, external; reached through `src/bin/server.rs:243-262`. -/
structure Prio3Share where
  verifier : List Field128
  part : Block
  deriving DecidableEq

namespace Prio3Xof

variable (X : Prio3Xof)

/-- The helper's measurement share.
libprio, external; reached through `src/bin/server.rs:243-262`. -/
def helperMeasurement (n : Nat) (seed : Block) : List Field128 := X.vec dstMeasurement seed [1#8] n

/-- The helper's share of a proof of `len` elements.
libprio, external; reached through `src/bin/server.rs:243-262`. -/
def helperProof (len : Nat) (seed : Block) : List Field128 := X.vec dstProof seed [1#8] len

/-- A server's part of the joint randomness: blind, aggregator id, nonce, measurement share.
libprio, external; reached through `src/bin/server.rs:243-262`. -/
def jointPart (blind : Block) (aggId : Nat) (nonce : Block) (share : List Field128) : Block :=
  X.seed dstJointPart blind (BitVec.ofNat 8 aggId :: (nonce.toList ++ encodeFields share))

/-- `derive_joint_rand_seed`. libprio, external; reached through `src/bin/server.rs:243-262`. -/
def jointSeed (part0 part1 : Block) : Block := X.seed dstJointSeed Block.zero (part0.toList ++ part1.toList)

/-- The joint randomness from its seed; a histogram needs two elements.
libprio, external; reached through `src/bin/server.rs:243-262`. -/
def jointRand (seed : Block) : List Field128 := X.vec dstJointRand seed [] 2

/-- The query randomness; a histogram needs one element.
libprio, external; reached through `src/bin/server.rs:243-262`. -/
def queryRand (verifyKey nonce : Block) : List Field128 := X.vec dstQueryRand verifyKey nonce.toList 1

/-- `Prio3::shard_with_random` and the encodings of its results, for `n` buckets and chunk length `c`; the randomness is
five seeds of 16 bytes: helper's measurement, proof and blind, leader's blind, prover.  Public share, leader's and helper's
input share. libprio, external; `src/bin/driver.rs:200`. -/
def shard (n c bucket : Nat) (nonce : Block) (rand : Nat) : Option (List Byte × List Byte × List Byte) :=
  let seeds := fun k => Block.ofList (((natLE 80 rand).drop (16 * k)).take 16)
  (encodeMeasurement n bucket).bind fun x =>
    let x1 := X.helperMeasurement n (seeds 0)
    let x0 := vecSub x x1
    let part1 := X.jointPart (seeds 2) 1 nonce x1
    let part0 := X.jointPart (seeds 3) 0 nonce x0
    (histProve n c x (X.vec dstProveRand (seeds 4) [] (2 * c)) (X.jointRand (X.jointSeed part0 part1))).map fun proof =>
      let p0 := vecSub proof (X.helperProof (histProofLen n c) (seeds 1))
      (part0.toList ++ part1.toList, encodeFields x0 ++ (encodeFields p0 ++ (seeds 3).toList),
        (seeds 0).toList ++ ((seeds 1).toList ++ (seeds 2).toList))

/-- `Prio3PublicShare::get_decoded_with_param`: the two parts.
libprio, external; `src/bin/server.rs:250`. -/
def readPublic (l : List Byte) : Option (Block × Block) :=
  (readSeed l).bind fun p => (readSeed p.2).bind fun q => atEnd ((p.1, q.1), q.2)

/-- `Prio3InputShare::get_decoded_with_param`, and the expansion of the helper's seeds at the beginning of `prepare_init`:
measurement share, proof share, blind.  Aggregator ids from 2 on are an error.
libprio, external; `src/bin/server.rs:252`. -/
def readInput (n c aggId : Nat) (l : List Byte) : Option (List Field128 × List Field128 × Block) :=
  match aggId with
  | 0 => (readFields n l).bind fun x => (readFields (histProofLen n c) x.2).bind fun p => (readSeed p.2).bind fun b =>
      atEnd ((x.1, p.1, b.1), b.2)
  | 1 => (readSeed l).bind fun x => (readSeed x.2).bind fun p => (readSeed p.2).bind fun b =>
      atEnd ((X.helperMeasurement n x.1, X.helperProof (histProofLen n c) p.1, b.1), b.2)
  | _ => none

/-- `Prio3::prepare_init` after decoding: the server computes its own part of the joint randomness and takes the other
one from the public share. libprio, external; `src/bin/server.rs:255-264`. -/
def prepare (n c aggId : Nat) (vk nonce : Block) (pub inp : List Byte) : Option (Prio3State × Prio3Share) :=
  (readPublic pub).bind fun parts => (X.readInput n c aggId inp).bind fun (x, proof, blind) =>
    let own := X.jointPart blind aggId nonce x
    let seed := if aggId = 0 then X.jointSeed own parts.2 else X.jointSeed parts.1 own
    (histQuery n c x proof (X.queryRand vk nonce) (X.jointRand seed) 2).map fun v => (⟨x, seed, v.length⟩, ⟨v, own⟩)

/-- `Prio3::prepare_shares_to_prepare_message`, encoded: the proof is decided, and the seed of the joint randomness
follows from the parts in the preparation shares.
libprio, external; `src/bin/server.rs:303`. -/
def combine (c : Nat) (l h : Prio3Share) : Option (List Byte) :=
  if l.verifier.length = 2 * c + 2 ∧ h.verifier.length = 2 * c + 2
      ∧ histDecide c (List.zipWith (· + ·) l.verifier h.verifier) = some true then
    some (X.jointSeed l.part h.part).toList else none

end Prio3Xof

/-- `Prio3::prepare_next`: the seed must be the one this server used; the output share is the measurement share.
libprio, external; `src/bin/server.rs:307`. -/
def prio3Next (st : Prio3State) (msg : List Byte) : Option (List Field128) :=
  if st.jointSeed.toList = msg then some st.share else none

/-- `Prio3PrepareShare::get_encoded`. libprio, external; `src/bin/server.rs:271`. -/
def prio3EncodeShare (sh : Prio3Share) : List Byte := encodeFields sh.verifier ++ sh.part.toList

/-- `Prio3PrepareShare::get_decoded_with_param`: the state says how many elements to expect.
libprio, external; `src/bin/server.rs:295`. -/
def prio3DecodeShare (st : Prio3State) (l : List Byte) : Option Prio3Share :=
  (readFields st.verifierLen l).bind fun v => (readSeed v.2).bind fun p => atEnd (⟨v.1, p.1⟩, p.2)

/-- `Prio3::unshard` and `Histogram::decode_result`: the aggregate shares must have the right length.
libprio, external; `src/bin/driver.rs:668-674`. -/
def prio3Result (n : Nat) (a b : List Field128) : Option (List Nat) :=
  if a.length = n ∧ b.length = n then some ((List.zipWith (· + ·) a b).map ZMod.val) else none

/-- The given primitives with libprio's Prio3, whose chunk length in plain metrics is the square root of the number of
buckets (`src/lib.rs:24-33`). -/
def Prims.withPrio3 (P : Prims) (X : Prio3Xof) : Prims :=
  { P with
    PrepState := Prio3State
    PrepShare := Prio3Share
    prepInit := fun n => X.prepare n (histogramChunkLength n .plainMetrics)
    prepEncode := prio3EncodeShare
    prepDecode := prio3DecodeShare
    prepCombine := fun n => X.combine (histogramChunkLength n .plainMetrics)
    prepNext := fun _ => prio3Next
    prio3Shard := fun n => X.shard n (histogramChunkLength n .plainMetrics)
    prio3Unshard := fun n a b _ => prio3Result n a b }

end Mastic
