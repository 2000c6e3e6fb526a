import Verif.Spec.Prio3

/-!
# What one server sees of a plain-metrics report
-/

namespace Mastic.Spec

/-- Seed number `i` of the five that a client draws: helper's measurement, proof and blind, leader's blind, prover. -/
def clientSeed (rand i : Nat) : Block := Block.ofList (((natLE 80 rand).drop (16 * i)).take 16)

/-- All that the leader sees of a report: the public share, its input share, its own preparation, the helper's preparation
share and the preparation message. -/
def leaderView (P : Prims) (X : Prio3Xof) (n bucket rand : Nat) (nonce vk : Block) :
    Option (List Byte × List Byte × Option (Prio3State × Prio3Share) × Option Prio3Share × Option (List Byte)) :=
  ((P.withPrio3 X).prio3Shard n bucket nonce rand).map fun r =>
    let own : Option (Prio3State × Prio3Share) := (P.withPrio3 X).prepInit n 0 vk nonce r.1 r.2.1
    let other : Option (Prio3State × Prio3Share) := (P.withPrio3 X).prepInit n 1 vk nonce r.1 r.2.2
    (r.1, r.2.1, own, other.map Prod.snd,
      own.bind fun a => other.bind fun b => (P.withPrio3 X).prepCombine n a.2 b.2)

/-- All that the helper sees of a report. -/
def helperView (P : Prims) (X : Prio3Xof) (n bucket rand : Nat) (nonce vk : Block) :
    Option (List Byte × List Byte × Option (Prio3State × Prio3Share) × Option Prio3Share × Option (List Byte)) :=
  ((P.withPrio3 X).prio3Shard n bucket nonce rand).map fun r =>
    let own : Option (Prio3State × Prio3Share) := (P.withPrio3 X).prepInit n 1 vk nonce r.1 r.2.2
    let other : Option (Prio3State × Prio3Share) := (P.withPrio3 X).prepInit n 0 vk nonce r.1 r.2.1
    (r.1, r.2.2, own, other.map Prod.snd,
      other.bind fun a => own.bind fun b => (P.withPrio3 X).prepCombine n a.2 b.2)

/-- Random values that the leader does not know: the helper's share of the vector, the prover randomness, the helper's
share of the proof, the helper's part of the joint randomness. -/
abbrev HelperCoins (n c : Nat) : Type :=
  (Fin n → Field128) × (Fin (2 * c) → Field128) × (Fin (histProofLen n c) → Field128) × Block

/-- Random values that the helper does not know: the prover randomness and the leader's part of the joint randomness. -/
abbrev LeaderCoins (c : Nat) : Type := (Fin (2 * c) → Field128) × Block

/-- The extendable output function with such values as its answers to the client. -/
def setHelper (X : Prio3Xof) {n c : Nat} (nonce : Block) (k : Nat → Block) (w : HelperCoins n c) : Prio3Xof where
  field u s b j :=
    if h : u = 1 ∧ s = k 0 ∧ b = [1#8] ∧ j < n then w.1 ⟨j, h.2.2.2⟩
    else if h : u = 4 ∧ s = k 4 ∧ b = [] ∧ j < 2 * c then w.2.1 ⟨j, h.2.2.2⟩
    else if h : u = 2 ∧ s = k 1 ∧ b = [1#8] ∧ j < histProofLen n c then w.2.2.1 ⟨j, h.2.2.2⟩
    else X.field u s b j
  seed u s b :=
    if u = 7 ∧ s = k 2 ∧ b = 1#8 :: (nonce.toList ++ ((List.ofFn w.1).map encodeField).flatten) then w.2.2.2
    else X.seed u s b

/-- The extendable output function with such values as its answers to a client with the encoded bucket `x`. -/
def setLeader (X : Prio3Xof) {c : Nat} (n : Nat) (nonce : Block) (k : Nat → Block) (x : List Field128)
    (w : LeaderCoins c) : Prio3Xof where
  field u s b j :=
    if h : u = 4 ∧ s = k 4 ∧ b = [] ∧ j < 2 * c then w.1 ⟨j, h.2.2.2⟩ else X.field u s b j
  seed u s b :=
    if u = 7 ∧ s = k 3 ∧ b = 0#8 :: (nonce.toList
      ++ ((List.zipWith (· - ·) x ((List.range n).map (X.field 1 (k 0) [1#8]))).map encodeField).flatten) then w.2
    else X.seed u s b

/-- The encoded bucket. -/
def bucketVec (n bucket : Nat) : List Field128 := (List.range n).map fun i => if i = bucket then 1 else 0

end Mastic.Spec
