import Verif.Spec.Libprio
import Verif.Spec.Main
import Verif.Model.Prio3

/-!
# Specifications for Prio3
-/

namespace Mastic.Spec

/-- The point at which the servers query a proof. -/
def queryPoint (X : Prio3Xof) (vk nonce : Block) : Field128 := X.field 5 vk nonce.toList 0

/-- The last 16 bytes of an input share: the blind. -/
def blindOf (l : List Byte) : Block := Block.ofList (l.drop (l.length - 16))

/-- A server's part of the joint randomness: a hash of blind, server id, nonce and measurement share. -/
def partOf (X : Prio3Xof) (nonce : Block) (id : Byte) (blind : Block) (x : List Field128) : Block :=
  X.seed 7 blind (id :: (nonce.toList ++ (x.map encodeField).flatten))

/-- The seed of the joint randomness: a hash of the leader's and the helper's part. -/
def seedOf (X : Prio3Xof) (part0 part1 : Block) : Block := X.seed 6 Block.zero (part0.toList ++ part1.toList)

/-- The seed of the joint randomness that belongs to the shares the servers hold. -/
def jointSeedOf (X : Prio3Xof) (nonce b0 b1 : Block) (x0 x1 : List Field128) : Block :=
  seedOf X (partOf X nonce 0#8 b0 x0) (partOf X nonce 1#8 b1 x1)

/-- The seed the leader uses: it takes the helper's part from the public share. -/
def leaderSeed (X : Prio3Xof) (nonce : Block) (pub : List Byte) (b0 : Block) (x0 : List Field128) : Block :=
  seedOf X (partOf X nonce 0#8 b0 x0) (Block.ofList (pub.drop 16))

/-- The seed the helper uses: it takes the leader's part from the public share. -/
def helperSeed (X : Prio3Xof) (nonce : Block) (pub : List Byte) (b1 : Block) (x1 : List Field128) : Block :=
  seedOf X (Block.ofList (pub.take 16)) (partOf X nonce 1#8 b1 x1)

/-- The extendable output function with one element of the joint randomness for `seed` replaced. -/
def setJoint (X : Prio3Xof) (seed : Block) (i : Nat) (v : Field128) : Prio3Xof :=
  { X with field := fun u s b j => if u = 3 ∧ s = seed ∧ b = [] ∧ j = i then v else X.field u s b j }

/-- The extendable output function with the query point for a verify key and nonce replaced. -/
def setQuery (X : Prio3Xof) (vk nonce : Block) (t : Field128) : Prio3Xof :=
  { X with field := fun u s b j => if u = 5 ∧ s = vk ∧ b = nonce.toList ∧ j = 0 then t else X.field u s b j }

/-- The chunk length of plain metrics. -/
def chunk (n : Nat) : Nat := n.sqrt

/-- The output of the circuit on one server's shares of a vector and a proof: the sum of the gadget polynomial at the
points of the calls and the defect of the sum of the vector, weighted with the joint randomness. -/
def circuitShare (n c : Nat) (x proof : List Field128) (r : Field128) : Field128 :=
  r * (∑ k ∈ Finset.range ((n + c - 1) / c), polyEval (proof.drop (2 * c)) (fieldRoot (Nat.clog 2 (points n c)) ^ (k + 1)))
    + r * r * (x.sum - 2⁻¹)

/-- No client of the run whose input share has its first bit flipped is lucky: the circuit's outputs on the two servers'
shares, with the joint randomness each of them uses, do not cancel. -/
def FlipsUnlucky (P : Prims) (X : Prio3Xof) (n : Nat) (draw : MainDraw) (num : Nat) : Prop :=
  ∀ (i : Nat) (nonce : Block) (pub in0 bs : List Byte) (b : Byte) (x0 p0 x1 p1 : List Field128) (seed0 seed1 : Block),
    i < num → (draw.picks i).2.isSome →
    genPrio3Report (P.withPrio3 X) n ((MainDraw.of draw i).bucket % n) (MainDraw.of draw i).rand.nonce
      (MainDraw.of draw i).prio3 = .ok (.prio3 nonce pub (in0, b :: bs)) →
    X.readInput n (chunk n) 0 in0 = some (x0, p0, blindOf in0) →
    X.readInput n (chunk n) 1 ((b ^^^ 1) :: bs) = some (x1, p1, blindOf bs) →
    seed0 = leaderSeed X nonce pub (blindOf in0) x0 → seed1 = helperSeed X nonce pub (blindOf bs) x1 →
    circuitShare n (chunk n) x0 p0 (X.field 3 seed0 [] 1) + circuitShare n (chunk n) x1 p1 (X.field 3 seed1 [] 1) ≠ 0

end Mastic.Spec
