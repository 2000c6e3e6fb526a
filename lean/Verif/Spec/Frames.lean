import Verif.Spec.Lengths

/-!
# Specification: messages that fit into frames, by their lengths alone
-/

namespace Mastic.Spec

/-- All messages with these lengths can be sent over the connection. -/
def inFrames (net : Net) (lens : List (Nat × Nat)) : Prop :=
  ∀ x ∈ lens, net.reqExtra + x.1 ≤ net.limit ∧ net.respExtra + x.2 ≤ net.limit

/-- A connection with tokio's frame limit on which tarpc adds at most 1000 bytes to a message. -/
def plainNet (net : Net) : Prop := net.limit = maxFrame ∧ net.reqExtra ≤ 1000 ∧ net.respExtra ≤ 1000

end Mastic.Spec
