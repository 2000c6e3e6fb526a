import Verif.Spec.Metrics

/-!
# What the test programs of the repository should compute
-/

namespace Mastic.Spec

/-- The bits of a string, least significant bit of each byte first. -/
def textBits (s : List Byte) : List Bool :=
  s.flatMap fun b => (List.range 8).map fun i => b.toNat.testBit i

/-- The buckets of the holders of a string. -/
def bucketsOf (clients : List (List Byte × Nat)) (s : List Byte) : List Nat :=
  (clients.filter fun c => decide (c.1 = s)).map Prod.snd

/-- The number of clients whose bits start with `p`. -/
def startingWith (clients : List (List Byte × Nat)) (p : List Bool) : Nat :=
  clients.countP fun c => p.isPrefixOf (textBits c.1)

end Mastic.Spec
