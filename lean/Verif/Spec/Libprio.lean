import Verif.Spec.Forge
import Verif.Model.Libprio

/-!
# Specifications for the proof system
-/

namespace Mastic.Spec

/-- Two servers with shares `b0`, `b1` of a vector and `p0`, `p1` of a proof accept: both queries succeed and the sum of
the verifier shares is accepted.  `n` buckets, chunk length `c`, query randomness `t`, joint randomness `r0`, `r1`. -/
def Accepts (n c : Nat) (b0 b1 p0 p1 : List Field128) (t r0 r1 : Field128) : Prop :=
  ∃ v0 v1, histQuery n c b0 p0 [t] [r0, r1] 2 = some v0 ∧ histQuery n c b1 p1 [t] [r0, r1] 2 = some v1 ∧
    histDecide c (addShares v0 v1) = some true

/-- `a` and `b` are additive shares of `x`. -/
def Shares (x a b : List Field128) : Prop := a.length = x.length ∧ b.length = x.length ∧ addShares a b = x

/-- The number of points at which the circuit is interpolated: the least power of two above the number of chunks. -/
def points (n c : Nat) : Nat := 2 ^ Nat.clog 2 ((n + c - 1) / c + 1)

end Mastic.Spec
