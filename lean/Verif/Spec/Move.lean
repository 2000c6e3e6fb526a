import Verif.Spec.Weights
import Verif.Spec.Abm

/-!
# Specification: moving weight between two sibling strings
-/

namespace Mastic.Spec

/-- `p` is the string that leaves `alpha` at bit `l`: the first `l` bits are those of `alpha`, the last one is not. -/
def LeavesAt (alpha : List Bool) (l : Nat) (p : List Bool) : Prop :=
  p.length = l + 1 ∧ p.take l <+: alpha ∧ ¬ p <+: alpha

instance (alpha : List Bool) (l : Nat) (p : List Bool) : Decidable (LeavesAt alpha l p) := by
  unfold LeavesAt; infer_instance

/-- What is added to the value a report shares at `p` when `e` moves from the string that leaves `alpha` at bit `l` to
the prefixes of `alpha` longer than `l`. -/
def movedAt (alpha : List Bool) (l : Nat) (e : List Field128) (p : List Bool) : List Field128 :=
  if p <+: alpha ∧ l < p.length then e else if LeavesAt alpha l p then e.map fun x => -x else e.map fun _ => 0

/-- What an attribute-based-metrics run prints for a list of honest clients below `stop`, if the report in position
`i` adds `x p` to the histogram of every attribute `p`. -/
def movedHistograms (n : Nat) (attrs : List (List Bool)) (clients : List (List Bool × Nat)) (i stop : Nat)
    (x : List Bool → List Field128) : List (List Field128) :=
  attrs.map fun p => (List.range n).map fun c =>
    (((clients.take stop).countP fun cl => p.isPrefixOf cl.1 && cl.2 == c : Nat) : Field128)
      + if i < stop then (x p).getD c 0 else 0

end Mastic.Spec
