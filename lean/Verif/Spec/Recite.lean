import Verif.Spec.Deviate
import Verif.Model.System

/-!
# What a server that makes up its answers aims at
-/

namespace Mastic

namespace Spec

/-- The number of clients whose string begins with `p`. -/
def holding (strings : List (List Bool)) (p : List Bool) : Nat := strings.countP fun s => p.isPrefixOf s

/-- The result that the driver ends with, and what it prints: the entries with a weight in the last bucket. -/
def endsWith (n : Nat) (entries : List (List Bool × List Field128)) : Shown :=
  .whh (entries.map fun e => ⟨e.1, e.2⟩) ((entries.filter fun e => e.2[n - 1]? ≠ some 0).map fun e => ⟨e.1, e.2⟩)

end Spec

end Mastic
