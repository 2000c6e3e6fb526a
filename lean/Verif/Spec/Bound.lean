import Verif.Spec.Vidpf

/-!
# Specifications for what the checks do bind
-/

namespace Mastic.Spec

/-- The strings that leave the path `p` at one of its bits: a prefix of `p` followed by the other bit. -/
def siblings : List Bool → List (List Bool)
  | [] => []
  | b :: p => [!b] :: (siblings p).map (b :: ·)

/-- The sum of the first-level counters of a server. -/
def firstCounter (P : Prims) (n : Nat) (key : VidpfKey) : Option Field128 := do
  let a ← valueAt P key n [false]
  let b ← valueAt P key n [true]
  let x ← a[n]?
  let y ← b[n]?
  some (x + y)

end Mastic.Spec
