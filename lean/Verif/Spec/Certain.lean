import Verif.Spec.Main

/-!
# Specification: populations of honest clients
-/

namespace Mastic.Spec

/-- The draws of a run in which client `i` honestly uses report number `pick i`, and report `j` (counted from 0) is for the
string with the bits `bits j`; everything else is left as it is. -/
def population (draw : MainDraw) (pick : Nat → Nat) (bits : Nat → Nat → Bool) : MainDraw :=
  { draw with
    picks := fun i => (pick i, none)
    reports := fun j => { draw.reports j with bits := bits j } }

/-- How many prefixes of length `d - 2` the strings of `u` reports can have. -/
def room (u d : Nat) : Nat := min u (2 ^ (d - 2))

end Mastic.Spec
