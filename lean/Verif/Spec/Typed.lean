import Verif.Spec.Wire

/-!
# Specification: runs whose messages are values of the Rust types
-/

namespace Mastic.Spec

/-- All requests of the run on values, and all answers to them, are values of the Rust types. -/
def runTyped {P : Prims} {α : Type} (c0 c1 : ServerCfg) : Prog α → Server P × Server P → Bool
  | .ret _, _ => true
  | .panic _, _ => true
  | .ask r0 r1 k, s => reqFits r0 && reqFits r1 &&
      match (s.1.handle c0 r0).2, (s.2.handle c1 r1).2 with
      | .ok a, .ok b => respFits a && respFits b &&
          runTyped c0 c1 (k a b) ((s.1.handle c0 r0).1, (s.2.handle c1 r1).1)
      | _, _ => true

end Mastic.Spec
