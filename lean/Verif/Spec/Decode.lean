import Verif.Model.Wire

/-!
# Specification: the size of what a server stores
-/

namespace Mastic.Spec

/-- The size of the stored reports, as they would be sent. -/
def storedBytes (reports : List (Bool × ReportShare)) : Nat :=
  (reports.map fun br => ((Codec.reportShare .varint).enc br.2).length).sum

end Mastic.Spec
