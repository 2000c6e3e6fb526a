import Verif.Model.Configs

/-!
# Specification: the files in `src/configs` with other batch sizes
-/

namespace Mastic.Spec

/-- A file in which the two batch sizes have been changed, as artifact/README.md:324-336 advises. -/
def rebatched (f : FileConfig) (a q : Nat) : FileConfig := { f with addBatch := a, queryBatch := q }

end Mastic.Spec
