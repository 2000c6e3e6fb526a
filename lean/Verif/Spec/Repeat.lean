import Verif.Spec.Server

/-!
# Specification: requests that arrive twice
-/

namespace Mastic.Spec

/-- The requests that a server (of the given build, with the given frontier before the request) may receive a second
time without a difference. -/
def Repeats (bld : Build) (frontier : List TreeNode) : Req → Prop
  | .addReportShares rs => rs = []
  | .treeCrawl _ malicious _ => malicious ≠ []
  | .treeCrawlLast => frontier = []
  | .treePrune keep => false ∉ keep
  | .abmResult rejected _ _ _ => bld = .release ∨ rejected = []
  | .pmResult peers s e => e ≤ s ∨ peers = []
  | _ => True

/-- The requests that take something out of the state. -/
def takesOut : Req → Bool
  | .treePrune _ | .abmResult .. | .pmResult .. => true
  | _ => false

/-- The requests that only read. -/
def readsOnly : Req → Bool
  | .runFlpQueries .. | .getProofs .. | .finalShares => true
  | _ => false

end Mastic.Spec
