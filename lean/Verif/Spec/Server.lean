import Verif.Spec.Collect
import Verif.Model.Server

/-!
# Specifications for server histories
-/

namespace Mastic.Spec

/-- A collection state some request history leads to. -/
def Reachable (P : Prims) (cfg : ServerCfg) (buckets : Nat) (kc : KeyCollection P) : Prop :=
  ∃ reqs, (Server.run cfg (Server.start P cfg buckets) reqs).1 = .running kc

/-- The requests that start a new session or a new tree. -/
def isReset : Req → Bool
  | .reset .. => true
  | _ => false

/-- `tree_init`. -/
def isTreeInit : Req → Bool
  | .treeInit => true
  | _ => false

/-- How the report list may change within one session: reports stay where they are, new ones are
appended, and an excluded client stays excluded. -/
def Evolves (old new : List (Bool × ReportShare)) : Prop :=
  old.map Prod.snd <+: new.map Prod.snd ∧
  ∀ (i : Nat) (r : ReportShare), old[i]? = some (false, r) → new[i]? = some (false, r)

end Mastic.Spec

namespace Mastic.Spec

/-- Two servers receive matching requests: the same request, except that each gets its own shares (in
equal number) and, in plain metrics, the other one's preparation shares. -/
inductive Matching : Req → Req → Prop
  | same (r : Req) : Matching r r
  | upload (a b : List ReportShare) (h : a.length = b.length) :
      Matching (.addReportShares a) (.addReportShares b)
  | peers (a b : List (List Byte)) (s e : Nat) : Matching (.pmResult a s e) (.pmResult b s e)

/-- What the driver relies on when it combines the two answers to matching requests. -/
def Consistent : Resp → Resp → Prop
  | .done, .done => True
  | .crawl a, .crawl b => a.cntValues.length = b.cntValues.length ∧ a.indices = b.indices ∧
      a.roots.length = a.indices.length ∧ b.roots.length = b.indices.length
  | .fieldVecs a, .fieldVecs b => a.length = b.length
  | .proofs a, .proofs b => a.length = b.length
  | .shares a, .shares b => a.map HHResult.path = b.map HHResult.path
  | .validated a, .validated b => a.length = b.length
  | .bytes a, .bytes b => a.length = b.length
  | .aggregate .., .aggregate .. => True
  | _, _ => False

end Mastic.Spec

namespace Mastic.Spec

/-- There is a list of pairs of matching requests, all satisfying `Q`, which takes the two servers (each
its own component) from the states `kcs` to the states `kcs'`, with every request answered. -/
def Serves (P : Prims) (c0 c1 : ServerCfg) (Q : Req → Prop) (kcs kcs' : KeyCollection P × KeyCollection P) :
    Prop :=
  ∃ (script : List (Req × Req)) (a0 a1 : List Resp), (∀ rr ∈ script, Matching rr.1 rr.2 ∧ Q rr.1) ∧
    Server.run c0 (.running kcs.1) (script.map Prod.fst) = (.running kcs'.1, a0.map .ok) ∧
    Server.run c1 (.running kcs.2) (script.map Prod.snd) = (.running kcs'.2, a1.map .ok)

/-- The requests of a weighted-heavy-hitters run after the upload. -/
def isWhh : Req → Prop
  | .treeInit | .treeCrawl .. | .runFlpQueries .. | .applyFlpResults .. | .treeCrawlLast | .getProofs ..
  | .treePrune .. | .finalShares => True
  | _ => False

/-- The requests of an attribute-based-metrics run after the upload. -/
def isAbm : Req → Prop
  | .abmValidate .. | .abmResult .. => True
  | _ => False

/-- The requests of a plain-metrics run after the upload. -/
def isPm : Req → Prop
  | .pmValidate .. | .pmResult .. => True
  | _ => False

end Mastic.Spec
