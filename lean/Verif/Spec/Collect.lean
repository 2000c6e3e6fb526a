import Verif.Spec.Vidpf
import Verif.Model.Collect

/-!
# Specifications for the collection (`src/collect.rs`)

Written without the model's helpers.
-/

namespace Mastic.Spec

/-- The elements whose flag is `true`, in order. -/
def select {α : Type} (keep : List Bool) (l : List α) : List α :=
  (l.zip keep).filterMap fun p => if p.2 then some p.1 else none

/-- The byte strings hashed for one layer of a Merkle tree: neighbours are concatenated, an unpaired
last node is promoted without hashing. -/
def layerInputs : List Block → List (List Byte)
  | a :: b :: rest => (a.toList ++ b.toList) :: layerInputs rest
  | _ => []

/-- The next layer. -/
def nextLayer (hash : List Byte → Block) : List Block → List Block
  | a :: b :: rest => hash (a.toList ++ b.toList) :: nextLayer hash rest
  | l => l

/-- All byte strings hashed while computing the root of `leaves` (`fuel` bounds the number of
layers). -/
def hashedInputs (hash : List Byte → Block) : Nat → List Block → List (List Byte)
  | 0, _ => []
  | fuel + 1, l => layerInputs l ++ hashedInputs hash fuel (nextLayer hash l)

/-- All inputs hashed for the root of `leaves`. -/
def merkleInputs (P : Prims) (leaves : List Block) : List (List Byte) :=
  hashedInputs (fun d => first16 (P.blake3 d)) leaves.length leaves

/-- The list of the reports that are marked included, with their positions. -/
def included (reports : List (Bool × ReportShare)) : List (Nat × ReportShare) :=
  reports.zipIdx.filterMap fun r => if r.1.1 then some (r.2, r.1.2) else none

/-- The VIDPF key of a Mastic report. -/
def keyOf : ReportShare → Option VidpfKey
  | .mastic _ k _ _ => some k
  | .prio3 .. => none

end Mastic.Spec

namespace Mastic.Spec

/-- A frontier node is exact for a list of reports: for every report, in order, it holds the state and
the value share obtained by evaluating that report's key directly at the node's path (the root holds
the placeholder value `[0]`). -/
def NodeExact (P : Prims) (inputLen : Nat) (reports : List ReportShare) (node : TreeNode) : Prop :=
  node.keyStates.length = reports.length ∧ node.keyValues.length = reports.length ∧
  ∀ (i : Nat) (r : ReportShare), reports[i]? = some r → ∃ key st w, keyOf r = some key ∧
    evalPath P key inputLen node.path = .ok (st, w) ∧ node.keyStates[i]? = some st ∧
    node.keyValues[i]? = some (w.getD [0])

/-- Strict lexicographic order with `false < true`. -/
def PathLt (a b : List Bool) : Prop := List.Lex (fun x y => x = false ∧ y = true) a b

/-- A frontier is exact for a list of reports: all nodes are, the paths have one length and are in
strictly increasing lexicographic order (so they are distinct). -/
def FrontierExact (P : Prims) (inputLen : Nat) (reports : List ReportShare)
    (fr : List TreeNode) : Prop :=
  (∀ node ∈ fr, NodeExact P inputLen reports node) ∧
  (∃ d, ∀ node ∈ fr, node.path.length = d) ∧
  (fr.map TreeNode.path).Pairwise PathLt

end Mastic.Spec

namespace Mastic.Spec

/-- The aggregated value of a node is the sum of the value shares of exactly the included reports. -/
def NodeSum (P : Prims) (inputLen : Nat) (reports : List (Bool × ReportShare)) (node : TreeNode) :
    Prop :=
  ∃ vs, List.Forall₂ (fun (ir : Nat × ReportShare) v => ∃ key, keyOf ir.2 = some key ∧
      valueAt P key inputLen node.path = some v) (included reports) vs ∧
    node.value = sumVecs (inputLen + 1) vs

end Mastic.Spec
