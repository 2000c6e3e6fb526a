import Verif.Spec.Crawl

/-!
# Specifications for the cheater search of `run_level`
-/

namespace Mastic.Spec

/-- No truncated BLAKE3 collision between the inputs hashed for the Merkle trees over equally long
contiguous parts of the two lists. -/
def Separated (P : Prims) (d0 d1 : List Block) : Prop :=
  ∀ xs ys, xs <:+: d0 → ys <:+: d1 → xs.length = ys.length →
    ∀ u ∈ merkleInputs P xs, ∀ v ∈ merkleInputs P ys,
      first16 (P.blake3 u) = first16 (P.blake3 v) → u = v

/-- The report list with every client `i` satisfying `bad i` marked excluded; nothing else changes. -/
def dropClients (bad : Nat → Bool) (reports : List (Bool × ReportShare)) :
    List (Bool × ReportShare) :=
  reports.mapIdx fun i r => (r.1 && !bad i, r.2)

/-- Position `j` of the two lists of digests holds different digests (or only one has it). -/
def differAt (d0 d1 : List Block) (j : Nat) : Bool := d0[j]? != d1[j]?

/-- Client `i` is included and the two servers' digests for it differ. -/
def disagree (P : Prims) (n : Nat) (paths : List (List Bool)) (r0 r1 : List (Bool × ReportShare))
    (i : Nat) : Bool :=
  match r0[i]?, r1[i]? with
  | some (true, a), some (true, b) =>
    (keyOf a).map (digestAt P n true paths) != (keyOf b).map (digestAt P n false paths)
  | _, _ => false

/-- The number of included clients before client `i`: its position in the list of digests. -/
def rank (reports : List (Bool × ReportShare)) (i : Nat) : Nat := (reports.take i).countP Prod.fst

/-- Both servers are about to crawl the prefixes `paths`, all of length `m`, for keys of at least `d` levels:
their frontiers hold the direct evaluations of all reports at these prefixes. -/
structure LevelState (P : Prims) (n d m : Nat) (paths : List (List Bool))
    (kcs : KeyCollection P × KeyCollection P) : Prop where
  inputLen : kcs.1.inputLen = n ∧ kcs.2.inputLen = n
  ids : kcs.1.serverId = 0 ∧ kcs.2.serverId ≠ 0
  depth : kcs.1.depth = some d ∧ kcs.2.depth = some d
  same : kcs.1.frontier.map TreeNode.path = paths ∧ kcs.2.frontier.map TreeNode.path = paths
  len : ∀ p ∈ paths, p.length = m
  exact : (∀ node ∈ kcs.1.frontier, NodeExact P n (kcs.1.reportShares.map Prod.snd) node) ∧
    ∀ node ∈ kcs.2.frontier, NodeExact P n (kcs.2.reportShares.map Prod.snd) node
  flags : kcs.1.reportShares.map Prod.fst = kcs.2.reportShares.map Prod.fst
  keys : ∀ r ∈ kcs.1.reportShares ++ kcs.2.reportShares, ∃ key, keyOf r.2 = some key ∧
    key.cs.length = key.corWords.length ∧ d ≤ key.corWords.length

/-- The children of `paths` whose count over the included pairs reaches the threshold. -/
def heavyChildren (P : Prims) (n T : Nat) (r0 r1 : List (Bool × ReportShare))
    (paths : List (List Bool)) : List (List Bool) :=
  (paths.flatMap fun p => [p ++ [false], p ++ [true]]).filter fun p =>
    decide (T ≤ countAt P n (keyPairs r0 r1) p)

end Mastic.Spec
