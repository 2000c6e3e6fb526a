import Verif.Spec.Search

/-!
# Specification of a whole weighted-heavy-hitters run on arbitrary reports

A small machine over the two report lists and the list of prefixes alone: no frontiers, no evaluation states, no
Merkle trees, no requests.
-/

namespace Mastic.Spec

/-- The report lists of the two servers and the prefixes about to be crawled. -/
structure RunState where
  r0 : List (Bool × ReportShare)
  r1 : List (Bool × ReportShare)
  paths : List (List Bool)

/-- Somebody is included. -/
def anyIncluded (r : List (Bool × ReportShare)) : Bool := r.any Prod.fst

/-- `j` is the position among the included clients of a client whose digests differ. -/
def blamed (P : Prims) (n : Nat) (s : RunState) (j : Nat) : Bool :=
  (List.range s.r0.length).any fun c => disagree P n s.paths s.r0 s.r1 c && (rank s.r0 c == j)

/-- One level: no prefixes or nobody included is a panic.  If no digests differ, nobody is excluded.  Otherwise
the cheater search needs a tree over the included clients with as many leaves as there are clients, or panics;
it excludes the clients whose index is blamed, and panics if that leaves nobody.  The children whose count over
the remaining clients reaches the threshold survive. -/
def levelRun (P : Prims) (n T : Nat) (s : RunState) : Exec RunState :=
  if s.paths = [] ∨ anyIncluded s.r0 = false then .error .index
  else if (List.range s.r0.length).all fun c => !disagree P n s.paths s.r0 s.r1 c then
    .ok { s with paths := heavyChildren P n T s.r0 s.r1 s.paths }
  else if 2 ^ Nat.clog 2 (s.r0.countP Prod.fst) < s.r0.length then .error .zeroChunk
  else
    let r0 := dropClients (blamed P n s) s.r0
    let r1 := dropClients (blamed P n s) s.r1
    if anyIncluded r0 then .ok ⟨r0, r1, heavyChildren P n T r0 r1 s.paths⟩ else .error .index

/-- `k` levels. -/
def levelsRun (P : Prims) (n T : Nat) : Nat → RunState → Exec RunState
  | 0, s => .ok s
  | k + 1, s => (levelsRun P n T k s).bind (levelRun P n T)

/-- If digests differ in this state, no truncated BLAKE3 values collide in the Merkle trees over them. -/
def SeparatedAt (P : Prims) (n : Nat) (s : RunState) : Prop :=
  (∃ c, disagree P n s.paths s.r0 s.r1 c = true) →
    Separated P (digests P n true s.paths s.r0) (digests P n false s.paths s.r1)

/-- No collision in any state that a run meets. -/
def SeparatedRun (P : Prims) (n T d : Nat) (r0 r1 : List (Bool × ReportShare)) : Prop :=
  ∀ k < d - 1, ∀ t, levelsRun P n T k ⟨r0, r1, [[]]⟩ = .ok t → SeparatedAt P n t

/-- Client `i` is included and its last-level proofs differ. -/
def lastDisagree (P : Prims) (n : Nat) (s : RunState) (i : Nat) : Bool :=
  match s.r0[i]?, s.r1[i]? with
  | some (true, a), some (true, b) =>
    (keyOf a).map (fun k => proofsAt P n k s.paths) != (keyOf b).map fun k => proofsAt P n k s.paths
  | _, _ => false

/-- The batch of `batch` positions that position `j` belongs to ends within the `cnt` included clients (the
last batch of `num` clients may be shorter); only such batches are compared. -/
def batchCompared (batch num cnt j : Nat) : Bool := decide (min num ((j / batch + 1) * batch) ≤ cnt)

/-- The last level: a difference in a compared batch is a panic; otherwise the tallies at the heavy children. -/
def lastRun (P : Prims) (n T batch : Nat) (s : RunState) : Exec (List (List Bool × List Field128)) :=
  if (List.range s.r0.length).any fun c => lastDisagree P n s c &&
      batchCompared batch s.r0.length (s.r0.countP Prod.fst) (rank s.r0 c) then .error .assertion
  else .ok ((heavyChildren P n T s.r0 s.r1 s.paths).map fun p => (p, tally P n (keyPairs s.r0 s.r1) p))

/-- A whole run for strings of `d` bits after the FLP verification: final state and results. -/
def wholeRun (P : Prims) (n T batch d : Nat) (r0 r1 : List (Bool × ReportShare)) :
    Exec (RunState × List (List Bool × List Field128)) :=
  (levelsRun P n T (d - 1) ⟨r0, r1, [[]]⟩).bind fun s =>
    (lastRun P n T batch s).map fun res => (s, res)

/-- The FLP verification accepts the report. -/
def FlpAccepted (P : Prims) (n : Nat) (id0 id1 : Int) (vk : Block) (s0 s1 : ReportShare) : Prop :=
  ∃ v0 v1, verifierOf P n id0 vk s0 = some v0 ∧ verifierOf P n id1 vk s1 = some v1 ∧
    P.flpDecide n (addShares v0 v1) = some true

/-- The two servers' report lists come from clients of two kinds, in order: honest ones, and arbitrary ones with
well-formed keys that pass the FLP verification but whose first check digests differ. -/
def CaughtPopulation (P : Prims) (n d : Nat) (id0 id1 : Int) (vk : Block)
    (clients : List (Option (List Bool × Nat))) (rs0 rs1 : List (Bool × ReportShare)) : Prop :=
  rs0.length = clients.length ∧ rs1.length = clients.length ∧
  ∀ (i : Nat) (c : Option (List Bool × Nat)) (b0 b1 : Bool) (s0 s1 : ReportShare),
    clients[i]? = some c → rs0[i]? = some (b0, s0) → rs1[i]? = some (b1, s1) →
    b0 = true ∧ b1 = true ∧
    match c with
    | some (alpha, bucket) => HonestPair P n alpha bucket s0 s1 ∧ alpha.length = d ∧
        FlpCompleteAt P n (P.xofField vk s0.nonce.toList (P.queryRandLen n))
    | none => WellFormed d s0 ∧ WellFormed d s1 ∧ FlpAccepted P n id0 id1 vk s0 s1 ∧
        (keyOf s0).map (digestAt P n true [[]]) ≠ (keyOf s1).map (digestAt P n false [[]])

end Mastic.Spec
