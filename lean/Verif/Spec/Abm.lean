import Verif.Spec.Crawl

/-!
# Specification of whole attribute-based-metrics runs on arbitrary reports
-/

namespace Mastic.Spec

/-- What a server hashes for one report: the path checks and proofs of the attributes and the counter check.  (Checks
and proofs are always present when this is used: the keys reach the attributes.) -/
def digestOf (P : Prims) (n : Nat) (attrs : List (List Bool)) : ReportShare → Option (Vector Byte 32)
  | .prio3 .. => none
  | .mastic _ key _ _ => do
    let yl ← valueAt P key n [false]
    let yr ← valueAt P key n [true]
    let cnt ← (addShares yl yr)[n]?
    some (P.blake3 (layout (fun q => (pathCheck P key n q).getD [])
      (fun q => (proofAt P key n q).getD Block.zero) [] attrs
        ++ encodeField (if key.keyIdx then 1 - cnt else cnt)))

/-- Outcome of the two checks of one report. -/
structure Verdict where
  flp : Bool
  proof : Bool

/-- The report with shares `s0` and `s1` is judged `v`, and `t0` and `t1` are its tables of value shares. -/
def Judged (P : Prims) (n : Nat) (attrs : List (List Bool)) (id0 id1 : Int) (vk : Block) (s0 s1 : ReportShare)
    (v : Verdict) (t0 t1 : List (List Field128)) : Prop :=
  (∃ q0 q1, verifierOf P n id0 vk s0 = some q0 ∧ verifierOf P n id1 vk s1 = some q1 ∧ q0.length ≤ q1.length ∧
    P.flpDecide n (addShares q0 q1) = some v.flp) ∧
  (∃ d0 d1, digestOf P n attrs s0 = some d0 ∧ digestOf P n attrs s1 = some d1 ∧ v.proof = decide (d0 = d1)) ∧
  tableOf P n attrs s0 = some t0 ∧ tableOf P n attrs s1 = some t1

/-- A judged client: verdict and the two tables. -/
structure AbmClient where
  verdict : Verdict
  table0 : List (List Field128)
  table1 : List (List Field128)

/-- The numbers of the clients of `[s, e)` that fail a check, once per failed check. -/
def rejections (clients : List AbmClient) (s e : Nat) : List Nat :=
  (List.range' s (e - s)).flatMap fun i => match clients[i]? with
    | none => []
    | some c => (if c.verdict.flp then [] else [i]) ++ (if c.verdict.proof then [] else [i])

/-- Whether a server of the given build counts the client: release builds count everybody. -/
def counts (bld : Build) (c : AbmClient) : Bool :=
  match bld with
  | .release => true
  | .debug => c.verdict.flp && c.verdict.proof

/-- Entrywise sum of `m × n` tables. -/
def sumTables (m n : Nat) (tables : List (List (List Field128))) : List (List Field128) :=
  (List.range m).map fun j => (List.range n).map fun c => (tables.map fun t => cell t j c).sum

/-- What is printed for the batch `[s, e)`: the failed checks of the batch, and the sum over *all* clients below `e`
of the tables of the servers that count them. -/
def abmBatchOut (b0 b1 : Build) (m n : Nat) (clients : List AbmClient) (r : Nat × Nat) : AbmOut :=
  ⟨rejections clients r.1 r.2, sumTables m n
    ((((clients.take r.2).filter (counts b0)).map AbmClient.table0) ++
      (((clients.take r.2).filter (counts b1)).map AbmClient.table1))⟩

/-- The two servers' report lists come from clients of two kinds, in order: honest ones with a string of length `d`
and a weight (for which the FLP is complete), and arbitrary ones with well-formed keys which fail exactly one of the
two checks. -/
def AbmPopulation (P : Prims) (n d : Nat) (attrs : List (List Bool)) (id0 id1 : Int) (vk : Block)
    (clients : List (Option (List Bool × Nat))) (rs0 rs1 : List (Bool × ReportShare)) : Prop :=
  rs0.length = clients.length ∧ rs1.length = clients.length ∧
  ∀ (i : Nat) (c : Option (List Bool × Nat)) (r0 r1 : Bool × ReportShare),
    clients[i]? = some c → rs0[i]? = some r0 → rs1[i]? = some r1 →
    match c with
    | some (alpha, bucket) => HonestPair P n alpha bucket r0.2 r1.2 ∧ alpha.length = d ∧
        FlpCompleteAt P n (P.xofField vk r0.2.nonce.toList (P.queryRandLen n))
    | none => WellFormed d r0.2 ∧ WellFormed d r1.2 ∧
        ∃ v t0 t1, Judged P n attrs id0 id1 vk r0.2 r1.2 v t0 t1 ∧ v.flp ≠ v.proof

/-- The same report share up to the FLP proof share. -/
def SameButProof : ReportShare → ReportShare → Prop
  | .mastic n k _ j, .mastic n' k' _ j' => n = n' ∧ k = k' ∧ j = j'
  | _, _ => False

/-- FLP verifier shares have a fixed length. -/
def VerifierLen (P : Prims) (n L : Nat) : Prop :=
  ∀ x p q j v, P.flpQuery n x p q j = some v → v.length = L

/-- The two servers' report lists come from clients with honest keys, in order; those marked `true` have changed the
second server's FLP proof share so that the FLP verification rejects it. -/
def HonestKeys (P : Prims) (n d : Nat) (id0 id1 : Int) (vk : Block)
    (clients : List ((List Bool × Nat) × Bool)) (rs0 rs1 : List (Bool × ReportShare)) : Prop :=
  rs0.length = clients.length ∧ rs1.length = clients.length ∧
  ∀ (i : Nat) (c : (List Bool × Nat) × Bool) (r0 r1 : Bool × ReportShare),
    clients[i]? = some c → rs0[i]? = some r0 → rs1[i]? = some r1 →
    c.1.1.length = d ∧ FlpCompleteAt P n (P.xofField vk r0.2.nonce.toList (P.queryRandLen n)) ∧
    if c.2 then (∃ s, HonestPair P n c.1.1 c.1.2 r0.2 s ∧ SameButProof s r1.2) ∧
        FlpRejected P n id0 id1 vk r0.2 r1.2
      else HonestPair P n c.1.1 c.1.2 r0.2 r1.2

end Mastic.Spec
