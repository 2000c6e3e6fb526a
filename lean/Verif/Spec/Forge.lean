import Verif.Spec.Crawl

/-!
# Specifications for weights that are chosen after the joint randomness

What the external FLP checks about a weight vector is spelled out (libprio 0.15.3 `flp/types.rs`, `Histogram::valid`
with `parallel_sum_range_checks`), so that one can say which vectors pass.
-/

namespace Mastic.Spec

/-- `r ^ (k + 1) * x₀ (x₀ - 1) + r ^ (k + 2) * x₁ (x₁ - 1) + ...`. -/
def rangeFrom (r : Field128) : Nat → List Field128 → Field128
  | _, [] => 0
  | k, x :: xs => r ^ (k + 1) * (x * (x - 1)) + rangeFrom r (k + 1) xs

/-- The validity circuit of libprio's `Histogram`: with joint randomness `r0`, `r1`, a weight vector passes iff
this is zero.  The first summand checks that the entries are 0 or 1, the second that they add up to 1. -/
def histogramCheck (r0 r1 : Field128) (x : List Field128) : Field128 :=
  r1 * rangeFrom r0 0 x + r1 ^ 2 * (x.sum - 1)

/-- The weight of a client that runs the code: a single 1 among `n` entries. -/
def OneHot (n : Nat) (x : List Field128) : Prop :=
  ∃ b, b < n ∧ x.length = n ∧ ∀ i < n, x[i]? = some (if i = b then 1 else 0)

/-- Completeness of the external FLP for vectors that pass the circuit: whatever the additive sharing of
vector and proof, both queries succeed and the sum of the verifier shares is accepted. -/
def CircuitCompleteAt (P : Prims) (n : Nat) (q : List Field128) : Prop :=
  ∀ (r0 r1 : Field128) (x pr proof b0 b1 p0 p1 : List Field128), x.length = n →
    histogramCheck r0 r1 x = 0 → P.flpProve n x pr [r0, r1] = some proof →
    b0.length = n → b1.length = n → addShares b0 b1 = x →
    p0.length = proof.length → p1.length = proof.length → addShares p0 p1 = proof →
    ∃ v0 v1, P.flpQuery n b0 p0 q [r0, r1] = some v0 ∧ P.flpQuery n b1 p1 q [r0, r1] = some v1 ∧
      P.flpDecide n (addShares v0 v1) = some true

/-- The joint randomness for a report with the given nonce and root seeds. -/
def jointRandOf (P : Prims) (n : Nat) (nonce : Block) (seeds : Block × Block) : List Field128 :=
  P.xofField (P.xofBlock seeds.1 (List.replicate 16 0) (0#8 :: nonce.toList))
    (P.xofBlock seeds.2 (List.replicate 16 0) (1#8 :: nonce.toList)).toList (P.jointRandLen n)

/-- What a client sends that runs the reporting code on a weight vector `beta` of its own choice. -/
def vectorReport (P : Prims) (n : Nat) (alpha : List Bool) (beta : List Field128) (r : ClientRand) :
    Exec PlaintextReport := do
  let keys := VidpfKey.gen P r.rootSeeds alpha beta
  let jr := clientJointRandParts P r.nonce keys.1 keys.2
  let proof ← unwrapO (P.flpProve n beta r.proveRand (P.xofField jr.1 jr.2.toList (P.jointRandLen n)))
  .ok (.mastic r.nonce keys (shareProof proof r.proofRand) jr alpha)

/-- The two shares of such a report whose vector passes the circuit. -/
def PassingPair (P : Prims) (n : Nat) (alpha : List Bool) (beta : List Field128) (s0 s1 : ReportShare) : Prop :=
  ∃ rand rep r0 r1, vectorReport P n alpha beta rand = .ok rep ∧ (s0, s1) = rep.toShares ∧ beta.length = n ∧
    jointRandOf P n rand.nonce rand.rootSeeds = [r0, r1] ∧ histogramCheck r0 r1 beta = 0

/-- The two servers' report lists come from such clients, with strings of `d` bits, in order. -/
def PassingReports (P : Prims) (n d : Nat) (vk : Block) (clients : List (List Bool × List Field128))
    (rs0 rs1 : List (Bool × ReportShare)) : Prop :=
  rs0.length = clients.length ∧ rs1.length = clients.length ∧
  ∀ (i : Nat) (c : List Bool × List Field128) (b0 b1 : Bool) (s0 s1 : ReportShare),
    clients[i]? = some c → rs0[i]? = some (b0, s0) → rs1[i]? = some (b1, s1) →
    b0 = true ∧ b1 = true ∧ PassingPair P n c.1 c.2 s0 s1 ∧ c.1.length = d ∧
      CircuitCompleteAt P n (P.xofField vk s0.nonce.toList (P.queryRandLen n))

/-- The strings of length `d` that at least `T` clients hold, in lexicographic order, each with the sum of its
holders' vectors and their number. -/
def heavySums (n T d : Nat) (clients : List (List Bool × List Field128)) : List (List Bool × List Field128) :=
  ((allPaths d).filter fun s => decide (T ≤ clients.countP fun c => c.1 == s)).map fun s =>
    (s, sumVecs n ((clients.filter fun c => c.1 == s).map Prod.snd)
      ++ [((clients.countP fun c => c.1 == s : Nat) : Field128)])

end Mastic.Spec
