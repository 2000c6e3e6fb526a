import Verif.Spec.Server
import Verif.Model.Driver

/-!
# Specifications for the driver
-/

namespace Mastic.Spec

/-- Half-open ranges that cut `[0, n)` into non-empty consecutive pieces. -/
def Partitions (n : Nat) (ranges : List (Nat × Nat)) : Prop :=
  (∀ r ∈ ranges, r.1 < r.2 ∧ r.2 ≤ n) ∧
  (ranges.flatMap fun r => List.range' r.1 (r.2 - r.1)) = List.range n

/-- `s0` and `s1` are the two shares of the client report `r`; the second may have been tampered
with, which leaves everything but the proof share (Mastic) or the input share (Prio3) alone. -/
def SharesOf (r : PlaintextReport) (s0 s1 : ReportShare) : Prop :=
  match r with
  | .mastic n ks ps jr _ => s0 = .mastic n ks.1 ps.1 jr ∧
      ∃ p, p.length = ps.2.length ∧ s1 = .mastic n ks.2 p jr
  | .prio3 n pub inp => s0 = .prio3 n pub inp.1 ∧
      ∃ i, i.length = inp.2.length ∧ s1 = .prio3 n pub i

/-- The report list with the reports whose `keep` entry is `false` marked excluded. -/
def masked (reports : List (Bool × ReportShare)) (keep : List Bool) : List (Bool × ReportShare) :=
  List.zipWith (fun r k => (r.1 && k, r.2)) reports keep

/-- Completeness of the external FLP at one query randomness: for a valid measurement with an honest
proof, whatever the additive sharing of measurement and proof, both queries succeed and the sum of the
verifier shares is accepted. -/
def FlpCompleteAt (P : Prims) (buckets : Nat) (q : List Field128) : Prop :=
  ∀ (bucket : Nat) (beta pr j proof b0 b1 p0 p1 : List Field128),
    encodeMeasurement buckets bucket = some beta → P.flpProve buckets beta pr j = some proof →
    b0.length = beta.length → b1.length = beta.length → addShares b0 b1 = beta →
    p0.length = proof.length → p1.length = proof.length → addShares p0 p1 = proof →
    ∃ v0 v1, P.flpQuery buckets b0 p0 q j = some v0 ∧ P.flpQuery buckets b1 p1 q j = some v1 ∧
      v0.length = v1.length ∧ P.flpDecide buckets (addShares v0 v1) = some true

/-- `s0` and `s1` are the shares an honest client with string `alpha` and weight `bucket` sends. -/
def HonestPair (P : Prims) (buckets : Nat) (alpha : List Bool) (bucket : Nat)
    (s0 s1 : ReportShare) : Prop :=
  ∃ rand rep, genMasticReport P buckets alpha bucket rand = .ok rep ∧ (s0, s1) = rep.toShares

end Mastic.Spec

namespace Mastic.Spec

/-- The FLP verifier share that the server with index `id` and verify key `vk` computes for a report
share: input is the share of the sum of the two first-level values without the counter; the server
derives its own joint-randomness part from its own root seed and takes the peer's part from the
report; the query randomness comes from verify key and nonce. -/
def verifierOf (P : Prims) (n : Nat) (id : Int) (vk : Block) : ReportShare → Option (List Field128)
  | .prio3 .. => none
  | .mastic nonce key proof parts => do
    let yl ← valueAt P key n [false]
    let yr ← valueAt P key n [true]
    let own := P.xofBlock key.rootSeed (List.replicate 16 0)
      ((if id = 0 then 0#8 else 1#8) :: nonce.toList)
    let jr := if id = 0 then P.xofField own parts.2.toList (P.jointRandLen n)
      else P.xofField parts.1 own.toList (P.jointRandLen n)
    P.flpQuery n ((addShares yl yr).take n) proof
      (P.xofField vk nonce.toList (P.queryRandLen n)) jr

end Mastic.Spec
