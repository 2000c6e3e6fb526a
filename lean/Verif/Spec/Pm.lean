import Verif.Spec.Metrics
import Verif.Model.Driver

/-!
# Specification of plain-metrics runs on arbitrary reports

Independent of the servers' maps and request handling: per report only what Prio3 says at both servers matters.
-/

namespace Mastic.Spec

/-- What the two servers end with for a report: an output share, or `none` when the server rejects the report. -/
structure PmClient where
  out0 : Option (List Field128)
  out1 : Option (List Field128)

/-- Both servers prepare the report, and combining the two preparation shares, the leader's first, ends with the
outputs `c` of `n` entries each. -/
def Prepared (P : Prims) (n helperId : Nat) (vk0 vk1 : Block) (s0 s1 : ReportShare) (c : PmClient) : Prop :=
  ∃ x0 x1, prepOf P n 0 vk0 s0 = some x0 ∧ prepOf P n helperId vk1 s1 = some x1 ∧
    outputOf P n x0.1 x0.2 x1.2 = c.out0 ∧ outputOf P n x1.1 x0.2 x1.2 = c.out1 ∧
    (∀ o ∈ c.out0, o.length = n) ∧ (∀ o ∈ c.out1, o.length = n)

/-- The entrywise sum of output shares. -/
def sumOutputs (n : Nat) (outs : List (List Field128)) : List Field128 := (List.range n).map (entrySum outs)

/-- What a batch prints: the number of reports the servers reject and the unsharded sums of their output shares; the
driver panics when the numbers of rejected reports differ or when unsharding fails. -/
def pmBatchOut (P : Prims) (n : Nat) (batch : List PmClient) : Exec PmOut :=
  let o0 := batch.filterMap PmClient.out0
  let o1 := batch.filterMap PmClient.out1
  if batch.countP (fun c => c.out0.isNone) ≠ batch.countP (fun c => c.out1.isNone) then .error .assertion
  else match P.prio3Unshard n (sumOutputs n o0) (sumOutputs n o1) o0.length with
    | none => .error .unwrap
    | some result => .ok ⟨batch.countP (fun c => c.out0.isNone), result⟩

/-- The reports of a run: honest ones with their bucket, and ones which both servers prepare and then reject. -/
def PmPopulation (P : Prims) (n helperId : Nat) (vk0 vk1 : Block) (clients : List (Option Nat))
    (rs0 rs1 : List (Bool × ReportShare)) : Prop :=
  rs0.length = clients.length ∧ rs1.length = clients.length ∧
  ∀ (i : Nat) (c : Option Nat) (r0 r1 : Bool × ReportShare), clients[i]? = some c → rs0[i]? = some r0 →
    rs1[i]? = some r1 → match c with
      | some bucket => HonestPrio3 P n bucket r0.2 r1.2
      | none => Prepared P n helperId vk0 vk1 r0.2 r1.2 ⟨none, none⟩

end Mastic.Spec
