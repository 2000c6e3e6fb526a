import Verif.Spec.Prio3Hide
import Verif.Spec.RunHide

/-!
# What one server sees of a whole plain-metrics run
-/

namespace Mastic.Spec

/-- The draws of a run with given buckets; seeds, nonces, the verify key and the reports that the clients pick stay as
they are. -/
def bucketDraw (draw : MainDraw) (bucket : Nat → Nat) : MainDraw :=
  { draw with reports := fun i => { draw.reports i with bucket := bucket i } }

/-- No two of the first `u` generated reports have the same seed for the same purpose. -/
def FreshSeeds (u : Nat) (draw : MainDraw) : Prop :=
  ∀ i i' : Fin u, i ≠ i' → ∀ j < 5, clientSeed (draw.reports i).prio3 j ≠ clientSeed (draw.reports i').prio3 j

/-- The extendable output function with given answers to the clients behind the first `u` generated reports, values that
the leader does not know. -/
def setHelpers (X : Prio3Xof) {u n c : Nat} (draw : MainDraw) (w : Fin u → HelperCoins n c) : Prio3Xof :=
  (List.finRange u).foldr (fun (i : Fin u) Z => setHelper Z (draw.reports i).rand.nonce (clientSeed (draw.reports i).prio3) (w i)) X

/-- The same with values that the helper does not know, for clients with given buckets. -/
def setLeaders (X : Prio3Xof) {u c : Nat} (n : Nat) (draw : MainDraw) (bucket : Nat → Nat) (w : Fin u → LeaderCoins c) :
    Prio3Xof :=
  (List.finRange u).foldr (fun (i : Fin u) Z => setLeader Z n (draw.reports i).rand.nonce (clientSeed (draw.reports i).prio3)
    (bucketVec n (bucket i)) (w i)) X

/-- What plain metrics prints for clients that pick among reports with given buckets: for every batch no rejections and
for every bucket the number of clients of the batch. -/
def pmShown (n batch num : Nat) (draw : MainDraw) (bucket : Nat → Nat) : Shown :=
  .pm ((batches num batch).map fun r => ⟨0, bucketCounts n
    ((((List.range num).map fun i => bucket ((draw.picks i).1 - 1)).drop r.1).take (r.2 - r.1))⟩)

end Mastic.Spec
