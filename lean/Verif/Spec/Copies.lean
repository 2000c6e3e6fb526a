import Verif.Spec.Forge
import Verif.Spec.Run

/-!
# Specifications for clients that send the two servers different joint-randomness parts
-/

namespace Mastic.Spec

/-- The report shares of a client that makes its keys for `alpha` and any vector with the reporting code and sends each
server its own copy of the joint-randomness parts. -/
def copiesReport (P : Prims) (alpha : List Bool) (beta : List Field128) (nonce : Block) (rs : Block × Block)
    (p0 p1 : List Field128) (copy0 copy1 : Block × Block) : ReportShare × ReportShare :=
  let keys := VidpfKey.gen P rs alpha beta
  (.mastic nonce keys.1 p0 copy0, .mastic nonce keys.2 p1 copy1)

/-- The part that belongs to one of the two root seeds. -/
def jointPart (P : Prims) (id : Byte) (seed nonce : Block) : Block :=
  P.xofBlock seed (List.replicate 16 0) (id :: nonce.toList)

/-- The two servers' report lists come from clients with strings of `d` bits and any vectors whose keys were made with
the reporting code and whose reports, whatever else is in them, pass the FLP verification. -/
def AcceptedReports (P : Prims) (n d : Nat) (id0 id1 : Int) (vk : Block) (clients : List (List Bool × List Field128))
    (rs0 rs1 : List (Bool × ReportShare)) : Prop :=
  rs0.length = clients.length ∧ rs1.length = clients.length ∧
  ∀ (i : Nat) (c : List Bool × List Field128) (b0 b1 : Bool) (s0 s1 : ReportShare),
    clients[i]? = some c → rs0[i]? = some (b0, s0) → rs1[i]? = some (b1, s1) →
    b0 = true ∧ b1 = true ∧ c.1.length = d ∧ c.2.length = n ∧ FlpAccepted P n id0 id1 vk s0 s1 ∧
      ∃ nonce rs p0 p1 copy0 copy1, (s0, s1) = copiesReport P c.1 c.2 nonce rs p0 p1 copy0 copy1

end Mastic.Spec
