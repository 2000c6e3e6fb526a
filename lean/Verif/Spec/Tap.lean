import Verif.Spec.Vidpf
import Verif.Spec.Prio3
import Verif.Spec.RunHide
import Verif.Model.Prio3
import Verif.Model.Wire

/-!
# Somebody who reads the connections

The driver connects to the servers with plain TCP and bincode, without encryption (`src/bin/driver.rs:696-713`,
`src/bin/server.rs:339-351`).  What passes over a connection are the encoded requests and answers.  The header that tarpc
puts in front of every message (deadline, trace context and the number of the call) says nothing about the clients and is
left out.
-/

namespace Mastic.Spec

/-- The messages from the driver to server `own`. -/
def carried (e : IntEnc) (own : Bool) (sent : List (Req × Req)) : List (List Byte) :=
  (received own sent).map (reqCodec e).enc

/-- The messages from server `own` to the driver. -/
def returned (e : IntEnc) (own : Bool) (sent : List (Req × Req)) (got : List (Resp × Resp)) : List (List Byte) :=
  List.zipWith (fun r a => encResp e r.tag a) (received own sent) (got.map fun a => Pair.get a own)

/-- The report shares in a list of requests. -/
def uploads (rs : List Req) : List ReportShare :=
  rs.flatMap fun
    | .addReportShares sh => sh
    | _ => []

/-- The report shares in the messages to a server. -/
def overheard (e : IntEnc) (msgs : List (List Byte)) : List ReportShare :=
  uploads (msgs.filterMap fun m => ((reqCodec e).dec m).map Prod.fst)

/-- The right control bits of the correction words of a share. -/
def tapString : ReportShare → List Bool
  | .mastic _ k _ _ => k.corWords.map fun w => w.bits.2
  | .prio3 _ _ _ => []

/-- The strings in the messages to one server. -/
def tapStrings (e : IntEnc) (msgs : List (List Byte)) : List (List Bool) := (overheard e msgs).map tapString

/-- The position of the 1 in the sum of two shares of an encoded weight. -/
def tapPosition (x y : List Field128) : Nat := (addShares x y).idxOf 1

/-- The weight of a client from both of its shares: both keys are evaluated at the string that they show. -/
def tapWeight (P : Prims) (n : Nat) : ReportShare × ReportShare → Option Nat
  | (.mastic a k0 p0 j0, .mastic _ k1 _ _) =>
    match k0.eval P .release (tapString (.mastic a k0 p0 j0)) Block.zero n,
      k1.eval P .release (tapString (.mastic a k0 p0 j0)) Block.zero n with
    | .ok x, .ok y => some (tapPosition x.2.1 y.2.1)
    | _, _ => none
  | _ => none

/-- The bucket of a plain-metrics client from both of its shares. -/
def tapBucket (X : Prio3Xof) (n : Nat) : ReportShare × ReportShare → Option Nat
  | (.prio3 _ _ in0, .prio3 _ _ in1) =>
    match X.readInput n (chunk n) 0 in0, X.readInput n (chunk n) 1 in1 with
    | some x, some y => some (tapPosition x.1 y.1)
    | _, _ => none
  | _ => none

/-- The weights from the messages to both servers. -/
def tapWeights (P : Prims) (n : Nat) (e : IntEnc) (msgs0 msgs1 : List (List Byte)) : List (Option Nat) :=
  ((overheard e msgs0).zip (overheard e msgs1)).map (tapWeight P n)

/-- The buckets from the messages to both servers. -/
def tapBuckets (X : Prio3Xof) (n : Nat) (e : IntEnc) (msgs0 msgs1 : List (List Byte)) : List (Option Nat) :=
  ((overheard e msgs0).zip (overheard e msgs1)).map (tapBucket X n)

end Mastic.Spec
