import Verif.Model.Wire
import Verif.Lemmas.System

/-!
# Specification: which messages exist, and runs in which no message is too large

Rust's `usize` and the lengths of vectors are below `2^64`; the model uses natural numbers.  `fits` says that a
message is a value of the Rust type.
-/

namespace Mastic.Spec

/-- A `usize`, or the length of a `Vec`. -/
def word (n : Nat) : Bool := n < 2 ^ 64

/-- A report share the Rust type can hold. -/
def shareFits : ReportShare → Bool
  | .mastic _ k p _ => word k.corWords.length && word k.cs.length && k.corWords.all (fun w => word w.word.length) &&
      word p.length
  | .prio3 _ pub inp => word pub.length && word inp.length

/-- A request the Rust type can hold. -/
def reqFits : Req → Bool
  | .reset _ b => word b
  | .addReportShares rs => word rs.length && rs.all shareFits
  | .treeInit | .treeCrawlLast | .finalShares => true
  | .treeCrawl s m _ => word s && word m.length && m.all word
  | .runFlpQueries s t | .getProofs s t | .pmValidate s t => word s && word t
  | .applyFlpResults keep | .treePrune keep => word keep.length
  | .abmValidate a s t => word a.length && a.all (fun x => word x.length) && word s && word t
  | .abmResult rej n s t => word rej.length && rej.all word && word n && word s && word t
  | .pmResult peers s t => word peers.length && peers.all (fun x => word x.length) && word s && word t

/-- An answer the Rust type can hold. -/
def respFits : Resp → Bool
  | .done => true
  | .crawl r => word r.cntValues.length && r.cntValues.all (fun x => word x.length) && word r.roots.length &&
      word r.indices.length && r.indices.all word
  | .fieldVecs v => word v.length && v.all fun x => word x.length
  | .proofs v => word v.length
  | .shares v => word v.length && v.all fun x => word x.path.length && word x.value.length
  | .validated v => word v.length && v.all fun x => word x.1.length
  | .bytes v => word v.length && v.all fun x => word x.length
  | .aggregate v n => word v.length && word n

/-- The answer has the type the trait declares for the method (`src/rpc.rs:86-143`). -/
def answers : Req → Resp → Bool
  | .treeInit, .done | .reset .., .done | .addReportShares _, .done | .applyFlpResults _, .done | .treePrune _, .done
  | .runFlpQueries .., .fieldVecs _ | .treeCrawlLast, .fieldVecs _ | .abmResult .., .fieldVecs _
  | .treeCrawl .., .crawl _ | .getProofs .., .proofs _ | .finalShares, .shares _ | .abmValidate .., .validated _
  | .pmValidate .., .bytes _ | .pmResult .., .aggregate .. => true
  | _, _ => false

/-- A request and the answer to it fit into frames. -/
def callFits {P : Prims} (net : Net) (cfg : ServerCfg) (s : Server P) (r : Req) : Bool :=
  reqFits r && decide (net.reqExtra + ((reqCodec .varint).enc r).length ≤ net.limit) &&
  match (s.handle cfg r).2 with
  | .ok a => respFits a && decide (net.respExtra + (encResp .varint r.tag a).length ≤ net.limit)
  | .error _ => true

/-- No message of a run is too large. -/
def runFits {P : Prims} {α : Type} (n0 n1 : Net) (c0 c1 : ServerCfg) : Prog α → Server P × Server P → Bool
  | .ret _, _ => true
  | .panic _, _ => true
  | .ask r0 r1 k, s => callFits n0 c0 s.1 r0 && callFits n1 c1 s.2 r1 &&
      match (s.1.handle c0 r0).2, (s.2.handle c1 r1).2 with
      | .ok a, .ok b => runFits n0 n1 c0 c1 (k a b) ((s.1.handle c0 r0).1, (s.2.handle c1 r1).1)
      | _, _ => true

/-- Bytes of an integer. -/
def intLen : IntEnc → Nat → Nat
  | .fixint, _ => 8
  | .varint, n => if n < 251 then 1 else if n < 65536 then 3 else if n < 4294967296 then 5 else 9

/-- Bytes of a field element. -/
def fieldLen (e : IntEnc) : Nat := intLen e 16 + 16

/-- Bytes of the key of a client with a string of `d` bits and `b` buckets. -/
def keyLen (e : IntEnc) (d b : Nat) : Nat :=
  17 + 2 * intLen e d + d * (34 + intLen e (b + 1) + (b + 1) * fieldLen e)

/-- Bytes of the index of a variant (the enumerations here are small). -/
def tagLen : IntEnc → Nat
  | .fixint => 4
  | .varint => 1

/-- Bytes of a report share with a proof of `l` elements. -/
def masticLen (e : IntEnc) (d b l : Nat) : Nat :=
  tagLen e + 48 + keyLen e d b + intLen e l + l * fieldLen e

/-- The FLP of `b` buckets has proofs of `l` elements. -/
def ProofLen (P : Prims) (b l : Nat) : Prop :=
  ∀ beta rand joint proof, P.flpProve b beta rand joint = some proof → proof.length = l

end Mastic.Spec
