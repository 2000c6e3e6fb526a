import Verif.Model.System

/-!
# The messages between driver and servers

`src/rpc.rs` declares the requests and answers with `#[derive(Serialize, Deserialize)]`; the driver and the servers
exchange them with tarpc over `Bincode::default` (`src/bin/driver.rs:693-702`, `src/bin/server.rs:340`), and
`generate_reports` prints sizes computed with `bincode::serialize` (`src/bin/driver.rs:213-240`).

External and modelled from the documentation of the crates: bincode 1.3 (`serialize` writes integers with a fixed
width; `DefaultOptions`, used by the transport, writes them with a variable width; both little endian; a `Vec` is its
length followed by its elements; arrays, tuples and structures are the concatenation of their parts; an enumeration is
the index of the variant as a `u32`, then the fields), libprio 0.15 (a field element is serialised as a byte string, so
with a length in front), tarpc 0.30 (a frame may have at most 8 MiB).  The sizes this gives for the shipped
configuration are the ones quoted in `artifact/README.md:170-173` (checked in `Props/Wire`).
-/

namespace Mastic

/-- How bincode writes integers: `serialize` and `DefaultOptions`.
bincode/serde, external; the derives in `src/rpc.rs:9-84` and `src/collect.rs:52-65`. -/
inductive IntEnc where
  | fixint
  | varint
  deriving DecidableEq

/-- Writing a value, and reading one from the front of a byte string (`none`: an error, never a panic).
bincode/serde, external; the derives in `src/rpc.rs:9-84` and `src/collect.rs:52-65`. -/
structure Codec (α : Type) where
  enc : α → List Byte
  dec : List Byte → Option (α × List Byte)

namespace Codec

variable {α β γ : Type}

/-- `n` bytes from the front.
bincode/serde, external; the derives in `src/rpc.rs:9-84` and `src/collect.rs:52-65`. -/
def takeBytes (n : Nat) (l : List Byte) : Option (List Byte × List Byte) :=
  if n ≤ l.length then some (l.take n, l.drop n) else none

/-- An unsigned little-endian number of `n` bytes.
bincode/serde, external; the derives in `src/rpc.rs:9-84` and `src/collect.rs:52-65`. -/
def readLE (n : Nat) (l : List Byte) : Option (Nat × List Byte) :=
  (takeBytes n l).map fun p => (leNat p.1, p.2)

/-- bincode `VarintEncoding`: one byte below 251, otherwise a marker and two, four or eight bytes.
bincode/serde, external; the derives in `src/rpc.rs:9-84` and `src/collect.rs:52-65`. -/
def varint : Codec Nat where
  enc n :=
    if n < 251 then [BitVec.ofNat 8 n]
    else if n < 2 ^ 16 then 251#8 :: natLE 2 n
    else if n < 2 ^ 32 then 252#8 :: natLE 4 n
    else 253#8 :: natLE 8 n
  dec l :=
    match l with
    | [] => none
    | b :: l =>
      if b.toNat < 251 then some (b.toNat, l)
      else if b = 251#8 then readLE 2 l
      else if b = 252#8 then readLE 4 l
      else if b = 253#8 then readLE 8 l
      else none

/-- `usize` and the lengths of sequences (`u64`).
bincode/serde, external; the derives in `src/rpc.rs:9-84` and `src/collect.rs:52-65`. -/
def u64 : IntEnc → Codec Nat
  | .fixint => ⟨natLE 8, readLE 8⟩
  | .varint => varint

/-- The index of an enumeration variant (`u32`).
bincode/serde, external; the derives in `src/rpc.rs:9-84` and `src/collect.rs:52-65`. -/
def tag : IntEnc → Codec Nat
  | .fixint => ⟨natLE 4, readLE 4⟩
  | .varint => varint

/-- `u8`.
bincode/serde, external; the derives in `src/rpc.rs:9-84` and `src/collect.rs:52-65`. -/
def byte : Codec Byte where
  enc b := [b]
  dec
    | [] => none
    | b :: l => some (b, l)

/-- `bool`: any byte except 0 and 1 is an error.
bincode/serde, external; the derives in `src/rpc.rs:9-84` and `src/collect.rs:52-65`. -/
def bool : Codec Bool where
  enc b := [if b then 1#8 else 0#8]
  dec
    | [] => none
    | b :: l => if b = 0#8 then some (false, l) else if b = 1#8 then some (true, l) else none

/-- `[u8; n]`: serde treats arrays as tuples, no length is written.
bincode/serde, external; the derives in `src/rpc.rs:9-84` and `src/collect.rs:52-65`. -/
def array (n : Nat) : Codec (Vector Byte n) where
  enc v := v.toList
  dec l := if h : n ≤ l.length then some (⟨(l.take n).toArray, by simp [h]⟩, l.drop n) else none

/-- A pair, or two consecutive fields.
bincode/serde, external; the derives in `src/rpc.rs:9-84` and `src/collect.rs:52-65`. -/
def pair (c : Codec α) (d : Codec β) : Codec (α × β) where
  enc p := c.enc p.1 ++ d.enc p.2
  dec l := (c.dec l).bind fun p => (d.dec p.2).map fun q => ((p.1, q.1), q.2)

/-- A structure, given by the tuple of its fields.
bincode/serde, external; the derives in `src/rpc.rs:9-84` and `src/collect.rs:52-65`. -/
def via (c : Codec α) (f : β → α) (g : α → β) : Codec β where
  enc b := c.enc (f b)
  dec l := (c.dec l).map fun p => (g p.1, p.2)

/-- `n` values in a row.
bincode/serde, external; the derives in `src/rpc.rs:9-84` and `src/collect.rs:52-65`. -/
def decN (c : Codec α) : Nat → List Byte → Option (List α × List Byte)
  | 0, l => some ([], l)
  | n + 1, l => (c.dec l).bind fun p => (decN c n p.2).map fun q => (p.1 :: q.1, q.2)

/-- `Vec<T>`.
bincode/serde, external; the derives in `src/rpc.rs:9-84` and `src/collect.rs:52-65`. -/
def vec (e : IntEnc) (c : Codec α) : Codec (List α) where
  enc v := (u64 e).enc v.length ++ (v.map c.enc).flatten
  dec l := ((u64 e).dec l).bind fun p => decN c p.1 p.2

/-- libprio's `Field128`: `serialize_bytes` of the canonical little-endian representative; reading fails for short
byte strings and for numbers that are not below the modulus.
bincode/serde, external; the derives in `src/rpc.rs:9-84` and `src/collect.rs:52-65`. -/
def field (e : IntEnc) : Codec Field128 where
  enc x := (u64 e).enc 16 ++ encodeField x
  dec l := ((u64 e).dec l).bind fun p => (takeBytes p.1 p.2).bind fun q =>
    if 16 ≤ p.1 ∧ leNat (q.1.take 16) < fieldModulus then some ((leNat (q.1.take 16) : Field128), q.2) else none

/-- `struct CorWord` (`src/vidpf.rs:7-12`). -/
def corWord (e : IntEnc) : Codec CorWord :=
  via (pair (array 16) (pair (pair bool bool) (vec e (field e))))
    (fun w => (w.seed, w.bits, w.word)) (fun t => ⟨t.1, t.2.1, t.2.2⟩)

/-- `struct VidpfKey` (`src/vidpf.rs:14-27`). -/
def vidpfKey (e : IntEnc) : Codec VidpfKey :=
  via (pair bool (pair (array 16) (pair (vec e (corWord e)) (vec e (array 16)))))
    (fun k => (k.keyIdx, k.rootSeed, k.corWords, k.cs)) (fun t => ⟨t.1, t.2.1, t.2.2.1, t.2.2.2⟩)

/-- `ReportShare::Mastic` without its tag (`src/collect.rs:54-59`). -/
def masticShare (e : IntEnc) : Codec (Block × VidpfKey × List Field128 × Block × Block) :=
  pair (array 16) (pair (vidpfKey e) (pair (vec e (field e)) (pair (array 16) (array 16))))

/-- `ReportShare::Prio3` without its tag (`src/collect.rs:60-64`). -/
def prio3Share (e : IntEnc) : Codec (Block × List Byte × List Byte) :=
  pair (array 16) (pair (vec e byte) (vec e byte))

/-- `enum ReportShare` (`src/collect.rs:52-65`). -/
def reportShare (e : IntEnc) : Codec ReportShare where
  enc
    | .mastic n k p j => (tag e).enc 0 ++ (masticShare e).enc (n, k, p, j)
    | .prio3 n pub inp => (tag e).enc 1 ++ (prio3Share e).enc (n, pub, inp)
  dec l := ((tag e).dec l).bind fun p =>
    match p.1 with
    | 0 => ((masticShare e).dec p.2).map fun q => (.mastic q.1.1 q.1.2.1 q.1.2.2.1 q.1.2.2.2, q.2)
    | 1 => ((prio3Share e).dec p.2).map fun q => (.prio3 q.1.1 q.1.2.1 q.1.2.2, q.2)
    | _ => none

/-- `collect::Result` (`src/collect.rs:154-161`). -/
def hhResult (e : IntEnc) : Codec HHResult :=
  via (pair (vec e bool) (vec e (field e))) (fun r => (r.path, r.value)) (fun t => ⟨t.1, t.2⟩)

/-- A `Vec<u8>` known to have 16 elements: the Merkle roots in the answer to `tree_crawl`, which the model keeps as
blocks.
bincode/serde, external; the derives in `src/rpc.rs:9-84` and `src/collect.rs:52-65`. -/
def bytes16 (e : IntEnc) : Codec Block where
  enc v := (u64 e).enc 16 ++ v.toList
  dec l := ((u64 e).dec l).bind fun p => if p.1 = 16 then (array 16).dec p.2 else none

/-- The answer to `tree_crawl` (`src/rpc.rs:105`). -/
def crawlResp (e : IntEnc) : Codec CrawlResp :=
  via (pair (vec e (vec e (field e))) (pair (vec e (bytes16 e)) (vec e (u64 e))))
    (fun r => (r.cntValues, r.roots, r.indices)) (fun t => ⟨t.1, t.2.1, t.2.2⟩)

end Codec

open Codec

/-- The index of a request in the enumeration that `#[tarpc::service]` derives from the trait `Collector`: the position
of the method (`src/rpc.rs:86-143`). -/
def Req.tag : Req → Nat
  | .treeInit => 0
  | .reset .. => 1
  | .addReportShares .. => 2
  | .runFlpQueries .. => 3
  | .applyFlpResults .. => 4
  | .treeCrawl .. => 5
  | .treeCrawlLast => 6
  | .getProofs .. => 7
  | .treePrune .. => 8
  | .finalShares => 9
  | .abmValidate .. => 10
  | .abmResult .. => 11
  | .pmValidate .. => 12
  | .pmResult .. => 13

/-- Two consecutive `usize` fields `start`, `end`.
bincode/serde, external; the derives in `src/rpc.rs:9-84` and `src/collect.rs:52-65`. -/
def rangeCodec (e : IntEnc) : Codec (Nat × Nat) := pair (u64 e) (u64 e)

/-- The fields of a request (`src/rpc.rs:9-83`). -/
def Req.encBody (e : IntEnc) : Req → List Byte
  | .treeInit => []
  | .reset vk b => (pair (array 16) (u64 e)).enc (vk, b)
  | .addReportShares rs => (vec e (reportShare e)).enc rs
  | .runFlpQueries s t => (rangeCodec e).enc (s, t)
  | .applyFlpResults keep => (vec e bool).enc keep
  | .treeCrawl s m l => (pair (u64 e) (pair (vec e (u64 e)) bool)).enc (s, m, l)
  | .treeCrawlLast => []
  | .getProofs s t => (rangeCodec e).enc (s, t)
  | .treePrune keep => (vec e bool).enc keep
  | .finalShares => []
  | .abmValidate a s t => (pair (vec e (vec e bool)) (rangeCodec e)).enc (a, s, t)
  | .abmResult rej n s t => (pair (vec e (u64 e)) (pair (u64 e) (rangeCodec e))).enc (rej, n, s, t)
  | .pmValidate s t => (rangeCodec e).enc (s, t)
  | .pmResult peers s t => (pair (vec e (vec e byte)) (rangeCodec e)).enc (peers, s, t)

/-- Reading the fields of the request with a given index. (`src/rpc.rs:86-143`) -/
def decReqBody (e : IntEnc) (l : List Byte) : Nat → Option (Req × List Byte)
  | 0 => some (.treeInit, l)
  | 1 => ((pair (array 16) (u64 e)).dec l).map fun q => (.reset q.1.1 q.1.2, q.2)
  | 2 => ((vec e (reportShare e)).dec l).map fun q => (.addReportShares q.1, q.2)
  | 3 => ((rangeCodec e).dec l).map fun q => (.runFlpQueries q.1.1 q.1.2, q.2)
  | 4 => ((vec e bool).dec l).map fun q => (.applyFlpResults q.1, q.2)
  | 5 => ((pair (u64 e) (pair (vec e (u64 e)) bool)).dec l).map fun q => (.treeCrawl q.1.1 q.1.2.1 q.1.2.2, q.2)
  | 6 => some (.treeCrawlLast, l)
  | 7 => ((rangeCodec e).dec l).map fun q => (.getProofs q.1.1 q.1.2, q.2)
  | 8 => ((vec e bool).dec l).map fun q => (.treePrune q.1, q.2)
  | 9 => some (.finalShares, l)
  | 10 => ((pair (vec e (vec e bool)) (rangeCodec e)).dec l).map fun q =>
      (.abmValidate q.1.1 q.1.2.1 q.1.2.2, q.2)
  | 11 => ((pair (vec e (u64 e)) (pair (u64 e) (rangeCodec e))).dec l).map fun q =>
      (.abmResult q.1.1 q.1.2.1 q.1.2.2.1 q.1.2.2.2, q.2)
  | 12 => ((rangeCodec e).dec l).map fun q => (.pmValidate q.1.1 q.1.2, q.2)
  | 13 => ((pair (vec e (vec e byte)) (rangeCodec e)).dec l).map fun q => (.pmResult q.1.1 q.1.2.1 q.1.2.2, q.2)
  | _ => none

/-- A request. (`src/rpc.rs:86-143`) -/
def reqCodec (e : IntEnc) : Codec Req where
  enc r := (Codec.tag e).enc r.tag ++ r.encBody e
  dec l := ((Codec.tag e).dec l).bind fun p => decReqBody e p.2 p.1

/-- `"Done"`, the `String` every handler without other result answers with (`src/bin/server.rs:58,69,77,111,138`).  The
model of the handlers does not keep it and the driver ignores it. -/
def doneText : List Byte := [68#8, 111#8, 110#8, 101#8]

/-- The value in an answer (`src/rpc.rs:86-143`). -/
def Resp.encBody (e : IntEnc) : Resp → List Byte
  | .done => (vec e byte).enc doneText
  | .crawl r => (crawlResp e).enc r
  | .fieldVecs v => (vec e (vec e (field e))).enc v
  | .proofs v => (vec e (array 16)).enc v
  | .shares v => (vec e (hhResult e)).enc v
  | .validated v => (vec e (pair (vec e (field e)) (array 32))).enc v
  | .bytes v => (vec e (vec e byte)).enc v
  | .aggregate v n => (pair (vec e (field e)) (u64 e)).enc (v, n)

/-- Reading the value of the answer to the request with a given index. (`src/rpc.rs:86-143`) -/
def decRespBody (e : IntEnc) (l : List Byte) : Nat → Option (Resp × List Byte)
  | 0 | 1 | 2 | 4 | 8 => ((vec e byte).dec l).map fun q => (.done, q.2)
  | 3 | 6 | 11 => ((vec e (vec e (field e))).dec l).map fun q => (.fieldVecs q.1, q.2)
  | 5 => ((crawlResp e).dec l).map fun q => (.crawl q.1, q.2)
  | 7 => ((vec e (array 16)).dec l).map fun q => (.proofs q.1, q.2)
  | 9 => ((vec e (hhResult e)).dec l).map fun q => (.shares q.1, q.2)
  | 10 => ((vec e (pair (vec e (field e)) (array 32))).dec l).map fun q => (.validated q.1, q.2)
  | 12 => ((vec e (vec e byte)).dec l).map fun q => (.bytes q.1, q.2)
  | 13 => ((pair (vec e (field e)) (u64 e)).dec l).map fun q => (.aggregate q.1.1 q.1.2, q.2)
  | _ => none

/-- An answer to the request with index `t`: tarpc derives an enumeration of the answers with the same indices.
(`src/rpc.rs:86-143`) -/
def encResp (e : IntEnc) (t : Nat) (a : Resp) : List Byte := (Codec.tag e).enc t ++ a.encBody e

/-- Reading an answer. (`src/rpc.rs:86-143`) -/
def decResp (e : IntEnc) (l : List Byte) : Option (Resp × List Byte) :=
  ((Codec.tag e).dec l).bind fun p => decRespBody e p.2 p.1

/-- tokio's `LengthDelimitedCodec`, which tarpc uses with its default configuration (`src/bin/driver.rs:693-702` and
`src/bin/server.rs:340` do not change it): a frame has at most 8 MiB. -/
def maxFrame : Nat := 8 * 1024 * 1024

/-- A connection: the bytes tarpc adds to a request and to an answer (trace context, deadline, request id) and the
frame limit. tarpc, external; `src/bin/server.rs:339-360`, `src/bin/driver.rs:693-702`. -/
structure Net where
  reqExtra : Nat
  respExtra : Nat
  limit : Nat

/-- One call over a connection.  A message above the frame limit is not sent and the connection is given up; so it is
after a message that cannot be read.  In these cases the caller gets an error, which the driver `unwrap`s.
tarpc, external; `src/bin/server.rs:339-360`, `src/bin/driver.rs:693-702`. -/
def netCall {P : Prims} (net : Net) (cfg : ServerCfg) (s : Server P) (r : Req) : Server P × Exec Resp :=
  if net.limit < net.reqExtra + ((reqCodec .varint).enc r).length then (s, .error .unwrap)
  else
    match (reqCodec .varint).dec ((reqCodec .varint).enc r) with
    | some (r', []) =>
      match (s.handle cfg r').2 with
      | .error p => ((s.handle cfg r').1, .error p)
      | .ok a =>
        if net.limit < net.respExtra + (encResp .varint r'.tag a).length then ((s.handle cfg r').1, .error .unwrap)
        else
          match decResp .varint (encResp .varint r'.tag a) with
          | some (a', []) => ((s.handle cfg r').1, .ok a')
          | _ => ((s.handle cfg r').1, .error .unwrap)
    | _ => (s, .error .unwrap)

/-- A driver process run against two servers over two connections: its result, if it does not fail.
tarpc, external; `src/bin/server.rs:339-360`, `src/bin/driver.rs:693-702`. -/
def Prog.netRun {P : Prims} {α : Type} (n0 n1 : Net) (c0 c1 : ServerCfg) :
    Prog α → Server P × Server P → Exec (α × Server P × Server P)
  | .ret a, s => .ok (a, s)
  | .panic p, _ => .error p
  | .ask r0 r1 k, s =>
    match (netCall n0 c0 s.1 r0).2, (netCall n1 c1 s.2 r1).2 with
    | .ok a, .ok b => (k a b).netRun n0 n1 c0 c1 ((netCall n0 c0 s.1 r0).1, (netCall n1 c1 s.2 r1).1)
    | .error p, _ => .error p
    | .ok _, .error p => .error p

/-- The sizes `generate_reports` prints for the first report (`src/bin/driver.rs:213-240`): nonce, joint-randomness
part, key and proof share of server 0; or the two whole shares. -/
def printedSizes : PlaintextReport → List Nat
  | .mastic n ks ps jr _ =>
    [((array 16).enc n).length, ((array 16).enc jr.1).length, ((vidpfKey .fixint).enc ks.1).length,
      ((vec .fixint (field .fixint)).enc ps.1).length]
  | r@(.prio3 ..) =>
    [((reportShare .fixint).enc r.toShares.1).length, ((reportShare .fixint).enc r.toShares.2).length]

end Mastic
