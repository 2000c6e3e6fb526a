import Verif.Spec.Metrics

/-!
# Specifications for the crawl: what is checked, counted and reported
-/

namespace Mastic.Spec

/-- What a server checks for one report at one prefix: at the root, that the counters of the two children
add up to 1; below, that the weights of the two children add up to those of the prefix.  `first` is the
server with index 0; the two servers' vectors are equal iff the reconstructed values pass.  (Values are
always present when this is used: the keys reach the level.) -/
def prefixCheck (P : Prims) (n : Nat) (first : Bool) (key : VidpfKey) (p : List Bool) : List Field128 :=
  let y (q : List Bool) (i : Nat) : Field128 := ((valueAt P key n q).getD []).getD i 0
  if p = [] then
    [if first then 1 - y [false] n - y [true] n else y [false] n + y [true] n]
  else (List.range n).map fun i =>
    if first then y p i - y (p ++ [false]) i - y (p ++ [true]) i
    else y (p ++ [false]) i + y (p ++ [true]) i - y p i

/-- XOR of the low eight bytes of the encodings. -/
def foldBytes (xs : List Field128) : List Byte :=
  xs.foldl (fun acc x => List.zipWith (fun a b => a ^^^ b) acc ((encodeField x).take 8))
    (List.replicate 8 0)

/-- XOR of blocks. -/
def xorBlocks (bs : List Block) : Block := bs.foldl vxor Block.zero

/-- XOR of a report's proofs at the children of the given prefixes. -/
def proofsAt (P : Prims) (n : Nat) (key : VidpfKey) (paths : List (List Bool)) : Block :=
  xorBlocks (paths.flatMap fun p => [(proofAt P key n (p ++ [false])).getD Block.zero,
    (proofAt P key n (p ++ [true])).getD Block.zero])

/-- The digest a server computes for one report when it crawls the given prefixes. -/
def digestAt (P : Prims) (n : Nat) (first : Bool) (paths : List (List Bool)) (key : VidpfKey) : Block :=
  vxor (proofsAt P n key paths)
    (first16 (P.blake3 (foldBytes (paths.flatMap (prefixCheck P n first key)))))

/-- The digests of the included reports, in order. -/
def digests (P : Prims) (n : Nat) (first : Bool) (paths : List (List Bool))
    (reports : List (Bool × ReportShare)) : List Block :=
  (included reports).filterMap fun ir => (keyOf ir.2).map (digestAt P n first paths)

/-- The key pairs of the reports that are included. -/
def keyPairs (r0 r1 : List (Bool × ReportShare)) : List (VidpfKey × VidpfKey) :=
  (r0.zip r1).filterMap fun ab =>
    if ab.1.1 then (keyOf ab.1.2).bind fun a => (keyOf ab.2.2).map fun b => (a, b) else none

/-- The sum over the given key pairs of the values shared at `p`. -/
def tally (P : Prims) (n : Nat) (pairs : List (VidpfKey × VidpfKey)) (p : List Bool) : List Field128 :=
  sumVecs (n + 1) (pairs.map fun k => (reconAt P k.1 k.2 n p).getD [])

/-- The count the driver compares with the threshold: the counter of the tally, cut to 64 bits. -/
def countAt (P : Prims) (n : Nat) (pairs : List (VidpfKey × VidpfKey)) (p : List Bool) : Nat :=
  ((tally P n pairs p).getD n 0).val % 2 ^ 64

/-- Every non-empty prefix of `p` reaches the threshold. -/
def heavy (P : Prims) (n T : Nat) (pairs : List (VidpfKey × VidpfKey)) (p : List Bool) : Bool :=
  p.inits.all fun q => q.isEmpty || decide (T ≤ countAt P n pairs q)

/-- The heavy strings of length `m`, in lexicographic order. -/
def heavyPaths (P : Prims) (n T : Nat) (pairs : List (VidpfKey × VidpfKey)) (m : Nat) :
    List (List Bool) :=
  (allPaths m).filter (heavy P n T pairs)

end Mastic.Spec

namespace Mastic.Spec

/-- The checks of the crawls above the last level do not tell the two keys of a report apart: whatever
distinct prefixes are crawled, the servers' digests agree (`d` levels in total). -/
def QuietInner (P : Prims) (n d : Nat) (k0 k1 : VidpfKey) : Prop :=
  ∀ (m : Nat) (paths : List (List Bool)), m + 1 < d → paths.Nodup → (∀ p ∈ paths, p.length = m) →
    digestAt P n true paths k0 = digestAt P n false paths k1

/-- None of the checks does: moreover the XORs of the proofs agree on the last level. -/
def QuietPair (P : Prims) (n d : Nat) (k0 k1 : VidpfKey) : Prop :=
  QuietInner P n d k0 k1 ∧
  ∀ paths : List (List Bool), paths.Nodup → (∀ p ∈ paths, p.length + 1 = d) →
    proofsAt P n k0 paths = proofsAt P n k1 paths

/-- The servers agree on who is included, and all included reports satisfy `R`. -/
def AllPairs (R : VidpfKey → VidpfKey → Prop) (r0 r1 : List (Bool × ReportShare)) : Prop :=
  r0.map Prod.fst = r1.map Prod.fst ∧
  ∀ (i : Nat) (s0 s1 : ReportShare), r0[i]? = some (true, s0) → r1[i]? = some (true, s1) →
    ∃ k0 k1, keyOf s0 = some k0 ∧ keyOf s1 = some k1 ∧ R k0 k1

/-- The servers agree on who is included, and all included reports are quiet. -/
def QuietReports (P : Prims) (n d : Nat) (r0 r1 : List (Bool × ReportShare)) : Prop :=
  AllPairs (QuietPair P n d) r0 r1

end Mastic.Spec

namespace Mastic.Spec

/-- The clients whose string starts with `p`. -/
def holders (clients : List (List Bool × Nat)) (p : List Bool) : List (List Bool × Nat) :=
  clients.filter fun c => p.isPrefixOf c.1

/-- What a weighted-heavy-hitters run should report: the strings of length `d` that at least `T` clients
hold, in lexicographic order, each with the histogram of its holders' weights and their number. -/
def heavyHitters (n T d : Nat) (clients : List (List Bool × Nat)) : List (List Bool × List Field128) :=
  ((allPaths d).filter fun s => decide (T ≤ clients.countP fun c => c.1 == s)).map fun s =>
    (s, histogram n ((clients.filter fun c => c.1 == s).map Prod.snd)
      ++ [((clients.countP fun c => c.1 == s : Nat) : Field128)])

end Mastic.Spec

namespace Mastic.Spec

/-- A Mastic report share whose key has at least `d` levels. -/
def WellFormed (d : Nat) (s : ReportShare) : Prop :=
  ∃ key, keyOf s = some key ∧ key.cs.length = key.corWords.length ∧ d ≤ key.corWords.length

/-- The FLP verification rejects the report: both servers compute a verifier share and the decision on
their sum is negative. -/
def FlpRejected (P : Prims) (n : Nat) (id0 id1 : Int) (vk : Block) (s0 s1 : ReportShare) : Prop :=
  ∃ v0 v1, verifierOf P n id0 vk s0 = some v0 ∧ verifierOf P n id1 vk s1 = some v1 ∧
    P.flpDecide n (addShares v0 v1) = some false

/-- The two servers' report lists come from clients of two kinds, in order: honest ones with a string of
length `d` and a weight (for which the FLP is complete), and arbitrary ones with well-formed keys which the
FLP verification rejects. -/
def Population (P : Prims) (n d : Nat) (id0 id1 : Int) (vk : Block)
    (clients : List (Option (List Bool × Nat))) (rs0 rs1 : List (Bool × ReportShare)) : Prop :=
  rs0.length = clients.length ∧ rs1.length = clients.length ∧
  ∀ (i : Nat) (c : Option (List Bool × Nat)) (b0 b1 : Bool) (s0 s1 : ReportShare),
    clients[i]? = some c → rs0[i]? = some (b0, s0) → rs1[i]? = some (b1, s1) →
    b0 = true ∧ b1 = true ∧
    match c with
    | some (alpha, bucket) => HonestPair P n alpha bucket s0 s1 ∧ alpha.length = d ∧
        FlpCompleteAt P n (P.xofField vk s0.nonce.toList (P.queryRandLen n))
    | none => WellFormed d s0 ∧ WellFormed d s1 ∧ FlpRejected P n id0 id1 vk s0 s1

end Mastic.Spec
