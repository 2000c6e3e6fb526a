import Verif.Spec.Driver

/-!
# Specifications for attribute-based and plain metrics
-/

namespace Mastic.Spec

/-- Entry in row `j` and column `c` of a table of values; absent entries count as zero. -/
def cell (rows : List (List Field128)) (j c : Nat) : Field128 :=
  ((rows[j]?).bind fun r => r[c]?).getD 0

/-- A table with exactly `m` rows of exactly `n` columns. -/
def IsTable (m n : Nat) (rows : List (List Field128)) : Prop :=
  rows.length = m ∧ ∀ r ∈ rows, r.length = n

/-- `rows` is the `m × n` table whose entries are the sums of the entries of the given tables. -/
def IsSum (m n : Nat) (tables : List (List (List Field128))) (rows : List (List Field128)) : Prop :=
  IsTable m n rows ∧ ∀ j < m, ∀ c < n, cell rows j c = (tables.map fun t => cell t j c).sum

/-- The keys of an association list are distinct. -/
def DistinctKeys {α : Type} (m : List (Nat × α)) : Prop := (m.map Prod.fst).Nodup

/-- The histogram with `n` buckets of the listed bucket numbers. -/
def histogram (n : Nat) (buckets : List Nat) : List Field128 :=
  (List.range n).map fun c => ((buckets.countP fun b => b == c : Nat) : Field128)

end Mastic.Spec

namespace Mastic.Spec

/-- The table of value shares of a report share for a list of attributes: one row per attribute. -/
def tableOf (P : Prims) (n : Nat) (attributes : List (List Bool)) (s : ReportShare) :
    Option (List (List Field128)) :=
  (keyOf s).bind fun key => attributes.mapM fun p => valueAt P key n p

end Mastic.Spec

namespace Mastic.Spec

/-- The report lists of the two servers are those of honest clients with the given strings and weights,
in order. -/
def HonestReports (P : Prims) (n : Nat) (clients : List (List Bool × Nat))
    (rs0 rs1 : List (Bool × ReportShare)) : Prop :=
  rs0.length = clients.length ∧ rs1.length = clients.length ∧
  ∀ (i : Nat) (c : List Bool × Nat) (r0 r1 : Bool × ReportShare), clients[i]? = some c →
    rs0[i]? = some r0 → rs1[i]? = some r1 → HonestPair P n c.1 c.2 r0.2 r1.2

/-- The FLP is complete at the query randomness of every report. -/
def FlpCompleteFor (P : Prims) (n : Nat) (vk : Block) (rs : List (Bool × ReportShare)) : Prop :=
  ∀ r ∈ rs, FlpCompleteAt P n (P.xofField vk r.2.nonce.toList (P.queryRandLen n))

/-- For every attribute, the histogram of the weights of the clients holding it. -/
def attributeHistograms (n : Nat) (attributes : List (List Bool)) (clients : List (List Bool × Nat)) :
    List (List Field128) :=
  attributes.map fun p => histogram n ((clients.filter fun c => p.isPrefixOf c.1).map Prod.snd)

end Mastic.Spec

namespace Mastic.Spec

/-- The preparation state and share of a Prio3 report share. -/
def prepOf (P : Prims) (n aggId : Nat) (vk : Block) : ReportShare → Option (P.PrepState × P.PrepShare)
  | .mastic .. => none
  | .prio3 nonce pub inp => P.prepInit n aggId vk nonce pub inp

/-- The output share of the aggregator in state `st` when leader share `l` and helper share `h` are
combined; `none` when the report is rejected. -/
def outputOf (P : Prims) (n : Nat) (st : P.PrepState) (l h : P.PrepShare) : Option (List Field128) :=
  (P.prepCombine n l h).bind fun msg => P.prepNext n st msg

/-- The preparation share of one server is read back by a server that prepares for the same number of buckets. -/
def SharesRead (P : Prims) (n : Nat) : Prop :=
  ∀ (id id' : Nat) (vk vk' : Block) (s s' : ReportShare) (x x' : P.PrepState × P.PrepShare),
    prepOf P n id vk s = some x → prepOf P n id' vk' s' = some x' → P.prepDecode x.1 (P.prepEncode x'.2) = some x'.2

/-- Entry `c` of the sum of vectors; absent entries count as zero. -/
def entrySum (vs : List (List Field128)) (c : Nat) : Field128 := (vs.map fun v => (v[c]?).getD 0).sum

end Mastic.Spec

namespace Mastic.Spec

/-- Completeness of Prio3 for one report: both preparations succeed, the combined message is accepted by
both, and the two output shares add up to the encoded weight. -/
def Prio3Complete (P : Prims) (n helperId : Nat) (vk0 vk1 : Block) (bucket : Nat) (s0 s1 : ReportShare) :
    Prop :=
  ∃ x0 x1 o0 o1, prepOf P n 0 vk0 s0 = some x0 ∧ prepOf P n helperId vk1 s1 = some x1 ∧
    outputOf P n x0.1 x0.2 x1.2 = some o0 ∧ outputOf P n x1.1 x0.2 x1.2 = some o1 ∧
    o0.length = n ∧ o1.length = n ∧ encodeMeasurement n bucket = some (addShares o0 o1)

/-- How many of the listed buckets equal each bucket number below `n`. -/
def bucketCounts (n : Nat) (buckets : List Nat) : List Nat :=
  (List.range n).map fun c => buckets.countP fun b => b == c

/-- `s0` and `s1` are the shares an honest plain-metrics client with weight `bucket` sends. -/
def HonestPrio3 (P : Prims) (n bucket : Nat) (s0 s1 : ReportShare) : Prop :=
  ∃ nonce rand rep, genPrio3Report P n bucket nonce rand = .ok rep ∧ (s0, s1) = rep.toShares

end Mastic.Spec
