import Verif.Spec.Main
import Verif.Spec.Prio3

/-!
# Specification: runs of the three modes over the same clients
-/

namespace Mastic.Spec

/-- A run of attribute-based metrics with a sensible configuration, a complete FLP, attribute samples in range and no
tampering; `clients` are the strings and weights. -/
structure AttrRun (P : Prims) (c0 c1 : ServerCfg) (cfg : Config) (draw : MainDraw) (n d num : Nat)
    (clients : List (List Bool × Nat)) : Prop where
  sensible : Sensible P cfg draw n
  proves : Proves P cfg draw
  bits : cfg.dataBits = some d
  one : 1 ≤ d
  id0 : c0.serverId = 0
  id1 : c1.serverId ≠ 0
  complete : ∀ i < n, FlpCompleteAt P cfg.histBuckets (P.xofField draw.verifyKey
    (MainDraw.of draw i).rand.nonce.toList (P.queryRandLen cfg.histBuckets))
  honest : ∀ i < n, (draw.picks i).2 ≠ some .flp
  samples : ∀ j < num, draw.attributes j < cfg.uniqueBuckets
  clients_eq : clients = (List.range n).map fun i => drawn cfg.histBuckets d (MainDraw.of draw i)
  nonempty : 1 ≤ n
  small : n < fieldModulus

/-- A run of plain metrics with libprio's Prio3, a sensible configuration, suitable query points and no tampering;
`buckets` are the weights. -/
structure PlainRun (P : Prims) (X : Prio3Xof) (c0 c1 : ServerCfg) (cfg : Config) (draw : MainDraw) (n : Nat)
    (buckets : List Nat) : Prop where
  sensible : Sensible (P.withPrio3 X) cfg draw n
  prio3 : P.prio3Ok cfg.histBuckets = true
  buckets_lt : cfg.histBuckets < 2 ^ 64
  query : ∀ i < n, queryPoint X draw.verifyKey (MainDraw.of draw i).rand.nonce
    ^ points cfg.histBuckets (chunk cfg.histBuckets) ≠ 1
  id0 : c0.serverId = 0
  id1 : c1.serverId = 1
  small : n < fieldModulus
  honest : ∀ i < n, (draw.picks i).2 = none
  buckets_eq : buckets = (List.range n).map fun i => (MainDraw.of draw i).bucket % cfg.histBuckets

/-- What a list of batches of plain metrics shows in total for one bucket. -/
def plainTotal (outs : List PmOut) (k : Nat) : Nat := (outs.map fun o => (o.result[k]?).getD 0).sum

/-- What rows of field elements, read as numbers, show in total for one bucket. -/
def rowTotal (rows : List (List Field128)) (k : Nat) : Nat := (rows.map fun r => ((r[k]?).map ZMod.val).getD 0).sum

end Mastic.Spec
