import Verif.Spec.Crawl
import Verif.Spec.Attack

/-!
# Specification: offsets that the crawl's weight checks do not see
-/

namespace Mastic.Spec

/-- `key` with `ds l` added to the payload of the correction word of every level `l`. -/
def shiftWords (key : VidpfKey) (ds : Nat → List Field128) : VidpfKey :=
  { key with corWords := key.corWords.mapIdx fun l c => { c with word := addShares c.word (ds l) } }

/-- `x` in position `i` of a vector of length `m`, zeros elsewhere. -/
def single (m i : Nat) (x : Field128) : List Field128 :=
  (List.range m).map fun j => if j = i then x else 0

/-- The low 64 bits of the encoding of a field element. -/
def low64 (x : Field128) : Nat := x.val % 2 ^ 64

/-- The pair of shares with `ds` added to the payloads of both keys. -/
def shiftShare (ds : Nat → List Field128) : ReportShare → ReportShare
  | .mastic nonce key proof parts => .mastic nonce (shiftWords key ds) proof parts
  | s => s

end Mastic.Spec
