import Verif.Spec.Tap
import Verif.Spec.Wire
import Verif.Spec.Script
import Verif.Spec.Collude
import Verif.Spec.Prio3

/-!
# Specification: the lengths of the messages of a run

Every call is a pair of numbers: the bytes of the request and the bytes of the answer (without the header that tarpc
puts in front of both, which has a length of its own).
-/

namespace Mastic.Spec

/-- Bytes of a vector of `k` elements of `s` bytes each. -/
def vecLen (e : IntEnc) (k s : Nat) : Nat := intLen e k + k * s

/-- Bytes of the answer `"Done"`. -/
def doneLen (e : IntEnc) : Nat := tagLen e + vecLen e 4 1

/-- Bytes of a request with a range of clients and nothing else. -/
def rangeLen (e : IntEnc) (r : Nat × Nat) : Nat := tagLen e + (intLen e r.1 + intLen e r.2)

/-- Bytes of a vector of `k` field elements. -/
def fieldsLen (e : IntEnc) (k : Nat) : Nat := vecLen e k (fieldLen e)

/-- The reset and the upload of `n` shares of `share` bytes each in batches of `add`. -/
def startLens (e : IntEnc) (b n add share : Nat) : List (Nat × Nat) :=
  (tagLen e + (16 + intLen e b), doneLen e)
    :: (batches n add).map fun r => (tagLen e + vecLen e (r.2 - r.1) share, doneLen e)

/-- Weighted heavy hitters: `b` buckets, `n` clients, strings of `d` bits, proofs of `l` and verifiers of `v` elements,
`h m` heavy prefixes of length `m`. -/
def whhLens (e : IntEnc) (b n d add query l v : Nat) (h : Nat → Nat) : List (Nat × Nat) :=
  startLens e b n add (masticLen e d b l)
    ++ [(tagLen e, doneLen e)]
    ++ (batches n query).map (fun r => (rangeLen e r, tagLen e + vecLen e (r.2 - r.1) (fieldsLen e v)))
    ++ [(tagLen e + vecLen e n 1, doneLen e)]
    ++ (List.range (d - 1)).flatMap (fun m =>
      [(tagLen e + (intLen e 1 + (intLen e 0 + 1)),
          tagLen e + (vecLen e (2 * h m) (fieldsLen e (b + 1)) + (vecLen e 1 (intLen e 16 + 16) + vecLen e 1 (intLen e 0)))),
        (tagLen e + vecLen e (2 * h m) 1, doneLen e)])
    ++ [(tagLen e, tagLen e + vecLen e (2 * h (d - 1)) (fieldsLen e (b + 1)))]
    ++ (batches n query).map (fun r => (rangeLen e r, tagLen e + vecLen e (r.2 - r.1) 16))
    ++ [(tagLen e + vecLen e (2 * h (d - 1)) 1, doneLen e),
        (tagLen e, tagLen e + vecLen e (h d) (vecLen e d 1 + fieldsLen e (b + 1)))]

/-- Attribute-based metrics: `k` attributes of `d` bits. -/
def abmLens (e : IntEnc) (b n d add query l v k : Nat) : List (Nat × Nat) :=
  startLens e b n add (masticLen e d b l) ++ (batches n query).flatMap fun r =>
    [(tagLen e + (vecLen e k (vecLen e d 1) + (intLen e r.1 + intLen e r.2)),
        tagLen e + vecLen e (r.2 - r.1) (fieldsLen e v + 32)),
      (tagLen e + (intLen e 0 + (intLen e k + (intLen e r.1 + intLen e r.2))), tagLen e + vecLen e k (fieldsLen e b))]

/-- Bytes of a Prio3 share: the leader's input share contains the measurement and the proof, the helper's three seeds. -/
def prio3Len (e : IntEnc) (b : Nat) (own : Bool) : Nat :=
  tagLen e + 16 + vecLen e 32 1 + vecLen e
    (if own then 48 else 16 * (b + (2 * chunk b + (2 * (points b (chunk b) - 1) + 1)) + 1)) 1

/-- Bytes of a Prio3 preparation share, without its length. -/
def prepLen (b : Nat) : Nat := 16 * (2 * chunk b + 2) + 16

/-- Plain metrics, the connection to server `own`. -/
def pmLens (e : IntEnc) (b n add query : Nat) (own : Bool) : List (Nat × Nat) :=
  startLens e b n add (prio3Len e b own) ++ (batches n query).flatMap fun r =>
    [(rangeLen e r, tagLen e + vecLen e (r.2 - r.1) (vecLen e (prepLen b) 1)),
      (tagLen e + (vecLen e (r.2 - r.1) (vecLen e (prepLen b) 1) + (intLen e r.1 + intLen e r.2)),
        tagLen e + (fieldsLen e b + intLen e 0))]

/-- What somebody sees of the connection to server `own` who cannot read the messages: their lengths. -/
def seenLens (e : IntEnc) (own : Bool) (sent : List (Req × Req)) (got : List (Resp × Resp)) : List (Nat × Nat) :=
  ((carried e own sent).map List.length).zip ((returned e own sent got).map List.length)

end Mastic.Spec
