import Verif.Spec.Split

/-!
# Specification: a report that counts for every string
-/

namespace Mastic.Spec

/-- The field element that is one half: `half + half = 1`. -/
def half : Field128 := (((fieldModulus + 1) / 2 : Nat) : Field128)

/-- What the flat report shares at `p`: the weight halved once per bit, and the count `ctr` of its length. -/
def flatValue (beta : List Field128) (ctr : Nat → Field128) (p : List Bool) : List Field128 :=
  beta.map (fun x => x * half ^ p.length) ++ [ctr p.length]

/-- `key` with correction words that keep both servers' seeds equal and their control bits different at every
node of the first `d` levels, and proof corrections zero.  The payload of a level is the value of its nodes, with the
sign that makes the difference of the two servers' shares positive. -/
def flatKey (beta : List Field128) (ctr : Nat → Field128) (d : Nat) (key : VidpfKey) : VidpfKey :=
  { key with
    corWords := (List.range d).map fun l =>
      { seed := Block.zero, bits := (true, true)
        word := (beta.map (fun x => x * half ^ (l + 1)) ++ [ctr (l + 1)]).map fun x =>
          if l % 2 = 0 then x else -x }
    cs := List.replicate d Block.zero }

/-- The report share with the flat key. -/
def flatShare (beta : List Field128) (ctr : Nat → Field128) (d : Nat) : ReportShare → ReportShare
  | .mastic nonce key proof parts => .mastic nonce (flatKey beta ctr d key) proof parts
  | s => s

end Mastic.Spec
