import Verif.Spec.KeyHide
import Verif.Spec.Main
import Verif.Spec.Script

/-!
# What one server sees of a whole run
-/

namespace Mastic.Spec

/-- The string of a generated report. -/
def stringOf (d : Nat) (r : ReportDraw) : List Bool := (List.range d).map r.bits

/-- For each of the first `u` generated reports of a run the random values that one server does not know. -/
abbrev RunCoins (P : Prims) (u n d : Nat) (draw : MainDraw) : Type :=
  ∀ i : Fin u, KeyCoins P (draw.reports i).rand.rootSeeds (stringOf d (draw.reports i)) n

/-- The draws of a run with given weights and given such values; strings, seeds, nonces, the verify key, the reports that
the clients pick and the attributes stay as they are. -/
def runDraw {P : Prims} {u n d : Nat} (draw : MainDraw) (weight : Nat → Nat) (w : RunCoins P u n d draw) : MainDraw :=
  { draw with reports := fun i => if h : i < u then
      { draw.reports i with bucket := weight i, rand := coinsRand (draw.reports i).rand.nonce (w ⟨i, h⟩) }
    else draw.reports i }

/-- The cipher inputs behind the values of one server on the paths of all reports. -/
def runInput (P : Prims) (u n d : Nat) (draw : MainDraw) (server : Bool)
    (q : Σ i : Fin u, Fin (clientPath P (draw.reports i).rand.rootSeeds (stringOf d (draw.reports i))).length
      × Fin (n + 1)) : Block :=
  valueInput P (clientPath P (draw.reports q.1).rand.rootSeeds (stringOf d (draw.reports q.1))) server n q.2

/-- No cipher input behind the other server's values on the path of a report is used for anything else, by any report. -/
def FreshRun (P : Prims) (u n d : Nat) (draw : MainDraw) (own : Bool) : Prop :=
  Function.Injective (runInput P u n d draw (!own)) ∧ ∀ (q : _) (i : Fin u),
    ¬UsedInput P (draw.reports i).rand.rootSeeds (stringOf d (draw.reports i)) own n (runInput P u n d draw (!own) q)

/-- The cipher with given value entries for one server on the paths of all reports. -/
noncomputable def setRun (P : Prims) (u n d : Nat) (draw : MainDraw) (server : Bool) (w : RunCoins P u n d draw) :
    Prims :=
  let input := runInput P u n d draw server
  { P with aes := Function.extend input (fun q => vxor (Block.ofList (encodeField ((w q.1).1 q.2))) (input q)) P.aes }

/-- The requests that one of the servers gets. -/
def received (own : Bool) (sent : List (Req × Req)) : List Req := sent.map fun r => Pair.get r own

/-- The strings of the clients of a run. -/
def runStrings (d : Nat) (draw : MainDraw) (num : Nat) : List (List Bool) :=
  (List.range num).map fun i => stringOf d (MainDraw.of draw i)

/-- String and weight of the clients of a run whose generated reports have the given weights. -/
def runClients (d : Nat) (draw : MainDraw) (weight : Nat → Nat) (num : Nat) : List (List Bool × Nat) :=
  (List.range num).map fun i => (stringOf d (MainDraw.of draw i), weight ((draw.picks i).1 - 1))

end Mastic.Spec
