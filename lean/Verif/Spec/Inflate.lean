import Verif.Spec.Deviate

/-!
# A server that adds something to its aggregates
-/

namespace Mastic.Spec

variable {P : Prims}

/-- The sum of two tables of the same shape. -/
def plus (a b : List (List Field128)) : List (List Field128) := List.zipWith addShares a b

/-- Counters with something added to them, modulo the field size. -/
def shifted (result : List Nat) (e : List Field128) : List Nat :=
  (addShares (result.map fun x : Nat => (x : Field128)) e).map ZMod.val

/-- Wrong answers in the modes without threshold: `rows k` is added to the aggregate of batch `k` of attribute-based metrics,
`row k` to that of plain metrics. -/
def inflate (batch : Nat) (rows : Nat → List (List Field128)) (row : Nat → List Field128) : Req → Resp → Resp
  | .abmResult _ _ s _, .fieldVecs v => .fieldVecs (plus v (rows (s / batch)))
  | .pmResult _ s _, .aggregate v m => .aggregate (addShares v (row (s / batch))) m
  | _, a => a

/-- A server that answers as the code does except for `inflate`. -/
def inflater (batch : Nat) (rows : Nat → List (List Field128)) (row : Nat → List Field128) (c : ServerCfg) (s : Server P)
    (got : List Req) : Resp :=
  match got.getLast? with
  | some r => inflate batch rows row r (honestly c s got)
  | none => .done

end Mastic.Spec
