import Verif.Spec.RunHide

/-!
# A server that does not keep to its code
-/

namespace Mastic.Spec

variable {P : Prims} {α : Type}

/-- A driver process with one server that runs the code and one that answers as it likes: `lie` is its answer after the
requests that it has got so far, `got` those before the process starts.  `lying` says which server it is.  The result
is the requests that this server gets and the result of the process, if it comes to one: it does not if it panics or if
the other server does not answer. -/
def against (lying : Bool) (c : ServerCfg) (lie : List Req → Resp) :
    Prog α → Server P → List Req → List Req × Option α
  | .ret a, _, got => (got, some a)
  | .panic _, _, got => (got, none)
  | .ask r0 r1 k, s, got =>
    match s.handle c (Pair.get (r0, r1) (!lying)) with
    | (t, .ok a) => against lying c lie (k (if lying then a else lie (got ++ [Pair.get (r0, r1) lying]))
        (if lying then lie (got ++ [Pair.get (r0, r1) lying]) else a)) t (got ++ [Pair.get (r0, r1) lying])
    | (_, .error _) => (got ++ [Pair.get (r0, r1) lying], none)

/-- The answer of a server that runs the code to the last of the requests. -/
def honestly (c : ServerCfg) (s : Server P) (got : List Req) : Resp :=
  match (Server.run c s got).2.getLast? with
  | some (.ok a) => a
  | _ => .done

/-- A wrong answer: the counters of a crawl are too large by `up`, and the FLP verifier shares of the clients that `pick`
does not want are spoiled. -/
def bent (n up : Nat) (pick : Nat → Bool) : Req → Resp → Resp
  | .treeCrawl _ _ _, .crawl r => .crawl { r with cntValues := r.cntValues.map fun v => v.modify n (· + (up : Field128)) }
  | .treeCrawlLast, .fieldVecs v => .fieldVecs (v.map fun v => v.modify n (· + (up : Field128)))
  | .runFlpQueries start _, .fieldVecs v =>
    .fieldVecs (v.mapIdx fun j x => if pick (start + j) then x else x.modify 0 (· + 1))
  | _, a => a

/-- A server that answers as the code does except for `bent`. -/
def benter (n up : Nat) (pick : Nat → Bool) (c : ServerCfg) (s : Server P) (got : List Req) : Resp :=
  match got.getLast? with
  | some r => bent n up pick r (honestly c s got)
  | none => .done

/-- A verifier with another first entry is refused. -/
def FirstMatters (P : Prims) (n : Nat) : Prop :=
  ∀ v, P.flpDecide n v = some true → P.flpDecide n (v.modify 0 (· + 1)) = some false

/-- All bit strings of length 1 to `d`. -/
def upTo (d : Nat) : List (List Bool) := (List.range d).flatMap fun k => allPaths (k + 1)

/-- The clients that `pick` wants. -/
def picked {α : Type} (pick : Nat → Bool) (clients : List α) : List (Option α) :=
  clients.mapIdx fun i c => if pick i then some c else none

end Mastic.Spec
