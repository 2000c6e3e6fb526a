import Verif.Model.System
import Verif.Spec.Crawl

/-!
# Specification: the requests that a run sends
-/

namespace Mastic.Spec

/-- A conversation of a driver process with the two servers: the driver sends the two requests of an entry, each
server handles its request and answers, and the driver goes on with the two answers until it has its result. -/
inductive Talk {P : Prims} {α : Type} (c0 c1 : ServerCfg) :
    Prog α → Server P → Server P → List (Req × Req) → α → Server P → Server P → Prop
  | ret (a : α) (s0 s1 : Server P) : Talk c0 c1 (.ret a) s0 s1 [] a s0 s1
  | ask (r0 r1 : Req) (k : Resp → Resp → Prog α) (s0 s1 t0 t1 u0 u1 : Server P) (a0 a1 : Resp)
      (sent : List (Req × Req)) (a : α) (h0 : s0.handle c0 r0 = (t0, .ok a0)) (h1 : s1.handle c1 r1 = (t1, .ok a1))
      (h : Talk c0 c1 (k a0 a1) t0 t1 sent a u0 u1) :
      Talk c0 c1 (.ask r0 r1 k) s0 s1 ((r0, r1) :: sent) a u0 u1

/-- The ranges of a loop over `n` clients in batches. -/
def batches (n batch : Nat) : List (Nat × Nat) :=
  (List.range ((n + batch - 1) / batch)).map fun k => (k * batch, min n (k * batch + batch))

/-- How many of the strings begin with `p`; `none` is a client without a string. -/
def countOf (strings : List (Option (List Bool))) (p : List Bool) : Nat :=
  strings.countP fun s => match s with
    | some s => p.isPrefixOf s
    | none => false

/-- The prefixes of length `m` that at least `T` strings have; the empty prefix always counts. -/
def heavyAt (T : Nat) (strings : List (Option (List Bool))) (m : Nat) : List (List Bool) :=
  (allPaths m).filter fun p => p.isEmpty || decide (T ≤ countOf strings p)

/-- Which extensions of the heavy prefixes of length `m` by one bit are heavy, in lexicographic order. -/
def decisions (T : Nat) (strings : List (Option (List Bool))) (m : Nat) : List Bool :=
  ((heavyAt T strings m).flatMap fun p => [p ++ [false], p ++ [true]]).map fun q => decide (T ≤ countOf strings q)

/-- The requests of a weighted-heavy-hitters run after the upload, the same for both servers, as a function of the
clients' strings (`none` for a client that the FLP verification rejects). -/
def whhScript (T batch d : Nat) (strings : List (Option (List Bool))) : List Req :=
  [.treeInit]
    ++ (batches strings.length batch).map (fun r => .runFlpQueries r.1 r.2)
    ++ [.applyFlpResults (strings.map Option.isSome)]
    ++ (List.range (d - 1)).flatMap (fun m => [.treeCrawl 1 [] false, .treePrune (decisions T strings m)])
    ++ [.treeCrawlLast]
    ++ (batches strings.length batch).map (fun r => .getProofs r.1 r.2)
    ++ [.treePrune (decisions T strings (d - 1)), .finalShares]

/-- The requests of an attribute-based-metrics run after the upload, the same for both servers, as a function of the
attributes, the batches and the reports rejected in each batch. -/
def abmScript (attributes : List (List Bool)) (rs : List (Nat × Nat)) (rejected : List (List Nat)) : List Req :=
  (rs.zip rejected).flatMap fun x =>
    [.abmValidate attributes x.1.1 x.1.2, .abmResult x.2 attributes.length x.1.1 x.1.2]

/-- Both servers get the same request. -/
def toBoth (rs : List Req) : List (Req × Req) := rs.map fun r => (r, r)

end Mastic.Spec
