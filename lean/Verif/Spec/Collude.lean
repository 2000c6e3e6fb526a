import Verif.Spec.RunHide

/-!
# What one server and the collector see together
-/

namespace Mastic.Spec

/-- A conversation, with the answers of the two servers. -/
inductive Hears {P : Prims} {α : Type} (c0 c1 : ServerCfg) :
    Prog α → Server P → Server P → List (Req × Req) → List (Resp × Resp) → α → Server P → Server P → Prop
  | ret (a : α) (s0 s1 : Server P) : Hears c0 c1 (.ret a) s0 s1 [] [] a s0 s1
  | ask (r0 r1 : Req) (k : Resp → Resp → Prog α) (s0 s1 t0 t1 u0 u1 : Server P) (a0 a1 : Resp)
      (sent : List (Req × Req)) (got : List (Resp × Resp)) (a : α) (h0 : s0.handle c0 r0 = (t0, .ok a0))
      (h1 : s1.handle c1 r1 = (t1, .ok a1)) (h : Hears c0 c1 (k a0 a1) t0 t1 sent got a u0 u1) :
      Hears c0 c1 (.ask r0 r1 k) s0 s1 ((r0, r1) :: sent) ((a0, a1) :: got) a u0 u1

/-- The request is not part of the upload. -/
def notUpload : Req → Bool
  | .addReportShares _ => false
  | _ => true

/-- The prefixes of a run at which the servers evaluate the keys: the extensions of the heavy prefixes by one bit. -/
def askedAt (T d : Nat) (strings : List (Option (List Bool))) : List (List Bool) :=
  (List.range d).flatMap fun m => (heavyAt T strings m).flatMap fun p => [p ++ [false], p ++ [true]]

/-- The cipher inputs of an evaluation along a string, from seed and control bit; of the correction words only seeds and
control bits matter. -/
def evalInputs (P : Prims) (n : Nat) : List (Block × Bool × Bool) → List Bool → Bool → Block → List Block
  | cw :: cws, b :: bits, t, s =>
    let u := if t then vxor (child P s b) cw.1 else child P s b
    cipherInput P (maskKey s) (if b then 1 else 0) :: (List.range (n + 2)).map (cipherInput P u) ++
      evalInputs P n cws bits (if t then !(Pair.get cw.2 b) else true) (vxor (P.aes u) u)
  | _, _, _, _ => []

/-- Seeds and control bits of the correction words of a client's keys; they do not depend on the weight. -/
def seedWords (P : Prims) (rs : Block × Block) (alpha : List Bool) (n : Nat) : List (Block × Bool × Bool) :=
  (VidpfKey.gen P rs alpha (List.replicate n 0)).1.corWords.map fun cw => (cw.seed, cw.bits)

/-- No cipher input behind the other server's values on the path of a report is used in the evaluations of the server
`own` at the given strings. -/
def FreshEvals (P : Prims) (u n d : Nat) (draw : MainDraw) (own : Bool) (paths : List (List Bool)) : Prop :=
  ∀ (q : _) (i : Fin u), ∀ p ∈ paths, runInput P u n d draw (!own) q ∉ evalInputs P n
    (seedWords P (draw.reports i).rand.rootSeeds (stringOf d (draw.reports i)) n) p own
    (Pair.get (draw.reports i).rand.rootSeeds own)

/-- The total weights of the clients below a prefix. -/
def weightsBelow (n d : Nat) (draw : MainDraw) (weight : Nat → Nat) (num : Nat) (p : List Bool) : List Field128 :=
  histogram n ((holders (runClients d draw weight num) p).map Prod.snd)

end Mastic.Spec
