import Verif.Model.Vidpf

/-!
# Specification of the VIDPF

The point function, and plain bit-by-bit evaluation of one path with a fresh state (no cache).
-/

namespace Mastic.Spec

/-- Value of the weighted point function at a prefix: `beta` followed by the counter 1 on prefixes of
`alpha`, zeros elsewhere. -/
def pointValue (alpha : List Bool) (beta : List Field128) (pfx : List Bool) : List Field128 :=
  if pfx <+: alpha then beta ++ [1] else List.replicate (beta.length + 1) 0

/-- Componentwise sum of two share vectors. -/
def addShares (a b : List Field128) : List Field128 := List.zipWith (fun x y => x + y) a b

/-- `'0'` / `'1'` characters of a path. -/
def pathString (path : List Bool) : List Byte := path.map fun b => if b then 49#8 else 48#8

/-- Evaluate the bits of a path one after the other with `eval_bit`, starting after the path `done`
with state `st` and last value `w`. -/
def walk (P : Prims) (key : VidpfKey) (inputLen : Nat) :
    (done : List Bool) → EvalState → Option (List Field128) → List Bool →
    Exec (EvalState × Option (List Field128))
  | _, st, w, [] => .ok (st, w)
  | done, st, _, b :: bs => do
    let r ← key.evalBit P st b (pathString (done ++ [b])) inputLen
    walk P key inputLen (done ++ [b]) r.1 (some r.2) bs

/-- State and value share of `key` at `path`, from a fresh state. -/
def evalPath (P : Prims) (key : VidpfKey) (inputLen : Nat) (path : List Bool) :
    Exec (EvalState × Option (List Field128)) :=
  walk P key inputLen [] key.evalInit none path

end Mastic.Spec

namespace Mastic.Spec

/-- Value share at a path. -/
def valueAt (P : Prims) (key : VidpfKey) (inputLen : Nat) (path : List Bool) :
    Option (List Field128) :=
  match evalPath P key inputLen path with
  | .ok (_, w) => w
  | .error _ => none

/-- One-hot proof at a path. -/
def proofAt (P : Prims) (key : VidpfKey) (inputLen : Nat) (path : List Bool) : Option Block :=
  match evalPath P key inputLen path with
  | .ok (st, _) => some st.proof
  | .error _ => none

/-- Componentwise difference of two share vectors. -/
def subShares (a b : List Field128) : List Field128 := List.zipWith (fun x y => x - y) a b

/-- The path check of a server at a non-root node: parent minus both children, negated by the
server with index 1. -/
def pathCheck (P : Prims) (key : VidpfKey) (inputLen : Nat) (path : List Bool) :
    Option (List Field128) := do
  let w ← valueAt P key inputLen path
  let l ← valueAt P key inputLen (path ++ [false])
  let r ← valueAt P key inputLen (path ++ [true])
  let d := subShares (subShares w l) r
  some (if key.keyIdx then d.map (fun x => -x) else d)

/-- The strict prefixes of `path`, shortest first. -/
def strictPrefixes (path : List Bool) : List (List Bool) := path.inits.dropLast

/-- What is hashed for a list of paths, given the path check of every prefix and the proof of every
path: per path, the checks of the non-empty strict prefixes not met before, then its proof. -/
def layout (chk : List Bool → List Field128) (prf : List Bool → Block) :
    (seen paths : List (List Bool)) → List Byte
  | _, [] => []
  | seen, p :: ps =>
    ((strictPrefixes p).filter fun q => q ≠ [] ∧ q ∉ seen).flatMap
        (fun q => (chk q).flatMap encodeField)
      ++ (prf p).toList
      ++ layout chk prf (seen ++ strictPrefixes p) ps

end Mastic.Spec

namespace Mastic.Spec

/-- Sum of the two servers' value shares at a path. -/
def reconAt (P : Prims) (k0 k1 : VidpfKey) (inputLen : Nat) (path : List Bool) :
    Option (List Field128) := do
  let a ← valueAt P k0 inputLen path
  let b ← valueAt P k1 inputLen path
  some (addShares a b)

/-- All bit strings of length `d`, in lexicographic order. -/
def allPaths : Nat → List (List Bool)
  | 0 => [[]]
  | d + 1 => (allPaths d).flatMap fun q => [q ++ [false], q ++ [true]]

/-- Componentwise sum of vectors of length `n`. -/
def sumVecs (n : Nat) (vs : List (List Field128)) : List Field128 :=
  vs.foldl addShares (List.replicate n 0)

end Mastic.Spec
