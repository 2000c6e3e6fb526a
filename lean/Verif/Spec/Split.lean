import Verif.Spec.Weights

/-!
# Specification: a report whose two halves carry different correction words
-/

namespace Mastic.Spec

/-- What is added to the value a report shares at `p` when `e` moves from the other half of the strings to
the prefixes of `alpha`: `e` at every prefix of `alpha`, `-e` at the one-bit prefix that is not one, nothing
elsewhere. -/
def moved (alpha : List Bool) (e : List Field128) (p : List Bool) : List Field128 :=
  if p <+: alpha then e else if p.length = 1 then e.map fun x => -x else e.map fun _ => 0

/-- The count a server pair arrives at for `p` when `x p` is added to the number of clients holding `p`. -/
def shiftedCount (clients : List (List Bool × Nat)) (x : List Bool → Field128) (p : List Bool) : Nat :=
  ((((holders clients p).length : Nat) : Field128) + x p).val % 2 ^ 64

/-- The strings of length `d` all of whose non-empty prefixes have a shifted count of at least `T`. -/
def shiftedHeavy (T d : Nat) (clients : List (List Bool × Nat)) (x : List Bool → Field128) :
    List (List Bool) :=
  (allPaths d).filter fun s => s.inits.all fun q => q.isEmpty || decide (T ≤ shiftedCount clients x q)

/-- The histogram of the weights of the holders of `p`, followed by their number. -/
def holderTotals (n : Nat) (clients : List (List Bool × Nat)) (p : List Bool) : List Field128 :=
  histogram n ((holders clients p).map Prod.snd) ++ [((holders clients p).length : Field128)]

/-- The hash of a path and a seed that enters the one-hot proofs. -/
def nodeHash (P : Prims) (p : List Bool) (seed : Block) : Block :=
  first16 (P.blake3 (pathString p ++ seed.toList))

/-- Collision freeness: the truncated hash on 16-byte inputs, the hash of seeds at one path, and the converted
seed as a name for the converted word. -/
structure CollisionFree (P : Prims) (n : Nat) : Prop where
  step : Function.Injective fun x : Block => first16 (P.blake3 x.toList)
  node : ∀ p : List Bool, Function.Injective (nodeHash P p)
  conv : ∀ s s' : Block, (convert P s n).seed = (convert P s' n).seed → (convert P s n).word = (convert P s' n).word

/-- The seed of a key at a path. -/
def seedAt (P : Prims) (key : VidpfKey) (n : Nat) (p : List Bool) : Option Block :=
  match evalPath P key n p with
  | .ok (st, _) => some st.seed
  | .error _ => none

end Mastic.Spec
