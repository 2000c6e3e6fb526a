import Mathlib.Logic.Function.Basic
import Verif.Spec.Driver
import Verif.Spec.Prio3Hide
import Verif.Model.Libprio

/-!
# What one server sees of a Mastic report
-/

namespace Mastic.Spec

/-- Cipher input number `i` of the keystream that starts at a seed. -/
def cipherInput (P : Prims) (seed : Block) (i : Nat) : Block := (incBe P.arch)^[i] seed

/-- The child of a seed. -/
def child (P : Prims) (seed : Block) (dir : Bool) : Block :=
  let c := cipherInput P (maskKey seed) (if dir then 1 else 0)
  vxor (P.aes c) c

/-- For each bit of the client's string the two servers' seeds, and the seeds for the bit, corrected, from which the next
seeds and the values come; `t` are the servers' control bits. -/
def genPath (P : Prims) : List Bool → Bool × Bool → Block × Block → List ((Block × Block) × (Block × Block))
  | [], _, _ => []
  | bit :: rest, t, s =>
    let cw := vxor (child P s.1 (!bit)) (child P s.2 (!bit))
    let u := (if t.1 then vxor (child P s.1 bit) cw else child P s.1 bit,
      if t.2 then vxor (child P s.2 bit) cw else child P s.2 bit)
    (s, u) :: genPath P rest (!t.1, !t.2) (vxor (P.aes u.1) u.1, vxor (P.aes u.2) u.2)

/-- The path of a client's two keys. -/
def clientPath (P : Prims) (rs : Block × Block) (alpha : List Bool) : List ((Block × Block) × (Block × Block)) :=
  genPath P alpha (false, true) rs

/-- The cipher inputs behind the value entries that one server's seeds on the path stand for. -/
def valueInput (P : Prims) (path : List ((Block × Block) × (Block × Block))) (server : Bool) (n : Nat)
    (q : Fin path.length × Fin (n + 1)) : Block :=
  cipherInput P (Pair.get path[q.1].2 server) (q.2 + 1)

/-- The cipher inputs behind the seeds on the path, behind the values of the server `own` on it, and behind its value at the
sibling of the first node. -/
def UsedInput (P : Prims) (rs : Block × Block) (alpha : List Bool) (own : Bool) (n : Nat) (c : Block) : Prop :=
  (∃ e ∈ clientPath P rs alpha, c ∈ [maskKey e.1.1, incBe P.arch (maskKey e.1.1), maskKey e.1.2,
      incBe P.arch (maskKey e.1.2), e.2.1, e.2.2] ∨ ∃ j < n + 2, c = cipherInput P (Pair.get e.2 own) j) ∨
    ∃ j < n + 2, c = cipherInput P (child P rs.1 (!alpha.headD false)) j

/-- No cipher input behind the values of the other server on the path is used for anything else. -/
def FreshValues (P : Prims) (rs : Block × Block) (alpha : List Bool) (own : Bool) (n : Nat) : Prop :=
  Function.Injective (valueInput P (clientPath P rs alpha) (!own) n) ∧
    ∀ q, ¬UsedInput P rs alpha own n (valueInput P (clientPath P rs alpha) (!own) n q)

/-- The cipher with given value entries for one server on the path. -/
noncomputable def setValues (P : Prims) (rs : Block × Block) (alpha : List Bool) (server : Bool) (n : Nat)
    (w : Fin (clientPath P rs alpha).length × Fin (n + 1) → Field128) : Prims :=
  let input := valueInput P (clientPath P rs alpha) server n
  { P with aes := Function.extend input (fun q => vxor (Block.ofList (encodeField (w q))) (input q)) P.aes }

/-- Random values that one server does not know: the other server's values on the path, the prover randomness and the
randomness that splits the proof. -/
abbrev KeyCoins (P : Prims) (rs : Block × Block) (alpha : List Bool) (n : Nat) : Type :=
  (Fin (clientPath P rs alpha).length × Fin (n + 1) → Field128) × (Fin 4 → Field128) ×
    (Fin (histProofLen n 2) → Field128)

/-- All that server `own` sees of a report before the crawl: nonce, key, proof share, joint-randomness parts, its own and
the other server's verifier share. -/
def masticView (P : Prims) (own : Bool) (n bucket : Nat) (alpha : List Bool) (r : ClientRand) (vk : Block) :
    Option (Block × VidpfKey × List Field128 × (Block × Block) × Option (List Field128) × Option (List Field128)) :=
  match genMasticReport P n alpha bucket r with
  | .ok (.mastic nonce ks ps jr _) =>
    some (nonce, Pair.get ks own, Pair.get ps own, jr,
      verifierOf P n (if own then 1 else 0) vk (.mastic nonce (Pair.get ks own) (Pair.get ps own) jr),
      verifierOf P n (if own then 0 else 1) vk (.mastic nonce (Pair.get ks (!own)) (Pair.get ps (!own)) jr))
  | _ => none

/-- The random choices of a client with such values. -/
def coinsRand {P : Prims} {rs : Block × Block} {alpha : List Bool} {n : Nat} (nonce : Block)
    (w : KeyCoins P rs alpha n) : ClientRand :=
  { nonce := nonce, rootSeeds := rs, proveRand := List.ofFn w.2.1,
    proofRand := fun j => if h : j < histProofLen n 2 then w.2.2 ⟨j, h⟩ else 0 }

end Mastic.Spec
