import Mathlib.Algebra.BigOperators.Intervals
import Mathlib.Data.Nat.Log
import Verif.Model.Base
import Verif.Model.Lib

/-!
# The proof system behind `Mastic::prove`, `query` and `decide`

`src/lib.rs:75-98` hands these calls to libprio 0.15.3, `Histogram<Field128, ParallelSum<Field128, Mul<Field128>>>`
(`src/lib.rs:116-131`).  Everywhere else the proof system is a field of `Prims`; here it is written out as libprio's
`flp.rs`, `flp/types.rs` and `flp/gadgets.rs` define it (also VDAF draft 08, sections 7.3 and 7.4.4), so that what the
other modules assume of it can be proved.  The source of libprio is not in the repository.  Fast Fourier transforms are
replaced by the sums they compute; libprio's limit of 2^20 on their size is left out.
-/

namespace Mastic

/-- `fp.rs`, `pow`: square and multiply over the bits of the exponent.
libprio, external; reached through `src/lib.rs:75-98`. -/
def fieldPow : Nat → Field128 → Nat → Field128
  | 0, _, _ => 1
  | f + 1, x, n => if n % 2 = 1 then x * fieldPow f (x * x) (n / 2) else fieldPow f (x * x) (n / 2)

/-- `fp.rs`, `inv`: the power with exponent `p - 2`.
libprio, external; reached through `src/lib.rs:75-98`. -/
def fieldInv (x : Field128) : Field128 := fieldPow 128 x (fieldModulus - 2)

/-- `Field128::generator()`, an element of order `2^66`.
libprio, external; reached through `src/lib.rs:75-98`. -/
def fieldGen : Field128 := 145091266659756586618791329697897684742

/-- `Field128::root(l)`, an element of order `2^l`.
libprio, external; reached through `src/lib.rs:75-98`. -/
def fieldRoot (l : Nat) : Field128 := (fun x => x * x)^[66 - l] fieldGen

/-- `Histogram::gadget_calls`: the number of chunks.
libprio, external; reached through `src/lib.rs:75-98`. -/
def gadgetCalls (n c : Nat) : Nat := n / c + if n % c = 0 then 0 else 1

/-- Logarithm of the number of points of a wire polynomial, `(1 + calls).next_power_of_two()`.
libprio, external; reached through `src/lib.rs:75-98`. -/
def wireLog (n c : Nat) : Nat := Nat.clog 2 (1 + gadgetCalls n c)

/-- Number of points of a wire polynomial (`wire_poly_len`).
libprio, external; reached through `src/lib.rs:75-98`. -/
def wireLen (n c : Nat) : Nat := 2 ^ wireLog n c

/-- `Histogram::proof_len`: wire seeds and coefficients of the gadget polynomial (`gadget_poly_len`).
libprio, external; reached through `src/lib.rs:75-98`. -/
def histProofLen (n c : Nat) : Nat := 2 * c + (2 * (wireLen n c - 1) + 1)

/-- `parallel_sum_range_checks`: argument `w` of gadget call `k`.  Even arguments are inputs times a power of the joint
randomness, odd ones inputs minus the share `si` of one; inputs missing in the last chunk count as zero.
libprio, external; reached through `src/lib.rs:75-98`. -/
def wireArg (x : List Field128) (r0 si : Field128) (c k w : Nat) : Field128 :=
  if w % 2 = 0 then r0 ^ (k * c + w / 2 + 1) * x.getD (k * c + w / 2) 0 else x.getD (k * c + w / 2) 0 - si

/-- `ProveShimGadget`, `QueryShimGadget`: the values of wire `w`, the seed first.
libprio, external; reached through `src/lib.rs:75-98`. -/
def wireVals (n c : Nat) (x : List Field128) (r0 si : Field128) (seeds : List Field128) (w : Nat) : List Field128 :=
  seeds.getD w 0 :: (List.range (gadgetCalls n c)).map fun k => wireArg x r0 si c k w

/-- `discrete_fourier_transform` and `discrete_fourier_transform_inv_finish`: coefficients of the polynomial with the
given values at the powers of the root; missing values are zero.
libprio, external; reached through `src/lib.rs:75-98`. -/
def wirePoly (n c : Nat) (vals : List Field128) : List Field128 :=
  (List.range (wireLen n c)).map fun j => fieldInv (wireLen n c : Nat)
    * ∑ k ∈ Finset.range (wireLen n c), vals.getD k 0 * fieldInv (fieldRoot (wireLog n c)) ^ (j * k)

/-- `poly_eval`: Horner's rule. libprio, external; reached through `src/lib.rs:75-98`. -/
def polyEval (p : List Field128) (t : Field128) : Field128 := p.foldr (fun a acc => a + t * acc) 0

/-- `ParallelSum::call_poly` with `Mul`: the sum of the products of wires `2j` and `2j+1`.
libprio, external; reached through `src/lib.rs:75-98`. -/
def gadgetPoly (n c : Nat) (f : Nat → List Field128) : List Field128 :=
  (List.range (2 * (wireLen n c - 1) + 1)).map fun i => ∑ j ∈ Finset.range c, ∑ k ∈ Finset.range (i + 1),
    (f (2 * j)).getD k 0 * (f (2 * j + 1)).getD (i - k) 0

/-- `Histogram::valid`, given what the gadget calls return: a random combination of "all entries are 0 or 1" and "the
entries add up to 1". libprio, external; reached through `src/lib.rs:75-98`. -/
def histValid (n c : Nat) (x : List Field128) (r1 si : Field128) (call : Nat → Field128) : Field128 :=
  r1 * (∑ k ∈ Finset.range (gadgetCalls n c), call k) + r1 * r1 * (x.sum - si)

/-- `Type::prove` for a histogram of `n` buckets with chunk length `c`: input, prover randomness, joint randomness.
libprio, external; `src/lib.rs:75-82`. -/
def histProve (n c : Nat) (x pr jr : List Field128) : Option (List Field128) :=
  match jr with
  | [r0, _] => if x.length = n ∧ pr.length = 2 * c then
      some (pr ++ gadgetPoly n c fun w => wirePoly n c (wireVals n c x r0 (fieldInv 1) pr w)) else none
  | _ => none

/-- `Type::query`: input share, proof share, query randomness, joint randomness, number of shares.  The verifier share
is the output of the circuit, the wire polynomials at the query randomness and the gadget polynomial there.
libprio, external; `src/lib.rs:84-94`. -/
def histQuery (n c : Nat) (x proof qr jr : List Field128) (shares : Nat) : Option (List Field128) :=
  match qr, jr with
  | [t], [r0, r1] => if x.length = n ∧ proof.length = histProofLen n c ∧ t ^ wireLen n c ≠ 1 then
      some (histValid n c x r1 (fieldInv shares)
          (fun k => polyEval (proof.drop (2 * c)) (fieldRoot (wireLog n c) ^ (k + 1)))
        :: (List.range (2 * c)).map (fun w =>
          polyEval (wirePoly n c (wireVals n c x r0 (fieldInv shares) proof w)) t)
        ++ [polyEval (proof.drop (2 * c)) t]) else none
  | _, _ => none

/-- `Type::decide`: the output of the circuit is zero and the gadget applied to the wires gives the value of the gadget
polynomial. libprio, external; `src/lib.rs:96-98`. -/
def histDecide (c : Nat) (v : List Field128) : Option Bool :=
  if v.length = 2 * c + 2 then
    some (v.getD 0 0 == 0 && (∑ j ∈ Finset.range c, v.getD (2 * j + 1) 0 * v.getD (2 * j + 2) 0) == v.getD (2 * c + 1) 0)
  else none

/-- `MasticHistogram` (`src/lib.rs:116-131`): the given primitives with libprio's histogram, whose chunk length is 2 in
the Mastic modes (`src/lib.rs:24-33`). -/
def Prims.withHistogram (P : Prims) : Prims :=
  { P with
    jointRandLen := fun _ => 2
    queryRandLen := fun _ => 1
    flpProve := fun n => histProve n (histogramChunkLength n .weightedHeavyHitters)
    flpQuery := fun n x p q j => histQuery n (histogramChunkLength n .weightedHeavyHitters) x p q j 2
    flpDecide := fun n => histDecide (histogramChunkLength n .weightedHeavyHitters) }

end Mastic
