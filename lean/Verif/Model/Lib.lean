import Verif.Model.Base

/-!
# Model of `src/lib.rs`

Rust strings are represented by their UTF-8 bytes.
-/

namespace Mastic

/-- `u32_to_bits` (`src/lib.rs:141-150`): asserts `nbits <= 32`; bit `i` is `input & (1 << i) != 0`. -/
def u32ToBits (nbits : Nat) (input : BitVec 32) : Exec (List Bool) :=
  if nbits ≤ 32 then .ok ((List.range nbits).map fun i => (input &&& (1#32 <<< i)) != 0#32)
  else .error .assertion

/-- `string_to_bits` (`src/lib.rs:152-160`): for each byte append `u32_to_bits(8, byte)`. -/
def stringToBits (s : List Byte) : Exec (List Bool) :=
  foldE (fun bits byte => do
    let b ← u32ToBits 8 (byte.setWidth 32)
    .ok (bits ++ b)) [] s

/-- `bits_to_u8` (`src/lib.rs:162-171`). -/
def bitsToU8 (bits : List Bool) : Exec Byte :=
  if bits.length = 8 then
    .ok ((List.range 8).foldl
      (fun out i => out ||| ((if bits.getD i false then 1#8 else 0#8) <<< i)) 0#8)
  else .error .assertion

/-- `std::str::from_utf8(&[b])` (external): a single byte is valid UTF-8 iff it is ASCII. -/
def fromUtf8Single (b : Byte) : Option (List Byte) := if b.toNat < 128 then some [b] else none

/-- `bits_to_string` (`src/lib.rs:173-185`). -/
def bitsToString (bits : List Bool) : Exec (List Byte) :=
  if bits.length % 8 = 0 then
    foldE (fun out b => do
      let byte := (bits.drop (8 * b)).take 8
      let ubyte ← bitsToU8 byte
      let s ← unwrapO (fromUtf8Single ubyte)
      .ok (out ++ s)) [] (List.range (bits.length / 8))
  else .error .assertion

/-- ASCII `'1'` / `'0'`. (`src/lib.rs:186-197`) -/
def bitByte (b : Bool) : Byte := if b then 49 else 48

/-- `bits_to_bitstring` (`src/lib.rs:187-198`), as bytes. -/
def bitsToBitstring (bits : List Bool) : List Byte :=
  bits.foldl (fun out b => out ++ [bitByte b]) []

/-- `xor_vec` (`src/lib.rs:200-202`): `zip` stops at the shorter operand. -/
def xorVec (v1 v2 : List Byte) : List Byte := List.zipWith (· ^^^ ·) v1 v2

/-- `xor_three_vecs` (`src/lib.rs:235-241`). -/
def xorThreeVecs (v1 v2 v3 : List Byte) : List Byte :=
  List.zipWith (fun p x3 => p.1 ^^^ p.2 ^^^ x3) (List.zip v1 v2) v3

/-- `xor_in_place` (`src/lib.rs:229-233`): entries beyond the shorter operand keep their value. -/
def xorInPlace : List Byte → List Byte → List Byte
  | [], _ => []
  | x :: xs, [] => x :: xs
  | x :: xs, y :: ys => (x ^^^ y) :: xorInPlace xs ys

/-- `vec_add` (`src/lib.rs:204-211`): in place, entries beyond the shorter operand are untouched. -/
def vecAdd {F : Type} [Add F] : List F → List F → List F
  | [], _ => []
  | x :: xs, [] => x :: xs
  | x :: xs, y :: ys => (x + y) :: vecAdd xs ys

/-- `vec_sub` (`src/lib.rs:213-220`). -/
def vecSub {F : Type} [Sub F] : List F → List F → List F
  | [], _ => []
  | x :: xs, [] => x :: xs
  | x :: xs, y :: ys => (x - y) :: vecSub xs ys

/-- `vec_neg` (`src/lib.rs:222-227`). -/
def vecNeg {F : Type} [Neg F] (v : List F) : List F := v.map (fun x => -x)

/-- `Vec::swap_remove` (external): the last element replaces the removed one. -/
def swapRemove {α : Type} (v : List α) (i : Nat) (last : α) : List α := (v.set i last).dropLast

/-- `take` (`src/lib.rs:243-249`): returns the element and the new vector. -/
def takeAt {α : Type} (v : List α) (i : Nat) : Option α × List α :=
  match v[i]?, v.getLast? with
  | some a, some last => (some a, swapRemove v i last)
  | _, _ => (none, v)

/-- `impl FromRng for Field128` (`src/lib.rs:133-139`): two little-endian `u64`s, low then high,
combined to a `u128` and converted by `Field128::from` (external: reduction modulo the prime). -/
def fieldFromU64s (low high : Nat) : Field128 := ((high * 2 ^ 64 + low : Nat) : Field128)

/-- libprio `Histogram::encode_measurement` (external): a one-hot vector, `Err` if out of range. -/
def encodeMeasurement (buckets bucket : Nat) : Option (List Field128) :=
  if bucket < buckets then some ((List.replicate buckets 0).set bucket 1) else none

/-- `config::Mode` (`src/config.rs:9-27`) as far as `histogram_chunk_length` looks at it. -/
inductive Mode where
  | weightedHeavyHitters
  | attributeBasedMetrics
  | plainMetrics
  deriving DecidableEq, Repr

/-- `histogram_chunk_length` (`src/lib.rs:24-32`).  The `f64` square root truncated to `usize` is
modelled by the integer square root, which it equals for `num_buckets < 2^52`. -/
def histogramChunkLength (numBuckets : Nat) : Mode → Nat
  | .weightedHeavyHitters => 2
  | .attributeBasedMetrics => 2
  | .plainMetrics => numBuckets.sqrt

end Mastic
