import Mathlib.Data.ZMod.Basic

/-!
# Base types of the model

Bytes, fixed-size byte arrays, the field, panics, and the external primitives that the
repository calls but does not define.
-/

namespace Mastic

/-- Why a Rust call panicked.  The constructors only document the reason. Rust, external. -/
inductive Panic where
  /-- slice or `Vec` index out of bounds -/
  | index
  /-- `assert!`, `assert_eq!`, `assert_ne!` -/
  | assertion
  /-- `debug_assert!`, `debug_assert_eq!` (debug builds only) -/
  | debugAssertion
  /-- `unwrap()` on `None` / `Err` -/
  | unwrap
  /-- explicit `panic!` -/
  | explicit
  /-- `slice::chunks(0)` or `Iterator::step_by(0)` -/
  | zeroChunk
  /-- integer division by zero -/
  | divZero
  /-- arithmetic overflow (debug builds) or capacity overflow -/
  | overflow
  /-- `lock().unwrap()` on a poisoned mutex -/
  | poisoned
  /-- not a Rust panic: the step budget given to a modelled `while`/`loop` ran out -/
  | outOfFuel
  deriving DecidableEq, Repr

/-- Result of a Rust call that may panic. Rust, external. -/
abbrev Exec (α : Type) := Except Panic α

/-- `true` when the call returned normally. No counterpart in the repository. -/
def Returns {α : Type} (e : Exec α) : Prop := ∃ a, e = .ok a

/-- `true` when the call panicked. No counterpart in the repository. -/
def Panics {α : Type} (e : Exec α) : Prop := ∃ p, e = .error p

/-- `debug_assert!` is only evaluated in debug builds. Cargo profile, external. -/
inductive Build where
  | debug
  | release
  deriving DecidableEq, Repr

/-- `src/prg.rs:23-29, 302-319`: the counter code differs by target architecture. -/
inductive Arch where
  | x86_64
  | other
  deriving DecidableEq, Repr

/-- Rust `u8`. Rust `u8`, external. -/
abbrev Byte := BitVec 8

/-- Rust `[u8; 16]` (PRG seeds, VIDPF proofs, correction seeds, nonces, verify keys).
Rust `[u8; 16]`, external. -/
abbrev Block := Vector Byte 16

/-- The modulus of libprio's `Field128` (external; `prio` 0.15.3 `fp.rs`). -/
def fieldModulus : Nat := 340282366920938462946865773367900766209

instance : NeZero fieldModulus := ⟨by decide⟩

/-- libprio's `Field128`. External. -/
abbrev Field128 := ZMod fieldModulus

/-- Little-endian value of a byte list. No counterpart in the repository. -/
def leNat : List Byte → Nat
  | [] => 0
  | b :: bs => b.toNat + 256 * leNat bs

/-- The `n` low bytes of `x`, little endian. No counterpart in the repository. -/
def natLE : Nat → Nat → List Byte
  | 0, _ => []
  | n + 1, x => BitVec.ofNat 8 x :: natLE n (x / 256)

/-- libprio `Field128::get_encoded` (external): the canonical representative as 16
little-endian bytes. -/
def encodeField (x : Field128) : List Byte := natLE 16 x.val

/-- A `[u8;16]` from a byte list (missing bytes read as zero; only used on lists of
length at least 16). No counterpart in the repository. -/
def Block.ofList (l : List Byte) : Block := Vector.ofFn fun i => l.getD i.1 0

/-- `[0u8; 16]`. (`src/bin/driver.rs:150`) -/
def Block.zero : Block := Vector.replicate 16 0

/-- Byte-wise XOR of equally long arrays.  Models `xor_vec` / `xor_in_place`
(`src/lib.rs:200-202, 229-233`) on fixed-size arrays; the list versions with truncation are in
`Verif.Model.Lib`. -/
def vxor {n : Nat} (a b : Vector Byte n) : Vector Byte n := Vector.zipWith (· ^^^ ·) a b

/-- `x[0..HASH_SIZE]` of a 32-byte BLAKE3 output (`HASH_SIZE = 16`, `src/lib.rs:22`). -/
def first16 (h : Vector Byte 32) : Block := Vector.ofFn fun i => h[i.1]

/-- External primitives.  All theorems quantify over this structure, so nothing is assumed about
the primitives unless a theorem says so in a hypothesis. -/
structure Prims where
  /-- target architecture of the process -/
  arch : Arch
  /-- AES-128 block encryption under the all-zero key (`src/prg.rs:213-225`) -/
  aes : Block → Block
  /-- BLAKE3, 32-byte output, of the concatenation of all `update`s -/
  blake3 : List Byte → Vector Byte 32
  /-- `XofShake128::init(seed, dst)`, `update`s concatenated, first 16 bytes of the seed stream -/
  xofBlock : Block → List Byte → List Byte → Block
  /-- `XofShake128::init(seed, dst)`, `into_seed_stream().into_field_vec(len)` -/
  xofField : Block → List Byte → Nat → List Field128
  /-- `(m as f32).log2().ceil() as usize` (`src/collect.rs:485`), floating point -/
  ceilLog2 : Nat → Nat
  /-- `Mastic::new_histogram(buckets)` is `Ok` (`src/lib.rs:120-130`) -/
  histOk : Nat → Bool
  /-- `Prio3::new_histogram(2, buckets, histogram_chunk_length(..))` is `Ok` -/
  prio3Ok : Nat → Bool
  /-- libprio histogram FLP, indexed by the number of buckets -/
  jointRandLen : Nat → Nat
  queryRandLen : Nat → Nat
  /-- `Type::prove`; `none` = `Err` -/
  flpProve : Nat → List Field128 → List Field128 → List Field128 → Option (List Field128)
  /-- `Type::query` with `num_shares = 2`: input, proof, query_rand, joint_rand; `none` = `Err` -/
  flpQuery : Nat → List Field128 → List Field128 → List Field128 → List Field128 →
    Option (List Field128)
  /-- `Type::decide`; `none` = `Err` -/
  flpDecide : Nat → List Field128 → Option Bool
  /-- `Prio3PrepareState<Field128,16>` -/
  PrepState : Type
  /-- `Prio3PrepareShare<Field128,16>` -/
  PrepShare : Type
  /-- decode public and input share, then `prepare_init` (buckets, aggregator id, verify key, nonce,
  public share bytes, input share bytes); `none` = an `Err` that is `unwrap`ped -/
  prepInit : Nat → Nat → Block → Block → List Byte → List Byte → Option (PrepState × PrepShare)
  /-- `Prio3PrepareShare::get_encoded` -/
  prepEncode : PrepShare → List Byte
  /-- `Prio3PrepareShare::get_decoded_with_param` -/
  prepDecode : PrepState → List Byte → Option PrepShare
  /-- `prepare_shares_to_prepare_message` (buckets, leader share, helper share); `none` = reject -/
  prepCombine : Nat → PrepShare → PrepShare → Option (List Byte)
  /-- `prepare_next` to `Finish(out_share)`; `none` = reject -/
  prepNext : Nat → PrepState → List Byte → Option (List Field128)
  /-- `prio3.shard` (buckets, bucket, nonce, randomness) with the shares already encoded: public
  share, leader input share, helper input share; `none` = `Err` -/
  prio3Shard : Nat → Nat → Block → Nat → Option (List Byte × List Byte × List Byte)
  /-- `prio3.unshard` (buckets, the two aggregate shares, number of measurements) -/
  prio3Unshard : Nat → List Field128 → List Field128 → Nat → Option (List Nat)

/-- Rust indexing `v[i]`. Rust, external. -/
def idx {α : Type} (l : List α) (i : Nat) : Exec α :=
  match l[i]? with
  | some a => .ok a
  | none => .error .index

/-- `Option::unwrap` / `Result::unwrap`. Rust, external. -/
def unwrapO {α : Type} : Option α → Exec α
  | some a => .ok a
  | none => .error .unwrap

/-- `assert!(b)`. Rust macro, external. -/
def assertE (b : Bool) : Exec Unit := if b then .ok () else .error .assertion

/-- `debug_assert!(b)`: skipped in release builds. Rust macro, external. -/
def debugAssert (bld : Build) (b : Bool) : Exec Unit :=
  match bld with
  | .release => .ok ()
  | .debug => if b then .ok () else .error .debugAssertion

/-- An order-preserving map whose function may panic (`iter().map(..).collect()`, also the
`rayon` version). Rust iterators, external. -/
def mapE {α β : Type} (f : α → Exec β) : List α → Exec (List β)
  | [] => .ok []
  | a :: as => do
    let b ← f a
    let bs ← mapE f as
    .ok (b :: bs)

/-- A left fold whose function may panic (a `for` loop over mutable state).
Rust loops, external. -/
def foldE {α σ : Type} (f : σ → α → Exec σ) : σ → List α → Exec σ
  | s, [] => .ok s
  | s, a :: as => do
    let s' ← f s a
    foldE f s' as

end Mastic
