import Verif.Model.Lib

/-!
# Model of `src/prg.rs`

Line numbers refer to `src/prg.rs`.  The fixed-key stream is modelled with its mutable state
(`Stream`).  `expandDirST` / `convertST` follow the code through that state; `expandDir` / `convert`
are the closed forms used by the rest of the model.  That the two agree from *every* earlier stream
state is a theorem (`Props/Prg.lean`).
-/

namespace Mastic

/-- `FixedKeyPrgStream` (`src/prg.rs:38-45`).  `aes` is always keyed with zeros and lives in `Prims`;
the counter is kept as its 16 bytes in memory (`load`/`store`, `src/prg.rs:321-349`, are byte copies). -/
structure Stream where
  ctr : Block
  /-- `[u8; 128]` -/
  buf : List Byte
  have_ : Nat
  bufPtr : Nat
  count : Nat

/-- `inc_be` on x86_64 (`src/prg.rs:304-307`): `_mm_add_epi64(v, _mm_set_epi64x(1, 0))` adds 1 to the high
64-bit lane, i.e. memory bytes 8..16 read little endian, wrapping. -/
def incX86 (c : Block) : Block :=
  Block.ofList (c.toList.take 8 ++ natLE 8 (leNat (c.toList.drop 8) + 1))

/-- The carry loop of `inc_be` on other architectures (`src/prg.rs:313-315`). -/
def carryLoop : List Byte → Bool → List Byte
  | [], _ => []
  | b :: bs, carry =>
    let s := b.toNat + carry.toNat
    BitVec.ofNat 8 s :: carryLoop bs (decide (256 ≤ s))

/-- `inc_be` elsewhere (`src/prg.rs:308-317`): bytes 0..8 with ripple carry. -/
def incOther (c : Block) : Block :=
  Block.ofList (carryLoop (c.toList.take 8) true ++ c.toList.drop 8)

/-- `FixedKeyPrgStream::inc_be` (`src/prg.rs:302-320`). -/
def incBe (arch : Arch) (c : Block) : Block :=
  match arch with
  | .x86_64 => incX86 c
  | .other => incOther c

/-- `FixedKeyPrgStream::new` (`src/prg.rs:213-225`). -/
def Stream.new : Stream :=
  { ctr := Block.zero, buf := List.replicate 128 0, bufPtr := 16, have_ := 16, count := 0 }

/-- `set_key` (`src/prg.rs:227-231`). -/
def Stream.setKey (s : Stream) (key : Block) : Stream :=
  { s with ctr := key, bufPtr := 16, have_ := 16 }

/-- `skip_block` (`src/prg.rs:233-238`), with its debug assertions. -/
def Stream.skipBlock (P : Prims) (bld : Build) (s : Stream) : Exec Stream := do
  debugAssert bld (s.have_ % 16 == 0)
  debugAssert bld (s.bufPtr == 16)
  .ok { s with ctr := incBe P.arch s.ctr }

/-- `refill` (`src/prg.rs:240-262`): one block `AES_0(ctr) XOR ctr`. The XOR loop runs over the whole
128-byte buffer, as in the code. -/
def Stream.refill (P : Prims) (bld : Build) (s : Stream) : Exec Stream := do
  debugAssert bld (s.bufPtr == 16)
  let buf1 := s.ctr.toList ++ s.buf.drop 16
  let buf2 := (P.aes s.ctr).toList ++ buf1.drop 16
  let buf3 := xorInPlace buf2 buf1
  .ok { ctr := incBe P.arch s.ctr, buf := buf3, have_ := 16, bufPtr := 0, count := s.count + 16 }

/-- The eight counter values written by the first loop of `refill8` (`src/prg.rs:272-277`). -/
def counters (arch : Arch) : Nat → Block → List Block
  | 0, _ => []
  | n + 1, c => c :: counters arch n (incBe arch c)

/-- `refill8` (`src/prg.rs:264-298`): eight blocks. -/
def Stream.refill8 (P : Prims) (s : Stream) : Stream :=
  let cnts := counters P.arch 8 s.ctr
  let blocks := cnts.map fun c => xorInPlace (P.aes c).toList c.toList
  { ctr := (incBe P.arch)^[8] s.ctr, buf := blocks.flatten, have_ := 128, bufPtr := 0,
    count := s.count + 128 }

/-- The `while dest_ptr < dest.len()` loop of `fill_bytes` (`src/prg.rs:360-379`); `total` is `dest.len()`,
`rem` is `dest.len() - dest_ptr`.  Returns the bytes written to `dest[dest_ptr..]`. -/
def Stream.fillLoop (P : Prims) (bld : Build) (total : Nat) :
    (fuel rem : Nat) → Stream → Exec (List Byte × Stream)
  | _, 0, s => .ok ([], s)
  | 0, _ + 1, _ => .error .outOfFuel
  | fuel + 1, rem + 1, s => do
    let s1 ← (if s.bufPtr = s.have_ then
        (if total > 4 * 16 then .ok (s.refill8 P) else s.refill P bld)
      else .ok s)
    let toCopy := min (s1.have_ - s1.bufPtr) (rem + 1)
    let chunk := (s1.buf.drop s1.bufPtr).take toCopy
    let (rest, s2) ← Stream.fillLoop P bld total fuel (rem + 1 - toCopy)
      { s1 with bufPtr := s1.bufPtr + toCopy }
    .ok (chunk ++ rest, s2)

/-- `fill_bytes` (`src/prg.rs:360-379`) into a buffer of `n` bytes.  Each iteration copies at least one
byte, so `n` iterations suffice. -/
def Stream.fillBytes (P : Prims) (bld : Build) (s : Stream) (n : Nat) : Exec (List Byte × Stream) :=
  Stream.fillLoop P bld n n n s

/-- `next_u64` (`src/prg.rs:356-358`), `rand_core::impls::next_u64_via_fill` (external): 8 bytes, little
endian. -/
def Stream.nextU64 (P : Prims) (bld : Build) (s : Stream) : Exec (Nat × Stream) := do
  let (bs, s') ← s.fillBytes P bld 8
  .ok (leNat bs, s')

/-- `FromRng::from_rng` for `Field128` on the stream (`src/lib.rs:133-139`). -/
def Stream.fieldFromRng (P : Prims) (bld : Build) (s : Stream) : Exec (Field128 × Stream) := do
  let (low, s1) ← s.nextU64 P bld
  let (high, s2) ← s1.nextU64 P bld
  .ok (fieldFromU64s low high, s2)

/-- `PrgOutput` (`src/prg.rs:202-205`). -/
structure PrgOutput where
  bits : Bool × Bool
  seeds : Block × Block
  deriving DecidableEq

/-- `ConvertOutput<Field128>` (`src/prg.rs:207-210`). -/
structure ConvertOutput where
  seed : Block
  word : List Field128

/-- `key_short[0] &= 0xFC` (`src/prg.rs:68-71`). -/
def maskKey (key : Block) : Block := key.set 0 (key[0] &&& 0xFC#8)

/-- `((key_short[0] & 0x1) == 0, (key_short[0] & 0x2) == 0)` (`src/prg.rs:77`), computed from the *masked*
key as in the code. -/
def prgBits (keyShort : Block) : Bool × Bool :=
  ((keyShort[0] &&& 0x1#8) == 0#8, (keyShort[0] &&& 0x2#8) == 0#8)

/-- One direction of `expand_dir` (`src/prg.rs:81-91`): fill the seed, or skip the block (the seed stays
zero). -/
def Stream.fillOrSkip (P : Prims) (bld : Build) (s : Stream) (dir : Bool) :
    Exec (Block × Stream) :=
  if dir then do
    let (bs, s1) ← s.fillBytes P bld 16
    .ok (Block.ofList bs, s1)
  else do
    let s1 ← s.skipBlock P bld
    .ok (Block.zero, s1)

/-- `PrgSeed::expand_dir` (`src/prg.rs:66-95`), starting from the thread's stream `s`. -/
def expandDirST (P : Prims) (bld : Build) (s : Stream) (key : Block) (left right : Bool) :
    Exec (PrgOutput × Stream) := do
  let keyShort := maskKey key
  let s0 := s.setKey keyShort
  let (l, s1) ← s0.fillOrSkip P bld left
  let (r, s2) ← s1.fillOrSkip P bld right
  .ok ({ bits := prgBits keyShort, seeds := (l, r) }, s2)

/-- The word loop of `convert` (`src/prg.rs:116-118`): `n` field elements from the stream. -/
def Stream.fields (P : Prims) (bld : Build) : Nat → Stream → Exec (List Field128 × Stream)
  | 0, s => .ok ([], s)
  | n + 1, s => do
    let (x, s1) ← s.fieldFromRng P bld
    let (xs, s2) ← Stream.fields P bld n s1
    .ok (x :: xs, s2)

/-- `PrgSeed::convert` (`src/prg.rs:101-123`), starting from the thread's stream `s`. -/
def convertST (P : Prims) (bld : Build) (s : Stream) (key : Block) (inputLen : Nat) :
    Exec (ConvertOutput × Stream) := do
  let s0 := s.setKey key
  let (seed, s1) ← s0.fillBytes P bld 16
  let (word, s2) ← s1.fields P bld (inputLen + 1)
  .ok ({ seed := Block.ofList seed, word := word }, s2)

/-- Keystream block `i` for start counter `key`: `AES_0(ctr_i) XOR ctr_i`, `ctr_i` the counter after
`i` increments (`src/prg.rs:247-260`). -/
def ksBlock (P : Prims) (key : Block) (i : Nat) : Block :=
  let c := (incBe P.arch)^[i] key
  vxor (P.aes c) c

/-- Closed form of `PrgSeed::expand_dir` (`src/prg.rs:66-95`). -/
def expandDir (P : Prims) (key : Block) (left right : Bool) : PrgOutput :=
  let keyShort := maskKey key
  { bits := prgBits keyShort
    seeds := (if left then ksBlock P keyShort 0 else Block.zero,
              if right then ksBlock P keyShort 1 else Block.zero) }

/-- `PrgSeed::expand` (`src/prg.rs:97-99`). -/
def expand (P : Prims) (key : Block) : PrgOutput := expandDir P key true true

/-- Closed form of `PrgSeed::convert` (`src/prg.rs:101-123`): one block for the seed, one per word entry. -/
def convert (P : Prims) (key : Block) (inputLen : Nat) : ConvertOutput :=
  { seed := ksBlock P key 0
    word := (List.range (inputLen + 1)).map fun i =>
      ((leNat (ksBlock P key (i + 1)).toList : Nat) : Field128) }

end Mastic
