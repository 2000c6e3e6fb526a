import Verif.Model.Prg

/-!
# Model of the rest of `src/prg.rs`: `PrgStream` and operations on seeds

Line numbers refer to `src/prg.rs`.  AES-128 in CTR mode (`Aes128Ctr128LE`, external) is an argument
`ctr key i`, byte `i` of the keystream for the given key and a zero nonce; running out of keystream (after `2^132`
bytes) is not modelled.
-/

namespace Mastic

/-- `PrgStream` (`src/prg.rs:160-163`): the key and the position in the keystream. -/
structure PrgStream where
  key : Block
  pos : Nat

/-- `PrgSeed::to_rng` (`src/prg.rs:55-64`). -/
def toRng (key : Block) : PrgStream := ⟨key, 0⟩

/-- A line printed by `fill_bytes` (`src/prg.rs:175`, 183 and 195). -/
inductive PrintLine where
  | before (dest : List Byte)
  | len (n : Nat)
  | after (dest : List Byte)
  deriving DecidableEq

/-- `PrgStream::fill_bytes` (`src/prg.rs:174-196`) on a buffer with content `dest`: what is printed, and the new content
of the buffer with the new stream.  The first line is printed before the assertion. -/
def PrgStream.fillBytes (ctr : Block → Nat → Byte) (bld : Build) (s : PrgStream) (dest : List Byte) :
    List PrintLine × Exec (List Byte × PrgStream) :=
  match debugAssert bld (dest.all fun v => v == 0#8) with
  | .error e => ([.before dest], .error e)
  | .ok _ =>
    let out := dest.zipIdx.map fun v => v.1 ^^^ ctr s.key (s.pos + v.2)
    ([.before dest, .len dest.length, .after out], .ok (out, { s with pos := s.pos + dest.length }))

/-- `try_fill_bytes` (`src/prg.rs:198-201`). -/
def PrgStream.tryFillBytes (ctr : Block → Nat → Byte) (bld : Build) (s : PrgStream) (dest : List Byte) :
    List PrintLine × Exec (List Byte × PrgStream) := s.fillBytes ctr bld dest

/-- `next_u32` (`src/prg.rs:166-168`), `rand_core::impls::next_u32_via_fill` (external): 4 bytes, little endian, into a
zeroed buffer. -/
def PrgStream.nextU32 (ctr : Block → Nat → Byte) (bld : Build) (s : PrgStream) :
    List PrintLine × Exec (Nat × PrgStream) :=
  let r := s.fillBytes ctr bld (List.replicate 4 0#8)
  (r.1, r.2.map fun x => (leNat x.1, x.2))

/-- `next_u64` (`src/prg.rs:170-172`). -/
def PrgStream.nextU64 (ctr : Block → Nat → Byte) (bld : Build) (s : PrgStream) :
    List PrintLine × Exec (Nat × PrgStream) :=
  let r := s.fillBytes ctr bld (List.replicate 8 0#8)
  (r.1, r.2.map fun x => (leNat x.1, x.2))

/-- `BitXor for &PrgSeed` (`src/prg.rs:138-150`): the zipped loop over the three arrays. -/
def seedXor (a b : Block) : Block :=
  Block.ofList ((Block.zero.toList.zip a.toList).zip b.toList |>.map fun x => x.1.2 ^^^ x.2)

/-- `next_u32` of the fixed-key stream (`src/prg.rs:352-354`). -/
def Stream.nextU32 (P : Prims) (bld : Build) (s : Stream) : Exec (Nat × Stream) := do
  let (bs, s') ← s.fillBytes P bld 4
  .ok (leNat bs, s')

end Mastic
