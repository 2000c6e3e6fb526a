import Verif.Model.Prg

/-!
# Specification of the fixed-key keystream

Written independently of the stream implementation: which counter values are encrypted and which
byte of which block is the `j`-th keystream byte.
-/

namespace Mastic.Spec

/-- The `i`-th counter: on x86_64 the upper eight bytes, elsewhere the lower eight bytes, are a
little-endian 64-bit number increased by `i` (mod `2^64`). -/
def counter (arch : Arch) (key : Block) (i : Nat) : List Byte :=
  match arch with
  | .x86_64 => key.toList.take 8 ++ natLE 8 (leNat (key.toList.drop 8) + i)
  | .other => natLE 8 (leNat (key.toList.take 8) + i) ++ key.toList.drop 8

/-- The start counter of seed expansion: the seed with the two lowest bits of byte 0 cleared. -/
def seedCounter (key : Block) : Block := key.set 0 (BitVec.ofNat 8 (4 * (key[0].toNat / 4)))

/-- Keystream block `i`: AES of the counter XOR the counter. -/
def keystreamBlock (P : Prims) (key : Block) (i : Nat) : List Byte :=
  List.zipWith (fun x y => x ^^^ y) (P.aes (Block.ofList (counter P.arch key i))).toList
    (counter P.arch key i)

/-- The first `16 * blocks` keystream bytes. -/
def keystream (P : Prims) (key : Block) (blocks : Nat) : List Byte :=
  (List.range blocks).flatMap (keystreamBlock P key)

/-- The keystream bytes at positions `pos .. pos + n`. -/
def keystreamSlice (P : Prims) (key : Block) (pos n : Nat) : List Byte :=
  ((keystream P key (pos + n)).drop pos).take n

end Mastic.Spec
