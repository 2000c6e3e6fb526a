import Verif.Model.Driver

/-!
# A concrete instance of the external primitives

Used only in `example`s and as witness of negative results.  "Cipher" and "hash" are simple injective
byte operations; the "FLP" accepts exactly the one-hot vectors; "Prio3" shares one byte additively.
-/

namespace Mastic

/-- Toy cipher: add one to the first byte. -/
def toyAes (b : Block) : Block := b.set 0 (b[0] + 1)

/-- Toy hash: the first 32 input bytes, with the length mixed into the last one. -/
def toyHash (d : List Byte) : Vector Byte 32 :=
  Vector.ofFn fun i => d.getD i.1 0 + (if i.1 = 31 then BitVec.ofNat 8 d.length else 0)

/-- Toy FLP decision: a 0/1 vector with exactly one 1. -/
def toyDecide (n : Nat) (v : List Field128) : Bool :=
  v.length == n && v.all (fun x => x == 0 || x == 1) && (v.filter (· == 1)).length == 1

/-- The toy instance. -/
def toy : Prims where
  arch := .x86_64
  aes := toyAes
  blake3 := toyHash
  xofBlock := fun s _ m => vxor s (Block.ofList m)
  xofField := fun s d n => List.replicate n ((s.toList.foldl (fun a b => a + b.toNat) 0 +
    d.foldl (fun a b => a + b.toNat) 0 : Nat) : Field128)
  ceilLog2 := fun n => if n ≤ 1 then 0 else Nat.log2 (n - 1) + 1
  histOk := fun n => decide (0 < n)
  prio3Ok := fun n => decide (0 < n)
  jointRandLen := fun _ => 1
  queryRandLen := fun _ => 1
  flpProve := fun _ _ _ _ => some [7, 9]
  flpQuery := fun n b p _ _ => if b.length = n ∧ p.length = 2 then some (b ++ p) else none
  flpDecide := fun n v => some (toyDecide n (v.take n) && v.drop n == [7, 9])
  PrepState := Nat × Byte
  PrepShare := Byte
  prepInit := fun _ a _ _ _ i => i.head?.map fun b => ((a, b), b)
  prepEncode := fun b => [b]
  prepDecode := fun _ l => l.head?
  prepCombine := fun n a b => if (a + b).toNat < n then some [a + b] else none
  prepNext := fun n st m => m.head?.map fun b =>
    if st.1 = 0 then (List.range n).map fun i => if i = b.toNat then 1 else 0
    else List.replicate n 0
  prio3Shard := fun n k _ r => if k < n then
    some ([], [BitVec.ofNat 8 r], [BitVec.ofNat 8 k - BitVec.ofNat 8 r]) else none
  prio3Unshard := fun _ a b _ => some (List.zipWith (fun x y => (x + y).val) a b)

/-- A toy server configuration; the hash map is iterated in reverse insertion order. -/
def toyCfg (id : Int) (d : Option Nat) (bld : Build) : ServerCfg where
  serverId := id
  dataBits := d
  build := bld
  iter := List.reverse
  iter_perm := List.reverse_perm

/-- Toy client randomness. -/
def toyRand (k : Nat) : ClientRand where
  nonce := Block.zero.set 1 (BitVec.ofNat 8 k)
  rootSeeds := (Block.zero.set 2 (BitVec.ofNat 8 (k + 1)), Block.zero.set 3 (BitVec.ofNat 8 (2 * k + 5)))
  proveRand := [1]
  proofRand := fun i => if i = 0 then 3 else 11

/-- A toy report. -/
def toyReport (n : Nat) (alpha : List Bool) (bucket k : Nat) : Exec PlaintextReport :=
  genMasticReport toy n alpha bucket (toyRand k)

/-- Two fresh toy servers holding the shares of the given clients (string, bucket). -/
def toyPair (d n : Nat) (clients : List (List Bool × Nat)) : Exec (Pair2 toy) := do
  let rs ← mapE (fun c => toyReport n c.1.1 c.1.2 c.2) clients.zipIdx
  upload ⟨some d, n, 2, 2, 1, 1⟩ rs (KeyCollection.new toy n 0 (some d) Block.zero,
    KeyCollection.new toy n 1 (some d) Block.zero) ((List.range clients.length).map fun i => (i + 1, none))

end Mastic
