import Verif.Model.Base

/-!
# Merkle roots as computed by `tree_crawl`

`src/collect.rs:26-32` defines `HashAlg` (BLAKE3 truncated to 16 bytes) for the external crate
`rs_merkle`; `src/collect.rs:492-508` only uses `MerkleTree::from_leaves(..).root()`.
`rs_merkle` (external) hashes the concatenation of neighbouring nodes layer by layer and promotes
an unpaired last node unchanged (`Hasher::concat_and_hash` with `None`).
-/

namespace Mastic

/-- `HashAlg::hash` (`src/collect.rs:29-31`). -/
def hashAlg (P : Prims) (data : List Byte) : Block := first16 (P.blake3 data)

/-- One layer of the tree (`rs_merkle`, external). -/
def merkleLayer (P : Prims) : List Block → List Block
  | a :: b :: rest => hashAlg P (a.toList ++ b.toList) :: merkleLayer P rest
  | [a] => [a]
  | [] => []

/-- Repeat `merkleLayer` until one node is left; `fuel` at least the number of leaves suffices.
rs_merkle, external; called in `src/collect.rs:486-511`. -/
def merkleUp (P : Prims) : Nat → List Block → Option Block
  | _, [] => none
  | _, [a] => some a
  | 0, _ :: _ :: _ => none
  | fuel + 1, a :: b :: rest => merkleUp P fuel (merkleLayer P (a :: b :: rest))

/-- `MerkleTree::<HashAlg>::from_leaves(leaves).root()` (`src/collect.rs:492-493`). -/
def merkleRoot (P : Prims) (leaves : List Block) : Option Block := merkleUp P leaves.length leaves

end Mastic
