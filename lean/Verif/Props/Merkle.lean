import Verif.Lemmas.Merkle

/-!
# Properties of the Merkle roots: C29
-/

namespace Mastic

/-- C29. Two digest lists of equal length with the same Merkle root are equal, or two different byte
strings hashed while computing the two roots collide. -/
theorem C29_root_separates (P : Prims) (xs ys : List Block) (hl : xs.length = ys.length)
    (he : merkleRoot P xs = merkleRoot P ys) :
    xs = ys ∨ ∃ u ∈ Spec.merkleInputs P xs, ∃ v ∈ Spec.merkleInputs P ys, u ≠ v ∧
      first16 (P.blake3 u) = first16 (P.blake3 v) := by
  by_contra h
  push Not at h
  refine h.1 (merkleRoot_inj P hl (fun u hu v hv huv => ?_) he)
  by_contra hne
  exact h.2 u hu v hv hne huv

/-- C29. Every non-empty digest list has a root (`root().unwrap()` cannot fail on a non-empty chunk),
and the empty list has none. -/
theorem C29_root_exists_iff (P : Prims) (xs : List Block) :
    (∃ r, merkleRoot P xs = some r) ↔ xs ≠ [] := by
  refine ⟨?_, merkleRoot_isSome P⟩
  rintro ⟨r, h⟩ rfl
  cases h

/-- C29. The inputs hashed are all 32 bytes long, so leaves and inner nodes are hashed alike: the
statement needs equal lengths.  A list of two leaves and the list holding their parent have the same
root. -/
theorem C29_lengths_needed (P : Prims) (a b : Block) :
    merkleRoot P [a, b] = merkleRoot P [first16 (P.blake3 (a.toList ++ b.toList))] := rfl

/-- three leaves, the last one promoted: two hashes are computed -/
example (P : Prims) (a b c : Block) : Spec.merkleInputs P [a, b, c] =
    [a.toList ++ b.toList, (first16 (P.blake3 (a.toList ++ b.toList))).toList ++ c.toList] := rfl

/-- Two lists with the same root under a hash mapping everything to the same value: the second case of the theorem. -/
example (P : Prims) (h : ∀ u v, P.blake3 u = P.blake3 v) (a b c d : Block) (hne : [a, b] ≠ [c, d]) :
    merkleRoot P [a, b] = merkleRoot P [c, d] ∧
    ∃ u ∈ Spec.merkleInputs P [a, b], ∃ v ∈ Spec.merkleInputs P [c, d], u ≠ v ∧
      first16 (P.blake3 u) = first16 (P.blake3 v) := by
  have he : merkleRoot P [a, b] = merkleRoot P [c, d] := by
    have ht : ∀ a b : Block, merkleRoot P [a, b] = some (first16 (P.blake3 (a.toList ++ b.toList))) :=
      fun _ _ => rfl
    rw [ht, ht, h (a.toList ++ b.toList) (c.toList ++ d.toList)]
  exact ⟨he, (C29_root_separates P [a, b] [c, d] rfl he).resolve_left hne⟩

end Mastic
