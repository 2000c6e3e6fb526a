import Verif.Lemmas.Exec
import Verif.Spec.Collect

/-!
# Helper lemmas: Merkle roots
-/

namespace Mastic

theorem merkleLayer_eq (P : Prims) : ∀ l : List Block,
    merkleLayer P l = Spec.nextLayer (fun d => first16 (P.blake3 d)) l
  | [] => rfl
  | [_] => rfl
  | a :: b :: rest => by
    simp only [merkleLayer, Spec.nextLayer, merkleLayer_eq P rest]; rfl

theorem nextLayer_length (h : List Byte → Block) : ∀ l : List Block,
    (Spec.nextLayer h l).length = (l.length + 1) / 2
  | [] => rfl
  | [_] => by simp [Spec.nextLayer]
  | a :: b :: rest => by
    simp only [Spec.nextLayer, List.length_cons, nextLayer_length h rest]; omega

theorem nextLayer_inj (h : List Byte → Block) : ∀ xs ys : List Block, xs.length = ys.length →
    (∀ u ∈ Spec.layerInputs xs, ∀ v ∈ Spec.layerInputs ys, h u = h v → u = v) →
    Spec.nextLayer h xs = Spec.nextLayer h ys → xs = ys
  | [], [], _, _, _ => rfl
  | [a], [b], _, _, he => by simpa [Spec.nextLayer] using he
  | a :: b :: xs, c :: d :: ys, hl, hc, he => by
    simp only [Spec.nextLayer, List.cons.injEq] at he
    simp only [Spec.layerInputs, List.mem_cons] at hc
    have h1 := hc _ (Or.inl rfl) _ (Or.inl rfl) he.1
    have h2 := nextLayer_inj h xs ys (by simpa using hl)
      (fun u hu v hv => hc u (Or.inr hu) v (Or.inr hv)) he.2
    obtain ⟨e1, e2⟩ := List.append_inj h1 (by simp)
    rw [Vector.toList_inj.1 e1, Vector.toList_inj.1 e2, h2]
  | [], _ :: _, hl, _, _ => by simp at hl
  | _ :: _, [], hl, _, _ => by simp at hl
  | [_], _ :: _ :: _, hl, _, _ => by simp at hl
  | _ :: _ :: _, [_], hl, _, _ => by simp at hl

theorem merkleUp_inj (P : Prims) : ∀ (fuel : Nat) (xs ys : List Block), xs.length = ys.length →
    xs.length ≤ fuel → 
    (∀ u ∈ Spec.hashedInputs (fun d => first16 (P.blake3 d)) fuel xs,
      ∀ v ∈ Spec.hashedInputs (fun d => first16 (P.blake3 d)) fuel ys,
      first16 (P.blake3 u) = first16 (P.blake3 v) → u = v) →
    merkleUp P fuel xs = merkleUp P fuel ys → xs = ys
  | 0, xs, ys, hl, h0, _, _ => by
    have : xs = [] := List.length_eq_zero_iff.1 (by omega)
    subst this
    exact (List.length_eq_zero_iff.1 (by simpa using hl.symm)).symm
  | fuel + 1, [], ys, hl, _, _, _ => by
    exact (List.length_eq_zero_iff.1 (by simpa using hl.symm)).symm
  | fuel + 1, [a], [b], _, _, _, he => by simpa [merkleUp] using he
  | fuel + 1, [a], [], hl, _, _, _ => by simp at hl
  | fuel + 1, [a], _ :: _ :: _, hl, _, _, _ => by simp at hl
  | fuel + 1, a :: b :: xs, [], hl, _, _, _ => by simp at hl
  | fuel + 1, a :: b :: xs, [_], hl, _, _, _ => by simp at hl
  | fuel + 1, a :: b :: xs, c :: d :: ys, hl, hf, hc, he => by
    simp only [merkleUp, merkleLayer_eq] at he
    rw [Spec.hashedInputs, Spec.hashedInputs] at hc
    refine nextLayer_inj _ _ _ hl (fun u hu v hv => hc u (by simp [hu]) v (by simp [hv])) ?_
    refine merkleUp_inj P fuel _ _ (by simp only [nextLayer_length, hl]) ?_
      (fun u hu v hv => hc u (by simp [hu]) v (by simp [hv])) he
    rw [nextLayer_length]
    simp only [List.length_cons] at hf ⊢
    omega

theorem merkleUp_isSome (P : Prims) : ∀ (fuel : Nat) (xs : List Block), xs ≠ [] →
    xs.length ≤ fuel → (merkleUp P fuel xs).isSome
  | 0, [], h, _ => absurd rfl h
  | 0, _ :: _, _, h => by simp at h
  | _ + 1, [], h, _ => absurd rfl h
  | _ + 1, [a], _, _ => rfl
  | fuel + 1, a :: b :: xs, _, hf => by
    simp only [merkleUp, merkleLayer_eq]
    refine merkleUp_isSome P fuel _ (by simp [Spec.nextLayer]) ?_
    rw [nextLayer_length]
    simp only [List.length_cons] at hf ⊢
    omega

/-- The root of a non-empty list exists. -/
theorem merkleRoot_isSome (P : Prims) {xs : List Block} (h : xs ≠ []) :
    ∃ r, merkleRoot P xs = some r :=
  Option.isSome_iff_exists.1 (merkleUp_isSome P _ xs h le_rfl)

theorem merkleRoot_inj (P : Prims) {xs ys : List Block} (hl : xs.length = ys.length)
    (hc : ∀ u ∈ Spec.merkleInputs P xs, ∀ v ∈ Spec.merkleInputs P ys,
      first16 (P.blake3 u) = first16 (P.blake3 v) → u = v)
    (he : merkleRoot P xs = merkleRoot P ys) : xs = ys := by
  unfold merkleRoot at he
  rw [← hl] at he
  unfold Spec.merkleInputs at hc
  rw [← hl] at hc
  exact merkleUp_inj P _ xs ys hl le_rfl hc he

end Mastic
