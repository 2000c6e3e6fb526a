import Verif.Lemmas.Exec
import Verif.Spec.Driver

/-!
# Batching lemmas
-/

namespace Mastic

/-- The batches started in one round. -/
theorem batchRound_spec (b : Nat) : ∀ k left,
    (batchRound b k left).1.sum + (batchRound b k left).2 = left ∧
    (∀ s ∈ (batchRound b k left).1, 1 ≤ s ∧ s ≤ b) ∧
    (1 ≤ b → 1 ≤ k → 1 ≤ left → (batchRound b k left).2 < left)
  | 0, left => by simp [batchRound]
  | k + 1, left => by
    obtain ⟨h1, h2, h3⟩ := batchRound_spec b k (left - min left b)
    simp only [batchRound]
    split
    · rename_i hpos
      refine ⟨by simp only [List.sum_cons]; omega, ?_, fun _ _ _ => by omega⟩
      intro s hs
      rcases List.mem_cons.1 hs with rfl | hs
      · exact ⟨by omega, by omega⟩
      · exact h2 s hs
    · rename_i hpos
      refine ⟨by omega, h2, fun hb _ hl => ?_⟩
      exfalso
      have : 0 < min left b := by omega
      omega

/-- The upload loop ends and its batches make up all clients. -/
theorem uploadBatches_spec {b : Nat} (hb : 1 ≤ b) : ∀ (fuel left : Nat), left ≤ fuel →
    ∃ sizes, uploadBatches b fuel left = .ok sizes ∧ sizes.sum = left ∧
      ∀ s ∈ sizes, 1 ≤ s ∧ s ≤ b
  | fuel, 0, _ => by
    refine ⟨[], ?_, rfl, by simp⟩
    cases fuel <;> rfl
  | 0, left + 1, h => absurd h (by omega)
  | fuel + 1, left + 1, h => by
    obtain ⟨h1, h2, h3⟩ := batchRound_spec b 1000 (left + 1)
    have h4 := h3 hb (by omega) (by omega)
    obtain ⟨sizes, e, hs, hm⟩ := uploadBatches_spec hb fuel (batchRound b 1000 (left + 1)).2
      (by omega)
    refine ⟨(batchRound b 1000 (left + 1)).1 ++ sizes, ?_, ?_, ?_⟩
    · simp only [uploadBatches, e, ok_bind]
    · rw [List.sum_append, hs]; exact h1
    · intro s hs'
      rcases List.mem_append.1 hs' with h | h
      · exact h2 s h
      · exact hm s h

theorem batchRound_zero : ∀ k left, batchRound 0 k left = ([], left)
  | 0, _ => rfl
  | k + 1, left => by simp [batchRound, batchRound_zero k left]

/-- With batch size 0 no number of rounds is enough. -/
theorem uploadBatches_zero : ∀ (fuel left : Nat), uploadBatches 0 fuel (left + 1) = .error .outOfFuel
  | 0, _ => rfl
  | fuel + 1, left => by
    simp only [uploadBatches, batchRound_zero, uploadBatches_zero fuel left]; rfl

/-- Batches put together again give the list. -/
theorem splitBatches_flatten {α : Type} : ∀ (sizes : List Nat) (l : List α), sizes.sum = l.length →
    (splitBatches sizes l).flatten = l
  | [], l, h => by
    have : l = [] := List.length_eq_zero_iff.1 (by simpa using h.symm)
    simp [splitBatches, this]
  | n :: ns, l, h => by
    simp only [List.sum_cons] at h
    simp only [splitBatches, List.flatten_cons]
    rw [splitBatches_flatten ns (l.drop n) (by simp; omega), List.take_append_drop]

theorem splitBatches_lengths {α : Type} : ∀ (sizes : List Nat) (l : List α), sizes.sum = l.length →
    (splitBatches sizes l).map List.length = sizes
  | [], l, _ => rfl
  | n :: ns, l, h => by
    simp only [List.sum_cons] at h
    simp only [splitBatches, List.map_cons]
    rw [splitBatches_lengths ns (l.drop n) (by simp; omega)]
    simp; omega

theorem range'_split {s m e : Nat} (h1 : s ≤ m) (h2 : m ≤ e) :
    List.range' s (m - s) ++ List.range' m (e - m) = List.range' s (e - s) := by
  have h := List.range'_append (s := s) (m := m - s) (n := e - m) (step := 1)
  rw [show s + 1 * (m - s) = m by omega, show m - s + (e - m) = e - s by omega] at h
  exact h

/-- The ranges of the `while` loops. -/
theorem whileRanges_spec {n b : Nat} (hb : 1 ≤ b) : ∀ (fuel start : Nat), n ≤ start + fuel →
    ∃ rs, whileRanges n b fuel start = .ok rs ∧
      (∀ r ∈ rs, r.1 < r.2 ∧ r.2 ≤ n ∧ r.2 ≤ r.1 + b) ∧
      (rs.flatMap fun r => List.range' r.1 (r.2 - r.1)) = List.range' start (n - start)
  | 0, start, h => by
    refine ⟨[], by simp [whileRanges]; omega, by simp, ?_⟩
    rw [show n - start = 0 by omega]; rfl
  | fuel + 1, start, h => by
    by_cases hs : start < n
    · obtain ⟨rs, e, hm, hf⟩ := whileRanges_spec (n := n) hb fuel (start + b) (by omega)
      refine ⟨(start, min n (start + b)) :: rs, ?_, ?_, ?_⟩
      · simp only [whileRanges, hs, if_true, e, ok_bind]
      · intro r hr
        rcases List.mem_cons.1 hr with rfl | hr
        · simp only; omega
        · exact hm r hr
      · rw [List.flatMap_cons, hf]
        by_cases hb' : start + b ≤ n
        · simp only [min_eq_right hb']; exact range'_split (by omega) hb'
        · rw [min_eq_left (by omega), show n - (start + b) = 0 by omega]; simp
    · refine ⟨[], by simp [whileRanges, hs], by simp, ?_⟩
      rw [show n - start = 0 by omega]; rfl

/-- The ranges of the `while` loop: steps of the batch size, the last one cut off. -/
theorem whileRanges_mem {n b : Nat} (hb : 1 ≤ b) : ∀ (fuel start : Nat) (rs : List (Nat × Nat)),
    n ≤ start + fuel → whileRanges n b fuel start = .ok rs →
    ∀ r, r ∈ rs ↔ ∃ k, r = (start + k * b, min n (start + k * b + b)) ∧ start + k * b < n
  | 0, start, rs, h, e => by
    simp only [whileRanges] at e
    rw [if_neg (by omega)] at e
    cases e
    intro r
    constructor
    · intro h; cases h
    · rintro ⟨k, -, h2⟩; have := Nat.zero_le (k * b); omega
  | fuel + 1, start, rs, h, e => by
    by_cases hs : start < n
    · simp only [whileRanges, hs, if_true] at e
      obtain ⟨rest, e1, e2⟩ := bind_eq_ok.1 e
      cases e2
      have ih := whileRanges_mem hb fuel (start + b) rest (by omega) e1
      intro r
      rw [List.mem_cons, ih]
      constructor
      · rintro (rfl | ⟨k, h1, h2⟩)
        · exact ⟨0, by simp, by simpa using hs⟩
        · refine ⟨k + 1, ?_, ?_⟩
          · rw [h1, Nat.succ_mul]
            congr 1
            · omega
            · congr 1; omega
          · rw [Nat.succ_mul]; omega
      · rintro ⟨k, h1, h2⟩
        cases k with
        | zero => left; simpa using h1
        | succ k =>
          right
          rw [Nat.succ_mul] at h1 h2
          refine ⟨k, ?_, by omega⟩
          rw [h1]
          congr 1
          · omega
          · congr 1; omega
    · simp only [whileRanges, hs, if_false] at e
      cases e
      intro r
      constructor
      · intro h; cases h
      · rintro ⟨k, -, h2⟩; have := Nat.zero_le (k * b); omega

theorem whileRanges_zero {n start : Nat} (h : start < n) : ∀ fuel,
    whileRanges n 0 fuel start = .error .outOfFuel
  | 0 => by simp [whileRanges, h]
  | fuel + 1 => by
    simp only [whileRanges, h, if_true, Nat.add_zero, whileRanges_zero h fuel]; rfl

theorem stepBy_flatten (n b : Nat) : ∀ k, k * b < n + b →
    ((List.range k).map fun j => (j * b, min n (j * b + b))).flatMap
      (fun r => List.range' r.1 (r.2 - r.1)) = List.range (min n (k * b))
  | 0, _ => by simp
  | k + 1, h => by
    have hk : k * b < n := by
      rw [Nat.add_mul, Nat.one_mul] at h; omega
    rw [List.range_succ, List.map_append, List.flatMap_append, stepBy_flatten n b k (by omega),
      min_eq_right (a := n) hk.le, List.range_eq_range']
    simp only [List.map_cons, List.map_nil, List.flatMap_cons, List.flatMap_nil, List.append_nil]
    have := range'_split (s := 0) (m := k * b) (e := min n (k * b + b)) (by omega) (by omega)
    rw [Nat.sub_zero, Nat.sub_zero] at this
    rw [this, List.range_eq_range', Nat.add_mul, Nat.one_mul]

/-- The ranges of the `step_by` loops. -/
theorem stepByRanges_spec {n b : Nat} (hb : 1 ≤ b) : ∃ rs, stepByRanges n b = .ok rs ∧
    Spec.Partitions n rs ∧ ∀ r ∈ rs, r.2 ≤ r.1 + b := by
  refine ⟨_, by unfold stepByRanges; rw [if_neg (by omega)], ⟨?_, ?_⟩, ?_⟩
  · intro r hr
    obtain ⟨j, hj, rfl⟩ := List.mem_map.1 hr
    have hj' : j < (n + b - 1) / b := List.mem_range.1 hj
    have : j * b < n := by
      have h1 : (j + 1) * b ≤ n + b - 1 :=
        (Nat.le_div_iff_mul_le (by omega)).1 (by omega : j + 1 ≤ (n + b - 1) / b)
      rw [Nat.add_mul, Nat.one_mul] at h1; omega
    simp only; omega
  · have h1 : (n + b - 1) / b * b < n + b := by
      have := Nat.div_mul_le_self (n + b - 1) b; omega
    rw [stepBy_flatten n b _ h1, min_eq_left]
    have h2 : n + b - 1 < ((n + b - 1) / b + 1) * b := by
      have := Nat.lt_div_mul_add (a := n + b - 1) (b := b) (by omega)
      rw [Nat.add_mul, Nat.one_mul]; exact this
    rw [Nat.add_mul, Nat.one_mul] at h2; omega
  · intro r hr
    obtain ⟨j, _, rfl⟩ := List.mem_map.1 hr
    simp only; omega

end Mastic
