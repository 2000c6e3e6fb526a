import Verif.Props.Lib
import Verif.Lemmas.Prime
import Verif.Model.Driver
import Mathlib.Data.Fintype.Pi
import Mathlib.Data.Fintype.BigOperators
import Mathlib.Algebra.BigOperators.Fin
import Mathlib.Algebra.Order.BigOperators.Ring.Finset

/-!
# C70: the shares of the FLP proof hide it

`proof_0` takes one `u128` per entry, reduced (`src/bin/driver.rs:173-183`).
-/

namespace Mastic

open scoped BigOperators

/-- The field elements made of the given `u128` draws. -/
def drawnElems {n : Nat} (r : Fin n → Fin (2 ^ 128)) (i : Nat) : Field128 :=
  if h : i < n then ((r ⟨i, h⟩ : Nat) : Field128) else 0

/-- The number of draws of `proof.length` numbers that lead to the given helper share. -/
noncomputable def helperCount (proof share : List Field128) : Nat :=
  Nat.card {r : Fin proof.length → Fin (2 ^ 128) // (shareProof proof (drawnElems r)).2 = share}

/-- C70. The two shares add up to the proof, and the leader's share depends on nothing but the draws and the number of
entries. -/
theorem C70_shares (proof proof' : List Field128) (rand : Nat → Field128) :
    List.zipWith (· + ·) (shareProof proof rand).1 (shareProof proof rand).2 = proof ∧
    (shareProof proof rand).1 = (List.range proof.length).map rand ∧
    (proof.length = proof'.length → (shareProof proof rand).1 = (shareProof proof' rand).1) := by
  have h0 : ∀ p : List Field128, (shareProof p rand).1 = (List.range p.length).map rand := by
    intro p
    unfold shareProof
    refine List.ext_getElem (by simp) fun i h1 h2 => by simp
  refine ⟨?_, h0 _, fun h => by rw [h0, h0, h]⟩
  refine List.ext_getElem ?_ fun i h1 h2 => ?_
  · simp [shareProof]
  · simp [shareProof]

theorem shareProof_helper_iff (proof : List Field128) (rand : Nat → Field128) (share : List Field128) :
    (shareProof proof rand).2 = share ↔ share.length = proof.length ∧
      ∀ (i : Nat) (h : i < proof.length) (h' : i < share.length), rand i = proof[i] - share[i] := by
  constructor
  · rintro rfl
    refine ⟨by simp [shareProof], fun i h h' => by simp [shareProof]⟩
  · rintro ⟨hl, h⟩
    refine List.ext_getElem (by simp [shareProof, hl]) fun i h1 h2 => ?_
    have := h i (by omega) h2
    simp [shareProof, this]

/-- The number of `u128` values that reduce to `x`. -/
def fibre (x : Field128) : Nat := if x.val < 2 ^ 128 - fieldModulus then 2 else 1

theorem card_fibre (x : Field128) : Nat.card {r : Fin (2 ^ 128) // ((r : Nat) : Field128) = x} = fibre x := by
  unfold fibre
  rw [← C13_field_sampling x, ← Nat.card_coe_set_eq]
  refine Nat.card_congr ⟨fun r => ⟨r.1, r.1.2, r.2⟩, fun n => ⟨⟨n.1, n.2.1⟩, n.2.2⟩, fun _ => rfl, fun _ => rfl⟩

/-- C70. The number of draws that lead to a helper share is a product over the entries (so the entries are
independent), with factor 1 or 2. -/
theorem C70_count (proof share : List Field128) (h : share.length = proof.length) :
    helperCount proof share = ∏ i : Fin proof.length,
      if (proof[i] - share[i]).val < 2 ^ 128 - fieldModulus then 2 else 1 := by
  show _ = ∏ i : Fin proof.length, fibre (proof[i] - share[i])
  unfold helperCount
  have : ∀ i : Fin proof.length, fibre (proof[i] - share[i])
      = Nat.card {r : Fin (2 ^ 128) // ((r : Nat) : Field128) = proof[i] - share[i]} := fun i => (card_fibre _).symm
  simp only [this]
  rw [← Nat.card_pi]
  refine Nat.card_congr (Equiv.trans (Equiv.subtypeEquivRight fun r => ?_)
    (Equiv.subtypePiEquivPi (p := fun i (b : Fin (2 ^ 128)) => ((b : Nat) : Field128) = proof[i] - share[i])))
  rw [shareProof_helper_iff]
  constructor
  · rintro ⟨-, g⟩ i
    have := g i.1 i.2 (by omega)
    simpa [drawnElems] using this
  · intro g
    refine ⟨h, fun i hi hi' => ?_⟩
    have := g ⟨i, hi⟩
    simpa [drawnElems, hi] using this

/-- For different elements there is a helper entry with two draws from the first and one from the second. -/
theorem exists_separating {a b : Field128} (h : a ≠ b) : ∃ v, fibre (a - v) = 2 ∧ fibre (b - v) = 1 := by
  have hp : 0 < 2 ^ 128 - fieldModulus := by decide
  have hlt : 2 ^ 128 - fieldModulus < fieldModulus := by decide
  set K := 2 ^ 128 - fieldModulus with hK
  -- `b - a` moves some element below `K` to or above `K`
  have key : ∃ y : Field128, y.val < K ∧ ¬ (y + (b - a)).val < K := by
    by_contra hcon
    push Not at hcon
    have hstep : ∀ k : Nat, ((k : Field128) * (b - a)).val < K := by
      intro k
      induction k with
      | zero => simpa using hp
      | succ k ih =>
        have := hcon _ ih
        rwa [Nat.cast_succ, add_mul, one_mul]
    have hne : b - a ≠ 0 := sub_ne_zero.2 (Ne.symm h)
    have : ((-1 : Field128)).val < K := by
      have := hstep ((-1 : Field128) * (b - a)⁻¹).val
      rwa [ZMod.natCast_zmod_val, mul_assoc, inv_mul_cancel₀ hne, mul_one] at this
    have hv : ((-1 : Field128)).val = fieldModulus - 1 := by
      have := ZMod.val_neg_one (fieldModulus - 1)
      exact this
    rw [hv] at this
    omega
  obtain ⟨y, h1, h2⟩ := key
  refine ⟨a - y, ?_, ?_⟩
  · unfold fibre; rw [if_pos (by rw [sub_sub_cancel]; exact h1)]
  · unfold fibre; rw [if_neg (by
      have : b - (a - y) = y + (b - a) := by ring
      rw [this]; exact h2)]

/-- **C70 fails.**  The helper's share is not independent of the proof: for any two different proofs of the same length
there is a helper share that more draws lead to from the first proof than from the second. -/
theorem C70_false_biased (proof proof' : List Field128) (hl : proof.length = proof'.length) (hne : proof ≠ proof') :
    ∃ share, share.length = proof.length ∧ helperCount proof' share < helperCount proof share := by
  classical
  have hsep : ∀ i : Fin proof.length, ∃ v, fibre (proof[i] - v) = 2 ∧
      (proof[i] ≠ proof'[i] → fibre (proof'[i] - v) = 1) := by
    intro i
    by_cases e : proof[i] = proof'[i]
    · exact ⟨proof[i], by rw [sub_self]; decide, fun h => absurd e h⟩
    · obtain ⟨v, a, b⟩ := exists_separating e
      exact ⟨v, a, fun _ => b⟩
  choose v hv1 hv2 using hsep
  have hlen : (List.ofFn v).length = proof.length := by simp
  refine ⟨List.ofFn v, hlen, ?_⟩
  rw [C70_count _ _ hlen, C70_count _ _ (hlen.trans hl)]
  show ∏ i : Fin proof'.length, fibre (proof'[i] - (List.ofFn v)[i])
    < ∏ i : Fin proof.length, fibre (proof[i] - (List.ofFn v)[i])
  obtain ⟨j, hj⟩ : ∃ i : Fin proof.length, proof[i] ≠ proof'[i] := by
    by_contra hcon
    push Not at hcon
    exact hne (List.ext_getElem hl fun i h1 h2 => hcon ⟨i, h1⟩)
  have e : ∏ i : Fin proof'.length, fibre (proof'[i] - (List.ofFn v)[i])
      = ∏ i : Fin proof.length, fibre (proof'[i] - v i) := by
    refine Fintype.prod_equiv (finCongr hl.symm) _ _ fun i => ?_
    simp
    rfl
  rw [e]
  refine Finset.prod_lt_prod (fun i _ => ?_) (fun i _ => ?_) ⟨j, Finset.mem_univ j, ?_⟩
  · unfold fibre; split <;> omega
  · have : (List.ofFn v)[i] = v i := by simp
    rw [this, hv1 i]
    unfold fibre; split <;> omega
  · have : (List.ofFn v)[j] = v j := by simp
    rw [this, hv1 j, hv2 j hj]
    omega

/-- **C70, what does hold.**  Entry by entry the bias is small: for every set of helper entries the numbers of draws
leading to it, for two values of the proof entry, differ by at most 2^69 of the 2^128 draws.  Missing: exact
independence. -/
theorem C70_entry_partial (a b : Field128) (S : Finset Field128) :
    ∑ v ∈ S, helperCount [a] [v] ≤ ∑ v ∈ S, helperCount [b] [v] + 2 ^ 69 := by
  classical
  have h1 : ∀ x v : Field128, helperCount [x] [v] = fibre (x - v) := by
    intro x v
    rw [C70_count [x] [v] rfl]
    simp [fibre]
  simp only [h1]
  have hsplit : ∀ x : Field128, fibre x = 1 + if x.val < 2 ^ 128 - fieldModulus then 1 else 0 := by
    intro x; unfold fibre; split <;> rfl
  have hup : ∑ v ∈ S, fibre (a - v) ≤ S.card + (2 ^ 128 - fieldModulus) := by
    simp only [hsplit, Finset.sum_add_distrib, Finset.sum_const, smul_eq_mul, mul_one]
    rw [← Finset.card_filter]
    refine Nat.add_le_add_left ?_ _
    calc (S.filter fun v => (a - v).val < 2 ^ 128 - fieldModulus).card
        ≤ (Finset.range (2 ^ 128 - fieldModulus)).card := by
          refine Finset.card_le_card_of_injOn (fun v => (a - v).val) (fun v hv => ?_) fun x _ y _ e => ?_
          · simpa using (Finset.mem_filter.1 hv).2
          · have := ZMod.val_injective _ e
            simpa using this
      _ = _ := Finset.card_range _
  have hlo : S.card ≤ ∑ v ∈ S, fibre (b - v) := by
    simp only [hsplit, Finset.sum_add_distrib, Finset.sum_const, smul_eq_mul, mul_one]
    omega
  have : 2 ^ 128 - fieldModulus ≤ 2 ^ 69 := by decide
  omega

/-- Two proofs as in `C70_false_biased`. -/
example : ∃ share : List Field128, share.length = 2 ∧ helperCount [1, 7] share < helperCount [1, 8] share :=
  C70_false_biased [1, 8] [1, 7] rfl (by decide)

end Mastic
