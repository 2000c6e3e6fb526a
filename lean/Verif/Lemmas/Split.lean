import Verif.Spec.Split
import Verif.Lemmas.Weights

/-!
# Helper lemmas: different correction words in the two halves of a report
-/

namespace Mastic

variable {P : Prims}

theorem moved_length {alpha e p} {m : Nat} (he : e.length = m) : (Spec.moved alpha e p).length = m := by
  unfold Spec.moved; split
  · exact he
  · split <;> simp [he]

theorem moved_getD (alpha e p) (j : Nat) : (Spec.moved alpha e p).getD j 0
    = if p <+: alpha then e.getD j 0 else if p.length = 1 then - e.getD j 0 else 0 := by
  unfold Spec.moved
  split
  · rfl
  · split
    · simp only [List.getD_eq_getElem?_getD, List.getElem?_map]
      cases e[j]? <;> simp
    · simp only [List.getD_eq_getElem?_getD, List.getElem?_map]
      cases e[j]? <;> simp

/-- The first server's control bit is set at both children of the root. -/
theorem honest_first_bit (rs : Block × Block) (alpha : List Bool) (beta : List Field128) {b : Bool} {st w}
    (h : Spec.evalPath P (VidpfKey.gen P rs alpha beta).1 beta.length [b] = .ok (st, w)) : st.bit = true := by
  rw [← List.nil_append [b], evalPath_snoc] at h
  obtain ⟨⟨st0, w0⟩, h0, h⟩ := bind_eq_ok.1 h
  obtain ⟨⟨st1, v1⟩, h1, h⟩ := bind_eq_ok.1 h
  cases h; cases h0
  dsimp only at h1
  have hlt := evalBit_level_lt h1
  obtain ⟨cw, hcw⟩ : ∃ cw, (VidpfKey.gen P rs alpha beta).1.corWords[0]? = some cw :=
    ⟨_, List.getElem?_eq_getElem hlt⟩
  have hkp := gen_keyPair P rs alpha beta
  obtain ⟨c, hc⟩ : ∃ c, (VidpfKey.gen P rs alpha beta).1.cs[0]? = some c :=
    ⟨_, List.getElem?_eq_getElem (by rw [hkp.csLen, ← hkp.cwLen]; exact hlt)⟩
  rw [evalBit_eq hcw hc] at h1
  cases h1
  rfl

theorem honest_split (P : Prims) (rs : Block × Block) (alpha : List Bool) (beta : List Field128)
    (e : List Field128) (he : e.length = beta.length + 1) :
    ∃ ds0 ds1 : Nat → List Field128,
      (∀ l, (ds0 l).length = beta.length + 1) ∧ (∀ l, (ds1 l).length = beta.length + 1) ∧
      (∀ l, l ≠ 0 → ds0 l = ds1 l) ∧
      (∀ l j, e.getD j 0 = 0 → (ds0 l).getD j 0 = 0 ∧ (ds1 l).getD j 0 = 0) ∧
      (∀ p : List Bool, p ≠ [] → p.length ≤ alpha.length →
        Spec.proofAt P (Spec.shiftWords (VidpfKey.gen P rs alpha beta).1 ds0) beta.length p
          = Spec.proofAt P (Spec.shiftWords (VidpfKey.gen P rs alpha beta).2 ds1) beta.length p) ∧
      (∀ p : List Bool, p.length = 1 → 1 ≤ alpha.length → ∃ v0 v1 v0' v1',
        Spec.valueAt P (VidpfKey.gen P rs alpha beta).1 beta.length p = some v0 ∧
        Spec.valueAt P (VidpfKey.gen P rs alpha beta).2 beta.length p = some v1 ∧
        Spec.valueAt P (Spec.shiftWords (VidpfKey.gen P rs alpha beta).1 ds0) beta.length p = some v0' ∧
        Spec.valueAt P (Spec.shiftWords (VidpfKey.gen P rs alpha beta).2 ds1) beta.length p = some v1' ∧
        v0'.length = beta.length + 1 ∧ v1'.length = beta.length + 1 ∧
        v0.length = beta.length + 1 ∧ v1.length = beta.length + 1 ∧
        ∀ j, e.getD j 0 = 0 → v0'.getD j 0 = v0.getD j 0 ∧ v1'.getD j 0 = v1.getD j 0) ∧
      ∀ p : List Bool, p ≠ [] → p.length ≤ alpha.length →
        Spec.reconAt P (Spec.shiftWords (VidpfKey.gen P rs alpha beta).1 ds0)
          (Spec.shiftWords (VidpfKey.gen P rs alpha beta).2 ds1) beta.length p
          = some (Spec.addShares (Spec.pointValue alpha beta p) (Spec.moved alpha e p)) := by
  have hkp := gen_keyPair P rs alpha beta
  have hrec := honest_recon (P := P) rs alpha beta
  have hpr := honest_proofs (P := P) rs alpha beta
  have hfirst := fun b st w => honest_first_bit (P := P) rs alpha beta (b := b) (st := st) (w := w)
  set k0 := (VidpfKey.gen P rs alpha beta).1 with hk0
  set k1 := (VidpfKey.gen P rs alpha beta).2 with hk1
  set n := beta.length with hn
  have hw0 : ∀ c ∈ k0.corWords, c.word.length = n + 1 := genLoop_word_length P beta alpha _ _ _
  have hw1 : ∀ c ∈ k1.corWords, c.word.length = n + 1 := genLoop_word_length P beta alpha _ _ _
  have hc0 : k0.cs.length = k0.corWords.length := by rw [hkp.cwLen, hkp.csLen]
  have hc1 : k1.cs.length = k1.corWords.length := by rw [hkp.cw, hkp.cs, hkp.cwLen, hkp.csLen]
  have hst : ∀ p : List Bool, p ≠ [] → p.length ≤ alpha.length → ∃ st0 v0 st1 v1,
      Spec.evalPath P k0 n p = .ok (st0, some v0) ∧
      Spec.evalPath P k1 n p = .ok (st1, some v1) ∧
      v0.length = n + 1 ∧ v1.length = n + 1 ∧
      (p <+: alpha → st0.bit = !st1.bit) ∧ (¬ p <+: alpha → st0.bit = st1.bit) ∧
      (p.length = 1 → st0.bit = true) := by
    intro p hne hlen
    obtain ⟨⟨st0, w0⟩, ⟨st1, w1⟩, e0, e1, hh, -, hs⟩ := honest_walk hkp p [] _ _ none none
      (gen_honestAt P rs alpha beta Block.zero Block.zero) (by simpa using hlen)
    obtain ⟨v0, v1, f0, f1, g0, g1, -⟩ := hs hne
    dsimp only at f0 f1
    subst f0; subst f1
    refine ⟨st0, v0, st1, v1, e0, e1, g0, g1, fun hp => ?_, fun hp => (hh.off hp).2, fun hp => ?_⟩
    · obtain ⟨rest, bits, seeds, -, -, -, -, -, b0, b1, hb⟩ := hh.on hp
      rw [b0, b1, hb]
    · match p, hp with
      | [b], _ => exact hfirst b _ _ e0
  let ds0 : Nat → List Field128 := fun l =>
    if l = 0 then e else if bitAt P k0 n (alpha.take (l + 1)) then e else e.map fun x => -x
  let ds1 : Nat → List Field128 := fun l =>
    if l = 0 then e.map fun x => 2 * x else if bitAt P k0 n (alpha.take (l + 1)) then e else e.map fun x => -x
  have hmap : ∀ (f : Field128 → Field128) (j : Nat), f 0 = 0 → (e.map f).getD j 0 = f (e.getD j 0) := by
    intro f j hf
    simp only [List.getD_eq_getElem?_getD, List.getElem?_map]
    cases e[j]? <;> simp [hf]
  have hdl0 : ∀ l, (ds0 l).length = n + 1 := by
    intro l; simp only [ds0]; split
    · exact he
    · split <;> simp [he]
  have hdl1 : ∀ l, (ds1 l).length = n + 1 := by
    intro l; simp only [ds1]; split
    · simp [he]
    · split <;> simp [he]
  have hg0 : ∀ l j, (ds0 l).getD j 0 = if l = 0 then e.getD j 0 else
      if bitAt P k0 n (alpha.take (l + 1)) then e.getD j 0 else - e.getD j 0 := by
    intro l j; simp only [ds0]; split
    · rfl
    · split
      · rfl
      · exact hmap _ j (by simp)
  have hg1 : ∀ l j, (ds1 l).getD j 0 = if l = 0 then 2 * e.getD j 0 else
      if bitAt P k0 n (alpha.take (l + 1)) then e.getD j 0 else - e.getD j 0 := by
    intro l j; simp only [ds1]; split
    · exact hmap _ j (by simp)
    · split
      · rfl
      · exact hmap _ j (by simp)
  have hval : ∀ p : List Bool, p ≠ [] → p.length ≤ alpha.length → ∃ v0 v1,
      Spec.valueAt P k0 n p = some v0 ∧ Spec.valueAt P k1 n p = some v1 ∧
      v0.length = n + 1 ∧ v1.length = n + 1 ∧
      Spec.valueAt P (Spec.shiftWords k0 ds0) n p
        = some (Spec.addShares v0 (shiftOf (bitAt P k0 n p) false (ds0 (p.length - 1)))) ∧
      Spec.valueAt P (Spec.shiftWords k1 ds1) n p
        = some (Spec.addShares v1 (shiftOf (bitAt P k1 n p) true (ds1 (p.length - 1)))) := by
    intro p hne hlen
    obtain ⟨st0, v0, st1, v1, e0, e1, g0, g1, -, -⟩ := hst p hne hlen
    refine ⟨v0, v1, by unfold Spec.valueAt; rw [e0], by unfold Spec.valueAt; rw [e1], g0, g1, ?_, ?_⟩
    · unfold Spec.valueAt
      rw [evalPath_shiftWords hc0 hw0 hdl0 p e0, bitAt_eq e0, hkp.idx0]; rfl
    · unfold Spec.valueAt
      rw [evalPath_shiftWords hc1 hw1 hdl1 p e1, bitAt_eq e1, hkp.idx1]; rfl
  have hsl0 : ∀ b l, (shiftOf b false (ds0 l)).length = n + 1 := by
    intro b l; unfold shiftOf; split <;> simp [hdl0]
  have hsl1 : ∀ b l, (shiftOf b true (ds1 l)).length = n + 1 := by
    intro b l; unfold shiftOf; split <;> simp [hdl1, vecNeg]
  refine ⟨ds0, ds1, hdl0, hdl1, fun l hl => by simp [ds0, ds1, hl], ?_, ?_, ?_, ?_⟩
  · intro l j hj
    rw [hg0, hg1, hj]; simp
  · intro p hne hl
    obtain ⟨st0, v0, st1, v1, e0, e1, -⟩ := hst p hne hl
    have := hpr p hl
    unfold Spec.proofAt at this ⊢
    rw [evalPath_shiftWords hc0 hw0 hdl0 p e0, evalPath_shiftWords hc1 hw1 hdl1 p e1]
    rw [e0, e1] at this
    exact this
  · intro p hp1 hal
    have hne : p ≠ [] := by intro h; rw [h] at hp1; cases hp1
    obtain ⟨v0, v1, a0, a1, l0, l1, b0, b1⟩ := hval p hne (by omega)
    refine ⟨v0, v1, _, _, a0, a1, b0, b1, addShares_length l0 (hsl0 _ _), addShares_length l1 (hsl1 _ _), l0, l1,
      fun j hj => ?_⟩
    rw [addShares_shift_getD _ _ l0 (hdl0 _), addShares_shift_getD _ _ l1 (hdl1 _), hg0, hg1, hj]
    simp
  · intro p hne hlen
    obtain ⟨v0, v1, a0, a1, l0, l1, b0, b1⟩ := hval p hne hlen
    have hr := hrec p hne hlen
    unfold Spec.reconAt at hr ⊢
    rw [a0, a1] at hr
    rw [b0, b1]
    simp only [Option.bind_eq_bind, Option.bind_some, Option.some.injEq] at hr ⊢
    have hpl : 1 ≤ p.length := List.length_pos_of_ne_nil hne
    have q0 := addShares_length l0 (hsl0 (bitAt P k0 n p) (p.length - 1))
    have q1 := addShares_length l1 (hsl1 (bitAt P k1 n p) (p.length - 1))
    have hpv : (Spec.pointValue alpha beta p).length = n + 1 := pointValue_length _ _ _
    refine list_ext_getD (addShares_length q0 q1) (addShares_length hpv (moved_length he)) fun j => ?_
    rw [addShares_getD q0 q1, addShares_shift_getD _ _ l0 (hdl0 _), addShares_shift_getD _ _ l1 (hdl1 _),
      addShares_getD hpv (moved_length he), moved_getD, hg0, hg1]
    have hsum : v0.getD j 0 + v1.getD j 0 = (Spec.pointValue alpha beta p).getD j 0 := by
      rw [← hr, addShares_getD l0 l1]
    rw [← hsum]
    obtain ⟨st0, u0, st1, u1, e0, e1, -, -, hon, hoff, hone⟩ := hst p hne hlen
    rw [bitAt_eq e0, bitAt_eq e1]
    by_cases hp : p <+: alpha
    · have hb := hon hp
      have htake : alpha.take (p.length - 1 + 1) = p := by
        rw [Nat.sub_add_cancel hpl]; exact (List.prefix_iff_eq_take.1 hp).symm
      rw [htake, bitAt_eq e0, if_pos hp]
      by_cases h1 : p.length = 1
      · have h2 := hone h1
        rw [h2] at hb
        have hb1 : st1.bit = false := by simpa using hb.symm
        simp [h1, h2, hb1]; ring
      · have h2 : ¬ p.length - 1 = 0 := by omega
        simp only [if_neg h2]
        cases hb1 : st1.bit <;> rw [hb1] at hb <;> simp [hb] <;> ring
    · have hb := hoff hp
      rw [if_neg hp]
      by_cases h1 : p.length = 1
      · have h2 := hone h1
        rw [h2] at hb
        simp [h1, h2, ← hb]; ring
      · have h2 : ¬ p.length - 1 = 0 := by omega
        simp only [if_neg h2, if_neg h1, ← hb]
        cases st0.bit <;> simp <;> ring

end Mastic
