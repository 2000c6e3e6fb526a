import Verif.Spec.Attack
import Verif.Lemmas.Tree

/-!
# Helper lemmas: shifting the payload of one correction word
-/

namespace Mastic

variable {P : Prims}

theorem genLoop_word_length (P : Prims) (beta : List Field128) (rest : List Bool) :
    ∀ done bits seeds, ∀ c ∈ (genLoop P beta rest done bits seeds).1, c.word.length = beta.length + 1 := by
  induction rest with
  | nil => intro _ _ _ c hc; cases hc
  | cons b rest ih =>
    intro done bits seeds c hc
    simp only [genLoop, List.mem_cons] at hc
    rcases hc with rfl | hc
    · exact genCorWord_word_length P b beta bits seeds
    · exact ih _ _ _ c hc

/-- What the shift adds to a server's value. -/
def shiftOf (bit keyIdx : Bool) (delta : List Field128) : List Field128 :=
  if bit then (if keyIdx then vecNeg delta else delta) else List.replicate delta.length 0

theorem addShares_zero {a : List Field128} {m : Nat} (h : a.length = m) :
    Spec.addShares a (List.replicate m 0) = a := by
  subst h
  apply List.ext_getElem
  · simp [Spec.addShares]
  · intro i h1 h2; simp [Spec.addShares]

theorem evalPath_shift {key : VidpfKey} {n : Nat} (hcs : key.cs.length = key.corWords.length)
    (hw : ∀ c ∈ key.corWords, c.word.length = n + 1) (l : Nat) {delta : List Field128}
    (hdl : delta.length = n + 1) (p : List Bool) :
    ∀ {st w}, Spec.evalPath P key n p = .ok (st, w) →
      ∃ w', Spec.evalPath P (Spec.shiftWord key l delta) n p = .ok (st, w') ∧
        (p.length ≠ l + 1 → w' = w) ∧
        (p.length = l + 1 → ∀ v, w = some v →
          w' = some (Spec.addShares v (shiftOf st.bit key.keyIdx delta))) := by
  induction p using List.reverseRecOn with
  | nil => intro st w h; cases h; exact ⟨none, rfl, fun _ => rfl, by simp⟩
  | append_singleton p b ih =>
    intro st w h
    rw [evalPath_snoc] at h
    obtain ⟨⟨st0, w0⟩, h0, h⟩ := bind_eq_ok.1 h
    obtain ⟨⟨st1, v1⟩, h1, h⟩ := bind_eq_ok.1 h
    cases h
    obtain ⟨w0', e0, -, -⟩ := ih h0
    have hlev : st0.level = p.length := evalPath_level h0
    have hlt := evalBit_level_lt h1
    dsimp only at h1 hlt
    obtain ⟨cw, hcw⟩ : ∃ cw, key.corWords[st0.level]? = some cw := ⟨_, List.getElem?_eq_getElem hlt⟩
    obtain ⟨c, hc⟩ : ∃ c, key.cs[st0.level]? = some c :=
      ⟨_, List.getElem?_eq_getElem (by rw [hcs]; exact hlt)⟩
    rw [evalBit_eq hcw hc] at h1
    have hcs' : (Spec.shiftWord key l delta).cs[st0.level]? = some c := hc
    have hcw' : (Spec.shiftWord key l delta).corWords[st0.level]? = some
        (if st0.level = l then { cw with word := Spec.addShares cw.word delta } else cw) := by
      simp only [Spec.shiftWord, List.getElem?_modify, hcw]
      by_cases hl : st0.level = l
      · simp [hl]
      · simp [hl, Ne.symm hl]
    rw [evalPath_snoc, e0, ok_bind]
    simp only [evalBit_eq hcw' hcs', ok_bind]
    by_cases hl : st0.level = l
    · rw [if_pos hl]
      have hl2 : (p ++ [b]).length = l + 1 := by simp; omega
      refine ⟨some (Spec.addShares v1 (shiftOf st1.bit key.keyIdx delta)), ?_, fun hne => absurd hl2 hne,
        fun _ v hv => by cases hv; rfl⟩
      have hcl := hw cw (List.mem_of_getElem? hcw)
      have key' : (Spec.shiftWord key l delta).keyIdx = key.keyIdx := rfl
      rw [key']
      cases h1
      unfold evalBitPure
      dsimp only
      congr 3
      set conv := (convert P (if st0.bit = true then vxor (Pair.get (expand P st0.seed).seeds b) cw.seed
        else Pair.get (expand P st0.seed).seeds b) n).word with hconv
      have hclen : conv.length = n + 1 := convert_word_length _ _ _
      clear_value conv
      generalize (if st0.bit = true then !Pair.get cw.bits b else true) = nb
      generalize key.keyIdx = ki
      unfold shiftOf Spec.addShares
      cases nb with
      | false =>
        simp only [Bool.false_eq_true, if_false]
        have : (if ki = true then vecNeg conv else conv).length = delta.length := by
          split <;> simp [hclen, hdl]
        exact (addShares_zero this).symm
      | true =>
        simp only [if_true]
        cases ki with
        | false =>
          simp only [Bool.false_eq_true, if_false]
          rw [vecAdd_eq_zipWith (by simp [hclen, hcl, hdl]), vecAdd_eq_zipWith (by simp [hclen, hcl])]
          apply List.ext_getElem
          · simp [hclen, hcl, hdl]
          · intro i h1 h2; simp [add_assoc]
        | true =>
          simp only [if_true]
          rw [vecAdd_eq_zipWith (by simp [hclen, hcl, hdl]), vecAdd_eq_zipWith (by simp [hclen, hcl])]
          apply List.ext_getElem
          · simp [hclen, hcl, hdl, vecNeg]
          · intro i h1 h2; simp [vecNeg]; ring
    · rw [if_neg hl]
      have hl2 : (p ++ [b]).length ≠ l + 1 := by simp; omega
      refine ⟨some v1, ?_, fun _ => rfl, fun hh => absurd hh hl2⟩
      have key' : (Spec.shiftWord key l delta).keyIdx = key.keyIdx := rfl
      rw [key']
      cases h1
      rfl

/-- Shifting keeps the control bits and seeds. -/
theorem shift_twin {B : Nat → Nat → Prop} {key : VidpfKey} {l : Nat} {delta : List Field128} {n : Nat}
    (hw : ∀ c ∈ key.corWords, c.word.length = n + 1) 
    (hB : ∀ i, B l i → i ≤ n → delta[i]? = some 0) : Spec.Twin B key (Spec.shiftWord key l delta) where
  keyIdx := rfl
  rootSeed := rfl
  cs := rfl
  skeleton := by
    unfold Spec.shiftWord
    dsimp only
    rw [List.forall₂_iff_get]
    refine ⟨by simp, fun i h1 h2 => ?_⟩
    simp only [List.get_eq_getElem, List.getElem_modify]
    split <;> simp
  payload := by
    intro k c c' hc hc' i hi
    simp only [Spec.shiftWord, List.getElem?_modify, hc, Option.map_eq_map, Option.map_some,
      Option.some.injEq] at hc'
    subst hc'
    split
    · rename_i hk
      subst hk
      have hcl := hw c (List.mem_of_getElem? hc)
      dsimp only
      unfold Spec.addShares
      by_cases hin : i ≤ n
      · rw [List.getElem?_zipWith, hB i hi hin]
        obtain ⟨x, hx⟩ : ∃ x, c.word[i]? = some x := ⟨_, List.getElem?_eq_getElem (by omega)⟩
        rw [hx]; simp
      · rw [List.getElem?_eq_none (by omega), List.getElem?_eq_none (by simp; omega)]
    · rfl

/-- Offsetting the payload of level `l` in both keys of an honest pair moves the value at the prefix of
`alpha` of length `l + 1` to any target, and no other value. -/
theorem honest_shift (P : Prims) (rs : Block × Block) (alpha : List Bool) (beta : List Field128) (l : Nat)
    (hl : l < alpha.length) (x : List Field128) (hx : x.length = beta.length + 1) :
    ∃ delta : List Field128, delta.length = beta.length + 1 ∧
      (∀ i, x[i]? = (beta ++ [1])[i]? → i ≤ beta.length → delta[i]? = some 0) ∧
      Spec.reconAt P (Spec.shiftWord (VidpfKey.gen P rs alpha beta).1 l delta)
        (Spec.shiftWord (VidpfKey.gen P rs alpha beta).2 l delta) beta.length (alpha.take (l + 1)) = some x ∧
      ∀ p : List Bool, p ≠ [] → p.length ≤ alpha.length → p ≠ alpha.take (l + 1) →
        Spec.reconAt P (Spec.shiftWord (VidpfKey.gen P rs alpha beta).1 l delta)
          (Spec.shiftWord (VidpfKey.gen P rs alpha beta).2 l delta) beta.length p
          = some (Spec.pointValue alpha beta p) := by
  have hkp := gen_keyPair P rs alpha beta
  set k0 := (VidpfKey.gen P rs alpha beta).1 with hk0
  set k1 := (VidpfKey.gen P rs alpha beta).2 with hk1
  have hw0 : ∀ c ∈ k0.corWords, c.word.length = beta.length + 1 := genLoop_word_length P beta alpha _ _ _
  have hw1 : ∀ c ∈ k1.corWords, c.word.length = beta.length + 1 := genLoop_word_length P beta alpha _ _ _
  have hc0 : k0.cs.length = k0.corWords.length := by rw [hkp.cwLen, hkp.csLen]
  have hc1 : k1.cs.length = k1.corWords.length := by rw [hkp.cw, hkp.cs, hkp.cwLen, hkp.csLen]
  -- the two states at any path
  have hst : ∀ p : List Bool, p ≠ [] → p.length ≤ alpha.length → ∃ st0 v0 st1 v1,
      Spec.evalPath P k0 beta.length p = .ok (st0, some v0) ∧
      Spec.evalPath P k1 beta.length p = .ok (st1, some v1) ∧
      v0.length = beta.length + 1 ∧ v1.length = beta.length + 1 ∧
      Spec.addShares v0 v1 = Spec.pointValue alpha beta p ∧
      (p <+: alpha → st0.bit = !st1.bit) ∧ (¬ p <+: alpha → st0.bit = st1.bit) := by
    intro p hne hlen
    obtain ⟨⟨st0, w0⟩, ⟨st1, w1⟩, e0, e1, hh, -, hs⟩ := honest_walk hkp p [] _ _ none none
      (gen_honestAt P rs alpha beta Block.zero Block.zero) (by simpa using hlen)
    obtain ⟨v0, v1, f0, f1, g0, g1, hsum⟩ := hs hne
    dsimp only at f0 f1
    subst f0; subst f1
    rw [List.nil_append] at hsum
    refine ⟨st0, v0, st1, v1, e0, e1, g0, g1, hsum, fun hp => ?_, fun hp => (hh.off hp).2⟩
    obtain ⟨rest, bits, seeds, -, -, -, -, -, b0, b1, hb⟩ := hh.on hp
    rw [b0, b1, hb]
  have hne : alpha.take (l + 1) ≠ [] := by
    intro h
    have := congrArg List.length h
    rw [List.length_take, List.length_nil] at this
    omega
  obtain ⟨st0, v0, st1, v1, e0, e1, g0, g1, hsum, hon, -⟩ := hst (alpha.take (l + 1)) hne (by simp)
  have hb := hon (List.take_prefix _ _)
  have hpv : Spec.pointValue alpha beta (alpha.take (l + 1)) = beta ++ [1] := by
    unfold Spec.pointValue; rw [if_pos (List.take_prefix _ _)]
  rw [hpv] at hsum
  -- the offset
  let diff : List Field128 := List.zipWith (fun a b => a - b) x (beta ++ [1])
  have hdiff : diff.length = beta.length + 1 := by simp [diff, hx]
  refine ⟨if st0.bit then diff else vecNeg diff, by split <;> simp [hdiff], ?_, ?_, ?_⟩
  · intro i hi hin
    have : diff[i]? = some 0 := by
      simp only [diff, List.getElem?_zipWith, hi]
      obtain ⟨y, hy⟩ : ∃ y, (beta ++ [1])[i]? = some y := ⟨_, List.getElem?_eq_getElem (by simp; omega)⟩
      rw [hy]; simp
    split
    · exact this
    · rw [vecNeg_getElem?, this]; simp
  · obtain ⟨w0', h0, -, h0'⟩ := evalPath_shift hc0 hw0 l (delta := if st0.bit then diff else vecNeg diff)
      (by split <;> simp [hdiff]) _ e0
    obtain ⟨w1', h1, -, h1'⟩ := evalPath_shift hc1 hw1 l (delta := if st0.bit then diff else vecNeg diff)
      (by split <;> simp [hdiff]) _ e1
    have hlen : (alpha.take (l + 1)).length = l + 1 := by simp; omega
    have h0' := h0' hlen v0 rfl
    have h1' := h1' hlen v1 rfl
    unfold Spec.reconAt Spec.valueAt
    rw [h0, h1, h0', h1', hkp.idx0, hkp.idx1]
    simp only [Option.bind_eq_bind, Option.bind_some, Option.some.injEq]
    have hb' : st1.bit = !st0.bit := by rw [hb]; simp
    rw [hb']
    have hx' : x = Spec.addShares (Spec.addShares v0 v1) diff := by
      rw [hsum]
      apply List.ext_getElem
      · simp [Spec.addShares, hdiff, hx]
      · intro i h1 h2; simp [Spec.addShares, diff]
    rw [hx']
    cases st0.bit with
    | true =>
      simp only [shiftOf, if_true, Bool.not_true, Bool.false_eq_true, if_false]
      rw [addShares_zero (by omega)]
      apply List.ext_getElem
      · simp [Spec.addShares, hdiff, g0, g1]
      · intro i h1 h2; simp [Spec.addShares]; ring
    | false =>
      simp only [shiftOf, if_true, Bool.not_false, Bool.false_eq_true, if_false, vecNeg_vecNeg]
      rw [addShares_zero (by simp [hdiff, g0])]
      apply List.ext_getElem
      · simp [Spec.addShares, hdiff, g0, g1]
      · intro i h1 h2; simp [Spec.addShares]; ring
  · intro p hp hplen hpne
    obtain ⟨s0, u0, s1, u1, f0, f1, q0, q1, hs, hon', hoff'⟩ := hst p hp hplen
    obtain ⟨w0', h0, h0n, h0'⟩ := evalPath_shift hc0 hw0 l (delta := if st0.bit then diff else vecNeg diff)
      (by split <;> simp [hdiff]) _ f0
    obtain ⟨w1', h1, h1n, h1'⟩ := evalPath_shift hc1 hw1 l (delta := if st0.bit then diff else vecNeg diff)
      (by split <;> simp [hdiff]) _ f1
    unfold Spec.reconAt Spec.valueAt
    rw [h0, h1]
    by_cases hlen : p.length = l + 1
    · have hnp : ¬ p <+: alpha := by
        intro hpre
        apply hpne
        rw [List.prefix_iff_eq_take] at hpre
        rw [hpre, hlen]
      rw [h0' hlen u0 rfl, h1' hlen u1 rfl, hkp.idx0, hkp.idx1, hoff' hnp]
      simp only [Option.bind_eq_bind, Option.bind_some, Option.some.injEq]
      rw [← hs]
      have hdl : (if st0.bit = true then diff else vecNeg diff).length = beta.length + 1 := by
        split <;> simp [hdiff]
      generalize (if st0.bit = true then diff else vecNeg diff) = dl at hdl
      cases s1.bit with
      | true =>
        simp only [shiftOf, if_true, Bool.false_eq_true, if_false]
        apply List.ext_getElem
        · simp [Spec.addShares, hdl, q0, q1, vecNeg]
        · intro i h1 h2; simp [Spec.addShares, vecNeg]; ring
      | false =>
        simp only [shiftOf, Bool.false_eq_true, if_false]
        rw [addShares_zero (by omega), addShares_zero (by omega)]
    · rw [h0n hlen, h1n hlen]
      simp only [Option.bind_eq_bind, Option.bind_some, hs]

end Mastic
