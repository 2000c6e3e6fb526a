import Verif.Spec.Flat
import Verif.Lemmas.Replace
import Verif.Lemmas.Split
import Verif.Lemmas.AbmRun

/-!
# Helper lemmas: the flat report
-/

namespace Mastic

variable {P : Prims}

theorem half_add_half : Spec.half + Spec.half = 1 := by
  unfold Spec.half
  rw [← Nat.cast_add, show (fieldModulus + 1) / 2 + (fieldModulus + 1) / 2 = fieldModulus + 1 by decide]
  simp

theorem flatValue_length (beta ctr p) : (Spec.flatValue beta ctr p).length = beta.length + 1 := by
  simp [Spec.flatValue]

theorem flatValue_getD_lt {beta : List Field128} {ctr : Nat → Field128} {p : List Bool} {j : Nat}
    (hj : j < beta.length) : (Spec.flatValue beta ctr p).getD j 0 = beta.getD j 0 * Spec.half ^ p.length := by
  simp [Spec.flatValue, List.getD_eq_getElem?_getD, List.getElem?_append, hj]

theorem flatValue_getD_last (beta : List Field128) (ctr : Nat → Field128) (p : List Bool) :
    (Spec.flatValue beta ctr p).getD beta.length 0 = ctr p.length := by
  simp [Spec.flatValue, List.getD_eq_getElem?_getD, List.getElem?_append]

/-- One step with a flat correction word. -/
theorem flat_step (ki : Bool) (w : List Field128) (st : EvalState) (b : Bool) (str : List Byte) (n : Nat) :
    evalBitPure P ki { seed := Block.zero, bits := (true, true), word := w } Block.zero st b str n
      = ({ level := st.level + 1
           seed := (convert P (Pair.get (expand P st.seed).seeds b) n).seed
           bit := !st.bit
           proof := vxor (first16 (P.blake3 (vxor st.proof (first16 (P.blake3 (str ++
             (convert P (Pair.get (expand P st.seed).seeds b) n).seed.toList)))).toList)) st.proof },
         if ki then vecNeg (if st.bit then (convert P (Pair.get (expand P st.seed).seeds b) n).word
             else vecAdd (convert P (Pair.get (expand P st.seed).seeds b) n).word w)
           else if st.bit then (convert P (Pair.get (expand P st.seed).seeds b) n).word
             else vecAdd (convert P (Pair.get (expand P st.seed).seeds b) n).word w) := by
  unfold evalBitPure
  have hz : ∀ a : Block, vxor a Block.zero = a := fun a => vxor_zero a
  simp only [hz, ite_self, Pair.get_true_true]
  cases st.bit <;> simp

/-- The states of the two servers at a node of the flat report. -/
theorem flat_walk {k0 k1 : VidpfKey} {beta : List Field128} {ctr : Nat → Field128} {d : Nat}
    (i0 : k0.keyIdx = false) (i1 : k1.keyIdx = true) (hs : k0.rootSeed = k1.rootSeed) (p : List Bool)
    (hp : p.length ≤ d) :
    ∃ st0 w0 st1 w1,
      Spec.evalPath P (Spec.flatKey beta ctr d k0) beta.length p = .ok (st0, w0) ∧
      Spec.evalPath P (Spec.flatKey beta ctr d k1) beta.length p = .ok (st1, w1) ∧
      st0.level = p.length ∧ st1.level = p.length ∧
      st0.seed = st1.seed ∧ st0.proof = st1.proof ∧ st0.bit = decide (p.length % 2 = 1) ∧ st1.bit = !st0.bit ∧
      (p ≠ [] → ∃ v0 v1, w0 = some v0 ∧ w1 = some v1 ∧ v0.length = beta.length + 1 ∧ v1.length = beta.length + 1 ∧
        Spec.addShares v0 v1 = Spec.flatValue beta ctr p) := by
  induction p using List.reverseRecOn with
  | nil =>
    refine ⟨_, _, _, _, rfl, rfl, rfl, rfl, hs, rfl, ?_, ?_, fun h => absurd rfl h⟩
    · simp [VidpfKey.evalInit, Spec.flatKey, i0]
    · simp [VidpfKey.evalInit, Spec.flatKey, i0, i1]
  | append_singleton p b ih =>
    rw [List.length_append, List.length_singleton] at hp
    obtain ⟨st0, w0, st1, w1, e0, e1, l0, l1, hse, hpr, b0, b1, -⟩ := ih (by omega)
    have hcw : ∀ k : VidpfKey, (Spec.flatKey beta ctr d k).corWords[p.length]? = some
      { seed := Block.zero, bits := (true, true)
        word := (beta.map (fun x => x * Spec.half ^ (p.length + 1)) ++ [ctr (p.length + 1)]).map fun x =>
          if p.length % 2 = 0 then x else -x } := by
      intro k
      simp [Spec.flatKey, List.getElem?_range (show p.length < d by omega)]
    have hcs : ∀ k : VidpfKey, (Spec.flatKey beta ctr d k).cs[p.length]? = some Block.zero := by
      intro k
      simp [Spec.flatKey, List.getElem?_replicate, show p.length < d by omega]
    rw [evalPath_snoc, evalPath_snoc, e0, e1, ok_bind, ok_bind]
    dsimp only
    rw [evalBit_eq (by rw [l0]; exact hcw k0) (by rw [l0]; exact hcs k0),
      evalBit_eq (by rw [l1]; exact hcw k1) (by rw [l1]; exact hcs k1), ok_bind, ok_bind]
    have i0' : (Spec.flatKey beta ctr d k0).keyIdx = false := i0
    have i1' : (Spec.flatKey beta ctr d k1).keyIdx = true := i1
    rw [i0', i1', flat_step, flat_step, ← hse, ← hpr, b1]
    refine ⟨_, _, _, _, rfl, rfl, by simp [l0], by simp [l1], rfl, rfl, ?_, by simp, fun _ => ?_⟩
    · simp only [b0, List.length_append, List.length_singleton]
      rcases Nat.mod_two_eq_zero_or_one p.length with h | h
      · simp [h, Nat.add_mod]
      · simp [h, Nat.add_mod]
    · generalize hcv : (convert P (Pair.get (expand P st0.seed).seeds b) beta.length).word = cv
      have hcl : cv.length = beta.length + 1 := by rw [← hcv]; exact convert_word_length _ _ _
      refine ⟨_, _, rfl, rfl, ?_, ?_, ?_⟩
      all_goals
        rw [b0]
        rcases Nat.mod_two_eq_zero_or_one p.length with h | h
        all_goals
          simp only [h, Bool.not_true, Bool.not_false, Bool.false_eq_true, if_true, if_false,
            decide_true, decide_false, zero_ne_one, one_ne_zero, List.map_id']
          try rw [vecAdd_eq_zipWith (by simp [hcl])]
      · simp [hcl]
      · simp [hcl]
      · simp [hcl, vecNeg]
      · simp [hcl, vecNeg]
      · unfold Spec.addShares Spec.flatValue
        apply List.ext_getElem
        · simp [hcl, vecNeg]
        · intro i h1 h2
          simp [vecNeg]
      · unfold Spec.addShares Spec.flatValue
        apply List.ext_getElem
        · simp [hcl, vecNeg]
        · intro i h1 h2
          simp [vecNeg, List.getElem_append]
          split <;> simp

theorem flat_facts {k0 k1 : VidpfKey} {beta : List Field128} {ctr : Nat → Field128} {d : Nat}
    (i0 : k0.keyIdx = false) (i1 : k1.keyIdx = true) (hs : k0.rootSeed = k1.rootSeed) :
    (∀ p : List Bool, p ≠ [] → p.length ≤ d →
      Spec.reconAt P (Spec.flatKey beta ctr d k0) (Spec.flatKey beta ctr d k1) beta.length p
        = some (Spec.flatValue beta ctr p)) ∧
    (ctr 1 = Spec.half → Spec.QuietPair P beta.length d (Spec.flatKey beta ctr d k0) (Spec.flatKey beta ctr d k1)) := by
  have hrec : ∀ p : List Bool, p ≠ [] → p.length ≤ d →
      Spec.reconAt P (Spec.flatKey beta ctr d k0) (Spec.flatKey beta ctr d k1) beta.length p
        = some (Spec.flatValue beta ctr p) := by
    intro p hne hp
    obtain ⟨st0, w0, st1, w1, e0, e1, -, -, -, -, -, -, h⟩ := flat_walk (P := P) (beta := beta) (ctr := ctr) i0 i1 hs p hp
    obtain ⟨v0, v1, rfl, rfl, -, -, hv⟩ := h hne
    unfold Spec.reconAt Spec.valueAt
    rw [e0, e1]
    simp only [Option.bind_eq_bind, Option.bind_some, hv]
  refine ⟨hrec, fun hc => quietPair_of (fun p hne hp => ?_) fun p hp => ?_⟩
  · obtain ⟨st0, w0, st1, w1, e0, e1, -, -, -, hpr, -⟩ := flat_walk (P := P) (beta := beta) (ctr := ctr) i0 i1 hs p hp
    unfold Spec.proofAt
    rw [e0, e1]
    exact congrArg some hpr
  · by_cases hne : p = []
    · subst hne
      rw [prefixCheck_root hrec (by omega), flatValue_getD_last, flatValue_getD_last]
      simp only [List.length_singleton, hc]
      exact half_add_half
    · rw [prefixCheck_inner hrec hne (by omega)]
      intro j hj
      rw [flatValue_getD_lt hj, flatValue_getD_lt hj, flatValue_getD_lt hj]
      simp only [List.length_append, List.length_singleton, pow_succ]
      linear_combination (-(beta.getD j 0 * Spec.half ^ p.length)) * half_add_half

end Mastic
