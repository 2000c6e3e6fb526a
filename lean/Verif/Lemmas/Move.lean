import Verif.Spec.Move
import Verif.Lemmas.Weights
import Verif.Lemmas.AbmRun

/-!
# Helper lemmas: moving weight between two sibling strings
-/

namespace Mastic

variable {P : Prims}

theorem movedAt_length {alpha l e p} {m : Nat} (he : e.length = m) : (Spec.movedAt alpha l e p).length = m := by
  unfold Spec.movedAt; split
  · exact he
  · split <;> simp [he]

theorem movedAt_getD (alpha l e p) (j : Nat) : (Spec.movedAt alpha l e p).getD j 0
    = if p <+: alpha ∧ l < p.length then e.getD j 0 else if Spec.LeavesAt alpha l p then - e.getD j 0 else 0 := by
  unfold Spec.movedAt
  split
  · rfl
  · split
    · simp only [List.getD_eq_getElem?_getD, List.getElem?_map]
      cases e[j]? <;> simp
    · simp only [List.getD_eq_getElem?_getD, List.getElem?_map]
      cases e[j]? <;> simp

/-- The states of the two keys of an honest report: control bits differ on the path, agree off it, and are set where
a string leaves it. -/
theorem honest_states (rs : Block × Block) (alpha : List Bool) (beta : List Field128) (p : List Bool)
    (hne : p ≠ []) (hlen : p.length ≤ alpha.length) : ∃ st0 v0 st1 v1,
      Spec.evalPath P (VidpfKey.gen P rs alpha beta).1 beta.length p = .ok (st0, some v0) ∧
      Spec.evalPath P (VidpfKey.gen P rs alpha beta).2 beta.length p = .ok (st1, some v1) ∧
      v0.length = beta.length + 1 ∧ v1.length = beta.length + 1 ∧
      (p <+: alpha → st0.bit = !st1.bit) ∧ (¬ p <+: alpha → st0.bit = st1.bit) ∧
      (∀ l, Spec.LeavesAt alpha l p → st0.bit = true) := by
  have hkp := gen_keyPair P rs alpha beta
  have hwalk : ∀ q : List Bool, q.length ≤ alpha.length → ∃ st0 w0 st1 w1,
      Spec.evalPath P (VidpfKey.gen P rs alpha beta).1 beta.length q = .ok (st0, w0) ∧
      Spec.evalPath P (VidpfKey.gen P rs alpha beta).2 beta.length q = .ok (st1, w1) ∧
      (q <+: alpha → st0.bit = !st1.bit) ∧ (¬ q <+: alpha → st0.bit = st1.bit) ∧
      (q ≠ [] → ∃ v0 v1, w0 = some v0 ∧ w1 = some v1 ∧ v0.length = beta.length + 1 ∧ v1.length = beta.length + 1) := by
    intro q hq
    obtain ⟨⟨st0, w0⟩, ⟨st1, w1⟩, e0, e1, hh, -, hs⟩ := honest_walk hkp q [] _ _ none none
      (gen_honestAt P rs alpha beta Block.zero Block.zero) (by simpa using hq)
    refine ⟨st0, w0, st1, w1, e0, e1, fun hp => ?_, fun hp => (hh.off hp).2, fun hne => ?_⟩
    · obtain ⟨rest, bits, seeds, -, -, -, -, -, b0, b1, hb⟩ := hh.on hp
      rw [b0, b1, hb]
    · obtain ⟨v0, v1, f0, f1, g0, g1, -⟩ := hs hne
      exact ⟨v0, v1, f0, f1, g0, g1⟩
  obtain ⟨st0, w0, st1, w1, e0, e1, hon, hoff, hw⟩ := hwalk p hlen
  obtain ⟨v0, v1, rfl, rfl, l0, l1⟩ := hw hne
  refine ⟨st0, v0, st1, v1, e0, e1, l0, l1, hon, hoff, ?_⟩
  rintro l ⟨hl, hpre, hnot⟩
  have hlast := List.dropLast_append_getLast hne
  obtain ⟨q, b, rfl⟩ : ∃ q b, p = q ++ [b] := ⟨_, _, hlast.symm⟩
  have hql : q.length = l := by simpa using hl
  have hq : q <+: alpha := by
    rw [← hql, List.take_left'] at hpre
    · exact hpre
    · rfl
  obtain ⟨s0, u0, s1, u1, f0, f1, hon', -, -⟩ := hwalk q (by simp at hlen; omega)
  have hbits := hon' hq
  have heq := hoff hnot
  have step : ∀ (k : VidpfKey) (s : EvalState) (u) (st : EvalState) (v), k.cs.length = k.corWords.length →
      Spec.evalPath P k beta.length q = .ok (s, u) → Spec.evalPath P k beta.length (q ++ [b]) = .ok (st, v) →
      s.bit = false → st.bit = true := by
    intro k s u st v hcs hs h hb
    rw [evalPath_snoc, hs, ok_bind] at h
    obtain ⟨⟨st', v'⟩, h1, h⟩ := bind_eq_ok.1 h
    cases h
    have hlt := evalBit_level_lt h1
    dsimp only at h1 hlt
    obtain ⟨cw, hcw⟩ : ∃ cw, k.corWords[s.level]? = some cw := ⟨_, List.getElem?_eq_getElem hlt⟩
    obtain ⟨c, hc⟩ : ∃ c, k.cs[s.level]? = some c := ⟨_, List.getElem?_eq_getElem (by rw [hcs]; exact hlt)⟩
    rw [evalBit_eq hcw hc] at h1
    cases h1
    simp [evalBitPure, hb]
  cases hb : s0.bit with
  | false => exact step _ _ _ _ _ (by rw [hkp.cwLen, hkp.csLen]) f0 e0 hb
  | true =>
    rw [heq]
    refine step _ _ _ _ _ (by rw [hkp.cw, hkp.cs, hkp.cwLen, hkp.csLen]) f1 e1 ?_
    rw [hb] at hbits
    simpa using hbits.symm

theorem honest_move (P : Prims) (rs : Block × Block) (alpha : List Bool) (beta : List Field128) (l : Nat)
    (e : List Field128) (he : e.length = beta.length + 1) :
    ∃ ds0 ds1 : Nat → List Field128,
      (∀ k, (ds0 k).length = beta.length + 1) ∧ (∀ k, (ds1 k).length = beta.length + 1) ∧
      (∀ k, k ≠ l → ds0 k = ds1 k) ∧
      (∀ k, k < l → ds0 k = List.replicate (beta.length + 1) 0) ∧
      (∀ p : List Bool, p ≠ [] → p.length ≤ alpha.length →
        Spec.proofAt P (Spec.shiftWords (VidpfKey.gen P rs alpha beta).1 ds0) beta.length p
          = Spec.proofAt P (Spec.shiftWords (VidpfKey.gen P rs alpha beta).2 ds1) beta.length p) ∧
      ∀ p : List Bool, p ≠ [] → p.length ≤ alpha.length → (p.length = l + 1 → p.take l <+: alpha) →
        Spec.reconAt P (Spec.shiftWords (VidpfKey.gen P rs alpha beta).1 ds0)
          (Spec.shiftWords (VidpfKey.gen P rs alpha beta).2 ds1) beta.length p
          = some (Spec.addShares (Spec.pointValue alpha beta p) (Spec.movedAt alpha l e p)) := by
  have hkp := gen_keyPair P rs alpha beta
  have hrec := honest_recon (P := P) rs alpha beta
  have hpr := honest_proofs (P := P) rs alpha beta
  have hst := honest_states (P := P) rs alpha beta
  set k0 := (VidpfKey.gen P rs alpha beta).1 with hk0
  set k1 := (VidpfKey.gen P rs alpha beta).2 with hk1
  set n := beta.length with hn
  have hw0 : ∀ c ∈ k0.corWords, c.word.length = n + 1 := genLoop_word_length P beta alpha _ _ _
  have hw1 : ∀ c ∈ k1.corWords, c.word.length = n + 1 := genLoop_word_length P beta alpha _ _ _
  have hc0 : k0.cs.length = k0.corWords.length := by rw [hkp.cwLen, hkp.csLen]
  have hc1 : k1.cs.length = k1.corWords.length := by rw [hkp.cw, hkp.cs, hkp.cwLen, hkp.csLen]
  let c0 : Nat → Field128 := fun k => if k < l then 0 else if k = l then
      (if bitAt P k0 n (alpha.take (k + 1)) then 1 else -2)
    else if bitAt P k0 n (alpha.take (k + 1)) then 1 else -1
  let c1 : Nat → Field128 := fun k => if k < l then 0 else if k = l then
      (if bitAt P k0 n (alpha.take (k + 1)) then 2 else -1)
    else if bitAt P k0 n (alpha.take (k + 1)) then 1 else -1
  let ds0 : Nat → List Field128 := fun k => e.map fun x => c0 k * x
  let ds1 : Nat → List Field128 := fun k => e.map fun x => c1 k * x
  have hmap : ∀ (f : Field128 → Field128) (j : Nat), f 0 = 0 → (e.map f).getD j 0 = f (e.getD j 0) := by
    intro f j hf
    simp only [List.getD_eq_getElem?_getD, List.getElem?_map]
    cases e[j]? <;> simp [hf]
  have hdl0 : ∀ k, (ds0 k).length = n + 1 := fun k => by simp [ds0, he]
  have hdl1 : ∀ k, (ds1 k).length = n + 1 := fun k => by simp [ds1, he]
  have hg0 : ∀ k j, (ds0 k).getD j 0 = c0 k * e.getD j 0 := fun k j => hmap _ j (mul_zero _)
  have hg1 : ∀ k j, (ds1 k).getD j 0 = c1 k * e.getD j 0 := fun k j => hmap _ j (mul_zero _)
  have hsl0 : ∀ b k, (shiftOf b false (ds0 k)).length = n + 1 := by
    intro b k; unfold shiftOf; split <;> simp [hdl0]
  have hsl1 : ∀ b k, (shiftOf b true (ds1 k)).length = n + 1 := by
    intro b k; unfold shiftOf; split <;> simp [hdl1, vecNeg]
  refine ⟨ds0, ds1, hdl0, hdl1, fun k hk => by simp [ds0, ds1, c0, c1, hk], fun k hk => ?_, ?_, ?_⟩
  · simp only [ds0, c0, if_pos hk, zero_mul]
    rw [List.map_const', he]
  · intro p hne hl
    obtain ⟨st0, v0, st1, v1, e0, e1, -⟩ := hst p hne hl
    have := hpr p hl
    unfold Spec.proofAt at this ⊢
    rw [evalPath_shiftWords hc0 hw0 hdl0 p e0, evalPath_shiftWords hc1 hw1 hdl1 p e1]
    rw [e0, e1] at this
    exact this
  · intro p hne hlen hthru
    obtain ⟨st0, v0, st1, v1, e0, e1, l0, l1, hon, hoff, hleave⟩ := hst p hne hlen
    have hr := hrec p hne hlen
    unfold Spec.reconAt Spec.valueAt at hr ⊢
    rw [e0, e1] at hr
    rw [evalPath_shiftWords hc0 hw0 hdl0 p e0, evalPath_shiftWords hc1 hw1 hdl1 p e1, hkp.idx0, hkp.idx1]
    simp only [Option.map_some, Option.bind_eq_bind, Option.bind_some, Option.some.injEq] at hr ⊢
    have hpl : 1 ≤ p.length := List.length_pos_of_ne_nil hne
    have q0 := addShares_length l0 (hsl0 st0.bit (p.length - 1))
    have q1 := addShares_length l1 (hsl1 st1.bit (p.length - 1))
    have hpv : (Spec.pointValue alpha beta p).length = n + 1 := pointValue_length _ _ _
    refine list_ext_getD (addShares_length q0 q1) (addShares_length hpv (movedAt_length he)) fun j => ?_
    rw [addShares_getD q0 q1, addShares_shift_getD _ _ l0 (hdl0 _), addShares_shift_getD _ _ l1 (hdl1 _),
      addShares_getD hpv (movedAt_length he), movedAt_getD, hg0, hg1]
    have hsum : v0.getD j 0 + v1.getD j 0 = (Spec.pointValue alpha beta p).getD j 0 := by
      rw [← hr, addShares_getD l0 l1]
    rw [← hsum]
    by_cases hp : p <+: alpha
    · have hb := hon hp
      have htake : alpha.take (p.length - 1 + 1) = p := by
        rw [Nat.sub_add_cancel hpl]; exact (List.prefix_iff_eq_take.1 hp).symm
      have hnl : ¬ Spec.LeavesAt alpha l p := fun h => h.2.2 hp
      simp only [hp, true_and, if_neg hnl, c0, c1, htake, bitAt_eq e0]
      by_cases h1 : p.length - 1 < l
      · have h2 : ¬ l < p.length := by omega
        simp only [if_pos h1, if_neg h2]
        cases st0.bit <;> cases st1.bit <;> simp
      · have h2 : l < p.length := by omega
        simp only [if_neg h1, if_pos h2]
        by_cases h3 : p.length - 1 = l
        · simp only [if_pos h3]
          cases hb1 : st1.bit <;> rw [hb1] at hb <;> simp [hb] <;> ring
        · simp only [if_neg h3]
          cases hb1 : st1.bit <;> rw [hb1] at hb <;> simp [hb] <;> ring
    · have hb := hoff hp
      simp only [hp, false_and, if_false, ← hb, c0, c1]
      by_cases h1 : p.length - 1 < l
      · have h2 : ¬ Spec.LeavesAt alpha l p := by rintro ⟨h, -⟩; omega
        simp only [if_pos h1, if_neg h2]
        cases st0.bit <;> simp
      · simp only [if_neg h1]
        by_cases h3 : p.length - 1 = l
        · simp only [if_pos h3]
          by_cases h4 : Spec.LeavesAt alpha l p
          · rw [if_pos h4, hleave l h4]
            cases bitAt P k0 n (alpha.take (p.length - 1 + 1)) <;> simp <;> ring
          · exact absurd ⟨by omega, hthru (by omega), hp⟩ h4
        · have h2 : ¬ Spec.LeavesAt alpha l p := by rintro ⟨h, -⟩; omega
          simp only [if_neg h3, if_neg h2]
          cases st0.bit <;> cases bitAt P k0 n (alpha.take (p.length - 1 + 1)) <;> simp <;> ring

/-- `eval_tree` on two keys whose values add up to an additive function: the transcripts agree, the values add up to
the function, and the weight shares to `beta`. -/
theorem recon_evalTree {k0 k1 : VidpfKey} {d : Nat} {beta : List Field128} {paths : List (List Bool)}
    {f : List Bool → List Field128} (S : List Bool → Prop) (i0 : k0.keyIdx = false) (i1 : k1.keyIdx = true)
    (w0 : k0.corWords.length = d) (c0 : k0.cs.length = d) (w1 : k1.corWords.length = d) (c1 : k1.cs.length = d)
    (hd : 1 ≤ d) (hp : ∀ p ∈ paths, p ≠ [] ∧ p.length ≤ d)
    (hrec : ∀ q, S q → Spec.reconAt P k0 k1 beta.length q = some (f q))
    (hS1 : ∀ b, S [b]) (hS2 : ∀ p ∈ paths, S p)
    (hS3 : ∀ p ∈ paths, ∀ q, q ≠ [] → q <+: p → q ≠ p → S q ∧ S (q ++ [false]) ∧ S (q ++ [true]) ∧
      f q = Spec.addShares (f (q ++ [false])) (f (q ++ [true])))
    (hroot : Spec.addShares (f [false]) (f [true]) = beta ++ [1])
    (hproof : ∀ p ∈ paths, Spec.proofAt P k0 beta.length p = Spec.proofAt P k1 beta.length p) :
    ∃ v0 b0 v1 b1 bytes,
      k0.evalTree P paths beta.length = .ok (v0, b0, bytes) ∧
      k1.evalTree P paths beta.length = .ok (v1, b1, bytes) ∧
      List.zipWith Spec.addShares v0 v1 = paths.map f ∧ Spec.addShares b0 b1 = beta := by
  set n := beta.length with hn
  obtain ⟨⟨v0, b0, t0⟩, e0⟩ := evalTree_returns (P := P) (c0.trans w0.symm) (by rw [w0]; exact hd) n paths
    (by rw [w0]; exact hp)
  obtain ⟨⟨v1, b1, t1⟩, e1⟩ := evalTree_returns (P := P) (c1.trans w1.symm) (by rw [w1]; exact hd) n paths
    (by rw [w1]; exact hp)
  obtain ⟨f0, p0, x0, y0, c0, vx0, vy0, lx0, ly0, hc0, hb0, ht0⟩ := evalTree_spec e0
  obtain ⟨f1, p1, x1, y1, c1, vx1, vy1, lx1, ly1, hc1, hb1, ht1⟩ := evalTree_spec e1
  have hval : ∀ p, S p → ∀ a b, Spec.valueAt P k0 n p = some a → Spec.valueAt P k1 n p = some b →
      Spec.addShares a b = f p := by
    intro p h1 a b h3 h4
    have := hrec p h1
    unfold Spec.reconAt at this
    rw [h3, h4] at this
    simpa using this
  have hx := hval _ (hS1 false) _ _ vx0 vx1
  have hy := hval _ (hS1 true) _ _ vy0 vy1
  have la0 := addShares_length lx0 ly0
  have la1 := addShares_length lx1 ly1
  have hroot' : Spec.addShares (Spec.addShares x0 y0) (Spec.addShares x1 y1) = beta ++ [1] := by
    rw [← hroot, ← hx, ← hy]
    refine list_ext_getD (addShares_length la0 la1)
      (addShares_length (addShares_length lx0 lx1) (addShares_length ly0 ly1)) fun i => ?_
    rw [addShares_getD la0 la1, addShares_getD (addShares_length lx0 lx1) (addShares_length ly0 ly1),
      addShares_getD lx0 ly0, addShares_getD lx1 ly1, addShares_getD lx0 lx1, addShares_getD ly0 ly1]
    ring
  have hcount : c0 + c1 = 1 := by
    have : (Spec.addShares (Spec.addShares x0 y0) (Spec.addShares x1 y1))[n]? = some (c0 + c1) := by
      exact addShares_getElem? hc0 hc1
    rw [hroot', hn, List.getElem?_concat_length] at this
    injection this with this
    exact this.symm
  have hD : ∀ (k : VidpfKey) (q : List Bool) (c : List Field128),
      Spec.pathCheck P k n q = some c → chkD P k n q = c := by
    intro k q c h; rw [chkD, h]; rfl
  have hlay : Spec.layout (chkD P k0 n) (prfD P k0 n) [] paths
      = Spec.layout (chkD P k1 n) (prfD P k1 n) [] paths := by
    apply layout_congr
    intro p hpm
    constructor
    · unfold prfD
      rw [hproof p hpm]
    · intro q hq hq0
      obtain ⟨hqp, hqne⟩ := mem_strictPrefixes.1 hq
      obtain ⟨c, hc, -⟩ := (p0 p hpm).2.2 q hq hq0
      obtain ⟨c', hc', -⟩ := (p1 p hpm).2.2 q hq hq0
      rw [hD _ _ _ hc, hD _ _ _ hc']
      obtain ⟨v, vl, vr, hv, hvl, hvr⟩ := pathCheck_values hc
      obtain ⟨v', vl', vr', hv', hvl', hvr'⟩ := pathCheck_values hc'
      have l1 := valueAt_length hq0 hv
      have l2 := valueAt_length (by simp) hvl
      have l3 := valueAt_length (by simp) hvr
      have l4 := valueAt_length hq0 hv'
      have l5 := valueAt_length (by simp) hvl'
      have l6 := valueAt_length (by simp) hvr'
      rw [pathCheck_eq hv hvl hvr l1 l2 l3, i0, if_neg (by decide)] at hc
      rw [pathCheck_eq hv' hvl' hvr' l4 l5 l6, i1, if_pos rfl] at hc'
      cases hc
      cases hc'
      obtain ⟨s1, s2, s3, s4⟩ := hS3 p hpm q hq0 hqp hqne
      refine (checks_eq_iff l1 l2 l3 l4 l5 l6).2 ?_
      rw [hval q s1 _ _ hv hv', hval _ s2 _ _ hvl hvl', hval _ s3 _ _ hvr hvr']
      exact s4
  have ht : t0 = t1 := by
    rw [ht0, ht1, i0, i1, if_neg (by decide), if_pos rfl, hlay]
    congr 2
    linear_combination hcount
  refine ⟨v0, b0, v1, b1, t0, e0, by rw [ht]; exact e1, ?_, ?_⟩
  · apply List.ext_getElem
    · simp [← f0.length_eq, ← f1.length_eq]
    · intro i h1 h2
      have hi : i < paths.length := by simpa using h2
      have g0 := (List.forall₂_iff_get.1 f0).2 i hi (f0.length_eq ▸ hi)
      have g1 := (List.forall₂_iff_get.1 f1).2 i hi (f1.length_eq ▸ hi)
      simp only [List.get_eq_getElem] at g0 g1
      simp only [List.getElem_zipWith, List.getElem_map]
      exact hval _ (hS2 _ (List.getElem_mem hi)) _ _ g0.1 g1.1
  · rw [hb0, hb1]
    have : Spec.addShares ((Spec.addShares x0 y0).take n) ((Spec.addShares x1 y1).take n)
        = (Spec.addShares (Spec.addShares x0 y0) (Spec.addShares x1 y1)).take n := by
      exact (take_addShares _ _ _).symm
    rw [this, hroot', hn, List.take_left' rfl]

/-- Moving weight keeps the values additive away from the string that leaves the path. -/
theorem movedAt_split {alpha q : List Bool} {l : Nat} (e : List Field128) (hq : q.length < alpha.length)
    (h1 : q.length = l → q <+: alpha) (h2 : ¬ Spec.LeavesAt alpha l q) (j : Nat) :
    (Spec.movedAt alpha l e q).getD j 0
      = (Spec.movedAt alpha l e (q ++ [false])).getD j 0 + (Spec.movedAt alpha l e (q ++ [true])).getD j 0 := by
  rw [movedAt_getD, movedAt_getD, movedAt_getD, if_neg h2]
  have hL : ∀ b, Spec.LeavesAt alpha l (q ++ [b]) ↔ q.length = l ∧ ¬ q ++ [b] <+: alpha := by
    intro b
    unfold Spec.LeavesAt
    constructor
    · rintro ⟨g1, -, g3⟩; exact ⟨by simpa using g1, g3⟩
    · rintro ⟨g1, g2⟩
      refine ⟨by simpa using g1, ?_, g2⟩
      rw [← g1, List.take_left' rfl]; exact h1 g1
  by_cases hpre : q <+: alpha
  · obtain ⟨b, hb⟩ : ∃ b, ∀ x, q ++ [x] <+: alpha ↔ x = b := by
      obtain ⟨rest, rfl⟩ := hpre
      cases rest with
      | nil => simp at hq
      | cons b rest => exact ⟨b, fun x => by rw [List.prefix_append_right_inj]; simp [List.cons_prefix_cons]⟩
    have hlen : ∀ b, (q ++ [b]).length = q.length + 1 := fun b => by simp
    simp only [hL, hlen, hb, hpre, true_and]
    by_cases hlt : l < q.length
    · cases b <;> simp [hlt, show l < q.length + 1 by omega, show q.length ≠ l by omega]
    · by_cases he : q.length = l
      · cases b <;> simp [he]
      · cases b <;> simp [hlt, show ¬ l < q.length + 1 by omega, he]
  · have hx : ∀ x, ¬ q ++ [x] <+: alpha := fun x hx => hpre (prefix_snoc_left hx)
    have hne : q.length ≠ l := fun h => hpre (h1 h)
    simp [hL, hpre, hx, hne]

end Mastic
