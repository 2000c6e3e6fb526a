import Verif.Spec.Weights
import Verif.Lemmas.Shift
import Verif.Lemmas.Whh

/-!
# Helper lemmas: offsets in every level, and what the weight checks see of them
-/

namespace Mastic

variable {P : Prims}

@[simp] theorem single_length (m i : Nat) (x : Field128) : (Spec.single m i x).length = m := by
  simp [Spec.single]

theorem single_getD {m i j : Nat} {x : Field128} (hj : j < m) :
    (Spec.single m i x).getD j 0 = if j = i then x else 0 := by
  simp [Spec.single, List.getD_eq_getElem?_getD, hj]

theorem evalPath_shiftWords {key : VidpfKey} {n : Nat} (hcs : key.cs.length = key.corWords.length)
    (hw : ∀ c ∈ key.corWords, c.word.length = n + 1) {ds : Nat → List Field128}
    (hdl : ∀ l, (ds l).length = n + 1) (p : List Bool) :
    ∀ {st w}, Spec.evalPath P key n p = .ok (st, w) →
      Spec.evalPath P (Spec.shiftWords key ds) n p = .ok (st, w.map fun v =>
        Spec.addShares v (shiftOf st.bit key.keyIdx (ds (p.length - 1)))) := by
  induction p using List.reverseRecOn with
  | nil => intro st w h; cases h; rfl
  | append_singleton p b ih =>
    intro st w h
    rw [evalPath_snoc] at h
    obtain ⟨⟨st0, w0⟩, h0, h⟩ := bind_eq_ok.1 h
    obtain ⟨⟨st1, v1⟩, h1, h⟩ := bind_eq_ok.1 h
    cases h
    have e0 := ih h0
    have hlev : st0.level = p.length := evalPath_level h0
    have hlt := evalBit_level_lt h1
    dsimp only at h1 hlt
    obtain ⟨cw, hcw⟩ : ∃ cw, key.corWords[st0.level]? = some cw := ⟨_, List.getElem?_eq_getElem hlt⟩
    obtain ⟨c, hc⟩ : ∃ c, key.cs[st0.level]? = some c :=
      ⟨_, List.getElem?_eq_getElem (by rw [hcs]; exact hlt)⟩
    rw [evalBit_eq hcw hc] at h1
    have hcs' : (Spec.shiftWords key ds).cs[st0.level]? = some c := hc
    have hcw' : (Spec.shiftWords key ds).corWords[st0.level]? = some
        { cw with word := Spec.addShares cw.word (ds st0.level) } := by
      simp only [Spec.shiftWords, List.getElem?_mapIdx, hcw, Option.map_some]
    rw [evalPath_snoc, e0, ok_bind]
    simp only [evalBit_eq hcw' hcs', ok_bind]
    have hl2 : (p ++ [b]).length - 1 = st0.level := by simp [hlev]
    rw [hl2]
    have hdl' := hdl st0.level
    generalize ds st0.level = delta at hdl' ⊢
    have hcl := hw cw (List.mem_of_getElem? hcw)
    have key' : (Spec.shiftWords key ds).keyIdx = key.keyIdx := rfl
    rw [key']
    cases h1
    unfold evalBitPure
    dsimp only [Option.map_some]
    congr 3
    set conv := (convert P (if st0.bit = true then vxor (Pair.get (expand P st0.seed).seeds b) cw.seed
      else Pair.get (expand P st0.seed).seeds b) n).word with hconv
    have hclen : conv.length = n + 1 := convert_word_length _ _ _
    clear_value conv
    generalize (if st0.bit = true then !Pair.get cw.bits b else true) = nb
    generalize key.keyIdx = ki
    unfold shiftOf Spec.addShares
    cases nb with
    | false =>
      simp only [Bool.false_eq_true, if_false]
      have : (if ki = true then vecNeg conv else conv).length = delta.length := by
        split <;> simp [hclen, hdl']
      exact (addShares_zero this).symm
    | true =>
      simp only [if_true]
      cases ki with
      | false =>
        simp only [Bool.false_eq_true, if_false]
        rw [vecAdd_eq_zipWith (by simp [hclen, hcl, hdl']), vecAdd_eq_zipWith (by simp [hclen, hcl])]
        apply List.ext_getElem
        · simp [hclen, hcl, hdl']
        · intro i h1 h2; simp [add_assoc]
      | true =>
        simp only [if_true]
        rw [vecAdd_eq_zipWith (by simp [hclen, hcl, hdl']), vecAdd_eq_zipWith (by simp [hclen, hcl])]
        apply List.ext_getElem
        · simp [hclen, hcl, hdl', vecNeg]
        · intro i h1 h2; simp [vecNeg]; ring

/-! ### The low eight bytes -/

theorem natLE_take_congr (m : Nat) : ∀ (j x y : Nat), j ≤ m → x % 256 ^ j = y % 256 ^ j →
    (natLE m x).take j = (natLE m y).take j := by
  induction m with
  | zero => intro j x y hj _; obtain rfl : j = 0 := by omega
            rfl
  | succ m ih =>
    intro j x y hj h
    cases j with
    | zero => simp
    | succ j =>
      simp only [natLE, List.take_succ_cons]
      have hmod : x % 256 = y % 256 := by
        have := congrArg (· % 256) h
        simpa [pow_succ, Nat.mod_mod_of_dvd] using this
      have hdiv : x / 256 % 256 ^ j = y / 256 % 256 ^ j := by
        rw [pow_succ'] at h
        have hx := Nat.mod_mul (x := x) (a := 256) (b := 256 ^ j)
        have hy := Nat.mod_mul (x := y) (a := 256) (b := 256 ^ j)
        omega
      rw [ih j _ _ (by omega) hdiv]
      congr 1
      apply BitVec.eq_of_toNat_eq
      simpa using hmod

theorem low_bytes_congr {x y : Field128} (h : Spec.low64 x = Spec.low64 y) :
    (encodeField x).take 8 = (encodeField y).take 8 :=
  natLE_take_congr 16 8 _ _ (by omega) (by simpa [Spec.low64] using h)

theorem foldBytes_congr {xs ys : List Field128} (h : xs.map Spec.low64 = ys.map Spec.low64) :
    Spec.foldBytes xs = Spec.foldBytes ys := by
  unfold Spec.foldBytes
  generalize (List.replicate 8 (0 : Byte)) = acc
  induction xs generalizing ys acc with
  | nil => cases ys with
    | nil => rfl
    | cons _ _ => simp at h
  | cons x xs ih => cases ys with
    | nil => simp at h
    | cons y ys =>
      simp only [List.map_cons, List.cons.injEq] at h
      simp only [List.foldl_cons, low_bytes_congr h.1]
      exact ih h.2 _

/-- Keys with equal proofs whose check vectors agree in the low 64 bits are quiet. -/
theorem quietPair_low {n d : Nat} {k0 k1 : VidpfKey}
    (hp : ∀ p, p ≠ [] → p.length ≤ d → Spec.proofAt P k0 n p = Spec.proofAt P k1 n p)
    (hc : ∀ p, p.length + 1 < d →
      (Spec.prefixCheck P n true k0 p).map Spec.low64 = (Spec.prefixCheck P n false k1 p).map Spec.low64) :
    Spec.QuietPair P n d k0 k1 := by
  have hpr : ∀ paths : List (List Bool), (∀ p ∈ paths, p.length + 1 ≤ d) →
      Spec.proofsAt P n k0 paths = Spec.proofsAt P n k1 paths := by
    intro paths hl
    unfold Spec.proofsAt
    congr 1
    refine List.flatMap_congr fun p hp' => ?_
    rw [hp _ (by simp) (by simpa using hl p hp'), hp _ (by simp) (by simpa using hl p hp')]
  refine ⟨fun m paths hm _ hl => ?_, fun paths _ hl => hpr paths fun p hp' => (hl p hp').le⟩
  unfold Spec.digestAt
  rw [hpr paths fun p hp' => by rw [hl p hp']; omega]
  congr 3
  apply foldBytes_congr
  rw [List.map_flatMap, List.map_flatMap]
  exact List.flatMap_congr fun p hp' => hc p (by rw [hl p hp']; omega)

/-! ### Offsets by multiples of 2^64 -/

theorem low64_sub {A : Field128} {k c : Nat} (h : c * (k * 2 ^ 64) ≤ A.val) :
    Spec.low64 (A - (c : Field128) * ((k * 2 ^ 64 : Nat) : Field128)) = Spec.low64 A := by
  have hlt : A.val < fieldModulus := ZMod.val_lt A
  have : A - (c : Field128) * ((k * 2 ^ 64 : Nat) : Field128) = ((A.val - c * (k * 2 ^ 64) : Nat) : Field128) := by
    rw [Nat.cast_sub h, ZMod.natCast_zmod_val]
    push_cast; ring
  unfold Spec.low64
  rw [this, ZMod.val_natCast_of_lt (by omega)]
  obtain ⟨m, hm⟩ : ∃ m, c * (k * 2 ^ 64) = m * 2 ^ 64 := ⟨c * k, by ring⟩
  rw [hm] at h ⊢
  omega

theorem low64_add {A : Field128} {k c : Nat} (h : A.val + c * (k * 2 ^ 64) < fieldModulus) :
    Spec.low64 (A + (c : Field128) * ((k * 2 ^ 64 : Nat) : Field128)) = Spec.low64 A := by
  have : A + (c : Field128) * ((k * 2 ^ 64 : Nat) : Field128) = ((A.val + c * (k * 2 ^ 64) : Nat) : Field128) := by
    rw [Nat.cast_add, ZMod.natCast_zmod_val]
    push_cast; ring
  unfold Spec.low64
  rw [this, ZMod.val_natCast_of_lt h]
  obtain ⟨m, hm⟩ : ∃ m, c * (k * 2 ^ 64) = m * 2 ^ 64 := ⟨c * k, by ring⟩
  rw [hm]
  omega

/-- One of the two signs keeps the low 64 bits for up to two offsets. -/
theorem low64_sign (A : Field128) {k : Nat} (hk : 4 * (k * 2 ^ 64) ≤ fieldModulus) :
    ∃ neg : Bool, ∀ c : Nat, c ≤ 2 →
      Spec.low64 (A - (c : Field128) * (if neg then -((k * 2 ^ 64 : Nat) : Field128)
        else ((k * 2 ^ 64 : Nat) : Field128))) = Spec.low64 A := by
  by_cases h : 2 * (k * 2 ^ 64) ≤ A.val
  · refine ⟨false, fun c hc => ?_⟩
    simp only [Bool.false_eq_true, if_false]
    exact low64_sub (le_trans (Nat.mul_le_mul_right _ hc) h)
  · refine ⟨true, fun c hc => ?_⟩
    simp only [if_true, mul_neg, sub_neg_eq_add]
    refine low64_add ?_
    have := Nat.mul_le_mul_right (k * 2 ^ 64) hc
    omega

/-! ### The drifting report -/

/-- The control bit at a path. -/
def bitAt (P : Prims) (key : VidpfKey) (n : Nat) (p : List Bool) : Bool :=
  match Spec.evalPath P key n p with
  | .ok r => r.1.bit
  | .error _ => false

theorem bitAt_eq {key : VidpfKey} {n : Nat} {p : List Bool} {st w}
    (h : Spec.evalPath P key n p = .ok (st, w)) : bitAt P key n p = st.bit := by
  unfold bitAt; rw [h]

theorem addShares_shift_getD {v delta : List Field128} {m j : Nat} (b ki : Bool) (hv : v.length = m)
    (hd : delta.length = m) :
    (Spec.addShares v (shiftOf b ki delta)).getD j 0
      = v.getD j 0 + (if b then (if ki then - delta.getD j 0 else delta.getD j 0) else 0) := by
  unfold shiftOf Spec.addShares
  by_cases hj : j < m
  · cases b <;> cases ki <;>
      simp [List.getD_eq_getElem?_getD, List.getElem?_zipWith, hv, hd, hj, vecNeg, List.getElem?_replicate]
  · have : ¬ j < v.length := by omega
    have h2 : ¬ j < delta.length := by omega
    cases b <;> cases ki <;>
      simp [List.getD_eq_getElem?_getD, List.getElem?_zipWith, hv, hd, hj, vecNeg, List.getElem?_replicate]

theorem honest_drift (P : Prims) (rs : Block × Block) (alpha : List Bool) (beta : List Field128)
    (i : Nat) (hi : i < beta.length) (k : Nat) (hk : 4 * (k * 2 ^ 64) ≤ fieldModulus) :
    ∃ (ds : Nat → List Field128) (delta : Field128),
      (delta = ((k * 2 ^ 64 : Nat) : Field128) ∨ delta = -((k * 2 ^ 64 : Nat) : Field128)) ∧
      (∀ l, (ds l).length = beta.length + 1) ∧
      (∀ l j, l = 0 ∨ j ≠ i → (ds l).getD j 0 = 0) ∧
      Spec.QuietPair P beta.length alpha.length (Spec.shiftWords (VidpfKey.gen P rs alpha beta).1 ds)
        (Spec.shiftWords (VidpfKey.gen P rs alpha beta).2 ds) ∧
      (∀ p : List Bool, p.length = 1 → 1 ≤ alpha.length → 
        Spec.valueAt P (Spec.shiftWords (VidpfKey.gen P rs alpha beta).1 ds) beta.length p
          = Spec.valueAt P (VidpfKey.gen P rs alpha beta).1 beta.length p ∧
        Spec.valueAt P (Spec.shiftWords (VidpfKey.gen P rs alpha beta).2 ds) beta.length p
          = Spec.valueAt P (VidpfKey.gen P rs alpha beta).2 beta.length p) ∧
      ∀ p : List Bool, p ≠ [] → p.length ≤ alpha.length →
        Spec.reconAt P (Spec.shiftWords (VidpfKey.gen P rs alpha beta).1 ds)
          (Spec.shiftWords (VidpfKey.gen P rs alpha beta).2 ds) beta.length p
          = some (if p <+: alpha ∧ 2 ≤ p.length then
              Spec.addShares (Spec.pointValue alpha beta p) (Spec.single (beta.length + 1) i delta)
            else Spec.pointValue alpha beta p) := by
  have hkp := gen_keyPair P rs alpha beta
  have hrec := honest_recon (P := P) rs alpha beta
  have hpr := honest_proofs (P := P) rs alpha beta
  set k0 := (VidpfKey.gen P rs alpha beta).1 with hk0
  set k1 := (VidpfKey.gen P rs alpha beta).2 with hk1
  set n := beta.length with hn
  have hw0 : ∀ c ∈ k0.corWords, c.word.length = n + 1 := genLoop_word_length P beta alpha _ _ _
  have hw1 : ∀ c ∈ k1.corWords, c.word.length = n + 1 := genLoop_word_length P beta alpha _ _ _
  have hc0 : k0.cs.length = k0.corWords.length := by rw [hkp.cwLen, hkp.csLen]
  have hc1 : k1.cs.length = k1.corWords.length := by rw [hkp.cw, hkp.cs, hkp.cwLen, hkp.csLen]
  -- the two states at any path
  have hst : ∀ p : List Bool, p ≠ [] → p.length ≤ alpha.length → ∃ st0 v0 st1 v1,
      Spec.evalPath P k0 n p = .ok (st0, some v0) ∧
      Spec.evalPath P k1 n p = .ok (st1, some v1) ∧
      v0.length = n + 1 ∧ v1.length = n + 1 ∧
      (p <+: alpha → bitAt P k0 n p = !bitAt P k1 n p) ∧ (¬ p <+: alpha → bitAt P k0 n p = bitAt P k1 n p) := by
    intro p hne hlen
    obtain ⟨⟨st0, w0⟩, ⟨st1, w1⟩, e0, e1, hh, -, hs⟩ := honest_walk hkp p [] _ _ none none
      (gen_honestAt P rs alpha beta Block.zero Block.zero) (by simpa using hlen)
    obtain ⟨v0, v1, f0, f1, g0, g1, -⟩ := hs hne
    dsimp only at f0 f1
    subst f0; subst f1
    refine ⟨st0, v0, st1, v1, e0, e1, g0, g1, fun hp => ?_, fun hp => ?_⟩
    · rw [bitAt_eq e0, bitAt_eq e1]
      obtain ⟨rest, bits, seeds, -, -, -, -, -, b0, b1, hb⟩ := hh.on hp
      rw [b0, b1, hb]
    · rw [bitAt_eq e0, bitAt_eq e1]
      exact (hh.off hp).2
  -- the honest check below the first prefix
  let y (key : VidpfKey) (q : List Bool) (j : Nat) : Field128 := ((Spec.valueAt P key n q).getD []).getD j 0
  let A : Field128 := y k0 (alpha.take 1) i - y k0 (alpha.take 1 ++ [false]) i - y k0 (alpha.take 1 ++ [true]) i
  obtain ⟨neg, hneg⟩ := low64_sign A hk
  set D1 : Field128 := if neg then -((k * 2 ^ 64 : Nat) : Field128) else ((k * 2 ^ 64 : Nat) : Field128) with hD1
  let delta : Field128 := if bitAt P k0 n (alpha.take 2) then D1 else -D1
  let ds : Nat → List Field128 := fun l => Spec.single (n + 1) i
    (if l = 0 then 0 else if bitAt P k0 n (alpha.take (l + 1)) then delta else -delta)
  have hdl : ∀ l, (ds l).length = n + 1 := fun l => single_length _ _ _
  have hds : ∀ l j, (ds l).getD j 0 = if j = i then
      (if l = 0 then 0 else if bitAt P k0 n (alpha.take (l + 1)) then delta else -delta) else 0 := by
    intro l j
    by_cases hj : j < n + 1
    · exact single_getD hj
    · rw [List.getD_eq_default _ _ (by rw [hdl]; omega), if_neg (by omega)]
  -- values after the change
  have hval : ∀ p : List Bool, p ≠ [] → p.length ≤ alpha.length → ∃ v0 v1,
      Spec.valueAt P k0 n p = some v0 ∧ Spec.valueAt P k1 n p = some v1 ∧
      v0.length = n + 1 ∧ v1.length = n + 1 ∧
      Spec.valueAt P (Spec.shiftWords k0 ds) n p
        = some (Spec.addShares v0 (shiftOf (bitAt P k0 n p) false (ds (p.length - 1)))) ∧
      Spec.valueAt P (Spec.shiftWords k1 ds) n p
        = some (Spec.addShares v1 (shiftOf (bitAt P k1 n p) true (ds (p.length - 1)))) := by
    intro p hne hlen
    obtain ⟨st0, v0, st1, v1, e0, e1, g0, g1, -, -⟩ := hst p hne hlen
    refine ⟨v0, v1, by unfold Spec.valueAt; rw [e0], by unfold Spec.valueAt; rw [e1], g0, g1, ?_, ?_⟩
    · unfold Spec.valueAt
      rw [evalPath_shiftWords hc0 hw0 hdl p e0, bitAt_eq e0, hkp.idx0]; rfl
    · unfold Spec.valueAt
      rw [evalPath_shiftWords hc1 hw1 hdl p e1, bitAt_eq e1, hkp.idx1]; rfl
  have hy0 : ∀ p : List Bool, p ≠ [] → p.length ≤ alpha.length → ∀ j,
      y (Spec.shiftWords k0 ds) p j = y k0 p j + if bitAt P k0 n p then (ds (p.length - 1)).getD j 0 else 0 := by
    intro p hne hlen j
    obtain ⟨v0, v1, a0, a1, l0, l1, b0, b1⟩ := hval p hne hlen
    simp only [y, a0, b0, Option.getD_some]
    rw [addShares_shift_getD _ _ l0 (hdl _)]
    simp
  have hy1 : ∀ p : List Bool, p ≠ [] → p.length ≤ alpha.length → ∀ j,
      y (Spec.shiftWords k1 ds) p j = y k1 p j - if bitAt P k1 n p then (ds (p.length - 1)).getD j 0 else 0 := by
    intro p hne hlen j
    obtain ⟨v0, v1, a0, a1, l0, l1, b0, b1⟩ := hval p hne hlen
    simp only [y, a1, b1, Option.getD_some]
    rw [addShares_shift_getD _ _ l1 (hdl _)]
    cases bitAt P k1 n p <;> simp [sub_eq_add_neg]
  have hrec' : ∀ p : List Bool, p ≠ [] → p.length ≤ alpha.length →
        Spec.reconAt P (Spec.shiftWords k0 ds) (Spec.shiftWords k1 ds) n p
          = some (if p <+: alpha ∧ 2 ≤ p.length then
              Spec.addShares (Spec.pointValue alpha beta p) (Spec.single (n + 1) i delta)
            else Spec.pointValue alpha beta p) := by
    intro p hne hlen
    obtain ⟨v0, v1, a0, a1, l0, l1, b0, b1⟩ := hval p hne hlen
    have hr := hrec p hne hlen
    unfold Spec.reconAt at hr ⊢
    rw [a0, a1] at hr
    rw [b0, b1]
    simp only [Option.bind_eq_bind, Option.bind_some, Option.some.injEq] at hr ⊢
    have hs0 : (shiftOf (bitAt P k0 n p) false (ds (p.length - 1))).length = n + 1 := by
      unfold shiftOf; split <;> simp [hdl]
    have hs1 : (shiftOf (bitAt P k1 n p) true (ds (p.length - 1))).length = n + 1 := by
      unfold shiftOf; split <;> simp [hdl, vecNeg]
    have hpl : 1 ≤ p.length := by
      cases p with
      | nil => exact absurd rfl hne
      | cons _ _ => simp
    have e1 : (Spec.addShares v0 (shiftOf (bitAt P k0 n p) false (ds (p.length - 1)))).length = n + 1 := by
      rw [addShares_length l0 hs0]
    have e2 : (Spec.addShares v1 (shiftOf (bitAt P k1 n p) true (ds (p.length - 1)))).length = n + 1 := by
      rw [addShares_length l1 hs1]
    have hpv : (Spec.pointValue alpha beta p).length = n + 1 := pointValue_length _ _ _
    refine list_ext_getD (addShares_length e1 e2) ?_ fun j => ?_
    · split
      · exact addShares_length hpv (single_length _ _ _)
      · exact hpv
    · rw [addShares_getD e1 e2, addShares_shift_getD _ _ l0 (hdl _), addShares_shift_getD _ _ l1 (hdl _)]
      have hsum : v0.getD j 0 + v1.getD j 0 = (Spec.pointValue alpha beta p).getD j 0 := by
        rw [← hr, addShares_getD l0 l1]
      obtain ⟨-, -, -, -, -, -, -, -, hon, hoff⟩ := hst p hne hlen
      have hsing : (Spec.single (n + 1) i delta).getD j 0 = if j = i then delta else 0 := by
        by_cases hj : j < n + 1
        · exact single_getD hj
        · rw [List.getD_eq_default _ _ (by rw [single_length]; omega), if_neg (by omega)]
      by_cases hp : p <+: alpha
      · have hb := hon hp
        have htake : alpha.take (p.length - 1 + 1) = p := by
          rw [Nat.sub_add_cancel hpl]; exact (List.prefix_iff_eq_take.1 hp).symm
        by_cases h2 : 2 ≤ p.length
        · rw [if_pos (show p <+: alpha ∧ 2 ≤ p.length from ⟨hp, h2⟩), addShares_getD hpv (single_length _ _ _), ← hsum, hsing, hds, htake,
            if_neg (by omega : ¬ p.length - 1 = 0)]
          by_cases hj : j = i
          · rw [if_pos hj, if_pos hj]
            cases hb1 : bitAt P k1 n p <;> rw [hb1] at hb <;> simp [hb] <;> ring
          · simp [hj]
        · rw [if_neg (show ¬ (p <+: alpha ∧ 2 ≤ p.length) by tauto), ← hsum, hds, if_pos (by omega : p.length - 1 = 0)]
          simp
      · rw [if_neg (show ¬ (p <+: alpha ∧ 2 ≤ p.length) by tauto), ← hsum, hoff hp]
        cases bitAt P k1 n p <;> simp <;> ring
  refine ⟨ds, delta, ?_, hdl, ?_, ?_, ?_, hrec'⟩
  · simp only [delta, hD1]
    cases bitAt P k0 n (alpha.take 2) <;> cases neg <;> simp
  · intro l j h
    rw [hds]
    rcases h with h | h <;> simp [h]
  · refine quietPair_low (fun p hne hl => ?_) fun p hl => ?_
    · obtain ⟨st0, v0, st1, v1, e0, e1, -⟩ := hst p hne hl
      have := hpr p hl
      unfold Spec.proofAt at this ⊢
      rw [evalPath_shiftWords hc0 hw0 hdl p e0, evalPath_shiftWords hc1 hw1 hdl p e1]
      rw [e0, e1] at this
      exact this
    · by_cases hne : p = []
      · subst hne
        congr 1
        rw [prefixCheck_root hrec' (by omega)]
        rw [if_neg (by simp), if_neg (by simp)]
        rw [← List.nil_append [false], ← List.nil_append [true],
          ← pointValue_split alpha beta [] (by simpa using (by omega : 0 < alpha.length))]
        simp [Spec.pointValue, hn]
      · by_cases htop : p = alpha.take 1
        · have hp1 : p.length = 1 := by
            rw [htop, List.length_take]; omega
          have hA : ∀ j < n, y k0 p j - y k0 (p ++ [false]) j - y k0 (p ++ [true]) j
              = y k1 (p ++ [false]) j + y k1 (p ++ [true]) j - y k1 p j := by
            have h1 := (prefixCheck_inner hrec hne (by omega)).2
              fun j _ => pointValue_split alpha beta p (by omega) j
            simp only [Spec.prefixCheck, if_neg hne, if_true, Bool.false_eq_true, if_false] at h1
            rw [List.map_inj_left] at h1
            intro j hj
            exact h1 j (by simpa using hj)
          simp only [Spec.prefixCheck, if_neg hne, if_true, Bool.false_eq_true, if_false, List.map_map]
          rw [List.map_inj_left]
          intro j hj
          simp only [Function.comp]
          show Spec.low64 (y (Spec.shiftWords k0 ds) p j - y (Spec.shiftWords k0 ds) (p ++ [false]) j
              - y (Spec.shiftWords k0 ds) (p ++ [true]) j)
            = Spec.low64 (y (Spec.shiftWords k1 ds) (p ++ [false]) j
              + y (Spec.shiftWords k1 ds) (p ++ [true]) j - y (Spec.shiftWords k1 ds) p j)
          have hb2 : ∀ b : Bool, (p ++ [b]).length ≤ alpha.length := fun b => by simp; omega
          have hne2 : ∀ b : Bool, p ++ [b] ≠ [] := fun b => by simp
          rw [hy0 p hne (by omega), hy0 _ (hne2 _) (hb2 _), hy0 _ (hne2 _) (hb2 _),
            hy1 p hne (by omega), hy1 _ (hne2 _) (hb2 _), hy1 _ (hne2 _) (hb2 _)]
          have hA' := hA j (by simpa using hj)
          have d1 : (ds (p.length - 1)).getD j 0 = 0 := by rw [hds]; simp [hp1]
          have d2 : ∀ b : Bool, (ds ((p ++ [b]).length - 1)).getD j 0 = if j = i then D1 else 0 := by
            intro b
            rw [hds, show (p ++ [b]).length - 1 = 1 by simp [hp1]]
            by_cases hj : j = i
            · simp only [if_pos hj, if_neg (by omega : ¬ 1 = 0), delta]
              cases bitAt P k0 n (alpha.take (1 + 1)) <;> simp
            · simp [hj]
          rw [d1, d2, d2]
          by_cases hj : j = i
          · subst hj
            have hAA : A = y k0 p j - y k0 (p ++ [false]) j - y k0 (p ++ [true]) j := by
              simp only [A, htop]
            have key0 : ∀ b b' : Bool, Spec.low64 (A - (((b.toNat + b'.toNat : Nat)) : Field128) * D1)
                = Spec.low64 A := fun b b' => hneg _ (by cases b <;> cases b' <;> decide)
            have l1 := key0 (bitAt P k0 n (p ++ [false])) (bitAt P k0 n (p ++ [true]))
            have l2 := key0 (bitAt P k1 n (p ++ [false])) (bitAt P k1 n (p ++ [true]))
            rw [if_pos rfl]
            have c1 : ∀ b : Bool, (if b = true then D1 else 0) = (b.toNat : Field128) * D1 := by
              intro b; cases b <;> simp
            rw [c1, c1, c1, c1]
            rw [show y k0 p j + (if bitAt P k0 n p = true then (0 : Field128) else 0)
              - (y k0 (p ++ [false]) j + ((bitAt P k0 n (p ++ [false])).toNat : Field128) * D1)
              - (y k0 (p ++ [true]) j + ((bitAt P k0 n (p ++ [true])).toNat : Field128) * D1)
              = A - (((bitAt P k0 n (p ++ [false])).toNat + (bitAt P k0 n (p ++ [true])).toNat : Nat) : Field128)
                * D1 by rw [hAA]; push_cast; simp; ring, l1]
            rw [show y k1 (p ++ [false]) j - ((bitAt P k1 n (p ++ [false])).toNat : Field128) * D1
              + (y k1 (p ++ [true]) j - ((bitAt P k1 n (p ++ [true])).toNat : Field128) * D1)
              - (y k1 p j - (if bitAt P k1 n p = true then (0 : Field128) else 0))
              = A - (((bitAt P k1 n (p ++ [false])).toNat + (bitAt P k1 n (p ++ [true])).toNat : Nat) : Field128)
                * D1 by rw [hAA, hA']; push_cast; simp; ring, l2]
          · simp only [if_neg hj, ite_self, add_zero, sub_zero]
            rw [hA']
        · congr 1
          rw [prefixCheck_inner hrec' hne (by omega)]
          intro j hj
          have hsplit := pointValue_split alpha beta p (by omega) j
          have hpl : 1 ≤ p.length := by
            cases p with
            | nil => exact absurd rfl hne
            | cons _ _ => simp
          by_cases hp : p <+: alpha
          · have h2 : 2 ≤ p.length := by
              rcases Nat.lt_or_ge 1 p.length with h | h
              · exact h
              · exact absurd (by
                  have := List.prefix_iff_eq_take.1 hp
                  rwa [show p.length = 1 by omega] at this) htop
            obtain ⟨b, hb⟩ : ∃ b, p ++ [b] <+: alpha := by
              obtain ⟨t, ht⟩ := hp
              cases t with
              | nil => rw [List.append_nil] at ht; rw [ht] at hl; omega
              | cons b t => exact ⟨b, t, by rw [← ht]; simp⟩
            have hnb : ¬ p ++ [!b] <+: alpha := by
              intro h
              have h3 := List.prefix_iff_eq_take.1 h
              have h4 := List.prefix_iff_eq_take.1 hb
              simp only [List.length_append, List.length_singleton] at h3 h4
              rw [← h3] at h4
              simp at h4
            have hlen2 : ∀ c : Bool, 2 ≤ (p ++ [c]).length := fun c => by simp; omega
            have hpv : ∀ q, (Spec.pointValue alpha beta q).length = n + 1 := fun q => pointValue_length _ _ _
            cases b with
            | false =>
              simp only [Bool.not_false] at hnb
              rw [if_pos ⟨hp, h2⟩, if_pos ⟨hb, hlen2 _⟩, if_neg (by tauto),
                addShares_getD (hpv _) (single_length _ _ _), addShares_getD (hpv _) (single_length _ _ _),
                hsplit]
              ring
            | true =>
              simp only [Bool.not_true] at hnb
              rw [if_pos ⟨hp, h2⟩, if_neg (show ¬ (p ++ [false] <+: alpha ∧ 2 ≤ (p ++ [false]).length) by tauto),
                if_pos ⟨hb, hlen2 _⟩,
                addShares_getD (hpv _) (single_length _ _ _), addShares_getD (hpv _) (single_length _ _ _),
                hsplit]
              ring
          · have hc : ∀ b : Bool, ¬ p ++ [b] <+: alpha := fun b h => hp ((List.prefix_append p [b]).trans h)
            rw [if_neg (by tauto), if_neg (by have := hc false; tauto), if_neg (by have := hc true; tauto)]
            exact hsplit
  · intro p hp1 ha
    have hne : p ≠ [] := by intro h; rw [h] at hp1; cases hp1
    obtain ⟨v0, v1, a0, a1, l0, l1, b0, b1⟩ := hval p hne (by omega)
    have hz : ds (p.length - 1) = List.replicate (n + 1) 0 := by
      refine list_ext_getD (hdl _) (by simp) fun j => ?_
      rw [hds]; simp [hp1, List.getD_eq_getElem?_getD, List.getElem?_replicate]
      split <;> rfl
    have hsz : ∀ b ki : Bool, shiftOf b ki (List.replicate (n + 1) (0 : Field128)) = List.replicate (n + 1) 0 := by
      intro b ki
      unfold shiftOf
      cases b <;> cases ki <;> simp [vecNeg]
    rw [b0, b1, a0, a1, hz, hsz, hsz, addShares_zero l0, addShares_zero l1]
    exact ⟨rfl, rfl⟩

end Mastic
